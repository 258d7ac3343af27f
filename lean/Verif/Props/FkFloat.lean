import Verif.Model.FkFloat
import Verif.Props.Solve
import Verif.Props.Aliasing
import Mathlib.Analysis.Complex.Exponential
import Mathlib.Data.Set.Finite.Lattice

/-! # C136: the poses of a planned path as quaternions

The iterative planner turns the pose of every configuration of the path it found into a quaternion
(planning.py:206-208).  The configurations are float32 and so are their cosines and sines, which
pyquaternion's test for a rotation matrix notices. -/

set_option linter.unusedSectionVars false

namespace Verif.Props

open Matrix Verif Verif.Path Verif.Geometry Verif.Kin Verif.ShortestPath Verif.Task Verif.CppGraph
  Verif.Search Verif.Planning Verif.Spec Verif.Util

noncomputable section

variable {S : Type}

/-! ### fk with given cosines and sines -/

/-- A turn about the third axis with `c` and `s` for the cosine and the sine. -/
def planar (c s : ℝ) : M3 := !![c, -s, 0; s, c, 0; 0, 0, 1]

/-- The cosine used for a link. -/
def linkCos (t : Trig) (l : Link S) (q : ℝ) : ℝ :=
  match l.jointType with
  | .p => Real.cos l.dh.theta
  | _ => t.cos q

/-- The sine used for a link. -/
def linkSin (t : Trig) (l : Link S) (q : ℝ) : ℝ :=
  match l.jointType with
  | .p => Real.sin l.dh.theta
  | _ => t.sin q

/-- The rotation block of a link. -/
def linkRot (t : Trig) (l : Link S) (q : ℝ) : M3 :=
  planar (linkCos t l q) (linkSin t l q) * rotX l.dh.alpha

/-- The offset of a link. -/
def linkPos (t : Trig) (l : Link S) (q : ℝ) : V3 :=
  match l.jointType with
  | .p => ![l.dh.a * Real.cos l.dh.theta, l.dh.a * Real.sin l.dh.theta, q]
  | _ => ![l.dh.a * t.cos q, l.dh.a * t.sin q, l.dh.d]

/-- The matrix of a link. -/
def linkTf (t : Trig) (l : Link S) (q : ℝ) : M4 := mkTf (linkRot t l q) (linkPos t l q)

theorem writeCS_eq {T : M4} (hT : Intact T) (c s a alpha d : ℝ) :
    writeCS T c s a alpha d = mkTf (planar c s * rotX alpha) ![a * c, a * s, d] := by
  have h3 : ∀ j, T 3 j = ![0, 0, 0, 1] j := fun j => congrFun hT.2 j
  ext i j
  fin_cases i <;> fin_cases j <;>
    simp [writeCS, setEntry, mkTf, planar, rotX, Matrix.mul_apply, Fin.sum_univ_succ, hT.1, h3]

theorem intact_mkTf (c s alpha : ℝ) (p : V3) : Intact (mkTf (planar c s * rotX alpha) p) := by
  constructor
  · simp [mkTf, planar, rotX, Matrix.mul_apply, Fin.sum_univ_succ]
  · ext j; fin_cases j <;> simp [mkTf]

theorem relTfBy_ok (t : Trig) (l : Link S) (hl : l.jointType ≠ .other) {T : M4} (hT : Intact T)
    (q : ℝ) : l.relTfBy t T q = (.ok (linkTf t l q), linkTf t l q) ∧ Intact (linkTf t l q) := by
  unfold Link.relTfBy linkTf linkRot linkPos linkCos linkSin
  cases hj : l.jointType
  · simp only [writeCS_eq hT]; exact ⟨trivial, intact_mkTf _ _ _ _⟩
  · simp only [writeCS_eq hT]; exact ⟨trivial, intact_mkTf _ _ _ _⟩
  · exact absurd hj hl

/-- The product of the link matrices. -/
def chainBy (t : Trig) (ls : List (Link S)) (qs : List ℝ) : M4 :=
  (List.zipWith (linkTf t) ls qs).prod

/-- The product of the rotation blocks. -/
def rotChain (t : Trig) (ls : List (Link S)) (qs : List ℝ) : M3 :=
  (List.zipWith (linkRot t) ls qs).prod

theorem fkLoopBy_ok (t : Trig) : ∀ (ls : List (Link S)) (ms : List M4) (qs : List ℝ) (T : M4),
    (∀ l ∈ ls, l.jointType ≠ .other) → (∀ m ∈ ms, Intact m) → ms.length = ls.length →
    qs.length = ls.length →
    (fkLoopBy t ls ms qs T).1 = .ok (T * chainBy t ls qs) ∧
      (fkLoopBy t ls ms qs T).2.length = ls.length ∧ ∀ m ∈ (fkLoopBy t ls ms qs T).2, Intact m
  | [], [], [], T, _, hm, _, _ => by simp [fkLoopBy, chainBy]
  | l :: ls, m :: ms, q :: qs, T, hl, hm, h1, h2 => by
    obtain ⟨e1, e2⟩ := relTfBy_ok t l (hl l (by simp)) (hm m (by simp)) q
    obtain ⟨f1, f2, f3⟩ := fkLoopBy_ok t ls ms qs (T * linkTf t l q)
      (fun x hx => hl x (List.mem_cons_of_mem _ hx)) (fun x hx => hm x (List.mem_cons_of_mem _ hx))
      (by simpa using h1) (by simpa using h2)
    unfold fkLoopBy
    rw [e1]
    refine ⟨?_, by simpa using f2, ?_⟩
    · simp only [f1]
      simp [chainBy, mul_assoc]
    · intro x hx
      rcases List.mem_cons.1 hx with rfl | hx
      · exact e2
      · exact f3 x hx

/-- `fk` with the cosines and sines of `t`. -/
def fkAtBy (t : Trig) (r : Robot Shape) (q : Config) : M4 := r.tfBase * chainBy t r.links q * tip r

theorem robotFkBy_returns (t : Trig) {r : Robot Shape} (hr : Regular r) {V : Type} {q : Config}
    (hq : q.length = r.links.length) (P : V → Prop) :
    Returns (fun w : RState × V => WF r.links.length w.1 ∧ P w.2) (robotFkBy t r q)
      (fkAtBy t r q) := by
  intro w hw
  obtain ⟨f1, f2, f3⟩ := fkLoopBy_ok t r.links w.1.mats q r.tfBase hr.known.known hw.1.2.1 hw.1.1 hq
  refine ⟨_, Prod.ext (liftPy_ok_eq ?_) rfl, ⟨f2, f3, hw.1.2.2⟩, hw.2⟩
  unfold Robot.fkBy
  simp only [f1, fkAtBy, tip]
  cases r.tool <;> simp [Except.map]

/-- Without rounding this is `fk`. -/
theorem linkTf_exact (l : Link S) (q : ℝ) : linkTf .exact l q = l.tf q := by
  unfold linkTf linkRot linkPos linkCos linkSin Link.tf
  cases l.jointType <;> simp [dhMat_eq, planar, rotZ, Trig.exact]

theorem fkAtBy_exact (r : Robot Shape) (q : Config) : fkAtBy .exact r q = fkOf r q := by
  unfold fkAtBy fkOf chainBy chain
  have : (linkTf .exact : Link Shape → ℝ → M4) = fun l q => l.tf q := by
    funext l q
    exact linkTf_exact l q
  rw [this]

theorem chainBy_mk (t : Trig) (ls : List (Link S)) (qs : List ℝ) :
    ∃ p, chainBy t ls qs = mkTf (rotChain t ls qs) p := by
  unfold chainBy rotChain
  induction ls generalizing qs with
  | nil => exact ⟨0, by simp [mkTf_one]⟩
  | cons l ls ih =>
    cases qs with
    | nil => exact ⟨0, by simp [mkTf_one]⟩
    | cons q qs =>
      obtain ⟨p, hp⟩ := ih qs
      simp only [List.zipWith_cons_cons, List.prod_cons, hp, linkTf, mkTf_mul]
      exact ⟨_, rfl⟩

theorem rotPart_fkAtBy (t : Trig) {r : Robot Shape} (hb : IsRigid r.tfBase) (ht : IsRigid (tip r))
    (q : Config) :
    rotPart (fkAtBy t r q) = rotPart r.tfBase * rotChain t r.links q * rotPart (tip r) := by
  obtain ⟨R, p, -, e1⟩ := hb.exists_mk
  obtain ⟨U, p', -, e2⟩ := ht.exists_mk
  obtain ⟨p'', e3⟩ := chainBy_mk t r.links q
  rw [fkAtBy, e1, e2, e3, mkTf_mul, mkTf_mul]
  simp

/-! ### How far the blocks are from rotations -/

/-- `c² + s²` of a link. -/
def linkSq (t : Trig) (l : Link S) (q : ℝ) : ℝ := linkCos t l q ^ 2 + linkSin t l q ^ 2

theorem linkRot_mul (t : Trig) (l : Link S) (q : ℝ) :
    linkRot t l q * (linkRot t l q)ᵀ = !![linkSq t l q, 0, 0; 0, linkSq t l q, 0; 0, 0, 1] := by
  unfold linkRot
  rw [Matrix.transpose_mul, mul_assoc, ← mul_assoc (rotX _), (rotX_isRot _).mul_transpose, one_mul]
  ext i j
  fin_cases i <;> fin_cases j <;>
    simp [planar, linkSq, Matrix.mul_apply, Fin.sum_univ_succ] <;> ring

theorem linkRot_det (t : Trig) (l : Link S) (q : ℝ) : (linkRot t l q).det = linkSq t l q := by
  unfold linkRot
  rw [Matrix.det_mul, (rotX_isRot _).2, mul_one, Matrix.det_fin_three]
  simp [planar, linkSq]; ring

/-- The squared length of `Pᵀ y`. -/
def quad (P : M3) (y : V3) : ℝ := (Pᵀ *ᵥ y) ⬝ᵥ (Pᵀ *ᵥ y)

theorem quad_eq (P : M3) (y : V3) : quad P y = y ⬝ᵥ ((P * Pᵀ) *ᵥ y) := by
  unfold quad
  rw [← Matrix.mulVec_mulVec, Matrix.dotProduct_mulVec y P, ← Matrix.mulVec_transpose]

theorem quad_mul (P Q : M3) (y : V3) : quad (P * Q) y = quad Q (Pᵀ *ᵥ y) := by
  unfold quad
  rw [Matrix.transpose_mul, Matrix.mulVec_mulVec]

theorem quad_rot {R : M3} (hR : IsRot R) (y : V3) : quad R y = y ⬝ᵥ y := by
  rw [quad_eq, hR.mul_transpose, Matrix.one_mulVec]

theorem quad_one (y : V3) : quad 1 y = y ⬝ᵥ y := quad_rot IsRot.one y

theorem quad_link (t : Trig) (l : Link S) (q : ℝ) (y : V3) :
    quad (linkRot t l q) y = linkSq t l q * (y 0 ^ 2 + y 1 ^ 2) + y 2 ^ 2 := by
  rw [quad_eq, linkRot_mul]
  simp [Matrix.mulVec, dotProduct, Fin.sum_univ_succ]
  ring

theorem dot_self (y : V3) : y ⬝ᵥ y = y 0 ^ 2 + y 1 ^ 2 + y 2 ^ 2 := by
  simp [dotProduct, Fin.sum_univ_succ]; ring

theorem quad_chain (t : Trig) {δ : ℝ} (h0 : 0 ≤ δ) (h1 : δ ≤ 1) (ls : List (Link S)) (qs : List ℝ)
    (hd : ∀ lq ∈ ls.zip qs, |linkSq t lq.1 lq.2 - 1| ≤ δ) (y : V3) :
    (1 - δ) ^ ls.length * (y ⬝ᵥ y) ≤ quad (rotChain t ls qs) y ∧
      quad (rotChain t ls qs) y ≤ (1 + δ) ^ ls.length * (y ⬝ᵥ y) := by
  have hy : ∀ y : V3, 0 ≤ y ⬝ᵥ y := fun y => by rw [dot_self]; positivity
  have hle : ∀ (n : Nat) (y : V3), (1 - δ) ^ n * (y ⬝ᵥ y) ≤ y ⬝ᵥ y ∧
      y ⬝ᵥ y ≤ (1 + δ) ^ n * (y ⬝ᵥ y) := fun n y =>
    ⟨mul_le_of_le_one_left (hy y) (pow_le_one₀ (by linarith) (by linarith)),
      le_mul_of_one_le_left (hy y) (one_le_pow₀ (by linarith))⟩
  induction ls generalizing qs y with
  | nil => simp [rotChain, quad_one]
  | cons l ls ih =>
    cases qs with
    | nil => simpa [rotChain, quad_one] using hle (ls.length + 1) y
    | cons q qs =>
      have hk := abs_le.1 (hd (l, q) (by simp))
      have hi := ih qs (fun lq h => hd lq (by simp [h])) ((linkRot t l q)ᵀ *ᵥ y)
      have e : rotChain t (l :: ls) (q :: qs) = linkRot t l q * rotChain t ls qs := by
        simp [rotChain]
      have eq : ((linkRot t l q)ᵀ *ᵥ y) ⬝ᵥ ((linkRot t l q)ᵀ *ᵥ y) =
          linkSq t l q * (y 0 ^ 2 + y 1 ^ 2) + y 2 ^ 2 := quad_link t l q y
      rw [eq] at hi
      rw [e, quad_mul]
      have a0 : 0 ≤ y 0 ^ 2 + y 1 ^ 2 := by positivity
      have a1 : 0 ≤ y 2 ^ 2 := by positivity
      have b1 : (1 - δ) * (y ⬝ᵥ y) ≤ linkSq t l q * (y 0 ^ 2 + y 1 ^ 2) + y 2 ^ 2 := by
        rw [dot_self]; nlinarith
      have b2 : linkSq t l q * (y 0 ^ 2 + y 1 ^ 2) + y 2 ^ 2 ≤ (1 + δ) * (y ⬝ᵥ y) := by
        rw [dot_self]; nlinarith
      constructor
      · refine le_trans ?_ hi.1
        rw [List.length_cons, pow_succ, mul_assoc]
        exact mul_le_mul_of_nonneg_left b1 (pow_nonneg (by linarith) _)
      · refine hi.2.trans ?_
        rw [List.length_cons, pow_succ (1 + δ), mul_assoc]
        exact mul_le_mul_of_nonneg_left b2 (pow_nonneg (by linarith) _)

theorem det_chain (t : Trig) (ls : List (Link S)) (qs : List ℝ) :
    (rotChain t ls qs).det = (List.zipWith (linkSq t) ls qs).prod := by
  unfold rotChain
  induction ls generalizing qs with
  | nil => simp
  | cons l ls ih =>
    cases qs with
    | nil => simp
    | cons q qs => simp [Matrix.det_mul, ih, linkRot_det]

theorem det_bounds (t : Trig) {δ : ℝ} (h0 : 0 ≤ δ) (h1 : δ ≤ 1) (ls : List (Link S)) (qs : List ℝ)
    (hd : ∀ lq ∈ ls.zip qs, |linkSq t lq.1 lq.2 - 1| ≤ δ) :
    (1 - δ) ^ ls.length ≤ (List.zipWith (linkSq t) ls qs).prod ∧
      (List.zipWith (linkSq t) ls qs).prod ≤ (1 + δ) ^ ls.length := by
  induction ls generalizing qs with
  | nil => simp
  | cons l ls ih =>
    cases qs with
    | nil =>
      exact ⟨pow_le_one₀ (by linarith) (by linarith), one_le_pow₀ (by linarith)⟩
    | cons q qs =>
      have hk := abs_le.1 (hd (l, q) (by simp))
      obtain ⟨i1, i2⟩ := ih qs (fun lq h => hd lq (by simp [h]))
      have p0 : 0 ≤ (1 - δ) ^ ls.length := pow_nonneg (by linarith) _
      simp only [List.zipWith_cons_cons, List.prod_cons, List.length_cons, pow_succ']
      exact ⟨mul_le_mul (by linarith) i1 p0 (by linarith),
        mul_le_mul (by linarith) i2 (p0.trans i1) (by linarith)⟩

/-- A symmetric matrix with a bounded quadratic form has bounded entries. -/
theorem entry_bound {M : M3} (hs : Mᵀ = M) {b : ℝ} (hb : ∀ y : V3, |y ⬝ᵥ (M *ᵥ y)| ≤ b * (y ⬝ᵥ y))
    (i j : Fin 3) : |M i j| ≤ b := by
  have s01 : M 1 0 = M 0 1 := congrFun (congrFun hs 0) 1
  have s02 : M 2 0 = M 0 2 := congrFun (congrFun hs 0) 2
  have s12 : M 2 1 = M 1 2 := congrFun (congrFun hs 1) 2
  have f : ∀ x y z : ℝ, |M 0 0 * x ^ 2 + M 1 1 * y ^ 2 + M 2 2 * z ^ 2 + 2 * M 0 1 * (x * y) +
      2 * M 0 2 * (x * z) + 2 * M 1 2 * (y * z)| ≤ b * (x ^ 2 + y ^ 2 + z ^ 2) := by
    intro x y z
    have := hb ![x, y, z]
    rw [dot_self] at this
    simp [dotProduct, Matrix.mulVec, Fin.sum_univ_succ, s01, s02, s12] at this
    convert this using 2
    ring
  have f1 := abs_le.1 (f 1 0 0)
  have f2 := abs_le.1 (f 0 1 0)
  have f3 := abs_le.1 (f 0 0 1)
  have g1 := abs_le.1 (f 1 1 0)
  have g2 := abs_le.1 (f 1 (-1) 0)
  have g3 := abs_le.1 (f 1 0 1)
  have g4 := abs_le.1 (f 1 0 (-1))
  have g5 := abs_le.1 (f 0 1 1)
  have g6 := abs_le.1 (f 0 1 (-1))
  rw [abs_le]
  fin_cases i <;> fin_cases j <;> simp only [Fin.mk_zero, Fin.mk_one, Fin.reduceFinMk, Fin.zero_eta,
    s01, s02, s12] <;> constructor <;> linarith [f1.1, f1.2, f2.1, f2.2, f3.1, f3.2, g1.1, g1.2, g2.1,
      g2.2, g3.1, g3.2, g4.1, g4.2, g5.1, g5.2, g6.1, g6.2]

theorem one_sub_pow_ge {δ : ℝ} (h0 : 0 ≤ δ) (h1 : δ ≤ 1) (n : Nat) :
    1 - ((1 + δ) ^ n - 1) ≤ (1 - δ) ^ n := by
  have a := one_add_mul_le_pow (show (-2 : ℝ) ≤ -δ by linarith) n
  have b := one_add_mul_le_pow (show (-2 : ℝ) ≤ δ by linarith) n
  have c : (1 + -δ) = 1 - δ := by ring
  rw [c] at a
  linarith

/-- **C136**, where it holds: the pose is accepted when every pair of cosine and sine is within `δ` of
the unit circle and `(1 + δ) ^ n ≤ 1 + 1e-8` for the `n` links. -/
theorem C136_partial (t : Trig) {r : Robot Shape} (hb : IsRigid r.tfBase) (ht : IsRigid (tip r))
    {δ : ℝ} (h0 : 0 ≤ δ) (h1 : δ ≤ 1) (hn : (1 + δ) ^ r.links.length ≤ 1 + 1 / 10 ^ 8) (q : Config)
    (hd : ∀ lq ∈ r.links.zip q, |linkSq t lq.1 lq.2 - 1| ≤ δ) :
    ∃ o, Quat.ofRotation (rotPart (fkAtBy t r q)) = .ok o := by
  suffices h : Quat.looksLikeRotation (rotPart (fkAtBy t r q)) by
    unfold Quat.ofRotation
    rw [if_pos h]
    exact ⟨_, rfl⟩
  rw [rotPart_fkAtBy t hb ht]
  set B := rotPart r.tfBase
  set P := rotChain t r.links q with hP
  set U := rotPart (tip r)
  have hq := quad_chain t h0 h1 r.links q hd
  have hdet := det_bounds t h0 h1 r.links q hd
  rw [← det_chain, ← hP] at hdet
  have hlow := one_sub_pow_ge h0 h1 r.links.length
  have hquad : ∀ y : V3, quad (B * P * U) y = quad P (Bᵀ *ᵥ y) := by
    intro y
    rw [quad_mul, quad_rot ht.1]
    change quad (B * P) y = _
    rw [quad_mul]
  have hBy : ∀ y : V3, (Bᵀ *ᵥ y) ⬝ᵥ (Bᵀ *ᵥ y) = y ⬝ᵥ y := fun y => quad_rot hb.1 y
  have hent : ∀ i j, |(B * P * U * (B * P * U)ᵀ - 1) i j| ≤ 1 / 10 ^ 8 := by
    apply entry_bound
    · rw [Matrix.transpose_sub, Matrix.transpose_mul, Matrix.transpose_transpose, Matrix.transpose_one]
    · intro y
      rw [Matrix.sub_mulVec, dotProduct_sub, ← quad_eq, Matrix.one_mulVec, hquad]
      have := hq (Bᵀ *ᵥ y)
      rw [hBy] at this
      have hy : 0 ≤ y ⬝ᵥ y := by rw [dot_self]; positivity
      rw [abs_le]
      constructor <;> nlinarith
  refine ⟨fun i j => ?_, ?_⟩
  · have := hent i j
    rw [Matrix.sub_apply] at this
    exact this.trans (le_add_of_nonneg_right (by positivity))
  · have : (B * P * U).det = P.det := by
      rw [Matrix.det_mul, Matrix.det_mul, hb.1.2, ht.1.2, one_mul, mul_one]
    rw [this, abs_le]
    norm_num
    norm_num at hn
    constructor <;> linarith [hdet.1, hdet.2]

/-- C136 with cosines and sines in double precision, for every configuration of a robot with up to a
hundred links. -/
theorem C136_double (t : Trig) (hc : ∀ x, |t.cos x - Real.cos x| ≤ 1 / 2 ^ 53)
    (hs : ∀ x, |t.sin x - Real.sin x| ≤ 1 / 2 ^ 53) {r : Robot Shape} (hb : IsRigid r.tfBase)
    (ht : IsRigid (tip r)) (hn : r.links.length ≤ 100) (q : Config) :
    ∃ o, Quat.ofRotation (rotPart (fkAtBy t r q)) = .ok o := by
  refine C136_partial t hb ht (δ := 1 / 2 ^ 50) (by norm_num) (by norm_num) ?_ q ?_
  · exact (pow_le_pow_right₀ (by norm_num) hn).trans (by norm_num)
  · rintro ⟨l, x⟩ -
    have key : ∀ c s θ : ℝ, |c - Real.cos θ| ≤ 1 / 2 ^ 53 → |s - Real.sin θ| ≤ 1 / 2 ^ 53 →
        |c ^ 2 + s ^ 2 - 1| ≤ 1 / 2 ^ 50 := by
      intro c s θ h1 h2
      have e : c ^ 2 + s ^ 2 - 1 = 2 * Real.cos θ * (c - Real.cos θ) + (c - Real.cos θ) ^ 2 +
          (2 * Real.sin θ * (s - Real.sin θ) + (s - Real.sin θ) ^ 2) := by
        have := Real.cos_sq_add_sin_sq θ
        linear_combination this
      have b : ∀ u v : ℝ, |u| ≤ 1 → |v| ≤ 1 / 2 ^ 53 → |2 * u * v + v ^ 2| ≤ 3 / 2 ^ 53 := by
        intro u v hu hv
        have a1 : |2 * u * v| ≤ 2 * (1 / 2 ^ 53) := by
          rw [abs_mul, abs_mul, abs_two]
          nlinarith [abs_nonneg u, abs_nonneg v]
        have a2 : |v ^ 2| ≤ 1 / 2 ^ 53 := by
          rw [abs_pow]
          nlinarith [abs_nonneg v]
        exact (abs_add_le _ _).trans (by linarith)
      rw [e]
      refine (abs_add_le _ _).trans ?_
      have := b _ _ (Real.abs_cos_le_one θ) h1
      have := b _ _ (Real.abs_sin_le_one θ) h2
      norm_num at *
      linarith
    unfold linkSq linkCos linkSin
    cases hj : l.jointType
    · exact key _ _ x (hc x) (hs x)
    · exact key _ _ l.dh.theta (by simp) (by simp)
    · exact key _ _ x (hc x) (hs x)

/-- The hypotheses of C136_double can be met with cosines that are not exact. -/
example : ∃ t : Trig, t.cos 0 ≠ Real.cos 0 ∧ (∀ x, |t.cos x - Real.cos x| ≤ 1 / 2 ^ 53) ∧
    ∀ x, |t.sin x - Real.sin x| ≤ 1 / 2 ^ 53 :=
  ⟨⟨fun x => Real.cos x + 1 / 2 ^ 53, Real.sin⟩, by simp, fun x => by simp [abs_of_pos], by simp⟩

/-! ### float32 -/

/-- The finite float32 numbers. -/
def F32 (y : ℝ) : Prop :=
  ∃ m e : ℤ, |m| < 2 ^ 24 ∧ -149 ≤ e ∧ e ≤ 104 ∧ y = m * (2 : ℝ) ^ e

/-- `y` is a float32 nearest to `x`. -/
def Nearest (x y : ℝ) : Prop := F32 y ∧ ∀ z, F32 z → |x - y| ≤ |x - z|

/-- Cosines and sines of float32 numbers, rounded to nearest float32 numbers. -/
structure Rounds32 (t : Trig) : Prop where
  cos : ∀ x, F32 x → Nearest (Real.cos x) (t.cos x)
  sin : ∀ x, F32 x → Nearest (Real.sin x) (t.sin x)

theorem f32_int (m : ℤ) (h : |m| < 2 ^ 24) : F32 m := ⟨m, 0, h, by norm_num, by norm_num, by simp⟩

theorem f32_finite : {y : ℝ | F32 y}.Finite := by
  refine ((Set.finite_Ioo (-2 ^ 24 : ℤ) (2 ^ 24)).prod (Set.finite_Icc (-149 : ℤ) 104)).image
    (fun me : ℤ × ℤ => (me.1 : ℝ) * (2 : ℝ) ^ me.2) |>.subset ?_
  rintro y ⟨m, e, h1, h2, h3, rfl⟩
  exact ⟨(m, e), ⟨abs_lt.1 h1, h2, h3⟩, rfl⟩

/-- Every number has a nearest float32. -/
theorem exists_nearest (x : ℝ) : ∃ y, Nearest x y := by
  obtain ⟨y, hy, hmin⟩ := Set.exists_min_image _ (fun y => |x - y|) f32_finite
    ⟨0, by simpa using f32_int 0 (by norm_num)⟩
  exact ⟨y, hy, hmin⟩

theorem exists_rounds32 : ∃ t, Rounds32 t := by
  choose f hf using exists_nearest
  exact ⟨⟨fun x => f (Real.cos x), fun x => f (Real.sin x)⟩, fun x _ => hf _, fun x _ => hf _⟩

/-- A float32 is its own nearest float32. -/
theorem Nearest.self {x y : ℝ} (h : Nearest x y) (hx : F32 x) : y = x := by
  have := h.2 x hx
  rw [sub_self, abs_zero] at this
  linarith [abs_eq_zero.1 (le_antisymm this (abs_nonneg _))]

/-- Between one half and one the float32 numbers are the multiples of `2 ^ -24`. -/
theorem Nearest.unit {x y : ℝ} (h : Nearest x y) (m : ℤ) (h1 : 2 ^ 23 < m) (h2 : m < 2 ^ 24)
    (hx : |x - m / 2 ^ 24| < 1 / 2 ^ 25) : y = m / 2 ^ 24 := by
  have hm : F32 ((m : ℝ) / 2 ^ 24) := ⟨m, -24, by rw [abs_lt]; omega, by norm_num, by norm_num, by
    rw [zpow_neg, div_eq_mul_inv]; norm_num⟩
  have h3 := h.2 _ hm
  have h4 : |y - m / 2 ^ 24| < 1 / 2 ^ 24 := by
    rw [abs_lt] at hx ⊢
    rw [abs_le] at h3
    have := abs_lt.2 hx
    constructor <;> norm_num at * <;> linarith
  obtain ⟨n, e, hn, -, -, hy⟩ := h.1
  have hm' : (2 : ℝ) ^ 23 + 1 ≤ m := by exact_mod_cast h1
  have hhalf : 1 / 2 < y := by
    have := (abs_lt.1 h4).1
    have : (2 ^ 23 + 1 : ℝ) / 2 ^ 24 ≤ m / 2 ^ 24 := by gcongr
    norm_num at *
    linarith
  have he : -24 ≤ e := by
    by_contra hc
    have hc : e ≤ -25 := by omega
    have hp : (2 : ℝ) ^ e ≤ 2 ^ (-25 : ℤ) := zpow_le_zpow_right₀ (by norm_num) hc
    have hn' : (n : ℝ) < 2 ^ 24 := by exact_mod_cast (abs_lt.1 hn).2
    have h0 : (0 : ℝ) < 2 ^ e := by positivity
    have : y ≤ 2 ^ 24 * (2 : ℝ) ^ (-25 : ℤ) := by
      rw [hy]
      calc (n : ℝ) * 2 ^ e ≤ 2 ^ 24 * 2 ^ e := by gcongr
        _ ≤ _ := by gcongr
    norm_num at this
    linarith
  obtain ⟨k, rfl⟩ : ∃ k : ℕ, e = k - 24 := ⟨(e + 24).toNat, by omega⟩
  have hy' : y = ((n * 2 ^ k : ℤ) : ℝ) / 2 ^ 24 := by
    rw [hy, zpow_sub₀ (by norm_num)]
    push_cast
    norm_num
    ring
  rw [hy', ← sub_div, abs_div, abs_of_pos (show (0 : ℝ) < 2 ^ 24 by norm_num),
    div_lt_div_iff_of_pos_right (by norm_num)] at h4
  have : |n * 2 ^ k - m| < 1 := by exact_mod_cast h4
  rw [hy', Int.abs_lt_one_iff.1 this |> sub_eq_zero.1]

/-! ### The cosine and the sine of one -/

theorem exp_I_near : ‖Complex.exp Complex.I - ∑ m ∈ Finset.range 14, Complex.I ^ m / m.factorial‖ ≤
    1 / 10 ^ 10 := by
  refine (Complex.exp_bound (x := Complex.I) (by simp) (n := 14) (by norm_num)).trans ?_
  simp [Nat.factorial]
  norm_num

theorem sum_I : ∑ m ∈ Finset.range 14, Complex.I ^ m / (m.factorial : ℂ) =
    ((1 - 1 / 2 + 1 / 24 - 1 / 720 + 1 / 40320 - 1 / 3628800 + 1 / 479001600 : ℝ) : ℂ) +
      ((1 - 1 / 6 + 1 / 120 - 1 / 5040 + 1 / 362880 - 1 / 39916800 + 1 / 6227020800 : ℝ) : ℂ) *
        Complex.I := by
  have h2 : Complex.I ^ 2 = -1 := Complex.I_sq
  have h3 : Complex.I ^ 3 = -Complex.I := by rw [pow_succ, h2]; ring
  have h4 : Complex.I ^ 4 = 1 := Complex.I_pow_four
  have h5 : Complex.I ^ 5 = Complex.I := by rw [pow_succ, h4]; ring
  have h6 : Complex.I ^ 6 = -1 := by rw [pow_succ, h5, ← pow_two, h2]
  have h7 : Complex.I ^ 7 = -Complex.I := by rw [pow_succ, h6]; ring
  have h8 : Complex.I ^ 8 = 1 := by rw [pow_succ, h7, neg_mul, ← pow_two, h2]; ring
  have h9 : Complex.I ^ 9 = Complex.I := by rw [pow_succ, h8]; ring
  have h10 : Complex.I ^ 10 = -1 := by rw [pow_succ, h9, ← pow_two, h2]
  have h11 : Complex.I ^ 11 = -Complex.I := by rw [pow_succ, h10]; ring
  have h12 : Complex.I ^ 12 = 1 := by rw [pow_succ, h11, neg_mul, ← pow_two, h2]; ring
  have h13 : Complex.I ^ 13 = Complex.I := by rw [pow_succ, h12]; ring
  simp only [Finset.sum_range_succ, Finset.sum_range_zero, h2, h3, h4, h5, h6, h7, h8, h9, h10, h11,
    h12, h13, Nat.factorial, pow_zero, pow_one]
  push_cast
  ring

theorem cos_one_near : |Real.cos 1 - 0.5403023059| ≤ 3 / 10 ^ 10 ∧
    |Real.sin 1 - 0.8414709848| ≤ 3 / 10 ^ 10 := by
  have h := exp_I_near
  rw [sum_I] at h
  have e : Complex.exp Complex.I = (Real.cos 1 : ℂ) + (Real.sin 1 : ℂ) * Complex.I := by
    rw [← one_mul Complex.I, Complex.exp_mul_I]
    simp
  rw [e] at h
  have hre := (Complex.abs_re_le_norm _).trans h
  have him := (Complex.abs_im_le_norm _).trans h
  simp only [Complex.sub_re, Complex.sub_im, Complex.add_re, Complex.add_im, Complex.ofReal_re,
    Complex.ofReal_im, Complex.mul_re, Complex.mul_im, Complex.I_re, Complex.I_im] at hre him
  rw [abs_le] at hre him ⊢
  rw [abs_le]
  norm_num at hre him ⊢
  refine ⟨⟨?_, ?_⟩, ?_, ?_⟩ <;> linarith [hre.1, hre.2, him.1, him.2]

/-- The float32 cosine and sine of one. -/
theorem rounds32_one {t : Trig} (h : Rounds32 t) :
    t.cos 1 = 9064768 / 2 ^ 24 ∧ t.sin 1 = 14117540 / 2 ^ 24 := by
  have f1 : F32 1 := by simpa using f32_int 1 (by norm_num)
  obtain ⟨h1, h2⟩ := cos_one_near
  rw [abs_le] at h1 h2
  constructor
  · have := (h.cos 1 f1).unit 9064768 (by norm_num) (by norm_num) (by
      rw [abs_lt]; norm_num at *; constructor <;> linarith [h1.1, h1.2])
    push_cast at this; exact this
  · have := (h.sin 1 f1).unit 14117540 (by norm_num) (by norm_num) (by
      rw [abs_lt]; norm_num at *; constructor <;> linarith [h2.1, h2.2])
    push_cast at this; exact this

theorem rounds32_zero {t : Trig} (h : Rounds32 t) : t.cos 0 = 1 ∧ t.sin 0 = 0 := by
  have f0 : F32 0 := by simpa using f32_int 0 (by norm_num)
  have f1 : F32 1 := by simpa using f32_int 1 (by norm_num)
  have a := h.cos 0 f0
  have b := h.sin 0 f0
  rw [Real.cos_zero] at a
  rw [Real.sin_zero] at b
  exact ⟨a.self f1, b.self f0⟩

/-! ### The Kuka -/

/-- The Kuka as the iterative planner uses it: `ik` and the collision checks see doubles, `fk` sees the
float32 configurations of the path. -/
def kukaBy [Zeros] (t : Trig) (hit : Oracle Shape) (k : Kuka) : Arm (RState × RState × Mem) Shape :=
  { (kukaRef hit k).toArm with fk := robotFkBy t k.robot }

/-- What the planner needs: `resample` does not raise for configurations of float32 numbers. -/
def C136_statement : Prop :=
  ∀ [Zeros] (t : Trig) (_ : Rounds32 t) (hit : Oracle Shape) (a1 a2 d4 d6 : ℝ) (n : Nat) (q : Config)
    (_ : q.length = 6) (_ : ∀ x ∈ q, F32 x) (sp : SolPt) (_ : sp.tolType = .tolOri),
    ∃ sp', Returns (KukaOK n) (sp.resample (kukaBy t hit (Kuka.new a1 a2 d4 d6 n)) q) sp'

theorem rotChain_kuka (t : Trig) (h0 : t.cos 0 = 1 ∧ t.sin 0 = 0) (a1 a2 d4 d6 : ℝ) (n : Nat)
    (x y : ℝ) :
    let R := rotChain t (Kuka.new a1 a2 d4 d6 n).robot.links [x, y, 0, 0, 0, 0]
    (R * Rᵀ) 0 1 = t.cos x * t.sin x * (t.cos y ^ 2 + t.sin y ^ 2 - 1) := by
  intro R
  have e1 : planar 1 0 = 1 := by
    ext i j; fin_cases i <;> fin_cases j <;> simp [planar]
  have hO : ∃ O : M3, IsRot O ∧ R = planar (t.cos x) (t.sin x) * rotX (Real.pi / 2) *
      planar (t.cos y) (t.sin y) * O := by
    refine ⟨rotX 0 * (rotX (Real.pi / 2) * (rotX (-Real.pi / 2) * (rotX (Real.pi / 2) * rotX 0))),
      (rotX_isRot _).mul ((rotX_isRot _).mul ((rotX_isRot _).mul ((rotX_isRot _).mul
        (rotX_isRot _)))), ?_⟩
    simp only [R, rotChain, Kuka.new, kukaRobot, Robot.new, List.zipWith_cons_cons, linkRot, linkCos,
      linkSin, h0.1, h0.2, e1, List.zipWith_nil_left, List.prod_cons, List.prod_nil, one_mul, mul_one,
      mul_assoc]
  obtain ⟨O, hO, e⟩ := hO
  have e2 : R * Rᵀ = planar (t.cos x) (t.sin x) * rotX (Real.pi / 2) *
      planar (t.cos y) (t.sin y) * (planar (t.cos x) (t.sin x) * rotX (Real.pi / 2) *
      planar (t.cos y) (t.sin y))ᵀ := by
    rw [e, Matrix.transpose_mul _ O, mul_assoc, ← mul_assoc O, hO.mul_transpose, one_mul]
  rw [e2]
  simp [planar, rotX, Matrix.mul_apply, Fin.sum_univ_succ]
  ring

/-- **C136**, for the Kuka with two turned joints: the pose is refused as soon as the rounding errors
reach the tolerance. -/
theorem C136_two_joints (t : Trig) (h0 : t.cos 0 = 1 ∧ t.sin 0 = 0) (a1 a2 d4 d6 : ℝ) (n : Nat)
    (x y : ℝ) (h : 1 / 10 ^ 8 < |t.cos x * t.sin x * (t.cos y ^ 2 + t.sin y ^ 2 - 1)|) :
    Quat.ofRotation (rotPart (fkAtBy t (Kuka.new a1 a2 d4 d6 n).robot [x, y, 0, 0, 0, 0])) =
      .error .valueError := by
  unfold Quat.ofRotation
  rw [if_neg]
  rintro ⟨hc, -⟩
  have h1 : IsRigid (Kuka.new a1 a2 d4 d6 n).robot.tfBase := IsRigid.one
  have h2 : IsRigid (tip (Kuka.new a1 a2 d4 d6 n).robot) := IsRigid.one
  have e1 : rotPart (Kuka.new a1 a2 d4 d6 n).robot.tfBase = 1 := by
    change rotPart 1 = 1
    rw [← mkTf_one, rotPart_mkTf]
  have e2 : rotPart (tip (Kuka.new a1 a2 d4 d6 n).robot) = 1 := by
    change rotPart 1 = 1
    rw [← mkTf_one, rotPart_mkTf]
  rw [rotPart_fkAtBy t h1 h2, e1, e2, one_mul, mul_one] at hc
  have := hc 0 1
  rw [rotChain_kuka t h0] at this
  simp only [Matrix.one_apply, Fin.reduceEq, if_false, sub_zero, abs_zero, mul_zero, add_zero] at this
  linarith

/-- With cosines and sines rounded to float32 the Kuka's pose at `(1, 1, 0, 0, 0, 0)` is refused. -/
theorem C136_refused {t : Trig} (h : Rounds32 t) (a1 a2 d4 d6 : ℝ) (n : Nat) :
    Quat.ofRotation (rotPart (fkAtBy t (Kuka.new a1 a2 d4 d6 n).robot [1, 1, 0, 0, 0, 0])) =
      .error .valueError := by
  apply C136_two_joints t (rounds32_zero h)
  rw [(rounds32_one h).1, (rounds32_one h).2, lt_abs]
  right
  norm_num

/-- A configuration whose pose is refused makes `resample` raise ValueError. -/
theorem resample_raises {W : Type} {Inv : W → Prop} {arm : Arm W S} {q : Config} {T : M4}
    (hfk : Returns Inv (arm.fk q) T) (hq : Quat.ofRotation (rotPart T) = .error .valueError)
    (sp : SolPt) (red : ℝ) : Raises Inv (sp.resample arm q red) (.py .valueError) := by
  unfold SolPt.resample
  refine Returns.bind_raises hfk ?_
  rw [hq]
  exact fun w _ => ⟨w, rfl⟩

theorem kukaBy_fk [Zeros] (t : Trig) (hit : Oracle Shape) (a1 a2 d4 d6 : ℝ) (n : Nat) {q : Config}
    (hq : q.length = 6) : Returns (KukaOK n) ((kukaBy t hit (Kuka.new a1 a2 d4 d6 n)).fk q)
      (fkAtBy t (Kuka.new a1 a2 d4 d6 n).robot q) :=
  robotFkBy_returns t (kuka_regular a1 a2 d4 d6 n 1 none) hq
    fun v : RState × Mem => WF 3 v.1 ∧ n < v.2.length

/-- The negation of C136. -/
theorem C136_refuted : ¬ C136_statement := by
  intro h
  obtain ⟨t, ht⟩ := exists_rounds32
  have f0 : F32 0 := by simpa using f32_int 0 (by norm_num)
  have f1 : F32 1 := by simpa using f32_int 1 (by norm_num)
  obtain ⟨sp', hr⟩ := @h posZeros t ht (fun _ _ => false) 0 0 0 0 0 [1, 1, 0, 0, 0, 0] rfl
    (by simp [f0, f1])
    ⟨.orientation ⟨0, ⟨1, 0, 0, 0⟩⟩, .orientation ⟨0, ⟨1, 0, 0, 0⟩⟩, none, .tolOri, 0⟩ rfl
  have hx := resample_raises (@kukaBy_fk posZeros t (fun _ _ => false) 0 0 0 0 0
    [1, 1, 0, 0, 0, 0] rfl) (C136_refused ht 0 0 0 0 0)
    ⟨.orientation ⟨0, ⟨1, 0, 0, 0⟩⟩, .orientation ⟨0, ⟨1, 0, 0, 0⟩⟩, none, .tolOri, 0⟩ 2
  have hw : KukaOK 0 (RState.new 6, RState.new 3, [[[]]]) := ⟨WF.new 6, WF.new 3, by simp⟩
  obtain ⟨w1, e1, -⟩ := hr _ hw
  obtain ⟨w2, e2⟩ := hx _ hw
  rw [e1] at e2
  cases e2

/-! ### Never exact -/

/-- Two integers whose squares add up to a power of four. -/
theorem sq_add_sq_pow4 (N : Nat) : ∀ a b : ℤ, a ^ 2 + b ^ 2 = 4 ^ N → a = 0 ∨ b = 0 := by
  induction N with
  | zero =>
    intro a b h
    by_contra hc
    push Not at hc
    have h1 : 0 < a ^ 2 := sq_pos_of_ne_zero hc.1
    have h2 : 0 < b ^ 2 := sq_pos_of_ne_zero hc.2
    omega
  | succ N ih =>
    intro a b h
    obtain ⟨a', ha⟩ | ⟨a', ha⟩ := Int.even_or_odd a
    · obtain ⟨b', hb⟩ | ⟨b', hb⟩ := Int.even_or_odd b
      · have : a' ^ 2 + b' ^ 2 = 4 ^ N := by
          rw [ha, hb, pow_succ (4 : ℤ)] at h
          nlinarith
        rcases ih a' b' this with rfl | rfl
        · left; omega
        · right; omega
      · exfalso
        rw [ha, hb, pow_succ (4 : ℤ)] at h
        have : 4 * (a' ^ 2 + b' ^ 2 + b' - 4 ^ N) = -1 := by nlinarith
        omega
    · exfalso
      obtain ⟨b', hb⟩ | ⟨b', hb⟩ := Int.even_or_odd b
      · rw [ha, hb, pow_succ (4 : ℤ)] at h
        have : 4 * (a' ^ 2 + b' ^ 2 + a' - 4 ^ N) = -1 := by nlinarith
        omega
      · rw [ha, hb, pow_succ (4 : ℤ)] at h
        have : 4 * (a' ^ 2 + b' ^ 2 + a' + b' - 4 ^ N) = -2 := by nlinarith
        omega

/-- No float32 cosine and sine lie on the unit circle, apart from the quarter turns: a link with a
rounded angle is never exactly a rotation. -/
theorem C136_never_exact {c s : ℝ} (hc : F32 c) (hs : F32 s) (h : c ^ 2 + s ^ 2 = 1) :
    c = 0 ∨ s = 0 := by
  obtain ⟨m, e, -, he, -, rfl⟩ := hc
  obtain ⟨n, f, -, hf, -, rfl⟩ := hs
  obtain ⟨e', rfl⟩ : ∃ k : ℕ, e = k - 149 := ⟨(e + 149).toNat, by omega⟩
  obtain ⟨f', rfl⟩ : ∃ k : ℕ, f = k - 149 := ⟨(f + 149).toNat, by omega⟩
  rw [zpow_sub₀ (by norm_num), zpow_sub₀ (by norm_num)] at h ⊢
  have h' : (((m * 2 ^ e') ^ 2 + (n * 2 ^ f') ^ 2 : ℤ) : ℝ) = ((4 ^ 149 : ℤ) : ℝ) := by
    push_cast
    simp only [zpow_natCast] at h
    field_simp at h
    rw [mul_pow, mul_pow, h, show (298 : ℕ) = 2 * 149 from rfl, pow_mul]
    congr 1
    norm_num
  have h'' : (m * 2 ^ e') ^ 2 + (n * 2 ^ f') ^ 2 = (4 : ℤ) ^ 149 := by exact_mod_cast h'
  rcases sq_add_sq_pow4 149 _ _ h'' with h | h
  · left
    have : m = 0 := by simpa using h
    simp [this]
  · right
    have : n = 0 := by simpa using h
    simp [this]

/-! ### The planner -/

variable {W C : Type} [CostArith C] [JointArith ℝ C] {Inv : W → Prop} {arm : Arm W S}
  {scene : Collection S} {ikf : M4 → Option (List Config)} {hit : Config → Bool} {d : Nat}
  {fkf : Config → M4}

theorem ofRotation_error {R : M3} {e : PyErr} (h : Quat.ofRotation R = .error e) :
    e = .valueError := by
  unfold Quat.ofRotation at h
  split at h <;> cases h
  rfl

theorem resample_returns {q : Config} {T : M4} (hfk : Returns Inv (arm.fk q) T) {o : Quat}
    (hq : Quat.ofRotation (rotPart T) = .ok o) {sp : SolPt} (hty : sp.tolType = .tolOri) :
    Returns Inv (sp.resample arm q) { sp with
      qBest := some q, tpCurrent := .orientation ⟨posPart T, o⟩
      quatDistTol := sp.quatDistTol / 2 } := by
  unfold SolPt.resample
  refine Returns.bind hfk ?_
  refine Returns.bind (Returns.lift (a := o) (by rw [hq]; rfl)) ?_
  refine Returns.lift ?_
  unfold newPoint
  simp only [hty]
  rw [if_neg (by norm_num)]
  rfl

theorem resampleAll_raises (hfk : ∀ q, q.length = d → Returns Inv (arm.fk q) (fkf q))
    (path : List Config) (pts : List SolPt) (hl : path.length = pts.length)
    (hd : ∀ q ∈ path, q.length = d) (ho : ∀ sp ∈ pts, sp.tolType = .tolOri)
    (hbad : ∃ q ∈ path, Quat.ofRotation (rotPart (fkf q)) = .error .valueError) :
    Raises Inv (resampleAll arm path pts) (.py .valueError) := by
  induction path generalizing pts with
  | nil => simp at hbad
  | cons q path ih =>
    cases pts with
    | nil => simp at hl
    | cons sp pts =>
      unfold resampleAll
      cases hq : Quat.ofRotation (rotPart (fkf q)) with
      | error e =>
        rw [ofRotation_error hq] at hq
        exact Raises.bind (resample_raises (hfk q (hd q (by simp))) hq sp 2)
      | ok o =>
        have hsp := resample_returns (hfk q (hd q (by simp))) hq (ho sp (by simp))
        refine Returns.bind_raises hsp (Raises.bind (ih pts (by simpa using hl)
          (fun x hx => hd x (List.mem_cons_of_mem _ hx))
          (fun x hx => ho x (List.mem_cons_of_mem _ hx)) ?_))
        obtain ⟨q', hq', hb⟩ := hbad
        rcases List.mem_cons.1 hq' with rfl | hq'
        · rw [hq] at hb; cases hb
        · exact ⟨q', hq', hb⟩

theorem resampleAll_good (hfk : ∀ q, q.length = d → Returns Inv (arm.fk q) (fkf q))
    (path : List Config) (pts : List SolPt) (hl : path.length = pts.length)
    (hd : ∀ q ∈ path, q.length = d) (ho : ∀ sp ∈ pts, sp.tolType = .tolOri)
    (hgood : ∀ q ∈ path, ∃ o, Quat.ofRotation (rotPart (fkf q)) = .ok o) :
    ∃ pts', Returns Inv (resampleAll arm path pts) pts' ∧ pts'.length = pts.length ∧
      ∀ sp ∈ pts', ∃ pt, sp.tpCurrent = .orientation pt := by
  induction path generalizing pts with
  | nil =>
    have : pts = [] := List.length_eq_zero_iff.1 hl.symm
    subst this
    exact ⟨[], Returns.pure _, rfl, by simp⟩
  | cons q path ih =>
    cases pts with
    | nil => simp at hl
    | cons sp pts =>
      obtain ⟨o, hq⟩ := hgood q (by simp)
      have hsp := resample_returns (hfk q (hd q (by simp))) hq (ho sp (by simp))
      obtain ⟨pts', h1, h2, h3⟩ := ih pts (by simpa using hl)
        (fun x hx => hd x (List.mem_cons_of_mem _ hx)) (fun x hx => ho x (List.mem_cons_of_mem _ hx))
        (fun x hx => hgood x (List.mem_cons_of_mem _ hx))
      unfold resampleAll
      refine ⟨_, Returns.bind hsp (Returns.bind h1 (Returns.pure _)), by simp [h2], ?_⟩
      intro x hx
      rcases List.mem_cons.1 hx with rfl | hx
      · exact ⟨_, rfl⟩
      · exact h3 x hx

/-- The first search of the planner: the columns, and a path through them. -/
theorem first_search (h : Determined arm scene Inv ikf hit d)
    {pq : PQ C Config} (hl : Lawful pq) (hno : PyGraph.NoOverflow C)
    (hfin : ∀ x y : Config, stepCost C (effWeights C d []) x y < ⊤) (conv : ℝ → ℝ)
    {draws : Nat → Nat → Draws} {n : Nat} {ps : List FreeOrientationPt} (hne : ps ≠ [])
    {samples : List (List M4)} (hlen : samples.length = ps.length)
    (hs : ∀ i p Ts, ps[i]? = some p → samples[i]? = some Ts →
      getSamples (draws 0 i) n (some (Real.pi / 4)) (.free p) = .ok Ts)
    (hex : ∀ Ts ∈ samples, ∃ T ∈ Ts, ∃ sols, ikf T = some sols ∧ ∃ q ∈ sols, hit q = false) :
    ∃ (Q : List (PyCol ℝ)) (p : List Config) (c : C),
      Returns Inv (iterColumns arm conv scene (draws 0) n 0 (ps.map freshPt)) Q ∧
      (∀ col ∈ Q, col.rows.length ≠ 0) ∧
      getShortestPath pq conv Q .dijkstra none = .ok ⟨true, some p, some c⟩ ∧
      p.length = ps.length ∧ (∀ q ∈ p, q.length = d) ∧
      ∀ (i : Nat) (q : Config) (Ts : List M4), p[i]? = some q → samples[i]? = some Ts →
        ∃ T ∈ Ts, ∃ sols q', ikf T = some sols ∧ q' ∈ sols ∧ hit q' = false ∧ q = q'.map conv := by
  have hsp : SamplesOfPts (draws 0) n (ps.map freshPt) samples := by
    refine ⟨by simp [hlen], fun i sp Ts h1 h2 => ?_⟩
    rw [List.getElem?_map, Option.map_eq_some_iff] at h1
    obtain ⟨p, hp, rfl⟩ := h1
    exact hs i p Ts hp h2
  have hfree : ∀ Ts ∈ samples, free ikf hit Ts ≠ [] := by
    intro Ts hTs
    obtain ⟨T, hT, sols, h1, q, h2, h3⟩ := hex Ts hTs
    exact List.ne_nil_of_mem (mem_free.2 ⟨T, hT, sols, h1, h2, h3⟩)
  set Q := samples.map (fun Ts => (PyCol.arr true (if free ikf hit Ts = [] then 0 else d)
    ((free ikf hit Ts).map (List.map conv)) : PyCol ℝ)) with hQ
  have hcols := iterColumns_returns h conv (draws 0) n (ps.map freshPt) 0 samples (by simpa using hsp)
  rw [← hQ] at hcols
  have hcol : ∀ c ∈ Q, ∃ rows, c = .arr true d rows ∧ rows ≠ [] ∧ ∀ x ∈ rows, x.length = d := by
    intro c hc
    obtain ⟨Ts, hTs, rfl⟩ := List.mem_map.1 hc
    have hfr := hfree Ts hTs
    refine ⟨_, by rw [if_neg hfr], by simpa using hfr, fun x hx => ?_⟩
    obtain ⟨q', hq', rfl⟩ := List.mem_map.1 hx
    rw [List.length_map]
    exact free_dof h q' hq'
  have hQlen : Q.length = samples.length := by rw [hQ, List.length_map]
  have hin : InputOK d Q := by
    refine ⟨?_, fun c hc => ?_, fun _ c hc => ?_⟩
    · intro he
      rw [he, hlen] at hQlen
      exact hne (List.length_eq_zero_iff.1 hQlen.symm)
    · obtain ⟨rows, rfl, h1, h2⟩ := hcol c hc
      exact ⟨rfl, h1, h2⟩
    · obtain ⟨rows, rfl, h1, h2⟩ := hcol c hc
      rfl
  obtain ⟨p, c, h1, h2, -⟩ := C11_dijkstra_sound hno pq hl conv d Q hin none
    (effWeights C d []) rfl (fun x _ y _ => hfin x y)
  obtain ⟨hplen, hpget⟩ := selection_get h2
  refine ⟨Q, p, c, hcols, ?_, h1, by rw [hplen, List.length_map, hQlen, hlen], ?_, ?_⟩
  · intro c' hc'
    obtain ⟨rows, rfl, hr, -⟩ := hcol c' hc'
    exact fun h0 => hr (List.length_eq_zero_iff.1 h0)
  · intro q hq
    obtain ⟨i, hi⟩ := List.getElem?_of_mem hq
    obtain ⟨col, hc, hm⟩ := hpget i q hi
    rw [List.getElem?_map, Option.map_eq_some_iff] at hc
    obtain ⟨c', hc', rfl⟩ := hc
    obtain ⟨rows, rfl, -, hlen⟩ := hcol c' (List.mem_of_getElem? hc')
    exact hlen q hm
  · intro i q Ts hq hT
    obtain ⟨col, hc, hm⟩ := hpget i q hq
    rw [hQ, List.getElem?_map, List.getElem?_map, hT] at hc
    cases hc
    obtain ⟨q', hq', e⟩ := List.mem_map.1 hm
    obtain ⟨T, hT, sols, a1, a2, a3⟩ := mem_free.1 hq'
    exact ⟨T, hT, sols, q', a1, a2, a3, e.symm⟩

/-- **C136** in the planner: when every path point has a collision-free solution in the first round, and
the poses of all (rounded) solutions of one path point are refused, the planner raises ValueError
after its first search, instead of going on or reporting that search. -/
theorem C136_planner (h : Determined arm scene Inv ikf hit d)
    (hfk : ∀ q, q.length = d → Returns Inv (arm.fk q) (fkf q))
    {pq : PQ C Config} (hl : Lawful pq) (hno : PyGraph.NoOverflow C)
    (hfin : ∀ x y : Config, stepCost C (effWeights C d []) x y < ⊤) (conv : ℝ → ℝ)
    {draws : Nat → Nat → Draws} {n : Nat} {ps : List FreeOrientationPt} (time : Nat → ℝ)
    {maxIters : Nat} (hm : 1 ≤ maxIters) {samples : List (List M4)} (hlen : samples.length = ps.length)
    (hs : ∀ i p Ts, ps[i]? = some p → samples[i]? = some Ts →
      getSamples (draws 0 i) n (some (Real.pi / 4)) (.free p) = .ok Ts)
    (hex : ∀ Ts ∈ samples, ∃ T ∈ Ts, ∃ sols, ikf T = some sols ∧ ∃ q ∈ sols, hit q = false)
    (hbad : ∃ Ts ∈ samples, ∀ T ∈ Ts, ∀ sols, ikf T = some sols → ∀ q ∈ sols, hit q = false →
      Quat.ofRotation (rotPart (fkf (q.map conv))) = .error .valueError) :
    Raises Inv (cartToJointIterative arm pq conv draws time (ps.map .free) scene n maxIters)
      (.py .valueError) := by
  obtain ⟨m, rfl⟩ : ∃ m, maxIters = m + 1 := ⟨maxIters - 1, by omega⟩
  obtain ⟨Ts, hTs, hb⟩ := hbad
  have hne : ps ≠ [] := by
    rintro rfl
    exact List.ne_nil_of_mem hTs (List.length_eq_zero_iff.1 hlen)
  obtain ⟨Q, p, c, hcols, hQ, h1, hplen, hpd, hpget⟩ :=
    first_search h hl hno hfin conv hne hlen hs hex
  obtain ⟨i, hi, rfl⟩ := List.getElem_of_mem hTs
  have hip : i < p.length := by omega
  have hpbad : ∃ q ∈ p, Quat.ofRotation (rotPart (fkf q)) = .error .valueError := by
    refine ⟨p[i], List.getElem_mem hip, ?_⟩
    obtain ⟨T, hT, sols, q', a1, a2, a3, e⟩ := hpget i _ _ (List.getElem?_eq_getElem hip)
      (List.getElem?_eq_getElem hi)
    rw [e]
    exact hb T hT sols a1 q' a2 a3
  have hres := resampleAll_raises hfk p (ps.map freshPt) (by simpa using hplen) hpd (fun sp hsp => by
      obtain ⟨p, -, rfl⟩ := List.mem_map.1 hsp
      rfl) hpbad
  unfold cartToJointIterative
  refine Returns.bind_raises (Returns.lift (a := ps.map freshPt) (by rw [C63_partial]; rfl)) ?_
  refine Raises.bind ?_
  unfold iterLoop
  refine Raises.bind ?_
  unfold iterRound
  refine Returns.bind_raises hcols ?_
  rw [if_pos hQ]
  refine Returns.bind_raises (Returns.lift h1) ?_
  simp only [if_true]
  exact Raises.bind hres

/-- With the published pyquaternion and any arithmetic in `fk`: asked for two rounds or more, the planner
never gets past the second round. -/
theorem C136_stock (h : Determined arm scene Inv ikf hit d)
    (hfk : ∀ q, q.length = d → Returns Inv (arm.fk q) (fkf q))
    {pq : PQ C Config} (hl : Lawful pq) (hno : PyGraph.NoOverflow C)
    (hfin : ∀ x y : Config, stepCost C (effWeights C d []) x y < ⊤) (conv : ℝ → ℝ)
    {draws : Nat → Nat → Draws} (hdr : ∀ k i, (draws k i).near = none) {n : Nat} (hn : 0 < n)
    {ps : List FreeOrientationPt} (hne : ps ≠ []) (time : Nat → ℝ) {maxIters : Nat}
    (hm : 2 ≤ maxIters) {samples : List (List M4)} (hlen : samples.length = ps.length)
    (hs : ∀ i p Ts, ps[i]? = some p → samples[i]? = some Ts →
      getSamples (draws 0 i) n (some (Real.pi / 4)) (.free p) = .ok Ts)
    (hex : ∀ Ts ∈ samples, ∃ T ∈ Ts, ∃ sols, ikf T = some sols ∧ ∃ q ∈ sols, hit q = false) :
    Raises Inv (cartToJointIterative arm pq conv draws time (ps.map .free) scene n maxIters)
        (.py .valueError) ∨
      Raises Inv (cartToJointIterative arm pq conv draws time (ps.map .free) scene n maxIters)
        (.py .attributeError) := by
  obtain ⟨m, rfl⟩ : ∃ m, maxIters = m + 2 := ⟨maxIters - 2, by omega⟩
  obtain ⟨Q, p, c, hcols, hQ, h1, hplen, hpd, -⟩ :=
    first_search h hl hno hfin conv hne hlen hs hex
  have hori : ∀ sp ∈ ps.map freshPt, sp.tolType = .tolOri := fun sp hsp => by
    obtain ⟨p, -, rfl⟩ := List.mem_map.1 hsp
    rfl
  by_cases hbad : ∃ q ∈ p, Quat.ofRotation (rotPart (fkf q)) = .error .valueError
  · left
    have hres := resampleAll_raises hfk p (ps.map freshPt) (by simpa using hplen) hpd hori hbad
    unfold cartToJointIterative
    refine Returns.bind_raises (Returns.lift (a := ps.map freshPt) (by rw [C63_partial]; rfl)) ?_
    refine Raises.bind ?_
    unfold iterLoop
    refine Raises.bind ?_
    unfold iterRound
    refine Returns.bind_raises hcols ?_
    rw [if_pos hQ]
    refine Returns.bind_raises (Returns.lift h1) ?_
    simp only [if_true]
    exact Raises.bind hres
  · right
    have hgood : ∀ q ∈ p, ∃ o, Quat.ofRotation (rotPart (fkf q)) = .ok o := by
      intro q hq
      cases e : Quat.ofRotation (rotPart (fkf q)) with
      | ok o => exact ⟨o, rfl⟩
      | error e' =>
        rw [ofRotation_error e] at e
        exact absurd ⟨q, hq, e⟩ hbad
    obtain ⟨pts', g1, g2, g3⟩ := resampleAll_good hfk p (ps.map freshPt) (by simpa using hplen) hpd
      hori hgood
    unfold cartToJointIterative
    refine Returns.bind_raises (Returns.lift (a := ps.map freshPt) (by rw [C63_partial]; rfl)) ?_
    refine Raises.bind ?_
    unfold iterLoop
    refine Returns.bind_raises (a := some ⟨pts', [] ++ [c], [] ++ [p], [] ++ [time 0],
      some ⟨true, some p, some c⟩⟩) ?_ ?_
    · unfold iterRound
      refine Returns.bind hcols ?_
      rw [if_pos hQ]
      refine Returns.bind (Returns.lift h1) ?_
      simp only [if_true]
      exact Returns.bind g1 (Returns.pure _)
    · unfold iterLoop
      refine Raises.bind ?_
      unfold iterRound
      refine Raises.bind ?_
      cases hp : pts' with
      | nil =>
        rw [hp] at g2
        simp at g2
        exact absurd (List.length_eq_zero_iff.1 g2.symm) hne
      | cons sp rest =>
        obtain ⟨pt, hpt⟩ := g3 sp (by simp [hp])
        unfold iterColumns
        refine Raises.bind (Raises.lift ?_)
        unfold getSamples
        simp only [hpt, hdr, C50_tolOrientation_stock _ hn]
        rfl

/-- A robot that always answers with `(1, 1, 0, 0, 0, 0)` and has the links of the Kuka. -/
def stubArm (t : Trig) : Arm Unit Unit where
  ik _ := pure (some [[1, 1, 0, 0, 0, 0]])
  ikFixed _ _ := pure none
  isInCollision _ _ := pure false
  fk q := pure (fkAtBy t (Kuka.new 0.18 0.6 0.62 0.115 0).robot q)

/-- The hypotheses of C136_planner can be met. -/
example {t : Trig} (ht : Rounds32 t) :
    Raises (fun _ : Unit => True)
      (cartToJointIterative (C := WithTop ℝ) (stubArm t)
        stdHeap id (fun _ _ => ⟨fun n => n, 0, fun _ => (0, 0, 0), none⟩) (fun _ => 0)
        ([FreeOrientationPt.new 0].map .free) ⟨[], []⟩ 5 1) (.py .valueError) := by
  obtain ⟨Ts, h1, h2⟩ := C50_random (fun n => n) 0 (rnd := fun _ => (0, 0, 0))
    (fun i => by simp [InUnit]) 0 5 (m := none) (Or.inl rfl)
  obtain ⟨T, Ts, rfl⟩ : ∃ T Ts', Ts = T :: Ts' := List.exists_cons_of_length_eq_add_one h2.1
  refine C136_planner (fkf := fkAtBy t (Kuka.new 0.18 0.6 0.62 0.115 0).robot)
    (ikf := fun _ => some [[1, 1, 0, 0, 0, 0]]) (hit := fun _ => false) (samples := [T :: Ts]) (d := 6)
    ⟨fun T => Returns.pure _, ?_, fun q _ => Returns.pure _⟩ (fun q _ => Returns.pure _)
    stdHeapLawful noOverflow_real (stepCost_real _) id _ le_rfl rfl (fun i p Ts' hp hT => ?_)
    (fun Ts' hTs' => ⟨T, ?_, _, rfl, [1, 1, 0, 0, 0, 0], by simp, rfl⟩)
    ⟨_, List.mem_singleton.2 rfl, fun T _ sols hs q hq _ => ?_⟩
  · rintro T sols ⟨⟩ q hq
    rw [List.mem_singleton] at hq
    rw [hq]; rfl
  · cases i with
    | zero =>
      cases hp; cases hT
      unfold getSamples; simp only [h1]; rfl
    | succ i => simp at hp
  · rw [List.mem_singleton] at hTs'
    subst hTs'
    simp
  · cases hs
    rw [List.mem_singleton] at hq
    subst hq
    rw [List.map_id]
    exact C136_refused ht _ _ _ _ _

end

end Verif.Props
