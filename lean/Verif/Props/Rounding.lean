import Verif.Props.GridComplete
import Mathlib.Analysis.InnerProductSpace.PiL2
import Mathlib.Analysis.SpecialFunctions.Trigonometric.Bounds

/-! # C112: how far the robot moves when joint values are rounded

The planners store configurations as float32 (planning.py:115, 256, 310), so that what they return is
not exactly what `ik` and `is_in_collision` saw. -/

set_option linter.unusedSectionVars false

namespace Verif.Props

open Matrix Verif Verif.Path Verif.Geometry Verif.Kin Verif.ShortestPath Verif.Task Verif.CppGraph
  Verif.Search Verif.Planning Verif.Spec Verif.Plot Verif.Gui Verif.Util

noncomputable section

variable {S : Type}

/-- The length of a vector. -/
def vlen (v : V3) : ℝ := Real.sqrt (v ⬝ᵥ v)

/-- The distance of two points. -/
def gap (x y : V3) : ℝ := Real.sqrt (dist2 x y)

theorem vlen_eq (v : V3) : vlen v = ‖(WithLp.toLp 2 v : EuclideanSpace ℝ (Fin 3))‖ := by
  rw [vlen, EuclideanSpace.norm_eq]
  congr 1
  simp [dotProduct, pow_two]

theorem gap_eq (x y : V3) : gap x y = vlen (x - y) := rfl

theorem vlen_add (v w : V3) : vlen (v + w) ≤ vlen v + vlen w := by
  simp only [vlen_eq, WithLp.toLp_add]
  exact norm_add_le _ _

theorem vlen_nonneg (v : V3) : 0 ≤ vlen v := Real.sqrt_nonneg _

theorem gap_comm (x y : V3) : gap x y = gap y x := by
  have : (x - y) ⬝ᵥ (x - y) = (y - x) ⬝ᵥ (y - x) := by
    rw [← neg_sub y x, neg_dotProduct_neg]
  rw [gap, gap, dist2, dist2, this]

theorem gap_triangle (x y z : V3) : gap x z ≤ gap x y + gap y z := by
  simp only [gap_eq]
  have := vlen_add (x - y) (y - z)
  rwa [sub_add_sub_cancel] at this

theorem vlen_rot {R : M3} (hR : IsRot R) (v : V3) : vlen (R *ᵥ v) = vlen v := by
  rw [vlen, vlen]
  congr 1
  rw [Matrix.dotProduct_mulVec, Matrix.vecMul_mulVec, hR.1, Matrix.vecMul_one]

theorem gap_rigid {T : M4} (hT : IsRigid T) (x y : V3) : gap (act T x) (act T y) = gap x y := by
  rw [gap_eq, gap_eq, act, act, add_sub_add_right_eq_sub, ← Matrix.mulVec_sub, vlen_rot hT.1]

theorem vlen_rotZ_sub (s t : ℝ) (v : V3) : vlen (rotZ s *ᵥ v - rotZ t *ᵥ v) ≤ |s - t| * vlen v := by
  rw [vlen, vlen, ← Real.sqrt_sq_eq_abs, ← Real.sqrt_mul (sq_nonneg _)]
  apply Real.sqrt_le_sqrt
  have e1 : (rotZ s *ᵥ v - rotZ t *ᵥ v) ⬝ᵥ (rotZ s *ᵥ v - rotZ t *ᵥ v) =
      (2 - 2 * Real.cos (s - t)) * (v 0 ^ 2 + v 1 ^ 2) := by
    rw [Real.cos_sub]
    simp [rotZ, dotProduct, Matrix.mulVec, Fin.sum_univ_succ]
    have hs := Real.sin_sq_add_cos_sq s
    have ht := Real.sin_sq_add_cos_sq t
    linear_combination (v 0 ^ 2 + v 1 ^ 2) * hs + (v 0 ^ 2 + v 1 ^ 2) * ht
  have e2 : v ⬝ᵥ v = v 0 ^ 2 + v 1 ^ 2 + v 2 ^ 2 := by
    simp [dotProduct, Fin.sum_univ_succ]; ring
  rw [e1, e2]
  have h1 := Real.one_sub_sq_div_two_le_cos (x := s - t)
  have h2 : 2 - 2 * Real.cos (s - t) ≤ (s - t) ^ 2 := by linarith
  calc (2 - 2 * Real.cos (s - t)) * (v 0 ^ 2 + v 1 ^ 2)
      ≤ (s - t) ^ 2 * (v 0 ^ 2 + v 1 ^ 2) := mul_le_mul_of_nonneg_right h2 (by positivity)
    _ ≤ (s - t) ^ 2 * (v 0 ^ 2 + v 1 ^ 2 + v 2 ^ 2) :=
      mul_le_mul_of_nonneg_left (by nlinarith [sq_nonneg (v 2)]) (sq_nonneg _)

/-! ### One link -/

/-- The distance between the frames at the two ends of a link. -/
def linkLength (l : Link S) (q : ℝ) : ℝ :=
  Real.sqrt (l.dh.a ^ 2 + (if l.jointType = .p then q else l.dh.d) ^ 2)

/-- How far from the first joint a point can get whose distance from the last frame is `x`. -/
def reachOf : List (Link S) → List ℝ → ℝ → ℝ
  | l :: ls, q :: qs, x => linkLength l q + reachOf ls qs x
  | _, _, x => x

/-- The sum over the joints of what each contributes: the change of the joint value, times the reach
from there if the joint is revolute. -/
def movedBy : List (Link S) → List ℝ → List ℝ → ℝ → ℝ
  | l :: ls, q :: qs, q' :: qs', x =>
    |q - q'| * (if l.jointType = .p then 1 else reachOf (l :: ls) (q' :: qs') x) +
      movedBy ls qs qs' x
  | _, _, _, _ => 0

theorem dhMat_last (a alpha d theta : ℝ) : dhMat a alpha d theta 3 = ![0, 0, 0, 1] := by
  rw [dhMat_eq, mkTf_last]

/-- The part of the transform of a link that comes after the turn about z. -/
theorem act_dhMat (a alpha d theta : ℝ) (v : V3) : act (dhMat a alpha d theta) v =
    rotZ theta *ᵥ (rotX alpha *ᵥ v + ![a, 0, d]) := by
  rw [dhMat_eq, act, rotPart_mkTf, posPart_mkTf, Matrix.mulVec_add, Matrix.mulVec_mulVec]
  congr 1
  ext i
  fin_cases i <;> simp [rotZ, Matrix.mulVec, dotProduct, Fin.sum_univ_succ] <;> ring

theorem vlen_offset (a d : ℝ) : vlen ![a, 0, d] = Real.sqrt (a ^ 2 + d ^ 2) := by
  rw [vlen]
  congr 1
  simp [dotProduct, Fin.sum_univ_succ]; ring

theorem vlen_link (a alpha d theta : ℝ) (v : V3) :
    vlen (act (dhMat a alpha d theta) v) ≤ Real.sqrt (a ^ 2 + d ^ 2) + vlen v := by
  rw [act_dhMat, vlen_rot (rotZ_isRot theta), ← vlen_offset, add_comm (vlen _)]
  refine (vlen_add _ _).trans ?_
  rw [vlen_rot (rotX_isRot alpha)]

theorem vlen_tf (l : Link S) (q : ℝ) (v : V3) : vlen (act (l.tf q) v) ≤ linkLength l q + vlen v := by
  unfold Link.tf linkLength
  cases l.jointType <;> simpa using vlen_link _ _ _ _ _

theorem gap_turn (a alpha d s t : ℝ) (v : V3) :
    gap (act (dhMat a alpha d s) v) (act (dhMat a alpha d t) v) ≤
      |s - t| * (Real.sqrt (a ^ 2 + d ^ 2) + vlen v) := by
  rw [gap_eq, act_dhMat, act_dhMat]
  refine (vlen_rotZ_sub _ _ _).trans (mul_le_mul_of_nonneg_left ?_ (abs_nonneg _))
  rw [← vlen_offset, add_comm (vlen _)]
  refine (vlen_add _ _).trans ?_
  rw [vlen_rot (rotX_isRot alpha)]

theorem gap_slide (a alpha theta s t : ℝ) (v : V3) :
    gap (act (dhMat a alpha s theta) v) (act (dhMat a alpha t theta) v) = |s - t| := by
  rw [gap_eq, act_dhMat, act_dhMat, ← Matrix.mulVec_sub, vlen_rot (rotZ_isRot theta),
    add_sub_add_left_eq_sub]
  have : (![a, 0, s] : V3) - ![a, 0, t] = ![0, 0, s - t] := by
    ext i; fin_cases i <;> simp
  rw [this, vlen_offset, zero_pow two_ne_zero, zero_add, Real.sqrt_sq_eq_abs]

theorem gap_tf (l : Link S) (q q' : ℝ) (v : V3) : gap (act (l.tf q) v) (act (l.tf q') v) ≤
    |q - q'| * (if l.jointType = .p then 1 else linkLength l q' + vlen v) := by
  unfold Link.tf linkLength
  cases l.jointType
  · simpa using gap_turn _ _ _ _ _ _
  · simp [gap_slide]
  · simpa using gap_turn _ _ _ _ _ _

/-! ### All links -/

theorem reachOf_mono (ls : List (Link S)) (qs : List ℝ) {x y : ℝ} (h : x ≤ y) :
    reachOf ls qs x ≤ reachOf ls qs y := by
  induction ls generalizing qs with
  | nil => simpa [reachOf] using h
  | cons l ls ih =>
    cases qs with
    | nil => simpa [reachOf] using h
    | cons q qs => simpa [reachOf] using ih qs

theorem chain_cons (l : Link S) (ls : List (Link S)) (q : ℝ) (qs : List ℝ) :
    chain (l :: ls) (q :: qs) = l.tf q * chain ls qs := by simp [chain]

theorem vlen_chain (ls : List (Link S)) (qs : List ℝ) (v : V3) :
    vlen (act (chain ls qs) v) ≤ reachOf ls qs (vlen v) := by
  induction ls generalizing qs with
  | nil => simp [chain, reachOf, act_one]
  | cons l ls ih =>
    cases qs with
    | nil => simp [chain, reachOf, act_one]
    | cons q qs =>
      rw [chain_cons, act_mul (l.tf_rigid q).2 (chain_rigid ls qs).2, reachOf]
      exact (vlen_tf l q _).trans (by linarith [ih qs])

theorem gap_chain (ls : List (Link S)) (qs qs' : List ℝ) (h : ls.length ≤ qs.length)
    (h' : ls.length ≤ qs'.length) (v : V3) :
    gap (act (chain ls qs) v) (act (chain ls qs') v) ≤ movedBy ls qs qs' (vlen v) := by
  induction ls generalizing qs qs' with
  | nil => simp [chain, movedBy, act_one, gap, dist2]
  | cons l ls ih =>
    obtain ⟨q, qs, rfl⟩ := List.exists_cons_of_length_pos (Nat.lt_of_lt_of_le (by simp) h)
    obtain ⟨q', qs', rfl⟩ := List.exists_cons_of_length_pos (Nat.lt_of_lt_of_le (by simp) h')
    rw [chain_cons, chain_cons, act_mul (l.tf_rigid q).2 (chain_rigid ls qs).2,
      act_mul (l.tf_rigid q').2 (chain_rigid ls qs').2, movedBy]
    refine (gap_triangle _ (act (l.tf q) (act (chain ls qs') v)) _).trans ?_
    rw [gap_rigid (l.tf_rigid q), add_comm]
    refine add_le_add ((gap_tf l q q' _).trans ?_)
      (ih qs qs' (by simpa using h) (by simpa using h'))
    refine mul_le_mul_of_nonneg_left ?_ (abs_nonneg _)
    split
    · exact le_refl _
    · rw [reachOf]
      linarith [vlen_chain ls qs' v]

theorem chain_take (ls : List (Link S)) (qs : List ℝ) (m : Nat) :
    chain (ls.take m) (qs.take m) = chain (ls.take m) qs := by
  induction ls generalizing qs m with
  | nil => simp [chain]
  | cons l ls ih =>
    cases qs with
    | nil => simp
    | cons q qs =>
      cases m with
      | zero => simp [chain]
      | succ m => rw [List.take_succ_cons, List.take_succ_cons, chain_cons, chain_cons, ih]

/-! ### Theorems -/

/-- **C112**: every point of every link moves by at most the sum, over the joints up to that link, of
the change of the joint value, times the reach from that joint if it is revolute. -/
theorem C112_links (hit : Oracle S) (r : Robot S) (hk : KnownTypes r.links) (hb : IsRigid r.tfBase)
    (history history' : List (Call S)) (hh : ∀ c ∈ history, c.robot.links = r.links)
    (hh' : ∀ c ∈ history', c.robot.links = r.links) (q q' : List ℝ)
    (hq : r.links.length ≤ q.length) (hq' : r.links.length ≤ q'.length) :
    ∃ fs fs' : List M4, (r.fkAllLinks (after hit r.links history) q).1 = .ok fs ∧
      (r.fkAllLinks (after hit r.links history') q').1 = .ok fs' ∧
      fs.length = r.links.length ∧ fs'.length = r.links.length ∧
      ∀ (k : Nat) (F F' : M4), fs[k]? = some F → fs'[k]? = some F' → ∀ v : V3,
        gap (act F v) (act F' v) ≤ movedBy (r.links.take (k + 1)) q q' (vlen v) := by
  obtain ⟨fs, h1, h2, h3, -⟩ := C31_all_links hit r hk history hh q hq
  obtain ⟨fs', h1', h2', h3', -⟩ := C31_all_links hit r hk history' hh' q' hq'
  refine ⟨fs, fs', h1, h1', h2, h2', fun k F F' hF hF' v => ?_⟩
  have hlt : k < r.links.length := by
    have := (List.getElem?_eq_some_iff.1 hF).1
    omega
  rw [h3 k hlt] at hF
  rw [h3' k hlt] at hF'
  cases hF
  cases hF'
  rw [linkProduct_eq, linkProduct_eq, act_mul hb.2 (chain_rigid _ _).2,
    act_mul hb.2 (chain_rigid _ _).2, gap_rigid hb]
  rw [chain_take, chain_take]
  exact gap_chain _ _ _ (by rw [List.length_take]; omega) (by rw [List.length_take]; omega) v

/-- **C112** for the end effector and all that moves with it. -/
theorem C112_fk (hit : Oracle S) (r : Robot S) (hk : KnownTypes r.links) (hb : IsRigid r.tfBase)
    (ht : ∀ tool, r.tool = some tool → IsRigid tool.tfTT)
    (history history' : List (Call S)) (hh : ∀ c ∈ history, c.robot.links = r.links)
    (hh' : ∀ c ∈ history', c.robot.links = r.links) (q q' : List ℝ)
    (hq : r.links.length ≤ q.length) (hq' : r.links.length ≤ q'.length) :
    ∃ F F' : M4, (r.fk (after hit r.links history) q).1 = .ok F ∧
      (r.fk (after hit r.links history') q').1 = .ok F' ∧
      ∀ v : V3, gap (act F v) (act F' v) ≤
        movedBy r.links q q' (vlen (act ((r.tool.map Tool.tfTT).getD 1) v)) := by
  refine ⟨_, _, C31_fk hit r hk history hh q hq, C31_fk hit r hk history' hh' q' hq', fun v => ?_⟩
  have htip : IsRigid ((r.tool.map Tool.tfTT).getD 1) := by
    cases h : r.tool with
    | none => exact IsRigid.one
    | some t => exact ht t h
  rw [linkProduct_eq, linkProduct_eq, act_mul (hb.mul (chain_rigid _ _)).2 htip.2,
    act_mul (hb.mul (chain_rigid _ _)).2 htip.2, act_mul hb.2 (chain_rigid _ _).2,
    act_mul hb.2 (chain_rigid _ _).2, gap_rigid hb]
  exact gap_chain _ _ _ hq hq' _

theorem movedBy_kuka (a1 a2 d4 d6 x δ : ℝ) (hx : 0 ≤ x) {q1 q2 q3 q4 q5 q6 p1 p2 p3 p4 p5 p6 : ℝ}
    (h1 : |q1 - p1| ≤ δ) (h2 : |q2 - p2| ≤ δ) (h3 : |q3 - p3| ≤ δ) (h4 : |q4 - p4| ≤ δ)
    (h5 : |q5 - p5| ≤ δ) (h6 : |q6 - p6| ≤ δ) :
    movedBy (kukaRobot a1 a2 d4 d6).links [q1, q2, q3, q4, q5, q6] [p1, p2, p3, p4, p5, p6] x ≤
      δ * (|a1| + 2 * |a2| + 4 * |d4| + 6 * |d6| + 6 * x) := by
  have e : movedBy (kukaRobot a1 a2 d4 d6).links [q1, q2, q3, q4, q5, q6] [p1, p2, p3, p4, p5, p6] x =
      |q1 - p1| * (|a1| + |a2| + |d4| + |d6| + x) + |q2 - p2| * (|a2| + |d4| + |d6| + x) +
      |q3 - p3| * (|d4| + |d6| + x) + |q4 - p4| * (|d4| + |d6| + x) + |q5 - p5| * (|d6| + x) +
      |q6 - p6| * (|d6| + x) := by
    simp [movedBy, reachOf, linkLength, kukaRobot, Robot.new, Real.sqrt_sq_eq_abs]
    ring
  rw [e]
  have n1 := abs_nonneg a1
  have n2 := abs_nonneg a2
  have n4 := abs_nonneg d4
  have n6 := abs_nonneg d6
  have m1 := mul_le_mul_of_nonneg_right h1 (show 0 ≤ |a1| + |a2| + |d4| + |d6| + x by positivity)
  have m2 := mul_le_mul_of_nonneg_right h2 (show 0 ≤ |a2| + |d4| + |d6| + x by positivity)
  have m3 := mul_le_mul_of_nonneg_right h3 (show 0 ≤ |d4| + |d6| + x by positivity)
  have m4 := mul_le_mul_of_nonneg_right h4 (show 0 ≤ |d4| + |d6| + x by positivity)
  have m5 := mul_le_mul_of_nonneg_right h5 (show 0 ≤ |d6| + x by positivity)
  have m6 := mul_le_mul_of_nonneg_right h6 (show 0 ≤ |d6| + x by positivity)
  linarith

/-- **C112** for the Kuka: if no joint value changes by more than `δ`, a point of the tool at distance
`x` from the wrist flange moves by at most `δ (a1 + 2 a2 + 4 d4 + 6 d6 + 6 x)`. -/
theorem C112_kuka (hit : Oracle Shape) (a1 a2 d4 d6 : ℝ) (n : Nat) {base : M4} (hb : IsRigid base)
    (tool : Option (Tool Shape)) (ht : ∀ t, tool = some t → IsRigid t.tfTT) (δ : ℝ)
    {q1 q2 q3 q4 q5 q6 p1 p2 p3 p4 p5 p6 : ℝ}
    (h1 : |q1 - p1| ≤ δ) (h2 : |q2 - p2| ≤ δ) (h3 : |q3 - p3| ≤ δ) (h4 : |q4 - p4| ≤ δ)
    (h5 : |q5 - p5| ≤ δ) (h6 : |q6 - p6| ≤ δ) {T : M4}
    (hT : FkSatisfies hit (setup (Kuka.new a1 a2 d4 d6 n) base tool).robot [p1, p2, p3, p4, p5, p6]
      (· = T)) :
    FkSatisfies hit (setup (Kuka.new a1 a2 d4 d6 n) base tool).robot [q1, q2, q3, q4, q5, q6]
      fun F => ∀ v : V3, gap (act F v) (act T v) ≤ δ * (|a1| + 2 * |a2| + 4 * |d4| + 6 * |d6| +
        6 * vlen (act ((tool.map Tool.tfTT).getD 1) v)) := by
  intro history hh
  have hk : KnownTypes (setup (Kuka.new a1 a2 d4 d6 n) base tool).robot.links := by
    intro l hl
    simp only [setup, Kuka.new, kukaRobot, Robot.new, List.mem_cons, List.not_mem_nil, or_false] at hl
    rcases hl with rfl | rfl | rfl | rfl | rfl | rfl <;> simp
  obtain ⟨F, F', e1, e2, h⟩ := C112_fk hit (setup (Kuka.new a1 a2 d4 d6 n) base tool).robot hk hb ht
    history history hh hh [q1, q2, q3, q4, q5, q6] [p1, p2, p3, p4, p5, p6] (le_refl _) (le_refl _)
  obtain ⟨F'', e3, rfl⟩ := hT history hh
  rw [e2] at e3
  cases e3
  exact ⟨F, e1, fun v => (h v).trans
    (movedBy_kuka a1 a2 d4 d6 _ δ (vlen_nonneg _) h1 h2 h3 h4 h5 h6)⟩

/-- **C112**, the grid planner with a Kuka: what is returned at a point of the path is the rounding of
a collision free configuration; and if the rounding changes no joint value by more than `δ`, then every
point of the tool is within `δ (a1 + 2 a2 + 4 d4 + 6 d6 + 6 x)` of its place in the sampled frame. -/
theorem C112_plan [Zeros] {C O : Type} [CostArith C] [JointArith ℝ C] (hit : Oracle Shape)
    {a1 a2 d4 d6 : ℝ}
    (ha : a2 * d4 ≠ 0) (n : Nat) {base : M4} (hb : IsRigid base) (tool : Option (Tool Shape))
    (htt : ∀ t, tool = some t → IsRigid t.tfTT) (scene : Collection Shape) (t : PlanningTask Shape)
    (ht : t.scene = some scene) (pq : PQ C Config) (conv : ℝ → ℝ) (draws : Nat → Nat → Draws)
    (time : Nat → ℝ) (fuel : Nat)
    (optimal : List PathPt → Collection Shape → Nat → List (List ℝ) →
      Run (RState × RState × Mem) O)
    {w w' : RState × RState × Mem} (hw : KukaOK n w) {r : SolveRes C O}
    (hr : PlanningTask.solve t (kukaRef hit (setup (Kuka.new a1 a2 d4 d6 n) base tool)).toArm pq conv
      draws time fuel optimal (some "grid") w = (.ok r, w')) :
    ∃ pr : PlanRes ℝ C, r = .plan pr ∧ (pr.success = true → ∃ path, pr.path = some path ∧
      path.length = t.path.length ∧
      ∀ (i : Nat) (q : Config), path[i]? = some q → ∃ tp Ts T q1 q2 q3 q4 q5 q6,
        t.path[i]? = some tp ∧ getSamples (draws 0 i) t.gridSamples none tp = .ok Ts ∧ T ∈ Ts ∧
        q = [q1, q2, q3, q4, q5, q6].map conv ∧
        ¬ SceneTouch hit (setup (Kuka.new a1 a2 d4 d6 n) base tool).robot [q1, q2, q3, q4, q5, q6]
          scene ∧
        ¬ SelfTouch hit (setup (Kuka.new a1 a2 d4 d6 n) base tool).robot [q1, q2, q3, q4, q5, q6] ∧
        ∀ δ : ℝ, (∀ x ∈ [q1, q2, q3, q4, q5, q6], |conv x - x| ≤ δ) →
          IsRigid T → Real.cos q3 ≠ 0 → Real.sin q5 ≠ 0 →
          FkSatisfies hit (setup (Kuka.new a1 a2 d4 d6 n) base tool).robot q
            fun F => ∀ v : V3, gap (act F v) (act T v) ≤ δ * (|a1| + 2 * |a2| + 4 * |d4| + 6 * |d6| +
              6 * vlen (act ((tool.map Tool.tfTT).getD 1) v))) := by
  obtain ⟨pr, e, h⟩ := C66_kuka hit ha n hb tool htt scene t ht pq conv draws time fuel optimal hw hr
  refine ⟨pr, e, fun hs => ?_⟩
  obtain ⟨path, h1, h2, h3⟩ := h hs
  refine ⟨path, h1, h2, fun i q hq => ?_⟩
  obtain ⟨tp, Ts, T, q1, q2, q3, q4, q5, q6, f1, f2, f3, f4, f5, f6, f7⟩ := h3 i q hq
  refine ⟨tp, Ts, T, q1, q2, q3, q4, q5, q6, f1, f2, f3, f4, f5, f6, fun δ hδ g1 g2 g3 => ?_⟩
  rw [f4]
  exact C112_kuka hit a1 a2 d4 d6 n hb tool htt δ (hδ q1 (by simp)) (hδ q2 (by simp))
    (hδ q3 (by simp)) (hδ q4 (by simp)) (hδ q5 (by simp)) (hδ q6 (by simp)) (f7 g1 g2 g3)

/-- **C112**, distances from obstacles: a box of link `k` that keeps the distance `d` from an obstacle
at joint values `q'` keeps, point by point, `d` minus the movement at joint values `q`. -/
theorem C112_margin (r : Robot Shape) (hb : IsRigid r.tfBase) (q q' : List ℝ)
    (hq : r.links.length ≤ q.length) (hq' : r.links.length ≤ q'.length) {k : Nat}
    (hk : k < r.links.length) {tf : M4} (htf : IsRigid tf) (s o : Shape) (tfo : M4) (d m : ℝ)
    (hm : ∀ u ∈ boxPoints s, movedBy (r.links.take (k + 1)) q q' (vlen (act tf u)) ≤ m)
    (hd : ∀ u ∈ boxPoints s, ∀ v ∈ boxPoints o, d ≤ gap (act (frameOf r q' k * tf) u) (act tfo v)) :
    ∀ u ∈ boxPoints s, ∀ v ∈ boxPoints o,
      d - m ≤ gap (act (frameOf r q k * tf) u) (act tfo v) := by
  intro u hu v hv
  have h1 := hd u hu v hv
  have hrig : ∀ q, IsRigid (frameOf r q k) := fun q => by
    rw [frameOf, linkProduct_eq]
    exact hb.mul (chain_rigid _ _)
  have h2 : gap (act (frameOf r q' k * tf) u) (act (frameOf r q k * tf) u) ≤ m := by
    refine le_trans ?_ (hm u hu)
    rw [act_mul (hrig q').2 htf.2, act_mul (hrig q).2 htf.2, frameOf, frameOf, linkProduct_eq,
      linkProduct_eq, act_mul hb.2 (chain_rigid _ _).2, act_mul hb.2 (chain_rigid _ _).2,
      gap_rigid hb, gap_comm, chain_take, chain_take]
    exact gap_chain _ _ _ (by rw [List.length_take]; omega) (by rw [List.length_take]; omega) _
  linarith [gap_triangle (act (frameOf r q' k * tf) u) (act (frameOf r q k * tf) u) (act tfo v)]

/-- A configuration and its frame, as `C112_kuka` asks for. -/
example (hit : Oracle Shape) : ∃ T : M4,
    FkSatisfies hit (setup (Kuka.new 0.18 0.6 0.62 0.115 0) 1 none).robot [0.1, 1.5, 0.2, 0, 1, 2]
      (· = T) := by
  refine ⟨_, fun history hh => ⟨_, C31_fk hit _ ?_ history hh _ (le_refl _), rfl⟩⟩
  intro l hl
  simp only [setup, Kuka.new, kukaRobot, Robot.new, List.mem_cons, List.not_mem_nil, or_false] at hl
  rcases hl with rfl | rfl | rfl | rfl | rfl | rfl <;> simp

/-- The default Kuka with float32 joint values between -4 and 4 (spacing at most 2^-22): the flange is
off by less than a micrometre. -/
example (hit : Oracle Shape) {q1 q2 q3 q4 q5 q6 p1 p2 p3 p4 p5 p6 : ℝ}
    (h1 : |q1 - p1| ≤ 1 / 2 ^ 23) (h2 : |q2 - p2| ≤ 1 / 2 ^ 23) (h3 : |q3 - p3| ≤ 1 / 2 ^ 23)
    (h4 : |q4 - p4| ≤ 1 / 2 ^ 23) (h5 : |q5 - p5| ≤ 1 / 2 ^ 23) (h6 : |q6 - p6| ≤ 1 / 2 ^ 23) {T : M4}
    (hT : FkSatisfies hit (setup (Kuka.new 0.18 0.6 0.62 0.115 0) 1 none).robot
      [p1, p2, p3, p4, p5, p6] (· = T)) :
    FkSatisfies hit (setup (Kuka.new 0.18 0.6 0.62 0.115 0) 1 none).robot [q1, q2, q3, q4, q5, q6]
      fun F => gap (posPart F) (posPart T) ≤ 1 / 10 ^ 6 := by
  intro history hh
  obtain ⟨F, e, h⟩ := C112_kuka hit 0.18 0.6 0.62 0.115 0 IsRigid.one none (by simp) _ h1 h2 h3 h4 h5
    h6 hT history hh
  refine ⟨F, e, ?_⟩
  have h0 := h 0
  have e0 : vlen (act ((Option.map Tool.tfTT (none : Option (Tool Shape))).getD 1) 0) = 0 := by
    simp [act_one, vlen]
  rw [e0] at h0
  have e1 : ∀ A : M4, act A 0 = posPart A := fun A => by simp [act]
  rw [e1, e1] at h0
  refine h0.trans ?_
  norm_num [abs_of_pos]

end

end Verif.Props
