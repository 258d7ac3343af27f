import Verif.Props.Robots

/-!
# C103: the collision shapes of the shipped robots cover the arm

The arm, reduced to the line from the base through the origins of the link frames (what
`plot_kinematics` draws), has to lie inside the collision shapes, or a collision check can miss an
obstacle the arm runs through.
-/

set_option linter.unusedSectionVars false

namespace Verif.Props

open Matrix Verif.Geometry Verif.Kin Verif.Util

/-- The frame before link `k`: the base for `k = 0`, else the frame of link `k - 1`. -/
noncomputable def frameBefore (r : Robot Shape) (q : List ℝ) (k : Nat) : M4 :=
  r.tfBase * linkProduct (r.links.take k) (q.take k)

/-- The points on the lines that join the origins of consecutive frames, from link `first` on. -/
def skeletonFrom (first : Nat) (r : Robot Shape) (q : List ℝ) : Set V3 :=
  {x | ∃ k, first ≤ k ∧ k < r.links.length ∧ ∃ s : ℝ, 0 ≤ s ∧ s ≤ 1 ∧
    x = (1 - s) • posPart (frameBefore r q k) + s • posPart (frameBefore r q (k + 1))}

/-- The points inside the shapes of the links. -/
def linkPoints (r : Robot Shape) (q : List ℝ) : Set V3 :=
  {x | ∃ (k i : Nat) (l : Link Shape) (s : Shape) (t : M4), r.links[k]? = some l ∧
    l.geometry.s[i]? = some s ∧ l.geometry.tfS[i]? = some t ∧
    x ∈ act (frameOf r q k * t) '' boxPoints s}

theorem frameBefore_succ (r : Robot Shape) {q : List ℝ} {k : Nat} {l : Link Shape} {x : ℝ}
    (hl : r.links[k]? = some l) (hq : q[k]? = some x) :
    frameBefore r q (k + 1) = frameBefore r q k * l.tf x := by
  unfold frameBefore
  rw [List.take_add_one, List.take_add_one, hl, hq, linkProduct_eq, linkProduct_eq, chain, chain]
  have hk := (List.getElem?_eq_some_iff.1 hl).1
  have hk' := (List.getElem?_eq_some_iff.1 hq).1
  rw [Option.toList_some, Option.toList_some, List.zipWith_append (by simp; omega)]
  simp [mul_assoc]

theorem frameBefore_row (r : Robot Shape) (hb : IsRigid r.tfBase) (q : List ℝ) (k : Nat) :
    frameBefore r q k 3 = ![0, 0, 0, 1] := by
  unfold frameBefore
  rw [linkProduct_eq]
  exact (hb.mul (chain_rigid _ _)).2

/-- The origin of the frame before a link, seen from the frame of the link. -/
theorem dh_origin (a alpha d theta : ℝ) :
    rotPart (dhMat a alpha d theta) *ᵥ ![-a, -d * Real.sin alpha, -d * Real.cos alpha] =
      -posPart (dhMat a alpha d theta) := by
  have h1 := Real.sin_sq_add_cos_sq alpha
  ext i
  fin_cases i
  · simp [dhMat, rotPart, posPart, Matrix.mulVec, dotProduct, Fin.sum_univ_three]
    ring
  · simp [dhMat, rotPart, posPart, Matrix.mulVec, dotProduct, Fin.sum_univ_three]
    ring
  · simp [dhMat, rotPart, posPart, Matrix.mulVec, dotProduct, Fin.sum_univ_three]
    linear_combination (-d) * h1

/-- A point on the line of a link, seen from the frame of the link and from the one before. -/
theorem segment_point {A : M4} (hA : A 3 = ![0, 0, 0, 1]) (a alpha d theta s : ℝ) :
    (1 - s) • posPart A + s • posPart (A * dhMat a alpha d theta) =
      act (A * dhMat a alpha d theta)
        ((1 - s) • ![-a, -d * Real.sin alpha, -d * Real.cos alpha]) ∧
    (1 - s) • posPart A + s • posPart (A * dhMat a alpha d theta) =
      act A (s • ![a * Real.cos theta, a * Real.sin theta, d]) := by
  have hM := (dhMat_rigid a alpha d theta).2
  have hp : posPart (dhMat a alpha d theta) = ![a * Real.cos theta, a * Real.sin theta, d] := by
    rw [dhMat_eq, posPart_mkTf]
  have h2 : (1 - s) • posPart A + s • posPart (A * dhMat a alpha d theta) =
      act A (s • ![a * Real.cos theta, a * Real.sin theta, d]) := by
    rw [posPart_mul hA hM, hp]
    unfold act
    rw [Matrix.mulVec_smul, smul_add, sub_smul, one_smul]
    abel
  refine ⟨?_, h2⟩
  rw [h2, act_mul hA hM]
  congr 1
  rw [act, Matrix.mulVec_smul, dh_origin, hp, sub_smul, one_smul, smul_neg]
  abel

/-- A point is covered when, seen from the frame of link `k`, it is in a box of that link moved
by `c`. -/
theorem covered (r : Robot Shape) (hb : IsRigid r.tfBase) (q : List ℝ) {k : Nat} {l : Link Shape}
    {s : Shape} {c : V3} (hl : r.links[k]? = some l) (hg : l.geometry = ⟨[s], [mkTf 1 c]⟩) {w : V3}
    (h0 : |w 0 - c 0| ≤ s.dx / 2) (h1 : |w 1 - c 1| ≤ s.dy / 2) (h2 : |w 2 - c 2| ≤ s.dz / 2) :
    act (frameBefore r q (k + 1)) w ∈ linkPoints r q := by
  refine ⟨k, 0, l, s, mkTf 1 c, hl, by rw [hg]; rfl, by rw [hg]; rfl, w - c, ⟨h0, h1, h2⟩, ?_⟩
  have hr : (mkTf 1 c) 3 = ![0, 0, 0, 1] := by
    ext j; fin_cases j <;> simp [mkTf]
  have : frameOf r q k = frameBefore r q (k + 1) := rfl
  rw [this, act_mul (frameBefore_row r hb q _) hr]
  congr 1
  simp [act]

theorem poseX_zero (x y z : ℝ) : poseX 0 x y z = mkTf 1 ![x, y, z] := by
  rw [poseX_eq, rotX_zero]

/-- The segments of six consecutive links like those of the Kuka are covered. -/
theorem kuka_segments {a1 a2 d4 d6 : ℝ} (h1 : 0 ≤ a1 ∧ a1 ≤ 0.24) (h2 : 0 ≤ a2 ∧ a2 ≤ 0.7)
    (h4 : 0 ≤ d4 ∧ d4 ≤ 0.62) (h6 : 0 ≤ d6 ∧ d6 ≤ 0.115) (r : Robot Shape) (m : Nat)
    (hr : ∀ i < 6, r.links[m + i]? = (kukaRobot a1 a2 d4 d6).links[i]?) (hb : IsRigid r.tfBase)
    {q : List ℝ} (hq : m + 6 ≤ q.length) (i : Nat) (hi : i < 6) {s : ℝ} (hs0 : 0 ≤ s) (hs1 : s ≤ 1) :
    (1 - s) • posPart (frameBefore r q (m + i)) + s • posPart (frameBefore r q (m + i + 1)) ∈
      linkPoints r q := by
  have l0 : r.links[m]? = some ⟨⟨a1, Real.pi / 2, 0, 0⟩, .r, ⟨[⟨0.3, 0.2, 0.1⟩],
    [mkTf 1 ![-0.09, 0, 0.05]]⟩⟩ := by rw [← poseX_zero]; exact hr 0 (by norm_num)
  have l1 : r.links[m + 1]? = some ⟨⟨a2, 0, 0, 0⟩, .r, ⟨[⟨0.8, 0.2, 0.1⟩],
    [mkTf 1 ![-0.3, 0, -0.05]]⟩⟩ := by rw [← poseX_zero]; exact hr 1 (by norm_num)
  have l2 : r.links[m + 2]? = some ⟨⟨0, Real.pi / 2, 0, 0⟩, .r, ⟨[⟨0.2, 0.1, 0.5⟩],
    [mkTf 1 ![0, 0.05, 0.17]]⟩⟩ := by rw [← poseX_zero]; exact hr 2 (by norm_num)
  have l3 : r.links[m + 3]? = some ⟨⟨0, -Real.pi / 2, d4, 0⟩, .r, ⟨[⟨0.1, 0.2, 0.1⟩],
    [mkTf 1 ![0, 0.1, 0]]⟩⟩ := by rw [← poseX_zero]; exact hr 3 (by norm_num)
  have l4 : r.links[m + 4]? = some ⟨⟨0, Real.pi / 2, 0, 0⟩, .r, ⟨[⟨0.1, 0.1, 0.085⟩],
    [mkTf 1 ![0, 0, 0.085 / 2]]⟩⟩ := by rw [← poseX_zero]; exact hr 4 (by norm_num)
  have l5 : r.links[m + 5]? = some ⟨⟨0, 0, d6, 0⟩, .r, ⟨[⟨0.1, 0.1, 0.03⟩],
    [mkTf 1 ![0, 0, -0.03 / 2]]⟩⟩ := by rw [← poseX_zero]; exact hr 5 (by norm_num)
  have q0 : q[m]? = some q[m] := List.getElem?_eq_getElem (by omega)
  have q1 : q[m + 1]? = some q[m + 1] := List.getElem?_eq_getElem (by omega)
  have q2 : q[m + 2]? = some q[m + 2] := List.getElem?_eq_getElem (by omega)
  have q3 : q[m + 3]? = some q[m + 3] := List.getElem?_eq_getElem (by omega)
  have q4 : q[m + 4]? = some q[m + 4] := List.getElem?_eq_getElem (by omega)
  have q5 : q[m + 5]? = some q[m + 5] := List.getElem?_eq_getElem (by omega)
  have row := frameBefore_row r hb q
  have e1 : Real.sin (-Real.pi / 2) = -1 := by
    rw [neg_div, Real.sin_neg, Real.sin_pi_div_two]
  have e2 : Real.cos (-Real.pi / 2) = 0 := by
    rw [neg_div, Real.cos_neg, Real.cos_pi_div_two]
  rcases i with _ | _ | _ | _ | _ | _ | i
  · rw [Nat.add_zero]
    have hf := frameBefore_succ r l0 q0
    simp only [Link.tf] at hf
    rw [hf, (segment_point (row m) _ _ _ _ s).1, ← hf]
    refine covered r hb q l0 rfl ?_ ?_ ?_ <;>
      simp only [Pi.smul_apply, smul_eq_mul, Matrix.cons_val, Real.sin_pi_div_two,
        Real.cos_pi_div_two, abs_le] <;> constructor <;> nlinarith
  · have hf := frameBefore_succ r l1 q1
    simp only [Link.tf] at hf
    rw [hf, (segment_point (row (m + 1)) _ _ _ _ s).1, ← hf]
    refine covered r hb q l1 rfl ?_ ?_ ?_ <;>
      simp only [Pi.smul_apply, smul_eq_mul, Matrix.cons_val, Real.sin_zero,
        Real.cos_zero, abs_le] <;> constructor <;> nlinarith
  · have hf := frameBefore_succ r l2 q2
    simp only [Link.tf] at hf
    rw [hf, (segment_point (row (m + 2)) _ _ _ _ s).1, ← hf]
    refine covered r hb q l2 rfl ?_ ?_ ?_ <;>
      simp only [Pi.smul_apply, smul_eq_mul, Matrix.cons_val, Real.sin_pi_div_two,
        Real.cos_pi_div_two, abs_le] <;> constructor <;> norm_num
  · have hf := frameBefore_succ r l3 q3
    simp only [Link.tf] at hf
    by_cases hsd : s * d4 ≤ 0.42
    · rw [hf, (segment_point (row (m + 3)) _ _ _ _ s).2]
      have := mul_nonneg hs0 h4.1
      refine covered r hb q l2 rfl ?_ ?_ ?_ <;>
        simp only [Pi.smul_apply, smul_eq_mul, Matrix.cons_val, abs_le] <;> constructor <;>
        norm_num at * <;> linarith
    · rw [hf, (segment_point (row (m + 3)) _ _ _ _ s).1, ← hf]
      have h' : (1 - s) * d4 ≤ 0.2 := by
        norm_num at hsd ⊢
        nlinarith
      have h'' : 0 ≤ (1 - s) * d4 := mul_nonneg (by linarith) h4.1
      refine covered r hb q l3 rfl ?_ ?_ ?_ <;>
        simp only [Pi.smul_apply, smul_eq_mul, Matrix.cons_val, e1, e2, abs_le] <;> constructor <;>
        norm_num at * <;> linarith
  · have hf := frameBefore_succ r l4 q4
    simp only [Link.tf] at hf
    rw [hf, (segment_point (row (m + 4)) _ _ _ _ s).1, ← hf]
    refine covered r hb q l4 rfl ?_ ?_ ?_ <;>
      simp only [Pi.smul_apply, smul_eq_mul, Matrix.cons_val, Real.sin_pi_div_two,
        Real.cos_pi_div_two, abs_le] <;> constructor <;> norm_num
  · have hf := frameBefore_succ r l5 q5
    simp only [Link.tf] at hf
    by_cases hsd : s * d6 ≤ 0.085
    · rw [hf, (segment_point (row (m + 5)) _ _ _ _ s).2]
      have := mul_nonneg hs0 h6.1
      refine covered r hb q l4 rfl ?_ ?_ ?_ <;>
        simp only [Pi.smul_apply, smul_eq_mul, Matrix.cons_val, abs_le] <;> constructor <;>
        norm_num at * <;> linarith
    · rw [hf, (segment_point (row (m + 5)) _ _ _ _ s).1, ← hf]
      have h' : (1 - s) * d6 ≤ 0.03 := by
        norm_num at hsd ⊢
        nlinarith
      have h'' : 0 ≤ (1 - s) * d6 := mul_nonneg (by linarith) h6.1
      refine covered r hb q l5 rfl ?_ ?_ ?_ <;>
        simp only [Pi.smul_apply, smul_eq_mul, Matrix.cons_val, Real.sin_zero, Real.cos_zero,
          abs_le] <;> constructor <;> norm_num at * <;> linarith
  · omega

/-- **C103**: every point of the arm of the Kuka, in every configuration and for every rigid base, is
inside a collision shape, for link lengths up to those stated.  The shipped lengths 0.18, 0.6, 0.62
and 0.115 are among them; a longer `d4` leaves a gap (`C103_limit`). -/
theorem C103_kuka_partial {a1 a2 d4 d6 : ℝ} (h1 : 0 ≤ a1 ∧ a1 ≤ 0.24) (h2 : 0 ≤ a2 ∧ a2 ≤ 0.7)
    (h4 : 0 ≤ d4 ∧ d4 ≤ 0.62) (h6 : 0 ≤ d6 ∧ d6 ≤ 0.115) (r : Robot Shape)
    (hr : r.links = (kukaRobot a1 a2 d4 d6).links) (hb : IsRigid r.tfBase) {q : List ℝ}
    (hq : 6 ≤ q.length) : skeletonFrom 0 r q ⊆ linkPoints r q := by
  rintro x ⟨k, -, hk, s, hs0, hs1, rfl⟩
  have hk6 : k < 6 := by
    rw [hr] at hk
    exact hk
  have := kuka_segments h1 h2 h4 h6 r 0 (fun i _ => by rw [hr, Nat.zero_add]) hb (q := q) (by omega)
    k hk6 hs0 hs1
  rwa [Nat.zero_add] at this

/-- **C103**, KukaOnRail: the arm is covered from the carriage on.  Missing: the rail in front of
it. -/
theorem C103_rail_partial {a1 a2 d4 d6 : ℝ} (h1 : 0 ≤ a1 ∧ a1 ≤ 0.24) (h2 : 0 ≤ a2 ∧ a2 ≤ 0.7)
    (h4 : 0 ≤ d4 ∧ d4 ≤ 0.62) (h6 : 0 ≤ d6 ∧ d6 ≤ 0.115) (r : Robot Shape)
    (hr : r.links = (railRobot a1 a2 d4 d6).links) (hb : IsRigid r.tfBase) {q : List ℝ}
    (hq : 7 ≤ q.length) : skeletonFrom 1 r q ⊆ linkPoints r q := by
  rintro x ⟨k, hk1, hk, s, hs0, hs1, rfl⟩
  have hk7 : k < 7 := by
    rw [hr] at hk
    exact hk
  obtain ⟨i, rfl⟩ : ∃ i, k = 1 + i := ⟨k - 1, by omega⟩
  exact kuka_segments h1 h2 h4 h6 r 1 (fun i hi => by
    rw [hr]
    rcases i with _ | _ | _ | _ | _ | _ | i
    all_goals first | rfl | omega) hb (q := q) (by omega) i (by omega) hs0 hs1

/-- **C103**, how far the lengths go: with a forearm longer than 0.62 the zero configuration has a
point of the arm outside all shapes. -/
theorem C103_limit {a1 a2 d4 d6 : ℝ} (h : 0.62 < d4) (h6 : 0 ≤ d6) :
    ∃ x ∈ skeletonFrom 0 (kukaRobot a1 a2 d4 d6) [0, 0, 0, 0, 0, 0],
      x ∉ linkPoints (kukaRobot a1 a2 d4 d6) [0, 0, 0, 0, 0, 0] := by
  set r := kukaRobot a1 a2 d4 d6 with hr
  set q : List ℝ := [0, 0, 0, 0, 0, 0] with hq
  have e1 : Real.sin (-Real.pi / 2) = -1 := by
    rw [neg_div, Real.sin_neg, Real.sin_pi_div_two]
  have e2 : Real.cos (-Real.pi / 2) = 0 := by
    rw [neg_div, Real.cos_neg, Real.cos_pi_div_two]
  have f0 : frameBefore r q 0 = !![1, 0, 0, 0; 0, 1, 0, 0; 0, 0, 1, 0; 0, 0, 0, 1] := by
    ext i j; fin_cases i <;> fin_cases j <;>
      simp [frameBefore, hr, kukaRobot, Robot.new, linkProduct]
  have step : ∀ {k : Nat} {l : Link Shape} {A B : M4}, frameBefore r q k = A →
      r.links[k]? = some l → q[k]? = some 0 → A * l.tf 0 = B → frameBefore r q (k + 1) = B :=
    fun hA hl hq hB => by rw [frameBefore_succ r hl hq, hA, hB]
  have f1 : frameBefore r q 1 = !![1, 0, 0, a1; 0, 0, -1, 0; 0, 1, 0, 0; 0, 0, 0, 1] := by
    refine step f0 rfl rfl ?_
    ext i j; fin_cases i <;> fin_cases j <;>
      simp [Link.tf, dhMat, Matrix.mul_apply, Fin.sum_univ_four]
  have f2 : frameBefore r q 2 = !![1, 0, 0, a1 + a2; 0, 0, -1, 0; 0, 1, 0, 0; 0, 0, 0, 1] := by
    refine step f1 rfl rfl ?_
    ext i j; fin_cases i <;> fin_cases j <;>
      simp [Link.tf, dhMat, Matrix.mul_apply, Fin.sum_univ_four, add_comm]
  have f3 : frameBefore r q 3 = !![1, 0, 0, a1 + a2; 0, -1, 0, 0; 0, 0, -1, 0; 0, 0, 0, 1] := by
    refine step f2 rfl rfl ?_
    ext i j; fin_cases i <;> fin_cases j <;>
      simp [Link.tf, dhMat, Matrix.mul_apply, Fin.sum_univ_four]
  have f4 : frameBefore r q 4 = !![1, 0, 0, a1 + a2; 0, 0, -1, 0; 0, 1, 0, -d4; 0, 0, 0, 1] := by
    refine step f3 rfl rfl ?_
    ext i j; fin_cases i <;> fin_cases j <;>
      simp [Link.tf, dhMat, Matrix.mul_apply, Fin.sum_univ_four, e1, e2]
  have f5 : frameBefore r q 5 = !![1, 0, 0, a1 + a2; 0, -1, 0, 0; 0, 0, -1, -d4; 0, 0, 0, 1] := by
    refine step f4 rfl rfl ?_
    ext i j; fin_cases i <;> fin_cases j <;>
      simp [Link.tf, dhMat, Matrix.mul_apply, Fin.sum_univ_four]
  have f6 : frameBefore r q 6 =
      !![1, 0, 0, a1 + a2; 0, -1, 0, 0; 0, 0, -1, -d4 - d6; 0, 0, 0, 1] := by
    refine step f5 rfl rfl ?_
    ext i j; fin_cases i <;> fin_cases j <;>
      simp [Link.tf, dhMat, Matrix.mul_apply, Fin.sum_univ_four] <;> ring
  have hd : 0 < d4 := lt_trans (by norm_num) h
  refine ⟨_, ⟨3, Nat.zero_le _, by simp [hr, kukaRobot, Robot.new], (d4 + 0.22) / 2 / d4,
    by positivity, ?_, rfl⟩, ?_⟩
  · rw [div_le_one hd]; norm_num at h ⊢; linarith
  have hx : ((1 - (d4 + 0.22) / 2 / d4) • posPart (frameBefore r q 3) +
      ((d4 + 0.22) / 2 / d4) • posPart (frameBefore r q (3 + 1))) 2 = -((d4 + 0.22) / 2) := by
    rw [f3, f4]
    simp [posPart]
    field_simp
  rintro ⟨k, i, l, s, t, hl, hs, ht, u, ⟨u0, u1, u2⟩, he⟩
  rw [← he] at hx
  have hf : frameOf r q k = frameBefore r q (k + 1) := rfl
  rw [hf] at hx
  rw [abs_le] at u0 u1 u2
  norm_num at h
  have hi : i = 0 := by
    have : l.geometry.s.length = 1 := by
      rcases k with _ | _ | _ | _ | _ | _ | k <;> cases hl <;> rfl
    have := (List.getElem?_eq_some_iff.1 hs).1
    omega
  subst hi
  rcases k with _ | _ | _ | _ | _ | _ | k
  · cases hl; cases hs; cases ht
    rw [f1] at hx
    simp [act, rotPart, posPart, poseX_zero, mkTf, Matrix.mul_apply, Fin.sum_univ_four,
      Matrix.mulVec, dotProduct, Fin.sum_univ_three] at hx
    norm_num at u0 u1 u2 hx
    linarith
  · cases hl; cases hs; cases ht
    rw [f2] at hx
    simp [act, rotPart, posPart, poseX_zero, mkTf, Matrix.mul_apply, Fin.sum_univ_four,
      Matrix.mulVec, dotProduct, Fin.sum_univ_three] at hx
    norm_num at u0 u1 u2 hx
    linarith
  · cases hl; cases hs; cases ht
    rw [f3] at hx
    simp [act, rotPart, posPart, poseX_zero, mkTf, Matrix.mul_apply, Fin.sum_univ_four,
      Matrix.mulVec, dotProduct, Fin.sum_univ_three] at hx
    norm_num at u0 u1 u2 hx
    linarith
  · cases hl; cases hs; cases ht
    rw [f4] at hx
    simp [act, rotPart, posPart, poseX_zero, mkTf, Matrix.mul_apply, Fin.sum_univ_four,
      Matrix.mulVec, dotProduct, Fin.sum_univ_three] at hx
    norm_num at u0 u1 u2 hx
    linarith
  · cases hl; cases hs; cases ht
    rw [f5] at hx
    simp [act, rotPart, posPart, poseX_zero, mkTf, Matrix.mul_apply, Fin.sum_univ_four,
      Matrix.mulVec, dotProduct, Fin.sum_univ_three] at hx
    norm_num at u0 u1 u2 hx
    linarith
  · cases hl; cases hs; cases ht
    rw [f6] at hx
    simp [act, rotPart, posPart, poseX_zero, mkTf, Matrix.mul_apply, Fin.sum_univ_four,
      Matrix.mulVec, dotProduct, Fin.sum_univ_three] at hx
    norm_num at u0 u1 u2 hx
    linarith
  · cases hl

/-- **C103**, AnthropomorphicArm. -/
theorem C103_anthropomorphic_partial {a2 a3 : ℝ} (h2 : 0 ≤ a2) (h3 : 0 ≤ a3) (r : Robot Shape)
    (hr : r.links = (anthropomorphicArm a2 a3).links) (hb : IsRigid r.tfBase) {q : List ℝ}
    (hq : 3 ≤ q.length) : skeletonFrom 0 r q ⊆ linkPoints r q := by
  rintro x ⟨k, -, hk, s, hs0, hs1, rfl⟩
  have ht : ∀ x : ℝ, translation x 0 0 = mkTf 1 ![x, 0, 0] := fun x => by
    ext i j; fin_cases i <;> fin_cases j <;> simp [translation, mkTf]
  have hk3 : k < 3 := by
    rw [hr] at hk
    exact hk
  have l0 : r.links[0]? = some ⟨⟨0, Real.pi / 2, 0, 0⟩, .r, ⟨[⟨0.1, 0.3, 0.3⟩],
    [mkTf 1 ![-0.05, 0, 0]]⟩⟩ := by rw [hr, ← ht]; rfl
  have l1 : r.links[1]? = some ⟨⟨a2, 0, 0, 0⟩, .r, ⟨[⟨a2, 0.1, 0.1⟩],
    [mkTf 1 ![-a2 / 2, 0, 0]]⟩⟩ := by rw [hr, ← ht]; rfl
  have l2 : r.links[2]? = some ⟨⟨a3, 0, 0, 0⟩, .r, ⟨[⟨a3, 0.1, 0.1⟩],
    [mkTf 1 ![-a3 / 2, 0, 0]]⟩⟩ := by rw [hr, ← ht]; rfl
  have q0 : q[0]? = some q[0] := List.getElem?_eq_getElem (by omega)
  have q1 : q[1]? = some q[1] := List.getElem?_eq_getElem (by omega)
  have q2 : q[2]? = some q[2] := List.getElem?_eq_getElem (by omega)
  have row := frameBefore_row r hb q
  rcases k with _ | _ | _ | k
  · have hf := frameBefore_succ r l0 q0
    simp only [Link.tf] at hf
    rw [hf, (segment_point (row 0) _ _ _ _ s).1, ← hf]
    refine covered r hb q l0 rfl ?_ ?_ ?_ <;>
      simp only [Pi.smul_apply, smul_eq_mul, Matrix.cons_val, Real.sin_pi_div_two,
        Real.cos_pi_div_two, abs_le] <;> constructor <;> norm_num
  · have hf := frameBefore_succ r l1 q1
    simp only [Link.tf] at hf
    rw [hf, (segment_point (row 1) _ _ _ _ s).1, ← hf]
    refine covered r hb q l1 rfl ?_ ?_ ?_ <;>
      simp only [Pi.smul_apply, smul_eq_mul, Matrix.cons_val, Real.sin_zero,
        Real.cos_zero, abs_le] <;> constructor <;> nlinarith
  · have hf := frameBefore_succ r l2 q2
    simp only [Link.tf] at hf
    rw [hf, (segment_point (row 2) _ _ _ _ s).1, ← hf]
    refine covered r hb q l2 rfl ?_ ?_ ?_ <;>
      simp only [Pi.smul_apply, smul_eq_mul, Matrix.cons_val, Real.sin_zero,
        Real.cos_zero, abs_le] <;> constructor <;> nlinarith
  · omega

/-- **C103**, the point of it: with a collision library that reports boxes with a common point, the
check finds every obstacle with a point inside a shape of a link, after whatever calls. -/
theorem C103_detects (hit : Oracle Shape) (hex : ∀ p p', boxOracle p p' = true → hit p p' = true)
    (r : Robot Shape) (hk : KnownTypes r.links) (hc : r.collisionMatrix = bandMatrix)
    (h0 : r.tool = none ∨ 0 < r.links.length) (hb : IsRigid r.tfBase) (history : List (Call Shape))
    (hh : ∀ c ∈ history, c.robot.links = r.links) {q : List ℝ} (hq : r.links.length ≤ q.length)
    {scene : Collection Shape} {j : Nat} {s' : Shape} {t' : M4} (hs : scene.s[j]? = some s')
    (ht : scene.tfS[j]? = some t') {x : V3} (hx : x ∈ linkPoints r q)
    (hx' : x ∈ act t' '' boxPoints s') :
    (r.isInCollision hit (after hit r.links history) q scene).1 = .ok true := by
  obtain ⟨b, h1, h2⟩ := C33_answer hit r hk hc h0 history hh q hq scene
  obtain ⟨k, i, l, s, t, g1, g2, g3, u, hu, rfl⟩ := hx
  obtain ⟨v, hv, he⟩ := hx'
  rw [h1, h2.2 (Or.inl (Or.inr (Or.inl ⟨k, l, g1, i, j, s, s', t, t', g2, g3, hs, ht, hex _ _ ?_⟩)))]
  rw [boxOracle_iff]
  refine ⟨u, hu, v, hv, ?_⟩
  rw [one_mul]
  exact he.symm

/-- **C103** for the Kuka with its shipped lengths, on any rigid base, with or without a tool: an
obstacle that meets the line of the arm is reported in every configuration. -/
theorem C103_kuka_detects (hit : Oracle Shape)
    (hex : ∀ p p', boxOracle p p' = true → hit p p' = true) (r : Robot Shape)
    (hr : r.links = (kukaRobot 0.18 0.6 0.62 0.115).links) (hc : r.collisionMatrix = bandMatrix)
    (hb : IsRigid r.tfBase) (history : List (Call Shape))
    (hh : ∀ c ∈ history, c.robot.links = r.links) {q : List ℝ} (hq : q.length = 6)
    {scene : Collection Shape} {j : Nat} {s' : Shape} {t' : M4} (hs : scene.s[j]? = some s')
    (ht : scene.tfS[j]? = some t') {x : V3} (hx : x ∈ skeletonFrom 0 r q)
    (hx' : x ∈ act t' '' boxPoints s') :
    (r.isInCollision hit (after hit r.links history) q scene).1 = .ok true := by
  have hlen : r.links.length = 6 := by rw [hr]; rfl
  refine C103_detects hit hex r ?_ hc (Or.inr (by omega)) hb history hh (by omega) hs ht
    (C103_kuka_partial (by norm_num) (by norm_num) (by norm_num) (by norm_num) r hr hb hq.ge hx) hx'
  intro l hl
  rw [hr] at hl
  simp only [kukaRobot, Robot.new, List.mem_cons, List.not_mem_nil, or_false] at hl
  rcases hl with rfl | rfl | rfl | rfl | rfl | rfl <;> exact Or.inl rfl

/-- A Kuka in the zero configuration and an obstacle around its base. -/
example : ((kukaRobot 0.18 0.6 0.62 0.115).isInCollision boxOracle
    (after boxOracle (kukaRobot 0.18 0.6 0.62 0.115).links []) [0, 0, 0, 0, 0, 0]
    ⟨[⟨1, 1, 1⟩], [1]⟩).1 = .ok true := by
  refine C103_kuka_detects boxOracle (fun _ _ h => h) _ rfl rfl IsRigid.one []
    (by simp) rfl (j := 0) rfl rfl (x := 0) ⟨0, le_refl _, by simp [kukaRobot, Robot.new], 0,
      le_refl _, zero_le_one, ?_⟩ ⟨0, ?_, ?_⟩
  · ext i
    fin_cases i <;> simp [frameBefore, kukaRobot, Robot.new, linkProduct, posPart]
  · simp [boxPoints]
  · ext i
    fin_cases i <;> simp [act, rotPart, posPart]

/-- The full property: the link shapes of every shipped robot with positive lengths cover its
arm. -/
def C103_statement : Prop := ∀ r : Robot Shape,
  (r = planarArm 1 1 1 ∨ r = sphericalArm 1 ∨ r = sphericalWrist 1 ∨ r = anthropomorphicArm 1 1 ∨
    r = arm2 1 1 1 ∨ r = kukaRobot 0.18 0.6 0.62 0.115) →
  ∀ q : List ℝ, q.length = r.links.length → skeletonFrom 0 r q ⊆ linkPoints r q

/-- **C103** is false for PlanarArm: its boxes have a negative side and no points at all. -/
theorem C103_planar {a1 a2 a3 : ℝ} (h1 : 0 < a1) (h2 : 0 < a2) (h3 : 0 < a3) (q : List ℝ) :
    linkPoints (planarArm a1 a2 a3) q = ∅ := by
  rw [Set.eq_empty_iff_forall_notMem]
  rintro x ⟨k, i, l, s, t, hl, hs, -, u, hu, -⟩
  have hd : s.dx < 0 := by
    rcases k with _ | _ | _ | k
    · cases hl
      rcases i with _ | i
      · cases hs; simp only; linarith
      · cases hs
    · cases hl
      rcases i with _ | i
      · cases hs; simp only; linarith
      · cases hs
    · cases hl
      rcases i with _ | i
      · cases hs; simp only; linarith
      · cases hs
    · cases hl
  have := abs_nonneg (u 0)
  linarith [hu.1]

/-- **C103** is false. -/
theorem C103_refuted : ¬ C103_statement := by
  intro h
  have := h (planarArm 1 1 1) (Or.inl rfl) [0, 0, 0] rfl
  rw [C103_planar one_pos one_pos one_pos, Set.subset_empty_iff] at this
  have hx : posPart (frameBefore (planarArm 1 1 1) [0, 0, 0] 0) ∈
      skeletonFrom 0 (planarArm 1 1 1) [0, 0, 0] :=
    ⟨0, le_refl _, by simp [planarArm, Robot.new], 0, le_refl _, zero_le_one, by simp⟩
  rw [this] at hx
  exact hx

end Verif.Props
