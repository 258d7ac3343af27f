import Verif.Props.Kuka

/-! # What the Kuka can reach, and when its `ik` says it cannot (C120)

robots.py:288-370.  `ik` returns `None` when both triangles of shoulder, elbow and wrist centre fail
to close up to a tolerance.  Here the poses that the robot reaches are described without `ik`, by the
position of the wrist centre, and compared with the poses for which `ik` returns `None`. -/

set_option linter.unusedSectionVars false

namespace Verif.Props

open Matrix Verif.Geometry Verif.Kin Verif.Util

/-- Every rotation has Euler angles. -/
theorem zyz_exists {M : M3} (h : IsRot M) : ∃ t1 t2 t3, zyz t1 t2 t3 = M := by
  by_cases hns : M 0 2 ≠ 0 ∨ M 1 2 ≠ 0
  · exact ⟨_, _, _, wrist_angles h (.inl rfl) hns false false false false false false⟩
  push Not at hns
  obtain ⟨h0, h1⟩ := hns
  obtain ⟨r1, r2, -⟩ := h.relations
  rw [h0, h1] at r1
  have hz : M 2 2 ^ 2 = 1 := by linarith
  have h20 : M 2 0 = 0 := by nlinarith [sq_nonneg (M 2 1)]
  have h21 : M 2 1 = 0 := by nlinarith [sq_nonneg (M 2 0)]
  have hdet := h.2
  have ho := h.1
  have e00 := congrFun (congrFun ho 0) 0
  have e01 := congrFun (congrFun ho 0) 1
  have e11 := congrFun (congrFun ho 1) 1
  rw [Matrix.det_fin_three] at hdet
  simp [Matrix.mul_apply, Fin.sum_univ_succ, h20, h21] at e00 e01 e11
  rw [h0, h1, h20, h21] at hdet
  have hd : M 0 0 * M 1 1 - M 0 1 * M 1 0 = M 2 2 := by
    linear_combination M 2 2 * hdet - (M 0 0 * M 1 1 - M 0 1 * M 1 0) * hz
  have k1 : M 1 1 = M 0 0 * M 2 2 := by
    linear_combination -M 1 1 * e00 + M 1 0 * e01 + M 0 0 * hd
  have k2 : M 0 1 = -M 1 0 * M 2 2 := by
    linear_combination -M 0 1 * e00 + M 0 0 * e01 - M 1 0 * hd
  have x2 := cs_arctan2 (k := 1) (c := M 2 2) (s := 0) one_pos (by linarith)
  have x3 := cs_arctan2 (k := 1) (c := M 1 1) (s := M 1 0) one_pos (by
    rw [k1]; linear_combination e00 + M 0 0 ^ 2 * hz)
  refine ⟨0, arctan2 (1 * 0) (1 * M 2 2), arctan2 (1 * M 1 0) (1 * M 1 1), ?_⟩
  rw [zyz_eq, x2.1, x2.2, x3.1, x3.2, Real.cos_zero, Real.sin_zero]
  ext i j
  fin_cases i <;> fin_cases j <;> simp [h0, h1, h20, h21, k1, k2]
  · linear_combination M 0 0 * hz
  · ring

/-- The arm reaches wrist centre and orientation: `u` is the signed distance of the wrist centre from
the first axis, `c` the sine of the elbow angle. -/
theorem reach_from {a1 a2 d4 d6 : ℝ} {R : M3} (hR : IsRot R) {w : V3} {q1 u c : ℝ}
    (hx : w 0 = Real.cos q1 * u) (hy : w 1 = Real.sin q1 * u) (c1 : -1 ≤ c) (c2 : c ≤ 1)
    (hc : (u - a1) ^ 2 + w 2 ^ 2 = a2 ^ 2 + d4 ^ 2 + 2 * a2 * d4 * c) :
    ∃ q2 q3 q4 q5 q6, chain (kukaRobot a1 a2 d4 d6).links [q1, q2, q3, q4, q5, q6] =
        mkTf R (w + R *ᵥ ![0, 0, d6]) ∧ Real.sin q3 = c ∧
      a1 + a2 * Real.cos q2 + d4 * Real.sin (q2 + q3) = u ∧
      (Real.cos q1 * R 1 2 ≠ Real.sin q1 * R 0 2 → Real.sin q5 ≠ 0) := by
  obtain ⟨e1, e2⟩ := cs_elbow false false c1 c2 (sg := 1) (.inl rfl)
  rw [one_mul] at e1 e2
  have hsq : c ^ 2 + Real.sqrt (1 - c ^ 2) ^ 2 = 1 := by
    rw [Real.sq_sqrt (by nlinarith)]; ring
  obtain ⟨p1, p2⟩ := planar_exact false false (a2 := a2) (a3 := d4) hsq hc
  set q2 := atan2 false false (w 2 * (a2 + d4 * c) - (u - a1) * (d4 * Real.sqrt (1 - c ^ 2)))
    ((u - a1) * (a2 + d4 * c) + w 2 * (d4 * Real.sqrt (1 - c ^ 2))) with hq2
  set q3 := atan2 false false (Real.sqrt (1 - c ^ 2)) c with hq3
  have f1 : a2 * Real.cos q2 + d4 * Real.cos (q2 + q3) = u - a1 := by
    rw [Real.cos_add, e1, e2, ← p1]; ring
  have f2 : a2 * Real.sin q2 + d4 * Real.sin (q2 + q3) = w 2 := by
    rw [Real.sin_add, e1, e2, ← p2]; ring
  have hpos : armPos a1 a2 d4 q1 q2 (q3 + Real.pi / 2 - Real.pi / 2) = w := by
    rw [add_sub_cancel_right]
    ext i
    fin_cases i
    · change Real.cos q1 * (a1 + a2 * Real.cos q2 + d4 * Real.cos (q2 + q3)) = w 0
      rw [add_assoc, f1, hx]; ring
    · change Real.sin q1 * (a1 + a2 * Real.cos q2 + d4 * Real.cos (q2 + q3)) = w 1
      rw [add_assoc, f1, hy]; ring
    · exact f2
  set A := armRot q1 (q2 + (q3 + Real.pi / 2)) with hA
  have hAr : IsRot A := armRot_isRot _ _
  obtain ⟨q4, q5, q6, hz⟩ := zyz_exists (hAr.transpose.mul hR)
  have hAR : A * zyz q4 q5 q6 = R := by
    rw [hz, ← mul_assoc, hAr.mul_transpose, one_mul]
  refine ⟨q2, q3 + Real.pi / 2, q4, q5, q6, ?_, ?_, ?_, fun hne h5 => hne ?_⟩
  · rw [chain_kuka, ← hA, hAR, hpos]
  · rw [Real.sin_add_pi_div_two, e1]
  · rw [← add_assoc, Real.sin_add_pi_div_two, add_assoc, f1]; ring
  · rw [← hAR, zyz_eq, h5]
    simp [hA, armRot, Matrix.mul_apply, Fin.sum_univ_three]
    ring

/-- `w` is the wrist centre of the pose `T`, seen from the base: the point `d6` behind the flange. -/
def WristCentre (d6 : ℝ) (base : M4) (tool : Option (Tool Shape)) (T : M4) (w : V3) : Prop :=
  ∃ R p, IsRot R ∧ T = base * mkTf R p * tipOf tool ∧ ∀ i, w i = p i - d6 * R i 2

/-- The triangle of shoulder, elbow and the point `w` closes, up to a slack relative to the lengths.
`u` is the distance of `w` from the first axis, negative if the shoulder is on the other side. -/
def ClosesAt (a1 a2 d4 slack : ℝ) (w : V3) (u : ℝ) : Prop :=
  |(u - a1) ^ 2 + w 2 ^ 2 - a2 ^ 2 - d4 ^ 2| ≤ (1 + slack) * (2 * |a2 * d4|)

/-- The triangle closes for one of the two sides. -/
def Closes (a1 a2 d4 slack : ℝ) (w : V3) : Prop :=
  ∃ u : ℝ, u ^ 2 = w 0 ^ 2 + w 1 ^ 2 ∧ ClosesAt a1 a2 d4 slack w u

theorem closes_iff {a1 a2 d4 slack : ℝ} {w : V3} : Closes a1 a2 d4 slack w ↔
    |(Real.sqrt (w 0 ^ 2 + w 1 ^ 2) - a1) ^ 2 + w 2 ^ 2 - a2 ^ 2 - d4 ^ 2| ≤
        (1 + slack) * (2 * |a2 * d4|) ∨
    |(Real.sqrt (w 0 ^ 2 + w 1 ^ 2) + a1) ^ 2 + w 2 ^ 2 - a2 ^ 2 - d4 ^ 2| ≤
        (1 + slack) * (2 * |a2 * d4|) := by
  have hs := Real.sq_sqrt (show 0 ≤ w 0 ^ 2 + w 1 ^ 2 by positivity)
  unfold Closes ClosesAt
  constructor
  · rintro ⟨u, hu, h⟩
    have : u = Real.sqrt (w 0 ^ 2 + w 1 ^ 2) ∨ u = -Real.sqrt (w 0 ^ 2 + w 1 ^ 2) := by
      rw [← sq_eq_sq_iff_eq_or_eq_neg, hs, hu]
    rcases this with rfl | rfl
    · exact .inl h
    · right
      rwa [show ∀ x : ℝ, (-x - a1) ^ 2 = (x + a1) ^ 2 from fun x => by ring] at h
  · rintro (h | h)
    · exact ⟨_, hs, h⟩
    · refine ⟨-Real.sqrt (w 0 ^ 2 + w 1 ^ 2), by rw [neg_sq, hs], ?_⟩
      rwa [show ∀ x : ℝ, (-x - a1) ^ 2 = (x + a1) ^ 2 from fun x => by ring]

/-- For positive lengths: the distance from a shoulder lies between the difference and the sum of the
lengths of upper arm and forearm. -/
theorem C120_shell {a1 a2 d4 : ℝ} (h2 : 0 < a2) (h4 : 0 < d4) (w : V3) : Closes a1 a2 d4 0 w ↔
    ∃ u : ℝ, u ^ 2 = w 0 ^ 2 + w 1 ^ 2 ∧ |a2 - d4| ≤ Real.sqrt ((u - a1) ^ 2 + w 2 ^ 2) ∧
      Real.sqrt ((u - a1) ^ 2 + w 2 ^ 2) ≤ a2 + d4 := by
  unfold Closes ClosesAt
  refine exists_congr fun u => and_congr_right fun _ => ?_
  have h0 : 0 ≤ (u - a1) ^ 2 + w 2 ^ 2 := by positivity
  rw [abs_of_pos (mul_pos h2 h4), abs_le, Real.sqrt_le_left (by positivity),
    Real.le_sqrt (abs_nonneg _) h0, sq_abs]
  constructor <;> rintro ⟨x, y⟩ <;> constructor <;> nlinarith

/-- `Arm2.ik` returns two solutions for each shoulder for which the triangle closes. -/
theorem arm2_count [Zeros] {a1 a2 a3 : ℝ} (ha : a2 * a3 ≠ 0) {T : M4} {sols : List (List ℝ)}
    (h : arm2Ik (arm2 a1 a2 a3) T = some sols) :
    (sols.length = 4 ↔
      |(Real.sqrt (T 0 3 ^ 2 + T 1 3 ^ 2) - a1) ^ 2 + T 2 3 ^ 2 - a2 ^ 2 - a3 ^ 2| ≤
          (1 + 1 / 10 ^ 6) * (2 * |a2 * a3|) ∧
      |(Real.sqrt (T 0 3 ^ 2 + T 1 3 ^ 2) + a1) ^ 2 + T 2 3 ^ 2 - a2 ^ 2 - a3 ^ 2| ≤
          (1 + 1 / 10 ^ 6) * (2 * |a2 * a3|)) ∧
    (sols.length = 4 ∨ sols.length = 2) := by
  have hd : 2 * a2 * a3 ≠ 0 := by rw [mul_assoc]; exact mul_ne_zero two_ne_zero ha
  have hda : |2 * a2 * a3| = 2 * |a2 * a3| := by rw [mul_assoc, abs_mul 2 (a2 * a3), abs_two]
  obtain ⟨xp, yp⟩ := u_pos (Zeros.py T) (Zeros.px T) (T 0 3) (T 1 3)
  obtain ⟨xn, yn⟩ := u_neg (!Zeros.py T) (!Zeros.px T) (T 0 3) (T 1 3)
  have hp := snap_isSome_iff (arm2Cos a1 a2 a3 (T 0 3) (T 1 3) (T 2 3) (atan2 (Zeros.py T) (Zeros.px T) (T 1 3) (T 0 3)))
  have hn := snap_isSome_iff
    (arm2Cos a1 a2 a3 (T 0 3) (T 1 3) (T 2 3) (atan2 (!Zeros.py T) (!Zeros.px T) (-T 1 3) (-T 0 3)))
  rw [arm2Cos_eq xp yp, abs_div_le_iff hd, hda, ← arm2Cos_eq xp yp] at hp
  rw [arm2Cos_eq xn yn, abs_div_le_iff hd, hda, ← arm2Cos_eq xn yn] at hn
  rw [show (-Real.sqrt (T 0 3 ^ 2 + T 1 3 ^ 2) - a1) ^ 2 =
      (Real.sqrt (T 0 3 ^ 2 + T 1 3 ^ 2) + a1) ^ 2 by ring] at hn
  rw [← hp, ← hn]
  unfold arm2Ik at h
  simp only at h
  split at h
  · rename_i hsome
    rw [Option.some.injEq] at h
    subst h
    change (Option.isSome (Option.map elbow (snap (arm2Cos a1 a2 a3 (T 0 3) (T 1 3) (T 2 3)
      (atan2 (Zeros.py T) (Zeros.px T) (T 1 3) (T 0 3))))) || Option.isSome (Option.map elbow (snap (arm2Cos a1 a2 a3 (T 0 3)
        (T 1 3) (T 2 3) (atan2 (!Zeros.py T) (!Zeros.px T) (-T 1 3) (-T 0 3)))))) = true at hsome
    change (((Option.map (arm2Pos T a1 a2 a3 _ _ _) (Option.map elbow (snap (arm2Cos a1 a2 a3 (T 0 3)
      (T 1 3) (T 2 3) (atan2 (Zeros.py T) (Zeros.px T) (T 1 3) (T 0 3)))))).getD [] ++
      (Option.map (arm2Neg T a1 a2 a3 _ _ _) (Option.map elbow (snap (arm2Cos a1 a2 a3 (T 0 3)
        (T 1 3) (T 2 3) (atan2 (!Zeros.py T) (!Zeros.px T) (-T 1 3) (-T 0 3)))))).getD []).length = 4 ↔ _) ∧
      (((Option.map (arm2Pos T a1 a2 a3 _ _ _) (Option.map elbow (snap (arm2Cos a1 a2 a3 (T 0 3)
      (T 1 3) (T 2 3) (atan2 (Zeros.py T) (Zeros.px T) (T 1 3) (T 0 3)))))).getD [] ++
      (Option.map (arm2Neg T a1 a2 a3 _ _ _) (Option.map elbow (snap (arm2Cos a1 a2 a3 (T 0 3)
        (T 1 3) (T 2 3) (atan2 (!Zeros.py T) (!Zeros.px T) (-T 1 3) (-T 0 3)))))).getD []).length = 4 ∨
      ((Option.map (arm2Pos T a1 a2 a3 _ _ _) (Option.map elbow (snap (arm2Cos a1 a2 a3 (T 0 3)
      (T 1 3) (T 2 3) (atan2 (Zeros.py T) (Zeros.px T) (T 1 3) (T 0 3)))))).getD [] ++
      (Option.map (arm2Neg T a1 a2 a3 _ _ _) (Option.map elbow (snap (arm2Cos a1 a2 a3 (T 0 3)
        (T 1 3) (T 2 3) (atan2 (!Zeros.py T) (!Zeros.px T) (-T 1 3) (-T 0 3)))))).getD []).length = 2)
    revert hsome
    generalize snap (arm2Cos a1 a2 a3 (T 0 3) (T 1 3) (T 2 3) (atan2 (Zeros.py T) (Zeros.px T) (T 1 3) (T 0 3))) = o1
    generalize snap (arm2Cos a1 a2 a3 (T 0 3) (T 1 3) (T 2 3) (atan2 (!Zeros.py T) (!Zeros.px T) (-T 1 3) (-T 0 3))) = o2
    intro hsome
    cases o1 <;> cases o2 <;> simp [arm2Pos, arm2Neg] at hsome ⊢
  · cases h

/-! ### The Kuka -/

section

variable {a1 a2 d4 d6 : ℝ} {base T : M4} {tool : Option (Tool Shape)} {w : V3}

theorem kukaTarget_at (hb : IsRigid base) (ht : ∀ t, tool = some t → IsRigid t.tfTT) {R : M3} {p : V3}
    (hT : T = base * mkTf R p * tipOf tool) (hw : ∀ i, w i = p i - d6 * R i 2) (n : Nat) :
    kukaTarget (setup (Kuka.new a1 a2 d4 d6 n) base tool).robot T = mkTf R w := by
  rw [kukaTarget_eq (d6 := d6) (r := (setup (Kuka.new a1 a2 d4 d6 n) base tool).robot) hb
    (tipOf_rigid ht) hT rfl]
  congr 1
  ext i
  rw [hw]
  simp [Matrix.mulVec, dotProduct, Fin.sum_univ_three, mul_comm]

/-- **C120**: the robot reaches a pose exactly, in some configuration, if and only if the triangle of
shoulder, elbow and wrist centre closes. -/
theorem C120_reach (hit : Oracle Shape) (ha : a2 * d4 ≠ 0) (n : Nat) (hb : IsRigid base)
    (ht : ∀ t, tool = some t → IsRigid t.tfTT) (hw : WristCentre d6 base tool T w) :
    (∃ q1 q2 q3 q4 q5 q6, FkSatisfies hit (setup (Kuka.new a1 a2 d4 d6 n) base tool).robot
      [q1, q2, q3, q4, q5, q6] (· = T)) ↔ Closes a1 a2 d4 0 w := by
  obtain ⟨R, p, hR, hT, hwp⟩ := hw
  have hp : p = w + R *ᵥ ![0, 0, d6] := by
    ext i
    rw [Pi.add_apply, hwp]
    simp [Matrix.mulVec, dotProduct, Fin.sum_univ_three, mul_comm]
  have hd2 : (2 : ℝ) * a2 * d4 ≠ 0 := by rw [mul_assoc]; exact mul_ne_zero two_ne_zero ha
  constructor
  · rintro ⟨q1, q2, q3, q4, q5, q6, h⟩
    rw [fkSatisfies_iff _ _ (setup_known a1 a2 d4 d6 n base tool) _ (le_refl _)] at h
    have hc : chain (kukaRobot a1 a2 d4 d6).links [q1, q2, q3, q4, q5, q6] = mkTf R p := by
      have h' : base * chain (kukaRobot a1 a2 d4 d6).links [q1, q2, q3, q4, q5, q6] * tipOf tool =
        base * mkTf R p * tipOf tool := by rw [← hT]; exact h
      have := congrArg (fun X => tfInverse base * (X * tfInverse (tipOf tool))) h'
      simpa only [mul_assoc, mul_tfInverse (tipOf_rigid ht), mul_one, ← mul_assoc (tfInverse base),
        tfInverse_mul hb, one_mul] using this
    rw [chain_kuka] at hc
    obtain ⟨h1, h2⟩ := mkTf_inj hc
    rw [h1, hp] at h2
    have hw' : armPos a1 a2 d4 q1 q2 (q3 - Real.pi / 2) = w := add_right_cancel h2
    set b := q3 - Real.pi / 2
    have x0 : Real.cos q1 * (a1 + a2 * Real.cos q2 + d4 * Real.cos (q2 + b)) = w 0 :=
      congrFun hw' 0
    have x1 : Real.sin q1 * (a1 + a2 * Real.cos q2 + d4 * Real.cos (q2 + b)) = w 1 :=
      congrFun hw' 1
    have x2 : a2 * Real.sin q2 + d4 * Real.sin (q2 + b) = w 2 := congrFun hw' 2
    refine ⟨a1 + a2 * Real.cos q2 + d4 * Real.cos (q2 + b), ?_, ?_⟩
    · rw [← x0, ← x1]
      linear_combination
        -(a1 + a2 * Real.cos q2 + d4 * Real.cos (q2 + b)) ^ 2 * Real.cos_sq_add_sin_sq q1
    · have : (a1 + a2 * Real.cos q2 + d4 * Real.cos (q2 + b) - a1) ^ 2 + w 2 ^ 2 - a2 ^ 2 - d4 ^ 2 =
          2 * (a2 * d4) * Real.cos b := by
        rw [← x2, Real.cos_add, Real.sin_add]
        linear_combination (a2 ^ 2 + 2 * a2 * d4 * Real.cos b + d4 ^ 2 *
          (Real.cos b ^ 2 + Real.sin b ^ 2)) * Real.cos_sq_add_sin_sq q2 +
          d4 ^ 2 * Real.cos_sq_add_sin_sq b
      unfold ClosesAt
      rw [this, abs_mul, abs_mul, abs_two, add_zero, one_mul]
      exact mul_le_of_le_one_right (by positivity) (Real.abs_cos_le_one b)
  · rintro ⟨u, hu, h⟩
    have hcs : ∃ q1, w 0 = Real.cos q1 * u ∧ w 1 = Real.sin q1 * u := by
      have hs := Real.sq_sqrt (show 0 ≤ w 0 ^ 2 + w 1 ^ 2 by positivity)
      have : u = Real.sqrt (w 0 ^ 2 + w 1 ^ 2) ∨ u = -Real.sqrt (w 0 ^ 2 + w 1 ^ 2) := by
        rw [← sq_eq_sq_iff_eq_or_eq_neg, hs, hu]
      rcases this with rfl | rfl
      · exact ⟨_, u_pos false false _ _⟩
      · exact ⟨_, u_neg false false _ _⟩
    obtain ⟨q1, hx, hy⟩ := hcs
    set c := ((u - a1) ^ 2 + w 2 ^ 2 - a2 ^ 2 - d4 ^ 2) / (2 * a2 * d4) with hc
    have hcc := mul_div_cancel₀ ((u - a1) ^ 2 + w 2 ^ 2 - a2 ^ 2 - d4 ^ 2) hd2
    rw [← hc] at hcc
    have hca : |c| ≤ 1 := by
      rw [hc, abs_div, div_le_one (abs_pos.2 hd2)]
      refine h.trans (le_of_eq ?_)
      rw [add_zero, one_mul, mul_assoc, abs_mul 2 (a2 * d4), abs_two]
    obtain ⟨q2, q3, q4, q5, q6, h1, -⟩ := reach_from (a1 := a1) (a2 := a2) (d4 := d4) (d6 := d6) hR hx
      hy (abs_le.1 hca).1 (abs_le.1 hca).2 (by linarith)
    refine ⟨q1, q2, q3, q4, q5, q6, ?_⟩
    rw [fkSatisfies_iff _ _ (setup_known a1 a2 d4 d6 n base tool) _ (le_refl _)]
    change base * chain (kukaRobot a1 a2 d4 d6).links _ * tipOf tool = T
    rw [h1, hT, hp]

/-- **C120**: `ik` returns `None` if and only if the triangle fails to close by more than a millionth,
whatever was called before.  Otherwise it returns four solutions for each of the two shoulders for which
the triangle closes. -/
theorem C120_none [Zeros] (ha : a2 * d4 ≠ 0) (n : Nat) (mem : Mem) (hn : n < mem.length)
    (history : List IkCall) (hb : IsRigid base) (ht : ∀ t, tool = some t → IsRigid t.tfTT)
    (hw : WristCentre d6 base tool T w) :
    let k := setup (Kuka.new a1 a2 d4 d6 n) base tool
    let s := kukaAfter (Kuka.new a1 a2 d4 d6 n) mem history
    ((k.ik s.1 s.2 T).1 = .ok none ↔ ¬ Closes a1 a2 d4 (1 / 10 ^ 6) w) ∧
    ∀ sols, (k.ik s.1 s.2 T).1 = .ok (some sols) →
      (sols.length = 8 ↔ ClosesAt a1 a2 d4 (1 / 10 ^ 6) w (Real.sqrt (w 0 ^ 2 + w 1 ^ 2)) ∧
        ClosesAt a1 a2 d4 (1 / 10 ^ 6) w (-Real.sqrt (w 0 ^ 2 + w 1 ^ 2))) ∧
      (sols.length = 8 ∨ sols.length = 4) := by
  intro k s
  obtain ⟨R, p, hR, hT, hwp⟩ := hw
  have htgt : kukaTarget k.robot T = mkTf R w := kukaTarget_at hb ht hT hwp n
  have hiff := C36_arm2_iff (a1 := a1) ha (mkTf R w)
  rw [show (mkTf R w) 0 3 = w 0 from rfl, show (mkTf R w) 1 3 = w 1 from rfl,
    show (mkTf R w) 2 3 = w 2 from rfl, ← closes_iff] at hiff
  obtain ⟨hwf, hlen⟩ := kukaAfter_inv (a1 := a1) (a2 := a2) (d4 := d4) (d6 := d6) mem hn history
  have hm : k.qsol < s.2.length := lt_of_lt_of_le hn hlen
  cases hq : arm2Ik (arm2 a1 a2 d4) (mkTf R w) with
  | none =>
    rw [hq] at hiff
    have hno : ¬ Closes a1 a2 d4 (1 / 10 ^ 6) w := fun h => by simpa using hiff.2 h
    rw [kukaIk_none k (a1 := a1) (a2 := a2) (d4 := d4) rfl s.1 s.2 (htgt ▸ hq)]
    exact ⟨⟨fun _ => hno, fun _ => rfl⟩, fun sols h => by simp at h⟩
  | some qs =>
    rw [hq] at hiff
    obtain ⟨st', X, e, -⟩ := kukaIk_some k (a1 := a1) (a2 := a2) (d4 := d4) rfl hwf hm (htgt ▸ hq)
    rw [e]
    have hcl := hiff.1 rfl
    refine ⟨⟨fun h => by simp at h, fun h => absurd hcl h⟩, fun sols h => ?_⟩
    cases h
    rw [List.length_range']
    obtain ⟨h1, h2⟩ := arm2_count ha hq
    rw [show (mkTf R w) 0 3 = w 0 from rfl, show (mkTf R w) 1 3 = w 1 from rfl,
      show (mkTf R w) 2 3 = w 2 from rfl] at h1
    have e4 : ∀ x : ℝ, (-x - a1) ^ 2 = (x + a1) ^ 2 := fun x => by ring
    unfold ClosesAt
    rw [e4, ← h1]
    omega

end

/-- The full property: `ik` returns `None` if and only if no configuration reaches the target. -/
def C120_statement [Zeros] : Prop := ∀ (hit : Oracle Shape) (a1 a2 d4 d6 : ℝ), a2 * d4 ≠ 0 →
  ∀ (n : Nat) (mem : Mem), n < mem.length → ∀ (history : List IkCall) (base T : M4), IsRigid base →
  IsRigid T → ∀ tool : Option (Tool Shape), (∀ t, tool = some t → IsRigid t.tfTT) →
    let k := setup (Kuka.new a1 a2 d4 d6 n) base tool
    let s := kukaAfter (Kuka.new a1 a2 d4 d6 n) mem history
    ((k.ik s.1 s.2 T).1 = .ok none ↔
      ¬ ∃ q1 q2 q3 q4 q5 q6, FkSatisfies hit k.robot [q1, q2, q3, q4, q5, q6] (· = T))

theorem wristCentre_exists (d6 : ℝ) {base T : M4} {tool : Option (Tool Shape)} (hb : IsRigid base)
    (hT : IsRigid T) (ht : ∀ t, tool = some t → IsRigid t.tfTT) :
    ∃ w, WristCentre d6 base tool T w := by
  obtain ⟨R, p, hR, h⟩ := exists_flange hb (tipOf_rigid ht) hT
  exact ⟨fun i => p i - d6 * R i 2, R, p, hR, h, fun i => rfl⟩

/-- **C120**, partial: `None` is only returned for poses that the robot cannot reach, and is returned
for all of them except those for which the triangle fails to close by at most a millionth. -/
theorem C120_partial [Zeros] (hit : Oracle Shape) {a1 a2 d4 d6 : ℝ} (ha : a2 * d4 ≠ 0) (n : Nat)
    (mem : Mem)
    (hn : n < mem.length) (history : List IkCall) {base T : M4} (hb : IsRigid base) (hT : IsRigid T)
    (tool : Option (Tool Shape)) (ht : ∀ t, tool = some t → IsRigid t.tfTT) :
    let k := setup (Kuka.new a1 a2 d4 d6 n) base tool
    let s := kukaAfter (Kuka.new a1 a2 d4 d6 n) mem history
    ((k.ik s.1 s.2 T).1 = .ok none →
      ¬ ∃ q1 q2 q3 q4 q5 q6, FkSatisfies hit k.robot [q1, q2, q3, q4, q5, q6] (· = T)) ∧
    ((¬ ∃ q1 q2 q3 q4 q5 q6, FkSatisfies hit k.robot [q1, q2, q3, q4, q5, q6] (· = T)) →
      (k.ik s.1 s.2 T).1 = .ok none ∨ ∃ w, WristCentre d6 base tool T w ∧ ¬ Closes a1 a2 d4 0 w ∧
        Closes a1 a2 d4 (1 / 10 ^ 6) w) := by
  intro k s
  obtain ⟨w, hw⟩ := wristCentre_exists d6 hb hT ht
  obtain ⟨h1, -⟩ := C120_none (a1 := a1) ha n mem hn history hb ht hw
  have h2 := C120_reach (a1 := a1) hit ha n hb ht hw
  constructor
  · intro h hex
    refine h1.1 h ?_
    obtain ⟨u, hu, hc⟩ := h2.1 hex
    refine ⟨u, hu, hc.trans ?_⟩
    gcongr
    norm_num
  · intro h
    rw [h2] at h
    by_cases hc : Closes a1 a2 d4 (1 / 10 ^ 6) w
    · exact .inr ⟨w, hw, h, hc⟩
    · exact .inl (h1.2 hc)

/-- The pose with the flange a ten-millionth of a metre out of the reach of the shipped Kuka. -/
noncomputable def justOut : M4 := mkTf 1 ![1.4 + 1 / 10 ^ 7, 0, 0.115]

theorem justOut_wrist : WristCentre 0.115 1 none justOut ![1.4 + 1 / 10 ^ 7, 0, 0] := by
  refine ⟨1, ![1.4 + 1 / 10 ^ 7, 0, 0.115], IsRot.one, ?_, ?_⟩
  · simp [justOut, tipOf]
  · intro i; fin_cases i <;> [simp; simp; (rw [show (1 : M3) _ 2 = 1 from rfl]; simp)]

/-- **C120** is false: a ten-millionth of a metre out of reach, the shipped Kuka returns four
solutions. -/
theorem C120_refuted [Zeros] : ¬ C120_statement := by
  intro h
  have h0 := h (fun _ _ => false) 0.18 0.6 0.62 0.115 (by norm_num) 0 [[]] (by simp) [] 1 justOut
    IsRigid.one (isRigid_mkTf.2 IsRot.one) none (by simp)
  have hs : ∀ x : ℝ, 0 ≤ x → Real.sqrt (x ^ 2 + 0 ^ 2) = x := fun x hx => by
    rw [zero_pow two_ne_zero, add_zero, Real.sqrt_sq hx]
  have ht : ∀ t : Tool Shape, none = some t → IsRigid t.tfTT := by simp
  have h1 := (C120_none (a1 := 0.18) (a2 := 0.6) (d4 := 0.62) (by norm_num) 0 [[]] (by simp) []
    IsRigid.one ht justOut_wrist).1
  have h2 := C120_reach (a1 := 0.18) (a2 := 0.6) (d4 := 0.62) (fun _ _ => false) (by norm_num) 0
    IsRigid.one ht justOut_wrist
  replace h0 := h1.symm.trans (h0.trans (not_congr h2))
  rw [not_iff_not, closes_iff, closes_iff] at h0
  simp only [Matrix.cons_val] at h0
  rw [hs _ (by norm_num)] at h0
  norm_num [abs_le] at h0

/-- C120: a case of the other theorems: the shipped Kuka, on a turned base, reaches the pose 0.5 m in
front of it and 0.3 m up, and does not reach one 2 m away. -/
example [Zeros] (hit : Oracle Shape) : (∃ q1 q2 q3 q4 q5 q6, FkSatisfies hit
      (setup (Kuka.new 0.18 0.6 0.62 0.115 0) (mkTf (rotZ 1) ![1, 2, 3]) none).robot
      [q1, q2, q3, q4, q5, q6] (· = mkTf (rotZ 1) ![1, 2, 3] * mkTf 1 ![0.5, 0, 0.3])) ∧
    ((setup (Kuka.new 0.18 0.6 0.62 0.115 0) (mkTf (rotZ 1) ![1, 2, 3]) none).ik (RState.new 3) [[]]
      (mkTf (rotZ 1) ![1, 2, 3] * mkTf 1 ![2, 0, 0.115])).1 = .ok none := by
  have hb : IsRigid (mkTf (rotZ 1) ![1, 2, 3]) := isRigid_mkTf.2 (rotZ_isRot _)
  have ht : ∀ t : Tool Shape, none = some t → IsRigid t.tfTT := by simp
  have hs : ∀ x : ℝ, 0 ≤ x → Real.sqrt (x ^ 2 + 0 ^ 2) = x := fun x hx => by
    rw [zero_pow two_ne_zero, add_zero, Real.sqrt_sq hx]
  have hw : ∀ x z : ℝ, WristCentre 0.115 (mkTf (rotZ 1) ![1, 2, 3]) none
      (mkTf (rotZ 1) ![1, 2, 3] * mkTf 1 ![x, 0, z]) ![x, 0, z - 0.115] := fun x z => by
    refine ⟨1, ![x, 0, z], IsRot.one, by simp [tipOf], ?_⟩
    intro i; fin_cases i <;> [simp; simp; (rw [show (1 : M3) _ 2 = 1 from rfl]; simp)]
  constructor
  · rw [C120_reach hit (by norm_num) 0 hb ht (hw 0.5 0.3), closes_iff]
    left
    simp only [Matrix.cons_val]
    rw [hs _ (by norm_num)]
    norm_num [abs_le]
  · have := (C120_none (a1 := 0.18) (a2 := 0.6) (d4 := 0.62) (by norm_num) 0 [[]] (by simp) [] hb ht
      (hw 2 0.115)).1
    refine this.2 ?_
    rw [closes_iff]
    simp only [Matrix.cons_val]
    rw [hs _ (by norm_num)]
    norm_num [abs_le]

/-! ### KukaOnRail -/

/-- C120 for KukaOnRail: with the rail at `qf`, the robot reaches a pose if and only if the triangle
closes for the wrist centre seen from the carriage. -/
theorem C120_rail_reach (hit : Oracle Shape) {a1 a2 d4 d6 : ℝ} (ha : a2 * d4 ≠ 0) (n : Nat)
    {base T : M4} (hb : IsRigid base) {tool : Option (Tool Shape)}
    (ht : ∀ t, tool = some t → IsRigid t.tfTT) (qf : ℝ) {w : V3}
    (hw : WristCentre d6 (base * railLink qf) tool T w) :
    (∃ q1 q2 q3 q4 q5 q6, FkSatisfies hit (setupRail (Rail.new a1 a2 d4 d6 n) base tool).robot
      [qf, q1, q2, q3, q4, q5, q6] (· = T)) ↔ Closes a1 a2 d4 0 w := by
  rw [← C120_reach hit ha n (hb.mul (dhMat_rigid _ _ _ _)) ht hw]
  refine exists_congr fun q1 => exists_congr fun q2 => exists_congr fun q3 => exists_congr fun q4 =>
    exists_congr fun q5 => exists_congr fun q6 => ?_
  rw [fkSatisfies_iff _ (setupRail (Rail.new a1 a2 d4 d6 n) base tool).robot
    (rail_known _ _ _ _) _ (le_refl _),
    fkSatisfies_iff _ _ (setup_known a1 a2 d4 d6 n _ tool) _ (le_refl _)]
  change base * chain (railRobot a1 a2 d4 d6).links _ * tipOf tool = T ↔
    base * railLink qf * chain (kukaRobot a1 a2 d4 d6).links _ * tipOf tool = T
  rw [chain_rail, ← mul_assoc base]

/-- C120 for KukaOnRail: whatever the parameters of the robot, `ik` returns `None` exactly when the
triangle with the *default* lengths fails to close by more than a millionth. -/
theorem C120_rail_none [Zeros] (a1 a2 d4 d6 : ℝ) (n : Nat) (mem : Mem) (hn : n < mem.length)
    (history : List RailCall) {base T : M4} (hb : IsRigid base) {tool : Option (Tool Shape)}
    (ht : ∀ t, tool = some t → IsRigid t.tfTT) (qf : ℝ) {w : V3}
    (hw : WristCentre 0.115 (base * railLink qf) tool T w) :
    let r := setupRail (Rail.new a1 a2 d4 d6 n) base tool
    let s := railAfter (Rail.new a1 a2 d4 d6 n) mem history
    (r.ik s.st0 s.st s.mem T qf).1 = .ok none ↔ ¬ Closes 0.18 0.6 0.62 (1 / 10 ^ 6) w := by
  intro r s
  obtain ⟨h0, hwf, hlen⟩ := railAfter_inv (a1 := a1) (a2 := a2) (d4 := d4) (d6 := d6) mem hn history
  have hm : n < s.mem.length := lt_of_lt_of_le hn hlen
  obtain ⟨R, p, hR, hT, hwp⟩ := hw
  have hX : railTarget r.robot T = railLink qf * mkTf R p :=
    railTarget_eq (r := r.robot) hb (tipOf_rigid ht) (by rw [hT, mul_assoc base]; rfl)
  have htgt : kukaTarget (innerKuka n qf).robot (railTarget r.robot T) = mkTf R w := by
    rw [kukaTarget_eq (d6 := 0.115) (r := (innerKuka n qf).robot) (dhMat_rigid _ _ _ _) IsRigid.one (by
      rw [hX]
      change _ = railLink qf * mkTf R p * 1
      rw [mul_one]) rfl]
    congr 1
    ext i
    rw [hwp]
    simp [Matrix.mulVec, dotProduct, Fin.sum_univ_three, mul_comm]
  have hiff := C36_arm2_iff (a1 := 0.18) (a2 := 0.6) (a3 := 0.62) (by norm_num) (mkTf R w)
  rw [show (mkTf R w) 0 3 = w 0 from rfl, show (mkTf R w) 1 3 = w 1 from rfl,
    show (mkTf R w) 2 3 = w 2 from rfl, ← closes_iff] at hiff
  obtain ⟨st0', -, e⟩ := railIk_eq (r := r) (a1 := a1) (a2 := a2) (d4 := d4) (d6 := d6) rfl rfl h0 s.st
    s.mem T qf
  cases hq : arm2Ik (arm2 0.18 0.6 0.62) (mkTf R w) with
  | none =>
    rw [hq] at hiff
    have hno : ¬ Closes 0.18 0.6 0.62 (1 / 10 ^ 6) w := fun h => by simpa using hiff.2 h
    rw [kukaIk_none (innerKuka n qf) (a1 := 0.18) (a2 := 0.6) (d4 := 0.62) rfl _ _
      (htgt ▸ hq)] at e
    rw [e]
    exact ⟨fun _ => hno, fun _ => rfl⟩
  | some qs =>
    rw [hq] at hiff
    obtain ⟨st', X, e', -⟩ := kukaIk_some (innerKuka n qf) (a1 := 0.18) (a2 := 0.6) (d4 := 0.62) rfl
      hwf hm (htgt ▸ hq)
    rw [e'] at e
    rw [e]
    exact ⟨fun h => by simp at h, fun h => absurd (hiff.1 rfl) h⟩

end Verif.Props
