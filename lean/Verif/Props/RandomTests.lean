import Verif.Props.Snapped

/-!
# C132: the randomised round trips of tests/test_robot.py

The tests draw joint values, compute the pose with `fk`, solve it with `ik` and compare the poses of
all solutions with the first pose.  They draw twenty samples; here all draws are considered.
-/

set_option linter.unusedSectionVars false

namespace Verif.Props

open Matrix Verif.Geometry Verif.Kin Verif.Util

/-- `numpy.testing.assert_almost_equal` with its default of seven decimals, on two positions. -/
def AlmostEqual (p r : V3) : Prop := ∀ i, |p i - r i| < 1.5 / 10 ^ 7

/-- tests/test_robot.py:245-249: the body of the loop of `test_aa_random`, for one draw. -/
def AaRoundTrip [Zeros] (hit : Oracle Shape) (q : List ℝ) : Prop :=
  FkSatisfies hit (anthropomorphicArm 1 1) q fun T1 =>
    ∃ sols, anthropomorphicIk (anthropomorphicArm 1 1) T1 = some sols ∧ ∀ s ∈ sols,
      FkSatisfies hit (anthropomorphicArm 1 1) s fun T2 => AlmostEqual (posPart T1) (posPart T2)

/-- tests/test_robot.py:279-284: the body of the loop of `test_arm2_random`, for one draw; its other
branch (285-288) is a failure unless all joint values are zero. -/
def Arm2RoundTrip [Zeros] (hit : Oracle Shape) (q : List ℝ) : Prop :=
  FkSatisfies hit (arm2 1 1 1) q fun T1 =>
    ∃ sols, arm2Ik (arm2 1 1 1) T1 = some sols ∧ ∀ s ∈ sols,
      FkSatisfies hit (arm2 1 1 1) s fun T2 => AlmostEqual (posPart T1) (posPart T2)

/-- A cosine that the inverse kinematics does not change, or refuses. -/
def NotRounded (c : ℝ) : Prop := |c| ≤ 1 - 1 / 10 ^ 6 ∨ |c| = 1 ∨ 1 + 1 / 10 ^ 6 < |c|

theorem snap_notRounded {c c' : ℝ} (hc : NotRounded c) (h : snap c = some c') : c' = c := by
  rcases hc with hc | hc | hc
  · exact (snap_some h).2.2.2.2 hc
  · have ht : (0 : ℝ) < tol ∧ tol < 1 := by constructor <;> norm_num [tol]
    unfold snap at h
    rcases eq_or_eq_neg_of_abs_eq hc with rfl | rfl
    · rw [if_neg (by push Not; constructor <;> linarith), if_pos (by left; linarith)] at h
      simpa using h.symm
    · rw [if_neg (by push Not; constructor <;> linarith), if_pos (by right; linarith)] at h
      simpa using h.symm
  · exfalso
    unfold snap at h
    rw [if_pos] at h
    · cases h
    · unfold tol
      rcases lt_abs.1 hc with h1 | h1
      · exact Or.inl h1
      · right; linarith

/-- The elbow of a candidate has the rounded cosine. -/
theorem _root_.Verif.Kin.IsCand.elbow {a1 a2 a3 x y z : ℝ} {q : List ℝ}
    (h : IsCand a1 a2 a3 x y z q) : ∃ q1 q2 q3 u, q = [q1, q2, q3] ∧ u ^ 2 = x ^ 2 + y ^ 2 ∧
      x = Real.cos q1 * u ∧ y = Real.sin q1 * u ∧
      snap (((u - a1) ^ 2 + z ^ 2 - a2 ^ 2 - a3 ^ 2) / (2 * a2 * a3)) = some (Real.cos q3) := by
  obtain ⟨u, q1, c', sg, b, d, b', d', rfl, rfl, hsg, hsnap, rfl⟩ := h
  obtain ⟨b1, b2, -⟩ := snap_some hsnap
  refine ⟨_, _, _, u, rfl, ?_, rfl, rfl, ?_⟩
  · linear_combination -u ^ 2 * Real.cos_sq_add_sin_sq q1
  · rw [(cs_elbow b' d' b1 b2 hsg).1]; exact hsnap

theorem AlmostEqual.refl (p : V3) : AlmostEqual p p := fun i => by rw [sub_self, abs_zero]; norm_num

theorem eq_of_dist2 {p r : V3} (h : Real.sqrt (dist2 p r) = 0) : p = r := by
  have h0 := (Real.sqrt_eq_zero (dist2_nonneg' _ _)).1 h
  simp only [dist2, dotProduct, Pi.sub_apply, Fin.sum_univ_three] at h0
  have key : ∀ i, p i - r i = 0 := by
    intro i
    fin_cases i <;> simp only [Fin.zero_eta, Fin.mk_one, Fin.reduceFinMk] <;>
      nlinarith [mul_self_nonneg (p 0 - r 0), mul_self_nonneg (p 1 - r 1),
        mul_self_nonneg (p 2 - r 2)]
  ext i
  linarith [key i]

/-- If the elbow is not rounded, the candidate is exact. -/
theorem _root_.Verif.Kin.IsCand.exact {a1 a2 a3 : ℝ} {p : V3} {q : List ℝ} (ha : a2 * a3 ≠ 0)
    (h : IsCand a1 a2 a3 (p 0) (p 1) (p 2) q)
    (hn : ∀ u, u ^ 2 = p 0 ^ 2 + p 1 ^ 2 →
      NotRounded (((u - a1) ^ 2 + p 2 ^ 2 - a2 ^ 2 - a3 ^ 2) / (2 * a2 * a3))) :
    ∃ q1 q2 q3, q = [q1, q2, q3] ∧ armPos a1 a2 a3 q1 q2 q3 = p := by
  obtain ⟨q1, q2, q3, rfl, he, -⟩ := h.error ha
  obtain ⟨_, _, _, u, e, hu, hx, hy, hs⟩ := h.elbow
  cases e
  refine ⟨q1, q2, q3, rfl, ?_⟩
  have hc := snap_notRounded (hn u hu) hs
  have hp : (![p 0, p 1, p 2] : V3) = p := by ext i; fin_cases i <;> rfl
  have hd : dist2 ![p 0, p 1, p 2] ![a1 * Real.cos q1, a1 * Real.sin q1, 0] =
      a2 ^ 2 + a3 ^ 2 + 2 * a2 * a3 * Real.cos q3 := by
    have h2 : (2 * a2 * a3 : ℝ) ≠ 0 := by rw [mul_assoc]; exact mul_ne_zero two_ne_zero ha
    rw [hc, mul_div_cancel₀ _ h2]
    simp only [dist2, dotProduct, Pi.sub_apply, Fin.sum_univ_three]
    simp only [Matrix.cons_val_zero, Matrix.cons_val_one, Matrix.cons_val]
    rw [hx, hy]
    linear_combination (u - a1) ^ 2 * Real.cos_sq_add_sin_sq q1
  rw [hd, sub_self] at he
  have := eq_of_dist2 (p := armPos a1 a2 a3 q1 q2 q3) (r := ![p 0, p 1, p 2]) (by rw [he]; simp)
  rw [this, hp]

theorem aa_fk (hit : Oracle Shape) (q1 q2 q3 : ℝ) (P : M4 → Prop) :
    FkSatisfies hit (anthropomorphicArm 1 1) [q1, q2, q3] P ↔
      P (chain (anthropomorphicArm 1 1).links [q1, q2, q3]) := by
  rw [fkSatisfies_iff _ _ (anthropomorphic_known _ _) _ (le_refl _)]
  simp [anthropomorphicArm, Robot.new, tip]

theorem arm2_fk (hit : Oracle Shape) (q1 q2 q3 : ℝ) (P : M4 → Prop) :
    FkSatisfies hit (arm2 1 1 1) [q1, q2, q3] P ↔
      P (mkTf (armRot q1 (q2 + q3)) (armPos 1 1 1 q1 q2 q3)) := by
  rw [fkSatisfies_iff _ _ (arm2_known _ _ _) _ (le_refl _), chain_arm2]
  simp [arm2, Robot.new, tip]

/-- **C132**, partial: the loop body of `test_aa_random` passes for every draw whose elbow angle has a
cosine of absolute value at most 1 − 1e-6, or exactly one; then every solution is exact.
Missing: the other draws, for some of which it fails (`C132_aa_refuted`). -/
theorem C132_aa_partial [Zeros] (hit : Oracle Shape) (q1 q2 q3 : ℝ)
    (h : |Real.cos q3| ≤ 1 - 1 / 10 ^ 6 ∨ |Real.cos q3| = 1) : AaRoundTrip hit [q1, q2, q3] := by
  rw [AaRoundTrip, aa_fk]
  set T := chain (anthropomorphicArm 1 1).links [q1, q2, q3] with hTd
  have hT : posPart T = armPos 0 1 1 q1 q2 q3 := posPart_anthropomorphic 1 1 q1 q2 q3
  obtain ⟨sols, hs⟩ := anthropomorphicIk_succeeds (a2 := 1) (a3 := 1) (by norm_num) q1 q2 q3 hT
  refine ⟨sols, hs, fun s hm => ?_⟩
  have hcand : IsCand 0 1 1 (posPart T 0) (posPart T 1) (posPart T 2) s :=
    anthropomorphicIk_cand hs hm
  obtain ⟨s1, s2, s3, rfl, hp⟩ := hcand.exact (by norm_num) (fun u hu => by
    have hd := dist2_shoulder 0 1 1 q1 q2 q3
    rw [← hT] at hd
    simp only [dist2, dotProduct, Pi.sub_apply, Fin.sum_univ_three] at hd
    simp only [Matrix.cons_val_zero, Matrix.cons_val_one, Matrix.cons_val] at hd
    have : ((u - 0) ^ 2 + posPart T 2 ^ 2 - 1 ^ 2 - 1 ^ 2) / (2 * 1 * 1) = Real.cos q3 := by
      linear_combination hu / 2 + hd / 2
    rw [this]
    rcases h with h | h
    · exact Or.inl h
    · exact Or.inr (Or.inl h))
  rw [aa_fk, posPart_anthropomorphic 1 1 s1 s2 s3, hp]
  exact AlmostEqual.refl _

/-- **C132** is false: for every draw with an elbow that is folded almost but not quite, the loop body
of `test_aa_random` fails, whatever the other two joint values. -/
theorem C132_aa_refuted [Zeros] (hit : Oracle Shape) (q1 q2 q3 : ℝ)
    (h1 : -1 + 1 / 10 ^ 13 < Real.cos q3) (h2 : Real.cos q3 < -1 + 1 / 10 ^ 6) :
    ¬ AaRoundTrip hit [q1, q2, q3] := by
  rw [AaRoundTrip, aa_fk]
  set T := chain (anthropomorphicArm 1 1).links [q1, q2, q3] with hTd
  have hT : posPart T = armPos 0 1 1 q1 q2 q3 := posPart_anthropomorphic 1 1 q1 q2 q3
  rintro ⟨sols, hs, hall⟩
  have hl := anthropomorphicIk_length hs
  obtain ⟨s, hm⟩ := List.exists_mem_of_length_pos (l := sols) (by omega)
  have hcand : IsCand 0 1 1 (posPart T 0) (posPart T 1) (posPart T 2) s :=
    anthropomorphicIk_cand hs hm
  obtain ⟨s1, s2, s3, u, rfl, hu, hx, hy, hsn⟩ := hcand.elbow
  have hd := dist2_shoulder 0 1 1 q1 q2 q3
  rw [← hT] at hd
  simp only [dist2, dotProduct, Pi.sub_apply, Fin.sum_univ_three] at hd
  simp only [Matrix.cons_val_zero, Matrix.cons_val_one, Matrix.cons_val] at hd
  have hc : ((u - 0) ^ 2 + posPart T 2 ^ 2 - 1 ^ 2 - 1 ^ 2) / (2 * 1 * 1) = Real.cos q3 := by
    linear_combination hu / 2 + hd / 2
  rw [hc] at hsn
  have hs3 : Real.cos s3 = -1 := by
    unfold snap at hsn
    rw [if_neg (by push Not; constructor <;> norm_num [tol] <;> linarith),
      if_pos (by right; norm_num [tol]; linarith)] at hsn
    rw [sign_neg (by linarith)] at hsn
    simpa using hsn.symm
  have hd' := dist2_shoulder 0 1 1 s1 s2 s3
  rw [hs3] at hd'
  have hz : armPos 0 1 1 s1 s2 s3 = ![0 * Real.cos s1, 0 * Real.sin s1, 0] :=
    eq_of_dist2 (by rw [hd']; norm_num)
  have := hall _ hm
  rw [aa_fk, posPart_anthropomorphic 1 1 s1 s2 s3, hz] at this
  have a0 := this 0
  have a1 := this 1
  have a2 := this 2
  simp only [Matrix.cons_val_zero, Matrix.cons_val_one, Matrix.cons_val, zero_mul, sub_zero] at a0 a1 a2
  have b : ∀ x : ℝ, |x| < 1.5 / 10 ^ 7 → x * x ≤ (1.5 / 10 ^ 7) ^ 2 := by
    intro x hx
    rw [← abs_mul_abs_self x, pow_two]
    exact mul_le_mul hx.le hx.le (abs_nonneg _) (by norm_num)
  have c0 := b _ a0
  have c1 := b _ a1
  have c2 := b _ a2
  norm_num at hd c0 c1 c2 h1
  linarith

/-- Such draws exist in the range of the test. -/
example [Zeros] (hit : Oracle Shape) : ∃ q3, 0 ≤ q3 ∧ q3 ≤ Real.pi ∧ ¬ AaRoundTrip hit
    [1, 1, q3] := by
  refine ⟨Real.arccos (-1 + 1 / 10 ^ 7), Real.arccos_nonneg _, Real.arccos_le_pi _,
    C132_aa_refuted hit _ _ _ ?_ ?_⟩ <;>
    rw [Real.cos_arccos (by norm_num) (by norm_num)] <;> norm_num

/-- And draws for which the test passes. -/
example [Zeros] (hit : Oracle Shape) : AaRoundTrip hit [1, 1, Real.pi / 2] :=
  C132_aa_partial hit _ _ _ (Or.inl (by norm_num))

/-- **C132**, partial: the loop body of `test_arm2_random` passes, with exact solutions, for every draw
for which neither the elbow nor the elbow of the solutions that reach backwards is rounded.  The second
elbow has the cosine cos q3 + 2 (1 + cos q2 + cos (q2 + q3)); if that is beyond one there are no such
solutions. -/
theorem C132_arm2_partial [Zeros] (hit : Oracle Shape) (q1 q2 q3 : ℝ) (h : NotRounded (Real.cos q3))
    (h' : NotRounded (Real.cos q3 + 2 * (1 + Real.cos q2 + Real.cos (q2 + q3)))) :
    Arm2RoundTrip hit [q1, q2, q3] := by
  rw [Arm2RoundTrip, arm2_fk]
  set T := mkTf (armRot q1 (q2 + q3)) (armPos 1 1 1 q1 q2 q3) with hTd
  have hT : posPart T = armPos 1 1 1 q1 q2 q3 := by rw [hTd, posPart_mkTf]
  obtain ⟨sols, hs⟩ := arm2Ik_succeeds (a1 := 1) (a2 := 1) (a3 := 1) (by norm_num) q1 q2 q3 hT
  refine ⟨sols, hs, fun s hm => ?_⟩
  have hcand : IsCand 1 1 1 (posPart T 0) (posPart T 1) (posPart T 2) s := arm2Ik_cand hs hm
  obtain ⟨s1, s2, s3, rfl, hp⟩ := hcand.exact (by norm_num) (fun u hu => by
    have hd := dist2_shoulder 1 1 1 q1 q2 q3
    simp only [dist2, dotProduct, Pi.sub_apply, Fin.sum_univ_three] at hd
    have g0 : armPos 1 1 1 q1 q2 q3 0 = Real.cos q1 * (1 + 1 * Real.cos q2 + 1 * Real.cos (q2 + q3)) :=
      rfl
    have g1 : armPos 1 1 1 q1 q2 q3 1 = Real.sin q1 * (1 + 1 * Real.cos q2 + 1 * Real.cos (q2 + q3)) :=
      rfl
    simp only [Matrix.cons_val_zero, Matrix.cons_val_one, Matrix.cons_val] at hd
    rw [hT] at hu ⊢
    rw [g0, g1] at hd hu
    set w := 1 + 1 * Real.cos q2 + 1 * Real.cos (q2 + q3) with hw
    have hcs := Real.cos_sq_add_sin_sq q1
    have huw : u ^ 2 = w ^ 2 := by rw [hu]; linear_combination w ^ 2 * hcs
    have hz : (w - 1) ^ 2 + armPos 1 1 1 q1 q2 q3 2 ^ 2 = 1 + 1 + 2 * Real.cos q3 := by
      linear_combination hd - (w - 1) ^ 2 * hcs
    rcases sq_eq_sq_iff_eq_or_eq_neg.1 huw with heq | hneg
    · have : ((u - 1) ^ 2 + armPos 1 1 1 q1 q2 q3 2 ^ 2 - 1 ^ 2 - 1 ^ 2) / (2 * 1 * 1) =
          Real.cos q3 := by rw [heq]; linear_combination hz / 2
      rw [this]; exact h
    · have : ((u - 1) ^ 2 + armPos 1 1 1 q1 q2 q3 2 ^ 2 - 1 ^ 2 - 1 ^ 2) / (2 * 1 * 1) =
          Real.cos q3 + 2 * (1 + Real.cos q2 + Real.cos (q2 + q3)) := by
        rw [hneg]
        linear_combination hz / 2 + 2 * hw
      rw [this]; exact h')
  rw [arm2_fk, posPart_mkTf (armRot s1 (s2 + s3)), hp]
  exact AlmostEqual.refl _

/-- A draw with a bent elbow; the arm cannot reach its target backwards. -/
example [Zeros] (hit : Oracle Shape) : Arm2RoundTrip hit [1, 0, Real.pi / 2] :=
  C132_arm2_partial hit _ _ _ (Or.inl (by norm_num)) (Or.inr (Or.inr (by norm_num)))

/-- A draw with two ways to reach its target. -/
example [Zeros] (hit : Oracle Shape) : Arm2RoundTrip hit [1, Real.pi / 2, Real.pi / 2] :=
  C132_arm2_partial hit _ _ _ (Or.inl (by norm_num)) (Or.inl (by norm_num))

/-- tests/test_robot.py:256-260 and 268-272: the body of the loops of `test_sw_random` and
`test_sw_random_other_base`, for one draw, on the arrays that are there at that time. -/
def WristRoundTrip [Zeros] (hit : Oracle Shape) (base : M4) (n : Nat) (mem : Mem) (q : List ℝ) :
    Prop :=
  FkSatisfies hit (wristOn 1 base) q fun T1 =>
    ∃ rows, (wristIk n base mem T1).2[(wristIk n base mem T1).1]? = some rows ∧ ∀ s ∈ rows,
      FkSatisfies hit (wristOn 1 base) s fun T2 =>
        ∀ i j, |rotPart T1 i j - rotPart T2 i j| < 1.5 / 10 ^ 7

/-- **C132**, partial: the loop bodies of the tests of the wrist pass for every draw whose second joint
value is not a multiple of half a turn, on every base. -/
theorem C132_wrist_partial [Zeros] (hit : Oracle Shape) {base : M4} (hb : IsRigid base) (n : Nat)
    (mem : Mem)
    (hn : n < mem.length) (q1 q2 q3 : ℝ) (h : Real.sin q2 ≠ 0) :
    WristRoundTrip hit base n mem [q1, q2, q3] := by
  rw [WristRoundTrip, wristOn_fk hit 1 hb]
  set T := base * mkTf (zyz q1 q2 q3) (zyz q1 q2 q3 *ᵥ ![0, 0, 1]) with hT
  have hTr : IsRigid T := hb.mul (isRigid_mkTf.2 (zyz_isRot _ _ _))
  refine ⟨wristRows base T, by simp [wristIk, hn], fun s hs => ?_⟩
  have hrel : relRot base T = zyz q1 q2 q3 := by
    rw [hT, relRot, rotPart_mul hb.2 (mkTf_last _ _), rotPart_mkTf, ← Matrix.mul_assoc, hb.1.1,
      one_mul]
  obtain ⟨t1, t2, t3, rfl, hz⟩ := wristRows_sound (tfBase := base) (T := T)
    (by rw [hrel]; exact zyz_isRot _ _ _) (by
      by_contra hcon
      push Not at hcon
      rw [hrel] at hcon
      obtain ⟨c1, c2⟩ := hcon
      simp only [zyz, rotZ, rotY, Matrix.mul_apply, Fin.sum_univ_three] at c1 c2
      simp at c1 c2
      have hcs := Real.cos_sq_add_sin_sq q1
      rcases c1 with c1 | c1
      · rcases c2 with c2 | c2
        · rw [c1, c2] at hcs; norm_num at hcs
        · exact h c2
      · exact h c1) s hs
  rw [wristOn_fk hit 1 hb]
  intro i j
  rw [rot_of_rel hb 1 _ _ _ hz, sub_self, abs_zero]
  norm_num

/-- **C132** is false for the wrist as well: the draw (π/2, 0, 0) fails. -/
theorem C132_wrist_refuted [Zeros] (hit : Oracle Shape) (n : Nat) (mem : Mem)
    (hn : n < mem.length) :
    ¬ WristRoundTrip hit 1 n mem [Real.pi / 2, 0, 0] := by
  rw [WristRoundTrip, wristOn_fk hit 1 IsRigid.one]
  set T := (1 : M4) * mkTf (zyz (Real.pi / 2) 0 0) (zyz (Real.pi / 2) 0 0 *ᵥ ![0, 0, 1]) with hT
  rintro ⟨rows, hr, hall⟩
  have hrows : rows = wristRows 1 T := by
    simp [wristIk, hn] at hr
    exact hr.symm
  subst hrows
  have hone : rotPart (1 : M4) = 1 := by rw [← mkTf_one, rotPart_mkTf]
  have hzz : zyz (Real.pi / 2) 0 0 = rotZ (Real.pi / 2) := by
    simp [zyz, rotZ_zero, rotY_zero]
  have hrotT : rotPart T = rotZ (Real.pi / 2) := by
    rw [hT, one_mul, rotPart_mkTf, hzz]
  have hrel : relRot 1 T = rotZ (Real.pi / 2) := by
    rw [relRot, hone, hrotT, Matrix.transpose_one, one_mul]
  obtain ⟨q, hq⟩ : ∃ q, q ∈ wristRows 1 T := ⟨_, by rw [wristRows_eq]; exact List.mem_cons_self⟩
  obtain ⟨t1, t2, t3, rfl, hz⟩ := wristRows_singular (tfBase := 1) (T := T)
    (by rw [hrel]; exact rotZ_isRot _) (by rw [hrel]; simp [rotZ]) (by rw [hrel]; simp [rotZ]) q hq
  have := hall _ hq
  rw [wristOn_fk hit 1 IsRigid.one] at this
  have := this 1 0
  rw [hrotT, one_mul, rotPart_mkTf, hz, (stretchedRot_off _ _).1] at this
  simp [rotZ] at this
  norm_num at this

/-- The wrist at (1, 1, 1) on the base of the test. -/
example [Zeros] (hit : Oracle Shape) : WristRoundTrip hit (mkTf (rotX 1.5) ![0.3, 0.5, 1.2]) 0 [[]]
    [1, 1, 1] :=
  C132_wrist_partial hit (isRigid_mkTf.2 (rotX_isRot _)) 0 [[]] (by simp) 1 1 1
    (Real.sin_pos_of_pos_of_lt_pi one_pos (by linarith [Real.two_le_pi])).ne'

end Verif.Props
