import Verif.Model.Robots
import Verif.Proofs.Robot
import Verif.Proofs.Quat
import Mathlib.Analysis.SpecialFunctions.Trigonometric.Angle
import Mathlib.LinearAlgebra.Matrix.Adjugate

/-! # Closed forms and inverse kinematics of the shipped robots -/

set_option linter.unusedSectionVars false

namespace Verif.Kin

open Matrix Verif.Geometry Verif.Util

/-! ### Angles -/

theorem cos_neg_pi_half : Real.cos (-Real.pi / 2) = 0 := by
  rw [neg_div, Real.cos_neg, Real.cos_pi_div_two]

theorem sin_neg_pi_half : Real.sin (-Real.pi / 2) = -1 := by
  rw [neg_div, Real.sin_neg, Real.sin_pi_div_two]

theorem cs_arctan2 {k c s : ℝ} (hk : 0 < k) (h : c ^ 2 + s ^ 2 = 1) :
    Real.cos (arctan2 (k * s) (k * c)) = c ∧ Real.sin (arctan2 (k * s) (k * c)) = s := by
  have hn : Real.sqrt ((k * c) ^ 2 + (k * s) ^ 2) = k := by
    rw [show (k * c) ^ 2 + (k * s) ^ 2 = k ^ 2 by linear_combination k ^ 2 * h]
    exact Real.sqrt_sq hk.le
  have hne : k * c ≠ 0 ∨ k * s ≠ 0 := by
    by_contra hc
    push Not at hc
    have h1 : c = 0 := by rcases mul_eq_zero.1 hc.1 with h | h <;> [exact absurd h hk.ne'; exact h]
    have h2 : s = 0 := by rcases mul_eq_zero.1 hc.2 with h | h <;> [exact absurd h hk.ne'; exact h]
    rw [h1, h2] at h; norm_num at h
  rw [cos_arctan2 hne, sin_arctan2, hn]
  constructor <;> field_simp

/-- Without a hypothesis: cosine and sine times the length. -/
theorem mul_cs_arctan2 (x y : ℝ) :
    Real.sqrt (x ^ 2 + y ^ 2) * Real.cos (arctan2 y x) = x ∧
      Real.sqrt (x ^ 2 + y ^ 2) * Real.sin (arctan2 y x) = y := by
  by_cases h : x ≠ 0 ∨ y ≠ 0
  · have hp : 0 < x ^ 2 + y ^ 2 := by
      rcases h with h | h <;> positivity
    have hs := (Real.sqrt_pos.2 hp).ne'
    rw [cos_arctan2 h, sin_arctan2]
    constructor <;> field_simp
  · push Not at h
    simp [h.1, h.2, arctan2_zero]

/-- Signs of zeros change the angle by full turns only, unless both numbers are zero. -/
theorem atan2_cs (b c : Bool) {x y : ℝ} (h : x ≠ 0 ∨ y ≠ 0) :
    Real.cos (atan2 b c y x) = Real.cos (arctan2 y x) ∧
      Real.sin (atan2 b c y x) = Real.sin (arctan2 y x) := by
  unfold atan2
  by_cases hy : y = 0
  · subst hy
    have hx : x ≠ 0 := h.resolve_right (by simp)
    rw [if_pos rfl, cos_arctan2 h, sin_arctan2]
    rcases lt_or_gt_of_ne hx with hn | hp
    · rw [if_pos (Or.inl hn), zero_pow two_ne_zero, add_zero, Real.sqrt_sq_eq_abs, abs_of_neg hn]
      cases b <;> simp [div_neg, div_self hx]
    · rw [if_neg (by push Not; exact ⟨hp.le, fun h0 => absurd h0 hx⟩), zero_pow two_ne_zero, add_zero,
        Real.sqrt_sq_eq_abs, abs_of_pos hp]
      simp [div_self hx]
  · rw [if_neg hy]; exact ⟨rfl, rfl⟩

theorem cs_atan2 {b d : Bool} {k c s : ℝ} (hk : 0 < k) (h : c ^ 2 + s ^ 2 = 1) :
    Real.cos (atan2 b d (k * s) (k * c)) = c ∧ Real.sin (atan2 b d (k * s) (k * c)) = s := by
  have hne : k * c ≠ 0 ∨ k * s ≠ 0 := by
    by_contra hc
    push Not at hc
    have h1 : c = 0 := by rcases mul_eq_zero.1 hc.1 with h | h <;> [exact absurd h hk.ne'; exact h]
    have h2 : s = 0 := by rcases mul_eq_zero.1 hc.2 with h | h <;> [exact absurd h hk.ne'; exact h]
    rw [h1, h2] at h; norm_num at h
  rw [(atan2_cs b d hne).1, (atan2_cs b d hne).2]
  exact cs_arctan2 hk h

theorem mul_cs_atan2 (b d : Bool) (x y : ℝ) :
    Real.sqrt (x ^ 2 + y ^ 2) * Real.cos (atan2 b d y x) = x ∧
      Real.sqrt (x ^ 2 + y ^ 2) * Real.sin (atan2 b d y x) = y := by
  by_cases h : x ≠ 0 ∨ y ≠ 0
  · rw [(atan2_cs b d h).1, (atan2_cs b d h).2]
    exact mul_cs_arctan2 x y
  · push Not at h
    simp [h.1, h.2]

theorem atan2_zero (b c : Bool) :
    atan2 b c 0 0 = if c then (if b then -Real.pi else Real.pi) else 0 := by
  simp [atan2]

theorem atan2_mem (b c : Bool) (y x : ℝ) : -Real.pi ≤ atan2 b c y x ∧ atan2 b c y x ≤ Real.pi := by
  have hp := Real.pi_pos
  unfold atan2
  split
  · split
    · cases b
      · exact ⟨by simp; linarith, by simp⟩
      · exact ⟨by simp, by simp; linarith⟩
    · exact ⟨by linarith, hp.le⟩
  · exact ⟨(arctan2_mem y x).1.le, (arctan2_mem y x).2⟩

theorem angle_eq {x y : ℝ} (hc : Real.cos x = Real.cos y) (hs : Real.sin x = Real.sin y) :
    ∃ k : ℤ, x = y + 2 * Real.pi * k := by
  obtain ⟨k, hk⟩ := Real.Angle.angle_eq_iff_two_pi_dvd_sub.1 (Real.Angle.cos_sin_inj hc hs)
  exact ⟨k, by linarith⟩

/-! ### Closed forms -/

/-- Orientation of the arm. -/
noncomputable def armRot (q1 φ : ℝ) : M3 :=
  !![Real.cos q1 * Real.cos φ, Real.sin q1, Real.cos q1 * Real.sin φ;
     Real.sin q1 * Real.cos φ, -Real.cos q1, Real.sin q1 * Real.sin φ;
     Real.sin φ, 0, -Real.cos φ]

/-- Position of the arm. -/
noncomputable def armPos (a1 a2 a3 q1 q2 q3 : ℝ) : V3 :=
  ![Real.cos q1 * (a1 + a2 * Real.cos q2 + a3 * Real.cos (q2 + q3)),
    Real.sin q1 * (a1 + a2 * Real.cos q2 + a3 * Real.cos (q2 + q3)),
    a2 * Real.sin q2 + a3 * Real.sin (q2 + q3)]

/-- Euler angles. -/
noncomputable def zyz (t1 t2 t3 : ℝ) : M3 := rotZ t1 * rotY t2 * rotZ t3

theorem zyz_eq (t1 t2 t3 : ℝ) : zyz t1 t2 t3 =
    !![Real.cos t1 * Real.cos t2 * Real.cos t3 - Real.sin t1 * Real.sin t3,
       -(Real.cos t1 * Real.cos t2 * Real.sin t3) - Real.sin t1 * Real.cos t3,
       Real.cos t1 * Real.sin t2;
       Real.sin t1 * Real.cos t2 * Real.cos t3 + Real.cos t1 * Real.sin t3,
       -(Real.sin t1 * Real.cos t2 * Real.sin t3) + Real.cos t1 * Real.cos t3,
       Real.sin t1 * Real.sin t2;
       -(Real.sin t2 * Real.cos t3), Real.sin t2 * Real.sin t3, Real.cos t2] := by
  ext i j
  fin_cases i <;> fin_cases j <;>
    simp [zyz, rotZ, rotY, Matrix.mul_apply, Fin.sum_univ_succ] <;> ring

theorem zyz_isRot (t1 t2 t3 : ℝ) : IsRot (zyz t1 t2 t3) :=
  ((rotZ_isRot _).mul (rotY_isRot _)).mul (rotZ_isRot _)

theorem dh3_arm (a1 a2 a3 q1 q2 q3 : ℝ) :
    dhMat a1 (Real.pi / 2) 0 q1 * (dhMat a2 0 0 q2 * dhMat a3 (Real.pi / 2) 0 q3) =
      mkTf (armRot q1 (q2 + q3)) (armPos a1 a2 a3 q1 q2 q3) := by
  ext i j
  fin_cases i <;> fin_cases j <;>
    simp [dhMat, mkTf, armRot, armPos, Matrix.mul_apply, Fin.sum_univ_succ, Real.cos_add,
      Real.sin_add, -mul_eq_mul_left_iff] <;> ring

theorem dh3_wrist (d4 d6 q4 q5 q6 : ℝ) :
    dhMat 0 (-Real.pi / 2) d4 q4 * (dhMat 0 (Real.pi / 2) 0 q5 * dhMat 0 0 d6 q6) =
      mkTf (zyz q4 q5 q6) (![0, 0, d4] + zyz q4 q5 q6 *ᵥ ![0, 0, d6]) := by
  rw [zyz_eq]
  ext i j
  fin_cases i <;> fin_cases j <;>
    simp [dhMat, mkTf, Matrix.mul_apply, Fin.sum_univ_succ, cos_neg_pi_half, sin_neg_pi_half] <;> ring

theorem armRot_isRot (q1 φ : ℝ) : IsRot (armRot q1 φ) := by
  have h : IsRigid (mkTf (armRot q1 (φ + 0)) (armPos 0 0 0 q1 φ 0)) := by
    rw [← dh3_arm]
    exact (dhMat_rigid _ _ _ _).mul ((dhMat_rigid _ _ _ _).mul (dhMat_rigid _ _ _ _))
  rw [add_zero] at h
  exact isRigid_mkTf.1 h

theorem chain_arm2 (a1 a2 a3 q1 q2 q3 : ℝ) : chain (arm2 a1 a2 a3).links [q1, q2, q3] =
    mkTf (armRot q1 (q2 + q3)) (armPos a1 a2 a3 q1 q2 q3) := by
  rw [← dh3_arm]
  simp [chain, arm2, Robot.new, Link.tf]

theorem chain_wrist (d3 q1 q2 q3 : ℝ) : chain (sphericalWrist d3).links [q1, q2, q3] =
    mkTf (zyz q1 q2 q3) (zyz q1 q2 q3 *ᵥ ![0, 0, d3]) := by
  have := dh3_wrist 0 d3 q1 q2 q3
  have h0 : (![0, 0, 0] : V3) = 0 := by ext i; fin_cases i <;> rfl
  rw [h0, zero_add] at this
  rw [← this]
  simp [chain, sphericalWrist, Robot.new, Link.tf]

theorem chain_kuka (a1 a2 d4 d6 q1 q2 q3 q4 q5 q6 : ℝ) :
    chain (kukaRobot a1 a2 d4 d6).links [q1, q2, q3, q4, q5, q6] =
      mkTf (armRot q1 (q2 + q3) * zyz q4 q5 q6)
        (armPos a1 a2 d4 q1 q2 (q3 - Real.pi / 2) +
          (armRot q1 (q2 + q3) * zyz q4 q5 q6) *ᵥ ![0, 0, d6]) := by
  have : chain (kukaRobot a1 a2 d4 d6).links [q1, q2, q3, q4, q5, q6] =
      (dhMat a1 (Real.pi / 2) 0 q1 * (dhMat a2 0 0 q2 * dhMat 0 (Real.pi / 2) 0 q3)) *
      (dhMat 0 (-Real.pi / 2) d4 q4 * (dhMat 0 (Real.pi / 2) 0 q5 * dhMat 0 0 d6 q6)) := by
    simp [chain, kukaRobot, Robot.new, Link.tf, mul_assoc]
  rw [this, dh3_arm, dh3_wrist, mkTf_mul]
  congr 1
  rw [Matrix.mulVec_add, Matrix.mulVec_mulVec]
  have e : armRot q1 (q2 + q3) *ᵥ ![0, 0, d4] + armPos a1 a2 0 q1 q2 q3 =
      armPos a1 a2 d4 q1 q2 (q3 - Real.pi / 2) := by
    have h : q2 + (q3 - Real.pi / 2) = q2 + q3 - Real.pi / 2 := by ring
    ext i
    fin_cases i <;> simp [armRot, armPos, h,
      Real.cos_sub_pi_div_two, Real.sin_sub_pi_div_two] <;> ring
  rw [← e]
  abel

/-! ### The wrist -/

/-- Entries of a rotation. -/
theorem _root_.Verif.IsRot.relations {M : M3} (h : IsRot M) :
    (M 0 2 ^ 2 + M 1 2 ^ 2 + M 2 2 ^ 2 = 1) ∧ (M 2 0 ^ 2 + M 2 1 ^ 2 + M 2 2 ^ 2 = 1) ∧
    (M 0 0 * M 0 2 + M 1 0 * M 1 2 + M 2 0 * M 2 2 = 0) ∧
    (M 0 1 * M 0 2 + M 1 1 * M 1 2 + M 2 1 * M 2 2 = 0) ∧
    (M 2 1 = M 0 2 * M 1 0 - M 0 0 * M 1 2) ∧ (M 2 0 = M 0 1 * M 1 2 - M 0 2 * M 1 1) := by
  have h1 := h.1
  have h2 := h.mul_transpose
  have e1 := congrFun (congrFun h1 2) 2
  have e2 := congrFun (congrFun h2 2) 2
  have e3 := congrFun (congrFun h1 0) 2
  have e4 := congrFun (congrFun h1 1) 2
  have hadj : M.adjugate = Mᵀ := by
    have : Mᵀ * (M * M.adjugate) = Mᵀ * (M.det • (1 : M3)) := by rw [Matrix.mul_adjugate]
    rw [← Matrix.mul_assoc, h1, one_mul, h.2, one_smul, mul_one] at this
    exact this
  rw [Matrix.adjugate_fin_three] at hadj
  have e5 := congrFun (congrFun hadj 1) 2
  have e6 := congrFun (congrFun hadj 0) 2
  simp [Matrix.mul_apply, Fin.sum_univ_succ] at e1 e2 e3 e4 e5 e6
  refine ⟨by linarith, by linarith, by linarith, by linarith, by linarith, by linarith⟩

/-- A matrix with the given Euler angles, from the entries. -/
theorem zyz_of_cs {M : M3} (h : IsRot M) {A t1 t2 t3 e : ℝ} (hA : A ≠ 0)
    (hA2 : A ^ 2 = M 0 2 ^ 2 + M 1 2 ^ 2) (he : e ^ 2 = 1)
    (c1 : Real.cos t1 = e * (M 0 2 / A)) (s1 : Real.sin t1 = e * (M 1 2 / A))
    (c2 : Real.cos t2 = M 2 2) (s2 : Real.sin t2 = e * A)
    (c3 : Real.cos t3 = e * (-M 2 0 / A)) (s3 : Real.sin t3 = e * (M 2 1 / A)) :
    zyz t1 t2 t3 = M := by
  obtain ⟨r1, r2, r3, r4, r5, r6⟩ := h.relations
  have hA2' : M 0 2 ^ 2 + M 1 2 ^ 2 ≠ 0 := by rw [← hA2]; positivity
  have k1 : M 0 0 * A ^ 2 = -(M 0 2 * M 2 2 * M 2 0) - M 1 2 * M 2 1 := by
    linear_combination M 0 0 * hA2 + M 0 2 * r3 + M 1 2 * r5
  have k2 : M 1 0 * A ^ 2 = -(M 1 2 * M 2 2 * M 2 0) + M 0 2 * M 2 1 := by
    linear_combination M 1 0 * hA2 + M 1 2 * r3 - M 0 2 * r5
  have k3 : M 0 1 * A ^ 2 = -(M 0 2 * M 2 2 * M 2 1) + M 1 2 * M 2 0 := by
    linear_combination M 0 1 * hA2 + M 0 2 * r4 - M 1 2 * r6
  have k4 : M 1 1 * A ^ 2 = -(M 1 2 * M 2 2 * M 2 1) - M 0 2 * M 2 0 := by
    linear_combination M 1 1 * hA2 + M 1 2 * r4 + M 0 2 * r6
  rw [zyz_eq, c1, s1, c2, s2, c3, s3]
  ext i j
  fin_cases i <;> fin_cases j <;> simp <;> field_simp
  · linear_combination (-(M 0 2 * M 2 2 * M 2 0) - M 1 2 * M 2 1) * he - k1
  · linear_combination (-(M 0 2 * M 2 2 * M 2 1) + M 1 2 * M 2 0) * he - k3
  · linear_combination M 0 2 * he
  · linear_combination (-(M 1 2 * M 2 2 * M 2 0) + M 0 2 * M 2 1) * he - k2
  · linear_combination (-(M 1 2 * M 2 2 * M 2 1) - M 0 2 * M 2 0) * he - k4
  · linear_combination M 1 2 * he
  · linear_combination M 2 0 * he
  · linear_combination M 2 1 * he

/-- The relative orientation of which the wrist takes the angles. -/
noncomputable def relRot (tfBase T : M4) : M3 := (rotPart tfBase)ᵀ * rotPart T

theorem wristRows_eq [Zeros] (tfBase T : M4) : wristRows tfBase T =
    [[atan2 (Zeros.rel tfBase T 1 2) (Zeros.rel tfBase T 0 2) (relRot tfBase T 1 2)
        (relRot tfBase T 0 2),
      atan2 false (Zeros.rel tfBase T 2 2)
        (Real.sqrt (relRot tfBase T 0 2 ^ 2 + relRot tfBase T 1 2 ^ 2)) (relRot tfBase T 2 2),
      atan2 (Zeros.rel tfBase T 2 1) (!Zeros.rel tfBase T 2 0) (relRot tfBase T 2 1)
        (-relRot tfBase T 2 0)],
     [atan2 (!Zeros.rel tfBase T 1 2) (!Zeros.rel tfBase T 0 2) (-relRot tfBase T 1 2)
        (-relRot tfBase T 0 2),
      atan2 true (Zeros.rel tfBase T 2 2)
        (-Real.sqrt (relRot tfBase T 0 2 ^ 2 + relRot tfBase T 1 2 ^ 2)) (relRot tfBase T 2 2),
      atan2 (!Zeros.rel tfBase T 2 1) (Zeros.rel tfBase T 2 0) (-relRot tfBase T 2 1)
        (relRot tfBase T 2 0)]] := rfl

/-- The angles of the wrist for a rotation, with a sign for the two solutions. -/
theorem wrist_angles {M : M3} (h : IsRot M) {e : ℝ} (he : e = 1 ∨ e = -1)
    (hns : M 0 2 ≠ 0 ∨ M 1 2 ≠ 0) (b1 b2 b3 c1 c2 c3 : Bool) :
    zyz (atan2 b1 c1 (e * M 1 2) (e * M 0 2))
      (atan2 b2 c2 (e * Real.sqrt (M 0 2 ^ 2 + M 1 2 ^ 2)) (M 2 2))
      (atan2 b3 c3 (e * M 2 1) (e * -M 2 0)) = M := by
  obtain ⟨r1, r2, r3, r4, r5, r6⟩ := h.relations
  have hp : 0 < M 0 2 ^ 2 + M 1 2 ^ 2 := by rcases hns with h | h <;> positivity
  set A := Real.sqrt (M 0 2 ^ 2 + M 1 2 ^ 2) with hA
  have hA0 : 0 < A := Real.sqrt_pos.2 hp
  have hA2 : A ^ 2 = M 0 2 ^ 2 + M 1 2 ^ 2 := Real.sq_sqrt hp.le
  have he2 : e ^ 2 = 1 := by rcases he with rfl | rfl <;> norm_num
  have hne := hA0.ne'
  have x1 := cs_atan2 (b := b1) (d := c1) (k := A) (c := e * (M 0 2 / A)) (s := e * (M 1 2 / A)) hA0 (by
    field_simp; rw [he2]; linarith)
  have x2 := cs_atan2 (b := b2) (d := c2) (k := 1) (c := M 2 2) (s := e * A) one_pos (by
    rw [mul_pow, he2, hA2]; linarith)
  have x3 := cs_atan2 (b := b3) (d := c3) (k := A) (c := e * (-M 2 0 / A)) (s := e * (M 2 1 / A)) hA0 (by
    field_simp; rw [he2]; linarith)
  rw [show A * (e * (M 1 2 / A)) = e * M 1 2 by field_simp,
    show A * (e * (M 0 2 / A)) = e * M 0 2 by field_simp] at x1
  rw [one_mul, one_mul] at x2
  rw [show A * (e * (M 2 1 / A)) = e * M 2 1 by field_simp,
    show A * (e * (-M 2 0 / A)) = e * -M 2 0 by field_simp] at x3
  exact zyz_of_cs h hne hA2 he2 x1.1 x1.2 x2.1 x2.2 x3.1 x3.2

/-- Both rows, non-singular case. -/
theorem wristRows_sound [Zeros] {tfBase T : M4} (h : IsRot (relRot tfBase T))
    (hns : relRot tfBase T 0 2 ≠ 0 ∨ relRot tfBase T 1 2 ≠ 0) (q : List ℝ)
    (hq : q ∈ wristRows tfBase T) : ∃ t1 t2 t3, q = [t1, t2, t3] ∧ zyz t1 t2 t3 = relRot tfBase T := by
  rw [wristRows_eq] at hq
  simp only [List.mem_cons, List.not_mem_nil, or_false] at hq
  rcases hq with rfl | rfl
  · refine ⟨_, _, _, rfl, ?_⟩
    have := wrist_angles h (Or.inl rfl) hns (Zeros.rel tfBase T 1 2) false (Zeros.rel tfBase T 2 1)
      (Zeros.rel tfBase T 0 2) (Zeros.rel tfBase T 2 2) (!Zeros.rel tfBase T 2 0)
    simpa using this
  · refine ⟨_, _, _, rfl, ?_⟩
    have := wrist_angles h (Or.inr rfl) hns (!Zeros.rel tfBase T 1 2) true (!Zeros.rel tfBase T 2 1)
      (!Zeros.rel tfBase T 0 2) (Zeros.rel tfBase T 2 2) (Zeros.rel tfBase T 2 0)
    simpa using this

/-- Whether the first and the third angle of a stretched wrist together make a half turn. -/
def halfTurn [Zeros] (tfBase T : M4) : Bool := Zeros.rel tfBase T 0 2 == Zeros.rel tfBase T 2 0

/-- The orientation of a stretched wrist: `c` is plus or minus one. -/
def stretchedRot (half : Bool) (c : ℝ) : M3 :=
  if half then !![-c, 0, 0; 0, -1, 0; 0, 0, c] else !![c, 0, 0; 0, 1, 0; 0, 0, c]

theorem stretchedRot_axis (half : Bool) (c : ℝ) : stretchedRot half c 0 2 = 0 ∧
    stretchedRot half c 1 2 = 0 ∧ stretchedRot half c 2 2 = c := by
  cases half <;> simp [stretchedRot]

theorem stretchedRot_off (half : Bool) (c : ℝ) : stretchedRot half c 1 0 = 0 ∧
    stretchedRot half c 0 1 = 0 := by
  cases half <;> simp [stretchedRot]

/-- Both rows, singular case. -/
theorem wristRows_singular [Zeros] {tfBase T : M4} (h : IsRot (relRot tfBase T))
    (h0 : relRot tfBase T 0 2 = 0) (h1 : relRot tfBase T 1 2 = 0) (q : List ℝ)
    (hq : q ∈ wristRows tfBase T) : ∃ t1 t2 t3, q = [t1, t2, t3] ∧
      zyz t1 t2 t3 = stretchedRot (halfTurn tfBase T) (relRot tfBase T 2 2) := by
  obtain ⟨r1, r2, -⟩ := h.relations
  rw [h0, h1] at r1
  have hz : relRot tfBase T 2 2 ^ 2 = 1 := by linarith
  have h20 : relRot tfBase T 2 0 = 0 := by nlinarith [sq_nonneg (relRot tfBase T 2 1)]
  have h21 : relRot tfBase T 2 1 = 0 := by nlinarith [sq_nonneg (relRot tfBase T 2 0)]
  rw [wristRows_eq] at hq
  simp only [List.mem_cons, List.not_mem_nil, or_false, h0, h1, h20, h21] at hq
  simp only [ne_eq, OfNat.ofNat_ne_zero, not_false_eq_true, zero_pow, add_zero, Real.sqrt_zero,
    neg_zero, atan2_zero] at hq
  unfold halfTurn
  rcases hq with rfl | rfl <;> refine ⟨_, _, _, rfl, ?_⟩
  · have x2 := cs_atan2 (b := false) (d := Zeros.rel tfBase T 2 2) (k := 1)
      (c := relRot tfBase T 2 2) (s := 0) one_pos (by linarith)
    rw [mul_zero, one_mul] at x2
    rw [zyz_eq, x2.1, x2.2]
    generalize Zeros.rel tfBase T 1 2 = b1
    generalize Zeros.rel tfBase T 0 2 = c1
    generalize Zeros.rel tfBase T 2 1 = b3
    generalize Zeros.rel tfBase T 2 0 = c3
    cases b1 <;> cases c1 <;> cases b3 <;> cases c3 <;>
      (ext i j; fin_cases i <;> fin_cases j <;> simp [stretchedRot])
  · have x2 := cs_atan2 (b := true) (d := Zeros.rel tfBase T 2 2) (k := 1)
      (c := relRot tfBase T 2 2) (s := 0) one_pos (by linarith)
    rw [mul_zero, one_mul] at x2
    rw [zyz_eq, x2.1, x2.2]
    generalize Zeros.rel tfBase T 1 2 = b1
    generalize Zeros.rel tfBase T 0 2 = c1
    generalize Zeros.rel tfBase T 2 1 = b3
    generalize Zeros.rel tfBase T 2 0 = c3
    cases b1 <;> cases c1 <;> cases b3 <;> cases c3 <;>
      (ext i j; fin_cases i <;> fin_cases j <;> simp [stretchedRot])

/-- Completeness of the wrist. -/
theorem wristRows_complete [Zeros] {tfBase T : M4} {q1 q2 q3 : ℝ}
    (h : relRot tfBase T = zyz q1 q2 q3) (hs : Real.sin q2 ≠ 0) : ∃ t1 t2 t3, [t1, t2, t3] ∈ wristRows tfBase T ∧
      (∃ k : ℤ, t1 = q1 + 2 * Real.pi * k) ∧ (∃ k : ℤ, t2 = q2 + 2 * Real.pi * k) ∧
      (∃ k : ℤ, t3 = q3 + 2 * Real.pi * k) := by
  have p1 := Real.cos_sq_add_sin_sq q1
  have p2 := Real.cos_sq_add_sin_sq q2
  have p3 := Real.cos_sq_add_sin_sq q3
  have hA : Real.sqrt ((Real.cos q1 * Real.sin q2) ^ 2 + (Real.sin q1 * Real.sin q2) ^ 2) =
      |Real.sin q2| := by
    rw [show (Real.cos q1 * Real.sin q2) ^ 2 + (Real.sin q1 * Real.sin q2) ^ 2 =
      Real.sin q2 ^ 2 by linear_combination Real.sin q2 ^ 2 * p1, Real.sqrt_sq_eq_abs]
  rw [wristRows_eq, h, zyz_eq]
  simp only [of_apply, cons_val', cons_val_zero, cons_val_one, cons_val, cons_val_fin_one, hA]
  rcases lt_or_gt_of_ne hs with hneg | hpos
  · have hk : 0 < -Real.sin q2 := by linarith
    refine ⟨_, _, _, List.mem_cons_of_mem _ (List.mem_singleton.2 rfl), ?_, ?_, ?_⟩
    · have := fun b d => cs_atan2 (b := b) (d := d) hk p1
      rw [show -Real.sin q2 * Real.sin q1 = -(Real.sin q1 * Real.sin q2) by ring,
        show -Real.sin q2 * Real.cos q1 = -(Real.cos q1 * Real.sin q2) by ring] at this
      exact angle_eq (this _ _).1 (this _ _).2
    · have := fun b d => cs_atan2 (b := b) (d := d) one_pos p2
      rw [one_mul, one_mul] at this
      rw [abs_of_neg hneg, neg_neg]
      exact angle_eq (this _ _).1 (this _ _).2
    · have := fun b d => cs_atan2 (b := b) (d := d) hk p3
      rw [show -Real.sin q2 * Real.sin q3 = -(Real.sin q2 * Real.sin q3) by ring,
        show -Real.sin q2 * Real.cos q3 = -(Real.sin q2 * Real.cos q3) by ring] at this
      exact angle_eq (this _ _).1 (this _ _).2
  · refine ⟨_, _, _, List.mem_cons_self, ?_, ?_, ?_⟩
    · have := fun b d => cs_atan2 (b := b) (d := d) hpos p1
      rw [mul_comm, mul_comm (Real.sin q2) (Real.cos q1)] at this
      exact angle_eq (this _ _).1 (this _ _).2
    · have := fun b d => cs_atan2 (b := b) (d := d) one_pos p2
      rw [one_mul, one_mul] at this
      rw [abs_of_pos hpos]
      exact angle_eq (this _ _).1 (this _ _).2
    · have := fun b d => cs_atan2 (b := b) (d := d) hpos p3
      rw [neg_neg]
      exact angle_eq (this _ _).1 (this _ _).2

/-! ### The planar arm of two links -/

theorem snap_some {c c' : ℝ} (h : snap c = some c') :
    -1 ≤ c' ∧ c' ≤ 1 ∧ |c' - c| ≤ tol ∧ (c' ≠ c → c' ^ 2 = 1) ∧ (|c| ≤ 1 - tol → c' = c) := by
  have ht : (0 : ℝ) < tol ∧ tol < 1 := by constructor <;> norm_num [tol]
  unfold snap at h
  split at h
  · cases h
  · rename_i h1
    push Not at h1
    split at h
    · rename_i h2
      cases h
      rcases h2 with h2 | h2
      · have hp : 0 < c := by linarith
        simp only [sign_pos hp, SignType.coe_one]
        refine ⟨by norm_num, le_refl _, abs_le.2 ⟨by linarith, by linarith⟩, by norm_num, ?_⟩
        intro h3; rw [abs_of_pos hp] at h3; linarith
      · have hn : c < 0 := by linarith
        simp only [sign_neg hn, SignType.coe_neg, SignType.coe_one]
        refine ⟨le_refl _, by norm_num, abs_le.2 ⟨by linarith, by linarith⟩, by norm_num, ?_⟩
        intro h3; rw [abs_of_neg hn] at h3; linarith
    · rename_i h2
      push Not at h2
      cases h
      refine ⟨by linarith, by linarith, by simp [ht.1.le], by simp, by simp⟩

theorem snap_isSome {c : ℝ} (h1 : -1 ≤ c) (h2 : c ≤ 1) : ∃ c', snap c = some c' := by
  have ht : (0 : ℝ) < tol := by norm_num [tol]
  unfold snap
  rw [if_neg (by push Not; constructor <;> linarith)]
  split <;> exact ⟨_, rfl⟩

/-- Two links, exact elbow: the second angle puts the tip on the target. -/
theorem planar_exact (b d : Bool) {a2 a3 r z c s : ℝ} (h : c ^ 2 + s ^ 2 = 1)
    (hc : r ^ 2 + z ^ 2 = a2 ^ 2 + a3 ^ 2 + 2 * a2 * a3 * c) :
    (a2 + a3 * c) * Real.cos (atan2 b d (z * (a2 + a3 * c) - r * (a3 * s))
        (r * (a2 + a3 * c) + z * (a3 * s))) -
      a3 * s * Real.sin (atan2 b d (z * (a2 + a3 * c) - r * (a3 * s))
        (r * (a2 + a3 * c) + z * (a3 * s))) = r ∧
    (a2 + a3 * c) * Real.sin (atan2 b d (z * (a2 + a3 * c) - r * (a3 * s))
        (r * (a2 + a3 * c) + z * (a3 * s))) +
      a3 * s * Real.cos (atan2 b d (z * (a2 + a3 * c) - r * (a3 * s))
        (r * (a2 + a3 * c) + z * (a3 * s))) = z := by
  set A := a2 + a3 * c with hA
  set B := a3 * s with hB
  have hAB : A ^ 2 + B ^ 2 = r ^ 2 + z ^ 2 := by rw [hc, hA, hB]; linear_combination a3 ^ 2 * h
  have hm := mul_cs_atan2 b d (r * A + z * B) (z * A - r * B)
  rw [show (r * A + z * B) ^ 2 + (z * A - r * B) ^ 2 = (r ^ 2 + z ^ 2) ^ 2 by
    linear_combination (r ^ 2 + z ^ 2) * hAB, Real.sqrt_sq (by positivity)] at hm
  set C := Real.cos (atan2 b d (z * A - r * B) (r * A + z * B))
  set S := Real.sin (atan2 b d (z * A - r * B) (r * A + z * B))
  by_cases h0 : r ^ 2 + z ^ 2 = 0
  · have hr : r = 0 := by nlinarith [sq_nonneg r, sq_nonneg z]
    have hz : z = 0 := by nlinarith [sq_nonneg r, sq_nonneg z]
    have hA0 : A = 0 := by nlinarith [sq_nonneg A, sq_nonneg B]
    have hB0 : B = 0 := by nlinarith [sq_nonneg A, sq_nonneg B]
    rw [hA0, hB0, hr, hz]; simp
  · constructor
    · apply mul_left_cancel₀ h0
      linear_combination A * hm.1 - B * hm.2 + r * hAB
    · apply mul_left_cancel₀ h0
      linear_combination A * hm.2 + B * hm.1 + z * hAB

/-- Two links, straight or folded: the tip lies on the ray to the target. -/
theorem planar_snapped (b d : Bool) (A r z : ℝ) :
    (A * Real.cos (atan2 b d (z * A) (r * A)) - r) ^ 2 +
      (A * Real.sin (atan2 b d (z * A) (r * A)) - z) ^ 2 ≤ |A ^ 2 - (r ^ 2 + z ^ 2)| := by
  have hm := mul_cs_atan2 b d (r * A) (z * A)
  have hcs := Real.cos_sq_add_sin_sq (atan2 b d (z * A) (r * A))
  set C := Real.cos (atan2 b d (z * A) (r * A))
  set S := Real.sin (atan2 b d (z * A) (r * A))
  have hρ0 : 0 ≤ r ^ 2 + z ^ 2 := by positivity
  set ρ := Real.sqrt (r ^ 2 + z ^ 2) with hρ
  have hρ2 : ρ ^ 2 = r ^ 2 + z ^ 2 := Real.sq_sqrt hρ0
  have hρn : 0 ≤ ρ := Real.sqrt_nonneg _
  have hsq : Real.sqrt ((r * A) ^ 2 + (z * A) ^ 2) = ρ * |A| := by
    rw [show (r * A) ^ 2 + (z * A) ^ 2 = (r ^ 2 + z ^ 2) * A ^ 2 by ring, Real.sqrt_mul hρ0,
      Real.sqrt_sq_eq_abs]
  rw [hsq] at hm
  have key : A * (r * C + z * S) = ρ * |A| := by
    by_cases h0 : ρ * |A| = 0
    · rw [h0] at hm
      have h1 : r * A = 0 := by linarith [hm.1]
      have h2 : z * A = 0 := by linarith [hm.2]
      rw [h0]; linear_combination C * h1 + S * h2
    · apply mul_left_cancel₀ h0
      have hab : |A| ^ 2 = A ^ 2 := sq_abs A
      linear_combination A * r * hm.1 + A * z * hm.2 - A ^ 2 * hρ2 - ρ ^ 2 * hab
  have e : (A * C - r) ^ 2 + (A * S - z) ^ 2 = (|A| - ρ) ^ 2 := by
    have hab : |A| ^ 2 = A ^ 2 := sq_abs A
    linear_combination A ^ 2 * hcs - 2 * key - hρ2 - hab
  rw [e, ← hρ2, ← sq_abs A]
  have hA := abs_nonneg A
  clear e key hsq hm
  generalize |A| = B at *
  rcases le_total B ρ with h | h
  · rw [abs_of_nonpos (by nlinarith)]; nlinarith
  · rw [abs_of_nonneg (by nlinarith)]; nlinarith

/-- The second angle is recovered. -/
theorem planar_complete (b d : Bool) {a2 a3 q2 q3 : ℝ} (h : a2 + a3 * Real.cos q3 ≠ 0 ∨ a3 * Real.sin q3 ≠ 0)
    {r z : ℝ} (hr : r = a2 * Real.cos q2 + a3 * Real.cos (q2 + q3))
    (hz : z = a2 * Real.sin q2 + a3 * Real.sin (q2 + q3)) :
    ∃ k : ℤ, atan2 b d (z * (a2 + a3 * Real.cos q3) - r * (a3 * Real.sin q3))
      (r * (a2 + a3 * Real.cos q3) + z * (a3 * Real.sin q3)) = q2 + 2 * Real.pi * k := by
  have hk : 0 < (a2 + a3 * Real.cos q3) ^ 2 + (a3 * Real.sin q3) ^ 2 := by
    rcases h with h | h <;> positivity
  have := cs_atan2 (b := b) (d := d) hk (Real.cos_sq_add_sin_sq q2)
  have e1 : ((a2 + a3 * Real.cos q3) ^ 2 + (a3 * Real.sin q3) ^ 2) * Real.sin q2 =
      z * (a2 + a3 * Real.cos q3) - r * (a3 * Real.sin q3) := by
    rw [hr, hz, Real.cos_add, Real.sin_add]; ring
  have e2 : ((a2 + a3 * Real.cos q3) ^ 2 + (a3 * Real.sin q3) ^ 2) * Real.cos q2 =
      r * (a2 + a3 * Real.cos q3) + z * (a3 * Real.sin q3) := by
    rw [hr, hz, Real.cos_add, Real.sin_add]; ring
  rw [e1, e2] at this
  exact angle_eq this.1 this.2

/-! ### Solutions of the arms -/

/-- What the solutions of both arms look like: `u` is the signed horizontal distance, `sg` the side of
the elbow. -/
def IsCand (a1 a2 a3 x y z : ℝ) (q : List ℝ) : Prop :=
  ∃ (u q1 c' sg : ℝ) (b d b' d' : Bool), x = Real.cos q1 * u ∧ y = Real.sin q1 * u ∧ (sg = 1 ∨ sg = -1) ∧
    snap (((u - a1) ^ 2 + z ^ 2 - a2 ^ 2 - a3 ^ 2) / (2 * a2 * a3)) = some c' ∧
    q = [q1, atan2 b d (z * (a2 + a3 * c') - (u - a1) * (a3 * (sg * Real.sqrt (1 - c' ^ 2))))
        ((u - a1) * (a2 + a3 * c') + z * (a3 * (sg * Real.sqrt (1 - c' ^ 2)))),
      atan2 b' d' (sg * Real.sqrt (1 - c' ^ 2)) c']

theorem cs_elbow (b d : Bool) {c' sg : ℝ} (h1 : -1 ≤ c') (h2 : c' ≤ 1) (hs : sg = 1 ∨ sg = -1) :
    Real.cos (atan2 b d (sg * Real.sqrt (1 - c' ^ 2)) c') = c' ∧
      Real.sin (atan2 b d (sg * Real.sqrt (1 - c' ^ 2)) c') = sg * Real.sqrt (1 - c' ^ 2) := by
  have hsg : sg ^ 2 = 1 := by rcases hs with rfl | rfl <;> norm_num
  have hn : 0 ≤ 1 - c' ^ 2 := by nlinarith
  have := cs_atan2 (b := b) (d := d) (k := 1) (c := c') (s := sg * Real.sqrt (1 - c' ^ 2)) one_pos (by
    rw [mul_pow, hsg, Real.sq_sqrt hn]; ring)
  rwa [one_mul, one_mul] at this

theorem IsCand.sound {a1 a2 a3 x y z : ℝ} (ha : a2 * a3 ≠ 0) {q : List ℝ}
    (h : IsCand a1 a2 a3 x y z q) : ∃ q1 q2 q3, q = [q1, q2, q3] ∧
      dist2 (armPos a1 a2 a3 q1 q2 q3) ![x, y, z] ≤ 2 * |a2 * a3| * tol ∧
      (Real.sin q3 ≠ 0 → armPos a1 a2 a3 q1 q2 q3 = ![x, y, z]) ∧
      |dist2 (armPos a1 a2 a3 q1 q2 q3) ![a1 * Real.cos q1, a1 * Real.sin q1, 0] -
        dist2 ![x, y, z] ![a1 * Real.cos q1, a1 * Real.sin q1, 0]| ≤ 2 * |a2 * a3| * tol := by
  obtain ⟨u, q1, c', sg, b, d, b', d', rfl, rfl, hsg, hsnap, rfl⟩ := h
  set r := u - a1 with hr
  set c := (r ^ 2 + z ^ 2 - a2 ^ 2 - a3 ^ 2) / (2 * a2 * a3) with hc
  obtain ⟨b1, b2, b3, b4, b5⟩ := snap_some hsnap
  have hcc : r ^ 2 + z ^ 2 = a2 ^ 2 + a3 ^ 2 + 2 * a2 * a3 * c := by
    have h2 : (2 * a2 * a3 : ℝ) ≠ 0 := by
      rw [mul_assoc]; exact mul_ne_zero two_ne_zero ha
    have := mul_div_cancel₀ (r ^ 2 + z ^ 2 - a2 ^ 2 - a3 ^ 2) h2
    rw [← hc] at this
    linarith
  obtain ⟨e1, e2⟩ := cs_elbow b' d' b1 b2 hsg
  have hsq : (sg * Real.sqrt (1 - c' ^ 2)) ^ 2 = 1 - c' ^ 2 := by
    have hsg2 : sg ^ 2 = 1 := by rcases hsg with rfl | rfl <;> norm_num
    rw [mul_pow, hsg2, Real.sq_sqrt (by nlinarith), one_mul]
  have hcs := Real.cos_sq_add_sin_sq q1
  set s' := sg * Real.sqrt (1 - c' ^ 2) with hs'
  set q2 := atan2 b d (z * (a2 + a3 * c') - r * (a3 * s')) (r * (a2 + a3 * c') + z * (a3 * s'))
    with hq2
  set q3 := atan2 b' d' s' c' with hq3
  have f1 : a2 * Real.cos q2 + a3 * Real.cos (q2 + q3) =
      (a2 + a3 * c') * Real.cos q2 - a3 * s' * Real.sin q2 := by
    rw [Real.cos_add, e1, e2]; ring
  have f2 : a2 * Real.sin q2 + a3 * Real.sin (q2 + q3) =
      (a2 + a3 * c') * Real.sin q2 + a3 * s' * Real.cos q2 := by
    rw [Real.sin_add, e1, e2]; ring
  have hd : dist2 (armPos a1 a2 a3 q1 q2 q3) ![Real.cos q1 * u, Real.sin q1 * u, z] =
      (a2 * Real.cos q2 + a3 * Real.cos (q2 + q3) - r) ^ 2 +
        (a2 * Real.sin q2 + a3 * Real.sin (q2 + q3) - z) ^ 2 := by
    simp only [dist2, dotProduct, Pi.sub_apply, Fin.sum_univ_three, armPos]
    simp only [Matrix.cons_val_zero, Matrix.cons_val_one, Matrix.cons_val]
    rw [hr]
    linear_combination (a2 * Real.cos q2 + a3 * Real.cos (q2 + q3) - (u - a1)) ^ 2 * hcs
  have hbound : |2 * a2 * a3 * (c' - c)| ≤ 2 * |a2 * a3| * tol := by
    rw [show 2 * a2 * a3 * (c' - c) = 2 * (a2 * a3) * (c' - c) by ring, abs_mul, abs_mul,
      abs_of_pos (two_pos)]
    exact mul_le_mul_of_nonneg_left b3 (by positivity)
  have hexact : c' = c → armPos a1 a2 a3 q1 q2 q3 = ![Real.cos q1 * u, Real.sin q1 * u, z] := by
    intro hE
    have := planar_exact b d (a2 := a2) (a3 := a3) (r := r) (z := z) (c := c') (s := s')
      (by rw [hsq]; ring) (by rw [hE]; exact hcc)
    rw [← hq2, ← f1, ← f2] at this
    have hu : u = a1 + r := by rw [hr]; ring
    ext i
    fin_cases i
    · simp only [armPos, Fin.zero_eta, Matrix.cons_val_zero]
      rw [hu, add_assoc, this.1]
    · simp only [armPos, Fin.mk_one, Matrix.cons_val_one, Matrix.cons_val_zero]
      rw [hu, add_assoc, this.1]
    · simp only [armPos, Fin.reduceFinMk, Matrix.cons_val]
      exact this.2
  refine ⟨q1, q2, q3, rfl, ?_, ?_, ?_⟩
  · by_cases hE : c' = c
    · rw [hexact hE]
      simp only [dist2, sub_self, dotProduct_zero]
      have : (0 : ℝ) < tol := by norm_num [tol]
      positivity
    · have h1 := b4 hE
      have hs0 : s' = 0 := by
        have : s' ^ 2 = 0 := by rw [hsq, h1]; ring
        exact pow_eq_zero_iff (two_ne_zero) |>.1 this
      rw [hd, f1, f2, hs0]
      have := planar_snapped b d (a2 + a3 * c') r z
      rw [hq2, hs0]
      simp only [mul_zero, sub_zero, add_zero, zero_mul] at this ⊢
      refine this.trans (le_trans (le_of_eq ?_) hbound)
      rw [hcc]
      congr 1
      linear_combination a3 ^ 2 * h1
  · intro hsin
    refine hexact ?_
    by_contra hE
    have h1 := b4 hE
    apply hsin
    rw [e2]
    have : s' ^ 2 = 0 := by rw [hsq, h1]; ring
    exact pow_eq_zero_iff (two_ne_zero) |>.1 this
  · refine le_trans (le_of_eq ?_) hbound
    have hcs2 := Real.cos_sq_add_sin_sq q2
    have g1 : dist2 (armPos a1 a2 a3 q1 q2 q3) ![a1 * Real.cos q1, a1 * Real.sin q1, 0] =
        a2 ^ 2 + a3 ^ 2 + 2 * a2 * a3 * c' := by
      have : dist2 (armPos a1 a2 a3 q1 q2 q3) ![a1 * Real.cos q1, a1 * Real.sin q1, 0] =
        (a2 * Real.cos q2 + a3 * Real.cos (q2 + q3)) ^ 2 +
          (a2 * Real.sin q2 + a3 * Real.sin (q2 + q3)) ^ 2 := by
        simp only [dist2, dotProduct, Pi.sub_apply, Fin.sum_univ_three, armPos]
        simp only [Matrix.cons_val_zero, Matrix.cons_val_one, Matrix.cons_val]
        linear_combination (a2 * Real.cos q2 + a3 * Real.cos (q2 + q3)) ^ 2 * hcs
      rw [this, f1, f2]
      linear_combination ((a2 + a3 * c') ^ 2 + (a3 * s') ^ 2) * hcs2 + a3 ^ 2 * hsq
    have g2 : dist2 ![Real.cos q1 * u, Real.sin q1 * u, z] ![a1 * Real.cos q1, a1 * Real.sin q1, 0]
        = r ^ 2 + z ^ 2 := by
      simp only [dist2, dotProduct, Pi.sub_apply, Fin.sum_univ_three]
      simp only [Matrix.cons_val_zero, Matrix.cons_val_one, Matrix.cons_val]
      rw [hr]
      linear_combination (u - a1) ^ 2 * hcs
    rw [g1, g2, hcc]
    congr 1
    ring

theorem u_pos (b d : Bool) (x y : ℝ) : x = Real.cos (atan2 b d y x) * Real.sqrt (x ^ 2 + y ^ 2) ∧
    y = Real.sin (atan2 b d y x) * Real.sqrt (x ^ 2 + y ^ 2) := by
  have := mul_cs_atan2 b d x y
  constructor <;> linarith [this.1, this.2]

theorem u_neg (b d : Bool) (x y : ℝ) : x = Real.cos (atan2 b d (-y) (-x)) * -Real.sqrt (x ^ 2 + y ^ 2) ∧
    y = Real.sin (atan2 b d (-y) (-x)) * -Real.sqrt (x ^ 2 + y ^ 2) := by
  have := mul_cs_atan2 b d (-x) (-y)
  rw [neg_sq, neg_sq] at this
  constructor <;> linarith [this.1, this.2]

theorem arm2Cos_eq {a1 a2 a3 x y z q1 u : ℝ} (hx : x = Real.cos q1 * u) (hy : y = Real.sin q1 * u) :
    arm2Cos a1 a2 a3 x y z q1 = ((u - a1) ^ 2 + z ^ 2 - a2 ^ 2 - a3 ^ 2) / (2 * a2 * a3) := by
  unfold arm2Cos
  simp only
  congr 1
  rw [hx, hy]
  linear_combination (u ^ 2 - 2 * a1 * u) * Real.cos_sq_add_sin_sq q1

theorem sqrt_sq_add_nonneg (x y : ℝ) : 0 ≤ Real.sqrt (x ^ 2 + y ^ 2) := Real.sqrt_nonneg _

/-- The solutions of `Arm2.ik`. -/
theorem arm2Ik_cand [Zeros] {a1 a2 a3 : ℝ} {T : M4} {sols : List (List ℝ)}
    (h : arm2Ik (arm2 a1 a2 a3) T = some sols) {q : List ℝ} (hq : q ∈ sols) :
    IsCand a1 a2 a3 (T 0 3) (T 1 3) (T 2 3) q := by
  set x := T 0 3
  set y := T 1 3
  set z := T 2 3
  have hdh : (dhOfLink (arm2 a1 a2 a3) 0).a = a1 ∧ (dhOfLink (arm2 a1 a2 a3) 1).a = a2 ∧
    (dhOfLink (arm2 a1 a2 a3) 2).a = a3 := ⟨rfl, rfl, rfl⟩
  obtain ⟨xp, yp⟩ := u_pos (Zeros.py T) (Zeros.px T) x y
  obtain ⟨xn, yn⟩ := u_neg (!Zeros.py T) (!Zeros.px T) x y
  set L := Real.sqrt (x ^ 2 + y ^ 2) with hL
  have hsols : q ∈ (((snap (arm2Cos a1 a2 a3 x y z (atan2 (Zeros.py T) (Zeros.px T) y x))).map elbow).map
        (arm2Pos T a1 a2 a3 L z (atan2 (Zeros.py T) (Zeros.px T) y x))).getD [] ++
      (((snap (arm2Cos a1 a2 a3 x y z (atan2 (!Zeros.py T) (!Zeros.px T) (-y) (-x)))).map elbow).map
        (arm2Neg T a1 a2 a3 L z (atan2 (!Zeros.py T) (!Zeros.px T) (-y) (-x)))).getD [] := by
    unfold arm2Ik at h
    simp only [hdh] at h
    split at h
    · cases h; exact hq
    · cases h
  rw [arm2Cos_eq xp yp, arm2Cos_eq xn yn, List.mem_append] at hsols
  rcases hsols with hm | hm
  · cases hs : snap (((L - a1) ^ 2 + z ^ 2 - a2 ^ 2 - a3 ^ 2) / (2 * a2 * a3)) with
    | none => rw [hs] at hm; simp at hm
    | some c' =>
      rw [hs] at hm
      obtain ⟨b1, b2, -⟩ := snap_some hs
      obtain ⟨e1, e2⟩ := cs_elbow false false b1 b2 (Or.inl rfl)
      obtain ⟨e3, e4⟩ := cs_elbow true false b1 b2 (Or.inr rfl)
      rw [one_mul] at e1 e2
      rw [neg_one_mul] at e3 e4
      simp only [Option.map_some, Option.getD_some, arm2Pos, elbow, List.mem_cons,
        List.not_mem_nil, or_false, e2, e3] at hm
      rcases hm with rfl | rfl
      · refine ⟨L, _, c', 1, Zeros.q2y T 0, Zeros.q2x T 0, false, false, xp, yp, Or.inl rfl, hs, ?_⟩
        rw [one_mul]
        congr 2
        congr 1 <;> ring
      · refine ⟨L, _, c', -1, Zeros.q2y T 1, Zeros.q2x T 1, true, false, xp, yp, Or.inr rfl, hs, ?_⟩
        rw [neg_one_mul]
        congr 2
        congr 1 <;> ring
  · cases hs : snap (((-L - a1) ^ 2 + z ^ 2 - a2 ^ 2 - a3 ^ 2) / (2 * a2 * a3)) with
    | none => rw [hs] at hm; simp at hm
    | some c' =>
      rw [hs] at hm
      obtain ⟨b1, b2, -⟩ := snap_some hs
      obtain ⟨e1, e2⟩ := cs_elbow false false b1 b2 (Or.inl rfl)
      obtain ⟨e3, e4⟩ := cs_elbow true false b1 b2 (Or.inr rfl)
      rw [one_mul] at e1 e2
      rw [neg_one_mul] at e3 e4
      simp only [Option.map_some, Option.getD_some, arm2Neg, elbow, List.mem_cons,
        List.not_mem_nil, or_false, e2, e3] at hm
      rcases hm with rfl | rfl
      · refine ⟨-L, _, c', 1, Zeros.q2y T 2, Zeros.q2x T 2, false, false, xn, yn, Or.inl rfl, hs, ?_⟩
        rw [one_mul]
        congr 2
        congr 1 <;> ring
      · refine ⟨-L, _, c', -1, Zeros.q2y T 3, Zeros.q2x T 3, true, false, xn, yn, Or.inr rfl, hs, ?_⟩
        rw [neg_one_mul]
        congr 2
        congr 1 <;> ring

/-- The solutions of `AnthropomorphicArm.ik`. -/
theorem anthropomorphicIk_cand [Zeros] {a2 a3 : ℝ} {T : M4} {sols : List (List ℝ)}
    (h : anthropomorphicIk (anthropomorphicArm a2 a3) T = some sols) {q : List ℝ} (hq : q ∈ sols) :
    IsCand 0 a2 a3 (T 0 3) (T 1 3) (T 2 3) q := by
  set x := T 0 3 with hx
  set y := T 1 3 with hy
  set z := T 2 3 with hz
  obtain ⟨xp, yp⟩ := u_pos (Zeros.py T) (Zeros.px T) x y
  obtain ⟨xn, yn⟩ := u_neg (!Zeros.py T) (!Zeros.px T) x y
  set L := Real.sqrt (x ^ 2 + y ^ 2) with hL
  have hL2 : L ^ 2 = x ^ 2 + y ^ 2 := Real.sq_sqrt (by positivity)
  unfold anthropomorphicIk at h
  simp only at h
  rw [← hx, ← hy, ← hz, show (dhOfLink (anthropomorphicArm a2 a3) 1).a = a2 from rfl,
    show (dhOfLink (anthropomorphicArm a2 a3) 2).a = a3 from rfl] at h
  cases hs : snap ((x ^ 2 + y ^ 2 + z ^ 2 - a2 ^ 2 - a3 ^ 2) / (2 * a2 * a3)) with
  | none => rw [hs] at h; cases h
  | some c' =>
    rw [hs, Option.map_some, Option.some.injEq] at h
    subst h
    have hp : snap (((L - 0) ^ 2 + z ^ 2 - a2 ^ 2 - a3 ^ 2) / (2 * a2 * a3)) = some c' := by
      rw [sub_zero, hL2]; exact hs
    have hn : snap (((-L - 0) ^ 2 + z ^ 2 - a2 ^ 2 - a3 ^ 2) / (2 * a2 * a3)) = some c' := by
      rw [sub_zero, neg_sq, hL2]; exact hs
    simp only [List.mem_cons, List.not_mem_nil, or_false] at hq
    rcases hq with rfl | rfl | rfl | rfl
    · refine ⟨L, _, c', 1, Zeros.q2y T 0, Zeros.q2x T 0, false, false, xp, yp, Or.inl rfl, hp, ?_⟩
      rw [one_mul]; congr 2; congr 1 <;> ring
    · refine ⟨L, _, c', -1, Zeros.q2y T 1, Zeros.q2x T 1, true, false, xp, yp, Or.inr rfl, hp, ?_⟩
      rw [neg_one_mul]; congr 2; congr 1 <;> ring
    · refine ⟨-L, _, c', 1, Zeros.q2y T 2, Zeros.q2x T 2, false, false, xn, yn, Or.inl rfl, hn, ?_⟩
      rw [one_mul]; congr 2; congr 1 <;> ring
    · refine ⟨-L, _, c', -1, Zeros.q2y T 3, Zeros.q2x T 3, true, false, xn, yn, Or.inr rfl, hn, ?_⟩
      rw [neg_one_mul]; congr 2; congr 1 <;> ring

/-- The signed horizontal distance of a configuration. -/
theorem arm_u (q1 w : ℝ) :
    (0 ≤ w → Real.sqrt ((Real.cos q1 * w) ^ 2 + (Real.sin q1 * w) ^ 2) = w) ∧
    (w ≤ 0 → Real.sqrt ((Real.cos q1 * w) ^ 2 + (Real.sin q1 * w) ^ 2) = -w) := by
  have e : (Real.cos q1 * w) ^ 2 + (Real.sin q1 * w) ^ 2 = w ^ 2 := by
    linear_combination w ^ 2 * Real.cos_sq_add_sin_sq q1
  rw [e, Real.sqrt_sq_eq_abs]
  exact ⟨fun h => abs_of_nonneg h, fun h => abs_of_nonpos h⟩

theorem elbow_cos {a1 a2 a3 q2 q3 w z : ℝ} (ha : a2 * a3 ≠ 0)
    (hw : w = a1 + a2 * Real.cos q2 + a3 * Real.cos (q2 + q3))
    (hz : z = a2 * Real.sin q2 + a3 * Real.sin (q2 + q3)) :
    ((w - a1) ^ 2 + z ^ 2 - a2 ^ 2 - a3 ^ 2) / (2 * a2 * a3) = Real.cos q3 := by
  have h2 : (2 * a2 * a3 : ℝ) ≠ 0 := by
    rw [mul_assoc]; exact mul_ne_zero two_ne_zero ha
  rw [div_eq_iff h2, hw, hz, Real.cos_add, Real.sin_add]
  have h1 := Real.cos_sq_add_sin_sq q2
  have h3 := Real.cos_sq_add_sin_sq q3
  linear_combination (a2 ^ 2 + a3 ^ 2 * (Real.cos q3 ^ 2 + Real.sin q3 ^ 2) +
    2 * a2 * a3 * Real.cos q3) * h1 + a3 ^ 2 * h3

/-- Angles equal up to full turns. -/
def SameAngle (x y : ℝ) : Prop := ∃ k : ℤ, x = y + 2 * Real.pi * k

/-- `snap` of a cosine away from plus and minus one. -/
theorem snap_cos {c : ℝ} (h : |c| ≤ 1 - tol) : snap c = some c := by
  have ht : (0 : ℝ) < tol := by norm_num [tol]
  have := abs_le.1 h
  obtain ⟨c', hc'⟩ := snap_isSome (c := c) (by linarith) (by linarith)
  rw [hc', (snap_some hc').2.2.2.2 h]

theorem sqrt_cos (q3 : ℝ) : Real.sqrt (1 - Real.cos q3 ^ 2) = |Real.sin q3| := by
  rw [show 1 - Real.cos q3 ^ 2 = Real.sin q3 ^ 2 by
    linear_combination -Real.cos_sq_add_sin_sq q3, Real.sqrt_sq_eq_abs]

/-- `Arm2.ik` succeeds on every reachable position. -/
theorem arm2Ik_succeeds [Zeros] {a1 a2 a3 : ℝ} (ha : a2 * a3 ≠ 0) (q1 q2 q3 : ℝ) {T : M4}
    (hT : posPart T = armPos a1 a2 a3 q1 q2 q3) : ∃ sols, arm2Ik (arm2 a1 a2 a3) T = some sols := by
  set w := a1 + a2 * Real.cos q2 + a3 * Real.cos (q2 + q3) with hw
  have hx : T 0 3 = Real.cos q1 * w := congrFun hT 0
  have hy : T 1 3 = Real.sin q1 * w := congrFun hT 1
  have hz : T 2 3 = a2 * Real.sin q2 + a3 * Real.sin (q2 + q3) := congrFun hT 2
  have hcos := elbow_cos (a1 := a1) ha hw hz
  obtain ⟨xp, yp⟩ := u_pos (Zeros.py T) (Zeros.px T) (T 0 3) (T 1 3)
  obtain ⟨xn, yn⟩ := u_neg (!Zeros.py T) (!Zeros.px T) (T 0 3) (T 1 3)
  obtain ⟨c', hc'⟩ := snap_isSome (Real.neg_one_le_cos q3) (Real.cos_le_one q3)
  unfold arm2Ik
  simp only [show (dhOfLink (arm2 a1 a2 a3) 0).a = a1 from rfl,
    show (dhOfLink (arm2 a1 a2 a3) 1).a = a2 from rfl,
    show (dhOfLink (arm2 a1 a2 a3) 2).a = a3 from rfl]
  rw [arm2Cos_eq xp yp, arm2Cos_eq xn yn]
  have hu := arm_u q1 w
  rw [← hx, ← hy] at hu
  rcases le_total 0 w with h | h
  · rw [hu.1 h, hcos, hc']
    simp
  · rw [hu.2 h, neg_neg, hcos, hc']
    simp

/-- `Arm2.ik` finds the configuration, away from the singular ones. -/
theorem arm2Ik_complete [Zeros] {a1 a2 a3 : ℝ} (ha : a2 * a3 ≠ 0) (q1 q2 q3 : ℝ) {T : M4}
    (hT : posPart T = armPos a1 a2 a3 q1 q2 q3)
    (hw0 : a1 + a2 * Real.cos q2 + a3 * Real.cos (q2 + q3) ≠ 0)
    (h3 : |Real.cos q3| ≤ 1 - tol) {sols : List (List ℝ)}
    (hs : arm2Ik (arm2 a1 a2 a3) T = some sols) :
    ∃ t1 t2 t3, [t1, t2, t3] ∈ sols ∧ SameAngle t1 q1 ∧ SameAngle t2 q2 ∧ SameAngle t3 q3 := by
  have ht : (0 : ℝ) < tol := by norm_num [tol]
  set w := a1 + a2 * Real.cos q2 + a3 * Real.cos (q2 + q3) with hw
  have hx : T 0 3 = Real.cos q1 * w := congrFun hT 0
  have hy : T 1 3 = Real.sin q1 * w := congrFun hT 1
  have hz : T 2 3 = a2 * Real.sin q2 + a3 * Real.sin (q2 + q3) := congrFun hT 2
  have hcos := elbow_cos (a1 := a1) ha hw hz
  have hr : w - a1 = a2 * Real.cos q2 + a3 * Real.cos (q2 + q3) := by rw [hw]; ring
  have hsin0 : Real.sin q3 ≠ 0 := by
    intro h0
    have h1 := Real.cos_sq_add_sin_sq q3
    rw [h0] at h1
    have h2 : |Real.cos q3| ^ 2 = 1 := by rw [sq_abs]; linarith
    have h4 := abs_nonneg (Real.cos q3)
    nlinarith
  have ha3 : a3 ≠ 0 := right_ne_zero_of_mul ha
  have hB : a3 * Real.sin q3 ≠ 0 := mul_ne_zero ha3 hsin0
  have hpc := fun b d => planar_complete b d (Or.inr hB) hr hz
  have hsc := snap_cos h3
  obtain ⟨b1, b2, -⟩ := snap_some hsc
  obtain ⟨e1, e2⟩ := cs_elbow false false b1 b2 (Or.inl rfl)
  obtain ⟨e3, e4⟩ := cs_elbow true false b1 b2 (Or.inr rfl)
  rw [one_mul] at e1 e2
  rw [neg_one_mul] at e3 e4
  rw [sqrt_cos] at e1 e2 e3 e4
  obtain ⟨xp, yp⟩ := u_pos (Zeros.py T) (Zeros.px T) (T 0 3) (T 1 3)
  obtain ⟨xn, yn⟩ := u_neg (!Zeros.py T) (!Zeros.px T) (T 0 3) (T 1 3)
  have hu := arm_u q1 w
  rw [← hx, ← hy] at hu
  have hsols : sols = (((snap (arm2Cos a1 a2 a3 (T 0 3) (T 1 3) (T 2 3)
        (atan2 (Zeros.py T) (Zeros.px T) (T 1 3) (T 0 3)))).map elbow).map
        (arm2Pos T a1 a2 a3 (Real.sqrt (T 0 3 ^ 2 + T 1 3 ^ 2)) (T 2 3)
          (atan2 (Zeros.py T) (Zeros.px T) (T 1 3) (T 0 3)))).getD [] ++
      (((snap (arm2Cos a1 a2 a3 (T 0 3) (T 1 3) (T 2 3)
        (atan2 (!Zeros.py T) (!Zeros.px T) (-T 1 3) (-T 0 3)))).map elbow).map
        (arm2Neg T a1 a2 a3 (Real.sqrt (T 0 3 ^ 2 + T 1 3 ^ 2)) (T 2 3)
          (atan2 (!Zeros.py T) (!Zeros.px T) (-T 1 3) (-T 0 3)))).getD [] := by
    unfold arm2Ik at hs
    simp only [show (dhOfLink (arm2 a1 a2 a3) 0).a = a1 from rfl,
      show (dhOfLink (arm2 a1 a2 a3) 1).a = a2 from rfl,
      show (dhOfLink (arm2 a1 a2 a3) 2).a = a3 from rfl] at hs
    split at hs
    · cases hs; rfl
    · cases hs
  rw [arm2Cos_eq xp yp, arm2Cos_eq xn yn] at hsols
  rcases lt_or_gt_of_ne hw0 with h | h
  · -- the arm points away from the target
    rw [hu.2 h.le, neg_neg, hcos, hsc] at hsols
    have hq1 : SameAngle (atan2 (!Zeros.py T) (!Zeros.px T) (-T 1 3) (-T 0 3)) q1 := by
      have := cs_atan2 (b := !Zeros.py T) (d := !Zeros.px T) (k := -w) (by linarith) (Real.cos_sq_add_sin_sq q1)
      rw [show -w * Real.sin q1 = -T 1 3 by rw [hy]; ring,
        show -w * Real.cos q1 = -T 0 3 by rw [hx]; ring] at this
      exact angle_eq this.1 this.2
    have hmem : ∀ q ∈ arm2Neg T a1 a2 a3 (-w) (T 2 3) (atan2 (!Zeros.py T) (!Zeros.px T) (-T 1 3) (-T 0 3))
        (elbow (Real.cos q3)), q ∈ sols := by
      intro q hq
      rw [hsols]
      exact List.mem_append_right _ hq
    rcases lt_or_gt_of_ne hsin0 with h' | h'
    · refine ⟨_, _, _, hmem _ (List.mem_cons_of_mem _ (List.mem_singleton.2 rfl)), hq1, ?_, ?_⟩
      · simp only [elbow, sqrt_cos, abs_of_neg h']
        obtain ⟨k, hk⟩ := hpc _ _
        refine ⟨k, ?_⟩
        rw [← hk]
        rw [abs_of_neg h'] at e2 e3
        rw [e2, e3]
        congr 1 <;> ring
      · simp only [elbow, sqrt_cos]
        refine angle_eq e3 (by rw [e4, abs_of_neg h', neg_neg])
    · refine ⟨_, _, _, hmem _ List.mem_cons_self, hq1, ?_, ?_⟩
      · simp only [elbow, sqrt_cos]
        obtain ⟨k, hk⟩ := hpc _ _
        refine ⟨k, ?_⟩
        rw [← hk]
        rw [e2, e3, abs_of_pos h']
        congr 1 <;> ring
      · simp only [elbow, sqrt_cos]
        refine angle_eq e1 (by rw [e2, abs_of_pos h'])
  · rw [hu.1 h.le, hcos, hsc] at hsols
    have hq1 : SameAngle (atan2 (Zeros.py T) (Zeros.px T) (T 1 3) (T 0 3)) q1 := by
      have := cs_atan2 (b := Zeros.py T) (d := Zeros.px T) (k := w) h (Real.cos_sq_add_sin_sq q1)
      rw [show w * Real.sin q1 = T 1 3 by rw [hy]; ring,
        show w * Real.cos q1 = T 0 3 by rw [hx]; ring] at this
      exact angle_eq this.1 this.2
    have hmem : ∀ q ∈ arm2Pos T a1 a2 a3 w (T 2 3) (atan2 (Zeros.py T) (Zeros.px T) (T 1 3) (T 0 3))
        (elbow (Real.cos q3)), q ∈ sols := by
      intro q hq
      rw [hsols]
      exact List.mem_append_left _ hq
    rcases lt_or_gt_of_ne hsin0 with h' | h'
    · refine ⟨_, _, _, hmem _ (List.mem_cons_of_mem _ (List.mem_singleton.2 rfl)), hq1, ?_, ?_⟩
      · simp only [elbow, sqrt_cos]
        obtain ⟨k, hk⟩ := hpc _ _
        refine ⟨k, ?_⟩
        rw [← hk]
        rw [e2, e3, abs_of_neg h']
        congr 1 <;> ring
      · simp only [elbow, sqrt_cos]
        refine angle_eq e3 (by rw [e4, abs_of_neg h', neg_neg])
    · refine ⟨_, _, _, hmem _ List.mem_cons_self, hq1, ?_, ?_⟩
      · simp only [elbow, sqrt_cos]
        obtain ⟨k, hk⟩ := hpc _ _
        refine ⟨k, ?_⟩
        rw [← hk]
        rw [e2, e3, abs_of_pos h']
        congr 1 <;> ring
      · simp only [elbow, sqrt_cos]
        refine angle_eq e1 (by rw [e2, abs_of_pos h'])

/-- `Arm2.ik` returns at most four solutions, each with three entries. -/
theorem arm2Ik_length [Zeros] {a1 a2 a3 : ℝ} {T : M4} {sols : List (List ℝ)}
    (h : arm2Ik (arm2 a1 a2 a3) T = some sols) : 0 < sols.length ∧ sols.length ≤ 4 := by
  unfold arm2Ik at h
  simp only at h
  split at h
  · rename_i hsome
    rw [Option.some.injEq] at h
    subst h
    revert hsome
    generalize (snap (arm2Cos (dhOfLink (arm2 a1 a2 a3) 0).a (dhOfLink (arm2 a1 a2 a3) 1).a
      (dhOfLink (arm2 a1 a2 a3) 2).a (T 0 3) (T 1 3) (T 2 3)
      (atan2 (Zeros.py T) (Zeros.px T) (T 1 3) (T 0 3)))).map elbow = o1
    generalize (snap (arm2Cos (dhOfLink (arm2 a1 a2 a3) 0).a (dhOfLink (arm2 a1 a2 a3) 1).a
      (dhOfLink (arm2 a1 a2 a3) 2).a (T 0 3) (T 1 3) (T 2 3)
      (atan2 (!Zeros.py T) (!Zeros.px T) (-T 1 3) (-T 0 3)))).map elbow = o2
    intro hsome
    cases o1 <;> cases o2 <;> simp [arm2Pos, arm2Neg] at hsome ⊢
  · cases h

end Verif.Kin
