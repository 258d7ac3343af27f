import Verif.Proofs.Quat
import Verif.Proofs.Util

/-!
# Every rotation has x-y-z angles and a unit quaternion; `Quaternion(matrix=R)` finds one
-/

set_option linter.unusedSectionVars false

namespace Verif

open Matrix Verif.Util

/-- A rotation equals its matrix of cofactors, and its rows and columns have length one. -/
theorem IsRot.entries {R : M3} (h : IsRot R) :
    (R 0 0 = R 1 1 * R 2 2 - R 1 2 * R 2 1) ∧ (R 0 1 = R 1 2 * R 2 0 - R 1 0 * R 2 2) ∧
    (R 1 0 = R 0 2 * R 2 1 - R 0 1 * R 2 2) ∧ (R 1 1 = R 0 0 * R 2 2 - R 0 2 * R 2 0) ∧
    (R 2 0 = R 0 1 * R 1 2 - R 0 2 * R 1 1) ∧ (R 2 1 = R 0 2 * R 1 0 - R 0 0 * R 1 2) ∧
    (R 0 0 ^ 2 + R 0 1 ^ 2 + R 0 2 ^ 2 = 1) ∧ (R 0 2 ^ 2 + R 1 2 ^ 2 + R 2 2 ^ 2 = 1) ∧
    (R 0 1 ^ 2 + R 1 1 ^ 2 + R 2 1 ^ 2 = 1) := by
  have h1 := h.mul_transpose
  have h2 := h.1
  have hadj : R.adjugate = Rᵀ := by
    have e : R.adjugate * R = 1 := by rw [Matrix.adjugate_mul, h.2, one_smul]
    calc R.adjugate = R.adjugate * (R * Rᵀ) := by rw [h1, Matrix.mul_one]
      _ = Rᵀ := by rw [← Matrix.mul_assoc, e, Matrix.one_mul]
  have ha : ∀ i j, R.adjugate i j = R j i := fun i j => by rw [hadj]; rfl
  have a := fun i j => (ha i j).symm
  simp only [Matrix.adjugate_fin_three] at a
  have e1 := fun i j => congrFun (congrFun h1 i) j
  have e2 := fun i j => congrFun (congrFun h2 i) j
  have r0 := e1 0 0
  have c2 := e2 2 2
  have c1 := e2 1 1
  simp [Matrix.mul_apply, Fin.sum_univ_succ] at r0 c1 c2
  have b00 := a 0 0
  have b10 := a 1 0
  have b01 := a 0 1
  have b11 := a 1 1
  have b02 := a 0 2
  have b12 := a 1 2
  simp at b00 b10 b01 b11 b02 b12
  refine ⟨?_, ?_, ?_, ?_, ?_, ?_, ?_, ?_, ?_⟩ <;> linarith

theorem exists_angle {x y : ℝ} (h : x ^ 2 + y ^ 2 = 1) : ∃ a, Real.cos a = x ∧ Real.sin a = y := by
  refine ⟨arctan2 y x, ?_, ?_⟩
  · have hne : x ≠ 0 ∨ y ≠ 0 := by
      by_contra hc
      push Not at hc
      rw [hc.1, hc.2] at h
      norm_num at h
    rw [cos_arctan2 hne, h]; simp
  · rw [sin_arctan2, h]; simp

theorem zero_of_sq {x y : ℝ} (h : x ^ 2 + y ^ 2 = 0) : x = 0 ∧ y = 0 := by
  constructor <;> nlinarith [sq_nonneg x, sq_nonneg y]

/-- Every rotation is `Rx(a) Ry(b) Rz(c)` for some angles. -/
theorem IsRot.exists_euler {R : M3} (h : IsRot R) :
    ∃ a : V3, R = rotX (a 0) * rotY (a 1) * rotZ (a 2) := by
  obtain ⟨c00, c01, c10, c11, c20, c21, n0, m2, m1⟩ := h.entries
  set s := R 0 2 with hs
  have hs2 : s ^ 2 ≤ 1 := by nlinarith [sq_nonneg (R 0 0), sq_nonneg (R 0 1)]
  set c := Real.sqrt (1 - s ^ 2) with hc
  have hc2 : c ^ 2 = 1 - s ^ 2 := Real.sq_sqrt (by linarith)
  obtain ⟨b, hb1, hb2⟩ := exists_angle (x := c) (y := s) (by linarith)
  by_cases hc0 : c = 0
  · have hs1 : s ^ 2 = 1 := by rw [hc0] at hc2; linarith
    obtain ⟨z00, z01⟩ := zero_of_sq (x := R 0 0) (y := R 0 1) (by linarith)
    obtain ⟨z12, z22⟩ := zero_of_sq (x := R 1 2) (y := R 2 2) (by linarith)
    obtain ⟨a, ha1, ha2⟩ := exists_angle (x := R 1 1) (y := R 2 1) (by rw [z01] at m1; linarith)
    refine ⟨![a, b, 0], ?_⟩
    have e10 : R 1 0 = s * R 2 1 := by rw [c10, z01]; ring
    have e20 : R 2 0 = -(s * R 1 1) := by rw [c20, z01]; ring
    ext i j
    fin_cases i <;> fin_cases j <;>
      simp [rotX, rotY, rotZ, Matrix.mul_apply, Fin.sum_univ_succ, ha1, ha2, hb1, hb2, hc0, z00,
        z01, z12, z22, ← hs, e10, e20] <;> ring
  · have hcc : c ^ 2 ≠ 0 := pow_ne_zero _ hc0
    obtain ⟨a, ha1, ha2⟩ := exists_angle (x := R 2 2 / c) (y := -(R 1 2) / c) (by
      rw [div_pow, div_pow, ← add_div, div_eq_one_iff_eq hcc, hc2]; linarith)
    obtain ⟨g, hg1, hg2⟩ := exists_angle (x := R 0 0 / c) (y := -(R 0 1) / c) (by
      rw [div_pow, div_pow, ← add_div, div_eq_one_iff_eq hcc, hc2]; linarith)
    refine ⟨![a, b, g], ?_⟩
    have e00 : R 0 0 = c * (R 0 0 / c) := by field_simp
    have e01 : R 0 1 = -(c * (-(R 0 1) / c)) := by field_simp
    have e12 : R 1 2 = -((-(R 1 2) / c) * c) := by field_simp
    have e22 : R 2 2 = R 2 2 / c * c := by field_simp
    have e10 : R 1 0 = (-(R 1 2) / c) * s * (R 0 0 / c) + R 2 2 / c * (-(R 0 1) / c) := by
      have : R 1 0 * c ^ 2 = -(R 1 2) * s * R 0 0 - R 2 2 * R 0 1 := by
        rw [hc2]; linear_combination c10 + s * c21
      field_simp
      linarith
    have e11 : R 1 1 = -((-(R 1 2) / c) * s * (-(R 0 1) / c)) + R 2 2 / c * (R 0 0 / c) := by
      have : R 1 1 * c ^ 2 = -(R 1 2 * s * R 0 1) + R 2 2 * R 0 0 := by
        rw [hc2]; linear_combination c11 - s * c20
      field_simp
      linarith
    have e20 : R 2 0 = -(R 2 2 / c * s * (R 0 0 / c)) + (-(R 1 2) / c) * (-(R 0 1) / c) := by
      have : R 2 0 * c ^ 2 = -(R 2 2 * s * R 0 0) + R 1 2 * R 0 1 := by
        rw [hc2]; linear_combination c20 - s * c11
      field_simp
      linarith
    have e21 : R 2 1 = R 2 2 / c * s * (-(R 0 1) / c) + (-(R 1 2) / c) * (R 0 0 / c) := by
      have : R 2 1 * c ^ 2 = -(R 2 2 * s * R 0 1) - R 1 2 * R 0 0 := by
        rw [hc2]; linear_combination c21 + s * c10
      field_simp
      linarith
    generalize R 0 0 / c = p1 at *
    generalize -(R 0 1) / c = p2 at *
    generalize -(R 1 2) / c = p3 at *
    generalize R 2 2 / c = p4 at *
    ext i j
    fin_cases i <;> fin_cases j <;>
      simp [rotX, rotY, rotZ, Matrix.mul_apply, Fin.sum_univ_succ, ha1, ha2, hb1, hb2, hg1, hg2]
    · exact e00
    · exact e01
    · exact hs.symm
    · exact e10
    · exact e11
    · exact e12
    · exact e20
    · exact e21
    · exact e22

/-- Rotations about the axes as quaternions. -/
theorem rotX_quat (a : ℝ) :
    (⟨Real.cos (a / 2), Real.sin (a / 2), 0, 0⟩ : Quat).norm2 = 1 ∧
    (⟨Real.cos (a / 2), Real.sin (a / 2), 0, 0⟩ : Quat).rotationMatrix = rotX a := by
  have hs := Real.sin_sq_add_cos_sq (a / 2)
  have hn : (⟨Real.cos (a / 2), Real.sin (a / 2), 0, 0⟩ : Quat).norm2 = 1 := by
    simp only [Quat.norm2]; linarith
  have hc2 : Real.cos a = 2 * Real.cos (a / 2) ^ 2 - 1 := by
    rw [← Real.cos_two_mul]; ring_nf
  have hs2 : Real.sin a = 2 * Real.sin (a / 2) * Real.cos (a / 2) := by
    rw [← Real.sin_two_mul]; ring_nf
  refine ⟨hn, ?_⟩
  simp only [Quat.rotationMatrix, Quat.normalise_of_unit hn, rotX, hc2, hs2]
  ext i j
  fin_cases i <;> fin_cases j <;> simp <;> linarith

theorem rotY_quat (a : ℝ) :
    (⟨Real.cos (a / 2), 0, Real.sin (a / 2), 0⟩ : Quat).norm2 = 1 ∧
    (⟨Real.cos (a / 2), 0, Real.sin (a / 2), 0⟩ : Quat).rotationMatrix = rotY a := by
  have hs := Real.sin_sq_add_cos_sq (a / 2)
  have hn : (⟨Real.cos (a / 2), 0, Real.sin (a / 2), 0⟩ : Quat).norm2 = 1 := by
    simp only [Quat.norm2]; linarith
  have hc2 : Real.cos a = 2 * Real.cos (a / 2) ^ 2 - 1 := by
    rw [← Real.cos_two_mul]; ring_nf
  have hs2 : Real.sin a = 2 * Real.sin (a / 2) * Real.cos (a / 2) := by
    rw [← Real.sin_two_mul]; ring_nf
  refine ⟨hn, ?_⟩
  simp only [Quat.rotationMatrix, Quat.normalise_of_unit hn, rotY, hc2, hs2]
  ext i j
  fin_cases i <;> fin_cases j <;> simp <;> linarith

theorem rotZ_quat (a : ℝ) :
    (⟨Real.cos (a / 2), 0, 0, Real.sin (a / 2)⟩ : Quat).norm2 = 1 ∧
    (⟨Real.cos (a / 2), 0, 0, Real.sin (a / 2)⟩ : Quat).rotationMatrix = rotZ a := by
  have hs := Real.sin_sq_add_cos_sq (a / 2)
  have hn : (⟨Real.cos (a / 2), 0, 0, Real.sin (a / 2)⟩ : Quat).norm2 = 1 := by
    simp only [Quat.norm2]; linarith
  have hc2 : Real.cos a = 2 * Real.cos (a / 2) ^ 2 - 1 := by
    rw [← Real.cos_two_mul]; ring_nf
  have hs2 : Real.sin a = 2 * Real.sin (a / 2) * Real.cos (a / 2) := by
    rw [← Real.sin_two_mul]; ring_nf
  refine ⟨hn, ?_⟩
  simp only [Quat.rotationMatrix, Quat.normalise_of_unit hn, rotZ, hc2, hs2]
  ext i j
  fin_cases i <;> fin_cases j <;> simp <;> linarith

/-- Every rotation is the rotation of a unit quaternion. -/
theorem IsRot.exists_quat {R : M3} (h : IsRot R) : ∃ q : Quat, q.norm2 = 1 ∧ q.rotationMatrix = R := by
  obtain ⟨a, rfl⟩ := h.exists_euler
  obtain ⟨nx, rx⟩ := rotX_quat (a 0)
  obtain ⟨ny, ry⟩ := rotY_quat (a 1)
  obtain ⟨nz, rz⟩ := rotZ_quat (a 2)
  have mulOne : ∀ {p q : Quat}, p.norm2 = 1 → q.norm2 = 1 → (p.mul q).norm2 = 1 := by
    intro p q hp hq; rw [Quat.norm2_mul, hp, hq, one_mul]
  have nxy := mulOne nx ny
  refine ⟨_, mulOne nxy nz, ?_⟩
  rw [Quat.rotationMatrix_mul nxy nz, Quat.rotationMatrix_mul nx ny, rx, ry, rz]

namespace Quat

/-- The scaling of `trace_method` yields the quaternion or its negative. -/
theorem scaled {q₀ : Quat} (h : q₀.norm2 = 1) {k t f : ℝ} {v : Quat} (hk : k ≠ 0) (ht : t = 4 * k ^ 2)
    (hv : v = ⟨4 * k * q₀.w, 4 * k * q₀.x, 4 * k * q₀.y, 4 * k * q₀.z⟩)
    (hf : f = 0.5 / Real.sqrt t) :
    (⟨v.w * f, v.x * f, v.y * f, v.z * f⟩ : Quat).norm2 = 1 ∧
    (⟨v.w * f, v.x * f, v.y * f, v.z * f⟩ : Quat).rotationMatrix = q₀.rotationMatrix := by
  have hsq : Real.sqrt t = 2 * |k| := by
    rw [ht, show 4 * k ^ 2 = (2 * |k|) ^ 2 by rw [mul_pow, sq_abs]; norm_num]
    exact Real.sqrt_sq (by positivity)
  have hak : |k| ≠ 0 := abs_ne_zero.2 hk
  have hσ : (4 * k * f) ^ 2 = 1 := by
    rw [hf, hsq]
    have : k ^ 2 = |k| ^ 2 := (sq_abs k).symm
    field_simp
    norm_num
    linarith
  have hn : (⟨v.w * f, v.x * f, v.y * f, v.z * f⟩ : Quat).norm2 = 1 := by
    rw [hv]
    simp only [norm2] at h ⊢
    linear_combination (4 * k * f) ^ 2 * h + hσ
  refine ⟨hn, ?_⟩
  simp only [rotationMatrix, normalise_of_unit hn, normalise_of_unit h]
  rw [hv]
  generalize 4 * k = e at *
  ext i j
  fin_cases i <;> fin_cases j <;> simp
  · linear_combination (q₀.w ^ 2 + q₀.x ^ 2 - q₀.y ^ 2 - q₀.z ^ 2) * hσ
  · linear_combination (q₀.x * q₀.y - q₀.w * q₀.z) * hσ
  · linear_combination (q₀.x * q₀.z + q₀.w * q₀.y) * hσ
  · linear_combination (q₀.x * q₀.y + q₀.w * q₀.z) * hσ
  · linear_combination (q₀.w ^ 2 - q₀.x ^ 2 + q₀.y ^ 2 - q₀.z ^ 2) * hσ
  · linear_combination (q₀.y * q₀.z - q₀.w * q₀.x) * hσ
  · linear_combination (q₀.x * q₀.z - q₀.w * q₀.y) * hσ
  · linear_combination (q₀.y * q₀.z + q₀.w * q₀.x) * hσ
  · linear_combination (q₀.w ^ 2 - q₀.x ^ 2 - q₀.y ^ 2 + q₀.z ^ 2) * hσ

theorem looksLikeRotation_of_isRot {R : M3} (h : IsRot R) : looksLikeRotation R := by
  constructor
  · intro i j
    rw [h.mul_transpose]
    simp only [sub_self, abs_zero]
    positivity
  · rw [h.2]
    simp only [sub_self, abs_zero]
    positivity

/-- `Quaternion(matrix=R)` succeeds for every rotation, with a unit quaternion of the same
rotation. -/
theorem ofRotation_spec {R : M3} (h : IsRot R) :
    ∃ q, ofRotation R = .ok q ∧ q.norm2 = 1 ∧ q.rotationMatrix = R := by
  obtain ⟨q₀, hq, rfl⟩ := h.exists_quat
  refine ⟨_, if_pos (looksLikeRotation_of_isRot h), ?_⟩
  have e := hq
  simp only [norm2] at e
  have en : ∀ i j, q₀.rotationMatrixᵀ i j = q₀.rotationMatrix j i := fun i j => rfl
  have m00 : q₀.rotationMatrix 0 0 = q₀.w ^ 2 + q₀.x ^ 2 - q₀.y ^ 2 - q₀.z ^ 2 := by
    simp [rotationMatrix, normalise_of_unit hq]
  have m11 : q₀.rotationMatrix 1 1 = q₀.w ^ 2 - q₀.x ^ 2 + q₀.y ^ 2 - q₀.z ^ 2 := by
    simp [rotationMatrix, normalise_of_unit hq]
  have m22 : q₀.rotationMatrix 2 2 = q₀.w ^ 2 - q₀.x ^ 2 - q₀.y ^ 2 + q₀.z ^ 2 := by
    simp [rotationMatrix, normalise_of_unit hq]
  have m01 : q₀.rotationMatrix 0 1 = 2 * (q₀.x * q₀.y - q₀.w * q₀.z) := by
    simp [rotationMatrix, normalise_of_unit hq]
  have m02 : q₀.rotationMatrix 0 2 = 2 * (q₀.x * q₀.z + q₀.w * q₀.y) := by
    simp [rotationMatrix, normalise_of_unit hq]
  have m10 : q₀.rotationMatrix 1 0 = 2 * (q₀.x * q₀.y + q₀.w * q₀.z) := by
    simp [rotationMatrix, normalise_of_unit hq]
  have m12 : q₀.rotationMatrix 1 2 = 2 * (q₀.y * q₀.z - q₀.w * q₀.x) := by
    simp [rotationMatrix, normalise_of_unit hq]
  have m20 : q₀.rotationMatrix 2 0 = 2 * (q₀.x * q₀.z - q₀.w * q₀.y) := by
    simp [rotationMatrix, normalise_of_unit hq]
  have m21 : q₀.rotationMatrix 2 1 = 2 * (q₀.y * q₀.z + q₀.w * q₀.x) := by
    simp [rotationMatrix, normalise_of_unit hq]
  have nz : ∀ {k : ℝ}, 1 ≤ 4 * k ^ 2 → k ≠ 0 := by
    rintro k h rfl; norm_num at h
  by_cases h2 : q₀.rotationMatrix 2 2 < 0
  · by_cases h1 : q₀.rotationMatrix 1 1 < q₀.rotationMatrix 0 0
    · have et : traceMethod q₀.rotationMatrixᵀ =
          (4 * q₀.x ^ 2, ⟨4 * q₀.x * q₀.w, 4 * q₀.x * q₀.x, 4 * q₀.x * q₀.y, 4 * q₀.x * q₀.z⟩) := by
        simp only [traceMethod, en]
        rw [if_pos h2, if_pos h1]
        simp only [m00, m11, m22, m12, m21, m01, m10, m02, m20, Prod.mk.injEq, Quat.mk.injEq]
        refine ⟨by linear_combination -e, ?_, ?_, ?_, ?_⟩
        · ring
        · linear_combination -e
        · ring
        · ring
      rw [et]
      refine scaled hq (k := q₀.x) (nz ?_) rfl rfl rfl
      rw [m22] at h2; rw [m00, m11] at h1; nlinarith
    · have et : traceMethod q₀.rotationMatrixᵀ =
          (4 * q₀.y ^ 2, ⟨4 * q₀.y * q₀.w, 4 * q₀.y * q₀.x, 4 * q₀.y * q₀.y, 4 * q₀.y * q₀.z⟩) := by
        simp only [traceMethod, en]
        rw [if_pos h2, if_neg h1]
        simp only [m00, m11, m22, m12, m21, m01, m10, m02, m20, Prod.mk.injEq, Quat.mk.injEq]
        refine ⟨by linear_combination -e, ?_, ?_, ?_, ?_⟩
        · ring
        · ring
        · linear_combination -e
        · ring
      rw [et]
      refine scaled hq (k := q₀.y) (nz ?_) rfl rfl rfl
      rw [m22] at h2; rw [m00, m11] at h1; nlinarith
  · by_cases h1 : q₀.rotationMatrix 0 0 < -q₀.rotationMatrix 1 1
    · have et : traceMethod q₀.rotationMatrixᵀ =
          (4 * q₀.z ^ 2, ⟨4 * q₀.z * q₀.w, 4 * q₀.z * q₀.x, 4 * q₀.z * q₀.y, 4 * q₀.z * q₀.z⟩) := by
        simp only [traceMethod, en]
        rw [if_neg h2, if_pos h1]
        simp only [m00, m11, m22, m12, m21, m01, m10, m02, m20, Prod.mk.injEq, Quat.mk.injEq]
        refine ⟨by linear_combination -e, ?_, ?_, ?_, ?_⟩
        · ring
        · ring
        · ring
        · linear_combination -e
      rw [et]
      refine scaled hq (k := q₀.z) (nz ?_) rfl rfl rfl
      rw [m22] at h2; rw [m00, m11] at h1; nlinarith
    · have et : traceMethod q₀.rotationMatrixᵀ =
          (4 * q₀.w ^ 2, ⟨4 * q₀.w * q₀.w, 4 * q₀.w * q₀.x, 4 * q₀.w * q₀.y, 4 * q₀.w * q₀.z⟩) := by
        simp only [traceMethod, en]
        rw [if_neg h2, if_neg h1]
        simp only [m00, m11, m22, m12, m21, m01, m10, m02, m20, Prod.mk.injEq, Quat.mk.injEq]
        refine ⟨by linear_combination -e, ?_, ?_, ?_, ?_⟩
        · linear_combination -e
        · ring
        · ring
        · ring
      rw [et]
      refine scaled hq (k := q₀.w) (nz ?_) rfl rfl rfl
      rw [m22] at h2; rw [m00, m11] at h1; nlinarith

end Quat

end Verif
