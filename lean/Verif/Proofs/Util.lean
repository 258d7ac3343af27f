import Verif.Model.Util

/-! # Lemmas on the matrix helpers -/

namespace Verif.Util

open Matrix

theorem rotX_isRot (α : ℝ) : IsRot (rotX α) := by
  have h := Real.sin_sq_add_cos_sq α
  constructor
  · ext i j; fin_cases i <;> fin_cases j <;>
      simp [rotX, Matrix.mul_apply, Fin.sum_univ_succ] <;> nlinarith
  · simp [rotX, Matrix.det_fin_three]; nlinarith

theorem rotY_isRot (α : ℝ) : IsRot (rotY α) := by
  have h := Real.sin_sq_add_cos_sq α
  constructor
  · ext i j; fin_cases i <;> fin_cases j <;>
      simp [rotY, Matrix.mul_apply, Fin.sum_univ_succ] <;> nlinarith
  · simp [rotY, Matrix.det_fin_three]; nlinarith

theorem rotZ_isRot (α : ℝ) : IsRot (rotZ α) := by
  have h := Real.sin_sq_add_cos_sq α
  constructor
  · ext i j; fin_cases i <;> fin_cases j <;>
      simp [rotZ, Matrix.mul_apply, Fin.sum_univ_succ] <;> nlinarith
  · simp [rotZ, Matrix.det_fin_three]; nlinarith

theorem rotX_add (α β : ℝ) : rotX α * rotX β = rotX (α + β) := by
  ext i j; fin_cases i <;> fin_cases j <;>
    simp [rotX, Matrix.mul_apply, Fin.sum_univ_succ, Real.cos_add, Real.sin_add] <;> ring

theorem rotY_add (α β : ℝ) : rotY α * rotY β = rotY (α + β) := by
  ext i j; fin_cases i <;> fin_cases j <;>
    simp [rotY, Matrix.mul_apply, Fin.sum_univ_succ, Real.cos_add, Real.sin_add] <;> ring

theorem rotZ_add (α β : ℝ) : rotZ α * rotZ β = rotZ (α + β) := by
  ext i j; fin_cases i <;> fin_cases j <;>
    simp [rotZ, Matrix.mul_apply, Fin.sum_univ_succ, Real.cos_add, Real.sin_add] <;> ring

theorem rotX_zero : rotX 0 = 1 := by
  ext i j; fin_cases i <;> fin_cases j <;> simp [rotX]

theorem rotY_zero : rotY 0 = 1 := by
  ext i j; fin_cases i <;> fin_cases j <;> simp [rotY]

theorem rotZ_zero : rotZ 0 = 1 := by
  ext i j; fin_cases i <;> fin_cases j <;> simp [rotZ]

theorem rotX_neg (α : ℝ) : rotX (-α) = (rotX α)ᵀ := by
  ext i j; fin_cases i <;> fin_cases j <;> simp [rotX]

theorem rotY_neg (α : ℝ) : rotY (-α) = (rotY α)ᵀ := by
  ext i j; fin_cases i <;> fin_cases j <;> simp [rotY]

theorem rotZ_neg (α : ℝ) : rotZ (-α) = (rotZ α)ᵀ := by
  ext i j; fin_cases i <;> fin_cases j <;> simp [rotZ]

theorem poseX_eq (α x y z : ℝ) : poseX α x y z = mkTf (rotX α) ![x, y, z] := by
  ext i j; fin_cases i <;> fin_cases j <;> rfl

theorem poseY_eq (α x y z : ℝ) : poseY α x y z = mkTf (rotY α) ![x, y, z] := by
  ext i j; fin_cases i <;> fin_cases j <;> rfl

theorem poseZ_eq (α x y z : ℝ) : poseZ α x y z = mkTf (rotZ α) ![x, y, z] := by
  ext i j; fin_cases i <;> fin_cases j <;> rfl

theorem translation_eq (x y z : ℝ) : translation x y z = mkTf 1 ![x, y, z] := by
  ext i j; fin_cases i <;> fin_cases j <;> simp [translation, mkTf]

theorem tfInverse_eq (T : M4) :
    tfInverse T = mkTf (rotPart T)ᵀ (-((rotPart T)ᵀ *ᵥ posPart T)) := by
  have h : rotPart (setRot (1 : M4) (rotPart T)ᵀ) = (rotPart T)ᵀ := by
    ext i j; fin_cases i <;> fin_cases j <;> rfl
  simp only [tfInverse, h, Matrix.neg_mulVec]
  ext i j; fin_cases i <;> fin_cases j <;> simp [setPos, setRot, mkTf]

theorem tfInverse_rigid {T : M4} (h : IsRot (rotPart T)) : IsRigid (tfInverse T) := by
  rw [tfInverse_eq]; exact isRigid_mkTf.2 h.transpose

theorem tfInverse_mul {T : M4} (h : IsRigid T) : tfInverse T * T = 1 := by
  obtain ⟨R, p, hR, rfl⟩ := h.exists_mk
  rw [tfInverse_eq, mkTf_mul, ← mkTf_one]
  simp [hR.1]

theorem mul_tfInverse {T : M4} (h : IsRigid T) : T * tfInverse T = 1 :=
  mul_eq_one_comm.mp (tfInverse_mul h)

theorem tfInverse_invol {T : M4} (h : IsRigid T) : tfInverse (tfInverse T) = T := by
  have h1 := tfInverse_mul (tfInverse_rigid h.1)
  calc tfInverse (tfInverse T) = tfInverse (tfInverse T) * (tfInverse T * T) := by
        rw [tfInverse_mul h, mul_one]
    _ = T := by rw [← mul_assoc, h1, one_mul]

theorem tfInverse_mul_rev {S T : M4} (hS : IsRigid S) (hT : IsRigid T) :
    tfInverse (S * T) = tfInverse T * tfInverse S := by
  have h1 := tfInverse_mul (hS.mul hT)
  calc tfInverse (S * T) = tfInverse (S * T) * (S * ((T * tfInverse T) * tfInverse S)) := by
        rw [mul_tfInverse hT, one_mul, mul_tfInverse hS, mul_one]
    _ = (tfInverse (S * T) * (S * T)) * (tfInverse T * tfInverse S) := by
        simp only [mul_assoc]
    _ = _ := by rw [h1, one_mul]

end Verif.Util
