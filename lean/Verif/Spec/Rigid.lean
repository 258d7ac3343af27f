import Mathlib.LinearAlgebra.Matrix.Notation
import Mathlib.LinearAlgebra.Matrix.Determinant.Basic
import Mathlib.LinearAlgebra.Matrix.NonsingularInverse
import Mathlib.Data.Real.Basic
import Mathlib.Tactic.Ring
import Mathlib.Tactic.FinCases

/-!
# Rigid motions as homogeneous 4 × 4 matrices

Independent of the program: what a rotation and a rigid motion are, how a motion acts on points.
-/

set_option linter.unusedSectionVars false

namespace Verif

open Matrix

abbrev M3 := Matrix (Fin 3) (Fin 3) ℝ
abbrev M4 := Matrix (Fin 4) (Fin 4) ℝ
abbrev V3 := Fin 3 → ℝ

/-- A proper rotation: orthogonal with determinant one. -/
def IsRot (R : M3) : Prop := Rᵀ * R = 1 ∧ R.det = 1

/-- `T[:3, :3]`. -/
def rotPart (T : M4) : M3 := Matrix.of fun i j => T i.castSucc j.castSucc

/-- `T[:3, 3]`. -/
def posPart (T : M4) : V3 := fun i => T i.castSucc 3

/-- A rigid motion: a rotation block, any translation, last row `0 0 0 1`. -/
def IsRigid (T : M4) : Prop := IsRot (rotPart T) ∧ T 3 = ![0, 0, 0, 1]

/-- The homogeneous matrix with rotation block `R` and translation `p`. -/
def mkTf (R : M3) (p : V3) : M4 :=
  !![R 0 0, R 0 1, R 0 2, p 0;
     R 1 0, R 1 1, R 1 2, p 1;
     R 2 0, R 2 1, R 2 2, p 2;
     0, 0, 0, 1]

/-- The image of the point `x` under the motion `T`. -/
def act (T : M4) (x : V3) : V3 := rotPart T *ᵥ x + posPart T

/-- Squared euclidean distance. -/
def dist2 (x y : V3) : ℝ := (x - y) ⬝ᵥ (x - y)

@[simp] theorem rotPart_mkTf (R : M3) (p : V3) : rotPart (mkTf R p) = R := by
  ext i j; fin_cases i <;> fin_cases j <;> rfl

@[simp] theorem posPart_mkTf (R : M3) (p : V3) : posPart (mkTf R p) = p := by
  ext i; fin_cases i <;> rfl

@[simp] theorem mkTf_last (R : M3) (p : V3) : mkTf R p 3 = ![0, 0, 0, 1] := rfl

theorem mkTf_parts {T : M4} (h : T 3 = ![0, 0, 0, 1]) : mkTf (rotPart T) (posPart T) = T := by
  ext i j
  fin_cases i
  case «3» => simpa using (congrFun h j).symm ▸ congrFun (mkTf_last (rotPart T) (posPart T)) j
  all_goals fin_cases j <;> rfl

theorem mkTf_mul (R S : M3) (p q : V3) :
    mkTf R p * mkTf S q = mkTf (R * S) (R *ᵥ q + p) := by
  ext i j
  fin_cases i <;> fin_cases j <;>
    simp [mkTf, Matrix.mul_apply, Fin.sum_univ_succ, Matrix.mulVec, dotProduct] <;> ring

theorem mkTf_one : mkTf 1 0 = 1 := by
  ext i j; fin_cases i <;> fin_cases j <;> simp [mkTf]

theorem mkTf_inj {R S : M3} {p q : V3} (h : mkTf R p = mkTf S q) : R = S ∧ p = q :=
  ⟨by simpa using congrArg rotPart h, by simpa using congrArg posPart h⟩

theorem IsRot.one : IsRot 1 := ⟨by simp, by simp⟩

theorem IsRot.mul {R S : M3} (hR : IsRot R) (hS : IsRot S) : IsRot (R * S) := by
  refine ⟨?_, by rw [Matrix.det_mul, hR.2, hS.2, one_mul]⟩
  rw [Matrix.transpose_mul, Matrix.mul_assoc, ← Matrix.mul_assoc Rᵀ, hR.1, Matrix.one_mul, hS.1]

theorem IsRot.mul_transpose {R : M3} (hR : IsRot R) : R * Rᵀ = 1 :=
  mul_eq_one_comm.mp hR.1

theorem IsRot.transpose {R : M3} (hR : IsRot R) : IsRot Rᵀ :=
  ⟨by rw [Matrix.transpose_transpose, hR.mul_transpose], by rw [Matrix.det_transpose, hR.2]⟩

theorem isRigid_mkTf {R : M3} {p : V3} : IsRigid (mkTf R p) ↔ IsRot R := by
  simp [IsRigid]

theorem IsRigid.exists_mk {T : M4} (h : IsRigid T) : ∃ R p, IsRot R ∧ T = mkTf R p :=
  ⟨_, _, h.1, (mkTf_parts h.2).symm⟩

theorem IsRigid.one : IsRigid 1 := by rw [← mkTf_one]; exact isRigid_mkTf.2 IsRot.one

theorem IsRigid.mul {S T : M4} (hS : IsRigid S) (hT : IsRigid T) : IsRigid (S * T) := by
  obtain ⟨R, p, hR, rfl⟩ := hS.exists_mk
  obtain ⟨R', p', hR', rfl⟩ := hT.exists_mk
  rw [mkTf_mul]; exact isRigid_mkTf.2 (hR.mul hR')

theorem rotPart_mul {S T : M4} (hS : S 3 = ![0, 0, 0, 1]) (hT : T 3 = ![0, 0, 0, 1]) :
    rotPart (S * T) = rotPart S * rotPart T := by
  conv_lhs => rw [← mkTf_parts hS, ← mkTf_parts hT, mkTf_mul]
  simp

theorem posPart_mul {S T : M4} (hS : S 3 = ![0, 0, 0, 1]) (hT : T 3 = ![0, 0, 0, 1]) :
    posPart (S * T) = act S (posPart T) := by
  conv_lhs => rw [← mkTf_parts hS, ← mkTf_parts hT, mkTf_mul]
  simp [act]

theorem act_mul {S T : M4} (hS : S 3 = ![0, 0, 0, 1]) (hT : T 3 = ![0, 0, 0, 1]) (x : V3) :
    act (S * T) x = act S (act T x) := by
  rw [act, rotPart_mul hS hT, posPart_mul hS hT, act, act, act, Matrix.mulVec_add,
    Matrix.mulVec_mulVec, add_assoc]

theorem act_one (x : V3) : act 1 x = x := by
  rw [← mkTf_one]; simp [act]

/-- A rotation keeps inner products. -/
theorem IsRot.dot {R : M3} (hR : IsRot R) (x y : V3) : (R *ᵥ x) ⬝ᵥ (R *ᵥ y) = x ⬝ᵥ y := by
  rw [Matrix.dotProduct_mulVec, Matrix.vecMul_mulVec, hR.1, Matrix.vecMul_one]

/-- A rigid motion keeps distances. -/
theorem IsRigid.dist2 {T : M4} (hT : IsRigid T) (x y : V3) :
    dist2 (act T x) (act T y) = dist2 x y := by
  have : act T x - act T y = rotPart T *ᵥ (x - y) := by
    simp [act, Matrix.mulVec_sub]
  rw [Verif.dist2, this, hT.1.dot, Verif.dist2]

end Verif
