import Verif.Proofs.Util

/-! # C20, C21: matrix helpers -/

namespace Verif.Props

open Matrix Verif.Util

/-- The `i`-th unit vector. -/
def unit3 (i : Fin 3) : V3 := Pi.single i 1

/-- `R` is the right-handed rotation by `α` about the `i`-th axis: a proper rotation that fixes the
axis and turns the next axis (cyclically) towards the one after it. -/
def IsAxisRot (i : Fin 3) (α : ℝ) (R : M3) : Prop :=
  IsRot R ∧ R *ᵥ unit3 i = unit3 i ∧
    R *ᵥ unit3 (i + 1) = Real.cos α • unit3 (i + 1) + Real.sin α • unit3 (i + 2)

/-- At most one matrix is the rotation by `α` about an axis, so the property says what the matrix
is. -/
theorem C20_axis_rot_unique {i : Fin 3} {α : ℝ} {R S : M3} (hR : IsAxisRot i α R)
    (hS : IsAxisRot i α S) : R = S := by
  -- the third column is the cross product of the others; we use the cofactor form of `det = 1`
  have key : ∀ {Q : M3}, IsRot Q → ∀ a b : Fin 3,
      Q a b = Q (a + 1) (b + 1) * Q (a + 2) (b + 2) - Q (a + 1) (b + 2) * Q (a + 2) (b + 1) := by
    intro Q hQ a b
    have hadj : Qᵀ = Q.adjugate := by
      have h1 : Q.adjugate * Q = 1 := by rw [Matrix.adjugate_mul, hQ.2, one_smul]
      calc Qᵀ = (Q.adjugate * Q) * Qᵀ := by rw [h1, Matrix.one_mul]
        _ = Q.adjugate := by rw [Matrix.mul_assoc, hQ.mul_transpose, Matrix.mul_one]
    have := congrFun (congrFun hadj b) a
    rw [Matrix.transpose_apply, Matrix.adjugate_fin_three] at this
    rw [this]
    fin_cases a <;> fin_cases b <;> simp <;> ring
  have c1 : ∀ a, R a i = S a i := fun a => by
    have := congrFun (hR.2.1.trans hS.2.1.symm) a
    simpa [unit3] using this
  have c2 : ∀ a, R a (i + 1) = S a (i + 1) := fun a => by
    have := congrFun (hR.2.2.trans hS.2.2.symm) a
    simpa [unit3] using this
  have c3 : ∀ a, R a (i + 2) = S a (i + 2) := fun a => by
    have e1 : i + 2 + 1 = i := by fin_cases i <;> rfl
    have e2 : i + 2 + 2 = i + 1 := by fin_cases i <;> rfl
    rw [key hR.1, key hS.1, e1, e2, c1, c1, c2, c2]
  ext a b
  have : b = i ∨ b = i + 1 ∨ b = i + 2 := by fin_cases i <;> fin_cases b <;> simp
  rcases this with rfl | rfl | rfl
  · exact c1 a
  · exact c2 a
  · exact c3 a

/-- **C20**, rotations.  `rot_x/y/z(α)` is the rotation by `α` about its axis. -/
theorem C20_rot (α : ℝ) :
    IsAxisRot 0 α (rotX α) ∧ IsAxisRot 1 α (rotY α) ∧ IsAxisRot 2 α (rotZ α) := by
  refine ⟨⟨rotX_isRot α, ?_, ?_⟩, ⟨rotY_isRot α, ?_, ?_⟩, ⟨rotZ_isRot α, ?_, ?_⟩⟩ <;>
    (ext a; fin_cases a <;> simp [unit3, rotX, rotY, rotZ])

/-- **C20**, composition: angles add up, and the negated angle gives the inverse. -/
theorem C20_compose (α β : ℝ) :
    (rotX α * rotX β = rotX (α + β) ∧ rotX α * rotX (-α) = 1) ∧
    (rotY α * rotY β = rotY (α + β) ∧ rotY α * rotY (-α) = 1) ∧
    (rotZ α * rotZ β = rotZ (α + β) ∧ rotZ α * rotZ (-α) = 1) := by
  refine ⟨⟨rotX_add α β, ?_⟩, ⟨rotY_add α β, ?_⟩, ⟨rotZ_add α β, ?_⟩⟩
  · rw [rotX_add, add_neg_cancel, rotX_zero]
  · rw [rotY_add, add_neg_cancel, rotY_zero]
  · rw [rotZ_add, add_neg_cancel, rotZ_zero]

/-- **C20**, poses: each pose helper is a rigid motion with that rotation and that translation. -/
theorem C20_pose (α x y z : ℝ) :
    (IsRigid (poseX α x y z) ∧ ∀ v, act (poseX α x y z) v = rotX α *ᵥ v + ![x, y, z]) ∧
    (IsRigid (poseY α x y z) ∧ ∀ v, act (poseY α x y z) v = rotY α *ᵥ v + ![x, y, z]) ∧
    (IsRigid (poseZ α x y z) ∧ ∀ v, act (poseZ α x y z) v = rotZ α *ᵥ v + ![x, y, z]) ∧
    (IsRigid (translation x y z) ∧ ∀ v, act (translation x y z) v = v + ![x, y, z]) := by
  rw [poseX_eq, poseY_eq, poseZ_eq, translation_eq]
  refine ⟨⟨isRigid_mkTf.2 (rotX_isRot α), ?_⟩, ⟨isRigid_mkTf.2 (rotY_isRot α), ?_⟩,
    ⟨isRigid_mkTf.2 (rotZ_isRot α), ?_⟩, ⟨isRigid_mkTf.2 IsRot.one, ?_⟩⟩ <;> intro v <;> simp [act]

/-- **C21**, inverse: on a rigid motion `tf_inverse` returns a rigid motion that undoes it on both
sides. -/
theorem C21_inverse {T : M4} (h : IsRigid T) :
    IsRigid (tfInverse T) ∧ T * tfInverse T = 1 ∧ tfInverse T * T = 1 :=
  ⟨tfInverse_rigid h.1, mul_tfInverse h, tfInverse_mul h⟩

/-- **C21**, algebra: an involution that reverses products. -/
theorem C21_algebra {S T : M4} (hS : IsRigid S) (hT : IsRigid T) :
    tfInverse (tfInverse T) = T ∧ tfInverse (S * T) = tfInverse T * tfInverse S :=
  ⟨tfInverse_invol hT, tfInverse_mul_rev hS hT⟩

/-- **C21**, only the first three rows are read. -/
theorem C21_reads_three_rows (S T : M4) (h : ∀ i : Fin 3, S i.castSucc = T i.castSucc) :
    tfInverse S = tfInverse T := by
  have h1 : rotPart S = rotPart T := by ext i j; simp [rotPart, h]
  have h2 : posPart S = posPart T := by ext i; simp [posPart, h]
  rw [tfInverse_eq, tfInverse_eq, h1, h2]

/-- Applied to points: the inverse motion takes the image of a point back. -/
theorem C21_act {T : M4} (h : IsRigid T) (x : V3) : act (tfInverse T) (act T x) = x := by
  rw [← act_mul (tfInverse_rigid h.1).2 h.2, tfInverse_mul h, act_one]

/-- A non-trivial rigid motion: half a turn about z with an offset. -/
example : IsRigid (poseZ Real.pi 1 2 3) ∧ tfInverse (poseZ Real.pi 1 2 3) ≠ poseZ Real.pi 1 2 3 := by
  refine ⟨((C20_pose Real.pi 1 2 3).2.2.1).1, fun h => ?_⟩
  have := congrFun (congrFun h 2) 3
  rw [tfInverse_eq, poseZ_eq, rotPart_mkTf, posPart_mkTf] at this
  simp [rotZ, mkTf, Matrix.mulVec, dotProduct, Fin.sum_univ_succ] at this
  norm_num at this

/-- C20: a case of `C20_axis_rot_unique`.  A quarter turn about z, written as a matrix. -/
example : (!![0, -1, 0; 1, 0, 0; 0, 0, 1] : M3) = rotZ (Real.pi / 2) := by
  refine C20_axis_rot_unique (i := 2) (α := Real.pi / 2) ⟨⟨?_, ?_⟩, ?_, ?_⟩ (C20_rot _).2.2
  · ext a b; fin_cases a <;> fin_cases b <;> simp [Matrix.mul_apply, Fin.sum_univ_three]
  · simp [Matrix.det_fin_three]
  · ext a; fin_cases a <;> simp [unit3, Matrix.mulVec, dotProduct, Fin.sum_univ_three]
  · ext a; fin_cases a <;> simp [unit3, Matrix.mulVec, dotProduct, Fin.sum_univ_three]

/-- C21: cases of `C21_inverse`, `C21_algebra` and `C21_act`. -/
example : poseZ Real.pi 1 2 3 * tfInverse (poseZ Real.pi 1 2 3) = 1 ∧
    tfInverse (poseX 1 4 5 6 * poseZ Real.pi 1 2 3) =
      tfInverse (poseZ Real.pi 1 2 3) * tfInverse (poseX 1 4 5 6) ∧
    act (tfInverse (poseZ Real.pi 1 2 3)) (act (poseZ Real.pi 1 2 3) ![7, 8, 9]) = ![7, 8, 9] := by
  have hz := ((C20_pose Real.pi 1 2 3).2.2.1).1
  exact ⟨(C21_inverse hz).2.1, (C21_algebra ((C20_pose 1 4 5 6).1).1 hz).2, C21_act hz _⟩

/-- C21: a case of `C21_reads_three_rows`, with a last row that is not that of a motion. -/
example (r s t : Fin 4 → ℝ) : tfInverse (Matrix.of ![r, s, t, ![13, 14, 15, 16]]) =
    tfInverse (Matrix.of ![r, s, t, ![0, 0, 0, 1]]) :=
  C21_reads_three_rows _ _ (by simp [Fin.forall_fin_succ, funext_iff])

end Verif.Props
