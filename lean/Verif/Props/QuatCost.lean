import Verif.Model.QuatCost
import Mathlib.Geometry.Euclidean.Angle.Unoriented.Basic
import Mathlib.Geometry.Euclidean.Angle.Unoriented.TriangleInequality
import Mathlib.Analysis.InnerProductSpace.PiL2

/-!
# C87: the quaternion cost of `acrobotics/pygraph.py`

The cost between two unit quaternions is half the angle of the rotation that takes one orientation
to the other, and it is a distance between orientations.
-/

set_option linter.unusedSectionVars false

namespace Verif.Props

open Verif Verif.QuatCost Matrix

/-- A quaternion of length one. -/
def UnitQuat (q : Quat) : Prop := q.norm2 = 1

/-- The quaternion with all signs changed, which stands for the same orientation. -/
def negQuat (q : Quat) : Quat := ⟨-q.w, -q.x, -q.y, -q.z⟩

theorem normalise_unit {q : Quat} (h : UnitQuat q) : q.normalise = q := by
  unfold Quat.normalise
  rw [if_pos]
  rw [h]
  norm_num

theorem dot_abs_le {p q : Quat} (hp : UnitQuat p) (hq : UnitQuat q) : |dot p q| ≤ 1 := by
  unfold UnitQuat Quat.norm2 at hp hq
  unfold dot
  rw [abs_le]
  constructor
  · nlinarith [sq_nonneg (p.w + q.w), sq_nonneg (p.x + q.x), sq_nonneg (p.y + q.y),
      sq_nonneg (p.z + q.z)]
  · nlinarith [sq_nonneg (p.w - q.w), sq_nonneg (p.x - q.x), sq_nonneg (p.y - q.y),
      sq_nonneg (p.z - q.z)]

theorem cost_unit {p q : Quat} (hp : UnitQuat p) (hq : UnitQuat q) :
    costFunction p q = Real.arccos |dot p q| := by
  unfold costFunction
  rw [min_eq_left (dot_abs_le hp hq)]

theorem cos_cost {p q : Quat} (hp : UnitQuat p) (hq : UnitQuat q) :
    Real.cos (costFunction p q) = |dot p q| := by
  rw [cost_unit hp hq]
  exact Real.cos_arccos (by linarith [abs_nonneg (dot p q)]) (dot_abs_le hp hq)

theorem dot_one_iff {p q : Quat} (hp : UnitQuat p) (hq : UnitQuat q) :
    |dot p q| = 1 ↔ p = q ∨ p = negQuat q := by
  unfold UnitQuat Quat.norm2 at hp hq
  unfold dot
  constructor
  · intro h
    rcases (abs_eq (by norm_num : (0 : ℝ) ≤ 1)).1 h with h | h
    · left
      have key : (p.w - q.w) ^ 2 + (p.x - q.x) ^ 2 + (p.y - q.y) ^ 2 + (p.z - q.z) ^ 2 = 0 := by
        nlinarith
      have e1 : p.w - q.w = 0 := by
        nlinarith [sq_nonneg (p.w - q.w), sq_nonneg (p.x - q.x), sq_nonneg (p.y - q.y),
          sq_nonneg (p.z - q.z)]
      have e2 : p.x - q.x = 0 := by
        nlinarith [sq_nonneg (p.w - q.w), sq_nonneg (p.x - q.x), sq_nonneg (p.y - q.y),
          sq_nonneg (p.z - q.z)]
      have e3 : p.y - q.y = 0 := by
        nlinarith [sq_nonneg (p.w - q.w), sq_nonneg (p.x - q.x), sq_nonneg (p.y - q.y),
          sq_nonneg (p.z - q.z)]
      have e4 : p.z - q.z = 0 := by
        nlinarith [sq_nonneg (p.w - q.w), sq_nonneg (p.x - q.x), sq_nonneg (p.y - q.y),
          sq_nonneg (p.z - q.z)]
      ext <;> linarith
    · right
      have key : (p.w + q.w) ^ 2 + (p.x + q.x) ^ 2 + (p.y + q.y) ^ 2 + (p.z + q.z) ^ 2 = 0 := by
        nlinarith
      have e1 : p.w + q.w = 0 := by
        nlinarith [sq_nonneg (p.w + q.w), sq_nonneg (p.x + q.x), sq_nonneg (p.y + q.y),
          sq_nonneg (p.z + q.z)]
      have e2 : p.x + q.x = 0 := by
        nlinarith [sq_nonneg (p.w + q.w), sq_nonneg (p.x + q.x), sq_nonneg (p.y + q.y),
          sq_nonneg (p.z + q.z)]
      have e3 : p.y + q.y = 0 := by
        nlinarith [sq_nonneg (p.w + q.w), sq_nonneg (p.x + q.x), sq_nonneg (p.y + q.y),
          sq_nonneg (p.z + q.z)]
      have e4 : p.z + q.z = 0 := by
        nlinarith [sq_nonneg (p.w + q.w), sq_nonneg (p.x + q.x), sq_nonneg (p.y + q.y),
          sq_nonneg (p.z + q.z)]
      ext <;> simp only [negQuat] <;> linarith
  · rintro (rfl | rfl)
    · rw [show p.w * p.w + p.x * p.x + p.y * p.y + p.z * p.z = 1 by nlinarith]; simp
    · simp only [negQuat]
      rw [show -q.w * q.w + -q.x * q.x + -q.y * q.y + -q.z * q.z = -1 by nlinarith]; simp

/-- The trace of the rotation from one orientation to the other. -/
theorem trace_rotation {p q : Quat} (hp : UnitQuat p) (hq : UnitQuat q) :
    (p.rotationMatrixᵀ * q.rotationMatrix).trace = 4 * dot p q ^ 2 - 1 := by
  unfold Quat.rotationMatrix
  rw [normalise_unit hp, normalise_unit hq]
  unfold UnitQuat Quat.norm2 at hp hq
  have h1 : (p.w ^ 2 + p.x ^ 2 + p.y ^ 2 + p.z ^ 2) * (q.w ^ 2 + q.x ^ 2 + q.y ^ 2 + q.z ^ 2) = 1 := by
    rw [hp, hq]; norm_num
  simp [Matrix.trace, Matrix.mul_apply, Fin.sum_univ_succ, dot]
  linear_combination (-1) * h1

theorem rotation_transpose_mul {q : Quat} (hq : UnitQuat q) :
    q.rotationMatrixᵀ * q.rotationMatrix = 1 := by
  unfold Quat.rotationMatrix
  rw [normalise_unit hq]
  unfold UnitQuat Quat.norm2 at hq
  have h1 : (q.w ^ 2 + q.x ^ 2 + q.y ^ 2 + q.z ^ 2) ^ 2 = 1 := by rw [hq]; norm_num
  ext i j
  fin_cases i <;> fin_cases j <;> simp [Matrix.mul_apply, Fin.sum_univ_succ] <;>
    first
      | linear_combination h1
      | ring

/-- Two unit quaternions describe the same orientation exactly when they agree up to sign. -/
theorem same_rotation_iff {p q : Quat} (hp : UnitQuat p) (hq : UnitQuat q) :
    p.rotationMatrix = q.rotationMatrix ↔ |dot p q| = 1 := by
  constructor
  · intro h
    have h1 := trace_rotation hp hq
    rw [← h, rotation_transpose_mul hp] at h1
    have h2 : (Matrix.trace (1 : M3)) = 3 := by simp [Matrix.trace]
    rw [h2] at h1
    have h3 : dot p q ^ 2 = 1 := by linarith
    exact (pow_eq_one_iff_of_nonneg (abs_nonneg _) two_ne_zero).1 (by rw [sq_abs]; exact h3)
  · intro h
    rcases (dot_one_iff hp hq).1 h with rfl | rfl
    · rfl
    · unfold Quat.rotationMatrix
      rw [normalise_unit hp, normalise_unit hq]
      ext i j
      fin_cases i <;> fin_cases j <;> simp [negQuat]

/-- The quaternion as a vector of four numbers. -/
noncomputable def quatVec (q : Quat) : EuclideanSpace ℝ (Fin 4) := !₂[q.w, q.x, q.y, q.z]

theorem inner_quatVec (p q : Quat) : inner ℝ (quatVec p) (quatVec q) = dot p q := by
  simp [quatVec, dot, EuclideanSpace.inner_eq_star_dotProduct, dotProduct, Fin.sum_univ_succ]
  ring

theorem norm_quatVec {q : Quat} (h : UnitQuat q) : ‖quatVec q‖ = 1 := by
  have h1 : inner ℝ (quatVec q) (quatVec q) = ‖quatVec q‖ ^ 2 := real_inner_self_eq_norm_sq _
  rw [inner_quatVec] at h1
  unfold UnitQuat Quat.norm2 at h
  have h2 : dot q q = 1 := by unfold dot; nlinarith
  rw [h2] at h1
  exact (pow_eq_one_iff_of_nonneg (norm_nonneg _) two_ne_zero).1 h1.symm

theorem angle_quatVec {p q : Quat} (hp : UnitQuat p) (hq : UnitQuat q) :
    InnerProductGeometry.angle (quatVec p) (quatVec q) = Real.arccos (dot p q) := by
  unfold InnerProductGeometry.angle
  rw [inner_quatVec, norm_quatVec hp, norm_quatVec hq]
  norm_num

theorem neg_unit {q : Quat} (h : UnitQuat q) : UnitQuat (negQuat q) := by
  unfold UnitQuat Quat.norm2 negQuat at *
  linarith [h, neg_sq q.w, neg_sq q.x, neg_sq q.y, neg_sq q.z]

theorem dot_neg (p q : Quat) : dot p (negQuat q) = -dot p q := by
  unfold dot negQuat; ring

theorem neg_dot (p q : Quat) : dot (negQuat p) q = -dot p q := by
  unfold dot negQuat; ring

/-- The cost is the angle to one of the two quaternions of the second orientation. -/
theorem cost_angle {p q : Quat} (hp : UnitQuat p) (hq : UnitQuat q) :
    ∃ s, (s = q ∨ s = negQuat q) ∧ UnitQuat s ∧
      costFunction p q = InnerProductGeometry.angle (quatVec p) (quatVec s) := by
  rcases le_total 0 (dot p q) with h | h
  · exact ⟨q, .inl rfl, hq, by rw [cost_unit hp hq, angle_quatVec hp hq, abs_of_nonneg h]⟩
  · exact ⟨negQuat q, .inr rfl, neg_unit hq, by
      rw [cost_unit hp hq, angle_quatVec hp (neg_unit hq), abs_of_nonpos h, dot_neg]⟩

theorem cost_le_angle {p q : Quat} (hp : UnitQuat p) (hq : UnitQuat q) :
    costFunction p q ≤ InnerProductGeometry.angle (quatVec p) (quatVec q) := by
  rw [cost_unit hp hq, angle_quatVec hp hq]
  exact Real.antitone_arccos (le_abs_self _)

theorem cost_neg_left (p q : Quat) : costFunction (negQuat p) q = costFunction p q := by
  unfold costFunction; rw [neg_dot, abs_neg]

theorem cost_neg_right (p q : Quat) : costFunction p (negQuat q) = costFunction p q := by
  unfold costFunction; rw [dot_neg, abs_neg]

/-- C87, for arbitrary arrays of four numbers: the cost is symmetric, lies between 0 and `π/2`, and
does not depend on the sign of either quaternion. -/
theorem C87_cost_basic (p q : Quat) :
    0 ≤ costFunction p q ∧ costFunction p q ≤ Real.pi / 2 ∧ costFunction p q = costFunction q p ∧
    costFunction (negQuat p) q = costFunction p q ∧
    costFunction p (negQuat q) = costFunction p q := by
  refine ⟨Real.arccos_nonneg _, ?_, ?_, cost_neg_left p q, cost_neg_right p q⟩
  · exact Real.arccos_le_pi_div_two.2 (le_min (abs_nonneg _) zero_le_one)
  · unfold costFunction dot
    congr 3
    ring

/-- C87. For unit quaternions the cost is half the angle of the rotation between the two
orientations: that rotation has trace `1 + 2 cos (2 c)`, and twice the cost is at most `π`.  It is
zero exactly when the orientations are the same, and it satisfies the triangle inequality. -/
theorem C87_cost_is_half_angle (p q r : Quat) (hp : UnitQuat p) (hq : UnitQuat q)
    (hr : UnitQuat r) :
    (p.rotationMatrixᵀ * q.rotationMatrix).trace = 1 + 2 * Real.cos (2 * costFunction p q) ∧
    0 ≤ 2 * costFunction p q ∧ 2 * costFunction p q ≤ Real.pi ∧
    (costFunction p q = 0 ↔ p.rotationMatrix = q.rotationMatrix) ∧
    costFunction p r ≤ costFunction p q + costFunction q r := by
  obtain ⟨h0, h1, _⟩ := C87_cost_basic p q
  refine ⟨?_, by linarith, by linarith, ?_, ?_⟩
  · rw [trace_rotation hp hq, Real.cos_two_mul, cos_cost hp hq, sq_abs]
    ring
  · rw [same_rotation_iff hp hq, cost_unit hp hq, Real.arccos_eq_zero]
    exact ⟨fun h => le_antisymm (dot_abs_le hp hq) h, fun h => h.ge⟩
  · obtain ⟨s, hs, hsu, e1⟩ := cost_angle hp hq
    obtain ⟨t, ht, htu, e2⟩ := cost_angle hsu hr
    have e3 : costFunction s r = costFunction q r := by
      rcases hs with rfl | rfl
      · rfl
      · exact cost_neg_left q r
    have e4 : costFunction p t = costFunction p r := by
      rcases ht with rfl | rfl
      · rfl
      · exact cost_neg_right p r
    rw [← e3, e2, e1, ← e4]
    exact (cost_le_angle hp htu).trans
      (InnerProductGeometry.angle_le_angle_add_angle _ _ _)

/-- C87: turning both orientations by the same unit quaternion does not change the cost. -/
theorem C87_cost_invariant (u p q : Quat) (hu : UnitQuat u) :
    costFunction (u.mul p) (u.mul q) = costFunction p q ∧
    costFunction (p.mul u) (q.mul u) = costFunction p q := by
  unfold UnitQuat Quat.norm2 at hu
  unfold costFunction
  have h1 : dot (u.mul p) (u.mul q) = dot p q := by
    have : dot (u.mul p) (u.mul q) = (u.w ^ 2 + u.x ^ 2 + u.y ^ 2 + u.z ^ 2) * dot p q := by
      unfold dot Quat.mul; ring
    rw [this, hu, one_mul]
  have h2 : dot (p.mul u) (q.mul u) = dot p q := by
    have : dot (p.mul u) (q.mul u) = (u.w ^ 2 + u.x ^ 2 + u.y ^ 2 + u.z ^ 2) * dot p q := by
      unfold dot Quat.mul; ring
    rw [this, hu, one_mul]
  rw [h1, h2]
  exact ⟨rfl, rfl⟩

/-- C87: the array version computes the same costs, one for every pair. -/
theorem C87_cost_matrix (c1 c2 : List Quat) (i j : Nat) (p q : Quat) (hp : c1[i]? = some p)
    (hq : c2[j]? = some q) :
    ((costMatrix c1 c2)[i]?.bind fun row => row[j]?) = some (costFunction p q) := by
  unfold costMatrix costFunction
  simp [hp, hq]

/-- C87: a quarter turn about z costs `π/4`. -/
example : UnitQuat ⟨1, 0, 0, 0⟩ ∧ UnitQuat ⟨Real.cos (Real.pi / 4), 0, 0, Real.sin (Real.pi / 4)⟩ ∧
    costFunction ⟨1, 0, 0, 0⟩ ⟨Real.cos (Real.pi / 4), 0, 0, Real.sin (Real.pi / 4)⟩
      = Real.pi / 4 := by
  have hu : UnitQuat ⟨1, 0, 0, 0⟩ := by unfold UnitQuat Quat.norm2; norm_num
  have hv : UnitQuat ⟨Real.cos (Real.pi / 4), 0, 0, Real.sin (Real.pi / 4)⟩ := by
    unfold UnitQuat Quat.norm2
    have := Real.sin_sq_add_cos_sq (Real.pi / 4)
    simp only
    linarith
  refine ⟨hu, hv, ?_⟩
  rw [cost_unit hu hv]
  have hpos : 0 ≤ Real.cos (Real.pi / 4) := by rw [Real.cos_pi_div_four]; positivity
  unfold dot
  simp only [one_mul, zero_mul, add_zero]
  rw [abs_of_nonneg hpos, Real.arccos_cos] <;> linarith [Real.pi_pos]

end Verif.Props
