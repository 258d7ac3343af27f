import Verif.Model.Quat
import Verif.Proofs.Util
import Mathlib.Tactic.LinearCombination
import Mathlib.Tactic.NormNum
import Mathlib.Tactic.Positivity
import Mathlib.Tactic.FieldSimp

/-! # Lemmas on quaternions and `arctan2` -/

namespace Verif

open Matrix

theorem cos_arctan2 {x y : ℝ} (h : x ≠ 0 ∨ y ≠ 0) :
    Real.cos (arctan2 y x) = x / Real.sqrt (x ^ 2 + y ^ 2) := by
  have hz : (⟨x, y⟩ : ℂ) ≠ 0 := by
    intro h0
    have h1 := congrArg Complex.re h0
    have h2 := congrArg Complex.im h0
    simp at h1 h2
    rcases h with h | h <;> contradiction
  rw [arctan2, Complex.cos_arg hz, Complex.norm_eq_sqrt_sq_add_sq]

theorem sin_arctan2 (x y : ℝ) :
    Real.sin (arctan2 y x) = y / Real.sqrt (x ^ 2 + y ^ 2) := by
  rw [arctan2, Complex.sin_arg, Complex.norm_eq_sqrt_sq_add_sq]

theorem arctan2_zero : arctan2 0 0 = 0 := by
  have : (⟨0, 0⟩ : ℂ) = 0 := rfl
  rw [arctan2, this, Complex.arg_zero]

/-- `arctan2` recovers the angle of a scaled cosine and sine. -/
theorem arctan2_mul {r θ : ℝ} (hr : 0 < r) (h1 : -Real.pi < θ) (h2 : θ ≤ Real.pi) :
    arctan2 (r * Real.sin θ) (r * Real.cos θ) = θ := by
  have := Complex.arg_mul_cos_add_sin_mul_I hr ⟨h1, h2⟩
  conv_rhs => rw [← this]
  rw [arctan2]
  congr 1
  apply Complex.ext <;> simp [Complex.cos_ofReal_re, Complex.sin_ofReal_re]

theorem arctan2_mem (y x : ℝ) : -Real.pi < arctan2 y x ∧ arctan2 y x ≤ Real.pi :=
  ⟨Complex.neg_pi_lt_arg _, Complex.arg_le_pi _⟩

namespace Quat

theorem norm2_mul (p q : Quat) : (p.mul q).norm2 = p.norm2 * q.norm2 := by
  simp only [norm2, mul]; ring

theorem normalise_of_unit {q : Quat} (h : q.norm2 = 1) : q.normalise = q := by
  rw [normalise, if_pos (by rw [h]; norm_num)]

/-- Normalising does what its name says, away from the tolerance band. -/
theorem norm2_normalise {q : Quat} (h : 0 < q.norm2) (ht : ¬ |1 - q.norm2| < 1 / 10 ^ 14) :
    q.normalise.norm2 = 1 := by
  rw [normalise, if_neg ht, if_pos h, norm2]
  have hs := Real.sq_sqrt h.le
  have hs0 : Real.sqrt q.norm2 ≠ 0 := (Real.sqrt_pos.2 h).ne'
  simp only [div_pow, hs, ← add_div]
  rw [div_eq_one_iff_eq h.ne']; rfl

theorem rotationMatrix_isRot {q : Quat} (h : q.norm2 = 1) : IsRot q.rotationMatrix := by
  have hn := h
  simp only [norm2] at h
  constructor
  · ext i j
    fin_cases i <;> fin_cases j <;>
      simp [rotationMatrix, normalise_of_unit hn, Matrix.mul_apply, Fin.sum_univ_succ] <;>
      first
        | linear_combination (q.w ^ 2 + q.x ^ 2 + q.y ^ 2 + q.z ^ 2 + 1) * h
        | ring
  · simp [rotationMatrix, normalise_of_unit hn, Matrix.det_fin_three]
    linear_combination ((q.w ^ 2 + q.x ^ 2 + q.y ^ 2 + q.z ^ 2) ^ 2 +
      (q.w ^ 2 + q.x ^ 2 + q.y ^ 2 + q.z ^ 2) + 1) * h

theorem rotationMatrix_mul {p q : Quat} (hp : p.norm2 = 1) (hq : q.norm2 = 1) :
    (p.mul q).rotationMatrix = p.rotationMatrix * q.rotationMatrix := by
  have hpq : (p.mul q).norm2 = 1 := by rw [norm2_mul, hp, hq, one_mul]
  simp only [rotationMatrix, normalise_of_unit hp, normalise_of_unit hq, normalise_of_unit hpq]
  ext i j
  fin_cases i <;> fin_cases j <;>
    simp [mul, Matrix.mul_apply, Fin.sum_univ_succ] <;> ring

theorem transformationMatrix_rigid {q : Quat} (h : q.norm2 = 1) :
    IsRigid q.transformationMatrix := isRigid_mkTf.2 (rotationMatrix_isRot h)

/-- Away from the gimbal lock the three angles of `yaw_pitch_roll` give the rotation back, with the
roll about x outermost. -/
theorem yawPitchRoll_spec {q : Quat} (h : q.norm2 = 1) (hg : |2 * (q.w * q.y + q.z * q.x)| < 1) :
    Util.rotX (q.yawPitchRoll 2) * (Util.rotY (q.yawPitchRoll 1) * Util.rotZ (q.yawPitchRoll 0))
      = q.rotationMatrix := by
  have hn := h
  simp only [norm2] at h
  set s := 2 * (q.w * q.y + q.z * q.x) with hs
  have hs1 : -1 < s ∧ s < 1 := abs_lt.1 hg
  have hc : 0 < Real.sqrt (1 - s ^ 2) := Real.sqrt_pos.2 (by nlinarith [hs1.1, hs1.2])
  have hc2 : Real.sqrt (1 - s ^ 2) ^ 2 = 1 - s ^ 2 := Real.sq_sqrt (by nlinarith [hs1.1, hs1.2])
  set c := Real.sqrt (1 - s ^ 2) with hcdef
  -- first row and last column have length `c` beside the sine
  have hrow : (1 - 2 * (q.y ^ 2 + q.z ^ 2)) ^ 2 + (2 * (q.w * q.z - q.x * q.y)) ^ 2 = 1 - s ^ 2 := by
    rw [hs]
    linear_combination (4 * (q.y ^ 2 + q.z ^ 2)) * h
  have hcol : (1 - 2 * (q.x ^ 2 + q.y ^ 2)) ^ 2 + (2 * (q.w * q.x - q.y * q.z)) ^ 2 = 1 - s ^ 2 := by
    rw [hs]
    linear_combination (4 * (q.x ^ 2 + q.y ^ 2)) * h
  have hne : (1 - s ^ 2) ≠ 0 := by rw [← hc2]; positivity
  have nz : ∀ a b : ℝ, a ^ 2 + b ^ 2 = 1 - s ^ 2 → a ≠ 0 ∨ b ≠ 0 := by
    intro a b hab
    by_contra hcon
    push Not at hcon
    rw [hcon.1, hcon.2] at hab
    apply hne; rw [← hab]; ring
  have hcp : Real.cos (Real.arcsin s) = c := Real.cos_arcsin s
  have hsp : Real.sin (Real.arcsin s) = s := Real.sin_arcsin hs1.1.le hs1.2.le
  have hcy := cos_arctan2 (nz _ _ hrow)
  have hsy := sin_arctan2 (1 - 2 * (q.y ^ 2 + q.z ^ 2)) (2 * (q.w * q.z - q.x * q.y))
  have hcr := cos_arctan2 (nz _ _ hcol)
  have hsr := sin_arctan2 (1 - 2 * (q.x ^ 2 + q.y ^ 2)) (2 * (q.w * q.x - q.y * q.z))
  rw [hrow, ← hcdef] at hcy hsy
  rw [hcol, ← hcdef] at hcr hsr
  have e0 : q.yawPitchRoll 0 = arctan2 (2 * (q.w * q.z - q.x * q.y)) (1 - 2 * (q.y ^ 2 + q.z ^ 2)) := by
    simp [yawPitchRoll, normalise_of_unit hn]
  have e1 : q.yawPitchRoll 1 = Real.arcsin s := by
    simp [yawPitchRoll, normalise_of_unit hn, hs]
  have e2 : q.yawPitchRoll 2 = arctan2 (2 * (q.w * q.x - q.y * q.z)) (1 - 2 * (q.x ^ 2 + q.y ^ 2)) := by
    simp [yawPitchRoll, normalise_of_unit hn]
  have hc0 := hc.ne'
  have hA : 1 - 2 * (q.x ^ 2 + q.y ^ 2) = q.w ^ 2 - q.x ^ 2 - q.y ^ 2 + q.z ^ 2 := by linarith
  have hB : 1 - 2 * (q.y ^ 2 + q.z ^ 2) = q.w ^ 2 + q.x ^ 2 - q.y ^ 2 - q.z ^ 2 := by linarith
  rw [e0, e1, e2]
  ext i j
  fin_cases i <;> fin_cases j <;>
    simp [Util.rotX, Util.rotY, Util.rotZ, rotationMatrix, normalise_of_unit hn, Matrix.mul_apply,
      Fin.sum_univ_succ, hcp, hsp, hcy, hsy, hcr, hsr] <;> field_simp
  · linarith
  · ring
  · rw [hs]; ring
  · rw [hc2, hA, hB, hs]
    linear_combination (-((q.w ^ 2 - q.x ^ 2 - q.y ^ 2 + q.z ^ 2) * (q.w * q.z - q.x * q.y)) +
      (q.w ^ 2 + q.x ^ 2 + q.y ^ 2 + q.z ^ 2 + 1) * (q.x * q.y + q.w * q.z)) * h
  · rw [hc2, hA, hB, hs]
    linear_combination (-((q.w ^ 2 - q.x ^ 2 - q.y ^ 2 + q.z ^ 2) *
      (q.w ^ 2 + q.x ^ 2 - q.y ^ 2 - q.z ^ 2)) +
      (q.w ^ 2 + q.x ^ 2 + q.y ^ 2 + q.z ^ 2 + 1) *
        (q.w ^ 2 - q.x ^ 2 + q.y ^ 2 - q.z ^ 2)) * h
  · ring
  · rw [hc2, hA, hB, hs]
    linear_combination (-(2 ^ 2 * (q.w * q.x - q.y * q.z) * (q.w * q.z - q.x * q.y)) +
      (q.w ^ 2 + q.x ^ 2 + q.y ^ 2 + q.z ^ 2 + 1) * (2 * (q.x * q.z - q.w * q.y))) * h
  · rw [hc2, hA, hB, hs]
    linear_combination (-((q.w * q.x - q.y * q.z) * (q.w ^ 2 + q.x ^ 2 - q.y ^ 2 - q.z ^ 2)) +
      (q.w ^ 2 + q.x ^ 2 + q.y ^ 2 + q.z ^ 2 + 1) * (q.y * q.z + q.w * q.x)) * h
  · linarith

end Quat

end Verif
