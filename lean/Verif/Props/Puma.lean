import Verif.Props.Robots

/-!
# C104: the Puma of robots.py

The link parameters are those of a table in Craig's convention (robots.py:413-416 names the source),
used with the convention of `DHLink`.  In that convention the first link has no twist, so the first
two joints turn about the same vertical axis.
-/

set_option linter.unusedSectionVars false

namespace Verif.Props

open Matrix Verif.Geometry Verif.Kin Verif.Util

theorem puma_known (a3 a4 d1 d3 d4 : ℝ) : ∀ l ∈ (puma a3 a4 d1 d3 d4).links, l.Known := by
  intro l hl
  simp only [puma, Robot.new, List.mem_cons, List.not_mem_nil, or_false] at hl
  rcases hl with rfl | rfl | rfl | rfl | rfl | rfl <;> simp [Link.Known]

/-- A quarter turn back about x, a turn about z and a quarter turn about x: a turn about y. -/
theorem rotX_rotZ_rotX (t : ℝ) :
    rotX (-Real.pi / 2) * rotZ t = rotY t * rotX (-Real.pi / 2) ∧
    rotX (-Real.pi / 2) * rotX (-Real.pi / 2) = rotX Real.pi ∧
    rotX (-Real.pi / 2) * rotX (Real.pi / 2) = 1 := by
  have e1 : Real.sin (-Real.pi / 2) = -1 := by
    rw [neg_div, Real.sin_neg, Real.sin_pi_div_two]
  have e2 : Real.cos (-Real.pi / 2) = 0 := by
    rw [neg_div, Real.cos_neg, Real.cos_pi_div_two]
  refine ⟨?_, ?_, ?_⟩ <;>
    (ext i j; fin_cases i <;> fin_cases j <;>
      simp [rotX, rotY, rotZ, e1, e2, Matrix.mul_apply, Fin.sum_univ_succ])

/-- The two links of the upper arm and of the forearm, both about the same horizontal axis. -/
theorem puma_position (a3 a4 d1 d3 d4 q1 q2 q3 q4 q5 q6 : ℝ) :
    chain (puma a3 a4 d1 d3 d4).links [q1, q2, q3, q4, q5, q6] =
      mkTf (rotZ (q1 + q2) * rotY (q3 + q4) * rotX Real.pi * rotZ q5 * rotY q6)
        (rotZ (q1 + q2) *ᵥ ![a3 * Real.cos q3 + a4 * Real.cos (q3 + q4), d3 + d4,
          d1 - (a3 * Real.sin q3 + a4 * Real.sin (q3 + q4))]) := by
  have h : chain (puma a3 a4 d1 d3 d4).links [q1, q2, q3, q4, q5, q6] =
      (dhMat 0 0 d1 q1 * dhMat 0 (-Real.pi / 2) 0 q2) *
      (dhMat a3 0 d3 q3 * dhMat a4 (-Real.pi / 2) d4 q4) *
      (dhMat 0 (-Real.pi / 2) 0 q5 * dhMat 0 (Real.pi / 2) 0 q6) := by
    simp [chain, puma, Robot.new, Link.tf, mul_assoc]
  have e1 : Real.sin (-Real.pi / 2) = -1 := by
    rw [neg_div, Real.sin_neg, Real.sin_pi_div_two]
  have e2 : Real.cos (-Real.pi / 2) = 0 := by
    rw [neg_div, Real.cos_neg, Real.cos_pi_div_two]
  simp only [h, dhMat_eq, mkTf_mul, rotX_zero, mul_one]
  congr 1
  · have k := fun t => (rotX_rotZ_rotX t).1
    have k2 := (rotX_rotZ_rotX 0).2.1
    have k3 := (rotX_rotZ_rotX 0).2.2
    calc rotZ q1 * (rotZ q2 * rotX (-Real.pi / 2)) * (rotZ q3 * (rotZ q4 * rotX (-Real.pi / 2))) *
          (rotZ q5 * rotX (-Real.pi / 2) * (rotZ q6 * rotX (Real.pi / 2)))
        = (rotZ q1 * rotZ q2) * (rotX (-Real.pi / 2) * (rotZ q3 * rotZ q4)) * rotX (-Real.pi / 2) *
          rotZ q5 * (rotX (-Real.pi / 2) * rotZ q6) * rotX (Real.pi / 2) := by
          simp only [mul_assoc]
      _ = rotZ (q1 + q2) * (rotY (q3 + q4) * rotX (-Real.pi / 2)) * rotX (-Real.pi / 2) *
          rotZ q5 * (rotY q6 * rotX (-Real.pi / 2)) * rotX (Real.pi / 2) := by
          rw [rotZ_add, rotZ_add, k, k]
      _ = rotZ (q1 + q2) * rotY (q3 + q4) * (rotX (-Real.pi / 2) * rotX (-Real.pi / 2)) *
          rotZ q5 * rotY q6 * (rotX (-Real.pi / 2) * rotX (Real.pi / 2)) := by
          simp only [mul_assoc]
      _ = _ := by rw [k2, k3, mul_one]
  · have mz : ∀ t x y z : ℝ, rotZ t *ᵥ ![x, y, z] =
        ![Real.cos t * x - Real.sin t * y, Real.sin t * x + Real.cos t * y, z] := by
      intro t x y z
      ext i
      fin_cases i <;> simp [rotZ] <;> ring
    have mx : ∀ x y z : ℝ, rotX (-Real.pi / 2) *ᵥ ![x, y, z] = ![x, z, -y] := by
      intro x y z
      ext i
      fin_cases i <;> simp [rotX, e1, e2]
    have ad : ∀ x y z x' y' z' : ℝ, ![x, y, z] + ![x', y', z'] = ![x + x', y + y', z + z'] := by
      intros
      ext i
      fin_cases i <;> simp
    simp only [← Matrix.mulVec_mulVec, mz, mx, ad]
    ext i
    fin_cases i <;> simp [Real.cos_add, Real.sin_add] <;> ring

/-- **C104**: the end of the Puma: a turn by `q1 + q2` about the vertical axis of a frame whose
position and first turn are those of a planar arm with lengths `a3`, `a4` and angles `q3`, `q4`. -/
theorem C104_fk (hit : Oracle Shape) (a3 a4 d1 d3 d4 q1 q2 q3 q4 q5 q6 : ℝ) :
    FkSatisfies hit (puma a3 a4 d1 d3 d4) [q1, q2, q3, q4, q5, q6] (· =
      mkTf (rotZ (q1 + q2) * rotY (q3 + q4) * rotX Real.pi * rotZ q5 * rotY q6)
        ![Real.cos (q1 + q2) * (a3 * Real.cos q3 + a4 * Real.cos (q3 + q4)) -
            Real.sin (q1 + q2) * (d3 + d4),
          Real.sin (q1 + q2) * (a3 * Real.cos q3 + a4 * Real.cos (q3 + q4)) +
            Real.cos (q1 + q2) * (d3 + d4),
          d1 - (a3 * Real.sin q3 + a4 * Real.sin (q3 + q4))]) := by
  rw [fkSatisfies_iff _ _ (puma_known _ _ _ _ _) _ (le_refl _), puma_position]
  simp only [puma, Robot.new, tip, one_mul, Option.map_none, Option.getD_none, mul_one]
  congr 1
  ext i
  fin_cases i <;> simp [rotZ, Matrix.mulVec, dotProduct, Fin.sum_univ_succ] <;> ring

/-- The full property: the six joints of the Puma are independent, in the sense that some
configuration is the only one near it with its pose. -/
def C104_statement : Prop := ∀ hit : Oracle Shape, ∃ (q : List ℝ) (eps : ℝ), q.length = 6 ∧ 0 < eps ∧
  ∀ q' : List ℝ, q'.length = 6 → (∀ (i : Nat) x y, q[i]? = some x → q'[i]? = some y → |x - y| < eps) →
    (∀ T, FkSatisfies hit (puma 0.432 0.0203 0.6 0.1245 0.432) q (· = T) →
      FkSatisfies hit (puma 0.432 0.0203 0.6 0.1245 0.432) q' (· = T)) → q = q'

/-- **C104**: the first two joints of the Puma turn about the same axis, whatever its lengths. -/
theorem C104_parallel (hit : Oracle Shape) (a3 a4 d1 d3 d4 q1 q2 q3 q4 q5 q6 t : ℝ) (P : M4 → Prop) :
    FkSatisfies hit (puma a3 a4 d1 d3 d4) [q1 + t, q2 - t, q3, q4, q5, q6] P ↔
      FkSatisfies hit (puma a3 a4 d1 d3 d4) [q1, q2, q3, q4, q5, q6] P := by
  rw [fkSatisfies_iff _ _ (puma_known _ _ _ _ _) _ (le_refl _),
    fkSatisfies_iff _ _ (puma_known _ _ _ _ _) _ (le_refl _), puma_position, puma_position,
    show q1 + t + (q2 - t) = q1 + q2 by ring]

/-- **C104** is false: no configuration is isolated among those with its pose. -/
theorem C104_refuted : ¬ C104_statement := by
  intro h
  obtain ⟨q, eps, hq, he, h⟩ := h (fun _ _ => false)
  match q, hq with
  | [q1, q2, q3, q4, q5, q6], _ =>
    have := h [q1 + eps / 2, q2 - eps / 2, q3, q4, q5, q6] rfl ?_ ?_
    · simp only [List.cons.injEq] at this
      linarith [this.1]
    · intro i x y hx hy
      rcases i with _ | _ | _ | _ | _ | _ | i <;> simp at hx hy <;> subst hx <;> subst hy
      · rw [show q1 - (q1 + eps / 2) = -(eps / 2) by ring, abs_neg, abs_of_pos (by linarith)]
        linarith
      · rw [show q2 - (q2 - eps / 2) = eps / 2 by ring, abs_of_pos (by linarith)]
        linarith
      all_goals simpa using he
    · intro T hT
      exact (C104_parallel _ _ _ _ _ _ _ _ _ _ _ _ _ _).2 hT

/-- **C104**, what follows for the reach: the end stays outside the cylinder of radius `|d3 + d4|`
about the vertical axis (0.5565 for the shipped lengths) and within `|a3| + |a4|` of height `d1`. -/
theorem C104_reach (hit : Oracle Shape) (a3 a4 d1 d3 d4 : ℝ) (q : List ℝ) (hq : q.length = 6) :
    FkSatisfies hit (puma a3 a4 d1 d3 d4) q fun T =>
      (d3 + d4) ^ 2 ≤ posPart T 0 ^ 2 + posPart T 1 ^ 2 ∧
      posPart T 0 ^ 2 + posPart T 1 ^ 2 ≤ (d3 + d4) ^ 2 + (|a3| + |a4|) ^ 2 ∧
      |posPart T 2 - d1| ≤ |a3| + |a4| := by
  match q, hq with
  | [q1, q2, q3, q4, q5, q6], _ =>
    have h := C104_fk hit a3 a4 d1 d3 d4 q1 q2 q3 q4 q5 q6
    rw [fkSatisfies_iff _ _ (puma_known _ _ _ _ _) _ (le_refl _)] at h ⊢
    rw [h, posPart_mkTf]
    have hb : ∀ c c' : ℝ, |c| ≤ 1 → |c'| ≤ 1 → |a3 * c + a4 * c'| ≤ |a3| + |a4| := by
      intro c c' hc hc'
      refine (abs_add_le _ _).trans ?_
      rw [abs_mul, abs_mul]
      nlinarith [abs_nonneg a3, abs_nonneg a4]
    have hc := hb _ _ (Real.abs_cos_le_one q3) (Real.abs_cos_le_one (q3 + q4))
    have hs := hb _ _ (Real.abs_sin_le_one q3) (Real.abs_sin_le_one (q3 + q4))
    have e : ∀ c s x y : ℝ, s ^ 2 + c ^ 2 = 1 →
        (c * x - s * y) ^ 2 + (s * x + c * y) ^ 2 = x ^ 2 + y ^ 2 := by
      intro c s x y h
      linear_combination (x ^ 2 + y ^ 2) * h
    simp only [Matrix.cons_val]
    rw [e _ _ _ _ (Real.sin_sq_add_cos_sq (q1 + q2))]
    refine ⟨?_, ?_, ?_⟩
    · nlinarith [sq_nonneg (a3 * Real.cos q3 + a4 * Real.cos (q3 + q4))]
    · have := sq_le_sq' (by linarith [neg_abs_le (a3 * Real.cos q3 + a4 * Real.cos (q3 + q4))])
        ((le_abs_self _).trans hc)
      linarith
    · rw [show d1 - (a3 * Real.sin q3 + a4 * Real.sin (q3 + q4)) - d1 =
        -(a3 * Real.sin q3 + a4 * Real.sin (q3 + q4)) by ring, abs_neg]
      exact hs

/-- The shipped Puma stretched out: a configuration on the outer bound of the height. -/
example (hit : Oracle Shape) : FkSatisfies hit (puma 1 2 3 4 5) [0, 0, Real.pi / 2, 0, 0, 0]
    fun T => posPart T = ![0, 9, 0] := by
  have h := C104_fk hit 1 2 3 4 5 0 0 (Real.pi / 2) 0 0 0
  rw [fkSatisfies_iff _ _ (puma_known _ _ _ _ _) _ (le_refl _)] at h ⊢
  rw [h, posPart_mkTf]
  ext i
  fin_cases i <;> norm_num

end Verif.Props
