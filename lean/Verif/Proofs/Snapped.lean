import Verif.Proofs.Kuka

/-!
# How far off a solution with a snapped elbow is
-/

set_option linter.unusedSectionVars false

namespace Verif.Kin

open Matrix Verif.Geometry Verif.Util

/-- Two links, straight or folded: the error is the difference of the distances. -/
theorem planar_snapped_eq (b d : Bool) (A r z : ℝ) :
    (A * Real.cos (atan2 b d (z * A) (r * A)) - r) ^ 2 +
      (A * Real.sin (atan2 b d (z * A) (r * A)) - z) ^ 2 = (|A| - Real.sqrt (r ^ 2 + z ^ 2)) ^ 2 := by
  have hm := mul_cs_atan2 b d (r * A) (z * A)
  have hcs := Real.cos_sq_add_sin_sq (atan2 b d (z * A) (r * A))
  set C := Real.cos (atan2 b d (z * A) (r * A))
  set S := Real.sin (atan2 b d (z * A) (r * A))
  have hρ0 : 0 ≤ r ^ 2 + z ^ 2 := by positivity
  set ρ := Real.sqrt (r ^ 2 + z ^ 2) with hρ
  have hρ2 : ρ ^ 2 = r ^ 2 + z ^ 2 := Real.sq_sqrt hρ0
  have hsq : Real.sqrt ((r * A) ^ 2 + (z * A) ^ 2) = ρ * |A| := by
    rw [show (r * A) ^ 2 + (z * A) ^ 2 = (r ^ 2 + z ^ 2) * A ^ 2 by ring, Real.sqrt_mul hρ0,
      Real.sqrt_sq_eq_abs]
  rw [hsq] at hm
  have hab : |A| ^ 2 = A ^ 2 := sq_abs A
  have key : A * (r * C + z * S) = ρ * |A| := by
    by_cases h0 : ρ * |A| = 0
    · rw [h0] at hm
      have h1 : r * A = 0 := by linarith [hm.1]
      have h2 : z * A = 0 := by linarith [hm.2]
      rw [h0]; linear_combination C * h1 + S * h2
    · apply mul_left_cancel₀ h0
      linear_combination A * r * hm.1 + A * z * hm.2 - A ^ 2 * hρ2 - ρ ^ 2 * hab
  linear_combination A ^ 2 * hcs - 2 * key - hρ2 - hab

/-- The error of a candidate: the tip is on the ray from the shoulder to the target, and as far from
the shoulder as the two links with that elbow reach. -/
theorem IsCand.error {a1 a2 a3 x y z : ℝ} (ha : a2 * a3 ≠ 0) {q : List ℝ}
    (h : IsCand a1 a2 a3 x y z q) : ∃ q1 q2 q3, q = [q1, q2, q3] ∧
      dist2 (armPos a1 a2 a3 q1 q2 q3) ![x, y, z] =
        (Real.sqrt (a2 ^ 2 + a3 ^ 2 + 2 * a2 * a3 * Real.cos q3) -
          Real.sqrt (dist2 ![x, y, z] ![a1 * Real.cos q1, a1 * Real.sin q1, 0])) ^ 2 ∧
      |a2 ^ 2 + a3 ^ 2 + 2 * a2 * a3 * Real.cos q3 -
        dist2 ![x, y, z] ![a1 * Real.cos q1, a1 * Real.sin q1, 0]| ≤ 2 * |a2 * a3| * tol := by
  obtain ⟨u, q1, c', sg, b, d, b', d', rfl, rfl, hsg, hsnap, rfl⟩ := h
  set r := u - a1 with hr
  set c := (r ^ 2 + z ^ 2 - a2 ^ 2 - a3 ^ 2) / (2 * a2 * a3) with hc
  obtain ⟨b1, b2, b3, b4, b5⟩ := snap_some hsnap
  have hcc : r ^ 2 + z ^ 2 = a2 ^ 2 + a3 ^ 2 + 2 * a2 * a3 * c := by
    have h2 : (2 * a2 * a3 : ℝ) ≠ 0 := by
      rw [mul_assoc]; exact mul_ne_zero two_ne_zero ha
    have := mul_div_cancel₀ (r ^ 2 + z ^ 2 - a2 ^ 2 - a3 ^ 2) h2
    rw [← hc] at this
    linarith
  obtain ⟨e1, e2⟩ := cs_elbow b' d' b1 b2 hsg
  have hsq : (sg * Real.sqrt (1 - c' ^ 2)) ^ 2 = 1 - c' ^ 2 := by
    have hsg2 : sg ^ 2 = 1 := by rcases hsg with rfl | rfl <;> norm_num
    rw [mul_pow, hsg2, Real.sq_sqrt (by nlinarith), one_mul]
  have hcs := Real.cos_sq_add_sin_sq q1
  set s' := sg * Real.sqrt (1 - c' ^ 2) with hs'
  set q2 := atan2 b d (z * (a2 + a3 * c') - r * (a3 * s')) (r * (a2 + a3 * c') + z * (a3 * s'))
    with hq2
  set q3 := atan2 b' d' s' c' with hq3
  have f1 : a2 * Real.cos q2 + a3 * Real.cos (q2 + q3) =
      (a2 + a3 * c') * Real.cos q2 - a3 * s' * Real.sin q2 := by
    rw [Real.cos_add, e1, e2]; ring
  have f2 : a2 * Real.sin q2 + a3 * Real.sin (q2 + q3) =
      (a2 + a3 * c') * Real.sin q2 + a3 * s' * Real.cos q2 := by
    rw [Real.sin_add, e1, e2]; ring
  have hd : dist2 (armPos a1 a2 a3 q1 q2 q3) ![Real.cos q1 * u, Real.sin q1 * u, z] =
      (a2 * Real.cos q2 + a3 * Real.cos (q2 + q3) - r) ^ 2 +
        (a2 * Real.sin q2 + a3 * Real.sin (q2 + q3) - z) ^ 2 := by
    simp only [dist2, dotProduct, Pi.sub_apply, Fin.sum_univ_three, armPos]
    simp only [Matrix.cons_val_zero, Matrix.cons_val_one, Matrix.cons_val]
    rw [hr]
    linear_combination (a2 * Real.cos q2 + a3 * Real.cos (q2 + q3) - (u - a1)) ^ 2 * hcs
  have g2 : dist2 ![Real.cos q1 * u, Real.sin q1 * u, z] ![a1 * Real.cos q1, a1 * Real.sin q1, 0]
      = r ^ 2 + z ^ 2 := by
    simp only [dist2, dotProduct, Pi.sub_apply, Fin.sum_univ_three]
    simp only [Matrix.cons_val_zero, Matrix.cons_val_one, Matrix.cons_val]
    rw [hr]
    linear_combination (u - a1) ^ 2 * hcs
  refine ⟨q1, q2, q3, rfl, ?_, ?_⟩
  · rw [g2, e1, hd, f1, f2]
    by_cases hE : c' = c
    · have := planar_exact b d (a2 := a2) (a3 := a3) (r := r) (z := z) (c := c') (s := s')
        (by rw [hsq]; ring) (by rw [hE]; exact hcc)
      rw [← hq2] at this
      rw [this.1, this.2, hE, hcc]
      ring
    · have h1 := b4 hE
      have hs0 : s' = 0 := by
        have : s' ^ 2 = 0 := by rw [hsq, h1]; ring
        exact pow_eq_zero_iff (two_ne_zero) |>.1 this
      have := planar_snapped_eq b d (a2 + a3 * c') r z
      rw [hq2, hs0]
      simp only [mul_zero, sub_zero, add_zero, zero_mul] at this ⊢
      rw [this]
      congr 2
      rw [← Real.sqrt_sq_eq_abs]
      congr 1
      linear_combination a3 ^ 2 * h1
  · rw [g2, e1, hcc]
    have : a2 ^ 2 + a3 ^ 2 + 2 * a2 * a3 * c' - (a2 ^ 2 + a3 ^ 2 + 2 * a2 * a3 * c) =
      2 * (a2 * a3) * (c' - c) := by ring
    rw [this, abs_mul, abs_mul, abs_of_pos (two_pos)]
    exact mul_le_mul_of_nonneg_left b3 (by positivity)

/-- The squared distance from the shoulder to the tip. -/
theorem dist2_shoulder (a1 a2 a3 q1 q2 q3 : ℝ) :
    dist2 (armPos a1 a2 a3 q1 q2 q3) ![a1 * Real.cos q1, a1 * Real.sin q1, 0] =
      a2 ^ 2 + a3 ^ 2 + 2 * a2 * a3 * Real.cos q3 := by
  have h1 := Real.cos_sq_add_sin_sq q1
  have h2 := Real.cos_sq_add_sin_sq q2
  have h3 := Real.cos_sq_add_sin_sq q3
  simp only [dist2, dotProduct, Pi.sub_apply, Fin.sum_univ_three, armPos, Real.cos_add, Real.sin_add]
  simp only [Matrix.cons_val_zero, Matrix.cons_val_one, Matrix.cons_val]
  linear_combination (a2 * Real.cos q2 + a3 * (Real.cos q2 * Real.cos q3 - Real.sin q2 * Real.sin q3))
    ^ 2 * h1 + (a2 ^ 2 + 2 * a2 * a3 * Real.cos q3 +
      a3 ^ 2 * (Real.cos q3 ^ 2 + Real.sin q3 ^ 2)) * h2 + a3 ^ 2 * h3

/-- If two squares differ by at most `e`, and one number is at least `b`, then the numbers differ by
at most `e / b`. -/
theorem sqrt_gap {s t b e : ℝ} (hs : b ^ 2 ≤ s) (ht : 0 ≤ t) (hb : 0 ≤ b) (h : |s - t| ≤ e) :
    (Real.sqrt s - Real.sqrt t) ^ 2 * b ^ 2 ≤ e ^ 2 := by
  have h0 : 0 ≤ s := le_trans (sq_nonneg _) hs
  have e1 := Real.sq_sqrt h0
  have e2 := Real.sq_sqrt ht
  have hsb : b ≤ Real.sqrt s := Real.le_sqrt_of_sq_le hs
  have ht0 := Real.sqrt_nonneg t
  have hd : ((Real.sqrt s - Real.sqrt t) * (Real.sqrt s + Real.sqrt t)) ^ 2 ≤ e ^ 2 := by
    rw [show (Real.sqrt s - Real.sqrt t) * (Real.sqrt s + Real.sqrt t) = s - t by
      rw [← e1, ← e2]; simp only [Real.sqrt_sq (Real.sqrt_nonneg _)]; ring, ← sq_abs]
    exact pow_le_pow_left₀ (abs_nonneg _) h 2
  refine le_trans ?_ hd
  rw [mul_pow]
  exact mul_le_mul_of_nonneg_left (pow_le_pow_left₀ hb (by linarith) 2) (sq_nonneg _)

/-- The reach of two links is at least the difference of their lengths. -/
theorem reach_ge (a2 a3 c : ℝ) (h1 : -1 ≤ c) (h2 : c ≤ 1) :
    (|a2| - |a3|) ^ 2 ≤ a2 ^ 2 + a3 ^ 2 + 2 * a2 * a3 * c := by
  have : -(2 * |a2| * |a3|) ≤ 2 * a2 * a3 * c := by
    have hc : |c| ≤ 1 := abs_le.2 ⟨h1, h2⟩
    have h : |2 * a2 * a3 * c| ≤ 2 * |a2| * |a3| := by
      rw [abs_mul, abs_mul, abs_mul, abs_of_pos (two_pos)]
      exact mul_le_of_le_one_right (by positivity) hc
    exact (abs_le.1 h).1
  nlinarith [sq_abs a2, sq_abs a3]

theorem dist2_nonneg' (a b : V3) : 0 ≤ dist2 a b := by
  simp only [dist2, dotProduct]
  exact Finset.sum_nonneg fun i _ => mul_self_nonneg _

/-- The error of a candidate times the difference of the lengths. -/
theorem IsCand.error_le {a1 a2 a3 x y z : ℝ} (ha : a2 * a3 ≠ 0) {q : List ℝ}
    (h : IsCand a1 a2 a3 x y z q) : ∃ q1 q2 q3, q = [q1, q2, q3] ∧
      dist2 (armPos a1 a2 a3 q1 q2 q3) ![x, y, z] * (|a2| - |a3|) ^ 2 ≤
        (2 * |a2 * a3| * tol) ^ 2 := by
  obtain ⟨q1, q2, q3, e, h1, h2⟩ := h.error ha
  refine ⟨q1, q2, q3, e, ?_⟩
  rw [h1, ← sq_abs (|a2| - |a3|)]
  exact sqrt_gap (by rw [sq_abs]; exact reach_ge _ _ _ (Real.neg_one_le_cos _) (Real.cos_le_one _))
    (dist2_nonneg' _ _) (abs_nonneg _) h2

/-- The same for a Kuka. -/
theorem kuka_error [Zeros] {a1 a2 d4 d6 : ℝ} (ha : a2 * d4 ≠ 0) {R : M3} (hR : IsRot R) {p : V3}
    {qs : List (List ℝ)}
    (hs : arm2Ik (arm2 a1 a2 d4) (mkTf R (p - R *ᵥ ![0, 0, d6])) = some qs) {q q' : List ℝ}
    (hq : q ∈ qs) (hq' : q' ∈ kSols a1 a2 d4 (mkTf R (p - R *ᵥ ![0, 0, d6])) q) :
    dist2 (posPart (chain (kukaRobot a1 a2 d4 d6).links q')) p * (|a2| - |d4|) ^ 2 ≤
      (2 * |a2 * d4| * tol) ^ 2 := by
  have hcand := arm2Ik_cand hs hq
  set wc := p - R *ᵥ ![0, 0, d6] with hwc
  have hcand' : IsCand a1 a2 d4 (wc 0) (wc 1) (wc 2) q := hcand
  obtain ⟨q1, q2, q3, t1, t2, t3, hqe, rfl, hrow, hrel⟩ := kSols_mem hcand' hq'
  obtain ⟨q1', q2', q3', hqe', hb⟩ := hcand'.error_le ha
  rw [hqe] at hqe'
  cases hqe'
  have hA := armRot_isRot q1 (q2 + (q3 + Real.pi / 2))
  have hrelrot : IsRot (relRot (wristBase (armRot q1 (q2 + (q3 + Real.pi / 2))) (mkTf R wc))
      (mkTf R wc)) := by rw [hrel]; exact hA.transpose.mul hR
  obtain ⟨hax, -, -⟩ := wristRows_axis hrelrot hrow
  rw [hrel] at hax
  have hAA := hA.mul_transpose
  have hmulv : ∀ v, (armRot q1 (q2 + (q3 + Real.pi / 2)) * zyz t1 t2 t3) *ᵥ ![0, 0, v] =
      R *ᵥ ![0, 0, v] := by
    intro v
    rw [← Matrix.mulVec_mulVec, hax v, Matrix.mulVec_mulVec, ← Matrix.mul_assoc, hAA, one_mul]
  have hpv : (![wc 0, wc 1, wc 2] : V3) = wc := by ext i; fin_cases i <;> rfl
  rw [hpv] at hb
  have hpos : posPart (chain (kukaRobot a1 a2 d4 d6).links
      [q1, q2, q3 + Real.pi / 2, t1, t2, t3]) = armPos a1 a2 d4 q1 q2 q3 + R *ᵥ ![0, 0, d6] := by
    rw [chain_kuka, posPart_mkTf, hmulv, add_sub_cancel_right]
  rw [hpos]
  have : dist2 (armPos a1 a2 d4 q1 q2 q3 + R *ᵥ ![0, 0, d6]) p =
      dist2 (armPos a1 a2 d4 q1 q2 q3) wc := by
    rw [dist2, dist2, hwc]
    congr 1 <;> abel
  rw [this]; exact hb

end Verif.Kin
