import Mathlib.Analysis.SpecialFunctions.PolarCoord
import Mathlib.MeasureTheory.Function.JacobianOneDim
import Mathlib.MeasureTheory.Measure.Lebesgue.EqHaar
import Mathlib.Analysis.SpecialFunctions.Sqrt

/-!
# The measure behind the random quaternions

Lebesgue measure of the plane times the plane, read in polar coordinates of both planes, with the
squares of the two radii replaced by their sum and the share of the second.
-/

set_option linter.unusedSectionVars false

namespace Verif.Uniform

open MeasureTheory Set ENNReal

noncomputable section

/-- The point of the plane with the square `s` of its radius at the share `r` of the full turn. -/
def pt (s r : ℝ) : ℝ × ℝ :=
  (Real.sqrt s * Real.cos (2 * Real.pi * r), Real.sqrt s * Real.sin (2 * Real.pi * r))

theorem measurable_pt : Measurable fun p : ℝ × ℝ => pt p.1 p.2 := by
  unfold pt; fun_prop

/-- An integral over the plane, by the square of the radius and the share of the turn. -/
theorem lintegral_plane (g : ℝ × ℝ → ℝ≥0∞) (hg : Measurable g) :
    ∫⁻ z, g z = ENNReal.ofReal Real.pi *
      ∫⁻ s in Ioi (0 : ℝ), ∫⁻ r in Ioo (0 : ℝ) 1, g (-pt s r) := by
  have hang : ∀ ρ : ℝ, ∫⁻ φ in Ioo (-Real.pi) Real.pi, g (ρ * Real.cos φ, ρ * Real.sin φ) =
      ENNReal.ofReal (2 * Real.pi) * ∫⁻ r in Ioo (0 : ℝ) 1,
        g (-(ρ * Real.cos (2 * Real.pi * r), ρ * Real.sin (2 * Real.pi * r))) := by
    intro ρ
    have him : (fun r : ℝ => 2 * Real.pi * r - Real.pi) '' Ioo 0 1 = Ioo (-Real.pi) Real.pi := by
      ext φ
      constructor
      · rintro ⟨r, ⟨h0, h1⟩, rfl⟩
        constructor <;> simp only <;> nlinarith [Real.pi_pos]
      · rintro ⟨h0, h1⟩
        refine ⟨(φ + Real.pi) / (2 * Real.pi), ⟨by
          apply div_pos <;> linarith [Real.pi_pos], by
          rw [div_lt_one (by linarith [Real.pi_pos])]; linarith⟩, ?_⟩
        have := Real.pi_ne_zero
        simp only
        field_simp
        ring
    rw [← him, lintegral_image_eq_lintegral_abs_deriv_mul (f' := fun _ => 2 * Real.pi)
      measurableSet_Ioo]
    · rw [← lintegral_const_mul']
      · refine lintegral_congr fun r => ?_
        rw [abs_of_pos Real.two_pi_pos, Real.cos_sub_pi, Real.sin_sub_pi]
        simp
      · exact ofReal_ne_top
    · intro r _
      have h := ((hasDerivAt_id r).const_mul (2 * Real.pi)).sub_const Real.pi
      simpa using h.hasDerivWithinAt
    · intro a _ b _ h
      have := Real.pi_ne_zero
      simp only at h
      have h2 : 2 * Real.pi * a = 2 * Real.pi * b := by linarith
      exact mul_left_cancel₀ (by positivity) h2
  have hrad : ∀ G : ℝ → ℝ≥0∞, ∫⁻ ρ in Ioi (0 : ℝ), ENNReal.ofReal ρ * G ρ =
      ENNReal.ofReal (1 / 2) * ∫⁻ s in Ioi (0 : ℝ), G (Real.sqrt s) := by
    intro G
    have him : (fun s : ℝ => Real.sqrt s) '' Ioi 0 = Ioi 0 := by
      ext ρ
      constructor
      · rintro ⟨s, hs, rfl⟩
        exact Real.sqrt_pos.2 hs
      · intro h
        exact ⟨ρ ^ 2, by simp only [mem_Ioi] at *; positivity, Real.sqrt_sq (le_of_lt h)⟩
    conv_lhs => rw [← him]
    rw [lintegral_image_eq_lintegral_abs_deriv_mul (f' := fun s => 1 / (2 * Real.sqrt s))
      measurableSet_Ioi]
    · rw [← lintegral_const_mul']
      · refine setLIntegral_congr_fun measurableSet_Ioi fun s hs => ?_
        have h0 := Real.sqrt_pos.2 hs
        rw [← mul_assoc, ← ENNReal.ofReal_mul (abs_nonneg _), abs_of_pos (by positivity)]
        congr 2
        field_simp
      · exact ofReal_ne_top
    · intro s hs
      exact (Real.hasDerivAt_sqrt (ne_of_gt hs)).hasDerivWithinAt
    · intro a ha b hb h
      simp only at h
      exact (Real.sqrt_inj (le_of_lt ha) (le_of_lt hb)).1 h
  rw [← lintegral_comp_polarCoord_symm]
  have htar : polarCoord.target = Ioi (0 : ℝ) ×ˢ Ioo (-Real.pi) Real.pi := rfl
  rw [htar, Measure.volume_eq_prod, ← Measure.prod_restrict, lintegral_prod]
  · simp only [smul_eq_mul, polarCoord_symm_apply]
    have hstep : ∀ ρ : ℝ, ∫⁻ φ in Ioo (-Real.pi) Real.pi,
        ENNReal.ofReal ρ * g (ρ * Real.cos φ, ρ * Real.sin φ) =
        ENNReal.ofReal ρ * (ENNReal.ofReal (2 * Real.pi) * ∫⁻ r in Ioo (0 : ℝ) 1,
        g (-(ρ * Real.cos (2 * Real.pi * r), ρ * Real.sin (2 * Real.pi * r)))) := by
      intro ρ
      rw [lintegral_const_mul' _ _ ofReal_ne_top, hang]
    simp only [hstep]
    rw [hrad fun ρ => ENNReal.ofReal (2 * Real.pi) * ∫⁻ r in Ioo (0 : ℝ) 1,
        g (-(ρ * Real.cos (2 * Real.pi * r), ρ * Real.sin (2 * Real.pi * r))),
      lintegral_const_mul' _ _ ofReal_ne_top, ← mul_assoc, ← ENNReal.ofReal_mul (by norm_num)]
    congr 2
    ring
  · refine Measurable.aemeasurable ?_
    simp only [smul_eq_mul, polarCoord_symm_apply]
    fun_prop

/-- A function of the two shares of a sum, integrated over both summands. -/
theorem lintegral_shares (h : ℝ → ℝ≥0∞) (hh : Measurable h) (k : ℝ → ℝ≥0∞) (hk : Measurable k) :
    ∫⁻ s₁ in Ioi (0 : ℝ), ∫⁻ s₂ in Ioi (0 : ℝ), h (s₁ + s₂) * k (s₂ / (s₁ + s₂)) =
      (∫⁻ t in Ioi (0 : ℝ), ENNReal.ofReal t * h t) * ∫⁻ u in Ioo (0 : ℝ) 1, k u := by
  rw [lintegral_lintegral_swap]
  · have h1 : ∀ s₂ ∈ Ioi (0 : ℝ), ∫⁻ s₁ in Ioi (0 : ℝ), h (s₁ + s₂) * k (s₂ / (s₁ + s₂)) =
        ∫⁻ u in Ioo (0 : ℝ) 1, ENNReal.ofReal (s₂ / u ^ 2) * (h (s₂ / u) * k u) := by
      intro s₂ hs
      have hs' : (0 : ℝ) < s₂ := hs
      have him : (fun u : ℝ => s₂ * u⁻¹ - s₂) '' Ioo 0 1 = Ioi 0 := by
        ext s
        constructor
        · rintro ⟨u, ⟨h0, h1⟩, rfl⟩
          have : 1 < u⁻¹ := (one_lt_inv₀ h0).2 h1
          simp only [mem_Ioi]
          nlinarith
        · intro h
          have h' : (0 : ℝ) < s := h
          refine ⟨s₂ / (s + s₂), ⟨by positivity, by
            rw [div_lt_one (by positivity)]; linarith⟩, ?_⟩
          simp only
          field_simp
          ring
      rw [← him, lintegral_image_eq_lintegral_abs_deriv_mul (f' := fun u => s₂ * -(u ^ 2)⁻¹)
        measurableSet_Ioo]
      · refine setLIntegral_congr_fun measurableSet_Ioo fun u hu => ?_
        have hu0 : (0 : ℝ) < u := hu.1
        have e : s₂ * u⁻¹ - s₂ + s₂ = s₂ / u := by rw [sub_add_cancel]; rfl
        have e2 : s₂ / (s₂ / u) = u := by field_simp
        simp only [e, e2]
        congr 2
        rw [mul_neg, abs_neg, abs_of_pos (by positivity)]
        rfl
      · intro u hu
        have hu0 : u ≠ 0 := ne_of_gt hu.1
        exact (((hasDerivAt_inv hu0).const_mul s₂).sub_const s₂).hasDerivWithinAt
      · intro a ha b hb hab
        simp only at hab
        have h2 : s₂ * a⁻¹ = s₂ * b⁻¹ := by linarith
        exact inv_injective (mul_left_cancel₀ hs'.ne' h2)
    rw [setLIntegral_congr_fun measurableSet_Ioi h1, lintegral_lintegral_swap]
    · have h2 : ∀ u ∈ Ioo (0 : ℝ) 1, ∫⁻ s₂ in Ioi (0 : ℝ),
          ENNReal.ofReal (s₂ / u ^ 2) * (h (s₂ / u) * k u) =
          (∫⁻ t in Ioi (0 : ℝ), ENNReal.ofReal t * h t) * k u := by
        intro u hu
        have hu0 : (0 : ℝ) < u := hu.1
        have him : (fun t : ℝ => u * t) '' Ioi 0 = Ioi 0 := by
          ext s
          constructor
          · rintro ⟨t, ht, rfl⟩
            exact mul_pos hu0 ht
          · intro hs
            exact ⟨s / u, div_pos hs hu0, by simp only; field_simp⟩
        conv_lhs => rw [← him]
        rw [lintegral_image_eq_lintegral_abs_deriv_mul (f' := fun _ => u) measurableSet_Ioi]
        · rw [← lintegral_mul_const _ (by fun_prop)]
          refine setLIntegral_congr_fun measurableSet_Ioi fun t ht => ?_
          have ht0 : (0 : ℝ) < t := ht
          have e : u * t / u = t := by field_simp
          simp only [e]
          rw [← mul_assoc, ← ENNReal.ofReal_mul (abs_nonneg _), abs_of_pos hu0, ← mul_assoc]
          congr 3
          field_simp
        · intro t _
          simpa using ((hasDerivAt_id t).const_mul u).hasDerivWithinAt
        · intro a _ b _ hab
          exact mul_left_cancel₀ hu0.ne' hab
      rw [setLIntegral_congr_fun measurableSet_Ioo h2, lintegral_const_mul _ hk]
    · exact Measurable.aemeasurable (by fun_prop)
  · exact Measurable.aemeasurable (by fun_prop)

/-- Two planes. -/
abbrev Four := (ℝ × ℝ) × (ℝ × ℝ)

/-- The square of the distance from the origin. -/
def sq (x : Four) : ℝ := x.1.1 ^ 2 + x.1.2 ^ 2 + x.2.1 ^ 2 + x.2.2 ^ 2

/-- The point on the sphere for three numbers of the generator. -/
def spherePt (u : ℝ × ℝ × ℝ) : Four := (pt (1 - u.1) u.2.1, pt u.1 u.2.2)

/-- One on the open unit ball, in terms of the square of the radius. -/
def inBall (t : ℝ) : ℝ≥0∞ := (Iio (1 : ℝ)).indicator (fun _ => 1) t

theorem measurable_inBall : Measurable inBall :=
  measurable_const.indicator measurableSet_Iio

theorem measurable_sq : Measurable sq := by unfold sq; fun_prop

theorem measurable_spherePt : Measurable spherePt := by
  unfold spherePt pt; fun_prop

/-- The integral over the unit ball of the value at the point of the sphere in the same direction. -/
def onBall (f : Four → ℝ≥0∞) : ℝ≥0∞ := ∫⁻ x : Four, inBall (sq x) * f ((Real.sqrt (sq x))⁻¹ • x)

/-- The factor between the ball and the cube of the draws. -/
def factor : ℝ≥0∞ :=
  ENNReal.ofReal Real.pi * (ENNReal.ofReal Real.pi * ∫⁻ t in Ioi (0 : ℝ), ENNReal.ofReal t * inBall t)

theorem factor_ne_zero : factor ≠ 0 := by
  have hp : ENNReal.ofReal Real.pi ≠ 0 := by simp [Real.pi_pos]
  refine mul_ne_zero hp (mul_ne_zero hp ?_)
  have hm : Measurable fun t : ℝ => ENNReal.ofReal t * inBall t :=
    ENNReal.measurable_ofReal.mul measurable_inBall
  intro h0
  rw [lintegral_eq_zero_iff hm, Filter.EventuallyEq, ae_restrict_iff' measurableSet_Ioi] at h0
  have hs : volume (Ioo (0 : ℝ) 1) = 0 := by
    refine measure_mono_null ?_ h0
    intro t ht hcon
    have := hcon ht.1
    simp [inBall, ht.2, not_le.2 ht.1] at this
  simp at hs

theorem factor_ne_top : factor ≠ ⊤ := by
  refine mul_ne_top ofReal_ne_top (mul_ne_top ofReal_ne_top ?_)
  have hle : ∫⁻ t in Ioi (0 : ℝ), ENNReal.ofReal t * inBall t ≤ ∫⁻ t in Ioo (0 : ℝ) 1, 1 := by
    rw [← lintegral_indicator measurableSet_Ioi, ← lintegral_indicator measurableSet_Ioo]
    refine lintegral_mono fun t => ?_
    by_cases h0 : 0 < t
    · by_cases h1 : t < 1
      · simp [inBall, indicator, h0, h1, h1.le]
      · simp [inBall, indicator, h1]
    · simp [indicator, h0]
  refine ne_top_of_le_ne_top ?_ hle
  simp

theorem sq_pt (s₁ s₂ r₁ r₂ : ℝ) (h₁ : 0 ≤ s₁) (h₂ : 0 ≤ s₂) :
    sq (-pt s₁ r₁, -pt s₂ r₂) = s₁ + s₂ := by
  simp only [sq, pt, Prod.fst_neg, Prod.snd_neg, neg_sq, mul_pow, Real.sq_sqrt h₁, Real.sq_sqrt h₂]
  linear_combination s₁ * Real.cos_sq_add_sin_sq (2 * Real.pi * r₁) +
    s₂ * Real.cos_sq_add_sin_sq (2 * Real.pi * r₂)

theorem smul_pt (t s r : ℝ) (hs : 0 ≤ s) : (Real.sqrt t)⁻¹ • -pt s r = -pt (s / t) r := by
  have : Real.sqrt (s / t) = Real.sqrt s / Real.sqrt t := Real.sqrt_div hs t
  ext <;> simp [pt, this] <;> ring

theorem onBall_eq (f : Four → ℝ≥0∞) (hf : Measurable f) :
    onBall f = factor * ∫⁻ u in Ioo (0 : ℝ) 1, ∫⁻ r₂ in Ioo (0 : ℝ) 1, ∫⁻ r₃ in Ioo (0 : ℝ) 1,
      f (-spherePt (u, r₂, r₃)) := by
  have hF : Measurable fun x : Four => inBall (sq x) * f ((Real.sqrt (sq x))⁻¹ • x) := by
    refine (measurable_inBall.comp measurable_sq).mul (hf.comp ?_)
    have := measurable_sq
    fun_prop
  unfold onBall
  rw [Measure.volume_eq_prod, lintegral_prod _ hF.aemeasurable,
    lintegral_plane _ hF.lintegral_prod_right']
  have hin : ∀ a : ℝ × ℝ, ∫⁻ b : ℝ × ℝ, inBall (sq (a, b)) * f ((Real.sqrt (sq (a, b)))⁻¹ • (a, b)) =
      ENNReal.ofReal Real.pi * ∫⁻ s in Ioi (0 : ℝ), ∫⁻ r in Ioo (0 : ℝ) 1,
        inBall (sq (a, -pt s r)) * f ((Real.sqrt (sq (a, -pt s r)))⁻¹ • (a, -pt s r)) := fun a =>
    lintegral_plane (fun b => inBall (sq (a, b)) * f ((Real.sqrt (sq (a, b)))⁻¹ • (a, b)))
      (hF.comp measurable_prodMk_left)
  simp only [hin]
  have hsp := measurable_spherePt
  let K : ℝ → ℝ≥0∞ := fun v => ∫⁻ r₂ in Ioo (0 : ℝ) 1, ∫⁻ r₃ in Ioo (0 : ℝ) 1,
    f (-spherePt (v, r₂, r₃))
  have hJ : Measurable fun p : ℝ × ℝ => ∫⁻ r₃ in Ioo (0 : ℝ) 1, f (-spherePt (p.1, p.2, r₃)) := by
    refine Measurable.lintegral_prod_right' (f := fun p : (ℝ × ℝ) × ℝ =>
      f (-spherePt (p.1.1, p.1.2, p.2))) ?_
    fun_prop
  have hK : Measurable K := hJ.lintegral_prod_right'
  have hmain : ∀ s₁ ∈ Ioi (0 : ℝ), ∫⁻ r₂ in Ioo (0 : ℝ) 1, ENNReal.ofReal Real.pi *
      ∫⁻ s₂ in Ioi (0 : ℝ), ∫⁻ r₃ in Ioo (0 : ℝ) 1, inBall (sq (-pt s₁ r₂, -pt s₂ r₃)) *
        f ((Real.sqrt (sq (-pt s₁ r₂, -pt s₂ r₃)))⁻¹ • (-pt s₁ r₂, -pt s₂ r₃)) =
      ENNReal.ofReal Real.pi * ∫⁻ s₂ in Ioi (0 : ℝ), inBall (s₁ + s₂) * K (s₂ / (s₁ + s₂)) := by
    intro s₁ h₁
    have h₁' : (0 : ℝ) < s₁ := h₁
    have hpt : ∀ r₂ : ℝ, ∀ s₂ ∈ Ioi (0 : ℝ), ∫⁻ r₃ in Ioo (0 : ℝ) 1,
        inBall (sq (-pt s₁ r₂, -pt s₂ r₃)) *
          f ((Real.sqrt (sq (-pt s₁ r₂, -pt s₂ r₃)))⁻¹ • (-pt s₁ r₂, -pt s₂ r₃)) =
        inBall (s₁ + s₂) * ∫⁻ r₃ in Ioo (0 : ℝ) 1, f (-spherePt (s₂ / (s₁ + s₂), r₂, r₃)) := by
      intro r₂ s₂ h₂
      have h₂' : (0 : ℝ) < s₂ := h₂
      rw [← lintegral_const_mul' _ _ (by unfold inBall indicator; split_ifs <;> simp)]
      refine lintegral_congr fun r₃ => ?_
      rw [sq_pt _ _ _ _ h₁'.le h₂'.le, Prod.smul_mk, smul_pt _ _ _ h₁'.le, smul_pt _ _ _ h₂'.le]
      have e : s₁ / (s₁ + s₂) = 1 - s₂ / (s₁ + s₂) := by field_simp; ring
      simp only [spherePt, e, Prod.neg_mk]
    have h2 : ∀ r₂ : ℝ, (∫⁻ s₂ in Ioi (0 : ℝ), ∫⁻ r₃ in Ioo (0 : ℝ) 1,
        inBall (sq (-pt s₁ r₂, -pt s₂ r₃)) *
          f ((Real.sqrt (sq (-pt s₁ r₂, -pt s₂ r₃)))⁻¹ • (-pt s₁ r₂, -pt s₂ r₃))) =
        ∫⁻ s₂ in Ioi (0 : ℝ), inBall (s₁ + s₂) *
          ∫⁻ r₃ in Ioo (0 : ℝ) 1, f (-spherePt (s₂ / (s₁ + s₂), r₂, r₃)) := fun r₂ =>
      setLIntegral_congr_fun measurableSet_Ioi (hpt r₂)
    simp only [h2]
    rw [lintegral_const_mul' _ _ ofReal_ne_top, lintegral_lintegral_swap]
    · congr 1
      refine lintegral_congr fun s₂ => ?_
      rw [lintegral_const_mul' _ _ (by unfold inBall indicator; split_ifs <;> simp)]
    · refine Measurable.aemeasurable ?_
      have hb := measurable_inBall
      have : Measurable fun p : ℝ × ℝ => ∫⁻ r₃ in Ioo (0 : ℝ) 1,
          f (-spherePt (p.2 / (s₁ + p.2), p.1, r₃)) :=
        hJ.comp (by fun_prop : Measurable fun p : ℝ × ℝ => (p.2 / (s₁ + p.2), p.1))
      exact (by fun_prop : Measurable fun p : ℝ × ℝ => inBall (s₁ + p.2)).mul this
  rw [setLIntegral_congr_fun measurableSet_Ioi hmain, lintegral_const_mul' _ _ ofReal_ne_top,
    lintegral_shares _ measurable_inBall _ hK]
  simp only [factor, K, mul_assoc]

/-- A linear map that keeps the distance from the origin keeps the volume. -/
theorem measurePreserving (L : Four ≃ₗ[ℝ] Four) (hL : ∀ x, sq (L x) = sq x) :
    MeasurePreserving L (volume : Measure Four) volume := by
  have hcont : Continuous L := L.toLinearMap.continuous_of_finiteDimensional
  refine ⟨hcont.measurable, ?_⟩
  have hdet : LinearMap.det (L : Four →ₗ[ℝ] Four) ≠ 0 := L.isUnit_det'.ne_zero
  haveI : Measure.IsAddHaarMeasure (volume : Measure Four) :=
    Measure.prod.instIsAddHaarMeasure _ _
  have hmap := Measure.map_linearMap_addHaar_eq_smul_addHaar (volume : Measure Four) hdet
  set c := ENNReal.ofReal |(LinearMap.det (L : Four →ₗ[ℝ] Four))⁻¹| with hc
  let B : Set Four := {x | sq x < 1}
  have hsqc : Continuous sq := by unfold sq; fun_prop
  have hBo : IsOpen B := isOpen_lt hsqc continuous_const
  have hB : MeasurableSet B := hBo.measurableSet
  have hpos : volume B ≠ 0 := (hBo.measure_pos volume ⟨0, by simp [B, sq]⟩).ne'
  have hfin : volume B ≠ ⊤ := by
    have hsub : B ⊆ Metric.closedBall 0 1 := by
      intro x hx
      have hx' : x.1.1 ^ 2 + x.1.2 ^ 2 + x.2.1 ^ 2 + x.2.2 ^ 2 < 1 := hx
      simp only [mem_closedBall_zero_iff, Prod.norm_def, sup_le_iff, Real.norm_eq_abs,
        abs_le_one_iff_mul_self_le_one]
      refine ⟨⟨?_, ?_⟩, ?_, ?_⟩ <;>
        nlinarith [sq_nonneg x.1.1, sq_nonneg x.1.2, sq_nonneg x.2.1, sq_nonneg x.2.2]
    exact ne_top_of_le_ne_top (isCompact_closedBall _ _).measure_ne_top (measure_mono hsub)
  have hpre : L ⁻¹' B = B := by
    ext x
    simp [B, hL]
  have h1 : volume B = c * volume B := by
    have := congrArg (fun m : Measure Four => m B) hmap
    simp only [Measure.smul_apply, smul_eq_mul] at this
    rw [← this]
    have e : (Measure.map (⇑(L : Four →ₗ[ℝ] Four)) volume) B = volume (L ⁻¹' B) :=
      Measure.map_apply hcont.measurable hB
    rw [e, hpre]
  have hc1 : c = 1 := by
    have := (ENNReal.mul_eq_right hpos hfin).1 h1.symm
    exact this
  have e : Measure.map L volume = Measure.map (⇑(L : Four →ₗ[ℝ] Four)) volume := rfl
  rw [e, hmap, hc1, one_smul]

/-- Integrals over the ball do not see such a map. -/
theorem onBall_comp (L : Four ≃ₗ[ℝ] Four) (hL : ∀ x, sq (L x) = sq x) (f : Four → ℝ≥0∞)
    (hf : Measurable f) : onBall (fun x => f (L x)) = onBall f := by
  have hF : Measurable fun x : Four => inBall (sq x) * f ((Real.sqrt (sq x))⁻¹ • x) := by
    refine (measurable_inBall.comp measurable_sq).mul (hf.comp ?_)
    have := measurable_sq
    fun_prop
  unfold onBall
  rw [← (measurePreserving L hL).lintegral_comp hF]
  refine lintegral_congr fun x => ?_
  simp only [hL, map_smul]

/-- The draws of the generator: three numbers from 0 up to but not including 1. -/
def cube : Set (ℝ × ℝ × ℝ) := Ico 0 1 ×ˢ Ico 0 1 ×ˢ Ico 0 1

theorem lintegral_cube (g : ℝ × ℝ × ℝ → ℝ≥0∞) (hg : Measurable g) :
    ∫⁻ u in cube, g u = ∫⁻ u in Ioo (0 : ℝ) 1, ∫⁻ r₂ in Ioo (0 : ℝ) 1, ∫⁻ r₃ in Ioo (0 : ℝ) 1,
      g (u, r₂, r₃) := by
  unfold cube
  rw [Measure.volume_eq_prod, Measure.volume_eq_prod, ← Measure.prod_restrict,
    ← Measure.prod_restrict, ← Measure.restrict_congr_set (Ioo_ae_eq_Ico (μ := volume) (a := (0 : ℝ)) (b := 1)),
    lintegral_prod _ hg.aemeasurable]
  refine lintegral_congr fun u => ?_
  rw [lintegral_prod]
  exact (hg.comp measurable_prodMk_left).aemeasurable

/-- The points on the sphere are spread evenly: no rotation or reflection of the four dimensions
changes an average over the draws. -/
theorem even (L : Four ≃ₗ[ℝ] Four) (hL : ∀ x, sq (L x) = sq x) (f : Four → ℝ≥0∞)
    (hf : Measurable f) : ∫⁻ u in cube, f (L (spherePt u)) = ∫⁻ u in cube, f (spherePt u) := by
  have hsp := measurable_spherePt
  have key : ∀ g : Four → ℝ≥0∞, Measurable g →
      factor * ∫⁻ u in cube, g (spherePt u) = onBall g := by
    intro g hg
    have hn : Measurable fun x : Four => g (-x) := by fun_prop
    rw [← onBall_comp (LinearEquiv.neg ℝ) (fun x => by simp [sq]) g hg]
    simp only [LinearEquiv.neg_apply]
    rw [onBall_eq _ hn, lintegral_cube _ (by fun_prop)]
    simp
  have hLm : Measurable fun x => f (L x) :=
    hf.comp (L.toLinearMap.continuous_of_finiteDimensional).measurable
  have h1 := key (fun x => f (L x)) hLm
  rw [onBall_comp L hL f hf, ← key f hf] at h1
  exact (ENNReal.mul_right_inj factor_ne_zero factor_ne_top).1 h1

end

end Verif.Uniform
