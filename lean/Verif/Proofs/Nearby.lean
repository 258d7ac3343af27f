import Verif.Proofs.Kuka
import Mathlib.Analysis.SpecialFunctions.Complex.Arg
import Mathlib.Topology.Instances.Matrix

/-!
# Configurations near a given one

A pose close to the one a Kuka reaches in a configuration away from the singular ones is reached in a
configuration close to it.  The angles are written down: they follow the pose continuously.
-/

set_option linter.unusedSectionVars false

namespace Verif.Kin

open Matrix Verif Filter Topology

variable {X : Type} {l : Filter X}

/-- An angle that follows its cosine and sine. -/
theorem lift_angle {c s : X → ℝ} {θ₀ : ℝ} (hc : Tendsto c l (𝓝 (Real.cos θ₀)))
    (hs : Tendsto s l (𝓝 (Real.sin θ₀))) (h : ∀ᶠ x in l, c x ^ 2 + s x ^ 2 = 1) :
    ∃ θ : X → ℝ, Tendsto θ l (𝓝 θ₀) ∧ ∀ᶠ x in l, Real.cos (θ x) = c x ∧ Real.sin (θ x) = s x := by
  let z : X → ℂ := fun x => ⟨c x * Real.cos θ₀ + s x * Real.sin θ₀, s x * Real.cos θ₀ - c x * Real.sin θ₀⟩
  have e0 := Real.sin_sq_add_cos_sq θ₀
  refine ⟨fun x => θ₀ + (z x).arg, ?_, ?_⟩
  · have hre : Tendsto (fun x => c x * Real.cos θ₀ + s x * Real.sin θ₀) l (𝓝 1) := by
      have := (hc.mul_const (Real.cos θ₀)).add (hs.mul_const (Real.sin θ₀))
      rwa [show Real.cos θ₀ * Real.cos θ₀ + Real.sin θ₀ * Real.sin θ₀ = 1 by nlinarith] at this
    have him : Tendsto (fun x => s x * Real.cos θ₀ - c x * Real.sin θ₀) l (𝓝 0) := by
      have := (hs.mul_const (Real.cos θ₀)).sub (hc.mul_const (Real.sin θ₀))
      rwa [show Real.sin θ₀ * Real.cos θ₀ - Real.cos θ₀ * Real.sin θ₀ = 0 by ring] at this
    have hz : Tendsto z l (𝓝 1) := by
      have := ((Complex.continuous_ofReal.tendsto 1).comp hre).add
        (((Complex.continuous_ofReal.tendsto 0).comp him).mul_const Complex.I)
      rw [Complex.ofReal_one, Complex.ofReal_zero, zero_mul, add_zero] at this
      exact this.congr fun x => (Complex.mk_eq_add_mul_I _ _).symm
    have ha := (Complex.continuousAt_arg (x := 1) Complex.one_mem_slitPlane).tendsto.comp hz
    rw [Complex.arg_one] at ha
    simpa using ha.const_add θ₀
  · filter_upwards [h] with x hx
    have hn : ‖z x‖ = 1 := by
      rw [Complex.norm_def, Complex.normSq_mk]
      rw [show (c x * Real.cos θ₀ + s x * Real.sin θ₀) * (c x * Real.cos θ₀ + s x * Real.sin θ₀) +
        (s x * Real.cos θ₀ - c x * Real.sin θ₀) * (s x * Real.cos θ₀ - c x * Real.sin θ₀) =
        (c x ^ 2 + s x ^ 2) * (Real.sin θ₀ ^ 2 + Real.cos θ₀ ^ 2) by ring, hx, e0]
      simp
    have h0 : z x ≠ 0 := by
      intro h0
      rw [h0, norm_zero] at hn
      exact zero_ne_one hn
    have c1 : Real.cos (z x).arg = c x * Real.cos θ₀ + s x * Real.sin θ₀ := by
      rw [Complex.cos_arg h0, hn, div_one]
    have s1 : Real.sin (z x).arg = s x * Real.cos θ₀ - c x * Real.sin θ₀ := by
      rw [Complex.sin_arg, hn, div_one]
    rw [Real.cos_add, Real.sin_add, c1, s1]
    constructor
    · linear_combination c x * e0
    · linear_combination s x * e0

/-- The sign of a number other than zero. -/
theorem exists_sign {x : ℝ} (hx : x ≠ 0) : ∃ e : ℝ, e ^ 2 = 1 ∧ e * |x| = x := by
  rcases lt_or_gt_of_ne hx with h | h
  · exact ⟨-1, by norm_num, by rw [abs_of_neg h]; ring⟩
  · exact ⟨1, by norm_num, by rw [abs_of_pos h]; ring⟩

/-- The arm follows the wrist centre. -/
theorem lift_arm {a1 a2 a3 q1 q2 q3 : ℝ} (ha : a2 * a3 ≠ 0)
    (h1 : a1 + a2 * Real.cos q2 + a3 * Real.cos (q2 + q3) ≠ 0) (h3 : Real.sin q3 ≠ 0) {w : X → V3}
    (hw : Tendsto w l (𝓝 (armPos a1 a2 a3 q1 q2 q3))) :
    ∃ t1 t2 t3 : X → ℝ, Tendsto t1 l (𝓝 q1) ∧ Tendsto t2 l (𝓝 q2) ∧ Tendsto t3 l (𝓝 q3) ∧
      ∀ᶠ x in l, armPos a1 a2 a3 (t1 x) (t2 x) (t3 x) = w x := by
  have ha2 : a2 ≠ 0 := left_ne_zero_of_mul ha
  have ha3 : a3 ≠ 0 := right_ne_zero_of_mul ha
  have e1 := Real.sin_sq_add_cos_sq q1
  have e2 := Real.sin_sq_add_cos_sq q2
  have e3 := Real.sin_sq_add_cos_sq q3
  set ρ₀ := a1 + a2 * Real.cos q2 + a3 * Real.cos (q2 + q3) with hρ₀
  have w0 : Tendsto (fun x => w x 0) l (𝓝 (Real.cos q1 * ρ₀)) := (tendsto_pi_nhds.1 hw) 0
  have w1 : Tendsto (fun x => w x 1) l (𝓝 (Real.sin q1 * ρ₀)) := (tendsto_pi_nhds.1 hw) 1
  have w2 : Tendsto (fun x => w x 2) l (𝓝 (a2 * Real.sin q2 + a3 * Real.sin (q2 + q3))) :=
    (tendsto_pi_nhds.1 hw) 2
  obtain ⟨e, he, hes⟩ := exists_sign h1
  -- the distance from the axis
  let ρ : X → ℝ := fun x => e * Real.sqrt (w x 0 ^ 2 + w x 1 ^ 2)
  have hρ : Tendsto ρ l (𝓝 ρ₀) := by
    have := ((w0.pow 2).add (w1.pow 2)).sqrt.const_mul e
    rwa [show (Real.cos q1 * ρ₀) ^ 2 + (Real.sin q1 * ρ₀) ^ 2 = ρ₀ ^ 2 by
      linear_combination ρ₀ ^ 2 * e1, Real.sqrt_sq_eq_abs, hes] at this
  have hρ2 : ∀ x, ρ x ^ 2 = w x 0 ^ 2 + w x 1 ^ 2 := by
    intro x
    show (e * _) ^ 2 = _
    rw [mul_pow, he, Real.sq_sqrt (by positivity), one_mul]
  have hρn : ∀ᶠ x in l, ρ x ≠ 0 := hρ.eventually_ne h1
  -- the first joint
  obtain ⟨t1, T1, E1⟩ := lift_angle (l := l) (c := fun x => w x 0 / ρ x) (s := fun x => w x 1 / ρ x)
    (θ₀ := q1) (by have := w0.div hρ h1; rwa [mul_div_assoc, div_self h1, mul_one] at this)
    (by have := w1.div hρ h1; rwa [mul_div_assoc, div_self h1, mul_one] at this) (by
      filter_upwards [hρn] with x hx
      rw [div_pow, div_pow, ← add_div, ← hρ2, div_self (pow_ne_zero 2 hx)])
  -- the third joint
  let r : X → ℝ := fun x => ρ x - a1
  have hr : Tendsto r l (𝓝 (a2 * Real.cos q2 + a3 * Real.cos (q2 + q3))) := by
    have := hρ.sub_const a1
    rwa [show ρ₀ - a1 = a2 * Real.cos q2 + a3 * Real.cos (q2 + q3) by rw [hρ₀]; ring] at this
  let c3 : X → ℝ := fun x => (r x ^ 2 + w x 2 ^ 2 - a2 ^ 2 - a3 ^ 2) / (2 * a2 * a3)
  have hc3 : Tendsto c3 l (𝓝 (Real.cos q3)) := by
    have := ((((hr.pow 2).add (w2.pow 2)).sub_const (a2 ^ 2)).sub_const (a3 ^ 2)).div_const
      (2 * a2 * a3)
    convert this using 2
    rw [Real.cos_add, Real.sin_add, eq_div_iff (by positivity)]
    linear_combination (-(a2 ^ 2) - 2 * a2 * a3 * Real.cos q3 -
      a3 ^ 2 * (Real.sin q3 ^ 2 + Real.cos q3 ^ 2)) * e2 - a3 ^ 2 * e3
  obtain ⟨f, hf, hfs⟩ := exists_sign h3
  let s3 : X → ℝ := fun x => f * Real.sqrt (1 - c3 x ^ 2)
  have hs3 : Tendsto s3 l (𝓝 (Real.sin q3)) := by
    have := ((hc3.pow 2).const_sub 1).sqrt.const_mul f
    rwa [show 1 - Real.cos q3 ^ 2 = Real.sin q3 ^ 2 by linarith, Real.sqrt_sq_eq_abs, hfs] at this
  have hu3 : ∀ᶠ x in l, c3 x ^ 2 + s3 x ^ 2 = 1 := by
    have hpos : (0 : ℝ) < 1 - Real.cos q3 ^ 2 := by
      have := sq_pos_of_ne_zero h3
      linarith
    filter_upwards [((hc3.pow 2).const_sub 1).eventually_const_lt hpos] with x hx
    show c3 x ^ 2 + (f * _) ^ 2 = 1
    rw [mul_pow, hf, Real.sq_sqrt hx.le]
    ring
  obtain ⟨t3, T3, E3⟩ := lift_angle hc3 hs3 hu3
  -- the second joint
  let D : X → ℝ := fun x => (a2 + a3 * c3 x) ^ 2 + (a3 * s3 x) ^ 2
  have hD0 : (a2 + a3 * Real.cos q3) ^ 2 + (a3 * Real.sin q3) ^ 2 ≠ 0 := by
    have := sq_pos_of_ne_zero (mul_ne_zero ha3 h3)
    positivity
  have hD : Tendsto D l (𝓝 ((a2 + a3 * Real.cos q3) ^ 2 + (a3 * Real.sin q3) ^ 2)) :=
    (((hc3.const_mul a3).const_add a2).pow 2).add ((hs3.const_mul a3).pow 2)
  have hDn : ∀ᶠ x in l, D x ≠ 0 := hD.eventually_ne hD0
  have hDr : ∀ᶠ x in l, D x = r x ^ 2 + w x 2 ^ 2 := by
    filter_upwards [hu3] with x hx
    have : 2 * a2 * a3 * c3 x = r x ^ 2 + w x 2 ^ 2 - a2 ^ 2 - a3 ^ 2 := by
      show 2 * a2 * a3 * (_ / _) = _
      field_simp
    show (a2 + a3 * c3 x) ^ 2 + (a3 * s3 x) ^ 2 = _
    linear_combination this + a3 ^ 2 * hx
  obtain ⟨t2, T2, E2⟩ := lift_angle (l := l)
    (c := fun x => (r x * (a2 + a3 * c3 x) + w x 2 * (a3 * s3 x)) / D x)
    (s := fun x => (w x 2 * (a2 + a3 * c3 x) - r x * (a3 * s3 x)) / D x) (θ₀ := q2) (by
      have := ((hr.mul ((hc3.const_mul a3).const_add a2)).add (w2.mul (hs3.const_mul a3))).div hD hD0
      convert this using 2
      · rfl
      rw [eq_div_iff hD0, Real.cos_add, Real.sin_add]
      ring) (by
      have := ((w2.mul ((hc3.const_mul a3).const_add a2)).sub (hr.mul (hs3.const_mul a3))).div hD hD0
      convert this using 2
      · rfl
      rw [eq_div_iff hD0, Real.cos_add, Real.sin_add]
      ring) (by
      filter_upwards [hDn, hDr] with x hx hx'
      rw [div_pow, div_pow, ← add_div, div_eq_one_iff_eq (pow_ne_zero 2 hx)]
      have : D x = (a2 + a3 * c3 x) ^ 2 + (a3 * s3 x) ^ 2 := rfl
      rw [show D x ^ 2 = D x * D x by ring]
      nth_rw 1 [hx']
      rw [this]
      ring)
  refine ⟨t1, t2, t3, T1, T2, T3, ?_⟩
  filter_upwards [E1, E2, E3, hρn, hDn] with x x1 x2 x3 hn hd
  have hDx : D x = (a2 + a3 * c3 x) ^ 2 + (a3 * s3 x) ^ 2 := rfl
  have k1 : a2 * Real.cos (t2 x) + a3 * Real.cos (t2 x + t3 x) = r x := by
    rw [Real.cos_add, x2.1, x2.2, x3.1, x3.2]
    field_simp
    rw [hDx]
    ring
  have k2 : a2 * Real.sin (t2 x) + a3 * Real.sin (t2 x + t3 x) = w x 2 := by
    rw [Real.sin_add, x2.1, x2.2, x3.1, x3.2]
    field_simp
    rw [hDx]
    ring
  have k3 : a1 + a2 * Real.cos (t2 x) + a3 * Real.cos (t2 x + t3 x) = ρ x := by
    rw [add_assoc, k1]
    show a1 + (ρ x - a1) = ρ x
    ring
  unfold armPos
  rw [k3, k2, x1.1, x1.2]
  ext i
  fin_cases i
  · show w x 0 / ρ x * ρ x = w x 0
    field_simp
  · show w x 1 / ρ x * ρ x = w x 1
    field_simp
  · rfl

/-- The wrist follows the orientation. -/
theorem lift_wrist {q4 q5 q6 : ℝ} (h5 : Real.sin q5 ≠ 0) {M : X → M3}
    (hM : Tendsto M l (𝓝 (zyz q4 q5 q6))) (hr : ∀ᶠ x in l, IsRot (M x)) :
    ∃ t4 t5 t6 : X → ℝ, Tendsto t4 l (𝓝 q4) ∧ Tendsto t5 l (𝓝 q5) ∧ Tendsto t6 l (𝓝 q6) ∧
      ∀ᶠ x in l, zyz (t4 x) (t5 x) (t6 x) = M x := by
  have hij : ∀ i j, Tendsto (fun x => M x i j) l (𝓝 (zyz q4 q5 q6 i j)) := fun i j =>
    (tendsto_pi_nhds.1 ((tendsto_pi_nhds.1 hM) i)) j
  rw [zyz_eq] at hij
  have m02 := hij 0 2
  have m12 := hij 1 2
  have m22 := hij 2 2
  have m20 := hij 2 0
  have m21 := hij 2 1
  simp at m02 m12 m22 m20 m21
  have e4 := Real.sin_sq_add_cos_sq q4
  have e5 := Real.sin_sq_add_cos_sq q5
  obtain ⟨e, he, hes⟩ := exists_sign h5
  let A : X → ℝ := fun x => Real.sqrt (M x 0 2 ^ 2 + M x 1 2 ^ 2)
  have hA : Tendsto A l (𝓝 |Real.sin q5|) := by
    have := ((m02.pow 2).add (m12.pow 2)).sqrt
    rwa [show (Real.cos q4 * Real.sin q5) ^ 2 + (Real.sin q4 * Real.sin q5) ^ 2 = Real.sin q5 ^ 2 by
      linear_combination Real.sin q5 ^ 2 * e4, Real.sqrt_sq_eq_abs] at this
  have hA0 : |Real.sin q5| ≠ 0 := abs_ne_zero.2 h5
  have hAn : ∀ᶠ x in l, A x ≠ 0 := hA.eventually_ne hA0
  have hA2 : ∀ x, A x ^ 2 = M x 0 2 ^ 2 + M x 1 2 ^ 2 := fun x => Real.sq_sqrt (by positivity)
  have hdiv : ∀ y : ℝ, e * (y * Real.sin q5 / |Real.sin q5|) = y := by
    intro y
    nth_rw 1 [← hes]
    field_simp
    linear_combination y * he
  obtain ⟨t4, T4, E4⟩ := lift_angle (l := l) (c := fun x => e * (M x 0 2 / A x))
    (s := fun x => e * (M x 1 2 / A x)) (θ₀ := q4)
    (by have := (m02.div hA hA0).const_mul e; rwa [hdiv] at this)
    (by have := (m12.div hA hA0).const_mul e; rwa [hdiv] at this) (by
      filter_upwards [hAn] with x hx
      rw [mul_pow, mul_pow, he, one_mul, one_mul, div_pow, div_pow, ← add_div, ← hA2,
        div_self (pow_ne_zero 2 hx)])
  obtain ⟨t5, T5, E5⟩ := lift_angle (l := l) (c := fun x => M x 2 2) (s := fun x => e * A x) (θ₀ := q5)
    m22 (by have := hA.const_mul e; rwa [hes] at this) (by
      filter_upwards [hr] with x hx
      rw [mul_pow, he, one_mul, hA2]
      linarith [hx.relations.1])
  obtain ⟨t6, T6, E6⟩ := lift_angle (l := l) (c := fun x => e * (-M x 2 0 / A x))
    (s := fun x => e * (M x 2 1 / A x)) (θ₀ := q6)
    (by
      have := (m20.neg.div hA hA0).const_mul e
      rwa [neg_neg, mul_comm (Real.sin q5), hdiv] at this)
    (by
      have := (m21.div hA hA0).const_mul e
      rwa [mul_comm (Real.sin q5), hdiv] at this) (by
      filter_upwards [hAn, hr] with x hx hx'
      obtain ⟨r1, r2, -⟩ := hx'.relations
      rw [mul_pow, mul_pow, he, one_mul, one_mul, div_pow, div_pow, ← add_div,
        div_eq_one_iff_eq (pow_ne_zero 2 hx), hA2]
      linarith)
  refine ⟨t4, t5, t6, T4, T5, T6, ?_⟩
  filter_upwards [E4, E5, E6, hAn, hr] with x x4 x5 x6 hn hx
  exact zyz_of_cs hx hn (hA2 x) he x4.1 x4.2 x5.1 x5.2 x6.1 x6.2

theorem tendsto_armRot {t1 φ : X → ℝ} {q1 φ₀ : ℝ} (h1 : Tendsto t1 l (𝓝 q1))
    (h2 : Tendsto φ l (𝓝 φ₀)) : Tendsto (fun x => armRot (t1 x) (φ x)) l (𝓝 (armRot q1 φ₀)) := by
  have hc : Continuous fun p : ℝ × ℝ => armRot p.1 p.2 := by
    unfold armRot
    refine continuous_matrix fun i j => ?_
    fin_cases i <;> fin_cases j <;> simp <;> fun_prop
  have h : Tendsto (fun x => (t1 x, φ x)) l (𝓝 (q1, φ₀)) := h1.prodMk_nhds h2
  have h' : Tendsto (fun p : ℝ × ℝ => armRot p.1 p.2) (𝓝 (q1, φ₀)) (𝓝 (armRot q1 φ₀)) :=
    hc.tendsto (q1, φ₀)
  have := h'.comp h
  have e : (fun p : ℝ × ℝ => armRot p.1 p.2) ∘ (fun x => (t1 x, φ x)) =
    fun x => armRot (t1 x) (φ x) := rfl
  rwa [e] at this

/-- A Kuka follows a pose. -/
theorem lift_kuka {a1 a2 d4 d6 q1 q2 q3 q4 q5 q6 : ℝ} (ha : a2 * d4 ≠ 0)
    (h1 : a1 + a2 * Real.cos q2 + d4 * Real.sin (q2 + q3) ≠ 0) (h3 : Real.cos q3 ≠ 0)
    (h5 : Real.sin q5 ≠ 0) {R₀ : M3} {p₀ : V3}
    (h0 : chain (kukaRobot a1 a2 d4 d6).links [q1, q2, q3, q4, q5, q6] = mkTf R₀ p₀)
    {R : X → M3} {p : X → V3} (hR : Tendsto R l (𝓝 R₀)) (hp : Tendsto p l (𝓝 p₀))
    (hrot : ∀ᶠ x in l, IsRot (R x)) :
    ∃ t1 t2 t3 t4 t5 t6 : X → ℝ, Tendsto t1 l (𝓝 q1) ∧ Tendsto t2 l (𝓝 q2) ∧ Tendsto t3 l (𝓝 q3) ∧
      Tendsto t4 l (𝓝 q4) ∧ Tendsto t5 l (𝓝 q5) ∧ Tendsto t6 l (𝓝 q6) ∧
      ∀ᶠ x in l, chain (kukaRobot a1 a2 d4 d6).links [t1 x, t2 x, t3 x, t4 x, t5 x, t6 x] =
        mkTf (R x) (p x) := by
  rw [chain_kuka] at h0
  have hR₀ := congrArg rotPart h0
  have hp₀ := congrArg posPart h0
  rw [rotPart_mkTf, rotPart_mkTf] at hR₀
  rw [posPart_mkTf, posPart_mkTf, hR₀] at hp₀
  have hw : Tendsto (fun x => p x - R x *ᵥ ![0, 0, d6]) l
      (𝓝 (armPos a1 a2 d4 q1 q2 (q3 - Real.pi / 2))) := by
    have hm : Tendsto (fun x => R x *ᵥ ![0, 0, d6]) l (𝓝 (R₀ *ᵥ ![0, 0, d6])) := by
      have : Continuous fun M : M3 => M *ᵥ (![0, 0, d6] : V3) :=
        Continuous.matrix_mulVec continuous_id continuous_const
      exact (this.tendsto R₀).comp hR
    have := hp.sub hm
    rwa [show p₀ - R₀ *ᵥ ![0, 0, d6] = armPos a1 a2 d4 q1 q2 (q3 - Real.pi / 2) by
      rw [← hp₀]; simp] at this
  obtain ⟨t1, t2, s3, T1, T2, S3, E⟩ := lift_arm ha (by
    rw [show q2 + (q3 - Real.pi / 2) = q2 + q3 - Real.pi / 2 by ring, Real.cos_sub_pi_div_two]
    exact h1) (by rw [Real.sin_sub_pi_div_two]; exact neg_ne_zero.2 h3) hw
  have T3 : Tendsto (fun x => s3 x + Real.pi / 2) l (𝓝 q3) := by
    simpa using S3.add_const (Real.pi / 2)
  have hA := tendsto_armRot T1 (T2.add T3)
  obtain ⟨t4, t5, t6, T4, T5, T6, E'⟩ := lift_wrist (l := l) (q4 := q4) (q6 := q6) h5
    (M := fun x => (armRot (t1 x) (t2 x + (s3 x + Real.pi / 2)))ᵀ * R x) (by
      have hT : Tendsto (fun x => (armRot (t1 x) (t2 x + (s3 x + Real.pi / 2)))ᵀ) l
          (𝓝 (armRot q1 (q2 + q3))ᵀ) := by
        have h' := (Continuous.matrix_transpose (continuous_id (X := M3))).tendsto (armRot q1 (q2 + q3))
        exact Tendsto.congr (fun _ => rfl) (h'.comp hA)
      have this := hT.mul hR
      have key : (armRot q1 (q2 + q3))ᵀ * R₀ = zyz q4 q5 q6 := by
        rw [← hR₀, ← Matrix.mul_assoc, (armRot_isRot q1 (q2 + q3)).1, Matrix.one_mul]
      rwa [key] at this) (by
      filter_upwards [hrot] with x hx
      exact (armRot_isRot _ _).transpose.mul hx)
  refine ⟨t1, t2, _, t4, t5, t6, T1, T2, T3, T4, T5, T6, ?_⟩
  filter_upwards [E, E'] with x hx hx'
  rw [chain_kuka, hx', ← Matrix.mul_assoc, (armRot_isRot _ _).mul_transpose, Matrix.one_mul,
    add_sub_cancel_right, hx]
  simp

end Verif.Kin
