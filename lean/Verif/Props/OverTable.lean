import Verif.Props.SelfClear
import Verif.Props.OptScript
import Verif.Props.ProgramExact

/-! # The Kuka over the table: the problem of optimization_based.py has a solution (C127) -/

set_option linter.unusedSectionVars false

namespace Verif.Props

open Matrix Verif Verif.Geometry Verif.Kin Verif.Util Verif.Path Verif.Resources Verif.Optimization
  Verif.Examples

/-- The two arm links of the Kuka, with the elbow up: the directions of the upper arm and of the
forearm, from the shoulder to a wrist centre at distance `X` and height 0.315. -/
theorem elbow_up {X : ℝ} (h1 : 0.62 ≤ X) (h2 : X ≤ 0.645) : ∃ c s f g : ℝ, c ^ 2 + s ^ 2 = 1 ∧
    g ^ 2 + f ^ 2 = 1 ∧ 0.6 * c + 0.62 * f = X ∧ 0.6 * s - 0.62 * g = 0.315 ∧ 0 ≤ c ∧ c ≤ 0.2 ∧
    0.9 ≤ s ∧ s ≤ 1 ∧ 0 ≤ g ∧ g ≤ 0.5 ∧ 0 ≤ f ∧ f ≤ 1 := by
  obtain ⟨D, hD⟩ : ∃ D : ℝ, D = X ^ 2 + 0.315 ^ 2 := ⟨_, rfl⟩
  obtain ⟨k, hk⟩ : ∃ k : ℝ, k = (D + 0.6 ^ 2 - 0.62 ^ 2) / 1.2 := ⟨_, rfl⟩
  have d1 : 0.4836 ≤ D := by rw [hD]; nlinarith
  have d2 : D ≤ 0.5153 := by rw [hD]; nlinarith
  have k1 : 0.382 ≤ k := by rw [hk, le_div_iff₀ (by norm_num)]; linarith
  have k2 : k ≤ 0.41 := by rw [hk, div_le_iff₀ (by norm_num)]; linarith
  have hDk : D = 1.2 * k + 0.0244 := by rw [hk]; ring
  have hpos : 0.57 ^ 2 ≤ D - k ^ 2 := by
    rw [hDk]; nlinarith [mul_nonneg (sub_nonneg.2 k1) (sub_nonneg.2 k2)]
  have hle : D - k ^ 2 ≤ 0.6 ^ 2 := by
    rw [hDk]; nlinarith [mul_nonneg (sub_nonneg.2 k1) (sub_nonneg.2 k2)]
  obtain ⟨h, hh⟩ : ∃ h : ℝ, h = Real.sqrt (D - k ^ 2) := ⟨_, rfl⟩
  have hsq : h ^ 2 = D - k ^ 2 := by rw [hh]; exact Real.sq_sqrt (by nlinarith)
  have l1 : 0.57 ≤ h := by rw [hh]; exact Real.le_sqrt_of_sq_le hpos
  have l2 : h ≤ 0.6 := by rw [hh]; exact Real.sqrt_le_iff.2 ⟨by norm_num, hle⟩
  have D0 : D ≠ 0 := by linarith
  obtain ⟨c, hc⟩ : ∃ c : ℝ, c = (k * X - 0.315 * h) / D := ⟨_, rfl⟩
  obtain ⟨s, hs⟩ : ∃ s : ℝ, s = (0.315 * k + h * X) / D := ⟨_, rfl⟩
  have hcs : c ^ 2 + s ^ 2 = 1 := by
    rw [hc, hs, div_pow, div_pow, ← add_div, div_eq_one_iff_eq (pow_ne_zero 2 D0)]
    have : D ^ 2 = (k ^ 2 + h ^ 2) * (X ^ 2 + 0.315 ^ 2) := by rw [hsq, ← hD]; ring
    rw [this]; ring
  have hdot : c * X + s * 0.315 = k := by
    rw [hc, hs]
    field_simp
    rw [hD]
    ring
  have m1 : 0.382 * 0.62 ≤ k * X := mul_le_mul k1 h1 (by norm_num) (by linarith)
  have m2 : k * X ≤ 0.41 * 0.645 := mul_le_mul k2 h2 (by linarith) (by norm_num)
  have m3 : 0.57 * 0.62 ≤ h * X := mul_le_mul l1 h1 (by norm_num) (by linarith)
  have c0 : 0 ≤ c := by
    rw [hc]; apply div_nonneg <;> linarith
  have c1 : c ≤ 0.2 := by
    rw [hc, div_le_iff₀ (by linarith)]; linarith
  have s0 : 0.9 ≤ s := by
    rw [hs, le_div_iff₀ (by linarith)]; linarith
  have s1 : s ≤ 1 := by
    have : |s| ≤ 1 := abs_le_one_iff_mul_self_le_one.2 (by linarith [mul_self_nonneg c, sq c, sq s])
    exact (abs_le.1 this).2
  have hunit : ((0.6 * s - 0.315) / 0.62) ^ 2 + ((X - 0.6 * c) / 0.62) ^ 2 = 1 := by
    rw [div_pow, div_pow, ← add_div, div_eq_one_iff_eq (by norm_num)]
    rw [← hdot, hD] at hDk
    linear_combination 0.36 * hcs + hDk
  have g0 : 0 ≤ (0.6 * s - 0.315) / 0.62 := by apply div_nonneg <;> linarith
  have g1 : (0.6 * s - 0.315) / 0.62 ≤ 0.5 := by rw [div_le_iff₀ (by norm_num)]; linarith
  have f0 : 0 ≤ (X - 0.6 * c) / 0.62 := by apply div_nonneg <;> linarith
  refine ⟨c, s, (X - 0.6 * c) / 0.62, (0.6 * s - 0.315) / 0.62, hcs, hunit, by ring, by ring, c0, c1, s0,
    s1, g0, g1, f0, ?_⟩
  generalize (0.6 * s - 0.315) / 0.62 = g at *
  generalize (X - 0.6 * c) / 0.62 = f at *
  have : |f| ≤ 1 := abs_le_one_iff_mul_self_le_one.2 (by linarith [mul_self_nonneg g, sq f, sq g])
  exact (abs_le.1 this).2

/-- Everything that stays left of the table or above it keeps away from it. -/
theorem away_from_table {p x : V3} (hp : p 0 ≤ 0.5 ∨ 0.19 ≤ p 2) (hx : ∃ i, x ∈ wallPoints scene1 i) :
    margin ≤ Real.sqrt (dist2 p x) := by
  obtain ⟨h0, -, -, h2⟩ := (C92_scenes x).1.1 hx
  rw [abs_le] at h0
  change _ ≤ gap p x
  rcases hp with hp | hp
  · refine le_trans ?_ (coord_le_gap p x 0)
    rw [abs_of_nonpos (by linarith)]
    unfold margin
    linarith
  · refine le_trans ?_ (coord_le_gap p x 2)
    rw [abs_of_nonneg (by linarith)]
    unfold margin
    linarith

theorem left_of_table {c s x z : ℝ} (h0 : 0 ≤ c) (h1 : c ≤ 1) (hs : -0.25 ≤ s ∧ s ≤ 0.25)
    (hx : x ≤ 0.45) (hz : -0.1 ≤ z ∧ z ≤ 0.1) : c * x + s * z ≤ 0.5 := by
  have a : c * x ≤ 0.45 := by nlinarith
  have b : s * z ≤ 0.25 * 0.1 := by
    calc s * z ≤ |s * z| := le_abs_self _
      _ = |s| * |z| := abs_mul _ _
      _ ≤ 0.25 * 0.1 := mul_le_mul (abs_le.2 hs) (abs_le.2 hz) (abs_nonneg _) (by norm_num)
  linarith

theorem upper_num {c s x y : ℝ} (c0 : 0 ≤ c) (c1 : c ≤ 0.2) (s0 : 0.9 ≤ s) (s1 : s ≤ 1)
    (hx : x ≤ 0.1) (hy : -0.1 ≤ y) : c * (x + 0.6) - s * y + 0.18 ≤ 0.45 := by
  have a : c * (x + 0.6) ≤ c * 0.7 := mul_le_mul_of_nonneg_left (by linarith) c0
  have b : s * -0.1 ≤ s * y := mul_le_mul_of_nonneg_left hy (by linarith)
  linarith

theorem fore_num {f g s x z : ℝ} (f0 : 0 ≤ f) (f1 : f ≤ 1) (g0 : 0 ≤ g) (g1 : g ≤ 0.5)
    (s0 : 0.9 ≤ s) (hx : -0.1 ≤ x) (hz : z ≤ 0.42) : 0.19 ≤ f * x - g * z + 0.6 * s := by
  have a : f * -0.1 ≤ f * x := mul_le_mul_of_nonneg_left hx f0
  have b : g * z ≤ g * 0.42 := mul_le_mul_of_nonneg_left hz g0
  linarith

theorem wrist_num {f g x y : ℝ} (f0 : 0 ≤ f) (f1 : f ≤ 1) (g0 : 0 ≤ g) (hx : -0.05 ≤ x)
    (hy : 0 ≤ y) : 0.19 ≤ f * x + g * y + 0.315 := by
  have a : f * -0.05 ≤ f * x := mul_le_mul_of_nonneg_left hx f0
  have b : 0 ≤ g * y := mul_nonneg g0 hy
  linarith

theorem bend_num {c s f g : ℝ} (hgf : g ^ 2 + f ^ 2 = 1) (c0 : 0 ≤ c) (c1 : c ≤ 0.2) (s0 : 0 ≤ s)
    (s1 : s ≤ 1) (g0 : 0 ≤ g) (g1 : g ≤ 0.5) (f0 : 0 ≤ f) (f1 : f ≤ 1) : |f * c - g * s| ≤ 0.7 ∧ -f ≠ 0 := by
  have h1 : f * c ≤ 1 * 0.2 := mul_le_mul f1 c1 c0 (by norm_num)
  have h2 : g * s ≤ 0.5 * 1 := mul_le_mul g1 s1 s0 (by norm_num)
  have h3 : 0 ≤ f * c := mul_nonneg f0 c0
  have h4 : 0 ≤ g * s := mul_nonneg g0 s0
  refine ⟨abs_le.2 ⟨by linarith, by linarith⟩, fun h => ?_⟩
  have : f = 0 := by linarith
  rw [this] at hgf
  nlinarith

/-- Over every point of the line there is a configuration with the flange at the point, pointing
down, and all links away from the table.  It is not singular: the wrist is off the axis of the base,
the elbow and the wrist are bent. -/
theorem over_table {y : ℝ} (hy : |y| ≤ 0.2) : ∃ q1 q2 q3 q5 : ℝ,
    act (frameOf scriptKuka.robot [q1, q2, q3, 0, q5, 0] 5) 0 = ![0.8, y, 0.2] ∧
    (0.18 + 0.6 * Real.cos q2 + 0.62 * Real.sin (q2 + q3) ≠ 0 ∧ |Real.sin q3| ≤ 0.7 ∧
      Real.sin q5 ≠ 0) ∧
    ∀ (k : Nat), ∀ p ∈ linkBody scriptKuka.robot [q1, q2, q3, 0, q5, 0] k, p 0 ≤ 0.5 ∨ 0.19 ≤ p 2 := by
  rw [abs_le] at hy
  obtain ⟨R, hR⟩ : ∃ R : ℝ, R = Real.sqrt (0.8 ^ 2 + y ^ 2) := ⟨_, rfl⟩
  have hsq : R ^ 2 = 0.8 ^ 2 + y ^ 2 := by rw [hR]; exact Real.sq_sqrt (by positivity)
  have R0 : 0 ≤ R := by rw [hR]; exact Real.sqrt_nonneg _
  have R1 : 0.8 ≤ R := by nlinarith
  have R2 : R ≤ 0.825 := by nlinarith
  obtain ⟨c, s, f, g, hcs, hgf, hx, hz, c0, c1, s0, s1, g0, g1, f0, f1⟩ :=
    elbow_up (X := R - 0.18) (by linarith) (by linarith)
  have hbend := bend_num hgf c0 c1 (by linarith) s1 g0 g1 f0 f1
  have hreg : 0.18 + 0.6 * c + 0.62 * f = R := by linarith
  obtain ⟨q1, a1, b1⟩ := exists_angle (x := 0.8 / R) (y := y / R) (by
    field_simp
    linarith)
  obtain ⟨q2, a2, b2⟩ := exists_angle hcs
  obtain ⟨phi, a3, b3⟩ := exists_angle hgf
  have hRc : R * Real.cos q1 = 0.8 := by rw [a1]; field_simp
  have hRs : R * Real.sin q1 = y := by rw [b1]; field_simp
  have k1 : Real.cos q1 ≤ 1 := Real.cos_le_one _
  have k2 : 0 ≤ Real.cos q1 := by rw [a1]; positivity
  have k3 : |Real.sin q1| ≤ 0.25 := by
    rw [b1, abs_le]
    constructor
    · rw [le_div_iff₀ (by linarith)]; linarith
    · rw [div_le_iff₀ (by linarith)]; linarith
  rw [abs_le] at k3
  refine ⟨q1, q2, phi - q2, -phi, ?_⟩
  obtain ⟨Q, hQ⟩ : ∃ Q : List ℝ, Q = [q1, q2, phi - q2, 0, -phi, 0] := ⟨_, rfl⟩
  rw [← hQ]
  have st : ∀ (k : Nat) (l : Link Shape) (x : ℝ), (kukaRobot 0.18 0.6 0.62 0.115).links[k + 1]? =
      some l → Q[k + 1]? = some x → ∀ u, act (frameOf scriptKuka.robot Q (k + 1)) u =
        act (frameOf scriptKuka.robot Q k) (act (l.tf x) u) := fun k l x hl hx u =>
    frame_step (r := scriptKuka.robot) IsRigid.one hl hx u
  have e1 : Real.sin (-Real.pi / 2) = -1 := by
    rw [neg_div, Real.sin_neg, Real.sin_pi_div_two]
  have e2 : Real.cos (-Real.pi / 2) = 0 := by
    rw [neg_div, Real.cos_neg, Real.cos_pi_div_two]
  have t1 := st 0 _ q2 rfl (by rw [hQ]; rfl)
  have t2 := st 1 _ (phi - q2) rfl (by rw [hQ]; rfl)
  have t3 := st 2 _ 0 rfl (by rw [hQ]; rfl)
  have t4 := st 3 _ (-phi) rfl (by rw [hQ]; rfl)
  have t5 := st 4 _ 0 rfl (by rw [hQ]; rfl)
  have t0 : ∀ u, act (frameOf scriptKuka.robot Q 0) u = act (dhMat 0.18 (Real.pi / 2) 0 q1) u := by
    intro u
    have := frameBefore_succ scriptKuka.robot (q := Q) (k := 0) (x := q1) rfl (by rw [hQ]; rfl)
    change frameOf scriptKuka.robot Q 0 = _ at this
    rw [this]
    congr 1
    simp [frameBefore, linkProduct, Link.tf]
    exact one_mul _
  simp only [Link.tf, act_dhMat_coord, Real.cos_zero, Real.sin_zero, Real.cos_pi_div_two,
    Real.sin_pi_div_two, e1, e2, Real.cos_neg, Real.sin_neg, Real.cos_sub, Real.sin_sub, a2, b2, a3,
    b3] at t0 t1 t2 t3 t4 t5
  have w0 : ∀ u, act (frameOf scriptKuka.robot Q 0) u = ![Real.cos q1 * (u 0 + 0.18) +
      Real.sin q1 * u 2, Real.sin q1 * (u 0 + 0.18) - Real.cos q1 * u 2, u 1] := by
    intro u
    rw [t0]
    ext i; fin_cases i <;> simp only [Fin.zero_eta, Fin.mk_one, Fin.reduceFinMk, Matrix.cons_val] <;>
      ring
  have w1 : ∀ u, act (frameOf scriptKuka.robot Q 1) u = ![Real.cos q1 * (c * (u 0 + 0.6) - s * u 1 +
      0.18) + Real.sin q1 * u 2, Real.sin q1 * (c * (u 0 + 0.6) - s * u 1 + 0.18) -
      Real.cos q1 * u 2, s * (u 0 + 0.6) + c * u 1] := by
    intro u
    rw [t1, w0]
    ext i; fin_cases i <;> simp only [Fin.zero_eta, Fin.mk_one, Fin.reduceFinMk, Matrix.cons_val] <;>
      ring
  have w2 : ∀ u, act (frameOf scriptKuka.robot Q 2) u = ![Real.cos q1 * (g * u 0 + f * u 2 + 0.6 * c +
      0.18) + Real.sin q1 * u 1, Real.sin q1 * (g * u 0 + f * u 2 + 0.6 * c + 0.18) -
      Real.cos q1 * u 1, f * u 0 - g * u 2 + 0.6 * s] := by
    intro u
    rw [t2, w1]
    ext i; fin_cases i <;> simp only [Fin.zero_eta, Fin.mk_one, Fin.reduceFinMk, Matrix.cons_val]
    · linear_combination Real.cos q1 * (g * u 0 + f * u 2) * hcs
    · linear_combination Real.sin q1 * (g * u 0 + f * u 2) * hcs
    · linear_combination (f * u 0 - g * u 2) * hcs
  have w3 : ∀ u, act (frameOf scriptKuka.robot Q 3) u = ![Real.cos q1 * (g * u 0 - f * u 1 + R) +
      Real.sin q1 * u 2, Real.sin q1 * (g * u 0 - f * u 1 + R) - Real.cos q1 * u 2,
      f * u 0 + g * u 1 + 0.315] := by
    intro u
    rw [t3, w2]
    ext i; fin_cases i <;> simp only [Fin.zero_eta, Fin.mk_one, Fin.reduceFinMk, Matrix.cons_val]
    · linear_combination Real.cos q1 * hx
    · linear_combination Real.sin q1 * hx
    · linear_combination hz
  have w4 : ∀ u, act (frameOf scriptKuka.robot Q 4) u = ![Real.cos q1 * (u 0 + R) +
      Real.sin q1 * u 1, Real.sin q1 * (u 0 + R) - Real.cos q1 * u 1, 0.315 - u 2] := by
    intro u
    rw [t4, w3]
    ext i; fin_cases i <;> simp only [Fin.zero_eta, Fin.mk_one, Fin.reduceFinMk, Matrix.cons_val]
    · linear_combination Real.cos q1 * u 0 * hgf
    · linear_combination Real.sin q1 * u 0 * hgf
    · linear_combination -u 2 * hgf
  have w5 : ∀ u, act (frameOf scriptKuka.robot Q 5) u = ![Real.cos q1 * (u 0 + R) +
      Real.sin q1 * u 1, Real.sin q1 * (u 0 + R) - Real.cos q1 * u 1, 0.2 - u 2] := by
    intro u
    rw [t5, w4]
    ext i; fin_cases i <;> simp only [Fin.zero_eta, Fin.mk_one, Fin.reduceFinMk, Matrix.cons_val] <;>
      ring
  obtain ⟨B0, B1, B2, B3, B4, B5, B6⟩ := C113_kuka 0.18 0.6 0.62 0.115 scriptKuka.robot rfl IsRigid.one Q
  have hb : IsRigid scriptKuka.robot.tfBase := IsRigid.one
  refine ⟨?_, ⟨?_, ?_, ?_⟩, fun k p hp => ?_⟩
  · rw [w5]
    ext i; fin_cases i <;> simp only [Fin.zero_eta, Fin.mk_one, Fin.reduceFinMk, Matrix.cons_val,
      Pi.zero_apply]
    · linear_combination hRc
    · linear_combination hRs
    · ring
  · rw [add_sub_cancel, a2, b3, hreg]
    exact (lt_of_lt_of_le (by norm_num) R1).ne'
  · rw [Real.sin_sub, a2, a3, b2, b3]
    exact hbend.1
  · rw [Real.sin_neg, b3]
    exact hbend.2
  · rcases k with _ | _ | _ | _ | _ | _ | k
    · left
      obtain ⟨u, rfl, hu⟩ := B0.mem hb hp
      have v0 := hu 0
      have v2 := hu 2
      rw [w0]
      simp only [Matrix.cons_val] at v0 v2 ⊢
      exact left_of_table k2 k1 k3 (by linarith) ⟨by linarith, by linarith⟩
    · left
      obtain ⟨u, rfl, hu⟩ := B1.mem hb hp
      have v0 := hu 0
      have v1 := hu 1
      have v2 := hu 2
      rw [w1]
      simp only [Matrix.cons_val] at v0 v1 v2 ⊢
      exact left_of_table k2 k1 k3 (upper_num c0 c1 s0 s1 v0.2 v1.1) ⟨by linarith, by linarith⟩
    · right
      obtain ⟨u, rfl, hu⟩ := B2.mem hb hp
      have v0 := hu 0
      have v2 := hu 2
      rw [w2]
      simp only [Matrix.cons_val] at v0 v2 ⊢
      exact fore_num f0 f1 g0 g1 s0 v0.1 v2.2
    · right
      obtain ⟨u, rfl, hu⟩ := B3.mem hb hp
      have v0 := hu 0
      have v1 := hu 1
      rw [w3]
      simp only [Matrix.cons_val] at v0 v1 ⊢
      exact wrist_num f0 f1 g0 v0.1 v1.1
    · right
      obtain ⟨u, rfl, hu⟩ := B4.mem hb hp
      have v2 := hu 2
      rw [w4]
      simp only [Matrix.cons_val] at v2 ⊢
      linarith
    · right
      obtain ⟨u, rfl, hu⟩ := B5.mem hb hp
      have v2 := hu 2
      rw [w5]
      simp only [Matrix.cons_val] at v2 ⊢
      linarith
    · rw [B6 _ (by omega)] at hp
      exact absurd hp (Set.notMem_empty p)

/-- **C127**: the problem of the script has a solution: some solver that keeps its promise leads to a
joint path. -/
theorem C127_solvable [Zeros] :
    ∃ solver q, SolverOK solver ∧ optimizationBased solver 15 = .ok q := by
  have hy : ∀ i : Fin 15, |(onLine ![0.8, -0.2, 0.2] ![0.8, 0.2, 0.2] 15 i) 1| ≤ 0.2 := by
    intro i
    have h := i.2
    have h0 : ((i : Nat) : ℝ) ≤ 14 := by exact_mod_cast (by omega : (i : Nat) ≤ 14)
    have h1 : (0 : ℝ) ≤ ((i : Nat) : ℝ) := Nat.cast_nonneg _
    unfold onLine
    simp only [Matrix.cons_val]
    rw [abs_le]
    constructor <;> norm_num <;> linarith
  choose q1 q2 q3 q5 hpos _ hbody using fun i : Fin 15 => over_table (hy i)
  obtain ⟨path, hpath, h15, hpts⟩ := C92_path_ori_free 15
  change pathOriFree 15 = _ at hpath
  let q : List (List ℝ) := List.ofFn fun i => [q1 i, q2 i, q3 i, 0, q5 i, 0]
  obtain ⟨solver, hs, hfound⟩ := C129_found (path := path.map PathPt.free) (script_points path)
    (r := scriptKuka.robot) rfl script_revolute script_one script_rigid (scene := some scene1)
    script_scene (q := q) (by simp [q, h15]) (by
      intro row h
      obtain ⟨i, rfl⟩ := List.mem_ofFn.1 h
      rfl) (by
      intro i qi tp hqi htp
      have hi : i < 15 := by
        have := (List.getElem?_eq_some_iff.1 hqi).1
        simpa [q] using this
      have hqi' : qi = [q1 ⟨i, hi⟩, q2 ⟨i, hi⟩, q3 ⟨i, hi⟩, 0, q5 ⟨i, hi⟩, 0] := by
        have := (List.getElem?_eq_some_iff.1 hqi).2
        rw [← this]
        exact List.getElem_ofFn _
      obtain ⟨pt, hpt, rfl⟩ : ∃ pt, path[i]? = some pt ∧ tp = .free pt := by
        rw [List.getElem?_map] at htp
        cases h : path[i]? with
        | none => rw [h] at htp; cases htp
        | some pt => rw [h] at htp; cases htp; exact ⟨pt, rfl, rfl⟩
      have hline := (hpts i pt hpt).1
      rw [hqi']
      refine ⟨(fkSatisfies_iff _ _ (setup_known 0.18 0.6 0.62 0.115 0 1 none) _ (le_refl _) _).2 ?_,
        ?_⟩
      · change PositionOf _ (posPart (scriptKuka.robot.tfBase * chain scriptKuka.robot.links _ *
          tip scriptKuka.robot))
        rw [← script_frame rfl]
        refine Or.inl ⟨pt, rfl, ?_⟩
        have e0 : ∀ T : M4, posPart T = act T 0 := fun T => by simp [act]
        rw [e0, hpos, hline]
        funext j
        fin_cases j
        · simp [onLine]
        · rfl
        · simp [onLine]
      · rintro s ⟨⟩ k a j l sh o tf tfo h1 h2 h3 h4 h5 u hu v hv
        exact away_from_table (hbody ⟨i, hi⟩ k _ ⟨a, l, sh, tf, h1, h2, h3, u, hu, rfl⟩)
          ⟨j, o, tfo, h4, h5, v, hv, rfl⟩)
  obtain ⟨sols, path', q0, -, -, h3, -, h5, h6, h7⟩ := script_eq boxOracle solver (N := 15) (by norm_num)
  rw [hpath] at h5
  cases h5
  refine ⟨solver, q, hs, ?_⟩
  rw [h7, hfound _ _ (by simp [h15]) fun row h => by rw [List.eq_of_mem_replicate h, h3]]
  rfl

/-- C127: a case of `C127_result`. -/
example [Zeros] :
    ∃ solver q, SolverOK solver ∧ optimizationBased solver 15 = .ok q ∧ q.length = 15 := by
  obtain ⟨solver, q, hs, h⟩ := C127_solvable
  exact ⟨solver, q, hs, h, (C127_result hs h).1⟩

end Verif.Props
