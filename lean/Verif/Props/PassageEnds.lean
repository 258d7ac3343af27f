import Verif.Props.Welds

/-! # weld_circle.py ends with probability one (C146)

At every point of the small passage the torch, with its wire straight up, comes from below; the arm
reaches it with the elbow down, and nothing touches. -/

set_option linter.unusedSectionVars false

namespace Verif.Props

open Matrix Verif Verif.Path Verif.Geometry Verif.Kin Verif.Util Verif.ShortestPath Verif.Task
  Verif.CppGraph Verif.Search Verif.Planning Verif.Resources Verif.Examples MeasureTheory

noncomputable section

theorem elbow_pass {X Z : ℝ} (h1 : 0.3429 ≤ X) (h2 : X ≤ 0.3548) (h3 : 0.3152 ≤ Z) (h4 : Z ≤ 0.3175) :
    ∃ c s f g : ℝ, c ^ 2 + s ^ 2 = 1 ∧ g ^ 2 + f ^ 2 = 1 ∧ 0.6 * c + 0.62 * f = X ∧
      0.6 * s - 0.62 * g = -Z ∧ -0.402 ≤ c ∧ c ≤ -0.34 ∧ -0.941 ≤ s ∧ s ≤ -0.91 ∧ -0.405 ≤ g ∧
      g ≤ -0.37 ∧ 0.9 ≤ f ∧ f ≤ 0.93 := by
  obtain ⟨r, hr⟩ : ∃ r, r = X ^ 2 + Z ^ 2 := ⟨_, rfl⟩
  have x2 : X ^ 2 ≤ 0.3548 ^ 2 := pow_le_pow_left₀ (by linarith) h2 2
  have x2' : 0.3429 ^ 2 ≤ X ^ 2 := pow_le_pow_left₀ (by norm_num) h1 2
  have z2 : Z ^ 2 ≤ 0.3175 ^ 2 := pow_le_pow_left₀ (by linarith) h4 2
  have z2' : 0.3152 ^ 2 ≤ Z ^ 2 := pow_le_pow_left₀ (by norm_num) h3 2
  have r1 : 0.2169 ≤ r := by rw [hr]; norm_num at *; linarith
  have r2 : r ≤ 0.2267 := by rw [hr]; norm_num at *; linarith
  obtain ⟨k, hk⟩ : ∃ k, k = (r - 0.0244) / 2 := ⟨_, rfl⟩
  have k1 : 0.09625 ≤ k := by rw [hk]; linarith
  have k2 : k ≤ 0.10115 := by rw [hk]; linarith
  have hr' : r = 2 * k + 0.0244 := by rw [hk]; ring
  have d1 : 0.262 ^ 2 ≤ 0.36 * r - k ^ 2 := by rw [hr']; nlinarith
  have d2 : 0.36 * r - k ^ 2 ≤ 0.268 ^ 2 := by rw [hr']; nlinarith
  obtain ⟨h, hh⟩ : ∃ h, h = Real.sqrt (0.36 * r - k ^ 2) := ⟨_, rfl⟩
  have hsq : h ^ 2 = 0.36 * r - k ^ 2 := by
    rw [hh]; exact Real.sq_sqrt (by linarith [sq_nonneg (0.262 : ℝ)])
  have hl : 0.262 ≤ h := by rw [hh]; exact Real.le_sqrt_of_sq_le d1
  have hu : h ≤ 0.268 := by rw [hh, Real.sqrt_le_left (by norm_num)]; exact d2
  have p1 : 0 < X := by linarith
  have p2 : 0 < Z := by linarith
  have p3 : 0 < h := by linarith
  have p4 : 0 < k := by linarith
  have p5 : 0 < r := by linarith
  obtain ⟨c, hc⟩ : ∃ c, c = (k * X - h * Z) / (0.6 * r) := ⟨_, rfl⟩
  obtain ⟨s, hs⟩ : ∃ s, s = (k * Z + h * X) / (0.6 * r) := ⟨_, rfl⟩
  have hcr : 0.6 * r * c = k * X - h * Z := by rw [hc]; field_simp
  have hsr : 0.6 * r * s = k * Z + h * X := by rw [hs]; field_simp
  have hcs : c ^ 2 + s ^ 2 = 1 := by
    rw [hc, hs, div_pow, div_pow, ← add_div, div_eq_one_iff_eq (by positivity)]
    calc (k * X - h * Z) ^ 2 + (k * Z + h * X) ^ 2 = (k ^ 2 + h ^ 2) * (X ^ 2 + Z ^ 2) := by ring
      _ = (0.6 * r) ^ 2 := by rw [hsq, ← hr]; ring
  have hdot : 0.6 * (X * c + Z * s) = k := by
    have : r * (0.6 * (X * c + Z * s)) = r * k := by
      calc r * (0.6 * (X * c + Z * s)) = X * (0.6 * r * c) + Z * (0.6 * r * s) := by ring
        _ = r * k := by rw [hcr, hsr, hr]; ring
    exact mul_left_cancel₀ (by positivity) this
  have c1 : -0.402 ≤ c := by
    rw [hc, le_div_iff₀ (by positivity)]
    have a1 : 0.09625 * 0.3429 ≤ k * X := mul_le_mul k1 h1 (by norm_num) (by linarith)
    have a2 : h * Z ≤ 0.268 * 0.3175 := mul_le_mul hu h4 (by linarith) (by norm_num)
    norm_num at a1 a2 ⊢
    linarith
  have c2 : c ≤ -0.34 := by
    rw [hc, div_le_iff₀ (by positivity)]
    have a1 : k * X ≤ 0.10115 * 0.3548 := mul_le_mul k2 h2 (by linarith) (by norm_num)
    have a2 : 0.262 * 0.3152 ≤ h * Z := mul_le_mul hl h3 (by norm_num) (by linarith)
    norm_num at a1 a2 ⊢
    linarith
  have s0 : 0 ≤ s := by
    rw [hs]; positivity
  have s1 : 0.915 ≤ s := by clear * - hcs s0 c1 c2; nlinarith
  have s2 : s ≤ 0.9405 := by clear * - hcs s0 c1 c2; nlinarith
  have hunit : ((0.6 * s - Z) / 0.62) ^ 2 + ((X - 0.6 * c) / 0.62) ^ 2 = 1 := by
    rw [div_pow, div_pow, ← add_div, div_eq_one_iff_eq (by norm_num)]
    have : (0.6 * s - Z) ^ 2 + (X - 0.6 * c) ^ 2 = 0.36 * (c ^ 2 + s ^ 2) + (X ^ 2 + Z ^ 2) -
        2 * (0.6 * (X * c + Z * s)) := by ring
    rw [this, hcs, hdot, ← hr, hr']
    ring
  have hg : 0.373 ≤ (0.6 * s - Z) / 0.62 := by rw [le_div_iff₀ (by norm_num)]; linarith
  have hg' : (0.6 * s - Z) / 0.62 ≤ 0.405 := by rw [div_le_iff₀ (by norm_num)]; linarith
  have hf0 : 0 ≤ (X - 0.6 * c) / 0.62 := by apply div_nonneg <;> linarith
  refine ⟨c, -s, (X - 0.6 * c) / 0.62, -((0.6 * s - Z) / 0.62), by rw [neg_sq]; exact hcs,
    by rw [neg_sq]; exact hunit, by ring, by ring, c1, c2, by linarith, by linarith, by linarith,
    by linarith, ?_, ?_⟩
  · generalize (0.6 * s - Z) / 0.62 = g at *
    generalize (X - 0.6 * c) / 0.62 = f at *
    clear * - hg hg' hunit hf0
    nlinarith
  · generalize (0.6 * s - Z) / 0.62 = g at *
    generalize (X - 0.6 * c) / 0.62 = f at *
    clear * - hg hg' hunit hf0
    nlinarith

/-! ## The torch with its wire straight up -/

/-- The orientation of the flange. -/
def upTurn : M3 :=
  !![Real.cos (torchAngle1 + torchAngle2), 0, -Real.sin (torchAngle1 + torchAngle2); 0, 1, 0;
    Real.sin (torchAngle1 + torchAngle2), 0, Real.cos (torchAngle1 + torchAngle2)]

theorem upTurn_isRot : IsRot upTurn := by
  have : upTurn = rotY (-(torchAngle1 + torchAngle2)) := by
    unfold upTurn
    generalize torchAngle1 + torchAngle2 = e
    ext a b
    fin_cases a <;> fin_cases b <;> simp [rotY]
  rw [this]
  exact rotY_isRot _

theorem up_act (p x : V3) : act (mkTf upTurn p) x =
    ![besideAxis (torchAngle1 + torchAngle2) x + p 0, p 1 + x 1,
      p 2 + alongAxis (torchAngle1 + torchAngle2) x] := by
  rw [act_mkTf]
  ext a
  fin_cases a <;>
    simp [upTurn, besideAxis, alongAxis, Matrix.mulVec, dotProduct, Fin.sum_univ_three] <;> ring

/-- The flange for the tip at `(0.8, y, 0)`. -/
def upPos (y : ℝ) : V3 := ![0.8, y, 0] - upTurn *ᵥ torchTip

theorem up_exact (y : ℝ) :
    upPos y 0 + besideAxis (torchAngle1 + torchAngle2) torchTip = 0.8 ∧ upPos y 1 = y ∧
    upPos y 2 + alongAxis (torchAngle1 + torchAngle2) torchTip = 0 := by
  have h := up_act (upPos y) torchTip
  rw [act_mkTf, upPos, add_sub_cancel] at h
  have h0 := congrFun h 0
  have h1 := congrFun h 1
  have h2 := congrFun h 2
  rw [← upPos] at h0 h1 h2
  simp only [Matrix.cons_val, tip_axes.2.2] at h0 h1 h2
  exact ⟨by linarith, by linarith, by linarith⟩

theorem up_num (y : ℝ) : 0.5629 ≤ upPos y 0 ∧ upPos y 0 ≤ 0.5647 ∧ -0.2092 ≤ upPos y 2 ∧
    upPos y 2 ≤ -0.2076 := by
  obtain ⟨h0, -, h2⟩ := up_exact y
  obtain ⟨k0, -, k2⟩ := down_exact 0
  obtain ⟨d1, d2⟩ := sqrt_two_num
  obtain ⟨p1, p2, p3, p4⟩ := down_num 0
  refine ⟨?_, ?_, ?_, ?_⟩ <;> linarith

/-- Where the parts of the torch are, seen from the base and from the flange. -/
theorem torch_up (y : ℝ) {k : Nat} {x z : V3} (hx : x ∈ wallPoints torch.toCollection k)
    (hz : z = act (mkTf upTurn (upPos y)) x) :
    k = 0 ∧ 0.52 ≤ z 0 ∧ z 2 ≤ -0.101 ∧ -0.23 ≤ z 2 ∧ -0.005 ≤ x 2 ∨
    k = 1 ∧ 0.565 ≤ z 0 ∧ z 2 ≤ -0.101 ∧ 0.08 ≤ x 0 ∨
    k = 2 ∧ 0.565 ≤ z 0 ∧ z 2 ≤ -0.101 ∧ 0 ≤ x 2 ∨
    k = 3 ∧ 0.7 ≤ z 0 ∧ z 2 ≤ -0.101 ∨
    k = 4 ∧ 0.787 ≤ z 0 ∧ z 0 ≤ 0.813 ∧ z 2 ≤ -0.01 := by
  obtain ⟨p1, p2, p3, p4⟩ := up_num y
  obtain ⟨s1, s2, c1, c2⟩ := torch_num2
  obtain ⟨s3, s4, c3, c4⟩ := torch_num3
  obtain ⟨s5, s6, c5, c6⟩ := torch_num1
  obtain ⟨b0, b1, b2, b3, b4, b5⟩ := C91_body torchAngle1 torchAngle2 x
  have y0 : z 0 = besideAxis (torchAngle1 + torchAngle2) x + upPos y 0 := by rw [hz, up_act]; rfl
  have y2 : z 2 = upPos y 2 + alongAxis (torchAngle1 + torchAngle2) x := by rw [hz, up_act]; rfl
  have x0 : x 0 = Real.cos torchAngle1 * besideAxis torchAngle1 x +
      Real.sin torchAngle1 * alongAxis torchAngle1 x := by
    unfold besideAxis alongAxis
    linear_combination -x 0 * Real.sin_sq_add_cos_sq torchAngle1
  have x2 : x 2 = Real.cos torchAngle1 * alongAxis torchAngle1 x +
      Real.sin torchAngle1 * -besideAxis torchAngle1 x := by
    unfold besideAxis alongAxis
    linear_combination -x 2 * Real.sin_sq_add_cos_sq torchAngle1
  have e0 : z 0 = Real.cos torchAngle2 * besideAxis torchAngle1 x +
      -Real.sin torchAngle2 * alongAxis torchAngle1 x + upPos y 0 := by rw [y0, beside_add]
  have e2 : z 2 = upPos y 2 + (Real.cos torchAngle2 * alongAxis torchAngle1 x +
      -Real.sin torchAngle2 * -besideAxis torchAngle1 x) := by rw [y2, along_add]; ring
  rcases k with _ | _ | _ | _ | _ | k
  · left
    obtain ⟨h0, -, h2, h3⟩ := b0.1 hx
    rw [abs_le] at h0
    have a := axis_bounds s3 s4 c3 c4 h0.1 h0.2 h2 h3 (by norm_num) (by norm_num)
    have b := axis_bounds s3 s4 c3 c4 (neg_le_neg h3) (neg_le_neg h2) h0.1 h0.2 (by norm_num) (by norm_num)
    have f0 : besideAxis (torchAngle1 + torchAngle2) x = Real.cos (torchAngle1 + torchAngle2) * x 0 +
      -Real.sin (torchAngle1 + torchAngle2) * x 2 := by unfold besideAxis; ring
    have f2 : -alongAxis (torchAngle1 + torchAngle2) x = Real.cos (torchAngle1 + torchAngle2) * -x 2 +
      -Real.sin (torchAngle1 + torchAngle2) * x 0 := by unfold alongAxis; ring
    rw [← f0] at a
    rw [← f2] at b
    norm_num at a b p1 p2 p3 p4
    norm_num
    refine ⟨by linarith, by linarith, by linarith, by norm_num at h2; linarith⟩
  · right; left
    obtain ⟨h0, h1, -⟩ := b1.1 hx
    have a := axis_bounds s1 s2 c1 c2 h1.1 h1.2 h0.1 h0.2 (by norm_num) (by norm_num)
    have b := axis_bounds s1 s2 c1 c2 h0.1 h0.2 (neg_le_neg h1.2) (neg_le_neg h1.1) (by norm_num)
      (by norm_num)
    have c := axis_bounds s5 s6 c5 c6 h1.1 h1.2 h0.1 h0.2 (by norm_num) (by norm_num)
    rw [← x0] at c
    norm_num at a b c p1 p2 p3 p4
    norm_num
    refine ⟨by linarith, by linarith, by linarith⟩
  · right; right; left
    obtain ⟨h0, h1, -⟩ := b2.1 hx
    have a := axis_bounds s1 s2 c1 c2 h1.1 h1.2 h0.1 h0.2 (by norm_num) (by norm_num)
    have b := axis_bounds s1 s2 c1 c2 h0.1 h0.2 (neg_le_neg h1.2) (neg_le_neg h1.1) (by norm_num)
      (by norm_num)
    have c := axis_bounds s5 s6 c5 c6 h0.1 h0.2 (neg_le_neg h1.2) (neg_le_neg h1.1) (by norm_num)
      (by norm_num)
    rw [← x2] at c
    norm_num at a b c p1 p2 p3 p4
    norm_num
    refine ⟨by linarith, by linarith, by linarith⟩
  · right; right; right; left
    obtain ⟨h0, h1, -⟩ := b3.1 hx
    have a := axis_bounds s1 s2 c1 c2 h1.1 h1.2 h0.1 h0.2 (by norm_num) (by norm_num)
    have b := axis_bounds s1 s2 c1 c2 h0.1 h0.2 (neg_le_neg h1.2) (neg_le_neg h1.1) (by norm_num)
      (by norm_num)
    norm_num at a b p1 p2 p3 p4
    norm_num
    refine ⟨by linarith, by linarith⟩
  · right; right; right; right
    obtain ⟨h0, h1, -⟩ := b4.1 hx
    have ht : posPart (torchOf torchAngle1 torchAngle2).tfTT = torchTip := by
      rw [(torch_eq _ _).2, posPart_mkTf]; rfl
    obtain ⟨g0, -, g2⟩ := up_exact y
    rw [ht] at h0 h1
    have k0 : alongAxis (torchAngle1 + torchAngle2) (x - torchTip) =
        alongAxis (torchAngle1 + torchAngle2) x - alongAxis (torchAngle1 + torchAngle2) torchTip := by
      simp only [alongAxis, Pi.sub_apply]; ring
    have k1 : besideAxis (torchAngle1 + torchAngle2) (x - torchTip) =
        besideAxis (torchAngle1 + torchAngle2) x - besideAxis (torchAngle1 + torchAngle2) torchTip := by
      simp only [besideAxis, Pi.sub_apply]; ring
    rw [k0] at h0
    rw [k1, abs_le] at h1
    obtain ⟨h0, h0'⟩ := h0
    norm_num at h0 h0' h1 g0 g2
    norm_num
    refine ⟨by linarith, by linarith, by linarith⟩
  · exact absurd hx (b5 _ (by omega))


/-! ## The arm with the elbow down -/

theorem pass_upper {c s x y : ℝ} (c1 : -0.402 ≤ c) (c2 : c ≤ -0.34) (s1 : -0.941 ≤ s) (s2 : s ≤ -0.91)
    (hx : -0.7 ≤ x) (hy : y ≤ 0.1) : c * (x + 0.6) - s * y + 0.18 ≤ 0.3205 := by
  have a : c * (x + 0.6) ≤ c * -0.1 := mul_le_mul_of_nonpos_left (by linarith) (by linarith)
  have b : s * 0.1 ≤ s * y := mul_le_mul_of_nonpos_left hy (by linarith)
  linarith

theorem pass_fore {c s c' f g x y z : ℝ} (k2 : 0 ≤ c) (k1 : c ≤ 1) (k3 : |s| ≤ 0.2) (c1 : -0.402 ≤ c')
    (c2 : c' ≤ -0.34) (g1 : -0.405 ≤ g) (g2 : g ≤ -0.37) (f0 : 0.9 ≤ f) (f1 : f ≤ 0.93)
    (hx : -0.1 ≤ x ∧ x ≤ 0.1) (hy : 0 ≤ y ∧ y ≤ 0.1) (hz : -0.08 ≤ z ∧ z ≤ 0.42) :
    c * (g * x + f * z + 0.6 * c' + 0.18) + s * y ≤ 0.45 := by
  rw [abs_le] at k3
  have a1 : g * x ≤ g * -0.1 := mul_le_mul_of_nonpos_left hx.1 (by linarith)
  have a2 : f * z ≤ f * 0.42 := mul_le_mul_of_nonneg_left hz.2 (by linarith)
  have a3 : c * (g * x + f * z + 0.6 * c' + 0.18) ≤ c * 0.43 :=
    mul_le_mul_of_nonneg_left (by linarith) k2
  have b : s * y ≤ 0.2 * y := mul_le_mul_of_nonneg_right k3.2 hy.1
  linarith

theorem pass_wristbox {c s f g a b y W0 W2 : ℝ} (c0 : 0 ≤ c) (c1 : c ≤ 1) (hs : |s| ≤ 0.2)
    (g1 : -0.405 ≤ g) (g2 : g ≤ -0.37) (f0 : 0.9 ≤ f) (f1 : f ≤ 0.93) (hab : a ^ 2 + b ^ 2 ≤ 0.005)
    (hy : 0 ≤ y) (h0 : W0 ≤ 0.5255) (h2 : W2 ≤ -0.315) :
    c * (g * a - f * y) + s * b + W0 ≤ 0.56 ∧ f * a + g * y + W2 ≤ -0.24 := by
  have hs2 : s ^ 2 ≤ 0.2 ^ 2 := sq_le_sq' (abs_le.1 hs).1 (abs_le.1 hs).2
  have hcg : (c * g) ^ 2 ≤ 0.405 ^ 2 := by
    rw [mul_pow]
    have e1 : c ^ 2 ≤ 1 := by nlinarith
    have e2 : g ^ 2 ≤ 0.405 ^ 2 := sq_le_sq' (by linarith) (by linarith)
    calc c ^ 2 * g ^ 2 ≤ 1 * 0.405 ^ 2 := mul_le_mul e1 e2 (sq_nonneg g) (by norm_num)
      _ = 0.405 ^ 2 := by norm_num
  have k : (c * g * a + s * b) ^ 2 ≤ 0.033 ^ 2 := by
    have e : (c * g * a + s * b) ^ 2 + (c * g * b - s * a) ^ 2 =
      ((c * g) ^ 2 + s ^ 2) * (a ^ 2 + b ^ 2) := by ring
    have m : ((c * g) ^ 2 + s ^ 2) * (a ^ 2 + b ^ 2) ≤ (0.405 ^ 2 + 0.2 ^ 2) * 0.005 :=
      mul_le_mul (by linarith) hab (by positivity) (by norm_num)
    have := sq_nonneg (c * g * b - s * a)
    norm_num at m ⊢
    linarith
  have k' := (abs_le.1 (abs_le_of_sq_le_sq k (by norm_num))).2
  have n : 0 ≤ c * (f * y) := mul_nonneg c0 (mul_nonneg (by linarith) hy)
  have ha : a ^ 2 ≤ 0.0708 ^ 2 := by nlinarith [sq_nonneg b]
  have ha' := abs_le.1 (abs_le_of_sq_le_sq ha (by norm_num))
  have m : f * a ≤ f * 0.0708 := mul_le_mul_of_nonneg_left ha'.2 (by linarith)
  have n' : g * y ≤ 0 := mul_nonpos_of_nonpos_of_nonneg (by linarith) hy
  constructor
  · linarith
  · linarith

theorem pass_bend {c s f g : ℝ} (c1 : -0.402 ≤ c) (c2 : c ≤ -0.34) (s1 : -0.941 ≤ s)
    (s2 : s ≤ -0.91) (g1 : -0.405 ≤ g) (g2 : g ≤ -0.37) (f0 : 0.9 ≤ f) (f1 : f ≤ 0.93) :
    |f * c - g * s| < 1 - 1 / 10 ^ 6 := by
  have a1 : f * -0.402 ≤ f * c := mul_le_mul_of_nonneg_left c1 (by linarith)
  have a2 : f * c ≤ 0 := mul_nonpos_of_nonneg_of_nonpos (by linarith) (by linarith)
  have b1 : 0 ≤ g * s := mul_nonneg_of_nonpos_of_nonpos (by linarith) (by linarith)
  have b2 : -g * -s ≤ 0.405 * 0.941 := mul_le_mul (by linarith) (by linarith) (by linarith) (by norm_num)
  rw [abs_lt]
  constructor <;> norm_num at * <;> linarith

/-- Where the links are in the configuration with the tip at `(0.8, y, 0)`, and the flange. -/
structure PassPose (y : ℝ) (r : Robot Shape) (Q : List ℝ) : Prop where
  flange : frameOf r Q 5 = mkTf upTurn (upPos y)
  link0 : ∀ x ∈ linkBody r Q 0, x 0 ≤ 0.34 ∧ -0.1 ≤ x 2
  link1 : ∀ x ∈ linkBody r Q 1, x 0 ≤ 0.34
  link2 : ∀ x ∈ linkBody r Q 2, x 0 ≤ 0.45
  link3 : ∀ x ∈ linkBody r Q 3, x 0 ≤ 0.56 ∧ x 2 ≤ -0.24
  link4 : ∀ x ∈ linkBody r Q 4, ∃ v, x = act (mkTf upTurn (upPos y)) v ∧
    v 0 ^ 2 + v 1 ^ 2 ≤ 0.005 ∧ -0.115 ≤ v 2 ∧ v 2 ≤ -0.03
  link5 : ∀ x ∈ linkBody r Q 5, ∃ v, x = act (mkTf upTurn (upPos y)) v ∧
    |v 0| ≤ 0.05 ∧ -0.03 ≤ v 2 ∧ v 2 ≤ 0
  rest : ∀ k, 6 ≤ k → linkBody r Q k = ∅

theorem pass_pose {y : ℝ} {r : Robot Shape}
    (hr : r.links = (kukaRobot 0.18 0.6 0.62 0.115).links) (hb : r.tfBase = 1)
    {q1 q2 phi q4 q5 q6 c s f g u W0 W2 : ℝ} (a2 : Real.cos q2 = c) (b2 : Real.sin q2 = s)
    (a3 : Real.cos phi = g) (b3 : Real.sin phi = f) (hcs : c ^ 2 + s ^ 2 = 1)
    (hx : 0.6 * c + 0.62 * f = u - 0.18) (hz : 0.6 * s - 0.62 * g = W2) (hRc : Real.cos q1 * u = W0)
    (c1 : -0.402 ≤ c) (c2 : c ≤ -0.34) (s1 : -0.941 ≤ s) (s2 : s ≤ -0.91) (g1 : -0.405 ≤ g)
    (g2 : g ≤ -0.37) (f0 : 0.9 ≤ f) (f1 : f ≤ 0.93) (w2 : W0 ≤ 0.5255) (w3 : W2 ≤ -0.315)
    (k1 : Real.cos q1 ≤ 1) (k2 : 0 ≤ Real.cos q1) (k3 : |Real.sin q1| ≤ 0.2)
    (hchain : chain (kukaRobot 0.18 0.6 0.62 0.115).links [q1, q2, phi - q2, q4, q5, q6] =
      mkTf upTurn (upPos y)) : PassPose y r [q1, q2, phi - q2, q4, q5, q6] := by
  have hrig : IsRigid r.tfBase := by rw [hb]; exact IsRigid.one
  have hsc := Real.sin_sq_add_cos_sq q1
  obtain ⟨Q, hQ⟩ : ∃ Q : List ℝ, Q = [q1, q2, phi - q2, q4, q5, q6] := ⟨_, rfl⟩
  have hflange : frameOf r Q 5 = mkTf upTurn (upPos y) := by
    unfold frameOf
    rw [linkProduct_eq, hr, hb, one_mul, List.take_of_length_le (le_refl 6), hQ,
      List.take_of_length_le (le_refl 6), hchain]
  rw [← hQ]
  have st : ∀ (k : Nat) (l : Link Shape) (x : ℝ), (kukaRobot 0.18 0.6 0.62 0.115).links[k + 1]? =
      some l → Q[k + 1]? = some x → ∀ u, act (frameOf r Q (k + 1)) u =
        act (frameOf r Q k) (act (l.tf x) u) := fun k l x hl hx u =>
    frame_step hrig (by rw [hr]; exact hl) hx u
  have e1 : Real.sin (-Real.pi / 2) = -1 := by
    rw [neg_div, Real.sin_neg, Real.sin_pi_div_two]
  have e2 : Real.cos (-Real.pi / 2) = 0 := by
    rw [neg_div, Real.cos_neg, Real.cos_pi_div_two]
  have t1 := st 0 _ q2 rfl (by rw [hQ]; rfl)
  have t2 := st 1 _ (phi - q2) rfl (by rw [hQ]; rfl)
  have t3 := st 2 _ q4 rfl (by rw [hQ]; rfl)
  have t5 := st 4 _ q6 rfl (by rw [hQ]; rfl)
  have t0 : ∀ u, act (frameOf r Q 0) u = act (dhMat 0.18 (Real.pi / 2) 0 q1) u := by
    intro u
    have := frameBefore_succ r (q := Q) (k := 0) (x := q1) (by rw [hr]; rfl) (by rw [hQ]; rfl)
    change frameOf r Q 0 = _ at this
    rw [this]
    congr 1
    simp [frameBefore, linkProduct, Link.tf, hb]
  simp only [Link.tf, act_dhMat_coord, Real.cos_zero, Real.sin_zero, Real.cos_pi_div_two,
    Real.sin_pi_div_two, e1, e2, Real.cos_sub, Real.sin_sub, a2, b2, a3,
    b3] at t0 t1 t2 t3 t5
  have w0 : ∀ u, act (frameOf r Q 0) u = ![Real.cos q1 * (u 0 + 0.18) +
      Real.sin q1 * u 2, Real.sin q1 * (u 0 + 0.18) - Real.cos q1 * u 2, u 1] := by
    intro u
    rw [t0]
    ext i; fin_cases i <;> simp only [Fin.zero_eta, Fin.mk_one, Fin.reduceFinMk, Matrix.cons_val] <;>
      ring
  have w1 : ∀ u, act (frameOf r Q 1) u = ![Real.cos q1 * (c * (u 0 + 0.6) - s * u 1 +
      0.18) + Real.sin q1 * u 2, Real.sin q1 * (c * (u 0 + 0.6) - s * u 1 + 0.18) -
      Real.cos q1 * u 2, s * (u 0 + 0.6) + c * u 1] := by
    intro u
    rw [t1, w0]
    ext i; fin_cases i <;> simp only [Fin.zero_eta, Fin.mk_one, Fin.reduceFinMk, Matrix.cons_val] <;>
      ring
  have w2' : ∀ u, act (frameOf r Q 2) u = ![Real.cos q1 * (g * u 0 + f * u 2 + 0.6 * c +
      0.18) + Real.sin q1 * u 1, Real.sin q1 * (g * u 0 + f * u 2 + 0.6 * c + 0.18) -
      Real.cos q1 * u 1, f * u 0 - g * u 2 + 0.6 * s] := by
    intro u
    rw [t2, w1]
    ext i; fin_cases i <;> simp only [Fin.zero_eta, Fin.mk_one, Fin.reduceFinMk, Matrix.cons_val]
    · linear_combination Real.cos q1 * (g * u 0 + f * u 2) * hcs
    · linear_combination Real.sin q1 * (g * u 0 + f * u 2) * hcs
    · linear_combination (f * u 0 - g * u 2) * hcs
  have w3' : ∀ v, act (frameOf r Q 3) v 0 = Real.cos q1 * (g * (Real.cos q4 * v 0 - Real.sin q4 * v 2) -
        f * v 1) + Real.sin q1 * (Real.sin q4 * v 0 + Real.cos q4 * v 2) + W0 ∧
      act (frameOf r Q 3) v 2 = f * (Real.cos q4 * v 0 - Real.sin q4 * v 2) + g * v 1 + W2 := by
    intro v
    rw [t3, w2']
    simp only [Matrix.cons_val]
    constructor
    · linear_combination Real.cos q1 * hx + hRc
    · linear_combination hz
  have w5 : ∀ v, act (frameOf r Q 4) v = act (mkTf upTurn (upPos y))
      ![Real.cos q6 * v 0 + Real.sin q6 * v 1, Real.cos q6 * v 1 - Real.sin q6 * v 0,
        v 2 - 0.115] := by
    intro v
    have h6 := Real.sin_sq_add_cos_sq q6
    rw [← hflange, t5]
    congr 1
    ext j; fin_cases j <;> simp only [Fin.zero_eta, Fin.mk_one, Fin.reduceFinMk, Matrix.cons_val]
    · linear_combination -v 0 * h6
    · linear_combination -v 1 * h6
    · ring
  obtain ⟨B0, B1, B2, B3, B4, B5, B6⟩ := C113_kuka 0.18 0.6 0.62 0.115 r hr hrig Q
  refine ⟨hflange, ?_, ?_, ?_, ?_, ?_, ?_, B6⟩
  · intro x h
    obtain ⟨u, rfl, hu⟩ := B0.mem hrig h
    have v0 := hu 0
    have v1 := hu 1
    have v2 := hu 2
    rw [w0]
    simp only [Matrix.cons_val] at v0 v1 v2 ⊢
    exact ⟨two_unit hsc k2 (by linarith) ⟨by linarith, by linarith⟩, v1.1⟩
  · intro x h
    obtain ⟨u, rfl, hu⟩ := B1.mem hrig h
    have v0 := hu 0
    have v1 := hu 1
    have v2 := hu 2
    rw [w1]
    simp only [Matrix.cons_val] at v0 v1 v2 ⊢
    exact two_unit hsc k2 (pass_upper c1 c2 s1 s2 v0.1 v1.2) ⟨by linarith, by linarith⟩
  · intro x h
    obtain ⟨u, rfl, hu⟩ := B2.mem hrig h
    have v0 := hu 0
    have v1 := hu 1
    have v2 := hu 2
    rw [w2']
    simp only [Matrix.cons_val] at v0 v1 v2 ⊢
    exact pass_fore k2 k1 k3 c1 c2 g1 g2 f0 f1 v0 v1 v2
  · intro x h
    obtain ⟨u, rfl, hu⟩ := B3.mem hrig h
    have v0 := hu 0
    have v1 := hu 1
    have v2 := hu 2
    obtain ⟨z0, z2⟩ := w3' u
    rw [z0, z2]
    simp only [Matrix.cons_val] at v0 v1 v2
    refine pass_wristbox k2 k1 k3 g1 g2 f0 f1 ?_ v1.1 w2 w3
    have h4 := Real.sin_sq_add_cos_sq q4
    have n0 : u 0 ^ 2 ≤ 0.05 ^ 2 := sq_le_sq' (by linarith) v0.2
    have n2 : u 2 ^ 2 ≤ 0.05 ^ 2 := sq_le_sq' (by linarith) v2.2
    have : (Real.cos q4 * u 0 - Real.sin q4 * u 2) ^ 2 +
        (Real.sin q4 * u 0 + Real.cos q4 * u 2) ^ 2 = u 0 ^ 2 + u 2 ^ 2 := by
      linear_combination (u 0 ^ 2 + u 2 ^ 2) * h4
    rw [this]
    norm_num at n0 n2 ⊢
    linarith
  · intro x h
    obtain ⟨u, rfl, hu⟩ := B4.mem hrig h
    have v0 := hu 0
    have v1 := hu 1
    have v2 := hu 2
    simp only [Matrix.cons_val] at v0 v1 v2
    refine ⟨_, w5 u, ?_⟩
    simp only [Matrix.cons_val]
    have h6 := Real.sin_sq_add_cos_sq q6
    have n0 : u 0 ^ 2 ≤ 0.05 ^ 2 := sq_le_sq' (by linarith) v0.2
    have n1 : u 1 ^ 2 ≤ 0.05 ^ 2 := sq_le_sq' (by linarith) v1.2
    have : (Real.cos q6 * u 0 + Real.sin q6 * u 1) ^ 2 +
        (Real.cos q6 * u 1 - Real.sin q6 * u 0) ^ 2 = u 0 ^ 2 + u 1 ^ 2 := by
      linear_combination (u 0 ^ 2 + u 1 ^ 2) * h6
    rw [this]
    refine ⟨?_, by linarith, by linarith⟩
    norm_num at n0 n1 ⊢
    linarith
  · intro x h
    obtain ⟨u, rfl, hu⟩ := B5.mem hrig h
    have v0 := hu 0
    have v2 := hu 2
    simp only [Matrix.cons_val] at v0 v2
    exact ⟨u, by rw [hflange], abs_le.2 ⟨by linarith, by linarith⟩, by linarith, by linarith⟩

theorem pass_arm {y : ℝ} (hy : |y| ≤ 0.1) {r : Robot Shape}
    (hr : r.links = (kukaRobot 0.18 0.6 0.62 0.115).links) (hb : r.tfBase = 1) :
    ∃ q1 q2 q3 q4 q5 q6, PassPose y r [q1, q2, q3, q4, q5, q6] ∧
      chain (kukaRobot 0.18 0.6 0.62 0.115).links [q1, q2, q3, q4, q5, q6] =
        mkTf upTurn (upPos y) ∧
      0.18 + 0.6 * Real.cos q2 + 0.62 * Real.sin (q2 + q3) ≠ 0 ∧
      |Real.sin q3| < 1 - 1 / 10 ^ 6 ∧ Real.sin q5 ≠ 0 := by
  obtain ⟨p1, p2, p3, p4⟩ := up_num y
  obtain ⟨s3, s4, c3, c4⟩ := torch_num3
  have hyd : y = upPos y 1 := (up_exact y).2.1.symm
  rw [abs_le] at hy
  have hy2 : y ^ 2 ≤ 0.1 ^ 2 := sq_le_sq' (by linarith) (by linarith)
  obtain ⟨W0, hW0⟩ : ∃ W0, W0 = upPos y 0 - 0.115 * -Real.sin (torchAngle1 + torchAngle2) := ⟨_, rfl⟩
  obtain ⟨Z, hZ⟩ : ∃ Z, Z = -upPos y 2 + 0.115 * Real.cos (torchAngle1 + torchAngle2) := ⟨_, rfl⟩
  have w1 : 0.523 ≤ W0 := by rw [hW0]; linarith
  have w2 : W0 ≤ 0.5255 := by rw [hW0]; linarith
  have w3 : 0.3152 ≤ Z := by rw [hZ]; linarith
  have w4 : Z ≤ 0.3175 := by rw [hZ]; linarith
  obtain ⟨u, hu⟩ : ∃ u : ℝ, u = Real.sqrt (W0 ^ 2 + y ^ 2) := ⟨_, rfl⟩
  have hsq : u ^ 2 = W0 ^ 2 + y ^ 2 := by rw [hu]; exact Real.sq_sqrt (by positivity)
  have u0 : 0 ≤ u := by rw [hu]; exact Real.sqrt_nonneg _
  have u1 : 0.523 ≤ u := by nlinarith
  have u2 : u ≤ 0.5348 := by nlinarith
  obtain ⟨c, s, f, g, hcs, hgf, hx, hz, c1, c2, s1, s2, g1, g2, f0, f1⟩ :=
    elbow_pass (X := u - 0.18) (by linarith) (by linarith) w3 w4
  have hu0 : u ≠ 0 := by linarith
  obtain ⟨q1, a1, b1⟩ := exists_angle (x := W0 / u) (y := y / u) (by
    field_simp
    linarith)
  obtain ⟨q2, a2, b2⟩ := exists_angle hcs
  obtain ⟨phi, a3, b3⟩ := exists_angle hgf
  have hRc : Real.cos q1 * u = W0 := by rw [a1]; field_simp
  have hRs : Real.sin q1 * u = y := by rw [b1]; field_simp
  have k1 : Real.cos q1 ≤ 1 := Real.cos_le_one _
  have k2 : 0.9 ≤ Real.cos q1 := by rw [a1, le_div_iff₀ (by linarith)]; linarith
  have k3 : |Real.sin q1| ≤ 0.2 := by
    apply abs_le_of_sq_le_sq _ (by norm_num)
    rw [b1, div_pow, div_le_iff₀ (by positivity), hsq]
    nlinarith
  obtain ⟨A, hA⟩ : ∃ A, A = armRot q1 phi := ⟨_, rfl⟩
  have hAr : IsRot A := by rw [hA]; exact armRot_isRot _ _
  obtain ⟨q4, q5, q6, hzyz⟩ := zyz_exists (hAr.transpose.mul upTurn_isRot)
  have hAR : A * zyz q4 q5 q6 = upTurn := by
    rw [hzyz, ← mul_assoc, hAr.mul_transpose, one_mul]
  have hchain : chain (kukaRobot 0.18 0.6 0.62 0.115).links [q1, q2, phi - q2, q4, q5, q6] =
      mkTf upTurn (upPos y) := by
    have e : q2 + (phi - q2) = phi := by ring
    have e' : q2 + (phi - q2 - Real.pi / 2) = phi - Real.pi / 2 := by ring
    rw [chain_kuka, e, ← hA, hAR]
    congr 1
    ext m
    fin_cases m <;>
      simp [armPos, e', Real.cos_sub_pi_div_two, Real.sin_sub_pi_div_two, a2, b2, a3, b3, upTurn,
        Matrix.mulVec, dotProduct, Fin.sum_univ_three]
    · linear_combination Real.cos q1 * hx + hRc + hW0
    · linear_combination Real.sin q1 * hx + hRs + hyd
    · linear_combination hz - hZ
  refine ⟨q1, q2, phi - q2, q4, q5, q6, ?_, hchain, ?_, ?_, ?_⟩
  · exact pass_pose hr hb a2 b2 a3 b3 hcs hx hz hRc c1 c2 s1 s2 g1 g2 f0 f1 w2 (by linarith) k1
      (by linarith) k3 hchain
  · rw [add_sub_cancel, a2, b3]
    have : 0.18 + 0.6 * c + 0.62 * f = u := by linarith
    rw [this]
    exact hu0
  · rw [Real.sin_sub, a2, a3, b2, b3]
    exact pass_bend c1 c2 s1 s2 g1 g2 f0 f1
  · intro h5
    have hsing : upTurn 0 2 * A 2 2 = upTurn 2 2 * A 0 2 := by
      rw [← hAR, zyz_eq, h5]
      simp [Matrix.mul_apply, Fin.sum_univ_three]
      ring
    simp only [hA, upTurn, armRot, Matrix.of_apply, Matrix.cons_val', Matrix.cons_val,
      Matrix.cons_val_fin_one, a3, b3] at hsing
    have m1 : 0.9 * 0.9 ≤ Real.cos q1 * f := mul_le_mul k2 f0 (by norm_num) (by linarith)
    have m2 : 0.937 * (0.9 * 0.9) ≤ Real.cos (torchAngle1 + torchAngle2) * (Real.cos q1 * f) :=
      mul_le_mul c3 m1 (by norm_num) (by linarith)
    have m3 : -Real.sin (torchAngle1 + torchAngle2) * -g ≤ 0.3465 * 0.405 :=
      mul_le_mul s4 (by linarith) (by linarith) (by norm_num)
    norm_num at m2 m3
    linarith

/-! ## Nothing touches -/

/-- The walls of the passage. -/
theorem passage_bounds {x : V3} {j : Nat} (h : x ∈ wallPoints (passageScene 0.8) j) :
    0.68 ≤ x 0 ∧ -0.1 ≤ x 2 ∧ (0 ≤ x 2 ∨ x 0 ≤ 0.7825 ∨ 0.8175 ≤ x 0) := by
  obtain ⟨b, hb, hw⟩ := (mem_upright _ _ _).1 h
  have w0 := hw 0
  have w2 := hw 2
  rcases j with _ | _ | _ | j
  · cases hb
    simp only [Matrix.cons_val, abs_le] at w0 w2
    exact ⟨by linarith, by linarith, .inr (.inl (by linarith))⟩
  · cases hb
    simp only [Matrix.cons_val, abs_le] at w0 w2
    exact ⟨by linarith, by linarith, .inr (.inr (by linarith))⟩
  · cases hb
    simp only [Matrix.cons_val, abs_le] at w0 w2
    exact ⟨by linarith, by linarith, .inl (by linarith)⟩
  · simp at hb

theorem pass_link4 {y : ℝ} {x v : V3} (hx : x = act (mkTf upTurn (upPos y)) v)
    (h : v 0 ^ 2 + v 1 ^ 2 ≤ 0.005) (h1 : -0.115 ≤ v 2) (h2 : v 2 ≤ -0.03) :
    0.45 ≤ x 0 ∧ x 0 ≤ 0.63 ∧ x 2 ≤ -0.2 ∧ |v 0| ≤ 0.0708 := by
  obtain ⟨p1, p2, p3, p4⟩ := up_num y
  obtain ⟨s3, s4, c3, c4⟩ := torch_num3
  have hv : v 0 ^ 2 ≤ 0.0708 ^ 2 := by nlinarith [sq_nonneg (v 1)]
  have hv' := abs_le_of_sq_le_sq hv (by norm_num)
  obtain ⟨h3, h4⟩ := abs_le.1 hv'
  have y0 : x 0 = Real.cos (torchAngle1 + torchAngle2) * v 0 +
      -Real.sin (torchAngle1 + torchAngle2) * v 2 + upPos y 0 := by
    rw [hx, up_act]; simp only [Matrix.cons_val, besideAxis]; ring
  have y2 : x 2 = upPos y 2 - (Real.cos (torchAngle1 + torchAngle2) * -v 2 +
      -Real.sin (torchAngle1 + torchAngle2) * v 0) := by
    rw [hx, up_act]; simp only [Matrix.cons_val, alongAxis]; ring
  have a := axis_bounds s3 s4 c3 c4 h3 h4 h1 h2 (by norm_num) (by norm_num)
  have b := axis_bounds s3 s4 c3 c4 (neg_le_neg h2) (neg_le_neg h1) h3 h4 (by norm_num) (by norm_num)
  norm_num at a b p1 p2 p3 p4
  refine ⟨by linarith, by linarith, by linarith, hv'⟩

theorem pass_link5 {y : ℝ} {x v : V3} (hx : x = act (mkTf upTurn (upPos y)) v)
    (h : |v 0| ≤ 0.05) (h1 : -0.03 ≤ v 2) (h2 : v 2 ≤ 0) : 0.5 ≤ x 0 ∧ x 2 ≤ -0.18 := by
  obtain ⟨p1, p2, p3, p4⟩ := up_num y
  obtain ⟨s3, s4, c3, c4⟩ := torch_num3
  obtain ⟨h3, h4⟩ := abs_le.1 h
  have y0 : x 0 = Real.cos (torchAngle1 + torchAngle2) * v 0 +
      -Real.sin (torchAngle1 + torchAngle2) * v 2 + upPos y 0 := by
    rw [hx, up_act]; simp only [Matrix.cons_val, besideAxis]; ring
  have y2 : x 2 = upPos y 2 - (Real.cos (torchAngle1 + torchAngle2) * -v 2 +
      -Real.sin (torchAngle1 + torchAngle2) * v 0) := by
    rw [hx, up_act]; simp only [Matrix.cons_val, alongAxis]; ring
  have a := axis_bounds s3 s4 c3 c4 h3 h4 h1 h2 (by norm_num) (by norm_num)
  have b := axis_bounds s3 s4 c3 c4 (neg_le_neg h2) (neg_le_neg h1) h3 h4 (by norm_num) (by norm_num)
  norm_num at a b p1 p2 p3 p4
  exact ⟨by linarith, by linarith⟩

/-- The links three or more apart have no point in common. -/
theorem pass_apart {y : ℝ} {r : Robot Shape} {Q : List ℝ} (h : PassPose y r Q) {a b : Nat}
    (hab : a + 3 ≤ b) {x : V3} (ha : x ∈ linkBody r Q a) (hb : x ∈ linkBody r Q b) : False := by
  have hlt : b < 6 := by
    by_contra hc
    rw [h.rest b (by omega)] at hb
    exact hb
  have f5 : b = 5 → 0.5 ≤ x 0 ∧ x 2 ≤ -0.18 := by
    rintro rfl
    obtain ⟨v, e, v0, v1, v2⟩ := h.link5 x hb
    exact pass_link5 e v0 v1 v2
  have f4 : b = 4 → 0.45 ≤ x 0 ∧ x 2 ≤ -0.2 := by
    rintro rfl
    obtain ⟨v, e, v0, v1, v2⟩ := h.link4 x hb
    obtain ⟨m1, -, m2, -⟩ := pass_link4 e v0 v1 v2
    exact ⟨m1, m2⟩
  have f3 : b = 3 → x 2 ≤ -0.24 := by
    rintro rfl
    exact (h.link3 x hb).2
  obtain rfl | rfl | rfl : a = 0 ∨ a = 1 ∨ a = 2 := by omega
  · have g := (h.link0 x ha).2
    obtain rfl | rfl | rfl : b = 3 ∨ b = 4 ∨ b = 5 := by omega
    · linarith [f3 rfl]
    · linarith [(f4 rfl).2]
    · linarith [(f5 rfl).2]
  · have g := h.link1 x ha
    obtain rfl | rfl : b = 4 ∨ b = 5 := by omega
    · linarith [(f4 rfl).1]
    · linarith [(f5 rfl).1]
  · have g := h.link2 x ha
    obtain rfl : b = 5 := by omega
    linarith [(f5 rfl).1]

/-- No link but the last has a point in common with the torch. -/
theorem pass_torch {y : ℝ} {r : Robot Shape} {Q : List ℝ} (h : PassPose y r Q) {a k : Nat}
    (hab : a < 5) {x v : V3} (ha : x ∈ linkBody r Q a) (hv : v ∈ wallPoints torch.toCollection k)
    (hx : x = act (mkTf upTurn (upPos y)) v) : False := by
  have ht := torch_up y hv hx
  have hx0 : 0.52 ≤ x 0 := by
    rcases ht with ⟨-, h, -⟩ | ⟨-, h, -⟩ | ⟨-, h, -⟩ | ⟨-, h, -⟩ | ⟨-, h, -⟩ <;> linarith
  obtain rfl | rfl | rfl | rfl | rfl : a = 0 ∨ a = 1 ∨ a = 2 ∨ a = 3 ∨ a = 4 := by omega
  · linarith [(h.link0 x ha).1]
  · linarith [h.link1 x ha]
  · linarith [h.link2 x ha]
  · have g := h.link3 x ha
    rcases ht with ⟨-, -, -, h, -⟩ | ⟨-, h, -⟩ | ⟨-, h, -⟩ | ⟨-, h, -⟩ | ⟨-, h, -⟩ <;> linarith
  · obtain ⟨w, e, w0, w1, w2⟩ := h.link4 x ha
    obtain ⟨m1, m2, m3, m4⟩ := pass_link4 e w0 w1 w2
    have hw : v = w := by
      rw [hx, act_mkTf, act_mkTf] at e
      exact rot_inj upTurn_isRot (add_right_cancel e)
    subst hw
    rw [abs_le] at m4
    rcases ht with ⟨-, -, -, -, h⟩ | ⟨-, -, -, h⟩ | ⟨-, -, -, h⟩ | ⟨-, h, -⟩ | ⟨-, h, -⟩ <;> linarith

/-- The configuration is free of collisions. -/
theorem pass_free {y : ℝ} {n : Nat} {Q : List ℝ} (h : PassPose y (weldingKuka n).robot Q) :
    ¬ SceneTouch boxOracle (weldingKuka n).robot Q (passageScene 0.8) ∧
    ¬ SelfTouch boxOracle (weldingKuka n).robot Q := by
  have hrow : (mkTf upTurn (upPos y)) 3 = ![0, 0, 0, 1] := by
    ext j; fin_cases j <;> simp [mkTf]
  have hF : frameOf (weldingKuka n).robot Q ((weldingKuka n).robot.links.length - 1) =
      mkTf upTurn (upPos y) := h.flange
  constructor
  · rintro (⟨base, hb, -⟩ | ⟨a, la, ha, ht⟩ | ⟨tool, htool, ht⟩)
    · cases hb
    · obtain ⟨x, hx, j, hj⟩ := touch_wall _ _ ha ht
      obtain ⟨z0, z2, -⟩ := passage_bounds hj
      have ha6 : a < 6 := (List.getElem?_eq_some_iff.1 ha).1
      obtain rfl | rfl | rfl | rfl | rfl | rfl : a = 0 ∨ a = 1 ∨ a = 2 ∨ a = 3 ∨ a = 4 ∨ a = 5 := by omega
      · linarith [(h.link0 x hx).1]
      · linarith [h.link1 x hx]
      · linarith [h.link2 x hx]
      · linarith [(h.link3 x hx).2]
      · obtain ⟨w, e, w0, w1, w2⟩ := h.link4 x hx
        linarith [(pass_link4 e w0 w1 w2).2.2.1]
      · obtain ⟨w, e, w0, w1, w2⟩ := h.link5 x hx
        linarith [(pass_link5 e w0 w1 w2).2]
    · cases htool
      rw [hF] at ht
      obtain ⟨k, v, hv, j, hj⟩ := torch_scene hrow ht
      obtain ⟨z0, z2, z3⟩ := passage_bounds hj
      rcases torch_up y hv rfl with ⟨-, -, h, -⟩ | ⟨-, -, h, -⟩ | ⟨-, -, h, -⟩ | ⟨-, -, h⟩ |
        ⟨-, g1, g2, g3⟩
      · linarith
      · linarith
      · linarith
      · linarith
      · rcases z3 with h | h | h <;> linarith
  · rintro (⟨a, b, la, lb, hab, ha, hb, ht⟩ | ⟨tool, a, la, htool, ha5, ha, ht⟩)
    · obtain ⟨x, hx, hx'⟩ := (touch_bodies _ _ ha hb).1 ht
      rcases hab with hab | hab
      · exact pass_apart h hab hx hx'
      · exact pass_apart h hab hx' hx
    · cases htool
      rw [hF] at ht
      obtain ⟨x, hx, k, v, hv, e⟩ := touch_torch _ _ ha hrow ht
      have : a + 1 < 6 := ha5
      exact pass_torch h (by omega) hx hv e

/-- The points of the passage can be reached. -/
theorem passage_reached (n : Nat) {y : ℝ} (hy : |y| ≤ 0.1) :
    KukaReaches 0.18 0.6 0.62 0.115 n 1 (some torch) (passageScene 0.8) ![0.8, y, 0] := by
  obtain ⟨q1, q2, q3, q4, q5, q6, h, hc, r1, r2, r3⟩ := pass_arm hy (r := (weldingKuka n).robot) rfl rfl
  refine ⟨q1, q2, q3, q4, q5, q6, ?_, (pass_free h).1, (pass_free h).2, r1, r2, r3⟩
  rw [fkSatisfies_iff _ _ (setup_known 0.18 0.6 0.62 0.115 n 1 (some torch)) _ (le_refl _)]
  change posPart (1 * chain (kukaRobot 0.18 0.6 0.62 0.115).links _ * tipOf (some torch)) = _
  rw [hc, one_mul, tipOf_torch, mkTf_mul, posPart_mkTf, upPos, add_sub_cancel]

variable {D O : Type} [CostArith D] [JointArith ℝ D]

/-- **C146**: the script weld_circle.py, which plans the small passage with the torch, whatever was done
with the robot before, ends with probability one: with fifteen configurations, the `i`-th of them the
rounding of a collision-free solution for a random orientation at point `i`. -/
theorem C146_passage [Zeros] (n : Nat) {pq : PQ D Config} (hl : Lawful pq) (hno : PyGraph.NoOverflow D)
    (hfin : ∀ (w : List ℝ) (x y : Config), stepCost D w x y < ⊤) (conv : ℝ → ℝ)
    (draws : Nat → Nat → Draws) (time : Nat → ℝ)
    (optimal : List PathPt → Collection Shape → Nat → List (List ℝ) → Run (RState × RState × Mem) O) :
    ∀ᵐ ω ∂allDraws, ∃ path : List Config, path.length = 15 ∧
      (∀ (i : Nat) (x : Config), path[i]? = some x → ∃ j sols q,
        kukaSols 0.18 0.6 0.62 (weldingKuka n).robot (freeFrame (ω (i, j)) (passagePos i)) = some sols ∧
        q ∈ sols ∧ ¬ SceneTouch boxOracle (weldingKuka n).robot q (passageScene 0.8) ∧
        ¬ SelfTouch boxOracle (weldingKuka n).robot q ∧ x = q.map conv) ∧
      ∃ N : Nat, ∀ fuel ≥ N, Returns (KukaOK n) (weldCircle (kukaRef boxOracle (weldingKuka n)).toArm pq
        conv (roundRandom draws ω) time fuel optimal) path := by
  obtain ⟨u, hu, hG⟩ := kuka_common (a1 := 0.18) (a2 := 0.6) (d4 := 0.62) (d6 := 0.115) (by norm_num) n
    IsRigid.one (some torch) torch_rigid (passageScene 0.8) (ps := (List.range 15).map passagePos) (by
      intro p hp
      obtain ⟨i, hi, rfl⟩ := List.mem_map.1 hp
      have hi' : ((i : Nat) : ℝ) ≤ 14 := by exact_mod_cast Nat.le_of_lt_succ (List.mem_range.1 hi)
      have h0 : (0 : ℝ) ≤ ((i : Nat) : ℝ) := Nat.cast_nonneg _
      have e : passagePos i = ![0.8, (passagePos i) 1, 0] := by
        funext j
        fin_cases j
        · simp [passagePos, onLine]
        · rfl
        · simp [passagePos, onLine]
      rw [e]
      refine passage_reached n ?_
      simp only [passagePos, onLine, Matrix.cons_val]
      rw [abs_le]
      constructor <;> norm_num <;> linarith)
  filter_upwards [found_ae draws hu hG 50] with ω hω
  obtain ⟨N, hN⟩ := hω
  obtain ⟨path, h1, h2, N', h3, -⟩ := (C117_passage (kuka_determined boxOracle 0.18 0.6 0.62 0.115 n 1
    (some torch) (passageScene 0.8)) hl hno (fun x y => hfin _ x y) conv (roundRandom draws ω) time
      optimal).1 fun i hi => ⟨N, hN i (passagePos i) (by simp [hi])⟩
  refine ⟨path, h1, fun i x hx => ?_, N', h3⟩
  obtain ⟨q, K, hq, rfl⟩ := h2 i x hx
  obtain ⟨j, -, sols, e1, e2, e3⟩ := mem_foundBy.1 hq
  obtain ⟨f1, f2⟩ := (touches_free boxOracle (r := (weldingKuka n).robot) rfl (passageScene 0.8) _).1 e3
  exact ⟨j, sols, q, e1, e2, f1, f2, rfl⟩

/-- A case of `C146_passage`: real costs and the heap of the standard library. -/
example [Zeros] (draws : Nat → Nat → Draws) (time : Nat → ℝ) : ∀ᵐ ω ∂allDraws,
    ∃ path : List Config, path.length = 15 ∧ ∃ N : Nat, ∀ fuel ≥ N, Returns (KukaOK 0)
      (weldCircle (kukaRef boxOracle (weldingKuka 0)).toArm (stdHeap : PQ (WithTop ℝ) Config) id
        (roundRandom draws ω) time fuel (fun _ _ _ _ => (pure () : Run (RState × RState × Mem) Unit)))
        path := by
  filter_upwards [C146_passage 0 stdHeapLawful noOverflow_real stepCost_real id draws time
    (fun _ _ _ _ => (pure () : Run (RState × RState × Mem) Unit))] with ω h
  obtain ⟨path, h1, -, h2⟩ := h
  exact ⟨path, h1, h2⟩

end

end Verif.Props
