import Verif.Props.Reach
import Verif.Props.SelfClear
import Verif.Props.AlmostEnds

/-! # kingpin.py welds the seam (C114)

One of the 600 frames of every point of the seam, with the wire straight down, is reached with the elbow
up, and in that configuration neither the arm nor the torch touches anything. -/

set_option linter.unusedSectionVars false

namespace Verif.Props

open Matrix Verif Verif.Path Verif.Geometry Verif.Kin Verif.Util Verif.ShortestPath Verif.Task
  Verif.CppGraph Verif.Search Verif.Planning Verif.Resources Verif.Examples

noncomputable section

/-! ## Numbers -/

theorem torch_num1 : 0.1955 ≤ Real.sin torchAngle1 ∧ Real.sin torchAngle1 ≤ 0.1965 ∧
    0.98 ≤ Real.cos torchAngle1 ∧ Real.cos torchAngle1 ≤ 0.981 := by
  have h1 := Real.pi_gt_d4
  have h2 := Real.pi_lt_d4
  have l : 0.1972 ≤ torchAngle1 := by unfold torchAngle1; linarith
  have u : torchAngle1 ≤ 0.1973 := by unfold torchAngle1; linarith
  have hs := Real.sin_bound (x := torchAngle1) (by rw [abs_of_nonneg] <;> linarith)
  have hc := Real.cos_bound (x := torchAngle1) (by rw [abs_of_nonneg] <;> linarith)
  rw [abs_of_nonneg (a := torchAngle1) (by linarith), abs_le] at hs hc
  generalize torchAngle1 = x at *
  have x2 : x ^ 2 ≤ 0.1973 ^ 2 := pow_le_pow_left₀ (by linarith) u 2
  have x2' : 0.1972 ^ 2 ≤ x ^ 2 := pow_le_pow_left₀ (by norm_num) l 2
  have x3 : x ^ 3 ≤ 0.1973 ^ 3 := pow_le_pow_left₀ (by linarith) u 3
  have x3' : 0.1972 ^ 3 ≤ x ^ 3 := pow_le_pow_left₀ (by norm_num) l 3
  have x4 : x ^ 4 ≤ 0.1973 ^ 4 := pow_le_pow_left₀ (by linarith) u 4
  have x5 : x ^ 5 ≤ 0.1973 ^ 5 := pow_le_pow_left₀ (by linarith) u 5
  norm_num at *
  refine ⟨?_, ?_, ?_, ?_⟩ <;> linarith

theorem torch_num3 : 0.344 ≤ -Real.sin (torchAngle1 + torchAngle2) ∧
    -Real.sin (torchAngle1 + torchAngle2) ≤ 0.3465 ∧
    0.937 ≤ Real.cos (torchAngle1 + torchAngle2) ∧ Real.cos (torchAngle1 + torchAngle2) ≤ 0.94 := by
  have h1 := Real.pi_gt_d4
  have h2 := Real.pi_lt_d4
  have l : 0.3525 ≤ -(torchAngle1 + torchAngle2) := by unfold torchAngle1 torchAngle2; linarith
  have u : -(torchAngle1 + torchAngle2) ≤ 0.3526 := by unfold torchAngle1 torchAngle2; linarith
  rw [← Real.sin_neg, ← Real.cos_neg (torchAngle1 + torchAngle2)]
  generalize -(torchAngle1 + torchAngle2) = x at *
  have hs := Real.sin_bound (x := x) (by rw [abs_of_nonneg] <;> linarith)
  have hc := Real.cos_bound (x := x) (by rw [abs_of_nonneg] <;> linarith)
  rw [abs_of_nonneg (a := x) (by linarith), abs_le] at hs hc
  have x2 : x ^ 2 ≤ 0.3526 ^ 2 := pow_le_pow_left₀ (by linarith) u 2
  have x2' : 0.3525 ^ 2 ≤ x ^ 2 := pow_le_pow_left₀ (by norm_num) l 2
  have x3 : x ^ 3 ≤ 0.3526 ^ 3 := pow_le_pow_left₀ (by linarith) u 3
  have x3' : 0.3525 ^ 3 ≤ x ^ 3 := pow_le_pow_left₀ (by norm_num) l 3
  have x4 : x ^ 4 ≤ 0.3526 ^ 4 := pow_le_pow_left₀ (by linarith) u 4
  have x5 : x ^ 5 ≤ 0.3526 ^ 5 := pow_le_pow_left₀ (by linarith) u 5
  norm_num at *
  refine ⟨?_, ?_, ?_, ?_⟩ <;> linarith

theorem torch_num2 : 0.521 ≤ -Real.sin torchAngle2 ∧ -Real.sin torchAngle2 ≤ 0.524 ∧
    0.851 ≤ Real.cos torchAngle2 ∧ Real.cos torchAngle2 ≤ 0.8545 := by
  have h1 := Real.pi_gt_d4
  have h2 := Real.pi_lt_d4
  have l : 0.27488 ≤ -torchAngle2 / 2 := by unfold torchAngle2; linarith
  have u : -torchAngle2 / 2 ≤ 0.2749 := by unfold torchAngle2; linarith
  have e : -torchAngle2 = 2 * (-torchAngle2 / 2) := by ring
  rw [← Real.sin_neg, ← Real.cos_neg torchAngle2, e, Real.sin_two_mul, Real.cos_two_mul]
  generalize -torchAngle2 / 2 = x at *
  have hs := Real.sin_bound (x := x) (by rw [abs_of_nonneg] <;> linarith)
  have hc := Real.cos_bound (x := x) (by rw [abs_of_nonneg] <;> linarith)
  rw [abs_of_nonneg (a := x) (by linarith), abs_le] at hs hc
  have x2 : x ^ 2 ≤ 0.2749 ^ 2 := pow_le_pow_left₀ (by linarith) u 2
  have x2' : 0.27488 ^ 2 ≤ x ^ 2 := pow_le_pow_left₀ (by norm_num) l 2
  have x3 : x ^ 3 ≤ 0.2749 ^ 3 := pow_le_pow_left₀ (by linarith) u 3
  have x3' : 0.27488 ^ 3 ≤ x ^ 3 := pow_le_pow_left₀ (by norm_num) l 3
  have x4 : x ^ 4 ≤ 0.2749 ^ 4 := pow_le_pow_left₀ (by linarith) u 4
  have x5 : x ^ 5 ≤ 0.2749 ^ 5 := pow_le_pow_left₀ (by linarith) u 5
  have s1 : 0.2711 ≤ Real.sin x := by norm_num at *; linarith
  have s2 : Real.sin x ≤ 0.2718 := by norm_num at *; linarith
  have c1 : 0.9619 ≤ Real.cos x := by norm_num at *; linarith
  have c2 : Real.cos x ≤ 0.9626 := by norm_num at *; linarith
  have hone := Real.sin_sq_add_cos_sq x
  refine ⟨?_, ?_, ?_, ?_⟩ <;> nlinarith

theorem sqrt_two_num : 0.01414 ≤ 0.02 / Real.sqrt 2 ∧ 0.02 / Real.sqrt 2 ≤ 0.01415 := by
  have h := Real.sq_sqrt (show (0 : ℝ) ≤ 2 by norm_num)
  have h0 := Real.sqrt_nonneg 2
  have l : 1.4142 ≤ Real.sqrt 2 := by
    apply Real.le_sqrt_of_sq_le; norm_num
  have u : Real.sqrt 2 ≤ 1.4143 := by
    rw [Real.sqrt_le_left (by norm_num)]; norm_num
  constructor
  · rw [le_div_iff₀ (by linarith)]; linarith
  · rw [div_le_iff₀ (by linarith)]; linarith

/-- The elbow up: the directions of the upper arm and of the forearm for a wrist centre at height `Z`
and `X` in front of the shoulder. -/
theorem elbow_weld {X Z : ℝ} (h1 : 0.3689 ≤ X) (h2 : X ≤ 0.4251) (h3 : 0.4395 ≤ Z) (h4 : Z ≤ 0.4414) :
    ∃ c s f g : ℝ, c ^ 2 + s ^ 2 = 1 ∧ g ^ 2 + f ^ 2 = 1 ∧ 0.6 * c + 0.62 * f = X ∧
      0.6 * s - 0.62 * g = Z ∧ -0.441 ≤ c ∧ c ≤ -0.269 ∧ 0.897 ≤ s ∧ s ≤ 0.964 ∧ 0.15 ≤ g ∧
      g ≤ 0.225 ∧ 0 ≤ f ∧ f ≤ 0.989 := by
  obtain ⟨r, hr⟩ : ∃ r, r = X ^ 2 + Z ^ 2 := ⟨_, rfl⟩
  have x2 : X ^ 2 ≤ 0.4251 ^ 2 := pow_le_pow_left₀ (by linarith) h2 2
  have x2' : 0.3689 ^ 2 ≤ X ^ 2 := pow_le_pow_left₀ (by norm_num) h1 2
  have z2 : Z ^ 2 ≤ 0.4414 ^ 2 := pow_le_pow_left₀ (by linarith) h4 2
  have z2' : 0.4395 ^ 2 ≤ Z ^ 2 := pow_le_pow_left₀ (by norm_num) h3 2
  have r1 : 0.3292 ≤ r := by rw [hr]; norm_num at *; linarith
  have r2 : r ≤ 0.3756 := by rw [hr]; norm_num at *; linarith
  obtain ⟨k, hk⟩ : ∃ k, k = (r - 0.0244) / 2 := ⟨_, rfl⟩
  have k1 : 0.1524 ≤ k := by rw [hk]; linarith
  have k2 : k ≤ 0.1756 := by rw [hk]; linarith
  have hr' : r = 2 * k + 0.0244 := by rw [hk]; ring
  have d1 : 0.3085 ^ 2 ≤ 0.36 * r - k ^ 2 := by rw [hr']; nlinarith
  have d2 : 0.36 * r - k ^ 2 ≤ 0.3235 ^ 2 := by rw [hr']; nlinarith
  obtain ⟨h, hh⟩ : ∃ h, h = Real.sqrt (0.36 * r - k ^ 2) := ⟨_, rfl⟩
  have hsq : h ^ 2 = 0.36 * r - k ^ 2 := by rw [hh]; exact Real.sq_sqrt (by linarith [sq_nonneg (0.3085:ℝ)])
  have hl : 0.3085 ≤ h := by rw [hh]; exact Real.le_sqrt_of_sq_le d1
  have hu : h ≤ 0.3235 := by rw [hh, Real.sqrt_le_left (by norm_num)]; exact d2
  have p1 : 0 < X := by linarith
  have p2 : 0 < Z := by linarith
  have p3 : 0 < h := by linarith
  have p4 : 0 < k := by linarith
  have p5 : 0 < r := by linarith
  have hr0 : (0.6 * r) ≠ 0 := by positivity
  obtain ⟨c, hc⟩ : ∃ c, c = (k * X - h * Z) / (0.6 * r) := ⟨_, rfl⟩
  obtain ⟨s, hs⟩ : ∃ s, s = (k * Z + h * X) / (0.6 * r) := ⟨_, rfl⟩
  have hcr : 0.6 * r * c = k * X - h * Z := by rw [hc]; field_simp
  have hsr : 0.6 * r * s = k * Z + h * X := by rw [hs]; field_simp
  have hcs : c ^ 2 + s ^ 2 = 1 := by
    rw [hc, hs, div_pow, div_pow, ← add_div, div_eq_one_iff_eq (by positivity)]
    calc (k * X - h * Z) ^ 2 + (k * Z + h * X) ^ 2 = (k ^ 2 + h ^ 2) * (X ^ 2 + Z ^ 2) := by ring
      _ = (0.6 * r) ^ 2 := by rw [hsq, ← hr]; ring
  have hdot : 0.6 * (X * c + Z * s) = k := by
    have : r * (0.6 * (X * c + Z * s)) = r * k := by
      calc r * (0.6 * (X * c + Z * s)) = X * (0.6 * r * c) + Z * (0.6 * r * s) := by ring
        _ = r * k := by rw [hcr, hsr, hr]; ring
    exact mul_left_cancel₀ (by positivity) this
  have c1 : -0.441 ≤ c := by
    rw [hc, le_div_iff₀ (by positivity)]
    have a1 : 0.1524 * 0.3689 ≤ k * X := mul_le_mul k1 h1 (by norm_num) (by linarith)
    have a2 : h * Z ≤ 0.3235 * 0.4414 := mul_le_mul hu h4 (by linarith) (by norm_num)
    norm_num at a1 a2 ⊢
    linarith
  have c2 : c ≤ -0.269 := by
    rw [hc, div_le_iff₀ (by positivity)]
    have a1 : k * X ≤ 0.1756 * 0.4251 := mul_le_mul k2 h2 (by linarith) (by norm_num)
    have a2 : 0.3085 * 0.4395 ≤ h * Z := mul_le_mul hl h3 (by norm_num) (by linarith)
    norm_num at a1 a2 ⊢
    linarith
  have s0 : 0 ≤ s := by
    rw [hs]; positivity
  have s1 : 0.897 ≤ s := by clear * - hcs s0 c1 c2; nlinarith
  have s2 : s ≤ 0.964 := by clear * - hcs s0 c1 c2; nlinarith
  refine ⟨c, s, (X - 0.6 * c) / 0.62, (0.6 * s - Z) / 0.62, hcs, ?_, by ring, by ring, c1, c2, s1, s2, ?_, ?_,
    ?_, ?_⟩
  · rw [div_pow, div_pow, ← add_div, div_eq_one_iff_eq (by norm_num)]
    have : (0.6 * s - Z) ^ 2 + (X - 0.6 * c) ^ 2 = 0.36 * (c ^ 2 + s ^ 2) + (X ^ 2 + Z ^ 2) -
        2 * (0.6 * (X * c + Z * s)) := by ring
    rw [this, hcs, hdot, ← hr, hr']
    ring
  · rw [le_div_iff₀ (by norm_num)]; linarith
  · rw [div_le_iff₀ (by norm_num)]; linarith
  · apply div_nonneg <;> linarith
  · have hg : 0.15 ≤ (0.6 * s - Z) / 0.62 := by rw [le_div_iff₀ (by norm_num)]; linarith
    have hunit : ((0.6 * s - Z) / 0.62) ^ 2 + ((X - 0.6 * c) / 0.62) ^ 2 = 1 := by
      rw [div_pow, div_pow, ← add_div, div_eq_one_iff_eq (by norm_num)]
      have : (0.6 * s - Z) ^ 2 + (X - 0.6 * c) ^ 2 = 0.36 * (c ^ 2 + s ^ 2) + (X ^ 2 + Z ^ 2) -
          2 * (0.6 * (X * c + Z * s)) := by ring
      rw [this, hcs, hdot, ← hr, hr']
      ring
    generalize (0.6 * s - Z) / 0.62 = g at *
    generalize (X - 0.6 * c) / 0.62 = f at *
    clear * - hg hunit
    nlinarith

/-! ## The torch with its wire straight down -/

/-- The orientation of the flange for the last of the 600 frames of a point. -/
def downTurn : M3 :=
  !![Real.cos (torchAngle1 + torchAngle2), 0, -Real.sin (torchAngle1 + torchAngle2); 0, -1, 0;
    -Real.sin (torchAngle1 + torchAngle2), 0, -Real.cos (torchAngle1 + torchAngle2)]

theorem weld_down : rotY (Real.pi / 2 + ((19 : Nat) : ℝ) / 19 * (Real.pi / 2)) *
      rotZ (-Real.pi / 2 + ((29 : Nat) : ℝ) / 29 * Real.pi) * torchTurnᵀ = downTurn := by
  have e1 : Real.pi / 2 + ((19 : Nat) : ℝ) / 19 * (Real.pi / 2) = Real.pi := by
    norm_num
  have e2 : -Real.pi / 2 + ((29 : Nat) : ℝ) / 29 * Real.pi = Real.pi / 2 := by
    norm_num
    ring
  rw [e1, e2]
  ext a b
  fin_cases a <;> fin_cases b <;>
    simp [downTurn, torchTurn, torchRot, rotY, rotZ, Matrix.mul_apply, Fin.sum_univ_three]

theorem down_act (p x : V3) : act (mkTf downTurn p) x =
    ![besideAxis (torchAngle1 + torchAngle2) x + p 0, p 1 - x 1,
      p 2 - alongAxis (torchAngle1 + torchAngle2) x] := by
  rw [act_mkTf]
  ext a
  fin_cases a <;>
    simp [downTurn, besideAxis, alongAxis, Matrix.mulVec, dotProduct, Fin.sum_univ_three] <;> ring

theorem beside_add (x : V3) : besideAxis (torchAngle1 + torchAngle2) x =
    Real.cos torchAngle2 * besideAxis torchAngle1 x + -Real.sin torchAngle2 * alongAxis torchAngle1 x := by
  unfold besideAxis alongAxis
  rw [Real.sin_add, Real.cos_add]
  ring

theorem along_add (x : V3) : alongAxis (torchAngle1 + torchAngle2) x =
    Real.cos torchAngle2 * alongAxis torchAngle1 x - -Real.sin torchAngle2 * besideAxis torchAngle1 x := by
  unfold besideAxis alongAxis
  rw [Real.sin_add, Real.cos_add]
  ring

theorem tip_axes : alongAxis torchAngle1 torchTip = 0.25 + 0.06 * Real.cos torchAngle2 ∧
    besideAxis torchAngle1 torchTip = 0.15 + 0.11 * Real.sin torchAngle2 ∧ torchTip 1 = 0 := by
  have h := torchRot_inv torchAngle1 torchTip
  have h' : (torchRot torchAngle1)ᵀ *ᵥ torchTip =
      torchPos torchAngle2 4 + rotZ torchAngle2 *ᵥ ![0.06, 0, 0] := by
    rw [torchTip, Matrix.mulVec_mulVec, (torchRot_isRot _).1, Matrix.one_mulVec]
  rw [h'] at h
  have h0 := congrFun h 0
  have h1 := congrFun h 1
  have h2 := congrFun h 2
  simp [torchPos, rotZ, Matrix.mulVec, dotProduct, Fin.sum_univ_three] at h0 h1 h2
  exact ⟨by linarith, by linarith, by linarith⟩

/-- The flange for that frame of point `i`. -/
def downPos (i : Nat) : V3 := weldPos i - downTurn *ᵥ torchTip

theorem down_exact (i : Nat) :
    downPos i 0 + besideAxis (torchAngle1 + torchAngle2) torchTip = 0.84 - 0.02 / Real.sqrt 2 ∧
    downPos i 1 = -0.25 + 0.5 * (i : ℝ) / 9 ∧
    downPos i 2 - alongAxis (torchAngle1 + torchAngle2) torchTip = 0.11 + 0.02 / Real.sqrt 2 := by
  have h := down_act (downPos i) torchTip
  rw [act_mkTf, downPos, add_sub_cancel] at h
  have h0 := congrFun h 0
  have h1 := congrFun h 1
  have h2 := congrFun h 2
  rw [← downPos] at h0 h1 h2
  simp only [weldPos, seamPoint, Pi.add_apply, Matrix.cons_val, tip_axes.2.2] at h0 h1 h2
  refine ⟨?_, by linarith, by linarith⟩
  rw [add_comm, ← h0]
  ring

theorem down_num (i : Nat) : 0.5888 ≤ downPos i 0 ∧ downPos i 0 ≤ 0.5905 ∧ 0.3318 ≤ downPos i 2 ∧
    downPos i 2 ≤ 0.3333 := by
  obtain ⟨h0, -, h2⟩ := down_exact i
  obtain ⟨d1, d2⟩ := sqrt_two_num
  obtain ⟨s1, s2, c1, c2⟩ := torch_num2
  have hone := Real.sin_sq_add_cos_sq torchAngle2
  obtain ⟨t1, t2, -⟩ := tip_axes
  rw [beside_add, t1, t2] at h0
  rw [along_add, t1, t2] at h2
  generalize downPos i 0 = a at *
  generalize downPos i 2 = b at *
  generalize 0.02 / Real.sqrt 2 = d at *
  have hs : Real.sin torchAngle2 = -(-Real.sin torchAngle2) := by ring
  rw [hs] at h0 h2 hone
  generalize -Real.sin torchAngle2 = s at *
  generalize Real.cos torchAngle2 = c at *
  clear t1 t2 hs
  have m1 : 0.521 * 0.851 ≤ s * c := mul_le_mul s1 c1 (by norm_num) (by linarith)
  have m2 : s * c ≤ 0.524 * 0.8545 := mul_le_mul s2 c2 (by linarith) (by norm_num)
  have n1 : 0.851 ^ 2 ≤ c ^ 2 := pow_le_pow_left₀ (by norm_num) c1 2
  have n2 : c ^ 2 ≤ 0.8545 ^ 2 := pow_le_pow_left₀ (by linarith) c2 2
  norm_num at m1 m2 n1 n2 ⊢
  refine ⟨?_, ?_, ?_, ?_⟩
  · linarith
  · linarith
  · nlinarith
  · nlinarith

theorem axis_bounds {s c v w v1 v2 w1 w2 s1 s2 c1 c2 : ℝ} (hs1 : s1 ≤ s) (hs2 : s ≤ s2) (hc1 : c1 ≤ c)
    (hc2 : c ≤ c2) (hv1 : v1 ≤ v) (hv2 : v ≤ v2) (hw1 : w1 ≤ w) (hw2 : w ≤ w2) (hs : 0 ≤ s1)
    (hc : 0 ≤ c1) : min (c1 * v1) (c2 * v1) + min (s1 * w1) (s2 * w1) ≤ c * v + s * w ∧
      c * v + s * w ≤ max (c1 * v2) (c2 * v2) + max (s1 * w2) (s2 * w2) := by
  have key : ∀ a b x y : ℝ, a ≤ x → x ≤ b → min (a * y) (b * y) ≤ x * y ∧ x * y ≤ max (a * y) (b * y) := by
    intro a b x y h1 h2
    rcases le_total 0 y with h | h
    · exact ⟨min_le_of_left_le (mul_le_mul_of_nonneg_right h1 h),
        le_max_of_le_right (mul_le_mul_of_nonneg_right h2 h)⟩
    · exact ⟨min_le_of_right_le (mul_le_mul_of_nonpos_right h2 h),
        le_max_of_le_left (mul_le_mul_of_nonpos_right h1 h)⟩
  have a1 := (key c1 c2 c v1 hc1 hc2).1
  have a2 := (key c1 c2 c v2 hc1 hc2).2
  have b1 := (key s1 s2 s w1 hs1 hs2).1
  have b2 := (key s1 s2 s w2 hs1 hs2).2
  have e1 : c * v1 ≤ c * v := mul_le_mul_of_nonneg_left hv1 (by linarith)
  have e2 : c * v ≤ c * v2 := mul_le_mul_of_nonneg_left hv2 (by linarith)
  have e3 : s * w1 ≤ s * w := mul_le_mul_of_nonneg_left hw1 (by linarith)
  have e4 : s * w ≤ s * w2 := mul_le_mul_of_nonneg_left hw2 (by linarith)
  exact ⟨by linarith, by linarith⟩

/-- Where the parts of the torch are, seen from the base and from the flange. -/
theorem torch_world (i : Nat) {k : Nat} {x y : V3} (hx : x ∈ wallPoints torch.toCollection k)
    (hy : y = act (mkTf downTurn (downPos i)) x) :
    k = 0 ∧ 0.545 ≤ y 0 ∧ 0.22 ≤ y 2 ∧ y 2 ≤ 0.356 ∧ -0.005 ≤ x 2 ∨
    k = 1 ∧ 0.59 ≤ y 0 ∧ 0.22 ≤ y 2 ∧ 0.08 ≤ x 0 ∨
    k = 2 ∧ 0.59 ≤ y 0 ∧ 0.22 ≤ y 2 ∧ 0 ≤ x 2 ∨
    k = 3 ∧ 0.7 ≤ y 0 ∧ 0.22 ≤ y 2 ∨
    k = 4 ∧ 0.81 ≤ y 0 ∧ y 0 ≤ 0.839 ∧ 0.12 ≤ y 2 := by
  obtain ⟨p1, p2, p3, p4⟩ := down_num i
  obtain ⟨s1, s2, c1, c2⟩ := torch_num2
  obtain ⟨s3, s4, c3, c4⟩ := torch_num3
  obtain ⟨s5, s6, c5, c6⟩ := torch_num1
  obtain ⟨b0, b1, b2, b3, b4, b5⟩ := C91_body torchAngle1 torchAngle2 x
  have y0 : y 0 = besideAxis (torchAngle1 + torchAngle2) x + downPos i 0 := by rw [hy, down_act]; rfl
  have y2 : y 2 = downPos i 2 - alongAxis (torchAngle1 + torchAngle2) x := by rw [hy, down_act]; rfl
  have x0 : x 0 = Real.cos torchAngle1 * besideAxis torchAngle1 x +
      Real.sin torchAngle1 * alongAxis torchAngle1 x := by
    unfold besideAxis alongAxis
    linear_combination -x 0 * Real.sin_sq_add_cos_sq torchAngle1
  have x2 : x 2 = Real.cos torchAngle1 * alongAxis torchAngle1 x +
      Real.sin torchAngle1 * -besideAxis torchAngle1 x := by
    unfold besideAxis alongAxis
    linear_combination -x 2 * Real.sin_sq_add_cos_sq torchAngle1
  have e0 : y 0 = Real.cos torchAngle2 * besideAxis torchAngle1 x +
      -Real.sin torchAngle2 * alongAxis torchAngle1 x + downPos i 0 := by rw [y0, beside_add]
  have e2 : y 2 = downPos i 2 - (Real.cos torchAngle2 * alongAxis torchAngle1 x +
      -Real.sin torchAngle2 * -besideAxis torchAngle1 x) := by rw [y2, along_add]; ring
  rcases k with _ | _ | _ | _ | _ | k
  · left
    obtain ⟨h0, -, h2, h3⟩ := b0.1 hx
    rw [abs_le] at h0
    have a := axis_bounds s3 s4 c3 c4 h0.1 h0.2 h2 h3 (by norm_num) (by norm_num)
    have b := axis_bounds s3 s4 c3 c4 (neg_le_neg h3) (neg_le_neg h2) h0.1 h0.2 (by norm_num) (by norm_num)
    have f0 : besideAxis (torchAngle1 + torchAngle2) x = Real.cos (torchAngle1 + torchAngle2) * x 0 +
      -Real.sin (torchAngle1 + torchAngle2) * x 2 := by unfold besideAxis; ring
    have f2 : -alongAxis (torchAngle1 + torchAngle2) x = Real.cos (torchAngle1 + torchAngle2) * -x 2 +
      -Real.sin (torchAngle1 + torchAngle2) * x 0 := by unfold alongAxis; ring
    rw [← f0] at a
    rw [← f2] at b
    norm_num at a b p1 p2 p3 p4
    norm_num
    refine ⟨by linarith, by linarith, by linarith, by norm_num at h2; linarith⟩
  · right; left
    obtain ⟨h0, h1, -⟩ := b1.1 hx
    have a := axis_bounds s1 s2 c1 c2 h1.1 h1.2 h0.1 h0.2 (by norm_num) (by norm_num)
    have b := axis_bounds s1 s2 c1 c2 h0.1 h0.2 (neg_le_neg h1.2) (neg_le_neg h1.1) (by norm_num)
      (by norm_num)
    have c := axis_bounds s5 s6 c5 c6 h1.1 h1.2 h0.1 h0.2 (by norm_num) (by norm_num)
    rw [← x0] at c
    norm_num at a b c p1 p2 p3 p4
    norm_num
    refine ⟨by linarith, by linarith, by linarith⟩
  · right; right; left
    obtain ⟨h0, h1, -⟩ := b2.1 hx
    have a := axis_bounds s1 s2 c1 c2 h1.1 h1.2 h0.1 h0.2 (by norm_num) (by norm_num)
    have b := axis_bounds s1 s2 c1 c2 h0.1 h0.2 (neg_le_neg h1.2) (neg_le_neg h1.1) (by norm_num)
      (by norm_num)
    have c := axis_bounds s5 s6 c5 c6 h0.1 h0.2 (neg_le_neg h1.2) (neg_le_neg h1.1) (by norm_num)
      (by norm_num)
    rw [← x2] at c
    norm_num at a b c p1 p2 p3 p4
    norm_num
    refine ⟨by linarith, by linarith, by linarith⟩
  · right; right; right; left
    obtain ⟨h0, h1, -⟩ := b3.1 hx
    have a := axis_bounds s1 s2 c1 c2 h1.1 h1.2 h0.1 h0.2 (by norm_num) (by norm_num)
    have b := axis_bounds s1 s2 c1 c2 h0.1 h0.2 (neg_le_neg h1.2) (neg_le_neg h1.1) (by norm_num)
      (by norm_num)
    norm_num at a b p1 p2 p3 p4
    norm_num
    refine ⟨by linarith, by linarith⟩
  · right; right; right; right
    obtain ⟨h0, h1, -⟩ := b4.1 hx
    have ht : posPart (torchOf torchAngle1 torchAngle2).tfTT = torchTip := by
      rw [(torch_eq _ _).2, posPart_mkTf]; rfl
    obtain ⟨g0, -, g2⟩ := down_exact i
    obtain ⟨d1, d2⟩ := sqrt_two_num
    rw [ht] at h0 h1
    have k0 : alongAxis (torchAngle1 + torchAngle2) (x - torchTip) =
        alongAxis (torchAngle1 + torchAngle2) x - alongAxis (torchAngle1 + torchAngle2) torchTip := by
      simp only [alongAxis, Pi.sub_apply]; ring
    have k1 : besideAxis (torchAngle1 + torchAngle2) (x - torchTip) =
        besideAxis (torchAngle1 + torchAngle2) x - besideAxis (torchAngle1 + torchAngle2) torchTip := by
      simp only [besideAxis, Pi.sub_apply]; ring
    rw [k0] at h0
    rw [k1, abs_le] at h1
    obtain ⟨h0, h0'⟩ := h0
    norm_num at h0 h0' h1 g0 g2 d1 d2
    norm_num
    refine ⟨by linarith, by linarith, by linarith⟩
  · exact absurd hx (b5 _ (by omega))

/-! ## The arm with the elbow up -/

theorem two_unit {c s r z : ℝ} (h : s ^ 2 + c ^ 2 = 1) (c0 : 0 ≤ c) (hr : r ≤ 0.3205)
    (hz : -0.1 ≤ z ∧ z ≤ 0.1) : c * r + s * z ≤ 0.34 := by
  have a : c * r ≤ c * 0.3205 := mul_le_mul_of_nonneg_left hr c0
  have b : (c * 0.3205 + s * z) ^ 2 ≤ 0.34 ^ 2 := by
    have e : (c * 0.3205 + s * z) ^ 2 + (s * 0.3205 - c * z) ^ 2 =
      (s ^ 2 + c ^ 2) * (0.3205 ^ 2 + z ^ 2) := by ring
    rw [h] at e
    nlinarith [sq_nonneg (s * 0.3205 - c * z)]
  have := abs_le_of_sq_le_sq b (by norm_num)
  linarith [(abs_le.1 this).2]

theorem weld_upper {c s x y : ℝ} (c1 : -0.441 ≤ c) (c2 : c ≤ -0.269) (s1 : 0.897 ≤ s) (s2 : s ≤ 0.964)
    (hx : -0.7 ≤ x) (hy : -0.1 ≤ y) : c * (x + 0.6) - s * y + 0.18 ≤ 0.3205 := by
  have a : c * (x + 0.6) ≤ c * -0.1 := mul_le_mul_of_nonpos_left (by linarith) (by linarith)
  have b : s * -0.1 ≤ s * y := mul_le_mul_of_nonneg_left hy (by linarith)
  linarith

theorem weld_fore {c s f g x z : ℝ} (c1 : -0.441 ≤ c) (c2 : c ≤ -0.269) (s1 : 0.897 ≤ s)
    (g1 : 0.15 ≤ g) (g2 : g ≤ 0.225) (f0 : 0 ≤ f) (f1 : f ≤ 0.989)
    (hx : -0.1 ≤ x ∧ x ≤ 0.1) (hz : -0.08 ≤ z ∧ z ≤ 0.42) :
    g * x + f * z + 0.6 * c + 0.18 ≤ 0.4575 ∧ 0.3 ≤ f * x - g * z + 0.6 * s := by
  have a1 : g * x ≤ g * 0.1 := mul_le_mul_of_nonneg_left hx.2 (by linarith)
  have a2 : f * z ≤ f * 0.42 := mul_le_mul_of_nonneg_left hz.2 f0
  have b1 : f * -0.1 ≤ f * x := mul_le_mul_of_nonneg_left hx.1 f0
  have b2 : g * z ≤ g * 0.42 := mul_le_mul_of_nonneg_left hz.2 (by linarith)
  constructor <;> linarith

theorem weld_fore_x {c s r z : ℝ} (c0 : 0 ≤ c) (c1 : c ≤ 1) (hs : |s| ≤ 0.42) (hr : r ≤ 0.4575)
    (hz : 0 ≤ z ∧ z ≤ 0.1) : c * r + s * z ≤ 0.5 := by
  rw [abs_le] at hs
  have a : c * r ≤ c * 0.4575 := mul_le_mul_of_nonneg_left hr c0
  have b : s * z ≤ 0.42 * z := mul_le_mul_of_nonneg_right hs.2 hz.1
  linarith

theorem weld_wristbox {c s f g a b y W0 W2 : ℝ} (c0 : 0 ≤ c) (c1 : c ≤ 1) (hs : |s| ≤ 0.42)
    (g1 : 0.15 ≤ g) (g2 : g ≤ 0.225) (f0 : 0 ≤ f) (f1 : f ≤ 0.989) (hab : a ^ 2 + b ^ 2 ≤ 0.005)
    (hy : 0 ≤ y) (h0 : W0 ≤ 0.551) (h2 : 0.4395 ≤ W2) :
    c * (g * a - f * y) + s * b + W0 ≤ 0.585 ∧ 0.36 ≤ f * a + g * y + W2 := by
  have hs2 : s ^ 2 ≤ 0.42 ^ 2 := sq_le_sq' (abs_le.1 hs).1 (abs_le.1 hs).2
  have hcg : (c * g) ^ 2 ≤ 0.225 ^ 2 := by
    refine pow_le_pow_left₀ (mul_nonneg c0 (by linarith)) ?_ 2
    calc c * g ≤ 1 * 0.225 := mul_le_mul c1 g2 (by linarith) (by norm_num)
      _ = 0.225 := by norm_num
  have k : (c * g * a + s * b) ^ 2 ≤ 0.034 ^ 2 := by
    have e : (c * g * a + s * b) ^ 2 + (c * g * b - s * a) ^ 2 =
      ((c * g) ^ 2 + s ^ 2) * (a ^ 2 + b ^ 2) := by ring
    have m : ((c * g) ^ 2 + s ^ 2) * (a ^ 2 + b ^ 2) ≤ (0.225 ^ 2 + 0.42 ^ 2) * 0.005 :=
      mul_le_mul (by linarith) hab (by positivity) (by norm_num)
    have := sq_nonneg (c * g * b - s * a)
    norm_num at m ⊢
    linarith
  have k' := (abs_le.1 (abs_le_of_sq_le_sq k (by norm_num))).2
  have n : 0 ≤ c * (f * y) := mul_nonneg c0 (mul_nonneg f0 hy)
  have ha : a ^ 2 ≤ 0.0708 ^ 2 := by nlinarith [sq_nonneg b]
  have ha' := abs_le.1 (abs_le_of_sq_le_sq ha (by norm_num))
  have m : f * -0.0708 ≤ f * a := mul_le_mul_of_nonneg_left ha'.1 f0
  have n' : 0 ≤ g * y := mul_nonneg (by linarith) hy
  constructor
  · linarith
  · linarith

theorem weld_bend {c s f g : ℝ} (c1 : -0.441 ≤ c) (c2 : c ≤ -0.269) (s1 : 0.897 ≤ s)
    (s2 : s ≤ 0.964) (g1 : 0.15 ≤ g) (g2 : g ≤ 0.225) (f0 : 0 ≤ f) (f1 : f ≤ 0.989) :
    |f * c - g * s| ≤ 1 - 1 / 10 ^ 6 := by
  have a1 : f * -0.441 ≤ f * c := mul_le_mul_of_nonneg_left c1 f0
  have a2 : f * c ≤ 0 := mul_nonpos_of_nonneg_of_nonpos f0 (by linarith)
  have b1 : 0 ≤ g * s := mul_nonneg (by linarith) (by linarith)
  have b2 : g * s ≤ 0.225 * 0.964 := mul_le_mul g2 s2 (by linarith) (by norm_num)
  rw [abs_le]
  constructor <;> norm_num at * <;> linarith

/-- What the configuration keeps free: where the links are, and the flange. -/
structure WeldPose (i : Nat) (r : Robot Shape) (Q : List ℝ) : Prop where
  flange : frameOf r Q 5 = mkTf downTurn (downPos i)
  link0 : ∀ x ∈ linkBody r Q 0, x 0 ≤ 0.34 ∧ x 2 ≤ 0.1
  link1 : ∀ x ∈ linkBody r Q 1, x 0 ≤ 0.34
  link2 : ∀ x ∈ linkBody r Q 2, x 0 ≤ 0.5 ∧ 0.3 ≤ x 2
  link3 : ∀ x ∈ linkBody r Q 3, x 0 ≤ 0.585 ∧ 0.36 ≤ x 2
  link4 : ∀ x ∈ linkBody r Q 4, ∃ v, x = act (mkTf downTurn (downPos i)) v ∧
    v 0 ^ 2 + v 1 ^ 2 ≤ 0.005 ∧ -0.115 ≤ v 2 ∧ v 2 ≤ -0.03
  link5 : ∀ x ∈ linkBody r Q 5, ∃ v, x = act (mkTf downTurn (downPos i)) v ∧
    |v 0| ≤ 0.05 ∧ -0.03 ≤ v 2 ∧ v 2 ≤ 0
  rest : ∀ k, 6 ≤ k → linkBody r Q k = ∅

theorem weld_pose {i : Nat} {r : Robot Shape}
    (hr : r.links = (kukaRobot 0.18 0.6 0.62 0.115).links) (hb : r.tfBase = 1)
    {q1 q2 phi q4 q5 q6 c s f g u W0 W2 : ℝ} (a2 : Real.cos q2 = c) (b2 : Real.sin q2 = s)
    (a3 : Real.cos phi = g) (b3 : Real.sin phi = f) (hcs : c ^ 2 + s ^ 2 = 1)
    (hx : 0.6 * c + 0.62 * f = u - 0.18) (hz : 0.6 * s - 0.62 * g = W2) (hRc : Real.cos q1 * u = W0)
    (c1 : -0.441 ≤ c) (c2 : c ≤ -0.269) (s1 : 0.897 ≤ s) (s2 : s ≤ 0.964) (g1 : 0.15 ≤ g)
    (g2 : g ≤ 0.225) (f0 : 0 ≤ f) (f1 : f ≤ 0.989) (w2 : W0 ≤ 0.551) (w3 : 0.4395 ≤ W2)
    (k1 : Real.cos q1 ≤ 1) (k2 : 0 ≤ Real.cos q1) (k3 : |Real.sin q1| ≤ 0.42)
    (hchain : chain (kukaRobot 0.18 0.6 0.62 0.115).links [q1, q2, phi - q2, q4, q5, q6] =
      mkTf downTurn (downPos i)) : WeldPose i r [q1, q2, phi - q2, q4, q5, q6] := by
  have hrig : IsRigid r.tfBase := by rw [hb]; exact IsRigid.one
  have hsc := Real.sin_sq_add_cos_sq q1
  obtain ⟨Q, hQ⟩ : ∃ Q : List ℝ, Q = [q1, q2, phi - q2, q4, q5, q6] := ⟨_, rfl⟩
  have hflange : frameOf r Q 5 = mkTf downTurn (downPos i) := by
    unfold frameOf
    rw [linkProduct_eq, hr, hb, one_mul, List.take_of_length_le (le_refl 6), hQ,
      List.take_of_length_le (le_refl 6), hchain]
  rw [← hQ]
  have st : ∀ (k : Nat) (l : Link Shape) (x : ℝ), (kukaRobot 0.18 0.6 0.62 0.115).links[k + 1]? =
      some l → Q[k + 1]? = some x → ∀ u, act (frameOf r Q (k + 1)) u =
        act (frameOf r Q k) (act (l.tf x) u) := fun k l x hl hx u =>
    frame_step hrig (by rw [hr]; exact hl) hx u
  have e1 : Real.sin (-Real.pi / 2) = -1 := by
    rw [neg_div, Real.sin_neg, Real.sin_pi_div_two]
  have e2 : Real.cos (-Real.pi / 2) = 0 := by
    rw [neg_div, Real.cos_neg, Real.cos_pi_div_two]
  have t1 := st 0 _ q2 rfl (by rw [hQ]; rfl)
  have t2 := st 1 _ (phi - q2) rfl (by rw [hQ]; rfl)
  have t3 := st 2 _ q4 rfl (by rw [hQ]; rfl)
  have t5 := st 4 _ q6 rfl (by rw [hQ]; rfl)
  have t0 : ∀ u, act (frameOf r Q 0) u = act (dhMat 0.18 (Real.pi / 2) 0 q1) u := by
    intro u
    have := frameBefore_succ r (q := Q) (k := 0) (x := q1) (by rw [hr]; rfl) (by rw [hQ]; rfl)
    change frameOf r Q 0 = _ at this
    rw [this]
    congr 1
    simp [frameBefore, linkProduct, Link.tf, hb]
  simp only [Link.tf, act_dhMat_coord, Real.cos_zero, Real.sin_zero, Real.cos_pi_div_two,
    Real.sin_pi_div_two, e1, e2, Real.cos_sub, Real.sin_sub, a2, b2, a3,
    b3] at t0 t1 t2 t3 t5
  have w0 : ∀ u, act (frameOf r Q 0) u = ![Real.cos q1 * (u 0 + 0.18) +
      Real.sin q1 * u 2, Real.sin q1 * (u 0 + 0.18) - Real.cos q1 * u 2, u 1] := by
    intro u
    rw [t0]
    ext i; fin_cases i <;> simp only [Fin.zero_eta, Fin.mk_one, Fin.reduceFinMk, Matrix.cons_val] <;>
      ring
  have w1 : ∀ u, act (frameOf r Q 1) u = ![Real.cos q1 * (c * (u 0 + 0.6) - s * u 1 +
      0.18) + Real.sin q1 * u 2, Real.sin q1 * (c * (u 0 + 0.6) - s * u 1 + 0.18) -
      Real.cos q1 * u 2, s * (u 0 + 0.6) + c * u 1] := by
    intro u
    rw [t1, w0]
    ext i; fin_cases i <;> simp only [Fin.zero_eta, Fin.mk_one, Fin.reduceFinMk, Matrix.cons_val] <;>
      ring
  have w2' : ∀ u, act (frameOf r Q 2) u = ![Real.cos q1 * (g * u 0 + f * u 2 + 0.6 * c +
      0.18) + Real.sin q1 * u 1, Real.sin q1 * (g * u 0 + f * u 2 + 0.6 * c + 0.18) -
      Real.cos q1 * u 1, f * u 0 - g * u 2 + 0.6 * s] := by
    intro u
    rw [t2, w1]
    ext i; fin_cases i <;> simp only [Fin.zero_eta, Fin.mk_one, Fin.reduceFinMk, Matrix.cons_val]
    · linear_combination Real.cos q1 * (g * u 0 + f * u 2) * hcs
    · linear_combination Real.sin q1 * (g * u 0 + f * u 2) * hcs
    · linear_combination (f * u 0 - g * u 2) * hcs
  have w3' : ∀ v, act (frameOf r Q 3) v 0 = Real.cos q1 * (g * (Real.cos q4 * v 0 - Real.sin q4 * v 2) -
        f * v 1) + Real.sin q1 * (Real.sin q4 * v 0 + Real.cos q4 * v 2) + W0 ∧
      act (frameOf r Q 3) v 2 = f * (Real.cos q4 * v 0 - Real.sin q4 * v 2) + g * v 1 + W2 := by
    intro v
    rw [t3, w2']
    simp only [Matrix.cons_val]
    constructor
    · linear_combination Real.cos q1 * hx + hRc
    · linear_combination hz
  have w5 : ∀ v, act (frameOf r Q 4) v = act (mkTf downTurn (downPos i))
      ![Real.cos q6 * v 0 + Real.sin q6 * v 1, Real.cos q6 * v 1 - Real.sin q6 * v 0,
        v 2 - 0.115] := by
    intro v
    have h6 := Real.sin_sq_add_cos_sq q6
    rw [← hflange, t5]
    congr 1
    ext j; fin_cases j <;> simp only [Fin.zero_eta, Fin.mk_one, Fin.reduceFinMk, Matrix.cons_val]
    · linear_combination -v 0 * h6
    · linear_combination -v 1 * h6
    · ring
  obtain ⟨B0, B1, B2, B3, B4, B5, B6⟩ := C113_kuka 0.18 0.6 0.62 0.115 r hr hrig Q
  refine ⟨hflange, ?_, ?_, ?_, ?_, ?_, ?_, B6⟩
  · intro x h
    obtain ⟨u, rfl, hu⟩ := B0.mem hrig h
    have v0 := hu 0
    have v1 := hu 1
    have v2 := hu 2
    rw [w0]
    simp only [Matrix.cons_val] at v0 v1 v2 ⊢
    exact ⟨two_unit hsc k2 (by linarith) ⟨by linarith, by linarith⟩, v1.2⟩
  · intro x h
    obtain ⟨u, rfl, hu⟩ := B1.mem hrig h
    have v0 := hu 0
    have v1 := hu 1
    have v2 := hu 2
    rw [w1]
    simp only [Matrix.cons_val] at v0 v1 v2 ⊢
    exact two_unit hsc k2 (weld_upper c1 c2 s1 s2 v0.1 v1.1) ⟨by linarith, by linarith⟩
  · intro x h
    obtain ⟨u, rfl, hu⟩ := B2.mem hrig h
    have v0 := hu 0
    have v1 := hu 1
    have v2 := hu 2
    rw [w2']
    simp only [Matrix.cons_val] at v0 v1 v2 ⊢
    obtain ⟨m, n⟩ := weld_fore c1 c2 s1 g1 g2 f0 f1 v0 v2
    exact ⟨weld_fore_x k2 k1 k3 m v1, n⟩
  · intro x h
    obtain ⟨u, rfl, hu⟩ := B3.mem hrig h
    have v0 := hu 0
    have v1 := hu 1
    have v2 := hu 2
    obtain ⟨z0, z2⟩ := w3' u
    rw [z0, z2]
    simp only [Matrix.cons_val] at v0 v1 v2
    refine weld_wristbox k2 k1 k3 g1 g2 f0 f1 ?_ v1.1 w2 w3
    have h4 := Real.sin_sq_add_cos_sq q4
    have n0 : u 0 ^ 2 ≤ 0.05 ^ 2 := sq_le_sq' (by linarith) v0.2
    have n2 : u 2 ^ 2 ≤ 0.05 ^ 2 := sq_le_sq' (by linarith) v2.2
    have : (Real.cos q4 * u 0 - Real.sin q4 * u 2) ^ 2 +
        (Real.sin q4 * u 0 + Real.cos q4 * u 2) ^ 2 = u 0 ^ 2 + u 2 ^ 2 := by
      linear_combination (u 0 ^ 2 + u 2 ^ 2) * h4
    rw [this]
    norm_num at n0 n2 ⊢
    linarith
  · intro x h
    obtain ⟨u, rfl, hu⟩ := B4.mem hrig h
    have v0 := hu 0
    have v1 := hu 1
    have v2 := hu 2
    simp only [Matrix.cons_val] at v0 v1 v2
    refine ⟨_, w5 u, ?_⟩
    simp only [Matrix.cons_val]
    have h6 := Real.sin_sq_add_cos_sq q6
    have n0 : u 0 ^ 2 ≤ 0.05 ^ 2 := sq_le_sq' (by linarith) v0.2
    have n1 : u 1 ^ 2 ≤ 0.05 ^ 2 := sq_le_sq' (by linarith) v1.2
    have : (Real.cos q6 * u 0 + Real.sin q6 * u 1) ^ 2 +
        (Real.cos q6 * u 1 - Real.sin q6 * u 0) ^ 2 = u 0 ^ 2 + u 1 ^ 2 := by
      linear_combination (u 0 ^ 2 + u 1 ^ 2) * h6
    rw [this]
    refine ⟨?_, by linarith, by linarith⟩
    norm_num at n0 n1 ⊢
    linarith
  · intro x h
    obtain ⟨u, rfl, hu⟩ := B5.mem hrig h
    have v0 := hu 0
    have v2 := hu 2
    simp only [Matrix.cons_val] at v0 v2
    exact ⟨u, by rw [hflange], abs_le.2 ⟨by linarith, by linarith⟩, by linarith, by linarith⟩

theorem weld_arm {i : Nat} (hi : i < 10) {r : Robot Shape}
    (hr : r.links = (kukaRobot 0.18 0.6 0.62 0.115).links) (hb : r.tfBase = 1) :
    ∃ q1 q2 q3 q4 q5 q6, WeldPose i r [q1, q2, q3, q4, q5, q6] ∧
      chain (kukaRobot 0.18 0.6 0.62 0.115).links [q1, q2, q3, q4, q5, q6] =
        mkTf downTurn (downPos i) ∧
      0.18 + 0.6 * Real.cos q2 + 0.62 * Real.sin (q2 + q3) ≠ 0 ∧
      |Real.sin q3| ≤ 1 - 1 / 10 ^ 6 ∧ Real.sin q5 ≠ 0 := by
  obtain ⟨p1, p2, p3, p4⟩ := down_num i
  obtain ⟨s3, s4, c3, c4⟩ := torch_num3
  have hdR : IsRot downTurn := by
    obtain ⟨R, p, hR, -, hRe, -⟩ := weld_wrist i 19 29
    rwa [hRe, weld_down] at hR
  obtain ⟨y, hyd⟩ : ∃ y, y = downPos i 1 := ⟨_, rfl⟩
  have hye : y = -0.25 + 0.5 * (i : ℝ) / 9 := by rw [hyd]; exact (down_exact i).2.1
  have hi1 : (i : ℝ) ≤ 9 := by exact_mod_cast (by omega : i ≤ 9)
  have hi0 : (0 : ℝ) ≤ i := Nat.cast_nonneg _
  have hy0 : y ≠ 0 := by
    intro h
    have : (i : ℝ) * 2 = 9 := by linarith
    have : i * 2 = 9 := by exact_mod_cast this
    omega
  have hy2 : y ^ 2 ≤ 0.25 ^ 2 := sq_le_sq' (by linarith) (by linarith)
  obtain ⟨W0, hW0⟩ : ∃ W0, W0 = downPos i 0 - 0.115 * -Real.sin (torchAngle1 + torchAngle2) := ⟨_, rfl⟩
  obtain ⟨W2, hW2⟩ : ∃ W2, W2 = downPos i 2 + 0.115 * Real.cos (torchAngle1 + torchAngle2) := ⟨_, rfl⟩
  have w1 : 0.5489 ≤ W0 := by rw [hW0]; linarith
  have w2 : W0 ≤ 0.551 := by rw [hW0]; linarith
  have w3 : 0.4395 ≤ W2 := by rw [hW2]; linarith
  have w4 : W2 ≤ 0.4414 := by rw [hW2]; linarith
  obtain ⟨u, hu⟩ : ∃ u : ℝ, u = Real.sqrt (W0 ^ 2 + y ^ 2) := ⟨_, rfl⟩
  have hsq : u ^ 2 = W0 ^ 2 + y ^ 2 := by rw [hu]; exact Real.sq_sqrt (by positivity)
  have u0 : 0 ≤ u := by rw [hu]; exact Real.sqrt_nonneg _
  have u1 : 0.5489 ≤ u := by nlinarith
  have u2 : u ≤ 0.6051 := by nlinarith
  obtain ⟨c, s, f, g, hcs, hgf, hx, hz, c1, c2, s1, s2, g1, g2, f0, f1⟩ :=
    elbow_weld (X := u - 0.18) (by linarith) (by linarith) w3 w4
  obtain ⟨q1, a1, b1⟩ := exists_angle (x := W0 / u) (y := y / u) (by
    have : u ≠ 0 := by linarith
    field_simp
    linarith)
  obtain ⟨q2, a2, b2⟩ := exists_angle hcs
  obtain ⟨phi, a3, b3⟩ := exists_angle hgf
  have hu0 : u ≠ 0 := by linarith
  have hRc : Real.cos q1 * u = W0 := by rw [a1]; field_simp
  have hRs : Real.sin q1 * u = y := by rw [b1]; field_simp
  have k1 : Real.cos q1 ≤ 1 := Real.cos_le_one _
  have k2 : 0 ≤ Real.cos q1 := by rw [a1]; apply div_nonneg <;> linarith
  have k3 : |Real.sin q1| ≤ 0.42 := by
    apply abs_le_of_sq_le_sq _ (by norm_num)
    rw [b1, div_pow, div_le_iff₀ (by positivity), hsq]
    nlinarith
  obtain ⟨A, hA⟩ : ∃ A, A = armRot q1 phi := ⟨_, rfl⟩
  have hAr : IsRot A := by rw [hA]; exact armRot_isRot _ _
  obtain ⟨q4, q5, q6, hzyz⟩ := zyz_exists (hAr.transpose.mul hdR)
  have hAR : A * zyz q4 q5 q6 = downTurn := by
    rw [hzyz, ← mul_assoc, hAr.mul_transpose, one_mul]
  have hchain : chain (kukaRobot 0.18 0.6 0.62 0.115).links [q1, q2, phi - q2, q4, q5, q6] =
      mkTf downTurn (downPos i) := by
    have e : q2 + (phi - q2) = phi := by ring
    have e' : q2 + (phi - q2 - Real.pi / 2) = phi - Real.pi / 2 := by ring
    rw [chain_kuka, e, ← hA, hAR]
    congr 1
    ext m
    fin_cases m <;>
      simp [armPos, e', Real.cos_sub_pi_div_two, Real.sin_sub_pi_div_two, a2, b2, a3, b3, downTurn,
        Matrix.mulVec, dotProduct, Fin.sum_univ_three]
    · linear_combination Real.cos q1 * hx + hRc + hW0
    · linear_combination Real.sin q1 * hx + hRs + hyd
    · linear_combination hz + hW2
  refine ⟨q1, q2, phi - q2, q4, q5, q6, ?_, hchain, ?_, ?_, ?_⟩
  · exact weld_pose hr hb a2 b2 a3 b3 hcs hx hz hRc c1 c2 s1 s2 g1 g2 f0 f1 w2 w3 k1 k2 k3 hchain
  · rw [add_sub_cancel, a2, b3]
    have : 0.18 + 0.6 * c + 0.62 * f = u := by linarith
    rw [this]
    exact hu0
  · rw [Real.sin_sub, a2, a3, b2, b3]
    exact weld_bend c1 c2 s1 s2 g1 g2 f0 f1
  · intro h5
    have hsing : Real.cos q1 * downTurn 1 2 = Real.sin q1 * downTurn 0 2 := by
      rw [← hAR, zyz_eq, h5]
      simp [hA, armRot, Matrix.mul_apply, Fin.sum_univ_three]
      ring
    simp only [downTurn, Matrix.of_apply, Matrix.cons_val', Matrix.cons_val, Matrix.cons_val_fin_one] at hsing
    rw [mul_zero] at hsing
    rcases mul_eq_zero.1 hsing.symm with h | h
    · exact hy0 (by rw [← hRs, h, zero_mul])
    · linarith

/-! ## Nothing touches -/

theorem torch_row {k : Nat} {t : M4} (h : torch.tfS[k]? = some t) : t 3 = ![0, 0, 0, 1] :=
  ((C91_torch torchAngle1 torchAngle2).2.2.2.1 t (List.mem_of_getElem? h)).2

/-- A link and the torch have a point in common. -/
theorem touch_torch (r : Robot Shape) (q : List ℝ) {i : Nat} {li : Link Shape}
    (hi : r.links[i]? = some li) {F : M4} (hF : F 3 = ![0, 0, 0, 1])
    (h : Touch boxOracle li.geometry (frameOf r q i) torch.toCollection F) :
    ∃ x ∈ linkBody r q i, ∃ k, ∃ v ∈ wallPoints torch.toCollection k, x = act F v := by
  obtain ⟨m, n, s, s', t, t', h1, h2, h3, h4, h⟩ := h
  obtain ⟨u, hu, v, hv, he⟩ := (boxOracle_iff _ _).1 h
  refine ⟨act (frameOf r q i * t) u, ⟨m, li, s, t, hi, h1, h2, u, hu, rfl⟩, n, act t' v,
    ⟨s', t', h3, h4, v, hv, rfl⟩, ?_⟩
  rw [← act_mul hF (torch_row h4)]
  exact he

/-- The torch and the scene have a point in common. -/
theorem torch_scene {F : M4} (hF : F 3 = ![0, 0, 0, 1]) {scene : Collection Shape}
    (h : Touch boxOracle torch.toCollection F scene 1) :
    ∃ k, ∃ v ∈ wallPoints torch.toCollection k, ∃ j, act F v ∈ wallPoints scene j := by
  obtain ⟨m, n, s, s', t, t', h1, h2, h3, h4, h⟩ := h
  obtain ⟨u, hu, v, hv, he⟩ := (boxOracle_iff _ _).1 h
  refine ⟨m, act t u, ⟨s, t, h1, h2, u, hu, rfl⟩, n, s', t', h3, h4, v, hv, ?_⟩
  rw [one_mul] at he
  rw [← act_mul hF (torch_row h2)]
  exact he.symm

/-- The workpiece is below 21 cm, at least 35 cm from the axis of the robot. -/
theorem scene_bounds {x : V3} {j : Nat} (h : x ∈ wallPoints kingpinScene j) :
    0.35 ≤ x 0 ∧ x 2 ≤ 0.21 ∧ (x 2 ≤ 0.11 ∨ 0.84 ≤ x 0 ∨ x 0 ≤ 0.8) := by
  obtain ⟨s0, s1, s2, s3, s4⟩ := C114_scene x
  rcases j with _ | _ | _ | _ | j
  · obtain ⟨h0, h1, -, h2, h3⟩ := s0.1 h
    exact ⟨h0, by linarith, .inl (by linarith)⟩
  · obtain ⟨h0, h1, -, h2, h3⟩ := s1.1 h
    exact ⟨by linarith, by linarith, .inl h3⟩
  · obtain ⟨h0, h1, -, h2, h3⟩ := s2.1 h
    exact ⟨by linarith, h3, .inr (.inl h0)⟩
  · obtain ⟨h0, h1, -, h2, h3⟩ := s3.1 h
    exact ⟨by linarith, by linarith, .inr (.inr h1)⟩
  · exact absurd h (s4 _ (by omega))

theorem weld_link4 {i : Nat} {x v : V3} (hx : x = act (mkTf downTurn (downPos i)) v)
    (h : v 0 ^ 2 + v 1 ^ 2 ≤ 0.005) (h1 : -0.115 ≤ v 2) (h2 : v 2 ≤ -0.03) :
    0.47 ≤ x 0 ∧ x 0 ≤ 0.65 ∧ 0.3 ≤ x 2 ∧ |v 0| ≤ 0.0708 := by
  obtain ⟨p1, p2, p3, p4⟩ := down_num i
  obtain ⟨s3, s4, c3, c4⟩ := torch_num3
  have hv : v 0 ^ 2 ≤ 0.0708 ^ 2 := by nlinarith [sq_nonneg (v 1)]
  have hv' := abs_le_of_sq_le_sq hv (by norm_num)
  obtain ⟨h3, h4⟩ := abs_le.1 hv'
  have y0 : x 0 = Real.cos (torchAngle1 + torchAngle2) * v 0 +
      -Real.sin (torchAngle1 + torchAngle2) * v 2 + downPos i 0 := by
    rw [hx, down_act]; simp only [Matrix.cons_val, besideAxis]; ring
  have y2 : x 2 = downPos i 2 + (Real.cos (torchAngle1 + torchAngle2) * -v 2 +
      -Real.sin (torchAngle1 + torchAngle2) * v 0) := by
    rw [hx, down_act]; simp only [Matrix.cons_val, alongAxis]; ring
  have a := axis_bounds s3 s4 c3 c4 h3 h4 h1 h2 (by norm_num) (by norm_num)
  have b := axis_bounds s3 s4 c3 c4 (neg_le_neg h2) (neg_le_neg h1) h3 h4 (by norm_num) (by norm_num)
  norm_num at a b p1 p2 p3 p4
  refine ⟨by linarith, by linarith, by linarith, hv'⟩

theorem weld_link5 {i : Nat} {x v : V3} (hx : x = act (mkTf downTurn (downPos i)) v)
    (h : |v 0| ≤ 0.05) (h1 : -0.03 ≤ v 2) (h2 : v 2 ≤ 0) : 0.53 ≤ x 0 ∧ 0.3 ≤ x 2 := by
  obtain ⟨p1, p2, p3, p4⟩ := down_num i
  obtain ⟨s3, s4, c3, c4⟩ := torch_num3
  obtain ⟨h3, h4⟩ := abs_le.1 h
  have y0 : x 0 = Real.cos (torchAngle1 + torchAngle2) * v 0 +
      -Real.sin (torchAngle1 + torchAngle2) * v 2 + downPos i 0 := by
    rw [hx, down_act]; simp only [Matrix.cons_val, besideAxis]; ring
  have y2 : x 2 = downPos i 2 + (Real.cos (torchAngle1 + torchAngle2) * -v 2 +
      -Real.sin (torchAngle1 + torchAngle2) * v 0) := by
    rw [hx, down_act]; simp only [Matrix.cons_val, alongAxis]; ring
  have a := axis_bounds s3 s4 c3 c4 h3 h4 h1 h2 (by norm_num) (by norm_num)
  have b := axis_bounds s3 s4 c3 c4 (neg_le_neg h2) (neg_le_neg h1) h3 h4 (by norm_num) (by norm_num)
  norm_num at a b p1 p2 p3 p4
  exact ⟨by linarith, by linarith⟩

/-- The links three or more apart have no point in common. -/
theorem weld_apart {i : Nat} {r : Robot Shape} {Q : List ℝ} (h : WeldPose i r Q) {a b : Nat}
    (hab : a + 3 ≤ b) {x : V3} (ha : x ∈ linkBody r Q a) (hb : x ∈ linkBody r Q b) : False := by
  have hlt : b < 6 := by
    by_contra hc
    rw [h.rest b (by omega)] at hb
    exact hb
  have f5 : b = 5 → 0.53 ≤ x 0 ∧ 0.3 ≤ x 2 := by
    rintro rfl
    obtain ⟨v, e, v0, v1, v2⟩ := h.link5 x hb
    exact weld_link5 e v0 v1 v2
  have f4 : b = 4 → 0.47 ≤ x 0 ∧ 0.3 ≤ x 2 := by
    rintro rfl
    obtain ⟨v, e, v0, v1, v2⟩ := h.link4 x hb
    obtain ⟨m1, -, m2, -⟩ := weld_link4 e v0 v1 v2
    exact ⟨m1, m2⟩
  have f3 : b = 3 → 0.36 ≤ x 2 := by
    rintro rfl
    exact (h.link3 x hb).2
  obtain rfl | rfl | rfl : a = 0 ∨ a = 1 ∨ a = 2 := by omega
  · have g := (h.link0 x ha).2
    obtain rfl | rfl | rfl : b = 3 ∨ b = 4 ∨ b = 5 := by omega
    · linarith [f3 rfl]
    · linarith [(f4 rfl).2]
    · linarith [(f5 rfl).2]
  · have g := h.link1 x ha
    obtain rfl | rfl : b = 4 ∨ b = 5 := by omega
    · linarith [(f4 rfl).1]
    · linarith [(f5 rfl).1]
  · have g := (h.link2 x ha).1
    obtain rfl : b = 5 := by omega
    linarith [(f5 rfl).1]

/-- No link but the last has a point in common with the torch. -/
theorem weld_torch {i : Nat} {r : Robot Shape} {Q : List ℝ} (h : WeldPose i r Q) {a k : Nat}
    (hab : a < 5) {x v : V3} (ha : x ∈ linkBody r Q a) (hv : v ∈ wallPoints torch.toCollection k)
    (hx : x = act (mkTf downTurn (downPos i)) v) : False := by
  have ht := torch_world i hv hx
  have hx0 : 0.545 ≤ x 0 := by
    rcases ht with ⟨-, h, -⟩ | ⟨-, h, -⟩ | ⟨-, h, -⟩ | ⟨-, h, -⟩ | ⟨-, h, -⟩ <;> linarith
  obtain rfl | rfl | rfl | rfl | rfl : a = 0 ∨ a = 1 ∨ a = 2 ∨ a = 3 ∨ a = 4 := by omega
  · linarith [(h.link0 x ha).1]
  · linarith [h.link1 x ha]
  · linarith [(h.link2 x ha).1]
  · have g := h.link3 x ha
    rcases ht with ⟨-, -, -, h, -⟩ | ⟨-, h, -⟩ | ⟨-, h, -⟩ | ⟨-, h, -⟩ | ⟨-, h, -⟩ <;> linarith
  · obtain ⟨w, e, w0, w1, w2⟩ := h.link4 x ha
    obtain ⟨m1, m2, m3, m4⟩ := weld_link4 e w0 w1 w2
    have hdR : IsRot downTurn := by
      obtain ⟨R, p, hR, -, hRe, -⟩ := weld_wrist i 19 29
      rwa [hRe, weld_down] at hR
    have hw : v = w := by
      rw [hx, act_mkTf, act_mkTf] at e
      exact rot_inj hdR (add_right_cancel e)
    subst hw
    rw [abs_le] at m4
    rcases ht with ⟨-, -, -, -, h⟩ | ⟨-, -, -, h⟩ | ⟨-, -, -, h⟩ | ⟨-, h, -⟩ | ⟨-, h, -⟩ <;> linarith

/-- The configuration is free of collisions. -/
theorem weld_free {i n : Nat} {Q : List ℝ} (h : WeldPose i (weldingKuka n).robot Q) :
    ¬ SceneTouch boxOracle (weldingKuka n).robot Q kingpinScene ∧
    ¬ SelfTouch boxOracle (weldingKuka n).robot Q := by
  have hrow : (mkTf downTurn (downPos i)) 3 = ![0, 0, 0, 1] := by
    ext j; fin_cases j <;> simp [mkTf]
  have hF : frameOf (weldingKuka n).robot Q ((weldingKuka n).robot.links.length - 1) =
      mkTf downTurn (downPos i) := h.flange
  constructor
  · rintro (⟨base, hb, -⟩ | ⟨a, la, ha, ht⟩ | ⟨tool, htool, ht⟩)
    · cases hb
    · obtain ⟨x, hx, j, hj⟩ := touch_wall _ _ ha ht
      obtain ⟨z0, z2, -⟩ := scene_bounds hj
      have ha6 : a < 6 := (List.getElem?_eq_some_iff.1 ha).1
      obtain rfl | rfl | rfl | rfl | rfl | rfl : a = 0 ∨ a = 1 ∨ a = 2 ∨ a = 3 ∨ a = 4 ∨ a = 5 := by omega
      · linarith [(h.link0 x hx).1]
      · linarith [h.link1 x hx]
      · linarith [(h.link2 x hx).2]
      · linarith [(h.link3 x hx).2]
      · obtain ⟨w, e, w0, w1, w2⟩ := h.link4 x hx
        linarith [(weld_link4 e w0 w1 w2).2.2.1]
      · obtain ⟨w, e, w0, w1, w2⟩ := h.link5 x hx
        linarith [(weld_link5 e w0 w1 w2).2]
    · cases htool
      rw [hF] at ht
      obtain ⟨k, v, hv, j, hj⟩ := torch_scene hrow ht
      obtain ⟨z0, z2, z3⟩ := scene_bounds hj
      rcases torch_world i hv rfl with ⟨-, -, h, -⟩ | ⟨-, -, h, -⟩ | ⟨-, -, h, -⟩ | ⟨-, -, h⟩ |
        ⟨-, g1, g2, g3⟩
      · linarith
      · linarith
      · linarith
      · linarith
      · rcases z3 with h | h | h <;> linarith
  · rintro (⟨a, b, la, lb, hab, ha, hb, ht⟩ | ⟨tool, a, la, htool, ha5, ha, ht⟩)
    · obtain ⟨x, hx, hx'⟩ := (touch_bodies _ _ ha hb).1 ht
      rcases hab with hab | hab
      · exact weld_apart h hab hx hx'
      · exact weld_apart h hab hx' hx
    · cases htool
      rw [hF] at ht
      obtain ⟨x, hx, k, v, hv, e⟩ := touch_torch _ _ ha hrow ht
      have : a + 1 < 6 := ha5
      exact weld_torch h (by omega) hx hv e

/-- For every point of the seam the last of its 600 frames, with the wire straight down, is reached
without collision. -/
theorem weld_reached (n : Nat) {i : Nat} (hi : i < 10) : ∃ q1 q2 q3 q4 q5 q6 : ℝ,
    FkSatisfies boxOracle (weldingKuka n).robot [q1, q2, q3, q4, q5, q6] (· = weldFrame i 19 29) ∧
    ¬ SceneTouch boxOracle (weldingKuka n).robot [q1, q2, q3, q4, q5, q6] kingpinScene ∧
    ¬ SelfTouch boxOracle (weldingKuka n).robot [q1, q2, q3, q4, q5, q6] ∧
    0.18 + 0.6 * Real.cos q2 + 0.62 * Real.sin (q2 + q3) ≠ 0 ∧
    |Real.sin q3| ≤ 1 - 1 / 10 ^ 6 ∧ Real.sin q5 ≠ 0 := by
  obtain ⟨q1, q2, q3, q4, q5, q6, h, hc, r1, r2, r3⟩ := weld_arm hi (r := (weldingKuka n).robot) rfl rfl
  refine ⟨q1, q2, q3, q4, q5, q6, ?_, (weld_free h).1, (weld_free h).2, r1, r2, r3⟩
  obtain ⟨R, p, hR, hT, hRe, hp⟩ := weld_wrist i 19 29
  rw [weld_down] at hRe
  subst hRe
  change FkSatisfies boxOracle (setup (Kuka.new 0.18 0.6 0.62 0.115 n) 1 (some torch)).robot _ _
  rw [fkSatisfies_iff _ _ (setup_known 0.18 0.6 0.62 0.115 n 1 (some torch)) _ (le_refl _)]
  change 1 * chain (kukaRobot 0.18 0.6 0.62 0.115).links _ * tipOf (some torch) = weldFrame i 19 29
  rw [hc, hT, hp]
  rfl

/-- **C114**: with a collision library that is exact for boxes, kingpin.py ends with a path of ten
configurations. -/
theorem C114_ends [Zeros] {C : Type} [CostArith C] [JointArith ℝ C] (n : Nat) {pq : PQ C Config}
    (hl : Lawful pq) (hno : PyGraph.NoOverflow C)
    (hfin : ∀ (w : List ℝ) (x y : Config), stepCost C w x y < ⊤) (conv : ℝ → ℝ) (draws : Nat → Draws) :
    ∃ path, Returns (KukaOK n) (kingpin (kukaRef boxOracle (weldingKuka n)).toArm pq conv draws) path ∧
      path.length = 10 :=
  C114_complete boxOracle n hl hno hfin conv draws fun _ hi =>
    ⟨19, 29, by norm_num, by norm_num, weld_reached n hi⟩

/-- A case: real costs and the heap of the standard library. -/
example [Zeros] (n : Nat) (conv : ℝ → ℝ) (draws : Nat → Draws) :
    ∃ path, Returns (KukaOK n) (kingpin (kukaRef boxOracle (weldingKuka n)).toArm
      (stdHeap : PQ (WithTop ℝ) Config) conv draws) path ∧ path.length = 10 :=
  C114_ends n stdHeapLawful noOverflow_real stepCost_real conv draws

end

end Verif.Props
