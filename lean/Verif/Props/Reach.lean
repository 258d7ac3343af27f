import Verif.Props.Workspace
import Verif.Props.Examples
import Verif.Props.Rounding
import Mathlib.Analysis.Complex.Norm

/-! # kingpin.py asks for nothing out of reach (C114, C120)

examples/kingpin.py asks the Kuka with the torch for 6000 frames.  All of them are within its reach, so
that the script can only fail because of collisions. -/

set_option linter.unusedSectionVars false

namespace Verif.Props

open Matrix Verif Verif.Path Verif.Geometry Verif.Kin Verif.Util Verif.ShortestPath Verif.Task
  Verif.CppGraph Verif.Search Verif.Planning Verif.Resources Verif.Examples

noncomputable section

/-- The distance of a point from the circle on which the shoulder of the Kuka turns. -/
def fromShoulder (a1 : ℝ) (x : V3) : ℝ :=
  Real.sqrt ((Real.sqrt (x 0 ^ 2 + x 1 ^ 2) - a1) ^ 2 + x 2 ^ 2)

theorem sqrt_sub_le (a b c d : ℝ) :
    |Real.sqrt (a ^ 2 + b ^ 2) - Real.sqrt (c ^ 2 + d ^ 2)| ≤
      Real.sqrt ((a - c) ^ 2 + (b - d) ^ 2) := by
  have h := abs_norm_sub_norm_le ((a : ℂ) + b * Complex.I) (c + d * Complex.I)
  rw [show (a : ℂ) + b * Complex.I - (c + d * Complex.I) =
    ((a - c : ℝ) : ℂ) + ((b - d : ℝ) : ℂ) * Complex.I by push_cast; ring,
    Complex.norm_add_mul_I, Complex.norm_add_mul_I, Complex.norm_add_mul_I] at h
  exact h

/-- It changes by at most the distance moved. -/
theorem fromShoulder_le (a1 : ℝ) (x y : V3) :
    |fromShoulder a1 x - fromShoulder a1 y| ≤ gap x y := by
  refine (sqrt_sub_le _ _ _ _).trans ?_
  unfold gap
  refine Real.sqrt_le_sqrt ?_
  have h := sqrt_sub_le (x 0) (x 1) (y 0) (y 1)
  have h2 := Real.sq_sqrt (show 0 ≤ (x 0 - y 0) ^ 2 + (x 1 - y 1) ^ 2 by positivity)
  have h3 := sq_le_sq' (by linarith [abs_nonneg (Real.sqrt (x 0 ^ 2 + x 1 ^ 2) - Real.sqrt (y 0 ^ 2 + y 1 ^ 2)), Real.sqrt_nonneg ((x 0 - y 0) ^ 2 + (x 1 - y 1) ^ 2)]) h
  rw [sq_abs, h2] at h3
  simp only [dist2, dotProduct, Pi.sub_apply, Fin.sum_univ_three]
  nlinarith

/-- The tip of the torch in the flange frame. -/
def torchTip : V3 :=
  torchRot torchAngle1 *ᵥ (torchPos torchAngle2 4 + rotZ torchAngle2 *ᵥ ![0.06, 0, 0])

/-- The orientation of the tip of the torch in the flange frame. -/
def torchTurn : M3 := torchRot (torchAngle1 + torchAngle2) * rotY (Real.pi / 2)

theorem torchTurn_isRot : IsRot torchTurn := (torchRot_isRot _).mul (rotY_isRot _)

theorem tipOf_torch : tipOf (some torch) = mkTf torchTurn torchTip :=
  (torch_eq torchAngle1 torchAngle2).2

theorem torch_sin : -1 ≤ Real.sin torchAngle2 ∧ Real.sin torchAngle2 ≤ 0 := by
  refine ⟨Real.neg_one_le_sin _, Real.sin_nonpos_of_nonpos_of_neg_pi_le ?_ ?_⟩ <;>
    unfold torchAngle2 <;> linarith [Real.pi_pos]

/-- The tip is at most 46 cm from the wrist centre. -/
theorem torch_length : vlen (torchTip + ![0, 0, 0.115]) ≤ 0.46 := by
  refine (vlen_add _ _).trans ?_
  have h1 : vlen torchTip ≤ 0.345 := by
    rw [torchTip, vlen_rot (torchRot_isRot _), vlen]
    refine Real.sqrt_le_iff.2 ⟨by norm_num, ?_⟩
    obtain ⟨s1, s2⟩ := torch_sin
    have c1 := torch_cos
    have c2 := Real.cos_le_one torchAngle2
    simp only [torchPos, rotZ, dotProduct, Fin.sum_univ_three, Matrix.mulVec, Pi.add_apply,
      Matrix.cons_val, Matrix.of_apply, Matrix.cons_val', Matrix.cons_val_fin_one]
    simp
    generalize Real.sin torchAngle2 = s at *
    generalize Real.cos torchAngle2 = c at *
    nlinarith
  have h2 : vlen ![0, 0, 0.115] = 0.115 := by
    rw [vlen]
    simp [dotProduct, Fin.sum_univ_succ]
    exact Real.sqrt_mul_self (by norm_num)
  linarith

/-- The wrist centre and the orientation of the flange at a frame of the seam. -/
theorem weld_wrist (i j k : Nat) : ∃ R p, IsRot R ∧ weldFrame i j k = 1 * mkTf R p * tipOf (some torch) ∧
    R = rotY (Real.pi / 2 + (j : ℝ) / 19 * (Real.pi / 2)) *
      rotZ (-Real.pi / 2 + (k : ℝ) / 29 * Real.pi) * torchTurnᵀ ∧
    p = weldPos i - R *ᵥ torchTip := by
  have hr := torchTurn_isRot
  refine ⟨_, _, ((rotY_isRot _).mul (rotZ_isRot _)).mul hr.transpose, ?_, rfl, rfl⟩
  rw [tipOf_torch, one_mul, mkTf_mul, mul_assoc _ torchTurnᵀ, hr.1, mul_one, add_sub_cancel]
  rfl

theorem weld_near {i j k : Nat} {R : M3} {p w : V3} (hR : IsRot R)
    (hp : p = weldPos i - R *ᵥ torchTip) (hw : ∀ m, w m = p m - 0.115 * R m 2) :
    gap w (weldPos i) ≤ 0.46 := by
  have : weldPos i - w = R *ᵥ (torchTip + ![0, 0, 0.115]) := by
    rw [Matrix.mulVec_add]
    ext m
    simp only [Pi.sub_apply, Pi.add_apply, hw, hp]
    simp [Matrix.mulVec, dotProduct, Fin.sum_univ_three]
    ring
  rw [gap_comm, gap_eq, this, vlen_rot hR]
  exact torch_length

/-- The distances of the end of the torch from the first axis and from the shoulder. -/
theorem weld_place (i : Nat) (hi : i < 10) :
    0.82 ≤ Real.sqrt (weldPos i 0 ^ 2 + weldPos i 1 ^ 2) ∧
      0.64 ≤ fromShoulder 0.18 (weldPos i) ∧ fromShoulder 0.18 (weldPos i) ≤ 0.712 := by
  have h : (i : ℝ) ≤ 9 := by exact_mod_cast Nat.le_of_lt_succ hi
  have h0 : (0 : ℝ) ≤ i := Nat.cast_nonneg i
  have hx : weldPos i 0 = 0.84 - 0.02 / Real.sqrt 2 := by
    simp [weldPos, seamPoint]; ring
  have hy : weldPos i 1 = -0.25 + 0.5 * (i : ℝ) / 9 := by
    simp [weldPos, seamPoint]
  have hz : weldPos i 2 = 0.11 + 0.02 / Real.sqrt 2 := by
    simp [weldPos, seamPoint]
  have hd : 0 ≤ 0.02 / Real.sqrt 2 ∧ 0.02 / Real.sqrt 2 ≤ 0.015 := by
    refine ⟨by positivity, ?_⟩
    rw [div_le_iff₀ (by positivity)]
    have : 1.4 ≤ Real.sqrt 2 := Real.le_sqrt_of_sq_le (by norm_num)
    linarith
  have hy2 : (weldPos i 1) ^ 2 ≤ 0.0625 := by
    rw [hy]; nlinarith
  obtain ⟨d1, d2⟩ := hd
  generalize 0.02 / Real.sqrt 2 = d at *
  have r1 : 0.82 ≤ Real.sqrt (weldPos i 0 ^ 2 + weldPos i 1 ^ 2) := by
    refine Real.le_sqrt_of_sq_le ?_
    rw [hx]; nlinarith [sq_nonneg (weldPos i 1)]
  have r2 : Real.sqrt (weldPos i 0 ^ 2 + weldPos i 1 ^ 2) ≤ 0.88 := by
    refine Real.sqrt_le_iff.2 ⟨by norm_num, ?_⟩
    rw [hx]; nlinarith
  refine ⟨r1, Real.le_sqrt_of_sq_le ?_, Real.sqrt_le_iff.2 ⟨by norm_num, ?_⟩⟩
  · nlinarith [sq_nonneg (weldPos i 2)]
  · rw [hz]; nlinarith

/-- Every wrist centre that kingpin.py asks for is off the first axis and, with room to spare, at a
distance from the shoulder that the arm can reach. -/
theorem weld_closes {i j k : Nat} (hi : i < 10) {R : M3} {p w : V3} (hR : IsRot R)
    (hp : p = weldPos i - R *ᵥ torchTip) (hw : ∀ m, w m = p m - 0.115 * R m 2) :
    0 < Real.sqrt (w 0 ^ 2 + w 1 ^ 2) ∧
      |(Real.sqrt (w 0 ^ 2 + w 1 ^ 2) - 0.18) ^ 2 + w 2 ^ 2 - 0.6 ^ 2 - 0.62 ^ 2| ≤
        0.96 * (2 * (0.6 * 0.62)) := by
  have hg := weld_near (j := j) (k := k) hR hp hw
  obtain ⟨h1, h2, h3⟩ := weld_place i hi
  have l1 := (fromShoulder_le 0.18 w (weldPos i)).trans hg
  have l2 : |Real.sqrt (w 0 ^ 2 + w 1 ^ 2) - Real.sqrt (weldPos i 0 ^ 2 + weldPos i 1 ^ 2)| ≤ 0.46 := by
    refine (sqrt_sub_le _ _ _ _).trans (le_trans (Real.sqrt_le_sqrt ?_) hg)
    simp only [dist2, dotProduct, Pi.sub_apply, Fin.sum_univ_three]
    nlinarith [sq_nonneg (w 2 - weldPos i 2)]
  rw [abs_le] at l1 l2
  refine ⟨by linarith [l2.1], ?_⟩
  have hs : fromShoulder 0.18 w ^ 2 = (Real.sqrt (w 0 ^ 2 + w 1 ^ 2) - 0.18) ^ 2 + w 2 ^ 2 :=
    Real.sq_sqrt (by positivity)
  rw [← hs, abs_le]
  have b1 : 0.18 ≤ fromShoulder 0.18 w := by linarith [l1.1]
  have b2 : fromShoulder 0.18 w ≤ 1.172 := by linarith [l1.2]
  constructor <;> nlinarith

/-- C114, nothing out of reach: each of the 600 frames of each of the ten points of the seam is reached
exactly in some configuration, and `ik` returns four or eight solutions for it, whatever was called
before. -/
theorem C114_reach [Zeros] (hit : Oracle Shape) (n : Nat) (mem : Mem) (hn : n < mem.length)
    (history : List IkCall) (i j k : Nat) (hi : i < 10) :
    (∃ q1 q2 q3 q4 q5 q6, FkSatisfies hit (weldingKuka n).robot [q1, q2, q3, q4, q5, q6]
      (· = weldFrame i j k)) ∧
    let s := kukaAfter (Kuka.new 0.18 0.6 0.62 0.115 n) mem history
    ∃ sols, ((weldingKuka n).ik s.1 s.2 (weldFrame i j k)).1 = .ok (some sols) ∧
      (sols.length = 8 ∨ sols.length = 4) := by
  obtain ⟨R, p, hR, hT, -, hp⟩ := weld_wrist i j k
  set w : V3 := fun m => p m - 0.115 * R m 2 with hw
  have hc := (weld_closes (j := j) (k := k) hi hR hp (w := w) fun m => rfl).2
  have hwc : WristCentre 0.115 1 (some torch) (weldFrame i j k) w := ⟨R, p, hR, hT, fun m => rfl⟩
  have ha : (0.6 : ℝ) * 0.62 ≠ 0 := by norm_num
  have hcl : ∀ e : ℝ, 0 ≤ e → Closes 0.18 0.6 0.62 e w := fun e he =>
    ⟨_, Real.sq_sqrt (by positivity), hc.trans (by
      rw [abs_of_pos (by norm_num)]
      nlinarith)⟩
  refine ⟨(C120_reach hit ha n IsRigid.one torch_rigid hwc).2 (hcl 0 le_rfl), ?_⟩
  obtain ⟨h1, h2⟩ := C120_none (a1 := 0.18) ha n mem hn history IsRigid.one torch_rigid hwc
  intro s
  change (((weldingKuka n).ik s.1 s.2 (weldFrame i j k)).1 = .ok none ↔ _) at h1
  obtain ⟨o, ho⟩ : ∃ o, ((weldingKuka n).ik s.1 s.2 (weldFrame i j k)).1 = .ok o :=
    (C39_kuka_sound_partial hit ha n mem hn history IsRigid.one (some torch) torch_rigid
      (weldFrame_rigid i j k)).1
  cases o with
  | none => exact absurd (hcl _ (by norm_num)) (h1.1 ho)
  | some sols => exact ⟨sols, ho, (h2 sols ho).2⟩

/-- The orientation of the flange for the first frame of a point. -/
theorem weld_first : rotY (Real.pi / 2 + ((0 : Nat) : ℝ) / 19 * (Real.pi / 2)) *
      rotZ (-Real.pi / 2 + ((0 : Nat) : ℝ) / 29 * Real.pi) * torchTurnᵀ =
    !![Real.sin (torchAngle1 + torchAngle2), 0, Real.cos (torchAngle1 + torchAngle2); 0, 1, 0;
      -Real.cos (torchAngle1 + torchAngle2), 0, Real.sin (torchAngle1 + torchAngle2)] := by
  have hp2 : -Real.pi / 2 = -(Real.pi / 2) := by ring
  ext a b
  fin_cases a <;> fin_cases b <;>
    simp [torchTurn, torchRot, rotY, rotZ, hp2, Matrix.mul_apply, Fin.sum_univ_three]

theorem torch_bend : 0 < Real.cos (torchAngle1 + torchAngle2) := by
  apply Real.cos_pos_of_mem_Ioo
  constructor <;> unfold torchAngle1 torchAngle2 <;> linarith [Real.pi_pos]

theorem weld_flat {i : Nat} {R : M3} {p : V3}
    (hR : R = rotY (Real.pi / 2 + ((0 : Nat) : ℝ) / 19 * (Real.pi / 2)) *
      rotZ (-Real.pi / 2 + ((0 : Nat) : ℝ) / 29 * Real.pi) * torchTurnᵀ)
    (hp : p = weldPos i - R *ᵥ torchTip) : p 1 - 0.115 * R 1 2 = -0.25 + 0.5 * (i : ℝ) / 9 := by
  have ht : torchTip 1 = 0 := by
    simp [torchTip, torchRot, torchPos, rotZ, Matrix.mulVec, dotProduct, Fin.sum_univ_three]
  rw [hp, hR, weld_first]
  simp [Matrix.mulVec, dotProduct, Fin.sum_univ_three, ht, weldPos, seamPoint]

/-- C114, regular solutions: the first of the 600 frames of each point is reached with the wrist centre
off the first axis, the elbow far from stretched and the wrist bent, as `C114_complete` asks. -/
theorem C114_regular (hit : Oracle Shape) (n : Nat) (i : Nat) (hi : i < 10) :
    ∃ q1 q2 q3 q4 q5 q6,
      FkSatisfies hit (weldingKuka n).robot [q1, q2, q3, q4, q5, q6] (· = weldFrame i 0 0) ∧
      0.18 + 0.6 * Real.cos q2 + 0.62 * Real.sin (q2 + q3) ≠ 0 ∧
      |Real.sin q3| ≤ 1 - 1 / 10 ^ 6 ∧ Real.sin q5 ≠ 0 := by
  obtain ⟨R, p, hR, hT, hRe, hp⟩ := weld_wrist i 0 0
  set w : V3 := fun m => p m - 0.115 * R m 2 with hw
  obtain ⟨hu, hc⟩ := weld_closes (j := 0) (k := 0) hi hR hp (w := w) fun m => rfl
  set u := Real.sqrt (w 0 ^ 2 + w 1 ^ 2) with hud
  obtain ⟨q1, hx, hy⟩ : ∃ q1, w 0 = Real.cos q1 * u ∧ w 1 = Real.sin q1 * u := ⟨_, u_pos false false _ _⟩
  set c := ((u - 0.18) ^ 2 + w 2 ^ 2 - 0.6 ^ 2 - 0.62 ^ 2) / (2 * (0.6 * 0.62)) with hcd
  have hca : |c| ≤ 0.96 := by
    rw [hcd, abs_div, abs_of_pos (show (0 : ℝ) < 2 * (0.6 * 0.62) by norm_num), div_le_iff₀ (by norm_num)]
    exact hc
  have hcc := mul_div_cancel₀ ((u - 0.18) ^ 2 + w 2 ^ 2 - 0.6 ^ 2 - 0.62 ^ 2)
    (show (2 * (0.6 * 0.62) : ℝ) ≠ 0 by norm_num)
  rw [← hcd] at hcc
  obtain ⟨g1, g2⟩ := abs_le.1 hca
  obtain ⟨q2, q3, q4, q5, q6, h1, h2, h3, h4⟩ := reach_from (a1 := 0.18) (a2 := 0.6) (d4 := 0.62)
    (d6 := 0.115) (c := c) hR hx hy (by linarith) (by linarith) (by linarith)
  have hpw : w + R *ᵥ ![0, 0, 0.115] = p := by
    ext m
    simp [hw, Matrix.mulVec, dotProduct, Fin.sum_univ_three, mul_comm]
  refine ⟨q1, q2, q3, q4, q5, q6, ?_, ?_, ?_, h4 ?_⟩
  · change FkSatisfies hit (setup (Kuka.new 0.18 0.6 0.62 0.115 n) 1 (some torch)).robot _ _
    rw [fkSatisfies_iff _ _ (setup_known 0.18 0.6 0.62 0.115 n 1 (some torch)) _ (le_refl _)]
    change 1 * chain (kukaRobot 0.18 0.6 0.62 0.115).links _ * tipOf (some torch) = weldFrame i 0 0
    rw [h1, hpw, hT]
  · rw [h3]; exact hu.ne'
  · rw [h2]; exact hca.trans (by norm_num)
  · have hw1 : w 1 ≠ 0 := by
      rw [show w 1 = _ from weld_flat hRe hp]
      intro h0
      have : (i : ℝ) * 2 = 9 := by linarith
      have : i * 2 = 9 := by exact_mod_cast this
      omega
    rw [hRe, weld_first]
    simp only [Matrix.of_apply, Matrix.cons_val', Matrix.cons_val, Matrix.cons_val_fin_one]
    intro h0
    rw [mul_zero] at h0
    rcases mul_eq_zero.1 h0.symm with h | h
    · exact hw1 (by rw [hy, h, zero_mul])
    · exact torch_bend.ne' h

/-- A case of `C114_complete`: when the collision library reports nothing, kingpin.py ends with a path,
so only collisions can keep it from ending with one. -/
example [Zeros] (n : Nat) (conv : ℝ → ℝ) (draws : Nat → Draws) :
    ∃ path, Returns (KukaOK n) (kingpin (kukaRef (fun _ _ => false) (weldingKuka n)).toArm
      (stdHeap : PQ (WithTop ℝ) Config) conv draws) path ∧ path.length = 10 := by
  refine C114_complete _ n stdHeapLawful noOverflow_real stepCost_real conv draws fun i hi => ?_
  obtain ⟨q1, q2, q3, q4, q5, q6, h1, h2⟩ := C114_regular (fun _ _ => false) n i hi
  exact ⟨0, 0, by omega, by omega, q1, q2, q3, q4, q5, q6, h1, by simp [SceneTouch, Touch],
    by simp [SelfTouch, Touch], h2⟩

end

end Verif.Props
