import Verif.Props.RandomTests
import Verif.Props.RailExact
import Verif.Props.Distinct
import Verif.Props.Rounding
import Verif.Props.SelfClear
import Verif.Props.Torch
import Verif.Props.Examples

/-!
# C132, continued: the round trips of the Kuka in tests/test_robot.py

The five loops of tests/test_robot.py:307-398 draw joint values between −π and π and compare all
entries of the poses.
-/

set_option linter.unusedSectionVars false

namespace Verif.Props

open Matrix Verif.Geometry Verif.Kin Verif.Util Verif.Resources

/-- `numpy.testing.assert_almost_equal` with its default of seven decimals, on two matrices. -/
def AllClose (A B : M4) : Prop := ∀ i j, |A i j - B i j| < 1.5 / 10 ^ 7

theorem AllClose.refl (A : M4) : AllClose A A := fun i j => by rw [sub_self, abs_zero]; norm_num

/-- tests/test_robot.py:311-319, 330-338 and 348-356: the body of the loops of the tests of the Kuka,
for one draw, after any history of calls.  Their other branch (320-323) is a failure unless all joint
values are zero. -/
def KukaRoundTrip [Zeros] (hit : Oracle Shape) (base : M4) (tool : Option (Tool Shape)) (n : Nat)
    (mem : Mem) (history : List IkCall) (q : List ℝ) : Prop :=
  let k := setup (Kuka.new 0.18 0.6 0.62 0.115 n) base tool
  let s := kukaAfter (Kuka.new 0.18 0.6 0.62 0.115 n) mem history
  FkSatisfies hit k.robot q fun T1 => ∃ sols, (k.ik s.1 s.2 T1).1 = .ok (some sols) ∧
    ∀ a ∈ sols, ∃ x, (k.ik s.1 s.2 T1).2.2[a]? = some [x] ∧
      FkSatisfies hit k.robot x fun T2 => AllClose T1 T2

/-- tests/test_robot.py:366-374 and 385-393: the body of the loops of the tests of the Kuka on a rail,
for one draw; `qf` is the rail position of the draw. -/
def RailRoundTrip [Zeros] (hit : Oracle Shape) (base : M4) (tool : Option (Tool Shape)) (n : Nat)
    (mem : Mem) (history : List RailCall) (qf : ℝ) (q : List ℝ) : Prop :=
  let r := setupRail (Rail.new 0.18 0.6 0.62 0.115 n) base tool
  let s := railAfter (Rail.new 0.18 0.6 0.62 0.115 n) mem history
  FkSatisfies hit r.robot (qf :: q) fun T1 => ∃ sols,
    (r.ik s.st0 s.st s.mem T1 qf).1 = .ok (some sols) ∧
    ∀ a ∈ sols, ∃ x, (r.ik s.st0 s.st s.mem T1 qf).2.2.2[a]? = some [x] ∧
      FkSatisfies hit r.robot x fun T2 => AllClose T1 T2

/-- A configuration whose elbow and wrist are bent. -/
def BentConfig (q : List ℝ) : Prop :=
  ∃ q1 q2 q3 q4 q5 q6, q = [q1, q2, q3, q4, q5, q6] ∧ Real.cos q3 ≠ 0 ∧ Real.sin q5 ≠ 0

/-- **C132**, partial: the loop bodies of the tests of the Kuka pass for every draw for which `ik`
returns bent configurations only; on every base, with every tool, after every history.
Missing: the other draws, for some of which it fails (`C132_kuka_refuted`). -/
theorem C132_kuka_partial [Zeros] (hit : Oracle Shape) {base : M4} (hb : IsRigid base)
    (tool : Option (Tool Shape)) (ht : ∀ t, tool = some t → IsRigid t.tfTT) (n : Nat) (mem : Mem)
    (hn : n < mem.length) (history : List IkCall) (q1 q2 q3 q4 q5 q6 : ℝ)
    (hbent : let k := setup (Kuka.new 0.18 0.6 0.62 0.115 n) base tool
      let s := kukaAfter (Kuka.new 0.18 0.6 0.62 0.115 n) mem history
      FkSatisfies hit k.robot [q1, q2, q3, q4, q5, q6] fun T => ∀ sols,
        (k.ik s.1 s.2 T).1 = .ok (some sols) → ∀ a ∈ sols, ∀ x,
          (k.ik s.1 s.2 T).2.2[a]? = some [x] → BentConfig x) :
    KukaRoundTrip hit base tool n mem history [q1, q2, q3, q4, q5, q6] := by
  unfold KukaRoundTrip
  intro k s
  simp only at hbent
  have ha : (0.6 * 0.62 : ℝ) ≠ 0 := by norm_num
  rw [fkSatisfies_iff _ _ (setup_known _ _ _ _ n base tool) _ (le_refl _)] at hbent ⊢
  set T := k.robot.tfBase * chain k.robot.links [q1, q2, q3, q4, q5, q6] * tip k.robot with hT
  have hTr : IsRigid T := (hb.mul (chain_rigid _ _)).mul (tipOf_rigid ht)
  have hfk : FkSatisfies hit k.robot [q1, q2, q3, q4, q5, q6] (· = T) := by
    rw [fkSatisfies_iff _ _ (setup_known _ _ _ _ n base tool) _ (le_refl _)]
  obtain ⟨sols, hs, -⟩ := C40_kuka_complete hit ha n mem hn history hb tool ht q1 q2 q3 q4 q5 q6 hfk
  refine ⟨sols, hs, fun a hm => ?_⟩
  obtain ⟨t1, t2, t3, t4, t5, t6, hc, hex, -⟩ := (C39_kuka_sound_partial hit ha n mem hn history hb
    tool ht hTr).2 sols hs a hm
  obtain ⟨_, _, _, _, _, _, e, h3, h5⟩ := hbent sols hs a hm _ hc
  cases e
  refine ⟨_, hc, ?_⟩
  have := hex h3 h5
  rw [fkSatisfies_iff _ _ (setup_known _ _ _ _ n base tool) _ (le_refl _)] at this ⊢
  rw [this]
  exact AllClose.refl _

/-- **C132**, partial: the same for the Kuka on a rail. -/
theorem C132_rail_partial [Zeros] (hit : Oracle Shape) {base : M4} (hb : IsRigid base)
    (tool : Option (Tool Shape)) (ht : ∀ t, tool = some t → IsRigid t.tfTT) (n : Nat) (mem : Mem)
    (hn : n < mem.length) (history : List RailCall) (qf q1 q2 q3 q4 q5 q6 : ℝ)
    (hbent : let r := setupRail (Rail.new 0.18 0.6 0.62 0.115 n) base tool
      let s := railAfter (Rail.new 0.18 0.6 0.62 0.115 n) mem history
      FkSatisfies hit r.robot [qf, q1, q2, q3, q4, q5, q6] fun T => ∀ sols,
        (r.ik s.st0 s.st s.mem T qf).1 = .ok (some sols) → ∀ a ∈ sols, ∀ x0 x,
          (r.ik s.st0 s.st s.mem T qf).2.2.2[a]? = some [x0 :: x] → BentConfig x) :
    RailRoundTrip hit base tool n mem history qf [q1, q2, q3, q4, q5, q6] := by
  unfold RailRoundTrip
  intro r s
  simp only at hbent
  rw [fkSatisfies_iff _ r.robot (rail_known _ _ _ _) _ (le_refl _)] at hbent ⊢
  set T := r.robot.tfBase * chain r.robot.links [qf, q1, q2, q3, q4, q5, q6] * tip r.robot with hT
  have hTr : IsRigid T := (hb.mul (chain_rigid _ _)).mul (tipOf_rigid ht)
  have hfk : FkSatisfies hit r.robot [qf, q1, q2, q3, q4, q5, q6] (· = T) := by
    rw [fkSatisfies_iff _ r.robot (rail_known _ _ _ _) _ (le_refl _)]
  obtain ⟨sols, hs, -⟩ := C41_complete hit 0.18 0.6 0.62 0.115 n mem hn history hb tool ht qf q1 q2 q3
    q4 q5 q6 hfk
  refine ⟨sols, hs, fun a hm => ?_⟩
  obtain ⟨t1, t2, t3, t4, t5, t6, hc, hex⟩ := (C41_rail_sound_partial hit 0.18 0.6 0.62 0.115 n mem hn
    history hb tool ht hTr qf).2 sols hs a hm
  obtain ⟨_, _, _, _, _, _, e, h3, h5⟩ := hbent sols hs a hm _ _ hc
  cases e
  refine ⟨_, hc, ?_⟩
  have := hex h3 h5
  change FkSatisfies hit r.robot _ _ at this
  rw [fkSatisfies_iff _ r.robot (rail_known _ _ _ _) _ (le_refl _)] at this ⊢
  rw [this]
  exact AllClose.refl _

/-- The gripper is held across the arm: then the wrist of every solution is bent. -/
theorem crosswise_bent [Zeros] {q1 q2 q3 q6 : ℝ} {R : M3} {p : V3}
    (hch : chain (kukaRobot 0.18 0.6 0.62 0.115).links
      [q1, q2, q3, Real.pi / 2, Real.pi / 2, q6] = mkTf R p)
    (hw : 0.18 + 0.6 * Real.cos q2 + 0.62 * Real.sin (q2 + q3) ≠ 0)
    (h3 : |Real.sin q3| ≤ 1 - 1 / 10 ^ 6)
    (h3' : |Real.sin q3 + 0.72 / 0.744 * (0.18 + 0.6 * Real.cos q2 + 0.62 * Real.sin (q2 + q3))| ≤
      1 - 1 / 10 ^ 6) {qs : List (List ℝ)}
    (hs : arm2Ik (arm2 0.18 0.6 0.62) (mkTf R (p - R *ᵥ ![0, 0, 0.115])) = some qs) :
    ∀ q ∈ qs, ∀ q' ∈ kSols 0.18 0.6 0.62 (mkTf R (p - R *ᵥ ![0, 0, 0.115])) q, BentConfig q' := by
  intro q hq q' hq'
  rw [chain_kuka] at hch
  obtain ⟨hR, hp⟩ := mkTf_inj hch
  have hwc : p - R *ᵥ ![0, 0, 0.115] = armPos 0.18 0.6 0.62 q1 q2 (q3 - Real.pi / 2) := by
    rw [← hp, ← hR, add_sub_cancel_right]
  have hRr : IsRot R := by rw [← hR]; exact (armRot_isRot _ _).mul (zyz_isRot _ _ _)
  rw [hwc] at hs hq'
  have hcand : IsCand 0.18 0.6 0.62 (armPos 0.18 0.6 0.62 q1 q2 (q3 - Real.pi / 2) 0)
      (armPos 0.18 0.6 0.62 q1 q2 (q3 - Real.pi / 2) 1)
      (armPos 0.18 0.6 0.62 q1 q2 (q3 - Real.pi / 2) 2) q := arm2Ik_cand hs hq
  obtain ⟨s1, s2, s3, t1, t2, t3, rfl, rfl, hrow, hrel⟩ := kSols_mem hcand hq'
  obtain ⟨_, _, _, u, e, hu, hx, hy, hsn⟩ := hcand.elbow
  cases e
  have hsin : Real.cos (q2 + (q3 - Real.pi / 2)) = Real.sin (q2 + q3) := by
    rw [show q2 + (q3 - Real.pi / 2) = q2 + q3 - Real.pi / 2 by ring, Real.cos_sub_pi_div_two]
  have hd := dist2_shoulder 0.18 0.6 0.62 q1 q2 (q3 - Real.pi / 2)
  rw [Real.cos_sub_pi_div_two] at hd
  have g0 : armPos 0.18 0.6 0.62 q1 q2 (q3 - Real.pi / 2) 0 =
      Real.cos q1 * (0.18 + 0.6 * Real.cos q2 + 0.62 * Real.cos (q2 + (q3 - Real.pi / 2))) := rfl
  have g1 : armPos 0.18 0.6 0.62 q1 q2 (q3 - Real.pi / 2) 1 =
      Real.sin q1 * (0.18 + 0.6 * Real.cos q2 + 0.62 * Real.cos (q2 + (q3 - Real.pi / 2))) := rfl
  rw [hsin] at g0 g1
  have hcs := Real.cos_sq_add_sin_sq q1
  set w := 0.18 + 0.6 * Real.cos q2 + 0.62 * Real.sin (q2 + q3) with hwd
  simp only [dist2, dotProduct, Pi.sub_apply, Fin.sum_univ_three] at hd
  simp only [Matrix.cons_val_zero, Matrix.cons_val_one, Matrix.cons_val] at hd
  set z := armPos 0.18 0.6 0.62 q1 q2 (q3 - Real.pi / 2) 2
  rw [g0, g1] at hd hu
  have huw : u ^ 2 = w ^ 2 := by rw [hu]; linear_combination w ^ 2 * hcs
  have hz : (w - 0.18) ^ 2 + z ^ 2 = 0.36 + 0.3844 + 0.744 * Real.sin q3 := by
    linear_combination hd - (w - 0.18) ^ 2 * hcs
  have hu0 : u ≠ 0 := by rintro rfl; apply hw; nlinarith
  have hcos : |Real.cos s3| ≤ 1 - 1 / 10 ^ 6 := by
    rcases sq_eq_sq_iff_eq_or_eq_neg.1 huw with huu | huu <;> rw [huu] at hsn
    · have : ((w - 0.18) ^ 2 + z ^ 2 - 0.6 ^ 2 - 0.62 ^ 2) / (2 * 0.6 * 0.62) = Real.sin q3 := by
        rw [hz]; norm_num; ring
      rw [this] at hsn
      rw [snap_notRounded (Or.inl h3) hsn]; exact h3
    · have : ((-w - 0.18) ^ 2 + z ^ 2 - 0.6 ^ 2 - 0.62 ^ 2) / (2 * 0.6 * 0.62) =
          Real.sin q3 + 0.72 / 0.744 * w := by
        rw [show (-w - 0.18) ^ 2 + z ^ 2 = (w - 0.18) ^ 2 + z ^ 2 + 0.72 * w by ring, hz]
        norm_num; ring
      rw [this] at hsn
      rw [snap_notRounded (Or.inl h3') hsn]; exact h3'
  refine ⟨_, _, _, _, _, _, rfl, ?_, ?_⟩
  · rw [Real.cos_add_pi_div_two]
    intro h0
    have h0' : Real.sin s3 = 0 := by linarith
    have h1 := Real.cos_sq_add_sin_sq s3
    rw [h0'] at h1
    have h2 : |Real.cos s3| = 1 := by
      rw [← sq_eq_sq₀ (abs_nonneg _) one_pos.le, sq_abs]
      linarith
    rw [h2] at hcos
    norm_num at hcos
  · intro h0
    have hA := armRot_isRot s1 (s2 + (s3 + Real.pi / 2))
    obtain ⟨hax, -, -⟩ := wristRows_axis (by rw [hrel]; exact hA.transpose.mul hRr) hrow
    have hax2 := congrFun (hax 1) 2
    rw [hrel, ← hR] at hax2
    have hcr : Real.cos s1 * Real.sin q1 - Real.sin s1 * Real.cos q1 = 0 := by
      have : (Real.cos s1 * Real.sin q1 - Real.sin s1 * Real.cos q1) * u = 0 := by
        linear_combination Real.sin q1 * (g0 - hx) - Real.cos q1 * (g1 - hy)
      exact (mul_eq_zero.1 this).resolve_right hu0
    simp [zyz_eq, armRot, Matrix.mulVec, dotProduct, Matrix.mul_apply, Fin.sum_univ_three] at hax2
    have hz0 : Real.cos t2 = 0 := by
      rw [hax2]; linear_combination Real.sin (s2 + (s3 + Real.pi / 2)) * hcr
    have := Real.cos_sq_add_sin_sq t2
    rw [h0, hz0] at this
    norm_num at this

/-- The draw (0, 0, 0, π/2, π/2, 0) passes, on the base of `test_kuka_base_random`, after a call. -/
example [Zeros] (hit : Oracle Shape) : KukaRoundTrip hit (poseX 0.1 0.02 0.01 (-0.01)) none 0 [[]]
    [⟨1, none, 1⟩] [0, 0, 0, Real.pi / 2, Real.pi / 2, 0] := by
  have hb : IsRigid (poseX 0.1 0.02 0.01 (-0.01)) := (C20_pose _ _ _ _).1.1
  refine C132_kuka_partial hit hb none (by simp) 0 _ (by simp) _ _ _ _ _ _ _ ?_
  intro k s
  rw [fkSatisfies_iff _ _ (setup_known _ _ _ _ _ _ _) _ (le_refl _)]
  intro sols hs a ha x hx
  obtain ⟨hw, hlen⟩ := kukaAfter_inv (a1 := 0.18) (a2 := 0.6) (d4 := 0.62) (d6 := 0.115) (n := 0)
    [[]] (by simp) [⟨1, none, 1⟩]
  obtain ⟨R, p, hR, hch⟩ := (chain_rigid (kukaRobot 0.18 0.6 0.62 0.115).links
    [0, 0, 0, Real.pi / 2, Real.pi / 2, 0]).exists_mk
  have hTe : k.robot.tfBase * chain k.robot.links [0, 0, 0, Real.pi / 2, Real.pi / 2, 0] *
      tip k.robot = poseX 0.1 0.02 0.01 (-0.01) * mkTf R p * 1 := by rw [← hch]; rfl
  have htgt : kukaTarget k.robot (k.robot.tfBase * chain k.robot.links
      [0, 0, 0, Real.pi / 2, Real.pi / 2, 0] * tip k.robot) = mkTf R (p - R *ᵥ ![0, 0, 0.115]) := by
    rw [hTe]; exact kukaTarget_eq (r := k.robot) hb IsRigid.one rfl rfl
  obtain ⟨qs, hq⟩ := kuka_succeeds (by norm_num) hch
  obtain ⟨-, hc, -⟩ := kukaIk_content k (a1 := 0.18) (a2 := 0.6) (d4 := 0.62) (st := s.1)
    (mem := s.2) rfl hw (lt_of_lt_of_le (by decide) hlen) (by rw [htgt]; exact hq) hs
  obtain ⟨q, hqm, q', hq'm, hcell⟩ := hc a ha
  rw [hcell] at hx
  cases hx
  rw [htgt] at hq'm
  refine crosswise_bent hch ?_ ?_ ?_ hq q hqm x hq'm <;> norm_num

/-! ### Folded elbows -/

theorem snap_folded {c : ℝ} (h1 : -1 ≤ c) (h2 : c < -1 + 1 / 10 ^ 6) : snap c = some (-1) := by
  unfold snap
  rw [if_neg (by push Not; constructor <;> norm_num [tol] <;> linarith),
    if_pos (by right; norm_num [tol]; linarith), sign_neg (by linarith)]
  simp

/-- For a wrist centre that is reached with an elbow that is folded almost but not quite, the arm
has a solution that misses it by more than 1.85e-6. -/
theorem folded_arm [Zeros] {q1 q2 e : ℝ} (h1 : -1 + 1 / 10 ^ 7 < Real.cos e)
    (h2 : Real.cos e < -1 + 1 / 10 ^ 6) {T : M4} (hT : posPart T = armPos 0.18 0.6 0.62 q1 q2 e)
    {qs : List (List ℝ)} (hs : arm2Ik (arm2 0.18 0.6 0.62) T = some qs) :
    ∃ s1 s2 s3, [s1, s2, s3] ∈ qs ∧
      1.85 / 10 ^ 6 < gap (armPos 0.18 0.6 0.62 q1 q2 e) (armPos 0.18 0.6 0.62 s1 s2 s3) := by
  rw [arm2_sides hs]
  have g0 : T 0 3 = Real.cos q1 * (0.18 + 0.6 * Real.cos q2 + 0.62 * Real.cos (q2 + e)) :=
    congrFun hT 0
  have g1 : T 1 3 = Real.sin q1 * (0.18 + 0.6 * Real.cos q2 + 0.62 * Real.cos (q2 + e)) :=
    congrFun hT 1
  have g2 : T 2 3 = 0.6 * Real.sin q2 + 0.62 * Real.sin (q2 + e) := congrFun hT 2
  have hd := dist2_shoulder 0.18 0.6 0.62 q1 q2 e
  have hcs := Real.cos_sq_add_sin_sq q1
  have hc2 := Real.cos_sq_add_sin_sq q2
  have hce := Real.cos_sq_add_sin_sq e
  set w := 0.18 + 0.6 * Real.cos q2 + 0.62 * Real.cos (q2 + e) with hw
  have hz : (w - 0.18) ^ 2 + T 2 3 ^ 2 = 0.6 ^ 2 + 0.62 ^ 2 + 2 * 0.6 * 0.62 * Real.cos e := by
    rw [g2, hw, Real.cos_add, Real.sin_add]
    linear_combination (0.36 + 2 * 0.6 * 0.62 * Real.cos e +
      0.62 ^ 2 * (Real.cos e ^ 2 + Real.sin e ^ 2)) * hc2 + 0.62 ^ 2 * hce
  have hwpos : 0 < w := by nlinarith [sq_nonneg (T 2 3), hz]
  have hL : Real.sqrt (T 0 3 ^ 2 + T 1 3 ^ 2) = w := by
    rw [g0, g1, show (Real.cos q1 * w) ^ 2 + (Real.sin q1 * w) ^ 2 = w ^ 2 by
      linear_combination w ^ 2 * hcs]
    exact Real.sqrt_sq hwpos.le
  have hval : ((w - 0.18) ^ 2 + T 2 3 ^ 2 - 0.6 ^ 2 - 0.62 ^ 2) / (2 * 0.6 * 0.62) = Real.cos e := by
    rw [hz]; norm_num; ring
  obtain ⟨x1, x2⟩ := u_pos (Zeros.py T) (Zeros.px T) (T 0 3) (T 1 3)
  unfold bothSides sideOf
  rw [hL] at x1 x2 ⊢
  rw [hval, snap_folded (by linarith) h2]
  set s1 := atan2 (Zeros.py T) (Zeros.px T) (T 1 3) (T 0 3) with hs1
  refine ⟨_, _, _, by
    simp only [Option.map_some, Option.getD_some]
    exact List.mem_append_left _ List.mem_cons_self, ?_⟩
  generalize atan2 _ _ _ _ = s2
  have hs3 := (cs_elbow false false (c' := -1) (sg := 1) le_rfl (by norm_num) (Or.inl rfl)).1
  generalize atan2 _ _ _ _ = s3 at hs3 ⊢
  have hd' := dist2_shoulder 0.18 0.6 0.62 s1 s2 s3
  rw [hs3] at hd'
  have e1 : Real.cos s1 = Real.cos q1 := by
    rw [g0] at x1; exact (mul_right_cancel₀ hwpos.ne' x1).symm
  have e2 : Real.sin s1 = Real.sin q1 := by
    rw [g1] at x2; exact (mul_right_cancel₀ hwpos.ne' x2).symm
  rw [e1, e2] at hd'
  set S : V3 := ![0.18 * Real.cos q1, 0.18 * Real.sin q1, 0]
  have t := gap_triangle (armPos 0.18 0.6 0.62 q1 q2 e) (armPos 0.18 0.6 0.62 s1 s2 s3) S
  have k1 : gap (armPos 0.18 0.6 0.62 s1 s2 s3) S = 0.02 := by
    rw [gap, hd', show (0.6 ^ 2 + 0.62 ^ 2 + 2 * 0.6 * 0.62 * (-1) : ℝ) = 0.02 ^ 2 by norm_num]
    exact Real.sqrt_sq (by norm_num)
  have k2 : (0.02 + 1.85 / 10 ^ 6 : ℝ) < gap (armPos 0.18 0.6 0.62 q1 q2 e) S := by
    rw [gap, hd]
    apply Real.lt_sqrt_of_sq_lt
    norm_num at h1 ⊢
    linarith
  linarith

/-- Moving a point by matrices that are close. -/
theorem act_close {A B : M4} (h : AllClose A B) {c : V3} (hc : |c 0| + |c 1| + |c 2| ≤ 6) (i : Fin 3) :
    |act A c i - act B c i| ≤ 1.05 / 10 ^ 6 := by
  have e : act A c i - act B c i = (A i.castSucc 0 - B i.castSucc 0) * c 0 +
      (A i.castSucc 1 - B i.castSucc 1) * c 1 + (A i.castSucc 2 - B i.castSucc 2) * c 2 +
      (A i.castSucc 3 - B i.castSucc 3) := by
    fin_cases i <;> simp [act, rotPart, posPart, Matrix.mulVec, dotProduct, Fin.sum_univ_three] <;>
      ring
  rw [e]
  have b : ∀ j : Fin 4, ∀ x : ℝ, |(A i.castSucc j - B i.castSucc j) * x| ≤ 1.5 / 10 ^ 7 * |x| :=
    fun j x => by
      rw [abs_mul]; exact mul_le_mul_of_nonneg_right (h _ _).le (abs_nonneg _)
  have b0 := b 0 (c 0)
  have b1 := b 1 (c 1)
  have b2 := b 2 (c 2)
  have b3 := h i.castSucc 3
  refine (abs_add_le _ _).trans ?_
  have := abs_add_three ((A i.castSucc 0 - B i.castSucc 0) * c 0)
    ((A i.castSucc 1 - B i.castSucc 1) * c 1) ((A i.castSucc 2 - B i.castSucc 2) * c 2)
  norm_num at *
  linarith

/-- The point of the tool tip frame where the wrist centre is. -/
theorem wrist_point {tp : M4} (ht : IsRigid tp) (hp : ∀ i, |posPart tp i| ≤ 1) :
    ∃ c : V3, act tp c = ![0, 0, -0.115] ∧ |c 0| + |c 1| + |c 2| ≤ 6 := by
  refine ⟨act (tfInverse tp) ![0, 0, -0.115], ?_, ?_⟩
  · rw [← act_mul ht.2 (tfInverse_rigid ht.1).2, mul_tfInverse ht, act_one]
  · set c := act (tfInverse tp) ![0, 0, -0.115] with hc
    have hac : act tp c = ![0, 0, -0.115] := by
      rw [hc, ← act_mul ht.2 (tfInverse_rigid ht.1).2, mul_tfInverse ht, act_one]
    have hd := ht.dist2 c 0
    rw [hac] at hd
    have h0 : act tp 0 = posPart tp := by simp [act]
    rw [h0] at hd
    simp only [dist2, dotProduct, Pi.sub_apply, Fin.sum_univ_three, Pi.zero_apply, sub_zero] at hd
    simp only [Matrix.cons_val_zero, Matrix.cons_val_one, Matrix.cons_val] at hd
    have p0 := abs_le.1 (hp 0)
    have p1 := abs_le.1 (hp 1)
    have p2 := abs_le.1 (hp 2)
    have hsq : c 0 * c 0 + c 1 * c 1 + c 2 * c 2 ≤ 4 := by
      rw [← hd]; norm_num; nlinarith
    have q : ∀ i, |c i| ≤ 2 := by
      intro i
      apply abs_le_of_sq_le_sq _ (by norm_num)
      fin_cases i <;> simp only [Fin.zero_eta, Fin.mk_one, Fin.reduceFinMk] <;>
        nlinarith [mul_self_nonneg (c 0), mul_self_nonneg (c 1), mul_self_nonneg (c 2)]
    linarith [q 0, q 1, q 2]

/-- If two poses of the tool tip are close, then the wrist centres are close. -/
theorem centres_close {B tp : M4} (hB : IsRigid B) (ht : IsRigid tp) (hp : ∀ i, |posPart tp i| ≤ 1)
    {R R' : M3} {w w' : V3} (hR : IsRot R) (hR' : IsRot R')
    (h : AllClose (B * mkTf R (w + R *ᵥ ![0, 0, 0.115]) * tp)
      (B * mkTf R' (w' + R' *ᵥ ![0, 0, 0.115]) * tp)) : gap w w' ≤ 1.85 / 10 ^ 6 := by
  obtain ⟨c, hc, hb⟩ := wrist_point ht hp
  have key : ∀ {R : M3} {w : V3}, IsRot R →
      act (B * mkTf R (w + R *ᵥ ![0, 0, 0.115]) * tp) c = act B w := by
    intro R w hR
    rw [act_mul (hB.mul (isRigid_mkTf.2 hR)).2 ht.2, hc, act_mul hB.2 (mkTf_last _ _)]
    congr 1
    rw [act, rotPart_mkTf, posPart_mkTf]
    have : (![0, 0, -0.115] : V3) = -![0, 0, 0.115] := by ext i; fin_cases i <;> simp
    rw [this, Matrix.mulVec_neg]
    abel
  rw [← gap_rigid hB]
  apply gap_le (by norm_num)
  have a0 := act_close h hb 0
  have a1 := act_close h hb 1
  have a2 := act_close h hb 2
  rw [key hR, key hR'] at a0 a1 a2
  have s : ∀ x : ℝ, |x| ≤ 1.05 / 10 ^ 6 → x ^ 2 ≤ (1.05 / 10 ^ 6) ^ 2 := fun x hx => by
    rw [← sq_abs]; exact pow_le_pow_left₀ (abs_nonneg _) hx 2
  have := s _ a0
  have := s _ a1
  have := s _ a2
  norm_num at *
  linarith

/-- One of the solutions for a folded elbow is not close. -/
theorem folded_kuka [Zeros] {q1 q2 q3 q4 q5 q6 : ℝ} (h1 : -1 + 1 / 10 ^ 7 < Real.sin q3)
    (h2 : Real.sin q3 < -1 + 1 / 10 ^ 6) {R : M3} {p : V3}
    (hch : chain (kukaRobot 0.18 0.6 0.62 0.115).links [q1, q2, q3, q4, q5, q6] = mkTf R p)
    {qs : List (List ℝ)}
    (hs : arm2Ik (arm2 0.18 0.6 0.62) (mkTf R (p - R *ᵥ ![0, 0, 0.115])) = some qs) :
    ∃ q ∈ qs, ∃ q' ∈ kSols 0.18 0.6 0.62 (mkTf R (p - R *ᵥ ![0, 0, 0.115])) q, q'.length = 6 ∧
      ∀ {B tp : M4}, IsRigid B → IsRigid tp → (∀ i, |posPart tp i| ≤ 1) →
        ¬ AllClose (B * mkTf R p * tp)
          (B * chain (kukaRobot 0.18 0.6 0.62 0.115).links q' * tp) := by
  rw [chain_kuka] at hch
  obtain ⟨hR, hp⟩ := mkTf_inj hch
  have hwc : p - R *ᵥ ![0, 0, 0.115] = armPos 0.18 0.6 0.62 q1 q2 (q3 - Real.pi / 2) := by
    rw [← hp, ← hR, add_sub_cancel_right]
  have hcos : Real.cos (q3 - Real.pi / 2) = Real.sin q3 := Real.cos_sub_pi_div_two q3
  have hRr : IsRot R := by rw [← hR]; exact (armRot_isRot _ _).mul (zyz_isRot _ _ _)
  rw [hwc] at hs ⊢
  obtain ⟨s1, s2, s3, hmem, hgap⟩ := folded_arm (by rw [hcos]; exact h1) (by rw [hcos]; exact h2)
    (posPart_mkTf _ _) hs
  obtain ⟨q', hq'⟩ := List.exists_mem_of_length_pos
    (l := kSols 0.18 0.6 0.62 (mkTf R (armPos 0.18 0.6 0.62 q1 q2 (q3 - Real.pi / 2))) [s1, s2, s3])
    (by rw [kSols_length]; norm_num)
  have hcand : IsCand 0.18 0.6 0.62 (armPos 0.18 0.6 0.62 q1 q2 (q3 - Real.pi / 2) 0)
      (armPos 0.18 0.6 0.62 q1 q2 (q3 - Real.pi / 2) 1)
      (armPos 0.18 0.6 0.62 q1 q2 (q3 - Real.pi / 2) 2) [s1, s2, s3] := arm2Ik_cand hs hmem
  obtain ⟨_, _, _, t1, t2, t3, e, rfl, -, -⟩ := kSols_mem hcand hq'
  cases e
  refine ⟨_, hmem, _, hq', rfl, fun hB ht hpos hcl => ?_⟩
  rw [chain_kuka, ← hp] at hcl
  rw [hR] at hcl
  have := centres_close hB ht hpos hRr ((armRot_isRot _ _).mul (zyz_isRot _ _ _)) hcl
  rw [show s3 + Real.pi / 2 - Real.pi / 2 = s3 by ring] at this
  linarith

theorem tip_close {tool : Option (Tool Shape)}
    (hp : ∀ t, tool = some t → ∀ i, |posPart t.tfTT i| ≤ 1) (i : Fin 3) :
    |posPart (tipOf tool) i| ≤ 1 := by
  cases tool with
  | none =>
    have : posPart (tipOf none) = 0 := by
      change posPart (1 : M4) = 0
      rw [← mkTf_one, posPart_mkTf]
    rw [this]; simp
  | some t => exact hp t rfl i

/-- **C132** is false for the Kuka: for every draw with an elbow that is folded almost but not quite,
the loop body of the tests of the Kuka fails, whatever the other five joint values; on every base, with
every tool whose tip is at most one metre away along each axis, after every history. -/
theorem C132_kuka_refuted [Zeros] (hit : Oracle Shape) {base : M4} (hb : IsRigid base)
    (tool : Option (Tool Shape)) (ht : ∀ t, tool = some t → IsRigid t.tfTT)
    (hp : ∀ t, tool = some t → ∀ i, |posPart t.tfTT i| ≤ 1) (n : Nat) (mem : Mem)
    (hn : n < mem.length) (history : List IkCall) (q1 q2 q3 q4 q5 q6 : ℝ)
    (h1 : -1 + 1 / 10 ^ 7 < Real.sin q3) (h2 : Real.sin q3 < -1 + 1 / 10 ^ 6) :
    ¬ KukaRoundTrip hit base tool n mem history [q1, q2, q3, q4, q5, q6] := by
  unfold KukaRoundTrip
  intro hh
  set k := setup (Kuka.new 0.18 0.6 0.62 0.115 n) base tool with hk
  set s := kukaAfter (Kuka.new 0.18 0.6 0.62 0.115 n) mem history with hsd
  simp only at hh
  obtain ⟨hw, hlen⟩ := kukaAfter_inv (a1 := 0.18) (a2 := 0.6) (d4 := 0.62) (d6 := 0.115) mem hn history
  have hm : k.qsol < s.2.length := lt_of_lt_of_le hn hlen
  have htip := tipOf_rigid ht
  have hknown : ∀ l ∈ k.robot.links, l.Known := setup_known _ _ _ _ n base tool
  rw [fkSatisfies_iff _ _ hknown _ (le_refl _)] at hh
  obtain ⟨R, p, hR, hch⟩ := (chain_rigid (kukaRobot 0.18 0.6 0.62 0.115).links
    [q1, q2, q3, q4, q5, q6]).exists_mk
  have hTe : k.robot.tfBase * chain k.robot.links [q1, q2, q3, q4, q5, q6] * tip k.robot =
      base * mkTf R p * tipOf tool := by rw [← hch]; rfl
  rw [hTe] at hh
  change WF 3 s.1 at hw
  obtain ⟨sols, hs, hall⟩ := hh
  have htgt : kukaTarget k.robot (base * mkTf R p * tipOf tool) =
      mkTf R (p - R *ᵥ ![0, 0, 0.115]) := kukaTarget_eq (r := k.robot) hb htip rfl rfl
  obtain ⟨qs, hq⟩ := kuka_succeeds (by norm_num) hch
  have hq0 : arm2Ik (arm2 0.18 0.6 0.62) (kukaTarget k.robot (base * mkTf R p * tipOf tool)) =
      some qs := by rw [htgt]; exact hq
  obtain ⟨-, -, hcov⟩ := kukaIk_content k (a1 := 0.18) (a2 := 0.6) (d4 := 0.62) rfl hw hm hq0 hs
  obtain ⟨q, hqm, q', hq'm, hl6, hno⟩ := folded_kuka h1 h2 hch hq
  obtain ⟨a, ham, hcell⟩ := hcov q hqm q' (by rw [htgt]; exact hq'm)
  obtain ⟨x, hx, hfk⟩ := hall a ham
  rw [hcell] at hx
  cases hx
  rw [fkSatisfies_iff _ _ hknown _ (by rw [hl6]; exact le_refl _)] at hfk
  exact hno hb htip (tip_close hp) hfk

/-- The solutions of the Kuka on a rail contain every solution of the inner Kuka. -/
theorem rail_covers [Zeros] {a1 a2 d4 d6 : ℝ} {r : Rail} {n : Nat}
    (hr : r.robot.links = (railRobot a1 a2 d4 d6).links)
    (hk : r.kuka = Kuka.new 0.18 0.6 0.62 0.115 n) {st0 : M4} (h0 : Intact st0) {st : RState}
    {mem : Mem} (hw : WF 3 st) (hm : n < mem.length) {T : M4} {qf : ℝ} {R : M3} {p : V3}
    (hX : railTarget r.robot T = railLink qf * mkTf R p) {qs : List (List ℝ)}
    (hq : arm2Ik (arm2 0.18 0.6 0.62) (mkTf R (p - R *ᵥ ![0, 0, 0.115])) = some qs)
    {sols : List Nat} (hs : (r.ik st0 st mem T qf).1 = .ok (some sols)) :
    ∀ q ∈ qs, ∀ q' ∈ kSols 0.18 0.6 0.62 (mkTf R (p - R *ᵥ ![0, 0, 0.115])) q, ∃ a ∈ sols,
      (r.ik st0 st mem T qf).2.2.2[a]? = some [qf :: q'] := by
  obtain ⟨st0', h0', e⟩ := railIk_eq hr hk h0 st mem T qf
  obtain ⟨i1, i2, i3, i4, res, i5⟩ := kukaIk_inv (innerKuka n qf) (a1 := 0.18)
    (a2 := 0.6) (d4 := 0.62) rfl (railTarget r.robot T) hw hm
  have htgt : kukaTarget (innerKuka n qf).robot (railTarget r.robot T) =
      mkTf R (p - R *ᵥ ![0, 0, 0.115]) :=
    kukaTarget_eq (r := (innerKuka n qf).robot) (dhMat_rigid _ _ _ _) IsRigid.one (by
      rw [hX]
      change _ = railLink qf * mkTf R p * 1
      rw [mul_one]) rfl
  rw [← htgt] at hq
  cases res with
  | none =>
    rcases hx : (innerKuka n qf).ik st mem (railTarget r.robot T) with ⟨x, st', mem'⟩
    rw [hx] at e i5
    simp only at i5
    subst i5
    rw [e] at hs
    simp at hs
  | some inner =>
    obtain ⟨-, -, hc⟩ := kukaIk_content (innerKuka n qf) (a1 := 0.18) (a2 := 0.6) (d4 := 0.62) rfl
      hw hm hq i5
    rw [htgt] at hc
    have i4' := i4 inner i5
    rcases hx : (innerKuka n qf).ik st mem (railTarget r.robot T) with ⟨x, st', mem'⟩
    rw [hx] at e i5 hc i4'
    simp only at i5 hc i4'
    subst i5
    have hlt : ∀ a ∈ inner, a < mem'.length := fun a ha => (i4' a ha).2
    simp only [railRows_eq qf inner mem' [] hlt, List.nil_append] at e
    rw [e] at hs ⊢
    cases hs
    intro q hqm q' hq'm
    obtain ⟨a, ha, hcell⟩ := hc q hqm q' hq'm
    obtain ⟨i, hi, rfl⟩ := List.getElem_of_mem ha
    refine ⟨mem'.length + i, by rw [List.mem_range'_1]; omega, ?_⟩
    simp only
    rw [List.getElem?_append_right (by omega), List.getElem?_map]
    simp [hi, hcell]

/-- **C132** is false for the Kuka on a rail, for the same draws, whatever the rail position. -/
theorem C132_rail_refuted [Zeros] (hit : Oracle Shape) {base : M4} (hb : IsRigid base)
    (tool : Option (Tool Shape)) (ht : ∀ t, tool = some t → IsRigid t.tfTT)
    (hp : ∀ t, tool = some t → ∀ i, |posPart t.tfTT i| ≤ 1) (n : Nat) (mem : Mem)
    (hn : n < mem.length) (history : List RailCall) (qf q1 q2 q3 q4 q5 q6 : ℝ)
    (h1 : -1 + 1 / 10 ^ 7 < Real.sin q3) (h2 : Real.sin q3 < -1 + 1 / 10 ^ 6) :
    ¬ RailRoundTrip hit base tool n mem history qf [q1, q2, q3, q4, q5, q6] := by
  unfold RailRoundTrip
  intro hh
  set r := setupRail (Rail.new 0.18 0.6 0.62 0.115 n) base tool with hrd
  set s := railAfter (Rail.new 0.18 0.6 0.62 0.115 n) mem history with hsd
  simp only at hh
  obtain ⟨h0, hw, hlen⟩ := railAfter_inv (a1 := 0.18) (a2 := 0.6) (d4 := 0.62) (d6 := 0.115) mem hn
    history
  change Intact s.st0 at h0
  change WF 3 s.st at hw
  have hm : n < s.mem.length := lt_of_lt_of_le hn hlen
  have htip := tipOf_rigid ht
  have hknown : ∀ l ∈ r.robot.links, l.Known := rail_known _ _ _ _
  rw [fkSatisfies_iff _ _ hknown _ (le_refl _)] at hh
  obtain ⟨R, p, hR, hch⟩ := (chain_rigid (kukaRobot 0.18 0.6 0.62 0.115).links
    [q1, q2, q3, q4, q5, q6]).exists_mk
  have hTe : r.robot.tfBase * chain r.robot.links [qf, q1, q2, q3, q4, q5, q6] * tip r.robot =
      base * (railLink qf * mkTf R p) * tipOf tool := by rw [← hch, ← chain_rail]; rfl
  rw [hTe] at hh
  obtain ⟨sols, hs, hall⟩ := hh
  have hX : railTarget r.robot (base * (railLink qf * mkTf R p) * tipOf tool) =
      railLink qf * mkTf R p := railTarget_eq (r := r.robot) hb htip rfl
  obtain ⟨qs, hq⟩ := kuka_succeeds (by norm_num) hch
  obtain ⟨q, hqm, q', hq'm, hl6, hno⟩ := folded_kuka h1 h2 hch hq
  obtain ⟨a, ham, hcell⟩ := rail_covers (r := r) (a1 := 0.18) (a2 := 0.6) (d4 := 0.62) (d6 := 0.115)
    rfl rfl h0 hw hm hX hq hs q hqm q' hq'm
  obtain ⟨x, hx, hfk⟩ := hall a ham
  rw [hcell] at hx
  cases hx
  rw [fkSatisfies_iff _ _ hknown _ (by rw [List.length_cons, hl6]; exact le_refl _)] at hfk
  have e : r.robot.tfBase * chain r.robot.links (qf :: q') * tip r.robot =
      base * railLink qf * chain (kukaRobot 0.18 0.6 0.62 0.115).links q' * tipOf tool := by
    rw [mul_assoc base, ← chain_rail]; rfl
  rw [e, ← mul_assoc base] at hfk
  exact hno (hb.mul (dhMat_rigid _ _ _ _)) htip (tip_close hp) hfk

/-- A case of `C132_rail_partial`: the gripper across the arm, with the torch, on a rail. -/
example [Zeros] (hit : Oracle Shape) (n : Nat) (mem : Mem) (hn : n < mem.length)
    (history : List RailCall) :
    RailRoundTrip hit 1 (some torch) n mem history 0.7 [0, 0, 0, Real.pi / 2, Real.pi / 2, 0] := by
  refine C132_rail_partial hit IsRigid.one (some torch) torch_rigid n mem hn history _ _ _ _ _ _ _ ?_
  intro r s
  rw [fkSatisfies_iff _ r.robot (rail_known _ _ _ _) _ (le_refl _)]
  intro sols hs a ha x0 x hx
  obtain ⟨h0, hw, hlen⟩ := railAfter_inv (a1 := 0.18) (a2 := 0.6) (d4 := 0.62) (d6 := 0.115) mem hn
    history
  obtain ⟨R, p, hR, hch⟩ := (chain_rigid (kukaRobot 0.18 0.6 0.62 0.115).links
    [0, 0, 0, Real.pi / 2, Real.pi / 2, 0]).exists_mk
  have hTe : r.robot.tfBase * chain r.robot.links [0.7, 0, 0, 0, Real.pi / 2, Real.pi / 2, 0] *
      tip r.robot = 1 * (railLink 0.7 * mkTf R p) * tipOf (some torch) := by
    rw [← hch, ← chain_rail]; rfl
  rw [hTe] at hs hx
  obtain ⟨qs, hq, hc⟩ := rail_from (r := r) (a1 := 0.18) (a2 := 0.6) (d4 := 0.62) (d6 := 0.115)
    rfl rfl h0 hw (lt_of_lt_of_le hn hlen)
    (railTarget_eq (r := r.robot) IsRigid.one (tipOf_rigid torch_rigid) rfl) hs
  obtain ⟨q, hqm, q', hq'm, hcell⟩ := hc a ha
  have hx := hcell.symm.trans hx
  cases hx
  refine crosswise_bent hch ?_ ?_ ?_ hq q hqm x hq'm <;> norm_num

theorem torch_near : ∀ t, some torch = some t → ∀ i, |posPart t.tfTT i| ≤ 1 := by
  intro t ht i
  cases ht
  obtain ⟨-, e⟩ := torch_eq torchAngle1 torchAngle2
  have e' : torch.tfTT = _ := e
  rw [e', posPart_mkTf]
  generalize torchAngle2 = b
  have hn := rot_norm (torchRot_isRot torchAngle1) (torchPos b 4 + rotZ b *ᵥ ![0.06, 0, 0])
  generalize torchRot torchAngle1 *ᵥ (torchPos b 4 + rotZ b *ᵥ ![0.06, 0, 0]) = v at hn ⊢
  have hv : v ⬝ᵥ v ≤ 1 := by
    rw [hn]
    simp [torchPos, rotZ, dotProduct, Fin.sum_univ_three, Matrix.mulVec]
    nlinarith [Real.cos_sq_add_sin_sq b, Real.sin_le_one b, Real.cos_le_one b, Real.neg_one_le_sin b,
      Real.neg_one_le_cos b]
  simp only [dotProduct, Fin.sum_univ_three] at hv
  apply abs_le_of_sq_le_sq _ (by norm_num)
  fin_cases i <;> simp only [Fin.zero_eta, Fin.mk_one, Fin.reduceFinMk] <;>
    nlinarith [mul_self_nonneg (v 0), mul_self_nonneg (v 1), mul_self_nonneg (v 2)]

/-- Draws for which the five tests fail, in their range; the base is that of `test_kuka_base_random`. -/
example [Zeros] (hit : Oracle Shape) : ∃ q3, -Real.pi ≤ q3 ∧ q3 ≤ Real.pi ∧
    ¬ KukaRoundTrip hit 1 none 0 [[]] [] [1, 1, q3, 1, 1, 1] ∧
    ¬ KukaRoundTrip hit 1 (some torch) 0 [[]] [] [1, 1, q3, 1, 1, 1] ∧
    ¬ KukaRoundTrip hit (poseX 0.1 0.02 0.01 (-0.01)) none 0 [[]] [] [1, 1, q3, 1, 1, 1] ∧
    ¬ RailRoundTrip hit 1 none 0 [[]] [] 1 [1, 1, q3, 1, 1, 1] ∧
    ¬ RailRoundTrip hit 1 (some torch) 0 [[]] [] 1 [1, 1, q3, 1, 1, 1] := by
  have hpi := Real.pi_pos
  have hs : Real.sin (Real.arcsin (-1 + 5 / 10 ^ 7)) = -1 + 5 / 10 ^ 7 :=
    Real.sin_arcsin (by norm_num) (by norm_num)
  have h1 : -1 + 1 / 10 ^ 7 < Real.sin (Real.arcsin (-1 + 5 / 10 ^ 7)) := by rw [hs]; norm_num
  have h2 : Real.sin (Real.arcsin (-1 + 5 / 10 ^ 7)) < -1 + 1 / 10 ^ 6 := by rw [hs]; norm_num
  exact ⟨Real.arcsin (-1 + 5 / 10 ^ 7), by linarith [Real.neg_pi_div_two_le_arcsin (-1 + 5 / 10 ^ 7)],
    by linarith [Real.arcsin_le_pi_div_two (-1 + 5 / 10 ^ 7)],
    C132_kuka_refuted hit IsRigid.one none (by simp) (by simp) 0 _ (by simp) _ _ _ _ _ _ _ h1 h2,
    C132_kuka_refuted hit IsRigid.one _ torch_rigid torch_near 0 _ (by simp) _ _ _ _ _ _ _ h1 h2,
    C132_kuka_refuted hit (C20_pose _ _ _ _).1.1 none (by simp) (by simp) 0 _ (by simp) _ _ _ _ _ _ _
      h1 h2,
    C132_rail_refuted hit IsRigid.one none (by simp) (by simp) 0 _ (by simp) _ _ _ _ _ _ _ _ h1 h2,
    C132_rail_refuted hit IsRigid.one _ torch_rigid torch_near 0 _ (by simp) _ _ _ _ _ _ _ _ h1 h2⟩

end Verif.Props
