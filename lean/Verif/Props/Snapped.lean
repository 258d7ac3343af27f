import Verif.Proofs.Snapped
import Verif.Props.KukaStretched

/-!
# C35, C42 and C39: how far off a solution with a snapped elbow is

The inverse kinematics rounds the cosine of the elbow angle to plus or minus one if it is within 1e-6
of it (robots.py:121-125, 214-219 and 228-233).
-/

set_option linter.unusedSectionVars false

namespace Verif.Props

open Matrix Verif.Geometry Verif.Kin Verif.Util

/-- **C35**, the error: the end of the arm is off the target by exactly the difference of their two
distances from the shoulder (`robots.py:214-233`), so the direction from the shoulder is always right.
If the links have different lengths, the distance is at most 2·|a2·a3|·1e-6 / ||a2| − |a3||. -/
theorem C35_error [Zeros] (hit : Oracle Shape) {a1 a2 a3 : ℝ} (ha : a2 * a3 ≠ 0) (T : M4)
    {sols : List (List ℝ)} (h : arm2Ik (arm2 a1 a2 a3) T = some sols) :
    ∀ q ∈ sols, ∃ q1 q2 q3, q = [q1, q2, q3] ∧
      FkSatisfies hit (arm2 a1 a2 a3) q fun F =>
        Real.sqrt (dist2 (posPart F) (posPart T)) =
          |Real.sqrt (dist2 (posPart F) ![a1 * Real.cos q1, a1 * Real.sin q1, 0]) -
            Real.sqrt (dist2 (posPart T) ![a1 * Real.cos q1, a1 * Real.sin q1, 0])| ∧
        Real.sqrt (dist2 (posPart F) (posPart T)) * |(|a2| - |a3|)| ≤
          2 * |a2 * a3| * (1 / 10 ^ 6) := by
  intro q hq
  obtain ⟨q1, q2, q3, rfl, he, hd⟩ := (arm2Ik_cand h hq).error ha
  obtain ⟨_, _, _, e', hl⟩ := (arm2Ik_cand h hq).error_le ha
  cases e'
  have hp : (![T 0 3, T 1 3, T 2 3] : V3) = posPart T := by ext i; fin_cases i <;> rfl
  rw [hp] at he hl
  refine ⟨q1, q2, q3, rfl, ?_⟩
  have hF : (arm2 a1 a2 a3).tfBase * chain (arm2 a1 a2 a3).links [q1, q2, q3] * tip (arm2 a1 a2 a3) =
      mkTf (armRot q1 (q2 + q3)) (armPos a1 a2 a3 q1 q2 q3) := by
    rw [chain_arm2]; simp [arm2, Robot.new, tip]
  rw [fkSatisfies_iff _ _ (arm2_known _ _ _) _ (le_refl _), hF, posPart_mkTf]
  constructor
  · rw [dist2_shoulder, he, Real.sqrt_sq_eq_abs]
  · have := Real.sqrt_le_sqrt hl
    rwa [Real.sqrt_mul (dist2_nonneg' _ _), Real.sqrt_sq_eq_abs, Real.sqrt_sq (by
      have : (0 : ℝ) < tol := by norm_num [tol]
      positivity)] at this

/-- Links of length 1 and 2, and a target that is just out of reach but still solved: all solutions are
within 4 µm. -/
example [Zeros] (hit : Oracle Shape) : ∃ sols, arm2Ik (arm2 1 1 2)
    (mkTf 1 ![4.0000001, 0, 0]) = some sols ∧
    0 < sols.length ∧ ∀ q ∈ sols, FkSatisfies hit (arm2 1 1 2) q fun F =>
      Real.sqrt (dist2 (posPart F) ![4.0000001, 0, 0]) ≤ 0.000004 := by
  have hs : (arm2Ik (arm2 1 1 2) (mkTf 1 ![4.0000001, 0, 0])).isSome := by
    rw [C36_arm2_iff (by norm_num)]
    left
    rw [show mkTf 1 ![4.0000001, 0, 0] 0 3 = (4.0000001 : ℝ) from rfl,
      show mkTf 1 ![4.0000001, 0, 0] 1 3 = (0 : ℝ) from rfl,
      show mkTf 1 ![4.0000001, 0, 0] 2 3 = (0 : ℝ) from rfl,
      show (4.0000001 ^ 2 + 0 ^ 2 : ℝ) = 4.0000001 ^ 2 by norm_num, Real.sqrt_sq (by norm_num)]
    norm_num [abs_of_pos]
  obtain ⟨sols, hs⟩ := Option.isSome_iff_exists.1 hs
  refine ⟨sols, hs, (arm2Ik_length hs).1, fun q hq history hh => ?_⟩
  obtain ⟨q1, q2, q3, rfl, h⟩ := C35_error hit (by norm_num) _ hs q hq
  obtain ⟨F, h1, -, h2⟩ := h history hh
  refine ⟨F, h1, ?_⟩
  rw [posPart_mkTf] at h2
  norm_num [abs_of_pos, abs_of_neg] at h2 ⊢
  linarith

/-- **C42**, the error: as C35, with the shoulder at the origin. -/
theorem C42_error [Zeros] (hit : Oracle Shape) {a2 a3 : ℝ} (ha : a2 * a3 ≠ 0) (T : M4)
    {sols : List (List ℝ)} (h : anthropomorphicIk (anthropomorphicArm a2 a3) T = some sols) :
    ∀ q ∈ sols, FkSatisfies hit (anthropomorphicArm a2 a3) q fun F =>
        Real.sqrt (dist2 (posPart F) (posPart T)) =
          |Real.sqrt (dist2 (posPart F) 0) - Real.sqrt (dist2 (posPart T) 0)| ∧
        Real.sqrt (dist2 (posPart F) (posPart T)) * |(|a2| - |a3|)| ≤
          2 * |a2 * a3| * (1 / 10 ^ 6) := by
  intro q hq
  obtain ⟨q1, q2, q3, rfl, he, hd⟩ := (anthropomorphicIk_cand h hq).error ha
  obtain ⟨_, _, _, e', hl⟩ := (anthropomorphicIk_cand h hq).error_le ha
  cases e'
  have hp : (![T 0 3, T 1 3, T 2 3] : V3) = posPart T := by ext i; fin_cases i <;> rfl
  have h0 : (![0 * Real.cos q1, 0 * Real.sin q1, 0] : V3) = 0 := by
    ext i; fin_cases i <;> simp
  have hs := dist2_shoulder 0 a2 a3 q1 q2 q3
  rw [h0] at hs he
  rw [hp] at he hl
  have hF : (anthropomorphicArm a2 a3).tfBase * chain (anthropomorphicArm a2 a3).links [q1, q2, q3] *
      tip (anthropomorphicArm a2 a3) = chain (anthropomorphicArm a2 a3).links [q1, q2, q3] := by
    simp [anthropomorphicArm, Robot.new, tip]
  rw [fkSatisfies_iff _ _ (anthropomorphic_known _ _) _ (le_refl _), hF, posPart_anthropomorphic]
  constructor
  · rw [hs, he, Real.sqrt_sq_eq_abs]
  · have := Real.sqrt_le_sqrt hl
    rwa [Real.sqrt_mul (dist2_nonneg' _ _), Real.sqrt_sq_eq_abs, Real.sqrt_sq (by
      have : (0 : ℝ) < tol := by norm_num [tol]
      positivity)] at this

/-- **C42**, complete: `q` itself is among the four solutions, up to full turns, unless the end is on
the first axis or the elbow within the tolerance of stretched or folded. -/
theorem C42_complete [Zeros] (hit : Oracle Shape) {a2 a3 : ℝ} (ha : a2 * a3 ≠ 0) (q1 q2 q3 : ℝ)
    (T : M4)
    (hT : FkSatisfies hit (anthropomorphicArm a2 a3) [q1, q2, q3] fun F => posPart F = posPart T)
    (haxis : T 0 3 ≠ 0 ∨ T 1 3 ≠ 0) (helbow : |Real.cos q3| ≤ 1 - 1 / 10 ^ 6) :
    ∃ sols, anthropomorphicIk (anthropomorphicArm a2 a3) T = some sols ∧ ∃ t1 t2 t3,
      [t1, t2, t3] ∈ sols ∧ SameAngle t1 q1 ∧ SameAngle t2 q2 ∧ SameAngle t3 q3 := by
  obtain ⟨sols, hs⟩ := C42_anthropomorphic_succeeds hit ha q1 q2 q3 T hT
  refine ⟨sols, hs, ?_⟩
  rw [fkSatisfies_iff _ _ (anthropomorphic_known _ _) _ (le_refl _)] at hT
  have hT' : posPart T = armPos 0 a2 a3 q1 q2 q3 := by
    rw [← hT, ← posPart_anthropomorphic]
    simp [anthropomorphicArm, Robot.new, tip]
  clear hT
  unfold anthropomorphicIk at hs
  simp only at hs
  rw [show (dhOfLink (anthropomorphicArm a2 a3) 1).a = a2 from rfl,
    show (dhOfLink (anthropomorphicArm a2 a3) 2).a = a3 from rfl] at hs
  set w := 0 + a2 * Real.cos q2 + a3 * Real.cos (q2 + q3) with hw
  have hx : T 0 3 = Real.cos q1 * w := congrFun hT' 0
  have hy : T 1 3 = Real.sin q1 * w := congrFun hT' 1
  have hz : T 2 3 = a2 * Real.sin q2 + a3 * Real.sin (q2 + q3) := congrFun hT' 2
  have hcos := elbow_cos (a1 := 0) ha hw hz
  have hr : w = a2 * Real.cos q2 + a3 * Real.cos (q2 + q3) := by rw [hw, zero_add]
  have hw2 : T 0 3 ^ 2 + T 1 3 ^ 2 = w ^ 2 := by
    rw [hx, hy]; linear_combination w ^ 2 * Real.cos_sq_add_sin_sq q1
  have hw0 : w ≠ 0 := by
    intro h0
    rw [h0, mul_zero] at hx hy
    rcases haxis with h | h
    · exact h hx
    · exact h hy
  have hsin0 : Real.sin q3 ≠ 0 := by
    intro h0
    have h1 := Real.cos_sq_add_sin_sq q3
    rw [h0] at h1
    have h2 : |Real.cos q3| ^ 2 = 1 := by rw [sq_abs]; linarith
    have h4 := abs_nonneg (Real.cos q3)
    nlinarith
  have hB : a3 * Real.sin q3 ≠ 0 := mul_ne_zero (right_ne_zero_of_mul ha) hsin0
  have hpc := fun b d => planar_complete b d (Or.inr hB) hr hz
  rw [sub_zero, ← hw2] at hcos
  rw [hcos, snap_cos helbow, Option.map_some, hw2, Real.sqrt_sq_eq_abs, sqrt_cos,
    Option.some.injEq] at hs
  subst hs
  have hq3 : ∀ b d s, s = Real.sin q3 → SameAngle (atan2 b d s (Real.cos q3)) q3 := by
    rintro b d s rfl
    have := cs_atan2 (b := b) (d := d) (k := 1) one_pos (Real.cos_sq_add_sin_sq q3)
    rw [one_mul, one_mul] at this
    exact angle_eq this.1 this.2
  have hq2 : ∀ (b d : Bool) (s c : ℝ), s = T 2 3 * (a2 + a3 * Real.cos q3) - w * (a3 * Real.sin q3) →
      c = w * (a2 + a3 * Real.cos q3) + T 2 3 * (a3 * Real.sin q3) →
      SameAngle (atan2 b d s c) q2 := by
    rintro b d s c rfl rfl
    exact hpc b d
  have hq1 : ∀ (b d : Bool) (y x e : ℝ), 0 < e → y = e * Real.sin q1 → x = e * Real.cos q1 →
      SameAngle (atan2 b d y x) q1 := by
    rintro b d y x e he rfl rfl
    have := cs_atan2 (b := b) (d := d) (k := e) he (Real.cos_sq_add_sin_sq q1)
    exact angle_eq this.1 this.2
  rcases lt_or_gt_of_ne hw0 with h | h <;> rcases lt_or_gt_of_ne hsin0 with h' | h' <;>
    simp only [abs_of_neg, abs_of_pos, h, h', neg_neg, List.mem_cons]
  · exact ⟨_, _, _, Or.inr (Or.inr (Or.inr (Or.inl rfl))),
      hq1 _ _ _ _ (-w) (by linarith) (by rw [hy]; ring) (by rw [hx]; ring),
      hq2 _ _ _ _ (by ring) (by ring), hq3 _ _ _ rfl⟩
  · exact ⟨_, _, _, Or.inr (Or.inr (Or.inl rfl)),
      hq1 _ _ _ _ (-w) (by linarith) (by rw [hy]; ring) (by rw [hx]; ring),
      hq2 _ _ _ _ (by ring) (by ring), hq3 _ _ _ rfl⟩
  · exact ⟨_, _, _, Or.inr (Or.inl rfl),
      hq1 _ _ _ _ w h (by rw [hy]; ring) (by rw [hx]; ring),
      hq2 _ _ _ _ (by ring) (by ring), hq3 _ _ _ rfl⟩
  · exact ⟨_, _, _, Or.inl rfl,
      hq1 _ _ _ _ w h (by rw [hy]; ring) (by rw [hx]; ring),
      hq2 _ _ _ _ (by ring) (by ring), hq3 _ _ _ rfl⟩

/-- A bent elbow away from the axis: the configuration is found again, up to full turns. -/
example [Zeros] (hit : Oracle Shape) : ∃ sols,
    anthropomorphicIk (anthropomorphicArm 1 1) (mkTf 1 ![1, 0, 1]) = some sols ∧ ∃ t1 t2 t3,
      [t1, t2, t3] ∈ sols ∧ SameAngle t1 0 ∧ SameAngle t2 0 ∧ SameAngle t3 (Real.pi / 2) := by
  refine C42_complete hit (by norm_num) 0 0 (Real.pi / 2) _ ?_ (Or.inl ?_) ?_
  · rw [fkSatisfies_iff _ _ (anthropomorphic_known _ _) _ (le_refl _)]
    have : (anthropomorphicArm 1 1).tfBase * chain (anthropomorphicArm 1 1).links
        [0, 0, Real.pi / 2] * tip (anthropomorphicArm 1 1) =
        chain (anthropomorphicArm 1 1).links [0, 0, Real.pi / 2] := by
      simp [anthropomorphicArm, Robot.new, tip]
    rw [this, posPart_anthropomorphic, posPart_mkTf]
    ext i; fin_cases i <;> simp [armPos]
  · change (1 : ℝ) ≠ 0
    norm_num
  · norm_num

/-- **C39**, the error: the flange of a Kuka is at most 2·|a2·d4|·1e-6 / ||a2| − |d4|| away from the
target, whatever was called before; the wrist does not matter for this. -/
theorem C39_error [Zeros] (hit : Oracle Shape) {a1 a2 d4 d6 : ℝ} (ha : a2 * d4 ≠ 0)
    (hne : |a2| ≠ |d4|)
    (n : Nat) (mem : Mem) (hn : n < mem.length) (history : List IkCall) {base T : M4}
    (hb : IsRigid base) (tool : Option (Tool Shape)) (ht : ∀ t, tool = some t → IsRigid t.tfTT)
    (hT : IsRigid T) :
    let k := setup (Kuka.new a1 a2 d4 d6 n) base tool
    let s := kukaAfter (Kuka.new a1 a2 d4 d6 n) mem history
    ∀ sols, (k.ik s.1 s.2 T).1 = .ok (some sols) → ∀ a ∈ sols, ∃ q,
      (k.ik s.1 s.2 T).2.2[a]? = some [q] ∧
      FkSatisfies hit { k.robot with tool := none } q fun F => ∀ X, X * tipOf tool = T →
        Real.sqrt (dist2 (posPart F) (posPart X)) ≤
          2 * |a2 * d4| * (1 / 10 ^ 6) / |(|a2| - |d4|)| := by
  intro k s sols hs a hmem
  obtain ⟨hw, hlen⟩ := kukaAfter_inv (a1 := a1) (a2 := a2) (d4 := d4) (d6 := d6) mem hn history
  have hm : k.qsol < s.2.length := lt_of_lt_of_le hn hlen
  have htip := tipOf_rigid ht
  obtain ⟨R, p, hR, hTe⟩ := exists_flange hb htip hT
  have htgt : kukaTarget k.robot T = mkTf R (p - R *ᵥ ![0, 0, d6]) :=
    kukaTarget_eq (r := k.robot) hb htip hTe rfl
  cases hq : arm2Ik (arm2 a1 a2 d4) (kukaTarget k.robot T) with
  | none =>
    rw [kukaIk_none k (a1 := a1) (a2 := a2) (d4 := d4) rfl s.1 s.2 hq] at hs
    simp at hs
  | some qs =>
    obtain ⟨-, hc, -⟩ := kukaIk_content k (a1 := a1) (a2 := a2) (d4 := d4) rfl hw hm hq hs
    obtain ⟨q, hqm, q', hq'm, hcell⟩ := hc a hmem
    rw [htgt] at hq hq'm
    obtain ⟨q1, q2, q3, q4, q5, q6, rfl, -, hz, -⟩ := kuka_solution ha hR hq hqm hq'm
    have hd := kuka_error ha hR hq hqm hq'm
    have hC := chain_rigid (kukaRobot a1 a2 d4 d6).links [q1, q2, q3, q4, q5, q6]
    refine ⟨_, hcell, ?_⟩
    rw [fkSatisfies_iff _ { k.robot with tool := none } (setup_known a1 a2 d4 d6 n base tool) _
      (le_refl _)]
    intro X hX
    have e : ({ k.robot with tool := none } : Robot Shape).tfBase *
        chain ({ k.robot with tool := none } : Robot Shape).links [q1, q2, q3, q4, q5, q6] *
        tip ({ k.robot with tool := none } : Robot Shape) =
        k.robot.tfBase * chain (kukaRobot a1 a2 d4 d6).links [q1, q2, q3, q4, q5, q6] := by
      change _ * _ * 1 = _
      rw [mul_one]; rfl
    rw [e]
    have hpos : (0 : ℝ) < (|a2| - |d4|) ^ 2 := by
      have := sub_ne_zero.2 hne
      positivity
    have hd' := (le_div_iff₀ hpos).2 hd
    have := (through (r := k.robot) hb htip hC hTe hd' hz X hX).1
    have := Real.sqrt_le_sqrt this
    rwa [Real.sqrt_div (sq_nonneg _), Real.sqrt_sq_eq_abs, Real.sqrt_sq_eq_abs,
      abs_of_nonneg (by
        have : (0 : ℝ) < tol := by norm_num [tol]
        positivity : (0 : ℝ) ≤ 2 * |a2 * d4| * tol)] at this

/-- **C39**, in numbers: every solution that the default Kuka (robots.py:288) returns has its flange
within 40 µm of the target. -/
theorem C39_default [Zeros] (hit : Oracle Shape) (n : Nat) (mem : Mem) (hn : n < mem.length)
    (history : List IkCall) {base T : M4} (hb : IsRigid base) (tool : Option (Tool Shape))
    (ht : ∀ t, tool = some t → IsRigid t.tfTT) (hT : IsRigid T) :
    let k := setup (Kuka.new 0.18 0.6 0.62 0.115 n) base tool
    let s := kukaAfter (Kuka.new 0.18 0.6 0.62 0.115 n) mem history
    ∀ sols, (k.ik s.1 s.2 T).1 = .ok (some sols) → ∀ a ∈ sols, ∃ q,
      (k.ik s.1 s.2 T).2.2[a]? = some [q] ∧
      FkSatisfies hit { k.robot with tool := none } q fun F => ∀ X, X * tipOf tool = T →
        Real.sqrt (dist2 (posPart F) (posPart X)) ≤ 0.00004 := by
  intro k s sols hs a hmem
  obtain ⟨q, h1, h2⟩ := C39_error hit (a1 := 0.18) (a2 := 0.6) (d4 := 0.62) (d6 := 0.115)
    (by norm_num) (by norm_num [abs_of_pos]) n mem hn history hb tool ht hT sols hs a hmem
  refine ⟨q, h1, fun hist hh => ?_⟩
  obtain ⟨F, h3, h4⟩ := h2 hist hh
  refine ⟨F, h3, fun X hX => le_trans (h4 X hX) ?_⟩
  norm_num [abs_of_pos, abs_of_neg]

/-- The default Kuka at (0, 0, π/2, 0, 1, 0), stretched, after another call: there are solutions, all
within 40 µm. -/
example [Zeros] (hit : Oracle Shape) : ∃ (T : M4) (sols : List Nat),
    let k := setup (Kuka.new 0.18 0.6 0.62 0.115 0) 1 none
    let s := kukaAfter (Kuka.new 0.18 0.6 0.62 0.115 0) [[]] [⟨1, none, 1⟩]
    (k.ik s.1 s.2 T).1 = .ok (some sols) ∧ 0 < sols.length ∧ ∀ a ∈ sols, ∃ q,
      (k.ik s.1 s.2 T).2.2[a]? = some [q] ∧
      FkSatisfies hit { k.robot with tool := none } q fun F => ∀ X, X * tipOf none = T →
        Real.sqrt (dist2 (posPart F) (posPart X)) ≤ 0.00004 := by
  have hTex := (fkSatisfies_iff hit (setup (Kuka.new 0.18 0.6 0.62 0.115 0) 1 none).robot
    (setup_known _ _ _ _ _ _ _) [0, 0, Real.pi / 2, 0, 1, 0] (le_refl _) (· = _)).2 rfl
  have hTr : IsRigid ((1 : M4) * chain (kukaRobot 0.18 0.6 0.62 0.115).links
    [0, 0, Real.pi / 2, 0, 1, 0] * 1) := (IsRigid.one.mul (chain_rigid _ _)).mul IsRigid.one
  obtain ⟨sols, h1, h0, -⟩ := C40_kuka_complete hit (a1 := 0.18) (a2 := 0.6) (d4 := 0.62)
    (d6 := 0.115) (by norm_num) 0 [[]] (by simp) [⟨1, none, 1⟩] IsRigid.one none (by simp)
    _ _ _ _ _ _ hTex
  exact ⟨_, sols, h1, h0, C39_default hit 0 [[]] (by simp) [⟨1, none, 1⟩] IsRigid.one none (by simp)
    hTr sols h1⟩

end Verif.Props
