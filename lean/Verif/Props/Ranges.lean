import Verif.Props.AlmostSure
import Verif.Props.Distinct

/-!
# C143: the angles that ik returns

robots.py:206 says that the angles returned lie between minus and plus a half turn.  This holds for
`Arm2`, `AnthropomorphicArm` and `SphericalWrist`.  `Kuka` adds a quarter turn to the third angle
(robots.py:337), which then lies between minus a quarter and plus three quarters of a turn.
-/

set_option linter.unusedSectionVars false

namespace Verif.Props

open Matrix Verif Verif.Path Verif.Geometry Verif.Kin Verif.ShortestPath Verif.Task Verif.CppGraph
  Verif.Search Verif.Planning Verif.Spec Verif.Plot Verif.Gui Verif.Util

noncomputable section

theorem atan2_range (ny nx : Bool) (y x : ℝ) : |atan2 ny nx y x| ≤ Real.pi := by
  unfold atan2 arctan2
  split_ifs
  · rw [abs_neg, abs_of_pos Real.pi_pos]
  · rw [abs_of_pos Real.pi_pos]
  · rw [abs_zero]
    exact Real.pi_pos.le
  · exact Complex.abs_arg_le_pi _

/-- `Arm2.ik`. -/
theorem arm2_range [Zeros] {r : Robot Shape} {T : M4} {sols : List (List ℝ)}
    (h : arm2Ik r T = some sols) : ∀ q ∈ sols, ∀ t ∈ q, |t| ≤ Real.pi := by
  unfold arm2Ik at h
  simp only at h
  split_ifs at h with hs
  cases h
  intro q hq
  rw [List.mem_append] at hq
  rcases hq with hq | hq
  all_goals
    generalize snap _ = o at hq
    cases o with
    | none => cases hq
    | some c =>
      simp only [Option.map_some, Option.getD_some, arm2Pos, arm2Neg, elbow, List.mem_cons,
        List.not_mem_nil, or_false] at hq
      rcases hq with rfl | rfl <;> simp [atan2_range]

theorem wrist_range [Zeros] (base T : M4) : ∀ q ∈ wristRows base T, ∀ t ∈ q, |t| ≤ Real.pi := by
  intro q hq
  simp only [wristRows, List.mem_cons, List.not_mem_nil, or_false] at hq
  rcases hq with rfl | rfl <;> simp [atan2_range]

/-- The third joint of the Kuka. -/
def KukaRange (q1 q2 q3 q4 q5 q6 : ℝ) : Prop :=
  |q1| ≤ Real.pi ∧ |q2| ≤ Real.pi ∧ |q3 - Real.pi / 2| ≤ Real.pi ∧ |q4| ≤ Real.pi ∧ |q5| ≤ Real.pi ∧
    |q6| ≤ Real.pi

theorem kukaSols_range [Zeros] {a1 a2 d4 : ℝ} {T : M4} {qs : List (List ℝ)}
    (h : arm2Ik (arm2 a1 a2 d4) T = some qs) {q : List ℝ} (hq : q ∈ qs.flatMap (kSols a1 a2 d4 T)) :
    ∃ q1 q2 q3 q4 q5 q6, q = [q1, q2, q3, q4, q5, q6] ∧ KukaRange q1 q2 q3 q4 q5 q6 := by
  obtain ⟨p, hp, hq⟩ := List.mem_flatMap.1 hq
  have hr := arm2_range h p hp
  obtain ⟨p1, p2, p3, rfl⟩ := List.length_eq_three.1 (arm2Ik_len3 h p hp)
  obtain ⟨r, hr', rfl⟩ := List.mem_map.1 hq
  have hw := wrist_range _ _ r hr'
  have hl : r.length = 3 := by
    simp only [wristRows, List.mem_cons, List.not_mem_nil, or_false] at hr'
    rcases hr' with rfl | rfl <;> rfl
  obtain ⟨r1, r2, r3, rfl⟩ := List.length_eq_three.1 hl
  simp only [List.mem_cons, List.not_mem_nil, or_false, forall_eq_or_imp, forall_eq] at hr hw
  exact ⟨p1, p2, p3 + Real.pi / 2, r1, r2, r3, rfl, hr.1, hr.2.1, by simpa using hr.2.2, hw⟩

/-- **C143** as the comment in the code says it, for all robots that have an `ik`. -/
def C143_statement : Prop :=
  ∀ [Zeros],
    (∀ (a1 a2 a3 : ℝ) (T : M4) (sols : List (List ℝ)), arm2Ik (arm2 a1 a2 a3) T = some sols →
      ∀ q ∈ sols, ∀ t ∈ q, |t| ≤ Real.pi) ∧
    (∀ (a2 a3 : ℝ) (T : M4) (sols : List (List ℝ)),
      anthropomorphicIk (anthropomorphicArm a2 a3) T = some sols →
      ∀ q ∈ sols, ∀ t ∈ q, |t| ≤ Real.pi) ∧
    (∀ (a1 a2 d4 d6 : ℝ) (n : Nat) (mem : Mem) (history : List IkCall) (T : M4) (sols : List Nat),
      n < mem.length → IsRigid T →
      let k := Kuka.new a1 a2 d4 d6 n
      let s := kukaAfter k mem history
      (k.ik s.1 s.2 T).1 = .ok (some sols) → ∀ a ∈ sols, ∀ q,
        (k.ik s.1 s.2 T).2.2[a]? = some [q] → ∀ t ∈ q, |t| ≤ Real.pi)

/-- **C143** for `Arm2.ik`, whatever the robot and the target. -/
theorem C143_arm2_partial [Zeros] (r : Robot Shape) (T : M4) (sols : List (List ℝ))
    (h : arm2Ik r T = some sols) : ∀ q ∈ sols, ∀ t ∈ q, -Real.pi ≤ t ∧ t ≤ Real.pi :=
  fun q hq t ht => abs_le.1 (arm2_range h q hq t ht)

/-- **C143** for `AnthropomorphicArm.ik`, whatever the robot and the target. -/
theorem C143_anthropomorphic_partial [Zeros] (r : Robot Shape) (T : M4) (sols : List (List ℝ))
    (h : anthropomorphicIk r T = some sols) : ∀ q ∈ sols, ∀ t ∈ q, -Real.pi ≤ t ∧ t ≤ Real.pi := by
  obtain ⟨c, -, rfl⟩ := Option.map_eq_some_iff.1 h
  intro q hq t ht
  rw [← abs_le]
  simp only [List.mem_cons, List.not_mem_nil, or_false] at hq
  rcases hq with rfl | rfl | rfl | rfl <;>
    simp only [List.mem_cons, List.not_mem_nil, or_false] at ht <;>
    rcases ht with rfl | rfl | rfl <;> exact atan2_range _ _ _ _

/-- **C143** for `SphericalWrist.ik`, whatever the base and the target. -/
theorem C143_wrist_partial [Zeros] (n : Nat) (base T : M4) (mem : Mem) (hn : n < mem.length) :
    ∃ rows, (wristIk n base mem T).2[(wristIk n base mem T).1]? = some rows ∧
      ∀ q ∈ rows, ∀ t ∈ q, -Real.pi ≤ t ∧ t ≤ Real.pi :=
  ⟨wristRows base T, by simp [wristIk, hn], fun q hq t ht => abs_le.1 (wrist_range base T q hq t ht)⟩

/-- **C143** for the Kuka, whatever its base, tool, target and history: five of the angles lie between
minus and plus a half turn, the third between minus a quarter and three quarters of a turn. -/
theorem C143_kuka_partial [Zeros] (a1 a2 d4 d6 : ℝ) (n : Nat) (mem : Mem) (hn : n < mem.length)
    (history : List IkCall) (base : M4) (tool : Option (Tool Shape)) (T : M4) :
    let k := setup (Kuka.new a1 a2 d4 d6 n) base tool
    let s := kukaAfter (Kuka.new a1 a2 d4 d6 n) mem history
    ∀ sols, (k.ik s.1 s.2 T).1 = .ok (some sols) → ∀ a ∈ sols, ∃ q1 q2 q3 q4 q5 q6,
      (k.ik s.1 s.2 T).2.2[a]? = some [[q1, q2, q3, q4, q5, q6]] ∧
      (∀ t ∈ [q1, q2, q4, q5, q6], -Real.pi ≤ t ∧ t ≤ Real.pi) ∧
      -(Real.pi / 2) ≤ q3 ∧ q3 ≤ 3 * Real.pi / 2 := by
  intro k s sols hsols a ha
  obtain ⟨hwf, hlen⟩ := kukaAfter_inv (a1 := a1) (a2 := a2) (d4 := d4) (d6 := d6) mem hn history
  have hm : k.qsol < s.2.length := lt_of_lt_of_le hn hlen
  cases hq : arm2Ik (arm2 a1 a2 d4) (kukaTarget k.robot T) with
  | none =>
    rw [kukaIk_none k (a1 := a1) (a2 := a2) (d4 := d4) rfl s.1 s.2 hq] at hsols
    simp at hsols
  | some qs =>
    obtain ⟨q, hqs, q', hq', hc⟩ := (kukaIk_content k (a1 := a1) (a2 := a2) (d4 := d4) rfl hwf hm hq
      hsols).2.1 a ha
    obtain ⟨q1, q2, q3, q4, q5, q6, rfl, h1, h2, h3, h4, h5, h6⟩ :=
      kukaSols_range hq (List.mem_flatMap.2 ⟨q, hqs, hq'⟩)
    rw [abs_le] at h1 h2 h3 h4 h5 h6
    refine ⟨q1, q2, q3, q4, q5, q6, hc, ?_, by linarith [h3.1], by linarith [h3.2]⟩
    simp [h1, h2, h4, h5, h6]

/-- **C143** for the Kuka on a rail: the same, after the position on the rail. -/
theorem C143_rail_partial [Zeros] (hit : Oracle Shape) (a1 a2 d4 d6 : ℝ) (n : Nat) (base : M4)
    (tool : Option (Tool Shape)) (T : M4) (x : ℝ) :
    ∃ res, Returns (RailOK n)
        ((railArm hit (setupRail (Rail.new a1 a2 d4 d6 n) base tool)).ikFixed T [x]) res ∧
      ∀ sols, res = some sols → ∀ q ∈ sols, ∃ q1 q2 q3 q4 q5 q6, q = [x, q1, q2, q3, q4, q5, q6] ∧
        (∀ t ∈ [q1, q2, q4, q5, q6], -Real.pi ≤ t ∧ t ≤ Real.pi) ∧
        -(Real.pi / 2) ≤ q3 ∧ q3 ≤ 3 * Real.pi / 2 := by
  refine ⟨_, railArm_ik hit a1 a2 d4 d6 n base tool T x, fun sols hs q hq => ?_⟩
  unfold railSols kukaSols at hs
  obtain ⟨sols', h0, rfl⟩ := Option.map_eq_some_iff.1 hs
  obtain ⟨qs, h1, rfl⟩ := Option.map_eq_some_iff.1 h0
  obtain ⟨q', hq', rfl⟩ := List.mem_map.1 hq
  obtain ⟨q1, q2, q3, q4, q5, q6, rfl, h1, h2, h3, h4, h5, h6⟩ := kukaSols_range h1 hq'
  rw [abs_le] at h1 h2 h3 h4 h5 h6
  refine ⟨q1, q2, q3, q4, q5, q6, rfl, ?_, by linarith [h3.1], by linarith [h3.2]⟩
  simp [h1, h2, h4, h5, h6]

/-- Two numbers for the same angle that differ by less than a full turn. -/
theorem sameAngle_eq {x y : ℝ} (h : SameAngle x y) (h1 : x - y < 2 * Real.pi)
    (h2 : y - x < 2 * Real.pi) : x = y := by
  obtain ⟨k, rfl⟩ := h
  have hp := Real.pi_pos
  have k1 : (k : ℝ) < 1 := by
    by_contra hk
    nlinarith [not_lt.1 hk]
  have k2 : (-1 : ℝ) < k := by
    by_contra hk
    nlinarith [not_lt.1 hk]
  have k1' : k < 1 := by exact_mod_cast k1
  have k2' : -1 < k := by exact_mod_cast k2
  have : k = 0 := by omega
  simp [this]

theorem sameAngle_pi {x y : ℝ} (h : SameAngle x y) (h1 : -Real.pi ≤ x ∧ x ≤ Real.pi)
    (h2 : |y| < Real.pi) : x = y := by
  rw [abs_lt] at h2
  exact sameAngle_eq h (by linarith [h1.2, h2.1]) (by linarith [h1.1, h2.2])

/-- **C143**, going there and back for `Arm2`: a configuration strictly within the half turns, with a bent
elbow and not above the first joint, is found again with the same numbers. -/
theorem C143_back_arm2 [Zeros] (hit : Oracle Shape) {a1 a2 a3 : ℝ} (ha : a2 * a3 ≠ 0)
    {q1 q2 q3 : ℝ} {T : M4} (hT : Arm2Reaches hit a1 a2 a3 q1 q2 q3 T) (haxis : T 0 3 ≠ 0 ∨ T 1 3 ≠ 0)
    (helbow : |Real.cos q3| ≤ 1 - 1 / 10 ^ 6) (h1 : |q1| < Real.pi) (h2 : |q2| < Real.pi)
    (h3 : |q3| < Real.pi) : ∃ sols, arm2Ik (arm2 a1 a2 a3) T = some sols ∧ [q1, q2, q3] ∈ sols := by
  obtain ⟨sols, hs, t1, t2, t3, hm, s1, s2, s3⟩ := C36_arm2_complete hit ha q1 q2 q3 T hT haxis helbow
  have hr := C143_arm2_partial _ T sols hs _ hm
  simp only [List.mem_cons, List.not_mem_nil, or_false, forall_eq_or_imp, forall_eq] at hr
  rw [← sameAngle_pi s1 hr.1 h1, ← sameAngle_pi s2 hr.2.1 h2, ← sameAngle_pi s3 hr.2.2 h3]
  exact ⟨sols, hs, hm⟩

/-- **C143**, going there and back for the Kuka: a configuration strictly within the ranges of
`C143_kuka_partial` and away from the singular positions is found again with the same numbers. -/
theorem C143_back_kuka [Zeros] (hit : Oracle Shape) {a1 a2 d4 d6 : ℝ} (ha : a2 * d4 ≠ 0) (n : Nat)
    (mem : Mem) (hn : n < mem.length) (history : List IkCall) {base T : M4} (hb : IsRigid base)
    (tool : Option (Tool Shape)) (ht : ∀ t, tool = some t → IsRigid t.tfTT) {q1 q2 q3 q4 q5 q6 : ℝ}
    (hT : FkSatisfies hit (setup (Kuka.new a1 a2 d4 d6 n) base tool).robot [q1, q2, q3, q4, q5, q6]
      (· = T)) (h0 : a1 + a2 * Real.cos q2 + d4 * Real.sin (q2 + q3) ≠ 0)
    (hs3 : |Real.sin q3| ≤ 1 - 1 / 10 ^ 6) (hs5 : Real.sin q5 ≠ 0)
    (h1 : |q1| < Real.pi) (h2 : |q2| < Real.pi) (h3 : -(Real.pi / 2) < q3 ∧ q3 < 3 * Real.pi / 2)
    (h4 : |q4| < Real.pi) (h5 : |q5| < Real.pi) (h6 : |q6| < Real.pi) :
    let k := setup (Kuka.new a1 a2 d4 d6 n) base tool
    let s := kukaAfter (Kuka.new a1 a2 d4 d6 n) mem history
    ∃ sols, (k.ik s.1 s.2 T).1 = .ok (some sols) ∧ ∃ a ∈ sols,
      (k.ik s.1 s.2 T).2.2[a]? = some [[q1, q2, q3, q4, q5, q6]] := by
  intro k s
  obtain ⟨sols, hsol, -, -, h⟩ := C40_kuka_complete hit ha n mem hn history hb tool ht q1 q2 q3 q4 q5 q6
    hT
  obtain ⟨a, ham, t1, t2, t3, t4, t5, t6, hc, s1, s2, s3, s4, s5, s6⟩ := h h0 hs3 hs5
  obtain ⟨u1, u2, u3, u4, u5, u6, hc', hr, r1, r2⟩ := C143_kuka_partial a1 a2 d4 d6 n mem hn history
    base tool T sols hsol a ham
  have he := hc.symm.trans hc'
  simp only [Option.some.injEq, List.cons.injEq, and_true] at he
  obtain ⟨rfl, rfl, rfl, rfl, rfl, rfl⟩ := he
  simp only [List.mem_cons, List.not_mem_nil, or_false, forall_eq_or_imp, forall_eq] at hr
  refine ⟨sols, hsol, a, ham, ?_⟩
  rw [← sameAngle_pi s1 hr.1 h1, ← sameAngle_pi s2 hr.2.1 h2, ← sameAngle_pi s4 hr.2.2.1 h4,
    ← sameAngle_pi s5 hr.2.2.2.1 h5, ← sameAngle_pi s6 hr.2.2.2.2 h6,
    ← sameAngle_eq s3 (by linarith [h3.1]) (by linarith [h3.2])]
  exact hc

theorem beyond_regular : (0.18 : ℝ) + 0.6 * Real.cos 0 + 0.62 * Real.sin (0 + 5 * Real.pi / 4) ≠ 0 ∧
    |Real.sin (5 * Real.pi / 4)| ≤ 1 - 1 / 10 ^ 6 := by
  have e : Real.sin (5 * Real.pi / 4) = -(Real.sqrt 2 / 2) := by
    rw [show 5 * Real.pi / 4 = Real.pi / 4 + Real.pi by ring, Real.sin_add_pi, Real.sin_pi_div_four]
  have h2 : Real.sqrt 2 ≤ 3 / 2 := Real.sqrt_le_iff.2 ⟨by norm_num, by norm_num⟩
  have h2' := Real.sqrt_nonneg 2
  rw [zero_add, e, Real.cos_zero, abs_neg, abs_of_nonneg (by positivity)]
  constructor
  · intro h
    norm_num at h
    linarith
  · norm_num
    linarith

/-- The stock Kuka with its third joint bent by five eighths of a turn: the answers for the frame of
its tool include this configuration as it is. -/
theorem C143_beyond [Zeros] (hit : Oracle Shape) (mem : Mem) (hn : 0 < mem.length)
    (history : List IkCall) :
    let k := setup (Kuka.new 0.18 0.6 0.62 0.115 0) 1 none
    let s := kukaAfter (Kuka.new 0.18 0.6 0.62 0.115 0) mem history
    ∃ T, IsRigid T ∧ FkSatisfies hit k.robot [0, 0, 5 * Real.pi / 4, 0, Real.pi / 2, 0] (· = T) ∧
      ∃ sols, (k.ik s.1 s.2 T).1 = .ok (some sols) ∧ ∃ a ∈ sols,
        (k.ik s.1 s.2 T).2.2[a]? = some [[0, 0, 5 * Real.pi / 4, 0, Real.pi / 2, 0]] := by
  intro k s
  have hp := Real.pi_pos
  have hT : FkSatisfies hit k.robot [0, 0, 5 * Real.pi / 4, 0, Real.pi / 2, 0]
      (· = 1 * chain (kukaRobot 0.18 0.6 0.62 0.115).links
        [0, 0, 5 * Real.pi / 4, 0, Real.pi / 2, 0] * tipOf none) :=
    (fkSatisfies_iff hit k.robot (setup_known 0.18 0.6 0.62 0.115 0 1 none)
      [0, 0, 5 * Real.pi / 4, 0, Real.pi / 2, 0] (le_refl 6) _).2 rfl
  refine ⟨_, (IsRigid.one.mul (chain_rigid _ _)).mul IsRigid.one, hT, ?_⟩
  refine C143_back_kuka hit (by norm_num) 0 mem hn history IsRigid.one none (by simp) hT
    beyond_regular.1 beyond_regular.2 (by rw [Real.sin_pi_div_two]; norm_num) (by simpa using hp)
    (by simpa using hp) ⟨by linarith, by linarith⟩ (by simpa using hp) ?_ (by simpa using hp)
  rw [abs_of_pos (by positivity)]
  linarith

/-- **C143** is false: the answer of `C143_beyond` has an angle of more than half a turn. -/
theorem C143_refuted : ¬ C143_statement := by
  intro h
  letI := posZeros
  obtain ⟨-, -, h⟩ := h
  obtain ⟨T, hT, -, sols, hs, a, ha, hc⟩ := C143_beyond (fun _ _ => false) [[]] (by simp) []
  have := h 0.18 0.6 0.62 0.115 0 [[]] [] T sols (by simp) hT hs a ha _ hc (5 * Real.pi / 4) (by simp)
  rw [abs_of_pos (by positivity)] at this
  linarith [Real.pi_pos]

/-! ## Concrete cases -/

/-- `Arm2` with lengths one: the configuration `(0, 0, π/2)` is found again. -/
example [Zeros] (hit : Oracle Shape) : ∃ sols,
    arm2Ik (arm2 1 1 1) (mkTf 1 (armPos 1 1 1 0 0 (Real.pi / 2))) = some sols ∧
      [0, 0, Real.pi / 2] ∈ sols := by
  have hp := Real.pi_pos
  refine C143_back_arm2 hit (by norm_num) ((arm2Reaches_iff _ _ _ _ _ _ _ _).2 ?_) (.inl ?_) ?_
    (by simpa using hp) (by simpa using hp) ?_
  · rw [posPart_mkTf]
  · simp [mkTf, armPos]
  · simp
    norm_num
  · rw [abs_of_pos (by positivity)]
    linarith

/-- `AnthropomorphicArm` with lengths one and a target at `(1, 1, 0)`. -/
example [Zeros] : ∃ sols, anthropomorphicIk (anthropomorphicArm 1 1) (mkTf 1 ![1, 1, 0]) = some sols ∧
    ∀ q ∈ sols, ∀ t ∈ q, -Real.pi ≤ t ∧ t ≤ Real.pi := by
  obtain ⟨sols, hs⟩ : ∃ sols, anthropomorphicIk (anthropomorphicArm 1 1) (mkTf 1 ![1, 1, 0]) =
      some sols := by
    rw [← Option.isSome_iff_exists, anthropomorphicIk, Option.isSome_map]
    simp [mkTf, anthropomorphicArm, dhOfLink, Robot.new, snap, tol]
    norm_num
  exact ⟨sols, hs, C143_anthropomorphic_partial _ _ sols hs⟩

end

end Verif.Props
