import Verif.Model.OptScript
import Verif.Props.Workspace
import Verif.Props.OptimalPath
import Verif.Props.TablePath
import Verif.Props.SelfClear

/-! # The start value and the result of optimization_based.py (C127) -/

set_option linter.unusedSectionVars false

namespace Verif.Props

open Matrix Verif Verif.Geometry Verif.Kin Verif.Util Verif.Path Verif.Resources Verif.Optimization
  Verif.Examples

/-- The pose at the start of the line. -/
noncomputable def startPose : M4 := mkTf 1 ![0.8, -0.2, 0.2]

theorem start_wrist : WristCentre 0.115 1 none startPose ![0.8, -0.2, 0.085] := by
  refine ⟨1, ![0.8, -0.2, 0.2], IsRot.one, by simp [tipOf, startPose], ?_⟩
  intro i
  fin_cases i
  · simp
  · simp
  · rw [show (1 : M3) _ 2 = 1 from rfl]; norm_num [Matrix.cons_val]

theorem near_start {c s u z : ℝ} (hcs : c ^ 2 + s ^ 2 = 1)
    (h : (c * u - 0.8) ^ 2 + (s * u + 0.2) ^ 2 + (z - 0.085) ^ 2 ≤ 1 / 10 ^ 6) :
    ((0.82 ≤ u ∧ u ≤ 0.83) ∨ (-0.83 ≤ u ∧ u ≤ -0.82)) ∧ (0.084 ≤ z ∧ z ≤ 0.086) := by
  have hu2 : u ^ 2 = (c * u) ^ 2 + (s * u) ^ 2 := by linear_combination -u ^ 2 * hcs
  generalize c * u = x at *
  generalize s * u = y at *
  clear hcs c s
  have key : ∀ a : ℝ, a ^ 2 ≤ 1 / 10 ^ 6 → -(1 / 1000) ≤ a ∧ a ≤ 1 / 1000 := fun a ha =>
    abs_le.1 (abs_le_of_sq_le_sq (by linarith) (by norm_num))
  have e0 := key (x - 0.8) (by linarith [sq_nonneg (y + 0.2), sq_nonneg (z - 0.085)])
  have e1 := key (y + 0.2) (by linarith [sq_nonneg (x - 0.8), sq_nonneg (z - 0.085)])
  have e2 := key (z - 0.085) (by linarith [sq_nonneg (x - 0.8), sq_nonneg (y + 0.2)])
  have l1 : 0.6724 ≤ u ^ 2 := by
    rw [hu2]; linarith [sq_nonneg (x - 0.8), sq_nonneg (y + 0.2)]
  have l2 : u ^ 2 ≤ 0.6889 := by
    rw [hu2]; linarith [sq_nonneg (z - 0.085)]
  refine ⟨?_, by linarith, by linarith⟩
  rcases le_total 0 u with h | h
  · left; constructor <;> nlinarith
  · right; constructor <;> nlinarith

theorem not_straight {u z c : ℝ}
    (hu : (0.82 ≤ u ∧ u ≤ 0.83) ∨ (-0.83 ≤ u ∧ u ≤ -0.82)) (hz : 0.084 ≤ z ∧ z ≤ 0.086)
    (h : (u - 0.18) ^ 2 + z ^ 2 = 0.6 ^ 2 + 0.62 ^ 2 + 2 * 0.6 * 0.62 * c) (hc : c = 1 ∨ c = -1) :
    False := by
  rcases hc with rfl | rfl <;> rcases hu with h' | h' <;> nlinarith

/-- A configuration close to the start pose, with the flange level, has the arm bent and the wrist
bent. -/
theorem start_regular {q1 q2 q3 q4 q5 q6 : ℝ}
    (hd : dist2 (posPart (chain (kukaRobot 0.18 0.6 0.62 0.115).links [q1, q2, q3, q4, q5, q6]))
      ![0.8, -0.2, 0.2] ≤ 1 / 10 ^ 6)
    (hz : ∀ i, rotPart (chain (kukaRobot 0.18 0.6 0.62 0.115).links [q1, q2, q3, q4, q5, q6]) i 2 =
      (1 : M3) i 2) :
    Real.cos q3 ≠ 0 ∧ Real.sin q5 ≠ 0 := by
  rw [chain_kuka] at hd hz
  rw [rotPart_mkTf] at hz
  rw [posPart_mkTf] at hd
  set A := armRot q1 (q2 + q3) * zyz q4 q5 q6 with hA
  have hv : A *ᵥ ![0, 0, 0.115] = ![0, 0, 0.115] := by
    ext i
    have := hz i
    simp only [Matrix.mulVec, dotProduct, Fin.sum_univ_three, Matrix.cons_val, mul_zero, zero_add,
      this]
    fin_cases i
    · simp
    · simp
    · rw [show (1 : M3) _ 2 = 1 from rfl]; norm_num
  rw [hv] at hd
  set b := q3 - Real.pi / 2 with hb
  set u := 0.18 + 0.6 * Real.cos q2 + 0.62 * Real.cos (q2 + b) with hu
  set z := 0.6 * Real.sin q2 + 0.62 * Real.sin (q2 + b) with hz'
  have hd' : (Real.cos q1 * u - 0.8) ^ 2 + (Real.sin q1 * u + 0.2) ^ 2 + (z - 0.085) ^ 2 ≤
      1 / 10 ^ 6 := by
    refine le_trans (le_of_eq ?_) hd
    simp only [dist2, armPos, dotProduct, Fin.sum_univ_three, Pi.sub_apply, Pi.add_apply,
      Matrix.cons_val]
    ring
  have hcs := Real.cos_sq_add_sin_sq q1
  obtain ⟨hcase, e2⟩ := near_start hcs hd'
  constructor
  · intro h3
    have hsb : Real.sin b = 0 := by rw [hb, Real.sin_sub_pi_div_two, h3, neg_zero]
    have hcb := Real.cos_sq_add_sin_sq b
    rw [hsb] at hcb
    have hdist : (u - 0.18) ^ 2 + z ^ 2 = 0.6 ^ 2 + 0.62 ^ 2 + 2 * 0.6 * 0.62 * Real.cos b := by
      rw [hu, hz', Real.cos_add, Real.sin_add, hsb]
      linear_combination (0.6 ^ 2 + 2 * 0.6 * 0.62 * Real.cos b + 0.62 ^ 2 * Real.cos b ^ 2) *
        Real.cos_sq_add_sin_sq q2 + 0.62 ^ 2 * hcb
    have : Real.cos b = 1 ∨ Real.cos b = -1 := by
      have : (Real.cos b - 1) * (Real.cos b + 1) = 0 := by linarith
      rcases mul_eq_zero.1 this with h | h
      · left; linarith
      · right; linarith
    exact not_straight hcase e2 hdist this
  · intro h5
    have f0 := hz 0
    have f1 := hz 1
    rw [hA, zyz_eq, h5] at f0 f1
    simp [armRot, Matrix.mul_apply, Fin.sum_univ_three] at f0 f1
    have h5c : Real.cos q5 ≠ 0 := by
      intro h
      have := Real.cos_sq_add_sin_sq q5
      rw [h, h5] at this
      norm_num at this
    have hs : Real.sin (q2 + q3) = 0 := by
      by_contra hne
      rcases f0 with (h | h) | h
      · rcases f1 with (h' | h') | h'
        · rw [h, h'] at hcs; norm_num at hcs
        · exact hne h'
        · exact h5c h'
      · exact hne h
      · exact h5c h
    have hc : Real.cos (q2 + b) = 0 := by
      rw [hb, ← add_sub_assoc, Real.cos_sub_pi_div_two, hs]
    rw [hc] at hu
    have h1 := Real.cos_le_one q2
    have h2 := Real.neg_one_le_cos q2
    rcases hcase with h' | h' <;> linarith

/-- **C127**: `ik` has eight solutions at the start of the line, and all of them reach it. -/
theorem C127_ik [Zeros] (hit : Oracle Shape) :
    ∃ sols, scriptIk startPose = .ok sols ∧ sols.length = 8 ∧
    ∀ q ∈ sols, q.length = 6 ∧ FkSatisfies hit scriptKuka.robot q (· = startPose) := by
  have ha : (0.6 * 0.62 : ℝ) ≠ 0 := by norm_num
  have ht : ∀ t : Tool Shape, none = some t → IsRigid t.tfTT := by simp
  have hsetup : setup scriptKuka 1 none = scriptKuka := rfl
  have hT : IsRigid startPose := isRigid_mkTf.2 IsRot.one
  obtain ⟨h1, h2⟩ := C120_none (a1 := 0.18) ha 0 [[]] (by simp) [] IsRigid.one ht start_wrist
  obtain ⟨⟨res, hres⟩, h3⟩ := C39_kuka_sound_partial hit (a1 := 0.18) (d6 := 0.115) ha 0 [[]] (by simp)
    [] IsRigid.one none ht hT
  have hs8 : ∀ u : ℝ, u ^ 2 = 0.68 → ClosesAt 0.18 0.6 0.62 (1 / 10 ^ 6) ![0.8, -0.2, 0.085] u := by
    intro u hu
    have b1 : |u| ≤ 0.83 := abs_le_of_sq_le_sq (by rw [hu]; norm_num) (by norm_num)
    rw [abs_le] at b1
    unfold ClosesAt
    simp only [Matrix.cons_val]
    rw [abs_le, abs_of_pos (by norm_num : (0 : ℝ) < 0.6 * 0.62)]
    constructor <;> nlinarith
  have hsq : (Real.sqrt ((![0.8, -0.2, 0.085] : V3) 0 ^ 2 + (![0.8, -0.2, 0.085] : V3) 1 ^ 2)) ^ 2 =
      0.68 := by
    rw [Real.sq_sqrt (by positivity)]
    simp only [Matrix.cons_val]
    norm_num
  change ((scriptKuka.ik (RState.new 3) [[]] startPose).1 = .ok none ↔ _) at h1
  change ∀ sols, (scriptKuka.ik (RState.new 3) [[]] startPose).1 = .ok (some sols) → _ at h2
  change (scriptKuka.ik (RState.new 3) [[]] startPose).1 = .ok res at hres
  change ∀ sols, (scriptKuka.ik (RState.new 3) [[]] startPose).1 = .ok (some sols) → ∀ a ∈ sols,
    ∃ q1 q2 q3 q4 q5 q6, (scriptKuka.ik (RState.new 3) [[]] startPose).2.2[a]? = _ ∧ _ at h3
  cases res with
  | none =>
    refine absurd ?_ (h1.1 hres)
    refine ⟨_, ?_, hs8 _ hsq⟩
    rw [Real.sq_sqrt (by positivity)]
  | some l =>
    have h8 := (h2 l hres).1.2 ⟨hs8 _ hsq, hs8 _ (by rw [neg_sq, hsq])⟩
    refine ⟨l.map fun a => (((scriptKuka.ik (RState.new 3) [[]] startPose).2.2[a]?).bind
      List.head?).getD [], by unfold scriptIk; simp only [hres, Except.bind],
      by rw [List.length_map, h8], ?_⟩
    intro q hq
    obtain ⟨a, hal, rfl⟩ := List.mem_map.1 hq
    obtain ⟨q1, q2, q3, q4, q5, q6, hc, hex, hF⟩ := h3 l hres a hal
    rw [hc]
    refine ⟨rfl, ?_⟩
    have hF' := (fkSatisfies_iff hit { scriptKuka.robot with tool := none }
      (setup_known 0.18 0.6 0.62 0.115 0 1 none) [q1, q2, q3, q4, q5, q6] (le_refl _) _).1 hF
      startPose (by simp [tipOf])
    have e : ({ scriptKuka.robot with tool := none } : Robot Shape).tfBase *
          chain ({ scriptKuka.robot with tool := none } : Robot Shape).links
            [q1, q2, q3, q4, q5, q6] * tip ({ scriptKuka.robot with tool := none } : Robot Shape) =
        chain (kukaRobot 0.18 0.6 0.62 0.115).links [q1, q2, q3, q4, q5, q6] := by
      change 1 * _ * 1 = _
      rw [mul_one, one_mul]; rfl
    rw [e, startPose, posPart_mkTf, rotPart_mkTf] at hF'
    obtain ⟨r3, r5⟩ := start_regular (hF'.1.trans (by
      rw [abs_of_pos (by norm_num : (0 : ℝ) < 0.6 * 0.62)]; norm_num)) hF'.2
    exact hex r3 r5

theorem script_tee {N : Nat} (hN : N ≠ 0) {ys : List ℝ} (hy : linspace (-0.2) 0.2 N = .ok ys) :
    scriptTee (List.replicate N 0.8) ys (List.replicate N 0.2) = .ok startPose := by
  obtain ⟨n, rfl⟩ := Nat.exists_eq_succ_of_ne_zero hN
  unfold linspace at hy
  rw [if_neg (by omega)] at hy
  cases hy
  have e : (((n + 1 : Nat) : Int)).toNat = n + 1 := by omega
  have e1 : (((List.range (((n + 1 : Nat) : Int)).toNat).map fun (i : Nat) =>
      (-0.2 : ℝ) + i * ((0.2 - (-0.2)) / ((((n + 1 : Nat) : Int) : ℝ) - 1))) : List ℝ)[0]? = some (-0.2 : ℝ) := by
    rw [e]
    simp [List.range_succ_eq_map]
  change scriptTee (List.replicate (n + 1) 0.8) ((List.range (((n + 1 : Nat) : Int)).toNat).map
    fun (i : Nat) => (-0.2 : ℝ) + i * ((0.2 - (-0.2)) / ((((n + 1 : Nat) : Int) : ℝ) - 1)))
    (List.replicate (n + 1) 0.2) = _
  unfold scriptTee pyGet
  rw [e1]
  simp only [List.replicate_succ, List.getElem?_cons_zero, bind, Except.bind]
  congr 1
  ext i j
  fin_cases i <;> fin_cases j <;> simp [setPos, startPose, mkTf]

theorem scene1_rigid :
    IsRigid !![1, 0, 0, 0.80; 0, 1, 0, 0.00; 0, 0, 1, 0.12; 0, 0, 0, 1] := by
  rw [show (!![1, 0, 0, 0.80; 0, 1, 0, 0.00; 0, 0, 1, 0.12; 0, 0, 0, 1] : M4) =
      mkTf 1 ![0.80, 0.00, 0.12] by
    ext i j
    fin_cases i <;> fin_cases j <;> simp [mkTf]]
  exact isRigid_mkTf.2 IsRot.one

theorem script_one : OneShape scriptKuka.robot := by
  intro l hl
  simp only [scriptKuka, Kuka.new, kukaRobot, Robot.new, List.mem_cons, List.not_mem_nil,
    or_false] at hl
  rcases hl with rfl | rfl | rfl | rfl | rfl | rfl <;> exact ⟨_, _, rfl⟩

theorem script_revolute : ∀ l ∈ scriptKuka.robot.links, l.jointType = .r := by
  intro l hl
  simp only [scriptKuka, Kuka.new, kukaRobot, Robot.new, List.mem_cons, List.not_mem_nil,
    or_false] at hl
  rcases hl with rfl | rfl | rfl | rfl | rfl | rfl <;> rfl

theorem script_rigid : RigidRobot scriptKuka.robot := by
  refine ⟨IsRigid.one, fun l hl tf htf => ?_⟩
  simp only [scriptKuka, Kuka.new, kukaRobot, Robot.new, List.mem_cons, List.not_mem_nil,
    or_false] at hl
  rcases hl with rfl | rfl | rfl | rfl | rfl | rfl <;>
    · rw [List.mem_singleton.1 htf]
      exact (C20_pose _ _ _ _).1.1

theorem script_scene : ∀ s, some scene1 = some s → ∀ tf ∈ s.tfS, IsRigid tf := by
  rintro s ⟨⟩ tf htf
  rw [List.mem_singleton.1 htf]
  exact scene1_rigid

theorem script_frame {q : List ℝ} (hq : q.length = 6) : frameOf scriptKuka.robot q 5 =
    scriptKuka.robot.tfBase * chain scriptKuka.robot.links q * tip scriptKuka.robot := by
  unfold frameOf
  rw [linkProduct_eq]
  change _ = _ * 1
  rw [mul_one, List.take_of_length_le (le_refl 6), List.take_of_length_le (le_of_eq hq)]

theorem script_points (path : List FreeOrientationPt) :
    ∀ tp ∈ path.map PathPt.free, ∃ p, PositionOf tp p := by
  intro tp h
  obtain ⟨pt, -, rfl⟩ := List.mem_map.1 h
  exact ⟨pt.p, Or.inl ⟨pt, rfl, rfl⟩⟩

theorem script_eq [Zeros] (hit : Oracle Shape) (solver : Solver) {N : Nat} (hN : N ≠ 0) :
    ∃ sols path q0, scriptIk startPose = .ok sols ∧ sols[5]? = some q0 ∧ q0.length = 6 ∧
      FkSatisfies hit scriptKuka.robot q0 (· = startPose) ∧ pathOriFree 15 = .ok path ∧
      path.length = 15 ∧
      optimizationBased solver N = (getOptimalPath solver (path.map .free) scriptKuka.robot
        (some scene1) (some (List.replicate N q0))).bind fun res =>
          match res.path with
          | none => .error .keyError
          | some q => .ok q := by
  obtain ⟨sols, hsols, h8, hall⟩ := C127_ik hit
  obtain ⟨path, hpath, h15, -⟩ := C92_path_ori_free 15
  have h5 : sols[5]? = some (sols[5]'(by omega)) := List.getElem?_eq_getElem _
  have hm := hall _ (List.mem_of_getElem? h5)
  refine ⟨sols, path, sols[5]'(by omega), hsols, h5, hm.1, hm.2, hpath, h15, ?_⟩
  have hlin : ∃ ys, linspace (-0.2) 0.2 (N : Int) = .ok ys := by
    unfold linspace
    rw [if_neg (by omega)]
    exact ⟨_, rfl⟩
  obtain ⟨ys, hy⟩ := hlin
  have h5' : pyGet (sols.map (tile N)) 5 = .ok (tile N (sols[5]'(by omega))) := by
    unfold pyGet
    rw [List.getElem?_map, h5]
    rfl
  change pathOriFree 15 = .ok path at hpath
  unfold optimizationBased
  simp only [hy, script_tee hN hy, hsols, h5', hpath, bind, Except.bind]
  rfl

/-- **C127**: with the 15 points of the script, the solver is given the problem of the straight line
over the table, and as start value fifteen times the sixth solution of `ik`, a configuration at the
start of the line.  If it succeeds its joint values are the result, otherwise the script raises. -/
theorem C127_script [Zeros] (hit : Oracle Shape) (solver : Solver) : ∃ sols path q0,
    scriptIk startPose = .ok sols ∧ sols[5]? = some q0 ∧ q0.length = 6 ∧
    FkSatisfies hit scriptKuka.robot q0 (· = startPose) ∧ pathOriFree 15 = .ok path ∧
    optimizationBased solver 15 = (solver (problem (path.map .free) scriptKuka.robot (some scene1))
      (List.replicate 15 q0) 100).bind fun sol => if sol.1 then .ok sol.2.q else .error .keyError := by
  obtain ⟨sols, path, q0, h1, h2, h3, h4, h5, h6, h7⟩ := script_eq hit solver (N := 15) (by norm_num)
  refine ⟨sols, path, q0, h1, h2, h3, h4, h5, ?_⟩
  rw [h7, C78_result solver (script_points path) _ rfl script_one _ _ _ _ (Or.inl rfl), if_pos]
  · cases solver (problem (path.map .free) scriptKuka.robot (some scene1)) (List.replicate 15 q0) 100 with
    | error e => rfl
    | ok sol =>
      obtain ⟨b, v⟩ := sol
      cases b <;> rfl
  · refine ⟨by rw [List.length_replicate, List.length_map, h6], fun row h => ?_⟩
    rw [List.eq_of_mem_replicate h, h3]

/-- C127: the number of points in the script has to be that of the library; any other number raises. -/
theorem C127_other [Zeros] (solver : Solver) (N : Nat) (hN : N ≠ 15) : optimizationBased solver N =
    .error (if N = 0 then .indexError else .runtimeError) := by
  by_cases h0 : N = 0
  · subst h0
    rw [if_pos rfl]
    rfl
  obtain ⟨sols, path, q0, h1, h2, h3, h4, h5, h6, h7⟩ := script_eq boxOracle solver (N := N) h0
  rw [h7, C78_result solver (script_points path) _ rfl script_one _ _ _ _ (Or.inl rfl), if_neg, if_neg h0]
  · rfl
  · rintro ⟨h, -⟩
    rw [List.length_replicate, List.length_map, h6] at h
    exact hN h

/-- **C127**: if the solver keeps its promise, the joint path that the script plots has 15
configurations.  Each of them has the flange at its point of the line, keeps all links away from the
table and is free of collisions. -/
theorem C127_result [Zeros] {solver : Solver} (hs : SolverOK solver) {q : List (List ℝ)}
    (h : optimizationBased solver 15 = .ok q) : q.length = 15 ∧
    ∀ (i : Nat) (qi : List ℝ), q[i]? = some qi → qi.length = 6 ∧
      FkSatisfies boxOracle scriptKuka.robot qi (fun T => posPart T =
        onLine ![0.8, -0.2, 0.2] ![0.8, 0.2, 0.2] 15 i) ∧
      LinksKeepAway scriptKuka.robot qi scene1 ∧ ∀ history : List (Call Shape),
        (∀ c ∈ history, c.robot.links = scriptKuka.robot.links) →
        (scriptKuka.robot.isInCollision boxOracle (after boxOracle scriptKuka.robot.links history) qi
          scene1).1 = .ok false := by
  obtain ⟨sols, path, q0, -, -, h3, -, h5, h6, h7⟩ := script_eq boxOracle solver (N := 15) (by norm_num)
  have hstart : (List.replicate 15 q0).length = (path.map PathPt.free).length ∧
      ∀ row ∈ List.replicate 15 q0, row.length = 6 := by
    refine ⟨by rw [List.length_replicate, List.length_map, h6], fun row h => ?_⟩
    rw [List.eq_of_mem_replicate h, h3]
  rw [h7] at h
  cases hg : getOptimalPath solver (path.map .free) scriptKuka.robot (some scene1)
      (some (List.replicate 15 q0)) with
  | error e => rw [hg] at h; cases h
  | ok res => ?_
  rw [hg] at h
  obtain ⟨b, p⟩ := res
  cases p with
  | none => cases h
  | some q' => ?_
  cases h
  have hb : b = true := by
    rw [C78_result solver (script_points path) _ rfl script_one _ _ _ _ (Or.inl rfl), if_pos] at hg
    · cases hsol : solver (problem (path.map .free) scriptKuka.robot (some scene1))
          (List.replicate 15 q0) 100 with
      | error e => rw [hsol] at hg; cases hg
      | ok sol =>
        rw [hsol] at hg
        obtain ⟨b', v⟩ := sol
        cases b' with
        | false => simp [Except.map] at hg
        | true => simp [Except.map] at hg; exact hg.1
    · exact hstart
  subst hb
  obtain ⟨hl, hh⟩ := C77_partial hs script_revolute script_one script_rigid rfl script_scene hg (Or.inl rfl)
  rw [List.length_map, h6] at hl
  refine ⟨hl, fun i qi hqi => ?_⟩
  have hi : i < path.length := by
    rw [h6, ← hl]
    exact (List.getElem?_eq_some_iff.1 hqi).1
  obtain ⟨path', e, -, hpts⟩ := C92_path_ori_free 15
  change pathOriFree 15 = _ at e
  rw [h5] at e
  cases e
  have hpi : path[i]? = some path[i] := List.getElem?_eq_getElem hi
  have hline := (hpts i _ hpi).1
  obtain ⟨g6, g⟩ := hh i qi (.free path[i]) hqi (by rw [List.getElem?_map, hpi]; rfl)
  have hfk : FkSatisfies boxOracle scriptKuka.robot qi (fun T => posPart T =
      onLine ![0.8, -0.2, 0.2] ![0.8, 0.2, 0.2] 15 i) := by
    intro history hist
    obtain ⟨⟨T, p, hp, hT, hpos⟩, -⟩ := g history hist
    refine ⟨T, hT, ?_⟩
    rcases hp with ⟨pt, e, e'⟩ | ⟨pt, e, -⟩
    · cases e
      rw [hpos, e', hline]
    · cases e
  have hknown : ∀ l ∈ scriptKuka.robot.links, l.Known :=
    setup_known 0.18 0.6 0.62 0.115 0 1 none
  have hpos := (fkSatisfies_iff boxOracle scriptKuka.robot hknown qi (le_of_eq g6.symm) _).1 hfk
  have hfar : 0.8 ≤ Real.sqrt (dist2 (posPart scriptKuka.robot.tfBase)
      (posPart (frameOf scriptKuka.robot qi 5))) := by
    rw [script_frame g6]
    change 0.8 ≤ gap _ _
    rw [hpos]
    refine le_trans ?_ (coord_le_gap _ _ 0)
    have e1 : posPart scriptKuka.robot.tfBase 0 = 0 := by
      change (1 : M4) 0 3 = 0
      simp
    have e2 : onLine ![0.8, -0.2, 0.2] ![0.8, 0.2, 0.2] 15 i 0 = 0.8 := by
      unfold onLine
      simp
    rw [e1, e2]
    norm_num
  refine ⟨g6, hfk, ((g [] (by simp)).2 _ rfl).1, fun history hist => ?_⟩
  obtain ⟨b, e, hb⟩ := C128_check scriptKuka.robot rfl IsRigid.one rfl rfl (le_of_eq g6.symm) hfar
    scene1 history hist
  rw [e]
  cases b with
  | false => rfl
  | true =>
    rcases hb.1 rfl with ⟨base, h, -⟩ | ⟨k, l, hk, ht⟩
    · cases h
    · exact absurd ht (keepAway_no_touch ((g [] (by simp)).2 _ rfl).1 k l hk)

end Verif.Props
