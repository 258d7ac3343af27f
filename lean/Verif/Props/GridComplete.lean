import Verif.Props.RailPlan

/-! # C111: the grid planner finds a path for the shipped arms whenever the samples can be reached -/

set_option linter.unusedSectionVars false

namespace Verif.Props

open Matrix Verif Verif.Path Verif.Geometry Verif.Kin Verif.ShortestPath Verif.Task Verif.CppGraph
  Verif.Search Verif.Planning Verif.Spec Verif.Plot Verif.Gui Verif.Util

noncomputable section

variable {C O : Type} [CostArith C] [JointArith ℝ C]

theorem kukaSols_complete [Zeros] (hit : Oracle Shape) {a1 a2 d4 d6 : ℝ} (ha : a2 * d4 ≠ 0)
    (n : Nat)
    {base T : M4} (hb : IsRigid base) (tool : Option (Tool Shape))
    (ht : ∀ t, tool = some t → IsRigid t.tfTT) {q1 q2 q3 q4 q5 q6 : ℝ}
    (hT : FkSatisfies hit (setup (Kuka.new a1 a2 d4 d6 n) base tool).robot [q1, q2, q3, q4, q5, q6]
      (· = T))
    (h1 : a1 + a2 * Real.cos q2 + d4 * Real.sin (q2 + q3) ≠ 0)
    (h3 : |Real.sin q3| ≤ 1 - 1 / 10 ^ 6) (h5 : Real.sin q5 ≠ 0) :
    ∃ sols t1 t2 t3 t4 t5 t6,
      kukaSols a1 a2 d4 (setup (Kuka.new a1 a2 d4 d6 n) base tool).robot T = some sols ∧
      [t1, t2, t3, t4, t5, t6] ∈ sols ∧ SameAngle t1 q1 ∧ SameAngle t2 q2 ∧ SameAngle t3 q3 ∧
      SameAngle t4 q4 ∧ SameAngle t5 q5 ∧ SameAngle t6 q6 := by
  rw [fkSatisfies_iff _ _ (setup_known a1 a2 d4 d6 n base tool) _ (le_refl _)] at hT
  obtain ⟨R, p, hR, hch⟩ := (chain_rigid (kukaRobot a1 a2 d4 d6).links
    [q1, q2, q3, q4, q5, q6]).exists_mk
  have hTe : T = base * mkTf R p * tipOf tool := by rw [← hch]; exact hT.symm
  have htgt : kukaTarget (setup (Kuka.new a1 a2 d4 d6 n) base tool).robot T =
      mkTf R (p - R *ᵥ ![0, 0, d6]) :=
    kukaTarget_eq (r := (setup (Kuka.new a1 a2 d4 d6 n) base tool).robot) hb (tipOf_rigid ht) hTe rfl
  obtain ⟨qs, hq⟩ := kuka_succeeds ha hch
  obtain ⟨t1, t2, t3, hmem, s1, s2, s3, hwr⟩ := kuka_complete ha hch hq h1 h3
  obtain ⟨t4, t5, t6, hk, s4, s5, s6⟩ := hwr h5
  refine ⟨qs.flatMap (kSols a1 a2 d4 (mkTf R (p - R *ᵥ ![0, 0, d6]))),
    t1, t2, t3, t4, t5, t6, ?_, List.mem_flatMap.2 ⟨_, hmem, hk⟩, s1, s2, s3, s4, s5, s6⟩
  unfold kukaSols
  rw [htgt, hq]
  rfl

/-- **C111** for a Kuka with any base and tool: if every point of a non-empty path has a sample that
some configuration reaches which touches neither the scene nor the robot itself and is not near a
singularity, then `solve(robot, "grid")` succeeds, from every state the robot can be in. -/
theorem C111_kuka [Zeros] (hit : Oracle Shape) {a1 a2 d4 d6 : ℝ} (ha : a2 * d4 ≠ 0) (n : Nat)
    {base : M4}
    (hb : IsRigid base) (tool : Option (Tool Shape)) (htt : ∀ t, tool = some t → IsRigid t.tfTT)
    (scene : Collection Shape) {pq : PQ C Config} (hl : Lawful pq) (hno : PyGraph.NoOverflow C)
    (hfin : ∀ (w : List ℝ) (x y : Config), stepCost C w x y < ⊤)
    (t : PlanningTask Shape) (ht : t.scene = some scene) (hne : t.path ≠ []) (conv : ℝ → ℝ)
    (draws : Nat → Nat → Draws) (time : Nat → ℝ) (fuel : Nat)
    (optimal : List PathPt → Collection Shape → Nat → List (List ℝ) →
      Run (RState × RState × Mem) O)
    {samples : List (List M4)} (hs : SamplesOf (draws 0) t.gridSamples t.path samples) :
    let k := setup (Kuka.new a1 a2 d4 d6 n) base tool
    (∀ Ts ∈ samples, ∃ T ∈ Ts, ∃ q1 q2 q3 q4 q5 q6 : ℝ,
      FkSatisfies hit k.robot [q1, q2, q3, q4, q5, q6] (· = T) ∧
      ¬ SceneTouch hit k.robot [q1, q2, q3, q4, q5, q6] scene ∧
      ¬ SelfTouch hit k.robot [q1, q2, q3, q4, q5, q6] ∧
      a1 + a2 * Real.cos q2 + d4 * Real.sin (q2 + q3) ≠ 0 ∧
      |Real.sin q3| ≤ 1 - 1 / 10 ^ 6 ∧ Real.sin q5 ≠ 0) →
    ∃ path c, Returns (KukaOK n)
      (PlanningTask.solve t (kukaRef hit k).toArm pq conv draws time fuel optimal (some "grid"))
      (.plan ⟨true, some path, some c⟩) := by
  intro k hex
  obtain ⟨path, c, h1, -⟩ := C66_succeeds (kuka_determined hit a1 a2 d4 d6 n base tool scene) hl hno
    (fun x y => hfin _ x y) t ht hne conv draws time fuel optimal hs fun Ts hTs => by
      obtain ⟨T, hT, q1, q2, q3, q4, q5, q6, hf, hsc, hse, g1, g3, g5⟩ := hex Ts hTs
      obtain ⟨sols, t1, t2, t3, t4, t5, t6, hsol, hmem, s1, s2, s3, s4, s5, s6⟩ :=
        kukaSols_complete hit ha n hb tool htt hf g1 g3 g5
      refine ⟨T, hT, sols, hsol, _, hmem, ?_⟩
      rw [touches_congr hit (q' := [q1, q2, q3, q4, q5, q6])]
      · exact (touches_free hit (r := k.robot) rfl scene _).2 ⟨hsc, hse⟩
      · simp only [setup, Kuka.new, kukaRobot, Robot.new, List.zipWith_cons_cons,
          List.zipWith_nil_left]
        rw [dhOf_sameAngle rfl s1, dhOf_sameAngle rfl s2, dhOf_sameAngle rfl s3,
          dhOf_sameAngle rfl s4, dhOf_sameAngle rfl s5, dhOf_sameAngle rfl s6]
  exact ⟨path, c, h1⟩

/-- **C111** for an Arm2, which only takes the position of a sample into account. -/
theorem C111_arm2 [Zeros] (hit : Oracle Shape) {a1 a2 a3 : ℝ} (ha : a2 * a3 ≠ 0)
    (scene : Collection Shape)
    {pq : PQ C Config} (hl : Lawful pq) (hno : PyGraph.NoOverflow C)
    (hfin : ∀ (w : List ℝ) (x y : Config), stepCost C w x y < ⊤)
    (t : PlanningTask Shape) (ht : t.scene = some scene) (hne : t.path ≠ []) (conv : ℝ → ℝ)
    (draws : Nat → Nat → Draws) (time : Nat → ℝ) (fuel : Nat)
    (optimal : List PathPt → Collection Shape → Nat → List (List ℝ) → Run (RState × Unit) O)
    {samples : List (List M4)} (hs : SamplesOf (draws 0) t.gridSamples t.path samples)
    (hex : ∀ Ts ∈ samples, ∃ T ∈ Ts, ∃ q1 q2 q3 : ℝ, Arm2Reaches hit a1 a2 a3 q1 q2 q3 T ∧
      ¬ SceneTouch hit (arm2 a1 a2 a3) [q1, q2, q3] scene ∧
      ¬ SelfTouch hit (arm2 a1 a2 a3) [q1, q2, q3] ∧
      (T 0 3 ≠ 0 ∨ T 1 3 ≠ 0) ∧ |Real.cos q3| ≤ 1 - 1 / 10 ^ 6)
    (history : List (Call Shape)) (hh : ∀ c ∈ history, c.robot.links = (arm2 a1 a2 a3).links) :
    ∃ path c w', PlanningTask.solve t (pureArm hit (arm2 a1 a2 a3) (arm2Ik (arm2 a1 a2 a3))) pq conv
        draws time fuel optimal (some "grid") (after hit (arm2 a1 a2 a3).links history, ()) =
      (.ok (.plan ⟨true, some path, some c⟩), w') := by
  obtain ⟨path, c, h1, -⟩ := C66_succeeds (pureArm_determined hit (arm2_regular a1 a2 a3)
    (arm2Ik (arm2 a1 a2 a3)) (fun T sols h q hq => arm2Ik_len3 h q hq) scene) hl hno
    (fun x y => hfin _ x y) t ht hne conv draws time fuel optimal hs fun Ts hTs => by
      obtain ⟨T, hT, q1, q2, q3, hf, hsc, hse, g1, g3⟩ := hex Ts hTs
      obtain ⟨sols, hsol, t1, t2, t3, hmem, s1, s2, s3⟩ :=
        C36_arm2_complete hit ha q1 q2 q3 T hf g1 g3
      refine ⟨T, hT, sols, hsol, _, hmem, ?_⟩
      rw [touches_congr hit (q' := [q1, q2, q3])]
      · exact (touches_free hit (r := arm2 a1 a2 a3) rfl scene _).2 ⟨hsc, hse⟩
      · simp only [arm2, Robot.new, List.zipWith_cons_cons, List.zipWith_nil_left]
        rw [dhOf_sameAngle rfl s1, dhOf_sameAngle rfl s2, dhOf_sameAngle rfl s3]
  obtain ⟨w', hw, -⟩ := h1 (after hit (arm2 a1 a2 a3).links history, ())
    ⟨after_wf hit _ _ hh, trivial⟩
  exact ⟨path, c, w', hw⟩

/-- **C111**, the grid planner calls `ik` without a rail position: for a KukaOnRail it raises
TypeError at the first sample of the first point. -/
theorem C111_rail [Zeros] (hit : Oracle Shape) (r : Rail) (scene : Collection Shape) (conv : ℝ → ℝ)
    (draws : Nat → Draws) {tp : PathPt} (rest : List PathPt) {m : Nat} {T : M4} {Ts : List M4}
    (h : getSamples (draws 0) m none tp = .ok (T :: Ts)) (w : RState × RState × Mem) :
    (cartToJointNoRedundancy (railArm hit r) conv draws (tp :: rest) scene m w).1 =
      .error (.py .typeError) := by
  have : Raises (fun _ => True) (cartToJointNoRedundancy (railArm hit r) conv draws (tp :: rest)
      scene m) (.py .typeError) := by
    unfold cartToJointNoRedundancy noRedundancyLoop
    refine Returns.bind_raises (Returns.lift h) (Raises.bind ?_)
    unfold samplesLoop
    exact Raises.bind (Raises.raise _)
  obtain ⟨w', hw⟩ := this w trivial
  rw [hw]

/-- The frame at the end of a Kuka with a turned wrist, as a path point. -/
theorem kukaPose : ∃ x : V3, mkTf (rotX Real.pi * rotY 1 * rotZ 0) x =
    chain (kukaRobot 0.18 0.6 0.62 0.115).links [0, 0, 0, 0, 1, 0] := by
  have hC := chain_rigid (kukaRobot 0.18 0.6 0.62 0.115).links [0, 0, 0, 0, 1, 0]
  refine ⟨posPart (chain (kukaRobot 0.18 0.6 0.62 0.115).links [0, 0, 0, 0, 1, 0]), ?_⟩
  conv_rhs => rw [← mkTf_parts hC.2]
  congr 1
  have h2 : armRot 0 (0 + 0) = rotX Real.pi := by
    ext i j
    fin_cases i <;> fin_cases j <;> simp [armRot, rotX]
  rw [chain_kuka, rotPart_mkTf, h2, zyz, Util.rotZ_zero, one_mul, ← mul_assoc]

/-- The default Kuka with a path of two equal points is planned for. -/
example [Zeros] (draws : Nat → Nat → Draws) (time : Nat → ℝ) : ∃ (t : PlanningTask Shape)
    (path : List Config) (c : WithTop ℝ), t.path.length = 2 ∧
    Returns (KukaOK 0) (PlanningTask.solve t
      (kukaRef (fun _ _ => false) (setup (Kuka.new 0.18 0.6 0.62 0.115 0) 1 none)).toArm
      (stdHeap : PQ (WithTop ℝ) Config) id draws time 0 (fun _ _ _ _ => pure ()) (some "grid"))
      (.plan ⟨true, some path, some c⟩) := by
  obtain ⟨x, hx⟩ := kukaPose
  obtain ⟨pt, T, h1, -, h2, hT⟩ := C47_no_tolerance x ![Real.pi, 1, 0]
  have hT' : T = chain (kukaRobot 0.18 0.6 0.62 0.115).links [0, 0, 0, 0, 1, 0] := by
    rw [hT, ← hx]
    rfl
  let k := setup (Kuka.new 0.18 0.6 0.62 0.115 0) 1 none
  let sc : Collection Shape := ⟨[⟨1, 1, 1⟩], [1]⟩
  let t : PlanningTask Shape := PlanningTask.new [.euler pt, .euler pt] (some sc)
  have hs1 : Real.sin 1 ≠ 0 :=
    (Real.sin_pos_of_pos_of_lt_pi one_pos (by linarith [Real.two_le_pi])).ne'
  have hsam : ∀ d m, getSamples d m none (.euler pt) = .ok [T] := by
    intro d m
    show liftPy pt.getSamples = _
    rw [h2]
    rfl
  have hs : SamplesOf (draws 0) t.gridSamples t.path [[T], [T]] := by
    refine ⟨rfl, fun i tp Ts e1 e2 => ?_⟩
    rcases i with _ | _ | i
    · cases e1; cases e2; exact hsam _ _
    · cases e1; cases e2; exact hsam _ _
    · simp at e2
  obtain ⟨path, c, h⟩ := C111_kuka (fun _ _ => false) (a1 := 0.18) (a2 := 0.6) (d4 := 0.62)
    (d6 := 0.115) (by norm_num) 0 IsRigid.one none (by simp) sc
    (pq := (stdHeap : PQ (WithTop ℝ) Config)) stdHeapLawful noOverflow_real stepCost_real t rfl
    (by simp [t, PlanningTask.new]) id draws time 0 (fun _ _ _ _ => pure ()) hs (by
      intro Ts hTs
      have : Ts = [T] := by simpa using hTs
      rw [this]
      have hfree := (touches_free (fun _ _ => false) (r := k.robot) rfl sc
        [0, 0, 0, 0, 1, 0]).1 (touches_false _ _ _)
      refine ⟨T, List.mem_singleton.2 rfl, 0, 0, 0, 0, 1, 0, ?_, hfree.1, hfree.2, by norm_num,
        by norm_num, hs1⟩
      rw [fkSatisfies_iff _ _ (setup_known _ _ _ _ _ _ _) _ (le_refl _)]
      change 1 * chain (kukaRobot 0.18 0.6 0.62 0.115).links _ * 1 = T
      rw [hT', one_mul, mul_one])
  exact ⟨t, path, c, rfl, h⟩

/-- C111, C66: the Arm2 with links of length one is planned for; the target is reached with a bent
elbow. -/
example [Zeros] (draws : Nat → Nat → Draws) (time : Nat → ℝ) : ∃ (t : PlanningTask Shape)
    (path : List Config) (c : WithTop ℝ) (w' : RState × Unit), t.path.length = 1 ∧
    PlanningTask.solve t (pureArm (fun _ _ => false) (arm2 1 1 1) (arm2Ik (arm2 1 1 1)))
      (stdHeap : PQ (WithTop ℝ) Config) id draws time 0 (fun _ _ _ _ => pure ()) (some "grid")
      (after (fun _ _ => false) (arm2 1 1 1).links [.fk (arm2 1 1 1) [0, 0, 0]], ()) =
      (.ok (.plan ⟨true, some path, some c⟩), w') := by
  obtain ⟨pt, T, h1, -, h2, hT⟩ := C47_no_tolerance ![2, 0, 1] 0
  let sc : Collection Shape := ⟨[⟨1, 1, 1⟩], [1]⟩
  let t : PlanningTask Shape := PlanningTask.new [.euler pt] (some sc)
  have hs : SamplesOf (draws 0) t.gridSamples t.path [[T]] := by
    refine ⟨rfl, fun i tp Ts e1 e2 => ?_⟩
    rcases i with _ | i
    · cases e1; cases e2
      show liftPy pt.getSamples = _
      rw [h2]
      rfl
    · simp at e2
  obtain ⟨path, c, w', h⟩ := C111_arm2 (fun _ _ => false) (a1 := 1) (a2 := 1) (a3 := 1) (by norm_num) sc
    (pq := (stdHeap : PQ (WithTop ℝ) Config)) stdHeapLawful noOverflow_real stepCost_real t rfl
    (by simp [t, PlanningTask.new]) id draws time 0 (fun _ _ _ _ => pure ()) hs (by
      intro Ts hTs
      have : Ts = [T] := by simpa using hTs
      rw [this]
      have hfree := (touches_free (fun _ _ => false) (r := arm2 1 1 1) rfl sc
        [0, 0, Real.pi / 2]).1 (touches_false _ _ _)
      refine ⟨T, List.mem_singleton.2 rfl, 0, 0, Real.pi / 2, ?_, hfree.1, hfree.2, .inl ?_, by norm_num⟩
      · rw [arm2Reaches_iff, hT, posPart_mkTf]
        ext i; fin_cases i <;> norm_num [armPos]
      · rw [hT]
        change (2 : ℝ) ≠ 0
        norm_num) [.fk (arm2 1 1 1) [0, 0, 0]] (by simp [Call.robot])
  exact ⟨t, path, c, w', rfl, h⟩

/-- C111: a case of `C111_rail`. -/
example [Zeros] (hit : Oracle Shape) (r : Rail) (draws : Nat → Draws) (w : RState × RState × Mem) :
    ∃ tp : PathPt, (cartToJointNoRedundancy (railArm hit r) id draws [tp] ⟨[], []⟩ 10 w).1 =
      .error (.py .typeError) := by
  obtain ⟨pt, T, h1, -, h2, hT⟩ := C47_no_tolerance ![2, 0, 1] 0
  exact ⟨.euler pt, C111_rail hit r _ id draws [] (T := T) (Ts := []) (by
    show liftPy pt.getSamples = _
    rw [h2]
    rfl) w⟩

end

end Verif.Props
