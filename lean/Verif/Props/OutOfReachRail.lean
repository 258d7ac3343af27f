import Verif.Props.OutOfReach
import Verif.Props.MovedTogether

/-! # C151 for any robot with revolute joints and for the robot on the rail -/

set_option linter.unusedSectionVars false

namespace Verif.Props

open MeasureTheory Matrix Verif Verif.Path Verif.Geometry Verif.Kin Verif.ShortestPath Verif.Task Verif.CppGraph
  Verif.Search Verif.Planning Verif.Spec Verif.Util Verif.Resources Verif.Examples

noncomputable section

/-- **C151**, planning with any robot with revolute joints and an `ik` that keeps no state (`Arm2` is one):
two scenes with the same boxes within reach give the same outcome.  The reach is the sum of the lengths of
the links and the size of the last body. -/
theorem C151_arm {C O : Type} [CostArith C] [JointArith ℝ C] {r : Robot Shape} (hr : Regular r)
    (hs : RigidShapes r) (hrev : ∀ l ∈ r.links, l.jointType = .r) {ρ R : ℝ} (hρ : BodiesWithin r ρ)
    (hbase : BaseWithin r R) (hR : (r.links.map fixedLength).sum + ρ ≤ R)
    (ik : M4 → Option (List Config)) (hik : ∀ T sols, ik T = some sols → ∀ q ∈ sols,
      q.length = r.links.length) {scene scene' : Collection Shape}
    (hn : SameNear (posPart r.tfBase) R scene scene') (t t' : PlanningTask Shape)
    (ht : t.scene = some scene) (ht' : t'.scene = some scene')
    (hpath : t.path = t'.path) (hgrid : t.gridSamples = t'.gridSamples)
    (hiters : t.gridBasedIters = t'.gridBasedIters) (pq : PQ C Config) (conv : ℝ → ℝ)
    (draws : Nat → Nat → Draws) (time : Nat → ℝ) (fuel : Nat)
    (optimal optimal' : List PathPt → Collection Shape → Nat → List (List ℝ) → Run (RState × Unit) O)
    {method : String} (hm : method ≠ "optimization") (history history' : List (Call Shape))
    (hh : ∀ c ∈ history, c.robot.links = r.links) (hh' : ∀ c ∈ history', c.robot.links = r.links) :
    (PlanningTask.solve t (pureArm boxOracle r ik) pq conv draws time fuel optimal (some method)
      (after boxOracle r.links history, ())).1 =
    (PlanningTask.solve t' (pureArm boxOracle r ik) pq conv draws time fuel optimal' (some method)
      (after boxOracle r.links history', ())).1 := by
  have htouch := touches_near hs hρ hbase (fun q => (reachOf_revolute hrev q).trans hR) hn
  have h1 := pureArm_determined boxOracle hr ik hik scene
  have h2 := pureArm_determined boxOracle hr ik hik scene'
  rw [← htouch] at h2
  have hfk : ∀ q : Config, q.length = r.links.length →
      Returns (fun w : RState × Unit => WF r.links.length w.1 ∧ True) ((pureArm boxOracle r ik).fk q)
        (fkOf r q) := fun q hq => robotFk_returns hr hq fun _ => True
  exact C150 h1 h2 hfk hfk t t' ht ht' hpath hgrid hiters pq conv draws time fuel optimal optimal' hm
    ⟨after_wf _ _ _ hh, trivial⟩ ⟨after_wf _ _ _ hh', trivial⟩

theorem vlen_le_abs (v : V3) : vlen v ≤ |v 0| + |v 1| + |v 2| := by
  rw [vlen, Real.sqrt_le_left (by positivity)]
  simp only [dotProduct, Fin.sum_univ_three]
  nlinarith [sq_abs (v 0), sq_abs (v 1), sq_abs (v 2), abs_nonneg (v 0), abs_nonneg (v 1),
    abs_nonneg (v 2), mul_nonneg (abs_nonneg (v 0)) (abs_nonneg (v 1)),
    mul_nonneg (abs_nonneg (v 0)) (abs_nonneg (v 2)), mul_nonneg (abs_nonneg (v 1)) (abs_nonneg (v 2))]

theorem arm2_rigidShapes (a1 a2 a3 : ℝ) : RigidShapes (arm2 a1 a2 a3) := by
  refine ⟨IsRigid.one, fun l hl t ht => ?_, by intro t h; cases h⟩
  simp only [arm2, Robot.new, List.mem_cons, List.not_mem_nil, or_false] at hl
  rcases hl with rfl | rfl | rfl <;>
  · rw [List.mem_singleton.1 ht]
    exact IsRigid.one

theorem arm2_bodies (a1 a2 a3 : ℝ) : BodiesWithin (arm2 a1 a2 a3) ((|a1| + |a2| + |a3|) / 2 + 0.1) := by
  refine ⟨fun l hl i s t e1 e2 u hu => ?_, by intro t h; cases h⟩
  simp only [arm2, Robot.new, List.mem_cons, List.not_mem_nil, or_false] at hl
  have h1 := abs_nonneg a1
  have h2 := abs_nonneg a2
  have h3 := abs_nonneg a3
  have h1' := le_abs_self a1
  have h2' := le_abs_self a2
  have h3' := le_abs_self a3
  rcases hl with rfl | rfl | rfl <;>
  · obtain rfl := List.mem_singleton.1 (List.mem_of_getElem? e1)
    obtain rfl := List.mem_singleton.1 (List.mem_of_getElem? e2)
    rw [act_one]
    refine (vlen_le_abs u).trans ?_
    obtain ⟨b0, b1, b2⟩ := hu
    norm_num at b0 b1 b2 ⊢
    linarith

/-- **C151**, planning with an `Arm2`: the reach is one and a half times the sum of the lengths, and a tenth. -/
theorem C151_arm2 [Zeros] {C O : Type} [CostArith C] [JointArith ℝ C] (a1 a2 a3 : ℝ) {R : ℝ}
    (hR : 1.5 * (|a1| + |a2| + |a3|) + 0.1 ≤ R) {scene scene' : Collection Shape}
    (hn : SameNear 0 R scene scene') (t t' : PlanningTask Shape)
    (ht : t.scene = some scene) (ht' : t'.scene = some scene')
    (hpath : t.path = t'.path) (hgrid : t.gridSamples = t'.gridSamples)
    (hiters : t.gridBasedIters = t'.gridBasedIters) (pq : PQ C Config) (conv : ℝ → ℝ)
    (draws : Nat → Nat → Draws) (time : Nat → ℝ) (fuel : Nat)
    (optimal optimal' : List PathPt → Collection Shape → Nat → List (List ℝ) → Run (RState × Unit) O)
    {method : String} (hm : method ≠ "optimization") (history history' : List (Call Shape))
    (hh : ∀ c ∈ history, c.robot.links = (arm2 a1 a2 a3).links)
    (hh' : ∀ c ∈ history', c.robot.links = (arm2 a1 a2 a3).links) :
    (PlanningTask.solve t (pureArm boxOracle (arm2 a1 a2 a3) (arm2Ik (arm2 a1 a2 a3))) pq conv draws time
      fuel optimal (some method) (after boxOracle (arm2 a1 a2 a3).links history, ())).1 =
    (PlanningTask.solve t' (pureArm boxOracle (arm2 a1 a2 a3) (arm2Ik (arm2 a1 a2 a3))) pq conv draws time
      fuel optimal' (some method) (after boxOracle (arm2 a1 a2 a3).links history', ())).1 := by
  refine C151_arm (arm2_regular a1 a2 a3) (arm2_rigidShapes a1 a2 a3) (fun l hl => ?_)
    (arm2_bodies a1 a2 a3) (R := R) (by intro b hb; cases hb) (le_trans ?_ hR) _
    (fun T sols h q hq => arm2Ik_len3 h q hq) ?_ t t' ht ht' hpath hgrid hiters pq conv draws time fuel
    optimal optimal' hm history history' hh hh'
  · simp only [arm2, Robot.new, List.mem_cons, List.not_mem_nil, or_false] at hl
    rcases hl with rfl | rfl | rfl <;> rfl
  · simp [arm2, Robot.new, fixedLength, Real.sqrt_sq_eq_abs]
    norm_num
    linarith
  · have e : posPart (arm2 a1 a2 a3).tfBase = 0 := by
      funext i
      fin_cases i <;> simp [arm2, Robot.new, posPart]
    rw [e]
    exact hn

/-! ## The rail -/

section

variable {W W' S S' : Type} {Inv : W → Prop} {Inv' : W' → Prop} {arm : Arm W S} {arm' : Arm W' S'}
  {scene : Collection S} {scene' : Collection S'} {ikq : M4 → Config → Option (List Config)}
  {hit hit' : Config → Bool} {d : Nat}

/-- `cart_to_joint_simple` has the same outcome for two robots with the same `ik`, whose collision checks
agree for the configurations that `ik` gives for the fixed joint values that are tried. -/
theorem simple_same (h : DeterminedFixed arm scene Inv ikq hit d)
    (h' : DeterminedFixed arm' scene' Inv' ikq hit' d) (qFixed : List Config)
    (hhit : ∀ qf ∈ qFixed, ∀ T sols, ikq T qf = some sols → ∀ q ∈ sols, hit q = hit' q)
    (conv : ℝ → ℝ) (draws : Nat → Draws) (path : List PathPt) {w : W} {w' : W'} (hw : Inv w)
    (hw' : Inv' w') :
    (cartToJointSimple arm conv draws path scene qFixed w).1 =
      (cartToJointSimple arm' conv draws path scene' qFixed w').1 := by
  have hfree : ∀ T, simpleFree ikq hit qFixed T = simpleFree ikq hit' qFixed T := by
    intro T
    unfold simpleFree
    rw [List.flatMap_def, List.flatMap_def]
    congr 1
    refine List.map_congr_left fun qf hqf => ?_
    cases hT : ikq T qf with
    | none => rfl
    | some sols =>
      refine List.filter_congr fun q hq => ?_
      rw [hhit qf hqf T sols hT q hq]
  have samples : ∀ (l : List Disc) (qSol : Option (List Config)),
      Related Inv Inv' Eq (simpleSamples arm scene qFixed l qSol)
        (simpleSamples arm' scene' qFixed l qSol) := by
    intro l
    induction l with
    | nil => exact fun _ => Related.pure rfl
    | cons T l ih =>
      intro qSol
      unfold simpleSamples
      refine Related.bind (R := Eq) ?_ fun q q' hq => ?_
      · cases T with
        | transform T =>
          exact Related.of_returns (fixedLoop_returns h T qFixed []) (fixedLoop_returns h' T qFixed [])
            (by rw [hfree])
        | point _ =>
          cases qFixed with
          | nil => exact Related.pure rfl
          | cons qf rest => exact Related.raise _
      · subst hq
        exact ih _
  have key : ∀ (i : Nat) (qSol : Option (List Config)) (Q : List (PyCol ℝ)),
      Related Inv Inv' Eq (simpleLoop arm scene conv draws qFixed i path qSol Q)
        (simpleLoop arm' scene' conv draws qFixed i path qSol Q) := by
    induction path with
    | nil => exact fun _ _ _ => Related.pure rfl
    | cons tp path ih =>
      intro i qSol Q
      unfold simpleLoop
      refine Related.bind Related.lift fun l l' hl => ?_
      subst hl
      refine Related.bind (samples l qSol) fun o o' ho => ?_
      subst ho
      cases o with
      | none => exact Related.raise _
      | some q =>
        refine Related.bind Related.lift fun c c' hc => ?_
        subst hc
        exact ih _ _ _
  exact (key 0 none []).same hw hw'

end

/-- No point of the robot on the rail is farther than this from the start of the rail. -/
theorem rail_reach {a1 a2 d4 d6 : ℝ} (x : ℝ) (q : List ℝ) (ρ : ℝ) :
    reachOf (railRobot a1 a2 d4 d6).links (x :: q) ρ ≤ |x| + |a1| + |a2| + |d4| + |d6| + ρ := by
  have e : (railRobot a1 a2 d4 d6).links =
      (railRobot a1 a2 d4 d6).links.head (by simp [railRobot, Robot.new]) ::
        (kukaRobot a1 a2 d4 d6).links := rfl
  rw [e, reachOf]
  have h1 : linkLength ((railRobot a1 a2 d4 d6).links.head (by simp [railRobot, Robot.new])) x = |x| := by
    simp [railRobot, Robot.new, linkLength, Real.sqrt_sq_eq_abs]
  have h2 : reachOf (kukaRobot a1 a2 d4 d6).links q ρ ≤
      ((kukaRobot a1 a2 d4 d6).links.map fixedLength).sum + ρ := by
    refine reachOf_revolute (fun l hl => ?_) q
    simp only [kukaRobot, Robot.new, List.mem_cons, List.not_mem_nil, or_false] at hl
    rcases hl with rfl | rfl | rfl | rfl | rfl | rfl <;> rfl
  have h3 : ((kukaRobot a1 a2 d4 d6).links.map fixedLength).sum = |a1| + |a2| + |d4| + |d6| := by
    simp [kukaRobot, Robot.new, fixedLength, Real.sqrt_sq_eq_abs]
    ring
  rw [h1]
  linarith

/-- **C151**, `cart_to_joint_simple` with a KukaOnRail (the planner of the task editor), for positions on the
rail up to `X`: two scenes with the same boxes within reach give the same columns, or the same exception.  The
reach is `X`, the lengths of the links and the size of the last body. -/
theorem C151_rail [Zeros] {a1 a2 d4 d6 : ℝ} (n : Nat)
    {base : M4} {tool : Option (Tool Shape)} {scene scene' : Collection Shape} {ρ R X : ℝ}
    (hb : IsRigid base)
    (htool : ∀ t, tool = some t → ∀ tf ∈ t.toCollection.tfS, IsRigid tf) (hρ : 0.72 ≤ ρ)
    (hbody : ∀ t, tool = some t → ∀ (i : Nat) (s : Shape) (tf : M4), t.toCollection.s[i]? = some s →
      t.toCollection.tfS[i]? = some tf → ∀ u ∈ boxPoints s, vlen (act tf u) ≤ ρ)
    (hR : X + |a1| + |a2| + |d4| + |d6| + ρ ≤ R) (hn : SameNear (posPart base) R scene scene')
    (conv : ℝ → ℝ) (draws : Nat → Draws) (path : List PathPt) {xs : List ℝ} (hxs : ∀ x ∈ xs, |x| ≤ X)
    {w w' : RState × RState × Mem} (hw : RailOK n w) (hw' : RailOK n w') :
    let arm := railArm boxOracle (setupRail (Rail.new a1 a2 d4 d6 n) base tool)
    (cartToJointSimple arm conv draws path scene (xs.map fun x => [x]) w).1 =
      (cartToJointSimple arm conv draws path scene' (xs.map fun x => [x]) w').1 := by
  intro arm
  have hcongr : ∀ (sc : Collection Shape),
      cartToJointSimple arm conv draws path sc (xs.map fun x => [x]) =
      cartToJointSimple (railArm1 boxOracle (setupRail (Rail.new a1 a2 d4 d6 n) base tool)) conv draws path
        sc (xs.map fun x => [x]) := by
    intro sc
    refine cartToJointSimple_congr (A := arm)
      (B := railArm1 boxOracle (setupRail (Rail.new a1 a2 d4 d6 n) base tool)) rfl (fun T qf hqf => ?_) conv
      draws path sc
    obtain ⟨x, -, rfl⟩ := List.mem_map.1 hqf
    rfl
  rw [hcongr, hcongr]
  refine simple_same (rail_determined boxOracle a1 a2 d4 d6 n base tool scene)
    (rail_determined boxOracle a1 a2 d4 d6 n base tool scene') _ ?_ conv draws path hw hw'
  intro qf hqf T sols hT q hq
  obtain ⟨x, hx, rfl⟩ := List.mem_map.1 hqf
  simp only [List.headD_cons, railSols] at hT
  obtain ⟨qs, -, rfl⟩ := Option.map_eq_some_iff.1 hT
  obtain ⟨q', -, rfl⟩ := List.mem_map.1 hq
  unfold touches
  classical
  rw [decide_eq_decide]
  rw [C151_touch (rail_rigidShapes a1 a2 d4 d6 n hb tool htool)
    (rail_bodies a1 a2 d4 d6 n base tool hρ hbody) (R := R) (by intro b hb; cases hb) ?_ hn]
  refine (rail_reach x q' ρ).trans (le_trans ?_ hR)
  linarith [hxs x hx]

/-! ### Cases that meet the hypotheses -/

/-- A case of `C151_arm2`, and so of `C151_arm`: an arm of three links of one meter, with and without the cube
at a distance of 1000, any path of free points. -/
example [Zeros] (ps : List V3) (draws : Nat → Nat → Draws) (time : Nat → ℝ) :
    let arm := pureArm boxOracle (arm2 1 1 1) (arm2Ik (arm2 1 1 1))
    let optimal := fun (_ : List PathPt) (_ : Collection Shape) (_ : Nat) (_ : List (List ℝ)) =>
      (pure () : Run (RState × Unit) Unit)
    (PlanningTask.solve (freeTask ps ⟨[], []⟩ 5) arm (stdHeap : PQ (WithTop ℝ) Config) id draws time 0
      optimal (some "grid_incremental") (after boxOracle (arm2 1 1 1).links [], ())).1 =
    (PlanningTask.solve (freeTask ps (grown 1 awayCube) 5) arm (stdHeap : PQ (WithTop ℝ) Config) id draws
      time 0 optimal (some "grid_incremental")
      (after boxOracle (arm2 1 1 1).links [.fk (arm2 1 1 1) [0, 0, 0]], ())).1 := by
  intro arm optimal
  have h0 : posPart (1 : M4) = 0 := by
    funext i
    fin_cases i <;> simp [posPart]
  refine C151_arm2 1 1 1 (R := 900) (by norm_num) ?_ (freeTask ps ⟨[], []⟩ 5)
    (freeTask ps (grown 1 awayCube) 5) rfl rfl rfl rfl rfl stdHeap id draws time 0 optimal optimal
    (by decide) [] [.fk (arm2 1 1 1) [0, 0, 0]] (by simp) (by simp [Call.robot])
  rw [← h0]
  exact sameNear_append (c := ⟨[], []⟩) rfl (awayCube_far (by norm_num))

/-- A case of `C151_rail`: the robot on the rail at its two ends `-0.5` and `0.5`, any path of free points, in the
empty scene and with the cube at a distance of 1000. -/
example [Zeros] (path : List PathPt) (draws : Nat → Draws) {w : RState × RState × Mem} (hw : RailOK 0 w) :
    let arm := railArm boxOracle (setupRail (Rail.new 0.18 0.6 0.62 0.115 0) 1 none)
    (cartToJointSimple arm id draws path ⟨[], []⟩ ([-0.5, 0.5].map fun x => [x])
      (RState.new 7, RState.new 3, [[]])).1 =
    (cartToJointSimple arm id draws path (grown 1 awayCube) ([-0.5, 0.5].map fun x => [x]) w).1 := by
  refine C151_rail 0 (a1 := 0.18) (a2 := 0.6) (d4 := 0.62) (d6 := 0.115) (base := 1) (tool := none)
    (R := 900) (X := 0.5) IsRigid.one (by simp) (le_refl (0.72 : ℝ)) (by simp) (by norm_num [abs_of_pos]) ?_
    id draws path (by simp; norm_num [abs_of_pos, abs_of_neg])
    ⟨WF.new 7, WF.new 3, Nat.zero_lt_one⟩ hw
  exact sameNear_append (c := ⟨[], []⟩) rfl (awayCube_far (by norm_num))

end

end Verif.Props
