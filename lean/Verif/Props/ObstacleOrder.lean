import Verif.Props.FewerObstacles
import Verif.Props.MovedTogether
import Verif.Props.SameAnswers

/-!
# C156: the order of the obstacles

A collision check asks whether some shape of the scene is touched, so two scenes with the same placed
shapes, in another order or with repetitions, give the same answers, and planning has the same outcome.
-/

set_option linter.unusedSectionVars false

namespace Verif.Props

open Matrix Verif Verif.Path Verif.Geometry Verif.Kin Verif.ShortestPath Verif.Task Verif.CppGraph
  Verif.Search Verif.Planning Verif.Spec Verif.Util Verif.Grid Verif.Resources Verif.Examples Verif.Io

noncomputable section

/-- The two scenes have the same shapes at the same places. -/
def SameShapes (scene scene' : Collection Shape) : Prop :=
  ∀ (s : Shape) (T : M4), (∃ i : Nat, scene.s[i]? = some s ∧ scene.tfS[i]? = some T) ↔
    ∃ j : Nat, scene'.s[j]? = some s ∧ scene'.tfS[j]? = some T

theorem SameShapes.touches {scene scene' : Collection Shape} (h : SameShapes scene scene')
    (hit : Oracle Shape) (r : Robot Shape) : touches hit r scene = touches hit r scene' := by
  funext q
  rw [Bool.eq_iff_iff]
  exact ⟨C155_touches hit r fun i s T h1 h2 => (h s T).1 ⟨i, h1, h2⟩,
    C155_touches hit r fun i s T h1 h2 => (h s T).2 ⟨i, h1, h2⟩⟩

theorem zip_getElem? {α β : Type} {l : List α} {m : List β} {a : α} {b : β} :
    (a, b) ∈ l.zip m ↔ ∃ i : Nat, l[i]? = some a ∧ m[i]? = some b := by
  rw [List.mem_iff_getElem?]
  simp only [List.getElem?_zip_eq_some]

/-- **C156**: the same placed shapes in any order. -/
theorem C156_perm {scene scene' : Collection Shape}
    (h : (scene.s.zip scene.tfS).Perm (scene'.s.zip scene'.tfS)) : SameShapes scene scene' := by
  intro s T
  rw [← zip_getElem?, ← zip_getElem?]
  exact h.mem_iff

/-- **C156**, the check: a robot that is set up as its class does gives the same answer in both scenes, after
any earlier calls. -/
theorem C156_check (hit : Oracle Shape) {r : Robot Shape} (hr : Regular r) {scene scene' : Collection Shape}
    (h : SameShapes scene scene') {q : Config} (hq : q.length = r.links.length)
    (history history' : List (Call Shape)) (hh : ∀ c ∈ history, c.robot.links = r.links)
    (hh' : ∀ c ∈ history', c.robot.links = r.links) :
    (robotCollision hit r q scene (after hit r.links history, ())).1 =
      (robotCollision hit r q scene' (after hit r.links history', ())).1 := by
  obtain ⟨w, h1, -⟩ := robotCollision_returns hit hr scene hq (fun _ : Unit => True)
    (after hit r.links history, ()) ⟨after_wf hit _ _ hh, trivial⟩
  obtain ⟨w', h2, -⟩ := robotCollision_returns hit hr scene' hq (fun _ : Unit => True)
    (after hit r.links history', ()) ⟨after_wf hit _ _ hh', trivial⟩
  rw [h1, h2, h.touches hit r]

/-- **C156**, planning: a Kuka, with any base and tool and after any earlier calls, has the same outcome in
both scenes, with every method of `PlanningTask.solve` that searches a grid. -/
theorem C156_kuka [Zeros] {C O : Type} [CostArith C] [JointArith ℝ C] (hit : Oracle Shape)
    (a1 a2 d4 d6 : ℝ) (n : Nat) (base : M4) (tool : Option (Tool Shape)) {scene scene' : Collection Shape}
    (h : SameShapes scene scene') (t : PlanningTask Shape) (pq : PQ C Config) (conv : ℝ → ℝ)
    (draws : Nat → Nat → Draws) (time : Nat → ℝ) (fuel : Nat)
    (optimal optimal' : List PathPt → Collection Shape → Nat → List (List ℝ) →
      Run (RState × RState × Mem) O) {method : String} (hm : method ≠ "optimization")
    {w w' : RState × RState × Mem} (hw : KukaOK n w) (hw' : KukaOK n w') :
    (PlanningTask.solve { t with scene := some scene }
      (kukaRef hit (setup (Kuka.new a1 a2 d4 d6 n) base tool)).toArm pq conv draws time fuel optimal
      (some method) w).1 =
    (PlanningTask.solve { t with scene := some scene' }
      (kukaRef hit (setup (Kuka.new a1 a2 d4 d6 n) base tool)).toArm pq conv draws time fuel optimal'
      (some method) w').1 := by
  have h1 := kuka_determined hit a1 a2 d4 d6 n base tool scene
  have h2 := kuka_determined hit a1 a2 d4 d6 n base tool scene'
  rw [← h.touches] at h2
  have hfk : ∀ q : Config, q.length = 6 → Returns (KukaOK n)
      ((kukaRef hit (setup (Kuka.new a1 a2 d4 d6 n) base tool)).toArm.fk q)
      (fkOf (setup (Kuka.new a1 a2 d4 d6 n) base tool).robot q) := fun q hq =>
    robotFk_returns (kuka_regular a1 a2 d4 d6 n base tool) hq
      fun v : RState × Mem => WF 3 v.1 ∧ n < v.2.length
  exact C150 h1 h2 hfk hfk { t with scene := some scene } { t with scene := some scene' } rfl rfl rfl rfl rfl
    pq conv draws time fuel optimal optimal' hm hw hw'

/-- **C156**, `cart_to_joint_simple` with a KukaOnRail: the same columns, or the same exception. -/
theorem C156_rail [Zeros] (hit : Oracle Shape) (a1 a2 d4 d6 : ℝ) (n : Nat) (base : M4)
    (tool : Option (Tool Shape)) {scene scene' : Collection Shape} (h : SameShapes scene scene')
    (path : List PathPt) (conv : ℝ → ℝ) (draws : Nat → Draws) (xs : List ℝ)
    {w w' : RState × RState × Mem} (hw : RailOK n w) (hw' : RailOK n w') :
    (cartToJointSimple (railArm hit (setupRail (Rail.new a1 a2 d4 d6 n) base tool)) conv draws path scene
      (xs.map fun x => [x]) w).1 =
    (cartToJointSimple (railArm hit (setupRail (Rail.new a1 a2 d4 d6 n) base tool)) conv draws path scene'
      (xs.map fun x => [x]) w').1 := by
  have hcongr : ∀ sc : Collection Shape,
      cartToJointSimple (railArm hit (setupRail (Rail.new a1 a2 d4 d6 n) base tool)) conv draws path sc
        (xs.map fun x => [x]) =
      cartToJointSimple (railArm1 hit (setupRail (Rail.new a1 a2 d4 d6 n) base tool)) conv draws path sc
        (xs.map fun x => [x]) := by
    intro sc
    refine cartToJointSimple_congr (A := railArm hit (setupRail (Rail.new a1 a2 d4 d6 n) base tool))
      (B := railArm1 hit (setupRail (Rail.new a1 a2 d4 d6 n) base tool)) rfl (fun T qf hqf => ?_) conv draws
      path sc
    obtain ⟨x, -, rfl⟩ := List.mem_map.1 hqf
    rfl
  rw [hcongr, hcongr]
  have h1 := rail_determined hit a1 a2 d4 d6 n base tool scene
  have h2 := rail_determined hit a1 a2 d4 d6 n base tool scene'
  rw [← h.touches] at h2
  exact C150_simple h1 h2 conv draws path _ hw hw'

/-- **C156**, task files: two files with the same obstacle entries, in any order and with any repetitions,
give scenes with the same shapes. -/
theorem C156_file {d d' : TaskDict} {l l' : List (ShapeDict × V3 × V3 × V3)}
    (hd : d.obstacles = some (l.map Prod.fst)) (hd' : d'.obstacles = some (l'.map Prod.fst))
    (hl : ∀ b ∈ l, BoxDict b.1 b.2.1 b.2.2.1 b.2.2.2) (hs : ∀ b, b ∈ l ↔ b ∈ l') :
    ∃ scene scene', parseObstacles d = .ok scene ∧ parseObstacles d' = .ok scene' ∧
      SameShapes scene scene' := by
  refine ⟨_, _, C56_obstacles hd hl, C56_obstacles hd' fun b hb => hl b ((hs b).2 hb), fun s T => ?_⟩
  rw [← zip_getElem?, ← zip_getElem?]
  simp only [List.zip_map', List.mem_map]
  exact exists_congr fun b => and_congr_left fun _ => hs b

/-! ## Concrete cases -/

/-- Two boxes, in both orders, and one of them twice. -/
example (b c : Shape) (T U : M4) : SameShapes ⟨[b, c], [T, U]⟩ ⟨[c, b], [U, T]⟩ ∧
    SameShapes ⟨[b, c], [T, U]⟩ ⟨[b, c, b], [T, U, T]⟩ := by
  refine ⟨C156_perm (List.Perm.swap _ _ _), fun s X => ?_⟩
  rw [← zip_getElem?, ← zip_getElem?]
  simp only [List.zip_cons_cons, List.zip_nil_right, List.mem_cons, List.not_mem_nil, or_false]
  tauto

/-- A file with two boxes and one with the second box first. -/
example :
    let b : ShapeDict :=
      { type := some "box", size := some [1, 2, 3], xyz := some [4, 5, 6], rpy := some [0, 0, 0] }
    let c : ShapeDict :=
      { type := some "box", size := some [1, 1, 1], xyz := some [0, 0, 1], rpy := some [0, 0, 2] }
    ∃ scene scene', parseObstacles { obstacles := some [b, c] } = .ok scene ∧
      parseObstacles { obstacles := some [c, b] } = .ok scene' ∧ SameShapes scene scene' := by
  intro b c
  refine C156_file (l := [(b, ![1, 2, 3], ![4, 5, 6], 0), (c, ![1, 1, 1], ![0, 0, 1], ![0, 0, 2])])
    (l' := [(c, ![1, 1, 1], ![0, 0, 1], ![0, 0, 2]), (b, ![1, 2, 3], ![4, 5, 6], 0)]) rfl rfl ?_
    (fun x => (List.Perm.swap _ _ _).mem_iff)
  intro x hx
  simp only [List.mem_cons, List.not_mem_nil, or_false] at hx
  rcases hx with rfl | rfl <;> exact ⟨rfl, rfl, rfl, rfl⟩

/-- The box of the examples, with its plates in reverse order, for the stock Kuka and the iterative planner. -/
example [Zeros] (hit : Oracle Shape) (t : PlanningTask Shape) (draws : Nat → Nat → Draws) (time : Nat → ℝ) :
    let optimal := fun (_ : List PathPt) (_ : Collection Shape) (_ : Nat) (_ : List (List ℝ)) =>
      (pure () : Run (RState × RState × Mem) Unit)
    (PlanningTask.solve { t with scene := some workpiece }
      (kukaRef hit (setup (Kuka.new 0.18 0.6 0.62 0.115 0) 1 none)).toArm
      (stdHeap : PQ (WithTop ℝ) Config) id draws time 0 optimal (some "grid_iterative")
      (RState.new 6, RState.new 3, [[[0, 0, 0], [0, 0, 0]]])).1 =
    (PlanningTask.solve { t with scene := some ⟨workpiece.s.reverse, workpiece.tfS.reverse⟩ }
      (kukaRef hit (setup (Kuka.new 0.18 0.6 0.62 0.115 0) 1 none)).toArm
      (stdHeap : PQ (WithTop ℝ) Config) id draws time 0 optimal (some "grid_iterative")
      (RState.new 6, RState.new 3, [[[0, 0, 0], [0, 0, 0]]])).1 := by
  intro optimal
  have h0 : KukaOK 0 (RState.new 6, RState.new 3, [[[0, 0, 0], [0, 0, 0]]]) :=
    ⟨WF.new 6, WF.new 3, by decide⟩
  refine C156_kuka hit _ _ _ _ 0 1 none (C156_perm ?_) t _ _ draws time 0 _ _ (by decide) h0 h0
  show (workpiece.s.zip workpiece.tfS).Perm (workpiece.s.reverse.zip workpiece.tfS.reverse)
  exact (List.reverse_perm (workpiece.s.zip workpiece.tfS)).symm.trans (by
    unfold workpiece workpieceOf
    simp)

end

end Verif.Props
