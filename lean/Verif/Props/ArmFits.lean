import Verif.Props.RailPlan
import Verif.Props.Incremental

/-! # C121: which robot goes with which planner -/

set_option linter.unusedSectionVars false

namespace Verif.Props

open Verif Verif.Path Verif.Geometry Verif.Kin Verif.ShortestPath Verif.Task Verif.CppGraph
  Verif.Search Verif.Planning

noncomputable section

variable {W S C O : Type} [CostArith C] [JointArith ℝ C] {Inv : W → Prop}

/-! ### planners that call `ik` with a pose only -/

theorem samplesLoop_raises {arm : Arm W S} {e : Err} (h : ∀ T, Raises Inv (arm.ik T) e)
    (scene : Collection S) {Ts : List M4} (hne : Ts ≠ []) (acc : List Config) :
    Raises Inv (samplesLoop arm scene Ts acc) e := by
  cases Ts with
  | nil => exact absurd rfl hne
  | cons T Ts =>
    unfold samplesLoop
    exact Raises.bind (h T)

theorem noRedundancy_raises {arm : Arm W S} {e : Err} (h : ∀ T, Raises Inv (arm.ik T) e)
    (scene : Collection S) (conv : ℝ → ℝ) {draws : Nat → Draws} {n : Nat} {path : List PathPt}
    {samples : List (List M4)} (hs : SamplesOf draws n path samples) :
    ((∃ Ts ∈ samples, Ts ≠ []) → Raises Inv (cartToJointNoRedundancy arm conv draws path scene n) e) ∧
    ((∀ Ts ∈ samples, Ts = []) → Returns Inv (cartToJointNoRedundancy arm conv draws path scene n)
      (path.map fun _ => .emptyList)) := by
  have key : ∀ (path : List PathPt) (samples : List (List M4)) (i : Nat) (Q : List (PyCol ℝ)),
      SamplesOf (fun j => draws (i + j)) n path samples →
      ((∃ Ts ∈ samples, Ts ≠ []) → Raises Inv (noRedundancyLoop arm scene conv draws n i path Q) e) ∧
      ((∀ Ts ∈ samples, Ts = []) → Returns Inv (noRedundancyLoop arm scene conv draws n i path Q)
        (Q ++ path.map fun _ => .emptyList)) := by
    intro path
    induction path with
    | nil =>
      intro samples i Q hs
      have : samples = [] := List.length_eq_zero_iff.1 hs.1
      subst this
      exact ⟨by simp, fun _ => by simpa [noRedundancyLoop] using Returns.pure (Inv := Inv) Q⟩
    | cons tp path ih =>
      intro samples i Q hs
      cases samples with
      | nil => exact absurd hs.1 (by simp)
      | cons Ts samples =>
        have hg := hs.2 0 tp Ts rfl rfl
        have ih := ih samples (i + 1) (Q ++ [.emptyList]) ⟨by simpa using hs.1,
          fun j tp' Ts' h1 h2 => by
            have := hs.2 (j + 1) tp' Ts' h1 h2
            simpa only [show i + (j + 1) = i + 1 + j by omega] using this⟩
        unfold noRedundancyLoop
        refine ⟨fun hex => ?_, fun hall => ?_⟩
        · refine Returns.bind_raises (Returns.lift hg) ?_
          by_cases hT : Ts = []
          · subst hT
            refine Returns.bind_raises (a := []) (Returns.pure _) ?_
            refine Returns.bind_raises (a := .emptyList) (Returns.lift rfl) ?_
            refine ih.1 ?_
            obtain ⟨Ts', h1, h2⟩ := hex
            rcases List.mem_cons.1 h1 with rfl | h1
            · exact absurd rfl h2
            · exact ⟨Ts', h1, h2⟩
          · exact Raises.bind (samplesLoop_raises h scene hT [])
        · have hT : Ts = [] := hall Ts (by simp)
          subst hT
          refine Returns.bind (Returns.lift hg) ?_
          refine Returns.bind (a := []) (Returns.pure _) ?_
          refine Returns.bind (a := .emptyList) (Returns.lift rfl) ?_
          simpa using ih.2 fun Ts h => hall Ts (by simp [h])
  have := key path samples 0 [] (by simpa using hs)
  rwa [List.nil_append] at this

theorem incremental_raises {arm : Arm W S} {e : Err} (h : ∀ T, Raises Inv (arm.ik T) e)
    (scene : Collection S) (conv : ℝ → ℝ) {draws : Nat → Nat → Draws} {tp : PathPt}
    (rest : List PathPt) {T : M4} {Ts : List M4}
    (hs : getSamples (draws 0 0) 1 none tp = .ok (T :: Ts)) (fuel : Nat) :
    Raises Inv (cartToJointIncremental arm conv draws (fuel + 1) (tp :: rest) scene) e := by
  unfold cartToJointIncremental incrementalPath
  refine Raises.bind ?_
  unfold incrementalLoop
  rw [if_pos (by norm_num)]
  refine Returns.bind_raises (Returns.lift hs) ?_
  refine Returns.bind_raises (a := T) (Returns.lift rfl) ?_
  exact Raises.bind (Raises.bind (h T))

theorem iterative_raises {arm : Arm W S} {e : Err} (h : ∀ T, Raises Inv (arm.ik T) e)
    (scene : Collection S) (pq : PQ C Config) (conv : ℝ → ℝ) {draws : Nat → Nat → Draws}
    (time : Nat → ℝ) (p : FreeOrientationPt) (ps : List FreeOrientationPt) {n : Nat}
    {T : M4} {Ts : List M4}
    (hs : getSamples (draws 0 0) n (some (Real.pi / 4)) (.free p) = .ok (T :: Ts)) (m : Nat) :
    Raises Inv (cartToJointIterative arm pq conv draws time ((p :: ps).map .free) scene n (m + 1)) e := by
  unfold cartToJointIterative
  refine Returns.bind_raises (Returns.lift (a := (p :: ps).map freshPt) (by
    rw [C63_partial]
    rfl)) ?_
  refine Raises.bind ?_
  unfold iterLoop
  refine Raises.bind ?_
  unfold iterRound
  refine Raises.bind ?_
  rw [List.map_cons]
  unfold iterColumns
  refine Returns.bind_raises (Returns.lift hs) ?_
  refine Raises.bind ?_
  unfold calcJointSolutions
  rw [if_neg (by simp)]
  refine Raises.bind ?_
  unfold jointLoop
  exact Raises.bind (h T)

/-! ### the planner that passes fixed joint values -/

theorem simple_raises {arm : Arm W S} {e : Err} (h : ∀ T qf, Raises Inv (arm.ikFixed T qf) e)
    (scene : Collection S) (conv : ℝ → ℝ) {draws : Nat → Draws} {tp : PathPt} (rest : List PathPt)
    {T : M4} {Ds : List Disc} (hs : discretise (draws 0) tp = .ok (.transform T :: Ds))
    {qFixed : List Config} (hq : qFixed ≠ []) :
    Raises Inv (cartToJointSimple arm conv draws (tp :: rest) scene qFixed) e := by
  unfold cartToJointSimple simpleLoop
  refine Returns.bind_raises (Returns.lift hs) ?_
  refine Raises.bind ?_
  unfold simpleSamples
  refine Raises.bind ?_
  cases qFixed with
  | nil => exact absurd rfl hq
  | cons qf qs => exact Raises.bind (h T qf)

theorem solve_raises {arm : Arm W S} {e : Err} (h : ∀ T, Raises Inv (arm.ik T) e)
    (t : PlanningTask S) {scene : Collection S} (ht : t.scene = some scene) (pq : PQ C Config)
    (conv : ℝ → ℝ) (draws : Nat → Nat → Draws) (time : Nat → ℝ) (fuel : Nat)
    (optimal : List PathPt → Collection S → Nat → List (List ℝ) → Run W O) :
    (∀ samples, SamplesOf (draws 0) t.gridSamples t.path samples → (∃ Ts ∈ samples, Ts ≠ []) →
      Raises Inv (PlanningTask.solve t arm pq conv draws time fuel optimal (some "grid")) e) ∧
    (∀ tp rest T Ts, t.path = tp :: rest → getSamples (draws 0 0) 1 none tp = .ok (T :: Ts) →
      0 < fuel →
      Raises Inv (PlanningTask.solve t arm pq conv draws time fuel optimal
        (some "grid_incremental")) e) ∧
    (∀ p ps T Ts, t.path = (p :: ps).map .free →
      getSamples (draws 0 0) t.gridSamples (some (Real.pi / 4)) (.free p) = .ok (T :: Ts) →
      0 < t.gridBasedIters →
      Raises Inv (PlanningTask.solve t arm pq conv draws time fuel optimal
        (some "grid_iterative")) e) := by
  have hsc : sceneOf t = .ok scene := by rw [sceneOf, ht]
  unfold PlanningTask.solve
  simp only [Option.getD_some]
  refine ⟨fun samples hs hex => ?_, fun tp rest T Ts hp hs hf => ?_, fun p ps T Ts hp hs hm => ?_⟩
  · rw [if_pos trivial]
    refine Returns.bind_raises (Returns.lift hsc) ?_
    exact Raises.bind ((noRedundancy_raises h scene conv hs).1 hex)
  · rw [if_neg (by simp), if_neg (by simp), if_neg (by simp), if_pos trivial]
    refine Returns.bind_raises (Returns.lift hsc) ?_
    refine Raises.bind ?_
    obtain ⟨f, rfl⟩ : ∃ f, fuel = f + 1 := ⟨fuel - 1, by omega⟩
    rw [hp]
    exact incremental_raises h scene conv rest hs f
  · rw [if_neg (by simp), if_pos trivial]
    refine Returns.bind_raises (Returns.lift hsc) ?_
    refine Raises.bind ?_
    obtain ⟨m, hm⟩ : ∃ m, t.gridBasedIters = m + 1 := ⟨t.gridBasedIters - 1, by omega⟩
    rw [hp, hm]
    exact iterative_raises h scene pq conv time p ps hs m

/-! ## C121 -/

/-- **C121**, KukaOnRail and `PlanningTask.solve`: as soon as there is a pose to solve, every grid
method raises TypeError, because `ik` is called without the position on the rail. -/
theorem C121_rail [Zeros] {Inv : RState × RState × Mem → Prop} (hit : Oracle Shape) (r : Rail)
    (t : PlanningTask Shape) {scene : Collection Shape} (ht : t.scene = some scene)
    (pq : PQ C Config) (conv : ℝ → ℝ) (draws : Nat → Nat → Draws) (time : Nat → ℝ) (fuel : Nat)
    (optimal : List PathPt → Collection Shape → Nat → List (List ℝ) →
      Run (RState × RState × Mem) O) :
    (∀ samples, SamplesOf (draws 0) t.gridSamples t.path samples → (∃ Ts ∈ samples, Ts ≠ []) →
      Raises Inv (PlanningTask.solve t (railArm hit r) pq conv draws time fuel optimal (some "grid"))
        (.py .typeError)) ∧
    (∀ tp rest T Ts, t.path = tp :: rest → getSamples (draws 0 0) 1 none tp = .ok (T :: Ts) →
      0 < fuel →
      Raises Inv (PlanningTask.solve t (railArm hit r) pq conv draws time fuel optimal
        (some "grid_incremental")) (.py .typeError)) ∧
    (∀ p ps T Ts, t.path = (p :: ps).map .free →
      getSamples (draws 0 0) t.gridSamples (some (Real.pi / 4)) (.free p) = .ok (T :: Ts) →
      0 < t.gridBasedIters →
      Raises Inv (PlanningTask.solve t (railArm hit r) pq conv draws time fuel optimal
        (some "grid_iterative")) (.py .typeError)) :=
  solve_raises (fun _ => Raises.raise _) t ht pq conv draws time fuel optimal

/-- **C121**, robots without inverse kinematics (PlanarArm, SphericalArm, Puma): as soon as there is a
pose to solve, every planner raises AttributeError. -/
theorem C121_no_ik {Inv : RState × Unit → Prop} (hit : Oracle Shape) (r : Robot Shape)
    (t : PlanningTask Shape) {scene : Collection Shape} (ht : t.scene = some scene)
    (pq : PQ C Config) (conv : ℝ → ℝ) (draws : Nat → Nat → Draws) (time : Nat → ℝ) (fuel : Nat)
    (optimal : List PathPt → Collection Shape → Nat → List (List ℝ) → Run (RState × Unit) O) :
    (∀ samples, SamplesOf (draws 0) t.gridSamples t.path samples → (∃ Ts ∈ samples, Ts ≠ []) →
      Raises Inv (PlanningTask.solve t (noIkArm hit r) pq conv draws time fuel optimal (some "grid"))
        (.py .attributeError)) ∧
    (∀ tp rest T Ts, t.path = tp :: rest → getSamples (draws 0 0) 1 none tp = .ok (T :: Ts) →
      0 < fuel →
      Raises Inv (PlanningTask.solve t (noIkArm hit r) pq conv draws time fuel optimal
        (some "grid_incremental")) (.py .attributeError)) ∧
    (∀ p ps T Ts, t.path = (p :: ps).map .free →
      getSamples (draws 0 0) t.gridSamples (some (Real.pi / 4)) (.free p) = .ok (T :: Ts) →
      0 < t.gridBasedIters →
      Raises Inv (PlanningTask.solve t (noIkArm hit r) pq conv draws time fuel optimal
        (some "grid_iterative")) (.py .attributeError)) ∧
    (∀ tp rest T Ds qFixed, t.path = tp :: rest →
      discretise (draws 0 0) tp = .ok (.transform T :: Ds) → qFixed ≠ [] →
      Raises Inv (cartToJointSimple (noIkArm hit r) conv (draws 0) t.path scene qFixed)
        (.py .attributeError)) := by
  obtain ⟨h1, h2, h3⟩ := solve_raises (Inv := Inv) (arm := noIkArm hit r)
    (fun _ => Raises.raise _) t ht pq conv draws time fuel optimal
  refine ⟨h1, h2, h3, fun tp rest T Ds qFixed hp hs hq => ?_⟩
  rw [hp]
  exact simple_raises (fun _ _ => Raises.raise _) scene conv rest hs hq

/-- **C121**, `cart_to_joint_simple` with a robot whose `ik` has only the argument for the pose: for
Arm2 and AnthropomorphicArm, and for SphericalWrist and Kuka, it raises TypeError as soon as there is a
pose and a value for the redundant joint. -/
theorem C121_fixed [Zeros] (hit : Oracle Shape) (scene : Collection Shape) (conv : ℝ → ℝ)
    {draws : Nat → Draws} {tp : PathPt} (rest : List PathPt) {T : M4} {Ds : List Disc}
    (hs : discretise (draws 0) tp = .ok (.transform T :: Ds)) {qFixed : List Config}
    (hq : qFixed ≠ []) :
    (∀ (Inv : RState × Unit → Prop) (r : Robot Shape) (ik : M4 → Option (List Config)),
      Raises Inv (cartToJointSimple (pureArm hit r ik) conv draws (tp :: rest) scene qFixed)
        (.py .typeError)) ∧
    (∀ (Inv : RState × Mem → Prop) (r : Robot Shape) (n : Nat),
      Raises Inv (cartToJointSimple (wristRef hit r n).toArm conv draws (tp :: rest) scene qFixed)
        (.py .typeError)) ∧
    (∀ (Inv : RState × RState × Mem → Prop) (k : Kuka),
      Raises Inv (cartToJointSimple (kukaRef hit k).toArm conv draws (tp :: rest) scene qFixed)
        (.py .typeError)) :=
  ⟨fun _ _ _ => simple_raises (fun _ _ => Raises.raise _) scene conv rest hs hq,
    fun _ _ _ => simple_raises (fun _ _ => Raises.raise _) scene conv rest hs hq,
    fun _ _ => simple_raises (fun _ _ => Raises.raise _) scene conv rest hs hq⟩

/-- **C121**, `cart_to_joint_simple` with a KukaOnRail: it raises ValueError at the first pose if the
first value for the redundant joint is not one number. -/
theorem C121_rail_width [Zeros] {Inv : RState × RState × Mem → Prop} (hit : Oracle Shape) (r : Rail)
    (scene : Collection Shape) (conv : ℝ → ℝ) {draws : Nat → Draws} {tp : PathPt} (rest : List PathPt)
    {T : M4} {Ds : List Disc} (hs : discretise (draws 0) tp = .ok (.transform T :: Ds)) {qf : Config}
    (hq : qf.length ≠ 1) (more : List Config) :
    Raises Inv (cartToJointSimple (railArm hit r) conv draws (tp :: rest) scene (qf :: more))
      (.py .valueError) := by
  have h : ∀ T, Raises Inv ((railArm hit r).ikFixed T qf) (.py .valueError) := by
    intro T w hw
    refine ⟨w, ?_⟩
    rcases qf with _ | ⟨x, _ | ⟨y, qf⟩⟩
    · simp [railArm]
    · simp at hq
    · simp [railArm]
  unfold cartToJointSimple simpleLoop
  refine Returns.bind_raises (Returns.lift hs) (Raises.bind ?_)
  unfold simpleSamples
  exact Raises.bind (Raises.bind (h T))

/-- C121: a pair instead of the position on the rail. -/
example [Zeros] (hit : Oracle Shape) (r : Rail) : ∃ tp : PathPt,
    Raises (fun _ => True) (cartToJointSimple (railArm hit r) id
      (fun _ => ⟨fun n => n, 0, fun _ => (0, 0, 0), none⟩) [tp] ⟨[], []⟩ [[1 / 2, 1]])
      (.py .valueError) := by
  obtain ⟨pt, T, -, -, h2, -⟩ := C47_no_tolerance 0 0
  refine ⟨.euler pt, C121_rail_width hit r _ id [] (T := T) (Ds := []) ?_ (by simp) []⟩
  show liftPy (pt.getSamples.map _) = _
  rw [h2]
  rfl

/-- C121: the hypotheses are met by a point without tolerance. -/
example [Zeros] (hit : Oracle Shape) (r : Rail) (k : Kuka) (pq : PQ (WithTop ℝ) Config) :
    ∃ tp : PathPt,
      Raises (fun _ => True) (PlanningTask.solve (O := Unit) (PlanningTask.new [tp] (some ⟨[], []⟩))
        (railArm hit r) pq id (fun _ _ => ⟨fun n => n, 0, fun _ => (0, 0, 0), none⟩) (fun _ => 0) 0
        (fun _ _ _ _ => pure ()) (some "grid")) (.py .typeError) ∧
      Raises (fun _ => True) (cartToJointSimple (kukaRef hit k).toArm id
        (fun _ => ⟨fun n => n, 0, fun _ => (0, 0, 0), none⟩) [tp] ⟨[], []⟩ [[1 / 2]])
        (.py .typeError) := by
  obtain ⟨pt, T, -, -, h2, -⟩ := C47_no_tolerance 0 0
  refine ⟨.euler pt, (C121_rail hit r _ rfl pq id _ _ 0 _).1 [[T]] ⟨rfl, fun i tp Ts h1 h4 => ?_⟩
    ⟨[T], List.mem_singleton.2 rfl, by simp⟩, (C121_fixed hit _ id [] (T := T) (Ds := []) ?_ (by simp)).2.2 _ k⟩
  · cases i with
    | zero =>
      cases h1
      cases h4
      show liftPy pt.getSamples = _
      rw [h2]
      rfl
    | succ i => simp [PlanningTask.new] at h1
  · show liftPy (pt.getSamples.map _) = _
    rw [h2]
    rfl

end

end Verif.Props
