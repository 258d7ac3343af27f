import Verif.Props.Solve

/-! # C150: the planners see the robot and the scene only through the answers -/

set_option linter.unusedSectionVars false

namespace Verif.Props

open Verif Verif.Path Verif.Geometry Verif.Kin Verif.ShortestPath Verif.Task Verif.CppGraph
  Verif.Search Verif.Planning Verif.Spec

noncomputable section

variable {W W' S S' α β : Type} {Inv : W → Prop} {Inv' : W' → Prop}

/-- From all states with `Inv` and `Inv'`, the two calls have the same outcome; if it is a value, the value
has `P` and the states keep `Inv` and `Inv'`. -/
def SameOutcome (Inv : W → Prop) (Inv' : W' → Prop) (P : α → Prop) (x : Run W α) (y : Run W' α) : Prop :=
  ∀ w w', Inv w → Inv' w' → (x w).1 = (y w').1 ∧
    ∀ a, (x w).1 = .ok a → P a ∧ Inv (x w).2 ∧ Inv' (y w').2

theorem SameOutcome.pure {P : α → Prop} {a : α} (h : P a) :
    SameOutcome Inv Inv' P (Pure.pure a : Run W α) (Pure.pure a : Run W' α) :=
  fun _ _ hw hw' => ⟨rfl, fun b hb => by cases hb; exact ⟨h, hw, hw'⟩⟩

theorem SameOutcome.lift {P : α → Prop} {x : Except Err α} (h : ∀ a, x = .ok a → P a) :
    SameOutcome Inv Inv' P (Run.lift x : Run W α) (Run.lift x : Run W' α) :=
  fun _ _ hw hw' => ⟨rfl, fun b hb => ⟨h b hb, hw, hw'⟩⟩

theorem SameOutcome.raise {P : α → Prop} (e : PyErr) :
    SameOutcome Inv Inv' P (Planning.raise e : Run W α) (Planning.raise e : Run W' α) :=
  SameOutcome.lift fun a h => by cases h

theorem SameOutcome.bind {P : α → Prop} {R : β → Prop} {x : Run W α} {y : Run W' α} {f : α → Run W β}
    {g : α → Run W' β} (hx : SameOutcome Inv Inv' P x y) (hf : ∀ a, P a → SameOutcome Inv Inv' R (f a) (g a)) :
    SameOutcome Inv Inv' R (x >>= f) (y >>= g) := by
  intro w w' hw hw'
  show (Run.bind x f w).1 = (Run.bind y g w').1 ∧ ∀ b, (Run.bind x f w).1 = .ok b → R b ∧
    Inv (Run.bind x f w).2 ∧ Inv' (Run.bind y g w').2
  obtain ⟨h1, h2⟩ := hx w w' hw hw'
  unfold Run.bind
  cases hc : x w with
  | mk o w1 =>
    cases hd : y w' with
    | mk o' w1' =>
      rw [hc, hd] at h1
      rw [hc, hd] at h2
      cases h1
      cases o with
      | error e => exact ⟨rfl, fun b hb => by cases hb⟩
      | ok a =>
        obtain ⟨h3, h4, h5⟩ := h2 a rfl
        exact hf a h3 w1 w1' h4 h5

theorem SameOutcome.mono {P R : α → Prop} {x : Run W α} {y : Run W' α} (h : SameOutcome Inv Inv' P x y)
    (hR : ∀ a, P a → R a) : SameOutcome Inv Inv' R x y := fun w w' hw hw' =>
  ⟨(h w w' hw hw').1, fun a ha => ⟨hR a ((h w w' hw hw').2 a ha).1, ((h w w' hw hw').2 a ha).2⟩⟩

theorem SameOutcome.of_returns {x : Run W α} {y : Run W' α} {a : α} (hx : Returns Inv x a)
    (hy : Returns Inv' y a) : SameOutcome Inv Inv' (· = a) x y := by
  intro w w' hw hw'
  obtain ⟨w1, h1, h2⟩ := hx w hw
  obtain ⟨w2, h3, h4⟩ := hy w' hw'
  rw [h1, h3]
  exact ⟨rfl, fun b hb => ⟨by cases hb; rfl, h2, h4⟩⟩

variable {arm : Arm W S} {arm' : Arm W' S'} {scene : Collection S} {scene' : Collection S'}
  {ikf : M4 → Option (List Config)} {hit : Config → Bool} {d : Nat} {fkf : Config → M4}
variable {C O : Type} [CostArith C] [JointArith ℝ C]

/-- All columns are rows of `d` numbers. -/
def Columns (d : Nat) (Q : List (PyCol ℝ)) : Prop :=
  ∀ c ∈ Q, ∃ m rows, c = .arr true m rows ∧ ∀ x ∈ rows, x.length = d

theorem noRedundancyLoop_agree (h : Determined arm scene Inv ikf hit d)
    (h' : Determined arm' scene' Inv' ikf hit d) (conv : ℝ → ℝ) (draws : Nat → Draws) (n : Nat) (i : Nat)
    (path : List PathPt) (Q : List (PyCol ℝ)) :
    SameOutcome Inv Inv' (fun _ => True) (noRedundancyLoop arm scene conv draws n i path Q)
      (noRedundancyLoop arm' scene' conv draws n i path Q) := by
  induction path generalizing i Q with
  | nil => exact SameOutcome.pure trivial
  | cons tp rest ih =>
    unfold noRedundancyLoop
    refine SameOutcome.bind (SameOutcome.lift (P := fun _ => True) fun _ _ => trivial) fun Ts _ => ?_
    refine SameOutcome.bind (SameOutcome.of_returns (samplesLoop_returns h Ts []) (samplesLoop_returns h' Ts []))
      fun qs _ => ?_
    exact SameOutcome.bind (SameOutcome.lift (P := fun _ => True) fun _ _ => trivial) fun c _ => ih _ _

theorem incrementalLoop_agree (h : Determined arm scene Inv ikf hit d)
    (h' : Determined arm' scene' Inv' ikf hit d) (draws : Nat → Draws) (tp : PathPt)
    (minSamples maxTries : Int) (fuel k : Nat) (cnt : Int) (qSol : List Config) :
    SameOutcome Inv Inv' (fun _ => True)
      (incrementalLoop arm scene draws tp minSamples maxTries fuel k cnt qSol)
      (incrementalLoop arm' scene' draws tp minSamples maxTries fuel k cnt qSol) := by
  induction fuel generalizing k cnt qSol with
  | zero =>
    unfold incrementalLoop
    by_cases hc : cnt < maxTries
    · rw [if_pos hc, if_pos hc]
      exact SameOutcome.raise _
    · rw [if_neg hc, if_neg hc]
      exact SameOutcome.pure trivial
  | succ fuel ih =>
    unfold incrementalLoop
    by_cases hc : cnt < maxTries
    · rw [if_pos hc, if_pos hc]
      refine SameOutcome.bind (SameOutcome.lift (P := fun _ => True) fun _ _ => trivial) fun Ts _ => ?_
      refine SameOutcome.bind (SameOutcome.lift (P := fun _ => True) fun _ _ => trivial) fun T _ => ?_
      refine SameOutcome.bind (SameOutcome.of_returns (round_returns h T) (round_returns h' T)) fun new _ => ?_
      by_cases hm : cnt + new.length ≥ minSamples
      · simp only [if_pos hm]
        exact SameOutcome.pure trivial
      · simp only [if_neg hm]
        exact ih _ _ _
    · rw [if_neg hc, if_neg hc]
      exact SameOutcome.pure trivial

theorem incrementalPath_agree (h : Determined arm scene Inv ikf hit d)
    (h' : Determined arm' scene' Inv' ikf hit d) (conv : ℝ → ℝ) (draws : Nat → Nat → Draws)
    (minSamples maxTries : Int) (fuel i : Nat) (path : List PathPt) (Q : List (PyCol ℝ)) :
    SameOutcome Inv Inv' (fun _ => True)
      (incrementalPath arm scene conv draws minSamples maxTries fuel i path Q)
      (incrementalPath arm' scene' conv draws minSamples maxTries fuel i path Q) := by
  induction path generalizing i Q with
  | nil => exact SameOutcome.pure trivial
  | cons tp rest ih =>
    unfold incrementalPath
    refine SameOutcome.bind (incrementalLoop_agree h h' _ _ _ _ _ _ _ _) fun qs _ => ?_
    exact SameOutcome.bind (SameOutcome.lift (P := fun _ => True) fun _ _ => trivial) fun c _ => ih _ _

theorem iterColumns_agree (h : Determined arm scene Inv ikf hit d)
    (h' : Determined arm' scene' Inv' ikf hit d) (conv : ℝ → ℝ) (draws : Nat → Draws) (n i : Nat)
    (pts : List SolPt) :
    SameOutcome Inv Inv' (Columns d) (iterColumns arm conv scene draws n i pts)
      (iterColumns arm' conv scene' draws n i pts) := by
  induction pts generalizing i with
  | nil => exact SameOutcome.pure fun c hc => absurd hc (by simp)
  | cons sp rest ih =>
    unfold iterColumns
    refine SameOutcome.bind (SameOutcome.lift (P := fun _ => True) fun _ _ => trivial) fun Ts _ => ?_
    refine SameOutcome.bind (SameOutcome.of_returns (calcJointSolutions_returns h conv Ts)
      (calcJointSolutions_returns h' conv Ts)) fun c hc => ?_
    refine SameOutcome.bind (ih (i + 1)) fun cs hcs => SameOutcome.pure fun c' hc' => ?_
    rcases List.mem_cons.1 hc' with rfl | hc'
    · refine ⟨_, _, hc, fun x hx => ?_⟩
      obtain ⟨q, hq, rfl⟩ := List.mem_map.1 hx
      rw [List.length_map]
      exact free_dof h q hq
    · exact hcs c' hc'

theorem resampleAll_agree (hfk : ∀ q, q.length = d → Returns Inv (arm.fk q) (fkf q))
    (hfk' : ∀ q, q.length = d → Returns Inv' (arm'.fk q) (fkf q)) (path : List Config)
    (hp : ∀ q ∈ path, q.length = d) (pts : List SolPt) :
    SameOutcome Inv Inv' (fun _ => True) (resampleAll arm path pts) (resampleAll arm' path pts) := by
  induction path generalizing pts with
  | nil =>
    unfold resampleAll
    exact SameOutcome.pure trivial
  | cons q qs ih =>
    cases pts with
    | nil =>
      unfold resampleAll
      exact SameOutcome.pure trivial
    | cons sp sps =>
      unfold resampleAll
      refine SameOutcome.bind (P := fun _ => True) ?_ fun sp' _ => ?_
      · unfold SolPt.resample
        refine SameOutcome.bind (SameOutcome.of_returns (hfk q (hp q (by simp))) (hfk' q (hp q (by simp))))
          fun T _ => ?_
        refine SameOutcome.bind (SameOutcome.lift (P := fun _ => True) fun _ _ => trivial) fun o _ => ?_
        exact SameOutcome.lift fun _ _ => trivial
      · exact SameOutcome.bind (ih (fun q hq => hp q (List.mem_cons_of_mem _ hq)) sps)
          fun _ _ => SameOutcome.pure trivial

theorem iterRound_agree (h : Determined arm scene Inv ikf hit d)
    (h' : Determined arm' scene' Inv' ikf hit d)
    (hfk : ∀ q, q.length = d → Returns Inv (arm.fk q) (fkf q))
    (hfk' : ∀ q, q.length = d → Returns Inv' (arm'.fk q) (fkf q)) (pq : PQ C Config) (conv : ℝ → ℝ)
    (draws : Nat → Draws) (n : Nat) (time : ℝ) (st : IterSt C) :
    SameOutcome Inv Inv' (fun _ => True) (iterRound arm pq conv scene draws n time st)
      (iterRound arm' pq conv scene' draws n time st) := by
  unfold iterRound
  refine SameOutcome.bind (iterColumns_agree h h' conv draws n 0 st.pts) fun Q hQ => ?_
  by_cases hne : ∀ c ∈ Q, c.rows.length ≠ 0
  swap
  · rw [if_neg hne, if_neg hne]
    exact SameOutcome.pure trivial
  rw [if_pos hne, if_pos hne]
  refine SameOutcome.bind (SameOutcome.lift (P := fun sol => getShortestPath pq conv Q .dijkstra none = .ok sol)
    fun a ha => ha) fun sol hsol => ?_
  by_cases hs : sol.success = true
  swap
  · rw [if_neg hs, if_neg hs]
    exact SameOutcome.pure trivial
  rw [if_pos hs, if_pos hs]
  obtain ⟨p, c, rfl, hsel⟩ := getShortestPath_selection (fun c hc => by
    obtain ⟨m, rows, rfl, -⟩ := hQ c hc
    trivial) hsol hs
  obtain ⟨-, hpsel⟩ := selection_get hsel
  refine SameOutcome.bind (resampleAll_agree hfk hfk' p (fun q hq => ?_) st.pts) fun pts _ =>
    SameOutcome.pure trivial
  obtain ⟨i, hi⟩ := List.mem_iff_getElem?.1 hq
  obtain ⟨col, hc, hm⟩ := hpsel i q hi
  rw [List.getElem?_map, Option.map_eq_some_iff] at hc
  obtain ⟨c', hc', rfl⟩ := hc
  obtain ⟨m, rows, rfl, hl⟩ := hQ c' (List.mem_of_getElem? hc')
  exact hl q hm

theorem iterLoop_agree (h : Determined arm scene Inv ikf hit d)
    (h' : Determined arm' scene' Inv' ikf hit d)
    (hfk : ∀ q, q.length = d → Returns Inv (arm.fk q) (fkf q))
    (hfk' : ∀ q, q.length = d → Returns Inv' (arm'.fk q) (fkf q)) (pq : PQ C Config) (conv : ℝ → ℝ)
    (draws : Nat → Nat → Draws) (n : Nat) (time : Nat → ℝ) (m k : Nat) (st : IterSt C) :
    SameOutcome Inv Inv' (fun _ => True) (iterLoop arm pq conv scene draws n time m k st)
      (iterLoop arm' pq conv scene' draws n time m k st) := by
  induction m generalizing k st with
  | zero => exact SameOutcome.pure trivial
  | succ m ih =>
    unfold iterLoop
    refine SameOutcome.bind (iterRound_agree h h' hfk hfk' pq conv _ n _ st) fun o _ => ?_
    cases o with
    | none => exact SameOutcome.pure trivial
    | some st => exact ih _ _

theorem iterative_agree (h : Determined arm scene Inv ikf hit d)
    (h' : Determined arm' scene' Inv' ikf hit d)
    (hfk : ∀ q, q.length = d → Returns Inv (arm.fk q) (fkf q))
    (hfk' : ∀ q, q.length = d → Returns Inv' (arm'.fk q) (fkf q)) (pq : PQ C Config) (conv : ℝ → ℝ)
    (draws : Nat → Nat → Draws) (time : Nat → ℝ) (path : List PathPt) (n maxIters : Nat) :
    SameOutcome Inv Inv' (fun _ => True) (cartToJointIterative arm pq conv draws time path scene n maxIters)
      (cartToJointIterative arm' pq conv draws time path scene' n maxIters) := by
  unfold cartToJointIterative
  refine SameOutcome.bind (SameOutcome.lift (P := fun _ => True) fun _ _ => trivial) fun pts _ => ?_
  refine SameOutcome.bind (iterLoop_agree h h' hfk hfk' pq conv draws n time _ _ _) fun o _ => ?_
  cases o with
  | none => exact SameOutcome.pure trivial
  | some st =>
    cases hs : st.sol with
    | none =>
      simp only [hs]
      exact SameOutcome.raise _
    | some sol =>
      simp only [hs]
      exact SameOutcome.pure trivial

theorem solve_sameOutcome (h : Determined arm scene Inv ikf hit d)
    (h' : Determined arm' scene' Inv' ikf hit d)
    (hfk : ∀ q, q.length = d → Returns Inv (arm.fk q) (fkf q))
    (hfk' : ∀ q, q.length = d → Returns Inv' (arm'.fk q) (fkf q)) (t : PlanningTask S)
    (t' : PlanningTask S') (ht : t.scene = some scene) (ht' : t'.scene = some scene')
    (hpath : t.path = t'.path) (hgrid : t.gridSamples = t'.gridSamples)
    (hiters : t.gridBasedIters = t'.gridBasedIters) (pq : PQ C Config)
    (conv : ℝ → ℝ) (draws : Nat → Nat → Draws) (time : Nat → ℝ) (fuel : Nat)
    (optimal : List PathPt → Collection S → Nat → List (List ℝ) → Run W O)
    (optimal' : List PathPt → Collection S' → Nat → List (List ℝ) → Run W' O) {method : String}
    (hm : method ≠ "optimization") :
    SameOutcome Inv Inv' (fun _ => True)
      (PlanningTask.solve t arm pq conv draws time fuel optimal (some method))
      (PlanningTask.solve t' arm' pq conv draws time fuel optimal' (some method)) := by
  have e : sceneOf t = .ok scene := by rw [sceneOf, ht]
  have e' : sceneOf t' = .ok scene' := by rw [sceneOf, ht']
  have hsc : ∀ {β : Type} {f : Collection S → Run W β} {g : Collection S' → Run W' β}
      {R : β → Prop}, SameOutcome Inv Inv' R (f scene) (g scene') →
      SameOutcome Inv Inv' R (Run.lift (sceneOf t) >>= f) (Run.lift (sceneOf t') >>= g) := by
    intro β f g R hfg
    rw [e, e']
    exact hfg
  unfold PlanningTask.solve
  simp only [Option.getD_some]
  by_cases h1 : method = "grid"
  · rw [if_pos h1, if_pos h1]
    refine hsc (SameOutcome.bind (P := fun _ => True) ?_ fun Q _ => ?_)
    · rw [hpath, hgrid]
      exact noRedundancyLoop_agree h h' conv _ _ _ _ _
    · exact SameOutcome.bind (SameOutcome.lift (P := fun _ => True) fun _ _ => trivial) fun _ _ => SameOutcome.pure trivial
  rw [if_neg h1, if_neg h1]
  by_cases h2 : method = "grid_iterative"
  · rw [if_pos h2, if_pos h2]
    refine hsc (SameOutcome.bind (P := fun _ => True) ?_ fun _ _ => SameOutcome.pure trivial)
    rw [hpath, hgrid, hiters]
    exact iterative_agree h h' hfk hfk' pq conv draws time _ _ _
  rw [if_neg h2, if_neg h2, if_neg hm, if_neg hm]
  by_cases h3 : method = "grid_incremental"
  · rw [if_pos h3, if_pos h3]
    refine hsc (SameOutcome.bind (P := fun _ => True) ?_ fun Q _ => ?_)
    · rw [hpath]
      exact incrementalPath_agree h h' conv _ _ _ _ _ _ _
    · exact SameOutcome.bind (SameOutcome.lift (P := fun _ => True) fun _ _ => trivial) fun _ _ => SameOutcome.pure trivial
  · rw [if_neg h3, if_neg h3]
    exact SameOutcome.raise _

/-- **C150**: let two robots, each in its own scene and after any earlier calls, give the same answers to
inverse kinematics, forward kinematics and the collision check.  Then a planning task has the same outcome
with both, by the grid planner, the incremental planner and the iterative planner: the same result, or the
same exception.  (The random numbers are the same on both sides.) -/
theorem C150 (h : Determined arm scene Inv ikf hit d) (h' : Determined arm' scene' Inv' ikf hit d)
    (hfk : ∀ q, q.length = d → Returns Inv (arm.fk q) (fkf q))
    (hfk' : ∀ q, q.length = d → Returns Inv' (arm'.fk q) (fkf q)) (t : PlanningTask S)
    (t' : PlanningTask S') (ht : t.scene = some scene) (ht' : t'.scene = some scene')
    (hpath : t.path = t'.path) (hgrid : t.gridSamples = t'.gridSamples)
    (hiters : t.gridBasedIters = t'.gridBasedIters) (pq : PQ C Config)
    (conv : ℝ → ℝ) (draws : Nat → Nat → Draws) (time : Nat → ℝ) (fuel : Nat)
    (optimal : List PathPt → Collection S → Nat → List (List ℝ) → Run W O)
    (optimal' : List PathPt → Collection S' → Nat → List (List ℝ) → Run W' O) {method : String}
    (hm : method ≠ "optimization") {w : W} {w' : W'} (hw : Inv w) (hw' : Inv' w') :
    (PlanningTask.solve t arm pq conv draws time fuel optimal (some method) w).1 =
      (PlanningTask.solve t' arm' pq conv draws time fuel optimal' (some method) w').1 := by
  exact (solve_sameOutcome h h' hfk hfk' t t' ht ht' hpath hgrid hiters pq conv draws time fuel optimal
    optimal' hm w w' hw hw').1

/-- **C150**, once more: after a planning task that ended without an exception, the same task with the same
robot has the same outcome again. -/
theorem C150_again (h : Determined arm scene Inv ikf hit d)
    (hfk : ∀ q, q.length = d → Returns Inv (arm.fk q) (fkf q)) (t : PlanningTask S)
    (ht : t.scene = some scene) (pq : PQ C Config) (conv : ℝ → ℝ) (draws : Nat → Nat → Draws)
    (time : Nat → ℝ) (fuel : Nat)
    (optimal : List PathPt → Collection S → Nat → List (List ℝ) → Run W O) {method : String}
    (hm : method ≠ "optimization") {w w1 : W} (hw : Inv w) {res : SolveRes C O}
    (hr : PlanningTask.solve t arm pq conv draws time fuel optimal (some method) w = (.ok res, w1)) :
    (PlanningTask.solve t arm pq conv draws time fuel optimal (some method) w1).1 = .ok res := by
  have hA := solve_sameOutcome h h hfk hfk t t ht ht rfl rfl rfl pq conv draws time fuel optimal optimal hm
  have h1 := ((hA w w hw hw).2 res (by rw [hr])).2.1
  rw [hr] at h1
  rw [← (hA w w1 hw h1).1, hr]

end

end Verif.Props
