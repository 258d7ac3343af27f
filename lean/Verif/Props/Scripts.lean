import Verif.Model.Tasks
import Verif.Props.Examples
import Verif.Props.Io

/-! # C117, C118: scripts that load a task, and the task files of the package -/

set_option linter.unusedSectionVars false

namespace Verif.Props

open Matrix Verif Verif.Path Verif.Geometry Verif.Kin Verif.ShortestPath Verif.Task Verif.CppGraph
  Verif.Search Verif.Planning Verif.Spec Verif.Util Verif.Resources Verif.Examples Verif.Io

noncomputable section

variable {W C S O : Type} [CostArith C] [JointArith ℝ C] {Inv : W → Prop} {arm : Arm W S}
  {scene : Collection S} {ikf : M4 → Option (List Config)} {hit : Config → Bool} {d : Nat}

/-! ## C61: exactly when the incremental planner ends -/

theorem incrementalLoop_short (h : Determined arm scene Inv ikf hit d) {draws : Nat → Draws}
    {tp : PathPt} {T : Nat → M4} (hT : FirstSample draws tp T) {minSamples maxTries : Int}
    (hmax : 0 < maxTries) (fuel k : Nat)
    (hnever : ∀ j, 1 ≤ j → j ≤ k + fuel →
      ¬ Enough minSamples maxTries (foundBy ikf hit T j).length) :
    Raises Inv (incrementalLoop arm scene draws tp minSamples maxTries fuel k
      (foundBy ikf hit T k).length (foundBy ikf hit T k)) (.py .outOfFuel) := by
  have hlt : ((foundBy ikf hit T k).length : Int) < maxTries := by
    by_cases h0 : k = 0
    · subst h0
      simpa [foundBy] using hmax
    · have := hnever k (by omega) (by omega)
      unfold Enough at this
      omega
  induction fuel generalizing k with
  | zero =>
    unfold incrementalLoop
    rw [if_pos hlt]
    exact Raises.raise _
  | succ fuel ih =>
    unfold incrementalLoop
    rw [if_pos hlt]
    obtain ⟨rest, hs⟩ := hT k
    refine Returns.bind_raises (Returns.lift hs) ?_
    refine Returns.bind_raises (a := T k) (Returns.lift rfl) ?_
    refine Returns.bind_raises (round_returns h (T k)) ?_
    simp only
    rw [← foundBy_succ]
    have hlen : ((foundBy ikf hit T k).length : Int) + ((freeAt ikf hit (T k)).length : Int) =
        ((foundBy ikf hit T (k + 1)).length : Int) := by
      rw [foundBy_succ, List.length_append, Nat.cast_add]
    have hn := hnever (k + 1) (by omega) (by omega)
    unfold Enough at hn
    rw [hlen, if_neg (by omega)]
    exact ih (k + 1) (fun j h1 h2 => hnever j h1 (by omega)) (by omega)

theorem incrementalPath_diverges (h : Determined arm scene Inv ikf hit d) (conv : ℝ → ℝ)
    {draws : Nat → Nat → Draws} {T : Nat → Nat → M4} {minSamples maxTries : Int}
    (hmax : 0 < maxTries) (fuel : Nat) (path : List PathPt) (i : Nat)
    (hT : ∀ j tp, path[j]? = some tp → FirstSample (draws (i + j)) tp (T (i + j)))
    (hno : ∃ j < path.length, ∀ k, 1 ≤ k → k ≤ fuel →
      ¬ Enough minSamples maxTries (foundBy ikf hit (T (i + j)) k).length) (Q : List (PyCol ℝ)) :
    Raises Inv (incrementalPath arm scene conv draws minSamples maxTries fuel i path Q)
      (.py .outOfFuel) := by
  induction path generalizing i Q with
  | nil =>
    obtain ⟨j, hj, -⟩ := hno
    simp at hj
  | cons tp path ih =>
    unfold incrementalPath
    have h0 : foundBy ikf hit (T (i + 0)) 0 = [] := rfl
    by_cases hex : ∃ K, 1 ≤ K ∧ K ≤ fuel ∧
        Enough minSamples maxTries (foundBy ikf hit (T (i + 0)) K).length
    · classical
      have hfind := Nat.find_spec hex
      have hleast : ∀ k, 1 ≤ k → k < Nat.find hex →
          ¬ Enough minSamples maxTries (foundBy ikf hit (T (i + 0)) k).length :=
        fun k h1 h2 h3 => Nat.find_min hex h2 ⟨h1, by omega, h3⟩
      generalize Nat.find hex = K at hfind hleast
      obtain ⟨k1, k2, k3⟩ := hfind
      have hr := incrementalLoop_returns h (hT 0 tp rfl) k3 hleast hmax fuel 0 (by omega) (by omega)
      rw [h0] at hr
      refine Returns.bind_raises hr ?_
      have hdof : ∀ q ∈ foundBy ikf hit (T (i + 0)) K, q.length = d := by
        intro q hq
        obtain ⟨k, _, sols, g1, g2, _⟩ := mem_foundBy.1 hq
        exact h.dof _ sols g1 q g2
      refine Returns.bind_raises (Returns.lift (column_ok conv hdof)) ?_
      refine ih (i + 1) (fun j tp' hj => by
        have := hT (j + 1) tp' hj
        rwa [show i + (j + 1) = i + 1 + j by omega] at this) ?_ _
      obtain ⟨j, hj, hn⟩ := hno
      cases j with
      | zero => exact absurd k3 (hn K k1 k2)
      | succ j =>
        refine ⟨j, by simpa using hj, ?_⟩
        rwa [show i + 1 + j = i + (j + 1) by omega]
    · push Not at hex
      have hr := incrementalLoop_short h (hT 0 tp rfl) (minSamples := minSamples) hmax fuel 0
        (fun j h1 h2 => hex j h1 (by omega))
      rw [h0] at hr
      exact Raises.bind hr

/-- **C61**, exactly when it ends.  When for every path point some number of rounds gives enough
collision-free solutions, there is a number of rounds that is enough: with as many the function
returns the solutions found in the first rounds that suffice, with fewer it is still running.  When
for some path point, not only the first, no number of rounds suffices, it never returns. -/
theorem C61_exact (h : Determined arm scene Inv ikf hit d) (conv : ℝ → ℝ)
    {draws : Nat → Nat → Draws} {path : List PathPt} {T : Nat → Nat → M4}
    {minSamples maxTries : Int} (hmax : 0 < maxTries)
    (hT : ∀ i tp, path[i]? = some tp → FirstSample (draws i) tp (T i)) :
    ((∀ i < path.length, ∃ k, 1 ≤ k ∧
        Enough minSamples maxTries (foundBy ikf hit (T i) k).length) →
      ∃ (N : Nat) (K : Nat → Nat), (∀ i < path.length,
          Enough minSamples maxTries (foundBy ikf hit (T i) (K i)).length ∧
          ∀ k, 1 ≤ k → k < K i → ¬ Enough minSamples maxTries (foundBy ikf hit (T i) k).length) ∧
        (∀ fuel ≥ N,
          Returns Inv (cartToJointIncremental arm conv draws fuel path scene minSamples maxTries)
            ((List.range path.length).map fun i => colOf conv d (foundBy ikf hit (T i) (K i)))) ∧
        ∀ fuel < N,
          Raises Inv (cartToJointIncremental arm conv draws fuel path scene minSamples maxTries)
            (.py .outOfFuel)) ∧
    ((∃ i < path.length, ∀ k, 1 ≤ k →
        ¬ Enough minSamples maxTries (foundBy ikf hit (T i) k).length) →
      ∀ fuel, Raises Inv
        (cartToJointIncremental arm conv draws fuel path scene minSamples maxTries)
        (.py .outOfFuel)) := by
  constructor
  · intro hex
    classical
    have : ∀ i, ∃ K, i < path.length → 1 ≤ K ∧
        Enough minSamples maxTries (foundBy ikf hit (T i) K).length ∧
        ∀ k, 1 ≤ k → k < K → ¬ Enough minSamples maxTries (foundBy ikf hit (T i) k).length := by
      intro i
      by_cases hi : i < path.length
      · exact ⟨Nat.find (hex i hi), fun _ => ⟨(Nat.find_spec (hex i hi)).1,
          (Nat.find_spec (hex i hi)).2, fun k h1 h2 h3 => Nat.find_min (hex i hi) h2 ⟨h1, h3⟩⟩⟩
      · exact ⟨0, fun h => absurd h hi⟩
    choose K hK using this
    refine ⟨(Finset.range path.length).sup K, K, fun i hi => (hK i hi).2, fun fuel hf => ?_,
      fun fuel hf => ?_⟩
    · have hr := incrementalPath_returns h conv hmax (minSamples := minSamples) (fuel := fuel) K path 0
        (by simpa using hT) (fun j hj => by
          rw [Nat.zero_add]
          obtain ⟨h1, h2, h3⟩ := hK j hj
          exact ⟨h1, le_trans (Finset.le_sup (Finset.mem_range.2 hj)) hf, h2, h3⟩) []
      simpa [cartToJointIncremental] using hr
    · obtain ⟨i, hi, hlt⟩ := (Finset.lt_sup_iff).1 hf
      refine incrementalPath_diverges h conv hmax fuel path 0 (by simpa using hT)
        ⟨i, Finset.mem_range.1 hi, fun k h1 h2 => ?_⟩ []
      rw [Nat.zero_add]
      exact (hK i (Finset.mem_range.1 hi)).2.2 k h1 (by omega)
  · intro hno fuel
    obtain ⟨i, hi, hn⟩ := hno
    exact incrementalPath_diverges h conv hmax fuel path 0 (by simpa using hT)
      ⟨i, hi, fun k h1 _ => by rw [Nat.zero_add]; exact hn k h1⟩ []

/-! ## C117: follow_line_orientation_free.py and weld_circle.py -/

theorem foundBy_free (T : Nat → M4) (K : Nat) :
    foundBy ikf hit T K = free ikf hit ((List.range K).map T) := by
  induction K with
  | zero => rfl
  | succ K ih =>
    rw [foundBy_succ, ih, List.range_succ, List.map_append, free, free, List.flatMap_append]
    simp [List.flatMap_singleton]

/-- The frame tried in round `k` for point `i` at position `p`: a random orientation. -/
def triedFrame (draws : Nat → Nat → Draws) (p : V3) (i k : Nat) : M4 :=
  freeFrame ((draws i k).rnd 0) p

/-- The collision-free solutions found in the first `k` rounds for point `i` at position `p`. -/
def foundAt (ikf : M4 → Option (List Config)) (hit : Config → Bool) (draws : Nat → Nat → Draws)
    (p : V3) (i k : Nat) : List Config := foundBy ikf hit (triedFrame draws p i) k

/-- A loaded task with free points solved by the incremental planner: the program ends, with a path
that has one configuration per point, exactly when every point gets fifty collision-free solutions in
some number of rounds. -/
theorem solveFile_run {arm : Arm W Shape} {data : TaskDict} {task task' : PlanningTask Shape}
    {scene : Collection Shape} {prepare : PlanningTask Shape → Except PyErr (PlanningTask Shape)}
    {m : Nat} (hm : 0 < m) (pos : Nat → V3) (hload : parseTaskData data = .ok task)
    (hprep : prepare task = .ok task')
    (hpath : task'.path = (List.range m).map fun i => .free (.new (pos i)))
    (hscene : task'.scene = some scene) (h : Determined arm scene Inv ikf hit d) {pq : PQ C Config}
    (hl : Lawful pq) (hno : PyGraph.NoOverflow C)
    (hfin : ∀ x y : Config, stepCost C (effWeights C d []) x y < ⊤) (conv : ℝ → ℝ)
    (draws : Nat → Nat → Draws) (time : Nat → ℝ)
    (optimal : List PathPt → Collection Shape → Nat → List (List ℝ) → Run W O) :
    ((∀ i < m, ∃ k, 50 ≤ (foundAt ikf hit draws (pos i) i k).length) →
      ∃ path : List Config, path.length = m ∧
        (∀ (i : Nat) (q : Config), path[i]? = some q → ∃ q' k,
          q' ∈ foundAt ikf hit draws (pos i) i k ∧ q = q'.map conv) ∧
        ∃ N : Nat, (∀ fuel ≥ N,
          Returns Inv (solveFile data prepare arm pq conv draws time fuel optimal) path) ∧
          ∀ fuel < N, Raises Inv (solveFile data prepare arm pq conv draws time fuel optimal)
            (.py .outOfFuel)) ∧
    ((∃ i < m, ∀ k, (foundAt ikf hit draws (pos i) i k).length < 50) →
      ∀ fuel, Raises Inv (solveFile data prepare arm pq conv draws time fuel optimal)
        (.py .outOfFuel)) := by
  have hlen : task'.path.length = m := by rw [hpath]; simp
  have hT : ∀ (i : Nat) (tp : PathPt), task'.path[i]? = some tp →
      FirstSample (draws i) tp (triedFrame draws (pos i) i) := by
    intro i tp hi k
    rw [hpath, List.getElem?_map, Option.map_eq_some_iff] at hi
    obtain ⟨i', hi', rfl⟩ := hi
    obtain ⟨hlt, he⟩ := List.getElem?_eq_some_iff.1 hi'
    rw [List.getElem_range] at he
    subst he
    exact ⟨[], free_samples _ _ _ _⟩
  obtain ⟨h1, h2⟩ := C61_exact h conv (minSamples := 50) (maxTries := 1000) (by norm_num) hT
  rw [hlen] at h1 h2
  have enough : ∀ n : Nat, Enough 50 1000 n ↔ 50 ≤ n := fun n => by unfold Enough; omega
  have hl1 : Returns Inv (Run.lift (liftPy (parseTaskData data)) : Run W _) task :=
    Returns.lift (by rw [hload]; rfl)
  have hl2 : Returns Inv (Run.lift (liftPy (prepare task)) : Run W _) task' :=
    Returns.lift (by rw [hprep]; rfl)
  have hraise : ∀ fuel, Raises Inv
      (cartToJointIncremental arm conv draws fuel task'.path scene 50 1000) (.py .outOfFuel) →
      Raises Inv (solveFile data prepare arm pq conv draws time fuel optimal) (.py .outOfFuel) := by
    intro fuel hf
    unfold solveFile
    refine Returns.bind_raises hl1 (Returns.bind_raises hl2 (Raises.bind ?_))
    unfold Planning.PlanningTask.solve
    simp only [Option.getD_some, String.reduceEq, if_false, if_true]
    refine Returns.bind_raises (a := scene) (Returns.lift (by rw [sceneOf, hscene])) ?_
    exact Raises.bind hf
  constructor
  · intro hall
    obtain ⟨N, K, g1, g2, g5⟩ := h1 fun i hi => by
      obtain ⟨k, hk⟩ := hall i hi
      refine ⟨k, ?_, (enough _).2 hk⟩
      rcases Nat.eq_zero_or_pos k with rfl | hk'
      · simp [foundAt, foundBy] at hk
      · exact hk'
    set samples := (List.range m).map fun (i : Nat) =>
      (List.range (K i)).map (triedFrame draws (pos i) i) with hs
    have hcols : ((List.range m).map fun i =>
        colOf conv d (foundBy ikf hit (triedFrame draws (pos i) i) (K i))) =
        samples.map fun Ts => colOf conv d (free ikf hit Ts) := by
      rw [hs, List.map_map]
      refine List.map_congr_left fun i _ => ?_
      rw [foundBy_free]
      rfl
    have hsl : samples.length = m := by simp [hs]
    have hget : ∀ (i : Nat) (Ts : List M4), samples[i]? = some Ts → i < m ∧
        Ts = (List.range (K i)).map (triedFrame draws (pos i) i) := by
      intro i Ts hi
      rw [hs, List.getElem?_map, Option.map_eq_some_iff] at hi
      obtain ⟨i', hi', rfl⟩ := hi
      obtain ⟨hlt, he⟩ := List.getElem?_eq_some_iff.1 hi'
      rw [List.getElem_range] at he
      rw [List.length_range] at hlt
      subst he
      exact ⟨hlt, rfl⟩
    obtain ⟨path, c, p1, p2, -, p3⟩ := search_columns h hl hno hfin conv (samples := samples)
      (fun he => by rw [he] at hsl; simp at hsl; omega) (fun Ts hTs => by
        obtain ⟨i, hi, rfl⟩ := List.getElem_of_mem hTs
        obtain ⟨hi', e⟩ := hget i _ (List.getElem?_eq_getElem hi)
        have := (enough _).1 (g1 i hi').1
        rw [foundBy_free, ← e] at this
        intro h0
        rw [h0] at this
        simp at this)
    refine ⟨path, by rw [p2, hsl], fun i q hi => ?_, N, fun fuel hf => ?_,
      fun fuel hf => hraise fuel (g5 fuel hf)⟩
    · obtain ⟨Ts, q', e1, e2, rfl⟩ := p3 i q hi
      refine ⟨q', K i, ?_, rfl⟩
      rw [foundAt, foundBy_free, ← (hget i Ts e1).2]
      exact e2
    · have g3 := g2 fuel hf
      rw [hcols] at g3
      have g4 := (C65_dispatch_partial task' hscene arm pq conv draws time fuel optimal (Inv := Inv)
        ).2.2.2.1 _ _ g3 p1
      exact Returns.bind hl1 (Returns.bind hl2 (Returns.bind g4 (Returns.lift rfl)))
  · rintro ⟨i, hi, hn⟩ fuel
    refine hraise fuel (h2 ⟨i, hi, fun k _ hk => ?_⟩ fuel)
    have := (enough _).1 hk
    have := hn k
    unfold foundAt at this
    omega

/-- The scene of boxes without rotation. -/
def uprightScene (bs : List (V3 × V3)) : Collection Shape where
  s := bs.map fun b => ⟨b.1 0, b.1 1, b.1 2⟩
  tfS := bs.map fun b => mkTf 1 b.2

theorem load_upright {d : TaskDict} (bs : List (V3 × V3))
    (hd : d.obstacles = some (bs.map fun b => boxEntry b.1 b.2)) :
    parseObstacles d = .ok (uprightScene bs) := by
  have := C56_obstacles (d := d) (l := bs.map fun b => (boxEntry b.1 b.2, b.1, b.2, 0))
    (by rw [hd, List.map_map]; rfl) (by
      intro b hb
      obtain ⟨c, hc, rfl⟩ := List.mem_map.1 hb
      exact ⟨rfl, rfl, rfl, by simp [boxEntry]⟩)
  rw [this, uprightScene]
  simp [List.map_map, Function.comp_def, rotX_zero, rotY_zero, rotZ_zero]

theorem load_freeLine {d : TaskDict} (a b : V3) (n : Nat) (hd : d.path = some (freeLine a b n)) :
    parsePath d = .ok ((List.range n).map fun i => .free (.new (onLine a b n i))) := by
  have h1 : parsePositions (freeLine a b n) = linspaceV a b n := rfl
  have h2 : parseTolerance (freeLine a b n) ((List.range n).map fun (i : Nat) =>
      a + ((i : ℝ) / ((n : ℝ) - 1)) • (b - a)) = .ok (createOrientationFreePath _) :=
    parseTolerance_free rfl _
  unfold parsePath
  simp only [hd, key, bind, Except.bind, h1, linspaceV_ok, h2, createOrientationFreePath, List.map_map]
  congr 1

/-- The positions on the line of line_orient_free.json. -/
def linePos (i : Nat) : V3 := onLine ![0.8, -0.2, 0.2] ![0.8, 0.2, 0.2] 10 i

/-- The positions in the passage of small_passage_2.json. -/
def passagePos (i : Nat) : V3 := onLine ![0.8, -0.1, 0] ![0.8, 0.1, 0] 15 i

/-- The box of line_orient_free.json. -/
def lineScene : Collection Shape := uprightScene [(![0.5, 0.5, 0.1], ![0.8, 0, 0.12])]

/-- The boxes of the passage with its middle at `(x, 0, 0)`. -/
def passageScene (x : ℝ) : Collection Shape := uprightScene
  [(![0.1, 0.03, 0.2], ![x - 0.0675, 0, 0]), (![0.1, 0.03, 0.2], ![x + 0.0675, 0, 0]),
   (![0.035, 0.03, 0.1], ![x, 0, 0.05])]

theorem load_lineOrientFree : parseTaskData lineOrientFree = .ok (PlanningTask.new
    ((List.range 10).map fun i => .free (.new (linePos i))) (some lineScene)) := by
  unfold parseTaskData
  rw [load_freeLine (d := lineOrientFree) ![0.8, -0.2, 0.2] ![0.8, 0.2, 0.2] 10 rfl,
    load_upright (d := lineOrientFree) [(![0.5, 0.5, 0.1], ![0.8, 0, 0.12])] rfl]
  rfl

theorem load_smallPassage2 : parseTaskData smallPassage2 = .ok (PlanningTask.new
    ((List.range 15).map fun i => .free (.new (passagePos i))) (some (passageScene 0.8))) := by
  unfold parseTaskData
  rw [load_freeLine (d := smallPassage2) ![0.8, -0.1, 0] ![0.8, 0.1, 0] 15 rfl,
    load_upright (d := smallPassage2) [(![0.1, 0.03, 0.2], ![0.8 - 0.0675, 0, 0]),
      (![0.1, 0.03, 0.2], ![0.8 + 0.0675, 0, 0]), (![0.035, 0.03, 0.1], ![0.8, 0, 0.05])] rfl]
  rfl

/-- **C117**: follow_line_orientation_free.py, for every robot with determined answers and all random
numbers.  It ends, with ten configurations, when each of its ten points gets fifty collision-free
solutions in some number of rounds; the `i`-th configuration is then the rounding of a collision-free
solution for a random orientation at point `i`.  It never ends when some point does not.  The initial
path and the number of iterations that the script sets do not matter. -/
theorem C117_line {arm : Arm W Shape} (h : Determined arm lineScene Inv ikf hit d)
    {pq : PQ C Config} (hl : Lawful pq) (hno : PyGraph.NoOverflow C)
    (hfin : ∀ x y : Config, stepCost C (effWeights C d []) x y < ⊤) (conv : ℝ → ℝ)
    (draws : Nat → Nat → Draws) (time : Nat → ℝ)
    (optimal : List PathPt → Collection Shape → Nat → List (List ℝ) → Run W O) :
    ((∀ i < 10, ∃ k, 50 ≤ (foundAt ikf hit draws (linePos i) i k).length) →
      ∃ path : List Config, path.length = 10 ∧
        (∀ (i : Nat) (q : Config), path[i]? = some q → ∃ q' k,
          q' ∈ foundAt ikf hit draws (linePos i) i k ∧ q = q'.map conv) ∧
        ∃ N : Nat, (∀ fuel ≥ N, Returns Inv (followLine arm pq conv draws time fuel optimal) path) ∧
          ∀ fuel < N, Raises Inv (followLine arm pq conv draws time fuel optimal) (.py .outOfFuel)) ∧
    ((∃ i < 10, ∀ k, (foundAt ikf hit draws (linePos i) i k).length < 50) →
      ∀ fuel, Raises Inv (followLine arm pq conv draws time fuel optimal) (.py .outOfFuel)) :=
  solveFile_run (by norm_num) linePos load_lineOrientFree rfl rfl rfl h hl hno hfin conv draws time
    optimal

/-- **C117**: weld_circle.py, which solves the small passage, with the same answers. -/
theorem C117_passage {arm : Arm W Shape} (h : Determined arm (passageScene 0.8) Inv ikf hit d)
    {pq : PQ C Config} (hl : Lawful pq) (hno : PyGraph.NoOverflow C)
    (hfin : ∀ x y : Config, stepCost C (effWeights C d []) x y < ⊤) (conv : ℝ → ℝ)
    (draws : Nat → Nat → Draws) (time : Nat → ℝ)
    (optimal : List PathPt → Collection Shape → Nat → List (List ℝ) → Run W O) :
    ((∀ i < 15, ∃ k, 50 ≤ (foundAt ikf hit draws (passagePos i) i k).length) →
      ∃ path : List Config, path.length = 15 ∧
        (∀ (i : Nat) (q : Config), path[i]? = some q → ∃ q' k,
          q' ∈ foundAt ikf hit draws (passagePos i) i k ∧ q = q'.map conv) ∧
        ∃ N : Nat, (∀ fuel ≥ N, Returns Inv (weldCircle arm pq conv draws time fuel optimal) path) ∧
          ∀ fuel < N, Raises Inv (weldCircle arm pq conv draws time fuel optimal) (.py .outOfFuel)) ∧
    ((∃ i < 15, ∀ k, (foundAt ikf hit draws (passagePos i) i k).length < 50) →
      ∀ fuel, Raises Inv (weldCircle arm pq conv draws time fuel optimal) (.py .outOfFuel)) :=
  solveFile_run (by norm_num) passagePos load_smallPassage2 rfl rfl rfl h hl hno hfin conv draws time
    optimal

theorem freeFrame_rigid {u : ℝ × ℝ × ℝ} (hu : InUnit u) (p : V3) : IsRigid (freeFrame u p) :=
  isRigid_mkTf.2 (Quat.rotationMatrix_isRot (quatOf_unit hu.1.1 hu.1.2 _ _))

/-- **C117** for the Kuka of follow_line_orientation_free.py, with any collision library and any earlier
use of the robot: in the configurations of a path with which the script ends, before rounding, neither
the scene nor another link is touched, and the tip is at point `i` unless the elbow is snapped or the
wrist stretched. -/
theorem C117_sound [Zeros] (hit : Oracle Shape) (n : Nat) {pq : PQ C Config} (hl : Lawful pq)
    (hno : PyGraph.NoOverflow C) (hfin : ∀ (w : List ℝ) (x y : Config), stepCost C w x y < ⊤)
    (conv : ℝ → ℝ) (draws : Nat → Nat → Draws) (hdr : ∀ i k, InUnit ((draws i k).rnd 0))
    (time : Nat → ℝ) (fuel : Nat)
    (optimal : List PathPt → Collection Shape → Nat → List (List ℝ) →
      Run (RState × RState × Mem) O)
    {w w' : RState × RState × Mem} (hw : KukaOK n w) {path : List Config}
    (hr : followLine (kukaRef hit (setup (Kuka.new 0.18 0.6 0.62 0.115 n) 1 none)).toArm pq conv draws
      time fuel optimal w = (.ok path, w')) :
    path.length = 10 ∧ ∀ (i : Nat) (q : Config), path[i]? = some q → ∃ q1 q2 q3 q4 q5 q6,
      q = [q1, q2, q3, q4, q5, q6].map conv ∧
      ¬ SceneTouch hit (setup (Kuka.new 0.18 0.6 0.62 0.115 n) 1 none).robot
        [q1, q2, q3, q4, q5, q6] lineScene ∧
      ¬ SelfTouch hit (setup (Kuka.new 0.18 0.6 0.62 0.115 n) 1 none).robot
        [q1, q2, q3, q4, q5, q6] ∧
      (Real.cos q3 ≠ 0 → Real.sin q5 ≠ 0 →
        FkSatisfies hit (setup (Kuka.new 0.18 0.6 0.62 0.115 n) 1 none).robot
          [q1, q2, q3, q4, q5, q6] fun T => posPart T = linePos i) := by
  have hdet := kuka_determined hit 0.18 0.6 0.62 0.115 n 1 none lineScene
  obtain ⟨h1, h2⟩ := C117_line hdet hl hno (fun x y => hfin _ x y) conv draws time optimal
  by_cases hall : ∀ i < 10, ∃ k, 50 ≤ (foundAt
      (kukaSols 0.18 0.6 0.62 (setup (Kuka.new 0.18 0.6 0.62 0.115 n) 1 none).robot)
      (touches hit (setup (Kuka.new 0.18 0.6 0.62 0.115 n) 1 none).robot lineScene) draws
      (linePos i) i k).length
  · obtain ⟨p, hlen, hp, N, g1, g2⟩ := h1 hall
    rcases Nat.lt_or_ge fuel N with hf | hf
    · obtain ⟨w'', hw''⟩ := g2 fuel hf w hw
      have hr' := hr.symm.trans hw''
      cases hr'
    · obtain ⟨w'', hw'', -⟩ := g1 fuel hf w hw
      have hr' := hr.symm.trans hw''
      cases hr'
      refine ⟨hlen, fun i q hi => ?_⟩
      obtain ⟨q', k, hq', rfl⟩ := hp i q hi
      obtain ⟨j, -, sols, e1, e2, e3⟩ := mem_foundBy.1 hq'
      obtain ⟨q1, q2, q3, q4, q5, q6, rfl, hf'⟩ := kukaSols_sound hit (by norm_num) n IsRigid.one
        none (by simp) (freeFrame_rigid (hdr i j) _) e1 e2
      obtain ⟨f1, f2⟩ := (touches_free hit
        (r := (setup (Kuka.new 0.18 0.6 0.62 0.115 n) 1 none).robot) rfl lineScene _).1 e3
      refine ⟨q1, q2, q3, q4, q5, q6, rfl, f1, f2, fun c3 s5 => ?_⟩
      intro hist hh
      obtain ⟨F, e, rfl⟩ := hf' c3 s5 hist hh
      exact ⟨_, e, posPart_mkTf _ _⟩
  · push Not at hall
    obtain ⟨w'', hw''⟩ := h2 hall fuel w hw
    have hr' := hr.symm.trans hw''
    cases hr'

/-- The hypotheses of C117_line can be met: an arm that reaches everything ends after fifty rounds. -/
example : ∃ path : List Config, path.length = 10 ∧ ∃ N : Nat, ∀ fuel ≥ N,
    Returns (fun _ => True) (followLine easyArm (stdHeap : PQ (WithTop ℝ) Config) id
      (fun _ _ => ⟨fun n => n, 0, fun _ => (0, 0, 0), none⟩) (fun _ => 0) fuel
      (fun _ _ _ _ => (pure () : Run Unit Unit))) path := by
  have hdet : Determined easyArm lineScene (fun _ => True) (fun _ => some [[0]]) (fun _ => false) 1 :=
    ⟨easyArm_determined.ik, easyArm_determined.dof, fun q _ => Returns.pure _⟩
  obtain ⟨path, h1, -, N, h2, -⟩ := (C117_line hdet stdHeapLawful noOverflow_real (stepCost_real _) id
    (fun _ _ => ⟨fun n => n, 0, fun _ => (0, 0, 0), none⟩) (fun _ => 0)
    (fun _ _ _ _ => (pure () : Run Unit Unit))).1 (fun i _ => ⟨50, by
      simp [foundAt, foundBy, List.length_flatMap]⟩)
  exact ⟨path, h1, N, h2⟩

/-! ## C118: the paths of the task files and the obstacles of the same file -/

theorem mem_upright (bs : List (V3 × V3)) (i : Nat) (x : V3) :
    x ∈ wallPoints (uprightScene bs) i ↔ ∃ b, bs[i]? = some b ∧ ∀ j, |x j - b.2 j| ≤ b.1 j / 2 := by
  have hact : ∀ (p u : V3), act (mkTf 1 p) u = u + p := fun p u => by
    rw [act_mkTf, Matrix.one_mulVec]
  have h3 : ∀ P : Fin 3 → Prop, (∀ j, P j) ↔ P 0 ∧ P 1 ∧ P 2 := fun P =>
    ⟨fun h => ⟨h 0, h 1, h 2⟩, fun ⟨a, b, c⟩ j => by fin_cases j <;> assumption⟩
  constructor
  · rintro ⟨s, T, hs, hT, hx⟩
    simp only [uprightScene, List.getElem?_map, Option.map_eq_some_iff] at hs hT
    obtain ⟨b, hb, rfl⟩ := hs
    obtain ⟨b', hb', rfl⟩ := hT
    rw [hb] at hb'
    cases hb'
    exact ⟨b, hb, (h3 _).2 ((mem_translated (hact _) _ _).1 hx)⟩
  · rintro ⟨b, hb, hx⟩
    refine ⟨_, _, by simp [uprightScene, hb]; rfl, by simp [uprightScene, hb]; rfl, ?_⟩
    exact (mem_translated (hact _) _ _).2 ((h3 _).1 hx)

theorem forall₂_get {α β : Type} {R : α → β → Prop} {l : List α} {m : List β}
    (h : List.Forall₂ R l m) {k : Nat} {b : β} (hb : m[k]? = some b) : ∃ a, l[k]? = some a ∧ R a b := by
  induction h generalizing k with
  | nil => simp at hb
  | cons hr _ ih =>
    match k with
    | 0 => simp at hb; subst hb; exact ⟨_, rfl, hr⟩
    | k + 1 => simpa using ih (by simpa using hb)

/-- The nominal position of a point with free orientation or with tolerance on the position is `p`. -/
def Placed (pt : PathPt) (p : V3) : Prop := pt = .free (FreeOrientationPt.new p) ∨
  ∃ t : TolPositionPt, pt = .position t ∧ t.posNom = [p 0, p 1, p 2]

/-- What one expects of a task file: it can be loaded and no point of its path lies in an obstacle. -/
def ClearTask (d : TaskDict) : Prop := ∃ task scene, parseTaskData d = .ok task ∧
  task.scene = some scene ∧ ∀ pt ∈ task.path, ∃ p, Placed pt p ∧ ∀ i, p ∉ wallPoints scene i

/-- The full property: it holds of the five task files of /examples. -/
def C118_statement : Prop := ∀ d ∈ [lineOrientFree, lineXTol, smallPassage1, smallPassage2,
  weldCircleTask], ClearTask d

/-- The passage through the gate at `(x, 0, 0)`. -/
def gatePos (x : ℝ) (i : Nat) : V3 := onLine ![x, -0.1, 0] ![x, 0.1, 0] 15 i

theorem gatePos_eq (x : ℝ) (i : Nat) : gatePos x i = ![x, -0.1 + i / 14 * 0.2, 0] := by
  ext j
  fin_cases j <;> simp [gatePos, onLine]
  norm_num

/-- **C118**, the gate exactly: the space between the posts below the lintel is 35 mm wide; a point
above the ground with less than half of that to the middle, and between the two faces, is in the lintel
exactly when its height is between 0 and 10 cm. -/
theorem C118_gate (x : ℝ) (v : V3) (h0 : |v 0| < 0.0175) :
    (∃ j, ![x, 0, 0] + v ∈ wallPoints (passageScene x) j) ↔
      |v 1| ≤ 0.015 ∧ 0 ≤ v 2 ∧ v 2 ≤ 0.1 := by
  rw [abs_lt] at h0
  have h3 : ∀ P : Fin 3 → Prop, (∀ j, P j) ↔ P 0 ∧ P 1 ∧ P 2 := fun P =>
    ⟨fun h => ⟨h 0, h 1, h 2⟩, fun ⟨a, b, c⟩ j => by fin_cases j <;> assumption⟩
  constructor
  · rintro ⟨j, hj⟩
    obtain ⟨b, hb, hx⟩ := (mem_upright _ _ _).1 hj
    rw [h3] at hx
    obtain ⟨a0, a1, a2⟩ := hx
    match j, hb with
    | 0, hb =>
      cases hb
      simp [abs_le] at a0
      obtain ⟨a0, a0'⟩ := a0
      exfalso
      linarith
    | 1, hb =>
      cases hb
      simp [abs_le] at a0
      obtain ⟨a0, a0'⟩ := a0
      exfalso
      linarith
    | 2, hb =>
      cases hb
      simp [abs_le] at a1 a2
      obtain ⟨b0, b1⟩ := a1
      obtain ⟨c0, c1⟩ := a2
      refine ⟨abs_le.2 ⟨?_, ?_⟩, ?_, ?_⟩ <;> linarith
    | j + 3, hb => simp at hb
  · rintro ⟨h1, h2, h3'⟩
    refine ⟨2, (mem_upright _ _ _).2 ⟨_, rfl, (h3 _).2 ⟨?_, ?_, ?_⟩⟩⟩
    · simp [abs_le]
      constructor <;> linarith
    · rw [abs_le] at h1 ⊢
      obtain ⟨b0, b1⟩ := h1
      simp
      constructor <;> linarith
    · simp [abs_le]
      constructor <;> linarith

/-- **C118**, the paths through the gate: of the fifteen points exactly the three in the middle lie in
an obstacle, namely in the lower face of the lintel; below them there is nothing. -/
theorem C118_passage (x : ℝ) (i : Nat) (hi : i < 15) :
    ((∃ j, gatePos x i ∈ wallPoints (passageScene x) j) ↔ i = 6 ∨ i = 7 ∨ i = 8) ∧
    ∀ ε > 0, ∀ j, gatePos x i - ![0, 0, ε] ∉ wallPoints (passageScene x) j := by
  have e : gatePos x i = ![x, 0, 0] + ![0, -0.1 + (i : ℝ) / 14 * 0.2, 0] := by
    rw [gatePos_eq]
    ext j
    fin_cases j <;> simp
  constructor
  · rw [e, C118_gate x _ (by norm_num)]
    simp only [Matrix.cons_val, le_refl, true_and]
    rw [abs_le]
    constructor
    · rintro ⟨⟨h1, h2⟩, -⟩
      have h3 : (5 : ℝ) < i := by linarith
      have h4 : (i : ℝ) < 9 := by linarith
      have h5 : 5 < i := by exact_mod_cast h3
      have h6 : i < 9 := by exact_mod_cast h4
      omega
    · rintro (rfl | rfl | rfl) <;> norm_num
  · intro ε hε j hj
    have e' : gatePos x i - ![0, 0, ε] = ![x, 0, 0] + ![0, -0.1 + (i : ℝ) / 14 * 0.2, -ε] := by
      rw [gatePos_eq]
      ext j
      fin_cases j <;> simp
    rw [e'] at hj
    have := ((C118_gate x _ (by norm_num)).1 ⟨j, hj⟩).2.1
    simp only [Matrix.cons_val] at this
    linarith

theorem load_gate {d : TaskDict} (x : ℝ)
    (hp : d.path = some (freeLine ![x, -0.1, 0] ![x, 0.1, 0] 15))
    (ho : d.obstacles = some (passageEntries x)) : parseTaskData d = .ok (PlanningTask.new
      ((List.range 15).map fun i => .free (.new (gatePos x i))) (some (passageScene x))) := by
  unfold parseTaskData
  rw [load_freeLine (d := d) ![x, -0.1, 0] ![x, 0.1, 0] 15 hp,
    load_upright (d := d) [(![0.1, 0.03, 0.2], ![x - 0.0675, 0, 0]),
      (![0.1, 0.03, 0.2], ![x + 0.0675, 0, 0]), (![0.035, 0.03, 0.1], ![x, 0, 0.05])] ho]
  rfl

/-- C118 is false of small_passage.json and small_passage_2.json. -/
theorem C118_refuted : ¬ C118_statement ∧ ¬ ClearTask smallPassage1 ∧ ¬ ClearTask smallPassage2 := by
  have key : ∀ (d : TaskDict) (x : ℝ), d.path = some (freeLine ![x, -0.1, 0] ![x, 0.1, 0] 15) →
      d.obstacles = some (passageEntries x) → ¬ ClearTask d := by
    rintro d x hp ho ⟨task, scene, h1, h2, h3⟩
    rw [load_gate x hp ho] at h1
    cases h1
    cases h2
    obtain ⟨p, hpl, hno⟩ := h3 (.free (.new (gatePos x 7)))
      (List.mem_map.2 ⟨7, List.mem_range.2 (by norm_num), rfl⟩)
    rcases hpl with he | ⟨t, he, -⟩
    · have : gatePos x 7 = p := by
        injection he with he
        injection he
      subst this
      obtain ⟨j, hj⟩ := (C118_passage x 7 (by norm_num)).1.2 (by norm_num)
      exact hno j hj
    · cases he
  refine ⟨fun h => key smallPassage2 0.8 rfl rfl (h _ (by simp)), key _ 0 rfl rfl, key _ 0.8 rfl rfl⟩

/-- **C118**, what holds: line_orient_free.json, line_x_tol.json and weld_circle.json can be loaded and
every nominal position of their paths keeps 2 cm distance from all obstacles; for small_passage.json and
small_passage_2.json see C118_passage. -/
theorem C118_partial : ∀ d ∈ [lineOrientFree, lineXTol, weldCircleTask],
    ∃ task scene, parseTaskData d = .ok task ∧ task.scene = some scene ∧ 10 ≤ task.path.length ∧
      ∀ pt ∈ task.path, ∃ p, Placed pt p ∧ ClearBy2cm scene p := by
  have clear : ∀ (c : V3) (z : ℝ), c 2 + 0.05 + 0.02 ≤ z → ∀ p : V3, p 2 = z →
      ClearBy2cm (uprightScene [(![0.5, 0.5, 0.1], c)]) p := by
    intro c z hz p hp v hv i hi
    obtain ⟨b, hb, hx⟩ := (mem_upright _ _ _).1 hi
    match i, hb with
    | 0, hb =>
      cases hb
      have h2 := hx 2
      have hv2 := hv 2
      simp only [Pi.add_apply, hp, Matrix.cons_val, abs_le, abs_lt] at h2 hv2
      linarith [h2.2, hv2.1]
    | i + 1, hb => simp at hb
  intro d hd
  simp only [List.mem_cons, List.not_mem_nil, or_false] at hd
  rcases hd with rfl | rfl | rfl
  · refine ⟨_, _, load_lineOrientFree, rfl, by simp [PlanningTask.new], fun pt hpt => ?_⟩
    obtain ⟨i, -, rfl⟩ := List.mem_map.1 hpt
    refine ⟨_, Or.inl rfl, clear _ 0.2 (by simp only [Matrix.cons_val]; norm_num) _ ?_⟩
    simp [linePos, onLine]
  · have hpos : Positions (Option.getD lineXTol.path {}) 10 _ :=
      Or.inl ⟨_, _, _, rfl, rfl, rfl, rfl, rfl, linspaceV_ok ![0.8, -0.2, 0.2] ![0.8, 0.2, 0.2] 10⟩
    obtain ⟨pts, g1, g2, g3⟩ := (C56_path (d := lineXTol) rfl hpos).2.1 _ 0 ![0.2, 0, 0] rfl rfl rfl rfl
    have hobs := load_upright (d := lineXTol) [(![0.5, 0.5, 0.1], ![0.8, 0, 0.12])] rfl
    refine ⟨PlanningTask.new pts (some (uprightScene [(![0.5, 0.5, 0.1], ![0.8, 0, 0.12])])), _, ?_, rfl, g2.ge, fun pt hpt => ?_⟩
    · unfold parseTaskData
      rw [g1, hobs]
      rfl
    · obtain ⟨k, hk⟩ := List.mem_iff_getElem?.1 hpt
      obtain ⟨p, hp, t, ht, ht'⟩ := forall₂_get g3 hk
      refine ⟨p, Or.inr ⟨t, ht, ht'⟩, clear _ 0.2 (by simp only [Matrix.cons_val]; norm_num) _ ?_⟩
      obtain ⟨i, -, rfl⟩ := List.mem_map.1 (List.mem_of_getElem? hp)
      simp
  · obtain ⟨ps, c1, c2, c3, -⟩ := C53 (axis := ![0, 0, 1]) (by intro h; simpa using congrFun h 2)
      ![0.8, 0, 0.1] ![0.6, 0, 0.1] 15
    have hpos : Positions circleEntry 15 ps :=
      Or.inr ⟨_, _, _, rfl, rfl, rfl, rfl, rfl, c1⟩
    obtain ⟨pts, g1, g2, g3⟩ := (C56_path (d := weldCircleTask) rfl hpos).1 rfl
    have hobs := load_upright (d := weldCircleTask) [(![0.5, 0.5, 0.1], ![0.8, 0, 0.02])] rfl
    refine ⟨PlanningTask.new pts (some (uprightScene [(![0.5, 0.5, 0.1], ![0.8, 0, 0.02])])), _, ?_, rfl, (by rw [PlanningTask.new, g2]; norm_num),
      fun pt hpt => ?_⟩
    · unfold parseTaskData
      rw [g1, hobs]
      rfl
    · obtain ⟨k, hk⟩ := List.mem_iff_getElem?.1 hpt
      obtain ⟨p, hp, ht⟩ := forall₂_get g3 hk
      refine ⟨p, Or.inl ht, clear _ 0.1 (by simp only [Matrix.cons_val]; norm_num) _ ?_⟩
      have := (c3 p (List.mem_of_getElem? hp)).2
      simp [dotProduct, Fin.sum_univ_three] at this
      linarith

/-- **C115**, the scene: a table of 50 × 50 × 10 cm with its top 5 cm above the ground, and the five
points are above the table, 15 cm higher than its top. -/
theorem C115_scene : (∀ x : V3, (∃ i, x ∈ wallPoints toolFirstScene i) ↔
      |x 0 - 0.8| ≤ 0.25 ∧ |x 1| ≤ 0.25 ∧ |x 2| ≤ 0.05) ∧
    toolFirstPath = .ok ((List.range 5).map fun i => .free (.new (linePoint i))) ∧
    ∀ i < 5, linePoint i 0 = 0.8 ∧ |linePoint i 1| ≤ 0.2 ∧ linePoint i 2 = 0.2 := by
  refine ⟨fun x => ?_, toolFirst_path, fun i hi => ?_⟩
  · have hact : ∀ u, act (poseX 0 0.8 0 0) u = u + ![0.8, 0, 0] := fun u => by
      rw [poseX, ← act_shift]
      simp
    constructor
    · rintro ⟨i, s, T, hs, hT, hx⟩
      match i, hs, hT with
      | 0, hs, hT =>
        cases hs
        cases hT
        have := (mem_translated hact _ _).1 hx
        simp only [Matrix.cons_val] at this
        norm_num at this ⊢
        exact this
      | i + 1, hs, _ => simp [toolFirstScene] at hs
    · intro hx
      refine ⟨0, _, _, rfl, rfl, (mem_translated hact _ _).2 ?_⟩
      simp only [Matrix.cons_val]
      norm_num at hx ⊢
      exact hx
  · have h : (i : ℝ) ≤ 4 := by exact_mod_cast (by omega : i ≤ 4)
    have h0 : (0 : ℝ) ≤ i := by positivity
    refine ⟨by simp [linePoint], ?_, by simp [linePoint]⟩
    rw [abs_le]
    constructor <;> simp [linePoint] <;> linarith

/-! ## C119: the angles in the task files of the editor -/

/-- The angles of a start pose as they are meant: in degrees when one of them is beyond ±10, and
otherwise in radians. -/
def AnglesMeant (rpy r : V3) : Prop :=
  ((∃ i, 10 < |rpy i|) → ∀ i, r i = rpy i * Real.pi / 180) ∧ ((∀ i, |rpy i| ≤ 10) → ∀ i, r i = rpy i)

/-- The line with these angles is loaded and all its points have the angles that are meant. -/
def ReadAsMeant (pd : PathDict) : Prop := ∀ sp (rpy : V3), pd.tolerance = some "euler_tolerance" →
  pd.startPose = some sp → sp.rpy = some [rpy 0, rpy 1, rpy 2] →
  ∃ pts, parsePath { path := some pd, obstacles := none } = .ok pts ∧ pts ≠ [] ∧
    ∀ pt ∈ pts, ∃ (e : TolEulerPt) (p r : V3), pt = .euler e ∧
      e.pNominal = [p 0, p 1, p 2, r 0, r 1, r 2] ∧ AnglesMeant rpy r

/-- The full property: it holds of all lines in the task files of the editor. -/
def C119_statement : Prop := ∀ pd ∈ tasksSmallPassage ++ tasksCircle ++ tasksPathInBox ++
  tasksTorchObstacle ++ tasksIndustrial1, ReadAsMeant pd

theorem load_eulerLine (a b rpy tol : V3) (n : Nat) :
    ∃ pts, parsePath { path := some (eulerLine a b rpy tol n), obstacles := none } = .ok pts ∧
      pts.length = n ∧ ∀ (k : Nat) pt, pts[k]? = some pt → ∃ e : TolEulerPt, pt = .euler e ∧
        e.pNominal = [onLine a b n k 0, onLine a b n k 1, onLine a b n k 2, guessAngleUnit (rpy 0),
          guessAngleUnit (rpy 1), guessAngleUnit (rpy 2)] := by
  have hpos : parsePositions (eulerLine a b rpy tol n) = _ := linspaceV_ok a b n
  obtain ⟨pts, g1, g2⟩ := C54_euler ((List.range n).map fun (i : Nat) =>
    a + ((i : ℝ) / ((n : ℝ) - 1)) • (b - a)) (rpy := rpy) (tol := tol)
    (r := fun i => guessAngleUnit (rpy i)) (t := fun i => guessAngleUnit (tol i))
    (fun i => guess_understood _) (fun i => guess_understood _)
  refine ⟨pts, ?_, by rw [← g2.length_eq]; simp, fun k pt hk => ?_⟩
  · unfold parsePath
    simp only [key, bind, Except.bind, hpos]
    rw [parseTolerance_euler (pd := eulerLine a b rpy tol n) rfl rfl rfl rfl]
    exact g1
  · obtain ⟨p, hp, e, he, -, -, hn⟩ := forall₂_get g2 hk
    refine ⟨e, he, ?_⟩
    rw [hn]
    rw [List.getElem?_map] at hp
    obtain ⟨i, hi, rfl⟩ := Option.map_eq_some_iff.1 hp
    have : i = k := by
      obtain ⟨h1, h2⟩ := List.getElem?_eq_some_iff.1 hi
      simpa using h2.symm
    subst this
    rfl

/-- **C119**, exactly when: the line is read as it is meant iff all its angles are within ±10, or one is
beyond and each of them is 0 or more than 10. -/
theorem C119_iff (a b rpy tol : V3) {n : Nat} (hn : 0 < n) : ReadAsMeant (eulerLine a b rpy tol n) ↔
    (∀ i, |rpy i| ≤ 10) ∨ ∀ i, 10 < rpy i ∨ rpy i = 0 := by
  obtain ⟨pts, h1, h2, h3⟩ := load_eulerLine a b rpy tol n
  constructor
  · intro h
    obtain ⟨pts', g1, g2, g3⟩ := h _ rpy rfl rfl rfl
    rw [h1] at g1
    cases g1
    obtain ⟨pt, hpt⟩ : ∃ pt, pts[0]? = some pt := ⟨pts[0], List.getElem?_eq_getElem (by omega)⟩
    obtain ⟨e, p, r, rfl, hn1, hm1, hm2⟩ := g3 pt (List.mem_of_getElem? hpt)
    obtain ⟨e', he, hn2⟩ := h3 0 _ hpt
    cases he
    rw [hn1] at hn2
    simp only [List.cons.injEq, and_true] at hn2
    obtain ⟨-, -, -, r0, r1, r2⟩ := hn2
    have hr : ∀ i, r i = guessAngleUnit (rpy i) := fun i => by fin_cases i <;> assumption
    by_cases hb : ∀ i, |rpy i| ≤ 10
    · exact .inl hb
    · right
      push Not at hb
      intro i
      rw [← C55_iff, ← hr]
      exact hm1 hb i
  · intro h sp rpy' _ hs hr
    cases hs
    simp only [Option.some.injEq, List.cons.injEq, and_true] at hr
    have hr : rpy' = rpy := by
      obtain ⟨a0, a1, a2⟩ := hr
      ext i
      fin_cases i
      exacts [a0.symm, a1.symm, a2.symm]
    subst hr
    refine ⟨pts, h1, fun h0 => by rw [h0] at h2; simp at h2; omega, fun pt hpt => ?_⟩
    obtain ⟨k, hk⟩ := List.mem_iff_getElem?.1 hpt
    obtain ⟨e, he, hne⟩ := h3 k pt hk
    refine ⟨e, onLine a b n k, fun i => guessAngleUnit (rpy' i), he, hne, ?_, ?_⟩
    · rintro ⟨j, hj⟩ i
      rcases h with h | h
      · exact absurd (h j) (not_le.2 hj)
      · exact (C55_iff _).2 (h i)
    · intro hle i
      exact (guess_understood _).2 (le_trans (le_abs_self _) (hle i))

/-- The angles of the retraction of industrial_1.json. -/
theorem retract_angles : ¬ ((∀ i, |(![135, -20, 0] : V3) i| ≤ 10) ∨
    ∀ i, 10 < (![135, -20, 0] : V3) i ∨ (![135, -20, 0] : V3) i = 0) := by
  rintro (h | h)
  · have := h 0
    norm_num at this
  · have := h 1
    norm_num at this

/-- C119 is false of the retraction in industrial_1.json, `"rpy": [135, -20, 0]`. -/
theorem C119_refuted : ¬ C119_statement := fun h =>
  retract_angles ((C119_iff _ _ _ _ (n := 10) (by norm_num)).1
    (h (eulerLine ![0.71, -0.15, 0] ![0.72, -0.1, 0.05] ![135, -20, 0] ![0, 0, 180] 10)
      (by simp [tasksIndustrial1])))

/-- **C119**, what the retraction becomes: ten points whose second angle is −20 radians. -/
theorem C119_retract : ∃ pts, parsePath ⟨some (eulerLine ![0.71, -0.15, 0] ![0.72, -0.1, 0.05]
      ![135, -20, 0] ![0, 0, 180] 10), none⟩ = .ok pts ∧ pts.length = 10 ∧
    ∀ pt ∈ pts, ∃ (e : TolEulerPt) (p : V3), pt = .euler e ∧
      e.pNominal = [p 0, p 1, p 2, 135 * Real.pi / 180, -20, 0] := by
  obtain ⟨pts, h1, h2, h3⟩ := load_eulerLine ![0.71, -0.15, 0] ![0.72, -0.1, 0.05] ![135, -20, 0]
    ![0, 0, 180] 10
  refine ⟨pts, h1, h2, fun pt hpt => ?_⟩
  obtain ⟨k, hk⟩ := List.mem_iff_getElem?.1 hpt
  obtain ⟨e, he, hne⟩ := h3 k pt hk
  refine ⟨e, onLine ![0.71, -0.15, 0] ![0.72, -0.1, 0.05] 10 k, he, hne.trans ?_⟩
  simp only [Matrix.cons_val]
  rw [(guess_understood 135).1 (by norm_num), (guess_understood (-20)).2 (by norm_num),
    (guess_understood 0).2 (by norm_num)]

/-- **C119**, what holds: all other lines in the task files of the editor are read as they are meant. -/
theorem C119_partial : ∀ pd ∈ tasksSmallPassage ++ tasksCircle ++ tasksPathInBox ++
    tasksTorchObstacle ++ tasksIndustrial1.take 2, ReadAsMeant pd := by
  have h3 : ∀ P : Fin 3 → Prop, P 0 → P 1 → P 2 → ∀ j, P j := fun P a b c j => by
    fin_cases j <;> assumption
  have key (a b rpy tol : V3) := C119_iff a b rpy tol (n := 10) (by norm_num)
  intro pd hpd
  simp only [tasksSmallPassage, tasksCircle, tasksPathInBox, tasksTorchObstacle, tasksIndustrial1,
    List.take_succ_cons, List.take_zero, List.cons_append, List.nil_append, List.mem_cons,
    List.not_mem_nil, or_false] at hpd
  rcases hpd with rfl | rfl | rfl | rfl | rfl | rfl
  · intro sp rpy h
    simp [freeLine] at h
  · intro sp rpy h
    simp [circleEntry] at h
  · exact (key _ _ _ _).2 (.inl (h3 _ (by simp only [Matrix.cons_val]; norm_num [abs_le])
      (by simp only [Matrix.cons_val]; norm_num) (by simp only [Matrix.cons_val]; norm_num [abs_le])))
  · exact (key _ _ _ _).2 (.inl (h3 _ (by simp only [Matrix.cons_val]; norm_num [abs_le])
      (by simp only [Matrix.cons_val]; norm_num [abs_le]) (by simp only [Matrix.cons_val]; norm_num)))
  · exact (key _ _ _ _).2 (.inr (h3 _ (by simp only [Matrix.cons_val]; norm_num [abs_le])
      (by simp only [Matrix.cons_val]; norm_num) (by simp only [Matrix.cons_val]; norm_num)))
  · exact (key _ _ _ _).2 (.inl (h3 _ (by simp only [Matrix.cons_val]; norm_num [abs_le])
      (by simp only [Matrix.cons_val]; norm_num) (by simp only [Matrix.cons_val]; norm_num [abs_le])))

end

end Verif.Props
