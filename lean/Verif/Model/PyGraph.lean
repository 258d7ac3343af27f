import Verif.Py
import Verif.Model.Search

/-!
# Model of `acrobotics/pygraph.py`

The cost function (pygraph.py:20-21, quaternion distance) is a parameter `cost`; the concrete one
is modelled over ℝ in `Verif.Model.QuatCost`.  Costs are of an arbitrary `CostArith` type with
`⊤ = np.inf`.
-/

namespace Verif.PyGraph

open Verif.Search

variable {α C : Type} [CostArith C]

/-- `xs[i]` for a Python integer index; negative indices count from the end. (pygraph.py:90, 168) -/
def pyGetInt (xs : List α) (i : Int) : Except PyErr α :=
  if 0 ≤ i then pyGet xs i.toNat
  else if 0 ≤ (xs.length : Int) + i then pyGet xs ((xs.length : Int) + i).toNat
  else .error .indexError

/-- The `Graph` object (pygraph.py:39-44).  `path_length` is `len(data)`. -/
structure Graph (α C : Type) where
  data : List (List α)
  nodeArray : List (List (Nd α))
  store : Store C α
  latestTotalCost : C

/-- The mutable fields set by `Node.__init__` (pygraph.py:29-31) and by `reset` (57-59). -/
def freshSt : St C α := ⟨⊤, .none, false⟩

/-- pygraph.py:46-52 `data_to_node_array`. -/
def dataToNodeArray (data : List (List α)) : List (List (Nd α)) :=
  data.mapIdx fun i col => col.mapIdx fun j row => ⟨i, j, j, row⟩

/-- pygraph.py:40-44 `Graph.__init__`. -/
def Graph.new (data : List (List α)) : Graph α C :=
  ⟨data, dataToNodeArray data, fun _ _ => freshSt, ⊤⟩

/-- pygraph.py:54-60 `reset`. -/
def Graph.reset (g : Graph α C) : Graph α C :=
  { g with
    store := g.nodeArray.flatten.foldl (fun s n => s.upd n freshSt) g.store
    latestTotalCost := ⊤ }

/-- pygraph.py:62-67 `get_neighbours`.  The node array has one entry per data column, so the
indexing in the else branch cannot fail. -/
def Graph.getNeighbours (g : Graph α C) (node : Nd α) : List (Nd α) :=
  if node.pi + 1 ≥ g.data.length then [] else (g.nodeArray[node.pi + 1]?).getD []

/-- pygraph.py:69-75 `get_reachable_neighbours`. -/
def Graph.getReachableNeighbours (g : Graph α C) (cost : α → α → C) (maxCost : C) (node : Nd α) :
    List (Nd α) :=
  (g.getNeighbours node).filter fun next => decide (cost node.data next.data < maxCost)

/-- pygraph.py:127-162 `run_multi_source_bfs`, with fuel for the `while`. -/
def Graph.runBfs (g : Graph α C) (cost : α → α → C) (maxCost : C) (startPathIndex : Nat)
    (fuel : Nat) : Except PyErr (Graph α C) := do
  let g := g.reset
  let col ← pyGet g.nodeArray startPathIndex
  match bfsLoop (fun u v => cost u.data v.data) (g.getReachableNeighbours cost maxCost) fuel
      (startCol fifoPush col (g.store, [])) with
  | some s => .ok { g with store := s }
  | none => .error .outOfFuel

/-- The scan for the closest node of a column (pygraph.py:88-93). -/
def closest (s : Store C α) (col : List (Nd α)) : C × Option (Nd α) :=
  col.foldl (fun (acc : C × Option (Nd α)) n =>
    if (s.at n).dist < acc.1 then ((s.at n).dist, some n) else acc) (⊤, none)

/-- pygraph.py:101-103: follow the parents, collecting sample indices, until a node without
parent (the dummy node) is reached. -/
def trace (s : Store C α) : Nat → Nd α → Except PyErr (List Int)
  | 0, _ => .error .outOfFuel
  | fuel + 1, cur =>
    match (s.at cur).parent with
    | .none => .ok []
    | .dummy => .ok [(cur.si : Int)]
    | .node u => do
      let rest ← trace s fuel u
      .ok ((cur.si : Int) :: rest)

/-- pygraph.py:77-106 `get_path`; `[-1]` when no node of the target column was reached. -/
def Graph.getPath (g : Graph α C) (target : Option Nat) (fuel : Nat) :
    Except PyErr (Graph α C × List Int) := do
  let col ← pyGet g.nodeArray (target.getD (g.data.length - 1))
  match closest g.store col with
  | (_, none) => .ok (g, [-1])
  | (minDist, some node) => do
    let is ← trace g.store fuel node
    .ok ({ g with latestTotalCost := minDist }, is.reverse)

/-- pygraph.py:116-120: does some node of column `i` have a parent? -/
def Graph.reached (g : Graph α C) (i : Nat) : Bool :=
  ((g.nodeArray[i]?).getD []).any fun n =>
    match (g.store.at n).parent with
    | .none => false
    | _ => true

/-- pygraph.py:114-120: the loop of `find_partial_path`, from column `cur` down to column 1. -/
def Graph.findLoop (g : Graph α C) : Nat → Option Nat
  | 0 => none
  | cur + 1 => if g.reached (cur + 1) then some (cur + 1) else g.findLoop cur

/-- pygraph.py:111-125 `find_partial_path`. -/
def Graph.findPartialPath (g : Graph α C) : Int :=
  match g.findLoop (g.data.length - 1) with
  | some i => i
  | none => -1

/-- pygraph.py:165-170 `path_index_to_path`, `k` is the loop counter. -/
def pathIndexFrom (data : List (List α)) : Nat → List Int → Except PyErr (List α)
  | _, [] => .ok []
  | k, i :: is => do
    let col ← pyGet data k
    let x ← pyGetInt col i
    let rest ← pathIndexFrom data (k + 1) is
    .ok (x :: rest)

/-- pygraph.py:165-170 `path_index_to_path`. -/
def pathIndexToPath (pi : List Int) (data : List (List α)) : Except PyErr (List α) :=
  pathIndexFrom data 0 pi

/-- The dictionaries returned by the module functions; `none` means "key absent".
(pygraph.py:179-182, 194, 201, 205, 236-257) -/
structure Res (α C : Type) where
  success : Bool
  path : Option (List α) := none
  totalCost : Option C := none
  i : Option Int := none
  stuck : Bool := false
  singlePath : Option Bool := none
  splitPoints : Option (List Nat) := none
  extraSegments : Option (List (List α × C)) := none
  doNotReachEnd : Bool := false

/-- Fuel that suffices for one search on `data` (theorem `C07_pygraph_terminates`): the number of
samples for the search loop, the number of columns for tracing back. (pygraph.py:101-103, 148) -/
def searchFuel (data : List (List α)) : Nat := (data.map List.length).sum + data.length + 1

/-- pygraph.py:173-182 `get_shortest_path`. -/
def getShortestPath (cost : α → α → C) (data : List (List α)) : Except PyErr (Res α C) := do
  let g ← (Graph.new data).runBfs cost ⊤ 0 (searchFuel data)
  let (g, pi) ← g.getPath none (searchFuel data)
  let total := g.latestTotalCost
  let p0 ← pyGet pi 0
  if p0 = -1 then .ok { success := false }
  else do
    let path ← pathIndexToPath pi data
    .ok { success := true, path := some path, totalCost := some total, singlePath := some true }

/-- pygraph.py:185-205 `get_shortest_partial_path`. -/
def getShortestPartialPath (cost : α → α → C) (data : List (List α)) (maxStepCost : C) :
    Except PyErr (Res α C) := do
  let g ← (Graph.new data).runBfs cost maxStepCost 0 (searchFuel data)
  let (g, pi) ← g.getPath none (searchFuel data)
  let total := g.latestTotalCost
  let p0 ← pyGet pi 0
  if p0 = -1 then do
    let split := g.findPartialPath
    if split = -1 then .ok { success := false, stuck := true }
    else do
      let (g, pi1) ← g.getPath (some split.toNat) (searchFuel data)
      let cost1 := g.latestTotalCost
      let path1 ← pathIndexToPath pi1 data
      .ok { success := false, path := some path1, totalCost := some cost1, i := some split }
  else do
    let path ← pathIndexToPath pi data
    .ok { success := true, path := some path, totalCost := some total }

/-- Local variables of `get_shortest_path_segments` (pygraph.py:210-215). -/
structure SegSt (α C : Type) where
  currentData : List (List α)
  currentStart : Nat
  finished : Bool
  paths : List (List α)
  starts : List Nat
  costs : List C

/-- `d[key]` for a key that may be absent. (pygraph.py:220-229) -/
def key (o : Option α) : Except PyErr α :=
  match o with
  | some x => .ok x
  | none => .error .keyError

/-- pygraph.py:216-233: the `while` loop of `get_shortest_path_segments`.  `.inr` is the early
return of line 233. -/
def segLoop (cost : α → α → C) (maxStepCost : C) (data : List (List α)) :
    Nat → SegSt α C → Except PyErr (SegSt α C ⊕ Res α C)
  | fuel, st =>
    if st.finished = false ∧ (st.currentStart : Int) < (data.length : Int) - 2 then
      match fuel with
      | 0 => .error .outOfFuel
      | fuel + 1 => do
        let res ← getShortestPartialPath cost st.currentData maxStepCost
        if res.success then do
          let p ← key res.path
          let c ← key res.totalCost
          segLoop cost maxStepCost data fuel
            { st with finished := true, paths := st.paths ++ [p],
                      starts := st.starts ++ [st.currentStart], costs := st.costs ++ [c] }
        else
          match res.i with
          | some i => do
            let start := (i + 1).toNat
            let p ← key res.path
            let c ← key res.totalCost
            segLoop cost maxStepCost data fuel
              { st with currentStart := start, currentData := data.drop start,
                        paths := st.paths ++ [p], starts := st.starts ++ [start],
                        costs := st.costs ++ [c] }
          | none => .ok (.inr res)
    else .ok (.inl st)

/-- pygraph.py:208-259 `get_shortest_path_segments`, with fuel for its own `while` loop. -/
def getShortestPathSegments (cost : α → α → C) (data : List (List α)) (maxStepCost : C)
    (fuel : Nat) : Except PyErr (Res α C) := do
  match ← segLoop cost maxStepCost data fuel ⟨data, 0, false, [], [], []⟩ with
  | .inr res => .ok res
  | .inl st =>
    let p ← pyGet st.paths 0
    let c ← pyGet st.costs 0
    if st.finished then
      if st.paths.length = 1 then
        .ok { success := true, path := some p, totalCost := some c, singlePath := some true }
      else
        .ok { success := true, path := some p, totalCost := some c, singlePath := some false,
              splitPoints := some st.starts,
              extraSegments := some ((st.paths.zip st.costs).drop 1) }
    else
      .ok { success := false, path := some p, splitPoints := some st.starts,
            totalCost := some c, doNotReachEnd := true }

end Verif.PyGraph
