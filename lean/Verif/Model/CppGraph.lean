import Verif.Py
import Verif.Model.Search

/-!
# Model of `acrobotics/cpp/src/graph.cpp` and `graph.h`

C++ undefined behaviour that the code can run into is an outcome (`Fault`).  Floats are abstract:
joint values are of a type `F`, costs of a `CostArith` type `C` with `⊤ = INF`; `JointArith` holds
the one arithmetic expression that mixes them.  NaN and integer overflow are not modelled.  The
`print_*` functions are in `Model/CppPrint.lean`; `set_graph_data` (no typemap for it) and the
addresses behind `jv` and `parent` are in `Model/CppPointers.lean`; the functions that nothing calls
(`visit`, `init_unvisited`, `sort_function`) are in `Model/CppUnused.lean`, `cost_function` is in
`Model/CppTravel.lean`; `MAX_ITER` is an unused constant.
-/

namespace Verif.CppGraph

open Verif.Search

/-- The arithmetic of `cost_function_2`: `step acc w a b` is
`acc + w * pow(a - b, 2.0)`, with whatever rounding the machine applies. -/
class JointArith (F C : Type) [CostArith C] where
  step : C → F → F → F → C
  one : F

/-- Undefined behaviour and garbage. (graph.cpp:29, 78, 183, 240, 293, 297, 394) -/
inductive Fault where
  /-- indexing a `std::vector` out of bounds -/
  | outOfBounds
  /-- dereferencing `goal == nullptr` (graph.cpp:240) -/
  | nullDeref
  /-- following a path into `DUMMY_NODE`, whose `jv` is a null pointer -/
  | dummyDeref
  /-- reading the array of `get_path` that was never written -/
  | uninitialised
  /-- artefact of the model: a loop ran out of fuel -/
  | outOfFuel
  deriving DecidableEq, Repr

variable {F C : Type} [CostArith C] [JointArith F C]

/-- graph.cpp:178-186 `cost_function_2`, the loop from `i` on.  Reading past the end of `weights`
or of the second joint vector is undefined behaviour; here the loop stops, and the callers check
`Graph.dimsOk` first. -/
def costFrom2 : C → List F → List F → List F → C
  | acc, w :: ws, a :: as, b :: bs => costFrom2 (JointArith.step acc w a b) ws as bs
  | acc, _, _, _ => acc

/-- graph.cpp:178-186 `cost_function_2(n1, n2)`. -/
def costFn2 (w n1 n2 : List F) : C := costFrom2 0 w n1 n2

/-- The `Graph` object (graph.h:58-68). -/
structure Graph (F C : Type) where
  gd : List (List (List F)) := []
  na : List (List (Nd (List F))) := []
  store : Store C (List F)
  pathFound : Bool := false
  shortestPathCost : C
  numGoals : Nat := 0
  maxPathIndex : Nat := 0
  weights : List F := []

/-- The mutable fields of a new node (graph.cpp:136) and of a reset one (graph.cpp:148-150). -/
def freshSt : St C (List F) := ⟨⊤, .dummy, false⟩

/-- A default-constructed `Graph` (graph.h:58-68). -/
def Graph.new : Graph F C := { store := fun _ _ => freshSt, shortestPathCost := ⊤ }

/-- graph.cpp:271-286 `add_data_column`: `mat` is the row-major buffer. -/
def readRow (mat : List F) (ncols i : Nat) : Except Fault (List F) :=
  (List.range ncols).mapM fun j =>
    match mat[j + ncols * i]? with
    | some x => .ok x
    | none => .error .outOfBounds

/-- graph.cpp:271-286 `add_data_column`. -/
def Graph.addDataColumn (g : Graph F C) (mat : List F) (nrows ncols : Nat) :
    Except Fault (Graph F C) := do
  let newCol ← (List.range nrows).mapM (readRow mat ncols)
  .ok { g with gd := g.gd ++ [newCol] }

/-- graph.cpp:136-137: append one node to column `i`. -/
def Graph.pushNode (g : Graph F C) (i j : Nat) (jv : List F) : Graph F C :=
  let n : Nd (List F) := ⟨i, ((g.na[i]?).getD []).length, j, jv⟩
  { g with na := g.na.modify i (· ++ [n]), store := g.store.upd n freshSt }

/-- graph.cpp:132-138: one new (empty) column at the end of `na`, nodes appended to column `i`. -/
def Graph.pushColumn (g : Graph F C) (i : Nat) (col : List (List F)) : Graph F C :=
  col.zipIdx.foldl (fun g x => g.pushNode i x.2 x.1) { g with na := g.na ++ [[]] }

/-- graph.cpp:128-140 `graph_data_to_node_array`. -/
def Graph.dataToNodes (g : Graph F C) : Graph F C :=
  g.gd.zipIdx.foldl (fun g x => g.pushColumn x.2 x.1) g

/-- graph.cpp:288-313 `init`. -/
def Graph.init (g : Graph F C) : Except Fault (Graph F C) := do
  let g := g.dataToNodes
  match g.na.getLast? with
  | none => .error .outOfBounds
  | some last =>
    match g.gd with
    | (jv :: _) :: _ =>
      let w := if g.weights.length ≠ jv.length then List.replicate jv.length (JointArith.one C)
        else g.weights
      .ok { g with maxPathIndex := g.na.length - 1, numGoals := last.length, pathFound := false,
                   weights := w }
    | _ => .error .outOfBounds

/-- graph.cpp:315-322 `set_weights`. -/
def Graph.setWeights (g : Graph F C) (w : List F) : Graph F C := { g with weights := w }

/-- graph.cpp:142-153 `reset_node_array` and graph.cpp:324-329 `reset`. -/
def Graph.reset (g : Graph F C) : Except Fault (Graph F C) :=
  match g.na.getLast? with
  | none => .error .outOfBounds
  | some last =>
    .ok { g with store := g.na.flatten.foldl (fun s n => s.upd n freshSt) g.store,
                 maxPathIndex := g.na.length - 1, numGoals := last.length }

/-- graph.cpp:203-219 `get_neighbors`.  The node is in some column, so the lookup cannot fail. -/
def Graph.getNeighbors (g : Graph F C) (node : Nd (List F)) : List (Nd (List F)) :=
  if node.pi = g.na.length - 1 then [] else (g.na[node.pi + 1]?).getD []

/-- The cost of the edge `cur → nb`: `cost_function_2(*nb, *current)` (graph.cpp:51, 107, 261). -/
def Graph.edgeCost (g : Graph F C) (cur nb : Nd (List F)) : C := costFn2 g.weights nb.data cur.data

/-- No cost evaluation between adjacent columns reads out of bounds.  (Simplification: a run is a
fault as soon as one such pair is bad, even if the search would not get to evaluate it.)
(graph.cpp:51, 107, 181-184) -/
def Graph.dimsOk (g : Graph F C) : Bool :=
  (g.na.zip g.na.tail).all fun cc => cc.1.all fun u => cc.2.all fun v =>
    decide (v.data.length ≤ u.data.length) && decide (v.data.length ≤ g.weights.length)

/-- graph.cpp:228-237: the goal node with the smallest distance. -/
def closest (s : Store C (List F)) (col : List (Nd (List F))) : C × Option (Nd (List F)) :=
  col.foldl (fun (acc : C × Option (Nd (List F))) n =>
    if (s.at n).dist < acc.1 then ((s.at n).dist, some n) else acc) (⊤, none)

/-- graph.cpp:239-245: follow the parents down to column 0; the result starts at the goal. -/
def trace (s : Store C (List F)) : Nat → Nd (List F) → Except Fault (List (Nd (List F)))
  | 0, _ => .error .outOfFuel
  | fuel + 1, cur =>
    if 0 < cur.pi then
      match (s.at cur).parent with
      | .node u => do
        let rest ← trace s fuel u
        .ok (cur :: rest)
      | _ => .error .dummyDeref
    else .ok [cur]

/-- graph.cpp:221-254 `get_path_nodes`.  `na.back()` of an empty vector is undefined. -/
def Graph.getPathNodes (g : Graph F C) : Except Fault (List (Nd (List F))) :=
  if g.pathFound then
    match g.na.getLast? with
    | none => .error .outOfBounds
    | some last =>
      match closest g.store last with
      | (_, none) => .error .nullDeref
      | (_, some goal) => do
        let p ← trace g.store (g.na.length + 1) goal
        .ok p.reverse
  else .ok []

/-- graph.cpp:256-264 `get_path_cost(path)`. -/
def Graph.pathCostFrom (g : Graph F C) : C → List (Nd (List F)) → C
  | acc, u :: v :: rest => g.pathCostFrom (acc + g.edgeCost u v) (v :: rest)
  | acc, _ => acc

/-- Number of nodes: enough fuel for any of the searches (C07, C11). (graph.cpp:41-64, 90-120) -/
def Graph.fuel (g : Graph F C) : Nat := (g.na.map List.length).sum

/-- What `run_bfs` and `run_dijkstra` do after the search (graph.cpp:335-336, 344-345). -/
def Graph.finish (g : Graph F C) : Except Fault (Graph F C) := do
  let path ← g.getPathNodes
  .ok { g with shortestPathCost := g.pathCostFrom 0 path }

/-- graph.cpp:331-338 `run_bfs` with graph.cpp:21-67 `multi_source_bfs`. -/
def Graph.runBfs (g : Graph F C) : Except Fault (Graph F C) :=
  match g.na with
  | [] => .error .outOfBounds
  | start :: _ =>
    if g.dimsOk = false then .error .outOfBounds
    else
      match bfsLoop g.edgeCost g.getNeighbors g.fuel (startCol fifoPush start (g.store, [])) with
      | none => .error .outOfFuel
      | some s => Graph.finish { g with store := s, pathFound := true }

/-- A priority queue of node pointers.  It may look at the current distances whenever it is
called. (graph.cpp:72) -/
structure PQ (C α : Type) where
  Q : Type
  empty : Q
  push : Store C α → Q → Nd α → Q
  pop : Store C α → Q → Option (Nd α × Q)

/-- graph.cpp:90-120: the loop of `multi_source_dijkstra`. -/
def dijkstraLoop {α : Type} (pq : PQ C α) (cost : Nd α → Nd α → C) (nbs : Nd α → List (Nd α))
    (maxIdx : Nat) : Nat → Store C α × pq.Q → Nat → Option (Store C α × Nat)
  | fuel, (s, q), goals =>
    if goals = 0 then some (s, goals)
    else
      match pq.pop s q, fuel with
      | none, _ => some (s, goals)
      | some _, 0 => none
      | some (cur, q'), fuel + 1 =>
        dijkstraLoop pq cost nbs maxIdx fuel (expand cost pq.push nbs cur (s, q'))
          (if cur.pi = maxIdx then goals - 1 else goals)

/-- graph.cpp:340-348 `run_dijkstra` with graph.cpp:69-123 `multi_source_dijkstra`. -/
def Graph.runDijkstra (pq : PQ C (List F)) (g : Graph F C) : Except Fault (Graph F C) :=
  match g.na with
  | [] => .error .outOfBounds
  | start :: _ =>
    if g.dimsOk = false then .error .outOfBounds
    else
      match dijkstraLoop pq g.edgeCost g.getNeighbors g.maxPathIndex g.fuel
          (startCol pq.push start (g.store, pq.empty)) g.numGoals with
      | none => .error .outOfFuel
      | some (s, goals) =>
        Graph.finish { g with store := s, numGoals := goals, pathFound := true }

/-- graph.cpp:350-376 `get_path(vec, n)`: the array that Python receives; `none` if the array was
not written (wrong length). -/
def Graph.getPath (g : Graph F C) (n : Nat) : Except Fault (Option (List Int)) :=
  if g.pathFound then do
    let path ← g.getPathNodes
    if n ≠ path.length then .ok none
    else .ok (some (path.map fun x => (x.si : Int)))
  else .ok (some (List.replicate n (-1)))

/-- graph.cpp:378-381 `get_path_cost()`. -/
def Graph.getPathCost (g : Graph F C) : C := g.shortestPathCost

/-! ## libstdc++'s heap

`std::priority_queue<Node*, vector, cmp>` with `cmp(n1, n2) = n2->dist < n1->dist` (graph.h:39-45,
graph.cpp:72) is a binary heap in a vector.  `push` is `push_back` followed by `push_heap`, `pop`
is `pop_heap` followed by `pop_back` (bits/stl_heap.h of libstdc++, `__push_heap`,
`__adjust_heap`, `__pop_heap`).  The comparisons read the *current* distances. -/

variable {α : Type}

/-- libstdc++ `__push_heap(first, holeIndex, 0, value)`: sift `v` up from `hole`.  The first
argument bounds the number of rounds; the hole index at least halves, so `hole` rounds suffice.
(behind `Q.push`, graph.cpp:83, 116) -/
def siftUp (s : Store C α) (v : Nd α) : Nat → Nat → List (Nd α) → List (Nd α)
  | 0, hole, h => h.set hole v
  | fuel + 1, hole, h =>
    if hole = 0 then h.set hole v
    else
      match h[(hole - 1) / 2]? with
      | some p =>
        if (s.at v).dist < (s.at p).dist then siftUp s v fuel ((hole - 1) / 2) (h.set hole p)
        else h.set hole v
      | none => h

/-- `push_back` and `push_heap`. (behind `Q.push`, graph.cpp:83, 116) -/
def heapPush (s : Store C α) (h : List (Nd α)) (v : Nd α) : List (Nd α) :=
  siftUp s v h.length h.length (h ++ [v])

/-- libstdc++ `__adjust_heap`: move the hole down to a leaf, always along the better child. Returns
the heap and the final position of the hole.  The first argument bounds the number of rounds; the
hole index grows, so the length suffices. (behind `Q.pop`, graph.cpp:95) -/
def siftDown (s : Store C α) : Nat → List (Nd α) → Nat → List (Nd α) × Nat
  | 0, h, hole => (h, hole)
  | fuel + 1, h, hole =>
    if hole < (h.length - 1) / 2 then
      match h[2 * hole + 2]?, h[2 * hole + 1]? with
      | some r, some l =>
        if (s.at l).dist < (s.at r).dist then siftDown s fuel (h.set hole l) (2 * hole + 1)
        else siftDown s fuel (h.set hole r) (2 * hole + 2)
      | _, _ => (h, hole)
    else if h.length % 2 = 0 ∧ hole = (h.length - 2) / 2 then
      match h[2 * hole + 1]? with
      | some l => (h.set hole l, 2 * hole + 1)
      | none => (h, hole)
    else (h, hole)

/-- `pop_heap` and `pop_back`: the old top and the remaining heap.
(behind `Q.top`, `Q.pop`, graph.cpp:94-95) -/
def heapPop (s : Store C α) (h : List (Nd α)) : Option (Nd α × List (Nd α)) :=
  match h with
  | [] => none
  | [x] => some (x, [])
  | x :: y :: rest =>
    let v := (y :: rest).getLast (by simp)
    let h' := (x :: y :: rest).dropLast
    let r := siftDown s h'.length h' 0
    some (x, siftUp s v r.2 r.2 r.1)

/-- The queue of graph.cpp:72 as libstdc++ implements it. -/
def stdHeap : PQ C α := ⟨List (Nd α), [], heapPush, heapPop⟩

/-! ## Call histories -/

/-- The public methods that Python can call on a `Graph` (graph.h:86-98), apart from printing. -/
inductive Op (F : Type) where
  | addColumn (mat : List F) (nrows ncols : Nat)
  | setWeights (w : List F)
  | init
  | reset
  | runBfs
  | runDijkstra
  | getPath (n : Nat)
  | getPathCost

/-- What a call returns. (graph.h:86-98) -/
inductive Out (C : Type) where
  | unit
  | path (p : Option (List Int))
  | cost (c : C)

/-- One call. (graph.h:86-98) -/
def Graph.call (pq : PQ C (List F)) (g : Graph F C) : Op F → Except Fault (Graph F C × Out C)
  | .addColumn mat nrows ncols => do .ok (← g.addDataColumn mat nrows ncols, .unit)
  | .setWeights w => .ok (g.setWeights w, .unit)
  | .init => do .ok (← g.init, .unit)
  | .reset => do .ok (← g.reset, .unit)
  | .runBfs => do .ok (← g.runBfs, .unit)
  | .runDijkstra => do .ok (← g.runDijkstra pq, .unit)
  | .getPath n => do .ok (g, .path (← g.getPath n))
  | .getPathCost => .ok (g, .cost g.getPathCost)

/-- A sequence of calls. (graph.h:86-98) -/
def Graph.calls (pq : PQ C (List F)) : Graph F C → List (Op F) → Except Fault (Graph F C × List (Out C))
  | g, [] => .ok (g, [])
  | g, op :: ops => do
    let (g, o) ← g.call pq op
    let (g, os) ← g.calls pq ops
    .ok (g, o :: os)

end Verif.CppGraph
