import Verif.Model.CppGraph
import Verif.Model.PyGraph

/-!
# Model of `planning.get_shortest_path` and `planning._check_dtype` (acrobotics/planning.py:388-478)

Columns are what the `cart_to_joint*` functions produce: a numpy array with a dtype, or the empty
Python list.  `conv` is the conversion of one number by `astype("float32")`.
-/

namespace Verif.ShortestPath

open Verif.CppGraph Verif.Search

variable {F C : Type} [CostArith C] [JointArith F C]

/-- One entry of `Q`: the Python list `[]`, or a 2-d array (`f32`: its dtype is float32).
(planning.py:115-117, 310-312) -/
inductive PyCol (F : Type) where
  | emptyList
  | arr (f32 : Bool) (ncols : Nat) (rows : List (List F))
  deriving DecidableEq

/-- Rows of the entry. (planning.py:425, 452) -/
def PyCol.rows : PyCol F → List (List F)
  | .emptyList => []
  | .arr _ _ rows => rows

/-- `Q[i].astype("float32")`; a list has no such attribute. (planning.py:476) -/
def PyCol.astype (conv : F → F) : PyCol F → Except PyErr (PyCol F)
  | .emptyList => .error .attributeError
  | .arr true n rows => .ok (.arr true n rows)
  | .arr false n rows => .ok (.arr true n (rows.map (List.map conv)))

/-- planning.py:475-476: the loop that replaces the entries of the caller's list in place.  Returns
the outcome and the contents of the list afterwards. -/
def convertLoop (conv : F → F) : List (PyCol F) → Except PyErr Unit × List (PyCol F)
  | [] => (.ok (), [])
  | c :: cs =>
    match c.astype conv with
    | .error e => (.error e, c :: cs)
    | .ok c' =>
      let r := convertLoop conv cs
      (r.1, c' :: r.2)

/-- planning.py:458-478 `_check_dtype`: outcome and contents of the list (which is also what it
returns). -/
def checkDtype (conv : F → F) (Q : List (PyCol F)) : Except PyErr Unit × List (PyCol F) :=
  match Q with
  | [] => (.error .indexError, Q)
  | .emptyList :: _ => (.error .attributeError, Q)
  | .arr true _ _ :: _ => (.ok (), Q)
  | .arr false _ _ :: _ => convertLoop conv Q

/-- Python exception or C++ fault. (planning.py:429-444) -/
inductive Err where
  | py (e : PyErr)
  | fault (f : Fault)
  deriving DecidableEq

/-- An exception of the Python code. (planning.py:417-455) -/
def liftPy {β : Type} (x : Except PyErr β) : Except Err β := x.mapError .py
/-- A fault inside one of the calls on the C++ graph. (planning.py:421-444) -/
def liftCpp {β : Type} (x : Except Fault β) : Except Err β := x.mapError .fault

/-- The `method` argument. (planning.py:432-437) -/
inductive Method where
  | bfs
  | dijkstra
  | other
  deriving DecidableEq

/-- The returned dictionary; `none` means "key absent". (planning.py:447, 455) -/
structure PlanRes (F C : Type) where
  success : Bool
  path : Option (List (List F)) := none
  length : Option C := none

/-- planning.py:424-428: `none` is the early return for an empty column.  The SWIG typemap
(graph.i:17) refuses arrays that are not float32 with a TypeError. -/
def addColumns (g : Graph F C) : List (PyCol F) → Except Err (Option (Graph F C))
  | [] => .ok (some g)
  | c :: cs =>
    if c.rows.length = 0 then .ok none
    else
      match c with
      | .arr true ncols rows => do
        let g ← liftCpp (g.addDataColumn rows.flatten rows.length ncols)
        addColumns g cs
      | _ => .error (.py .typeError)

/-- planning.py:421-423: a new graph, with weights if they were given. -/
def newGraph (weights : Option (List F)) : Graph F C :=
  match weights with
  | some w => Graph.new.setWeights w
  | none => Graph.new

/-- planning.py:417-455 `get_shortest_path`.  `print_path` (440) walks over the same nodes as
`get_path`.  `p_i` has `n_path` entries, so the `zip` of line 450 does not cut anything. -/
def getShortestPath (pq : PQ C (List F)) (conv : F → F) (Q : List (PyCol F)) (method : Method)
    (weights : Option (List F)) : Except Err (PlanRes F C) := do
  let r := checkDtype conv Q
  liftPy r.1
  let Q := r.2
  let nPath := Q.length
  match ← addColumns (newGraph weights) Q with
  | none => .ok { success := false }
  | some g => do
    let g ← liftCpp g.init
    let g ← match method with
      | .bfs => liftCpp g.runBfs
      | .dijkstra => liftCpp (g.runDijkstra pq)
      | .other => .error (.py .notImplementedError)
    let _ ← liftCpp g.getPathNodes
    match ← liftCpp (g.getPath nPath) with
    | none => .error (.fault .uninitialised)
    | some pi => do
      let cost := g.getPathCost
      let p0 ← liftPy (pyGet pi 0)
      if p0 = -1 then .ok { success := false }
      else do
        let res ← liftPy (PyGraph.pathIndexToPath pi (Q.map PyCol.rows))
        .ok { success := true, path := some res, length := some cost }

end Verif.ShortestPath
