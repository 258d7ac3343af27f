import Verif.Model.CppGraph

/-!
# The functions of `graph.cpp` that nothing calls

`visit`, `init_unvisited` and `sort_function` are the pieces of an earlier version of the search.
`cost_function` is in `Model/CppTravel.lean`; `MAX_ITER` is an unused constant.
-/

namespace Verif.CppGraph

open Verif.Search

variable {F C : Type} [CostArith C] [JointArith F C]

/-- graph.cpp:194-199: the body of the loop of `visit(n)` for the neighbour `nb`.  The distance of
`n` is read again for every neighbour. -/
def Graph.visitOne (g : Graph F C) (n : Nd (List F)) (s : Store C (List F)) (nb : Nd (List F)) :
    Store C (List F) :=
  if (s.at n).dist + g.edgeCost n nb < (s.at nb).dist then
    s.upd nb { s.at nb with dist := (s.at n).dist + g.edgeCost n nb, parent := .node n }
  else s

/-- graph.cpp:188-201 `visit`.  (The cost is read as in the searches: the callers have to see to
`Graph.dimsOk`.) -/
def Graph.visit (g : Graph F C) (n : Nd (List F)) : Graph F C :=
  { g with store := (g.getNeighbors n).foldl (g.visitOne n) g.store }

/-- graph.cpp:155-166 `init_unvisited(uv)`: the new value of `uv`. -/
def Graph.initUnvisited (g : Graph F C) (uv : List (Nd (List F))) : List (Nd (List F)) :=
  (g.na.drop 1).foldl (fun uv col => col.foldl (fun uv n => uv ++ [n]) uv) uv

/-- graph.cpp:11-15 `sort_function`. -/
def sortFunction (s : Store C (List F)) (n1 n2 : Nd (List F)) : Bool :=
  decide ((s.at n2).dist < (s.at n1).dist)

end Verif.CppGraph
