import Verif.Model.CppGraph

/-!
# The print functions of `acrobotics/cpp/src/graph.cpp` (graph.cpp:383-449)

Text is modelled by the numbers in it: one `Line` for each line with a node.  `DUMMY_NODE`
(graph.cpp:9) is a global, so its fields are zero; a node whose parent it is prints `(0, 0)`.
Formatting and flushing of `cout` are left out.  Pointers to nodes stay valid as long as `init` is
not called again (a second `init` appends to the vectors that hold the nodes; see
`Model/CppPointers.lean`).
-/

namespace Verif.CppGraph

open Verif.Search

variable {F C : Type} [CostArith C] [JointArith F C]

/-- The numbers in one line of `print_node`: `(pi, si) dist: dist parent: (ppi, psi)`.
(graph.cpp:387-396) -/
structure Line (C : Type) where
  pi : Nat
  si : Nat
  dist : C
  ppi : Nat
  psi : Nat

/-- graph.cpp:387-396 `print_node`.  A parent that is no node is a null pointer. -/
def printNode (s : Store C (List F)) (n : Nd (List F)) : Except Fault (Line C) :=
  match (s.at n).parent with
  | .node u => .ok ⟨n.pi, n.si, (s.at n).dist, u.pi, u.si⟩
  | .dummy => .ok ⟨n.pi, n.si, (s.at n).dist, 0, 0⟩
  | .none => .error .nullDeref

/-- graph.cpp:398-416 `print_nodes`, both overloads. -/
def printNodes (s : Store C (List F)) (l : List (Nd (List F))) : Except Fault (List (Line C)) :=
  l.mapM (printNode s)

/-- graph.cpp:419-434 `print_graph_data`: per column, per row, the joint values. -/
def Graph.printGraphData (g : Graph F C) : List (List (List F)) := g.gd

/-- graph.cpp:436-441 `print_path`. -/
def Graph.printPath (g : Graph F C) : Except Fault (List (Line C)) := do
  let p ← g.getPathNodes
  printNodes g.store p

/-- graph.cpp:443-449 `print_graph`. -/
def Graph.printGraph (g : Graph F C) : Except Fault (List (List (Line C))) :=
  g.na.mapM (printNodes g.store)

end Verif.CppGraph
