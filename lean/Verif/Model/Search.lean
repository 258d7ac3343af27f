import Verif.Cost

/-!
# The search loop shared by `acrobotics/pygraph.py` and `acrobotics/cpp/src/graph.cpp`

Both files contain the same relaxation loop (pygraph.py:148-162, graph.cpp:41-64 and
graph.cpp:90-120); they differ in the neighbour function, the initial parent and the queue.

Node objects are mutable.  `Nd` is a reference to a node together with its immutable fields; the
mutable fields (`dist`, `parent`, `visited`) live in a store indexed by column and position.
-/

namespace Verif.Search

variable {α C Q : Type}

/-- A reference to a graph node (pygraph.py:24-31, graph.h:29-37) and its immutable fields:
`pi` is `path_index`, `si` is `sample_index`.  `pos` is the position in the column, which
identifies the object (it equals `si` unless C++ `init` was called twice). -/
structure Nd (α : Type) where
  pi : Nat
  pos : Nat
  si : Nat
  data : α
  deriving DecidableEq

/-- The `parent` field: Python `None`, the dummy node, or a node.
(pygraph.py:30, 135-137, graph.h:35) -/
inductive Par (α : Type) where
  | none
  | dummy
  | node (n : Nd α)
  deriving DecidableEq

/-- The mutable fields of a node. (pygraph.py:29-31, graph.h:34-36) -/
structure St (C α : Type) where
  dist : C
  parent : Par α
  visited : Bool

/-- Mutable fields of all nodes. (pygraph.py:42, graph.h:52) -/
abbrev Store (C α : Type) := Nat → Nat → St C α

/-- Read the mutable fields of a node. (pygraph.py:155-162, graph.cpp:107-118) -/
def Store.at (s : Store C α) (n : Nd α) : St C α := s n.pi n.pos

/-- Write the mutable fields of a node. (pygraph.py:155-162, graph.cpp:107-118) -/
def Store.upd (s : Store C α) (n : Nd α) (v : St C α) : Store C α :=
  fun i j => if i = n.pi ∧ j = n.pos then v else s i j

/-- Body of the inner loop for one neighbour (pygraph.py:155-162, graph.cpp:52-63 and 108-119):
relax the distance, then push the neighbour if it was not visited.  `push` may look at the current
distances (a priority queue does). -/
def relax [CostArith C] (cost : Nd α → Nd α → C) (push : Store C α → Q → Nd α → Q) (cur : Nd α)
    (s : Store C α × Q) (nb : Nd α) : Store C α × Q :=
  let newDist := (s.1.at cur).dist + cost cur nb
  let st :=
    if newDist < (s.1.at nb).dist then
      s.1.upd nb { s.1.at nb with dist := newDist, parent := .node cur }
    else s.1
  if (st.at nb).visited then (st, s.2)
  else (st.upd nb { st.at nb with visited := true }, push st s.2 nb)

/-- The inner loop over all neighbours of `cur`. (pygraph.py:154-162, graph.cpp:104-119) -/
def expand [CostArith C] (cost : Nd α → Nd α → C) (push : Store C α → Q → Nd α → Q)
    (nbs : Nd α → List (Nd α)) (cur : Nd α) (s : Store C α × Q) : Store C α × Q :=
  (nbs cur).foldl (relax cost push cur) s

/-- Set-up of the start nodes (pygraph.py:136-140, graph.cpp:29-35 and 78-84). -/
def startCol [CostArith C] (push : Store C α → Q → Nd α → Q) (col : List (Nd α))
    (s : Store C α × Q) : Store C α × Q :=
  col.foldl (fun s n =>
    let st := s.1.upd n ⟨0, .dummy, true⟩
    (st, push st s.2 n)) s

/-- FIFO queue: `Queue.put` (Python), `std::queue::push` (C++).
(pygraph.py:140, 161, graph.cpp:60) -/
def fifoPush (_ : Store C α) (q : List (Nd α)) (n : Nd α) : List (Nd α) := q ++ [n]

/-- The breadth-first loop (pygraph.py:148-162, graph.cpp:41-64); `none` when out of fuel. -/
def bfsLoop [CostArith C] (cost : Nd α → Nd α → C) (nbs : Nd α → List (Nd α)) :
    Nat → Store C α × List (Nd α) → Option (Store C α)
  | _, (s, []) => some s
  | 0, (_, _ :: _) => none
  | fuel + 1, (s, cur :: q) => bfsLoop cost nbs fuel (expand cost fifoPush nbs cur (s, q))

end Verif.Search
