import Mathlib.Data.List.Basic

/-!
# The pointers in a `Graph` (`acrobotics/cpp/include/graph.h`, `acrobotics/cpp/src/graph.cpp`)

`Model/CppGraph.lean` keeps in a node the joint values themselves and the parent node.  In the
program a node holds two addresses (graph.h:33, 35): that of a row of `gd` and that of a node of
`na`.  Here the addresses are explicit.  A `std::vector` owns one buffer; a buffer has a number
that is never used again; an address is a buffer and an index.  `push_back` on a full vector moves
the elements to a new buffer and frees the old one, so addresses into the old one are dangling.
The outer vectors of `gd` and `na` move their inner vectors when they grow, and a moved vector
keeps its buffer, so only the buffers of the inner vectors matter.

What the searches compute is left out (it is in `Model/CppGraph.lean`): a run may store in every
node the address of any node there is.  Distances, flags and weights are left out too.
-/

namespace Verif.CppPointers

/-- An address: a buffer and an index into it. (graph.h:33, 35) -/
structure Ptr where
  buf : Nat
  idx : Nat
  deriving DecidableEq

/-- `Node::parent` (graph.h:35): `&DUMMY_NODE`, a global which is always there, or the address of a
node. -/
inductive Par where
  | dummy
  | node (p : Ptr)
  deriving DecidableEq

/-- A node (graph.h:29-37) without `dist` and `visited`. -/
structure Node where
  pathIndex : Nat
  sampleIndex : Nat
  jv : Ptr
  parent : Par
  deriving DecidableEq

/-- A `std::vector`: its buffer, the room in it and its elements.  An empty vector without a buffer
has the number 0. (graph.h:22, 52) -/
structure Vec (β : Type) where
  buf : Nat
  cap : Nat
  items : List β
  deriving DecidableEq

/-- The pointers of a `Graph` object (graph.h:60-61) and the next unused buffer number. -/
structure Graph (F : Type) where
  gd : List (Vec F)
  na : List (Vec Node)
  next : Nat
  deriving DecidableEq

variable {F : Type}

/-- A default-constructed `Graph`. (graph.h:58-68) -/
def Graph.new : Graph F := ⟨[], [], 1⟩

/-- `push_back` (behind graph.cpp:137).  `grow n` is the room the library asks for when a vector of
`n` elements is full; libstdc++ doubles. -/
def Vec.push {β : Type} (grow : Nat → Nat) (v : Vec β) (x : β) (next : Nat) : Vec β × Nat :=
  if v.items.length < v.cap then (⟨v.buf, v.cap, v.items ++ [x]⟩, next)
  else (⟨next, grow v.items.length, v.items ++ [x]⟩, next + 1)

/-- graph.cpp:271-286 `add_data_column`: a copy of the new column goes to the end of `gd`, in a
buffer of its own. -/
def Graph.addColumn (g : Graph F) (rows : List F) : Graph F :=
  ⟨g.gd ++ [⟨g.next, rows.length, rows⟩], g.na, g.next + 1⟩

/-- graph.cpp:451-454 `set_graph_data`: `gd` is assigned.  Every column gets a buffer of its own and
the old ones are gone.  (An implementation may use an old buffer again for new values.) -/
def Graph.setData (g : Graph F) (data : List (List F)) : Graph F :=
  data.foldl Graph.addColumn ⟨[], g.na, g.next⟩

/-- graph.cpp:136: the node for row `j` of column `i` whose rows are in the buffer `b`. -/
def newNode (i b j : Nat) : Node := ⟨i, j, ⟨b, j⟩, .dummy⟩

/-- graph.cpp:136-137: a node is appended to column `i` of `na`. -/
def Graph.pushNode (grow : Nat → Nat) (i b : Nat) (g : Graph F) (j : Nat) : Graph F :=
  match g.na[i]? with
  | none => g
  | some v => ⟨g.gd, g.na.set i (v.push grow (newNode i b j) g.next).1,
      (v.push grow (newNode i b j) g.next).2⟩

/-- graph.cpp:132-138: an empty column at the end of `na`, then the nodes of column `i`. -/
def Graph.pushColumn (grow : Nat → Nat) (g : Graph F) (x : Vec F × Nat) : Graph F :=
  (List.range x.1.items.length).foldl (Graph.pushNode grow x.2 x.1.buf)
    ⟨g.gd, g.na ++ [⟨0, 0, []⟩], g.next⟩

/-- graph.cpp:128-140 `graph_data_to_node_array`, called by `init` (graph.cpp:290). -/
def Graph.init (grow : Nat → Nat) (g : Graph F) : Graph F :=
  g.gd.zipIdx.foldl (Graph.pushColumn grow) g

/-- The address of node `x.2` of column `x.1`, if there is one. (graph.cpp:34, 83, 215) -/
def Graph.addr (g : Graph F) (x : Nat × Nat) : Option Ptr :=
  (g.na[x.1]?).bind fun v => if x.2 < v.items.length then some ⟨v.buf, x.2⟩ else none

/-- What a search does to the parent of the node at place `j` of column `i`: the nodes of the first
column get `&DUMMY_NODE` (graph.cpp:32, 81), another node the address of the node that `choice`
names (graph.cpp:55, 111), or it keeps the parent it has. -/
def Graph.newParent (g : Graph F) (choice : Nat → Nat → Option (Nat × Nat)) (i j : Nat) (old : Par) :
    Par :=
  if i = 0 then .dummy
  else
    match (choice i j).bind g.addr with
    | some p => .node p
    | none => old

/-- The parents of all nodes set by a function of column, place and old parent. (graph.cpp:55, 111,
149) -/
def Graph.mapParents (g : Graph F) (f : Nat → Nat → Par → Par) : Graph F :=
  ⟨g.gd, g.na.mapIdx fun i v => ⟨v.buf, v.cap, v.items.mapIdx fun j n =>
    ⟨n.pathIndex, n.sampleIndex, n.jv, f i j n.parent⟩⟩, g.next⟩

/-- graph.cpp:21-123: the parents after `multi_source_bfs` or `multi_source_dijkstra`. -/
def Graph.run (g : Graph F) (choice : Nat → Nat → Option (Nat × Nat)) : Graph F :=
  g.mapParents (g.newParent choice)

/-- graph.cpp:142-153 `reset_node_array`. -/
def Graph.reset (g : Graph F) : Graph F := g.mapParents fun _ _ _ => .dummy

/-- The element of a buffer at an address; `none` if the buffer was freed or is too short.
(`*n.jv` at graph.cpp:181-183, `*n.parent` at graph.cpp:394) -/
def deref {β : Type} (l : List (Vec β)) (p : Ptr) : Option β :=
  (l.find? fun v => decide (v.buf = p.buf)).bind fun v => v.items[p.idx]?

/-- The fields of `*n.parent` that `print_node` prints (graph.cpp:394-395); `none` if it reads freed
memory. -/
def Graph.parentLine (g : Graph F) (n : Node) : Option (Nat × Nat) :=
  match n.parent with
  | .dummy => some (0, 0)
  | .node p => (deref g.na p).map fun u => (u.pathIndex, u.sampleIndex)

/-- graph.cpp:443-449 `print_graph`: the parents printed; `none` if freed memory is read. -/
def Graph.printGraph (g : Graph F) : Option (List (List (Nat × Nat))) :=
  g.na.mapM fun v => v.items.mapM g.parentLine

/-- The calls that touch pointers. (graph.h:87-98) -/
inductive Op (F : Type) where
  | addColumn (rows : List F)
  | setData (data : List (List F))
  | init
  | reset
  | run (choice : Nat → Nat → Option (Nat × Nat))

/-- One call. (graph.h:87-98) -/
def Graph.call (grow : Nat → Nat) (g : Graph F) : Op F → Graph F
  | .addColumn rows => g.addColumn rows
  | .setData data => g.setData data
  | .init => g.init grow
  | .reset => g.reset
  | .run choice => g.run choice

/-- A sequence of calls on a new graph. (graph.h:87-98) -/
def history (grow : Nat → Nat) (ops : List (Op F)) : Graph F :=
  ops.foldl (Graph.call grow) Graph.new

end Verif.CppPointers
