import Verif.Spec.Rigid
import Verif.Py

/-!
# Model of acrobotics/geometry.py

Numbers are reals.  The collision library fcl enters as an oracle: the answer for two placed
boxes.  `fcl.Transform(tf[:3,:3], tf[:3,3])` uses only the rotation block and the position, so the
oracle gets exactly these (`Placed`).  The request and result objects (geometry.py:31-32) only pass
data through to fcl.  The 8 × 3 and 12 × 6 arrays are functions of the row.
-/

namespace Verif.Geometry

open Matrix

noncomputable section

/-- geometry.py:6-8 `tf_apply` -/
def tfApply (tf : M4) (v : V3) : V3 := rotPart tf *ᵥ v + posPart tf

/-- geometry.py:26-32: the sides of a box. -/
structure Shape where
  dx : ℝ
  dy : ℝ
  dz : ℝ

/-- geometry.py:34-49 `get_vertices` -/
def Shape.getVertices (s : Shape) (tf : M4) : Fin 8 → V3 :=
  let a := s.dx / 2
  let b := s.dy / 2
  let c := s.dz / 2
  ![tfApply tf ![-a, b, c],
    tfApply tf ![-a, b, -c],
    tfApply tf ![-a, -b, c],
    tfApply tf ![-a, -b, -c],
    tfApply tf ![a, b, c],
    tfApply tf ![a, b, -c],
    tfApply tf ![a, -b, c],
    tfApply tf ![a, -b, -c]]

/-- geometry.py:51-68 `get_edges`; a row of six numbers is a pair of points. -/
def Shape.getEdges (s : Shape) (tf : M4) : Fin 12 → V3 × V3 :=
  let v := s.getVertices tf
  ![(v 0, v 1), (v 1, v 3), (v 3, v 2), (v 2, v 0),
    (v 0, v 4), (v 1, v 5), (v 3, v 7), (v 2, v 6),
    (v 4, v 5), (v 5, v 7), (v 7, v 6), (v 6, v 4)]

/-- geometry.py:70-79 `get_normals` -/
def getNormals (tf : M4) : Fin 6 → V3 :=
  let R := rotPart tf
  ![R *ᵥ ![1, 0, 0], R *ᵥ ![-1, 0, 0], R *ᵥ ![0, 1, 0], R *ᵥ ![0, -1, 0], R *ᵥ ![0, 0, 1],
    R *ᵥ ![0, 0, -1]]

/-- geometry.py:11 -/
structure Polyhedron where
  A : Fin 6 → V3
  b : Fin 6 → ℝ

/-- geometry.py:81-86 `get_polyhedron` -/
def Shape.getPolyhedron (s : Shape) (tf : M4) : Polyhedron :=
  let A := getNormals tf
  let b : Fin 6 → ℝ := ((0.5 : ℝ)) • ![s.dx, s.dx, s.dy, s.dy, s.dz, s.dz]
  { A := A, b := fun i => b i + A i ⬝ᵥ posPart tf }

/-- What fcl sees of a placed shape: the shape, `tf[:3,:3]` and `tf[:3,3]`. (geometry.py:89-93) -/
structure Placed (S : Type) where
  shape : S
  rot : M3
  pos : V3

/-- The answer of `fcl.collide` for two placed shapes. (geometry.py:95) -/
abbrev Oracle (S : Type) := Placed S → Placed S → Bool

variable {S : Type}

/-- `fcl.CollisionObject(shape, fcl.Transform(tf[:3,:3], tf[:3,3]))` (geometry.py:89-93) -/
def place (s : S) (tf : M4) : Placed S := ⟨s, rotPart tf, posPart tf⟩

/-- geometry.py:88-95 `Shape.is_in_collision` -/
def shapeInCollision (hit : Oracle S) (s : S) (tf : M4) (other : S) (tfOther : M4) : Bool :=
  hit (place s tf) (place other tfOther)

/-- geometry.py:97-101 `Shape.is_in_collision_multi`: the call in the loop lacks two required
arguments. -/
def shapeInCollisionMulti (_s : S) (others : List S) : Except PyErr Bool :=
  match others with
  | [] => .ok false
  | _ :: _ => .error .typeError

/-- geometry.py:132-139: shapes and their transforms. -/
structure Collection (S : Type) where
  s : List S
  tfS : List M4

/-- geometry.py:173-175: the inner loop. -/
def innerLoop (hit : Oracle S) (tf1 : M4) (shape1 : S) : List (M4 × S) → Bool
  | [] => false
  | (tf2, shape2) :: rest =>
    if shapeInCollision hit shape1 tf1 shape2 tf2 then true else innerLoop hit tf1 shape1 rest

/-- geometry.py:172-176: both loops. -/
def outerLoop (hit : Oracle S) : List (M4 × S) → List (M4 × S) → Bool
  | [], _ => false
  | (tf1, shape1) :: rest, others =>
    if innerLoop hit tf1 shape1 others then true else outerLoop hit rest others

/-- geometry.py:165-169: move the transforms if a transform is given. -/
def moved (tf : Option M4) (tfs : List M4) : List M4 :=
  match tf with
  | some T => tfs.map fun t => T * t
  | none => tfs

/-- geometry.py:161-176 `Collection.is_in_collision`; `zip` stops at the shorter list. -/
def Collection.isInCollision (hit : Oracle S) (self other : Collection S)
    (tfSelf : Option M4 := none) (tfOther : Option M4 := none) : Bool :=
  let tfShapesSelf := moved tfSelf self.tfS
  let tfShapesOther := moved tfOther other.tfS
  outerLoop hit (tfShapesSelf.zip self.s) (tfShapesOther.zip other.s)

/-- geometry.py:154-159 `get_polyhedrons` -/
def Collection.getPolyhedrons (c : Collection Shape) : List Polyhedron :=
  (c.s.zip c.tfS).map fun st => st.1.getPolyhedron st.2

end

end Verif.Geometry
