import Verif.Model.Geometry
import Verif.Model.Util

/-!
# Model of acrobotics/urdfio.py

The text of a document is modelled as its element tree: the templates (urdfio.py:15-52) are the
constructors of the tree, `str` of a number followed by reading it back is taken as exact (Python
and numpy print the shortest text that reads back as the same float), and names are taken to be free
of the XML special characters.  The material and the visual element do not take part in the import.
The files of the disk are a function from the file name to the document; opening with `"w"`
replaces the document.  The directory is assumed to exist.

Of the library urdfpy we model what `URDF.load` returns: the links and the joints in document order,
the origin of a joint from its `xyz` and `rpy` (`Rz(yaw) Ry(pitch) Rx(roll)`), `base_link` as the
one link that is not the child of a joint.  It raises ValueError for two links or two joints of the
same name, for a joint with an unknown parent or child, and if there is not exactly one base link.
Its checks that the graph is connected and has no cycle are left out (they cannot fail when all
joints leave from the base link, as in all exported documents).
-/

namespace Verif.Urdf

open Verif Verif.Geometry Verif.Util

noncomputable section

/-- A `<collision>` element: its origin and the size if its geometry is a box.
(urdfio.py:24-29, 102-107) -/
structure Collision where
  origin : M4
  box : Option V3

/-- A `<link>` element. (urdfio.py:16-30, 44) -/
structure Link where
  name : String
  collisions : List Collision

/-- A `<joint>` element. (urdfio.py:34-38) -/
structure Joint where
  name : String
  parent : String
  child : String
  xyz : V3
  rpy : V3

/-- An element of the `<robot>` element. (urdfio.py:42-51) -/
inductive Elem where
  | link (l : Link)
  | joint (j : Joint)

/-- A document. (urdfio.py:42-51) -/
structure Doc where
  name : String
  elems : List Elem

/-- The files of the disk. (urdfio.py:89, 111) -/
abbrev Files := String → Option Doc

/-- urdfio.py:70-75: the dictionary of a box. -/
structure BoxData where
  name : String
  size : V3
  xyz : V3

/-- urdfio.py:15-31 `_box_template` -/
def boxTemplate (b : BoxData) : Elem := .link ⟨b.name, [⟨1, some b.size⟩]⟩

/-- urdfio.py:33-39 `_joint_template` -/
def jointTemplate (b : BoxData) : Elem :=
  .joint ⟨"world_to_" ++ b.name, "world", b.name, b.xyz, ![0, 0, 0]⟩

/-- urdfio.py:41-52 `_urdf_template` -/
def urdfTemplate (name : String) (content : List Elem) : Doc :=
  ⟨name, .link ⟨"world", []⟩ :: content⟩

/-- urdfio.py:60-77 `create_urdf_data`; every `zip` stops at its shortest list. -/
def createUrdfData (scene : Collection Shape) (names : List String) : List BoxData :=
  let pairs := scene.s.zip scene.tfS
  let sizes : List V3 := pairs.map fun st => ![st.1.dx, st.1.dy, st.1.dz]
  let positions : List V3 := pairs.map fun st => posPart st.2
  (names.zip (sizes.zip positions)).map fun r => ⟨r.1, r.2.1, r.2.2⟩

/-- urdfio.py:89 -/
def fileName (path name : String) : String := path ++ "/" ++ name ++ ".urdf"

/-- `open(f, "w")` and `write` (urdfio.py:89-90) -/
def write (files : Files) (f : String) (d : Doc) : Files :=
  fun g => if g = f then some d else files g

/-- urdfio.py:85-90: the loop with the content so far; the file is written in every round. -/
def exportLoop (name path : String) : List BoxData → List Elem → Files → Files
  | [], _, files => files
  | b :: rest, content, files =>
    let content := content ++ [boxTemplate b, jointTemplate b]
    exportLoop name path rest content (write files (fileName path name) (urdfTemplate name content))

/-- urdfio.py:81 -/
def shapeNames (n : Nat) : List String := (List.range n).map fun i => "shape_" ++ toString i

/-- urdfio.py:80-90 `export_urdf` -/
def exportUrdf (scene : Collection Shape) (name path : String) (files : Files) : Files :=
  exportLoop name path (createUrdfData scene (shapeNames scene.s.length)) [] files

/-- urdfio.py:93-107 `parse_link` -/
def parseLink (l : Link) : Except PyErr Shape :=
  match l.collisions with
  | [c] =>
    match c.box with
    | some size => .ok ⟨size 0, size 1, size 2⟩
    | none => .error .assertionError
  | _ => .error .assertionError

/-- The links of a document, in order. (urdfio.py:115) -/
def Doc.links (d : Doc) : List Link :=
  d.elems.filterMap fun e => match e with | .link l => some l | .joint _ => none

/-- The joints of a document, in order. (urdfio.py:123) -/
def Doc.joints (d : Doc) : List Joint :=
  d.elems.filterMap fun e => match e with | .link _ => none | .joint j => some j

/-- urdfpy: the names of the links that are not the child of a joint. (urdfio.py:112) -/
def Doc.baseLinks (d : Doc) : List String :=
  (d.links.map Link.name).filter fun n => ¬ n ∈ d.joints.map Joint.child

/-- urdfpy `URDF.load`: the document and the name of the base link. (urdfio.py:111-112) -/
def load (files : Files) (path : String) : Except PyErr (Doc × String) :=
  match files path with
  | none => .error .fileNotFoundError
  | some d =>
    if (d.links.map Link.name).Nodup ∧ (d.joints.map Joint.name).Nodup ∧
        ∀ j ∈ d.joints, j.parent ∈ d.links.map Link.name ∧ j.child ∈ d.links.map Link.name then
      match d.baseLinks with
      | [root] => .ok (d, root)
      | _ => .error .valueError
    else .error .valueError

/-- urdfpy: the origin of a joint as a matrix. (urdfio.py:125) -/
def Joint.origin (j : Joint) : M4 := mkTf (rotZ (j.rpy 2) * rotY (j.rpy 1) * rotX (j.rpy 0)) j.xyz

/-- urdfio.py:114-119: the dictionary of the shapes by link name. -/
def shapesLoop : List Link → (String → Option Shape) → Except PyErr (String → Option Shape)
  | [], shapes => .ok shapes
  | l :: rest, shapes =>
    if l.collisions.length = 0 then shapesLoop rest shapes
    else do
      let s ← parseLink l
      shapesLoop rest fun n => if n = l.name then some s else shapes n

/-- urdfio.py:121-126: the two lists. -/
def jointsLoop (root : String) (shapes : String → Option Shape) :
    List Joint → List M4 → List Shape → Except PyErr (List M4 × List Shape)
  | [], tfs, fs => .ok (tfs, fs)
  | j :: rest, tfs, fs =>
    if j.parent = root then
      match shapes j.child with
      | some s => jointsLoop root shapes rest (tfs ++ [j.origin]) (fs ++ [s])
      | none => .error .keyError
    else jointsLoop root shapes rest tfs fs

/-- urdfio.py:110-127 `import_urdf` -/
def importUrdf (files : Files) (path : String) : Except PyErr (Collection Shape) := do
  let dr ← load files path
  let shapes ← shapesLoop dr.1.links fun _ => none
  let r ← jointsLoop dr.2 shapes dr.1.joints [] []
  .ok ⟨r.2, r.1⟩

end

end Verif.Urdf
