import Verif.Model.Task
import Mathlib.LinearAlgebra.CrossProduct

/-!
# Model of acrobotics/io.py

The json files enter as typed dictionaries: a key that is absent is `none` and looking it up raises
KeyError.  Positions, end points, mid points and axes are vectors of three numbers; `rpy` and the
tolerance lists have any length.  `load_task`, `load_settings` and the reading of the file in
`import_paths` only hand over what the json library read; they are not modelled further.
-/

namespace Verif.Io

open Matrix Verif.Util Verif.Path Verif.Geometry Verif.Task

noncomputable section

/-- `d[key]` (io.py:85-105) -/
def key {α : Type} (v : Option α) : Except PyErr α :=
  match v with
  | some a => .ok a
  | none => .error .keyError

/-- io.py:18 and 23: `rot_x(rpy[0]) @ rot_y(rpy[1]) @ rot_z(rpy[2])` -/
def rpyMatrix (rpy : List ℝ) : Except PyErr M3 := do
  let a ← pyGet rpy 0
  let b ← pyGet rpy 1
  let c ← pyGet rpy 2
  .ok (rotX a * rotY b * rotZ c)

/-- io.py:15-19 -/
def createTransform (xyz rpy : List ℝ) : Except PyErr M4 := do
  let v ← assign3 xyz
  let tf := setPos 1 v
  let R ← rpyMatrix rpy
  .ok (setRot tf R)

/-- io.py:22-24 -/
def rpyToQuaternion (rpy : List ℝ) : Except PyErr Quat := do
  let R ← rpyMatrix rpy
  Quat.ofRotation R

/-- `np.linspace(a, b, n)` for two points: row by row. (io.py:28) -/
def linspaceV (a b : V3) (n : Int) : Except PyErr (List V3) :=
  if n < 0 then .error .valueError
  else .ok ((List.range n.toNat).map fun (i : Nat) => a + (i : ℝ) • ((1 / ((n : ℝ) - 1)) • (b - a)))

/-- `{"xyz": …, "rpy": …}` (io.py:28, 100) -/
structure Pose where
  xyz : Option V3
  rpy : Option (List ℝ)

/-- io.py:27-28 -/
def createLine (startPose : Pose) (endPoint : V3) (numPoints : Int) : Except PyErr (List V3) := do
  let s ← key startPose.xyz
  linspaceV s endPoint numPoints

/-- `norm(axis)` (io.py:32) -/
def norm (v : V3) : ℝ := Real.sqrt (v ⬝ᵥ v)

/-- io.py:38-40: the point for one angle. -/
def circlePoint (e c v : V3) (a : ℝ) : V3 :=
  let vRot := Real.cos a • v + Real.sin a • (e ⨯₃ v)
  let vRot := vRot + ((1 - Real.cos a) * (e ⬝ᵥ v)) • e
  c + vRot

/-- io.py:31-41.  An axis of length zero gives `nan` in the code; here division by zero gives zero,
and the properties exclude that case. -/
def createCircle (mid start axis : V3) (numPoints : Int) : Except PyErr (List V3) := do
  let e : V3 := (1 / norm axis) • axis
  let c := mid
  let v := start - c
  let angle ← linspace 0 (2 * Real.pi) numPoints
  .ok (angle.map fun a => circlePoint e c v a)

/-- io.py:44-45 -/
def createOrientationFreePath (pos : List V3) : List PathPt :=
  pos.map fun pi => .free (FreeOrientationPt.new pi)

/-- io.py:54-57 and 76-79: one entry. -/
def symmetricEntry (pi tol : ℝ) : Except PyErr Entry :=
  if tol > 0 then (TolNum.new (pi - tol) (pi + tol)).map .tol else .ok (.num pi)

/-- The numbers of a position array. (io.py:44-58) -/
def coords (p : V3) : List ℝ := [p 0, p 1, p 2]

/-- io.py:48-59 -/
def createSymmetricPositionTolerance (pos : List V3) (rpy posTol : List ℝ) :
    Except PyErr (List PathPt) := do
  let q ← rpyToQuaternion rpy
  pos.mapM fun pNominal => do
    let xyz ← ((coords pNominal).zip posTol).mapM fun pt => symmetricEntry pt.1 pt.2
    let pt ← TolPositionPt.new xyz q
    .ok (.position pt)

/-- io.py:62-66; `np.deg2rad(v)` is `v π / 180`. -/
def guessAngleUnit (val : ℝ) : ℝ :=
  if val > 10 then val * (Real.pi / 180) else val

/-- io.py:69-81 -/
def createSymmetricEulerTolerance (pos : List V3) (rpy rpyTol : List ℝ) :
    Except PyErr (List PathPt) := do
  let rpy := rpy.map guessAngleUnit
  let rpyTol := rpyTol.map guessAngleUnit
  pos.mapM fun pNominal => do
    let rpyInput ← (rpy.zip rpyTol).mapM fun pt => symmetricEntry pt.1 pt.2
    let pt ← TolEulerPt.new ((coords pNominal).map .num) rpyInput
    .ok (.euler pt)

/-- The description of a path: the keys that `parse_path` looks up. (io.py:84-105) -/
structure PathDict where
  type : Option String := none
  startPose : Option Pose := none
  endPoint : Option V3 := none
  numPoints : Option Int := none
  mid : Option V3 := none
  start : Option V3 := none
  axis : Option V3 := none
  tolerance : Option String := none
  xyzTol : Option (List ℝ) := none
  rpyTol : Option (List ℝ) := none

/-- The description of a shape. (io.py:114-124) -/
structure ShapeDict where
  type : Option String := none
  size : Option (List ℝ) := none
  xyz : Option (List ℝ) := none
  rpy : Option (List ℝ) := none

/-- The content of a task file. (io.py:85, 128) -/
structure TaskDict where
  path : Option PathDict := none
  obstacles : Option (List ShapeDict) := none

/-- io.py:87-94: the positions. -/
def parsePositions (pd : PathDict) : Except PyErr (List V3) := do
  let ty ← key pd.type
  if ty = "LINE" then do
    let sp ← key pd.startPose
    let ep ← key pd.endPoint
    let n ← key pd.numPoints
    createLine sp ep n
  else if ty = "CIRC" then do
    let mid ← key pd.mid
    let start ← key pd.start
    let axis ← key pd.axis
    let n ← key pd.numPoints
    createCircle mid start axis n
  else .error .exception

/-- io.py:96-109: the path points. -/
def parseTolerance (pd : PathDict) (pos : List V3) : Except PyErr (List PathPt) := do
  let tol ← key pd.tolerance
  if tol = "orientation_free" then .ok (createOrientationFreePath pos)
  else if tol = "position_tolerance" then do
    let sp ← key pd.startPose
    let rpy ← key sp.rpy
    let xyzTol ← key pd.xyzTol
    createSymmetricPositionTolerance pos rpy xyzTol
  else if tol = "euler_tolerance" then do
    let sp ← key pd.startPose
    let rpy ← key sp.rpy
    let rpyTol ← key pd.rpyTol
    createSymmetricEulerTolerance pos rpy rpyTol
  else .error .exception

/-- io.py:84-111 -/
def parsePath (d : TaskDict) : Except PyErr (List PathPt) := do
  let pd ← key d.path
  let pos ← parsePositions pd
  parseTolerance pd pos

/-- `Shape(*size)`: any number of sides other than three is a TypeError. (io.py:115) -/
def shapeOf (size : List ℝ) : Except PyErr Shape :=
  match size with
  | [dx, dy, dz] => .ok ⟨dx, dy, dz⟩
  | _ => .error .typeError

/-- io.py:114-117 -/
def createBox (d : ShapeDict) : Except PyErr (Shape × M4) := do
  let size ← key d.size
  let box ← shapeOf size
  let xyz ← key d.xyz
  let rpy ← key d.rpy
  let tf ← createTransform xyz rpy
  .ok (box, tf)

/-- io.py:120-124 -/
def parseShape (d : ShapeDict) : Except PyErr (Shape × M4) := do
  let ty ← key d.type
  if ty = "box" then createBox d else .error .exception

/-- io.py:129-134: the loop with its two lists. -/
def obstacleLoop : List ShapeDict → List Shape → List M4 → Except PyErr (List Shape × List M4)
  | [], shapes, tfs => .ok (shapes, tfs)
  | d :: ds, shapes, tfs => do
    let r ← parseShape d
    obstacleLoop ds (shapes ++ [r.1]) (tfs ++ [r.2])

/-- io.py:127-136 -/
def parseObstacles (d : TaskDict) : Except PyErr (Collection Shape) := do
  let od ← key d.obstacles
  let r ← obstacleLoop od [] []
  .ok ⟨r.1, r.2⟩

/-- io.py:139-142 -/
def parseTaskData (data : TaskDict) : Except PyErr (PlanningTask Shape) := do
  let path ← parsePath data
  let scene ← parseObstacles data
  .ok (PlanningTask.new path (some scene))

/-- io.py:162-163: the loop. -/
def importLoop : List PathDict → List (List PathPt) → Except PyErr (List (List PathPt))
  | [], paths => .ok paths
  | p :: ps, paths => do
    let r ← parsePath { path := some p }
    importLoop ps (paths ++ [r])

/-- io.py:157-164; the argument is the value of the key `"paths"` in the file. -/
def importPaths (paths : Option (List PathDict)) : Except PyErr (List (List PathPt)) := do
  let ps ← key paths
  importLoop ps []

end

end Verif.Io
