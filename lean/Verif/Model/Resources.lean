import Verif.Model.Robot
import Verif.Model.Path

/-!
# Model of the other modules in acrobotics/resources

`torch_model.py`, `workpiece_model.py` and `path_on_table.py`: module-level data.  Numbers that the
modules give names to are parameters, and the shipped values follow.  The blocks below
`if __name__ == "__main__"` (plots) are not modelled.
-/

namespace Verif.Resources

open Matrix Verif.Util Verif.Geometry Verif.Kin Verif.Path

noncomputable section

/-! ## torch_model.py -/

/-- torch_model.py:14 -/
def torchAngle1 : ℝ := 11.3 * Real.pi / 180

/-- torch_model.py:15 -/
def torchAngle2 : ℝ := -31.5 * Real.pi / 180

/-- torch_model.py:17-21 `pos_data` -/
def torchPos (angle2 : ℝ) : Fin 5 → V3 :=
  ![![0.035, 0, 0], ![-0.02, 0.15, 0], ![0.085, 0.075, 0], ![0.15, 0.15, 0],
    ![0.25, 0.15 + Real.sin angle2 * 0.05, 0]]

/-- torch_model.py:23-27 -/
def torchShapes : List Shape :=
  [⟨0.08, 0.08, 0.08⟩, ⟨0.18, 0.075, 0.075⟩, ⟨0.03, 0.22, 0.07⟩, ⟨0.10, 0.025, 0.025⟩,
   ⟨0.10, 0.025, 0.025⟩]

/-- torch_model.py:32-71: the transforms and the tip, with the two angles as parameters. -/
def torchOf (angle1 angle2 : ℝ) : Tool Shape :=
  -- 32-44
  let tf1 := setPos 1 (torchPos angle2 0)
  let tf2 := setPos 1 (torchPos angle2 1)
  let tf3 := setPos 1 (torchPos angle2 2)
  let tf4 := setPos 1 (torchPos angle2 3)
  let tf5 := setPos 1 (torchPos angle2 4)
  let R2 := rotZ angle2
  let tf5 := setRot tf5 R2
  let toolTip := setPos 1 (torchPos angle2 4 + R2 *ᵥ ![0.05 + 0.01, 0, 0])
  let toolTip := setRot toolTip R2
  -- 47-53
  let tfRotate := setRot 1 (rotZ angle1)
  let tf2 := tfRotate * tf2
  let tf3 := tfRotate * tf3
  let tf4 := tfRotate * tf4
  let tf5 := tfRotate * tf5
  let toolTip := tfRotate * toolTip
  -- 56
  let toolTip := setRot toolTip (rotPart toolTip * rotY (Real.pi / 2))
  -- 59-69
  let tfs := [tf1, tf2, tf3, tf4, tf5]
  let tfTool := setRot 1 (rotY (-Real.pi / 2) * rotX (-Real.pi / 2))
  let toolTip := tfTool * toolTip
  let tfs := tfs.map fun t => tfTool * t
  -- 71
  { s := torchShapes, tfS := tfs, tfTT := toolTip }

/-- torch_model.py:71 `torch` -/
def torch : Tool Shape := torchOf torchAngle1 torchAngle2

/-! ## workpiece_model.py -/

/-- workpiece_model.py:11-31: a box of inner height `h`, width `w`, length `l` and wall thickness
`t`, open on one side. -/
def workpieceOf (h w l t : ℝ) : Collection Shape where
  s := [⟨l, w, t⟩, ⟨l, w, t⟩, ⟨l - 2 * t, t, h⟩, ⟨t, w, h⟩, ⟨t, w, h⟩]
  tfS := [poseX 0 0 0 (t / 2),
          poseX 0 0 0 (h + 3 * t / 2),
          poseX 0 0 (w / 2 - t / 2) (h / 2 + t),
          poseX 0 (l / 2 - t / 2) 0 (h / 2 + t),
          poseX 0 (-l / 2 + t / 2) 0 (h / 2 + t)]

/-- workpiece_model.py:31 `workpiece` -/
def workpiece : Collection Shape := workpieceOf 1.0 0.8 1.6 0.01

/-- workpiece_model.py:41-43: one path point. -/
def weldPoint (pStart pGoal : V3) (rpy : V3) (pOffset : V3) (tolRx tolRz : TolNum) (par : ℝ) :
    Except PyErr TolEulerPt :=
  let pi : V3 := (1 - par) • pStart + par • pGoal + pOffset
  TolEulerPt.new [.num (pi 0), .num (pi 1), .num (pi 2)] [.tol tolRx, .num (rpy 1), .tol tolRz]

/-- workpiece_model.py:34-45 `create_weld_line`.  Positions and angles are vectors of three
numbers. -/
def createWeldLine (pStart pGoal : V3) (rpy : V3) (pOffset : V3) (n : Int) :
    Except PyErr (List TolEulerPt) := do
  let tolRx ← TolNum.new (rpy 0 - 0.5) (rpy 0 + 0.5) none 3
  let tolRz ← TolNum.new (rpy 2 - Real.pi) (rpy 2 + Real.pi) none 10
  let pars ← linspace 0 1 n
  pars.mapM (weldPoint pStart pGoal rpy pOffset tolRx tolRz)

/-- workpiece_model.py:49-55 `path`, with the dimensions and the number of points as
parameters. -/
def weldPath1 (w l t marge : ℝ) (n : Int) : Except PyErr (List TolEulerPt) :=
  createWeldLine ![-l / 2 + t + marge, w / 2 - t, t] ![l / 2 - t - marge, w / 2 - t, t]
    ![-3 * Real.pi / 4, 0, Real.pi] ![0, -0.04, 0.04] n

/-- workpiece_model.py:57-63 `path2` -/
def weldPath2 (w l t marge : ℝ) (n : Int) : Except PyErr (List TolEulerPt) :=
  createWeldLine ![-l / 2 + t, -w / 2 + marge, t] ![-l / 2 + t, w / 2 - t - marge, t]
    ![0, -3 * Real.pi / 4, Real.pi / 2] ![0.04, 0, 0.04] n

/-- workpiece_model.py:65-71 `path3` -/
def weldPath3 (w l t marge : ℝ) (n : Int) : Except PyErr (List TolEulerPt) :=
  createWeldLine ![l / 2 - t, -w / 2 + marge, t] ![l / 2 - t, w / 2 - t - marge - 0.4, t]
    ![0, 3 * Real.pi / 4, Real.pi / 2] ![-0.04, 0, 0.04] n

/-- workpiece_model.py:48-71: the three paths with the shipped numbers. -/
def workpiecePaths : Except PyErr (List TolEulerPt × List TolEulerPt × List TolEulerPt) := do
  let path ← weldPath1 0.8 1.6 0.01 0.1 10
  let path2 ← weldPath2 0.8 1.6 0.01 0.1 6
  let path3 ← weldPath3 0.8 1.6 0.01 0.1 6
  .ok (path, path2, path3)

/-! ## path_on_table.py -/

/-- path_on_table.py:17-21: one point of the first path. -/
def sinusPoint (q1 : Quat) (dx s : ℝ) : Except PyErr TolPositionPt := do
  let xi := 0.8 + 0.1 * Real.sin (2 * Real.pi * s)
  let xt ← TolNum.new (xi - dx) (xi + dx)
  let yi := s * 0.2 + (1 - s) * (-0.2)
  let zi := 0.2
  TolPositionPt.new [.tol xt, .num yi, .num zi] q1

/-- path_on_table.py:12-21 `path_pos_tol`, with the number of points as a parameter. -/
def pathPosTol (n : Int) : Except PyErr (List TolPositionPt) := do
  let q1 ← Quat.ofAxisAngle ![0, 1, 0] Real.pi
  let dx := 0.05
  let ss ← linspace 0 1 n
  ss.mapM (sinusPoint q1 dx)

/-- path_on_table.py:24-29 `path_ori_free`, with the number of points as a parameter. -/
def pathOriFree (n : Int) : Except PyErr (List FreeOrientationPt) := do
  let ss ← linspace 0 1 n
  .ok (ss.map fun s => FreeOrientationPt.new ![0.8, s * 0.2 + (1 - s) * (-0.2), 0.2])

/-- path_on_table.py:32-33 and 45 `scene1` -/
def scene1 : Collection Shape where
  s := [⟨0.5, 0.5, 0.1⟩]
  tfS := [!![1, 0, 0, 0.80; 0, 1, 0, 0.00; 0, 0, 1, 0.12; 0, 0, 0, 1]]

/-- path_on_table.py:49-57 `scene2` -/
def scene2 : Collection Shape where
  s := [⟨0.5, 0.25, 0.1⟩, ⟨0.1, 0.1, 0.1⟩, ⟨0.1, 0.1, 0.1⟩]
  tfS := [!![1, 0, 0, 0.80; 0, 1, 0, 0.25; 0, 0, 1, 0.13; 0, 0, 0, 1],
          !![1, 0, 0, 0.80; 0, 1, 0, -0.1; 0, 0, 1, 0.32; 0, 0, 0, 1],
          !![1, 0, 0, 0.80; 0, 1, 0, -0.1; 0, 0, 1, 0.08; 0, 0, 0, 1]]

end

end Verif.Resources
