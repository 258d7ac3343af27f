import Verif.Model.Aliasing
import Verif.Model.Gui
import Verif.Model.Io
import Verif.Model.Resources
import Verif.Model.Scenes
import Verif.Model.TaskPlot
import Verif.Model.Urdf

/-!
# Model of examples/path_in_box.py and examples/multiple_paths.py

The rail robot that path_in_box.py:18-22 sets up is not used afterwards and is left out.
-/

namespace Verif.Examples

open Matrix Verif Verif.Path Verif.Geometry Verif.Kin Verif.Task Verif.Util Verif.Resources Verif.Io

noncomputable section

/-- path_in_box.py:24-25 `bot_2`; `n` is the address of the array of its wrist. -/
def boxKuka (n : Nat) : Kuka :=
  { Kuka.new 0.18 0.6 0.62 0.115 n with
    robot := { (Kuka.new 0.18 0.6 0.62 0.115 n).robot with tool := some torch } }

/-- path_in_box.py:29-30: what is printed. -/
def boxPrints : Except PyErr (List (List ℝ)) := do
  let path ← weldPath1 0.8 1.6 0.01 0.1 10
  .ok (path.map fun pt => pt.rpyNom)

/-- path_in_box.py:34: the editor on `bot_2`, whose state is `rob`. -/
def boxEditor (rob : RState × RState × Mem) : Gui.Editor (RState × Mem) := Gui.Editor.new rob

/-- What the editor reads from a disk with scene files `urdf` and task files `json`.
(task_editor.py:128, 132) -/
def diskFiles (urdf : Urdf.Files) (json : String → Option (List PathDict)) : Gui.Files where
  scenes name := ShortestPath.liftPy (Urdf.importUrdf urdf name)
  paths name := ShortestPath.liftPy (importPaths (json name))

/-- multiple_paths.py:8-15: what is on the axes. -/
def multiplePaths : Except PyErr (List TaskPlot.Mark) := do
  let task ← parseTaskData lineXTol
  TaskPlot.plotTask task

end

end Verif.Examples
