import Verif.Model.Tasks
import Verif.Model.Urdf

/-!
# The scene files of the editor and the script that wrote one of them

The five files of examples/scenes all have the shape that `export_urdf` writes: the link `world`,
then for each box a link and a fixed joint from `world` without rotation.
-/

namespace Verif.Examples

open Verif.Geometry Verif.Util Verif.Urdf Verif.Io

noncomputable section

/-- A file with these boxes. (scenes/circle.urdf:1-30, and likewise the other four) -/
def sceneFile (name : String) (bs : List BoxData) : Doc :=
  urdfTemplate name (bs.flatMap fun b => [boxTemplate b, jointTemplate b])

/-- examples/scenes/circle.urdf:1-30 -/
def circleUrdf : Doc := sceneFile "circle" [⟨"shape_0", ![0.5, 0.5, 0.1], ![0.8, 0, 0.02]⟩]

/-- examples/scenes/small_passage.urdf:1-70 -/
def smallPassageUrdf : Doc := sceneFile "small_passage"
  [⟨"shape_0", ![0.1, 0.03, 0.2], ![0.7325, 0, 0]⟩, ⟨"shape_1", ![0.1, 0.03, 0.2], ![0.8675, 0, 0]⟩,
   ⟨"shape_2", ![0.035, 0.03, 0.1], ![0.8, 0, 0.05]⟩]

/-- examples/scenes/path_in_box.urdf:1-110 -/
def pathInBoxUrdf : Doc := sceneFile "halfopen_box"
  [⟨"shape_0", ![1.6, 0.8, 0.01], ![0, 0, 0.005]⟩, ⟨"shape_1", ![1.6, 0.8, 0.01], ![0, 0, 1.015]⟩,
   ⟨"shape_2", ![1.58, 0.01, 1.0], ![0, 0.395, 0.51]⟩,
   ⟨"shape_3", ![0.01, 0.8, 1.0], ![0.795, 0, 0.51]⟩,
   ⟨"shape_4", ![0.01, 0.8, 1.0], ![-0.795, 0, 0.51]⟩]

/-- examples/scenes/torch_obstacle.urdf:1-90 -/
def torchObstacleUrdf : Doc := sceneFile "torch_obstacle"
  [⟨"shape_0", ![0.5, 0.5, 0.1], ![0.6000000000000001, 0, 0.05]⟩,
   ⟨"shape_1", ![0.1, 0.5, 0.01], ![0.8, 0, 0.10500000000000001]⟩,
   ⟨"shape_2", ![0.01, 0.5, 0.1], ![0.8450000000000001, 0, 0.16000000000000003]⟩,
   ⟨"shape_3", ![0.05, 0.1, 0.05], ![0.775, 0, 0.135]⟩]

/-- examples/scenes/industrial_1.urdf:1-130.  The robot of the file is called kingpin. -/
def industrial1Urdf : Doc := sceneFile "kingpin"
  [⟨"u_profile", ![0.2, 0.5, 0.1], ![1.1, 0, 0.05]⟩,
   ⟨"obstacle", ![0.2, 0.0833333333333, 0.01], ![0.85, 0, 0.005]⟩,
   ⟨"table", ![0.7, 0.7, 0.01], ![0.85, 0, -0.005]⟩,
   ⟨"side_1", ![0.3, 0.1, 0.055], ![0.85, 0.2, 0.0275]⟩,
   ⟨"side_2", ![0.3, 0.1, 0.055], ![0.85, -0.2, 0.0275]⟩,
   ⟨"u_profile_2", ![0.2, 0.5, 0.1], ![0.6, 0, 0.05]⟩]

/-- task_to_urdf.py:14-22 with `dir` for the folder that is written in the script: load the small
passage and export its scene.  The plot that follows (24-29) is left out. -/
def taskToUrdf (dir : String) (files : Files) : Except PyErr Files := do
  let task ← parseTaskData smallPassage2
  match task.scene with
  | some scene => .ok (exportUrdf scene "small_passage" dir files)
  | none => .error .attributeError

end

end Verif.Examples
