import Verif.Model.Examples
import Verif.Model.Io

/-!
# The task files of /examples and the scripts that load them

The json library turns a file into dictionaries; those dictionaries are written out here.  Keys that
are never read (`name`) are left out.
-/

namespace Verif.Examples

open Verif.Path Verif.Geometry Verif.Kin Verif.ShortestPath Verif.Search Verif.CppGraph
  Verif.Planning Verif.Task Verif.Util Verif.Io

noncomputable section

variable {W C O : Type} [CostArith C] [JointArith ℝ C]

/-- An obstacle without rotation, as it is written in all the files. (line_orient_free.json:16-21) -/
def boxEntry (size xyz : V3) : ShapeDict where
  type := some "box"
  size := some [size 0, size 1, size 2]
  xyz := some [xyz 0, xyz 1, xyz 2]
  rpy := some [0, 0, 0]

/-- A line with free orientation. (line_orient_free.json:3-13) -/
def freeLine (start stop : V3) (n : Int) : PathDict where
  type := some "LINE"
  tolerance := some "orientation_free"
  startPose := some ⟨some start, some [0, 0, 0]⟩
  endPoint := some stop
  numPoints := some n

/-- examples/line_orient_free.json:1-24 -/
def lineOrientFree : TaskDict where
  path := some (freeLine ![0.8, -0.2, 0.2] ![0.8, 0.2, 0.2] 10)
  obstacles := some [boxEntry ![0.5, 0.5, 0.1] ![0.8, 0, 0.12]]

/-- examples/line_x_tol.json:1-25 -/
def lineXTol : TaskDict where
  path := some { type := some "LINE"
                 tolerance := some "position_tolerance"
                 startPose := some ⟨some ![0.8, -0.2, 0.2], some [0, 0, 0]⟩
                 endPoint := some ![0.8, 0.2, 0.2]
                 xyzTol := some [0.2, 0, 0]
                 numPoints := some 10 }
  obstacles := some [boxEntry ![0.5, 0.5, 0.1] ![0.8, 0, 0.12]]

/-- The passage with its middle at `(x, 0, 0)`: two posts and a lintel.
(small_passage.json:14-34, small_passage_2.json:25-79) -/
def passageEntries (x : ℝ) : List ShapeDict :=
  [boxEntry ![0.1, 0.03, 0.2] ![x - 0.0675, 0, 0], boxEntry ![0.1, 0.03, 0.2] ![x + 0.0675, 0, 0],
   boxEntry ![0.035, 0.03, 0.1] ![x, 0, 0.05]]

/-- examples/small_passage.json:1-36 -/
def smallPassage1 : TaskDict where
  path := some (freeLine ![0, -0.1, 0] ![0, 0.1, 0] 15)
  obstacles := some (passageEntries 0)

/-- examples/small_passage_2.json:1-80 -/
def smallPassage2 : TaskDict where
  path := some (freeLine ![0.8, -0.1, 0] ![0.8, 0.1, 0] 15)
  obstacles := some (passageEntries 0.8)

/-- examples/weld_circle.json:3-11, also examples/tasks/circle.json:3-23 -/
def circleEntry : PathDict where
  type := some "CIRC"
  tolerance := some "orientation_free"
  mid := some ![0.8, 0, 0.1]
  start := some ![0.6, 0, 0.1]
  axis := some ![0, 0, 1]
  numPoints := some 15

/-- examples/weld_circle.json:1-21 -/
def weldCircleTask : TaskDict where
  path := some circleEntry
  obstacles := some [boxEntry ![0.5, 0.5, 0.1] ![0.8, 0, 0.02]]

/-! ## Scripts that solve a loaded task with the incremental planner -/

/-- Load a task, change its settings, solve it, take the path that is animated.
(follow_line_orientation_free.py:11-20, weld_circle.py:19 and 64-71) -/
def solveFile (data : TaskDict) (prepare : PlanningTask Shape → Except PyErr (PlanningTask Shape))
    (arm : Arm W Shape) (pq : PQ C Config) (conv : ℝ → ℝ) (draws : Nat → Nat → Draws)
    (time : Nat → ℝ) (fuel : Nat)
    (optimal : List PathPt → Collection Shape → Nat → List (List ℝ) → Run W O) :
    Run W (List Config) := do
  let task ← Run.lift (liftPy (parseTaskData data))
  let task ← Run.lift (liftPy (prepare task))
  let res ← Planning.PlanningTask.solve task arm pq conv draws time fuel optimal (some "grid_incremental")
  match res with
  | .plan r => Run.lift (liftPy (pathKey r))
  | _ => raise .typeError

/-- follow_line_orientation_free.py:10-20.  The settings that are loaded in line 12 are not used. -/
def followLine (arm : Arm W Shape) (pq : PQ C Config) (conv : ℝ → ℝ) (draws : Nat → Nat → Draws)
    (time : Nat → ℝ) (fuel : Nat)
    (optimal : List PathPt → Collection Shape → Nat → List (List ℝ) → Run W O) :
    Run W (List Config) :=
  solveFile lineOrientFree (fun task => do
    let task ← task.setInitialPath (.vec [0.3, 0, 0, 0, 0, 0])
    .ok { task with optBasedMaxIters := 1000 }) arm pq conv draws time fuel optimal

/-- weld_circle.py:15-71.  The circle of line 18 is commented out, the task is the small passage. -/
def weldCircle (arm : Arm W Shape) (pq : PQ C Config) (conv : ℝ → ℝ) (draws : Nat → Nat → Draws)
    (time : Nat → ℝ) (fuel : Nat)
    (optimal : List PathPt → Collection Shape → Nat → List (List ℝ) → Run W O) :
    Run W (List Config) :=
  solveFile smallPassage2 .ok arm pq conv draws time fuel optimal

/-! ## The files of the editor -/

/-- A line with tolerances on the angles. (tasks/path_in_box.json:3-30) -/
def eulerLine (start stop : V3) (rpy tol : V3) (n : Int) : PathDict where
  type := some "LINE"
  tolerance := some "euler_tolerance"
  rpyTol := some [tol 0, tol 1, tol 2]
  startPose := some ⟨some start, some [rpy 0, rpy 1, rpy 2]⟩
  endPoint := some stop
  numPoints := some n

/-- examples/tasks/small_passage.json:1-26 -/
def tasksSmallPassage : List PathDict := [freeLine ![0.8, -0.1, 0] ![0.8, 0.1, 0] 15]

/-- examples/tasks/circle.json:1-24 -/
def tasksCircle : List PathDict := [circleEntry]

/-- examples/tasks/path_in_box.json:1-31 -/
def tasksPathInBox : List PathDict :=
  [eulerLine ![-0.69, 0.35, 0.05] ![0.69, 0.35, 0.05] ![-2.35619449, 0, 3.14159265]
    ![0.5, 0, 3.1415] 10]

/-- examples/tasks/torch_obstacle.json:1-31 -/
def tasksTorchObstacle : List PathDict :=
  [eulerLine ![0.82585786, -0.25, 0.12414214] ![0.82585786, 0.25, 0.12414214]
    ![0, 2.356194490192345, 0] ![1.5707963267948966, 0, 1.5707963267948966] 10]

/-- examples/tasks/industrial_1.json:1-87, in the order approach_1, weld_1, retract_1 -/
def tasksIndustrial1 : List PathDict :=
  [eulerLine ![0.98, -0.1, 0.05] ![0.99, -0.15, 0] ![135, 20, 0] ![0, 0, 180] 10,
   eulerLine ![0.99, -0.15, 0] ![0.72, -0.1, 0.05] ![-2.35619449, 0, 3.14159265] ![0, 0, 180] 10,
   eulerLine ![0.71, -0.15, 0] ![0.72, -0.1, 0.05] ![135, -20, 0] ![0, 0, 180] 10]

end

end Verif.Examples
