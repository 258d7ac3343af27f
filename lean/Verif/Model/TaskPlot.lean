import Verif.Model.Task
import Verif.Model.Plot

/-!
# Model of the plot methods of path.py and planning.py, and of Robot.plot_path

What is put on the axes, in order: markers, and line segments.  Colours are left out, except for the
opacity in `plot_path`, the only thing that tells the configurations apart.
-/

namespace Verif.TaskPlot

open Verif.Geometry Verif.Kin Verif.Path Verif.Task Verif.Plot

noncomputable section

/-- One thing on the axes: a marker "o", or lines. (path.py:106-107, 156, 183, 223, 250) -/
inductive Mark where
  | dot (p : V3)
  | lines (segs : List Seg)

/-- path.py:106 and 156: `ax.plot([p[0]], [p[1]], [p[2]], "o")` -/
def dotOf (p : List ℝ) : Except PyErr Mark := do
  let x ← pyGet p 0
  let y ← pyGet p 1
  let z ← pyGet p 2
  .ok (.dot ![x, y, z])

/-- path.py:105-107 -/
def plotEuler (pt : TolEulerPt) : Except PyErr (List Mark) := do
  let d ← dotOf pt.posNom
  let T ← pt.nominalTransform
  .ok [d, .lines (plotReferenceFrame (some T))]

/-- path.py:105-107, 155-156, 182-183, 222-223 and 249-250 `plot` of the five classes. -/
def plotPoint (pt : PathPt) : Except PyErr (List Mark) :=
  match pt with
  | .euler pt => plotEuler pt
  | .position pt => (dotOf pt.posNom).map fun d => [d]
  | .axisAngle pt => .ok [.dot pt.pos]
  | .free pt => .ok [.dot pt.p]
  | .orientation pt => .ok [.dot pt.p]

/-- planning.py:88-89: the scene, an attribute that only exists when one was given. -/
def plotScene (t : PlanningTask Shape) : Except PyErr (List Mark) :=
  if t.hasObstacles then
    match t.scene with
    | some s => .ok [.lines (plotCollection s none)]
    | none => .error .attributeError
  else .ok []

/-- planning.py:85-89 `PlanningTask.plot` -/
def plotTask (t : PlanningTask Shape) : Except PyErr (List Mark) := do
  let pts ← t.path.mapM plotPoint
  let sc ← plotScene t
  .ok (pts.flatten ++ sc)

/-- robot.py:248-249: the loop; `alpha` holds the opacities that are left. -/
def plotConfigs (r : Robot Shape) : List (List ℝ) → List ℝ → RState →
    Except PyErr (List (ℝ × List Seg)) × RState
  | [], _, st => (.ok [], st)
  | _ :: _, [], st => (.error .indexError, st)
  | q :: qs, a :: as, st =>
    let x := plotRobot r st q
    match x.1 with
    | .error e => (.error e, x.2)
    | .ok segs =>
      let y := plotConfigs r qs as x.2
      (y.1.map fun rest => (a, segs) :: rest, y.2)

/-- robot.py:246-249 `plot_path`: the segments of every configuration with their opacity. -/
def plotPath (r : Robot Shape) (path : List (List ℝ)) (st : RState) :
    Except PyErr (List (ℝ × List Seg)) × RState :=
  match linspace 1 0.2 path.length with
  | .error e => (.error e, st)
  | .ok alpha => plotConfigs r path alpha st

end

end Verif.TaskPlot
