import Verif.Model.Path
import Verif.Model.Geometry

/-! # Model of the class PlanningTask (acrobotics/planning.py:23-50) -/

namespace Verif.Task

open Verif.Path Verif.Geometry

noncomputable section

/-- planning.py:24-38: the attributes.  `scene = none` means that the attribute does not exist. -/
structure PlanningTask (S : Type) where
  path : List PathPt
  hasObstacles : Bool
  scene : Option (Collection S)
  optBasedMaxIters : Nat
  gridBasedIters : Nat
  gridSamples : Nat
  iterative : Bool
  method : String
  qpInit : List (List ℝ)

/-- planning.py:24-38 `PlanningTask.__init__` -/
def PlanningTask.new {S : Type} (path : List PathPt) (scene : Option (Collection S) := none) :
    PlanningTask S where
  path := path
  hasObstacles := scene.isSome
  scene := scene
  optBasedMaxIters := 100
  gridBasedIters := 3
  gridSamples := 500
  iterative := false
  method := "grid"
  qpInit := List.replicate path.length (List.replicate 6 0)

/-- The array given to `set_initial_path`: one- or two-dimensional, or of another dimension.
(planning.py:40-50) -/
inductive InitArray where
  | vec (q : List ℝ)
  | mat (q : List (List ℝ))
  | other

/-- planning.py:40-50 `set_initial_path` -/
def PlanningTask.setInitialPath {S : Type} (t : PlanningTask S) (q : InitArray) :
    Except PyErr (PlanningTask S) :=
  match q with
  | .vec q => .ok { t with qpInit := List.replicate t.path.length q }
  | .mat q =>
    if q.length = t.path.length then .ok { t with qpInit := q } else .error .assertionError
  | .other => .error .exception

end

end Verif.Task
