import Verif.Model.Planning
import Verif.Model.Resources

/-!
# Model of the scripts kingpin.py, tool_first_cc.py and iterative_grid_refining.py in /examples

Each script is a program that ends with the path it animates, or with the exception that stops it.
Drawing, printing and saving of files are left out.  The robot is given by its methods (`Arm`); the
scripts use the Kuka of the package, kingpin.py with the torch as its tool.
-/

namespace Verif.Examples

open Verif.Path Verif.Geometry Verif.Kin Verif.ShortestPath Verif.Search Verif.CppGraph
  Verif.Planning Verif.Task Verif.Util Verif.Resources

noncomputable section

variable {W C S : Type} [CostArith C] [JointArith ℝ C]

/-! ## kingpin.py -/

/-- kingpin.py:27 `offset` -/
def kingpinOffset : V3 := ![-0.02 / Real.sqrt 2, 0, 0.02 / Real.sqrt 2]

/-- kingpin.py:23 and 28 `pos_start`, for the numbers of lines 10, 11, 12 and 14 -/
def kingpinStart (width tickness lenght : ℝ) (pos : V3) : V3 :=
  ![pos 0 + width / 2 - tickness, pos 1 - lenght / 2, pos 2 + tickness]

/-- kingpin.py:38 and 41: one point; `posStart` and `posStop` already hold the offset -/
def kingpinPoint (posStart posStop : V3) (ryTol rzTol : TolNum) (s : ℝ) : Except PyErr PathPt :=
  let pos := (1 - s) • posStart + s • posStop
  (TolEulerPt.new [.num (pos 0), .num (pos 1), .num (pos 2)] [.num 0, .tol ryTol, .tol rzTol]).map
    .euler

/-- kingpin.py:22-41 `path` -/
def kingpinPathOf (n : Int) (width tickness lenght : ℝ) (pos : V3) :
    Except PyErr (List PathPt) := do
  let posStart := kingpinStart width tickness lenght pos
  let posStop := posStart + ![0, lenght, 0]
  let posStart := posStart + kingpinOffset
  let posStop := posStop + kingpinOffset
  let rzTol ← TolNum.new (-Real.pi / 2) (Real.pi / 2) none 30
  let ryTol ← TolNum.new (Real.pi / 2) Real.pi (some (Real.pi * 3 / 4)) 20
  let ss ← linspace 0 1 n
  ss.mapM (kingpinPoint posStart posStop ryTol rzTol)

/-- kingpin.py:53-58, 60-67 and 70-77: the matrices with unit rotation -/
def kingpinTf (x y z : ℝ) : M4 := !![1, 0, 0, x; 0, 1, 0, y; 0, 0, 1, z; 0, 0, 0, 1]

/-- kingpin.py:48-79 `scene` -/
def kingpinSceneOf (width tickness lenght height : ℝ) (pos : V3) : Collection Shape where
  s := [⟨0.5, 0.5, 0.1⟩, ⟨width, lenght, tickness⟩, ⟨tickness, lenght, width⟩,
    ⟨width / 2, lenght / 5, height⟩]
  tfS := [kingpinTf (pos 0 - 0.20) (pos 1) (pos 2 - 0.05),
    kingpinTf (pos 0) (pos 1) (pos 2 + tickness / 2),
    kingpinTf (pos 0 + width / 2 - tickness / 2) (pos 1) (pos 2 + width / 2 + tickness),
    kingpinTf (pos 0 - width / 4) (pos 1) (pos 2 + tickness + height / 2)]

/-- kingpin.py:9-14 and 22-41 -/
def kingpinPath : Except PyErr (List PathPt) := kingpinPathOf 10 0.1 0.01 0.5 ![0.8, 0, 0.1]

/-- kingpin.py:9-14 and 48-79 -/
def kingpinScene : Collection Shape := kingpinSceneOf 0.1 0.01 0.5 0.05 ![0.8, 0, 0.1]

/-- kingpin.py:91 `[qi[0] for qi in Q]` -/
def firstRows (Q : List (PyCol ℝ)) : Except PyErr (List Config) := Q.mapM fun c => pyGet c.rows 0

/-- `res["path"]`: the key is only there after a success. (kingpin.py:95, tool_first_cc.py:53) -/
def pathKey (r : PlanRes ℝ C) : Except PyErr (List Config) :=
  match r.path with
  | some p => .ok p
  | none => .error .keyError

/-- kingpin.py:88-95, the path that is animated in line 112 -/
def kingpin (arm : Arm W Shape) (pq : PQ C Config) (conv : ℝ → ℝ) (draws : Nat → Draws) :
    Run W (List Config) := do
  let path ← Run.lift (liftPy kingpinPath)
  let Q ← cartToJointNoRedundancy arm conv draws path kingpinScene 400
  let _qp ← Run.lift (liftPy (firstRows Q))
  let res ← Run.lift (getShortestPath pq conv Q .dijkstra none)
  Run.lift (liftPy (pathKey res))

/-! ## tool_first_cc.py -/

/-- tool_first_cc.py:16-21 `path` -/
def toolFirstPath : Except PyErr (List PathPt) := do
  let ss ← linspace 0 1 5
  .ok (ss.map fun s => .free (.new ![0.8, s * 0.2 + (1 - s) * (-0.2), 0.2]))

/-- tool_first_cc.py:23-26 `scene` -/
def toolFirstScene : Collection Shape where
  s := [⟨0.5, 0.5, 0.1⟩]
  tfS := [poseX 0 0.8 0 0]

/-- tool_first_cc.py:40-53.  `none` is the end of the script in line 48, after "No path found". -/
def toolFirst (arm : Arm W Shape) (pq : PQ C Config) (conv : ℝ → ℝ) (draws : Nat → Draws) :
    Run W (Option (List Config)) := do
  let path ← Run.lift (liftPy toolFirstPath)
  let Q ← cartToJointNoRedundancy arm conv draws path toolFirstScene
  if ∀ c ∈ Q, c.rows.length ≠ 0 then do
    let res ← Run.lift (getShortestPath pq conv Q .dijkstra none)
    let p ← Run.lift (liftPy (pathKey res))
    pure (some p)
  else pure none

/-! ## iterative_grid_refining.py -/

/-- `res["costs"]`, `res["times"]` and `res["path"]` (iterative_grid_refining.py:21, 22 and 29) -/
def iterKeys (r : IterRes C) : Except PyErr (List C × List ℝ × List Config) :=
  match r.costs, r.times, r.path with
  | some c, some t, some p => .ok (c, t, p)
  | _, _, _ => .error .keyError

/-- iterative_grid_refining.py:12-29: the costs that are plotted, the times that are printed and the
path that is animated.  The path of path_on_table.py has 15 points. -/
def iterativeGridRefining (arm : Arm W Shape) (pq : PQ C Config) (conv : ℝ → ℝ)
    (draws : Nat → Nat → Draws) (time : Nat → ℝ) : Run W (List C × List ℝ × List Config) := do
  let path ← Run.lift (liftPy (pathOriFree 15))
  let res ← cartToJointIterative arm pq conv draws time (path.map .free) scene1 500 5
  Run.lift (liftPy (iterKeys res))

end

end Verif.Examples
