import Verif.Model.Optimization
import Verif.Model.Resources
import Verif.Model.Robots

/-!
# Model of `examples/optimization_based.py`

The plot at the end (lines 29-37) is left out.
-/

namespace Verif.Examples

open Verif Verif.Geometry Verif.Path Verif.Kin Verif.Util Verif.Resources Verif.Optimization

noncomputable section

/-- optimization_based.py:9 `Kuka()`: the array of its wrist is the only one in memory. -/
def scriptKuka : Kuka := Kuka.new 0.18 0.6 0.62 0.115 0

/-- optimization_based.py:15-21 `Tee`: the first entries of `xp`, `yp` and `zp`. -/
def scriptTee (xp yp zp : List ℝ) : Except PyErr M4 := do
  let x ← pyGet xp 0
  let y ← pyGet yp 0
  let z ← pyGet zp 0
  .ok (setPos 1 ![x, y, z])

/-- optimization_based.py:22: `robot.ik(Tee)["sol"]`; without success there is no entry "sol".  The
configurations, read from the arrays that are returned. -/
def scriptIk [Zeros] (Tee : M4) : Except PyErr (List (List ℝ)) :=
  let x := scriptKuka.ik (RState.new 3) [[]] Tee
  x.1.bind fun sols =>
    match sols with
    | none => .error .keyError
    | some l => .ok (l.map fun a => ((x.2.2[a]?).bind List.head?).getD [])

/-- optimization_based.py:24: `np.tile(qi, (N, 1))` -/
def tile (N : Nat) (qi : List ℝ) : List (List ℝ) := List.replicate N qi

/-- optimization_based.py:9-27 with `N` for the 15 of line 13: the joint path that is plotted.  The
path `path_ori_free` of the library has 15 points whatever `N` is. -/
def optimizationBased [Zeros] (solver : Solver) (N : Nat) : Except PyErr (List (List ℝ)) := do
  let xp := List.replicate N (0.8 : ℝ)
  let yp ← linspace (-0.2) 0.2 N
  let zp := List.replicate N (0.2 : ℝ)
  let Tee ← scriptTee xp yp zp
  let qIk ← scriptIk Tee
  let qInits := qIk.map (tile N)
  let qInit ← pyGet qInits 5
  let path ← pathOriFree 15
  let res ← getOptimalPath solver (path.map .free) scriptKuka.robot (some scene1) (some qInit)
  match res.path with
  | none => .error .keyError
  | some q => .ok q

end

end Verif.Examples
