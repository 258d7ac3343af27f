import Verif.Model.PyGraph
import Verif.Model.QuatCost
import Verif.Model.SampleSO3
import Verif.RealCost

/-!
# The script `examples/quat_graph.py`

Five columns of ten random orientations and a search through them.  The commented-out lines and the
final `print` are left out.
-/

namespace Verif.QuatGraph

open Verif Verif.QuatCost Verif.SampleSO3

noncomputable section

/-- What `get_shortest_path` is given in one column: it enumerates the column and reads `.data` of
its elements (pygraph.py:20-21), so anything but a list of quaternions is an error. -/
def column : Out → Except PyErr (List Quat)
  | .quats l => .ok l
  | .transforms _ => .error .attributeError
  | .rpys _ => .error .attributeError
  | .none => .error .typeError

/-- examples/quat_graph.py:7-9: the columns; `rnd k` are the draws of the call number `k`.  The
method is the default one (util.py:233). -/
def sampleColumns (root : Nat → Nat) (fuel : Nat) (rnd : Nat → Nat → ℝ × ℝ × ℝ) :
    Except PyErr (List (List Quat)) :=
  (List.range 5).mapM fun i => sampleSO3 root fuel (rnd i) 10 .quat .random >>= column

/-- examples/quat_graph.py:7-22: the result `sol` that is printed. -/
def quatGraph (root : Nat → Nat) (fuel : Nat) (rnd : Nat → Nat → ℝ × ℝ × ℝ) :
    Except PyErr (PyGraph.Res Quat (WithTop ℝ)) := do
  let data ← sampleColumns root fuel rnd
  PyGraph.getShortestPath (fun p q => ((costFunction p q : ℝ) : WithTop ℝ)) data

end

end Verif.QuatGraph
