import Verif.Model.Quat
import Verif.Model.Dp

/-!
# The cost of a step between two quaternions

`cost_function` of `acrobotics/pygraph.py`, and the array version of it in
`examples/small_passage.py`.  Numbers are exact reals.
-/

namespace Verif.QuatCost

open Verif

noncomputable section

/-- `p @ q` of two arrays of four numbers (or two quaternions, whose `@` is that of their
arrays). (pygraph.py:21) -/
def dot (p q : Quat) : ℝ := p.w * q.w + p.x * q.x + p.y * q.y + p.z * q.z

/-- pygraph.py:20-21 `cost_function`:
`np.arccos(min(np.abs((node1.data @ node2.data)), 1.0))`. -/
def costFunction (p q : Quat) : ℝ := Real.arccos (min |dot p q| 1)

/-- examples/small_passage.py:43-50 `cost_function`: the matrix `C1 @ C2.T` has one row for every
quaternion of the first stage and one column for every one of the second; `np.minimum`, `np.abs`
and `np.arccos` act entry by entry. -/
def costMatrix (c1 c2 : List Quat) : List (List ℝ) :=
  c1.map fun p => (c2.map fun q => dot p q).map fun c => Real.arccos (min |c| 1)

/-- The same as a two-dimensional array of dp.py. (dp.py:8) -/
def costArray (c1 c2 : List Quat) : Dp.Mat ℝ :=
  ⟨c1.length, c2.length, fun i j =>
    (((costMatrix c1 c2)[i]?.bind fun row => row[j]?)).getD 0⟩

end

end Verif.QuatCost
