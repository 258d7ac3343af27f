import Verif.Model.QuatCost
import Verif.Model.Dp
import Verif.Model.Path
import Verif.Model.Robot

/-!
# Model of `examples/small_passage.py`

The orientations of the welding torch along a path are planned without a robot: for every path
point the orientations at which the torch does not touch the scene are kept, and `shortest_path` of
`dp.py` chooses among them.  The quaternions are drawn by the model of `sample_SO3`.
-/

namespace Verif.Passage

open Verif Verif.QuatCost Verif.Geometry Verif.Path Verif.Kin Verif.Util

variable {S : Type}

noncomputable section

/-- small_passage.py:33 `tfi[:-1, -1] += p`. -/
def addPos (T : M4) (p : V3) : M4 := setPos T (posPart T + p)

/-- small_passage.py:32-34: where the torch is put for the sample `qi`; `goal_tf` is line 17. -/
def placement (torch : Tool S) (p : V3) (qi : Quat) : M4 :=
  let tfi := qi.transformationMatrix
  let tfi := addPos tfi p
  tfi * tfInverse torch.tfTT

/-- small_passage.py:30-36: one row of `data`.  Reading `transformation_matrix` normalises the
quaternion in place, so the numbers `qi.q` are those of the normalised quaternion. -/
def row (hit : Oracle S) (torch : Tool S) (scene : Collection S) (p : V3) (si : List Quat) :
    List Quat :=
  (si.filter fun qi =>
    !torch.toCollection.isInCollision hit scene (some (placement torch p qi)) none).map
    Quat.normalise

/-- small_passage.py:29: the quaternions of `get_samples(n, rep="quat")` (`n` is 1000). -/
def samples (root : Nat → Nat) (fuel : Nat) (n : Nat) (pt : FreeOrientationPt)
    (rnd : Nat → ℝ × ℝ × ℝ) : Except PyErr (List Quat) :=
  (pt.getSamples root fuel rnd n (some .quat)).bind fun out =>
    match out with
    | .quats l => .ok l
    | _ => .error .attributeError

/-- small_passage.py:28-38: the rows of all path points; `rnd i` are the random numbers that are
drawn for point `i`. -/
def rows (root : Nat → Nat) (fuel : Nat) (hit : Oracle S) (torch : Tool S) (scene : Collection S)
    (n : Nat) : List FreeOrientationPt → List (Nat → ℝ × ℝ × ℝ) → Except PyErr (List (List Quat))
  | tp :: path, rnd :: rnds =>
    (samples root fuel n tp rnd).bind fun si =>
      (rows root fuel hit torch scene n path rnds).bind fun rest =>
        .ok (row hit torch scene tp.p si :: rest)
  | _, _ => .ok []

/-- small_passage.py:43-50 with the arrays of line 40: `np.array([])` has shape `(0,)`, so that
`C1 @ C2.T` is a number when both are empty (`false`) and a ValueError when only one is. -/
def stageShape (c1 c2 : List Quat) : Except PyErr Bool :=
  if c1.isEmpty && c2.isEmpty then .ok false
  else if c1.isEmpty || c2.isEmpty then .error .valueError
  else .ok true

/-- dp.py:4-9 on the arrays: which of the costs are two-dimensional. -/
def stageShapes : List (List Quat) → Except PyErr (List Bool)
  | a :: b :: rest =>
    (stageShape a b).bind fun s => (stageShapes (b :: rest)).bind fun l => .ok (s :: l)
  | _ => .ok []

/-- small_passage.py:72 `shortest_path(data, cost_function)`.  `tc.shape[0]` of a number is an
IndexError (dp.py:14). -/
def search (data : List (List Quat)) : Except PyErr (Dp.Result Quat ℝ) :=
  (stageShapes data).bind fun shapes =>
    if shapes.all id then Dp.shortestPath data costArray else .error .indexError

/-- small_passage.py:74-78: the frames of the torch tip along the solution. -/
def solutionFrames (path : List Quat) (pts : List FreeOrientationPt) : List M4 :=
  (path.zip pts).map fun x => setPos x.1.transformationMatrix x.2.p

/-- small_passage.py:28-78, for a torch, a scene and a path: the frames of the tip and the length
of the solution. -/
def plan (root : Nat → Nat) (fuel : Nat) (hit : Oracle S) (torch : Tool S) (scene : Collection S)
    (n : Nat) (path : List FreeOrientationPt) (rnds : List (Nat → ℝ × ℝ × ℝ)) :
    Except PyErr (List M4 × ℝ) :=
  (rows root fuel hit torch scene n path rnds).bind fun data =>
    (search data).bind fun sol => .ok (solutionFrames sol.path path, sol.length)

/-- small_passage.py:101-105: where the torch is drawn for the solution frame `tf`. -/
def drawnAt (torch : Tool S) (tf : M4) : M4 := tf * tfInverse torch.tfTT

/-- small_passage.py:53-66 `cost_function_2` of two rows, with `q_ref` as a parameter:
`path_cost ** 2 + 0.5 * state_cost ** 2`, where `state_cost` compares the rows of `C1` with
`q_ref`. -/
def costArray2 (ref : Quat) (c1 c2 : List Quat) : Dp.Mat ℝ :=
  ⟨c1.length, c2.length, fun i j =>
    ((c1[i]?.bind fun p => c2[j]?.map fun q =>
      costFunction p q ^ 2 + 1 / 2 * costFunction p ref ^ 2)).getD 0⟩

end

end Verif.Passage
