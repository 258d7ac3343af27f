import Verif.Model.Robot
import Verif.Model.Util

/-!
# Model of `examples/rotation_table.py`

The table and `cart_to_joint_simple` of the example.  `ikf` and `hit` stand for the answers of
`robot.ik(Ti, qfi)` (`none` without success) and `robot.is_in_collision(qi, scene)`, `tfk` for
`table.fk`.  The rows are not converted to float32.
-/

namespace Verif.RotTable

open Verif Verif.Geometry Verif.Kin Verif.Util

noncomputable section

/-- rotation_table.py:26-30: the table. -/
def table : Robot Shape :=
  { Robot.new [⟨⟨0, 0, 0, 0⟩, .r, ⟨[⟨0.1, 0.1, 0.02⟩], [poseY (Real.pi / 2) 0.01 0 0]⟩⟩] with
    tfBase := poseY (Real.pi / 2) 0 0 0
    tool := some ⟨⟨[], []⟩, poseY (-Real.pi / 2) 0 0 0⟩ }

/-- A configuration. (rotation_table.py:50-58) -/
abbrev Config := List ℝ

/-- rotation_table.py:55-60: the loop over `q_fixed` for the frame `Ti`. -/
def fixedLoop (ikf : M4 → ℝ → Option (List Config)) (hit : Config → Bool) (Ti : M4) :
    List ℝ → List Config → List Config
  | [], qSol => qSol
  | qfi :: rest, qSol =>
    match ikf Ti qfi with
    | none => fixedLoop ikf hit Ti rest qSol
    | some sol => fixedLoop ikf hit Ti rest (qSol ++ sol.filter fun qi => !hit qi)

/-- rotation_table.py:53-60: the loop over `q_table`; the variable `Ti` is overwritten. -/
def tableLoop (ikf : M4 → ℝ → Option (List Config)) (hit : Config → Bool) (tfk : List ℝ → M4)
    (qFixed : List ℝ) : List (List ℝ) → M4 → List Config → List Config
  | [], _, qSol => qSol
  | qt :: rest, Ti, qSol =>
    let Ti := tfk qt * Ti
    tableLoop ikf hit tfk qFixed rest Ti (fixedLoop ikf hit Ti qFixed qSol)

/-- rotation_table.py:51-60: the loop over the samples of a point; `q_sol` starts anew for every
sample.  `none` is the unbound variable before the first sample. -/
def samplesLoop (ikf : M4 → ℝ → Option (List Config)) (hit : Config → Bool) (tfk : List ℝ → M4)
    (qFixed : List ℝ) (qTable : List (List ℝ)) :
    List M4 → Option (List Config) → Option (List Config)
  | [], q => q
  | Ti :: rest, _ =>
    samplesLoop ikf hit tfk qFixed qTable rest (some (tableLoop ikf hit tfk qFixed qTable Ti []))

/-- rotation_table.py:49-66: the loop over the path, whose points are given by their samples. -/
def pathLoop (ikf : M4 → ℝ → Option (List Config)) (hit : Config → Bool) (tfk : List ℝ → M4)
    (qFixed : List ℝ) (qTable : List (List ℝ)) :
    List (List M4) → Option (List Config) → List (List Config) → Except PyErr (List (List Config))
  | [], _, Q => .ok Q
  | Ts :: rest, q, Q =>
    match samplesLoop ikf hit tfk qFixed qTable Ts q with
    | none => .error .unboundLocalError
    | some qSol => pathLoop ikf hit tfk qFixed qTable rest (some qSol) (Q ++ [qSol])

/-- rotation_table.py:36-66 `cart_to_joint_simple` -/
def cartToJointSimple (ikf : M4 → ℝ → Option (List Config)) (hit : Config → Bool)
    (tfk : List ℝ → M4) (path : List (List M4)) (qFixed : List ℝ) (qTable : List (List ℝ)) :
    Except PyErr (List (List Config)) :=
  pathLoop ikf hit tfk qFixed qTable path none []

end

end Verif.RotTable
