import Verif.Model.Quat

/-!
# Model of `acrobotics/samplers.py`

`Quaternion` is used in line 22 but not imported by the file; `imported` says whether the name is
bound, so the file as it is has `imported = false`.  Other code of the repository does not use the class.
-/

namespace Verif.Sampler

open Verif

noncomputable section

/-- samplers.py:13-21 `Sampler.random_quaternion`; `u` are the three numbers drawn in line 16. -/
def randomQuaternion (imported : Bool) (u : ℝ × ℝ × ℝ) : Except PyErr Quat :=
  let w := Real.sqrt (1 - u.1) * Real.sin (2 * Real.pi * u.2.1)
  let x := Real.sqrt (1 - u.1) * Real.cos (2 * Real.pi * u.2.1)
  let y := Real.sqrt u.1 * Real.sin (2 * Real.pi * u.2.2)
  let z := Real.sqrt u.1 * Real.cos (2 * Real.pi * u.2.2)
  if imported then .ok ⟨x, y, z, w⟩ else .error .nameError

open Classical in
/-- samplers.py:23-29 `Sampler.random_quaternion_near`: the second branch draws a number and ends,
so the method returns None. -/
def randomQuaternionNear (imported : Bool) (u : ℝ × ℝ × ℝ) (_qNear : Quat) (distance : ℝ) :
    Except PyErr (Option Quat) :=
  if distance ≥ 0.25 * Real.pi then (randomQuaternion imported u).map some
  else .ok none

end

end Verif.Sampler
