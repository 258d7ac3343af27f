import Verif.Model.Quat
import Verif.Model.Sampling
import Mathlib.Data.Rat.Cast.CharZero

/-!
# Model of `sample_SO3` (acrobotics/util.py:233-259)

The random generator enters as the sequence of its draws.  `method is "random"` compares object
identity of strings; it is modelled as equality (CPython interns these literals).
-/

namespace Verif.SampleSO3

open Verif.Sampling

noncomputable section

/-- The `method` argument. (util.py:240-246) -/
inductive Method where
  | random
  | halton
  | other
  deriving DecidableEq

/-- The `rep` argument. (util.py:254-258) -/
inductive Rep where
  | quat
  | transform
  | rpy
  | other
  deriving DecidableEq

/-- What is returned; `none` is Python's `None`. (util.py:254-259) -/
inductive Out where
  | quats (l : List Quat)
  | transforms (l : List M4)
  | rpys (l : List V3)
  | none

/-- util.py:248-253: one quaternion from three numbers. -/
def quatOf (r1 r2 r3 : ℝ) : Quat where
  w := Real.sqrt (1 - r1) * Real.sin (2 * Real.pi * r2)
  x := Real.sqrt (1 - r1) * Real.cos (2 * Real.pi * r2)
  y := Real.sqrt r1 * Real.sin (2 * Real.pi * r3)
  z := Real.sqrt r1 * Real.cos (2 * Real.pi * r3)

/-- util.py:243-244: `(hs.get_samples(n)).T` unpacked into three arrays, seen as triples. -/
def haltonDraws (root : Nat → Nat) (fuel n : Nat) : Except PyErr (List (ℝ × ℝ × ℝ)) := do
  let hs ← Halton.new root fuel 3
  let r ← hs.getSamples fuel n
  .ok (r.1.map fun row =>
    (((row[0]?.getD 0 : ℚ) : ℝ), ((row[1]?.getD 0 : ℚ) : ℝ), ((row[2]?.getD 0 : ℚ) : ℝ)))

/-- util.py:240-246: the numbers the samples are made of. -/
def draws (root : Nat → Nat) (fuel : Nat) (rnd : Nat → ℝ × ℝ × ℝ) (n : Nat) (method : Method) :
    Except PyErr (List (ℝ × ℝ × ℝ)) :=
  match method with
  | .random => .ok ((List.range n).map rnd)
  | .halton => haltonDraws root fuel n
  | .other => .error .valueError

/-- util.py:233-259 -/
def sampleSO3 (root : Nat → Nat) (fuel : Nat) (rnd : Nat → ℝ × ℝ × ℝ) (n : Nat) (rep : Rep)
    (method : Method) : Except PyErr Out := do
  let rs ← draws root fuel rnd n method
  let result := rs.map fun r => quatOf r.1 r.2.1 r.2.2
  match rep with
  | .quat => .ok (.quats result)
  | .transform => .ok (.transforms (result.map Quat.transformationMatrix))
  | .rpy => .ok (.rpys (result.map Quat.yawPitchRoll))
  | .other => .ok .none

end

end Verif.SampleSO3
