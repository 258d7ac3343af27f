import Verif.Model.Sampler
import Verif.Props.SampleSO3

/-!
# C95: `acrobotics/samplers.py`
-/

set_option linter.unusedSectionVars false

namespace Verif.Props

open Verif Verif.Sampler

/-- C95 is false of the file as it is: no call returns a quaternion. -/
theorem C95_refuted (u : ℝ × ℝ × ℝ) (q : Quat) (d : ℝ) :
    randomQuaternion false u = .error .nameError ∧
      (d ≥ 0.25 * Real.pi → randomQuaternionNear false u q d = .error .nameError) ∧
      (d < 0.25 * Real.pi → randomQuaternionNear false u q d = .ok none) := by
  refine ⟨by simp [randomQuaternion], fun h => ?_, fun h => ?_⟩
  · simp [randomQuaternionNear, if_pos h, randomQuaternion, Except.map]
  · simp [randomQuaternionNear, if_neg (not_le.2 h)]

/-- C95 with the import added, the first half: every draw is a unit quaternion, and it is the one
that `sample_SO3` makes of the same draws with its last part moved to the front.  Missing:
`random_quaternion_near` still returns nothing for small distances (`C95_near`). -/
theorem C95_unit_partial (u : ℝ × ℝ × ℝ) (hu : InUnit u) :
    ∃ q, randomQuaternion true u = .ok q ∧ q.norm2 = 1 ∧
      (SampleSO3.quatOf u.1 u.2.1 u.2.2) = ⟨q.z, q.w, q.x, q.y⟩ := by
  refine ⟨_, by simp only [randomQuaternion, if_true]; rfl, ?_, rfl⟩
  have := quatOf_unit hu.1.1 hu.1.2 u.2.1 u.2.2
  unfold Quat.norm2 SampleSO3.quatOf at this
  unfold Quat.norm2
  linarith

/-- C95, even with the import: near a given orientation nothing is returned. -/
theorem C95_near (imported : Bool) (u : ℝ × ℝ × ℝ) (q : Quat) (d : ℝ) (hd : d < 0.25 * Real.pi) :
    randomQuaternionNear imported u q d = .ok none := by
  simp [randomQuaternionNear, if_neg (not_le.2 hd)]

example : InUnit (1 / 4, 1 / 2, 1 / 3) := by norm_num [InUnit]

end Verif.Props
