import Verif.Model.Robots

/-!
# What `Kuka.ik` leaves in `self.wrist.tf_base`

`Model/Robots` hands the base of the wrist from the loop of `Kuka.ik` to `SphericalWrist.ik` directly.  In
the code it is an attribute of the wrist and keeps its value after the call.
-/

set_option linter.unusedSectionVars false

namespace Verif.Kin

open Matrix Verif Verif.Geometry Verif.Util

noncomputable section

/-- robots.py:337-344: the value of `self.wrist.tf_base` after the loop, `b` before it. -/
def kukaWristBase (k : Kuka) (Tw : M4) : List (List ℝ) → RState → M4 → M4
  | [], _, b => b
  | qArm :: rest, st, b =>
    let qArm := qArm.modify 2 (· + Real.pi / 2)
    let x := k.arm.fk st qArm
    match x.1 with
    | .error _ => b
    | .ok Tarm => kukaWristBase k Tw rest x.2 (wristBase (rotPart Tarm) Tw)

/-- robots.py:322-351: the value of `self.wrist.tf_base` after `Kuka.ik(T)`, `b` before it. -/
def Kuka.wristAfter [Zeros] (k : Kuka) (st : RState) (T : M4) (b : M4) : M4 :=
  let Tw := kukaTarget k.robot T
  match arm2Ik k.arm Tw with
  | none => b
  | some sol => kukaWristBase k Tw sol st b

end

end Verif.Kin
