import Verif.Spec.Rigid
import Verif.Py
import Mathlib.Analysis.SpecialFunctions.Trigonometric.Basic

/-!
# Model of the matrix helpers of acrobotics/util.py

Arrays are matrices over ℝ (rounding is not modelled).
-/

namespace Verif.Util

open Matrix

noncomputable section

/-- util.py:12-15 -/
def rotX (α : ℝ) : M3 :=
  !![1, 0, 0; 0, Real.cos α, -Real.sin α; 0, Real.sin α, Real.cos α]

/-- util.py:18-21 -/
def rotY (α : ℝ) : M3 :=
  !![Real.cos α, 0, Real.sin α; 0, 1, 0; -Real.sin α, 0, Real.cos α]

/-- util.py:24-27 -/
def rotZ (α : ℝ) : M3 :=
  !![Real.cos α, -Real.sin α, 0; Real.sin α, Real.cos α, 0; 0, 0, 1]

/-- util.py:30-33 -/
def translation (x y z : ℝ) : M4 :=
  !![1, 0, 0, x; 0, 1, 0, y; 0, 0, 1, z; 0, 0, 0, 1]

/-- util.py:36-45 -/
def poseX (α x y z : ℝ) : M4 :=
  !![1, 0, 0, x;
     0, Real.cos α, -Real.sin α, y;
     0, Real.sin α, Real.cos α, z;
     0, 0, 0, 1]

/-- util.py:48-57 -/
def poseY (α x y z : ℝ) : M4 :=
  !![Real.cos α, 0, Real.sin α, x;
     0, 1, 0, y;
     -Real.sin α, 0, Real.cos α, z;
     0, 0, 0, 1]

/-- util.py:60-69 -/
def poseZ (α x y z : ℝ) : M4 :=
  !![Real.cos α, -Real.sin α, 0, x;
     Real.sin α, Real.cos α, 0, y;
     0, 0, 1, z;
     0, 0, 0, 1]

/-- `T[:3, :3] = R` (util.py:79, path.py:89, 102) -/
def setRot (T : M4) (R : M3) : M4 := Matrix.of fun i j =>
  if h : i.val < 3 ∧ j.val < 3 then R ⟨i.val, h.1⟩ ⟨j.val, h.2⟩ else T i j

/-- `T[:3, 3] = p` (util.py:80, path.py:90, 150, 177) -/
def setPos (T : M4) (p : V3) : M4 := Matrix.of fun i j =>
  if h : i.val < 3 ∧ j.val = 3 then p ⟨i.val, h.1⟩ else T i j

/-- util.py:72-81: a fresh identity whose blocks are overwritten in this order. -/
def tfInverse (T : M4) : M4 :=
  let Ti : M4 := 1
  let Ti := setRot Ti (rotPart T)ᵀ
  setPos Ti ((-(rotPart Ti)) *ᵥ posPart T)

end

end Verif.Util
