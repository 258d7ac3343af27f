import Verif.Model.Util
import Mathlib.Analysis.SpecialFunctions.Complex.Arg
import Mathlib.Analysis.SpecialFunctions.Trigonometric.Inverse

/-!
# The part of pyquaternion that the package uses

pyquaternion is not part of /repo; these definitions follow its documented behaviour (constructor
from four numbers, from axis and angle and from a rotation matrix, product, `transformation_matrix`, `yaw_pitch_roll`).
They belong to the trusted base.
-/

namespace Verif

open Matrix

noncomputable section

/-- `np.arctan2(y, x)` for a positive zero: the argument of `x + iy`, in `(-π, π]`.  A negative zero gives
`-π` in place of `π`, and for two zeros a multiple of `π`; `Kin.atan2` knows these cases.
(robots.py:79-85, util.py:259) -/
def arctan2 (y x : ℝ) : ℝ := Complex.arg ⟨x, y⟩

/-- A quaternion `w + xi + yj + zk`. (util.py:253) -/
@[ext] structure Quat where
  w : ℝ
  x : ℝ
  y : ℝ
  z : ℝ

namespace Quat

/-- Sum of the squares. (used at path.py:149, 175, util.py:257-259) -/
def norm2 (q : Quat) : ℝ := q.w ^ 2 + q.x ^ 2 + q.y ^ 2 + q.z ^ 2

/-- Hamilton product `p * q`. (path.py:175) -/
def mul (p q : Quat) : Quat where
  w := p.w * q.w - p.x * q.x - p.y * q.y - p.z * q.z
  x := p.w * q.x + p.x * q.w + p.y * q.z - p.z * q.y
  y := p.w * q.y - p.x * q.z + p.y * q.w + p.z * q.x
  z := p.w * q.z + p.x * q.y - p.y * q.x + p.z * q.w

/-- pyquaternion `_normalise` (leaves a quaternion alone that is a unit up to `1e-14`).
(used at path.py:149, 176, 237, util.py:257-259) -/
def normalise (q : Quat) : Quat :=
  if |1 - q.norm2| < 1 / 10 ^ 14 then q
  else if 0 < q.norm2 then
    ⟨q.w / Real.sqrt q.norm2, q.x / Real.sqrt q.norm2, q.y / Real.sqrt q.norm2,
      q.z / Real.sqrt q.norm2⟩
  else q

/-- pyquaternion `rotation_matrix`: the lower right block of the product of the two
multiplication matrices, after normalising. (used at path.py:149, 176, 237, util.py:257) -/
def rotationMatrix (q : Quat) : M3 :=
  let q := q.normalise
  !![q.w ^ 2 + q.x ^ 2 - q.y ^ 2 - q.z ^ 2, 2 * (q.x * q.y - q.w * q.z),
      2 * (q.x * q.z + q.w * q.y);
     2 * (q.x * q.y + q.w * q.z), q.w ^ 2 - q.x ^ 2 + q.y ^ 2 - q.z ^ 2,
      2 * (q.y * q.z - q.w * q.x);
     2 * (q.x * q.z - q.w * q.y), 2 * (q.y * q.z + q.w * q.x),
      q.w ^ 2 - q.x ^ 2 - q.y ^ 2 + q.z ^ 2]

/-- pyquaternion `transformation_matrix` (a new array on every access).
(path.py:149, 176, 237, util.py:257) -/
def transformationMatrix (q : Quat) : M4 := mkTf q.rotationMatrix 0

/-- pyquaternion `yaw_pitch_roll`. (util.py:259) -/
def yawPitchRoll (q : Quat) : V3 :=
  let q := q.normalise
  ![arctan2 (2 * (q.w * q.z - q.x * q.y)) (1 - 2 * (q.y ^ 2 + q.z ^ 2)),
    Real.arcsin (2 * (q.w * q.y + q.z * q.x)),
    arctan2 (2 * (q.w * q.x - q.y * q.z)) (1 - 2 * (q.x ^ 2 + q.y ^ 2))]

/-- `Quaternion(axis=a, angle=θ)`; an axis of length zero raises ZeroDivisionError.  The axis is
divided by its length unless the square of it is one up to `1e-12`. (path.py:175) -/
def ofAxisAngle (a : V3) (θ : ℝ) : Except PyErr Quat :=
  let m := a ⬝ᵥ a
  if m = 0 then .error .zeroDivisionError
  else
    let u : V3 := if 1 / 10 ^ 12 < |1 - m| then (1 / Real.sqrt m) • a else a
    let s := Real.sin (θ / 2)
    .ok ⟨Real.cos (θ / 2), u 0 * s, u 1 * s, u 2 * s⟩

/-- pyquaternion `_from_matrix`: the tests of the matrix (`np.allclose`, `np.isclose` with
`rtol=1e-5`, `atol=1e-8`); a matrix that fails raises ValueError.
(used at io.py:24, planning.py:208) -/
def looksLikeRotation (R : M3) : Prop :=
  (∀ i j, |(R * Rᵀ) i j - (1 : M3) i j| ≤ 1 / 10 ^ 8 + 1 / 10 ^ 5 * |(1 : M3) i j|) ∧
    |R.det - 1| ≤ 1 / 10 ^ 8 + 1 / 10 ^ 5 * |(1 : ℝ)|

/-- pyquaternion `trace_method`: the number under the root and the four numbers to be scaled, in
terms of the transposed matrix `m`. (used at io.py:24, planning.py:208) -/
def traceMethod (m : M3) : ℝ × Quat :=
  if m 2 2 < 0 then
    if m 1 1 < m 0 0 then
      (1 + m 0 0 - m 1 1 - m 2 2,
        ⟨m 1 2 - m 2 1, 1 + m 0 0 - m 1 1 - m 2 2, m 0 1 + m 1 0, m 2 0 + m 0 2⟩)
    else
      (1 - m 0 0 + m 1 1 - m 2 2,
        ⟨m 2 0 - m 0 2, m 0 1 + m 1 0, 1 - m 0 0 + m 1 1 - m 2 2, m 1 2 + m 2 1⟩)
  else
    if m 0 0 < -m 1 1 then
      (1 - m 0 0 - m 1 1 + m 2 2,
        ⟨m 0 1 - m 1 0, m 2 0 + m 0 2, m 1 2 + m 2 1, 1 - m 0 0 - m 1 1 + m 2 2⟩)
    else
      (1 + m 0 0 + m 1 1 + m 2 2,
        ⟨1 + m 0 0 + m 1 1 + m 2 2, m 1 2 - m 2 1, m 2 0 - m 0 2, m 0 1 - m 1 0⟩)

open Classical in
/-- `Quaternion(matrix=R)` for a 3 × 3 matrix. (io.py:24, planning.py:208) -/
def ofRotation (R : M3) : Except PyErr Quat :=
  if looksLikeRotation R then
    let r := traceMethod Rᵀ
    let f := 0.5 / Real.sqrt r.1
    .ok ⟨r.2.w * f, r.2.x * f, r.2.y * f, r.2.z * f⟩
  else .error .valueError

end Quat

end

end Verif
