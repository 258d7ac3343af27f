import Verif.Model.Robot
import Verif.Model.Quat

/-!
# Model of acrobotics/resources/robots.py

The shipped robots and their inverse kinematics.  `{"success": False}` is `none`.  Exact real
arithmetic, except that a zero has a sign as in IEEE arithmetic where `np.arctan2` looks at it: the
sign of a zero that comes out of other arithmetic is not computed but arbitrary (class `Zeros`), a
negation turns it, and a square root gives a positive zero.  A quotient by zero, which is inf or nan in
numpy, is excluded where it matters by the hypothesis that the lengths of the two links at the elbow
are not zero.

Arrays that the code keeps or hands out are cells of a memory, addressed by their position: the array
`qsol` that SphericalWrist caches (robots.py:63) and the new arrays that `np.hstack` makes.
-/

namespace Verif.Kin

open Matrix Verif.Geometry Verif.Util

noncomputable section

/-- One shape with its transform. (robots.py:13-18, 52-54) -/
private def box (s : Shape) (tf : M4) : Collection Shape := ⟨[s], [tf]⟩

/-- robots.py:12-24 -/
def planarArm (a1 a2 a3 : ℝ) : Robot Shape := Robot.new
  [⟨⟨a1, 0, 0, 0⟩, .r, box ⟨-a1 / 2, 0.1, 0.1⟩ 1⟩,
   ⟨⟨a2, 0, 0, 0⟩, .r, box ⟨-a2 / 2, 0.1, 0.1⟩ 1⟩,
   ⟨⟨a3, 0, 0, 0⟩, .r, box ⟨-a3 / 2, 0.1, 0.1⟩ 1⟩]

/-- robots.py:30-42 -/
def sphericalArm (d2 : ℝ) : Robot Shape := Robot.new
  [⟨⟨0, -Real.pi / 2, 0, 0⟩, .r, box ⟨1, 0.1, 0.1⟩ 1⟩,
   ⟨⟨0, Real.pi / 2, d2, 0⟩, .r, box ⟨1, 0.1, 0.1⟩ 1⟩,
   ⟨⟨0, 0, 0, 0⟩, .p, box ⟨1, 0.1, 0.1⟩ 1⟩]

/-- robots.py:48-60 -/
def sphericalWrist (d3 : ℝ) : Robot Shape := Robot.new
  [⟨⟨0, -Real.pi / 2, 0, 0⟩, .r, box ⟨1, 0.1, 0.1⟩ 1⟩,
   ⟨⟨0, Real.pi / 2, 0, 0⟩, .r, box ⟨1, 0.1, 0.1⟩ 1⟩,
   ⟨⟨0, 0, d3, 0⟩, .r, box ⟨1, 0.1, 0.1⟩ 1⟩]

/-- robots.py:96-108 -/
def anthropomorphicArm (a2 a3 : ℝ) : Robot Shape := Robot.new
  [⟨⟨0, Real.pi / 2, 0, 0⟩, .r, box ⟨0.1, 0.3, 0.3⟩ (translation (-0.05) 0 0)⟩,
   ⟨⟨a2, 0, 0, 0⟩, .r, box ⟨a2, 0.1, 0.1⟩ (translation (-a2 / 2) 0 0)⟩,
   ⟨⟨a3, 0, 0, 0⟩, .r, box ⟨a3, 0.1, 0.1⟩ (translation (-a3 / 2) 0 0)⟩]

/-- robots.py:168-180 -/
def arm2 (a1 a2 a3 : ℝ) : Robot Shape := Robot.new
  [⟨⟨a1, Real.pi / 2, 0, 0⟩, .r, box ⟨a1, 0.1, 0.1⟩ 1⟩,
   ⟨⟨a2, 0, 0, 0⟩, .r, box ⟨a2, 0.1, 0.1⟩ 1⟩,
   ⟨⟨a3, Real.pi / 2, 0, 0⟩, .r, box ⟨a3, 0.1, 0.1⟩ 1⟩]

/-- robots.py:289-318: the links of Kuka. -/
def kukaRobot (a1 a2 d4 d6 : ℝ) : Robot Shape := Robot.new
  [⟨⟨a1, Real.pi / 2, 0, 0⟩, .r, box ⟨0.3, 0.2, 0.1⟩ (poseX 0 (-0.09) 0 0.05)⟩,
   ⟨⟨a2, 0, 0, 0⟩, .r, box ⟨0.8, 0.2, 0.1⟩ (poseX 0 (-0.3) 0 (-0.05))⟩,
   ⟨⟨0, Real.pi / 2, 0, 0⟩, .r, box ⟨0.2, 0.1, 0.5⟩ (poseX 0 0 0.05 0.17)⟩,
   ⟨⟨0, -Real.pi / 2, d4, 0⟩, .r, box ⟨0.1, 0.2, 0.1⟩ (poseX 0 0 0.1 0)⟩,
   ⟨⟨0, Real.pi / 2, 0, 0⟩, .r, box ⟨0.1, 0.1, 0.085⟩ (poseX 0 0 0 (0.085 / 2))⟩,
   ⟨⟨0, 0, d6, 0⟩, .r, box ⟨0.1, 0.1, 0.03⟩ (poseX 0 0 0 (-0.03 / 2))⟩]

/-- robots.py:356-386: the links of KukaOnRail. -/
def railRobot (a1 a2 d4 d6 : ℝ) : Robot Shape := Robot.new
  [⟨⟨0, Real.pi / 2, 0, 0⟩, .p, box ⟨0.2, 0.2, 0.1⟩ (poseX 0 0 0 (-0.15))⟩,
   ⟨⟨a1, Real.pi / 2, 0, 0⟩, .r, box ⟨0.3, 0.2, 0.1⟩ (poseX 0 (-0.09) 0 0.05)⟩,
   ⟨⟨a2, 0, 0, 0⟩, .r, box ⟨0.8, 0.2, 0.1⟩ (poseX 0 (-0.3) 0 (-0.05))⟩,
   ⟨⟨0, Real.pi / 2, 0, 0⟩, .r, box ⟨0.2, 0.1, 0.5⟩ (poseX 0 0 0.05 0.17)⟩,
   ⟨⟨0, -Real.pi / 2, d4, 0⟩, .r, box ⟨0.1, 0.2, 0.1⟩ (poseX 0 0 0.1 0)⟩,
   ⟨⟨0, Real.pi / 2, 0, 0⟩, .r, box ⟨0.1, 0.1, 0.085⟩ (poseX 0 0 0 (0.085 / 2))⟩,
   ⟨⟨0, 0, d6, 0⟩, .r, box ⟨0.1, 0.1, 0.03⟩ (poseX 0 0 0 (-0.03 / 2))⟩]

/-- robots.py:432-441: the links of Puma.  Its geometry (a single shape where a list is expected,
robots.py:424-431) is left out. -/
def puma (a3 a4 d1 d3 d4 : ℝ) : Robot Shape := Robot.new
  [⟨⟨0, 0, d1, 0⟩, .r, ⟨[], []⟩⟩,
   ⟨⟨0, -Real.pi / 2, 0, 0⟩, .r, ⟨[], []⟩⟩,
   ⟨⟨a3, 0, d3, 0⟩, .r, ⟨[], []⟩⟩,
   ⟨⟨a4, -Real.pi / 2, d4, 0⟩, .r, ⟨[], []⟩⟩,
   ⟨⟨0, -Real.pi / 2, 0, 0⟩, .r, ⟨[], []⟩⟩,
   ⟨⟨0, Real.pi / 2, 0, 0⟩, .r, ⟨[], []⟩⟩]

/-- `self.links[i].dh` (robots.py:113, 194, 331) -/
def dhOfLink (r : Robot Shape) (i : Nat) : DH := ((r.links[i]?).map Link.dh).getD ⟨0, 0, 0, 0⟩

/-! ### Signs of zeros -/

/-- `np.arctan2(y, x)`; `ny` and `nx` tell whether `y` and `x` are negative zeros, and have no meaning
for other numbers. (robots.py:79-85, 131, 140-149, 201-262) -/
def atan2 (ny nx : Bool) (y x : ℝ) : ℝ :=
  if y = 0 then
    if x < 0 ∨ (x = 0 ∧ nx = true) then (if ny then -Real.pi else Real.pi) else 0
  else arctan2 y x

/-- The signs of zeros that come out of sums and products: of the entries of the matrix `Ree_rel` for
a base and a target (robots.py:70), of px and py of a target (robots.py:116, 187), and of the two
arguments from which the angle `q2` is computed, for a target and the number of the solution
(robots.py:140-144, 244-262).  `true` is a negative zero. -/
class Zeros where
  rel : M4 → M4 → Fin 3 → Fin 3 → Bool
  px : M4 → Bool
  py : M4 → Bool
  q2y : M4 → Nat → Bool
  q2x : M4 → Nat → Bool

/-- All zeros positive. -/
@[reducible] def posZeros : Zeros :=
  ⟨fun _ _ _ _ => false, fun _ => false, fun _ => false, fun _ _ => false, fun _ _ => false⟩

variable [Zeros]

/-! ### SphericalWrist -/

/-- robots.py:68-89 `SphericalWrist.ik`: the rows written to the cached array. -/
def wristRows (tfBase T : M4) : List (List ℝ) :=
  let Rbase := rotPart tfBase
  let Ree := rotPart T
  let ReeRel := Rbaseᵀ * Ree
  let n : V3 := fun i => ReeRel i 0
  let s : V3 := fun i => ReeRel i 1
  let a : V3 := fun i => ReeRel i 2
  let A := Real.sqrt (a 0 ^ 2 + a 1 ^ 2)
  let z := Zeros.rel tfBase T
  let t1_1 := atan2 (z 1 2) (z 0 2) (a 1) (a 0)
  let t2_1 := atan2 false (z 2 2) A (a 2)
  let t3_1 := atan2 (z 2 1) (!z 2 0) (s 2) (-n 2)
  let t1_2 := atan2 (!z 1 2) (!z 0 2) (-a 1) (-a 0)
  let t2_2 := atan2 true (z 2 2) (-A) (a 2)
  let t3_2 := atan2 (!z 2 1) (z 2 0) (-s 2) (n 2)
  [[t1_1, t2_1, t3_1], [t1_2, t2_2, t3_2]]

/-- Arrays, addressed by position; a one-dimensional array is a single row.
(robots.py:63, 87-90, 348, 406) -/
abbrev Mem := List (List (List ℝ))

/-- robots.py:65-90 `SphericalWrist.ik`: the cached array at `qsol` is overwritten and handed out. -/
def wristIk (qsol : Nat) (tfBase : M4) (mem : Mem) (T : M4) : Nat × Mem :=
  (qsol, mem.set qsol (wristRows tfBase T))

/-! ### Arms -/

/-- robots.py:114 and 195 -/
def tol : ℝ := 1 / 10 ^ 6

/-- robots.py:121-125, 214-219 and 228-233: cosine of the elbow angle, `none` if out of reach. -/
def snap (c3 : ℝ) : Option ℝ :=
  if c3 > 1 + tol ∨ c3 < -(1 + tol) then none
  else if c3 > 1 - tol ∨ c3 < -(1 - tol) then some (SignType.sign c3 : ℝ)
  else some c3

/-- robots.py:110-160 `AnthropomorphicArm.ik` -/
def anthropomorphicIk (r : Robot Shape) (T : M4) : Option (List (List ℝ)) :=
  let px := T 0 3
  let py := T 1 3
  let pz := T 2 3
  let l2 := (dhOfLink r 1).a
  let l3 := (dhOfLink r 2).a
  let Lps := px ^ 2 + py ^ 2 + pz ^ 2
  (snap ((Lps - l2 ^ 2 - l3 ^ 2) / (2 * l2 * l3))).map fun c3 =>
    let s3 := Real.sqrt (1 - c3 ^ 2)
    let t3_1 := atan2 false false s3 c3
    let t3_2 := atan2 true false (-s3) c3
    let Lxy := Real.sqrt (px ^ 2 + py ^ 2)
    let A := l2 + l3 * c3
    let B := l3 * s3
    let t2_1 := atan2 (Zeros.q2y T 0) (Zeros.q2x T 0) (pz * A - Lxy * B) (Lxy * A + pz * B)
    let t2_2 := atan2 (Zeros.q2y T 2) (Zeros.q2x T 2) (pz * A + Lxy * B) (-Lxy * A + pz * B)
    let t2_3 := atan2 (Zeros.q2y T 1) (Zeros.q2x T 1) (pz * A + Lxy * B) (Lxy * A - pz * B)
    let t2_4 := atan2 (Zeros.q2y T 3) (Zeros.q2x T 3) (pz * A - Lxy * B) (-Lxy * A - pz * B)
    let t1_1 := atan2 (Zeros.py T) (Zeros.px T) py px
    let t1_2 := atan2 (!Zeros.py T) (!Zeros.px T) (-py) (-px)
    [[t1_1, t2_1, t3_1], [t1_1, t2_3, t3_2], [t1_2, t2_2, t3_1], [t1_2, t2_4, t3_2]]

/-- robots.py:221-223 and 235-236: the two elbow angles of a cosine. -/
def elbow (c3 : ℝ) : ℝ × ℝ :=
  let s3 := Real.sqrt (1 - c3 ^ 2)
  (atan2 false false s3 c3, atan2 true false (-s3) c3)

/-- robots.py:241-251 and 271-273: the two solutions that face the target. -/
def arm2Pos (T : M4) (a1 a2 a3 L z q1 : ℝ) (q3 : ℝ × ℝ) : List (List ℝ) :=
  let c3 := Real.cos q3.2
  let s3 := Real.sin q3.1
  let q2a := atan2 (Zeros.q2y T 0) (Zeros.q2x T 0) (-a3 * s3 * (L - a1) + z * (a2 + a3 * c3))
    (a3 * s3 * z + (L - a1) * (a2 + a3 * c3))
  let q2b := atan2 (Zeros.q2y T 1) (Zeros.q2x T 1) (a3 * s3 * (L - a1) + z * (a2 + a3 * c3))
    (-a3 * s3 * z + (L - a1) * (a2 + a3 * c3))
  [[q1, q2a, q3.1], [q1, q2b, q3.2]]

/-- robots.py:252-262 and 274-276: the two solutions that face away from the target. -/
def arm2Neg (T : M4) (a1 a2 a3 L z q1 : ℝ) (q3 : ℝ × ℝ) : List (List ℝ) :=
  let s3 := Real.sin q3.1
  let c3 := Real.cos q3.2
  let q2a := atan2 (Zeros.q2y T 2) (Zeros.q2x T 2) (a3 * s3 * (L + a1) + z * (a2 + a3 * c3))
    (a3 * s3 * z - (L + a1) * (a2 + a3 * c3))
  let q2b := atan2 (Zeros.q2y T 3) (Zeros.q2x T 3) (-a3 * s3 * (L + a1) + z * (a2 + a3 * c3))
    (-a3 * s3 * z - (L + a1) * (a2 + a3 * c3))
  [[q1, q2a, q3.1], [q1, q2b, q3.2]]

/-- robots.py:212 and 226 -/
def arm2Cos (a1 a2 a3 x y z q1 : ℝ) : ℝ :=
  let den := 2 * a2 * a3
  let num := a1 ^ 2 - a2 ^ 2 - a3 ^ 2 + x ^ 2 + y ^ 2 + z ^ 2
  (num - 2 * a1 * Real.sin q1 * y - 2 * a1 * x * Real.cos q1) / den

/-- robots.py:182-281 `Arm2.ik` -/
def arm2Ik (r : Robot Shape) (T : M4) : Option (List (List ℝ)) :=
  let x := T 0 3
  let y := T 1 3
  let z := T 2 3
  let a1 := (dhOfLink r 0).a
  let a2 := (dhOfLink r 1).a
  let a3 := (dhOfLink r 2).a
  let q1Pos := atan2 (Zeros.py T) (Zeros.px T) y x
  let q1Neg := atan2 (!Zeros.py T) (!Zeros.px T) (-y) (-x)
  let q3Pos := (snap (arm2Cos a1 a2 a3 x y z q1Pos)).map elbow
  let q3Neg := (snap (arm2Cos a1 a2 a3 x y z q1Neg)).map elbow
  let L := Real.sqrt (x ^ 2 + y ^ 2)
  let qSol := (q3Pos.map (arm2Pos T a1 a2 a3 L z q1Pos)).getD [] ++
    (q3Neg.map (arm2Neg T a1 a2 a3 L z q1Neg)).getD []
  if q3Pos.isSome || q3Neg.isSome then some qSol else none

/-! ### Kuka -/

/-- robots.py:288-320: a Kuka, its helper robots and the address of the array of its wrist. -/
structure Kuka where
  robot : Robot Shape
  arm : Robot Shape
  qsol : Nat

/-- robots.py:288-320 -/
def Kuka.new (a1 a2 d4 d6 : ℝ) (qsol : Nat) : Kuka := ⟨kukaRobot a1 a2 d4 d6, arm2 a1 a2 d4, qsol⟩

/-- robots.py:324-333: the target for the arm. -/
def kukaTarget (r : Robot Shape) (T : M4) : M4 :=
  let Tw := T
  let Tw := tfInverse r.tfBase * Tw
  let Tw := match r.tool with
    | some tool => Tw * tfInverse tool.tfTT
    | none => Tw
  let d6 := (dhOfLink r 5).d
  let v6 := rotPart Tw *ᵥ ![0, 0, d6]
  setPos Tw (posPart Tw - v6)

/-- robots.py:347-348: the arrays made for the rows of the wrist. -/
def kukaRows (qArm : List ℝ) : List (List ℝ) → Mem → List Nat → List Nat × Mem
  | [], mem, sols => (sols, mem)
  | qWrist :: rest, mem, sols =>
    kukaRows qArm rest (mem ++ [[qArm ++ qWrist]]) (sols ++ [mem.length])

/-- robots.py:339-343: the base of the wrist; its last row is overwritten, not its position. -/
def wristBase (R : M3) (Tw : M4) : M4 :=
  let B : M4 := setRot 1 R
  let B := setEntry B 3 0 (Tw 3 0)
  let B := setEntry B 3 1 (Tw 3 1)
  setEntry B 3 2 (Tw 3 2)

/-- robots.py:337-348: the loop over the solutions of the arm. -/
def kukaLoop (k : Kuka) (Tw : M4) : List (List ℝ) → RState → Mem → List Nat →
    Except PyErr (List Nat) × RState × Mem
  | [], st, mem, sols => (.ok sols, st, mem)
  | qArm :: rest, st, mem, sols =>
    let qArm := qArm.modify 2 (· + Real.pi / 2)
    let x := k.arm.fk st qArm
    match x.1 with
    | .error e => (.error e, x.2, mem)
    | .ok Tarm =>
      let base := wristBase (rotPart Tarm) Tw
      let w := wristIk k.qsol base mem Tw
      let y := kukaRows qArm ((w.2[w.1]?).getD []) w.2 sols
      kukaLoop k Tw rest x.2 y.2 y.1

/-- robots.py:322-351 `Kuka.ik`: addresses of the solutions. -/
def Kuka.ik (k : Kuka) (st : RState) (mem : Mem) (T : M4) :
    Except PyErr (Option (List Nat)) × RState × Mem :=
  let Tw := kukaTarget k.robot T
  match arm2Ik k.arm Tw with
  | none => (.ok none, st, mem)
  | some sol =>
    let x := kukaLoop k Tw sol st mem []
    (x.1.map fun sols => if sols.length > 0 then some sols else none, x.2)

/-! ### KukaOnRail -/

/-- robots.py:355-387: a rail robot with its inner Kuka. -/
structure Rail where
  robot : Robot Shape
  kuka : Kuka

/-- robots.py:355-387: the inner Kuka always has the default parameters. -/
def Rail.new (a1 a2 d4 d6 : ℝ) (qsol : Nat) : Rail :=
  ⟨railRobot a1 a2 d4 d6, Kuka.new 0.18 0.6 0.62 0.115 qsol⟩

/-- robots.py:391-396 -/
def railTarget (r : Robot Shape) (T : M4) : M4 :=
  let Tw := T
  let Tw := tfInverse r.tfBase * Tw
  match r.tool with
  | some tool => Tw * tfInverse tool.tfTT
  | none => Tw

/-- robots.py:405-406 -/
def railRows (qFixed : ℝ) : List Nat → Mem → List Nat → List Nat × Mem
  | [], mem, sols => (sols, mem)
  | addr :: rest, mem, sols =>
    railRows qFixed rest (mem ++ [[qFixed :: (((mem[addr]?).getD [])[0]?).getD []]])
      (sols ++ [mem.length])

/-- robots.py:389-409 `KukaOnRail.ik`; `st0` is the matrix object of the first link, `st` the state of
the arm of the inner Kuka. -/
def Rail.ik (r : Rail) (st0 : M4) (st : RState) (mem : Mem) (T : M4) (qFixed : ℝ) :
    Except PyErr (Option (List Nat)) × M4 × RState × Mem :=
  let Tw := railTarget r.robot T
  match r.robot.links[0]? with
  | none => (.error .indexError, st0, st, mem)
  | some link =>
    let t := link.relTf st0 qFixed
    match t.1 with
    | .error e => (.error e, t.2, st, mem)
    | .ok T1 =>
      let kuka : Kuka := { r.kuka with robot := { r.kuka.robot with tfBase := T1 } }
      let res := kuka.ik st mem Tw
      match res.1 with
      | .error e => (.error e, t.2, res.2)
      | .ok none => (.ok none, t.2, res.2)
      | .ok (some sols) =>
        let y := railRows qFixed sols res.2.2 []
        (.ok (some y.1), t.2, res.2.1, y.2)

end

end Verif.Kin
