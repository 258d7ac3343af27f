import Verif.Model.Quat
import Verif.Model.SampleSO3
import Verif.Model.Grid

/-!
# Model of acrobotics/path.py

Numbers are reals.  The `__str__` methods are not modelled, the
`plot` methods are in Model/TaskPlot.lean.  The positions of
`AxisAnglePt`, `FreeOrientationPt` and `TolOrientationPt` are vectors of three numbers; the lists
given to `TolEulerPt`, `TolPositionPt` and `point_to_frame` have any length.
-/

namespace Verif.Path

open Verif.Util Verif.Grid Verif.SampleSO3

noncomputable section

/-- `np.linspace(a, b, n)`: a negative count raises ValueError, one sample is the start.
(path.py:34) -/
def linspace (a b : ℝ) (n : Int) : Except PyErr (List ℝ) :=
  if n < 0 then .error .valueError
  else .ok ((List.range n.toNat).map fun (i : Nat) => a + i * ((b - a) / ((n : ℝ) - 1)))

/-- The attributes of a TolerancedNumber (path.py:16-31). -/
structure TolNum where
  lower : ℝ
  upper : ℝ
  nominal : ℝ
  numSamples : Int

/-- path.py:20-31 `TolerancedNumber.__init__` -/
def TolNum.new (lower upper : ℝ) (nominal : Option ℝ := none) (samples : Int := 10) :
    Except PyErr TolNum :=
  match nominal with
  | none => .ok ⟨lower, upper, lower + (upper - lower) / 2, samples⟩
  | some m =>
    if m < lower ∨ m > upper then .error .valueError
    else .ok ⟨lower, upper, m, samples⟩

/-- path.py:33-34 -/
def TolNum.discretise (t : TolNum) : Except PyErr (List ℝ) := linspace t.lower t.upper t.numSamples

/-- An entry of `pos` or `rpy`: a plain number or a TolerancedNumber. (path.py:56, 125) -/
inductive Entry where
  | num (x : ℝ)
  | tol (t : TolNum)

/-- `isinstance(num, TolerancedNumber)` (path.py:56, 125) -/
def Entry.isTol : Entry → Bool
  | .num _ => false
  | .tol _ => true

/-- path.py:60-63: one round of the loop; a `.nominal` of a plain number would be an
AttributeError and a TolerancedNumber stored into a float array a TypeError (neither can happen, as
the flag comes from `isinstance`). -/
def nominalOf (hasTol : Bool) (e : Entry) : Except PyErr ℝ :=
  match hasTol, e with
  | true, .tol t => .ok t.nominal
  | false, .num x => .ok x
  | true, .num _ => .error .attributeError
  | false, .tol _ => .error .typeError

/-- path.py:50-65 and 119-134 `_check_for_tolerance` -/
def checkForTolerance (l : List Entry) : Except PyErr (List Bool × List ℝ) := do
  let hasTolerance := l.map Entry.isTol
  let nominalVals ← (List.range 3).mapM fun (i : Nat) => do
    let h ← pyGet hasTolerance i
    let e ← pyGet l i
    nominalOf h e
  .ok (hasTolerance, nominalVals)

/-- path.py:71-74, 78-81 and 140-143: the axis of the grid that an entry contributes; a plain
number is an axis of one value. -/
def axisOf (hasTol : Bool) (e : Entry) : Except PyErr (List ℝ) :=
  match hasTol, e with
  | true, .tol t => t.discretise
  | false, .num x => .ok [x]
  | true, .num _ => .error .attributeError
  | false, .tol _ => .error .typeError

/-- path.py:70-74, 77-81 and 139-143: the three axes of a list of entries. -/
def axesOf (hasTol : List Bool) (l : List Entry) : Except PyErr (List (List ℝ)) :=
  (List.range 3).mapM fun (i : Nat) => do
    let h ← pyGet hasTol i
    let e ← pyGet l i
    axisOf h e

/-- The right hand side of `T[:3, 3] = p`: three numbers, or one number for all three entries;
everything else is a ValueError. (path.py:90, 150, 177, 209, 240) -/
def assign3 (p : List ℝ) : Except PyErr V3 :=
  match p with
  | [a, b, c] => .ok ![a, b, c]
  | [a] => .ok ![a, a, a]
  | _ => .error .valueError

/-- path.py:89, 102 and 265: `rot_x(p[3]) . (rot_y(p[4]) . rot_z(p[5]))`. -/
def eulerOf (p : List ℝ) : Except PyErr M3 := do
  let a ← pyGet p 3
  let b ← pyGet p 4
  let c ← pyGet p 5
  .ok (rotX a * (rotY b * rotZ c))

/-- path.py:41-48: the attributes of a TolEulerPt. -/
structure TolEulerPt where
  pos : List Entry
  posHasTol : List Bool
  posNom : List ℝ
  rpy : List Entry
  rpyHasTol : List Bool
  rpyNom : List ℝ
  pNominal : List ℝ

/-- path.py:41-48 `TolEulerPt.__init__` -/
def TolEulerPt.new (pos rpy : List Entry) : Except PyErr TolEulerPt := do
  let p ← checkForTolerance pos
  let r ← checkForTolerance rpy
  .ok { pos := pos, posHasTol := p.1, posNom := p.2, rpy := rpy, rpyHasTol := r.1, rpyNom := r.2,
        pNominal := p.2 ++ r.2 }

/-- path.py:88-90: the rotation block first, then the position. -/
def eulerSample (pi : List ℝ) : Except PyErr M4 := do
  let R ← eulerOf pi
  let Ti := setRot 1 R
  let v ← assign3 (pi.take 3)
  .ok (setPos Ti v)

/-- path.py:67-93 `TolEulerPt.get_samples`; none of its arguments is used. -/
def TolEulerPt.getSamples (pt : TolEulerPt) : Except PyErr (List M4) := do
  let r1 ← axesOf pt.posHasTol pt.pos
  let r2 ← axesOf pt.rpyHasTol pt.rpy
  let grid := createGrid (r1 ++ r2)
  grid.mapM eulerSample

/-- path.py:95-96 -/
def TolEulerPt.discretise (pt : TolEulerPt) : Except PyErr (List M4) := pt.getSamples

/-- path.py:98-103 `nominal_transform`: the position first, then the rotation block. -/
def TolEulerPt.nominalTransform (pt : TolEulerPt) : Except PyErr M4 := do
  let v ← assign3 (pt.pNominal.take 3)
  let tf := setPos 1 v
  let R ← eulerOf pt.pNominal
  .ok (setRot tf R)

/-- path.py:114-117: the attributes of a TolPositionPt. -/
structure TolPositionPt where
  pos : List Entry
  posHasTol : List Bool
  posNom : List ℝ
  quat : Quat

/-- path.py:114-117 `TolPositionPt.__init__` -/
def TolPositionPt.new (pos : List Entry) (quat : Quat) : Except PyErr TolPositionPt := do
  let p ← checkForTolerance pos
  .ok { pos := pos, posHasTol := p.1, posNom := p.2, quat := quat }

/-- path.py:149-150 -/
def positionSample (q : Quat) (pi : List ℝ) : Except PyErr M4 := do
  let Ti := q.transformationMatrix
  let v ← assign3 pi
  .ok (setPos Ti v)

/-- path.py:136-153 `TolPositionPt.get_samples`; none of its arguments is used. -/
def TolPositionPt.getSamples (pt : TolPositionPt) : Except PyErr (List M4) := do
  let r ← axesOf pt.posHasTol pt.pos
  let grid := createGrid r
  grid.mapM (positionSample pt.quat)

/-- path.py:164-170: the attributes of an AxisAnglePt. -/
structure AxisAnglePt where
  pos : V3
  axis : V3
  angle : TolNum
  quat : Quat

/-- path.py:175-177: the sample for one angle. -/
def AxisAnglePt.sample (pt : AxisAnglePt) (ai : ℝ) : Except PyErr M4 := do
  let qa ← Quat.ofAxisAngle pt.axis ai
  let qi := qa.mul pt.quat
  .ok (setPos qi.transformationMatrix pt.pos)

/-- path.py:172-180 `AxisAnglePt.get_samples`; none of its arguments is used. -/
def AxisAnglePt.getSamples (pt : AxisAnglePt) : Except PyErr (List M4) := do
  let angles ← pt.angle.discretise
  angles.mapM pt.sample

/-- path.py:191-193: the attributes of a FreeOrientationPt. -/
structure FreeOrientationPt where
  p : V3
  pNominal : List ℝ

/-- path.py:191-193 -/
def FreeOrientationPt.new (position : V3) : FreeOrientationPt where
  p := position
  pNominal := [position 0, position 1, position 2, 0, 0, 0]

/-- The three kinds of answer of `FreeOrientationPt.get_samples`. (path.py:202-212) -/
inductive FreeOut where
  | points (l : List (List ℝ))
  | transforms (l : List M4)
  | quats (l : List Quat)

/-- path.py:203-205: the angles beside the tiled position.  With no sample at all the array of
angles is one-dimensional and `hstack` raises ValueError. -/
def hstackPoints (p : V3) (out : Out) : Except PyErr FreeOut :=
  match out with
  | .rpys l =>
    if l.length = 0 then .error .valueError
    else .ok (.points (l.map fun a => [p 0, p 1, p 2, a 0, a 1, a 2]))
  | _ => .error .valueError

/-- path.py:207-210: the position is written into every transform. -/
def movedTransforms (p : V3) (out : Out) : Except PyErr FreeOut :=
  match out with
  | .transforms l => .ok (.transforms (l.map fun Ti => setPos Ti p))
  | _ => .error .typeError

/-- path.py:212 -/
def sameQuats (out : Out) : Except PyErr FreeOut :=
  match out with
  | .quats l => .ok (.quats l)
  | _ => .error .typeError

/-- path.py:195-214 `FreeOrientationPt.get_samples`.  `rep` and `method` are the keyword
arguments; both are passed on to `sample_SO3`, whose defaults are `"rpy"` and `"random"`.  The
remaining parameters are those of the model of `sample_SO3`. -/
def FreeOrientationPt.getSamples (root : Nat → Nat) (fuel : Nat) (rnd : Nat → ℝ × ℝ × ℝ)
    (pt : FreeOrientationPt) (n : Nat) (rep : Option Rep := none) (method : Option Method := none) :
    Except PyErr FreeOut :=
  match rep.getD .rpy with
  | .rpy => do
    let out ← sampleSO3 root fuel rnd n (rep.getD .rpy) (method.getD .random)
    hstackPoints pt.p out
  | .transform => do
    let out ← sampleSO3 root fuel rnd n (rep.getD .rpy) (method.getD .random)
    movedTransforms pt.p out
  | .quat => do
    let out ← sampleSO3 root fuel rnd n (rep.getD .rpy) (method.getD .random)
    sameQuats out
  | .other => .error .valueError

/-- path.py:216-217 -/
def FreeOrientationPt.discretise (root : Nat → Nat) (fuel : Nat) (rnd : Nat → ℝ × ℝ × ℝ)
    (pt : FreeOrientationPt) : Except PyErr FreeOut := pt.getSamples root fuel rnd 100

/-- path.py:227-229: the attributes of a TolOrientationPt. -/
structure TolOrientationPt where
  p : V3
  o : Quat

/-- path.py:231-241 `TolOrientationPt.get_samples`.  `Quaternion.random_near` does not exist in the
published pyquaternion.  `near o dist` is the sequence of its draws, `none` stands for a library
without it (AttributeError when it is looked up for the first sample). -/
def TolOrientationPt.getSamples (near : Option (Quat → ℝ → Nat → Quat)) (pt : TolOrientationPt)
    (n : Nat) (dist : ℝ := 1 / 10) : Except PyErr (List M4) := do
  let samples ← (List.range n).mapM fun (i : Nat) =>
    match near with
    | none => .error .attributeError
    | some f => .ok (f pt.o dist i).transformationMatrix
  .ok (samples.map fun Ti => setPos Ti pt.p)

/-- path.py:243-244 -/
def TolOrientationPt.discretise (near : Option (Quat → ℝ → Nat → Quat)) (pt : TolOrientationPt) :
    Except PyErr (List M4) := pt.getSamples near 100

/-- A path point of any of the five classes. (path.py:37, 110, 159, 186, 226) -/
inductive PathPt where
  | euler (pt : TolEulerPt)
  | position (pt : TolPositionPt)
  | axisAngle (pt : AxisAnglePt)
  | free (pt : FreeOrientationPt)
  | orientation (pt : TolOrientationPt)

/-- path.py:256-266 -/
def pointToFrame (p : List ℝ) : Except PyErr M4 := do
  let v ← assign3 (p.take 3)
  let T := setPos 1 v
  let R ← eulerOf p
  .ok (setRot T R)

end

end Verif.Path
