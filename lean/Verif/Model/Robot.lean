import Verif.Model.Geometry
import Verif.Model.Util

/-!
# Model of acrobotics/robot.py

The attributes of a robot that are only read are a `Robot`.  What methods change in place is the
state `RState`: the matrix object of every link (`Link._T`, robot.py:33) and the list
`collision_priority` (robot.py:122).  A method returns its outcome and the state afterwards, also
when it raises.  Plotting and animation (robot.py:217-281) are in Model/Plot.
-/

namespace Verif.Kin

open Matrix Verif.Geometry

noncomputable section

variable {S : Type}

/-- robot.py:17 -/
structure DH where
  a : ℝ
  alpha : ℝ
  d : ℝ
  theta : ℝ

/-- The `joint_type` string. (robot.py:25, 41-44) -/
inductive JointType where
  | r
  | p
  | other
  deriving DecidableEq

/-- robot.py:23-33 without the matrix object -/
structure Link (S : Type) where
  dh : DH
  jointType : JointType
  geometry : Collection S

/-- `T[i, j] = v` (robot.py:51-57) -/
def setEntry (T : M4) (i j : Fin 4) (v : ℝ) : M4 :=
  Matrix.of fun a b => if a = i ∧ b = j then v else T a b

/-- robot.py:46-57: the assignments to the matrix object, in order. -/
def writeDH (T : M4) (a alpha d theta : ℝ) : M4 :=
  let cTheta := Real.cos theta
  let sTheta := Real.sin theta
  let cAlpha := Real.cos alpha
  let sAlpha := Real.sin alpha
  let T := setEntry T 0 0 cTheta
  let T := setEntry T 0 1 (-sTheta * cAlpha)
  let T := setEntry T 0 2 (sTheta * sAlpha)
  let T := setEntry T 0 3 (a * cTheta)
  let T := setEntry T 1 0 sTheta
  let T := setEntry T 1 1 (cTheta * cAlpha)
  let T := setEntry T 1 2 (-cTheta * sAlpha)
  let T := setEntry T 1 3 (a * sTheta)
  let T := setEntry T 2 1 sAlpha
  let T := setEntry T 2 2 cAlpha
  setEntry T 2 3 d

/-- robot.py:35-58 `get_link_relative_transform`: outcome and contents of the matrix object, which
is also what is returned.  Another joint type leaves `theta` unbound. -/
def Link.relTf (l : Link S) (T : M4) (qi : ℝ) : Except PyErr M4 × M4 :=
  match l.jointType with
  | .r =>
    let T := writeDH T l.dh.a l.dh.alpha l.dh.d qi
    (.ok T, T)
  | .p =>
    let T := writeDH T l.dh.a l.dh.alpha qi l.dh.theta
    (.ok T, T)
  | .other => (.error .unboundLocalError, T)

/-- robot.py:60-74 `get_link_relative_transform_casadi`, evaluated at a joint value. -/
def Link.relTfCasadi (l : Link S) (qi : ℝ) : M4 :=
  let a := l.dh.a
  let alpha := l.dh.alpha
  let d := l.dh.d
  let theta := qi
  let ct := Real.cos theta
  let st := Real.sin theta
  let ca := Real.cos alpha
  let sa := Real.sin alpha
  !![ct, -st * ca, st * sa, a * ct;
     st, ct * ca, -ct * sa, a * st;
     0, sa, ca, d;
     0, 0, 0, 1]

/-- robot.py:80-90 -/
structure Tool (S : Type) extends Collection S where
  tfTT : M4

/-- robot.py:99-119: attributes that the methods only read. -/
structure Robot (S : Type) where
  links : List (Link S)
  tfBase : M4
  tool : Option (Tool S)
  geometryBase : Option (Collection S)
  collisionMatrix : Nat → Nat → Bool
  doCheckSelfCollision : Bool

/-- What methods change. (robot.py:50, 203-204) -/
structure RState where
  mats : List M4
  priority : List Nat

/-- robot.py:117-118: `np.tril(ones, k=-3) + np.triu(ones, k=3)`; the first keeps the entries with
`j ≤ i - 3`, the second those with `j ≥ i + 3`. -/
def bandMatrix (i j : Nat) : Bool := decide (j + 3 ≤ i) || decide (i + 3 ≤ j)

/-- robot.py:99-122 `Robot.__init__` -/
def Robot.new (links : List (Link S)) : Robot S where
  links := links
  tfBase := 1
  tool := none
  geometryBase := none
  collisionMatrix := bandMatrix
  doCheckSelfCollision := true

/-- robot.py:33 and 122: the state of a new robot. -/
def RState.new (ndof : Nat) : RState := ⟨List.replicate ndof 1, List.range ndof⟩

/-- robot.py:128-131 and 149-153: the loop over the links.  Returns the list of the frames (the last
one is the value of `T` at the end) and the matrix objects. -/
def fkLoop : List (Link S) → List M4 → List ℝ → M4 → Except PyErr (List M4) × List M4
  | [], ms, _, _ => (.ok [], ms)
  | _ :: _, ms, [], _ => (.error .indexError, ms)
  | _ :: _, [], _, _ => (.error .indexError, [])
  | l :: ls, m :: ms, q :: qs, T =>
    match l.relTf m q with
    | (.error e, m') => (.error e, m' :: ms)
    | (.ok Ti, m') =>
      let T := T * Ti
      let r := fkLoop ls ms qs T
      (r.1.map fun rest => T :: rest, m' :: r.2)

/-- robot.py:145-154 `fk_all_links` -/
def Robot.fkAllLinks (r : Robot S) (st : RState) (q : List ℝ) : Except PyErr (List M4) × RState :=
  let x := fkLoop r.links st.mats q r.tfBase
  (x.1, { st with mats := x.2 })

/-- robot.py:124-134 `fk` -/
def Robot.fk (r : Robot S) (st : RState) (q : List ℝ) : Except PyErr M4 × RState :=
  let x := fkLoop r.links st.mats q r.tfBase
  (x.1.map fun frames =>
    let T := frames.getLast?.getD r.tfBase
    match r.tool with
    | some tool => T * tool.tfTT
    | none => T, { st with mats := x.2 })

/-- robot.py:137-140 and 160-164: the loop of the symbolic version. -/
def fkLoopCasadi : List (Link S) → List ℝ → M4 → Except PyErr (List M4)
  | [], _, _ => .ok []
  | _ :: _, [], _ => .error .indexError
  | l :: ls, q :: qs, T => do
    let T := T * l.relTfCasadi q
    let rest ← fkLoopCasadi ls qs T
    .ok (T :: rest)

/-- robot.py:156-165 `fk_all_links_casadi` -/
def Robot.fkAllLinksCasadi (r : Robot S) (q : List ℝ) : Except PyErr (List M4) :=
  fkLoopCasadi r.links q r.tfBase

/-- robot.py:136-143 `fk_casadi` -/
def Robot.fkCasadi (r : Robot S) (q : List ℝ) : Except PyErr M4 := do
  let frames ← fkLoopCasadi r.links q r.tfBase
  let T := frames.getLast?.getD r.tfBase
  match r.tool with
  | some tool => .ok (T * tool.tfTT)
  | none => .ok T

/-- robot.py:169-172: the inner loop of the link-link checks; `j` runs along. -/
def selfInner (hit : Oracle S) (mat : Nat → Nat → Bool) (i : Nat) (ti : M4) (gi : Collection S) :
    Nat → List (M4 × Collection S) → Bool
  | _, [] => false
  | j, (tj, gj) :: rest =>
    if mat i j then
      if gi.isInCollision hit gj (some ti) (some tj) then true
      else selfInner hit mat i ti gi (j + 1) rest
    else selfInner hit mat i ti gi (j + 1) rest

/-- robot.py:168-172: the outer loop. -/
def selfOuter (hit : Oracle S) (mat : Nat → Nat → Bool) (all : List (M4 × Collection S)) :
    Nat → List (M4 × Collection S) → Bool
  | _, [] => false
  | i, (ti, gi) :: rest =>
    if selfInner hit mat i ti gi 0 all then true else selfOuter hit mat all (i + 1) rest

/-- robot.py:177-181: the tool against the links. -/
def toolLoop (hit : Oracle S) (tool : Collection S) (tfTool : M4) : List (M4 × Collection S) → Bool
  | [] => false
  | (t, g) :: rest =>
    if g.isInCollision hit tool (some t) (some tfTool) then true
    else toolLoop hit tool tfTool rest

/-- robot.py:167-182 `_check_self_collision` -/
def Robot.checkSelfCollision (hit : Oracle S) (r : Robot S) (tfLinks : List M4)
    (geomLinks : List (Collection S)) : Except PyErr Bool :=
  if selfOuter hit r.collisionMatrix (tfLinks.zip geomLinks) 0 (tfLinks.zip geomLinks) then
    .ok true
  else
    match r.tool with
    | none => .ok false
    | some tool => do
      let tfTool ← pyLast tfLinks
      .ok (toolLoop hit tool.toCollection tfTool (tfLinks.dropLast.zip geomLinks.dropLast))

/-- robot.py:184-187 `is_in_self_collision` -/
def Robot.isInSelfCollision (hit : Oracle S) (r : Robot S) (st : RState) (q : List ℝ) :
    Except PyErr Bool × RState :=
  let x := r.fkAllLinks st q
  (x.1.bind fun tfLinks => r.checkSelfCollision hit tfLinks (r.links.map Link.geometry), x.2)

/-- robot.py:200-205: the loop over the priority list: the first index found in collision, if any. -/
def priorityLoop (hit : Oracle S) (scene : Collection S) (tfLinks : List M4)
    (geomLinks : List (Collection S)) : List Nat → Except PyErr (Option Nat)
  | [] => .ok none
  | i :: rest => do
    let g ← pyGet geomLinks i
    let t ← pyGet tfLinks i
    if g.isInCollision hit scene (some t) none then .ok (some i)
    else priorityLoop hit scene tfLinks geomLinks rest

/-- robot.py:207-215: tool and self collision checks. -/
def Robot.afterLinks (hit : Oracle S) (r : Robot S) (tfLinks : List M4)
    (geomLinks : List (Collection S)) (scene : Collection S) : Except PyErr Bool := do
  let toolHit ← match r.tool with
    | none => .ok false
    | some tool => do
      let tfTool ← pyLast tfLinks
      .ok (tool.toCollection.isInCollision hit scene (some tfTool) none)
  if toolHit then .ok true
  else if r.doCheckSelfCollision then do
    if ← r.checkSelfCollision hit tfLinks geomLinks then .ok true else .ok false
  else .ok false

/-- robot.py:196-215, after the check of the base. -/
def Robot.checkLinks (hit : Oracle S) (r : Robot S) (st : RState) (q : List ℝ)
    (scene : Collection S) : Except PyErr Bool × RState :=
  let geomLinks := r.links.map Link.geometry
  let x := r.fkAllLinks st q
  match x.1 with
  | .error e => (.error e, x.2)
  | .ok tfLinks =>
    match priorityLoop hit scene tfLinks geomLinks x.2.priority with
    | .error e => (.error e, x.2)
    | .ok (some i) => (.ok true, { x.2 with priority := i :: x.2.priority.erase i })
    | .ok none => (r.afterLinks hit tfLinks geomLinks scene, x.2)

/-- robot.py:189-215 `is_in_collision` -/
def Robot.isInCollision (hit : Oracle S) (r : Robot S) (st : RState) (q : List ℝ)
    (scene : Collection S) : Except PyErr Bool × RState :=
  match r.geometryBase with
  | none => r.checkLinks hit st q scene
  | some base =>
    if base.isInCollision hit scene (some r.tfBase) none then (.ok true, st)
    else r.checkLinks hit st q scene

end

end Verif.Kin
