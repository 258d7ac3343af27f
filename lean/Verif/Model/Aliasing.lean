import Verif.Model.Planning
import Verif.Model.Robots

/-!
# Model of cart_to_joint_no_redundancy with references

`Model/Planning` takes the solutions of `ik` as values.  In the code they are numpy arrays: planning.py
keeps them in the list `q_sol` and only copies their contents when `np.vstack` builds the column.
Here the planner keeps references, and every use reads the contents at that time.
-/

namespace Verif.Planning

open Verif.Path Verif.Geometry Verif.Kin Verif.ShortestPath Verif.Task Verif.CppGraph Verif.Search

noncomputable section

/-- A row of an array: `for qi in sol["sol"]` gives the arrays of a list, or views on the rows of a
two-dimensional array. (planning.py:111-113) -/
abbrev Ref := Nat × Nat

/-- What the planner uses of a robot, with arrays by reference; `read` gives the contents.
(planning.py:109-112, 297-300) -/
structure RefArm (W S : Type) where
  ik : M4 → Run W (Option (List Ref))
  isInCollision : Config → Collection S → Run W Bool
  fk : Config → Run W M4
  read : W → Ref → Config

variable {W S : Type}

/-- The robot seen as one that returns values: the contents at the time `ik` returns.  The `ik` of these
robots has no argument for fixed joint values. (planning.py:109-111, 297-299; robots.py:65, 322) -/
def RefArm.toArm (A : RefArm W S) : Arm W S where
  ik T := fun w => ((A.ik T w).1.map (Option.map (List.map (A.read (A.ik T w).2))), (A.ik T w).2)
  ikFixed _ _ := raise .typeError
  isInCollision := A.isInCollision
  fk := A.fk

/-- planning.py:299-301: `for qi in sol["sol"]: if not robot.is_in_collision(qi, scene): ...` -/
def keepFreeRef (A : RefArm W S) (scene : Collection S) : List Ref → List Ref → Run W (List Ref)
  | [], acc => pure acc
  | r :: rs, acc => do
    let c ← fun w => A.isInCollision (A.read w r) scene w
    if c then keepFreeRef A scene rs acc else keepFreeRef A scene rs (acc ++ [r])

/-- planning.py:296-307 -/
def samplesLoopRef (A : RefArm W S) (scene : Collection S) : List M4 → List Ref → Run W (List Ref)
  | [], acc => pure acc
  | T :: Ts, acc => do
    match ← A.ik T with
    | none => samplesLoopRef A scene Ts acc
    | some sols => do
      let acc ← keepFreeRef A scene sols acc
      samplesLoopRef A scene Ts acc

/-- planning.py:309-312: `np.vstack` copies the contents. -/
def columnRef (A : RefArm W S) (conv : ℝ → ℝ) (qSol : List Ref) : Run W (PyCol ℝ) :=
  fun w => (column conv (qSol.map (A.read w)), w)

/-- planning.py:292-313 -/
def noRedundancyLoopRef (A : RefArm W S) (scene : Collection S) (conv : ℝ → ℝ) (draws : Nat → Draws)
    (n : Nat) : Nat → List PathPt → List (PyCol ℝ) → Run W (List (PyCol ℝ))
  | _, [], Q => pure Q
  | i, tp :: rest, Q => do
    let samples ← Run.lift (getSamples (draws i) n none tp)
    let qSol ← samplesLoopRef A scene samples []
    let c ← columnRef A conv qSol
    noRedundancyLoopRef A scene conv draws n (i + 1) rest (Q ++ [c])

/-- planning.py:283-313 `cart_to_joint_no_redundancy`, with references. -/
def cartToJointNoRedundancyRef (A : RefArm W S) (conv : ℝ → ℝ) (draws : Nat → Draws)
    (path : List PathPt) (scene : Collection S) (n : Nat := 1000) : Run W (List (PyCol ℝ)) :=
  noRedundancyLoopRef A scene conv draws n 0 path []

/-- The contents of a row. (planning.py:111) -/
def readRef (mem : Mem) (r : Ref) : Config := (((mem[r.1]?).getD [])[r.2]?).getD []

/-- The collision check of a robot (robot.py) as a call in a larger world. (robot.py:189-215) -/
def robotCollision (hit : Oracle Shape) (r : Robot Shape) {V : Type} (q : Config)
    (scene : Collection Shape) : Run (RState × V) Bool := fun w =>
  (liftPy (r.isInCollision hit w.1 q scene).1, (r.isInCollision hit w.1 q scene).2, w.2)

/-- `robot.fk` as a call in a larger world. (robot.py:124-134) -/
def robotFk (r : Robot Shape) {V : Type} (q : Config) : Run (RState × V) M4 := fun w =>
  (liftPy (r.fk w.1 q).1, (r.fk w.1 q).2, w.2)

/-- A robot whose `ik` makes new arrays and touches nothing else (Arm2, AnthropomorphicArm):
the solutions are values.  Their `ik` has no argument for fixed joint values.
(robots.py:110-160, 182-281) -/
def pureArm (hit : Oracle Shape) (r : Robot Shape) (ik : M4 → Option (List Config)) :
    Arm (RState × Unit) Shape where
  ik T := fun w => (.ok (ik T), w)
  ikFixed _ _ := raise .typeError
  isInCollision := robotCollision hit r
  fk := robotFk r

/-- A robot without the method `ik` (PlanarArm, SphericalArm, Puma): looking it up fails.
(robots.py:9-42, 412-466; planning.py:109, 190, 297, 332) -/
def noIkArm (hit : Oracle Shape) (r : Robot Shape) : Arm (RState × Unit) Shape where
  ik _ := raise .attributeError
  ikFixed _ _ := raise .attributeError
  isInCollision := robotCollision hit r
  fk := robotFk r

/-- resources/robots.py:284-351: a Kuka as the planner sees it.  The world: the link matrices of the robot, those
of the helper arm, and the arrays. -/
def kukaRef [Zeros] (hit : Oracle Shape) (k : Kuka) : RefArm (RState × RState × Mem) Shape where
  ik T := fun w =>
    (liftPy ((k.ik w.2.1 w.2.2 T).1.map (Option.map (List.map fun a => (a, 0)))),
      w.1, (k.ik w.2.1 w.2.2 T).2)
  isInCollision := robotCollision hit k.robot
  fk := robotFk k.robot
  read w r := readRef w.2.2 r

/-- resources/robots.py:45-90: a SphericalWrist as the planner sees it; `ik` gives the rows of `self.qsol`. -/
def wristRef [Zeros] (hit : Oracle Shape) (r : Robot Shape) (qsol : Nat) : RefArm
    (RState × Mem) Shape where
  ik T := fun w =>
    (.ok (some ((List.range ((wristIk qsol r.tfBase w.2 T).2[qsol]?.getD []).length).map
      fun i => (qsol, i))), w.1, (wristIk qsol r.tfBase w.2 T).2)
  isInCollision := robotCollision hit r
  fk := robotFk r
  read w r := readRef w.2 r

/-- resources/robots.py:354-409: a KukaOnRail as the planners see it.  The world: the link matrices of the
robot, those of the helper arm, and the arrays.  `ik` writes the matrix of the first link of the robot.
The solutions are read when `ik` returns: they are new arrays.  Without the rail position `ik` has an
argument too few; a rail position that is not one number cannot be stored in the matrix. -/
def railArm [Zeros] (hit : Oracle Shape) (r : Rail) : Arm (RState × RState × Mem) Shape where
  ik _ := raise .typeError
  ikFixed T qf := fun w =>
    match qf, w.1.mats with
    | [x], m :: ms =>
      let res := r.ik m w.2.1 w.2.2 T x
      (liftPy (res.1.map (Option.map (List.map fun a => readRef res.2.2.2 (a, 0)))),
        { w.1 with mats := res.2.1 :: ms }, res.2.2)
    | [_], [] => (.error (.py .indexError), w)
    | _, _ => (.error (.py .valueError), w)
  isInCollision := robotCollision hit r.robot
  fk := robotFk r.robot

end

end Verif.Planning
