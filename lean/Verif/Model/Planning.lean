import Verif.Model.ShortestPath
import Verif.Model.Task
import Verif.Model.Robot

/-!
# Model of acrobotics/planning.py (the part in front of the graph search)

The robot enters through the calls the planners make: `ik`, `is_in_collision` and `fk`.  These change
the robot object (link matrices, order of the collision checks), so every call takes and returns the
state of that object; an exception leaves the state as it was when the exception was raised.  The
configurations are values: an `ik` whose results are overwritten by later calls (SphericalWrist, C44)
is not of this form and is treated in `Model/Aliasing`, with references in place of values.

Random numbers: every call of `get_samples` has its own draws, given as a function of the position of
the call (round and path point), so that theorems hold for all draws.

`astype("float32")` rounds every number by an arbitrary function `conv`.  Printing is left out, and so
is the time, which only enters the reported `times` (a function of the round).
-/

namespace Verif.Planning

open Verif.Path Verif.Geometry Verif.Kin Verif.ShortestPath Verif.Task Verif.CppGraph
  Verif.SampleSO3 Verif.Search

noncomputable section

/-- A call on the robot object: the outcome and the state of the object afterwards.
(planning.py:109-112, 206, 297-300) -/
def Run (W α : Type) : Type := W → Except Err α × W

variable {W α β C S : Type}

namespace Run

/-- A value without a call. (planning.py:292, 313) -/
def pure (a : α) : Run W α := fun w => (.ok a, w)

/-- One call after the other; an exception ends the run. (planning.py:296-301) -/
def bind (x : Run W α) (f : α → Run W β) : Run W β := fun w =>
  match x w with
  | (.error e, w') => (.error e, w')
  | (.ok a, w') => f a w'

/-- A computation that does not touch the robot. (planning.py:296) -/
def lift (x : Except Err α) : Run W α := fun w => (x, w)

end Run

instance : Monad (Run W) where
  pure := Run.pure
  bind := Run.bind

/-- `raise` (planning.py:224) -/
def raise (e : PyErr) : Run W α := Run.lift (.error (.py e))

/-- A configuration. (planning.py:111) -/
abbrev Config := List ℝ

/-- What the planners use of a robot.  `none` is the answer `{"success": False}`.  `ikFixed` is `ik`
with the values of the redundant joints as second argument.
(planning.py:109-112, 189-193, 206, 297-300) -/
structure Arm (W S : Type) where
  ik : M4 → Run W (Option (List Config))
  ikFixed : M4 → Config → Run W (Option (List Config))
  isInCollision : Config → Collection S → Run W Bool
  fk : Config → Run W M4

/-- The random numbers of one call of `get_samples`, see `Model/Path`.
(planning.py:227, 296, 331) -/
structure Draws where
  root : Nat → Nat
  fuel : Nat
  rnd : Nat → ℝ × ℝ × ℝ
  near : Option (Quat → ℝ → Nat → Quat)

/-- The transforms among the answers of `FreeOrientationPt.get_samples`. (planning.py:296) -/
def transformsOf (o : FreeOut) : Except PyErr (List M4) :=
  match o with
  | .transforms l => .ok l
  | _ => .error .indexError

/-- `tp.get_samples(n, rep="transform")`, with `dist=dist` if given.
(planning.py:227, 296, 331, 369) -/
def getSamples (d : Draws) (n : Nat) (dist : Option ℝ) (tp : PathPt) : Except Err (List M4) :=
  liftPy (match tp with
    | .euler p => p.getSamples
    | .position p => p.getSamples
    | .axisAngle p => p.getSamples
    | .free p => (p.getSamples d.root d.fuel d.rnd n (some .transform)).bind transformsOf
    | .orientation p => p.getSamples d.near n (dist.getD (1 / 10)))

/-! ### The columns -/

/-- `np.vstack(q_sol)`: all rows must have the same length. (planning.py:115, 310, 348, 382) -/
def vstack (conv : ℝ → ℝ) (rows : List Config) : Except Err (PyCol ℝ) :=
  match rows with
  | [] => .error (.py .valueError)
  | r :: rs =>
    if ∀ x ∈ rs, x.length = r.length then
      .ok (.arr true r.length ((r :: rs).map (List.map conv)))
    else .error (.py .valueError)

/-- planning.py:114-117, 309-312, 347-350: the entry of `Q` for one path point. -/
def column (conv : ℝ → ℝ) (qSol : List Config) : Except Err (PyCol ℝ) :=
  if qSol.length > 0 then vstack conv qSol else .ok .emptyList

/-- planning.py:299-301 (and 111-113, 334-336): keep the solutions that are not in collision. -/
def keepFree (arm : Arm W S) (scene : Collection S) : List Config → List Config → Run W (List Config)
  | [], acc => pure acc
  | q :: qs, acc => do
    let c ← arm.isInCollision q scene
    if c then keepFree arm scene qs acc else keepFree arm scene qs (acc ++ [q])

/-- planning.py:296-307: the loop over the samples of a path point. -/
def samplesLoop (arm : Arm W S) (scene : Collection S) :
    List M4 → List Config → Run W (List Config)
  | [], acc => pure acc
  | T :: Ts, acc => do
    match ← arm.ik T with
    | none => samplesLoop arm scene Ts acc
    | some sols => do
      let acc ← keepFree arm scene sols acc
      samplesLoop arm scene Ts acc

/-- planning.py:292-313: the loop over the path; `i` is the number of the path point. -/
def noRedundancyLoop (arm : Arm W S) (scene : Collection S) (conv : ℝ → ℝ) (draws : Nat → Draws)
    (n : Nat) : Nat → List PathPt → List (PyCol ℝ) → Run W (List (PyCol ℝ))
  | _, [], Q => pure Q
  | i, tp :: rest, Q => do
    let samples ← Run.lift (getSamples (draws i) n none tp)
    let qSol ← samplesLoop arm scene samples []
    let c ← Run.lift (column conv qSol)
    noRedundancyLoop arm scene conv draws n (i + 1) rest (Q ++ [c])

/-- planning.py:283-313 `cart_to_joint_no_redundancy` -/
def cartToJointNoRedundancy (arm : Arm W S) (conv : ℝ → ℝ) (draws : Nat → Draws)
    (path : List PathPt) (scene : Collection S) (n : Nat := 1000) : Run W (List (PyCol ℝ)) :=
  noRedundancyLoop arm scene conv draws n 0 path []

/-! ### cart_to_joint_simple -/

/-- The entries of `tp.discretise()`: transforms, or the rows of six numbers that
`FreeOrientationPt.discretise` gives. (planning.py:106) -/
inductive Disc where
  | transform (T : M4)
  | point (p : List ℝ)

/-- `tp.discretise()`; TolPositionPt and AxisAnglePt do not have this method. (planning.py:106) -/
def discretise (d : Draws) (tp : PathPt) : Except Err (List Disc) :=
  liftPy (match tp with
    | .euler p => p.discretise.map (List.map .transform)
    | .position _ => .error .attributeError
    | .axisAngle _ => .error .attributeError
    | .free p => (p.discretise d.root d.fuel d.rnd).bind fun o =>
        match o with
        | .points l => .ok (l.map .point)
        | .transforms l => .ok (l.map .transform)
        | .quats _ => .error .typeError
    | .orientation p => (p.discretise d.near).map (List.map .transform))

/-- planning.py:108-113: the loop over the fixed joint values.  A row of six numbers is not a matrix:
every `ik` of robots.py indexes it with two indices (IndexError). -/
def fixedLoop (arm : Arm W S) (scene : Collection S) (Ti : Disc) :
    List Config → List Config → Run W (List Config)
  | [], acc => pure acc
  | qf :: rest, acc =>
    match Ti with
    | .point _ => raise .indexError
    | .transform T => do
      match ← arm.ikFixed T qf with
      | none => fixedLoop arm scene (.transform T) rest acc
      | some sols => do
        let acc ← keepFree arm scene sols acc
        fixedLoop arm scene (.transform T) rest acc

/-- planning.py:106-113: the loop over the samples.  `q_sol` is set to `[]` in every round; before the
first round of the first path point it is unbound. -/
def simpleSamples (arm : Arm W S) (scene : Collection S) (qFixed : List Config) :
    List Disc → Option (List Config) → Run W (Option (List Config))
  | [], qSol => pure qSol
  | Ti :: rest, _ => do
    let qSol ← fixedLoop arm scene Ti qFixed []
    simpleSamples arm scene qFixed rest (some qSol)

/-- planning.py:103-118: the loop over the path with the variable `q_sol`, which survives from one
path point to the next. -/
def simpleLoop (arm : Arm W S) (scene : Collection S) (conv : ℝ → ℝ) (draws : Nat → Draws)
    (qFixed : List Config) :
    Nat → List PathPt → Option (List Config) → List (PyCol ℝ) → Run W (List (PyCol ℝ))
  | _, [], _, Q => pure Q
  | i, tp :: rest, qSol, Q => do
    let disc ← Run.lift (discretise (draws i) tp)
    match ← simpleSamples arm scene qFixed disc qSol with
    | none => raise .unboundLocalError
    | some qSol => do
      let c ← Run.lift (column conv qSol)
      simpleLoop arm scene conv draws qFixed (i + 1) rest (some qSol) (Q ++ [c])

/-- planning.py:92-118 `cart_to_joint_simple` -/
def cartToJointSimple (arm : Arm W S) (conv : ℝ → ℝ) (draws : Nat → Draws) (path : List PathPt)
    (scene : Collection S) (qFixed : List Config) : Run W (List (PyCol ℝ)) :=
  simpleLoop arm scene conv draws qFixed 0 path none []

/-! ### cart_to_joint_incremental -/

/-- planning.py:330-345: the while loop.  `k` counts the rounds (only to give every call of
`get_samples` its own draws); `cnt` is the number of configurations found. -/
def incrementalLoop (arm : Arm W S) (scene : Collection S) (draws : Nat → Draws) (tp : PathPt)
    (minSamples maxTries : Int) : Nat → Nat → Int → List Config → Run W (List Config)
  | 0, _, cnt, qSol => if cnt < maxTries then raise .outOfFuel else pure qSol
  | fuel + 1, k, cnt, qSol =>
    if cnt < maxTries then do
      let samples ← Run.lift (getSamples (draws k) 1 none tp)
      let Ti ← Run.lift (liftPy (pyGet samples 0))
      let new ← (do
        match ← arm.ik Ti with
        | none => pure []
        | some sols => keepFree arm scene sols [] : Run W (List Config))
      let cnt := cnt + new.length
      let qSol := qSol ++ new
      if cnt ≥ minSamples then pure qSol
      else incrementalLoop arm scene draws tp minSamples maxTries fuel (k + 1) cnt qSol
    else pure qSol

/-- planning.py:325-351: the loop over the path. -/
def incrementalPath (arm : Arm W S) (scene : Collection S) (conv : ℝ → ℝ)
    (draws : Nat → Nat → Draws) (minSamples maxTries : Int) (fuel : Nat) :
    Nat → List PathPt → List (PyCol ℝ) → Run W (List (PyCol ℝ))
  | _, [], Q => pure Q
  | i, tp :: rest, Q => do
    let qSol ← incrementalLoop arm scene (draws i) tp minSamples maxTries fuel 0 0 []
    let c ← Run.lift (column conv qSol)
    incrementalPath arm scene conv draws minSamples maxTries fuel (i + 1) rest (Q ++ [c])

/-- planning.py:316-351 `cart_to_joint_incremental` -/
def cartToJointIncremental (arm : Arm W S) (conv : ℝ → ℝ) (draws : Nat → Nat → Draws) (fuel : Nat)
    (path : List PathPt) (scene : Collection S) (minSamples : Int := 50) (maxTries : Int := 1000) :
    Run W (List (PyCol ℝ)) :=
  incrementalPath arm scene conv draws minSamples maxTries fuel 0 path []

/-! ### cart_to_joint_tool_first_cc -/

/-- `link.shape`: the class Link (robot.py:20-33) has no such attribute. -/
def linkShape (_l : Link S) : Except PyErr S := .error .attributeError

/-- planning.py:354-385 `cart_to_joint_tool_first_cc`: line 362 looks up `robot.links[-1].shape`; the
rest of the function needs that value and is never reached. -/
def cartToJointToolFirstCc (r : Robot S) (_path : List PathPt) (_scene : Collection S) :
    Except PyErr (List (PyCol ℝ)) := do
  let last ← pyLast r.links
  let _shape ← linkShape last
  .error .attributeError

/-! ### Resampling -/

/-- planning.py:121-127 `get_new_bounds` -/
def getNewBounds (l u m : ℝ) (red : ℝ := 4) : Except PyErr (ℝ × ℝ) :=
  if red = 0 then .error .zeroDivisionError
  else
    let delta := |u - l| / red
    .ok (max (m - delta) l, min (m + delta) u)

/-- planning.py:138-141: the coordinate moved into the bounds. -/
def clampTo (t : TolNum) (x : ℝ) : ℝ :=
  let x := if x < t.lower then t.lower else x
  if x > t.upper then t.upper else x

/-- planning.py:135-146: the new entry for coordinate `x`; a plain number in a place marked as
toleranced cannot happen (AttributeError). -/
def newEntry (hasTol : Bool) (val : Entry) (x : ℝ) : Except PyErr Entry :=
  match hasTol, val with
  | false, v => .ok v
  | true, .num _ => .error .attributeError
  | true, .tol t => do
    let lu ← getNewBounds t.lower t.upper (clampTo t x)
    let t' ← TolNum.new lu.1 lu.2 none t.numSamples
    .ok (.tol t')

/-- planning.py:133-147: the loop over the coordinates. -/
def newEntries (tp : TolPositionPt) (posEe : List ℝ) : Except PyErr (List Entry) :=
  (tp.pos.zipIdx).mapM fun vi => do
    let h ← pyGet tp.posHasTol vi.2
    if h then do
      let x ← pyGet posEe vi.2
      newEntry true vi.1 x
    else newEntry false vi.1 0

/-- planning.py:130-148 `resample_trajectory_point`: the class `TolPositionPoint` of line 148 does not
exist (it is called `TolPositionPt`). -/
def resampleTrajectoryPoint (tp : TolPositionPt) (posEe : List ℝ) (_quat : Quat) :
    Except PyErr TolPositionPt := do
  let _pNew ← newEntries tp posEe
  .error .nameError

/-! ### SolutionPoint -/

/-- planning.py:17-20 `PathPtType` -/
inductive TolType where
  | tolPos
  | tolOri
  | axis
  deriving DecidableEq

/-- planning.py:155-175: the attributes that are used. -/
structure SolPt where
  tpInit : PathPt
  tpCurrent : PathPt
  qBest : Option Config
  tolType : TolType
  quatDistTol : ℝ

/-- planning.py:161-169: the name `TolPositionPoint` of line 164 is not defined, so every point that
is not a FreeOrientationPt raises NameError. -/
def tolTypeOf (tp : PathPt) : Except PyErr TolType :=
  match tp with
  | .free _ => .ok .tolOri
  | _ => .error .nameError

/-- planning.py:155-175 `SolutionPoint.__init__` -/
def SolPt.new (tp : PathPt) : Except PyErr SolPt := do
  let ty ← tolTypeOf tp
  .ok { tpInit := tp, tpCurrent := tp, qBest := none, tolType := ty, quatDistTol := Real.pi / 4 }

/-- planning.py:188-196: the loop of `calc_joint_solutions`. -/
def jointLoop (arm : Arm W S) (scene : Option (Collection S)) :
    List M4 → List Config → Run W (List Config)
  | [], acc => pure acc
  | T :: Ts, acc => do
    match ← arm.ik T with
    | none => jointLoop arm scene Ts acc
    | some sols => do
      let acc ← match scene with
        | some sc => keepFree arm sc sols acc
        | none => pure (acc ++ sols)
      jointLoop arm scene Ts acc

/-- planning.py:177-198 `calc_joint_solutions`, followed by `astype("float32")` (planning.py:255): an
array without rows is still an array. -/
def calcJointSolutions (arm : Arm W S) (conv : ℝ → ℝ) (tpSamples : List M4)
    (checkCollision : Bool) (scene : Option (Collection S)) : Run W (PyCol ℝ) := do
  if checkCollision ∧ scene.isNone then raise .valueError
  else do
    let sols ← jointLoop arm (if checkCollision then scene else none) tpSamples []
    Run.lift (if sols.length > 0 then vstack conv sols else .ok (.arr true 0 []))

/-- pyquaternion `axis`: the normalised vector part, the zero vector if there is none.
(planning.py:222) -/
def quatAxis (q : Quat) : V3 :=
  let n := Real.sqrt (q.normalise.x ^ 2 + q.normalise.y ^ 2 + q.normalise.z ^ 2)
  if n < 1 / 10 ^ 14 then 0
  else ![q.normalise.x / n, q.normalise.y / n, q.normalise.z / n]

/-- planning.py:210-224: the new path point, given the pose of the current solution. -/
def newPoint (sp : SolPt) (pos : V3) (qee : Quat) (reduction : ℝ) : Except PyErr SolPt :=
  match sp.tolType with
  | .tolOri =>
    if reduction = 0 then .error .zeroDivisionError
    else .ok { sp with tpCurrent := .orientation ⟨pos, qee⟩
                       quatDistTol := sp.quatDistTol / reduction }
  | .tolPos =>
    match sp.tpCurrent with
    | .position p => do
      let p' ← resampleTrajectoryPoint p [pos 0, pos 1, pos 2] qee
      .ok { sp with tpCurrent := .position p' }
    | _ => .error .attributeError
  | .axis =>
    match sp.tpCurrent with
    | .axisAngle p => do
      let angle ← TolNum.new (p.angle.lower / 2) (p.angle.upper / 2) none p.angle.numSamples
      .ok { sp with tpCurrent := .axisAngle ⟨pos, quatAxis qee, angle, qee⟩ }
    | _ => .error .attributeError

/-- planning.py:200-224 `resample` -/
def SolPt.resample (arm : Arm W S) (sp : SolPt) (q : Config) (reduction : ℝ := 2) :
    Run W SolPt := do
  let Tee ← arm.fk q
  let qee ← Run.lift (liftPy (Quat.ofRotation (rotPart Tee)))
  Run.lift (liftPy (newPoint { sp with qBest := some q } (posPart Tee) qee reduction))

/-! ### cart_to_joint_iterative -/

/-- planning.py:249-256: the columns of one round. -/
def iterColumns (arm : Arm W S) (conv : ℝ → ℝ) (scene : Collection S) (draws : Nat → Draws)
    (n : Nat) : Nat → List SolPt → Run W (List (PyCol ℝ))
  | _, [] => pure []
  | i, sp :: rest => do
    let samples ← Run.lift (getSamples (draws i) n (some sp.quatDistTol) sp.tpCurrent)
    let c ← calcJointSolutions arm conv samples true (some scene)
    let cs ← iterColumns arm conv scene draws n (i + 1) rest
    pure (c :: cs)

/-- planning.py:267-269: `zip` stops at the shorter list, the points behind it stay as they are. -/
def resampleAll (arm : Arm W S) : List Config → List SolPt → Run W (List SolPt)
  | q :: qs, sp :: sps => do
    let sp ← sp.resample arm q
    let sps ← resampleAll arm qs sps
    pure (sp :: sps)
  | _, sps => pure sps

/-- The dictionary returned by `cart_to_joint_iterative`. (planning.py:272-280) -/
structure IterRes (C : Type) where
  success : Bool
  path : Option (List Config) := none
  length : Option C := none
  costs : Option (List C) := none
  paths : Option (List (List Config)) := none
  times : Option (List ℝ) := none

/-- The local variables of planning.py:241-246; `sol` is unbound before the first round. -/
structure IterSt (C : Type) where
  pts : List SolPt
  costs : List C
  paths : List (List Config)
  times : List ℝ
  sol : Option (PlanRes ℝ C)

variable [CostArith C] [JointArith ℝ C]

/-- planning.py:247-275: one round; `none` is the early `return {"success": False}`. -/
def iterRound (arm : Arm W S) (pq : PQ C Config) (conv : ℝ → ℝ) (scene : Collection S)
    (draws : Nat → Draws) (n : Nat) (time : ℝ) (st : IterSt C) : Run W (Option (IterSt C)) := do
  let Q ← iterColumns arm conv scene draws n 0 st.pts
  if ∀ c ∈ Q, c.rows.length ≠ 0 then do
    let sol ← Run.lift (getShortestPath pq conv Q .dijkstra none)
    if sol.success then
      match sol.length, sol.path with
      | some len, some path => do
        let pts ← resampleAll arm path st.pts
        pure (some { pts := pts, costs := st.costs ++ [len], paths := st.paths ++ [path]
                     times := st.times ++ [time], sol := some sol })
      | _, _ => raise .keyError
    else pure none
  else pure none

/-- planning.py:246-275: the loop; `k` is the number of the round. -/
def iterLoop (arm : Arm W S) (pq : PQ C Config) (conv : ℝ → ℝ) (scene : Collection S)
    (draws : Nat → Nat → Draws) (n : Nat) (time : Nat → ℝ) :
    Nat → Nat → IterSt C → Run W (Option (IterSt C))
  | 0, _, st => pure (some st)
  | m + 1, k, st => do
    match ← iterRound arm pq conv scene (draws k) n (time k) st with
    | none => pure none
    | some st => iterLoop arm pq conv scene draws n time m (k + 1) st

/-- planning.py:232-280 `cart_to_joint_iterative` -/
def cartToJointIterative (arm : Arm W S) (pq : PQ C Config) (conv : ℝ → ℝ)
    (draws : Nat → Nat → Draws) (time : Nat → ℝ) (path : List PathPt) (scene : Collection S)
    (n : Nat := 1000) (maxIters : Nat := 3) : Run W (IterRes C) := do
  let pts ← Run.lift (liftPy (path.mapM SolPt.new))
  match ← iterLoop arm pq conv scene draws n time maxIters 0 ⟨pts, [], [], [], none⟩ with
  | none => pure { success := false }
  | some st =>
    match st.sol with
    | none => raise .unboundLocalError
    | some sol => pure { success := sol.success, path := sol.path, length := sol.length
                         costs := some st.costs, paths := some st.paths, times := some st.times }

/-! ### PlanningTask.solve -/

/-- What `solve` returns: the dictionary of one of the planners, or whatever the optimiser gave.
(planning.py:60-81) -/
inductive SolveRes (C O : Type) where
  | plan (r : PlanRes ℝ C)
  | iter (r : IterRes C)
  | opt (o : O)

variable {O : Type}

/-- `self.scene` (planning.py:26-30, 58) -/
def sceneOf (t : PlanningTask S) : Except Err (Collection S) :=
  match t.scene with
  | some s => .ok s
  | none => .error (.py .attributeError)

/-- planning.py:52-83 `PlanningTask.solve`.  `optimal` is `get_optimal_path`; `fuel` bounds the
rounds of the incremental planner. -/
def PlanningTask.solve (t : PlanningTask S) (arm : Arm W S) (pq : PQ C Config) (conv : ℝ → ℝ)
    (draws : Nat → Nat → Draws) (time : Nat → ℝ) (fuel : Nat)
    (optimal : List PathPt → Collection S → Nat → List (List ℝ) → Run W O)
    (method : Option String := none) : Run W (SolveRes C O) :=
  let m := method.getD t.method
  if m = "grid" then do
    let scene ← Run.lift (sceneOf t)
    let Q ← cartToJointNoRedundancy arm conv (draws 0) t.path scene t.gridSamples
    let r ← Run.lift (getShortestPath pq conv Q .dijkstra none)
    pure (.plan r)
  else if m = "grid_iterative" then do
    let scene ← Run.lift (sceneOf t)
    let r ← cartToJointIterative arm pq conv draws time t.path scene t.gridSamples t.gridBasedIters
    pure (.iter r)
  else if m = "optimization" then do
    let scene ← Run.lift (sceneOf t)
    let o ← optimal t.path scene t.optBasedMaxIters t.qpInit
    pure (.opt o)
  else if m = "grid_incremental" then do
    let scene ← Run.lift (sceneOf t)
    let Q ← cartToJointIncremental arm conv draws fuel t.path scene
    let r ← Run.lift (getShortestPath pq conv Q .dijkstra none)
    pure (.plan r)
  else raise .exception

end

end Verif.Planning
