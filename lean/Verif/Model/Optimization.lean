import Verif.Model.Robot
import Verif.Model.Path

/-!
# Model of acrobotics/optimization.py

`get_optimal_path` builds a nonlinear program with CasADi and hands it to IPOPT.  The model is the
program that is built: for values of the decision variables, the list of the constraints
(propositions over the reals) and the objective.  Building the program can raise, independently of
the values.  The solver is a parameter.

* The decision variables are the joint values `q` (optimization.py:16, one row of six per path point)
  and the multipliers `lam[k][i][j]`, `mu[k][i][j]` (optimization.py:92-97).  All shapes are boxes, so
  `S = len(poly_robot[0].b)` is six.
* CasADi reports an index out of bounds as RuntimeError where the loop of the robot model has
  IndexError.
* `opti.set_initial` raises RuntimeError for an array of another shape (CasADi also accepts a
  1 × 1 array for any shape; not modelled).
* `opti.solve()` raises RuntimeError when IPOPT does not report success (CasADi's documented
  behaviour), so the solver parameter is an `Except`.
-/

namespace Verif.Optimization

open Matrix Verif.Geometry Verif.Kin Verif.Path

noncomputable section

/-- optimization.py:51-58 `create_collision_constraints` -/
def collisionConstraints {m n : Nat} (lam : Fin m → ℝ) (mu : Fin n → ℝ)
    (Ar : Matrix (Fin m) (Fin 3) ℝ) (Ao : Matrix (Fin n) (Fin 3) ℝ) (br : Fin m → ℝ)
    (bo : Fin n → ℝ) (eps : ℝ := 1 / 10 ^ 6) : List Prop :=
  [-(br ⬝ᵥ lam) - bo ⬝ᵥ mu ≥ eps,
   Arᵀ *ᵥ lam + Aoᵀ *ᵥ mu = 0,
   (Arᵀ *ᵥ lam) ⬝ᵥ (Arᵀ *ᵥ lam) ≤ 1,
   ∀ i, lam i ≥ 0,
   ∀ i, mu i ≥ 0]

/-- The values of `lam[k]` or `mu[k]`: by link and obstacle. (optimization.py:92-97) -/
abbrev Mult := Nat → Nat → Fin 6 → ℝ

/-- optimization.py:71-72: the polyhedron of a link shape in the frame of the link, moved. -/
def movedPoly (P : Polyhedron) (T : M4) : Polyhedron :=
  let A : Matrix (Fin 6) (Fin 3) ℝ := Matrix.of P.A * (rotPart T)ᵀ
  { A := A, b := P.b + A *ᵥ posPart T }

/-- optimization.py:70-77: the loop over the obstacles for link `i`. -/
def linkCc (polyRobot : List Polyhedron) (T : M4) (i : Nat) (lamk muk : Mult) :
    Nat → List Polyhedron → Except PyErr (List Prop)
  | _, [] => .ok []
  | j, O :: rest => do
    let P ← pyGet polyRobot i
    let M := movedPoly P T
    let cons ← linkCc polyRobot T i lamk muk (j + 1) rest
    .ok (collisionConstraints (lamk i j) (muk i j) (Matrix.of M.A) (Matrix.of O.A) M.b O.b ++ cons)

/-- optimization.py:67-77: the loop over the links; `fk` has one frame for every link. -/
def linksCc (polyRobot polyScene : List Polyhedron) (lamk muk : Mult) :
    Nat → List M4 → Except PyErr (List Prop)
  | _, [] => .ok []
  | i, T :: rest => do
    let c ← linkCc polyRobot T i lamk muk 0 polyScene
    let cons ← linksCc polyRobot polyScene lamk muk (i + 1) rest
    .ok (c ++ cons)

/-- optimization.py:61-78 `create_cc_for_joint_pose` -/
def ccForJointPose (r : Robot Shape) (polyRobot polyScene : List Polyhedron) (q : List ℝ)
    (lamk muk : Mult) : Except PyErr (List Prop) := do
  let fk ← r.fkAllLinksCasadi q
  linksCc polyRobot polyScene lamk muk 0 fk

/-- The values of the decision variables. (optimization.py:16, 92-97) -/
structure Vars where
  q : List (List ℝ)
  lam : Nat → Mult
  mu : Nat → Mult

/-- optimization.py:99-105: the loop over the path points. -/
def ccLoop (r : Robot Shape) (polyRobot polyScene : List Polyhedron) (lam mu : Nat → Mult) :
    Nat → List (List ℝ) → Except PyErr (List Prop)
  | _, [] => .ok []
  | k, qk :: rest => do
    let c ← ccForJointPose r polyRobot polyScene qk (lam k) (mu k)
    let cons ← ccLoop r polyRobot polyScene lam mu (k + 1) rest
    .ok (c ++ cons)

/-- optimization.py:83-85: the shapes of all links in one list. -/
def polyRobotOf (r : Robot Shape) : List Polyhedron :=
  r.links.flatMap fun l => l.geometry.getPolyhedrons

/-- optimization.py:81-107 `create_cc`; `poly_robot[0]` is needed for the number of multipliers. -/
def createCc (r : Robot Shape) (scene : Collection Shape) (v : Vars) : Except PyErr (List Prop) := do
  let polyRobot := polyRobotOf r
  let polyScene := scene.getPolyhedrons
  let _ ← pyGet polyRobot 0
  ccLoop r polyRobot polyScene v.lam v.mu 0 v.q

/-- optimization.py:13 `tp.p`: only two of the classes of path points have this attribute. -/
def pointP (tp : PathPt) : Except PyErr V3 :=
  match tp with
  | .free p => .ok p.p
  | .orientation p => .ok p.p
  | _ => .error .attributeError

/-- optimization.py:24-29: the path constraints. -/
def pathCc (r : Robot Shape) : List V3 → List (List ℝ) → Except PyErr (List Prop)
  | [], _ => .ok []
  | _ :: _, [] => .error .indexError
  | x :: xs, q :: qs => do
    let Ti ← r.fkCasadi q
    let cons ← pathCc r xs qs
    .ok ([x 0 = Ti 0 3, x 1 = Ti 1 3, x 2 = Ti 2 3] ++ cons)

/-- `ca.sum2((a - b) ** 2)` for two rows. (optimization.py:33) -/
def rowSq (a b : List ℝ) : ℝ := (List.zipWith (fun x y => (x - y) ^ 2) a b).sum

/-- optimization.py:32-34: `ca.sum1(ca.sum2((q[:-1, :] - q[1:, :]) ** 2))` -/
def objective (q : List (List ℝ)) : ℝ := (List.zipWith rowSq q.dropLast q.tail).sum

/-- optimization.py:13-35: the constraints and the objective. -/
def problem (path : List PathPt) (r : Robot Shape) (scene : Option (Collection Shape)) (v : Vars) :
    Except PyErr (List Prop × ℝ) := do
  let xyz ← path.mapM pointP
  let cc ← match scene with
    | some s => createCc r s v
    | none => .ok []
  let pc ← pathCc r xyz v.q
  .ok (cc ++ pc, objective v.q)

/-- The shape of the variables (optimization.py:16): six joints for every path point. -/
def Vars.Shaped (v : Vars) (n : Nat) : Prop := v.q.length = n ∧ ∀ row ∈ v.q, row.length = 6

/-- Some values, used to see whether building the program raises. (optimization.py:15-35) -/
def Vars.zero (n : Nat) : Vars := ⟨List.replicate n (List.replicate 6 0), fun _ _ _ _ => 0,
  fun _ _ _ _ => 0⟩

/-- IPOPT with the given start value and iteration limit: RuntimeError, or `stats()["success"]` and
the values of the variables. (optimization.py:37-46) -/
abbrev Solver := (Vars → Except PyErr (List Prop × ℝ)) → List (List ℝ) → Nat →
  Except PyErr (Bool × Vars)

/-- The dictionary of optimization.py:43-48. -/
structure OptRes where
  success : Bool
  path : Option (List (List ℝ)) := none

open Classical in
/-- optimization.py:8-48 `get_optimal_path` -/
def getOptimalPath (solver : Solver) (path : List PathPt) (r : Robot Shape)
    (scene : Option (Collection Shape) := none) (qInit : Option (List (List ℝ)) := none)
    (maxIters : Nat := 100) : Except PyErr OptRes := do
  let N := path.length
  let qInit := qInit.getD (List.replicate N (List.replicate r.links.length 0))
  let _ ← problem path r scene (Vars.zero N)
  if qInit.length = N ∧ ∀ row ∈ qInit, row.length = 6 then do
    let sol ← solver (problem path r scene) qInit maxIters
    if sol.1 then .ok ⟨true, some sol.2.q⟩ else .ok ⟨false, none⟩
  else .error .runtimeError

end

end Verif.Optimization
