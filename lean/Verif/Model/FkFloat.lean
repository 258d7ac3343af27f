import Verif.Model.Aliasing

/-!
# `fk` on configurations of float32 numbers (robot.py:35-58, 124-134)

The planners convert the solutions with `astype("float32")`, so the configurations of a path are arrays
of float32.  For such a joint value `np.cos` and `np.sin` answer with float32 numbers, which are then
stored in a matrix of doubles.  A sine and a cosine that are rounded to 24 bits do not make a rotation
any more.  Here `fk` is modelled with arbitrary functions in the place of `np.cos` and `np.sin` of the
joint value; the angles of the Denavit-Hartenberg parameters are Python numbers, their cosines and
sines stay exact, and so do the products.
-/

namespace Verif.Kin

open Matrix Verif.Geometry Verif.Planning Verif.ShortestPath

noncomputable section

variable {S : Type}

/-- `np.cos` and `np.sin` as they act on a joint value. (robot.py:46-47) -/
structure Trig where
  cos : ℝ → ℝ
  sin : ℝ → ℝ

/-- Without rounding. (robot.py:46-47) -/
def Trig.exact : Trig := ⟨Real.cos, Real.sin⟩

/-- robot.py:48-57: the assignments to the matrix object, given `c_theta` and `s_theta`. -/
def writeCS (T : M4) (cTheta sTheta a alpha d : ℝ) : M4 :=
  let cAlpha := Real.cos alpha
  let sAlpha := Real.sin alpha
  let T := setEntry T 0 0 cTheta
  let T := setEntry T 0 1 (-sTheta * cAlpha)
  let T := setEntry T 0 2 (sTheta * sAlpha)
  let T := setEntry T 0 3 (a * cTheta)
  let T := setEntry T 1 0 sTheta
  let T := setEntry T 1 1 (cTheta * cAlpha)
  let T := setEntry T 1 2 (-cTheta * sAlpha)
  let T := setEntry T 1 3 (a * sTheta)
  let T := setEntry T 2 1 sAlpha
  let T := setEntry T 2 2 cAlpha
  setEntry T 2 3 d

/-- robot.py:35-58 `get_link_relative_transform`.  The angle of a prismatic joint is a Python number
from the Denavit-Hartenberg parameters. -/
def Link.relTfBy (t : Trig) (l : Link S) (T : M4) (qi : ℝ) : Except PyErr M4 × M4 :=
  match l.jointType with
  | .r =>
    let T := writeCS T (t.cos qi) (t.sin qi) l.dh.a l.dh.alpha l.dh.d
    (.ok T, T)
  | .p =>
    let T := writeCS T (Real.cos l.dh.theta) (Real.sin l.dh.theta) l.dh.a l.dh.alpha qi
    (.ok T, T)
  | .other => (.error .unboundLocalError, T)

/-- robot.py:128-131: the loop over the links. -/
def fkLoopBy (t : Trig) : List (Link S) → List M4 → List ℝ → M4 → Except PyErr M4 × List M4
  | [], ms, _, T => (.ok T, ms)
  | _ :: _, ms, [], _ => (.error .indexError, ms)
  | _ :: _, [], _, _ => (.error .indexError, [])
  | l :: ls, m :: ms, q :: qs, T =>
    match l.relTfBy t m q with
    | (.error e, m') => (.error e, m' :: ms)
    | (.ok Ti, m') =>
      let r := fkLoopBy t ls ms qs (T * Ti)
      (r.1, m' :: r.2)

/-- robot.py:124-134 `fk` -/
def Robot.fkBy (t : Trig) (r : Robot S) (st : RState) (q : List ℝ) : Except PyErr M4 × RState :=
  let x := fkLoopBy t r.links st.mats q r.tfBase
  (x.1.map fun T =>
    match r.tool with
    | some tool => T * tool.tfTT
    | none => T, { st with mats := x.2 })

/-- `robot.fk` of a planned configuration, as a call in a larger world. (planning.py:206) -/
def robotFkBy (t : Trig) (r : Robot Shape) {V : Type} (q : Config) : Run (RState × V) M4 := fun w =>
  (liftPy (r.fkBy t w.1 q).1, (r.fkBy t w.1 q).2, w.2)

end

end Verif.Kin
