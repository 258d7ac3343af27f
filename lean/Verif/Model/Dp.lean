import Verif.Py
import Mathlib.Order.Defs.LinearOrder

/-!
# Model of `acrobotics/dp.py`

numpy arrays: a 2-D array is `Mat` (shape and entries), a 1-D array is a `List`.  Entries are of
an arbitrary linearly ordered type `C` with `0` and `+` (floats without NaN, reals, ...).
-/

namespace Verif.Dp

variable {α C : Type}

/-- A 2-D numpy array: its shape `(r, c)` and its entries.  Entries outside the shape are never
read by the model. (dp.py:14-15) -/
structure Mat (C : Type) where
  r : Nat
  c : Nat
  e : Nat → Nat → C

/-- Row `i` of a matrix as a list (a numpy view `M[i, :]`). (dp.py:21-23) -/
def Mat.row (m : Mat C) (i : Nat) : List C := (List.range m.c).map (m.e i)

/-- dp.py:4-9 `apply_cost_function`: `[fun(data[0], data[1]), fun(data[1], data[2]), ...]`. -/
def applyCostFunction (fn : List α → List α → Mat C) : List (List α) → List (Mat C)
  | [] => []
  | [_] => []
  | a :: b :: rest => fn a b :: applyCostFunction fn (b :: rest)

/-- One entry of a sum; `none` (outside the vector) is never reached inside the shape. (dp.py:21) -/
def plusAt [Add C] (a : C) : Option C → C
  | some x => a + x
  | none => a

/-- numpy broadcasting of `M + v` for a matrix of shape `(r, c)` and a vector of length `k`
(dp.py:21): allowed when `k = c`, `k = 1` or `c = 1`, otherwise numpy raises ValueError. -/
def addRow [Add C] (m : Mat C) (v : List C) : Except PyErr (Mat C) :=
  if v.length = m.c then
    .ok ⟨m.r, m.c, fun i j => plusAt (m.e i j) v[j]?⟩
  else if v.length = 1 then
    .ok ⟨m.r, m.c, fun i j => plusAt (m.e i j) v[0]?⟩
  else if m.c = 1 then
    .ok ⟨m.r, v.length, fun i j => plusAt (m.e i 0) v[j]?⟩
  else .error .valueError

/-- `min` of a list, first element as the starting value (helper of `npMin`). (dp.py:22, 47) -/
def foldMin [LinearOrder C] (x : C) (xs : List C) : C := xs.foldl min x

/-- `np.min` of a 1-D array; ValueError on an empty one. (dp.py:22, 47) -/
def npMin [LinearOrder C] : List C → Except PyErr C
  | [] => .error .valueError
  | x :: xs => .ok (foldMin x xs)

/-- Loop of `argmin`: `best` is the best value so far, `bi` its index, `i` the next index.
(dp.py:23, 33) -/
def argminLoop [LinearOrder C] (best : C) (bi i : Nat) : List C → Nat
  | [] => bi
  | x :: xs => if x < best then argminLoop x i (i + 1) xs else argminLoop best bi (i + 1) xs

/-- `np.argmin` of a 1-D array: the *first* index of the minimum; ValueError on an empty one.
(dp.py:23, 33) -/
def npArgmin [LinearOrder C] : List C → Except PyErr Nat
  | [] => .error .valueError
  | x :: xs => .ok (argminLoop x 0 1 xs)

/-- `np.min(M, axis=1)` (dp.py:22).  numpy raises ValueError when the reduced axis is empty and
the result is not. -/
def minAxis1 [LinearOrder C] (m : Mat C) : Except PyErr (List C) :=
  (List.range m.r).mapM fun i => npMin (m.row i)

/-- `np.argmin(M, axis=1)` (dp.py:23).  numpy raises ValueError whenever the reduced axis is
empty, also for zero rows. -/
def argminAxis1 [LinearOrder C] (m : Mat C) : Except PyErr (List Nat) :=
  if m.c = 0 then .error .valueError
  else (List.range m.r).mapM fun i => npArgmin (m.row i)

/-- dp.py:17-23: the backward loop, written as a recursion over the list of matrices.  The result
is `(V_ind, V)` for the stages of `tcs` and the last stage, whose value is `np.zeros(d)` with
`d = transition_costs[-1].shape[1]` (dp.py:15) and whose index entry is `np.zeros(d)` too. -/
def backward [LinearOrder C] [Add C] [Zero C] (lastDim : Nat) :
    List (Mat C) → Except PyErr (List (List Nat) × List (List C))
  | [] => .ok ([List.replicate lastDim 0], [List.replicate lastDim 0])
  | tc :: rest => do
    let (inds, vs) ← backward lastDim rest
    let vnext ← pyGet vs 0
    let rhs ← addRow tc vnext
    let v ← minAxis1 rhs
    let vi ← argminAxis1 rhs
    .ok (vi :: inds, v :: vs)

/-- dp.py:12-25 `calculate_value_function`.  `transition_costs[-1]` raises IndexError on `[]`. -/
def calculateValueFunction [LinearOrder C] [Add C] [Zero C] (tcs : List (Mat C)) :
    Except PyErr (List (List Nat) × List (List C)) := do
  let last ← pyLast tcs
  backward last.c tcs

/-- dp.py:35-37: the loop of `extract_shortest_path`; `data` and `vind` advance together. -/
def extractLoop : List (List α) → List (List Nat) → Nat → Except PyErr (List α)
  | [], _, _ => .ok []
  | col :: cols, vind, iNext => do
    let x ← pyGet col iNext
    let vi ← pyGet vind 0
    let iNext' ← pyGet vi iNext
    let rest ← extractLoop cols vind.tail iNext'
    .ok (x :: rest)

/-- dp.py:28-39 `extract_shortest_path`. -/
def extractShortestPath [LinearOrder C] (data : List (List α)) (vind : List (List Nat))
    (v : List (List C)) : Except PyErr (List α) := do
  let v0 ← pyGet v 0
  let iStart ← npArgmin v0
  extractLoop data vind iStart

/-- The dictionary returned by dp.py:48 (`"success"` is always `True`). -/
structure Result (α C : Type) where
  success : Bool
  path : List α
  length : C

/-- dp.py:42-48 `shortest_path`. -/
def shortestPath [LinearOrder C] [Add C] [Zero C] (Q : List (List α))
    (costFunction : List α → List α → Mat C) : Except PyErr (Result α C) := do
  let costs := applyCostFunction costFunction Q
  let (actions, values) ← calculateValueFunction costs
  let path ← extractShortestPath Q actions values
  let v0 ← pyGet values 0
  let len ← npMin v0
  .ok ⟨true, path, len⟩

end Verif.Dp
