import Verif.Model.Sampling

/-!
# Model of `create_grid` (acrobotics/util.py:84-117)

numpy's `meshgrid` (default indexing `'xy'`), `flatten`, `np.array(...)` and `.T` are modelled on
arrays given by a shape and an entry function.  A float among the ranges is an axis of length one
(numpy's `asanyarray`); the callers of the model pass it as a one-element list.
-/

namespace Verif.Grid

open Verif.Sampling

/-- An n-dimensional array: shape and entries. (util.py:114) -/
structure NdArray (α : Type) where
  shape : List Nat
  entry : List Nat → Option α

/-- All multi-indices of a shape in row-major (C) order. (util.py:114-115) -/
def indices : List Nat → List (List Nat)
  | [] => [[]]
  | n :: ns => (List.range n).flatMap fun i => (indices ns).map (i :: ·)

/-- `a.flatten()` (util.py:115) -/
def NdArray.flatten {α : Type} (a : NdArray α) : List α := (indices a.shape).filterMap a.entry

/-- Exchange of the first two entries: the `'xy'` indexing of `meshgrid`. (util.py:114) -/
def swap01 {β : Type} : List β → List β
  | a :: b :: l => b :: a :: l
  | l => l

/-- `np.meshgrid(*r)`: the `i`-th array holds, at a multi-index, the number of the `i`-th range
that belongs to the `i`-th axis. (util.py:114) -/
def meshgrid {α : Type} (r : List (List α)) : List (NdArray α) :=
  (List.range r.length).map fun i =>
    { shape := swap01 (r.map List.length)
      entry := fun idx => do
        let l ← r[i]?
        let k ← (swap01 idx)[i]?
        l[k]? }

/-- util.py:114-117 -/
def createGrid {α : Type} (r : List (List α)) : List (List α) :=
  let grid := meshgrid r
  let grid := grid.map NdArray.flatten
  npTranspose grid

end Verif.Grid
