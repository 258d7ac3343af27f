import Verif.Proofs.Grid

/-! # C22: create_grid -/

namespace Verif.Props

open Verif.Grid

/-- The multi-index as it is compared for the order of the rows: second axis first, then the first
axis, then the others. -/
def secondFirst : List Nat → List Nat
  | a :: b :: l => b :: a :: l
  | l => l

/-- **C22**, rows by index.  For at least one range the rows of `create_grid(r)` are in one-to-one
correspondence with the multi-indices of the grid: row `k` belongs to multi-index `js[k]`, every
multi-index within the range lengths occurs in `js`, none twice, and they increase
lexicographically with the second axis slowest, then the first, then the rest. -/
theorem C22_rows {α : Type} {r : List (List α)} (hr : r ≠ []) :
    ∃ js : List (List Nat),
      (∀ j, j ∈ js ↔ List.Forall₂ (· < ·) j (r.map List.length)) ∧
      js.Pairwise (fun a b => secondFirst a < secondFirst b) ∧
      (createGrid r).length = js.length ∧
      ∀ (k : Nat) (row : List α) (j : List Nat), (createGrid r)[k]? = some row → js[k]? = some j →
        row.length = r.length ∧
        ∀ (i : Nat), row[i]? = (r[i]?).bind fun l => (j[i]?).bind fun m => l[m]? := by
  have hsf : ∀ l, secondFirst l = swap01 l := by
    intro l
    match l with
    | [] => rfl
    | [_] => rfl
    | _ :: _ :: _ => rfl
  refine ⟨order r, fun j => mem_order, ?_, by rw [createGrid_eq hr]; simp, ?_⟩
  · rw [order, List.pairwise_map]
    refine (indices_sorted _).imp fun h => ?_
    rw [hsf, hsf, swap01_swap01, swap01_swap01]; exact h
  · intro k row j hrow hj
    rw [createGrid_eq hr, List.getElem?_map, hj] at hrow
    simp only [Option.map_some, Option.some.injEq] at hrow
    subst hrow
    exact pick_spec (mem_order.1 (List.mem_of_getElem? hj))

/-- **C22**, count: the product of the range lengths. -/
theorem C22_count {α : Type} {r : List (List α)} (hr : r ≠ []) :
    (createGrid r).length = (r.map List.length).prod := by
  rw [createGrid_eq hr, List.length_map, order, List.length_map, indices_length, swap01_prod]

/-- **C22**, cartesian product: a row occurs iff its entries come from the ranges, and if no range
repeats a value no row is repeated. -/
theorem C22_product {α : Type} {r : List (List α)} (hr : r ≠ []) :
    (∀ row, row ∈ createGrid r ↔ List.Forall₂ (fun x l => x ∈ l) row r) ∧
    ((∀ l ∈ r, l.Nodup) → (createGrid r).Nodup) := by
  rw [createGrid_eq hr]
  refine ⟨fun row => ?_, fun hnd => ?_⟩
  · rw [← pick_mem, List.mem_map]
    constructor
    · rintro ⟨j, hj, h⟩; exact ⟨j, mem_order.1 hj, h⟩
    · rintro ⟨j, hj, h⟩; exact ⟨j, mem_order.2 hj, h⟩
  · refine List.Nodup.map_on (fun i hi j hj h => pick_inj hnd (mem_order.1 hi) (mem_order.1 hj) h) ?_
    rw [order]
    refine List.Nodup.map (f := swap01)
      (fun a b h => by have := congrArg swap01 h; rwa [swap01_swap01, swap01_swap01] at this) ?_
    have := indices_sorted (swap01 (r.map List.length))
    unfold List.Nodup
    refine this.imp fun {a b} h => ?_
    rintro rfl
    exact List.lt_irrefl _ h

/-- Without ranges there is no row (numpy returns an empty array), although the empty product is
one. -/
theorem C22_no_ranges {α : Type} : createGrid ([] : List (List α)) = [] := rfl

/-- The example of the docstring (util.py:105-112). -/
example : createGrid [[0, 1], [1, 2, 3], [99]] =
    [[0, 1, 99], [1, 1, 99], [0, 2, 99], [1, 2, 99], [0, 3, 99], [1, 3, 99]] := by decide

end Verif.Props
