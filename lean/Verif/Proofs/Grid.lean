import Verif.Model.Grid
import Mathlib.Data.List.Forall2
import Mathlib.Data.List.Nodup
import Mathlib.Algebra.BigOperators.Group.List.Basic

/-! # Lemmas on `create_grid` -/

namespace Verif.Grid

open Verif.Sampling

theorem mem_indices {ns j : List Nat} : j ∈ indices ns ↔ List.Forall₂ (· < ·) j ns := by
  induction ns generalizing j with
  | nil => simp [indices]
  | cons n ns ih =>
    simp only [indices, List.mem_flatMap, List.mem_range, List.mem_map, ih]
    constructor
    · rintro ⟨i, hi, l, hl, rfl⟩; exact .cons hi hl
    · intro h
      cases h with
      | cons h1 h2 => exact ⟨_, h1, _, h2, rfl⟩

theorem indices_length (ns : List Nat) : (indices ns).length = ns.prod := by
  induction ns with
  | nil => rfl
  | cons n ns ih =>
    simp [indices, List.length_flatMap, ih]

theorem indices_sorted (ns : List Nat) : (indices ns).Pairwise (· < ·) := by
  induction ns with
  | nil => simp [indices]
  | cons n ns ih =>
    rw [indices, List.pairwise_flatMap]
    refine ⟨fun i _ => ?_, ?_⟩
    · rw [List.pairwise_map]
      exact ih.imp fun h => List.cons_lt_cons_self.mpr h
    · refine List.pairwise_lt_range.imp fun {a b} hab => ?_
      intro x hx y hy
      simp only [List.mem_map] at hx hy
      obtain ⟨x', _, rfl⟩ := hx
      obtain ⟨y', _, rfl⟩ := hy
      exact List.Lex.rel hab

theorem swap01_swap01 {β : Type} (l : List β) : swap01 (swap01 l) = l := by
  match l with
  | [] => rfl
  | [_] => rfl
  | _ :: _ :: _ => rfl

theorem swap01_forall₂ {β γ : Type} {R : β → γ → Prop} {a : List β} {b : List γ}
    (h : List.Forall₂ R a b) : List.Forall₂ R (swap01 a) (swap01 b) := by
  cases h with
  | nil => exact .nil
  | cons h1 t =>
    cases t with
    | nil => exact .cons h1 .nil
    | cons h2 t => exact .cons h2 (.cons h1 t)

theorem swap01_prod (l : List Nat) : (swap01 l).prod = l.prod := by
  match l with
  | [] => rfl
  | [_] => rfl
  | a :: b :: l => simp [swap01, ← mul_assoc, mul_comm]

theorem swap01_map {β γ : Type} (f : β → γ) (l : List β) : swap01 (l.map f) = (swap01 l).map f := by
  match l with
  | [] => rfl
  | [_] => rfl
  | _ :: _ :: _ => rfl

/-- The row at multi-index `j`. -/
def pick {α : Type} : List (List α) → List Nat → List α
  | l :: r, k :: j => (l[k]?).toList ++ pick r j
  | _, _ => []

theorem pick_spec {α : Type} {r : List (List α)} {j : List Nat}
    (h : List.Forall₂ (· < ·) j (r.map List.length)) :
    (pick r j).length = r.length ∧ ∀ (i : Nat),
      (pick r j)[i]? = (r[i]?).bind fun l => (j[i]?).bind fun k => l[k]? := by
  induction r generalizing j with
  | nil => cases h; simp [pick]
  | cons l r ih =>
    cases h with
    | cons h1 h2 =>
      obtain ⟨hl, hg⟩ := ih h2
      refine ⟨by simp [pick, h1, hl], fun i => ?_⟩
      cases i with
      | zero => simp [pick, h1]
      | succ i => simp [pick, h1]; simpa using hg i

/-- The multi-indices (in the order of the axes) as `create_grid` lists them. -/
def order {α : Type} (r : List (List α)) : List (List Nat) :=
  (indices (swap01 (r.map List.length))).map swap01

theorem mem_order {α : Type} {r : List (List α)} {j : List Nat} :
    j ∈ order r ↔ List.Forall₂ (· < ·) j (r.map List.length) := by
  simp only [order, List.mem_map, mem_indices]
  constructor
  · rintro ⟨a, h, rfl⟩
    have := swap01_forall₂ h
    rwa [swap01_swap01] at this
  · intro h
    exact ⟨swap01 j, swap01_forall₂ h, swap01_swap01 j⟩

theorem filterMap_eq_map_of {β γ : Type} {f : β → Option γ} {g : β → γ} {l : List β}
    (h : ∀ b ∈ l, f b = some (g b)) : l.filterMap f = l.map g := by
  induction l with
  | nil => rfl
  | cons b l ih =>
    rw [List.filterMap_cons_some (h b (by simp)), ih fun c hc => h c (by simp [hc])]
    rfl

theorem createGrid_eq {α : Type} {r : List (List α)} (hr : r ≠ []) :
    createGrid r = (order r).map (pick r) := by
  classical
  -- every column of the transposed grid
  rcases Nat.eq_zero_or_pos (order r).length with h0 | h0
  · have ho : order r = [] := List.length_eq_zero_iff.1 h0
    have hi : indices (swap01 (r.map List.length)) = [] := by simpa [order] using ho
    obtain ⟨l, r', rfl⟩ := List.exists_cons_of_ne_nil hr
    rw [ho]
    rw [List.map_cons] at hi
    simp only [createGrid, meshgrid, List.map_map, List.length_cons, List.range_succ_eq_map,
      List.map_cons, Function.comp_def, NdArray.flatten, hi, List.filterMap_nil, npTranspose,
      List.length_nil, List.range_zero, List.map_nil]
  · obtain ⟨j0, hj0⟩ := List.exists_mem_of_length_pos h0
    have hj0' := mem_order.1 hj0
    -- a default entry
    have hpl := (pick_spec hj0').1
    have hpne : pick r j0 ≠ [] := by
      intro h; rw [h] at hpl; exact hr (List.length_eq_zero_iff.1 hpl.symm)
    obtain ⟨d, _, _⟩ := List.exists_cons_of_ne_nil hpne
    have hflat : (meshgrid r).map NdArray.flatten =
        (List.range r.length).map fun i => (order r).map fun j => ((pick r j)[i]?).getD d := by
      rw [meshgrid, List.map_map]
      apply List.map_congr_left
      intro i hi
      rw [List.mem_range] at hi
      simp only [Function.comp, NdArray.flatten]
      rw [filterMap_eq_map_of (g := fun idx => ((pick r (swap01 idx))[i]?).getD d)]
      · rw [order, List.map_map]; rfl
      · intro idx hidx
        have hs : swap01 idx ∈ order r := List.mem_map_of_mem hidx
        obtain ⟨hl, hg⟩ := pick_spec (mem_order.1 hs)
        have hg' := hg i
        simp only [bind]
        rw [← hg']
        have : i < (pick r (swap01 idx)).length := by omega
        simp [this]
    rw [createGrid, hflat]
    obtain ⟨n, hn⟩ : ∃ n, r.length = n + 1 := ⟨r.length - 1, by
      have : r.length ≠ 0 := fun h => hr (List.length_eq_zero_iff.1 h)
      omega⟩
    have ht : ∀ (cols : Nat → List α), (∀ i, (cols i).length = (order r).length) →
        npTranspose ((List.range r.length).map cols) =
          (List.range (order r).length).map fun k =>
            ((List.range r.length).map cols).filterMap fun l => l[k]? := by
      intro cols hc
      rw [hn, List.range_succ_eq_map, List.map_cons]
      simp [npTranspose, hc]
    rw [ht _ (by simp)]
    apply List.ext_getElem
    · simp
    · intro k h1 h2
      have hk : k < (order r).length := by simpa using h2
      have hm : (order r)[k] ∈ order r := List.getElem_mem _
      obtain ⟨hl, hg⟩ := pick_spec (mem_order.1 hm)
      simp only [List.getElem_map, List.getElem_range, List.filterMap_map]
      rw [filterMap_eq_map_of (g := fun i => ((pick r (order r)[k])[i]?).getD d)]
      · apply List.ext_getElem
        · simp [hl]
        · intro i h3 h4
          simp [h4]
      · intro i _
        simp [hk]

theorem pick_mem {α : Type} {r : List (List α)} {row : List α} :
    (∃ j, List.Forall₂ (· < ·) j (r.map List.length) ∧ pick r j = row) ↔
      List.Forall₂ (fun x l => x ∈ l) row r := by
  induction r generalizing row with
  | nil =>
    constructor
    · rintro ⟨j, h, rfl⟩; cases h; exact .nil
    · intro h; cases h; exact ⟨[], .nil, rfl⟩
  | cons l r ih =>
    constructor
    · rintro ⟨j, h, rfl⟩
      cases h with
      | cons h1 h2 =>
        simp only [pick, List.getElem?_eq_getElem h1, Option.toList_some, List.singleton_append]
        exact .cons (List.getElem_mem _) (ih.1 ⟨_, h2, rfl⟩)
    · intro h
      cases h with
      | cons h1 h2 =>
        obtain ⟨j, hj, rfl⟩ := ih.2 h2
        obtain ⟨k, hk, rfl⟩ := List.getElem_of_mem h1
        exact ⟨k :: j, .cons hk hj, by simp [pick, hk]⟩

theorem pick_inj {α : Type} {r : List (List α)} (hnd : ∀ l ∈ r, l.Nodup) {i j : List Nat}
    (hi : List.Forall₂ (· < ·) i (r.map List.length))
    (hj : List.Forall₂ (· < ·) j (r.map List.length)) (h : pick r i = pick r j) : i = j := by
  induction r generalizing i j with
  | nil => cases hi; cases hj; rfl
  | cons l r ih =>
    cases hi with
    | cons hi1 hi2 =>
      cases hj with
      | cons hj1 hj2 =>
        simp only [pick, List.getElem?_eq_getElem hi1, List.getElem?_eq_getElem hj1,
          Option.toList_some, List.singleton_append, List.cons.injEq] at h
        rw [ih (fun l hl => hnd l (by simp [hl])) hi2 hj2 h.2]
        congr 1
        exact (List.Nodup.getElem_inj_iff (hnd l (by simp))).1 h.1

end Verif.Grid
