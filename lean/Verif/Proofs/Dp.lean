import Verif.Model.Dp
import Verif.Spec.Select
import Mathlib.Algebra.Order.Monoid.Unbundled.Basic

/-! # Lemmas about the model of `dp.py` -/

set_option linter.unusedSectionVars false

namespace Verif.Dp

open Verif.Spec

variable {α C : Type}

theorem pyGet_ok {xs : List α} {i : Nat} {x : α} (h : xs[i]? = some x) : pyGet xs i = .ok x := by
  simp [pyGet, h]

section order
variable [LinearOrder C]

theorem foldMin_le_init (x : C) (xs : List C) : foldMin x xs ≤ x := by
  induction xs generalizing x with
  | nil => simp [foldMin]
  | cons y ys ih => exact le_trans (ih (min x y)) (min_le_left _ _)

theorem foldMin_le (x : C) (xs : List C) : ∀ y ∈ xs, foldMin x xs ≤ y := by
  induction xs generalizing x with
  | nil => simp
  | cons z zs ih =>
    intro y hy
    rcases List.mem_cons.1 hy with rfl | h
    · exact le_trans (foldMin_le_init (min x y) zs) (min_le_right _ _)
    · exact ih (min x z) y h

theorem foldMin_mem (x : C) (xs : List C) : foldMin x xs = x ∨ foldMin x xs ∈ xs := by
  induction xs generalizing x with
  | nil => simp [foldMin]
  | cons z zs ih =>
    rcases ih (min x z) with h | h
    · rcases min_choice x z with h' | h'
      · left; simpa [foldMin, h'] using h
      · right
        have : foldMin x (z :: zs) = z := by simpa [foldMin, h'] using h
        simp [this]
    · right; exact List.mem_cons_of_mem _ h

theorem npMin_spec {l : List C} (h : l ≠ []) :
    ∃ m, npMin l = .ok m ∧ m ∈ l ∧ ∀ x ∈ l, m ≤ x := by
  cases l with
  | nil => exact absurd rfl h
  | cons x xs =>
    refine ⟨foldMin x xs, rfl, ?_, ?_⟩
    · rcases foldMin_mem x xs with h | h
      · rw [h]; simp
      · exact List.mem_cons_of_mem _ h
    · intro y hy
      rcases List.mem_cons.1 hy with rfl | h
      · exact foldMin_le_init _ _
      · exact foldMin_le _ _ _ h

theorem argminLoop_spec (best : C) (bi : Nat) (pre : List C) (l : List C)
    (hb : pre[bi]? = some best) (hmin : ∀ x ∈ pre, best ≤ x)
    (hfirst : ∀ j < bi, ∀ x, pre[j]? = some x → best < x) :
    ∃ m, (pre ++ l)[argminLoop best bi pre.length l]? = some m ∧ (∀ x ∈ pre ++ l, m ≤ x) ∧
      ∀ j < argminLoop best bi pre.length l, ∀ x, (pre ++ l)[j]? = some x → m < x := by
  induction l generalizing best bi pre with
  | nil => exact ⟨best, by simpa [argminLoop] using hb, by simpa using hmin,
      by simpa [argminLoop] using hfirst⟩
  | cons y ys ih =>
    have hbi : bi < pre.length := by
      by_contra hc
      rw [List.getElem?_eq_none (by omega)] at hb
      cases hb
    by_cases hy : y < best
    · have := ih y pre.length (pre ++ [y]) (by simp)
        (by
          intro x hx
          rcases List.mem_append.1 hx with h | h
          · exact le_trans hy.le (hmin x h)
          · simp at h; exact h ▸ le_rfl)
        (by
          intro j hj x hx
          rw [List.getElem?_append_left hj] at hx
          exact lt_of_lt_of_le hy (hmin x (List.mem_of_getElem? hx)))
      simpa [argminLoop, hy] using this
    · have := ih best bi (pre ++ [y])
        (by rw [List.getElem?_append_left hbi]; exact hb)
        (by
          intro x hx
          rcases List.mem_append.1 hx with h | h
          · exact hmin x h
          · simp at h; exact h ▸ not_lt.1 hy)
        (by
          intro j hj x hx
          rw [List.getElem?_append_left (lt_trans hj hbi)] at hx
          exact hfirst j hj x hx)
      simpa [argminLoop, hy] using this

theorem npArgmin_spec {l : List C} (h : l ≠ []) :
    ∃ i m, npArgmin l = .ok i ∧ l[i]? = some m ∧ (∀ x ∈ l, m ≤ x) ∧
      ∀ j < i, ∀ x, l[j]? = some x → m < x := by
  cases l with
  | nil => exact absurd rfl h
  | cons x xs =>
    obtain ⟨m, h1, h2, h3⟩ := argminLoop_spec x 0 [x] xs (by simp) (by simp) (by simp)
    exact ⟨_, m, rfl, by simpa using h1, by simpa using h2, by simpa using h3⟩

end order

/-- A `mapM` over a range whose body always succeeds. -/
theorem mapM_range_ok {β : Type} (n : Nat) (f : Nat → Except PyErr β) (P : Nat → β → Prop)
    (h : ∀ i < n, ∃ b, f i = .ok b ∧ P i b) :
    ∃ l, (List.range n).mapM f = .ok l ∧ l.length = n ∧ ∀ i < n, ∃ b, l[i]? = some b ∧ P i b := by
  induction n with
  | zero => exact ⟨[], rfl, rfl, by simp⟩
  | succ n ih =>
    obtain ⟨l, h1, h2, h3⟩ := ih (fun i hi => h i (by omega))
    obtain ⟨b, hb, hP⟩ := h n (by omega)
    refine ⟨l ++ [b], ?_, by simp [h2], ?_⟩
    · rw [List.range_succ, List.mapM_append, h1]
      simp [hb]
      rfl
    · intro i hi
      by_cases hin : i < n
      · obtain ⟨c, hc, hPc⟩ := h3 i hin
        exact ⟨c, by rw [List.getElem?_append_left (by omega)]; exact hc, hPc⟩
      · have : i = n := by omega
        subst this
        exact ⟨b, by simp [h2], hP⟩

theorem mapM_range_err {β : Type} (n : Nat) (f : Nat → Except PyErr β) (e : PyErr)
    (hn : 0 < n) (h : f 0 = .error e) : (List.range n).mapM f = .error e := by
  obtain ⟨m, rfl⟩ : ∃ m, n = m + 1 := ⟨n - 1, by omega⟩
  rw [List.range_succ_eq_map, List.mapM_cons, h]
  rfl

/-- The cost function returns one entry per pair of states, given by `g`. -/
def Fits (fn : List α → List α → Mat C) (g : α → α → C) : Prop :=
  ∀ a b, (fn a b).r = a.length ∧ (fn a b).c = b.length ∧
    ∀ i j x y, a[i]? = some x → b[j]? = some y → (fn a b).e i j = g x y

theorem _root_.Verif.Spec.IsCostToGo.unique [LinearOrder C] [Add C] [Zero C] {g : α → α → C} {v w : C} {x : α}
    {rest : List (List α)} (h : IsCostToGo g v x rest) (h' : IsCostToGo g w x rest) : v = w := by
  obtain ⟨⟨p, hp, hpv⟩, hl⟩ := h
  obtain ⟨⟨p', hp', hpv'⟩, hl'⟩ := h'
  exact le_antisymm (hpv' ▸ hl p' hp') (hpv ▸ hl' p hp)

section main
variable [LinearOrder C] [Add C] [Zero C] [AddLeftMono C]

/-- Value and index tables are right for the columns `cols` (recursively for every stage). -/
def TablesOK (g : α → α → C) : List (List α) → List (List Nat) → List (List C) → Prop
  | [], inds, vs => inds = [] ∧ vs = []
  | c :: rest, inds, vs => ∃ vi v inds' vs', inds = vi :: inds' ∧ vs = v :: vs' ∧
      TablesOK g rest inds' vs' ∧ v.length = c.length ∧ vi.length = c.length ∧
      ∀ (i : Nat) (x : α), c[i]? = some x → ∃ (vx : C) (j : Nat), v[i]? = some vx ∧ vi[i]? = some j ∧
        IsCostToGo g vx x rest ∧
        ∀ c' rest', rest = c' :: rest' →
          ∃ (y : α) (w : C), c'[j]? = some y ∧ IsCostToGo g w y rest' ∧ g x y + w = vx ∧
            ∀ j' < j, ∀ y' : α, c'[j']? = some y' → ∀ w', IsCostToGo g w' y' rest' → vx < g x y' + w'

omit [AddLeftMono C] in
theorem isCostToGo_nil (g : α → α → C) (x : α) : IsCostToGo g 0 x [] := by
  refine ⟨⟨[], List.Forall₂.nil, rfl⟩, ?_⟩
  intro p hp
  cases hp
  exact le_rfl

/-- Bellman's equation, both directions. -/
theorem isCostToGo_cons {g : α → α → C} {x y : α} {c' : List α} {rest' : List (List α)} {w v : C}
    (hy : y ∈ c') (hw : IsCostToGo g w y rest') (hv : g x y + w = v)
    (hmin : ∀ y' ∈ c', ∀ w', IsCostToGo g w' y' rest' → v ≤ g x y' + w')
    (hex : ∀ y' ∈ c', ∃ w', IsCostToGo g w' y' rest') :
    IsCostToGo g v x (c' :: rest') := by
  obtain ⟨⟨p, hp, hpw⟩, _⟩ := hw
  refine ⟨⟨y :: p, List.Forall₂.cons hy hp, by rw [← hv, ← hpw]; rfl⟩, ?_⟩
  intro q hq
  cases hq with
  | cons hy' hq' =>
    rename_i y' q'
    obtain ⟨w', hw'⟩ := hex y' hy'
    refine le_trans (hmin y' hy' w' hw') ?_
    show g x y' + w' ≤ g x y' + costR g (y' :: q')
    exact add_le_add_right (hw'.2 q' hq') _

theorem backward_ok {fn : List α → List α → Mat C} {g : α → α → C} (hfit : Fits fn g)
    (lastDim : Nat) (c : List α) (rest : List (List α)) (hne : ∀ col ∈ rest, col ≠ [])
    (hlast : ((c :: rest).getLast (by simp)).length = lastDim) :
    ∃ inds vs, backward lastDim (applyCostFunction fn (c :: rest)) = .ok (inds, vs) ∧
      TablesOK g (c :: rest) inds vs := by
  induction rest generalizing c with
  | nil =>
    simp at hlast
    refine ⟨[List.replicate lastDim 0], [List.replicate lastDim 0], rfl, ?_⟩
    refine ⟨_, _, [], [], rfl, rfl, ⟨rfl, rfl⟩, by simp [hlast], by simp [hlast], ?_⟩
    intro i x hx
    have hi : i < lastDim := by
      rw [← hlast]
      exact (List.getElem?_eq_some_iff.1 hx).1
    refine ⟨0, 0, by simp [hi], by simp [hi], isCostToGo_nil g x, ?_⟩
    intro c' rest' h
    cases h
  | cons b rest ih =>
    obtain ⟨inds, vs, hback, htab⟩ := ih b (fun col h => hne col (List.mem_cons_of_mem _ h))
      (by simpa using hlast)
    have htab' := htab
    obtain ⟨vi, v, inds', vs', hi, hv, _, hvlen, _, hent⟩ := htab
    have hb : b ≠ [] := hne b (by simp)
    have hb0 : 0 < b.length := List.length_pos_iff.2 hb
    obtain ⟨hr, hc, he⟩ := hfit c b
    -- the right-hand side
    have hadd : addRow (fn c b) v = .ok ⟨(fn c b).r, (fn c b).c,
        fun i j => plusAt ((fn c b).e i j) v[j]?⟩ := by
      simp [addRow, hvlen, hc]
    set rhs : Mat C := ⟨(fn c b).r, (fn c b).c,
        fun i j => plusAt ((fn c b).e i j) v[j]?⟩
      with hrhs
    have hrowlen : ∀ i, (rhs.row i).length = b.length := by
      intro i; simp [Mat.row, hrhs, hc]
    have hrow : ∀ (i : Nat) (x : α), c[i]? = some x → ∀ (j : Nat) (y : α), b[j]? = some y → ∃ w, v[j]? = some w ∧
        IsCostToGo g w y rest ∧ (rhs.row i)[j]? = some (g x y + w) := by
      intro i x hx j y hy
      obtain ⟨w, _, hw1, _, hw3, _⟩ := hent j y hy
      refine ⟨w, hw1, hw3, ?_⟩
      have hj : j < b.length := (List.getElem?_eq_some_iff.1 hy).1
      have : j < rhs.c := by simpa [hrhs, hc] using hj
      simp only [Mat.row, List.getElem?_map, List.getElem?_range this, Option.map_some]
      simp [hrhs, hw1, plusAt, he i j x y hx hy]
    have hrow' : ∀ (i : Nat) (x : α), c[i]? = some x → ∀ (m : C) (j : Nat), (rhs.row i)[j]? = some m →
        ∃ y w, b[j]? = some y ∧ IsCostToGo g w y rest ∧ m = g x y + w := by
      intro i x hx m j hj
      have hjl : j < b.length := by
        rw [← hrowlen i]; exact (List.getElem?_eq_some_iff.1 hj).1
      obtain ⟨w, _, hw2, hw3⟩ := hrow i x hx j b[j] (List.getElem?_eq_getElem hjl)
      rw [hj] at hw3
      exact ⟨b[j], w, List.getElem?_eq_getElem hjl, hw2, by simpa using hw3⟩
    have hrne : ∀ i, rhs.row i ≠ [] := by
      intro i h
      have := hrowlen i
      rw [h] at this
      simp at this
      omega
    obtain ⟨vm, hvm, hvml, hvmP⟩ := mapM_range_ok rhs.r (fun i => npMin (rhs.row i))
      (fun i m => m ∈ rhs.row i ∧ ∀ x ∈ rhs.row i, m ≤ x)
      (fun i _ => npMin_spec (hrne i))
    obtain ⟨va, hva, hval, hvaP⟩ := mapM_range_ok rhs.r (fun i => npArgmin (rhs.row i))
      (fun i k => ∃ m, (rhs.row i)[k]? = some m ∧ (∀ x ∈ rhs.row i, m ≤ x) ∧
        ∀ j < k, ∀ x, (rhs.row i)[j]? = some x → m < x)
      (fun i _ => by
        obtain ⟨k, m, h1, h2⟩ := npArgmin_spec (hrne i)
        exact ⟨k, h1, m, h2⟩)
    have hrc : rhs.r = c.length := by simpa [hrhs] using hr
    refine ⟨va :: inds, vm :: vs, ?_, ?_⟩
    · have hcne : ¬ (fn c b).c = 0 := by rw [hc]; omega
      have e1 : minAxis1 rhs = .ok vm := hvm
      have e2 : argminAxis1 rhs = .ok va := by
        have : ¬ rhs.c = 0 := hcne
        rw [argminAxis1, if_neg this]; exact hva
      have e3 : pyGet vs 0 = .ok v := by simp [pyGet, hv]
      simp only [applyCostFunction, backward]
      rw [hback]
      simp only [bind, Except.bind, e3, hadd, e1, e2]
    · refine ⟨va, vm, inds, vs, rfl, rfl, htab', by omega, by omega, ?_⟩
      intro i x hx
      have hil : i < c.length := (List.getElem?_eq_some_iff.1 hx).1
      obtain ⟨m, hm, hmem, hmle⟩ := hvmP i (by omega)
      obtain ⟨k, hk, m', hm', hmle', hfirst⟩ := hvaP i (by omega)
      have hmm : m = m' := le_antisymm (hmle m' (List.mem_of_getElem? hm')) (hmle' m hmem)
      subst hmm
      obtain ⟨y, w, hy, hw, hmy⟩ := hrow' i x hx m k hm'
      have hlow : ∀ y' ∈ b, ∀ w', IsCostToGo g w' y' rest → m ≤ g x y' + w' := by
        intro y' hy' w' hw'
        obtain ⟨j', hj'⟩ := List.getElem?_of_mem hy'
        obtain ⟨w'', _, hw2, hw3⟩ := hrow i x hx j' y' hj'
        rw [hw'.unique hw2]
        exact hmle _ (List.mem_of_getElem? hw3)
      refine ⟨m, k, hm, hk, ?_, ?_⟩
      · refine isCostToGo_cons (List.mem_of_getElem? hy) hw hmy.symm hlow ?_
        intro y' hy'
        obtain ⟨j', hj'⟩ := List.getElem?_of_mem hy'
        obtain ⟨w'', _, hw2, _⟩ := hrow i x hx j' y' hj'
        exact ⟨w'', hw2⟩
      · intro c' rest' h
        cases h
        refine ⟨y, w, hy, hw, hmy.symm, ?_⟩
        intro j' hj' y' hy' w' hw'
        obtain ⟨w'', _, hw2, hw3⟩ := hrow i x hx j' y' hy'
        rw [hw'.unique hw2]
        exact hfirst j' hj' _ hw3

theorem extractLoop_ok {g : α → α → C} (cols : List (List α)) (inds : List (List Nat))
    (vs : List (List C)) (htab : TablesOK g cols inds vs) (c : List α) (rest : List (List α))
    (hcols : cols = c :: rest) (hne : ∀ col ∈ rest, col ≠ []) (i : Nat) (x : α)
    (hx : c[i]? = some x) :
    ∃ p, extractLoop cols inds i = .ok (x :: p) ∧ IsSelection rest p ∧
      IsCostToGo g (costR g (x :: p)) x rest := by
  induction rest generalizing cols c inds vs i x with
  | nil =>
    subst hcols
    obtain ⟨vi, v, inds', vs', rfl, rfl, _, _, _, hent⟩ := htab
    obtain ⟨vx, j, hvx, hj, _⟩ := hent i x hx
    refine ⟨[], ?_, List.Forall₂.nil, isCostToGo_nil g x⟩
    simp [extractLoop, pyGet, hx, hj, bind, Except.bind]
  | cons b rest ih =>
    subst hcols
    obtain ⟨vi, v, inds', vs', rfl, rfl, htab', _, _, hent⟩ := htab
    obtain ⟨vx, j, hvx, hj, hctg, hsucc⟩ := hent i x hx
    obtain ⟨y, w, hy, hw, hsum, _⟩ := hsucc b rest rfl
    obtain ⟨p, hp, hsel, hopt⟩ := ih (b :: rest) inds' vs' htab' b rfl
      (fun col h => hne col (List.mem_cons_of_mem _ h)) j y hy
    refine ⟨y :: p, ?_, List.Forall₂.cons (List.mem_of_getElem? hy) hsel, ?_⟩
    · rw [extractLoop]
      simp only [pyGet, hx, bind, Except.bind, List.getElem?_cons_zero, hj, List.tail_cons]
      rw [hp]
    · have : costR g (x :: y :: p) = vx := by
        rw [← hsum, hw.unique hopt]; rfl
      rw [this]; exact hctg

end main

section errors
variable [LinearOrder C] [Add C] [Zero C]

theorem addRow_same (m : Mat C) (v : List C) (h : v.length = m.c) :
    ∃ rhs, addRow m v = .ok rhs ∧ rhs.r = m.r ∧ rhs.c = m.c := by
  exact ⟨⟨m.r, m.c, fun i j => plusAt (m.e i j) v[j]?⟩,
    by rw [addRow, if_pos h], rfl, rfl⟩

/-- Whatever is in the columns, the backward pass either gives tables with the right first
lengths or raises ValueError, and it raises when a column after the first one is empty. -/
theorem backward_shape {fn : List α → List α → Mat C} {g : α → α → C} (hfit : Fits fn g)
    (lastDim : Nat) (c : List α) (rest : List (List α))
    (hlast : ((c :: rest).getLast (by simp)).length = lastDim) :
    (∃ inds v vs, backward lastDim (applyCostFunction fn (c :: rest)) = .ok (inds, v :: vs) ∧
      v.length = c.length ∧ ∀ col ∈ rest, col ≠ []) ∨
    (backward lastDim (applyCostFunction fn (c :: rest)) = .error .valueError ∧
      ∃ col ∈ rest, col = []) := by
  induction rest generalizing c with
  | nil =>
    left
    refine ⟨_, _, _, rfl, by simpa using hlast.symm, by simp⟩
  | cons b rest ih =>
    rcases ih b (by simpa using hlast) with ⟨inds, v, vs, hback, hvl, hne⟩ | ⟨herr, hex⟩
    · obtain ⟨hr, hc, _⟩ := hfit c b
      obtain ⟨rhs, hadd, hrr, hrc⟩ := addRow_same (fn c b) v (by rw [hvl, hc])
      have e3 : pyGet (v :: vs) 0 = .ok v := by simp [pyGet]
      by_cases hb : b = []
      · right
        refine ⟨?_, b, by simp, hb⟩
        have hc0 : rhs.c = 0 := by rw [hrc, hc, hb]; rfl
        simp only [applyCostFunction, backward]
        rw [hback]
        simp only [bind, Except.bind, e3, hadd]
        rcases Nat.eq_zero_or_pos rhs.r with h0 | hpos
        · have e1 : minAxis1 rhs = .ok [] := by simp [minAxis1, h0]; rfl
          have e2 : argminAxis1 rhs = .error .valueError := by simp [argminAxis1, hc0]
          rw [e1, e2]
        · have e1 : minAxis1 rhs = .error .valueError := by
            apply mapM_range_err _ _ _ hpos
            simp [Mat.row, hc0, npMin]
          rw [e1]
      · left
        have hb0 : 0 < b.length := List.length_pos_iff.2 hb
        have hrne : ∀ i, rhs.row i ≠ [] := by
          intro i h
          have : (rhs.row i).length = b.length := by simp [Mat.row, hrc, hc]
          rw [h] at this
          simp at this
          omega
        obtain ⟨vm, hvm, hvml, _⟩ := mapM_range_ok rhs.r (fun i => npMin (rhs.row i))
          (fun _ _ => True)
          (fun i _ => by obtain ⟨m, h, _⟩ := npMin_spec (hrne i); exact ⟨m, h, trivial⟩)
        obtain ⟨va, hva, _, _⟩ := mapM_range_ok rhs.r (fun i => npArgmin (rhs.row i))
          (fun _ _ => True)
          (fun i _ => by obtain ⟨k, m, h, _⟩ := npArgmin_spec (hrne i); exact ⟨k, h, trivial⟩)
        refine ⟨va :: inds, vm, v :: vs, ?_, by rw [hvml, hrr, hr], ?_⟩
        · have e1 : minAxis1 rhs = .ok vm := hvm
          have e2 : argminAxis1 rhs = .ok va := by
            have : ¬ rhs.c = 0 := by rw [hrc, hc]; omega
            rw [argminAxis1, if_neg this]; exact hva
          simp only [applyCostFunction, backward]
          rw [hback]
          simp only [bind, Except.bind, e3, hadd, e1, e2]
        · intro col hcol
          rcases List.mem_cons.1 hcol with rfl | h
          · exact hb
          · exact hne col h
    · right
      obtain ⟨col, hcol, he⟩ := hex
      refine ⟨?_, col, List.mem_cons_of_mem _ hcol, he⟩
      simp only [applyCostFunction, backward]
      rw [herr]
      rfl

/-- The last transition matrix has as many columns as the last stage has states. -/
theorem last_applyCost {fn : List α → List α → Mat C} {g : α → α → C} (hfit : Fits fn g)
    (a b : List α) (rest : List (List α)) :
    ∃ m, pyLast (applyCostFunction fn (a :: b :: rest)) = .ok m ∧
      ((a :: b :: rest).getLast (by simp)).length = m.c := by
  induction rest generalizing a b with
  | nil => exact ⟨fn a b, by simp [applyCostFunction, pyLast], by simp [(hfit a b).2.1]⟩
  | cons c rest ih =>
    obtain ⟨m, h1, h2⟩ := ih b c
    refine ⟨m, ?_, by simpa using h2⟩
    rw [applyCostFunction]
    rw [applyCostFunction] at h1 ⊢
    simpa [pyLast] using h1

end errors

end Verif.Dp
