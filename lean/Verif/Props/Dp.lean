import Verif.Proofs.Dp
import Mathlib.Algebra.Order.Group.Int

/-!
# C01, C02, C03: dynamic programming (`acrobotics/dp.py`)

`C` is any linearly ordered type with `0` and an addition that is monotone in its second argument
(`AddLeftMono`): real numbers, integers, and floats without NaN.  "Cost of a path" is the sum in
the order in which the program adds, `costR`.
-/

namespace Verif.Props

open Verif.Spec Verif.Dp

variable {α C : Type} [LinearOrder C] [Add C] [Zero C]

/-- C01. For at least two stages, all non-empty, `shortest_path` succeeds, returns one state per
stage, reports the cost of exactly these states, and no other choice of states is cheaper. -/
theorem C01_dp_optimal [AddLeftMono C] (fn : List α → List α → Mat C) (g : α → α → C)
    (hfit : Fits fn g) (Q : List (List α)) (h2 : 2 ≤ Q.length) (hne : ∀ col ∈ Q, col ≠ []) :
    ∃ path len, shortestPath Q fn = .ok ⟨true, path, len⟩ ∧
      IsSelection Q path ∧ costR g path = len ∧
      ∀ p, IsSelection Q p → len ≤ costR g p := by
  match Q, h2 with
  | a :: b :: rest, _ =>
    obtain ⟨m, hm, hlast⟩ := last_applyCost hfit a b rest
    obtain ⟨inds, vs, hback, htab⟩ := backward_ok hfit m.c a (b :: rest)
      (fun col h => hne col (List.mem_cons_of_mem _ h)) hlast
    have htab' := htab
    obtain ⟨vi, v, inds', vs', rfl, rfl, _, hvlen, _, hent⟩ := htab
    have ha : a ≠ [] := hne a (by simp)
    have hv : v ≠ [] := by
      intro h; rw [h] at hvlen; simp at hvlen; exact ha (by simpa using hvlen.symm)
    obtain ⟨i, mn, hi, him, hile, _⟩ := npArgmin_spec hv
    obtain ⟨mn', hmin, hmem, hle⟩ := npMin_spec hv
    have hmm : mn' = mn := le_antisymm (hle mn (List.mem_of_getElem? him)) (hile mn' hmem)
    subst hmm
    have hia : i < a.length := by
      rw [← hvlen]; exact (List.getElem?_eq_some_iff.1 him).1
    obtain ⟨vx, j, hvx, _, hctg, _⟩ := hent i a[i] (List.getElem?_eq_getElem hia)
    have hvm : vx = mn' := by rw [him] at hvx; simpa using hvx.symm
    obtain ⟨p, hp, hsel, hopt⟩ := extractLoop_ok (a :: b :: rest) (vi :: inds') (v :: vs') htab'
      a (b :: rest) rfl (fun col h => hne col (List.mem_cons_of_mem _ h)) i a[i]
      (List.getElem?_eq_getElem hia)
    refine ⟨a[i] :: p, mn', ?_, List.Forall₂.cons (List.getElem_mem hia) hsel, ?_, ?_⟩
    · simp only [shortestPath, calculateValueFunction, hm, hback, bind, Except.bind,
        extractShortestPath, pyGet, List.getElem?_cons_zero, hi, hp, hmin]
    · rw [← hvm]; exact hopt.unique hctg
    · intro q hq
      cases hq with
      | cons hx hq' =>
        rename_i x q'
        obtain ⟨k, hk⟩ := List.getElem?_of_mem hx
        obtain ⟨w, _, hw, _, hctg', _⟩ := hent k x hk
        exact le_trans (hle w (List.mem_of_getElem? hw)) (hctg'.2 q' hq')

/-- The tables, stage by stage. -/
theorem tables_drop [AddLeftMono C] {g : α → α → C} {cols : List (List α)} {inds : List (List Nat)}
    {vs : List (List C)} (h : TablesOK g cols inds vs) (k : Nat) :
    TablesOK g (cols.drop k) (inds.drop k) (vs.drop k) := by
  induction k generalizing cols inds vs with
  | zero => simpa using h
  | succ k ih =>
    cases cols with
    | nil =>
      obtain ⟨rfl, rfl⟩ := h
      simp [TablesOK]
    | cons c rest =>
      obtain ⟨vi, v, inds', vs', rfl, rfl, h', _⟩ := h
      simpa using ih h'

theorem tables_length [AddLeftMono C] {g : α → α → C} {cols : List (List α)}
    {inds : List (List Nat)} {vs : List (List C)} (h : TablesOK g cols inds vs) :
    inds.length = cols.length ∧ vs.length = cols.length := by
  induction cols generalizing inds vs with
  | nil => obtain ⟨rfl, rfl⟩ := h; simp
  | cons c rest ih =>
    obtain ⟨vi, v, inds', vs', rfl, rfl, h', _⟩ := h
    simp [ih h']

/-- C02. `calculate_value_function` returns one value vector and one index vector per stage; the
value of state `x` in stage `k` is the least cost of completing the path from `x` (zero in the
last stage, where nothing is left), and the index is the *first* successor state that attains
it.  Stage 0 may even be empty. -/
theorem C02_dp_value_function [AddLeftMono C] (fn : List α → List α → Mat C) (g : α → α → C)
    (hfit : Fits fn g) (Q : List (List α)) (h2 : 2 ≤ Q.length) (hne : ∀ col ∈ Q.tail, col ≠ []) :
    ∃ inds vs, calculateValueFunction (applyCostFunction fn Q) = .ok (inds, vs) ∧
      inds.length = Q.length ∧ vs.length = Q.length ∧
      (∀ k stage rest, Q.drop k = stage :: rest →
        ∃ vk ik, vs[k]? = some vk ∧ inds[k]? = some ik ∧
          vk.length = stage.length ∧ ik.length = stage.length ∧
          ∀ (i : Nat) (x : α), stage[i]? = some x →
            ∃ (v : C) (j : Nat), vk[i]? = some v ∧ ik[i]? = some j ∧
              IsCostToGo g v x rest ∧ (rest = [] → v = 0) ∧
              ∀ next rest', rest = next :: rest' →
                ∃ (y : α) (w : C), next[j]? = some y ∧ IsCostToGo g w y rest' ∧ g x y + w = v ∧
                  ∀ j' < j, ∀ y' : α, next[j']? = some y' →
                    ∀ w', IsCostToGo g w' y' rest' → v < g x y' + w') := by
  match Q, h2 with
  | a :: b :: rest, _ =>
    obtain ⟨m, hm, hlast⟩ := last_applyCost hfit a b rest
    obtain ⟨inds, vs, hback, htab⟩ := backward_ok hfit m.c a (b :: rest) hne hlast
    refine ⟨inds, vs, ?_, (tables_length htab).1, (tables_length htab).2, ?_⟩
    · simp only [calculateValueFunction, hm, bind, Except.bind, hback]
    · intro k stage rest' hk
      have := tables_drop htab k
      rw [hk] at this
      obtain ⟨vi, v, inds', vs', hi, hv, _, hl1, hl2, hent⟩ := this
      refine ⟨v, vi, ?_, ?_, hl1, hl2, ?_⟩
      · rw [← Nat.add_zero k, ← List.getElem?_drop, hv]; rfl
      · rw [← Nat.add_zero k, ← List.getElem?_drop, hi]; rfl
      · intro i x hx
        obtain ⟨vx, j, h1, h2, h3, h4⟩ := hent i x hx
        refine ⟨vx, j, h1, h2, h3, ?_, h4⟩
        intro hr
        subst hr
        exact h3.unique (isCostToGo_nil g x)

/-- C03. Fewer than two stages raise IndexError; with at least two stages an empty stage anywhere
raises ValueError.  In no case a result is returned. -/
theorem C03_dp_errors (fn : List α → List α → Mat C) (g : α → α → C) (hfit : Fits fn g)
    (Q : List (List α)) :
    (Q.length < 2 → shortestPath Q fn = .error .indexError) ∧
    (2 ≤ Q.length → (∃ col ∈ Q, col = []) → shortestPath Q fn = .error .valueError) := by
  constructor
  · intro h
    match Q, h with
    | [], _ => rfl
    | [_], _ => rfl
  · intro h2 hex
    match Q, h2 with
    | a :: b :: rest, _ =>
      obtain ⟨m, hm, hlast⟩ := last_applyCost hfit a b rest
      rcases backward_shape hfit m.c a (b :: rest) hlast with ⟨inds, v, vs, hb, hvl, hne⟩ | ⟨he, _⟩
      · obtain ⟨col, hcol, hc⟩ := hex
        rcases List.mem_cons.1 hcol with rfl | h
        · subst hc
          have hv : v = [] := by simpa using hvl
          subst hv
          simp only [shortestPath, calculateValueFunction, hm, bind, Except.bind, hb,
            extractShortestPath, pyGet, List.getElem?_cons_zero, npArgmin]
        · exact absurd hc (hne col h)
      · simp only [shortestPath, calculateValueFunction, hm, bind, Except.bind, he]

/-! ## The hypotheses are satisfiable -/

/-- The usual way to write a cost function: all pairs. -/
def allPairs (g : α → α → C) (d : α) (a b : List α) : Mat C :=
  ⟨a.length, b.length, fun i j => g (a.getD i d) (b.getD j d)⟩

omit [LinearOrder C] [Add C] [Zero C] in
theorem allPairs_fits (g : α → α → C) (d : α) : Fits (allPairs g d) g := by
  intro a b
  refine ⟨rfl, rfl, ?_⟩
  intro i j x y hx hy
  simp [allPairs, hx, hy]

/-- A concrete run with a non-greedy optimum: 4 → 2 → 1 → 2 (squared distances, cost 6). -/
example : (shortestPath [[4], [2, 5], [1, 5], [2]]
    (allPairs (fun x y : ℤ => (x - y) * (x - y)) 0)).toOption.map (fun r => (r.path, r.length))
    = some ([4, 2, 1, 2], 6) := by decide

example : ∃ path len, shortestPath [[4], [2, 5], [1, 5], [2]]
      (allPairs (fun x y : ℤ => (x - y) * (x - y)) 0) = .ok ⟨true, path, len⟩ ∧
    ∀ p, IsSelection [[4], [2, 5], [1, 5], [2]] p →
      len ≤ costR (fun x y : ℤ => (x - y) * (x - y)) p := by
  obtain ⟨p, l, h, _, _, h'⟩ := C01_dp_optimal _ _ (allPairs_fits (fun x y : ℤ => (x - y) * (x - y)) 0)
    [[4], [2, 5], [1, 5], [2]] (by decide) (by decide)
  exact ⟨p, l, h, h'⟩

example : shortestPath [[1], [], [2]] (allPairs (fun x y : ℤ => (x - y) * (x - y)) 0)
    = .error .valueError :=
  (C03_dp_errors _ _ (allPairs_fits _ 0) _).2 (by decide) ⟨[], by decide, rfl⟩

end Verif.Props
