import Verif.Proofs.Search
import Verif.Spec.Select
import Mathlib.Data.List.Chain

/-! # Walks through nodes are selections from the columns of data -/

set_option linter.unusedSectionVars false

namespace Verif.Search

open Verif.Spec

variable {α C : Type} [CostArith C]

theorem isSelection_append {A B : List (List α)} {p q : List α} (h1 : IsSelection A p)
    (h2 : IsSelection B q) : IsSelection (A ++ B) (p ++ q) := by
  induction h1 with
  | nil => exact h2
  | cons hx _ ih => exact List.Forall₂.cons hx ih

theorem costFrom_snoc (g : α → α → C) (acc : C) (q : List α) (x y : α) :
    costFrom g acc (q ++ [x, y]) = costFrom g acc (q ++ [x]) + g x y := by
  induction q generalizing acc with
  | nil => rfl
  | cons a q ih =>
    cases q with
    | nil => rfl
    | cons b q => exact ih (acc + g a b)

/-- The data of the nodes, column by column. -/
def dataOf (na : List (List (Nd α))) : List (List α) := na.map (List.map Nd.data)

variable {na : List (List (Nd α))} {ok : Nd α → Nd α → Bool} {cost : Nd α → Nd α → C}
  {R : α → α → Prop} {g : α → α → C}

theorem walk_head {k0 : Nat} {v : Nd α} {c : C} {p : List (Nd α)}
    (h : Walk na ok cost k0 v c p) : ∃ p', p = v :: p' := by
  cases h <;> exact ⟨_, rfl⟩

/-- Every walk to column `k` is an admissible selection from columns `0 … k`, with the walk's
cost. -/
theorem walk_selection (hwf : WFna na) (hok : ∀ u v, ok u v = true → R u.data v.data)
    (hcost : ∀ u v, cost u v = g u.data v.data) {v : Nd α} {c : C} {p : List (Nd α)}
    (h : Walk na ok cost 0 v c p) :
    IsSelection ((dataOf na).take (v.pi + 1)) (p.reverse.map Nd.data) ∧
      List.IsChain R (p.reverse.map Nd.data) ∧ costL g (p.reverse.map Nd.data) = c := by
  induction h with
  | @start v col hc hv =>
    have hpi := hwf.pi_of_mem hc hv
    refine ⟨?_, by simp, rfl⟩
    have : (dataOf na).take (v.pi + 1) = [col.map Nd.data] := by
      rw [hpi]
      cases na with
      | nil => simp at hc
      | cons a na => simp at hc; simp [dataOf, hc]
    rw [this]
    exact List.Forall₂.cons (List.mem_map_of_mem hv) List.Forall₂.nil
  | @step u v c p col hw hc hv hokuv ih =>
    have hpi := hwf.pi_of_mem hc hv
    obtain ⟨p', rfl⟩ := walk_head hw
    obtain ⟨h1, h2, h3⟩ := ih
    refine ⟨?_, ?_, ?_⟩
    · have : (dataOf na).take (v.pi + 1) = (dataOf na).take (u.pi + 1) ++ [col.map Nd.data] := by
        rw [hpi, List.take_add_one (i := u.pi + 1)]
        simp [dataOf, hc]
      rw [this, List.reverse_cons, List.map_append]
      exact isSelection_append h1 (List.Forall₂.cons (by simpa using List.mem_map_of_mem hv)
        List.Forall₂.nil)
    · rw [List.reverse_cons, List.map_append, List.isChain_append]
      refine ⟨h2, by simp, ?_⟩
      intro x hx y hy
      simp at hx hy
      subst hx hy
      exact hok _ _ hokuv
    · simp only [List.reverse_cons, List.map_append, List.map_cons, List.map_nil,
        List.append_assoc, List.singleton_append] at h3 ⊢
      unfold costL at h3 ⊢
      rw [costFrom_snoc, h3, hcost]

theorem walk_extend (hwf : WFna na) (hok : ∀ u v, R u.data v.data → ok u v = true)
    (hcost : ∀ u v, cost u v = g u.data v.data) (q : List α) :
    ∀ (u : Nd α) (c : C) (p : List (Nd α)) (n : Nat), Walk na ok cost 0 u c p →
      IsSelection (((dataOf na).drop (u.pi + 1)).take n) q → List.IsChain R (u.data :: q) →
      ∃ v p', Walk na ok cost 0 v (costFrom g c (u.data :: q)) p' ∧ v.pi = u.pi + q.length ∧
        p'.reverse.map Nd.data = p.reverse.map Nd.data ++ q := by
  induction q with
  | nil =>
    intro u c p n hw _ _
    exact ⟨u, p, by simpa [costFrom] using hw, by simp, by simp⟩
  | cons x q ih =>
    intro u c p n hw hsel hch
    cases n with
    | zero => simp [IsSelection] at hsel
    | succ n =>
      rcases hd : (dataOf na).drop (u.pi + 1) with _ | ⟨col, rest⟩
      · rw [hd] at hsel; simp [IsSelection] at hsel
      · rw [hd, List.take_succ_cons] at hsel
        have hcol : (dataOf na)[u.pi + 1]? = some col := by
          have := congrArg List.head? hd
          simpa using this
        have hrest : (dataOf na).drop (u.pi + 1 + 1) = rest := by
          have := congrArg List.tail hd
          simpa [List.tail_drop] using this
        have hcol' : ∃ ncol, na[u.pi + 1]? = some ncol ∧ ncol.map Nd.data = col := by
          simpa [dataOf] using hcol
        obtain ⟨ncol, hn, rfl⟩ := hcol'
        cases hsel with
        | cons hx hq =>
          obtain ⟨v, hv, hvx⟩ := List.mem_map.1 hx
          rw [List.isChain_cons_cons] at hch
          have hpi := hwf.pi_of_mem hn hv
          have hstep : Walk na ok cost 0 v (c + cost u v) (v :: p) :=
            .step hw hn hv (hok _ _ (by rw [hvx]; exact hch.1))
          obtain ⟨w, p', h1, h2, h3⟩ := ih v _ _ n hstep
            (by rw [hpi, hrest]; exact hq) (by rw [hvx]; exact hch.2)
          refine ⟨w, p', ?_, by rw [h2, hpi]; simp; omega, by rw [h3]; simp [hvx]⟩
          rw [hcost, hvx] at h1
          exact h1

/-- Every admissible selection from columns `0 … k` is a walk with that cost. -/
theorem selection_walk (hwf : WFna na) (hok : ∀ u v, R u.data v.data → ok u v = true)
    (hcost : ∀ u v, cost u v = g u.data v.data) {k : Nat} {q : List α} (hk : k < na.length)
    (hsel : IsSelection ((dataOf na).take (k + 1)) q) (hch : List.IsChain R q) :
    ∃ v p, Walk na ok cost 0 v (costL g q) p ∧ v.pi = k ∧ p.reverse.map Nd.data = q := by
  cases na with
  | nil => simp at hk
  | cons a na =>
    simp only [dataOf, List.map_cons, List.take_succ_cons] at hsel
    cases hsel with
    | cons hx hq =>
      rename_i x q
      obtain ⟨v, hv, rfl⟩ := List.mem_map.1 hx
      have hc : (a :: na)[0]? = some a := rfl
      have hpi := hwf.pi_of_mem hc hv
      obtain ⟨w, p', h1, h2, h3⟩ := walk_extend hwf hok hcost q v 0 [v] k (.start hc hv)
        (by rw [hpi]; simpa [dataOf, IsSelection] using hq) hch
      refine ⟨w, p', h1, ?_, by simpa using h3⟩
      have hl := List.Forall₂.length_eq hq
      simp at hl hk
      rw [h2, hpi, ← hl]
      omega

theorem isSelection_length {cols : List (List α)} {p : List α} (h : IsSelection cols p) :
    p.length = cols.length := (List.Forall₂.length_eq h).symm

theorem exists_selection {cols : List (List α)} (h : ∀ c ∈ cols, c ≠ []) :
    ∃ p, IsSelection cols p := by
  induction cols with
  | nil => exact ⟨[], List.Forall₂.nil⟩
  | cons c cols ih =>
    obtain ⟨p, hp⟩ := ih (fun c' h' => h c' (List.mem_cons_of_mem _ h'))
    obtain ⟨x, hx⟩ := List.exists_mem_of_ne_nil c (h c (by simp))
    exact ⟨x :: p, List.Forall₂.cons hx hp⟩

theorem selection_nonempty {cols : List (List α)} {p : List α} (h : IsSelection cols p) :
    ∀ c ∈ cols, c ≠ [] := by
  induction h with
  | nil => simp
  | cons hx _ ih =>
    intro c hc
    rcases List.mem_cons.1 hc with rfl | hc
    · exact List.ne_nil_of_mem hx
    · exact ih c hc

end Verif.Search
