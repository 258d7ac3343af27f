import Verif.Model.PyGraph
import Verif.Proofs.Walks

/-! # Lemmas about the model of `pygraph.py` -/

set_option linter.unusedSectionVars false

namespace Verif.PyGraph

open Verif.Search Verif.Spec

variable {α C : Type} [CostArith C]

/-! ## The node array -/

theorem nodeArray_getElem? (data : List (List α)) (i : Nat) :
    (dataToNodeArray data)[i]? = (data[i]?).map (fun col => col.mapIdx fun j row => ⟨i, j, j, row⟩) := by
  simp [dataToNodeArray]

theorem nodeArray_length (data : List (List α)) : (dataToNodeArray data).length = data.length := by
  simp [dataToNodeArray]

theorem nodeArray_mem {data : List (List α)} {i : Nat} {col : List (Nd α)}
    (hc : (dataToNodeArray data)[i]? = some col) {j : Nat} {n : Nd α} (hn : col[j]? = some n) :
    n.pi = i ∧ n.pos = j ∧ n.si = j ∧ ∃ c, data[i]? = some c ∧ c[j]? = some n.data := by
  rw [nodeArray_getElem?] at hc
  rcases hd : data[i]? with _ | c
  · simp [hd] at hc
  · simp only [hd, Option.map_some, Option.some.injEq] at hc
    subst hc
    rw [List.getElem?_mapIdx] at hn
    rcases hr : c[j]? with _ | row
    · simp [hr] at hn
    · simp only [hr, Option.map_some, Option.some.injEq] at hn
      subst hn
      exact ⟨rfl, rfl, rfl, c, rfl, hr⟩

theorem wf_nodeArray (data : List (List α)) : WFna (dataToNodeArray data) := by
  intro i col hc j n hn
  have := nodeArray_mem hc hn
  exact ⟨this.1, this.2.1⟩

theorem dataOf_nodeArray (data : List (List α)) : dataOf (dataToNodeArray data) = data := by
  apply List.ext_getElem?
  intro i
  simp only [dataOf, List.getElem?_map, nodeArray_getElem?]
  rcases data[i]? with _ | col
  · rfl
  · simp only [Option.map_some, Option.some.injEq]
    apply List.ext_getElem?
    intro j
    simp only [List.getElem?_map, List.getElem?_mapIdx]
    rcases col[j]? with _ | x <;> rfl

theorem sum_lengths_nodeArray (data : List (List α)) :
    ((dataToNodeArray data).map List.length).sum = (data.map List.length).sum := by
  congr 1
  apply List.ext_getElem?
  intro i
  simp only [List.getElem?_map, nodeArray_getElem?]
  rcases data[i]? with _ | col <;> simp

/-- A node that belongs to the array: it can be looked up in the data. -/
theorem node_lookup {data : List (List α)} {n : Nd α} {col : List (Nd α)}
    (hc : (dataToNodeArray data)[n.pi]? = some col) (hn : n ∈ col) :
    ∃ c, data[n.pi]? = some c ∧ c[n.si]? = some n.data := by
  obtain ⟨j, hj⟩ := List.getElem?_of_mem hn
  obtain ⟨_, _, hs, c, h1, h2⟩ := nodeArray_mem hc hj
  exact ⟨c, h1, by rw [hs]; exact h2⟩

/-! ## Reset -/

theorem foldl_upd_same (v : St C α) (L : List (Nd α)) (s : Store C α) (i j : Nat) :
    (L.foldl (fun s n => s.upd n v) s) i j = if (i, j) ∈ L.map Nd.key then v else s i j := by
  induction L generalizing s with
  | nil => simp
  | cons m L ih =>
    rw [List.foldl_cons, ih]
    by_cases h : (i, j) ∈ L.map Nd.key
    · simp [h]
    · by_cases h' : (i, j) = m.key
      · have hij : i = m.pi ∧ j = m.pos := by simpa [Nd.key] using h'
        simp [Store.upd, hij.1, hij.2, Nd.key]
      · rw [upd_other _ _ _ _ _ h']
        simp [h, h']

theorem reset_fresh (g : Graph α C) : ∀ col ∈ g.nodeArray, ∀ v ∈ col,
    FreshAt .none g.reset.store v := by
  intro col hcol v hv
  have : g.reset.store.at v = freshSt := by
    show (g.nodeArray.flatten.foldl (fun s n => s.upd n freshSt) g.store) v.pi v.pos = _
    rw [foldl_upd_same, if_pos]
    exact List.mem_map_of_mem (List.mem_flatten.2 ⟨col, hcol, hv⟩)
  simp [FreshAt, this, freshSt]

/-! ## The search -/

/-- The admissibility test used by `get_reachable_neighbours`. -/
def okBelow (cost : α → α → C) (lim : C) (u v : Nd α) : Bool := decide (cost u.data v.data < lim)

theorem reachable_eq_layerNbs (g : Graph α C) (hna : g.nodeArray = dataToNodeArray g.data)
    (cost : α → α → C) (lim : C) :
    g.getReachableNeighbours cost lim = layerNbs g.nodeArray (okBelow cost lim) := by
  funext u
  unfold Graph.getReachableNeighbours Graph.getNeighbours layerNbs
  have hlen : g.nodeArray.length = g.data.length := by rw [hna, nodeArray_length]
  by_cases h : u.pi + 1 ≥ g.data.length
  · rw [if_pos h, List.getElem?_eq_none (by omega)]
    rfl
  · rw [if_neg h]
    rcases g.nodeArray[u.pi + 1]? with _ | col <;> rfl

/-- The state after a search. -/
def Searched (g : Graph α C) (cost : α → α → C) (lim : C) (k0 : Nat) : Prop :=
  g.nodeArray = dataToNodeArray g.data ∧ ∀ col ∈ g.nodeArray, ∀ v ∈ col,
    Final g.nodeArray (okBelow cost lim) (fun u v => cost u.data v.data) k0 .none g.store v

theorem sum_drop_le (l : List Nat) (k : Nat) : (l.drop k).sum ≤ l.sum := by
  induction l generalizing k with
  | nil => simp
  | cons a l ih =>
    cases k with
    | zero => simp
    | succ k => simp; have := ih k; omega

theorem runBfs_ok (g : Graph α C) (hna : g.nodeArray = dataToNodeArray g.data)
    (cost : α → α → C) (lim : C) (k0 : Nat) (hk0 : k0 < g.data.length) (fuel : Nat)
    (hfuel : (g.data.map List.length).sum ≤ fuel) :
    ∃ s, g.runBfs cost lim k0 fuel = .ok { g.reset with store := s } ∧
      Searched { g.reset with store := s } cost lim k0 := by
  have hlt : k0 < g.nodeArray.length := by rw [hna, nodeArray_length]; exact hk0
  have hc : g.nodeArray[k0]? = some g.nodeArray[k0] := List.getElem?_eq_getElem hlt
  have hwf : WFna g.nodeArray := by rw [hna]; exact wf_nodeArray _
  have hf : ((g.nodeArray.drop k0).map List.length).sum ≤ fuel := by
    rw [List.map_drop]
    refine le_trans (sum_drop_le _ _) ?_
    rw [hna, sum_lengths_nodeArray]
    exact hfuel
  obtain ⟨s', h1, h2⟩ := bfs_final (ok := okBelow cost lim)
    (cost := fun u v => cost u.data v.data) (p0 := .none) hwf hc g.reset.store
    (reset_fresh g) fuel hf
  have hreach : g.reset.getReachableNeighbours cost lim =
      layerNbs g.nodeArray (okBelow cost lim) := reachable_eq_layerNbs g.reset hna cost lim
  refine ⟨s', ?_, hna, h2⟩
  unfold Graph.runBfs
  have hp : pyGet g.reset.nodeArray k0 = .ok g.nodeArray[k0] := by
    show pyGet g.nodeArray k0 = _
    simp [pyGet, hc]
  simp only [hp, bind, Except.bind, hreach, h1]

/-! ## Reading the path -/

theorem closest_aux (s : Store C α) (col : List (Nd α)) (acc : C × Option (Nd α)) :
    let r := col.foldl (fun (acc : C × Option (Nd α)) n =>
      if (s.at n).dist < acc.1 then ((s.at n).dist, some n) else acc) acc
    (∀ n ∈ col, r.1 ≤ (s.at n).dist) ∧ r.1 ≤ acc.1 ∧
      (r = acc ∨ ∃ n ∈ col, r = ((s.at n).dist, some n) ∧ (s.at n).dist < acc.1) := by
  induction col generalizing acc with
  | nil => simp
  | cons m col ih =>
    simp only [List.foldl_cons]
    by_cases h : (s.at m).dist < acc.1
    · rw [if_pos h]
      obtain ⟨h1, h2, h3⟩ := ih ((s.at m).dist, some m)
      refine ⟨?_, le_trans h2 h.le, Or.inr ?_⟩
      · intro n hn
        rcases List.mem_cons.1 hn with rfl | hn
        · exact h2
        · exact h1 n hn
      · rcases h3 with h3 | ⟨n, hn, h3, h4⟩
        · exact ⟨m, by simp, h3, h⟩
        · exact ⟨n, List.mem_cons_of_mem _ hn, h3, lt_trans h4 h⟩
    · rw [if_neg h]
      obtain ⟨h1, h2, h3⟩ := ih acc
      refine ⟨?_, h2, ?_⟩
      · intro n hn
        rcases List.mem_cons.1 hn with rfl | hn
        · exact le_trans h2 (not_lt.1 h)
        · exact h1 n hn
      · rcases h3 with h3 | ⟨n, hn, h3, h4⟩
        · exact Or.inl h3
        · exact Or.inr ⟨n, List.mem_cons_of_mem _ hn, h3, h4⟩

theorem closest_spec (s : Store C α) (col : List (Nd α)) :
    (closest s col = (⊤, none) ∧ ∀ n ∈ col, (s.at n).dist = ⊤) ∨
    ∃ n ∈ col, closest s col = ((s.at n).dist, some n) ∧ (s.at n).dist < ⊤ ∧
      ∀ m ∈ col, (s.at n).dist ≤ (s.at m).dist := by
  obtain ⟨h1, h2, h3⟩ := closest_aux s col (⊤, none)
  rcases h3 with h3 | ⟨n, hn, h3, h4⟩
  · left
    refine ⟨h3, ?_⟩
    intro n hn
    have := h1 n hn
    rw [h3] at this
    exact top_le_iff.1 this
  · right
    refine ⟨n, hn, h3, h4, ?_⟩
    intro m hm
    have := h1 m hm
    rw [h3] at this
    exact this

theorem trace_spec {s : Store C α} {v : Nd α} {p : List (Nd α)} (h : Traces s v p) (fuel : Nat)
    (hf : p.length ≤ fuel) : trace s fuel v = .ok (p.map fun n => (n.si : Int)) := by
  induction h generalizing fuel with
  | start hd =>
    obtain ⟨f, rfl⟩ : ∃ f, fuel = f + 1 := ⟨fuel - 1, by simp at hf; omega⟩
    simp [trace, hd]
  | step hp _ ih =>
    obtain ⟨f, rfl⟩ : ∃ f, fuel = f + 1 := ⟨fuel - 1, by simp at hf; omega⟩
    have := ih f (by simp at hf; omega)
    simp [trace, hp, this, bind, Except.bind]

/-- Consecutive columns. -/
def Consec : Nat → List (Nd α) → Prop
  | _, [] => True
  | k, n :: ns => n.pi = k ∧ Consec (k + 1) ns

theorem consec_append (k : Nat) (a : List (Nd α)) (n : Nd α) (h : Consec k a)
    (hn : n.pi = k + a.length) : Consec k (a ++ [n]) := by
  induction a generalizing k with
  | nil => exact ⟨by simpa using hn, trivial⟩
  | cons m a ih =>
    exact ⟨h.1, ih (k + 1) h.2 (by rw [hn]; simp; omega)⟩

theorem pathIndexFrom_spec (data : List (List α)) (k : Nat) (q : List (Nd α)) (hc : Consec k q)
    (hl : ∀ n ∈ q, ∃ c, data[n.pi]? = some c ∧ c[n.si]? = some n.data) :
    pathIndexFrom data k (q.map fun n => (n.si : Int)) = .ok (q.map Nd.data) := by
  induction q generalizing k with
  | nil => rfl
  | cons n q ih =>
    obtain ⟨c, h1, h2⟩ := hl n (by simp)
    rw [hc.1] at h1
    have := ih (k + 1) hc.2 (fun m hm => hl m (List.mem_cons_of_mem _ hm))
    simp [pathIndexFrom, pyGet, pyGetInt, h1, h2, this, bind, Except.bind]

theorem walk_nodes {na : List (List (Nd α))} {ok : Nd α → Nd α → Bool} {cost : Nd α → Nd α → C}
    (hwf : WFna na) {v : Nd α} {c : C} {p : List (Nd α)}
    (h : Walk na ok cost 0 v c p) :
    Consec 0 p.reverse ∧ ∀ n ∈ p, ∃ col, na[n.pi]? = some col ∧ n ∈ col := by
  induction h with
  | start hc hv =>
    have := hwf.pi_of_mem hc hv
    refine ⟨⟨this, trivial⟩, ?_⟩
    intro n hn
    simp at hn
    subst hn
    exact ⟨_, by rw [this]; exact hc, hv⟩
  | @step u v c p col hw hc hv hok ih =>
    have hpi := hwf.pi_of_mem hc hv
    have hl := hw.pi_eq hwf
    refine ⟨?_, ?_⟩
    · rw [List.reverse_cons]
      exact consec_append _ _ _ ih.1 (by simp; omega)
    · intro n hn
      rcases List.mem_cons.1 hn with rfl | hn
      · exact ⟨col, by rw [hpi]; exact hc, hv⟩
      · exact ih.2 n hn

/-- An admissible path from column 0 to column `k`. -/
def Admissible (data : List (List α)) (cost : α → α → C) (lim : C) (k : Nat) (p : List α) : Prop :=
  IsSelection (data.take (k + 1)) p ∧ StepsBelow cost lim p

/-- No sum of finite costs overflows. -/
def NoOverflow (C : Type) [CostArith C] : Prop := ∀ a c : C, a < ⊤ → c < ⊤ → a + c < ⊤

theorem costFrom_lt_top (hno : NoOverflow C) (cost : α → α → C) (lim : C) (p : List α) (acc : C)
    (ha : acc < ⊤) (h : StepsBelow cost lim p) : costFrom cost acc p < ⊤ := by
  induction p generalizing acc with
  | nil => exact ha
  | cons x p ih =>
    cases p with
    | nil => exact ha
    | cons y p =>
      unfold StepsBelow at h ih
      rw [List.isChain_cons_cons] at h
      exact ih _ (hno _ _ ha (lt_of_lt_of_le h.1 le_top)) h.2

theorem getPath_spec (hno : NoOverflow C) {g : Graph α C} {cost : α → α → C} {lim : C}
    (hs : Searched g cost lim 0) (k : Nat) (hk : k < g.data.length) (fuel : Nat)
    (hfuel : g.data.length < fuel) (target : Option Nat)
    (ht : target = some k ∨ (target = none ∧ k + 1 = g.data.length)) :
    ((∀ p, ¬ Admissible g.data cost lim k p) ∧ g.getPath target fuel = .ok (g, [-1])) ∨
    (∃ is path c, g.getPath target fuel = .ok ({ g with latestTotalCost := c }, is) ∧
      is.length = k + 1 ∧ (∀ i ∈ is, 0 ≤ i) ∧ pathIndexToPath is g.data = .ok path ∧
      Admissible g.data cost lim k path ∧ costL cost path = c ∧
      ∀ p, Admissible g.data cost lim k p → c ≤ costL cost p) := by
  obtain ⟨hna, hfin⟩ := hs
  have hwf : WFna g.nodeArray := by rw [hna]; exact wf_nodeArray _
  have hdat : dataOf g.nodeArray = g.data := by rw [hna, dataOf_nodeArray]
  have hlen : g.nodeArray.length = g.data.length := by rw [hna, nodeArray_length]
  have hc : g.nodeArray[k]? = some g.nodeArray[k] := List.getElem?_eq_getElem (by omega)
  set col := g.nodeArray[k] with hcol
  have hcolmem : col ∈ g.nodeArray := List.getElem_mem _
  have htk : target.getD (g.data.length - 1) = k := by
    rcases ht with rfl | ⟨rfl, h⟩
    · rfl
    · simp; omega
  have hp : pyGet g.nodeArray k = .ok col := by simp [pyGet, hc]
  have hsw : ∀ p, Admissible g.data cost lim k p → ∃ v ∈ col, ∃ q,
      Walk g.nodeArray (okBelow cost lim) (fun u v => cost u.data v.data) 0 v (costL cost p) q := by
    intro p ⟨h1, h2⟩
    obtain ⟨v, q, hw, hv, _⟩ := selection_walk (R := fun x y => cost x y < lim)
      (ok := okBelow cost lim) (cost := fun u v => cost u.data v.data) (g := cost) hwf
      (fun u v h => by simpa [okBelow] using h) (fun _ _ => rfl) (k := k) (q := p) (by omega)
      (by rw [hdat]; exact h1) h2
    obtain ⟨col', hc', hv'⟩ := hw.mem_col hwf
    rw [hv, hc] at hc'
    cases hc'
    exact ⟨v, hv', q, hw⟩
  rcases closest_spec g.store col with ⟨hcl, hall⟩ | ⟨n, hn, hcl, hlt, hmin⟩
  · left
    refine ⟨?_, ?_⟩
    · intro p hadm
      obtain ⟨v, hv, q, hw⟩ := hsw p hadm
      have h1 := (hfin col hcolmem v hv).low _ _ hw
      rw [hall v hv] at h1
      have h2 : costL cost p < ⊤ := costFrom_lt_top hno cost lim p 0 zero_lt_top hadm.2
      exact absurd (lt_of_le_of_lt h1 h2) (lt_irrefl _)
    · unfold Graph.getPath
      simp only [htk, hp, bind, Except.bind, hcl]
  · right
    rcases (hfin col hcolmem n hn).att with ⟨h, _⟩ | ⟨_, p, hw, htr⟩
    · rw [h] at hlt; exact absurd hlt (lt_irrefl _)
    · have hnpi := hwf.pi_of_mem hc hn
      have hpl := hw.pi_eq hwf
      have htrace := trace_spec htr fuel (by omega)
      obtain ⟨hcons, hnodes⟩ := walk_nodes hwf hw
      obtain ⟨hsel, hch, hcst⟩ := walk_selection (R := fun x y => cost x y < lim) (g := cost) hwf
        (fun u v h => by simpa [okBelow] using h) (fun _ _ => rfl) hw
      rw [hdat, hnpi] at hsel
      have hlook : ∀ m ∈ p.reverse, ∃ c, g.data[m.pi]? = some c ∧ c[m.si]? = some m.data := by
        intro m hm
        obtain ⟨col', h1, h2⟩ := hnodes m (by simpa using hm)
        rw [hna] at h1
        exact node_lookup h1 h2
      refine ⟨(p.map fun n => (n.si : Int)).reverse, p.reverse.map Nd.data, (g.store.at n).dist,
        ?_, by simp; omega, ?_, ?_, ⟨hsel, hch⟩, hcst, ?_⟩
      · unfold Graph.getPath
        simp only [htk, hp, bind, Except.bind, hcl, htrace]
      · intro i hi
        simp only [List.mem_reverse, List.mem_map] at hi
        obtain ⟨a, _, rfl⟩ := hi
        exact Int.natCast_nonneg _
      · rw [← List.map_reverse]
        exact pathIndexFrom_spec g.data 0 p.reverse hcons hlook
      · intro q hq
        obtain ⟨v, hv, q', hw'⟩ := hsw q hq
        exact le_trans (hmin v hv) ((hfin col hcolmem v hv).low _ _ hw')

/-- Column `k` is marked as reached iff an admissible path leads there. -/
theorem reached_spec (hno : NoOverflow C) {g : Graph α C} {cost : α → α → C} {lim : C}
    (hs : Searched g cost lim 0) (k : Nat) (hk : k < g.data.length) :
    g.reached k = true ↔ ∃ p, Admissible g.data cost lim k p := by
  obtain ⟨hna, hfin⟩ := hs
  have hwf : WFna g.nodeArray := by rw [hna]; exact wf_nodeArray _
  have hdat : dataOf g.nodeArray = g.data := by rw [hna, dataOf_nodeArray]
  have hlen : g.nodeArray.length = g.data.length := by rw [hna, nodeArray_length]
  have hc : g.nodeArray[k]? = some g.nodeArray[k] := List.getElem?_eq_getElem (by omega)
  set col := g.nodeArray[k] with hcol
  have hcolmem : col ∈ g.nodeArray := List.getElem_mem _
  unfold Graph.reached
  rw [hc, Option.getD_some, List.any_eq_true]
  constructor
  · rintro ⟨n, hn, hpar⟩
    rcases (hfin col hcolmem n hn).att with ⟨_, h⟩ | ⟨_, p, hw, _⟩
    · rw [h] at hpar; cases hpar
    · obtain ⟨hsel, hch, _⟩ := walk_selection (R := fun x y => cost x y < lim) (g := cost) hwf
        (fun u v h => by simpa [okBelow] using h) (fun _ _ => rfl) hw
      rw [hdat, hwf.pi_of_mem hc hn] at hsel
      exact ⟨_, hsel, hch⟩
  · rintro ⟨p, h1, h2⟩
    obtain ⟨v, q, hw, hv, _⟩ := selection_walk (R := fun x y => cost x y < lim)
      (ok := okBelow cost lim) (cost := fun u v => cost u.data v.data) (g := cost) hwf
      (fun u v h => by simpa [okBelow] using h) (fun _ _ => rfl) (k := k) (q := p) (by omega)
      (by rw [hdat]; exact h1) h2
    obtain ⟨col', hc', hv'⟩ := hw.mem_col hwf
    rw [hv, hc] at hc'
    cases hc'
    refine ⟨v, hv', ?_⟩
    rcases (hfin col hcolmem v hv').att with ⟨htop, _⟩ | ⟨_, q', _, htr⟩
    · have h3 := (hfin col hcolmem v hv').low _ _ hw
      rw [htop] at h3
      have h4 : costL cost p < ⊤ := costFrom_lt_top hno cost lim p 0 zero_lt_top h2
      exact absurd (lt_of_le_of_lt h3 h4) (lt_irrefl _)
    · cases htr with
      | start h => rw [h]
      | step h _ => rw [h]

theorem findLoop_spec (g : Graph α C) (n : Nat) :
    (g.findLoop n = none ∧ ∀ j, 1 ≤ j → j ≤ n → g.reached j = false) ∨
    ∃ i, g.findLoop n = some i ∧ 1 ≤ i ∧ i ≤ n ∧ g.reached i = true ∧
      ∀ j, i < j → j ≤ n → g.reached j = false := by
  induction n with
  | zero => left; exact ⟨rfl, by intros; omega⟩
  | succ n ih =>
    by_cases h : g.reached (n + 1) = true
    · right
      exact ⟨n + 1, by simp [Graph.findLoop, h], by omega, le_rfl, h, by intros; omega⟩
    · have h' : g.reached (n + 1) = false := by simpa using h
      have e : g.findLoop (n + 1) = g.findLoop n := by simp [Graph.findLoop, h']
      rw [e]
      rcases ih with ⟨h1, h2⟩ | ⟨i, h1, h2, h3, h4, h5⟩
      · left
        refine ⟨h1, ?_⟩
        intro j hj hj'
        by_cases hjn : j = n + 1
        · rw [hjn]; exact h'
        · exact h2 j hj (by omega)
      · right
        refine ⟨i, h1, h2, by omega, h4, ?_⟩
        intro j hj hj'
        by_cases hjn : j = n + 1
        · rw [hjn]; exact h'
        · exact h5 j hj (by omega)

/-! ## The three outcomes of `get_shortest_partial_path` -/

theorem searchFuel_ge (data : List (List α)) :
    (data.map List.length).sum ≤ searchFuel data ∧ data.length < searchFuel data := by
  unfold searchFuel; constructor <;> omega

theorem pyGet_zero_of_nonneg {is : List Int} (h : is ≠ []) (hn : ∀ i ∈ is, 0 ≤ i) :
    ∃ i, pyGet is 0 = .ok i ∧ i ≠ -1 := by
  cases is with
  | nil => exact absurd rfl h
  | cons i is =>
    refine ⟨i, rfl, ?_⟩
    have := hn i (by simp)
    omega

theorem partial_spec (hno : NoOverflow C) (cost : α → α → C) (data : List (List α)) (lim : C)
    (hd : data ≠ []) :
    -- a complete admissible path exists and the best one is returned
    (∃ path c, getShortestPartialPath cost data lim =
        .ok { success := true, path := some path, totalCost := some c } ∧
      Admissible data cost lim (data.length - 1) path ∧ costL cost path = c ∧
      ∀ p, Admissible data cost lim (data.length - 1) p → c ≤ costL cost p) ∨
    -- stuck: no admissible path to any column after the first
    (getShortestPartialPath cost data lim = .ok { success := false, stuck := true } ∧
      (∀ p, ¬ Admissible data cost lim (data.length - 1) p) ∧
      ∀ k, 1 ≤ k → k < data.length → ∀ p, ¬ Admissible data cost lim k p) ∨
    -- a path to the furthest reachable column
    (∃ (i : Nat) (path : List α) (c : C), getShortestPartialPath cost data lim =
        .ok { success := false, path := some path, totalCost := some c, i := some (i : Int) } ∧
      1 ≤ i ∧ i + 1 < data.length ∧ Admissible data cost lim i path ∧ costL cost path = c ∧
      (∀ p, Admissible data cost lim i p → c ≤ costL cost p) ∧
      ∀ k, i < k → k < data.length → ∀ p, ¬ Admissible data cost lim k p) := by
  have hl : 0 < data.length := List.length_pos_iff.2 hd
  obtain ⟨hf1, hf2⟩ := searchFuel_ge data
  obtain ⟨s, hrun, hsearched⟩ := runBfs_ok (C := C) (Graph.new data) rfl cost lim 0 hl
    (searchFuel data) hf1
  set g : Graph α C := { (Graph.new data).reset with store := s } with hg
  have hgd : g.data = data := rfl
  rcases getPath_spec hno hsearched (data.length - 1) (by rw [hgd]; omega) (searchFuel data)
      (by rw [hgd]; exact hf2) none (Or.inr ⟨rfl, by rw [hgd]; omega⟩) with
    ⟨hnone, hget⟩ | ⟨is, path, c, hget, hisl, hisn, hpath, hadm, hcost, hopt⟩
  · right
    have hp0 : pyGet [(-1 : Int)] 0 = .ok (-1) := rfl
    rcases findLoop_spec g (g.data.length - 1) with ⟨hfind, hall⟩ | ⟨i, hfind, h1, h2, hri, hall⟩
    · left
      refine ⟨?_, hnone, ?_⟩
      · have : g.findPartialPath = -1 := by simp [Graph.findPartialPath, hfind]
        simp only [getShortestPartialPath, hrun, bind, Except.bind, hget, hp0, if_true, this]
      · intro k hk1 hk2 p hp
        have := (reached_spec hno hsearched k (by rw [hgd]; exact hk2)).2 ⟨p, hp⟩
        rw [hall k hk1 (by rw [hgd]; omega)] at this
        cases this
    · right
      rw [hgd] at h2
      have hex := (reached_spec hno hsearched i (by rw [hgd]; omega)).1 hri
      have hilt : i + 1 < data.length := by
        by_contra hcon
        have : i = data.length - 1 := by omega
        obtain ⟨p, hp⟩ := hex
        exact hnone p (this ▸ hp)
      rcases getPath_spec hno hsearched i (by rw [hgd]; omega) (searchFuel data)
          (by rw [hgd]; exact hf2) (some i) (Or.inl rfl) with
        ⟨hnone', _⟩ | ⟨is, path, c, hget', hisl, hisn, hpath, hadm, hcost, hopt⟩
      · obtain ⟨p, hp⟩ := hex
        exact absurd hp (hnone' p)
      · refine ⟨i, path, c, ?_, h1, hilt, hadm, hcost, hopt, ?_⟩
        · have hfp : g.findPartialPath = (i : Int) := by simp [Graph.findPartialPath, hfind]
          have hne : ¬ ((i : Int) = -1) := by omega
          have hto : (i : Int).toNat = i := by simp
          rw [hgd] at hpath
          simp only [getShortestPartialPath, hrun, bind, Except.bind, hget, hp0, if_true, hfp,
            if_neg hne, hto, hget', hpath]
        · intro k hk1 hk2 p hp
          have := (reached_spec hno hsearched k (by rw [hgd]; exact hk2)).2 ⟨p, hp⟩
          rw [hall k hk1 (by rw [hgd]; omega)] at this
          cases this
  · left
    refine ⟨path, c, ?_, hadm, hcost, hopt⟩
    obtain ⟨i0, hi0, hi0ne⟩ := pyGet_zero_of_nonneg (is := is)
      (by intro h; rw [h] at hisl; simp at hisl) hisn
    rw [hgd] at hpath
    simp only [getShortestPartialPath, hrun, bind, Except.bind, hget, hi0, if_neg hi0ne, hpath]

theorem full_spec (hno : NoOverflow C) (cost : α → α → C) (data : List (List α))
    (hd : data ≠ []) :
    (∃ path c, getShortestPath cost data =
        .ok { success := true, path := some path, totalCost := some c, singlePath := some true } ∧
      Admissible data cost ⊤ (data.length - 1) path ∧ costL cost path = c ∧
      ∀ p, Admissible data cost ⊤ (data.length - 1) p → c ≤ costL cost p) ∨
    (getShortestPath cost data = .ok { success := false } ∧
      ∀ p, ¬ Admissible data cost ⊤ (data.length - 1) p) := by
  have hl : 0 < data.length := List.length_pos_iff.2 hd
  obtain ⟨hf1, hf2⟩ := searchFuel_ge data
  obtain ⟨s, hrun, hsearched⟩ := runBfs_ok (C := C) (Graph.new data) rfl cost ⊤ 0 hl
    (searchFuel data) hf1
  set g : Graph α C := { (Graph.new data).reset with store := s } with hg
  have hgd : g.data = data := rfl
  rcases getPath_spec hno hsearched (data.length - 1) (by rw [hgd]; omega) (searchFuel data)
      (by rw [hgd]; exact hf2) none (Or.inr ⟨rfl, by rw [hgd]; omega⟩) with
    ⟨hnone, hget⟩ | ⟨is, path, c, hget, hisl, hisn, hpath, hadm, hcost, hopt⟩
  · right
    have hp0 : pyGet [(-1 : Int)] 0 = .ok (-1) := rfl
    refine ⟨?_, hnone⟩
    simp only [getShortestPath, hrun, bind, Except.bind, hget, hp0, if_true]
  · left
    refine ⟨path, c, ?_, hadm, hcost, hopt⟩
    obtain ⟨i0, hi0, hi0ne⟩ := pyGet_zero_of_nonneg (is := is)
      (by intro h; rw [h] at hisl; simp at hisl) hisn
    rw [hgd] at hpath
    simp only [getShortestPath, hrun, bind, Except.bind, hget, hi0, if_neg hi0ne, hpath]

/-! ## Histories -/

/-- Nodes that do not exist are never written. -/
def OutFresh (na : List (List (Nd α))) (s : Store C α) : Prop :=
  ∀ i j, (i, j) ∉ na.flatten.map Nd.key → s i j = freshSt

theorem OutFresh.upd {na : List (List (Nd α))} {s : Store C α} (h : OutFresh na s) {n : Nd α}
    (hn : n ∈ na.flatten) (v : St C α) : OutFresh na (s.upd n v) := by
  intro i j hij
  rw [upd_other]
  · exact h i j hij
  · intro he
    exact hij (he ▸ List.mem_map_of_mem hn)

theorem OutFresh.foldl_relax {na : List (List (Nd α))} {cost : Nd α → Nd α → C}
    {cur : Nd α} (N : List (Nd α)) (hN : ∀ n ∈ N, n ∈ na.flatten)
    (s : Store C α × List (Nd α)) (h : OutFresh na s.1) :
    OutFresh na (N.foldl (relax cost fifoPush cur) s).1 := by
  induction N generalizing s with
  | nil => exact h
  | cons m N ih =>
    rw [List.foldl_cons]
    apply ih (fun n hn => hN n (List.mem_cons_of_mem _ hn))
    intro i j hij
    rw [relax_other]
    · exact h i j hij
    · intro he
      exact hij (he ▸ List.mem_map_of_mem (hN m (by simp)))

theorem OutFresh.bfsLoop {na : List (List (Nd α))} {cost : Nd α → Nd α → C}
    {nbs : Nd α → List (Nd α)} (hnbs : ∀ u, ∀ n ∈ nbs u, n ∈ na.flatten) (fuel : Nat)
    (s : Store C α × List (Nd α)) (h : OutFresh na s.1) (s' : Store C α)
    (hr : Search.bfsLoop cost nbs fuel s = some s') : OutFresh na s' := by
  induction fuel generalizing s with
  | zero =>
    obtain ⟨s, q⟩ := s
    cases q with
    | nil => simp [Search.bfsLoop] at hr; exact hr ▸ h
    | cons _ _ => simp [Search.bfsLoop] at hr
  | succ fuel ih =>
    obtain ⟨s, q⟩ := s
    cases q with
    | nil => simp [Search.bfsLoop] at hr; exact hr ▸ h
    | cons u q =>
      simp only [Search.bfsLoop] at hr
      exact ih _ (OutFresh.foldl_relax (cost := cost) (cur := u) (nbs u) (hnbs u) (s, q) h) hr

theorem OutFresh.startCol {na : List (List (Nd α))} (col : List (Nd α))
    (hcol : ∀ n ∈ col, n ∈ na.flatten) (s : Store C α × List (Nd α)) (h : OutFresh na s.1) :
    OutFresh na (Search.startCol fifoPush col s).1 := by
  induction col generalizing s with
  | nil => exact h
  | cons m col ih =>
    unfold Search.startCol at ih ⊢
    rw [List.foldl_cons]
    exact ih (fun n hn => hcol n (List.mem_cons_of_mem _ hn)) _ (h.upd (hcol m (by simp)) _)

theorem outFresh_reset {g : Graph α C} (h : OutFresh g.nodeArray g.store) :
    g.reset.store = fun _ _ => freshSt := by
  funext i j
  show (g.nodeArray.flatten.foldl (fun s n => s.upd n freshSt) g.store) i j = _
  rw [foldl_upd_same]
  split
  · rfl
  · exact h i j ‹_›

/-- Graph objects that arise from `Graph(data)` by any sequence of public calls. -/
inductive Reachable (data : List (List α)) : Graph α C → Prop
  | new : Reachable data (Graph.new data)
  | reset {g : Graph α C} : Reachable data g → Reachable data g.reset
  | run {g g' : Graph α C} (cost : α → α → C) (lim : C) (start fuel : Nat) : Reachable data g →
      g.runBfs cost lim start fuel = .ok g' → Reachable data g'
  | getPath {g g' : Graph α C} (target : Option Nat) (fuel : Nat) (is : List Int) :
      Reachable data g → g.getPath target fuel = .ok (g', is) → Reachable data g'

theorem reachable_inv {data : List (List α)} {g : Graph α C} (h : Reachable data g) :
    g.data = data ∧ g.nodeArray = dataToNodeArray data ∧ OutFresh g.nodeArray g.store := by
  induction h with
  | new => exact ⟨rfl, rfl, fun _ _ _ => rfl⟩
  | reset _ ih =>
    refine ⟨ih.1, ih.2.1, ?_⟩
    rw [outFresh_reset ih.2.2]
    exact fun _ _ _ => rfl
  | @run g g' cost lim start fuel _ hr ih =>
    unfold Graph.runBfs at hr
    simp only [bind, Except.bind] at hr
    rcases hp : pyGet g.reset.nodeArray start with e | col
    · rw [hp] at hr; cases hr
    · rw [hp] at hr
      simp only at hr
      split at hr
      · rename_i s hs
        cases hr
        refine ⟨ih.1, ih.2.1, ?_⟩
        refine OutFresh.bfsLoop ?_ fuel _ ?_ s hs
        · intro u n hn
          unfold Graph.getReachableNeighbours Graph.getNeighbours at hn
          have hn := (List.mem_filter.1 hn).1
          split at hn
          · cases hn
          · rcases hc : g.reset.nodeArray[u.pi + 1]? with _ | c
            · rw [hc] at hn; cases hn
            · rw [hc] at hn
              exact List.mem_flatten.2 ⟨c, List.mem_of_getElem? hc, hn⟩
        · apply OutFresh.startCol
          · intro n hn
            unfold pyGet at hp
            split at hp
            · rename_i c hc
              cases hp
              exact List.mem_flatten.2 ⟨col, List.mem_of_getElem? hc, hn⟩
            · cases hp
          · intro i j _
            show g.reset.store i j = _
            rw [outFresh_reset ih.2.2]
      · cases hr
  | @getPath g g' target fuel is _ hr ih =>
    have : g'.data = g.data ∧ g'.nodeArray = g.nodeArray ∧ g'.store = g.store := by
      unfold Graph.getPath at hr
      simp only [bind, Except.bind] at hr
      split at hr
      · cases hr
      · split at hr
        · cases hr; exact ⟨rfl, rfl, rfl⟩
        · split at hr
          · cases hr
          · cases hr; exact ⟨rfl, rfl, rfl⟩
    rw [this.1, this.2.1, this.2.2]
    exact ih

/-- `reset` gives back the fresh graph. -/
theorem reachable_reset {data : List (List α)} {g : Graph α C} (h : Reachable data g) :
    g.reset = Graph.new data := by
  obtain ⟨h1, h2, h3⟩ := reachable_inv h
  have := outFresh_reset h3
  unfold Graph.reset at this ⊢
  simp only at this
  rw [this]
  simp [Graph.new, h1, h2]

end Verif.PyGraph
