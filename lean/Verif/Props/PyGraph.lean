import Verif.Proofs.PyGraph

/-!
# C04 – C09: `acrobotics/pygraph.py`

Costs live in any `CostArith` type.  `NoOverflow` says that finite costs never add up to infinity.
The cost of a path is the sum in the order the program adds, `costL`.
-/

set_option linter.unusedSectionVars false

namespace Verif.Props

open Verif.Search Verif.Spec Verif.PyGraph

variable {α C : Type} [CostArith C]

theorem admissible_full {data : List (List α)} (hd : data ≠ []) (cost : α → α → C) (lim : C)
    (p : List α) : Admissible data cost lim (data.length - 1) p ↔
      IsSelection data p ∧ StepsBelow cost lim p := by
  have hl : 0 < data.length := List.length_pos_iff.2 hd
  unfold Admissible
  rw [show data.length - 1 + 1 = data.length by omega, List.take_length]

/-- C04. If no step costs infinity, `get_shortest_path` returns normally for every non-empty list
of columns; it reports success exactly when every column is non-empty, and then returns one sample
per column, the cost of exactly this path, and no other choice of samples is cheaper; the result is
then marked as a single path. -/
theorem C04_pygraph_optimal (hno : NoOverflow C) (cost : α → α → C)
    (hcost : ∀ x y, cost x y < ⊤) (data : List (List α)) (hd : data ≠ []) :
    ∃ res, getShortestPath cost data = .ok res ∧
      (res.success = true ↔ ∀ col ∈ data, col ≠ []) ∧
      (res.success = true → ∃ path c, res.path = some path ∧ res.totalCost = some c ∧
        res.singlePath = some true ∧ IsSelection data path ∧ costL cost path = c ∧
        ∀ p, IsSelection data p → c ≤ costL cost p) := by
  have hsteps : ∀ p : List α, StepsBelow cost ⊤ p := by
    intro p
    unfold StepsBelow
    induction p with
    | nil => simp
    | cons x p ih =>
      cases p with
      | nil => simp
      | cons y p => rw [List.isChain_cons_cons]; exact ⟨hcost x y, ih⟩
  rcases full_spec hno cost data hd with ⟨path, c, h1, h2, h3, h4⟩ | ⟨h1, h2⟩
  · rw [admissible_full hd] at h2
    refine ⟨_, h1, ⟨fun _ => selection_nonempty h2.1, fun _ => rfl⟩, fun _ =>
      ⟨path, c, rfl, rfl, rfl, h2.1, h3, ?_⟩⟩
    intro p hp
    exact h4 p ((admissible_full hd cost ⊤ p).2 ⟨hp, hsteps p⟩)
  · refine ⟨_, h1, ⟨by simp, ?_⟩, by simp⟩
    intro hne
    obtain ⟨p, hp⟩ := exists_selection hne
    exact absurd ((admissible_full hd cost ⊤ p).2 ⟨hp, hsteps p⟩) (h2 p)

/-- The empty list of columns raises IndexError. -/
theorem C04_pygraph_no_columns (cost : α → α → C) :
    getShortestPath cost ([] : List (List α)) = .error .indexError := rfl

/-- C05. `get_shortest_partial_path` reports success exactly when some choice of one sample per
column keeps every step below the limit; the returned path then does so, its cost is the reported
one, and no other such path is cheaper. -/
theorem C05_pygraph_step_limit (hno : NoOverflow C) (cost : α → α → C) (lim : C)
    (data : List (List α)) (hd : data ≠ []) :
    ∃ res, getShortestPartialPath cost data lim = .ok res ∧
      (res.success = true ↔ ∃ p, IsSelection data p ∧ StepsBelow cost lim p) ∧
      (res.success = true → ∃ path c, res.path = some path ∧ res.totalCost = some c ∧
        IsSelection data path ∧ StepsBelow cost lim path ∧ costL cost path = c ∧
        ∀ p, IsSelection data p → StepsBelow cost lim p → c ≤ costL cost p) := by
  rcases partial_spec hno cost data lim hd with ⟨path, c, h1, h2, h3, h4⟩ | ⟨h1, h2, _⟩ |
    ⟨i, path, c, h1, hi1, hi2, _, _, _, h5⟩
  · rw [admissible_full hd] at h2
    refine ⟨_, h1, ⟨fun _ => ⟨path, h2⟩, fun _ => rfl⟩, fun _ =>
      ⟨path, c, rfl, rfl, h2.1, h2.2, h3, ?_⟩⟩
    intro p hp hp'
    exact h4 p ((admissible_full hd cost lim p).2 ⟨hp, hp'⟩)
  · refine ⟨_, h1, ⟨by simp, ?_⟩, by simp⟩
    rintro ⟨p, hp⟩
    exact absurd ((admissible_full hd cost lim p).2 hp) (h2 p)
  · refine ⟨_, h1, ⟨by simp, ?_⟩, by simp⟩
    rintro ⟨p, hp⟩
    exact absurd ((admissible_full hd cost lim p).2 hp)
      (h5 (data.length - 1) (by omega) (by omega) p)

/-- C06. When `get_shortest_partial_path` fails, either it reports "Stuck after first trajectory
point", and then no admissible path reaches column 1 (nor any later one); or it returns a split
index `i ≥ 1`: column `i` is reached by an admissible path, no later column is, and the returned
path is a cheapest admissible path through columns `0 … i` with the reported cost. -/
theorem C06_pygraph_furthest (hno : NoOverflow C) (cost : α → α → C) (lim : C)
    (data : List (List α)) (hd : data ≠ []) (res : Res α C)
    (hres : getShortestPartialPath cost data lim = .ok res) (hfail : res.success = false) :
    (res.stuck = true ∧ res.path = none ∧ res.i = none ∧
      ∀ k, 1 ≤ k → k < data.length →
        ¬ ∃ p, IsSelection (data.take (k + 1)) p ∧ StepsBelow cost lim p) ∨
    (res.stuck = false ∧ ∃ (i : Nat) (path : List α) (c : C),
      res.i = some (i : Int) ∧ res.path = some path ∧ res.totalCost = some c ∧
      1 ≤ i ∧ i + 1 < data.length ∧
      (∀ k, i < k → k < data.length →
        ¬ ∃ p, IsSelection (data.take (k + 1)) p ∧ StepsBelow cost lim p) ∧
      IsSelection (data.take (i + 1)) path ∧ StepsBelow cost lim path ∧ costL cost path = c ∧
      ∀ p, IsSelection (data.take (i + 1)) p → StepsBelow cost lim p → c ≤ costL cost p) := by
  rcases partial_spec hno cost data lim hd with ⟨path, c, h1, _⟩ | ⟨h1, _, h3⟩ |
    ⟨i, path, c, h1, hi1, hi2, h2, h3, h4, h5⟩
  · rw [hres] at h1; cases h1; simp at hfail
  · left
    rw [hres] at h1; cases h1
    refine ⟨rfl, rfl, rfl, ?_⟩
    rintro k hk1 hk2 ⟨p, hp⟩
    exact h3 k hk1 hk2 p hp
  · right
    rw [hres] at h1; cases h1
    refine ⟨rfl, i, path, c, rfl, rfl, rfl, hi1, hi2, ?_, h2.1, h2.2, h3, fun p hp hp' =>
      h4 p ⟨hp, hp'⟩⟩
    rintro k hk1 hk2 ⟨p, hp⟩
    exact h5 k hk1 hk2 p hp

/-- C07, termination. On every graph object that can arise from `Graph(data)` by public calls, the
search returns after at most as many loop iterations as there are samples (so every node is
expanded at most once), for every cost function, limit and existing start column. -/
theorem C07_pygraph_terminates (data : List (List α)) (g : Graph α C) (hg : Reachable data g)
    (cost : α → α → C) (lim : C) (start : Nat) (hs : start < data.length) (fuel : Nat)
    (hfuel : (data.map List.length).sum ≤ fuel) :
    ∃ g', g.runBfs cost lim start fuel = .ok g' := by
  obtain ⟨h1, h2, _⟩ := reachable_inv hg
  obtain ⟨s, h, _⟩ := runBfs_ok g (by rw [h1]; exact h2) cost lim start (by rw [h1]; exact hs) fuel
    (by rw [h1]; exact hfuel)
  exact ⟨_, h⟩

/-- C07, re-running. After any history of searches (with any limits and start columns), resets and
path queries, a search leaves the graph in exactly the state a fresh graph would be in. -/
theorem C07_pygraph_rerun_fresh (data : List (List α)) (g : Graph α C) (hg : Reachable data g)
    (cost : α → α → C) (lim : C) (start fuel : Nat) :
    g.runBfs cost lim start fuel = (Graph.new data : Graph α C).runBfs cost lim start fuel := by
  have h1 := reachable_reset hg
  have h2 := reachable_reset (Reachable.new (C := C) (data := data))
  unfold Graph.runBfs
  rw [h1, h2]

/-! ## Segments -/

/-- All segments of a result, in order. -/
def segments (r : Res α C) : List (List α) :=
  r.path.toList ++ (r.extraSegments.getD []).map Prod.fst

/-- A loop state reached after some rounds: every segment found so far has admissible steps, and
the first one or two segments tile the columns. -/
structure SegInv (cost : α → α → C) (lim : C) (data : List (List α)) (st : SegSt α C) : Prop where
  steps : ∀ p ∈ st.paths, StepsBelow cost lim p
  len : st.costs.length = st.paths.length
  fin : st.finished = true → st.paths ≠ []
  zero : st.paths.length = 0 → st.finished = false ∧ st.currentStart = 0 ∧ st.currentData = data
  one : ∀ p, st.paths = [p] →
    (st.finished = true ∧ IsSelection data p) ∨
    (st.finished = false ∧ IsSelection (data.take st.currentStart) p ∧
      st.currentData = data.drop st.currentStart ∧ st.currentStart < data.length)
  two : ∀ p q, st.paths = [p, q] → st.finished = true → IsSelection data (p ++ q)

theorem segLoop_inv (hno : NoOverflow C) (cost : α → α → C) (lim : C) (data : List (List α))
    (fuel : Nat) (st st' : SegSt α C)
    (hne : (st.currentStart : Int) < (data.length : Int) - 2 → st.currentData ≠ [])
    (hinv : SegInv cost lim data st)
    (h : segLoop cost lim data fuel st = .ok (.inl st')) : SegInv cost lim data st' := by
  induction fuel generalizing st with
  | zero =>
    unfold segLoop at h
    split at h
    · simp at h
    · cases h; exact hinv
  | succ fuel ih =>
    unfold segLoop at h
    split at h
    · rename_i hcond
      have hcd := hne hcond.2
      rcases partial_spec hno cost st.currentData lim hcd with ⟨path, c, h1, h2, h3, h4⟩ |
        ⟨h1, _, _⟩ | ⟨i, path, c, h1, hi1, hi2, h2, h3, h4, h5⟩
      · simp only [h1, bind, Except.bind, key, if_true] at h
        rw [admissible_full hcd] at h2
        refine ih _ ?_ ?_ h
        · intro _; exact hcd
        · refine ⟨?_, by simp [hinv.len], by simp, by simp, ?_, ?_⟩
          · intro p hp
            rcases List.mem_append.1 hp with hp | hp
            · exact hinv.steps p hp
            · simp at hp; subst hp; exact h2.2
          · intro p hp
            have hl : st.paths.length = 0 := by
              have := congrArg List.length hp; simp at this; simp [this]
            have hnil : st.paths = [] := by simpa using hl
            obtain ⟨_, _, hz⟩ := hinv.zero hl
            simp only [hnil, List.nil_append, List.cons.injEq, and_true] at hp
            subst hp
            left
            exact ⟨rfl, by rw [← hz]; exact h2.1⟩
          · intro p q hpq _
            obtain ⟨p', hp'⟩ : ∃ p', st.paths = [p'] := by
              rcases hps : st.paths with _ | ⟨a, _ | ⟨b, l⟩⟩
              · rw [hps] at hpq; simp at hpq
              · exact ⟨a, rfl⟩
              · rw [hps] at hpq; simp at hpq
            simp only [hp', List.cons_append, List.nil_append, List.cons.injEq, and_true] at hpq
            obtain ⟨rfl, rfl⟩ := hpq
            rcases hinv.one _ hp' with ⟨hf, _⟩ | ⟨_, hsel, hdat, _⟩
            · rw [hcond.1] at hf; cases hf
            · rw [hdat] at h2
              have := isSelection_append hsel h2.1
              rwa [List.take_append_drop] at this
      · simp only [h1, bind, Except.bind] at h
        simp at h
      · simp only [h1, bind, Except.bind, key] at h
        have hto : ((i : Int) + 1).toNat = i + 1 := by omega
        simp only [hto] at h
        refine ih _ ?_ ?_ h
        · intro hlt
          simp only at hlt ⊢
          intro hnil
          rw [List.drop_eq_nil_iff] at hnil
          omega
        · refine ⟨?_, by simp [hinv.len], ?_, by simp, ?_, ?_⟩
          · intro p hp
            rcases List.mem_append.1 hp with hp | hp
            · exact hinv.steps p hp
            · simp at hp; subst hp; exact h2.2
          · intro hf; simp
          · intro p hp
            have hl : st.paths.length = 0 := by
              have := congrArg List.length hp; simp at this; simp [this]
            have hnil : st.paths = [] := by simpa using hl
            obtain ⟨hzf, _, hz⟩ := hinv.zero hl
            simp only [hnil, List.nil_append, List.cons.injEq, and_true] at hp
            subst hp
            right
            refine ⟨hcond.1, ?_, rfl, ?_⟩
            · show IsSelection (data.take (i + 1)) path
              rw [← hz]; exact h2.1
            · show i + 1 < data.length
              rw [hz] at hi2; exact hi2
          · intro p q _ hf
            simp only at hf
            rw [hcond.1] at hf
            cases hf
    · cases h; exact hinv

theorem segInv_start (cost : α → α → C) (lim : C) (data : List (List α)) :
    SegInv cost lim data ⟨data, 0, false, [], [], []⟩ := by
  refine ⟨by simp, rfl, by simp, by simp, by simp, by simp⟩

/-- C08, the part that holds.  Whenever `get_shortest_path_segments` reports success, every step
inside every segment costs less than the limit; and if there are at most two segments, their
concatenation is one sample for every column, in column order.  Missing: with three or more
segments the concatenation can be wrong, see `C08_segments_tile_refuted`. -/
theorem C08_segments_tile_partial (hno : NoOverflow C) (cost : α → α → C) (lim : C)
    (data : List (List α)) (fuel : Nat) (res : Res α C)
    (hres : getShortestPathSegments cost data lim fuel = .ok res) (hs : res.success = true) :
    (∀ p ∈ segments res, StepsBelow cost lim p) ∧
    ((segments res).length ≤ 2 → IsSelection data (segments res).flatten) := by
  unfold getShortestPathSegments at hres
  simp only [bind, Except.bind] at hres
  split at hres
  · cases hres
  · rename_i v hv
    cases v with
    | inr r =>
      -- early return: never a success
      exfalso
      simp only at hres
      cases hres
      have : ∀ (fuel : Nat) (st : SegSt α C),
          segLoop cost lim data fuel st = .ok (.inr res) →
          ((st.currentStart : Int) < (data.length : Int) - 2 → st.currentData ≠ []) → False := by
        intro fuel
        induction fuel with
        | zero => intro st h _; unfold segLoop at h; split at h <;> simp at h
        | succ fuel ih =>
          intro st h hne
          unfold segLoop at h
          split at h
          · rename_i hcond
            have hcd := hne hcond.2
            rcases partial_spec hno cost st.currentData lim hcd with ⟨path, c, h1, h2, h3, h4⟩ |
              ⟨h1, _, _⟩ | ⟨i, path, c, h1, hi1, hi2, h2, h3, h4, h5⟩
            · simp only [h1, bind, Except.bind, key, if_true] at h
              exact ih _ h (fun _ => hcd)
            · simp only [h1, bind, Except.bind] at h
              simp at h
              rw [← h] at hs
              simp at hs
            · simp only [h1, bind, Except.bind, key] at h
              simp only [Bool.false_eq_true, if_false] at h
              refine ih _ h ?_
              have hto : ((i : Int) + 1).toNat = i + 1 := by omega
              simp only [hto]
              intro hlt hnil
              rw [List.drop_eq_nil_iff] at hnil
              omega
          · simp at h
      refine this fuel _ hv ?_
      intro hlt hnil
      simp only at hlt hnil
      rw [hnil] at hlt
      simp at hlt
    | inl st =>
      have hinv := segLoop_inv hno cost lim data fuel _ st (by
        intro hlt hnil
        simp only at hlt hnil
        rw [hnil] at hlt
        simp at hlt) (segInv_start cost lim data) hv
      simp only at hres
      rcases hp : st.paths with _ | ⟨p, ps⟩
      · simp [hp, pyGet] at hres
      · rcases hc : st.costs with _ | ⟨c, cs⟩
        · have := hinv.len; rw [hp, hc] at this; simp at this
        · simp only [hp, hc, pyGet, List.getElem?_cons_zero] at hres
          have hlen : cs.length = ps.length := by
            have := hinv.len; rw [hp, hc] at this; simpa using this
          split at hres
          · rename_i hfin
            split at hres
            · rename_i hone
              have hps : ps = [] := by simpa using hone
              subst hps
              have hseg : segments res = [p] := by rw [← Except.ok.inj hres]; rfl
              rw [hseg]
              refine ⟨?_, ?_⟩
              · intro q hq
                simp at hq
                subst hq
                exact hinv.steps _ (by rw [hp]; simp)
              · intro _
                rcases hinv.one p hp with ⟨_, h⟩ | ⟨h, _⟩
                · simpa using h
                · rw [hfin] at h; cases h
            · rename_i hone
              have hseg : segments res = p :: ps := by
                rw [← Except.ok.inj hres]
                show [p] ++ ((ps.zip cs)).map Prod.fst = _
                rw [List.map_fst_zip (by omega)]
                rfl
              rw [hseg]
              refine ⟨?_, ?_⟩
              · intro q hq
                exact hinv.steps _ (by rw [hp]; exact hq)
              · intro hl
                rcases ps with _ | ⟨q, _ | ⟨r, ps⟩⟩
                · simp at hone
                · simpa using hinv.two p q hp hfin
                · simp at hl
          · rw [← Except.ok.inj hres] at hs; simp at hs

/-! ### Witnesses -/

/-- Distance of naturals as a cost. -/
def natCost (x y : Nat) : WithTop Nat := ((x - y + (y - x) : Nat) : WithTop Nat)

theorem noOverflow_nat : NoOverflow (WithTop Nat) := by
  intro a c ha hc
  exact WithTop.add_lt_top.2 ⟨ha, hc⟩

theorem of_toOption_map {ε β γ : Type} {e : Except ε β} {f : β → γ} {c : γ}
    (h : e.toOption.map f = some c) : ∃ b, e = .ok b ∧ f b = c := by
  cases e with
  | error _ => simp [Except.toOption] at h
  | ok b => exact ⟨b, rfl, by simpa [Except.toOption] using h⟩

/-- Three segments; the third one starts too early (at column 3 instead of column 5). -/
def badSegments : List (List Nat) :=
  [[0], [0], [100], [100, 200], [100, 200], [200], [200]]

/-- C08 is false: with limit 5 the search on `badSegments` reports success with segments
`[0,0]`, `[100,100,100]`, `[200,200,200,200]`, nine samples for seven columns. -/
theorem C08_segments_tile_refuted :
    ∃ res, getShortestPathSegments natCost badSegments 5 10 = .ok res ∧ res.success = true ∧
      segments res = [[0, 0], [100, 100, 100], [200, 200, 200, 200]] ∧
      ¬ IsSelection badSegments (segments res).flatten := by
  have h : (getShortestPathSegments natCost badSegments 5 10).toOption.map
      (fun r => (r.success, segments r)) =
      some (true, [[0, 0], [100, 100, 100], [200, 200, 200, 200]]) := by decide +kernel
  obtain ⟨res, h1, h2⟩ := of_toOption_map h
  obtain ⟨h2, h3⟩ := Prod.mk.inj h2
  refine ⟨res, h1, h2, h3, ?_⟩
  intro hsel
  have := isSelection_length hsel
  rw [h3] at this
  simp [badSegments] at this

/-- Column `i` is the last one an admissible path from column 0 can reach. -/
def Furthest (cost : α → α → C) (lim : C) (data : List (List α)) (i : Nat) : Prop :=
  (∃ p, IsSelection (data.take (i + 1)) p ∧ StepsBelow cost lim p) ∧
  ∀ k, i < k → k < data.length →
    ¬ ∃ p, IsSelection (data.take (k + 1)) p ∧ StepsBelow cost lim p

/-- C09, the part that holds.  With at least three columns, if the first search gets to the end or
gets stuck at once, or breaks at a column `i` such that at most two columns are left or the rest
`data[i+1:]` can be traversed in one go, the function returns after at most two rounds.  Missing:
shorter data and data that need a third segment, see `C09_segments_total_refuted`. -/
theorem C09_segments_total_partial (hno : NoOverflow C) (cost : α → α → C) (lim : C)
    (data : List (List α)) (h3 : 3 ≤ data.length)
    (hrest : ∀ i, Furthest cost lim data i → i + 1 < data.length → data.length ≤ i + 3 ∨
      ∃ p, IsSelection (data.drop (i + 1)) p ∧ StepsBelow cost lim p) (fuel : Nat) (hf : 2 ≤ fuel) :
    ∃ res, getShortestPathSegments cost data lim fuel = .ok res := by
  obtain ⟨f, rfl⟩ : ∃ f, fuel = f + 2 := ⟨fuel - 2, by omega⟩
  have hd : data ≠ [] := by intro h; rw [h] at h3; simp at h3
  have hcond : (⟨data, 0, false, [], [], []⟩ : SegSt α C).finished = false ∧
      (((⟨data, 0, false, [], [], []⟩ : SegSt α C).currentStart : Nat) : Int)
        < (data.length : Int) - 2 := ⟨rfl, by simp; omega⟩
  have hstop : ∀ (fuel : Nat) (st : SegSt α C), st.finished = true ∨
      ¬ ((st.currentStart : Int) < (data.length : Int) - 2) →
      segLoop cost lim data fuel st = .ok (.inl st) := by
    intro fuel st h
    unfold segLoop
    rw [if_neg]
    rintro ⟨h1, h2⟩
    rcases h with h | h
    · rw [h] at h1; cases h1
    · exact h h2
  unfold getShortestPathSegments
  rw [segLoop, if_pos hcond]
  rcases partial_spec hno cost data lim hd with ⟨path, c, h1, h2, h3, h4⟩ |
    ⟨h1, _, _⟩ | ⟨i, path, c, h1, hi1, hi2, h2, h3, h4, h5⟩
  · simp only [h1, bind, Except.bind, key, if_true]
    rw [hstop _ _ (Or.inl rfl)]
    exact ⟨_, rfl⟩
  · simp only [h1, bind, Except.bind]
    exact ⟨_, rfl⟩
  · have hto : ((i : Int) + 1).toNat = i + 1 := by omega
    simp only [h1, bind, Except.bind, key, Bool.false_eq_true, if_false, hto]
    have hfur : Furthest cost lim data i := by
      refine ⟨⟨path, h2⟩, ?_⟩
      rintro k hk1 hk2 ⟨p, hp⟩
      exact h5 k hk1 hk2 p hp
    by_cases hlt : ((i + 1 : Nat) : Int) < (data.length : Int) - 2
    · rcases hrest i hfur hi2 with h | hex
      · omega
      · have hd' : data.drop (i + 1) ≠ [] := by
          intro h; rw [List.drop_eq_nil_iff] at h; omega
        rw [segLoop, if_pos ⟨rfl, hlt⟩]
        obtain ⟨r, hr, hiff, hsucc⟩ := C05_pygraph_step_limit hno cost lim (data.drop (i + 1)) hd'
        have hs := hiff.2 hex
        obtain ⟨path', c', hp', hc', _⟩ := hsucc hs
        simp only [hr, bind, Except.bind, hs, if_true, hp', hc', key]
        rw [hstop _ _ (Or.inl rfl)]
        exact ⟨_, rfl⟩
    · rw [hstop _ _ (Or.inr hlt)]
      exact ⟨_, rfl⟩

/-- Data that need three segments of three columns each. -/
def loopData : List (List Nat) := [[0], [0], [0], [10], [10], [10], [20], [20], [20]]

/-- C09 is false in two ways: every list of at most two columns raises IndexError, and on `loopData`
with limit 5 the loop never ends, because the second split point is computed relative to the
remaining data and leads back to the same column. -/
theorem C09_segments_total_refuted :
    (∀ (cost : α → α → C) (lim : C) (data : List (List α)) (fuel : Nat), data.length ≤ 2 →
      getShortestPathSegments cost data lim fuel = .error .indexError) ∧
    ∀ fuel, getShortestPathSegments natCost loopData 5 fuel = .error .outOfFuel := by
  constructor
  · intro cost lim data fuel h
    unfold getShortestPathSegments
    have : segLoop cost lim data fuel ⟨data, 0, false, [], [], []⟩ =
        .ok (.inl ⟨data, 0, false, [], [], []⟩) := by
      unfold segLoop
      rw [if_neg]
      rintro ⟨_, h2⟩
      simp at h2
      omega
    rw [this]
    rfl
  · have hfirst : (getShortestPartialPath natCost loopData 5).toOption.map
        (fun r => (r.success, r.i, r.path, r.totalCost)) =
        some (false, some 2, some [0, 0, 0], some 0) := by decide +kernel
    have hnext : (getShortestPartialPath natCost (loopData.drop 3) 5).toOption.map
        (fun r => (r.success, r.i, r.path, r.totalCost)) =
        some (false, some 2, some [10, 10, 10], some 0) := by decide +kernel
    obtain ⟨r1, hr1, e1⟩ := of_toOption_map hfirst
    obtain ⟨r2, hr2, e2⟩ := of_toOption_map hnext
    simp only [Prod.mk.injEq] at e1 e2
    have hloop : ∀ (fuel : Nat) (st : SegSt Nat (WithTop Nat)), st.finished = false →
        st.currentStart = 3 → st.currentData = loopData.drop 3 →
        segLoop natCost 5 loopData fuel st = .error .outOfFuel := by
      intro fuel
      induction fuel with
      | zero =>
        intro st h1 h2 h3
        unfold segLoop
        rw [if_pos ⟨h1, by rw [h2]; decide⟩]
      | succ fuel ih =>
        intro st h1 h2 h3
        unfold segLoop
        rw [if_pos ⟨h1, by rw [h2]; decide⟩]
        simp only [h3, hr2, bind, Except.bind, e2.1, e2.2.1, e2.2.2.1, e2.2.2.2, key,
          Bool.false_eq_true, if_false]
        exact ih _ h1 rfl rfl
    intro fuel
    unfold getShortestPathSegments
    have : segLoop natCost 5 loopData fuel ⟨loopData, 0, false, [], [], []⟩ =
        .error .outOfFuel := by
      unfold segLoop
      rw [if_pos ⟨rfl, by decide⟩]
      cases fuel with
      | zero => rfl
      | succ fuel =>
        simp only [hr1, bind, Except.bind, e1.1, e1.2.1, e1.2.2.1, e1.2.2.2, key,
          Bool.false_eq_true, if_false]
        exact hloop fuel _ rfl rfl rfl
    rw [this]
    rfl

/-! ## The hypotheses are satisfiable -/

/-- The optimum 4 → 2 → 1 → 2 with absolute distances costs 4. -/
example : (getShortestPath natCost [[4], [2, 5], [1, 5], [2]]).toOption.map
    (fun r => (r.success, r.path, r.totalCost)) = some (true, some [4, 2, 1, 2], some 4) := by
  decide +kernel

example : ∃ res, getShortestPath natCost [[4], [2, 5], [1, 5], [2]] = .ok res ∧
    (res.success = true ↔ ∀ col ∈ [[4], [2, 5], [1, 5], [2]], col ≠ []) := by
  obtain ⟨r, h1, h2, _⟩ := C04_pygraph_optimal noOverflow_nat natCost
    (fun x y => WithTop.coe_lt_top _) [[4], [2, 5], [1, 5], [2]] (by simp)
  exact ⟨r, h1, h2⟩

/-- C05/C06 on data where the cheapest unlimited path breaks the limit. -/
example : (getShortestPartialPath natCost [[0], [4, 3], [6]] 4).toOption.map
    (fun r => (r.success, r.path, r.totalCost)) = some (true, some [0, 3, 6], some 6) := by
  decide +kernel

example : (getShortestPartialPath natCost [[0], [1], [9], [9]] 4).toOption.map
    (fun r => (r.success, r.path, r.totalCost, r.i)) =
      some (false, some [0, 1], some 1, some 1) := by
  decide +kernel

/-- The limit and rounding: the theorems also cover non-associative rounded sums. -/
example (r : Rounding) (hr : ∀ a : WithTop ℚ, a < ⊤ → r.round a < ⊤) : NoOverflow (Rounded r) := by
  intro a c ha hc
  exact hr _ (WithTop.add_lt_top.2 ⟨ha, hc⟩)

/-- C07 on a graph object with a history. -/
example : ∃ g' : Graph Nat (WithTop Nat), Reachable [[0], [4, 3], [6]] g' ∧
    g'.runBfs natCost ⊤ 0 10 = (Graph.new [[0], [4, 3], [6]]).runBfs natCost ⊤ 0 10 := by
  obtain ⟨g', hg'⟩ := C07_pygraph_terminates (C := WithTop Nat) [[0], [4, 3], [6]]
    (Graph.new _) .new natCost 4 1 (by decide) 10 (by decide)
  have : Reachable [[0], [4, 3], [6]] g' := .run natCost 4 1 10 .new hg'
  exact ⟨g', this, C07_pygraph_rerun_fresh _ _ this _ _ _ _⟩

/-- C08/C09: two segments, tiled correctly. -/
example : (getShortestPathSegments natCost [[0], [1], [9], [9], [8]] 4 5).toOption.map
    (fun r => (r.success, segments r)) = some (true, [[0, 1], [9, 9, 8]]) := by
  decide +kernel

/-- C06: a case of `C06_pygraph_furthest`. -/
example : ∃ res : Res Nat (WithTop Nat),
    getShortestPartialPath natCost [[0], [1], [9], [9]] 4 = .ok res ∧ res.success = false ∧
    ¬ ∃ p, IsSelection [[0], [1], [9]] p ∧ StepsBelow natCost (4 : WithTop Nat) p := by
  obtain ⟨res, h⟩ : ∃ res : Res Nat (WithTop Nat),
      getShortestPartialPath natCost [[0], [1], [9], [9]] 4 = .ok res := ⟨_, rfl⟩
  have hv : (getShortestPartialPath natCost [[0], [1], [9], [9]] (4 : WithTop Nat)).toOption.map
    (fun r => (r.success, r.stuck, r.i)) = some (false, false, some 1) := by decide +kernel
  rw [h] at hv
  simp only [Except.toOption, Option.map_some, Option.some.injEq, Prod.mk.injEq] at hv
  refine ⟨res, h, hv.1, ?_⟩
  rcases C06_pygraph_furthest noOverflow_nat natCost 4 _ (by simp) res h hv.1 with
    ⟨h1, -⟩ | ⟨-, i, path, c, h1, -, -, -, -, h2, -⟩
  · rw [hv.2.1] at h1
    cases h1
  · rw [hv.2.2] at h1
    injection h1 with h1
    have : i = 1 := by omega
    subst this
    exact h2 2 (by omega) (by simp)

/-- What `xs[i]` of Python is: `i` counts from the end if it is negative. -/
theorem pyGetInt_ok {xs : List α} {i : Int} {x : α} : pyGetInt xs i = .ok x ↔
    -(xs.length : Int) ≤ i ∧ i < xs.length ∧ xs[(i % xs.length).toNat]? = some x := by
  unfold pyGetInt pyGet
  by_cases h0 : 0 ≤ i
  · rw [if_pos h0]
    by_cases h1 : i < xs.length
    · rw [Int.emod_eq_of_lt h0 h1]
      cases h : xs[i.toNat]? with
      | none => simp
      | some y =>
        simp only [Except.ok.injEq, Option.some.injEq]
        exact ⟨fun e => ⟨by omega, h1, e⟩, fun e => e.2.2⟩
    · rw [List.getElem?_eq_none (by omega)]
      simp only [reduceCtorEq, false_iff]
      rintro ⟨-, h, -⟩
      exact h1 h
  · rw [if_neg h0]
    by_cases h1 : 0 ≤ (xs.length : Int) + i
    · rw [if_pos h1]
      have e : i % xs.length = (xs.length : Int) + i := by
        rw [← Int.add_emod_right, add_comm, Int.emod_eq_of_lt h1 (by omega)]
      rw [e]
      cases h : xs[((xs.length : Int) + i).toNat]? with
      | none => simp
      | some y =>
        simp only [Except.ok.injEq, Option.some.injEq]
        exact ⟨fun e => ⟨by omega, by omega, e⟩, fun e => e.2.2⟩
    · rw [if_neg h1]
      simp only [reduceCtorEq, false_iff]
      rintro ⟨h, -, -⟩
      omega

private theorem pathIndexFrom_ok (data : List (List α)) (pi : List Int) (n : Nat) (path : List α) :
    pathIndexFrom data n pi = .ok path ↔ path.length = pi.length ∧
      ∀ (k : Nat) (i : Int), pi[k]? = some i → ∃ col, data[n + k]? = some col ∧
        -(col.length : Int) ≤ i ∧ i < col.length ∧ ∃ x, path[k]? = some x ∧
          col[(i % col.length).toNat]? = some x := by
  induction pi generalizing n path with
  | nil =>
    simp only [pathIndexFrom, Except.ok.injEq, List.length_nil, List.length_eq_zero_iff]
    constructor
    · rintro rfl
      exact ⟨rfl, by simp⟩
    · exact fun h => h.1.symm
  | cons i is ih =>
    have key : pathIndexFrom data n (i :: is) = .ok path ↔ ∃ col x rest, data[n]? = some col ∧
        pyGetInt col i = .ok x ∧ pathIndexFrom data (n + 1) is = .ok rest ∧ path = x :: rest := by
      simp only [pathIndexFrom, pyGet, bind, Except.bind]
      cases h1 : data[n]? with
      | none => simp
      | some col =>
        simp only [Option.some.injEq]
        cases h2 : pyGetInt col i with
        | error e => simp [h2]
        | ok x =>
          cases h3 : pathIndexFrom data (n + 1) is with
          | error e => simp
          | ok rest => simp [h2, eq_comm]
    rw [key]
    constructor
    · rintro ⟨col, x, rest, h1, h2, h3, rfl⟩
      rw [ih] at h3
      obtain ⟨h4, h5⟩ := h3
      rw [pyGetInt_ok] at h2
      refine ⟨by simp [h4], fun k j hk => ?_⟩
      cases k with
      | zero =>
        simp only [List.getElem?_cons_zero, Option.some.injEq] at hk
        subst hk
        exact ⟨col, h1, h2.1, h2.2.1, x, rfl, h2.2.2⟩
      | succ k =>
        rw [List.getElem?_cons_succ] at hk
        obtain ⟨c, e, g⟩ := h5 k j hk
        exact ⟨c, by rw [← e]; congr 1; omega, g⟩
    · rintro ⟨hl, h⟩
      obtain ⟨col, h1, h2, h3, x, h4, h5⟩ := h 0 i rfl
      cases path with
      | nil => simp at h4
      | cons y rest =>
        simp only [List.getElem?_cons_zero, Option.some.injEq] at h4
        subst h4
        refine ⟨col, y, rest, h1, pyGetInt_ok.2 ⟨h2, h3, h5⟩, (ih (n + 1) rest).2
          ⟨by simpa using hl, fun k j hk => ?_⟩, rfl⟩
        obtain ⟨c, e, g⟩ := h (k + 1) j (by simpa using hk)
        exact ⟨c, by rw [← e]; congr 1; omega, by simpa using g⟩

/-- **C04**, the indices: `path_index_to_path` takes the sample with the given index from every
column, counted from the end if it is negative, and fails if there are more indices than columns or an
index is out of range. -/
theorem C04_path_index (data : List (List α)) (pi : List Int) (path : List α) :
    pathIndexToPath pi data = .ok path ↔ path.length = pi.length ∧
      ∀ (k : Nat) (i : Int), pi[k]? = some i → ∃ col, data[k]? = some col ∧
        -(col.length : Int) ≤ i ∧ i < col.length ∧ ∃ x, path[k]? = some x ∧
          col[(i % col.length).toNat]? = some x := by
  unfold pathIndexToPath
  rw [pathIndexFrom_ok]
  simp only [Nat.zero_add]

/-- The unfound path -1, -1 is the last sample of every column. -/
example : pathIndexToPath [-1, -1] [[1, 2, 3], [4, 5]] = .ok [3, 5] ∧
    pathIndexToPath [-1, -3] [[1, 2, 3], [4, 5]] = .error .indexError := ⟨rfl, rfl⟩

end Verif.Props
