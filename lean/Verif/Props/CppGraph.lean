import Verif.Proofs.History
import Verif.Props.ShortestPath

/-!
# C13, C14, C73: call histories of the C++ `Graph`

`setup w d cols` is: `set_weights(w)` if weights are given, one `add_data_column` per column of
`d` joints, `init`.  `Proper cols d`: at least one column, no empty column, every row has length
`d`.  `FiniteSteps C w cols`: no step cost between rows of the data overflows to infinity.
-/

set_option linter.unusedSectionVars false

namespace Verif.Props

open Verif.Search Verif.Spec Verif.CppGraph Verif.ShortestPath

variable {F C : Type} [CostArith C] [JointArith F C]

/-- What a user sees of a graph. -/
def view (g : Graph F C) : (Nat → Except Fault (Option (List Int))) × C := (g.getPath, g.getPathCost)

theorem flags_hist {g : Graph F C} {cols : List (List (List F))} {d : Nat}
    {w : List F} (h : AfterInit g cols d w) (hfin : FiniteSteps C w cols) :
    Hist g cols d false true :=
  ⟨h.ready, h.phase, h.found, by rw [h.wts]; exact hfin,
    fun i j _ => by rw [h.store], by simp⟩

/-- C13. After loading proper data and `init`, any number of `run_bfs`, `reset` and `get_path_cost`
calls followed by `run_bfs` leave a graph that answers `get_path(n)` and `get_path_cost()` exactly
like a graph that was searched once. -/
theorem C13_runs_and_resets (pq : PQ C (List F)) (cols : List (List (List F))) (d : Nat)
    (hp : Proper cols d) (w : Option (List F))
    (hex : ∃ p, IsSelection cols p ∧ costL (stepCost C (effWeights C d (w.getD []))) p < ⊤)
    (ops : List (Op F)) (hops : ∀ op ∈ ops, op = .runBfs ∨ op = .reset ∨ op = .getPathCost) :
    ∃ g1 outs1 g outs,
      (Graph.new : Graph F C).calls pq (setup w d cols ++ [.runBfs]) = .ok (g1, outs1) ∧
      (Graph.new : Graph F C).calls pq (setup w d cols ++ ops ++ [.runBfs]) = .ok (g, outs) ∧
      view g = view g1 := by
  obtain ⟨g0, o0, h0, hi⟩ := setup_calls pq hp w
  rw [← hi.wts] at hex
  obtain ⟨s1, c1, hr1, hs1, _, _⟩ := runBfs_spec hi.ready (Or.inl hi.phase.1) hex
  obtain ⟨last, hlast, _, _⟩ := hi.ready.last
  have ho1 : OutFresh g0.na s1 := by
    obtain ⟨s, c, h1, h2⟩ := runBfs_fields hr1 (fun i j _ => by rw [hi.store])
    have : s = s1 := by
      have := congrArg Graph.store h1
      simpa using this.symm
    rw [← this]; exact h2
  -- the graph is always `g0` with a fresh or a finished store
  have key : ∀ (ops : List (Op F)), (∀ op ∈ ops, op = .runBfs ∨ op = .reset ∨ op = .getPathCost) →
      ∀ (s : Store C (List F)) (pf : Bool) (c : C), (s = (fun _ _ => freshSt) ∨ s = s1) →
      ∃ (s' : Store C (List F)) (pf' : Bool) (c' : C) (outs : List (Out C)),
        (s' = (fun _ _ => freshSt) ∨ s' = s1) ∧
        Graph.calls pq { g0 with store := s, pathFound := pf, shortestPathCost := c } ops =
          .ok ({ g0 with store := s', pathFound := pf', shortestPathCost := c' }, outs) := by
    intro ops
    induction ops with
    | nil => intro _ s pf c hs; exact ⟨s, pf, c, [], hs, rfl⟩
    | cons op ops ih =>
      intro hops s pf c hs
      have hops' := fun op h => hops op (List.mem_cons_of_mem _ h)
      have hstep : ∃ (s' : Store C (List F)) (pf' : Bool) (c' : C) (o : Out C),
          (s' = (fun _ _ => freshSt) ∨ s' = s1) ∧
          Graph.call pq { g0 with store := s, pathFound := pf, shortestPathCost := c } op =
            .ok ({ g0 with store := s', pathFound := pf', shortestPathCost := c' }, o) := by
        have hready : Ready { g0 with store := s, pathFound := pf, shortestPathCost := c } cols d :=
          ⟨hi.ready.na, hi.ready.ne, hi.ready.col, hi.ready.dim, hi.ready.wt, hi.ready.mpi⟩
        rcases hops op (by simp) with rfl | rfl | rfl
        · have hst : AllFresh { g0 with store := s, pathFound := pf, shortestPathCost := c } ∨
              CppGraph.Searched { g0 with store := s, pathFound := pf, shortestPathCost := c } s := by
            rcases hs with rfl | rfl
            · left
              intro col _ v _
              exact ⟨rfl, rfl, rfl⟩
            · exact Or.inr hs1
          obtain ⟨s', c', hr, hse, hsame, _⟩ := runBfs_spec hready hst hex
          refine ⟨s', true, c', .unit, ?_, by simp [Graph.call, hr, bind, Except.bind]⟩
          right
          rcases hs with rfl | rfl
          · -- fresh store: this is the first run
            have e1 : ({ g0 with store := fun _ _ => freshSt } : Graph F C) = g0 := by
              rw [← hi.store]
            have h2 := runBfs_congr g0 g0.gd pf c
            have e2 : ({ g0 with gd := g0.gd, pathFound := pf, shortestPathCost := c } : Graph F C) =
                { g0 with store := fun _ _ => freshSt, pathFound := pf, shortestPathCost := c } := by
              rw [← hi.store]
            rw [e2, hr, hr1] at h2
            have := congrArg Graph.store (Except.ok.inj h2)
            simpa using this
          · exact hsame hs1
        · have ho : OutFresh g0.na s := by
            rcases hs with rfl | rfl
            · exact fun _ _ _ => rfl
            · exact ho1
          have := reset_eq hready ho hlast
          refine ⟨fun _ _ => freshSt, pf, c, .unit, Or.inl rfl, ?_⟩
          simp only [Graph.call, this, bind, Except.bind]
          rw [← hi.goals last hlast, ← hi.ready.mpi]
        · exact ⟨s, pf, c, .cost c, hs, rfl⟩
      obtain ⟨s', pf', c', o, hs', hc⟩ := hstep
      obtain ⟨s'', pf'', c'', os, hs'', hcs⟩ := ih hops' s' pf' c' hs'
      refine ⟨s'', pf'', c'', o :: os, hs'', ?_⟩
      simp only [Graph.calls, hc, hcs, bind, Except.bind]
  obtain ⟨s', pf', c', outs, hs', hcalls⟩ := key ops hops g0.store g0.pathFound g0.shortestPathCost
    (Or.inl hi.store)
  have hready : Ready { g0 with store := s', pathFound := pf', shortestPathCost := c' } cols d :=
    ⟨hi.ready.na, hi.ready.ne, hi.ready.col, hi.ready.dim, hi.ready.wt, hi.ready.mpi⟩
  have hfinal : Graph.runBfs { g0 with store := s', pathFound := pf', shortestPathCost := c' } =
      g0.runBfs := by
    rcases hs' with rfl | rfl
    · have h2 := runBfs_congr g0 g0.gd pf' c'
      have e2 : ({ g0 with gd := g0.gd, pathFound := pf', shortestPathCost := c' } : Graph F C) =
          { g0 with store := fun _ _ => freshSt, pathFound := pf', shortestPathCost := c' } := by
        rw [← hi.store]
      rw [e2, hr1] at h2
      rw [h2, hr1]
      rfl
    · obtain ⟨s'', c'', hr, hse, hsame, _⟩ := runBfs_spec hready (Or.inr hs1) hex
      have hss : s'' = s' := hsame hs1
      subst hss
      rw [hr, hr1]
      -- same store, hence same cost
      obtain ⟨start, rest, hna⟩ := hi.ready.start
      have hf1 : Graph.finish { g0 with store := s'', pathFound := true } =
          .ok { g0 with store := s'', pathFound := true, shortestPathCost := c1 } := by
        obtain ⟨s2, hb, _⟩ := bfs_fresh hi.ready.wf hna hi.phase.1
        have h3 := runBfs_cons hna hi.ready.dimsOk hb
        rw [hr1] at h3
        obtain ⟨c3, h4⟩ := finish_fields h3.symm
        have : s2 = s'' := by
          have := congrArg Graph.store h4
          simpa using this.symm
        rw [this] at h3
        exact h3.symm
      have hf2 : Graph.finish { g0 with store := s'', pathFound := true, shortestPathCost := c' } =
          .ok { g0 with store := s'', pathFound := true, shortestPathCost := c'' } := by
        have hna' : ({ g0 with store := s'', pathFound := pf', shortestPathCost := c' } :
            Graph F C).na = start :: rest := hna
        have h3 := runBfs_cons hna' hready.dimsOk (bfs_again hready.wf hna' (s := s'') hs1 rfl)
        rw [hr] at h3
        exact h3.symm
      have h5 := finish_congr { g0 with store := s'', pathFound := true } g0.gd c'
      rw [hf1] at h5
      have h6 : Graph.finish { g0 with store := s'', pathFound := true, shortestPathCost := c' } =
          .ok { g0 with store := s'', pathFound := true, shortestPathCost := c1 } := h5
      rw [hf2] at h6
      exact h6
  refine ⟨{ g0 with store := s1, pathFound := true, shortestPathCost := c1 }, o0 ++ [.unit],
    { g0 with store := s1, pathFound := true, shortestPathCost := c1 }, o0 ++ outs ++ [.unit],
    ?_, ?_, rfl⟩
  · rw [calls_append, h0]
    simp only [Graph.calls, Graph.call, hr1, bind, Except.bind]
  · rw [calls_append, calls_append, h0]
    simp only [bind, Except.bind]
    have hc' : Graph.calls pq g0 ops =
        .ok ({ g0 with store := s', pathFound := pf', shortestPathCost := c' }, outs) := hcalls
    rw [hc']
    simp only [Graph.calls, Graph.call, hfinal, hr1, bind, Except.bind]

/-- Is the history free of the bad call?  `found`: some run has been made; `fresh`: no run since
`init` or the last `reset`. -/
def safeHistory : List (Op F) → Bool × Bool → Bool
  | [], _ => true
  | op :: ops, x => !badCall op x && safeHistory ops (flagsAfter op x)

/-- C14, what holds: load proper data, call `init` once, then make any later calls (new weights for
every joint, new columns, resets, both searches, queries).  The history returns normally if
`get_path` is never called after a `reset` that follows a run, without a new run in between; if it
is, the program dereferences a null pointer.  Missing: that call, and a second `init`, for both of
which the property is false (`C14_…_refuted`). -/
theorem C14_histories_partial (hno : PyGraph.NoOverflow C) (pq : PQ C (List F)) (hl : Lawful pq)
    (cols : List (List (List F))) (d : Nat) (hp : Proper cols d) (w : Option (List F))
    (hfin : FiniteSteps C (effWeights C d (w.getD [])) cols)
    (ops : List (Op F)) (hops : ∀ op ∈ ops, Later C cols d op) :
    (safeHistory ops (false, true) = true →
      ∃ g outs, (Graph.new : Graph F C).calls pq (setup w d cols ++ ops) = .ok (g, outs)) ∧
    (safeHistory ops (false, true) = false →
      (Graph.new : Graph F C).calls pq (setup w d cols ++ ops) = .error .nullDeref) := by
  obtain ⟨g0, o0, h0, hi⟩ := setup_calls pq hp w
  have key : ∀ (ops : List (Op F)), (∀ op ∈ ops, Later C cols d op) → ∀ (g : Graph F C) (x : Bool × Bool),
      Hist g cols d x.1 x.2 →
      (safeHistory ops x = true → ∃ g' outs, g.calls pq ops = .ok (g', outs)) ∧
      (safeHistory ops x = false → g.calls pq ops = .error .nullDeref) := by
    intro ops
    induction ops with
    | nil => intro _ g x _; exact ⟨fun _ => ⟨g, [], rfl⟩, by simp [safeHistory]⟩
    | cons op ops ih =>
      intro hops g x hx
      obtain ⟨hbad, hgood⟩ := hx.step hno hl (hops op (by simp))
      cases hb : badCall op x with
      | true =>
        refine ⟨by simp [safeHistory, hb], fun _ => ?_⟩
        simp only [Graph.calls, hbad hb, bind, Except.bind]
      | false =>
        obtain ⟨g', o, h1, h2, _⟩ := hgood hb
        obtain ⟨h3, h4⟩ := ih (fun op h => hops op (List.mem_cons_of_mem _ h)) g'
          (flagsAfter op x) h2
        simp only [safeHistory, hb, Bool.not_false, Bool.true_and, Graph.calls, h1, bind,
          Except.bind]
        refine ⟨fun h => ?_, fun h => ?_⟩
        · obtain ⟨g'', os, h5⟩ := h3 h
          exact ⟨g'', o :: os, by rw [h5]⟩
        · rw [h4 h]
  obtain ⟨h1, h2⟩ := key ops hops g0 (false, true) (flags_hist hi hfin)
  rw [calls_append, h0]
  simp only [bind, Except.bind]
  refine ⟨fun h => ?_, fun h => ?_⟩
  · obtain ⟨g', os, h5⟩ := h1 h
    exact ⟨g', o0 ++ os, by rw [h5]⟩
  · rw [h2 h]

/-- `add_data_column` for columns that each have their own width. -/
def loadWidths (cols : List (Nat × List (List F))) : List (Op F) :=
  cols.map fun c => .addColumn c.2.flatten c.2.length c.1

theorem loadWidths_calls (pq : PQ C (List F)) (g : Graph F C) (cols : List (Nat × List (List F)))
    (hdim : ∀ c ∈ cols, ∀ r ∈ c.2, r.length = c.1) :
    ∃ outs, g.calls pq (loadWidths cols) = .ok ({ g with gd := g.gd ++ cols.map Prod.snd }, outs) := by
  induction cols generalizing g with
  | nil => exact ⟨[], by simp [loadWidths, Graph.calls]⟩
  | cons c cs ih =>
    obtain ⟨outs, h⟩ := ih { g with gd := g.gd ++ [c.2] }
      (fun col hc => hdim col (List.mem_cons_of_mem _ hc))
    refine ⟨.unit :: outs, ?_⟩
    unfold loadWidths at h ⊢
    simp only [List.map_cons, Graph.calls, Graph.call, bind, Except.bind,
      addDataColumn_ok g c.2 (hdim c (by simp)), h]
    simp

theorem init_any {g : Graph F C} (hna : g.na = []) (hs : ∀ i j, g.store i j = freshSt)
    {jv : List F} {rest : List (List F)} {rest' : List (List (List F))}
    (hgd : g.gd = (jv :: rest) :: rest') :
    ∃ g', g.init = .ok g' ∧ g'.na = PyGraph.dataToNodeArray g.gd := by
  obtain ⟨s, h1, _⟩ := dataToNodes_new g hna hs
  unfold Graph.init
  rw [h1]
  simp only
  split
  · rename_i hl
    exfalso
    have := congrArg List.length (List.getLast?_eq_none_iff.1 hl)
    rw [PyGraph.nodeArray_length, hgd] at this
    simp at this
  · split
    · exact ⟨_, rfl, rfl⟩
    · rename_i h
      exact absurd hgd (h _ _ _)

/-- C14, columns of different widths: load non-empty columns, each with its own number of joints,
call `init` and `run_bfs`.  `cost_function_2` loops over the joints of the later configuration, so
the search reads outside an array exactly if some column is wider than the column before it;
otherwise it returns normally, and the answer picks one row per column. -/
theorem C14_widths (hno : PyGraph.NoOverflow C) (pq : PQ C (List F))
    (w : Option (List F)) (c0 : Nat × List (List F)) (cols : List (Nat × List (List F)))
    (hne : ∀ c ∈ c0 :: cols, c.2 ≠ []) (hdim : ∀ c ∈ c0 :: cols, ∀ r ∈ c.2, r.length = c.1) :
    ((∃ (i : Nat) (a b : Nat × List (List F)), (c0 :: cols)[i]? = some a ∧
        (c0 :: cols)[i + 1]? = some b ∧ a.1 < b.1) →
      (Graph.new : Graph F C).calls pq
        (w.toList.map .setWeights ++ loadWidths (c0 :: cols) ++ [.init, .runBfs]) =
          .error .outOfBounds) ∧
    ((∀ (i : Nat) (a b : Nat × List (List F)), (c0 :: cols)[i]? = some a →
        (c0 :: cols)[i + 1]? = some b → b.1 ≤ a.1) →
      FiniteSteps C (effWeights C c0.1 (w.getD [])) ((c0 :: cols).map Prod.snd) →
      ∃ g outs path, (Graph.new : Graph F C).calls pq
        (w.toList.map .setWeights ++ loadWidths (c0 :: cols) ++ [.init, .runBfs]) = .ok (g, outs) ∧
        IsSelection ((c0 :: cols).map Prod.snd) path ∧
        g.getPathCost = costL (stepCost C (effWeights C c0.1 (w.getD []))) path) := by
  obtain ⟨g0, o1, h1, hgd, hna, hst, hw0⟩ : ∃ (g0 : Graph F C) (o1 : List (Out C)),
      (Graph.new : Graph F C).calls pq (w.toList.map .setWeights) = .ok (g0, o1) ∧
      g0.gd = [] ∧ g0.na = [] ∧ (∀ i j, g0.store i j = freshSt) ∧ g0.weights = w.getD [] := by
    cases w with
    | none => exact ⟨_, [], rfl, rfl, rfl, fun _ _ => rfl, rfl⟩
    | some w => exact ⟨_, [.unit], rfl, rfl, rfl, fun _ _ => rfl, rfl⟩
  obtain ⟨o2, h2⟩ := loadWidths_calls pq g0 (c0 :: cols) hdim
  rw [hgd, List.nil_append] at h2
  have hcalls : (Graph.new : Graph F C).calls pq
      (w.toList.map .setWeights ++ loadWidths (c0 :: cols) ++ [.init, .runBfs]) = (do
        let g ← Graph.init { g0 with gd := (c0 :: cols).map Prod.snd }
        let g ← g.runBfs
        .ok (g, o1 ++ o2 ++ [.unit, .unit])) := by
    rw [calls_append, calls_append, h1]
    simp only [bind, Except.bind]
    rw [h2]
    simp only [Graph.calls, Graph.call, bind, Except.bind]
    cases Graph.init { g0 with gd := (c0 :: cols).map Prod.snd } with
    | error e => rfl
    | ok g =>
      simp only
      cases g.runBfs <;> rfl
  rw [hcalls]
  constructor
  · rintro ⟨i, a, b, ha, hb, hab⟩
    obtain ⟨jv, rest, hc0⟩ := List.exists_cons_of_ne_nil (hne c0 (by simp))
    obtain ⟨g, hi, hgna⟩ := init_any (g := { g0 with gd := (c0 :: cols).map Prod.snd }) hna hst
      (jv := jv) (rest := rest) (rest' := cols.map Prod.snd) (by simp [hc0])
    obtain ⟨u, us, hu⟩ := List.exists_cons_of_ne_nil (hne a (List.mem_of_getElem? ha))
    obtain ⟨v, vs, hv⟩ := List.exists_cons_of_ne_nil (hne b (List.mem_of_getElem? hb))
    have hul := hdim a (List.mem_of_getElem? ha) u (by simp [hu])
    have hvl := hdim b (List.mem_of_getElem? hb) v (by simp [hv])
    have e1 : g.na[i]? = some (a.2.mapIdx fun j row => ⟨i, j, j, row⟩) := by
      rw [hgna, PyGraph.nodeArray_getElem?, List.getElem?_map, ha]; rfl
    have e2 : g.na[i + 1]? = some (b.2.mapIdx fun j row => ⟨i + 1, j, j, row⟩) := by
      rw [hgna, PyGraph.nodeArray_getElem?, List.getElem?_map, hb]; rfl
    have hbad : g.dimsOk = false := by
      by_contra hd
      rw [Bool.not_eq_false] at hd
      unfold Graph.dimsOk at hd
      rw [List.all_eq_true] at hd
      have hz : (g.na.zip g.na.tail)[i]? = some (a.2.mapIdx fun j row => ⟨i, j, j, row⟩,
          b.2.mapIdx fun j row => ⟨i + 1, j, j, row⟩) := by
        rw [List.getElem?_zip_eq_some]
        exact ⟨e1, by rw [List.getElem?_tail]; exact e2⟩
      have h3 := hd _ (List.mem_of_getElem? hz)
      simp only [hu, hv, List.mapIdx_cons, List.all_cons, Bool.and_eq_true, decide_eq_true_eq] at h3
      have := h3.1.1.1
      omega
    simp only [bind, Except.bind, hi]
    unfold Graph.runBfs
    have hne' : g.na ≠ [] := by intro h; rw [h] at e1; simp at e1
    obtain ⟨start, more, hs⟩ := List.exists_cons_of_ne_nil hne'
    rw [hs]
    simp [hbad]
  · intro hle hfin
    have hp : ProperNarrowing ((c0 :: cols).map Prod.snd) c0.1 := by
      have hfirst : ∀ (i : Nat) (a : Nat × List (List F)), (c0 :: cols)[i]? = some a →
          a.1 ≤ c0.1 := by
        intro i
        induction i with
        | zero => intro a ha; simp at ha; rw [ha]
        | succ i ih =>
          intro b hb
          have hlt : i < (c0 :: cols).length := by
            have := (List.getElem?_eq_some_iff.1 hb).1
            omega
          obtain ⟨a, ha⟩ : ∃ a, (c0 :: cols)[i]? = some a := ⟨_, List.getElem?_eq_getElem hlt⟩
          exact (hle i a b ha hb).trans (ih a ha)
      refine ⟨by simp, ?_, ?_, ?_⟩
      · intro col hc
        obtain ⟨c, hm, rfl⟩ := List.mem_map.1 hc
        exact hne c hm
      · intro col hc r hr
        simp at hc
        subst hc
        exact hdim c0 (by simp) r hr
      · intro i c c' hc hc' r hr r' hr'
        rw [List.getElem?_map, Option.map_eq_some_iff] at hc hc'
        obtain ⟨a, ha, rfl⟩ := hc
        obtain ⟨b, hb, rfl⟩ := hc'
        rw [hdim a (List.mem_of_getElem? ha) r hr, hdim b (List.mem_of_getElem? hb) r' hr']
        exact ⟨hle i a b ha hb, hfirst _ b hb⟩
    obtain ⟨g, hi, hr, hph, _, hwt⟩ := init_spec_narrowing
      (g := { g0 with gd := (c0 :: cols).map Prod.snd }) hp hna hst
    have hwt' : g.weights = effWeights C c0.1 (w.getD []) := by rw [hwt]; exact congrArg _ hw0
    obtain ⟨g', hrun, _, _, _, hw', idx, path, hans⟩ :=
      runBfs_valid hno hr (by rw [hwt']; exact hfin) hph
    refine ⟨g', o1 ++ o2 ++ [.unit, .unit], path, ?_, hans.sel, ?_⟩
    · simp only [bind, Except.bind, hi, hrun]
    · rw [hans.cost, hw', hwt']

/-- C73. Whatever was done with a loaded graph (both searches, resets, new weights, queries, even
additional columns, which are ignored), `reset` followed by a search gives exactly the answer of a
graph that only ever saw the same columns, the current weights and this search. -/
theorem C73_reset_forgets (hno : PyGraph.NoOverflow C) (pq : PQ C (List F)) (hl : Lawful pq)
    (cols : List (List (List F))) (d : Nat) (hp : Proper cols d) (w : Option (List F))
    (hfin : FiniteSteps C (effWeights C d (w.getD [])) cols)
    (ops : List (Op F)) (hops : ∀ op ∈ ops, Later C cols d op)
    (g : Graph F C) (outs : List (Out C))
    (hrun : (Graph.new : Graph F C).calls pq (setup w d cols ++ ops) = .ok (g, outs)) :
    ∃ g0 outs0 g2, (Graph.new : Graph F C).calls pq (setup w d cols) = .ok (g0, outs0) ∧
      g.reset = .ok g2 ∧
      g2.runBfs.map view = (g0.setWeights g.weights).runBfs.map view ∧
      (g2.runDijkstra pq).map view = ((g0.setWeights g.weights).runDijkstra pq).map view := by
  obtain ⟨g0, o0, h0, hi⟩ := setup_calls pq hp w
  have key : ∀ (ops : List (Op F)), (∀ op ∈ ops, Later C cols d op) → ∀ (g : Graph F C) (x : Bool × Bool),
      Hist g cols d x.1 x.2 → ∀ g' outs, g.calls pq ops = .ok (g', outs) →
      (∃ y : Bool × Bool, Hist g' cols d y.1 y.2) ∧ g'.na = g.na := by
    intro ops
    induction ops with
    | nil => intro _ g x hx g' outs h; cases h; exact ⟨⟨x, hx⟩, rfl⟩
    | cons op ops ih =>
      intro hops g x hx g' outs h
      obtain ⟨hbad, hgood⟩ := hx.step hno hl (hops op (by simp))
      cases hb : badCall op x with
      | true => simp only [Graph.calls, hbad hb, bind, Except.bind] at h; cases h
      | false =>
        obtain ⟨g1, o, h1, h2, h3⟩ := hgood hb
        simp only [Graph.calls, h1, bind, Except.bind] at h
        cases hc : g1.calls pq ops with
        | error e => rw [hc] at h; cases h
        | ok r =>
          rw [hc] at h
          cases h
          obtain ⟨h4, h5⟩ := ih (fun op h => hops op (List.mem_cons_of_mem _ h)) g1
            (flagsAfter op x) h2 _ _ hc
          exact ⟨h4, by rw [h5, h3]⟩
  rw [calls_append, h0] at hrun
  simp only [bind, Except.bind] at hrun
  cases hc : g0.calls pq ops with
  | error e => rw [hc] at hrun; cases hrun
  | ok r =>
    rw [hc] at hrun
    cases hrun
    obtain ⟨⟨y, hy⟩, hna⟩ := key ops hops g0 (false, true) (flags_hist hi hfin) _ _ hc
    obtain ⟨last, hlast, _, _⟩ := hy.ready.last
    have hreset := reset_eq hy.ready hy.out hlast
    have hg2 : ({ r.1 with
        store := fun _ _ => freshSt
        maxPathIndex := cols.length - 1
        numGoals := last.length } : Graph F C) =
        { (g0.setWeights r.1.weights) with
          gd := r.1.gd
          pathFound := r.1.pathFound
          shortestPathCost := r.1.shortestPathCost } := by
      have e1 := hi.store
      have e2 := hi.goals last (by rw [← hna]; exact hlast)
      have e3 := hi.ready.mpi
      simp only [Graph.setWeights]
      rw [e1, e2, e3, hna]
    refine ⟨g0, o0, _, h0, hreset, ?_, ?_⟩
    · rw [hg2, runBfs_congr]
      cases (g0.setWeights r.1.weights).runBfs <;> rfl
    · rw [hg2, runDijkstra_congr]
      cases (g0.setWeights r.1.weights).runDijkstra pq <;> rfl

/-! ## Witnesses -/

/-- Two columns of one joint. -/
def twoCols : List (List (List ℚ)) := [[[0], [1]], [[2]]]

theorem twoCols_proper : Proper twoCols 1 := by
  refine ⟨by simp [twoCols], ?_, ?_⟩ <;> simp [twoCols]

theorem finite_rat (w : List ℚ) (cols : List (List (List ℚ))) : FiniteSteps (WithTop ℚ) w cols :=
  fun x _ y _ => by rw [stepCost_rat]; exact WithTop.coe_lt_top _

/-- Concrete cases: two joints followed by one is fine, one followed by two is not. -/
example (pq : PQ (WithTop ℚ) (List ℚ)) :
    (Graph.new : Graph ℚ (WithTop ℚ)).calls pq
      [.addColumn [1] 1 1, .addColumn [1, 2] 1 2, .init, .runBfs] = .error .outOfBounds ∧
    ∃ g outs, (Graph.new : Graph ℚ (WithTop ℚ)).calls pq
      [.addColumn [1, 2] 1 2, .addColumn [1] 1 1, .init, .runBfs] = .ok (g, outs) := by
  refine ⟨(C14_widths (C := WithTop ℚ) noOverflow_rat pq none (1, [[1]]) [(2, [[1, 2]])] (by simp)
    (by simp)).1 ⟨0, _, _, rfl, rfl, by simp⟩, ?_⟩
  obtain ⟨g, outs, _, h, _⟩ := (C14_widths (C := WithTop ℚ) noOverflow_rat pq none (2, [[1, 2]])
    [(1, [[1]])] (by simp) (by simp)).2 (by
      intro i a b ha hb
      rcases i with _ | i
      · simp at ha hb; subst ha; subst hb; simp
      · simp at hb) (finite_rat _ _)
  exact ⟨g, outs, h⟩

/-- C14 is false: `get_path` after a run and a `reset` follows a null pointer. -/
theorem C14_get_path_after_reset_refuted :
    (Graph.new : Graph ℚ (WithTop ℚ)).calls stdHeap
      (setup none 1 twoCols ++ [.runBfs, .reset, .getPath 2]) = .error .nullDeref :=
  (C14_histories_partial noOverflow_rat stdHeap stdHeapLawful twoCols 1 twoCols_proper none
    (finite_rat _ _) [.runBfs, .reset, .getPath 2] (by simp [Later])).2 (by rfl)

theorem error_of_dec {β : Type} {e : Except Fault β} {f : Fault}
    (h : (match e with | .error x => some x | .ok _ => none) = some f) : e = .error f := by
  cases e with
  | error x => simp at h; rw [h]
  | ok _ => simp at h

/-- C14 is false: a search after a second `init` follows a null pointer. -/
theorem C14_init_twice_refuted :
    (Graph.new : Graph ℚ (WithTop ℚ)).calls stdHeap
      (setup none 1 twoCols ++ [.init, .runBfs]) = .error .nullDeref :=
  error_of_dec (by decide +kernel)

/-- C73 needs the `reset`: a breadth-first search directly after Dijkstra's search keeps the
non-optimal path of length 10 (the optimum is 6, C12). -/
theorem C73_no_reset_refuted :
    ∃ g outs, (Graph.new : Graph ℚ (WithTop ℚ)).calls stdHeap
      (setup none 1 [[[4]], [[2], [5]], [[1], [5]], [[2]]] ++ [.runDijkstra, .runBfs]) =
        .ok (g, outs) ∧ g.getPathCost = ((10 : ℚ) : WithTop ℚ) := by
  have h : ((Graph.new : Graph ℚ (WithTop ℚ)).calls stdHeap
      (setup none 1 [[[4]], [[2], [5]], [[1], [5]], [[2]]] ++ [.runDijkstra, .runBfs])).toOption.map
      (fun r => r.1.getPathCost) = some ((10 : ℚ) : WithTop ℚ) := by decide +kernel
  obtain ⟨⟨g, outs⟩, h1, h2⟩ := of_toOption_map h
  exact ⟨g, outs, h1, h2⟩

/-- A safe history with both searches, new weights and queries. -/
example : ∃ g outs, (Graph.new : Graph ℚ (WithTop ℚ)).calls stdHeap (setup (some [2]) 1 twoCols ++
    [.getPath 2, .runDijkstra, .getPath 2, .setWeights [5], .reset, .addColumn [1, 2] 2 1, .runBfs,
      .getPathCost, .getPath 7]) = .ok (g, outs) :=
  (C14_histories_partial noOverflow_rat stdHeap stdHeapLawful twoCols 1 twoCols_proper (some [2])
    (finite_rat _ _) _ (by simp [Later, finite_rat])).1 (by rfl)

example : ∃ g1 outs1 g outs,
    (Graph.new : Graph ℚ (WithTop ℚ)).calls stdHeap (setup none 1 twoCols ++ [.runBfs]) =
      .ok (g1, outs1) ∧
    (Graph.new : Graph ℚ (WithTop ℚ)).calls stdHeap
      (setup none 1 twoCols ++ [.runBfs, .reset, .runBfs] ++ [.runBfs]) = .ok (g, outs) ∧
    view g = view g1 :=
  C13_runs_and_resets stdHeap twoCols 1 twoCols_proper none
    ⟨[[1], [2]], .cons (by simp) (.cons (by simp) .nil),
      by rw [costL_rat]; exact WithTop.coe_lt_top _⟩ _ (by simp)

end Verif.Props
