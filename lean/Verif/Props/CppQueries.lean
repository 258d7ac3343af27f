import Verif.Props.CppGraph

/-!
# C14, what `get_path` and `get_path_cost` answer in the middle of a history
-/

set_option linter.unusedSectionVars false

namespace Verif.Props

open Verif.Search Verif.Spec Verif.CppGraph Verif.ShortestPath

variable {F C : Type} [CostArith C] [JointArith F C]

theorem pushColumn_flags (g : Graph F C) (i : Nat) (col : List (List F)) :
    (g.pushColumn i col).pathFound = g.pathFound ∧
      (g.pushColumn i col).shortestPathCost = g.shortestPathCost := by
  unfold Graph.pushColumn
  have key : ∀ (l : List (List F × Nat)) (g : Graph F C),
      (l.foldl (fun g x => g.pushNode i x.2 x.1) g).pathFound = g.pathFound ∧
      (l.foldl (fun g x => g.pushNode i x.2 x.1) g).shortestPathCost = g.shortestPathCost := by
    intro l
    induction l with
    | nil => intro g; exact ⟨rfl, rfl⟩
    | cons x l ih => intro g; exact ⟨(ih _).1, (ih _).2⟩
  exact ⟨(key _ _).1, (key _ _).2⟩

theorem dataToNodes_flags (g : Graph F C) :
    g.dataToNodes.pathFound = g.pathFound ∧
      g.dataToNodes.shortestPathCost = g.shortestPathCost := by
  unfold Graph.dataToNodes
  generalize g.gd.zipIdx = l
  induction l generalizing g with
  | nil => exact ⟨rfl, rfl⟩
  | cons x l ih =>
    obtain ⟨h1, h2⟩ := pushColumn_flags g x.2 x.1
    obtain ⟨h3, h4⟩ := ih (g.pushColumn x.2 x.1)
    exact ⟨h3.trans h1, h4.trans h2⟩

/-- C14. In every history without a search (any calls in any order, from a new graph), `get_path`
fills its array with -1 and the cost is infinite. -/
theorem C14_unsearched (pq : PQ C (List F)) (ops : List (Op F))
    (hops : ∀ op ∈ ops, op ≠ .runBfs ∧ op ≠ .runDijkstra) (g : Graph F C) (outs : List (Out C))
    (hrun : (Graph.new : Graph F C).calls pq ops = .ok (g, outs)) :
    (∀ n, g.getPath n = .ok (some (List.replicate n (-1)))) ∧ g.getPathCost = ⊤ := by
  have key : ∀ (ops : List (Op F)), (∀ op ∈ ops, op ≠ .runBfs ∧ op ≠ .runDijkstra) →
      ∀ (g0 g : Graph F C) (outs : List (Out C)), g0.calls pq ops = .ok (g, outs) →
      g0.pathFound = false → g0.shortestPathCost = ⊤ →
      g.pathFound = false ∧ g.shortestPathCost = ⊤ := by
    intro ops
    induction ops with
    | nil => intro _ g0 g outs h h1 h2; cases h; exact ⟨h1, h2⟩
    | cons op ops ih =>
      intro hops g0 g outs h h1 h2
      simp only [Graph.calls, bind, Except.bind] at h
      cases hc : g0.call pq op with
      | error e => rw [hc] at h; cases h
      | ok r =>
        rw [hc] at h
        simp only at h
        cases hc' : r.1.calls pq ops with
        | error e => rw [hc'] at h; cases h
        | ok r' =>
          rw [hc'] at h
          cases h
          have hr : r.1.pathFound = false ∧ r.1.shortestPathCost = ⊤ := by
            cases op with
            | runBfs => exact absurd rfl (hops _ (by simp)).1
            | runDijkstra => exact absurd rfl (hops _ (by simp)).2
            | setWeights w => cases hc; exact ⟨h1, h2⟩
            | getPathCost => cases hc; exact ⟨h1, h2⟩
            | getPath n =>
              simp only [Graph.call, bind, Except.bind] at hc
              split at hc
              · cases hc
              · cases hc; exact ⟨h1, h2⟩
            | addColumn mat nrows ncols =>
              simp only [Graph.call, Graph.addDataColumn, bind, Except.bind] at hc
              split at hc
              · cases hc
              · rename_i hx
                split at hx
                · cases hx
                · cases hx; cases hc; exact ⟨h1, h2⟩
            | init =>
              obtain ⟨f1, f2⟩ := dataToNodes_flags g0
              simp only [Graph.call, Graph.init, bind, Except.bind] at hc
              split at hc
              · cases hc
              · rename_i hx
                split at hx
                · cases hx
                · split at hx
                  · cases hx; cases hc; exact ⟨rfl, by rw [← h2]; exact f2⟩
                  · cases hx
            | reset =>
              simp only [Graph.call, Graph.reset, bind, Except.bind] at hc
              split at hc
              · cases hc
              · rename_i hx
                split at hx
                · cases hx
                · cases hx; cases hc; exact ⟨h1, h2⟩
          exact ih (fun op h => hops op (List.mem_cons_of_mem _ h)) r.1 _ _ hc' hr.1 hr.2
  obtain ⟨h1, h2⟩ := key ops hops _ g outs hrun rfl rfl
  refine ⟨fun n => ?_, h2⟩
  unfold Graph.getPath
  rw [if_neg (by rw [h1]; simp)]

theorem flags_noreset (post : List (Op F)) (h : ∀ op ∈ post, op ≠ .reset) :
    post.foldl (fun x op => flagsAfter op x) (true, false) = (true, false) := by
  induction post with
  | nil => rfl
  | cons op post ih =>
    have : flagsAfter op (true, false) = (true, false) := by
      cases op <;> first | rfl | exact absurd rfl (h _ (by simp))
    rw [List.foldl_cons, this]
    exact ih fun op h' => h op (List.mem_cons_of_mem _ h')

theorem consec_valid (data : List (List (List F))) (k : Nat) (q : List (Nd (List F)))
    (hc : PyGraph.Consec k q)
    (hl : ∀ n ∈ q, ∃ c, data[n.pi]? = some c ∧ c[n.si]? = some n.data)
    (hlen : k + q.length = data.length) :
    List.Forall₂ (fun i col => i < col.length) (q.map Nd.si) (data.drop k) := by
  induction q generalizing k with
  | nil =>
    rw [List.drop_eq_nil_of_le (by simpa using hlen.ge)]
    exact .nil
  | cons n q ih =>
    obtain ⟨c, h1, h2⟩ := hl n (by simp)
    rw [hc.1] at h1
    obtain ⟨hk, rfl⟩ := List.getElem?_eq_some_iff.1 h1
    rw [List.drop_eq_getElem_cons hk]
    refine .cons (List.getElem?_eq_some_iff.1 h2).1 ?_
    exact ih (k + 1) hc.2 (fun m hm => hl m (List.mem_cons_of_mem _ hm))
      (by rw [List.length_cons] at hlen; omega)

/-- C14. In a history in which some search is not followed by a `reset`, `get_path` with one place
per column returns one valid index per column; with any other size the array is left unwritten. -/
theorem C14_searched (hno : PyGraph.NoOverflow C) (pq : PQ C (List F)) (hl : Lawful pq)
    (cols : List (List (List F))) (d : Nat) (hp : Proper cols d) (w : Option (List F))
    (hfin : FiniteSteps C (effWeights C d (w.getD [])) cols)
    (pre : List (Op F)) (run : Op F) (post : List (Op F)) (hrun : run = .runBfs ∨ run = .runDijkstra)
    (hops : ∀ op ∈ pre ++ run :: post, Later C cols d op) (hpost : ∀ op ∈ post, op ≠ .reset)
    (g : Graph F C) (outs : List (Out C))
    (h : (Graph.new : Graph F C).calls pq (setup w d cols ++ (pre ++ run :: post)) =
      .ok (g, outs)) :
    (∃ idx : List Nat, g.getPath cols.length = .ok (some (idx.map fun (i : Nat) => (i : Int))) ∧
      List.Forall₂ (fun i col => i < col.length) idx cols) ∧
    ∀ n, n ≠ cols.length → g.getPath n = .ok none := by
  obtain ⟨g0, o0, h0, hi⟩ := setup_calls pq hp w
  have key : ∀ (ops : List (Op F)), (∀ op ∈ ops, Later C cols d op) →
      ∀ (g : Graph F C) (x : Bool × Bool), Hist g cols d x.1 x.2 → ∀ g' outs,
      g.calls pq ops = .ok (g', outs) →
      Hist g' cols d (ops.foldl (fun x op => flagsAfter op x) x).1
        (ops.foldl (fun x op => flagsAfter op x) x).2 := by
    intro ops
    induction ops with
    | nil => intro _ g x hx g' outs h; cases h; exact hx
    | cons op ops ih =>
      intro hops g x hx g' outs h
      obtain ⟨hbad, hgood⟩ := hx.step hno hl (hops op (by simp))
      cases hb : badCall op x with
      | true => simp only [Graph.calls, hbad hb, bind, Except.bind] at h; cases h
      | false =>
        obtain ⟨g1, o, h1, h2, h3⟩ := hgood hb
        simp only [Graph.calls, h1, bind, Except.bind] at h
        cases hc : g1.calls pq ops with
        | error e => rw [hc] at h; cases h
        | ok r =>
          rw [hc] at h
          cases h
          exact ih (fun op h => hops op (List.mem_cons_of_mem _ h)) g1 (flagsAfter op x) h2 _ _ hc
  rw [calls_append, h0] at h
  simp only [bind, Except.bind] at h
  cases hc : g0.calls pq (pre ++ run :: post) with
  | error e => rw [hc] at h; cases h
  | ok r =>
    rw [hc] at h
    cases h
    have hy := key _ hops g0 (false, true) (flags_hist hi hfin) _ _ hc
    have hf : (pre ++ run :: post).foldl (fun x op => flagsAfter op x) (false, true) =
        (true, false) := by
      rw [List.foldl_append, List.foldl_cons]
      have : ∀ x : Bool × Bool, flagsAfter run x = (true, false) := by
        rintro ⟨a, b⟩
        rcases hrun with rfl | rfl <;> rfl
      rw [this]
      exact flags_noreset post hpost
    rw [hf] at hy
    simp only at hy
    obtain ⟨last, hlast, v, hv, c, p, hpn, hw, -⟩ :=
      pathNodes_valid hy.ready.wf hy.phase.1 hy.phase.2 hy.flag
    obtain ⟨-, idx, path, hans, -⟩ := finish_walk hy.ready hy.flag hlast hv hpn hw
    have hget : ∀ n, r.1.getPath n = if n ≠ p.reverse.length then .ok none
        else .ok (some (p.reverse.map fun x => (x.si : Int))) := by
      intro n
      unfold Graph.getPath
      rw [if_pos hy.flag, hpn]
      rfl
    have hsel := hans.get
    have hg' : ({ r.1 with shortestPathCost := c } : Graph F C).getPath cols.length =
      r.1.getPath cols.length := rfl
    rw [hg', hget] at hsel
    by_cases hlen : cols.length ≠ p.reverse.length
    · rw [if_pos hlen] at hsel; cases hsel
    · rw [if_neg hlen] at hsel
      push Not at hlen
      refine ⟨⟨p.reverse.map Nd.si, ?_, ?_⟩, ?_⟩
      · rw [hget, if_neg (by simpa using hlen), List.map_map]; rfl
      · obtain ⟨hc1, hc2⟩ := PyGraph.walk_nodes hy.ready.wf hw
        have := consec_valid cols 0 p.reverse hc1 (fun n hn => ?_) (by rw [hlen]; simp)
        · simpa using this
        · obtain ⟨col, hcol, hm⟩ := hc2 n (List.mem_reverse.1 hn)
          rw [hy.ready.na] at hcol
          exact PyGraph.node_lookup hcol hm
      · intro n hn
        rw [hget, if_pos (by rw [← hlen]; exact hn)]

/-- A history with queries before and after a search meets the hypotheses of both theorems. -/
example : ∃ (g : Graph ℚ (WithTop ℚ)) (outs : List (Out (WithTop ℚ))),
    (Graph.new : Graph ℚ (WithTop ℚ)).calls stdHeap
      (setup none 1 twoCols ++ ([.getPath 3, .reset] ++ .runDijkstra :: [.setWeights [5], .getPath 2])) =
      .ok (g, outs) :=
  (C14_histories_partial noOverflow_rat stdHeap stdHeapLawful twoCols 1 twoCols_proper none
    (finite_rat _ _) _ (by simp [Later, finite_rat])).1 (by rfl)

end Verif.Props
