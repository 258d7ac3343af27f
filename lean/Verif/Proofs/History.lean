import Verif.Proofs.ShortestPath

/-! # Lemmas about call histories of the C++ `Graph` -/

set_option linter.unusedSectionVars false

namespace Verif.ShortestPath

open Verif.CppGraph Verif.Search Verif.Spec

variable {F C : Type} [CostArith C] [JointArith F C]

/-- Nodes that do not exist are never written. -/
def OutFresh (na : List (List (Nd (List F)))) (s : Store C (List F)) : Prop :=
  ∀ i j, (i, j) ∉ na.flatten.map Nd.key → s i j = freshSt

variable {na : List (List (Nd (List F)))}

theorem OutFresh.upd {s : Store C (List F)} (h : OutFresh na s) {n : Nd (List F)}
    (hn : n ∈ na.flatten) (v : St C (List F)) : OutFresh na (s.upd n v) := by
  intro i j hij
  rw [upd_other]
  · exact h i j hij
  · intro he
    exact hij (he ▸ List.mem_map_of_mem hn)

theorem OutFresh.relax {Q : Type} {cost : Nd (List F) → Nd (List F) → C}
    {push : Store C (List F) → Q → Nd (List F) → Q} {cur nb : Nd (List F)} (hnb : nb ∈ na.flatten)
    (x : Store C (List F) × Q) (h : OutFresh na x.1) :
    OutFresh na (relax cost push cur x nb).1 := by
  unfold Search.relax
  simp only
  split <;> split <;> first | exact h | exact h.upd hnb _ | exact (h.upd hnb _).upd hnb _

theorem OutFresh.foldl_relax {Q : Type} {cost : Nd (List F) → Nd (List F) → C}
    {push : Store C (List F) → Q → Nd (List F) → Q} {cur : Nd (List F)} (N : List (Nd (List F)))
    (hN : ∀ n ∈ N, n ∈ na.flatten) (x : Store C (List F) × Q) (h : OutFresh na x.1) :
    OutFresh na (N.foldl (Search.relax cost push cur) x).1 := by
  induction N generalizing x with
  | nil => exact h
  | cons m N ih =>
    rw [List.foldl_cons]
    exact ih (fun n hn => hN n (List.mem_cons_of_mem _ hn)) _ (OutFresh.relax (hN m (by simp)) x h)

theorem OutFresh.genLoop {pq : PQ C (List F)} {cost : Nd (List F) → Nd (List F) → C}
    {nbs : Nd (List F) → List (Nd (List F))} (hnbs : ∀ u, ∀ n ∈ nbs u, n ∈ na.flatten)
    (dec : Nd (List F) → Bool) (fuel : Nat) (x : Store C (List F) × pq.Q) (goals : Nat)
    (h : OutFresh na x.1) (s' : Store C (List F)) (goals' : Nat)
    (hr : CppGraph.genLoop pq cost nbs dec fuel x goals = some (s', goals')) : OutFresh na s' := by
  induction fuel generalizing x goals with
  | zero =>
    obtain ⟨s, q⟩ := x
    unfold CppGraph.genLoop at hr
    split at hr
    · cases hr; exact h
    · split at hr
      · cases hr; exact h
      · cases hr
      · omega
  | succ fuel ih =>
    obtain ⟨s, q⟩ := x
    unfold CppGraph.genLoop at hr
    split at hr
    · cases hr; exact h
    · split at hr
      · cases hr; exact h
      · omega
      · rename_i cur q' fuel' _ hf
        cases hf
        exact ih _ _ (OutFresh.foldl_relax (nbs cur) (hnbs cur) (s, q') h) hr

theorem OutFresh.bfsLoop {cost : Nd (List F) → Nd (List F) → C}
    {nbs : Nd (List F) → List (Nd (List F))} (hnbs : ∀ u, ∀ n ∈ nbs u, n ∈ na.flatten) (fuel : Nat)
    (x : Store C (List F) × List (Nd (List F))) (h : OutFresh na x.1) (s' : Store C (List F))
    (hr : Search.bfsLoop cost nbs fuel x = some s') : OutFresh na s' := by
  induction fuel generalizing x with
  | zero =>
    obtain ⟨s, q⟩ := x
    cases q with
    | nil => simp [Search.bfsLoop] at hr; exact hr ▸ h
    | cons _ _ => simp [Search.bfsLoop] at hr
  | succ fuel ih =>
    obtain ⟨s, q⟩ := x
    cases q with
    | nil => simp [Search.bfsLoop] at hr; exact hr ▸ h
    | cons u q =>
      simp only [Search.bfsLoop] at hr
      exact ih _ (OutFresh.foldl_relax (cost := cost) (cur := u) (nbs u) (hnbs u) (s, q) h) hr

theorem OutFresh.startCol {Q : Type} {push : Store C (List F) → Q → Nd (List F) → Q}
    (col : List (Nd (List F))) (hcol : ∀ n ∈ col, n ∈ na.flatten) (x : Store C (List F) × Q)
    (h : OutFresh na x.1) : OutFresh na (Search.startCol push col x).1 := by
  induction col generalizing x with
  | nil => exact h
  | cons m col ih =>
    unfold Search.startCol at ih ⊢
    rw [List.foldl_cons]
    exact ih (fun n hn => hcol n (List.mem_cons_of_mem _ hn)) _ (h.upd (hcol m (by simp)) _)

variable {g : Graph F C} {cols : List (List (List F))} {d : Nat}

theorem nbs_flatten (g : Graph F C) : ∀ u, ∀ n ∈ g.getNeighbors u, n ∈ g.na.flatten := by
  intro u n hn
  unfold Graph.getNeighbors at hn
  split at hn
  · simp at hn
  · cases hc : g.na[u.pi + 1]? with
    | none => rw [hc] at hn; simp at hn
    | some col =>
      rw [hc] at hn
      exact List.mem_flatten.2 ⟨col, List.mem_of_getElem? hc, hn⟩

/-- What a run changes. -/
theorem finish_fields {g g' : Graph F C} (h : g.finish = .ok g') :
    ∃ c, g' = { g with shortestPathCost := c } := by
  unfold Graph.finish at h
  cases hp : g.getPathNodes with
  | error e => rw [hp] at h; cases h
  | ok p => rw [hp] at h; cases h; exact ⟨_, rfl⟩

theorem runBfs_fields {g g' : Graph F C} (h : g.runBfs = .ok g') (ho : OutFresh g.na g.store) :
    ∃ s c, g' = { g with store := s, pathFound := true, shortestPathCost := c } ∧
      OutFresh g.na s := by
  unfold Graph.runBfs at h
  split at h
  · cases h
  · rename_i start rest hna
    split at h
    · cases h
    · split at h
      · cases h
      · rename_i s hs
        obtain ⟨c, rfl⟩ := finish_fields h
        refine ⟨s, c, rfl, ?_⟩
        refine OutFresh.bfsLoop (nbs_flatten g) _ _ ?_ s hs
        refine OutFresh.startCol start ?_ _ ho
        intro n hn
        exact List.mem_flatten.2 ⟨start, by rw [hna]; simp, hn⟩

theorem runDijkstra_fields {pq : PQ C (List F)} {g g' : Graph F C} (h : g.runDijkstra pq = .ok g')
    (ho : OutFresh g.na g.store) :
    ∃ s c n, g' = { g with store := s, numGoals := n, pathFound := true, shortestPathCost := c } ∧
      OutFresh g.na s := by
  unfold Graph.runDijkstra at h
  split at h
  · cases h
  · rename_i start rest hna
    split at h
    · cases h
    · split at h
      · cases h
      · rename_i s goals hs
        obtain ⟨c, rfl⟩ := finish_fields h
        refine ⟨s, c, goals, rfl, ?_⟩
        rw [dijkstraLoop_eq] at hs
        refine OutFresh.genLoop (nbs_flatten g) _ _ _ _ ?_ s goals hs
        refine OutFresh.startCol start ?_ _ ho
        intro n hn
        exact List.mem_flatten.2 ⟨start, by rw [hna]; simp, hn⟩

/-- `reset` restores the state of all nodes after `init`. -/
theorem reset_eq (h : Ready g cols d) (ho : OutFresh g.na g.store) {last : List (Nd (List F))}
    (hl : g.na.getLast? = some last) :
    g.reset = .ok { g with store := fun _ _ => freshSt, maxPathIndex := cols.length - 1,
                           numGoals := last.length } := by
  unfold Graph.reset
  rw [hl]
  simp only [h.length]
  congr 2
  funext i j
  rw [PyGraph.foldl_upd_same]
  split
  · rfl
  · rename_i hn; exact ho i j hn

/-- A run does not look at the raw data, the success flag or the stored cost. -/
theorem finish_congr (g : Graph F C) (gd : List (List (List F))) (c : C) :
    Graph.finish { g with gd := gd, shortestPathCost := c } =
      (Graph.finish g).map fun r => { r with gd := gd } := by
  unfold Graph.finish
  have h1 : ({ g with gd := gd, shortestPathCost := c } : Graph F C).getPathNodes =
    g.getPathNodes := rfl
  rw [h1]
  cases g.getPathNodes with
  | error e => rfl
  | ok p =>
    have h2 : ({ g with gd := gd, shortestPathCost := c } : Graph F C).pathCostFrom 0 p =
        g.pathCostFrom 0 p := by
      rw [pathCostFrom_eq, pathCostFrom_eq]
    simp only [bind, Except.bind, h2, Except.map]

theorem runBfs_congr (g : Graph F C) (gd : List (List (List F))) (pf : Bool) (c : C) :
    Graph.runBfs { g with gd := gd, pathFound := pf, shortestPathCost := c } =
      (Graph.runBfs g).map fun r => { r with gd := gd } := by
  unfold Graph.runBfs
  simp only
  split
  · rfl
  · rename_i start rest hna
    have hd : ({ g with gd := gd, pathFound := pf, shortestPathCost := c } : Graph F C).dimsOk =
      g.dimsOk := rfl
    rw [hd]
    split
    · rfl
    · have h1 : ({ g with gd := gd, pathFound := pf, shortestPathCost := c } :
          Graph F C).edgeCost = g.edgeCost := rfl
      have h2 : ({ g with gd := gd, pathFound := pf, shortestPathCost := c } :
          Graph F C).getNeighbors = g.getNeighbors := rfl
      have h3 : ({ g with gd := gd, pathFound := pf, shortestPathCost := c } :
          Graph F C).fuel = g.fuel := rfl
      rw [h1, h2, h3]
      split
      · rfl
      · rename_i s _
        exact finish_congr { g with store := s, pathFound := true } gd c

theorem runDijkstra_congr (pq : PQ C (List F)) (g : Graph F C) (gd : List (List (List F)))
    (pf : Bool) (c : C) :
    Graph.runDijkstra pq { g with gd := gd, pathFound := pf, shortestPathCost := c } =
      (Graph.runDijkstra pq g).map fun r => { r with gd := gd } := by
  unfold Graph.runDijkstra
  simp only
  split
  · rfl
  · rename_i start rest hna
    have hd : ({ g with gd := gd, pathFound := pf, shortestPathCost := c } : Graph F C).dimsOk =
      g.dimsOk := rfl
    rw [hd]
    split
    · rfl
    · have h1 : ({ g with gd := gd, pathFound := pf, shortestPathCost := c } :
          Graph F C).edgeCost = g.edgeCost := rfl
      have h2 : ({ g with gd := gd, pathFound := pf, shortestPathCost := c } :
          Graph F C).getNeighbors = g.getNeighbors := rfl
      have h3 : ({ g with gd := gd, pathFound := pf, shortestPathCost := c } :
          Graph F C).fuel = g.fuel := rfl
      rw [h1, h2, h3]
      split
      · rfl
      · rename_i s n _
        exact finish_congr { g with store := s, numGoals := n, pathFound := true } gd c

theorem calls_append (pq : PQ C (List F)) (g : Graph F C) (a b : List (Op F)) :
    g.calls pq (a ++ b) = (do
      let (g, o1) ← g.calls pq a
      let (g, o2) ← g.calls pq b
      .ok (g, o1 ++ o2)) := by
  induction a generalizing g with
  | nil =>
    simp only [List.nil_append, Graph.calls, bind, Except.bind]
    cases g.calls pq b <;> rfl
  | cons op a ih =>
    simp only [List.cons_append, Graph.calls, bind, Except.bind]
    cases g.call pq op with
    | error e => rfl
    | ok r =>
      simp only [ih, bind, Except.bind]
      cases r.1.calls pq a with
      | error e => rfl
      | ok r' =>
        simp only
        cases r'.1.calls pq b <;> rfl

/-- The calls that load the columns. -/
def loadOps (d : Nat) (cols : List (List (List F))) : List (Op F) :=
  cols.map fun c => .addColumn c.flatten c.length d

/-- Weights (optional), columns, `init`. -/
def setup (w : Option (List F)) (d : Nat) (cols : List (List (List F))) : List (Op F) :=
  w.toList.map .setWeights ++ loadOps d cols ++ [.init]

theorem load_calls (pq : PQ C (List F)) (g : Graph F C)
    (hdim : ∀ col ∈ cols, ∀ r ∈ col, r.length = d) :
    ∃ outs, g.calls pq (loadOps d cols) = .ok ({ g with gd := g.gd ++ cols }, outs) := by
  induction cols generalizing g with
  | nil => exact ⟨[], by simp [loadOps, Graph.calls]⟩
  | cons c cs ih =>
    obtain ⟨outs, h⟩ := ih { g with gd := g.gd ++ [c] }
      (fun col hc => hdim col (List.mem_cons_of_mem _ hc))
    refine ⟨.unit :: outs, ?_⟩
    unfold loadOps at h ⊢
    simp only [List.map_cons, Graph.calls, Graph.call, bind, Except.bind,
      addDataColumn_ok g c (hdim c (by simp)), h]
    simp

/-- The state after `setup`. -/
structure AfterInit (g : Graph F C) (cols : List (List (List F))) (d : Nat) (w : List F) : Prop where
  ready : Ready g cols d
  phase : Phase g true
  store : g.store = fun _ _ => freshSt
  goals : ∀ last, g.na.getLast? = some last → g.numGoals = last.length
  found : g.pathFound = false
  wts : g.weights = w
  gd : g.gd = cols

theorem setup_calls (pq : PQ C (List F)) (hp : Proper cols d) (w : Option (List F)) :
    ∃ g outs, (Graph.new : Graph F C).calls pq (setup w d cols) = .ok (g, outs) ∧
      AfterInit g cols d (effWeights C d (w.getD [])) := by
  obtain ⟨g0, o1, h1, hgd, hna, hst, hw0⟩ : ∃ (g0 : Graph F C) (o1 : List (Out C)),
      (Graph.new : Graph F C).calls pq (w.toList.map .setWeights) = .ok (g0, o1) ∧
      g0.gd = [] ∧ g0.na = [] ∧ (∀ i j, g0.store i j = freshSt) ∧ g0.weights = w.getD [] := by
    cases w with
    | none => exact ⟨_, [], rfl, rfl, rfl, fun _ _ => rfl, rfl⟩
    | some w => exact ⟨_, [.unit], rfl, rfl, rfl, fun _ _ => rfl, rfl⟩
  obtain ⟨o2, h2⟩ := load_calls pq g0 hp.dim
  rw [hgd, List.nil_append] at h2
  obtain ⟨s, hd1, hd2⟩ := dataToNodes_new { g0 with gd := cols } hna hst
  obtain ⟨g, hi, hr, hph, hf, hwt⟩ := init_spec (g := { g0 with gd := cols }) hp hna hst
  have hext : g.store = (fun _ _ => freshSt) ∧
      (∀ last, g.na.getLast? = some last → g.numGoals = last.length) ∧ g.gd = cols := by
    have hi' := hi
    unfold Graph.init at hi'
    rw [hd1] at hi'
    simp only at hi'
    split at hi'
    · cases hi'
    · rename_i last hlast
      split at hi'
      · cases hi'
        refine ⟨funext fun i => funext fun j => hd2 i j, ?_, rfl⟩
        intro last' hl'
        rw [hlast] at hl'
        cases hl'; rfl
      · cases hi'
  refine ⟨g, o1 ++ o2 ++ [.unit], ?_, ⟨hr, hph, hext.1, hext.2.1, hf, by rw [hwt]; exact congrArg _ hw0,
    hext.2.2⟩⟩
  unfold setup
  rw [calls_append, calls_append, h1]
  simp only [bind, Except.bind]
  rw [h2]
  simp only [Graph.calls, Graph.call, bind, Except.bind]
  rw [hi]

/-! ## Histories after `init` -/

/-- A later call is proper: no second `init`, new weights for all joints and without overflow, new
columns with complete buffers. -/
def Later (C : Type) [CostArith C] [JointArith F C] (cols : List (List (List F))) (d : Nat) :
    Op F → Prop
  | .init => False
  | .setWeights w => d ≤ w.length ∧ FiniteSteps C w cols
  | .addColumn mat nrows ncols => mat.length = nrows * ncols
  | _ => True

/-- What is known about the graph after `init` and later calls. -/
structure Hist (g : Graph F C) (cols : List (List (List F))) (d : Nat) (found fresh : Bool) :
    Prop where
  ready : Ready g cols d
  phase : Phase g fresh
  flag : g.pathFound = found
  fin : FiniteSteps C g.weights cols
  out : OutFresh g.na g.store
  imp : fresh = false → found = true

theorem addDataColumn_total (g : Graph F C) (mat : List F) (nrows ncols : Nat)
    (h : mat.length = nrows * ncols) :
    ∃ col, g.addDataColumn mat nrows ncols = .ok { g with gd := g.gd ++ [col] } := by
  obtain ⟨rows, hrl, hrr, hfl⟩ : ∃ rows : List (List F), rows.length = nrows ∧
      (∀ r ∈ rows, r.length = ncols) ∧ rows.flatten = mat := by
    induction nrows generalizing mat with
    | zero => exact ⟨[], rfl, by simp, by simp at h; simp [h]⟩
    | succ n ih =>
      obtain ⟨rows, h1, h2, h3⟩ := ih (mat.drop ncols) (by
        rw [List.length_drop, h, Nat.succ_mul]; omega)
      refine ⟨mat.take ncols :: rows, by simp [h1], ?_, ?_⟩
      · intro r hr
        rcases List.mem_cons.1 hr with rfl | hr
        · rw [List.length_take, h, Nat.succ_mul]; omega
        · exact h2 r hr
      · rw [List.flatten_cons, h3, List.take_append_drop]
  exact ⟨rows, by rw [← hfl, ← hrl]; exact addDataColumn_ok g rows hrr⟩

theorem Hist.getPath_fresh {found : Bool} (h : Hist g cols d found true) (hf : found = true)
    (n : Nat) : g.getPath n = .error .nullDeref := by
  obtain ⟨last, hl, _, _⟩ := h.ready.last
  have hn : g.getPathNodes = .error .nullDeref := by
    unfold Graph.getPathNodes
    rw [if_pos (by rw [h.flag, hf]), hl]
    simp only [closest_eq]
    rcases PyGraph.closest_spec g.store last with ⟨h1, _⟩ | ⟨v, hv, h1, h2, _⟩
    · rw [h1]
    · rw [(h.phase.1 last (List.mem_of_getLast? hl) v hv).1] at h2
      exact absurd h2 (lt_irrefl _)
  unfold Graph.getPath
  rw [if_pos (by rw [h.flag, hf]), hn]
  rfl

theorem Hist.getPath_ok {found fresh : Bool} (h : Hist g cols d found fresh)
    (hf : (found && fresh) = false) (n : Nat) : ∃ r, g.getPath n = .ok r := by
  unfold Graph.getPath
  cases found with
  | false => rw [if_neg (by rw [h.flag]; simp)]; exact ⟨_, rfl⟩
  | true =>
    simp only [Bool.true_and] at hf
    subst hf
    rw [if_pos h.flag]
    obtain ⟨last, _, v, _, c, p, hp, _⟩ := pathNodes_valid h.ready.wf h.phase.1 h.phase.2 h.flag
    rw [hp]
    simp only [bind, Except.bind]
    split
    · exact ⟨_, rfl⟩
    · exact ⟨_, rfl⟩

/-- Effect of a later call on the two flags. -/
def flagsAfter : Op F → Bool × Bool → Bool × Bool
  | .reset, (found, _) => (found, true)
  | .runBfs, _ => (true, false)
  | .runDijkstra, _ => (true, false)
  | _, x => x

/-- `get_path` is the only later call that can go wrong: after a run and a reset without a run in
between. -/
def badCall : Op F → Bool × Bool → Bool
  | .getPath _, (found, fresh) => found && fresh
  | _, _ => false

theorem Hist.step (hno : PyGraph.NoOverflow C) {pq : PQ C (List F)} (hl : Lawful pq)
    {found fresh : Bool} (h : Hist g cols d found fresh) {op : Op F} (hop : Later C cols d op) :
    (badCall op (found, fresh) = true → g.call pq op = .error .nullDeref) ∧
    (badCall op (found, fresh) = false → ∃ g' o, g.call pq op = .ok (g', o) ∧
      Hist g' cols d (flagsAfter op (found, fresh)).1 (flagsAfter op (found, fresh)).2 ∧
      g'.na = g.na) := by
  cases op with
  | init => exact hop.elim
  | addColumn mat nrows ncols =>
    refine ⟨by simp [badCall], fun _ => ?_⟩
    obtain ⟨col, hc⟩ := addDataColumn_total g mat nrows ncols hop
    refine ⟨{ g with gd := g.gd ++ [col] }, .unit, by simp [Graph.call, hc, bind, Except.bind],
      ⟨⟨h.ready.na, h.ready.ne, h.ready.col, h.ready.dim, h.ready.wt, h.ready.mpi⟩, ?_, h.flag,
        h.fin, h.out, h.imp⟩, rfl⟩
    exact h.phase
  | setWeights w =>
    refine ⟨by simp [badCall], fun _ => ⟨g.setWeights w, .unit, rfl,
      ⟨⟨h.ready.na, h.ready.ne, h.ready.col, h.ready.dim, hop.1, h.ready.mpi⟩, h.phase, h.flag,
        hop.2, h.out, h.imp⟩, rfl⟩⟩
  | reset =>
    refine ⟨by simp [badCall], fun _ => ?_⟩
    obtain ⟨g', h1, h2, h3, h4, h5⟩ := reset_spec h.ready
    obtain ⟨last, hlast, _, _⟩ := h.ready.last
    have h6 := reset_eq h.ready h.out hlast
    rw [h1] at h6
    have h7 : g' = _ := Except.ok.inj h6
    refine ⟨g', .unit, by simp [Graph.call, h1, bind, Except.bind],
      ⟨h2, h3, by rw [h4, h.flag]; rfl, by rw [h5]; exact h.fin, ?_, by simp [flagsAfter]⟩, ?_⟩
    · rw [h7]; exact fun _ _ _ => rfl
    · rw [h7]
  | runBfs =>
    refine ⟨by simp [badCall], fun _ => ?_⟩
    obtain ⟨g', h1, h2, h3, h4, h5, _⟩ := runBfs_valid hno h.ready h.fin h.phase
    obtain ⟨s, c, h6, h7⟩ := runBfs_fields h1 h.out
    refine ⟨g', .unit, by simp [Graph.call, h1, bind, Except.bind],
      ⟨h2, h3, h4, by rw [h5]; exact h.fin, by rw [h6]; exact h7, fun _ => rfl⟩, by rw [h6]⟩
  | runDijkstra =>
    refine ⟨by simp [badCall], fun _ => ?_⟩
    obtain ⟨g', h1, h2, h3, h4, h5, _⟩ := runDijkstra_spec hno h.ready h.fin h.phase hl
    obtain ⟨s, c, n, h6, h7⟩ := runDijkstra_fields h1 h.out
    refine ⟨g', .unit, by simp [Graph.call, h1, bind, Except.bind],
      ⟨h2, h3, h4, by rw [h5]; exact h.fin, by rw [h6]; exact h7, fun _ => rfl⟩, by rw [h6]⟩
  | getPath n =>
    constructor
    · intro hb
      simp only [badCall, Bool.and_eq_true] at hb
      obtain ⟨hb1, rfl⟩ := hb
      simp [Graph.call, h.getPath_fresh hb1 n, bind, Except.bind]
    · intro hb
      obtain ⟨r, hr⟩ := h.getPath_ok hb n
      exact ⟨g, .path r, by simp [Graph.call, hr, bind, Except.bind], h, rfl⟩
  | getPathCost =>
    exact ⟨by simp [badCall], fun _ => ⟨g, .cost g.getPathCost, rfl, h, rfl⟩⟩

end Verif.ShortestPath
