import Verif.Model.ShortestPath
import Verif.Proofs.TwoColumns

/-! # Lemmas about `planning.get_shortest_path` -/

set_option linter.unusedSectionVars false

namespace Verif.ShortestPath

open Verif.CppGraph Verif.Search Verif.Spec

variable {F C : Type} [CostArith C] [JointArith F C]

theorem mapM_ok {ε α β : Type} (l : List α) (f : α → Except ε β) (g : α → β)
    (h : ∀ x ∈ l, f x = .ok (g x)) : l.mapM f = .ok (l.map g) := by
  induction l with
  | nil => rfl
  | cons x l ih =>
    rw [List.mapM_cons, h x (by simp), ih (fun y hy => h y (List.mem_cons_of_mem _ hy))]
    rfl

theorem flatten_getElem? {n : Nat} (rows : List (List F)) (h : ∀ r ∈ rows, r.length = n) (i j : Nat)
    (hj : j < n) : rows.flatten[j + n * i]? = (rows[i]?).bind (fun r => r[j]?) := by
  induction rows generalizing i with
  | nil => simp
  | cons r rows ih =>
    have hr := h r (by simp)
    rw [List.flatten_cons]
    cases i with
    | zero => simp [List.getElem?_append_left, hr, hj]
    | succ i =>
      rw [List.getElem?_append_right (by rw [hr, Nat.mul_succ]; omega), hr]
      have : j + n * (i + 1) - n = j + n * i := by rw [Nat.mul_succ]; omega
      rw [this, ih (fun r' h' => h r' (List.mem_cons_of_mem _ h'))]
      simp

theorem mapM_range_getElem {ε β : Type} (r : List β) (f : Nat → Except ε β)
    (h : ∀ (j : Nat) (x : β), r[j]? = some x → f j = .ok x) : (List.range r.length).mapM f = .ok r := by
  rcases r with _ | ⟨x0, r⟩
  · rfl
  · generalize hR : x0 :: r = R at *
    rw [mapM_ok _ f (fun j => R.getD j x0)]
    · congr 1
      apply List.ext_getElem?
      intro j
      simp only [List.getElem?_map]
      by_cases hj : j < R.length
      · simp [hj, List.getD]
      · simp [Nat.le_of_not_lt hj]
    · intro j hj
      have hj' : j < R.length := by simpa using hj
      rw [h j R[j] (List.getElem?_eq_getElem hj')]
      simp [List.getD, hj']

theorem readRow_ok {n : Nat} (rows : List (List F)) (h : ∀ r ∈ rows, r.length = n) (i : Nat)
    (r : List F) (hr : rows[i]? = some r) : readRow rows.flatten n i = .ok r := by
  have hlen := h r (List.mem_of_getElem? hr)
  unfold readRow
  rw [← hlen]
  apply mapM_range_getElem
  intro j x hx
  have hj : j < n := by rw [← hlen]; exact (List.getElem?_eq_some_iff.1 hx).1
  rw [hlen, flatten_getElem? rows h i j hj, hr]
  simp [hx]

theorem addDataColumn_ok {n : Nat} (g : Graph F C) (rows : List (List F))
    (h : ∀ r ∈ rows, r.length = n) :
    g.addDataColumn rows.flatten rows.length n = .ok { g with gd := g.gd ++ [rows] } := by
  unfold Graph.addDataColumn
  rw [mapM_range_getElem rows _ (fun i r hr => readRow_ok rows h i r hr)]
  rfl

/-! ## Graphs after `init` -/

/-- No row is longer than a row of the column before it, nor longer than `d`. -/
def Narrowing (cols : List (List (List F))) (d : Nat) : Prop :=
  ∀ (i : Nat) (c c' : List (List F)), cols[i]? = some c → cols[i + 1]? = some c' →
    ∀ r ∈ c, ∀ r' ∈ c', r'.length ≤ r.length ∧ r'.length ≤ d

theorem narrowing_of_eq {cols : List (List (List F))} {d : Nat}
    (h : ∀ col ∈ cols, ∀ r ∈ col, r.length = d) : Narrowing cols d := by
  intro i c c' hc hc' r hr r' hr'
  rw [h c (List.mem_of_getElem? hc) r hr, h c' (List.mem_of_getElem? hc') r' hr']
  exact ⟨le_rfl, le_rfl⟩

/-- The state after `init` on proper data (and after any later call that keeps the weights long
enough). -/
structure Ready (g : Graph F C) (cols : List (List (List F))) (d : Nat) : Prop where
  na : g.na = PyGraph.dataToNodeArray cols
  ne : cols ≠ []
  col : ∀ col ∈ cols, col ≠ []
  dim : Narrowing cols d
  wt : d ≤ g.weights.length
  mpi : g.maxPathIndex = cols.length - 1

variable {g : Graph F C} {cols : List (List (List F))} {d : Nat}

theorem Ready.wf (h : Ready g cols d) : WFna g.na := by rw [h.na]; exact PyGraph.wf_nodeArray _

theorem Ready.dimsOk (h : Ready g cols d) : g.dimsOk = true := by
  unfold Graph.dimsOk
  rw [List.all_eq_true]
  rintro ⟨a, b⟩ hab
  obtain ⟨i, hi⟩ := List.getElem?_of_mem hab
  rw [List.getElem?_zip_eq_some, List.getElem?_tail] at hi
  obtain ⟨ha, hb⟩ := hi
  simp only [List.all_eq_true, Bool.and_eq_true, decide_eq_true_eq]
  intro u hu v hv
  have hpu := h.wf.pi_of_mem ha hu
  have hpv := h.wf.pi_of_mem hb hv
  rw [h.na, ← hpu] at ha
  rw [h.na, ← hpv] at hb
  obtain ⟨c, hc1, hc2⟩ := PyGraph.node_lookup ha hu
  obtain ⟨c', hd1, hd2⟩ := PyGraph.node_lookup hb hv
  rw [hpu] at hc1
  rw [hpv] at hd1
  obtain ⟨h1, h2⟩ := h.dim i c c' hc1 hd1 _ (List.mem_of_getElem? hc2) _ (List.mem_of_getElem? hd2)
  exact ⟨h1, h2.trans h.wt⟩

theorem Ready.length (h : Ready g cols d) : g.na.length = cols.length := by
  rw [h.na, PyGraph.nodeArray_length]

theorem Ready.colne (h : Ready g cols d) : ∀ col ∈ g.na, col ≠ [] := by
  intro col hc
  obtain ⟨i, hi⟩ := List.getElem?_of_mem hc
  rw [h.na, PyGraph.nodeArray_getElem?] at hi
  cases hd : cols[i]? with
  | none => rw [hd] at hi; simp at hi
  | some c =>
    rw [hd] at hi
    simp only [Option.map_some, Option.some.injEq] at hi
    have := h.col c (List.mem_of_getElem? hd)
    intro he
    rw [he] at hi
    exact this (by simpa using hi)

theorem Ready.start (h : Ready g cols d) : ∃ start rest, g.na = start :: rest := by
  have := h.length
  have h2 := List.length_pos_iff.2 h.ne
  rcases hn : g.na with _ | ⟨s, r⟩
  · rw [hn] at this; simp at this; omega
  · exact ⟨s, r, rfl⟩

theorem Ready.last (h : Ready g cols d) : ∃ last, g.na.getLast? = some last ∧
    g.na[cols.length - 1]? = some last ∧ last ≠ [] := by
  obtain ⟨s, r, hn⟩ := h.start
  have hne : g.na ≠ [] := by rw [hn]; simp
  refine ⟨g.na.getLast hne, List.getLast?_eq_some_getLast hne, ?_, h.colne _ (List.getLast_mem hne)⟩
  rw [← h.length, ← List.getLast?_eq_getElem?, List.getLast?_eq_some_getLast hne]

theorem Ready.data (h : Ready g cols d) : dataOf g.na = cols := by
  rw [h.na, PyGraph.dataOf_nodeArray]

/-- The step cost in the order of travel: from configuration `x` to `y` the code evaluates
`cost_function_2(y, x)`. -/
def stepCost (C : Type) [CostArith C] [JointArith F C] (w x y : List F) : C := costFn2 w y x

/-- What a caller sees after a successful run. -/
structure Answer (g : Graph F C) (cols : List (List (List F))) (idx : List Int)
    (path : List (List F)) : Prop where
  nodes : ∃ p, g.getPathNodes = .ok p
  get : g.getPath cols.length = .ok (some idx)
  idx_ne : idx ≠ []
  nonneg : ∀ i ∈ idx, 0 ≤ i
  conv : PyGraph.pathIndexToPath idx cols = .ok path
  sel : IsSelection cols path
  cost : g.getPathCost = costL (stepCost C g.weights) path

theorem finish_walk (h : Ready g cols d) (hf : g.pathFound = true)
    {last : List (Nd (List F))} (hl : g.na.getLast? = some last) {v : Nd (List F)} (hv : v ∈ last)
    {c : C} {p : List (Nd (List F))} (hp : g.getPathNodes = .ok p.reverse)
    (hw : Walk g.na (fun _ _ => true) g.edgeCost 0 v c p) :
    g.finish = .ok { g with shortestPathCost := c } ∧
    ∃ idx path, Answer { g with shortestPathCost := c } cols idx path ∧
      costL (stepCost C g.weights) path = c := by
  have hwf := h.wf
  have hpc := walk_cost hwf hw
  obtain ⟨last', hl', hl2, hlne⟩ := h.last
  rw [hl] at hl'; cases hl'
  have hvpi := hwf.pi_of_mem hl2 hv
  have hpos := List.length_pos_iff.2 h.ne
  obtain ⟨hs1, _, hs3⟩ := walk_selection (R := fun _ _ => True) (g := stepCost C g.weights) hwf
    (fun _ _ _ => trivial) (fun u v => rfl) hw
  have hsel : IsSelection cols (p.reverse.map Nd.data) := by
    rw [h.data, hvpi, show cols.length - 1 + 1 = cols.length by omega, List.take_length] at hs1
    exact hs1
  obtain ⟨hpi, hp0⟩ := hw.pi_eq hwf
  refine ⟨by simp [Graph.finish, hp, bind, Except.bind, hpc],
    p.reverse.map (fun x => (x.si : Int)), p.reverse.map Nd.data, ⟨?_, ?_, ?_, ?_, ?_, hsel, ?_⟩, hs3⟩
  · exact ⟨_, hp⟩
  · have : ({ g with shortestPathCost := c } : Graph F C).getPathNodes = .ok p.reverse := hp
    unfold Graph.getPath
    rw [if_pos hf, this]
    have hlen : cols.length = p.reverse.length := by
      rw [← isSelection_length hsel]; simp
    simp only [bind, Except.bind]
    rw [if_neg (by rw [hlen]; simp)]
  · intro he; simp at he; subst he; simp at hp0
  · intro i hi
    simp at hi
    obtain ⟨n, _, rfl⟩ := hi
    omega
  · obtain ⟨hc1, hc2⟩ := PyGraph.walk_nodes hwf hw
    refine PyGraph.pathIndexFrom_spec cols 0 _ hc1 ?_
    intro n hn
    obtain ⟨col, hcol, hm⟩ := hc2 n (List.mem_reverse.1 hn)
    rw [h.na] at hcol
    exact PyGraph.node_lookup hcol hm
  · exact hs3.symm

/-- A selection of finite cost, as a walk. -/
theorem Ready.walk (h : Ready g cols d) {p : List (List F)} (hp : IsSelection cols p) :
    ∃ v q, Walk g.na (fun _ _ => true) g.edgeCost 0 v (costL (stepCost C g.weights) p) q ∧
      v.pi = cols.length - 1 := by
  have hpos := List.length_pos_iff.2 h.ne
  obtain ⟨v, q, h1, h2, _⟩ := selection_walk (na := g.na) (ok := fun _ _ => true)
    (cost := g.edgeCost) (R := fun _ _ => True) (g := stepCost C g.weights) h.wf
    (fun _ _ _ => rfl) (fun u v => rfl) (k := cols.length - 1) (q := p)
    (by rw [h.length]; omega)
    (by rw [h.data, show cols.length - 1 + 1 = cols.length by omega, List.take_length]; exact hp)
    (by
      induction p generalizing cols with
      | nil => simp
      | cons x p ih => clear ih; clear hp; induction p generalizing x with
        | nil => simp
        | cons y p ih2 => rw [List.isChain_cons_cons]; exact ⟨trivial, ih2 y⟩)
  exact ⟨v, q, h1, h2⟩

theorem Ready.lastmem (h : Ready g cols d) {last : List (Nd (List F))}
    (hl : g.na[cols.length - 1]? = some last) {v : Nd (List F)} {c : C} {q : List (Nd (List F))}
    (hw : Walk g.na (fun _ _ => true) g.edgeCost 0 v c q) (hv : v.pi = cols.length - 1) :
    v ∈ last := by
  obtain ⟨col, hc, hm⟩ := hw.mem_col h.wf
  rw [hv, hl] at hc
  cases hc; exact hm

/-- All nodes unvisited. -/
def AllFresh (g : Graph F C) : Prop := ∀ col ∈ g.na, ∀ v ∈ col, FreshAt .dummy g.store v

theorem runBfs_cons {start : List (Nd (List F))} {rest : List (List (Nd (List F)))}
    (hna : g.na = start :: rest) (hd : g.dimsOk = true) {s : Store C (List F)}
    (hs : bfsLoop g.edgeCost g.getNeighbors g.fuel (startCol fifoPush start (g.store, [])) =
      some s) : g.runBfs = Graph.finish { g with store := s, pathFound := true } := by
  unfold Graph.runBfs
  split
  · rename_i h; rw [h] at hna; cases hna
  · rename_i h
    rw [h] at hna; cases hna
    rw [if_neg (by rw [hd]; simp)]
    rw [hs]

theorem runDijkstra_cons {start : List (Nd (List F))} {rest : List (List (Nd (List F)))}
    (hna : g.na = start :: rest) (hd : g.dimsOk = true) {s : Store C (List F)} {pq : PQ C (List F)}
    {goals : Nat}
    (hs : dijkstraLoop pq g.edgeCost g.getNeighbors g.maxPathIndex g.fuel
      (startCol pq.push start (g.store, pq.empty)) g.numGoals = some (s, goals)) :
    g.runDijkstra pq = Graph.finish { g with store := s, numGoals := goals, pathFound := true } := by
  unfold Graph.runDijkstra
  split
  · rename_i h; rw [h] at hna; cases hna
  · rename_i h
    rw [h] at hna; cases hna
    rw [if_neg (by rw [hd]; simp)]
    rw [hs]

/-- One breadth-first run on a searched or fresh graph. -/
theorem runBfs_spec (h : Ready g cols d) (hst : AllFresh g ∨ CppGraph.Searched g g.store)
    (hex : ∃ p, IsSelection cols p ∧ costL (stepCost C g.weights) p < ⊤) :
    ∃ s c, g.runBfs = .ok { g with store := s, pathFound := true, shortestPathCost := c } ∧
      CppGraph.Searched g s ∧
      (CppGraph.Searched g g.store → s = g.store) ∧
      ∃ idx path, Answer { g with store := s, pathFound := true, shortestPathCost := c } cols idx path ∧
        costL (stepCost C g.weights) path = c ∧
        ∀ p, IsSelection cols p → c ≤ costL (stepCost C g.weights) p := by
  obtain ⟨start, rest, hna⟩ := h.start
  have hrun : ∃ s, bfsLoop g.edgeCost g.getNeighbors g.fuel
      (startCol fifoPush start (g.store, [])) = some s ∧ CppGraph.Searched g s ∧
      (CppGraph.Searched g g.store → s = g.store) := by
    by_cases hs : CppGraph.Searched g g.store
    · exact ⟨g.store, bfs_again h.wf hna hs rfl, hs, fun _ => rfl⟩
    · rcases hst with hfr | hs'
      · obtain ⟨s, h1, h2⟩ := bfs_fresh h.wf hna hfr
        exact ⟨s, h1, h2, fun hc => absurd hc hs⟩
      · exact absurd hs' hs
  obtain ⟨s, hs, hsearched, hsame⟩ := hrun
  obtain ⟨last, hl, hl2, hlne⟩ := h.last
  have h' : Ready { g with store := s, pathFound := true } cols d :=
    ⟨h.na, h.ne, h.col, h.dim, h.wt, h.mpi⟩
  obtain ⟨p0, hp0, hp0t⟩ := hex
  obtain ⟨v0, q0, hw0, hv0⟩ := h.walk hp0
  obtain ⟨v, hv, p, hp, hw, hpc, hmin⟩ := pathNodes_searched
    (g := { g with store := s, pathFound := true }) h.wf hl hsearched rfl
    ⟨v0, h.lastmem hl2 hw0 hv0, _, q0, hw0, hp0t⟩
  obtain ⟨hfin, idx, path, hans, hcost⟩ := finish_walk h' rfl hl hv hp hw
  refine ⟨s, (s.at v).dist, ?_, hsearched, hsame, idx, path, hans, hcost, ?_⟩
  · rw [runBfs_cons hna h.dimsOk hs]; exact hfin
  · intro p hp
    obtain ⟨u, q, hw, hu⟩ := h.walk hp
    exact hmin u (h.lastmem hl2 hw hu) _ q hw

/-- Finite step costs on the data at hand. -/
def FiniteSteps (C : Type) [CostArith C] [JointArith F C] (w : List F)
    (cols : List (List (List F))) : Prop :=
  ∀ x ∈ cols.flatten, ∀ y ∈ cols.flatten, stepCost C w x y < ⊤

theorem Ready.inData (h : Ready g cols d) {v : Nd (List F)} (hv : InNa g.na v) :
    v.data ∈ cols.flatten := by
  obtain ⟨col, hc, hm⟩ := hv
  rw [h.na] at hc
  obtain ⟨c, h1, h2⟩ := PyGraph.node_lookup hc hm
  exact List.mem_flatten.2 ⟨c, List.mem_of_getElem? h1, List.mem_of_getElem? h2⟩

theorem Ready.fin (h : Ready g cols d) (hfin : FiniteSteps C g.weights cols) :
    ∀ u v, InNa g.na u → InNa g.na v → g.edgeCost u v < ⊤ :=
  fun _ _ hu hv => hfin _ (h.inData hu) _ (h.inData hv)

theorem AllFresh.at (_h : Ready g cols d) (hf : AllFresh g) :
    ∀ v, InNa g.na v → FreshAt .dummy g.store v := by
  rintro v ⟨col, hc, hm⟩
  exact hf col (List.mem_of_getElem? hc) v hm

theorem AllFresh.valid (hf : AllFresh g) : Valid g.na g.store := by
  intro i col hc v hv hd
  rw [(hf col (List.mem_of_getElem? hc) v hv).1] at hd
  exact absurd hd (lt_irrefl _)

/-- The state of the search: nothing searched since the last reset, or a goal is reached. -/
def Phase (g : Graph F C) (fresh : Bool) : Prop :=
  if fresh then AllFresh g ∧ g.numGoals ≠ 0 else Valid g.na g.store ∧ GoalReached g.na g.store

theorem Phase.valid {fresh : Bool} (h : Phase g fresh) : Valid g.na g.store := by
  cases fresh
  · exact h.1
  · exact h.1.valid

theorem Phase.start (h : Ready g cols d) {fresh : Bool} (hp : Phase g fresh) :
    ((∀ v, InNa g.na v → FreshAt .dummy g.store v) ∧ g.numGoals ≠ 0) ∨
      GoalReached g.na g.store := by
  cases fresh
  · exact Or.inr hp.2
  · exact Or.inl ⟨hp.1.at h, hp.2⟩

theorem finish_valid {s : Store C (List F)} {goals : Nat} (h : Ready g cols d)
    (hval : Valid g.na s) (hgoal : GoalReached g.na s) :
    ∃ g', Graph.finish { g with store := s, numGoals := goals, pathFound := true } = .ok g' ∧
      Ready g' cols d ∧ Phase g' false ∧ g'.pathFound = true ∧ g'.weights = g.weights ∧
      ∃ idx path, Answer g' cols idx path := by
  have h' : Ready { g with store := s, numGoals := goals, pathFound := true } cols d :=
    ⟨h.na, h.ne, h.col, h.dim, h.wt, h.mpi⟩
  obtain ⟨last, hl, v, hv, c, p, hp, hw, _⟩ := pathNodes_valid
    (g := { g with store := s, numGoals := goals, pathFound := true }) h.wf hval hgoal rfl
  obtain ⟨hfin, idx, path, hans, _⟩ := finish_walk h' rfl hl hv hp hw
  exact ⟨_, hfin, ⟨h.na, h.ne, h.col, h.dim, h.wt, h.mpi⟩, ⟨hval, hgoal⟩, rfl, rfl, idx, path, hans⟩

theorem Ready.dec (h : Ready g cols d) : ∀ v, InNa g.na v →
    decide (v.pi = g.maxPathIndex) = true → v.pi + 1 = g.na.length := by
  intro v _ hd
  have hpos := List.length_pos_iff.2 h.ne
  have := h.mpi
  have := h.length
  have := of_decide_eq_true hd
  omega

theorem runDijkstra_spec (hno : PyGraph.NoOverflow C) (h : Ready g cols d)
    (hfin : FiniteSteps C g.weights cols) {fresh : Bool} (hp : Phase g fresh)
    {pq : PQ C (List F)} (hl : Lawful pq) :
    ∃ g', g.runDijkstra pq = .ok g' ∧ Ready g' cols d ∧ Phase g' false ∧ g'.pathFound = true ∧
      g'.weights = g.weights ∧ ∃ idx path, Answer g' cols idx path := by
  obtain ⟨start, rest, hna⟩ := h.start
  obtain ⟨s', goals', hr, hval, hgoal⟩ := search_spec (cost := g.edgeCost) h.wf hno (h.fin hfin)
    h.colne (start := start) (by rw [hna]; rfl) hl
    (fun n => decide (n.pi = g.maxPathIndex)) h.dec hp.valid g.numGoals (hp.start h)
  rw [← dijkstraLoop_eq, ← getNeighbors_eq] at hr
  rw [runDijkstra_cons hna h.dimsOk hr]
  exact finish_valid h hval hgoal

theorem runBfs_valid (hno : PyGraph.NoOverflow C) (h : Ready g cols d)
    (hfin : FiniteSteps C g.weights cols) {fresh : Bool} (hp : Phase g fresh) :
    ∃ g', g.runBfs = .ok g' ∧ Ready g' cols d ∧ Phase g' false ∧ g'.pathFound = true ∧
      g'.weights = g.weights ∧ ∃ idx path, Answer g' cols idx path := by
  obtain ⟨start, rest, hna⟩ := h.start
  obtain ⟨s', goals', hr, hval, hgoal⟩ := search_spec (cost := g.edgeCost) h.wf hno (h.fin hfin)
    h.colne (start := start) (by rw [hna]; rfl) (fifoLawful (C := C))
    (fun _ => false) (by simp) hp.valid 1
    ((hp.start h).imp_left fun h => ⟨h.1, by simp⟩)
  have hb : bfsLoop g.edgeCost g.getNeighbors g.fuel (startCol fifoPush start (g.store, [])) =
      some s' := by
    rw [bfsLoop_eq, getNeighbors_eq]
    show (genLoop fifo _ _ _ (g.na.map List.length).sum
      (startCol (fifo : PQ C (List F)).push start (g.store, fifo.empty)) 1).map Prod.fst = _
    rw [hr]; rfl
  rw [runBfs_cons hna h.dimsOk hb]
  exact finish_valid h hval hgoal

/-- Dijkstra's search returns a shortest path if the loop ends with distances that are those of the
traced walks and of which one at a goal is a lower bound for each walk. -/
theorem runDijkstra_opt_of (hno : PyGraph.NoOverflow C) (h : Ready g cols d)
    (hfin : FiniteSteps C g.weights cols) (hp : Phase g true) {pq : PQ C (List F)} (hl : Lawful pq)
    (hopt : ∀ start s' goals', g.na[0]? = some start →
      genLoop pq g.edgeCost (layerNbs g.na fun _ _ => true)
        (fun n => decide (n.pi = g.maxPathIndex)) (g.na.map List.length).sum
        (startCol pq.push start (g.store, pq.empty)) g.numGoals = some (s', goals') →
      (∀ v, InNa g.na v → (s'.at v).dist < ⊤ → ∃ p,
        Walk g.na (fun _ _ => true) g.edgeCost 0 v (s'.at v).dist p ∧ Traces s' v p) ∧
      (∀ w c p, w.pi + 1 = g.na.length → Walk g.na (fun _ _ => true) g.edgeCost 0 w c p →
        ∃ v, InNa g.na v ∧ v.pi + 1 = g.na.length ∧ (s'.at v).dist ≤ c)) :
    ∃ g', g.runDijkstra pq = .ok g' ∧ g'.weights = g.weights ∧
      ∃ idx path, Answer g' cols idx path ∧
        ∀ p, IsSelection cols p →
          costL (stepCost C g.weights) path ≤ costL (stepCost C g.weights) p := by
  obtain ⟨start, rest, hna⟩ := h.start
  have hc0 : g.na[0]? = some start := by rw [hna]; rfl
  obtain ⟨s', goals', hr, hval, hgoal⟩ := search_spec (cost := g.edgeCost) h.wf hno (h.fin hfin)
    h.colne hc0 hl
    (fun n => decide (n.pi = g.maxPathIndex)) h.dec hp.valid g.numGoals (hp.start h)
  obtain ⟨hatt, hlow⟩ := hopt start s' goals' hc0 hr
  rw [← dijkstraLoop_eq, ← getNeighbors_eq] at hr
  rw [runDijkstra_cons hna h.dimsOk hr]
  obtain ⟨last, hlast, hl2, _⟩ := h.last
  obtain ⟨last', hlast', w, hw, hwd⟩ := hgoal
  rw [hlast] at hlast'; cases hlast'
  have h' : Ready { g with store := s', numGoals := goals', pathFound := true } cols d :=
    ⟨h.na, h.ne, h.col, h.dim, h.wt, h.mpi⟩
  rcases PyGraph.closest_spec s' last with ⟨_, h2⟩ | ⟨v, hv, h1, h2, h3⟩
  · rw [h2 w hw] at hwd; exact absurd hwd (lt_irrefl _)
  · have hvpi := h.wf.pi_of_mem hl2 hv
    obtain ⟨p, hp, ht⟩ := hatt v (InNa.of_mem h.wf hl2 hv) h2
    have hpn : ({ g with store := s', numGoals := goals', pathFound := true } :
        Graph F C).getPathNodes = .ok p.reverse := by
      unfold Graph.getPathNodes
      rw [if_pos rfl, hlast]
      simp only [closest_eq, h1]
      have := h.length
      have hpos := List.length_pos_iff.2 h.ne
      rw [trace_walk h.wf hp ht (g.na.length + 1) (by omega)]
      rfl
    obtain ⟨hf, idx, path, hans, hcost⟩ := finish_walk h' rfl hlast hv hpn hp
    refine ⟨_, hf, rfl, idx, path, hans, ?_⟩
    intro q hq
    obtain ⟨u, r, hwu, hu⟩ := h.walk hq
    have hpos := List.length_pos_iff.2 h.ne
    obtain ⟨v', hv', hv'pi, hle⟩ := hlow u _ r (by rw [hu, h.length]; omega) hwu
    obtain ⟨col, hcol, hm⟩ := hv'
    have hcl : col = last := by
      have : v'.pi = cols.length - 1 := by rw [h.length] at hv'pi; omega
      rw [this, hl2] at hcol
      exact (Option.some.inj hcol).symm
    subst hcl
    refine le_trans (le_of_eq hcost) (le_trans (h3 v' hm) hle)

/-- Dijkstra with a queue that really pops a minimum, on costs that never decrease a sum. -/
theorem runDijkstra_opt (hno : PyGraph.NoOverflow C) (h : Ready g cols d)
    (hfin : FiniteSteps C g.weights cols)
    (hinf : ∀ x ∈ cols.flatten, ∀ y ∈ cols.flatten, ∀ a : C, a ≤ a + stepCost C g.weights x y)
    (hp : Phase g true) {pq : PQ C (List F)} (hl : Lawful pq) (hmin : PopsMin hl) :
    ∃ g', g.runDijkstra pq = .ok g' ∧ g'.weights = g.weights ∧
      ∃ idx path, Answer g' cols idx path ∧
        ∀ p, IsSelection cols p →
          costL (stepCost C g.weights) path ≤ costL (stepCost C g.weights) p :=
  runDijkstra_opt_of hno h hfin hp hl fun _ _ _ hc0 hr =>
    search_opt h.wf hno (h.fin hfin) (fun u v hu hv => hinf _ (h.inData hu) _ (h.inData hv)) hc0 hl
      hmin _ h.dec (hp.1.at h) hp.valid hp.2 hr

/-- Dijkstra with libstdc++'s heap on at most two columns, on costs that never decrease a sum. -/
theorem runDijkstra_two (hno : PyGraph.NoOverflow C) (h : Ready g cols d)
    (hfin : FiniteSteps C g.weights cols)
    (hinf : ∀ x ∈ cols.flatten, ∀ y ∈ cols.flatten, ∀ a : C, a ≤ a + stepCost C g.weights x y)
    (hp : Phase g true) (hlen : cols.length ≤ 2) :
    ∃ g', g.runDijkstra stdHeap = .ok g' ∧ g'.weights = g.weights ∧
      ∃ idx path, Answer g' cols idx path ∧
        ∀ p, IsSelection cols p →
          costL (stepCost C g.weights) path ≤ costL (stepCost C g.weights) p :=
  runDijkstra_opt_of hno h hfin hp stdHeapLawful fun _ _ _ hc0 hr =>
    search_two h.wf (by rw [h.length]; exact hlen)
      (fun u v hu hv => hinf _ (h.inData hu) _ (h.inData hv)) hc0 _ h.dec (hp.1.at h) hp.valid hp.2 hr

theorem reset_spec (h : Ready g cols d) : ∃ g', g.reset = .ok g' ∧ Ready g' cols d ∧
    Phase g' true ∧ g'.pathFound = g.pathFound ∧ g'.weights = g.weights := by
  obtain ⟨last, hlast, _, hne⟩ := h.last
  unfold Graph.reset
  rw [hlast]
  refine ⟨_, rfl, ⟨h.na, h.ne, h.col, h.dim, h.wt, ?_⟩, ⟨?_, ?_⟩, rfl, rfl⟩
  · show g.na.length - 1 = _
    rw [h.length]
  · intro col hcol v hv
    have : (g.na.flatten.foldl (fun s n => s.upd n freshSt) g.store).at v = freshSt := by
      show (g.na.flatten.foldl (fun s n => s.upd n freshSt) g.store) v.pi v.pos = _
      rw [PyGraph.foldl_upd_same, if_pos]
      exact List.mem_map_of_mem (List.mem_flatten.2 ⟨col, hcol, hv⟩)
    show FreshAt .dummy (g.na.flatten.foldl (fun s n => s.upd n freshSt) g.store) v
    unfold FreshAt
    rw [this]
    exact ⟨rfl, rfl, rfl⟩
  · simpa using hne

/-- The weights that `init` leaves behind. -/
def effWeights (C : Type) [CostArith C] [JointArith F C] (d : Nat) (w : List F) : List F :=
  if w.length = d then w else List.replicate d (JointArith.one C)

/-- The data columns are proper: at least one column, no empty column, `d` joints everywhere. -/
structure Proper (cols : List (List (List F))) (d : Nat) : Prop where
  ne : cols ≠ []
  col : ∀ col ∈ cols, col ≠ []
  dim : ∀ col ∈ cols, ∀ r ∈ col, r.length = d

/-- The data columns get narrower or stay as they are: at least one column, no empty column, the
rows of the first column `d` wide. -/
structure ProperNarrowing (cols : List (List (List F))) (d : Nat) : Prop where
  ne : cols ≠ []
  col : ∀ col ∈ cols, col ≠ []
  first : ∀ col, cols[0]? = some col → ∀ r ∈ col, r.length = d
  dim : Narrowing cols d

theorem Proper.narrowing {cols : List (List (List F))} {d : Nat} (h : Proper cols d) :
    ProperNarrowing cols d :=
  ⟨h.ne, h.col, fun c hc => h.dim c (List.mem_of_getElem? hc), narrowing_of_eq h.dim⟩

theorem init_spec_narrowing (hp : ProperNarrowing g.gd d) (hna : g.na = []) (hs : ∀ i j, g.store i j = freshSt) :
    ∃ g', g.init = .ok g' ∧ Ready g' g.gd d ∧ Phase g' true ∧ g'.pathFound = false ∧
      g'.weights = effWeights C d g.weights := by
  obtain ⟨s, h1, h2⟩ := dataToNodes_new g hna hs
  obtain ⟨jv, rest, rest', hgd⟩ : ∃ jv rest rest', g.gd = (jv :: rest) :: rest' := by
    rcases hg : g.gd with _ | ⟨c, cs⟩
    · exact absurd hg hp.ne
    · rcases c with _ | ⟨jv, rest⟩
      · exact absurd rfl (hp.col [] (by rw [hg]; simp))
      · exact ⟨_, _, _, rfl⟩
  have hjv : jv.length = d := hp.first (jv :: rest) (by rw [hgd]; simp) jv (by simp)
  have hne : PyGraph.dataToNodeArray g.gd ≠ [] := by
    intro h
    have := PyGraph.nodeArray_length g.gd
    rw [h] at this
    simp only [List.length_nil] at this
    exact hp.ne (List.length_eq_zero_iff.1 this.symm)
  have hlast : (PyGraph.dataToNodeArray g.gd).getLast? =
      some ((PyGraph.dataToNodeArray g.gd).getLast hne) := List.getLast?_eq_some_getLast hne
  have hinit : g.init = .ok { g with
      na := PyGraph.dataToNodeArray g.gd, store := s
      maxPathIndex := (PyGraph.dataToNodeArray g.gd).length - 1
      numGoals := ((PyGraph.dataToNodeArray g.gd).getLast hne).length
      pathFound := false, weights := effWeights C d g.weights } := by
    unfold Graph.init
    rw [h1]
    simp only [hlast]
    split
    · rename_i jv' r' r'' heq
      have heq' : (jv' :: r') :: r'' = (jv :: rest) :: rest' := by rw [← heq]; exact hgd
      have : jv' = jv := by simpa using congrArg (fun l => (l.head?.getD []).head?) heq'
      subst this
      unfold effWeights
      rw [hjv]
      by_cases hw : g.weights.length = d
      · simp [hw]
      · simp [hw]
    · rename_i hx
      exact absurd hgd (hx jv rest rest')
  have hready : Ready (F := F) (C := C) { g with
      na := PyGraph.dataToNodeArray g.gd, store := s
      maxPathIndex := (PyGraph.dataToNodeArray g.gd).length - 1
      numGoals := ((PyGraph.dataToNodeArray g.gd).getLast hne).length
      pathFound := false, weights := effWeights C d g.weights } g.gd d := by
    refine ⟨rfl, hp.ne, hp.col, hp.dim, ?_, ?_⟩
    · show d ≤ (effWeights C d g.weights).length
      unfold effWeights
      split
      · rename_i h; rw [h]
      · simp
    · show (PyGraph.dataToNodeArray g.gd).length - 1 = _
      rw [PyGraph.nodeArray_length]
  refine ⟨_, hinit, hready, ⟨?_, ?_⟩, rfl, rfl⟩
  · intro col _ v _
    show FreshAt .dummy s v
    have : s.at v = freshSt := h2 _ _
    simp [FreshAt, this, freshSt]
  · have := hready.colne _ (List.getLast_mem (l := PyGraph.dataToNodeArray g.gd) hne)
    simpa using this

theorem init_spec (hp : Proper g.gd d) (hna : g.na = []) (hs : ∀ i j, g.store i j = freshSt) :
    ∃ g', g.init = .ok g' ∧ Ready g' g.gd d ∧ Phase g' true ∧ g'.pathFound = false ∧
      g'.weights = effWeights C d g.weights := init_spec_narrowing hp.narrowing hna hs

/-! ## From the Python list to the graph -/

/-- What the rows of a column become. -/
def asFloat32 (conv : F → F) : PyCol F → List (List F)
  | .emptyList => []
  | .arr true _ rows => rows
  | .arr false _ rows => rows.map (List.map conv)

/-- The entry is an array with float32 numbers. -/
def PyCol.isF32 : PyCol F → Bool
  | .arr true _ _ => true
  | _ => false

/-- The entry is a non-empty array with `d` columns. -/
def PyCol.Proper (d : Nat) : PyCol F → Prop
  | .emptyList => False
  | .arr _ n rows => n = d ∧ rows ≠ [] ∧ ∀ r ∈ rows, r.length = d

/-- The argument list: non-empty arrays with `d` columns; a float32 array in front means that all
of them are float32. -/
structure InputOK (d : Nat) (Q : List (PyCol F)) : Prop where
  ne : Q ≠ []
  col : ∀ c ∈ Q, c.Proper d
  f32 : (Q.head?.map PyCol.isF32 = some true) → ∀ c ∈ Q, c.isF32 = true

theorem convertLoop_ok (conv : F → F) (Q : List (PyCol F)) (h : ∀ c ∈ Q, c ≠ .emptyList) :
    ∃ Q', convertLoop conv Q = (.ok (), Q') ∧
      List.Forall₂ (fun c c' => ∃ b n rows, c = .arr b n rows ∧
        c' = .arr true n (asFloat32 conv c)) Q Q' := by
  induction Q with
  | nil => exact ⟨[], rfl, .nil⟩
  | cons c Q ih =>
    obtain ⟨Q', h1, h2⟩ := ih (fun c hc => h c (List.mem_cons_of_mem _ hc))
    rcases c with _ | ⟨b, n, rows⟩
    · exact absurd rfl (h _ (by simp))
    · refine ⟨.arr true n (asFloat32 conv (.arr b n rows)) :: Q', ?_,
        .cons ⟨b, n, rows, rfl, rfl⟩ h2⟩
      cases b <;> simp [convertLoop, PyCol.astype, h1, asFloat32]

theorem checkDtype_ok (conv : F → F) {Q : List (PyCol F)} {d : Nat} (h : InputOK d Q) :
    ∃ Q', checkDtype conv Q = (.ok (), Q') ∧
      List.Forall₂ (fun c c' => c' = .arr true d (asFloat32 conv c)) Q Q' := by
  have hne : ∀ c ∈ Q, c ≠ .emptyList := by
    intro c hc he
    have := h.col c hc
    rw [he] at this; exact this
  rcases hQ : Q with _ | ⟨c, cs⟩
  · exact absurd hQ h.ne
  · rcases c with _ | ⟨b, n, rows⟩
    · exact absurd rfl (hne .emptyList (by rw [hQ]; simp))
    · cases b with
      | true =>
        have hf := h.f32 (by rw [hQ]; rfl)
        refine ⟨_, rfl, ?_⟩
        rw [← hQ]
        apply List.forall₂_same.2
        intro c hc
        have h1 := hf c hc
        have h2 := h.col c hc
        rcases c with _ | ⟨b, m, rs⟩
        · exact h2.elim
        · cases b
          · simp [PyCol.isF32] at h1
          · rw [h2.1]; rfl
      | false =>
        obtain ⟨Q', h1, h2⟩ := convertLoop_ok conv Q hne
        rw [hQ] at h1
        refine ⟨Q', by simpa [checkDtype] using h1, ?_⟩
        rw [← hQ]
        have hall : ∀ (A B : List (PyCol F)), (∀ c ∈ A, c.Proper d) →
            List.Forall₂ (fun c c' => ∃ b n rows, c = .arr b n rows ∧
              c' = .arr true n (asFloat32 conv c)) A B →
            List.Forall₂ (fun c c' => c' = .arr true d (asFloat32 conv c)) A B := by
          intro A B hA hAB
          induction hAB with
          | nil => exact .nil
          | cons hh _ ih =>
            obtain ⟨b, n, rows, rfl, rfl⟩ := hh
            refine .cons ?_ (ih fun c hc => hA c (List.mem_cons_of_mem _ hc))
            have := hA (.arr b n rows) (by simp)
            rw [this.1]
        exact hall Q Q' h.col h2

theorem asFloat32_proper (conv : F → F) {d : Nat} {c : PyCol F} (h : c.Proper d) :
    asFloat32 conv c ≠ [] ∧ ∀ r ∈ asFloat32 conv c, r.length = d := by
  rcases c with _ | ⟨b, n, rows⟩
  · exact h.elim
  · obtain ⟨_, h1, h2⟩ := h
    cases b
    · refine ⟨by simpa [asFloat32] using h1, ?_⟩
      intro r hr
      simp only [asFloat32, List.mem_map] at hr
      obtain ⟨r', hr', rfl⟩ := hr
      simpa using h2 r' hr'
    · exact ⟨h1, h2⟩

theorem addColumns_ok (g : Graph F C) {d : Nat} (colsF : List (List (List F)))
    (h : ∀ c ∈ colsF, c ≠ [] ∧ ∀ r ∈ c, r.length = d) :
    addColumns g (colsF.map fun rows => .arr true d rows) =
      .ok (some { g with gd := g.gd ++ colsF }) := by
  induction colsF generalizing g with
  | nil => simp [addColumns]
  | cons c cs ih =>
    obtain ⟨h1, h2⟩ := h c (by simp)
    have hl : c.length ≠ 0 := by simpa using h1
    rw [List.map_cons, addColumns]
    rw [if_neg (by simpa [PyCol.rows] using h1)]
    simp only [addDataColumn_ok g c h2, liftCpp, Except.mapError, bind, Except.bind]
    rw [ih _ (fun c hc => h c (List.mem_cons_of_mem _ hc))]
    simp

theorem forall₂_eq_map {A B : Type} (f : A → B) {l : List A} {l' : List B}
    (h : List.Forall₂ (fun a b => b = f a) l l') : l' = l.map f := by
  induction h with
  | nil => rfl
  | cons h _ ih => rw [List.map_cons, h, ih]

/-- The graph on which the search of `get_shortest_path` runs. -/
theorem getShortestPath_eq (conv : F → F) {Q : List (PyCol F)} {d : Nat} (h : InputOK d Q)
    (weights : Option (List F)) :
    ∃ g : Graph F C, Ready g (Q.map (asFloat32 conv)) d ∧ Phase g true ∧
      g.weights = effWeights C d (weights.getD []) ∧
      ∀ (pq : PQ C (List F)) (method : Method) (run : Except Fault (Graph F C)),
        ((method = .bfs ∧ run = g.runBfs) ∨ (method = .dijkstra ∧ run = g.runDijkstra pq)) →
        ∀ g', run = .ok g' → ∀ idx path, Answer g' (Q.map (asFloat32 conv)) idx path →
        getShortestPath pq conv Q method weights =
          .ok ⟨true, some path, some g'.getPathCost⟩ := by
  obtain ⟨Q', hc1, hc2⟩ := checkDtype_ok conv h
  have hQ' := forall₂_eq_map (fun c => PyCol.arr true d (asFloat32 conv c)) hc2
  set cols := Q.map (asFloat32 conv) with hcols
  have hQ'' : Q' = cols.map fun rows => .arr true d rows := by
    rw [hQ', hcols, List.map_map]; rfl
  have hprop : Proper cols d := by
    refine ⟨by simpa [hcols] using h.ne, ?_, ?_⟩
    · intro col hcol
      obtain ⟨c, hc, rfl⟩ := List.mem_map.1 hcol
      exact (asFloat32_proper conv (h.col c hc)).1
    · intro col hcol
      obtain ⟨c, hc, rfl⟩ := List.mem_map.1 hcol
      exact (asFloat32_proper conv (h.col c hc)).2
  obtain ⟨g0, hg0, hgd, hna, hst, hwt⟩ : ∃ g0 : Graph F C, newGraph weights = g0 ∧ g0.gd = [] ∧
      g0.na = [] ∧ (∀ i j, g0.store i j = freshSt) ∧ g0.weights = weights.getD [] := by
    cases weights <;> exact ⟨_, rfl, rfl, rfl, fun _ _ => rfl, rfl⟩
  obtain ⟨g, hi, hready, hphase, _, hw⟩ := init_spec (g := { g0 with gd := g0.gd ++ cols }) (d := d)
    (by rw [hgd]; exact hprop) hna hst
  have hready' : Ready g cols d := by rw [hgd] at hready; exact hready
  refine ⟨g, hready', hphase, by rw [hw]; exact congrArg _ hwt, ?_⟩
  intro pq method run hrun g' hg' idx path hans
  obtain ⟨p, hp⟩ := hans.nodes
  obtain ⟨p0, hp0, hp0'⟩ := PyGraph.pyGet_zero_of_nonneg hans.idx_ne hans.nonneg
  have hrows : Q'.map PyCol.rows = cols := by
    rw [hQ'', List.map_map]
    exact List.map_id' cols
  have hlen : Q'.length = cols.length := by rw [hQ'']; simp
  have hadd := addColumns_ok g0 cols (d := d) (fun c hc => ⟨hprop.col c hc, hprop.dim c hc⟩)
  rw [← hQ''] at hadd
  unfold getShortestPath
  rw [hc1]
  simp only [hg0, hadd, hi, liftPy, liftCpp, Except.mapError, bind, Except.bind]
  rcases hrun with ⟨rfl, hr⟩ | ⟨rfl, hr⟩
  · rw [← hr, hg']
    simp only [hp, hlen, hans.get, hp0, hp0', if_false, hrows, hans.conv]
  · rw [← hr, hg']
    simp only [hp, hlen, hans.get, hp0, hp0', if_false, hrows, hans.conv]

end Verif.ShortestPath
