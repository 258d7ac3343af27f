import Verif.Model.CppPrint
import Verif.Props.CppQueries

/-!
# C107, what the print functions of the C++ graph show
-/

set_option linter.unusedSectionVars false

namespace Verif.Props

open Verif.Search Verif.Spec Verif.CppGraph Verif.ShortestPath

variable {F C : Type} [CostArith C] [JointArith F C]

/-! ## No null parents -/

/-- Every parent pointer points to a node or to the dummy node. -/
def NoNull (s : Store C (List F)) : Prop := ∀ i j, (s i j).parent ≠ .none

theorem NoNull.upd {s : Store C (List F)} (h : NoNull s) (n : Nd (List F)) (v : St C (List F))
    (hv : v.parent ≠ .none) : NoNull (s.upd n v) := by
  intro i j
  unfold Store.upd
  split
  · exact hv
  · exact h i j

theorem NoNull.startCol {Q : Type} (push : Store C (List F) → Q → Nd (List F) → Q)
    (col : List (Nd (List F))) (s : Store C (List F) × Q) (h : NoNull s.1) :
    NoNull (Search.startCol push col s).1 := by
  unfold Search.startCol
  induction col generalizing s with
  | nil => exact h
  | cons n col ih => exact ih _ (h.upd n _ (by simp))

theorem NoNull.relax {Q : Type} (cost : Nd (List F) → Nd (List F) → C)
    (push : Store C (List F) → Q → Nd (List F) → Q) (cur nb : Nd (List F))
    (s : Store C (List F) × Q) (h : NoNull s.1) : NoNull (Search.relax cost push cur s nb).1 := by
  have fin : ∀ st : Store C (List F), NoNull st →
      NoNull (if (st.at nb).visited then (st, s.2)
        else (st.upd nb { st.at nb with visited := true }, push st s.2 nb)).1 := by
    intro st h2
    split
    · exact h2
    · exact h2.upd _ _ (h2 _ _)
  unfold Search.relax
  apply fin
  split
  · exact h.upd _ _ (by simp)
  · exact h

theorem NoNull.expand {Q : Type} (cost : Nd (List F) → Nd (List F) → C)
    (push : Store C (List F) → Q → Nd (List F) → Q) (nbs : Nd (List F) → List (Nd (List F)))
    (cur : Nd (List F)) (s : Store C (List F) × Q) (h : NoNull s.1) :
    NoNull (Search.expand cost push nbs cur s).1 := by
  unfold Search.expand
  generalize nbs cur = l
  induction l generalizing s with
  | nil => exact h
  | cons n l ih => exact ih _ (h.relax _ _ _ _ _)

theorem NoNull.bfs (cost : Nd (List F) → Nd (List F) → C) (nbs : Nd (List F) → List (Nd (List F)))
    (fuel : Nat) (s : Store C (List F) × List (Nd (List F))) (h : NoNull s.1)
    {s' : Store C (List F)} (hs : bfsLoop cost nbs fuel s = some s') : NoNull s' := by
  induction fuel generalizing s with
  | zero =>
    rcases s with ⟨s, _ | ⟨c, q⟩⟩
    · simp only [bfsLoop, Option.some.injEq] at hs; rw [← hs]; exact h
    · simp [bfsLoop] at hs
  | succ n ih =>
    rcases s with ⟨s, _ | ⟨c, q⟩⟩
    · simp only [bfsLoop, Option.some.injEq] at hs; rw [← hs]; exact h
    · rw [bfsLoop] at hs
      exact ih _ (NoNull.expand _ _ _ _ (s, q) h) hs

theorem NoNull.dijkstra (pq : PQ C (List F)) (cost : Nd (List F) → Nd (List F) → C)
    (nbs : Nd (List F) → List (Nd (List F))) (m : Nat) (fuel : Nat)
    (s : Store C (List F) × pq.Q) (goals : Nat) (h : NoNull s.1) {r : Store C (List F) × Nat}
    (hs : dijkstraLoop pq cost nbs m fuel s goals = some r) : NoNull r.1 := by
  induction fuel generalizing s goals with
  | zero =>
    rcases s with ⟨s, q⟩
    unfold dijkstraLoop at hs
    split at hs
    · cases hs; exact h
    · cases hp : pq.pop s q with
      | none => simp only [hp] at hs; cases hs; exact h
      | some x => simp only [hp] at hs; cases hs
  | succ n ih =>
    rcases s with ⟨s, q⟩
    unfold dijkstraLoop at hs
    split at hs
    · cases hs; exact h
    · cases hp : pq.pop s q with
      | none => simp only [hp] at hs; cases hs; exact h
      | some x => simp only [hp] at hs; exact ih _ _ (NoNull.expand _ _ _ _ (s, x.2) h) hs

theorem NoNull.finish {g g' : Graph F C} (h : NoNull g.store) (hf : g.finish = .ok g') :
    NoNull g'.store := by
  unfold Graph.finish at hf
  cases hp : g.getPathNodes with
  | error e => rw [hp] at hf; cases hf
  | ok p => rw [hp] at hf; cases hf; exact h

theorem NoNull.init (g : Graph F C) (h : NoNull g.store) : NoNull g.dataToNodes.store := by
  have push : ∀ (i : Nat) (l : List (List F × Nat)) (g : Graph F C), NoNull g.store →
      NoNull (l.foldl (fun g x => g.pushNode i x.2 x.1) g).store := by
    intro i l
    induction l with
    | nil => intro g h; exact h
    | cons x l ih => intro g h; exact ih _ (h.upd _ _ (by simp [freshSt]))
  unfold Graph.dataToNodes
  generalize g.gd.zipIdx = l
  induction l generalizing g with
  | nil => exact h
  | cons x l ih => exact ih _ (push _ _ _ h)

theorem NoNull.call (pq : PQ C (List F)) {g g' : Graph F C} {op : Op F} {o : Out C}
    (h : NoNull g.store) (hc : g.call pq op = .ok (g', o)) : NoNull g'.store := by
  cases op with
  | addColumn mat nrows ncols =>
    simp only [Graph.call, Graph.addDataColumn, bind, Except.bind] at hc
    split at hc
    · cases hc
    · rename_i v hv
      split at hv
      · cases hv
      · cases hv; cases hc; exact h
  | setWeights w => simp only [Graph.call] at hc; cases hc; exact h
  | init =>
    simp only [Graph.call, Graph.init, bind, Except.bind] at hc
    split at hc
    · cases hc
    · rename_i v hv
      split at hv
      · cases hv
      · split at hv
        · cases hv; cases hc; exact NoNull.init g h
        · cases hv
  | reset =>
    simp only [Graph.call, Graph.reset, bind, Except.bind] at hc
    split at hc
    · cases hc
    · rename_i v hv
      split at hv
      · cases hv
      · cases hv; cases hc
        have : ∀ (l : List (Nd (List F))) (s : Store C (List F)), NoNull s →
            NoNull (l.foldl (fun s n => s.upd n freshSt) s) := by
          intro l
          induction l with
          | nil => intro s h; exact h
          | cons n l ih => intro s h; exact ih _ (h.upd _ _ (by simp [freshSt]))
        exact this _ _ h
  | runBfs =>
    simp only [Graph.call, Graph.runBfs, bind, Except.bind] at hc
    split at hc
    · cases hc
    · rename_i v hv
      cases hc
      split at hv
      · cases hv
      · split at hv
        · cases hv
        · split at hv
          · cases hv
          · rename_i s hs
            exact NoNull.finish (g := { g with store := s, pathFound := true })
              (NoNull.bfs _ _ _ _ (NoNull.startCol _ _ _ h) hs) hv
  | runDijkstra =>
    simp only [Graph.call, Graph.runDijkstra, bind, Except.bind] at hc
    split at hc
    · cases hc
    · rename_i v hv
      cases hc
      split at hv
      · cases hv
      · split at hv
        · cases hv
        · split at hv
          · cases hv
          · rename_i s n hs
            exact NoNull.finish (g := { g with store := s, numGoals := n, pathFound := true })
              (NoNull.dijkstra pq _ _ _ _ _ _ (NoNull.startCol pq.push _ _ h) hs) hv
  | getPath n =>
    simp only [Graph.call, bind, Except.bind] at hc
    split at hc
    · cases hc
    · cases hc; exact h
  | getPathCost => simp only [Graph.call] at hc; cases hc; exact h

theorem NoNull.calls (pq : PQ C (List F)) {g g' : Graph F C} {ops : List (Op F)}
    {outs : List (Out C)} (h : NoNull g.store) (hc : g.calls pq ops = .ok (g', outs)) :
    NoNull g'.store := by
  induction ops generalizing g outs with
  | nil => cases hc; exact h
  | cons op ops ih =>
    simp only [Graph.calls, bind, Except.bind] at hc
    cases h1 : g.call pq op with
    | error e => rw [h1] at hc; cases hc
    | ok r =>
      rw [h1] at hc
      cases h2 : r.1.calls pq ops with
      | error e => simp only [h2] at hc; cases hc
      | ok r2 =>
        simp only [h2] at hc
        cases hc
        exact ih (h.call pq h1) h2

/-- The line of a node whose parent pointer is not null. -/
def lineOf (s : Store C (List F)) (n : Nd (List F)) : Line C :=
  match (s.at n).parent with
  | .node u => ⟨n.pi, n.si, (s.at n).dist, u.pi, u.si⟩
  | _ => ⟨n.pi, n.si, (s.at n).dist, 0, 0⟩

theorem printNode_ok {s : Store C (List F)} (h : NoNull s) (n : Nd (List F)) :
    printNode s n = .ok (lineOf s n) := by
  unfold printNode lineOf
  have := h n.pi n.pos
  cases hp : (s.at n).parent with
  | none => exact absurd hp this
  | dummy => rfl
  | node u => rfl

theorem printGraph_ok {g : Graph F C} (h : NoNull g.store) :
    g.printGraph = .ok (g.na.map fun col => col.map (lineOf g.store)) := by
  unfold Graph.printGraph
  apply ShortestPath.mapM_ok
  intro col _
  unfold printNodes
  apply ShortestPath.mapM_ok
  intro n _
  exact printNode_ok h n

/-- C107. `print_graph` never follows a null pointer, after any calls in any order on a new graph,
and prints one block per column with one line per node. -/
theorem C107_print_graph (pq : PQ C (List F)) (ops : List (Op F)) (g : Graph F C)
    (outs : List (Out C)) (h : (Graph.new : Graph F C).calls pq ops = .ok (g, outs)) :
    ∃ lines, g.printGraph = .ok lines ∧ lines.map List.length = g.na.map List.length := by
  have hn : NoNull g.store := NoNull.calls pq (g := Graph.new) (fun _ _ => by simp [Graph.new, freshSt]) h
  exact ⟨_, printGraph_ok hn, by rw [List.map_map]; apply List.map_congr_left; intro c _; simp⟩

/-- A walk to a node gives a walk of the same cost to every node of the column with the same
data. -/
theorem walk_twin {g : Graph F C} (hwf : WFna g.na) {u v : Nd (List F)} {c : C}
    {p : List (Nd (List F))} (hw : Walk g.na (fun _ _ => true) g.edgeCost 0 u c p)
    {col : List (Nd (List F))} (hc : g.na[u.pi]? = some col) (hv : v ∈ col)
    (hd : v.data = u.data) : ∃ q, Walk g.na (fun _ _ => true) g.edgeCost 0 v c q := by
  cases hw with
  | start hc' hu' =>
    rw [hwf.pi_of_mem hc' hu'] at hc
    exact ⟨_, .start hc hv⟩
  | @step w _ c' p' col' hw' hc' hu' _ =>
    rw [hwf.pi_of_mem hc' hu'] at hc
    have : g.edgeCost w u = g.edgeCost w v := by unfold Graph.edgeCost; rw [hd]
    rw [this]
    exact ⟨_, .step hw' hc hv rfl⟩

theorem walk_cases {na : List (List (Nd (List F)))} {ok : Nd (List F) → Nd (List F) → Bool}
    {cost : Nd (List F) → Nd (List F) → C} (hwf : WFna na) {v : Nd (List F)} {c : C}
    {p : List (Nd (List F))} (hw : Walk na ok cost 0 v c p) :
    (v.pi = 0 ∧ c = 0 ∧ p = [v]) ∨ ∃ u c' p', p = v :: p' ∧ c = c' + cost u v ∧
      Walk na ok cost 0 u c' p' ∧ ok u v = true ∧ v.pi = u.pi + 1 := by
  cases hw with
  | start hc hv => exact Or.inl ⟨hwf.pi_of_mem hc hv, rfl, rfl⟩
  | step hw hc hv hok => exact Or.inr ⟨_, _, _, rfl, rfl, hw, hok, hwf.pi_of_mem hc hv⟩

theorem isChain_true {β : Type} (p : List β) : List.IsChain (fun _ _ => True) p := by
  induction p with
  | nil => simp
  | cons x p ih => cases p with
    | nil => simp
    | cons y p => rw [List.isChain_cons_cons]; exact ⟨trivial, ih⟩

/-- C107. After `run_bfs` the printed graph is the table of shortest distances: column `i`, line `j`
shows the indices `(i, j)`, the least cost over all choices from columns `0 … i` that end in that
row, and the indices of a row in the previous column whose printed distance plus the step cost is
the distance (`(0, 0)` in the first column). -/
theorem C107_bfs_table (pq : PQ C (List F)) (cols : List (List (List F))) (d : Nat)
    (hp : Proper cols d) (w : Option (List F)) (wt : List F)
    (hwt : wt = effWeights C d (w.getD []))
    (hex : ∃ p, IsSelection cols p ∧ costL (stepCost C wt) p < ⊤) :
    ∃ g outs lines, (Graph.new : Graph F C).calls pq (setup w d cols ++ [.runBfs]) = .ok (g, outs) ∧
      g.printGraph = .ok lines ∧ lines.map List.length = cols.map List.length ∧
      ∀ (i j : Nat) (col : List (List F)) (x : List F), cols[i]? = some col → col[j]? = some x →
      ∃ ls l, lines[i]? = some ls ∧ ls[j]? = some l ∧ l.pi = i ∧ l.si = j ∧
        (∀ p, IsSelection (cols.take (i + 1)) p → p.getLast? = some x →
          l.dist ≤ costL (stepCost C wt) p) ∧
        (l.dist < ⊤ → ∃ p, IsSelection (cols.take (i + 1)) p ∧ p.getLast? = some x ∧
          costL (stepCost C wt) p = l.dist) ∧
        (i = 0 → l.dist = 0 ∧ l.ppi = 0 ∧ l.psi = 0) ∧
        (0 < i → l.dist < ⊤ → l.ppi + 1 = i ∧ ∃ prev y pls pl, cols[i - 1]? = some prev ∧
          prev[l.psi]? = some y ∧ lines[i - 1]? = some pls ∧ pls[l.psi]? = some pl ∧
          pl.dist + stepCost C wt y x = l.dist) := by
  obtain ⟨g0, o0, h0, hi⟩ := setup_calls pq hp w
  subst hwt
  rw [← hi.wts] at hex ⊢
  obtain ⟨s, c, hr, hs, -, -⟩ := runBfs_spec hi.ready (Or.inl hi.phase.1) hex
  have hwf := hi.ready.wf
  have hna := hi.ready.na
  have hcalls : (Graph.new : Graph F C).calls pq (setup w d cols ++ [.runBfs]) =
      .ok ({ g0 with store := s, pathFound := true, shortestPathCost := c }, o0 ++ [.unit]) := by
    rw [calls_append, h0]
    simp only [bind, Except.bind, Graph.calls, Graph.call, hr]
  have hn : NoNull s := NoNull.calls pq (g := Graph.new)
    (fun _ _ => by simp [Graph.new, freshSt]) hcalls
  refine ⟨_, _, _, hcalls, printGraph_ok hn, ?_, ?_⟩
  · simp only [hna, List.map_map]
    apply List.ext_getElem?
    intro i
    simp [PyGraph.dataToNodeArray]
    cases cols[i]? <;> simp
  intro i j col x hcol hx
  -- the node at (i, j)
  have hget : ∀ (i j : Nat) (col : List (List F)) (x : List F), cols[i]? = some col →
      col[j]? = some x → ∃ nc, g0.na[i]? = some nc ∧ nc[j]? = some ⟨i, j, j, x⟩ := by
    intro i j col x hcol hx
    refine ⟨col.mapIdx fun j row => ⟨i, j, j, row⟩, ?_, ?_⟩
    · rw [hna, PyGraph.nodeArray_getElem?, hcol]; rfl
    · simp [hx]
  obtain ⟨nc, hnc, hv⟩ := hget i j col x hcol hx
  have hlt : i < cols.length := (List.getElem?_eq_some_iff.1 hcol).1
  generalize hvd : (⟨i, j, j, x⟩ : Nd (List F)) = v at hv
  have hvpi : v.pi = i := by rw [← hvd]
  have hvsi : v.si = j := by rw [← hvd]
  have hvx : v.data = x := by rw [← hvd]
  have hvm : v ∈ nc := List.mem_of_getElem? hv
  have hF := hs nc (List.mem_of_getElem? hnc) v hvm
  have hline : (lineOf s v).pi = i ∧ (lineOf s v).si = j ∧ (lineOf s v).dist = (s.at v).dist := by
    unfold lineOf
    split <;> exact ⟨hvpi, hvsi, rfl⟩
  obtain ⟨hl1, hl2, hl3⟩ := hline
  refine ⟨nc.map (lineOf s), lineOf s v, by simp [hnc], by simp [hv], hl1, hl2, ?_, ?_, ?_, ?_⟩
  · intro p hps hlast
    rw [hl3]
    obtain ⟨u, q, hw, hupi, hq⟩ := selection_walk (na := g0.na) (ok := fun _ _ => true)
      (cost := g0.edgeCost) (R := fun _ _ => True) (g := stepCost C g0.weights) hwf
      (fun _ _ _ => rfl) (fun u v => rfl) (k := i) (q := p) (by rw [hi.ready.length]; exact hlt)
      (by rw [hi.ready.data]; exact hps) (isChain_true p)
    obtain ⟨q', rfl⟩ := walk_head hw
    have hud : u.data = x := by
      rw [← hq] at hlast
      simpa using hlast
    obtain ⟨q2, hw2⟩ := walk_twin hwf hw (by rw [hupi]; exact hnc) hvm (by rw [hvx, hud])
    exact hF.low _ _ hw2
  · intro hd
    rw [hl3] at hd
    rcases hF.att with ⟨h1, _⟩ | ⟨_, p, hw, _⟩
    · rw [h1] at hd; exact absurd hd (lt_irrefl _)
    · obtain ⟨h1, _, h3⟩ := walk_selection (R := fun _ _ => True) (g := stepCost C g0.weights) hwf
        (fun _ _ _ => trivial) (fun u v => rfl) hw
      rw [hi.ready.data, hvpi] at h1
      refine ⟨_, h1, ?_, by rw [h3, hl3]⟩
      obtain ⟨q', rfl⟩ := walk_head hw
      simp [hvx]
  · intro h0i
    subst h0i
    have hv0 := hF.low 0 [v] (.start hnc hvm)
    rcases hF.att with ⟨h1, _⟩ | ⟨hd, p, hw, ht⟩
    · rw [h1] at hv0
      exact absurd (lt_of_lt_of_le zero_lt_top hv0) (lt_irrefl _)
    · rcases walk_cases hwf hw with ⟨_, hd0, hp1⟩ | ⟨u, c', p', hp1, _, _, _, hpi⟩
      · subst hp1
        have hpar : (s.at v).parent = .dummy := by
          cases ht with
          | start h => exact h
          | step _ h => cases h
        rw [hl3]
        refine ⟨hd0, ?_⟩
        unfold lineOf
        rw [hpar]
        exact ⟨rfl, rfl⟩
      · omega
  · intro hi0 hd
    rw [hl3] at hd
    rcases hF.att with ⟨h1, _⟩ | ⟨_, p, hw, ht⟩
    · rw [h1] at hd; exact absurd hd (lt_irrefl _)
    · rcases walk_cases hwf hw with ⟨h0, _, _⟩ | ⟨u, c', p', hp1, hc', hwu, _, hpi⟩
      · omega
      · subst hp1
        obtain ⟨q', rfl⟩ := walk_head hwu
        have hpar : (s.at v).parent = .node u := by
          cases ht with
          | step h h2 => cases h2 <;> exact h
        obtain ⟨uc, huc, hum⟩ := hwu.mem_col hwf
        have hFu := hs uc (List.mem_of_getElem? huc) u hum
        have huc' := huc
        rw [hna] at huc'
        obtain ⟨prev, hprev, hy⟩ := PyGraph.node_lookup huc' hum
        have hup : u.pi = i - 1 := by omega
        obtain ⟨nc', hnc', hu'⟩ := hget u.pi u.si prev u.data hprev hy
        have hlu : lineOf s v = ⟨v.pi, v.si, (s.at v).dist, u.pi, u.si⟩ := by
          unfold lineOf; rw [hpar]
        rw [hlu]
        refine ⟨by simp only; omega, prev, u.data, nc'.map (lineOf s),
          lineOf s ⟨u.pi, u.si, u.si, u.data⟩, by rw [← hup]; exact hprev, hy, ?_, by simp [hu'], ?_⟩
        · rw [← hup]; simp [hnc']
        · have hpos : u.pos = u.si := by
            obtain ⟨k, hk⟩ := List.getElem?_of_mem hum
            rw [hna] at huc
            obtain ⟨_, h2, h3, _⟩ := PyGraph.nodeArray_mem huc hk
            rw [h2, h3]
          have hue : (⟨u.pi, u.si, u.si, u.data⟩ : Nd (List F)) = u := by
            cases u; simp only at hpos ⊢; rw [hpos]
          rw [hue]
          have hdu : (lineOf s u).dist = (s.at u).dist := by unfold lineOf; split <;> rfl
          rw [hdu]
          have hedge : stepCost C g0.weights u.data x = g0.edgeCost u v := by
            rw [← hvx]; rfl
          rw [hedge]
          apply le_antisymm
          · rw [hc']
            exact add_mono _ _ _ (hFu.low _ _ hwu)
          · rcases hFu.att with ⟨h1, _⟩ | ⟨_, p2, hw2, _⟩
            · rw [h1, top_add]; exact le_top
            · exact hF.low _ _ (.step hw2 (by rw [hup, show i - 1 + 1 = i by omega]; exact hnc)
                hvm rfl)

theorem printPath_ok {g : Graph F C} (h : NoNull g.store) {p : List (Nd (List F))}
    (hp : g.getPathNodes = .ok p) : g.printPath = .ok (p.map (lineOf g.store)) := by
  unfold Graph.printPath
  rw [hp]
  exact ShortestPath.mapM_ok _ _ _ (fun n _ => printNode_ok h n)

/-- C107. `print_path` goes wrong exactly when `get_path` does; before a search it prints nothing;
after one it prints the sample indices that `get_path` returns, in the same order. -/
theorem C107_print_path (pq : PQ C (List F)) (ops : List (Op F)) (g : Graph F C)
    (outs : List (Out C)) (h : (Graph.new : Graph F C).calls pq ops = .ok (g, outs)) (n : Nat) :
    (∀ e, g.getPath n = .error e ↔ g.printPath = .error e) ∧
    (g.pathFound = false → g.printPath = .ok []) ∧
    (g.pathFound = true → ∀ idx, g.getPath n = .ok (some idx) →
      ∃ lines, g.printPath = .ok lines ∧ lines.map (fun l => (l.si : Int)) = idx ∧
        lines.length = n) := by
  have hn : NoNull g.store := NoNull.calls pq (g := Graph.new)
    (fun _ _ => by simp [Graph.new, freshSt]) h
  have hsi : ∀ n : Nd (List F), (lineOf g.store n).si = n.si := by
    intro n; unfold lineOf; split <;> rfl
  cases hf : g.pathFound with
  | false =>
    have h0 : g.getPathNodes = .ok [] := by unfold Graph.getPathNodes; rw [if_neg (by rw [hf]; simp)]
    have hpp := printPath_ok hn h0
    refine ⟨fun e => ?_, fun _ => hpp, by simp⟩
    rw [hpp]
    unfold Graph.getPath
    rw [if_neg (by rw [hf]; simp)]
    simp
  | true =>
    cases hp : g.getPathNodes with
    | error e =>
      have h1 : g.printPath = .error e := by unfold Graph.printPath; rw [hp]; rfl
      have h2 : g.getPath n = .error e := by unfold Graph.getPath; rw [if_pos hf, hp]; rfl
      refine ⟨fun e' => by rw [h1, h2]; simp, by simp, fun _ idx hidx => ?_⟩
      rw [h2] at hidx; cases hidx
    | ok p =>
      have h1 := printPath_ok hn hp
      have h2 : g.getPath n = if n ≠ p.length then .ok none
          else .ok (some (p.map fun x => (x.si : Int))) := by
        unfold Graph.getPath; rw [if_pos hf, hp]; rfl
      refine ⟨fun e => ?_, by simp, fun _ idx hidx => ?_⟩
      · rw [h1, h2]; split <;> simp
      · rw [h2] at hidx
        split at hidx
        · cases hidx
        · rename_i hlen
          push Not at hlen
          cases hidx
          exact ⟨_, h1, by simp [hsi], by simp [hlen]⟩

/-- C107. Before any search every node is printed with its own indices, infinite distance and the
indices `(0, 0)` of the dummy node. -/
theorem C107_fresh_table (pq : PQ C (List F)) (cols : List (List (List F))) (d : Nat)
    (hp : Proper cols d) (w : Option (List F)) :
    ∃ g outs, (Graph.new : Graph F C).calls pq (setup w d cols) = .ok (g, outs) ∧
      g.printGraphData = cols ∧
      g.printGraph = .ok (cols.mapIdx fun i col => col.mapIdx fun j _ => ⟨i, j, ⊤, 0, 0⟩) := by
  obtain ⟨g, o, h, hi⟩ := setup_calls pq hp w
  have hn : NoNull g.store := NoNull.calls pq (g := Graph.new)
    (fun _ _ => by simp [Graph.new, freshSt]) h
  refine ⟨g, o, h, ?_, ?_⟩
  · exact hi.gd
  · rw [printGraph_ok hn, hi.ready.na]
    have hl : ∀ n : Nd (List F), lineOf g.store n = ⟨n.pi, n.si, ⊤, 0, 0⟩ := by
      intro n
      unfold lineOf Store.at
      rw [hi.store]
      rfl
    congr 1
    apply List.ext_getElem?
    intro i
    simp [PyGraph.dataToNodeArray]
    cases cols[i]? with
    | none => rfl
    | some col =>
      simp only [Option.map_some, Option.some.injEq]
      apply List.ext_getElem?
      intro j
      simp only [Function.comp_apply, List.getElem?_map, List.getElem?_mapIdx, Option.map_map]
      congr 1
      funext x
      simp [hl]

theorem twoCols_finite : ∃ p, IsSelection twoCols p ∧
    costL (stepCost (WithTop ℚ) (effWeights (WithTop ℚ) 1 ((none : Option (List ℚ)).getD []))) p < ⊤ := by
  refine ⟨[[0], [2]], .cons (by simp) (.cons (by simp) .nil), ?_⟩
  decide +kernel

/-- The columns of the other examples meet the hypotheses. -/
example : ∃ (g : Graph ℚ (WithTop ℚ)) (outs : List (Out (WithTop ℚ))) (lines : List (List (Line (WithTop ℚ)))),
    (Graph.new : Graph ℚ (WithTop ℚ)).calls stdHeap (setup none 1 twoCols ++ [.runBfs]) =
      .ok (g, outs) ∧ g.printGraph = .ok lines ∧ lines.map List.length = twoCols.map List.length := by
  obtain ⟨g, outs, lines, h1, h2, h3, -⟩ := C107_bfs_table (C := WithTop ℚ) stdHeap twoCols 1
    twoCols_proper none _ rfl twoCols_finite
  exact ⟨g, outs, lines, h1, h2, h3⟩

/-- Cases of `C107_print_graph` and `C107_print_path`, a graph that has been searched, changed and
searched again. -/
example : ∃ (g : Graph ℚ (WithTop ℚ)) (outs : List (Out (WithTop ℚ))),
    (Graph.new : Graph ℚ (WithTop ℚ)).calls stdHeap
      (setup none 1 twoCols ++ [.runBfs, .setWeights [3], .runDijkstra]) = .ok (g, outs) ∧
    (∃ lines, g.printGraph = .ok lines ∧ lines.map List.length = g.na.map List.length) ∧
    ∀ n e, g.getPath n = .error e ↔ g.printPath = .error e := by
  obtain ⟨g, outs, h⟩ := (C14_histories_partial noOverflow_rat stdHeap stdHeapLawful twoCols 1
    twoCols_proper none (finite_rat _ _) [.runBfs, .setWeights [3], .runDijkstra]
    (by simp [Later, finite_rat])).1 (by rfl)
  exact ⟨g, outs, h, C107_print_graph stdHeap _ g outs h,
    fun n e => (C107_print_path stdHeap _ g outs h n).1 e⟩

end Verif.Props
