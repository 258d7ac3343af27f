import Verif.Model.CppUnused
import Verif.Props.CppPrint

/-!
# C149, the unused functions of `graph.cpp`

`visit` relaxes the edges out of one node.  Calling it on the nodes in any order never gives a
distance that no selection has; calling it on all nodes column by column, which is the order of
`init_unvisited`, gives the same distances as `run_bfs`.
-/

set_option linter.unusedSectionVars false

namespace Verif.Props

open Verif.Search Verif.Spec Verif.CppGraph Verif.ShortestPath

variable {F C : Type} [CostArith C] [JointArith F C]

/-! ## One visit -/

theorem visitOne_self (g : Graph F C) (n nb : Nd (List F)) (s : Store C (List F)) :
    (g.visitOne n s nb).at nb =
      if (s.at n).dist + g.edgeCost n nb < (s.at nb).dist then
        ⟨(s.at n).dist + g.edgeCost n nb, .node n, (s.at nb).visited⟩ else s.at nb := by
  unfold Graph.visitOne
  split <;> simp

theorem visitOne_other (g : Graph F C) (n nb : Nd (List F)) (s : Store C (List F)) (i j : Nat)
    (h : (i, j) ≠ nb.key) : g.visitOne n s nb i j = s i j := by
  unfold Graph.visitOne
  split
  · exact upd_other _ _ _ _ _ h
  · rfl

theorem foldl_visitOne (g : Graph F C) (n : Nd (List F)) (N : List (Nd (List F)))
    (s : Store C (List F)) (hnd : (N.map Nd.key).Nodup) (hcur : n.key ∉ N.map Nd.key) :
    (∀ m ∈ N, (N.foldl (g.visitOne n) s).at m =
      if (s.at n).dist + g.edgeCost n m < (s.at m).dist then
        ⟨(s.at n).dist + g.edgeCost n m, .node n, (s.at m).visited⟩ else s.at m) ∧
    (∀ i j, (i, j) ∉ N.map Nd.key → N.foldl (g.visitOne n) s i j = s i j) := by
  induction N generalizing s with
  | nil => simp
  | cons m N ih =>
    simp only [List.map_cons, List.nodup_cons] at hnd
    simp only [List.map_cons, List.mem_cons, not_or] at hcur
    obtain ⟨h1, h2⟩ := ih (g.visitOne n s m) hnd.2 hcur.2
    have hc : (g.visitOne n s m).at n = s.at n := visitOne_other _ _ _ _ _ _ hcur.1
    constructor
    · intro k hk
      rw [List.foldl_cons]
      rcases List.mem_cons.1 hk with rfl | hk
      · have := h2 k.pi k.pos hnd.1
        show List.foldl (g.visitOne n) (g.visitOne n s k) N k.pi k.pos = _
        rw [this]
        exact visitOne_self ..
      · have hne : k.key ≠ m.key := fun h => hnd.1 (h ▸ List.mem_map_of_mem hk)
        have : (g.visitOne n s m).at k = s.at k := visitOne_other _ _ _ _ _ _ hne
        rw [h1 k hk, hc, this]
    · intro i j hij
      simp only [List.map_cons, List.mem_cons, not_or] at hij
      rw [List.foldl_cons, h2 i j hij.2, visitOne_other _ _ _ _ _ _ hij.1]

/-- The effect of `visit` on the node `v` of column `i`. -/
theorem visit_at {g : Graph F C} (hwf : WFna g.na) (n : Nd (List F)) {i : Nat}
    {col : List (Nd (List F))} (hc : g.na[i]? = some col) {v : Nd (List F)} (hv : v ∈ col) :
    (g.visit n).store.at v =
      if i = n.pi + 1 ∧ (g.store.at n).dist + g.edgeCost n v < (g.store.at v).dist then
        ⟨(g.store.at n).dist + g.edgeCost n v, .node n, (g.store.at v).visited⟩
      else g.store.at v := by
  have hvpi := hwf.pi_of_mem hc hv
  unfold Graph.visit
  simp only
  rw [getNeighbors_eq]
  unfold layerNbs
  cases hcol : g.na[n.pi + 1]? with
  | none =>
    rw [if_neg]
    · rfl
    · rintro ⟨rfl, _⟩
      rw [hcol] at hc; cases hc
  | some N =>
    have hNpi : ∀ m ∈ N, m.pi = n.pi + 1 := fun m hm => hwf.pi_of_mem hcol hm
    simp only [List.filter_true]
    obtain ⟨h1, h2⟩ := foldl_visitOne g n N g.store (hwf.nodup_keys hcol) (by
      intro hm
      obtain ⟨m, hm, hk⟩ := List.mem_map.1 hm
      have h1 := hNpi m hm
      have h2 : m.pi = n.pi := congrArg Prod.fst hk
      omega)
    by_cases hi : i = n.pi + 1
    · subst hi
      rw [hcol] at hc
      cases hc
      rw [h1 v hv]
      simp
    · rw [if_neg (fun h => hi h.1)]
      apply h2
      intro hm
      obtain ⟨m, hm, hk⟩ := List.mem_map.1 hm
      have h1 := hNpi m hm
      have h2 : m.pi = v.pi := congrArg Prod.fst hk
      omega

theorem visit_na (g : Graph F C) (n : Nd (List F)) : (g.visit n).na = g.na := rfl
theorem visit_weights (g : Graph F C) (n : Nd (List F)) : (g.visit n).weights = g.weights := rfl
theorem visit_edge (g : Graph F C) (n : Nd (List F)) : (g.visit n).edgeCost = g.edgeCost := rfl

theorem visits_na (g : Graph F C) (L : List (Nd (List F))) :
    (L.foldl Graph.visit g).na = g.na := by
  induction L generalizing g with
  | nil => rfl
  | cons n L ih => rw [List.foldl_cons, ih, visit_na]

theorem visits_edge (g : Graph F C) (L : List (Nd (List F))) :
    (L.foldl Graph.visit g).edgeCost = g.edgeCost := by
  induction L generalizing g with
  | nil => rfl
  | cons n L ih => rw [List.foldl_cons, ih, visit_edge]

/-- Distances only go down. -/
theorem visit_dist_le {g : Graph F C} (hwf : WFna g.na) (n : Nd (List F)) {i : Nat}
    {col : List (Nd (List F))} (hc : g.na[i]? = some col) {v : Nd (List F)} (hv : v ∈ col) :
    ((g.visit n).store.at v).dist ≤ (g.store.at v).dist := by
  rw [visit_at hwf n hc hv]
  split
  · rename_i h; exact le_of_lt h.2
  · exact le_rfl

/-! ## Many visits -/

/-- The start nodes as the searches set them up (graph.cpp:29-35, 78-84), nothing else done. -/
def startNodes (g : Graph F C) : Graph F C :=
  { g with store := (startCol fifoPush ((g.na[0]?).getD []) (g.store, [])).1 }

/-- What the visits keep: a finite distance belongs to a walk, the first column stays as it was set
up, and the parent of a reached node explains its distance. -/
structure Relaxed (g : Graph F C) : Prop where
  walk : ∀ (i : Nat) (col : List (Nd (List F))), g.na[i]? = some col → ∀ v ∈ col, (g.store.at v).dist = ⊤ ∨
    ∃ p, Walk g.na (fun _ _ => true) g.edgeCost 0 v (g.store.at v).dist p
  first : ∀ col, g.na[0]? = some col → ∀ v ∈ col, g.store.at v = ⟨0, .dummy, true⟩
  par : ∀ (i : Nat) (col : List (Nd (List F))), g.na[i]? = some col → 0 < i → ∀ v ∈ col,
    ((g.store.at v).dist = ⊤ ∧ (g.store.at v).parent = .dummy) ∨
    ∃ (prev : List (Nd (List F))) (u : Nd (List F)), g.na[i - 1]? = some prev ∧ u ∈ prev ∧
      (g.store.at v).parent = .node u ∧
      (g.store.at u).dist + g.edgeCost u v ≤ (g.store.at v).dist
  vis : ∀ (i : Nat) (col : List (Nd (List F))), g.na[i]? = some col → 0 < i → ∀ v ∈ col, (g.store.at v).visited = false

theorem Relaxed.visit {g : Graph F C} (hwf : WFna g.na) (h : Relaxed g) {n : Nd (List F)}
    {cn : List (Nd (List F))} (hcn : g.na[n.pi]? = some cn) (hn : n ∈ cn) :
    Relaxed (g.visit n) := by
  refine ⟨?_, ?_, ?_, ?_⟩
  · intro i col hc v hv
    rw [visit_na, visit_edge]
    rw [visit_na] at hc
    rw [visit_at hwf n hc hv]
    split
    · rename_i hlt
      obtain ⟨rfl, hlt⟩ := hlt
      rcases h.walk _ _ hcn n hn with ht | ⟨p, hw⟩
      · rw [ht, top_add] at hlt
        exact absurd (lt_of_lt_of_le hlt le_top) (lt_irrefl _)
      · exact Or.inr ⟨_, .step hw hc hv rfl⟩
    · exact h.walk _ _ hc v hv
  · intro col hc v hv
    rw [visit_na] at hc
    rw [visit_at hwf n hc hv, if_neg (by omega)]
    exact h.first col hc v hv
  · intro i col hc hi v hv
    rw [visit_na] at hc ⊢
    rw [visit_edge, visit_at hwf n hc hv]
    have hnn : (g.visit n).store.at n = g.store.at n := by
      rw [visit_at hwf n hcn hn, if_neg (by omega)]
    split
    · rename_i hlt
      obtain ⟨rfl, hlt⟩ := hlt
      exact Or.inr ⟨cn, n, by simpa using hcn, hn, rfl, by rw [hnn]⟩
    · rcases h.par i col hc hi v hv with ⟨h1, h2⟩ | ⟨prev, u, h1, h2, h3, h4⟩
      · exact Or.inl ⟨h1, h2⟩
      · exact Or.inr ⟨prev, u, h1, h2, h3,
          le_trans (add_mono _ _ _ (visit_dist_le hwf n h1 h2)) h4⟩
  · intro i col hc hi v hv
    rw [visit_na] at hc
    rw [visit_at hwf n hc hv]
    split
    · exact h.vis i col hc hi v hv
    · exact h.vis i col hc hi v hv

theorem Relaxed.visits (L : List (Nd (List F))) : ∀ {g : Graph F C}, WFna g.na → Relaxed g →
    (∀ n ∈ L, ∃ cn, g.na[n.pi]? = some cn ∧ n ∈ cn) → Relaxed (L.foldl Graph.visit g) := by
  induction L with
  | nil => intro g _ h _; exact h
  | cons n L ih =>
    intro g hwf h hL
    obtain ⟨cn, h1, h2⟩ := hL n (by simp)
    exact ih (g := g.visit n) hwf (h.visit hwf h1 h2) (fun m hm => hL m (by simp [hm]))

/-- The path relaxation property: after visiting the nodes of `L`, among which are the inner nodes
of a walk in their order, the distance is at most the cost of the walk. -/
theorem visits_relax {g : Graph F C} (hwf : WFna g.na) (hr : Relaxed g) (L : List (Nd (List F))) :
    ∀ (v : Nd (List F)) (c : C) (p : List (Nd (List F))),
      Walk g.na (fun _ _ => true) g.edgeCost 0 v c p → List.Sublist p.tail.reverse L →
      ((L.foldl Graph.visit g).store.at v).dist ≤ c := by
  induction L using List.reverseRecOn with
  | nil =>
    intro v c p hw hs
    cases hw with
    | start hc hv => rw [List.foldl_nil, hr.first _ hc v hv]
    | step hw _ _ _ =>
      obtain ⟨p', rfl⟩ := walk_head hw
      simp at hs
  | append_singleton L n ih =>
    intro v c p hw hs
    rw [List.foldl_append, List.foldl_cons, List.foldl_nil]
    have hna := visits_na g L
    have hed := visits_edge g L
    have hwf' : WFna (L.foldl Graph.visit g).na := by rw [hna]; exact hwf
    obtain ⟨col, hcol, hv⟩ := hw.mem_col hwf
    rw [← hna] at hcol
    rcases List.sublist_append_iff.1 hs with ⟨l1, l2, he, h1, h2⟩
    rcases List.sublist_cons_iff.1 h2 with h2 | ⟨r, hr2, h2⟩
    · have : l2 = [] := by simpa using h2
      subst this
      rw [List.append_nil] at he
      exact le_trans (visit_dist_le hwf' n hcol hv) (ih v c p hw (he ▸ h1))
    · have : r = [] := by simpa using h2
      subst this
      subst hr2
      cases hw with
      | start hc hv => simp at he
      | @step u _ c' p' col' hw' hc' hv' hok =>
        obtain ⟨q, rfl⟩ := walk_head hw'
        simp only [List.tail_cons, List.reverse_cons] at he
        obtain ⟨e1, e2⟩ := List.append_inj' he rfl
        have e3 : u = n := by simpa using e2
        subst e3
        have hd := ih u c' (u :: q) hw' (by simpa using e1 ▸ h1)
        have hvpi := hwf.pi_of_mem hc' hv'
        have hcol2 : (L.foldl Graph.visit g).na[u.pi + 1]? = some col' := by rw [hna]; exact hc'
        rw [visit_at hwf' u hcol2 hv', hed]
        split
        · exact add_mono _ _ _ hd
        · rename_i hlt
          have : ¬ ((L.foldl Graph.visit g).store.at u).dist + g.edgeCost u v <
              ((L.foldl Graph.visit g).store.at v).dist := fun h => hlt ⟨rfl, h⟩
          exact le_trans (not_lt.1 this) (add_mono _ _ _ hd)

/-- Every walk goes through the columns in order. -/
theorem walk_sublist {na : List (List (Nd (List F)))} (hwf : WFna na)
    {ok : Nd (List F) → Nd (List F) → Bool} {cost : Nd (List F) → Nd (List F) → C}
    {v : Nd (List F)} {c : C} {p : List (Nd (List F))} (hw : Walk na ok cost 0 v c p) :
    List.Sublist p.reverse (na.take (v.pi + 1)).flatten := by
  induction hw with
  | @start v col hc hv =>
    rw [hwf.pi_of_mem hc hv]
    have : na.take 1 = [col] := by
      cases na with
      | nil => simp at hc
      | cons a na => simp at hc; simp [hc]
    rw [show (0 : Nat) + 1 = 1 from rfl, this]
    simpa using hv
  | @step u v c p col hw hc hv hok ih =>
    rw [hwf.pi_of_mem hc hv, List.take_add_one, hc]
    simp only [Option.toList_some, List.flatten_append, List.reverse_cons]
    exact ih.append (by simpa using hv)

theorem initUnvisited_eq (g : Graph F C) (uv : List (Nd (List F))) :
    g.initUnvisited uv = uv ++ (g.na.drop 1).flatten := by
  unfold Graph.initUnvisited
  have h1 : ∀ (col uv : List (Nd (List F))), col.foldl (fun uv n => uv ++ [n]) uv = uv ++ col := by
    intro col
    induction col with
    | nil => simp
    | cons n col ih => intro uv; rw [List.foldl_cons, ih]; simp
  generalize g.na.drop 1 = l
  induction l generalizing uv with
  | nil => simp
  | cons c l ih => rw [List.foldl_cons, ih, h1]; simp

theorem startNodes_relaxed {g : Graph F C} (hwf : WFna g.na)
    (hst : g.store = fun _ _ => freshSt) : Relaxed (startNodes g) := by
  have hna : (startNodes g).na = g.na := rfl
  have hother : ∀ (i : Nat) (col : List (Nd (List F))), g.na[i]? = some col → 0 < i → ∀ v ∈ col,
      (startNodes g).store.at v = freshSt := by
    intro i col hc hi v hv
    have hvpi := hwf.pi_of_mem hc hv
    have h0 : (startNodes g).store.at v = g.store.at v := by
      cases hc0 : g.na[0]? with
      | none => simp [startNodes, hc0, startCol]
      | some c0 =>
        have hs : (startNodes g).store = (startCol fifoPush c0 (g.store, [])).1 := by
          unfold startNodes; rw [hc0]; rfl
        rw [hs]
        refine (startCol_spec fifoPush c0 (g.store, []) (hwf.nodup_keys hc0)).2 _ _ ?_
        intro hm
        obtain ⟨m, hm, hk⟩ := List.mem_map.1 hm
        have h1 := hwf.pi_of_mem hc0 hm
        have h2 : m.pi = v.pi := congrArg Prod.fst hk
        omega
    rw [h0, hst]; rfl
  have hfirst : ∀ col, g.na[0]? = some col → ∀ v ∈ col,
      (startNodes g).store.at v = ⟨0, .dummy, true⟩ := by
    intro col hc v hv
    have hs : (startNodes g).store = (startCol fifoPush col (g.store, [])).1 := by
      unfold startNodes; rw [hc]; rfl
    rw [hs]
    exact (startCol_spec fifoPush col (g.store, []) (hwf.nodup_keys hc)).1 v hv
  refine ⟨?_, hfirst, ?_, ?_⟩
  · intro i col hc v hv
    rcases Nat.eq_zero_or_pos i with rfl | hi
    · right
      rw [hfirst col hc v hv]
      exact ⟨_, .start hc hv⟩
    · left; rw [hother i col hc hi v hv]; rfl
  · intro i col hc hi v hv
    left; rw [hother i col hc hi v hv]; exact ⟨rfl, rfl⟩
  · intro i col hc hi v hv
    rw [hother i col hc hi v hv]; rfl

theorem costL_snoc (f : List F → List F → C) (q : List (List F)) (x y : List F) :
    costL f (q ++ [x] ++ [y]) = costL f (q ++ [x]) + f x y := by
  rw [List.append_assoc]
  exact costFrom_snoc ..

/-- The node for row `x`, number `j` of column `i`. -/
theorem node_get (cols : List (List (List F))) {i j : Nat} {col : List (List F)} {x : List F}
    (hcol : cols[i]? = some col) (hx : col[j]? = some x) :
    ∃ nc : List (Nd (List F)), (PyGraph.dataToNodeArray cols)[i]? = some nc ∧
      nc[j]? = some ⟨i, j, j, x⟩ := by
  refine ⟨col.mapIdx fun j row => ⟨i, j, j, row⟩, ?_, ?_⟩
  · rw [PyGraph.nodeArray_getElem?, hcol]; rfl
  · simp [hx]

/-! ## The claims -/

/-- C149. `visit` of the node for row `x`, number `j` of column `i`, changes only the nodes of column
`i + 1` that can be reached cheaper through it; these get the new distance and the node as parent.
Their `visited` flag, and all other nodes, stay as they were. -/
theorem C149_visit (g : Graph F C) (cols : List (List (List F)))
    (hna : g.na = PyGraph.dataToNodeArray cols) (i j k l : Nat) (ci ck : List (List F))
    (x y : List F) (hi : cols[i]? = some ci) (hj : ci[j]? = some x) (hk : cols[k]? = some ck)
    (hl : ck[l]? = some y) (new : C)
    (hnew : new = (g.store i j).dist + stepCost C g.weights x y) :
    (k = i + 1 → new < (g.store k l).dist →
      (g.visit ⟨i, j, j, x⟩).store k l = ⟨new, .node ⟨i, j, j, x⟩, (g.store k l).visited⟩) ∧
    (¬ (k = i + 1 ∧ new < (g.store k l).dist) →
      (g.visit ⟨i, j, j, x⟩).store k l = g.store k l) ∧
    (g.visit ⟨i, j, j, x⟩).na = g.na := by
  have hwf : WFna g.na := by rw [hna]; exact PyGraph.wf_nodeArray _
  obtain ⟨nk, h1, h2⟩ := node_get cols hk hl
  rw [← hna] at h1
  have h := visit_at hwf ⟨i, j, j, x⟩ h1 (List.mem_of_getElem? h2)
  have he : g.edgeCost ⟨i, j, j, x⟩ ⟨k, l, l, y⟩ = stepCost C g.weights x y := rfl
  have ha : ∀ s : Store C (List F), s.at ⟨k, l, l, y⟩ = s k l := fun _ => rfl
  have hb : g.store.at ⟨i, j, j, x⟩ = g.store i j := rfl
  rw [ha, ha, hb, he, ← hnew] at h
  refine ⟨fun hki hlt => ?_, fun hn => ?_, rfl⟩
  · rw [h, if_pos ⟨hki, hlt⟩]
  · rw [h, if_neg hn]

/-- C149. `init_unvisited` appends the nodes of all columns but the first, column by column. -/
theorem C149_list (g : Graph F C) (cols : List (List (List F)))
    (hna : g.na = PyGraph.dataToNodeArray cols) (uv : List (Nd (List F))) :
    g.initUnvisited uv = uv ++ ((cols.zipIdx.drop 1).flatMap fun c =>
      c.1.zipIdx.map fun r => ⟨c.2, r.2, r.2, r.1⟩) ∧
    (g.initUnvisited uv).length = uv.length + ((cols.drop 1).map List.length).sum := by
  have h1 : g.initUnvisited uv = uv ++ ((cols.zipIdx.drop 1).flatMap fun c =>
      c.1.zipIdx.map fun r => ⟨c.2, r.2, r.2, r.1⟩) := by
    rw [initUnvisited_eq, hna]
    unfold PyGraph.dataToNodeArray
    simp only [List.mapIdx_eq_zipIdx_map, List.flatMap_def, List.map_drop]
  refine ⟨h1, ?_⟩
  rw [initUnvisited_eq, hna, List.length_append, List.length_flatten]
  congr 2
  unfold PyGraph.dataToNodeArray
  rw [List.map_drop]
  rw [List.map_drop]
  congr 1
  apply List.ext_getElem?
  intro i
  simp
  cases cols[i]? <;> simp

/-- C149. `sort_function` is a strict weak order (what `std::sort` asks for), and in a list that is
sorted by it no node is nearer than the last one. -/
theorem C149_sort (s : Store C (List F)) :
    (∀ a, sortFunction s a a = false) ∧
    (∀ a b c, sortFunction s a b = true → sortFunction s b c = true → sortFunction s a c = true) ∧
    (∀ a b c, sortFunction s a b = false → sortFunction s b a = false →
      sortFunction s b c = false → sortFunction s c b = false →
      sortFunction s a c = false ∧ sortFunction s c a = false) ∧
    ∀ (l : List (Nd (List F))) (n : Nd (List F)),
      (l ++ [n]).Pairwise (fun a b => sortFunction s b a = false) →
      ∀ m ∈ l, (s.at n).dist ≤ (s.at m).dist := by
  unfold sortFunction
  refine ⟨fun a => by simp, fun a b c h1 h2 => ?_, fun a b c h1 h2 h3 h4 => ?_, fun l n h m hm => ?_⟩
  · simp only [decide_eq_true_eq] at *
    exact lt_trans h2 h1
  · simp only [decide_eq_false_iff_not, not_lt] at *
    exact ⟨le_trans h1 h3, le_trans h4 h2⟩
  · rw [List.pairwise_append] at h
    have := h.2.2 m hm n (by simp)
    simpa using this

/-- C149. Visiting any nodes in any order (after the start nodes have been set up): a distance below
infinity is the cost of a choice of rows that ends there, and the parent of such a node explains the
distance. -/
theorem C149_sound (pq : PQ C (List F)) (cols : List (List (List F))) (d : Nat)
    (hp : Proper cols d) (w : Option (List F)) (wt : List F)
    (hwt : wt = effWeights C d (w.getD [])) :
    ∃ g outs, (Graph.new : Graph F C).calls pq (setup w d cols) = .ok (g, outs) ∧
      ∀ (L : List (Nd (List F))),
      (∀ n ∈ L, ∃ col, cols[n.pi]? = some col ∧ col[n.si]? = some n.data ∧ n.pos = n.si) →
      ∀ (i j : Nat) (col : List (List F)) (x : List F), cols[i]? = some col → col[j]? = some x →
      let s := (L.foldl Graph.visit (startNodes g)).store
      ((s i j).dist < ⊤ → ∃ p, IsSelection (cols.take (i + 1)) p ∧ p.getLast? = some x ∧
        costL (stepCost C wt) p = (s i j).dist) ∧
      (i = 0 → s i j = ⟨0, .dummy, true⟩) ∧
      (0 < i → (s i j).dist < ⊤ → ∃ (prev : List (List F)) (k : Nat) (y : List F),
        cols[i - 1]? = some prev ∧ prev[k]? = some y ∧ (s i j).parent = .node ⟨i - 1, k, k, y⟩ ∧
        (s (i - 1) k).dist + stepCost C wt y x ≤ (s i j).dist) := by
  obtain ⟨g, o, h0, hi⟩ := setup_calls pq hp w
  subst hwt
  refine ⟨g, o, h0, fun L hL i j col x hcol hx => ?_⟩
  rw [← hi.wts]
  have hwf := hi.ready.wf
  have hna := hi.ready.na
  have hL' : ∀ n ∈ L, ∃ cn, (startNodes g).na[n.pi]? = some cn ∧ n ∈ cn := by
    intro n hn
    obtain ⟨c, h1, h2, h3⟩ := hL n hn
    obtain ⟨nc, h4, h5⟩ := node_get cols h1 h2
    refine ⟨nc, by rw [show (startNodes g).na = g.na from rfl, hna]; exact h4, ?_⟩
    have : (⟨n.pi, n.si, n.si, n.data⟩ : Nd (List F)) = n := by
      cases n; simp only at h3; subst h3; rfl
    rw [← this]
    exact List.mem_of_getElem? h5
  have hR := Relaxed.visits L (g := startNodes g) hwf (startNodes_relaxed hwf hi.store) hL'
  have hna2 : (L.foldl Graph.visit (startNodes g)).na = g.na := visits_na _ _
  have hed : (L.foldl Graph.visit (startNodes g)).edgeCost = g.edgeCost := visits_edge _ _
  obtain ⟨hRw, hRf, hRp, -⟩ := hR
  rw [hna2, hed] at hRw hRp
  rw [hna2] at hRf
  obtain ⟨nc, hnc, hv⟩ := node_get cols hcol hx
  rw [← hna] at hnc
  have hvm := List.mem_of_getElem? hv
  intro s
  have hsat : ∀ k y, s.at ⟨k, y, y, x⟩ = s k y := fun _ _ => rfl
  refine ⟨fun hd => ?_, fun h0i => ?_, fun h0i hd => ?_⟩
  · rcases hRw i nc hnc _ hvm with h1 | ⟨p, hw⟩
    · exact absurd hd (by rw [show (s i j).dist = ⊤ from h1]; exact lt_irrefl _)
    · obtain ⟨h1, _, h3⟩ := walk_selection (R := fun _ _ => True) (g := stepCost C g.weights) hwf
        (fun _ _ _ => trivial) (fun u v => rfl) hw
      rw [hi.ready.data] at h1
      refine ⟨_, h1, ?_, h3⟩
      obtain ⟨q', rfl⟩ := walk_head hw
      simp
  · subst h0i
    exact hRf nc hnc _ hvm
  · rcases hRp i nc hnc h0i _ hvm with ⟨h1, _⟩ | ⟨prev, u, h1, h2, h3, h4⟩
    · exact absurd hd (by rw [show (s i j).dist = ⊤ from h1]; exact lt_irrefl _)
    · obtain ⟨k, hk⟩ := List.getElem?_of_mem h2
      rw [hna] at h1
      obtain ⟨a1, a2, a3, c, a4, a5⟩ := PyGraph.nodeArray_mem h1 hk
      have hu : u = ⟨i - 1, k, k, u.data⟩ := by
        cases u; simp only at a1 a2 a3; subst a1 a2 a3; rfl
      refine ⟨c, k, u.data, a4, a5, by rw [← hu]; exact h3, ?_⟩
      have : s.at u = s (i - 1) k := by rw [hu]; rfl
      rw [← this]
      exact h4

/-- C149. The path relaxation property: if the nodes of a choice of rows, but the last one, are
visited in their order, with any other visits before, between and after, then the distance of the
last one is at most the cost of the choice. -/
theorem C149_relaxation (pq : PQ C (List F)) (cols : List (List (List F))) (d : Nat)
    (hp : Proper cols d) (w : Option (List F)) (wt : List F)
    (hwt : wt = effWeights C d (w.getD [])) :
    ∃ g outs, (Graph.new : Graph F C).calls pq (setup w d cols) = .ok (g, outs) ∧
      ∀ (L ns : List (Nd (List F))) (v : Nd (List F)),
      (∀ (k : Nat) (n : Nd (List F)), (ns ++ [v])[k]? = some n →
        n.pi = k ∧ n.pos = n.si ∧ ∃ col, cols[k]? = some col ∧ col[n.si]? = some n.data) →
      List.Sublist ns L →
      ((L.foldl Graph.visit (startNodes g)).store v.pi v.pos).dist ≤
        costL (stepCost C wt) ((ns ++ [v]).map Nd.data) := by
  obtain ⟨g, o, h0, hi⟩ := setup_calls pq hp w
  subst hwt
  refine ⟨g, o, h0, fun L ns v hns hsub => ?_⟩
  rw [← hi.wts]
  have hwf := hi.ready.wf
  have hna := hi.ready.na
  have key : ∀ (ns : List (Nd (List F))) (v : Nd (List F)),
      (∀ (k : Nat) (n : Nd (List F)), (ns ++ [v])[k]? = some n →
        n.pi = k ∧ n.pos = n.si ∧ ∃ col, cols[k]? = some col ∧ col[n.si]? = some n.data) →
      Walk g.na (fun _ _ => true) g.edgeCost 0 v
        (costL (stepCost C g.weights) ((ns ++ [v]).map Nd.data)) (ns ++ [v]).reverse := by
    intro ns
    induction ns using List.reverseRecOn with
    | nil =>
      intro v h
      obtain ⟨h1, h2, col, h3, h4⟩ := h 0 v rfl
      obtain ⟨nc, h5, h6⟩ := node_get cols h3 h4
      have : (⟨0, v.si, v.si, v.data⟩ : Nd (List F)) = v := by
        cases v; simp only at h1 h2; subst h1 h2; rfl
      rw [this, ] at h6
      rw [← hna] at h5
      exact .start h5 (List.mem_of_getElem? h6)
    | append_singleton ns u ih =>
      intro v h
      have hw := ih u (fun k n hk => h k n (by
        rw [List.getElem?_append_left (List.getElem?_eq_some_iff.1 hk).1]; exact hk))
      obtain ⟨h1, h2, col, h3, h4⟩ := h (ns.length + 1) v (by simp)
      obtain ⟨u1, -⟩ := h ns.length u (by simp)
      obtain ⟨nc, h5, h6⟩ := node_get cols h3 h4
      have hve : (⟨ns.length + 1, v.si, v.si, v.data⟩ : Nd (List F)) = v := by
        cases v; simp only at h1 h2; subst h1 h2; rfl
      rw [hve] at h6
      rw [← hna, ← u1] at h5
      have hst := Walk.step hw h5 (List.mem_of_getElem? h6) rfl
      have hco : costL (stepCost C g.weights) ((ns ++ [u] ++ [v]).map Nd.data) =
          costL (stepCost C g.weights) ((ns ++ [u]).map Nd.data) + g.edgeCost u v := by
        simp only [List.map_append, List.map_cons, List.map_nil]
        exact costL_snoc ..
      rw [hco]
      simpa using hst
  exact visits_relax (g := startNodes g) hwf (startNodes_relaxed hwf hi.store) L v _ _ (key ns v hns)
    (by simpa using hsub)

/-- C149. Visiting the nodes of the first column and then those of `init_unvisited` gives every node
the least cost of all choices of rows that end there, and a parent that attains it, for any costs. -/
theorem C149_exact (pq : PQ C (List F)) (cols : List (List (List F))) (d : Nat)
    (hp : Proper cols d) (w : Option (List F)) (wt : List F)
    (hwt : wt = effWeights C d (w.getD [])) :
    ∃ g outs first rest, (Graph.new : Graph F C).calls pq (setup w d cols) = .ok (g, outs) ∧
      g.na = first :: rest ∧
      ∀ (i j : Nat) (col : List (List F)) (x : List F), cols[i]? = some col → col[j]? = some x →
      let s := ((g.initUnvisited first).foldl Graph.visit (startNodes g)).store
      (∀ p, IsSelection (cols.take (i + 1)) p → p.getLast? = some x →
        (s i j).dist ≤ costL (stepCost C wt) p) ∧
      ((s i j).dist < ⊤ → ∃ p, IsSelection (cols.take (i + 1)) p ∧ p.getLast? = some x ∧
        costL (stepCost C wt) p = (s i j).dist) ∧
      (0 < i → (s i j).dist < ⊤ → ∃ (prev : List (List F)) (k : Nat) (y : List F),
        cols[i - 1]? = some prev ∧ prev[k]? = some y ∧ (s i j).parent = .node ⟨i - 1, k, k, y⟩ ∧
        (s (i - 1) k).dist + stepCost C wt y x = (s i j).dist) := by
  obtain ⟨g, o, h0, hi⟩ := setup_calls pq hp w
  obtain ⟨g', o', h0', hsound⟩ := C149_sound pq cols d hp w wt hwt
  rw [h0] at h0'
  cases h0'
  have hwf := hi.ready.wf
  have hna := hi.ready.na
  obtain ⟨first, rest, hfr⟩ : ∃ first rest, g.na = first :: rest := by
    cases h : g.na with
    | nil =>
      have := congrArg List.length h
      rw [hna, PyGraph.nodeArray_length] at this
      exact absurd (List.length_eq_zero_iff.1 this) hi.ready.ne
    | cons a b => exact ⟨a, b, rfl⟩
  have hall : g.initUnvisited first = g.na.flatten := by
    rw [initUnvisited_eq, hfr]; simp
  have hLok : ∀ n ∈ g.initUnvisited first, ∃ col, cols[n.pi]? = some col ∧
      col[n.si]? = some n.data ∧ n.pos = n.si := by
    intro n hn
    rw [hall] at hn
    obtain ⟨nc, h1, h2⟩ := List.mem_flatten.1 hn
    obtain ⟨i, h1⟩ := List.getElem?_of_mem h1
    obtain ⟨j, h2⟩ := List.getElem?_of_mem h2
    rw [hna] at h1
    obtain ⟨a1, a2, a3, c, a4, a5⟩ := PyGraph.nodeArray_mem h1 h2
    exact ⟨c, by rw [a1]; exact a4, by rw [a3]; exact a5, by rw [a2, a3]⟩
  have hlow : ∀ (i j : Nat) (col : List (List F)) (x : List F), cols[i]? = some col →
      col[j]? = some x → ∀ p, IsSelection (cols.take (i + 1)) p → p.getLast? = some x →
      (((g.initUnvisited first).foldl Graph.visit (startNodes g)).store i j).dist ≤
        costL (stepCost C wt) p := by
    intro i j col x hcol hx p hps hlast
    obtain ⟨nc, hnc, hv⟩ := node_get cols hcol hx
    rw [← hna] at hnc
    have hvm := List.mem_of_getElem? hv
    have hlt : i < cols.length := (List.getElem?_eq_some_iff.1 hcol).1
    obtain ⟨u, q, hw, hupi, hq⟩ := selection_walk (na := g.na) (ok := fun _ _ => true)
      (cost := g.edgeCost) (R := fun _ _ => True) (g := stepCost C g.weights) hwf
      (fun _ _ _ => rfl) (fun u v => rfl) (k := i) (q := p) (by rw [hi.ready.length]; exact hlt)
      (by rw [hi.ready.data]; exact hps) (isChain_true p)
    obtain ⟨q', rfl⟩ := walk_head hw
    have hud : u.data = x := by
      rw [← hq] at hlast
      simpa using hlast
    obtain ⟨q2, hw2⟩ := walk_twin hwf hw (by rw [hupi]; exact hnc) hvm (by rw [hud])
    have hsub : List.Sublist q2.tail.reverse (g.initUnvisited first) := by
      rw [hall]
      have h1 := walk_sublist hwf hw2
      have h2 : List.Sublist (g.na.take ((⟨i, j, j, x⟩ : Nd (List F)).pi + 1)).flatten
          g.na.flatten := by
        conv_rhs => rw [← List.take_append_drop ((⟨i, j, j, x⟩ : Nd (List F)).pi + 1) g.na]
        rw [List.flatten_append]
        exact List.sublist_append_left _ _
      exact ((List.reverse_sublist.2 (List.tail_sublist q2)).trans h1).trans h2
    have := visits_relax (g := startNodes g) hwf (startNodes_relaxed hwf hi.store) _ _ _ _ hw2 hsub
    rw [hwt, ← hi.wts]
    exact this
  refine ⟨g, o, first, rest, h0, hfr, fun i j col x hcol hx => ?_⟩
  obtain ⟨s1, s2, s3⟩ := hsound _ hLok i j col x hcol hx
  refine ⟨hlow i j col x hcol hx, s1, fun hi0 hd => ?_⟩
  obtain ⟨prev, k, y, h1, h2, h3, h4⟩ := s3 hi0 hd
  refine ⟨prev, k, y, h1, h2, h3, le_antisymm h4 ?_⟩
  obtain ⟨t1, -, -⟩ := hsound _ hLok (i - 1) k prev y h1 h2
  by_cases ht : (((g.initUnvisited first).foldl Graph.visit (startNodes g)).store (i - 1) k).dist < ⊤
  · obtain ⟨p, hp1, hp2, hp3⟩ := t1 ht
    have hps : IsSelection (cols.take (i + 1)) (p ++ [x]) := by
      rw [List.take_add_one, hcol, show cols.take i = cols.take (i - 1 + 1) by
        rw [Nat.sub_add_cancel hi0]]
      exact List.rel_append hp1 (.cons (List.mem_of_getElem? hx) .nil)
    have := hlow i j col x hcol hx (p ++ [x]) hps (by simp)
    obtain ⟨p', rfl⟩ : ∃ p', p = p' ++ [y] := by
      rw [List.getLast?_eq_some_iff] at hp2
      exact hp2
    rw [costL_snoc, hp3] at this
    exact this
  · have : (((g.initUnvisited first).foldl Graph.visit (startNodes g)).store (i - 1) k).dist = ⊤ :=
      le_antisymm le_top (not_lt.1 ht)
    rw [this, top_add]
    exact le_top

/-- C149. The order matters: visiting every node of a three-column graph once, but the second column
before the first, leaves the last column unreached. -/
theorem C149_order : ∃ (cols : List (List (List ℚ))) (d : Nat), Proper cols d ∧
    ∃ (g : Graph ℚ (WithTop ℚ)) (outs : List (Out (WithTop ℚ))) (L : List (Nd (List ℚ))),
      (Graph.new : Graph ℚ (WithTop ℚ)).calls stdHeap (setup none d cols) = .ok (g, outs) ∧
      L.Perm g.na.flatten ∧ ((L.foldl Graph.visit (startNodes g)).store 2 0).dist = ⊤ ∧
      (((g.na.flatten).foldl Graph.visit (startNodes g)).store 2 0).dist = 2 := by
  refine ⟨[[[0]], [[1]], [[2]]], 1, by refine ⟨by simp, ?_, ?_⟩ <;> simp, ?_⟩
  refine ⟨_, _, [⟨1, 0, 0, [1]⟩, ⟨0, 0, 0, [0]⟩, ⟨2, 0, 0, [2]⟩], rfl, ?_, ?_, ?_⟩
  · exact List.Perm.swap _ _ _
  · decide +kernel
  · decide +kernel

/-- A case of `C149_exact` (and with it of `C149_sound`): the two columns of the other examples; the
node of the second column gets a distance of at most one, the cost of coming from the second row. -/
example : ∃ (g : Graph ℚ (WithTop ℚ)) (outs : List (Out (WithTop ℚ)))
    (first : List (Nd (List ℚ))) (rest : List (List (Nd (List ℚ)))),
    (Graph.new : Graph ℚ (WithTop ℚ)).calls stdHeap (setup none 1 twoCols) = .ok (g, outs) ∧
    g.na = first :: rest ∧
    (((g.initUnvisited first).foldl Graph.visit (startNodes g)).store 1 0).dist ≤ 1 := by
  obtain ⟨g, outs, first, rest, h1, h2, h3⟩ := C149_exact (C := WithTop ℚ) stdHeap twoCols 1
    twoCols_proper none _ rfl
  refine ⟨g, outs, first, rest, h1, h2, ?_⟩
  have := (h3 1 0 [[2]] [2] rfl rfl).1 [[1], [2]] (.cons (by simp) (.cons (by simp) .nil)) rfl
  exact le_trans this (by decide +kernel)

/-- A case of `C149_relaxation`: visiting the second row twice and the first row never. -/
example : ∃ (g : Graph ℚ (WithTop ℚ)) (outs : List (Out (WithTop ℚ))),
    (Graph.new : Graph ℚ (WithTop ℚ)).calls stdHeap (setup none 1 twoCols) = .ok (g, outs) ∧
    ((([⟨0, 1, 1, [1]⟩, ⟨0, 1, 1, [1]⟩] : List (Nd (List ℚ))).foldl Graph.visit
      (startNodes g)).store 1 0).dist ≤ 1 := by
  obtain ⟨g, outs, h1, h2⟩ := C149_relaxation (C := WithTop ℚ) stdHeap twoCols 1 twoCols_proper none
    _ rfl
  refine ⟨g, outs, h1, ?_⟩
  have := h2 [⟨0, 1, 1, [1]⟩, ⟨0, 1, 1, [1]⟩] [⟨0, 1, 1, [1]⟩] ⟨1, 0, 0, [2]⟩ (by
    intro k n hk
    match k, hk with
    | 0, hk => cases hk; exact ⟨rfl, rfl, _, rfl, rfl⟩
    | 1, hk => cases hk; exact ⟨rfl, rfl, _, rfl, rfl⟩) (by simp)
  exact le_trans this (by decide +kernel)

/-- A case of `C149_visit` and `C149_list` in the graph of these columns. -/
example : ∃ (g : Graph ℚ (WithTop ℚ)) (outs : List (Out (WithTop ℚ))),
    (Graph.new : Graph ℚ (WithTop ℚ)).calls stdHeap (setup none 1 twoCols) = .ok (g, outs) ∧
    (g.initUnvisited []).length = 1 ∧
    ((startNodes g).visit ⟨0, 0, 0, [0]⟩).store 1 0 = ⟨4, .node ⟨0, 0, 0, [0]⟩, false⟩ := by
  refine ⟨_, _, rfl, (C149_list _ twoCols rfl []).2, ?_⟩
  exact (C149_visit (C := WithTop ℚ) (startNodes _) twoCols rfl 0 0 1 0 _ _ _ _ rfl rfl rfl rfl 4
    (by decide +kernel)).1 rfl (by decide +kernel)

/-- A case of `C149_sort`: two nodes, the nearer one last. -/
example : ∀ m ∈ [(⟨0, 0, 0, [0]⟩ : Nd (List ℚ))],
      (Store.at (fun i _ => (⟨if i = 0 then 3 else 1, .dummy, true⟩ : St (WithTop ℚ) (List ℚ)))
        ⟨1, 0, 0, [2]⟩).dist ≤
      (Store.at (fun i _ => (⟨if i = 0 then 3 else 1, .dummy, true⟩ : St (WithTop ℚ) (List ℚ)))
        m).dist :=
  (C149_sort _).2.2.2 [⟨0, 0, 0, [0]⟩] ⟨1, 0, 0, [2]⟩ (by simp [sortFunction, Store.at])

end Verif.Props
