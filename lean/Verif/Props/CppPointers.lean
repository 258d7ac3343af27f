import Verif.Proofs.CppPointers
import Mathlib.Data.List.Induction

/-!
# The pointers of the C++ graph stay valid, except after `set_graph_data` or a second `init` (C131)

`Model/CppGraph.lean` stores joint values and parents in the nodes themselves.  The theorems here say
when that is what the addresses in the program lead to.
-/

set_option linter.unusedSectionVars false

namespace Verif.Props

open Verif.CppPointers

variable {F : Type}

private theorem no_init_na (grow : Nat → Nat) (ops : List (Op F)) (h : Op.init ∉ ops) :
    (history grow ops).na = [] := by
  induction ops using List.reverseRecOn with
  | nil => rfl
  | append_singleton ops op ih =>
    rw [history_snoc]
    have hn := ih fun hm => h (by simp [hm])
    have hset : ∀ (data : List (List F)) (g : Graph F), (data.foldl Graph.addColumn g).na = g.na := by
      intro data
      induction data with
      | nil => exact fun g => rfl
      | cons a l ih => exact fun g => ih (g.addColumn a)
    cases op with
    | addColumn rows => exact hn
    | setData data => exact (hset data _).trans hn
    | init => exact absurd (by simp) h
    | reset => simp [Graph.call, Graph.reset, Graph.mapParents, hn]
    | run choice => simp [Graph.call, Graph.run, Graph.mapParents, hn]

private theorem items_of {g : Graph F} {i : Nat} {v : Vec Node} (h : g.na[i]? = some v) :
    v.items = (g.col i).items := by rw [col_of_getElem? h]

/-- Every node knows its column and the row it points to. -/
private def Points (g : Graph F) : Prop :=
  ∀ i, ∀ n ∈ (g.col i).items, n.pathIndex = i ∧
    ∃ w : Vec F, g.gd[i]? = some w ∧ n.sampleIndex < w.items.length ∧ n.jv = ⟨w.buf, n.sampleIndex⟩

private theorem points_map (g : Graph F) (h : Points g) (f : Nat → Nat → Par → Par) :
    Points (g.mapParents f) := by
  intro i n hn
  rw [mapParents_col] at hn
  obtain ⟨j, hj, rfl⟩ := List.mem_mapIdx.1 hn
  exact h i (g.col i).items[j] (List.getElem_mem hj)

private theorem points_history (grow : Nat → Nat) (ops : List (Op F))
    (hset : ∀ a data b, ops = a ++ Op.setData data :: b → Op.init ∉ a) :
    Points (history grow ops) := by
  induction ops using List.reverseRecOn with
  | nil => intro i n hn; simp [history, Graph.new, Graph.col] at hn
  | append_singleton ops op ih =>
    have hp := ih fun a data b e => hset a data (b ++ [op]) (by rw [e]; simp)
    rw [history_snoc]
    cases op with
    | addColumn rows =>
      intro i n hn
      obtain ⟨h1, w, h2, h3, h4⟩ := hp i n hn
      refine ⟨h1, w, ?_, h3, h4⟩
      change ((history grow ops).gd ++ _)[i]? = some w
      rw [List.getElem?_append_left (List.getElem?_eq_some_iff.1 h2).1, h2]
    | setData data =>
      have hni := hset ops data [] rfl
      have := no_init_na grow (ops ++ [Op.setData data]) (by simpa using hni)
      rw [history_snoc] at this
      intro i n hn
      unfold Graph.col at hn
      rw [this] at hn
      simp at hn
    | init =>
      intro i n hn
      change n ∈ (((history grow ops).init grow).col i).items at hn
      change n.pathIndex = i ∧ ∃ w : Vec F, ((history grow ops).init grow).gd[i]? = some w ∧ _
      rw [(init_spec grow _).1]
      rw [init_items] at hn
      rcases List.mem_append.1 hn with hn | hn
      · exact hp i n hn
      · obtain ⟨w, j, hw, hj, rfl⟩ := fresh_mem hn
        exact ⟨rfl, w, hw, hj, rfl⟩
    | reset => exact points_map _ hp _
    | run choice => exact points_map _ hp _

/-- **C131.**  However often columns are added, `init`, `reset` and the searches are called, the
pointer `jv` of every node leads to the row of the graph data that its two indices name, as long as
`set_graph_data` is not called after `init`. -/
theorem C131_data (grow : Nat → Nat) (ops : List (Op F))
    (hset : ∀ a data b, ops = a ++ Op.setData data :: b → Op.init ∉ a)
    (i : Nat) (v : Vec Node) (hv : (history grow ops).na[i]? = some v) (n : Node)
    (hn : n ∈ v.items) :
    n.pathIndex = i ∧ ∃ w x, (history grow ops).gd[i]? = some w ∧
      w.items[n.sampleIndex]? = some x ∧ deref (history grow ops).gd n.jv = some x := by
  rw [items_of hv] at hn
  obtain ⟨h1, w, h2, h3, h4⟩ := points_history grow ops hset i n hn
  refine ⟨h1, w, w.items[n.sampleIndex], h2, by simp [h3], ?_⟩
  rw [h4, deref_gd _ (ok_history grow ops) i w h2]
  simp [h3]

/-- Not vacuous: a column added between two calls of `init`, which double the nodes of the first. -/
example : (history (fun n => max 1 (2 * n)) [.addColumn [10, 11], .init, .addColumn [20], .init] :
      Graph Nat).na.map (fun v => v.items.map fun n => (n.pathIndex, n.sampleIndex)) =
    [[(0, 0), (0, 1), (0, 0), (0, 1)], [(1, 0)], []] := by decide

private theorem set_items (data : List (List F)) (g : Graph F) :
    (data.foldl Graph.addColumn g).gd.map Vec.items = g.gd.map Vec.items ++ data ∧
    (data.foldl Graph.addColumn g).na = g.na ∧
    (∀ w ∈ (data.foldl Graph.addColumn g).gd, w ∈ g.gd ∨ g.next ≤ w.buf) := by
  induction data generalizing g with
  | nil => exact ⟨by simp, rfl, fun w hw => Or.inl hw⟩
  | cons a l ih =>
    obtain ⟨h1, h2, h3⟩ := ih (g.addColumn a)
    refine ⟨?_, h2, ?_⟩
    · rw [List.foldl_cons, h1]; simp [Graph.addColumn]
    · intro w hw
      rcases h3 w hw with h | h
      · rcases List.mem_append.1 h with h | h
        · exact Or.inl h
        · right
          rw [List.mem_singleton.1 h]
      · right
        have : (g.addColumn a).next = g.next + 1 := rfl
        omega

/-- **C131.**  `set_graph_data` replaces the data, keeps the nodes, and leaves the pointer `jv` of
every node there is dangling. -/
theorem C131_set_data (grow : Nat → Nat) (ops : List (Op F)) (data : List (List F)) :
    (history grow (ops ++ [.setData data])).gd.map Vec.items = data ∧
    (history grow (ops ++ [.setData data])).na = (history grow ops).na ∧
    ∀ v ∈ (history grow ops).na, ∀ n ∈ v.items,
      deref (history grow (ops ++ [.setData data])).gd n.jv = none := by
  rw [history_snoc]
  obtain ⟨h1, h2, h3⟩ := set_items data
    (⟨[], (history grow ops).na, (history grow ops).next⟩ : Graph F)
  refine ⟨h1.trans (by simp), h2, ?_⟩
  intro v hv n hn
  obtain ⟨k, hk⟩ := List.mem_iff_getElem?.1 hv
  rw [items_of hk] at hn
  have hlt := (ok_history grow ops).jv k n hn
  unfold deref
  rw [List.find?_eq_none.2]
  · rfl
  · intro w hw
    rcases h3 w hw with h | h
    · simp at h
    · have h' : (history grow ops).next ≤ w.buf := h
      simp only [decide_eq_true_eq]
      omega

/-- Not vacuous: two nodes whose pointers dangle after `set_graph_data`. -/
example : ((history (fun n => max 1 (2 * n)) [.addColumn [10], .addColumn [20], .init] :
      Graph Nat).na.map fun v => v.items.map fun n => n.jv) = [[⟨1, 0⟩], [⟨2, 0⟩]] ∧
    ((history (fun n => max 1 (2 * n)) [.addColumn [10], .addColumn [20], .init, .setData [[10], [20]]] :
      Graph Nat).gd.map Vec.buf) = [5, 6] := by decide

/-- A parent that can be read. -/
private def Live (g : Graph F) (p : Par) : Prop :=
  p = .dummy ∨ ∃ k j, j < (g.col k).items.length ∧ p = .node ⟨(g.col k).buf, j⟩

private theorem live_map {g : Graph F} {p : Par} (h : Live g p) (f : Nat → Nat → Par → Par) :
    Live (g.mapParents f) p := by
  rcases h with h | ⟨k, j, hj, h⟩
  · exact Or.inl h
  · exact Or.inr ⟨k, j, by rw [mapParents_col]; simpa using hj, by rw [mapParents_col]; exact h⟩

private theorem addr_live {g : Graph F} {x : Nat × Nat} {p : Ptr} (h : g.addr x = some p) :
    x.2 < (g.col x.1).items.length ∧ p = ⟨(g.col x.1).buf, x.2⟩ := by
  unfold Graph.addr at h
  unfold Graph.col
  rcases hv : g.na[x.1]? with _ | v
  · rw [hv] at h; simp at h
  · rw [hv] at h
    simp only [Option.bind_some] at h
    split at h
    · rename_i hl
      simp only [Option.some.injEq] at h
      exact ⟨by simpa using hl, by rw [← h]; rfl⟩
    · cases h

private theorem newParent_live (g : Graph F) (choice : Nat → Nat → Option (Nat × Nat)) (i j : Nat)
    (old : Par) (h : Live g old) : Live g (g.newParent choice i j old) := by
  unfold Graph.newParent
  split
  · exact Or.inl rfl
  · rcases hc : (choice i j).bind g.addr with _ | p
    · exact h
    · obtain ⟨x, _, hx⟩ := Option.bind_eq_some_iff.1 hc
      obtain ⟨h1, h2⟩ := addr_live hx
      exact Or.inr ⟨x.1, x.2, h1, by rw [h2]⟩

private theorem all_dummy (grow : Nat → Nat) (ops : List (Op F))
    (h : ∀ c choice d, ops = c ++ Op.run choice :: d → Op.reset ∈ d) :
    ∀ i, ∀ n ∈ ((history grow ops).col i).items, n.parent = .dummy := by
  induction ops using List.reverseRecOn with
  | nil => intro i n hn; simp [history, Graph.new, Graph.col] at hn
  | append_singleton ops op ih =>
    have hp : op ≠ Op.reset → ∀ i, ∀ n ∈ ((history grow ops).col i).items, n.parent = .dummy := by
      intro hop
      refine ih fun c choice d e => ?_
      have := h c choice (d ++ [op]) (by rw [e]; simp)
      rcases List.mem_append.1 this with h1 | h1
      · exact h1
      · exact absurd (List.mem_singleton.1 h1).symm hop
    rw [history_snoc]
    cases op with
    | addColumn rows => exact hp (by simp)
    | setData data =>
      intro i n hn
      refine hp (by simp) i n ?_
      change n ∈ (((history grow ops).setData data).col i).items at hn
      unfold Graph.col at hn ⊢
      rw [show ((history grow ops).setData data).na = (history grow ops).na from
        (set_items data _).2.1] at hn
      exact hn
    | init =>
      intro i n hn
      change n ∈ (((history grow ops).init grow).col i).items at hn
      rw [init_items] at hn
      rcases List.mem_append.1 hn with hn | hn
      · exact hp (by simp) i n hn
      · obtain ⟨w, j, _, _, rfl⟩ := fresh_mem hn
        rfl
    | reset =>
      intro i n hn
      change n ∈ (((history grow ops).mapParents fun _ _ _ => .dummy).col i).items at hn
      rw [mapParents_col] at hn
      obtain ⟨j, hj, rfl⟩ := List.mem_mapIdx.1 hn
      rfl
    | run choice =>
      have := h ops choice [] rfl
      cases this

private theorem all_live (grow : Nat → Nat) (ops : List (Op F))
    (h : ∀ a b, ops = a ++ Op.init :: b →
      ∀ c choice d, a = c ++ Op.run choice :: d → Op.reset ∈ d) :
    ∀ i, ∀ n ∈ ((history grow ops).col i).items, Live (history grow ops) n.parent := by
  induction ops using List.reverseRecOn with
  | nil => intro i n hn; simp [history, Graph.new, Graph.col] at hn
  | append_singleton ops op ih =>
    have hp := ih fun a b e => h a (b ++ [op]) (by rw [e]; simp)
    rw [history_snoc]
    cases op with
    | addColumn rows => exact hp
    | setData data =>
      intro i n hn
      have hna : ((history grow ops).setData data).na = (history grow ops).na :=
        (set_items data _).2.1
      have hc : ∀ k, ((history grow ops).setData data).col k = (history grow ops).col k := by
        intro k; unfold Graph.col; rw [hna]
      change n ∈ (((history grow ops).setData data).col i).items at hn
      rw [hc] at hn
      rcases hp i n hn with hl | ⟨k, j, hj, hl⟩
      · exact Or.inl hl
      · refine Or.inr ⟨k, j, ?_, ?_⟩
        · change j < (((history grow ops).setData data).col k).items.length
          rw [hc]; exact hj
        · change n.parent = .node ⟨(((history grow ops).setData data).col k).buf, j⟩
          rw [hc]; exact hl
    | init =>
      have hd := all_dummy grow ops (h ops [] rfl)
      intro i n hn
      change n ∈ (((history grow ops).init grow).col i).items at hn
      rw [init_items] at hn
      rcases List.mem_append.1 hn with hn | hn
      · exact Or.inl (hd i n hn)
      · obtain ⟨w, j, _, _, rfl⟩ := fresh_mem hn
        exact Or.inl rfl
    | reset =>
      intro i n hn
      change n ∈ (((history grow ops).mapParents fun _ _ _ => .dummy).col i).items at hn
      rw [mapParents_col] at hn
      obtain ⟨j, hj, rfl⟩ := List.mem_mapIdx.1 hn
      exact Or.inl rfl
    | run choice =>
      intro i n hn
      change n ∈ (((history grow ops).mapParents ((history grow ops).newParent choice)).col i).items
        at hn
      change Live ((history grow ops).mapParents ((history grow ops).newParent choice)) _
      rw [mapParents_col] at hn
      obtain ⟨j, hj, rfl⟩ := List.mem_mapIdx.1 hn
      exact live_map (newParent_live _ _ _ _ _ (hp i _ (List.getElem_mem hj))) _

/-- **C131.**  `print_graph` reads no freed memory if before every `init` all searches have been
followed by a `reset`; in particular if `init` is called once, before any search. -/
theorem C131_print_partial (grow : Nat → Nat) (ops : List (Op F))
    (h : ∀ a b, ops = a ++ Op.init :: b →
      ∀ c choice d, a = c ++ Op.run choice :: d → Op.reset ∈ d) :
    (history grow ops).printGraph ≠ none ∧
    ∀ v ∈ (history grow ops).na, ∀ n ∈ v.items, n.parent = .dummy ∨
      ∃ k j p, n.parent = .node p ∧ (history grow ops).addr (k, j) = some p := by
  have hl := all_live grow ops h
  have hok := ok_history grow ops
  constructor
  · refine mapM_some _ _ fun v hv => mapM_some _ _ fun n hn => ?_
    obtain ⟨k, hk⟩ := List.mem_iff_getElem?.1 hv
    rw [items_of hk] at hn
    unfold Graph.parentLine
    rcases hl k n hn with hp | ⟨a, b, hb, hp⟩
    · rw [hp]; simp
    · rw [hp]
      simp only
      rw [deref_col _ hok a b hb]
      simp
  · intro v hv n hn
    obtain ⟨k, hk⟩ := List.mem_iff_getElem?.1 hv
    rw [items_of hk] at hn
    rcases hl k n hn with hp | ⟨a, b, hb, hp⟩
    · exact Or.inl hp
    · have hne : ((history grow ops).col a).items ≠ [] := by
        intro h0; rw [h0] at hb; simp at hb
      have ha : (history grow ops).addr (a, b) = some ⟨((history grow ops).col a).buf, b⟩ := by
        unfold Graph.addr
        rw [getElem?_of_col hne]
        simp [hb]
      exact Or.inr ⟨a, b, _, hp, ha⟩

/-- Not vacuous: `init`, a search, `reset` and `init` again. -/
example : ∀ a b, ([.addColumn [1], .addColumn [2], .init, .run fun _ _ => some (0, 0), .reset,
      .init] : List (Op Nat)) = a ++ Op.init :: b →
    ∀ c choice d, a = c ++ Op.run choice :: d → Op.reset ∈ d := by
  intro a b e c choice d hc
  subst hc
  rcases c with _ | ⟨_, _ | ⟨_, _ | ⟨_, _ | ⟨_, _ | ⟨_, _ | ⟨_, c⟩⟩⟩⟩⟩⟩ <;> simp at e
  rcases d with _ | ⟨_, _ | ⟨_, d⟩⟩ <;> simp at e ⊢
  all_goals simp_all

/-- **C131.**  After a search the parent that `print_graph` prints for a node is the node the search
gave it. -/
theorem C131_run (grow : Nat → Nat) (ops : List (Op F)) (choice : Nat → Nat → Option (Nat × Nat))
    (i j a b : Nat) (hi : 0 < i) (hc : choice i j = some (a, b)) (v va : Vec Node) (n u : Node)
    (hva : (history grow ops).na[a]? = some va) (hu : va.items[b]? = some u)
    (hv : (history grow (ops ++ [.run choice])).na[i]? = some v) (hn : v.items[j]? = some n) :
    (history grow (ops ++ [.run choice])).parentLine n = some (u.pathIndex, u.sampleIndex) := by
  have hok := ok_history grow (ops ++ [Op.run choice])
  rw [history_snoc] at hv hok ⊢
  have hcol : ∀ k, ((history grow ops).call grow (.run choice)).col k = _ :=
    mapParents_col (history grow ops) ((history grow ops).newParent choice)
  have hva' := col_of_getElem? hva
  have hb : b < ((history grow ops).col a).items.length := by
    rw [hva']; exact (List.getElem?_eq_some_iff.1 hu).1
  have hadr : (history grow ops).addr (a, b) = some ⟨((history grow ops).col a).buf, b⟩ := by
    unfold Graph.addr
    rw [hva, hva']
    rw [hva'] at hb
    simp [hb]
  have hpar : n.parent = .node ⟨((history grow ops).col a).buf, b⟩ := by
    have h1 := col_of_getElem? hv
    rw [hcol] at h1
    rw [← h1] at hn
    simp only [List.getElem?_mapIdx, Option.map_eq_some_iff] at hn
    obtain ⟨m, _, rfl⟩ := hn
    simp only
    unfold Graph.newParent
    rw [if_neg (by omega), hc]
    simp only [Option.bind_some, hadr]
  unfold Graph.parentLine
  rw [hpar]
  simp only
  have hd := deref_col _ hok a b (by rw [hcol]; simpa using hb)
  simp only [hcol, List.getElem_mapIdx] at hd
  rw [hd]
  have hu' : ((history grow ops).col a).items[b] = u := by
    have := (List.getElem?_eq_some_iff.1 hu).2
    simp only [hva']
    exact this
  simp [hu']

/-- Not vacuous: both nodes of the second column get the second node of the first as parent. -/
example : (history (fun n => max 1 (2 * n)) [.addColumn [10, 11], .addColumn [20, 21], .init,
      .run fun _ _ => some (0, 1)] : Graph Nat).printGraph =
    some [[(0, 0), (0, 0)], [(0, 1), (0, 1)]] := by decide

/-- **C131.**  With a vector that doubles its room, as libstdc++ has it: after the data, `init`, a
search that gave any node a parent, and `init` again, `print_graph` reads freed memory. -/
theorem C131_second_init (cols : List (List F)) (choice : Nat → Nat → Option (Nat × Nat))
    (i j a b : Nat) (ci ca : List F) (hi : 0 < i) (hci : cols[i]? = some ci) (hj : j < ci.length)
    (hca : cols[a]? = some ca) (hb : b < ca.length) (hc : choice i j = some (a, b)) :
    (history (fun n => max 1 (2 * n))
      (cols.map Op.addColumn ++ [.init, .run choice, .init])).printGraph = none := by
  set grow : Nat → Nat := fun n => max 1 (2 * n) with hgrow
  -- the data
  have h0 : ∀ g : Graph F, (cols.map Op.addColumn).foldl (Graph.call grow) g =
      cols.foldl Graph.addColumn g := by
    intro g; rw [List.foldl_map]; rfl
  obtain ⟨s1, s2, _⟩ := set_items cols (Graph.new : Graph F)
  set g0 : Graph F := cols.foldl Graph.addColumn Graph.new with hg0
  have hna0 : g0.na = [] := s2
  have hgd0 : g0.gd.map Vec.items = cols := by rw [s1]; simp [Graph.new]
  have hcol0 : ∀ k, g0.col k = ⟨0, 0, []⟩ := by intro k; unfold Graph.col; rw [hna0]; rfl
  have hfr0 : ∀ k l, cols[k]? = some l → (g0.fresh k).length = l.length := by
    intro k l hk
    rw [← hgd0, List.getElem?_map, Option.map_eq_some_iff] at hk
    obtain ⟨w, hw, rfl⟩ := hk
    unfold Graph.fresh
    rw [hw]; simp
  have ok0 : Ok g0 := ok_addColumns cols _ ok_new
  -- the first `init`
  have ok1 := ok_init grow g0 ok0
  have hit1 : ∀ k l, cols[k]? = some l → ((g0.init grow).col k).items.length = l.length := by
    intro k l hk
    rw [init_items, hcol0, List.nil_append, hfr0 k l hk]
  have hhalf1 : ∀ k, ((g0.init grow).col k).cap < 2 * ((g0.init grow).col k).items.length ∨
      ((g0.init grow).col k).cap = 0 := by
    intro k
    obtain ⟨_, _, _, at', _, e, _⟩ := init_spec grow g0
    rw [e k]
    exact pushAll_half _ _ _ (Or.inr (by rw [hcol0]))
  have hgd1 : (g0.init grow).gd = g0.gd := (init_spec grow g0).1
  set g1 := g0.init grow with hg1
  -- the search
  have ok2 := ok_mapParents g1 ok1 (g1.newParent choice)
  have hcol2 := mapParents_col g1 (g1.newParent choice)
  have hgd2 : (g1.mapParents (g1.newParent choice)).gd = g0.gd := hgd1
  set g2 := g1.mapParents (g1.newParent choice) with hg2
  have hlen2 : ∀ k l, cols[k]? = some l → (g2.col k).items.length = l.length := by
    intro k l hk; rw [hcol2]; simp [hit1 k l hk]
  have hfr2 : ∀ k l, cols[k]? = some l → (g2.fresh k).length = l.length := by
    intro k l hk
    have : g2.fresh k = g0.fresh k := by unfold Graph.fresh; rw [hgd2]
    rw [this, hfr0 k l hk]
  have hba : b < (g1.col a).items.length := by rw [hit1 a ca hca]; exact hb
  have hadr : g1.addr (a, b) = some ⟨(g1.col a).buf, b⟩ := by
    have hne : (g1.col a).items ≠ [] := by intro h0; rw [h0] at hba; simp at hba
    unfold Graph.addr
    rw [getElem?_of_col hne]
    simp [hba]
  have hjl : j < (g2.col i).items.length := by rw [hlen2 i ci hci]; exact hj
  have hpar : ((g2.col i).items[j]).parent = .node ⟨(g1.col a).buf, b⟩ := by
    simp only [hcol2, List.getElem_mapIdx]
    unfold Graph.newParent
    rw [if_neg (by omega), hc]
    simp only [Option.bind_some, hadr]
  have hbuf2 : (g1.col a).buf = (g2.col a).buf := by rw [hcol2]
  -- the second `init`
  have hfin : history grow (cols.map Op.addColumn ++ [.init, .run choice, .init]) = g2.init grow := by
    unfold history
    rw [List.foldl_append, h0]
    rfl
  rw [hfin]
  have hmem : (g2.col i).items[j] ∈ ((g2.init grow).col i).items := by
    rw [init_items]
    exact List.mem_append_left _ (List.getElem_mem hjl)
  have hrow : (g2.init grow).na[i]? = some ((g2.init grow).col i) :=
    getElem?_of_col (List.ne_nil_of_mem hmem)
  refine mapM_none _ _ _ (List.mem_of_getElem? hrow) (mapM_none _ _ _ hmem ?_)
  unfold Graph.parentLine
  rw [hpar]
  simp only
  rw [deref_none, Option.map_none]
  intro k hk
  simp only at hk
  have hlt := ok2.lt a
  rcases init_buf grow g2 k with ⟨e, hroom⟩ | e
  · by_cases hka : k = a
    · subst hka
      have h1 := hlen2 k ca hca
      have h2 := hfr2 k ca hca
      have h3 := hhalf1 k
      have h4 : (g2.col k).cap = (g1.col k).cap := by rw [hcol2]
      have h5 := hit1 k ca hca
      rcases hroom with hroom | hroom
      · rw [hroom] at h2; simp at h2; omega
      · omega
    · have hz := ok2.inj k a hka (by omega)
      have hz' : (g2.col a).buf = 0 := by omega
      have := (ok2.zero a hz').1
      have h1 := hlen2 a ca hca
      rw [this] at h1
      simp at h1
      omega
  · omega

/-- Not vacuous: two columns of one row. -/
example : (history (fun n => max 1 (2 * n)) [.addColumn [10], .addColumn [20], .init,
      .run fun _ _ => some (0, 0), .init] : Graph Nat).printGraph = none := by decide

/-- **C131.**  So pointers do not stay valid in every history. -/
theorem C131_refuted : ¬ ∀ (grow : Nat → Nat) (ops : List (Op Nat)),
    (∀ a data b, ops = a ++ Op.setData data :: b → Op.init ∉ a) →
    (history grow ops).printGraph ≠ none := by
  intro h
  have h2 := C131_second_init [[10], [20]] (fun _ _ => some (0, 0)) 1 0 0 0 [20] [10] (by omega)
    (by simp) (by simp) (by simp) (by simp) rfl
  refine h _ _ ?_ h2
  intro a data b e
  have hm : Op.setData data ∈ a ++ Op.setData data :: b := by simp
  rw [← e] at hm
  simp at hm

end Verif.Props
