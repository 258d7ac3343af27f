import Verif.Model.CppGraph
import Verif.Proofs.PyGraph

/-! # Lemmas about the C++ graph -/

set_option linter.unusedSectionVars false

namespace Verif.CppGraph

open Verif.Search Verif.Spec

variable {F C : Type} [CostArith C] [JointArith F C]

/-! ## Building the nodes -/

theorem upd_fresh {s : Store C (List F)} (hs : ∀ i j, s i j = freshSt) (n : Nd (List F)) :
    ∀ i j, (s.upd n freshSt) i j = freshSt := by
  intro i j
  simp [Store.upd, hs]

theorem modify_last {β : Type} (A : List β) (c : β) (f : β → β) :
    (A ++ [c]).modify A.length f = A ++ [f c] := by
  induction A with
  | nil => rfl
  | cons a A ih => simpa using ih

theorem foldl_pushNode (i : Nat) (A : List (List (Nd (List F)))) (hi : A.length = i)
    (col : List (List F)) : ∀ (c : List (Nd (List F))) (g : Graph F C), g.na = A ++ [c] →
    (∀ i j, g.store i j = freshSt) →
    ∃ s, (col.zipIdx c.length).foldl (fun g x => g.pushNode i x.2 x.1) g =
      { g with na := A ++ [c ++ (col.zipIdx c.length).map fun x => ⟨i, x.2, x.2, x.1⟩],
               store := s } ∧ ∀ i j, s i j = freshSt := by
  induction col with
  | nil =>
    intro c g hg hs
    exact ⟨g.store, by simp [← hg], hs⟩
  | cons jv col ih =>
    intro c g hg hs
    have hlen : (g.na[i]?).getD [] = c := by simp [hg, ← hi]
    have hna : (g.pushNode i c.length jv).na = A ++ [c ++ [⟨i, c.length, c.length, jv⟩]] := by
      unfold Graph.pushNode
      simp only [hlen]
      rw [hg, ← hi]
      exact modify_last A c _
    obtain ⟨s, h1, h2⟩ := ih (c ++ [⟨i, c.length, c.length, jv⟩]) (g.pushNode i c.length jv) hna
      (upd_fresh hs _)
    refine ⟨s, ?_, h2⟩
    simp only [List.length_append, List.length_cons, List.length_nil, Nat.zero_add] at h1
    simp only [List.zipIdx_cons, List.foldl_cons, List.map_cons]
    rw [h1]
    simp [Graph.pushNode]

theorem pushColumn_fresh (g : Graph F C) (col : List (List F))
    (hs : ∀ i j, g.store i j = freshSt) :
    ∃ s, g.pushColumn g.na.length col =
      { g with na := g.na ++ [col.zipIdx.map fun x => ⟨g.na.length, x.2, x.2, x.1⟩],
               store := s } ∧ ∀ i j, s i j = freshSt := by
  obtain ⟨s, h1, h2⟩ := foldl_pushNode g.na.length g.na rfl col []
    { g with na := g.na ++ [[]] } rfl hs
  exact ⟨s, h1, h2⟩

theorem foldl_pushColumn (gd : List (List (List F))) : ∀ (g : Graph F C),
    (∀ i j, g.store i j = freshSt) →
    ∃ s, (gd.zipIdx g.na.length).foldl (fun g x => g.pushColumn x.2 x.1) g =
      { g with na := g.na ++ (gd.zipIdx g.na.length).map fun y =>
                y.1.zipIdx.map fun x => ⟨y.2, x.2, x.2, x.1⟩,
               store := s } ∧ ∀ i j, s i j = freshSt := by
  induction gd with
  | nil => intro g hs; exact ⟨g.store, by simp, hs⟩
  | cons col gd ih =>
    intro g hs
    obtain ⟨s1, h1, h2⟩ := pushColumn_fresh g col hs
    obtain ⟨s, h3, h4⟩ := ih (g.pushColumn g.na.length col) (by rw [h1]; exact h2)
    refine ⟨s, ?_, h4⟩
    simp only [List.zipIdx_cons, List.foldl_cons, List.map_cons]
    rw [h1] at h3 ⊢
    simp only [List.length_append, List.length_cons, List.length_nil, Nat.zero_add] at h3
    rw [h3]
    simp

theorem dataToNodes_new (g : Graph F C) (hna : g.na = []) (hs : ∀ i j, g.store i j = freshSt) :
    ∃ s, g.dataToNodes = { g with na := PyGraph.dataToNodeArray g.gd, store := s } ∧
      ∀ i j, s i j = freshSt := by
  obtain ⟨s, h1, h2⟩ := foldl_pushColumn g.gd g hs
  refine ⟨s, ?_, h2⟩
  unfold Graph.dataToNodes
  rw [hna] at h1
  simp only [List.length_nil, List.nil_append] at h1
  rw [h1]
  have : (g.gd.zipIdx.map fun y => y.1.zipIdx.map fun x => (⟨y.2, x.2, x.2, x.1⟩ : Nd (List F)))
      = PyGraph.dataToNodeArray g.gd := by
    simp [PyGraph.dataToNodeArray, List.mapIdx_eq_zipIdx_map]
  rw [this]

/-! ## Neighbours and costs -/

theorem getNeighbors_eq (g : Graph F C) :
    g.getNeighbors = layerNbs g.na (fun _ _ => true) := by
  funext u
  unfold Graph.getNeighbors layerNbs
  by_cases h : u.pi = g.na.length - 1
  · rw [if_pos h, List.getElem?_eq_none (by omega)]
  · rw [if_neg h]
    rcases g.na[u.pi + 1]? with _ | col
    · rfl
    · simp

theorem pathCostFrom_eq (g : Graph F C) (p : List (Nd (List F))) (acc : C) :
    g.pathCostFrom acc p = Spec.costFrom (fun x y => costFn2 g.weights y x) acc (p.map Nd.data) := by
  induction p generalizing acc with
  | nil => rfl
  | cons u p ih =>
    cases p with
    | nil => rfl
    | cons v p =>
      rw [Graph.pathCostFrom, ih]
      rfl

/-! ## Valid stores: parents lead back to column 0 -/

/-- The store entries of finite distance have a parent chain. -/
def Valid (na : List (List (Nd (List F)))) (s : Store C (List F)) : Prop :=
  ∀ i col, na[i]? = some col → ∀ v ∈ col, (s.at v).dist < ⊤ → i = 0 ∨
    ∃ col', na[i - 1]? = some col' ∧ 0 < i ∧ ∃ u ∈ col', (s.at v).parent = .node u ∧
      (s.at u).dist < ⊤

theorem trace_valid {na : List (List (Nd (List F)))} (hwf : WFna na) {s : Store C (List F)}
    (hval : Valid na s) (cost : Nd (List F) → Nd (List F) → C) (i : Nat) :
    ∀ col, na[i]? = some col → ∀ v ∈ col, (s.at v).dist < ⊤ → ∀ fuel, i < fuel →
    ∃ c p, trace s fuel v = .ok p ∧ Walk na (fun _ _ => true) cost 0 v c p := by
  induction i with
  | zero =>
    intro col hc v hv hd fuel hf
    obtain ⟨f, rfl⟩ : ∃ f, fuel = f + 1 := ⟨fuel - 1, by omega⟩
    have := hwf.pi_of_mem hc hv
    exact ⟨0, [v], by simp [trace, this], .start hc hv⟩
  | succ i ih =>
    intro col hc v hv hd fuel hf
    obtain ⟨f, rfl⟩ : ∃ f, fuel = f + 1 := ⟨fuel - 1, by omega⟩
    have hpi := hwf.pi_of_mem hc hv
    rcases hval (i + 1) col hc v hv hd with h | ⟨col', hc', _, u, hu, hp, hdu⟩
    · omega
    · obtain ⟨c, p, h1, h2⟩ := ih col' hc' u hu hdu f (by omega)
      have hupi := hwf.pi_of_mem hc' hu
      refine ⟨_, v :: p, ?_, .step h2 (by rw [hupi]; exact hc) hv rfl⟩
      simp [trace, hpi, hp, h1, bind, Except.bind]

/-- A walk that is recorded in the parents is what `trace` returns. -/
theorem trace_walk {na : List (List (Nd (List F)))} (hwf : WFna na) {s : Store C (List F)}
    {ok : Nd (List F) → Nd (List F) → Bool}
    {cost : Nd (List F) → Nd (List F) → C} {v : Nd (List F)} {c : C} {p : List (Nd (List F))}
    (hw : Walk na ok cost 0 v c p) (ht : Traces s v p) (fuel : Nat) (hf : v.pi < fuel) :
    trace s fuel v = .ok p := by
  induction hw generalizing fuel with
  | @start v col hc hv =>
    obtain ⟨f, rfl⟩ : ∃ f, fuel = f + 1 := ⟨fuel - 1, by omega⟩
    have := hwf.pi_of_mem hc hv
    simp [trace, this]
  | @step u v c p col hw hc hv hok ih =>
    obtain ⟨f, rfl⟩ : ∃ f, fuel = f + 1 := ⟨fuel - 1, by omega⟩
    have hpi := hwf.pi_of_mem hc hv
    obtain ⟨p', rfl⟩ := walk_head hw
    cases ht with
    | @step u' _ _ hp htu =>
      have : u' = u := by cases htu <;> rfl
      subst this
      have := ih htu f (by omega)
      simp [trace, hpi, hp, this, bind, Except.bind]

theorem closest_eq (s : Store C (List F)) (col : List (Nd (List F))) :
    closest s col = PyGraph.closest s col := rfl

/-! ## Costs of paths -/

theorem walk_cost {g : Graph F C} (hwf : WFna g.na) {ok : Nd (List F) → Nd (List F) → Bool}
    {v : Nd (List F)} {c : C} {p : List (Nd (List F))} (h : Walk g.na ok g.edgeCost 0 v c p) :
    g.pathCostFrom 0 p.reverse = c := by
  rw [pathCostFrom_eq]
  exact (walk_selection (R := fun _ _ => True) (g := fun x y => costFn2 g.weights y x) hwf
    (fun _ _ _ => trivial) (fun _ _ => rfl) h).2.2

/-! ## Breadth-first search -/

/-- The state after a completed breadth-first search. -/
def Searched (g : Graph F C) (s : Store C (List F)) : Prop :=
  ∀ col ∈ g.na, ∀ v ∈ col, Final g.na (fun _ _ => true) g.edgeCost 0 .dummy s v

theorem bfs_fresh {g : Graph F C} (hwf : WFna g.na) {start : List (Nd (List F))}
    {rest : List (List (Nd (List F)))} (hna : g.na = start :: rest)
    (hfresh : ∀ col ∈ g.na, ∀ v ∈ col, FreshAt .dummy g.store v) :
    ∃ s, bfsLoop g.edgeCost g.getNeighbors g.fuel (startCol fifoPush start (g.store, [])) =
      some s ∧ Searched g s := by
  rw [getNeighbors_eq]
  exact bfs_final hwf (by rw [hna]; rfl) g.store hfresh g.fuel (by simp [Graph.fuel])

theorem upd_self {s : Store C (List F)} (n : Nd (List F)) : s.upd n (s.at n) = s := by
  funext i j
  simp only [Store.upd]
  split
  · rename_i h; rw [h.1, h.2]; rfl
  · rfl

theorem final_start {g : Graph F C} (hwf : WFna g.na) {start : List (Nd (List F))}
    (hc : g.na[0]? = some start) {s : Store C (List F)} (hs : Searched g s) {v : Nd (List F)}
    (hv : v ∈ start) : s.at v = ⟨0, .dummy, true⟩ := by
  have hf := hs start (List.mem_of_getElem? hc) v hv
  have hpi := hwf.pi_of_mem hc hv
  have hw : Walk g.na (fun _ _ => true) g.edgeCost 0 v 0 [v] := .start hc hv
  have hvis := hf.vis.2 ⟨_, _, hw⟩
  have hlow := hf.low _ _ hw
  rcases hf.att with ⟨h1, _⟩ | ⟨h1, p, hp, ht⟩
  · rw [h1] at hlow
    exact absurd (lt_of_le_of_lt hlow zero_lt_top) (lt_irrefl _)
  · have hlen := hp.pi_eq hwf
    have : (s.at v).dist = 0 ∧ p = [v] := by
      generalize hd : (s.at v).dist = d at hp
      cases hp with
      | start => exact ⟨rfl, rfl⟩
      | @step u _ c p' col hw' hc' hv' _ =>
        have := hwf.pi_of_mem hc' hv'
        omega
    obtain ⟨hd, rfl⟩ := this
    have hpar : (s.at v).parent = .dummy := by
      cases ht with
      | start h => exact h
      | step _ h => cases h
    rcases hst : s.at v with ⟨d, p, b⟩
    rw [hst] at hd hpar hvis
    simp at hd hpar hvis
    simp [hd, hpar, hvis]

theorem startCol_id {s : Store C (List F)} (col : List (Nd (List F)))
    (h : ∀ v ∈ col, s.at v = ⟨0, .dummy, true⟩) (q : List (Nd (List F))) :
    startCol fifoPush col (s, q) = (s, q ++ col) := by
  unfold startCol
  induction col generalizing q with
  | nil => simp
  | cons v col ih =>
    rw [List.foldl_cons]
    have : s.upd v ⟨0, .dummy, true⟩ = s := by
      rw [← h v (by simp)]; exact upd_self v
    simp only [this]
    have h2 := ih (fun w hw => h w (List.mem_cons_of_mem _ hw)) (fifoPush s q v)
    simp only at h2
    rw [h2]
    simp [fifoPush]

theorem foldl_relax_id {cost : Nd (List F) → Nd (List F) → C} {cur : Nd (List F)}
    (N : List (Nd (List F))) (s : Store C (List F)) (q : List (Nd (List F)))
    (h : ∀ v ∈ N, (s.at v).visited = true ∧ (s.at v).dist ≤ (s.at cur).dist + cost cur v) :
    N.foldl (relax cost fifoPush cur) (s, q) = (s, q) := by
  induction N with
  | nil => rfl
  | cons v N ih =>
    rw [List.foldl_cons]
    have : relax cost fifoPush cur (s, q) v = (s, q) := by
      obtain ⟨h1, h2⟩ := h v (by simp)
      simp [relax, not_lt.2 h2, h1]
    rw [this, ih (fun w hw => h w (List.mem_cons_of_mem _ hw))]

/-- Running the search again without a reset changes nothing. -/
theorem bfs_again {g : Graph F C} (hwf : WFna g.na) {start : List (Nd (List F))}
    {rest : List (List (Nd (List F)))} (hna : g.na = start :: rest)
    {s : Store C (List F)} (hs : Searched g s) (hgs : g.store = s) :
    bfsLoop g.edgeCost g.getNeighbors g.fuel (startCol fifoPush start (g.store, [])) = some s := by
  have hc : g.na[0]? = some start := by rw [hna]; rfl
  rw [hgs, startCol_id start (fun v hv => final_start hwf hc hs hv), List.nil_append]
  have hexp : ∀ u ∈ start, ∀ q, expand g.edgeCost fifoPush g.getNeighbors u (s, q) = (s, q) := by
    intro u hu q
    unfold expand
    apply foldl_relax_id
    intro v hv
    rw [getNeighbors_eq] at hv
    have hupi := hwf.pi_of_mem hc hu
    unfold layerNbs at hv
    rcases hc1 : g.na[u.pi + 1]? with _ | col
    · simp [hc1] at hv
    · simp [hc1] at hv
      have hw : Walk g.na (fun _ _ => true) g.edgeCost 0 v (0 + g.edgeCost u v) [v, u] :=
        .step (.start hc hu) hc1 hv rfl
      have hf := hs col (List.mem_of_getElem? hc1) v hv
      refine ⟨hf.vis.2 ⟨_, _, hw⟩, ?_⟩
      rw [final_start hwf hc hs hu]
      exact hf.low _ _ hw
  have : ∀ (L : List (Nd (List F))), (∀ u ∈ L, u ∈ start) → ∀ fuel, L.length ≤ fuel →
      bfsLoop g.edgeCost g.getNeighbors fuel (s, L) = some s := by
    intro L
    induction L with
    | nil => intro _ fuel _; cases fuel <;> rfl
    | cons u L ih =>
      intro hL fuel hf
      obtain ⟨f, rfl⟩ : ∃ f, fuel = f + 1 := ⟨fuel - 1, by simp at hf; omega⟩
      rw [bfsLoop, hexp u (hL u (by simp))]
      exact ih (fun w hw => hL w (List.mem_cons_of_mem _ hw)) f (by simp at hf; omega)
  exact this start (fun _ h => h) _ (by simp [Graph.fuel, hna])

/-- What `get_path_nodes` finds in a searched graph. -/
theorem pathNodes_searched {g : Graph F C} (hwf : WFna g.na) {last : List (Nd (List F))}
    (hlast : g.na.getLast? = some last) (hs : Searched g g.store) (hf : g.pathFound = true)
    (hex : ∃ v ∈ last, ∃ c p, Walk g.na (fun _ _ => true) g.edgeCost 0 v c p ∧ c < ⊤) :
    ∃ v ∈ last, ∃ p, g.getPathNodes = .ok p.reverse ∧
      Walk g.na (fun _ _ => true) g.edgeCost 0 v (g.store.at v).dist p ∧
      g.pathCostFrom 0 p.reverse = (g.store.at v).dist ∧
      ∀ u ∈ last, ∀ c q, Walk g.na (fun _ _ => true) g.edgeCost 0 u c q →
        (g.store.at v).dist ≤ c := by
  have hmem : last ∈ g.na := List.mem_of_getLast? hlast
  rcases PyGraph.closest_spec g.store last with ⟨_, h2⟩ | ⟨v, hv, h1, h2, h3⟩
  · obtain ⟨v, hv, c, p, hw, hc⟩ := hex
    have := (hs last hmem v hv).low c p hw
    rw [h2 v hv] at this
    exact absurd (lt_of_le_of_lt this hc) (lt_irrefl _)
  · rcases (hs last hmem v hv).att with ⟨h4, _⟩ | ⟨_, p, hp, ht⟩
    · rw [h4] at h2; exact absurd h2 (lt_irrefl _)
    · refine ⟨v, hv, p, ?_, hp, walk_cost hwf hp, ?_⟩
      · unfold Graph.getPathNodes
        rw [if_pos hf, hlast]
        simp only [closest_eq, h1]
        obtain ⟨i, hi⟩ := List.getElem?_of_mem hmem
        have hlt := (List.getElem?_eq_some_iff.1 hi).1
        have hpi := hwf.pi_of_mem hi hv
        rw [trace_walk hwf hp ht (g.na.length + 1) (by omega)]
        rfl
      · intro u hu c q hw
        exact le_trans (h3 u hu) ((hs last hmem u hu).low c q hw)

end Verif.CppGraph
