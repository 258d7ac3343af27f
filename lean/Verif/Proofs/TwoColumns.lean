import Verif.Proofs.CoarseHeap

/-!
# Dijkstra's search with libstdc++'s heap on a graph of at most two columns

The distances of goals change while they wait, so the heap order among goals is lost.  But start
nodes have distance zero; if no goal has, they come out of the heap before every goal.
-/

set_option linter.unusedSectionVars false

namespace Verif.CppGraph

open Verif.Search Verif.Spec

variable {F C : Type} [CostArith C] [JointArith F C]
variable {na : List (List (Nd (List F)))} {cost : Nd (List F) → Nd (List F) → C}

/-- Start nodes before goals. -/
def kpi (n : Nd (List F)) : Nat := if n.pi = 0 then 0 else 1

/-- Distance zero (or less) before the others. -/
def kst (s : Store C (List F)) (n : Nd (List F)) : Nat := if (s.at n).dist ≤ 0 then 0 else 1

theorem kst_lt (s : Store C (List F)) (x y : Nd (List F)) (h : kst s x < kst s y) :
    (s.at x).dist < (s.at y).dist := by
  unfold kst at h
  split at h <;> split at h
  · omega
  · rename_i h1 h2; exact lt_of_le_of_lt h1 (not_le.1 h2)
  · omega
  · omega

/-- No goal has distance zero. -/
def Pos (na : List (List (Nd (List F)))) (s : Store C (List F)) : Prop :=
  ∀ w, InNa na w → w.pi ≠ 0 → 0 < (s.at w).dist

/-- The start nodes have distance zero. -/
def Sta (na : List (List (Nd (List F)))) (s : Store C (List F)) : Prop :=
  ∀ v, InNa na v → v.pi = 0 → (s.at v).dist = 0 ∧ (s.at v).parent = .dummy

theorem kst_eq {s : Store C (List F)} (hp : Pos na s) (hs : Sta na s) (n : Nd (List F))
    (hn : InNa na n) : kst s n = kpi n := by
  unfold kst kpi
  by_cases h : n.pi = 0
  · rw [if_pos h, if_pos (hs n hn h).1.le]
  · rw [if_neg h, if_neg (not_le.2 (hp n hn h))]

theorem foldl_dist (cur : Nd (List F)) (N : List (Nd (List F)))
    (x : Store C (List F) × List (Nd (List F))) (v : Nd (List F)) :
    ((N.foldl (relax cost heapPush cur) x).1.at v).dist ≤ (x.1.at v).dist := by
  induction N generalizing x with
  | nil => exact le_rfl
  | cons n N ih =>
    exact le_trans (ih _) (relax_mono (cost := cost) (stdHeap : PQ C (List F)) cur n x v).1

/-- Pushing goals, while their distances change, keeps the order of start nodes and goals. -/
theorem foldl_kheap (cur : Nd (List F)) (N : List (Nd (List F)))
    (hN : ∀ n ∈ N, InNa na n ∧ n.pi ≠ 0) (x : Store C (List F) × List (Nd (List F)))
    (hq : ∀ n ∈ x.2, InNa na n) (hs : Sta na x.1) (hh : KHeap kpi x.2)
    (hp : Pos na (N.foldl (relax cost heapPush cur) x).1) :
    KHeap kpi (N.foldl (relax cost heapPush cur) x).2 := by
  induction N generalizing x with
  | nil => exact hh
  | cons n N ih =>
    obtain ⟨hn, hpi⟩ := hN n (by simp)
    rw [List.foldl_cons] at hp ⊢
    have hel : (relax cost heapPush cur x n).2.Perm
        (if (x.1.at n).visited then x.2 else n :: x.2) :=
      relax_elems (stdHeapLawful (C := C) (α := List F)) cost cur n x
    have hrp : Pos na (relax cost heapPush cur x n).1 := fun w hw h =>
      lt_of_lt_of_le (hp w hw h) (foldl_dist cur N _ w)
    have hrs : Sta na (relax cost heapPush cur x n).1 := by
      intro v hv h0
      have : (relax cost heapPush cur x n).1.at v = x.1.at v :=
        relax_other _ _ _ _ _ _ _ (fun hk => hpi (by
          have : v.pi = n.pi := congrArg Prod.fst hk
          omega))
      rw [this]; exact hs v hv h0
    have hrq : ∀ m ∈ (relax cost heapPush cur x n).2, InNa na m := by
      intro m hm
      have hm' := hel.mem_iff.1 hm
      split at hm'
      · exact hq m hm'
      · rcases List.mem_cons.1 hm' with rfl | hm'
        · exact hn
        · exact hq m hm'
    refine ih (fun m hm => hN m (List.mem_cons_of_mem _ hm)) _ hrq hrs ?_ hp
    -- the one push
    unfold relax at hrp hrs ⊢
    simp only at hrp hrs ⊢
    generalize hst : (if (x.1.at cur).dist + cost cur n < (x.1.at n).dist then
      x.1.upd n { x.1.at n with dist := (x.1.at cur).dist + cost cur n, parent := .node cur }
      else x.1) = st at hrp hrs ⊢
    split
    · exact hh
    · rename_i hv
      rw [if_neg hv] at hrp hrs
      have e : ∀ m, ((st.upd n { st.at n with visited := true }).at m).dist = (st.at m).dist ∧
          ((st.upd n { st.at n with visited := true }).at m).parent = (st.at m).parent := by
        intro m
        by_cases hk : m.pi = n.pi ∧ m.pos = n.pos
        · have : st.at m = st.at n := by unfold Store.at; rw [hk.1, hk.2]
          unfold Store.upd
          constructor
          · show (if m.pi = n.pi ∧ m.pos = n.pos then _ else _ : St C (List F)).dist = _
            rw [if_pos hk, this]
          · show (if m.pi = n.pi ∧ m.pos = n.pos then _ else _ : St C (List F)).parent = _
            rw [if_pos hk, this]
        · unfold Store.upd
          constructor
          · show (if m.pi = n.pi ∧ m.pos = n.pos then _ else _ : St C (List F)).dist = _
            rw [if_neg hk]; rfl
          · show (if m.pi = n.pi ∧ m.pos = n.pos then _ else _ : St C (List F)).parent = _
            rw [if_neg hk]; rfl
      have hp' : Pos na st := fun w hw h => by rw [← (e w).1]; exact hrp w hw h
      have hs' : Sta na st := fun w hw h => by rw [← (e w).1, ← (e w).2]; exact hrs w hw h
      have h1 : KHeap (kst st) x.2 := hh.congr fun m hm => kst_eq hp' hs' m (hq m hm)
      have h2 := heapPush_kheap st (kst st) (kst_lt st) x.2 n h1
      refine KHeap.congr (k := kst st) h2 fun m hm => (kst_eq hp' hs' m ?_).symm
      have hm' := (heapPush_perm st x.2 n).mem_iff.1 hm
      rcases List.mem_cons.1 hm' with rfl | hm'
      · exact hn
      · exact hq m hm'

/-- All start nodes have been expanded. -/
def AllRel (na : List (List (Nd (List F)))) (cost : Nd (List F) → Nd (List F) → C)
    (s : Store C (List F)) : Prop :=
  ∀ u w, InNa na u → InNa na w → u.pi = 0 → w.pi = 1 → (s.at w).dist ≤ 0 + cost u w

/-- The invariant of the loop. -/
structure Two (na : List (List (Nd (List F)))) (cost : Nd (List F) → Nd (List F) → C)
    (x : Store C (List F) × List (Nd (List F))) : Prop where
  sta : Sta na x.1
  att : ∀ w, InNa na w → w.pi = 1 → (x.1.at w).dist < ⊤ → ∃ u, InNa na u ∧ u.pi = 0 ∧
    (x.1.at w).parent = .node u ∧ (x.1.at w).dist = 0 + cost u w
  rel : ∀ u, InNa na u → u.pi = 0 → u ∈ x.2 ∨
    ∀ w, InNa na w → w.pi = 1 → (x.1.at w).dist ≤ 0 + cost u w
  que : ∀ n ∈ x.2, InNa na n
  heap : Pos na x.1 → KHeap kpi x.2

theorem Two.expand (hwf : WFna na) {s : Store C (List F)} {q q' : List (Nd (List F))}
    {cur : Nd (List F)} (h : Two na cost (s, q)) (hcur : cur.pi = 0) (hcin : InNa na cur)
    (hperm : q.Perm (cur :: q')) (hheap : Pos na s → KHeap kpi q') :
    Two na cost (expand cost heapPush (layerNbs na fun _ _ => true) cur (s, q')) := by
  have hst : (∀ w, InNa na w → w.pi = cur.pi + 1 →
      (Search.expand cost heapPush (layerNbs na fun _ _ => true) cur (s, q')).1.at w =
        relaxSt cost cur (s.at cur).dist w (s.at w)) ∧
    (∀ w, InNa na w → w.pi ≠ cur.pi + 1 →
      (Search.expand cost heapPush (layerNbs na fun _ _ => true) cur (s, q')).1.at w = s.at w) :=
    expand_store (cost := cost) (pq := (stdHeap : PQ C (List F))) (cur := cur) hwf (s, q')
  obtain ⟨hin, hout⟩ := hst
  have hsub : ∀ m, m ∈ (Search.expand cost heapPush (layerNbs na fun _ _ => true) cur (s, q')).2 →
      m ∈ q' ∨ (m ∈ layerNbs na (fun _ _ => true) cur ∧ (s.at m).visited = false) :=
    foldl_elems_sub (cost := cost) (stdHeapLawful (C := C) (α := List F)) cur
      (layerNbs na (fun _ _ => true) cur) (s, q')
  have hd0 := (h.sta cur hcin hcur).1
  have hq' : ∀ n ∈ q', InNa na n := fun n hn => h.que n (hperm.mem_iff.2 (List.mem_cons_of_mem _ hn))
  have hkeep : ∀ (N : List (Nd (List F))) (x : Store C (List F) × List (Nd (List F))), ∀ m ∈ x.2,
      m ∈ (N.foldl (relax cost heapPush cur) x).2 := by
    intro N
    induction N with
    | nil => intro x m hm; exact hm
    | cons n N ih =>
      intro x m hm
      have hel : (relax cost heapPush cur x n).2.Perm
          (if (x.1.at n).visited then x.2 else n :: x.2) :=
        relax_elems (stdHeapLawful (C := C) (α := List F)) cost cur n x
      refine ih _ m (hel.mem_iff.2 ?_)
      split
      · exact hm
      · exact List.mem_cons_of_mem _ hm
  have hdist := foldl_dist (cost := cost) cur (layerNbs na (fun _ _ => true) cur) (s, q')
  have hkh := foldl_kheap (cost := cost) cur (layerNbs na (fun _ _ => true) cur)
    (fun n hn => ⟨((nbs_mem hwf cur n).1 hn).1, by have := ((nbs_mem hwf cur n).1 hn).2; omega⟩)
    (s, q') hq' h.sta
  have hk2 := hkeep (layerNbs na (fun _ _ => true) cur) (s, q')
  change ∀ v, ((Search.expand cost heapPush (layerNbs na fun _ _ => true) cur
    (s, q')).1.at v).dist ≤ _ at hdist
  change KHeap kpi q' → Pos na (Search.expand cost heapPush
    (layerNbs na fun _ _ => true) cur (s, q')).1 → KHeap kpi (Search.expand cost
    heapPush (layerNbs na fun _ _ => true) cur (s, q')).2 at hkh
  change ∀ m ∈ q', m ∈ (Search.expand cost heapPush
    (layerNbs na fun _ _ => true) cur (s, q')).2 at hk2
  generalize Search.expand cost heapPush (layerNbs na fun _ _ => true) cur
    (s, q') = y at hin hout hsub hdist hkh hk2 ⊢
  simp only at hdist
  refine ⟨?_, ?_, ?_, ?_, ?_⟩
  · intro v hv h0
    rw [hout v hv (by omega)]
    exact h.sta v hv h0
  · intro w hw h1 hfin
    rw [hin w hw (by omega)] at hfin ⊢
    rcases relaxSt_cases (cost := cost) cur w (s.at cur).dist (s.at w) with ⟨_, h2⟩ | ⟨_, h2⟩
    · rw [h2]
      exact ⟨cur, hcin, hcur, rfl, by rw [hd0]⟩
    · rw [h2] at hfin ⊢
      exact h.att w hw h1 hfin
  · intro u hu h0
    rcases h.rel u hu h0 with h1 | h1
    · rcases List.mem_cons.1 (hperm.mem_iff.1 h1) with rfl | h2
      · right
        intro w hw hw1
        rw [hin w hw (by omega)]
        rcases relaxSt_cases (cost := cost) u w (s.at u).dist (s.at w) with ⟨_, h2⟩ | ⟨h3, h2⟩
        · rw [h2, hd0]
        · rw [h2]; rw [hd0] at h3; exact h3
      · exact Or.inl (hk2 u h2)
    · exact Or.inr fun w hw hw1 => le_trans (hdist w) (h1 w hw hw1)
  · intro n hn
    rcases hsub n hn with h1 | h1
    · exact hq' n h1
    · exact ((nbs_mem hwf cur n).1 h1.1).1
  · intro hp
    refine hkh (hheap fun w hw h0 => lt_of_lt_of_le (hp w hw h0) (hdist w)) hp

/-- One round of the loop. -/
theorem Two.pop (hwf : WFna na) (hlen : na.length ≤ 2) {s : Store C (List F)}
    {q q' : List (Nd (List F))} {cur : Nd (List F)} (h : Two na cost (s, q))
    (hp : heapPop s q = some (cur, q')) :
    InNa na cur ∧
    Two na cost (Search.expand cost heapPush (layerNbs na fun _ _ => true) cur (s, q')) ∧
    (cur.pi ≠ 0 → Pos na (Search.expand cost heapPush (layerNbs na fun _ _ => true) cur (s, q')).1 →
      AllRel na cost (Search.expand cost heapPush (layerNbs na fun _ _ => true) cur (s, q')).1) := by
  have hperm := heapPop_some s q cur q' hp
  have hcin := h.que cur (hperm.mem_iff.2 (by simp))
  have hq' : ∀ n ∈ q', InNa na n := fun n hn =>
    h.que n (hperm.mem_iff.2 (List.mem_cons_of_mem _ hn))
  have hpop : Pos na s → (∀ y ∈ q, kpi cur ≤ kpi y) ∧ KHeap kpi q' := by
    intro hpos
    have h1 : KHeap (kst s) q := (h.heap hpos).congr fun m hm =>
      kst_eq hpos h.sta m (h.que m hm)
    obtain ⟨h2, h3⟩ := heapPop_kheap s (kst s) (kst_lt s) q q' cur h1 hp
    refine ⟨fun y hy => ?_, h3.congr fun m hm => (kst_eq hpos h.sta m (hq' m hm)).symm⟩
    rw [← kst_eq hpos h.sta cur hcin, ← kst_eq hpos h.sta y (h.que y hy)]
    exact h2 y hy
  refine ⟨hcin, ?_⟩
  by_cases h0 : cur.pi = 0
  · exact ⟨h.expand hwf h0 hcin hperm fun hpos => (hpop hpos).2, fun hc => absurd h0 hc⟩
  · have hn : layerNbs na (fun _ _ => true) cur = [] := by
      unfold layerNbs
      rw [List.getElem?_eq_none (by omega)]
    have hexp : Search.expand cost heapPush (layerNbs na fun _ _ => true) cur (s, q') = (s, q') := by
      unfold Search.expand
      rw [hn]
      rfl
    rw [hexp]
    refine ⟨⟨h.sta, h.att, ?_, hq', fun hpos => (hpop hpos).2⟩, fun _ hpos u w hu hw hu0 hw1 => ?_⟩
    · intro u hu hu0
      rcases h.rel u hu hu0 with h2 | h2
      · rcases List.mem_cons.1 (hperm.mem_iff.1 h2) with rfl | h3
        · exact absurd hu0 h0
        · exact Or.inl h3
      · exact Or.inr h2
    · rcases h.rel u hu hu0 with h2 | h2
      · have := (hpop hpos).1 u h2
        unfold kpi at this
        rw [if_pos hu0, if_neg h0] at this
        omega
      · exact h2 w hw hw1

/-- The loop on at most two columns. -/
theorem genLoop_two (hwf : WFna na) (hlen : na.length ≤ 2) (dec : Nd (List F) → Bool)
    (hdec : ∀ v, InNa na v → dec v = true → v.pi + 1 = na.length)
    (fuel : Nat) : ∀ (s : Store C (List F)) (q : (stdHeap : PQ C (List F)).Q) (goals : Nat),
    Two na cost (s, q) → (goals = 0 → Pos na s → AllRel na cost s) →
    ∀ s' goals', genLoop (stdHeap : PQ C (List F)) cost (layerNbs na fun _ _ => true) dec fuel (s, q)
      goals = some (s', goals') →
    ∃ q', Two na cost (s', q') ∧ (Pos na s' → AllRel na cost s') := by
  have hnil : ∀ (s : Store C (List F)), Two na cost (s, []) → AllRel na cost s := by
    intro s h u w hu hw h0 h1
    rcases h.rel u hu h0 with h2 | h2
    · cases h2
    · exact h2 w hw h1
  induction fuel with
  | zero =>
    intro s q goals h hz s' goals' hr
    unfold genLoop at hr
    by_cases hg : goals = 0
    · simp only [hg, if_true, Option.some.injEq, Prod.mk.injEq] at hr
      obtain ⟨rfl, rfl⟩ := hr
      exact ⟨q, h, hz hg⟩
    · rw [if_neg hg] at hr
      rcases hp : (stdHeap : PQ C (List F)).pop s q with _ | ⟨cur, q'⟩
      · simp only [hp, Option.some.injEq, Prod.mk.injEq] at hr
        obtain ⟨rfl, rfl⟩ := hr
        have := heapPop_none s q hp
        subst this
        exact ⟨[], h, fun _ => hnil _ h⟩
      · simp [hp] at hr
  | succ fuel ih =>
    intro s q goals h hz s' goals' hr
    unfold genLoop at hr
    by_cases hg : goals = 0
    · simp only [hg, if_true, Option.some.injEq, Prod.mk.injEq] at hr
      obtain ⟨rfl, rfl⟩ := hr
      exact ⟨q, h, hz hg⟩
    · rw [if_neg hg] at hr
      rcases hp : (stdHeap : PQ C (List F)).pop s q with _ | ⟨cur, q'⟩
      · simp only [hp, Option.some.injEq, Prod.mk.injEq] at hr
        obtain ⟨rfl, rfl⟩ := hr
        have := heapPop_none s q hp
        subst this
        exact ⟨[], h, fun _ => hnil _ h⟩
      · simp only [hp] at hr
        obtain ⟨hcin, hstep, hrel⟩ := h.pop hwf hlen hp
        refine ih _ _ _ hstep (fun hg' hpos => ?_) s' goals' hr
        by_cases h0 : cur.pi = 0
        · intro u w hu hw hu0 hw1
          have hw2 : 1 < na.length := by
            obtain ⟨col, hcol, _⟩ := hw
            have := (List.getElem?_eq_some_iff.1 hcol).1
            omega
          have hd : dec cur = false := by
            by_contra hc
            have := hdec cur hcin (by simpa using hc)
            omega
          rw [hd] at hg'
          exact absurd hg' hg
        · exact hrel h0 hpos

/-- The search with libstdc++'s heap on at most two columns. -/
theorem search_two (hwf : WFna na) (hlen : na.length ≤ 2)
    (hinf : ∀ u v, InNa na u → InNa na v → ∀ a, a ≤ a + cost u v)
    {start : List (Nd (List F))} (hc : na[0]? = some start) (dec : Nd (List F) → Bool)
    (hdec : ∀ v, InNa na v → dec v = true → v.pi + 1 = na.length)
    {s : Store C (List F)} (hfresh : ∀ v, InNa na v → FreshAt .dummy s v) (hval : Valid na s)
    {goals : Nat} (hg : goals ≠ 0) {fuel : Nat} {s' : Store C (List F)} {goals' : Nat}
    (hr : genLoop (stdHeap : PQ C (List F)) cost (layerNbs na fun _ _ => true) dec fuel
        (startCol (stdHeap : PQ C (List F)).push start (s, (stdHeap : PQ C (List F)).empty)) goals =
        some (s', goals')) :
    (∀ v, InNa na v → (s'.at v).dist < ⊤ → ∃ p,
      Walk na (fun _ _ => true) cost 0 v (s'.at v).dist p ∧ Traces s' v p) ∧
    (∀ w c p, w.pi + 1 = na.length → Walk na (fun _ _ => true) cost 0 w c p →
      ∃ v, InNa na v ∧ v.pi + 1 = na.length ∧ (s'.at v).dist ≤ c) := by
  obtain ⟨_, _, hs0, hother⟩ := start_J hwf hc (stdHeapLawful (C := C) (α := List F)) hval
  have hel : (startCol heapPush start (s, ([] : List (Nd (List F))))).2.Perm start := by
    have h1 : (startCol heapPush start (s, ([] : List (Nd (List F))))).2.Perm (start ++ []) :=
      startCol_elems (stdHeapLawful (C := C) (α := List F)) start (s, ([] : List (Nd (List F))))
    rwa [List.append_nil] at h1
  change ∀ v ∈ start, (startCol heapPush start (s, ([] : List (Nd (List F))))).1.at v = _ at hs0
  change ∀ v, InNa na v → v.pi ≠ 0 →
    (startCol heapPush start (s, ([] : List (Nd (List F))))).1.at v = s.at v at hother
  have hzero : ∀ v, InNa na v → v.pi = 0 → v ∈ start := by
    rintro v ⟨col, h3, h4⟩ hpi
    rw [hpi, hc] at h3
    cases h3
    exact h4
  have hque : ∀ n ∈ (startCol heapPush start (s, ([] : List (Nd (List F))))).2, n ∈ start :=
    fun n hn => hel.mem_iff.1 hn
  have htwo : Two na cost (startCol heapPush start (s, ([] : List (Nd (List F))))) := by
    refine ⟨?_, ?_, ?_, fun n hn => InNa.of_mem hwf hc (hque n hn), ?_⟩
    · intro v hv h0
      rw [hs0 v (hzero v hv h0)]
      exact ⟨rfl, rfl⟩
    · intro w hw h1 hfin
      rw [hother w hw (by omega), (hfresh w hw).1] at hfin
      exact absurd hfin (lt_irrefl _)
    · intro u hu h0
      exact Or.inl (hel.mem_iff.2 (hzero u hu h0))
    · intro _ i a b _ ha hb
      have h1 := hwf.pi_of_mem hc (hque a (List.mem_of_getElem? ha))
      have h2 := hwf.pi_of_mem hc (hque b (List.mem_of_getElem? hb))
      unfold kpi
      rw [if_pos h1, if_pos h2]
  obtain ⟨q', h, hrel⟩ := genLoop_two hwf hlen dec hdec fuel _ _ goals htwo
    (fun h0 => absurd h0 hg) s' goals' hr
  have hpi : ∀ v, InNa na v → v.pi = 0 ∨ v.pi = 1 := by
    rintro v ⟨col, hc, _⟩
    have := (List.getElem?_eq_some_iff.1 hc).1
    omega
  constructor
  · intro v hv hfin
    rcases hpi v hv with h0 | h1
    · obtain ⟨h2, h3⟩ := h.sta v hv h0
      refine ⟨[v], ?_, .start h3⟩
      rw [h2]
      exact .start hc (hzero v hv h0)
    · obtain ⟨u, hu, hu0, hp, hd⟩ := h.att v hv h1 hfin
      refine ⟨[v, u], ?_, .step hp (.start (h.sta u hu hu0).2)⟩
      rw [hd]
      obtain ⟨col, hcol, hm⟩ := hv
      exact .step (.start hc (hzero u hu hu0)) (by rw [hu0, Nat.zero_add, ← h1]; exact hcol) hm rfl
  · intro w c p hw hwalk
    have hwin : InNa na w := hwalk.mem_col hwf
    rcases hpi w hwin with h0 | h1
    · refine ⟨w, hwin, hw, ?_⟩
      rw [(h.sta w hwin h0).1]
      cases hwalk with
      | start _ _ => exact le_rfl
      | step hwalk' hcol hm _ =>
        have := hwf.pi_of_mem hcol hm
        omega
    · cases hwalk with
      | start hcol hm => have := hwf.pi_of_mem hcol hm; omega
      | @step u _ c' p' col hwalk' hcol hm _ =>
        have hu := hwf.pi_of_mem hcol hm
        have huin : InNa na u := hwalk'.mem_col hwf
        have hc' : c' = 0 := by
          cases hwalk' with
          | start _ _ => rfl
          | step _ hcol' hm' _ => have := hwf.pi_of_mem hcol' hm'; omega
        subst hc'
        by_cases hpos : Pos na s'
        · exact ⟨w, hwin, hw, hrel hpos u w huin hwin (by omega) h1⟩
        · unfold Pos at hpos
          push Not at hpos
          obtain ⟨v, hv, hv0, hle⟩ := hpos
          exact ⟨v, hv, by rcases hpi v hv with h2 | h2 <;> omega,
            le_trans hle (hinf u w huin hwin 0)⟩

end Verif.CppGraph
