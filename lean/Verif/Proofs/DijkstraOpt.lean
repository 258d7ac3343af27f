import Verif.Proofs.Dijkstra

/-! # Queue instances: libstdc++'s heap is a bag; a queue that pops a true minimum is optimal -/

set_option linter.unusedSectionVars false

namespace Verif.CppGraph

open Verif.Search Verif.Spec

variable {F C : Type} [CostArith C] [JointArith F C]

/-! ## The heap neither loses nor duplicates nodes, whatever the keys do -/

section heap
variable {α : Type}

theorem move_hole (h : List (Nd α)) {i j : Nat} (hi : i < h.length) {p : Nd α}
    (hj : h[j]? = some p) (hij : i ≠ j) (v : Nd α) :
    ((h.set i p).set j v).Perm (h.set i v) := by
  obtain ⟨hjl, rfl⟩ := List.getElem?_eq_some_iff.1 hj
  have h1 := List.set_set_perm (as := h.set i v) (i := i) (j := j) (by simpa using hi)
    (by simpa using hjl)
  simp only [List.getElem_set_self, List.getElem_set_ne hij, List.set_set] at h1
  exact h1

theorem siftUp_perm (s : Store C α) (v : Nd α) (fuel : Nat) : ∀ (hole : Nat) (h : List (Nd α)),
    hole < h.length → (siftUp s v fuel hole h).Perm (h.set hole v) := by
  induction fuel with
  | zero => intro hole h _; exact List.Perm.refl _
  | succ fuel ih =>
    intro hole h hlt
    unfold siftUp
    split
    · exact List.Perm.refl _
    · rename_i h0
      have hp : (hole - 1) / 2 < h.length := by omega
      rw [List.getElem?_eq_getElem hp]
      simp only
      split
      · refine (ih _ _ (by simpa using hp)).trans ?_
        exact move_hole h hlt (List.getElem?_eq_getElem hp) (by omega) v
      · exact List.Perm.refl _

theorem siftDown_perm (s : Store C α) (fuel : Nat) : ∀ (h : List (Nd α)) (hole : Nat),
    hole < h.length → (siftDown s fuel h hole).2 < (siftDown s fuel h hole).1.length ∧
      ∀ v, ((siftDown s fuel h hole).1.set (siftDown s fuel h hole).2 v).Perm (h.set hole v) := by
  induction fuel with
  | zero => intro h hole hlt; exact ⟨hlt, fun _ => List.Perm.refl _⟩
  | succ fuel ih =>
    intro h hole hlt
    unfold siftDown
    by_cases h1 : hole < (h.length - 1) / 2
    · rw [if_pos h1]
      have hr : 2 * hole + 2 < h.length := by omega
      have hl : 2 * hole + 1 < h.length := by omega
      rw [List.getElem?_eq_getElem hr, List.getElem?_eq_getElem hl]
      simp only
      split
      · obtain ⟨h2, h3⟩ := ih (h.set hole h[2 * hole + 1]) (2 * hole + 1) (by simpa using hl)
        exact ⟨h2, fun v => (h3 v).trans
          (move_hole h hlt (List.getElem?_eq_getElem hl) (by omega) v)⟩
      · obtain ⟨h2, h3⟩ := ih (h.set hole h[2 * hole + 2]) (2 * hole + 2) (by simpa using hr)
        exact ⟨h2, fun v => (h3 v).trans
          (move_hole h hlt (List.getElem?_eq_getElem hr) (by omega) v)⟩
    · rw [if_neg h1]
      split
      · rename_i h2
        rcases hg : h[2 * hole + 1]? with _ | l
        · exact ⟨hlt, fun _ => List.Perm.refl _⟩
        · have := (List.getElem?_eq_some_iff.1 hg).1
          exact ⟨by simpa using this, fun v => move_hole h hlt hg (by omega) v⟩
      · exact ⟨hlt, fun _ => List.Perm.refl _⟩

theorem heapPush_perm (s : Store C α) (q : List (Nd α)) (n : Nd α) :
    (heapPush s q n).Perm (n :: q) := by
  unfold heapPush
  refine (siftUp_perm s n _ _ _ (by simp)).trans ?_
  simp

theorem heapPop_none (s : Store C α) (q : List (Nd α)) (h : heapPop s q = none) : q = [] := by
  match q, h with
  | [], _ => rfl
  | [x], h => cases h
  | x :: y :: rest, h => cases h

theorem heapPop_some (s : Store C α) (q : List (Nd α)) (n : Nd α) (q' : List (Nd α))
    (h : heapPop s q = some (n, q')) : q.Perm (n :: q') := by
  match q, h with
  | [], h => cases h
  | [x], h => cases h; exact List.Perm.refl _
  | x :: y :: rest, h =>
    simp only [heapPop, Option.some.injEq, Prod.mk.injEq] at h
    obtain ⟨rfl, rfl⟩ := h
    refine List.Perm.cons x ?_
    obtain ⟨h1, h2⟩ := siftDown_perm s (x :: y :: rest).dropLast.length
      (x :: y :: rest).dropLast 0 (by simp)
    refine List.Perm.symm ((siftUp_perm s _ _ _ _ h1).trans ((h2 _).trans ?_))
    have : (x :: y :: rest).dropLast = x :: (y :: rest).dropLast := rfl
    rw [this, List.set_cons_zero]
    refine (List.perm_append_comm (l₁ := [_])).trans ?_
    rw [List.dropLast_append_getLast]

/-- libstdc++'s heap is a bag of nodes even though the keys change under it. -/
def stdHeapLawful : Lawful (stdHeap : PQ C α) where
  elems q := q
  empty := rfl
  push := heapPush_perm
  pop_none := heapPop_none
  pop_some := heapPop_some

end heap

/-! ## True minimum -/

/-- The queue returns a node whose distance is smallest at that moment. -/
def PopsMin {pq : PQ C (List F)} (hl : Lawful pq) : Prop :=
  ∀ s q n q', pq.pop s q = some (n, q') → ∀ m ∈ hl.elems q, (s.at n).dist ≤ (s.at m).dist

variable {na : List (List (Nd (List F)))} {cost : Nd (List F) → Nd (List F) → C}

theorem foldl_elems_sub {pq : PQ C (List F)} (hl : Lawful pq) (cur : Nd (List F))
    (N : List (Nd (List F))) (x : Store C (List F) × pq.Q) (m : Nd (List F))
    (hm : m ∈ hl.elems (N.foldl (relax cost pq.push cur) x).2) :
    m ∈ hl.elems x.2 ∨ (m ∈ N ∧ (x.1.at m).visited = false) := by
  induction N generalizing x with
  | nil => exact Or.inl hm
  | cons n N ih =>
    rcases ih _ hm with h | ⟨h1, h2⟩
    · rw [(relax_elems hl cost cur n x).mem_iff] at h
      split at h
      · exact Or.inl h
      · rename_i hnv
        rcases List.mem_cons.1 h with rfl | h
        · exact Or.inr ⟨by simp, by simpa using hnv⟩
        · exact Or.inl h
    · refine Or.inr ⟨List.mem_cons_of_mem _ h1, ?_⟩
      by_contra hc
      have := (relax_mono (cost := cost) pq cur n x m).2 (by simpa using hc)
      rw [this] at h2
      cases h2

/-- The classical invariant; `P` are the nodes taken out of the queue so far. -/
structure DI (na : List (List (Nd (List F)))) (cost : Nd (List F) → Nd (List F) → C)
    (P : Nd (List F) → Prop) (s : Store C (List F)) (E : List (Nd (List F))) : Prop where
  pin : ∀ v, P v → InNa na v ∧ (s.at v).visited = true
  ein : ∀ v ∈ E, InNa na v ∧ (s.at v).visited = true
  opt : ∀ v, P v → ∀ c p, Walk na (fun _ _ => true) cost 0 v c p → (s.at v).dist ≤ c
  nbs : ∀ v, P v → ∀ w, InNa na w → w.pi = v.pi + 1 →
    (s.at w).visited = true ∧ (s.at w).dist ≤ (s.at v).dist + cost v w
  att : ∀ v, InNa na v → (s.at v).visited = true → ∃ p,
    Walk na (fun _ _ => true) cost 0 v (s.at v).dist (v :: p) ∧ Traces s v (v :: p) ∧ ∀ u ∈ p, P u
  unv : ∀ v, InNa na v → (s.at v).visited = false → (s.at v).dist = ⊤
  cov : ∀ v, InNa na v → (s.at v).visited = true → P v ∨ v ∈ E
  ord : ∀ v, P v → ∀ m ∈ E, (s.at v).dist ≤ (s.at m).dist
  sta : ∀ v, InNa na v → v.pi = 0 → (s.at v).visited = true ∧ (s.at v).dist = 0

theorem DI.walk_bound (hwf : WFna na) (hinf : ∀ u v, InNa na u → InNa na v → ∀ a, a ≤ a + cost u v)
    {P : Nd (List F) → Prop} {s : Store C (List F)} {E : List (Nd (List F))}
    (h : DI na cost P s E) {w : Nd (List F)} {c : C} {p : List (Nd (List F))}
    (hw : Walk na (fun _ _ => true) cost 0 w c p) :
    P w ∨ ∃ m ∈ E, (s.at m).dist ≤ c := by
  induction hw with
  | @start w col hc hv =>
    have hin := InNa.of_mem hwf hc hv
    obtain ⟨h1, h2⟩ := h.sta w hin (hwf.pi_of_mem hc hv)
    rcases h.cov w hin h1 with h3 | h3
    · exact Or.inl h3
    · exact Or.inr ⟨w, h3, h2.le⟩
  | @step x w c p col hw hc hv _ ih =>
    have hin := InNa.of_mem hwf hc hv
    have hxin : InNa na x := hw.mem_col hwf
    rcases ih with hx | ⟨m, hm, hle⟩
    · obtain ⟨h1, h2⟩ := h.nbs x hx w hin (hwf.pi_of_mem hc hv)
      rcases h.cov w hin h1 with h3 | h3
      · exact Or.inl h3
      · exact Or.inr ⟨w, h3, le_trans h2 (add_mono _ _ _ (h.opt x hx _ _ hw))⟩
    · exact Or.inr ⟨m, hm, le_trans hle (hinf x w hxin hin c)⟩

theorem expand_store (hwf : WFna na) {pq : PQ C (List F)} {cur : Nd (List F)}
    (x : Store C (List F) × pq.Q) :
    (∀ w, InNa na w → w.pi = cur.pi + 1 →
      (expand cost pq.push (layerNbs na fun _ _ => true) cur x).1.at w =
        relaxSt cost cur (x.1.at cur).dist w (x.1.at w)) ∧
    (∀ w, InNa na w → w.pi ≠ cur.pi + 1 →
      (expand cost pq.push (layerNbs na fun _ _ => true) cur x).1.at w = x.1.at w) := by
  have hkeys : ((layerNbs na (fun _ _ => true) cur).map Nd.key).Nodup := by
    unfold layerNbs
    rcases hc : na[cur.pi + 1]? with _ | col
    · simp
    · simpa using hwf.nodup_keys hc
  have hcur : cur.key ∉ (layerNbs na (fun _ _ => true) cur).map Nd.key := by
    intro hm
    obtain ⟨n, hn, hk⟩ := List.mem_map.1 hm
    have h1 := ((nbs_mem hwf cur n).1 hn).2
    have h2 : n.pi = cur.pi := congrArg Prod.fst hk
    omega
  obtain ⟨h1, h2⟩ := foldl_relax_store cost pq.push cur _ x hkeys hcur
  constructor
  · intro w hw hpi
    exact h1 w ((nbs_mem hwf cur w).2 ⟨hw, hpi⟩)
  · intro w hw hpi
    apply h2
    intro hm
    obtain ⟨n, hn, hk⟩ := List.mem_map.1 hm
    have h3 := ((nbs_mem hwf cur n).1 hn).2
    have h4 : n.pi = w.pi := congrArg Prod.fst hk
    omega

theorem relaxSt_cases (cur w : Nd (List F)) (d : C) (st : St C (List F)) :
    (d + cost cur w < st.dist ∧ relaxSt cost cur d w st = ⟨d + cost cur w, .node cur, true⟩) ∨
    (st.dist ≤ d + cost cur w ∧ relaxSt cost cur d w st = ⟨st.dist, st.parent, true⟩) := by
  unfold relaxSt
  split
  · exact Or.inl ⟨‹_›, rfl⟩
  · exact Or.inr ⟨not_lt.1 ‹_›, rfl⟩

/-- One round of the loop keeps the invariant. -/
theorem DI.step (hwf : WFna na) (hno : PyGraph.NoOverflow C)
    (hfin : ∀ u v, InNa na u → InNa na v → cost u v < ⊤)
    (hinf : ∀ u v, InNa na u → InNa na v → ∀ a, a ≤ a + cost u v)
    {pq : PQ C (List F)} (hl : Lawful pq) {P : Nd (List F) → Prop} {s : Store C (List F)}
    {q q' : pq.Q} {u : Nd (List F)} (h : DI na cost P s (hl.elems q))
    (hperm : (hl.elems q).Perm (u :: hl.elems q'))
    (hmin : ∀ m ∈ hl.elems q, (s.at u).dist ≤ (s.at m).dist)
    (hJ : J na hl (s, q)) :
    DI na cost (fun v => P v ∨ v = u)
      (expand cost pq.push (layerNbs na fun _ _ => true) u (s, q')).1
      (hl.elems (expand cost pq.push (layerNbs na fun _ _ => true) u (s, q')).2) := by
  have huE : u ∈ hl.elems q := hperm.mem_iff.2 (by simp)
  obtain ⟨huin, huvis⟩ := h.ein u huE
  obtain ⟨hin, hout⟩ := expand_store (cost := cost) (pq := pq) (cur := u) hwf (s, q')
  have hj' : J na hl (s, q') :=
    ⟨hJ.valid, fun n hn => hJ.que n (hperm.mem_iff.2 (List.mem_cons_of_mem _ hn))⟩
  have hE := foldl_exp (cost := cost) hwf hno hfin huin
    (layerNbs na (fun _ _ => true) u) (fun n hn => (nbs_mem hwf u n).1 hn) (s, q') hj'
    (hJ.que u huE).2
  have hsub := foldl_elems_sub (cost := cost) hl u (layerNbs na (fun _ _ => true) u) (s, q')
  change Exp na hl _ (s, q') (expand cost pq.push (layerNbs na fun _ _ => true) u (s, q')) at hE
  change ∀ m, m ∈ hl.elems (expand cost pq.push (layerNbs na fun _ _ => true) u (s, q')).2 → _ at hsub
  generalize expand cost pq.push (layerNbs na fun _ _ => true) u (s, q') = y at hin hout hE hsub ⊢
  simp only at hin hout hsub
  -- popped nodes are untouched
  have hu' : y.1.at u = s.at u := hout u huin (by omega)
  have hPkeep : ∀ v, P v ∨ v = u → y.1.at v = s.at v := by
    rintro v (hv | rfl)
    · obtain ⟨hvin, hvvis⟩ := h.pin v hv
      by_cases hpi : v.pi = u.pi + 1
      · rw [hin v hvin hpi]
        rcases relaxSt_cases (cost := cost) u v (s.at u).dist (s.at v) with ⟨h1, _⟩ | ⟨_, h2⟩
        · have h3 := h.ord v hv u huE
          have h4 := hinf u v huin hvin (s.at u).dist
          exact absurd (lt_of_lt_of_le h1 (le_trans h3 h4)) (lt_irrefl _)
        · rw [h2, ← hvvis]
      · exact hout v hvin hpi
    · exact hu'
  have hPin : ∀ v, P v ∨ v = u → InNa na v := by
    rintro v (hv | rfl)
    · exact (h.pin v hv).1
    · exact huin
  -- optimality of u
  have huopt : ∀ c p, Walk na (fun _ _ => true) cost 0 u c p → (s.at u).dist ≤ c := by
    intro c p hw
    rcases h.walk_bound hwf hinf hw with h1 | ⟨m, hm, hle⟩
    · exact h.opt u h1 c p hw
    · exact le_trans (hmin m hm) hle
  obtain ⟨pu, hpu1, hpu2, hpu3⟩ := h.att u huin huvis
  -- distances of waiting nodes stay above those of popped ones
  have hbelow : ∀ v, P v ∨ v = u → (s.at v).dist ≤ (s.at u).dist := by
    rintro v (hv | rfl)
    · exact h.ord v hv u huE
    · exact le_rfl
  refine ⟨?_, ?_, ?_, ?_, ?_, ?_, ?_, ?_, ?_⟩
  · intro v hv
    refine ⟨hPin v hv, ?_⟩
    rw [hPkeep v hv]
    rcases hv with hv | rfl
    · exact (h.pin v hv).2
    · exact huvis
  · intro v hv
    rcases hsub v hv with h1 | h1
    · have := h.ein v (hperm.mem_iff.2 (List.mem_cons_of_mem _ h1))
      exact ⟨this.1, hE.vis v this.2⟩
    · exact ⟨((nbs_mem hwf u v).1 h1.1).1, (hE.done v h1.1).1⟩
  · intro v hv c p hw
    rw [hPkeep v hv]
    rcases hv with hv | rfl
    · exact h.opt v hv c p hw
    · exact huopt c p hw
  · intro v hv w hw hpi
    rw [hPkeep v hv]
    rcases hv with hv | rfl
    · obtain ⟨h1, h2⟩ := h.nbs v hv w hw hpi
      exact ⟨hE.vis w h1, le_trans (hE.dist w) h2⟩
    · refine ⟨(hE.done w ((nbs_mem hwf v w).2 ⟨hw, hpi⟩)).1, ?_⟩
      rw [hin w hw hpi]
      rcases relaxSt_cases (cost := cost) v w (s.at v).dist (s.at w) with ⟨_, h2⟩ | ⟨h1, h2⟩
      · rw [h2]
      · rw [h2]; exact h1
  · intro v hv hvis
    by_cases hpi : v.pi = u.pi + 1
    · rcases relaxSt_cases (cost := cost) u v (s.at u).dist (s.at v) with ⟨h1, h2⟩ | ⟨h1, h2⟩
      · refine ⟨u :: pu, ?_, ?_, ?_⟩
        · rw [hin v hv hpi, h2]
          obtain ⟨col, hc, hm⟩ := hv
          exact .step hpu1 (by rw [← hpi]; exact hc) hm rfl
        · refine .step (by rw [hin v hv hpi, h2]) (hpu2.congr ?_)
          intro w hw
          rcases List.mem_cons.1 hw with rfl | hw
          · exact hu'
          · exact hPkeep w (Or.inl (hpu3 w hw))
        · intro w hw
          rcases List.mem_cons.1 hw with rfl | hw
          · exact Or.inr rfl
          · exact Or.inl (hpu3 w hw)
      · have hvv : (s.at v).visited = true := by
          by_contra hc
          have htop := h.unv v hv (by simpa using hc)
          rw [htop, top_le_iff] at h1
          have := hno _ _ (hJ.que u huE).2 (hfin u v huin hv)
          simp only [h1] at this
          exact absurd this (lt_irrefl _)
        have e : y.1.at v = s.at v := by rw [hin v hv hpi, h2, ← hvv]
        obtain ⟨p, hp1, hp2, hp3⟩ := h.att v hv hvv
        refine ⟨p, by rw [e]; exact hp1, hp2.congr ?_, fun w hw => Or.inl (hp3 w hw)⟩
        intro w hw
        rcases List.mem_cons.1 hw with rfl | hw
        · exact e
        · exact hPkeep w (Or.inl (hp3 w hw))
    · have e := hout v hv hpi
      rw [e] at hvis
      obtain ⟨p, hp1, hp2, hp3⟩ := h.att v hv hvis
      refine ⟨p, by rw [e]; exact hp1, hp2.congr ?_, fun w hw => Or.inl (hp3 w hw)⟩
      intro w hw
      rcases List.mem_cons.1 hw with rfl | hw
      · exact e
      · exact hPkeep w (Or.inl (hp3 w hw))
  · intro v hv hvis
    by_cases hpi : v.pi = u.pi + 1
    · have := (hE.done v ((nbs_mem hwf u v).2 ⟨hv, hpi⟩)).1
      rw [this] at hvis
      cases hvis
    · have e := hout v hv hpi
      rw [e] at hvis ⊢
      exact h.unv v hv hvis
  · intro v hv hvis
    rcases hE.new v hv hvis with h1 | h1
    · rcases h.cov v hv h1 with h2 | h2
      · exact Or.inl (Or.inl h2)
      · rcases List.mem_cons.1 (hperm.mem_iff.1 h2) with rfl | h2
        · exact Or.inl (Or.inr rfl)
        · exact Or.inr (hE.keep v h2)
    · exact Or.inr h1
  · intro v hv m hm
    rw [hPkeep v hv]
    refine le_trans (hbelow v hv) ?_
    have hmin' : InNa na m := by
      rcases hsub m hm with h1 | h1
      · exact (h.ein m (hperm.mem_iff.2 (List.mem_cons_of_mem _ h1))).1
      · exact ((nbs_mem hwf u m).1 h1.1).1
    by_cases hpi : m.pi = u.pi + 1
    · rw [hin m hmin' hpi]
      rcases relaxSt_cases (cost := cost) u m (s.at u).dist (s.at m) with ⟨_, h2⟩ | ⟨_, h2⟩
      · rw [h2]
        exact hinf u m huin hmin' _
      · rw [h2]
        show (s.at u).dist ≤ (s.at m).dist
        rcases hsub m hm with h4 | ⟨_, h4⟩
        · exact hmin m (hperm.mem_iff.2 (List.mem_cons_of_mem _ h4))
        · rw [h.unv m hmin' h4]
          exact le_top
    · rw [hout m hmin' hpi]
      rcases hsub m hm with h1 | h1
      · exact hmin m (hperm.mem_iff.2 (List.mem_cons_of_mem _ h1))
      · exact absurd ((nbs_mem hwf u m).1 h1.1).2 hpi
  · intro v hv hpi
    have e := hout v hv (by omega)
    rw [e]
    exact h.sta v hv hpi

/-- The invariant at the end of the loop. -/
theorem genLoop_opt (hwf : WFna na) (hno : PyGraph.NoOverflow C)
    (hfin : ∀ u v, InNa na u → InNa na v → cost u v < ⊤)
    (hinf : ∀ u v, InNa na u → InNa na v → ∀ a, a ≤ a + cost u v)
    {pq : PQ C (List F)} (hl : Lawful pq) (hmin : PopsMin hl) (dec : Nd (List F) → Bool)
    (fuel : Nat) : ∀ (x : Store C (List F) × pq.Q) (goals : Nat) (P : Nd (List F) → Prop),
    J na hl x → DI na cost P x.1 (hl.elems x.2) → ∀ s' goals',
    genLoop pq cost (layerNbs na fun _ _ => true) dec fuel x goals = some (s', goals') →
    ∃ P' E', DI na cost P' s' E' ∧ (∀ v, P v → P' v) ∧ (goals' ≠ 0 → E' = []) ∧
      (goals' = 0 → goals ≠ 0 → ∃ v, P' v ∧ dec v = true) := by
  induction fuel with
  | zero =>
    intro x goals P hJ h s' goals' hr
    obtain ⟨s, q⟩ := x
    unfold genLoop at hr
    by_cases hg : goals = 0
    · simp only [hg, if_true, Option.some.injEq, Prod.mk.injEq] at hr
      obtain ⟨rfl, rfl⟩ := hr
      exact ⟨P, _, h, fun _ => id, fun h => absurd rfl h, fun _ h => absurd hg h⟩
    · rw [if_neg hg] at hr
      rcases hp : pq.pop s q with _ | ⟨cur, q'⟩
      · simp only [hp, Option.some.injEq, Prod.mk.injEq] at hr
        obtain ⟨rfl, rfl⟩ := hr
        exact ⟨P, _, h, fun _ => id, fun _ => hl.pop_none _ _ hp, fun h => absurd h hg⟩
      · simp [hp] at hr
  | succ fuel ih =>
    intro x goals P hJ h s' goals' hr
    obtain ⟨s, q⟩ := x
    unfold genLoop at hr
    by_cases hg : goals = 0
    · simp only [hg, if_true, Option.some.injEq, Prod.mk.injEq] at hr
      obtain ⟨rfl, rfl⟩ := hr
      exact ⟨P, _, h, fun _ => id, fun h => absurd rfl h, fun _ h => absurd hg h⟩
    · rw [if_neg hg] at hr
      rcases hp : pq.pop s q with _ | ⟨cur, q'⟩
      · simp only [hp, Option.some.injEq, Prod.mk.injEq] at hr
        obtain ⟨rfl, rfl⟩ := hr
        exact ⟨P, _, h, fun _ => id, fun _ => hl.pop_none _ _ hp, fun h => absurd h hg⟩
      · simp only [hp] at hr
        have hperm := hl.pop_some _ _ _ _ hp
        have hcur := hJ.que cur (hperm.mem_iff.2 (by simp))
        have hj' : J na hl (s, q') :=
          ⟨hJ.valid, fun n hn => hJ.que n (hperm.mem_iff.2 (List.mem_cons_of_mem _ hn))⟩
        have hE := foldl_exp (cost := cost) hwf hno hfin hcur.1
          (layerNbs na (fun _ _ => true) cur) (fun n hn => (nbs_mem hwf cur n).1 hn) (s, q') hj'
          hcur.2
        have hstep := DI.step hwf hno hfin hinf hl h hperm (hmin _ _ _ _ hp) hJ
        obtain ⟨P', E', h1, h4, h2, h3⟩ := ih _ _ _ hE.j hstep s' goals' hr
        refine ⟨P', E', h1, fun v hv => h4 v (Or.inl hv), h2, ?_⟩
        intro hz _
        by_cases hd : dec cur = true
        · exact ⟨cur, h4 cur (Or.inr rfl), hd⟩
        · exact h3 hz (by simpa [hd] using hg)

theorem start_DI (hwf : WFna na) {start : List (Nd (List F))} (hc : na[0]? = some start)
    {pq : PQ C (List F)} (hl : Lawful pq) {s : Store C (List F)}
    (hfresh : ∀ v, InNa na v → FreshAt .dummy s v) (hval : Valid na s) :
    DI na cost (fun _ => False) (startCol pq.push start (s, pq.empty)).1
      (hl.elems (startCol pq.push start (s, pq.empty)).2) := by
  obtain ⟨hj, _, hs0, hother⟩ := start_J hwf hc hl hval
  have hel := startCol_elems hl start (s, pq.empty)
  simp only [hl.empty, List.append_nil] at hel
  generalize startCol pq.push start (s, pq.empty) = y at hj hs0 hother hel
  have hzero : ∀ v, InNa na v → v.pi = 0 → v ∈ start := by
    rintro v ⟨col, h3, h4⟩ hpi
    rw [hpi, hc] at h3
    cases h3
    exact h4
  have hvis0 : ∀ v, InNa na v → (y.1.at v).visited = true → v ∈ start := by
    intro v hv hvis
    by_cases hpi : v.pi = 0
    · exact hzero v hv hpi
    · rw [hother v hv hpi, (hfresh v hv).2.2] at hvis
      cases hvis
  refine ⟨fun v hv => hv.elim, ?_, fun v hv => hv.elim, fun v hv => hv.elim, ?_, ?_, ?_,
    fun v hv => hv.elim, ?_⟩
  · intro v hv
    have hv' := hel.mem_iff.1 hv
    exact ⟨InNa.of_mem hwf hc hv', by rw [hs0 v hv']⟩
  · intro v hv hvis
    have hv' := hvis0 v hv hvis
    refine ⟨[], ?_, .start (by rw [hs0 v hv']), by simp⟩
    rw [hs0 v hv']
    exact .start hc hv'
  · intro v hv hvis
    by_cases hpi : v.pi = 0
    · rw [hs0 v (hzero v hv hpi)] at hvis
      cases hvis
    · rw [hother v hv hpi]
      exact (hfresh v hv).1
  · intro v hv hvis
    exact Or.inr (hel.mem_iff.2 (hvis0 v hv hvis))
  · intro v hv hpi
    rw [hs0 v (hzero v hv hpi)]
    exact ⟨rfl, rfl⟩

/-- With a queue that pops a true minimum the search is optimal. -/
theorem search_opt (hwf : WFna na) (hno : PyGraph.NoOverflow C)
    (hfin : ∀ u v, InNa na u → InNa na v → cost u v < ⊤)
    (hinf : ∀ u v, InNa na u → InNa na v → ∀ a, a ≤ a + cost u v)
    {start : List (Nd (List F))} (hc : na[0]? = some start)
    {pq : PQ C (List F)} (hl : Lawful pq) (hmin : PopsMin hl) (dec : Nd (List F) → Bool)
    (hdec : ∀ v, InNa na v → dec v = true → v.pi + 1 = na.length)
    {s : Store C (List F)} (hfresh : ∀ v, InNa na v → FreshAt .dummy s v) (hval : Valid na s)
    {goals : Nat} (hg : goals ≠ 0) {fuel : Nat} {s' : Store C (List F)} {goals' : Nat}
    (hr : genLoop pq cost (layerNbs na fun _ _ => true) dec fuel
        (startCol pq.push start (s, pq.empty)) goals = some (s', goals')) :
    (∀ v, InNa na v → (s'.at v).dist < ⊤ → ∃ p,
      Walk na (fun _ _ => true) cost 0 v (s'.at v).dist p ∧ Traces s' v p) ∧
    (∀ w c p, w.pi + 1 = na.length → Walk na (fun _ _ => true) cost 0 w c p →
      ∃ v, InNa na v ∧ v.pi + 1 = na.length ∧ (s'.at v).dist ≤ c) := by
  obtain ⟨hj, _⟩ := start_J hwf hc hl hval
  obtain ⟨P, E, h, _, h2, h3⟩ := genLoop_opt hwf hno hfin hinf hl hmin dec fuel _ goals _ hj
    (start_DI hwf hc hl hfresh hval) s' goals' hr
  constructor
  · intro v hv hd
    by_cases hvis : (s'.at v).visited = true
    · obtain ⟨p, h4, h5, _⟩ := h.att v hv hvis
      exact ⟨_, h4, h5⟩
    · rw [h.unv v hv (by simpa using hvis)] at hd
      exact absurd hd (lt_irrefl _)
  · intro w c p hpi hw
    rcases h.walk_bound hwf hinf hw with h4 | ⟨m, hm, hle⟩
    · exact ⟨w, (h.pin w h4).1, hpi, h.opt w h4 c p hw⟩
    · by_cases hz : goals' = 0
      · obtain ⟨v, hv, hdv⟩ := h3 hz hg
        have hvin := (h.pin v hv).1
        exact ⟨v, hvin, hdec v hvin hdv, le_trans (h.ord v hv m hm) hle⟩
      · rw [h2 hz] at hm
        cases hm

end Verif.CppGraph
