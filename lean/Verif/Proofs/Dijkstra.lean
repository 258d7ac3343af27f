import Verif.Proofs.CppGraph

/-! # The priority-queue search with an arbitrary queue -/

set_option linter.unusedSectionVars false

namespace Verif.CppGraph

open Verif.Search Verif.Spec

variable {F C : Type} [CostArith C] [JointArith F C]

/-- A queue that neither loses, invents nor duplicates nodes; the order is arbitrary and may depend
on the distances at each moment. -/
structure Lawful {α : Type} (pq : PQ C α) where
  elems : pq.Q → List (Nd α)
  empty : elems pq.empty = []
  push : ∀ s q n, (elems (pq.push s q n)).Perm (n :: elems q)
  pop_none : ∀ s q, pq.pop s q = none → elems q = []
  pop_some : ∀ s q n q', pq.pop s q = some (n, q') → (elems q).Perm (n :: elems q')

/-- The loop with an arbitrary test for what counts as a goal. -/
def genLoop {α : Type} (pq : PQ C α) (cost : Nd α → Nd α → C) (nbs : Nd α → List (Nd α))
    (dec : Nd α → Bool) : Nat → Store C α × pq.Q → Nat → Option (Store C α × Nat)
  | fuel, (s, q), goals =>
    if goals = 0 then some (s, goals)
    else
      match pq.pop s q, fuel with
      | none, _ => some (s, goals)
      | some _, 0 => none
      | some (cur, q'), fuel + 1 =>
        genLoop pq cost nbs dec fuel (expand cost pq.push nbs cur (s, q'))
          (if dec cur then goals - 1 else goals)

theorem dijkstraLoop_eq {α : Type} (pq : PQ C α) (cost : Nd α → Nd α → C)
    (nbs : Nd α → List (Nd α)) (maxIdx fuel : Nat) (x : Store C α × pq.Q) (goals : Nat) :
    dijkstraLoop pq cost nbs maxIdx fuel x goals =
      genLoop pq cost nbs (fun n => decide (n.pi = maxIdx)) fuel x goals := by
  induction fuel generalizing x goals with
  | zero =>
    obtain ⟨s, q⟩ := x
    unfold dijkstraLoop genLoop
    split
    · rfl
    · rcases pq.pop s q with _ | ⟨n, q'⟩ <;> rfl
  | succ fuel ih =>
    obtain ⟨s, q⟩ := x
    unfold dijkstraLoop genLoop
    split
    · rfl
    · rcases pq.pop s q with _ | ⟨n, q'⟩
      · rfl
      · simp only [ih, decide_eq_true_eq]

/-- A FIFO queue as a `PQ`. -/
def fifo {α : Type} : PQ C α :=
  ⟨List (Nd α), [], fifoPush, fun _ q => match q with
    | [] => none
    | x :: xs => some (x, xs)⟩

def fifoLawful {α : Type} : Lawful (fifo : PQ C α) where
  elems q := q
  empty := rfl
  push s q n := by
    exact (List.perm_append_comm (l₁ := (q : List (Nd α))) (l₂ := [n]))
  pop_none s q h := by
    cases q with
    | nil => rfl
    | cons x xs => cases h
  pop_some s q n q' h := by
    cases q with
    | nil => cases h
    | cons x xs => cases h; exact List.Perm.refl _

/-- Breadth-first search is the same loop with a FIFO queue and no goal count. -/
theorem bfsLoop_eq {α : Type} (cost : Nd α → Nd α → C) (nbs : Nd α → List (Nd α)) (fuel : Nat)
    (x : Store C α × List (Nd α)) :
    bfsLoop cost nbs fuel x = (genLoop fifo cost nbs (fun _ => false) fuel x 1).map Prod.fst := by
  induction fuel generalizing x with
  | zero =>
    obtain ⟨s, q⟩ := x
    cases q <;> rfl
  | succ fuel ih =>
    obtain ⟨s, q⟩ := x
    cases q with
    | nil => rfl
    | cons n q =>
      rw [bfsLoop, ih]
      rfl

variable {na : List (List (Nd (List F)))} {cost : Nd (List F) → Nd (List F) → C}

/-- Effect of one relaxation on the queue. -/
theorem relax_elems {pq : PQ C (List F)} (hl : Lawful pq) (cost : Nd (List F) → Nd (List F) → C)
    (cur nb : Nd (List F)) (s : Store C (List F) × pq.Q) :
    (hl.elems (relax cost pq.push cur s nb).2).Perm
      (if (s.1.at nb).visited then hl.elems s.2 else nb :: hl.elems s.2) := by
  unfold relax
  by_cases hd : (s.1.at cur).dist + cost cur nb < (s.1.at nb).dist
  · simp only [hd, if_true]
    by_cases hv : (s.1.at nb).visited
    · simp [hv]
    · simp [hv, hl.push]
  · simp only [hd, if_false]
    by_cases hv : (s.1.at nb).visited
    · simp [hv]
    · simp [hv, hl.push]

/-- Number of nodes not visited yet. -/
def unvis (na : List (List (Nd (List F)))) (s : Store C (List F)) : Nat :=
  na.flatten.countP fun n => !(s.at n).visited

theorem countP_lt_of_flip {β : Type} (L : List β) (p q : β → Bool) (h : ∀ x ∈ L, q x = true → p x = true)
    (x : β) (hx : x ∈ L) (hp : p x = true) (hq : q x = false) : L.countP q + 1 ≤ L.countP p := by
  induction L with
  | nil => cases hx
  | cons y L ih =>
    rw [List.countP_cons, List.countP_cons]
    rcases List.mem_cons.1 hx with rfl | hx
    · have := List.countP_mono_left (l := L) fun z hz hqz => h z (List.mem_cons_of_mem _ hz) hqz
      simp [hp, hq]
      omega
    · have h1 := ih (fun z hz => h z (List.mem_cons_of_mem _ hz)) hx
      by_cases hqy : q y = true
      · have := h y (by simp) hqy
        simp [hqy, this]
        omega
      · simp [hqy]
        omega

/-- What a relaxation does to every node: distances do not grow, flags only get set. -/
theorem relax_mono (pq : PQ C (List F)) (cur nb : Nd (List F)) (s : Store C (List F) × pq.Q)
    (v : Nd (List F)) :
    ((relax cost pq.push cur s nb).1.at v).dist ≤ (s.1.at v).dist ∧
    ((s.1.at v).visited = true → ((relax cost pq.push cur s nb).1.at v).visited = true) := by
  by_cases h : v.key = nb.key
  · have h1 : ∀ t : Store C (List F), t.at v = t.at nb := by
      intro t
      have h1 : v.pi = nb.pi := congrArg Prod.fst h
      have h2 : v.pos = nb.pos := congrArg Prod.snd h
      simp [Store.at, h1, h2]
    rw [h1, h1, relax_self]
    unfold relaxSt
    split
    · exact ⟨le_of_lt ‹_›, fun _ => rfl⟩
    · exact ⟨le_rfl, fun _ => rfl⟩
  · have : (relax cost pq.push cur s nb).1.at v = s.1.at v := relax_other _ _ _ _ _ _ _ h
    rw [this]
    exact ⟨le_rfl, id⟩

theorem relax_unvis {pq : PQ C (List F)} (hl : Lawful pq) (cur nb : Nd (List F))
    (hnb : nb ∈ na.flatten) (s : Store C (List F) × pq.Q) :
    unvis na (relax cost pq.push cur s nb).1 + (hl.elems (relax cost pq.push cur s nb).2).length ≤
      unvis na s.1 + (hl.elems s.2).length := by
  have hq := (relax_elems hl cost cur nb s).length_eq
  have hm : ∀ v ∈ na.flatten, (!((relax cost pq.push cur s nb).1.at v).visited) = true →
      (!(s.1.at v).visited) = true := by
    intro v _ h
    by_contra hc
    have := (relax_mono (cost := cost) pq cur nb s v).2 (by simpa using hc)
    simp [this] at h
  have hself : ((relax cost pq.push cur s nb).1.at nb).visited = true := by
    rw [relax_self]; unfold relaxSt; split <;> rfl
  by_cases hv : (s.1.at nb).visited = true
  · rw [if_pos hv] at hq
    rw [hq]
    have := List.countP_mono_left (l := na.flatten) hm
    unfold unvis
    omega
  · rw [if_neg hv] at hq
    rw [hq]
    have := countP_lt_of_flip na.flatten _ _ hm nb hnb (by simpa using hv) (by simp [hself])
    unfold unvis
    rw [List.length_cons]
    omega

/-- Members of the node array. -/
def InNa (na : List (List (Nd (List F)))) (v : Nd (List F)) : Prop :=
  ∃ col, na[v.pi]? = some col ∧ v ∈ col

theorem InNa.of_mem (hwf : WFna na) {i : Nat} {col : List (Nd (List F))} (hc : na[i]? = some col)
    {v : Nd (List F)} (hv : v ∈ col) : InNa na v :=
  ⟨col, by rw [hwf.pi_of_mem hc hv]; exact hc, hv⟩

theorem InNa.flatten {v : Nd (List F)} (h : InNa na v) : v ∈ na.flatten := by
  obtain ⟨col, h1, h2⟩ := h
  exact List.mem_flatten.2 ⟨col, List.mem_of_getElem? h1, h2⟩

theorem InNa.eq_of_key (hwf : WFna na) {u v : Nd (List F)} (hu : InNa na u) (hv : InNa na v)
    (h : u.key = v.key) : u = v := by
  obtain ⟨c1, h1, h2⟩ := hu
  obtain ⟨c2, h3, h4⟩ := hv
  have hp : u.pi = v.pi := congrArg Prod.fst h
  rw [hp, h3] at h1
  cases h1
  exact hwf.eq_of_key h3 h2 h4 h

/-- Basic invariant of the search. -/
structure J (na : List (List (Nd (List F)))) {pq : PQ C (List F)} (hl : Lawful pq)
    (x : Store C (List F) × pq.Q) : Prop where
  valid : Valid na x.1
  que : ∀ n ∈ hl.elems x.2, InNa na n ∧ (x.1.at n).dist < ⊤

theorem relax_J (hwf : WFna na) {pq : PQ C (List F)} {hl : Lawful pq}
    {x : Store C (List F) × pq.Q} (h : J na hl x) {cur nb : Nd (List F)} (hcur : InNa na cur)
    (hnb : InNa na nb) (hpi : nb.pi = cur.pi + 1)
    (hd : (x.1.at cur).dist < ⊤) (hsum : (x.1.at cur).dist + cost cur nb < ⊤) :
    J na hl (relax cost pq.push cur x nb) := by
  have hmono := relax_mono (cost := cost) pq cur nb x
  have hself := relax_self cost pq.push cur nb x
  have hnbfin : ((relax cost pq.push cur x nb).1.at nb).dist < ⊤ := by
    rw [hself]; unfold relaxSt
    split
    · exact hsum
    · rename_i h1
      exact lt_of_le_of_lt (not_lt.1 h1) hsum
  constructor
  · intro i col hc v hv hfin
    by_cases hk : v.key = nb.key
    · have hvnb : v = nb := InNa.eq_of_key hwf (InNa.of_mem hwf hc hv) hnb hk
      subst hvnb
      have hvpi := hwf.pi_of_mem hc hv
      by_cases hlt : (x.1.at cur).dist + cost cur v < (x.1.at v).dist
      · right
        obtain ⟨ccol, hcc, hcm⟩ := hcur
        refine ⟨ccol, ?_, by omega, cur, hcm, ?_, lt_of_le_of_lt (hmono cur).1 hd⟩
        · rw [show i - 1 = cur.pi by omega]; exact hcc
        · rw [hself]; unfold relaxSt; rw [if_pos hlt]
      · have e : ((relax cost pq.push cur x v).1.at v).dist = (x.1.at v).dist ∧
            ((relax cost pq.push cur x v).1.at v).parent = (x.1.at v).parent := by
          rw [hself]; unfold relaxSt; rw [if_neg hlt]; exact ⟨rfl, rfl⟩
        rw [e.1] at hfin
        rcases h.valid i col hc v hv hfin with h0 | ⟨col', h1, h2, u, h3, h4, h5⟩
        · exact Or.inl h0
        · exact Or.inr ⟨col', h1, h2, u, h3, by rw [e.2]; exact h4, lt_of_le_of_lt (hmono u).1 h5⟩
    · have e : (relax cost pq.push cur x nb).1.at v = x.1.at v := relax_other _ _ _ _ _ _ _ hk
      rw [e] at hfin ⊢
      rcases h.valid i col hc v hv hfin with h0 | ⟨col', h1, h2, u, h3, h4, h5⟩
      · exact Or.inl h0
      · exact Or.inr ⟨col', h1, h2, u, h3, h4, lt_of_le_of_lt (hmono u).1 h5⟩
  · intro n hn
    have hp := (relax_elems hl cost cur nb x).mem_iff.1 hn
    by_cases hv : (x.1.at nb).visited = true
    · rw [if_pos hv] at hp
      have := h.que n hp
      exact ⟨this.1, lt_of_le_of_lt (hmono n).1 this.2⟩
    · rw [if_neg hv] at hp
      rcases List.mem_cons.1 hp with rfl | hp
      · exact ⟨hnb, hnbfin⟩
      · have := h.que n hp
        exact ⟨this.1, lt_of_le_of_lt (hmono n).1 this.2⟩

/-- Summary of the inner loop. -/
structure Exp (na : List (List (Nd (List F)))) {pq : PQ C (List F)} (hl : Lawful pq)
    (N : List (Nd (List F))) (x y : Store C (List F) × pq.Q) : Prop where
  j : J na hl y
  dist : ∀ v, (y.1.at v).dist ≤ (x.1.at v).dist
  vis : ∀ v, (x.1.at v).visited = true → (y.1.at v).visited = true
  done : ∀ n ∈ N, (y.1.at n).visited = true ∧ (y.1.at n).dist < ⊤
  new : ∀ v, InNa na v → (y.1.at v).visited = true → (x.1.at v).visited = true ∨ v ∈ hl.elems y.2
  keep : ∀ v ∈ hl.elems x.2, v ∈ hl.elems y.2
  meas : unvis na y.1 + (hl.elems y.2).length ≤ unvis na x.1 + (hl.elems x.2).length

theorem foldl_exp (hwf : WFna na) (hno : PyGraph.NoOverflow C)
    (hfin : ∀ u v, InNa na u → InNa na v → cost u v < ⊤)
    {pq : PQ C (List F)} {hl : Lawful pq} {cur : Nd (List F)} (hcur : InNa na cur)
    (N : List (Nd (List F))) (hN : ∀ n ∈ N, InNa na n ∧ n.pi = cur.pi + 1)
    (x : Store C (List F) × pq.Q) (h : J na hl x) (hd : (x.1.at cur).dist < ⊤) :
    Exp na hl N x (N.foldl (relax cost pq.push cur) x) := by
  induction N generalizing x with
  | nil =>
    exact ⟨h, fun _ => le_rfl, fun _ => id, by simp, fun _ _ h => Or.inl h, fun _ => id, le_rfl⟩
  | cons m N ih =>
    rw [List.foldl_cons]
    obtain ⟨hm, hmpi⟩ := hN m (by simp)
    have hsum := hno _ _ hd (hfin cur m hcur hm)
    have hj := relax_J (cost := cost) hwf h hcur hm hmpi hd hsum
    have hmono := relax_mono (cost := cost) pq cur m x
    have hself := relax_self cost pq.push cur m x
    have hel := relax_elems hl cost cur m x
    have hmvis : ((relax cost pq.push cur x m).1.at m).visited = true := by
      rw [hself]; unfold relaxSt; split <;> rfl
    have hmfin : ((relax cost pq.push cur x m).1.at m).dist < ⊤ := by
      rw [hself]; unfold relaxSt
      split
      · exact hsum
      · rename_i h1
        exact lt_of_le_of_lt (not_lt.1 h1) hsum
    have hE := ih (fun n hn => hN n (List.mem_cons_of_mem _ hn)) _ hj
      (lt_of_le_of_lt (hmono cur).1 hd)
    refine ⟨hE.j, fun v => le_trans (hE.dist v) (hmono v).1, fun v hv => hE.vis v ((hmono v).2 hv),
      ?_, ?_, ?_, le_trans hE.meas (relax_unvis hl cur m hm.flatten x)⟩
    · intro n hn
      rcases List.mem_cons.1 hn with rfl | hn
      · exact ⟨hE.vis _ hmvis, lt_of_le_of_lt (hE.dist _) hmfin⟩
      · exact hE.done n hn
    · intro v hv hvis
      rcases hE.new v hv hvis with h1 | h1
      · by_cases hk : v.key = m.key
        · have : v = m := InNa.eq_of_key hwf hv hm hk
          subst this
          by_cases hv' : (x.1.at v).visited = true
          · exact Or.inl hv'
          · right
            apply hE.keep
            rw [hel.mem_iff, if_neg hv']
            simp
        · have e : (relax cost pq.push cur x m).1.at v = x.1.at v := relax_other _ _ _ _ _ _ _ hk
          rw [e] at h1
          exact Or.inl h1
      · exact Or.inr h1
    · intro v hv
      apply hE.keep
      rw [hel.mem_iff]
      split
      · exact hv
      · exact List.mem_cons_of_mem _ hv

/-- Every visited node has a finite distance and is either waiting or has only visited
successors. -/
def Closed (na : List (List (Nd (List F)))) (s : Store C (List F)) (E : List (Nd (List F))) : Prop :=
  (∀ v, InNa na v → (s.at v).visited = true → (s.at v).dist < ⊤) ∧
  ∀ v, InNa na v → (s.at v).visited = true → v ∈ E ∨
    ∀ w, InNa na w → w.pi = v.pi + 1 → (s.at w).visited = true

theorem nbs_mem (hwf : WFna na) (u : Nd (List F)) (n : Nd (List F)) :
    n ∈ layerNbs na (fun _ _ => true) u ↔ InNa na n ∧ n.pi = u.pi + 1 := by
  unfold layerNbs
  rcases hc : na[u.pi + 1]? with _ | col
  · simp only [List.not_mem_nil, false_iff]
    rintro ⟨⟨col, h1, _⟩, h2⟩
    rw [h2, hc] at h1
    cases h1
  · simp only [List.filter_true]
    constructor
    · intro hn
      exact ⟨InNa.of_mem hwf hc hn, hwf.pi_of_mem hc hn⟩
    · rintro ⟨⟨col', h1, h3⟩, h2⟩
      rw [h2, hc] at h1
      cases h1
      exact h3

theorem genLoop_spec (hwf : WFna na) (hno : PyGraph.NoOverflow C)
    (hfin : ∀ u v, InNa na u → InNa na v → cost u v < ⊤)
    {pq : PQ C (List F)} (hl : Lawful pq) (dec : Nd (List F) → Bool) (fuel : Nat) :
    ∀ (x : Store C (List F) × pq.Q) (goals : Nat), J na hl x →
      unvis na x.1 + (hl.elems x.2).length ≤ fuel →
    ∃ s' goals', genLoop pq cost (layerNbs na fun _ _ => true) dec fuel x goals =
        some (s', goals') ∧ Valid na s' ∧
      (∀ v, (s'.at v).dist ≤ (x.1.at v).dist) ∧
      (∀ v, (x.1.at v).visited = true → (s'.at v).visited = true) ∧
      (goals' = 0 → goals ≠ 0 → ∃ v, InNa na v ∧ dec v = true ∧ (s'.at v).dist < ⊤) ∧
      (Closed na x.1 (hl.elems x.2) → goals' ≠ 0 → Closed na s' []) := by
  induction fuel with
  | zero =>
    intro x goals h hm
    have hE : hl.elems x.2 = [] := List.length_eq_zero_iff.1 (by omega)
    refine ⟨x.1, goals, ?_, h.valid, fun _ => le_rfl, fun _ => id, fun h1 h2 => absurd h1 h2, ?_⟩
    · unfold genLoop
      split
      · rfl
      · rcases hp : pq.pop x.1 x.2 with _ | ⟨n, q'⟩
        · rfl
        · have := (hl.pop_some _ _ _ _ hp).length_eq
          rw [hE] at this
          simp at this
    · intro hcl _
      rw [hE] at hcl
      exact hcl
  | succ fuel ih =>
    intro x goals h hm
    obtain ⟨s, q⟩ := x
    unfold genLoop
    by_cases hg : goals = 0
    · exact ⟨s, goals, by simp [hg], h.valid, fun _ => le_rfl, fun _ => id,
        fun h1 h2 => absurd h1 h2, fun _ h2 => absurd hg h2⟩
    · rcases hp : pq.pop s q with _ | ⟨cur, q'⟩
      · have hE := hl.pop_none _ _ hp
        refine ⟨s, goals, by simp [hg], h.valid, fun _ => le_rfl, fun _ => id,
          fun h1 h2 => absurd h1 h2, ?_⟩
        intro hcl _
        simp only at hcl
        rw [hE] at hcl
        exact hcl
      · have hperm := hl.pop_some _ _ _ _ hp
        have hcur := h.que cur (hperm.mem_iff.2 (by simp))
        have hj' : J na hl (s, q') :=
          ⟨h.valid, fun n hn => h.que n (hperm.mem_iff.2 (List.mem_cons_of_mem _ hn))⟩
        have hE := foldl_exp (cost := cost) hwf hno hfin hcur.1
          (layerNbs na (fun _ _ => true) cur) (fun n hn => (nbs_mem hwf cur n).1 hn) (s, q') hj'
          hcur.2
        have hlen := hperm.length_eq
        simp only [List.length_cons] at hlen
        have hmeas := hE.meas
        simp only at hm hmeas
        obtain ⟨s', goals', h1, h2, h3, h4, h5, h6⟩ := ih
          (expand cost pq.push (layerNbs na fun _ _ => true) cur (s, q'))
          (if dec cur then goals - 1 else goals) hE.j (by unfold expand; omega)
        refine ⟨s', goals', ?_, h2, fun v => le_trans (h3 v) (hE.dist v),
          fun v hv => h4 v (hE.vis v hv), ?_, ?_⟩
        · simp only [hg, if_false]
          exact h1
        · intro hz _
          by_cases hdec : dec cur = true
          · exact ⟨cur, hcur.1, hdec, lt_of_le_of_lt (h3 cur) (lt_of_le_of_lt (hE.dist cur) hcur.2)⟩
          · exact h5 hz (by simpa [hdec] using hg)
        · intro hcl hz
          refine h6 ⟨?_, ?_⟩ hz
          · intro v hv hvis
            rcases hE.new v hv hvis with h7 | h7
            · exact lt_of_le_of_lt (hE.dist v) (hcl.1 v hv h7)
            · exact (hE.j.que v h7).2
          · intro v hv hvis
            rcases hE.new v hv hvis with h7 | h7
            · rcases hcl.2 v hv h7 with h8 | h8
              · rcases List.mem_cons.1 (hperm.mem_iff.1 h8) with rfl | h8
                · right
                  intro w hw hwpi
                  exact (hE.done w ((nbs_mem hwf v w).2 ⟨hw, hwpi⟩)).1
                · exact Or.inl (hE.keep v h8)
              · right
                intro w hw hwpi
                exact hE.vis w (h8 w hw hwpi)
            · exact Or.inl h7

/-! ## The start column -/

theorem startCol_elems {pq : PQ C (List F)} (hl : Lawful pq) (col : List (Nd (List F)))
    (x : Store C (List F) × pq.Q) :
    (hl.elems (startCol pq.push col x).2).Perm (col ++ hl.elems x.2) := by
  unfold startCol
  induction col generalizing x with
  | nil => exact List.Perm.refl _
  | cons m col ih =>
    rw [List.foldl_cons]
    refine (ih _).trans ?_
    refine (List.Perm.append_left col (hl.push _ _ _)).trans ?_
    simp

theorem start_J (hwf : WFna na) {start : List (Nd (List F))} (hc : na[0]? = some start)
    {pq : PQ C (List F)} (hl : Lawful pq) {s : Store C (List F)} (hval : Valid na s) :
    J na hl (startCol pq.push start (s, pq.empty)) ∧
    unvis na (startCol pq.push start (s, pq.empty)).1 +
      (hl.elems (startCol pq.push start (s, pq.empty)).2).length ≤ (na.map List.length).sum ∧
    (∀ v ∈ start, (startCol pq.push start (s, pq.empty)).1.at v = ⟨0, .dummy, true⟩) ∧
    (∀ v, InNa na v → v.pi ≠ 0 → (startCol pq.push start (s, pq.empty)).1.at v = s.at v) := by
  obtain ⟨h1, h2⟩ := startCol_spec pq.push start (s, pq.empty) (hwf.nodup_keys hc)
  have hel := startCol_elems hl start (s, pq.empty)
  simp only [hl.empty, List.append_nil] at hel
  have hother : ∀ v, InNa na v → v.pi ≠ 0 →
      (startCol pq.push start (s, pq.empty)).1.at v = s.at v := by
    intro v hv hpi
    apply h2
    intro hm
    obtain ⟨n, hn, hk⟩ := List.mem_map.1 hm
    have h3 : n.pi = v.pi := congrArg Prod.fst hk
    have := hwf.pi_of_mem hc hn
    omega
  have hzero : ∀ v, InNa na v → v.pi = 0 → v ∈ start := by
    rintro v ⟨col, h3, h4⟩ hpi
    rw [hpi, hc] at h3
    cases h3
    exact h4
  refine ⟨⟨?_, ?_⟩, ?_, h1, hother⟩
  · intro i col hcol v hv hd
    have hvpi := hwf.pi_of_mem hcol hv
    have hvin := InNa.of_mem hwf hcol hv
    by_cases hi : i = 0
    · exact Or.inl hi
    · right
      have e := hother v hvin (by omega)
      rw [e] at hd ⊢
      rcases hval i col hcol v hv hd with h0 | ⟨col', h3, h4, u, h5, h6, h7⟩
      · exact absurd h0 hi
      · refine ⟨col', h3, h4, u, h5, h6, ?_⟩
        have hu := InNa.of_mem hwf h3 h5
        by_cases hu0 : u.pi = 0
        · rw [h1 u (hzero u hu hu0)]
          exact zero_lt_top
        · rw [hother u hu hu0]
          exact h7
  · intro n hn
    have hn' := hel.mem_iff.1 hn
    refine ⟨InNa.of_mem hwf hc hn', ?_⟩
    rw [h1 n hn']
    exact zero_lt_top
  · rw [hel.length_eq]
    cases na with
    | nil => simp at hc
    | cons a rest =>
      simp at hc
      subst hc
      unfold unvis
      rw [List.flatten_cons, List.countP_append]
      have : a.countP (fun n => !((startCol pq.push a (s, pq.empty)).1.at n).visited) = 0 := by
        rw [List.countP_eq_zero]
        intro n hn
        rw [h1 n hn]
        simp
      rw [this]
      have h3 := List.countP_le_length (p := fun n =>
        !((startCol pq.push a (s, pq.empty)).1.at n).visited) (l := rest.flatten)
      rw [List.length_flatten] at h3
      rw [List.map_cons, List.sum_cons]
      omega

/-- In a closed state whose start column is visited, everything is visited. -/
theorem closed_all (hwf : WFna na) {s : Store C (List F)} (hcl : Closed na s [])
    {start : List (Nd (List F))} (hc : na[0]? = some start)
    (hst : ∀ v ∈ start, (s.at v).visited = true) (hne : ∀ col ∈ na, col ≠ []) (i : Nat) :
    ∀ col, na[i]? = some col → ∀ v ∈ col, (s.at v).visited = true := by
  induction i with
  | zero =>
    intro col h v hv
    rw [hc] at h
    cases h
    exact hst v hv
  | succ i ih =>
    intro col h v hv
    have hlt := (List.getElem?_eq_some_iff.1 h).1
    have hci : na[i]? = some na[i] := List.getElem?_eq_getElem (by omega)
    obtain ⟨u, hu⟩ := List.exists_mem_of_ne_nil _ (hne na[i] (List.getElem_mem _))
    have huin := InNa.of_mem hwf hci hu
    rcases hcl.2 u huin (ih _ hci u hu) with h1 | h1
    · cases h1
    · refine h1 v (InNa.of_mem hwf h hv) ?_
      rw [hwf.pi_of_mem h hv, hwf.pi_of_mem hci hu]

/-- A goal has been reached. -/
def GoalReached (na : List (List (Nd (List F)))) (s : Store C (List F)) : Prop :=
  ∃ last, na.getLast? = some last ∧ ∃ v ∈ last, (s.at v).dist < ⊤

/-- The search from an arbitrary valid store ends in a valid store; from a fresh one (or from one
where a goal has been reached already) a goal is reached. -/
theorem search_spec (hwf : WFna na) (hno : PyGraph.NoOverflow C)
    (hfin : ∀ u v, InNa na u → InNa na v → cost u v < ⊤)
    (hne : ∀ col ∈ na, col ≠ []) {start : List (Nd (List F))} (hc : na[0]? = some start)
    {pq : PQ C (List F)} (hl : Lawful pq) (dec : Nd (List F) → Bool)
    (hdec : ∀ v, InNa na v → dec v = true → v.pi + 1 = na.length)
    {s : Store C (List F)} (hval : Valid na s) (goals : Nat)
    (hst : ((∀ v, InNa na v → FreshAt .dummy s v) ∧ goals ≠ 0) ∨ GoalReached na s) :
    ∃ s' goals', genLoop pq cost (layerNbs na fun _ _ => true) dec (na.map List.length).sum
        (startCol pq.push start (s, pq.empty)) goals = some (s', goals') ∧
      Valid na s' ∧ GoalReached na s' := by
  obtain ⟨hj, hm, hs0, hother⟩ := start_J hwf hc hl hval
  obtain ⟨s', goals', h1, h2, h3, h4, h5, h6⟩ := genLoop_spec (cost := cost) hwf hno hfin hl dec _ _
    goals hj hm
  refine ⟨s', goals', h1, h2, ?_⟩
  have hnil : na ≠ [] := by rintro rfl; simp at hc
  have hl1 : na.getLast? = some (na.getLast hnil) := List.getLast?_eq_some_getLast hnil
  have hidx : na[na.length - 1]? = some (na.getLast hnil) := by
    rw [← hl1, List.getLast?_eq_getElem?]
  have hpos : 0 < na.length := List.length_pos_iff.2 hnil
  rcases hst with ⟨hfresh, hg⟩ | ⟨last, hlast, v, hv, hd⟩
  · by_cases hz : goals' = 0
    · obtain ⟨v, ⟨col, hcol, hv⟩, hdv, hd⟩ := h5 hz hg
      have := hdec v ⟨col, hcol, hv⟩ hdv
      rw [show v.pi = na.length - 1 by omega, hidx] at hcol
      cases hcol
      exact ⟨_, hl1, v, hv, hd⟩
    · have hcl0 : Closed na (startCol pq.push start (s, pq.empty)).1
          (hl.elems (startCol pq.push start (s, pq.empty)).2) := by
        have hvis0 : ∀ v, InNa na v → ((startCol pq.push start (s, pq.empty)).1.at v).visited = true →
            v ∈ start := by
          rintro v hv hvis
          by_cases hpi : v.pi = 0
          · obtain ⟨col, h7, h8⟩ := hv
            rw [hpi, hc] at h7
            cases h7
            exact h8
          · rw [hother v hv hpi, (hfresh v hv).2.2] at hvis
            cases hvis
        constructor
        · intro v hv hvis
          rw [hs0 v (hvis0 v hv hvis)]
          exact zero_lt_top
        · intro v hv hvis
          left
          rw [(startCol_elems hl start (s, pq.empty)).mem_iff]
          exact List.mem_append_left _ (hvis0 v hv hvis)
      have hcl := h6 hcl0 hz
      obtain ⟨v, hv⟩ := List.exists_mem_of_ne_nil _ (hne _ (List.getLast_mem hnil))
      refine ⟨_, hl1, v, hv, hcl.1 v (InNa.of_mem hwf hidx hv) ?_⟩
      exact closed_all hwf hcl hc (fun u hu => h4 u (by rw [hs0 u hu])) hne _ _ hidx v hv
  · refine ⟨last, hlast, v, hv, ?_⟩
    rw [hl1] at hlast
    cases hlast
    by_cases hpi : v.pi = 0
    · have hvin := InNa.of_mem hwf hidx hv
      obtain ⟨col, h7, h8⟩ := hvin
      rw [hpi, hc] at h7
      cases h7
      refine lt_of_le_of_lt (h3 v) ?_
      rw [hs0 v h8]
      exact zero_lt_top
    · refine lt_of_le_of_lt (h3 v) ?_
      rw [hother v (InNa.of_mem hwf hidx hv) hpi]
      exact hd

/-- What `get_path_nodes` finds when a goal has been reached. -/
theorem pathNodes_valid {g : Graph F C} (hwf : WFna g.na) (hval : Valid g.na g.store)
    (hgoal : GoalReached g.na g.store) (hf : g.pathFound = true) :
    ∃ last, g.na.getLast? = some last ∧ ∃ v ∈ last, ∃ c p, g.getPathNodes = .ok p.reverse ∧
      Walk g.na (fun _ _ => true) g.edgeCost 0 v c p ∧ g.pathCostFrom 0 p.reverse = c := by
  obtain ⟨last, hlast, w, hw, hwd⟩ := hgoal
  have hmem : last ∈ g.na := List.mem_of_getLast? hlast
  rcases PyGraph.closest_spec g.store last with ⟨_, h2⟩ | ⟨v, hv, h1, h2, h3⟩
  · rw [h2 w hw] at hwd
    exact absurd hwd (lt_irrefl _)
  · obtain ⟨i, hi⟩ := List.getElem?_of_mem hmem
    have hlt := (List.getElem?_eq_some_iff.1 hi).1
    obtain ⟨c, p, h4, h5⟩ := trace_valid hwf hval g.edgeCost i last hi v hv h2 (g.na.length + 1)
      (by omega)
    refine ⟨last, hlast, v, hv, c, p, ?_, h5, walk_cost hwf h5⟩
    unfold Graph.getPathNodes
    rw [if_pos hf, hlast]
    simp only [closest_eq, h1]
    rw [h4]
    rfl

end Verif.CppGraph
