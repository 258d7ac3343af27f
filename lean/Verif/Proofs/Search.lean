import Verif.Model.Search
import Mathlib.Data.List.Nodup
import Mathlib.Data.List.Perm.Subperm

/-! # Lemmas about the shared search loop -/

set_option linter.unusedSectionVars false

namespace Verif.Search

variable {α C Q : Type} [CostArith C]

/-- Identity of a node object. -/
def Nd.key (n : Nd α) : Nat × Nat := (n.pi, n.pos)

/-- What one relaxation makes of the mutable fields of a neighbour. -/
def relaxSt (cost : Nd α → Nd α → C) (cur : Nd α) (dcur : C) (n : Nd α) (st : St C α) : St C α :=
  if dcur + cost cur n < st.dist then ⟨dcur + cost cur n, .node cur, true⟩
  else ⟨st.dist, st.parent, true⟩

@[simp] theorem upd_at_self (s : Store C α) (n : Nd α) (v : St C α) : (s.upd n v).at n = v := by
  simp [Store.at, Store.upd]

theorem upd_other (s : Store C α) (n : Nd α) (v : St C α) (i j : Nat) (h : (i, j) ≠ n.key) :
    s.upd n v i j = s i j := by
  simp only [Store.upd]
  rw [if_neg]
  rintro ⟨rfl, rfl⟩
  exact h rfl

theorem upd_at_other (s : Store C α) (n m : Nd α) (v : St C α) (h : m.key ≠ n.key) :
    (s.upd n v).at m = s.at m := upd_other s n v _ _ h

theorem relax_self (cost : Nd α → Nd α → C) (push : Store C α → Q → Nd α → Q) (cur nb : Nd α)
    (s : Store C α × Q) :
    (relax cost push cur s nb).1.at nb = relaxSt cost cur (s.1.at cur).dist nb (s.1.at nb) := by
  unfold relax relaxSt
  by_cases h : (s.1.at cur).dist + cost cur nb < (s.1.at nb).dist
  · simp only [h, if_true]
    by_cases hv : (s.1.at nb).visited <;> simp [hv]
  · simp only [h, if_false]
    by_cases hv : (s.1.at nb).visited
    · simp only [hv, if_true]
      rw [← hv]
    · simp [hv]

theorem relax_other (cost : Nd α → Nd α → C) (push : Store C α → Q → Nd α → Q) (cur nb : Nd α)
    (s : Store C α × Q) (i j : Nat) (h : (i, j) ≠ nb.key) :
    (relax cost push cur s nb).1 i j = s.1 i j := by
  unfold relax
  by_cases hd : (s.1.at cur).dist + cost cur nb < (s.1.at nb).dist
  · simp only [hd, if_true]
    by_cases hv : (s.1.at nb).visited <;> simp [hv, upd_other _ _ _ _ _ h]
  · simp only [hd, if_false]
    by_cases hv : (s.1.at nb).visited <;> simp [hv, upd_other _ _ _ _ _ h]

/-- Effect of the inner loop on the store. -/
theorem foldl_relax_store (cost : Nd α → Nd α → C) (push : Store C α → Q → Nd α → Q) (cur : Nd α)
    (N : List (Nd α)) (s : Store C α × Q) (hnd : (N.map Nd.key).Nodup)
    (hcur : cur.key ∉ N.map Nd.key) :
    (∀ n ∈ N, (N.foldl (relax cost push cur) s).1.at n =
        relaxSt cost cur (s.1.at cur).dist n (s.1.at n)) ∧
    (∀ i j, (i, j) ∉ N.map Nd.key → (N.foldl (relax cost push cur) s).1 i j = s.1 i j) := by
  induction N generalizing s with
  | nil => simp
  | cons m N ih =>
    simp only [List.map_cons, List.nodup_cons] at hnd
    simp only [List.map_cons, List.mem_cons, not_or] at hcur
    obtain ⟨h1, h2⟩ := ih (relax cost push cur s m) hnd.2 hcur.2
    have hc : (relax cost push cur s m).1.at cur = s.1.at cur :=
      relax_other _ _ _ _ _ _ _ hcur.1
    constructor
    · intro n hn
      rw [List.foldl_cons]
      rcases List.mem_cons.1 hn with rfl | hn
      · have := h2 n.pi n.pos hnd.1
        show (List.foldl (relax cost push cur) (relax cost push cur s n) N).1 n.pi n.pos = _
        rw [this]
        exact relax_self _ _ _ _ _
      · rw [h1 n hn, hc]
        have hne : n.key ≠ m.key := by
          intro h
          exact hnd.1 (h ▸ List.mem_map_of_mem hn)
        have : (relax cost push cur s m).1.at n = s.1.at n := relax_other _ _ _ _ _ _ _ hne
        rw [this]
    · intro i j hij
      simp only [List.map_cons, List.mem_cons, not_or] at hij
      rw [List.foldl_cons, h2 i j hij.2, relax_other _ _ _ _ _ _ _ hij.1]

/-- Effect of one relaxation on the FIFO queue. -/
theorem relax_fifo (cost : Nd α → Nd α → C) (cur nb : Nd α) (s : Store C α × List (Nd α)) :
    (relax cost fifoPush cur s nb).2 = if (s.1.at nb).visited then s.2 else s.2 ++ [nb] := by
  unfold relax
  by_cases hd : (s.1.at cur).dist + cost cur nb < (s.1.at nb).dist
  · simp only [hd, if_true]
    by_cases hv : (s.1.at nb).visited <;> simp [hv, fifoPush]
  · simp only [hd, if_false]
    by_cases hv : (s.1.at nb).visited <;> simp [hv, fifoPush]

/-- Effect of the inner loop on the FIFO queue. -/
theorem foldl_relax_fifo (cost : Nd α → Nd α → C) (cur : Nd α)
    (N : List (Nd α)) (s : Store C α × List (Nd α)) (hnd : (N.map Nd.key).Nodup) :
    (N.foldl (relax cost fifoPush cur) s).2 = s.2 ++ N.filter (fun n => !(s.1.at n).visited) := by
  induction N generalizing s with
  | nil => simp
  | cons m N ih =>
    simp only [List.map_cons, List.nodup_cons] at hnd
    rw [List.foldl_cons, ih _ hnd.2, relax_fifo]
    have : N.filter (fun n => !((relax cost fifoPush cur s m).1.at n).visited) =
        N.filter (fun n => !(s.1.at n).visited) := by
      apply List.filter_congr
      intro n hn
      have hne : n.key ≠ m.key := by
        intro h
        exact hnd.1 (h ▸ List.mem_map_of_mem hn)
      have : (relax cost fifoPush cur s m).1.at n = s.1.at n := relax_other _ _ _ _ _ _ _ hne
      rw [this]
    rw [this]
    by_cases hv : (s.1.at m).visited <;> simp [hv]

/-- The store is independent of what is in the FIFO queue, and new nodes go to its end. -/
theorem foldl_relax_append (cost : Nd α → Nd α → C) (cur : Nd α) (N : List (Nd α))
    (s : Store C α) (A B : List (Nd α)) :
    N.foldl (relax cost fifoPush cur) (s, A ++ B) =
      ((N.foldl (relax cost fifoPush cur) (s, B)).1,
        A ++ (N.foldl (relax cost fifoPush cur) (s, B)).2) := by
  induction N generalizing s B with
  | nil => rfl
  | cons m N ih =>
    simp only [List.foldl_cons]
    have : relax cost fifoPush cur (s, A ++ B) m =
        ((relax cost fifoPush cur (s, B) m).1, A ++ (relax cost fifoPush cur (s, B) m).2) := by
      simp only [relax, fifoPush]
      split <;> simp <;> split <;> simp
    rw [this, ih]

/-- Columns of nodes as the constructors build them: a node knows its column and position. -/
def WFna (na : List (List (Nd α))) : Prop :=
  ∀ i col, na[i]? = some col → ∀ (j : Nat) (n : Nd α), col[j]? = some n → n.pi = i ∧ n.pos = j

theorem WFna.pi_of_mem {na : List (List (Nd α))} (h : WFna na) {i : Nat} {col : List (Nd α)}
    (hc : na[i]? = some col) {n : Nd α} (hn : n ∈ col) : n.pi = i := by
  obtain ⟨j, hj⟩ := List.getElem?_of_mem hn
  exact (h i col hc j n hj).1

theorem WFna.eq_of_key {na : List (List (Nd α))} (h : WFna na) {i : Nat} {col : List (Nd α)}
    (hc : na[i]? = some col) {n m : Nd α} (hn : n ∈ col) (hm : m ∈ col)
    (hk : n.key = m.key) : n = m := by
  obtain ⟨j, hj⟩ := List.getElem?_of_mem hn
  obtain ⟨j', hj'⟩ := List.getElem?_of_mem hm
  have h1 := (h i col hc j n hj).2
  have h2 := (h i col hc j' m hj').2
  have : j = j' := by
    rw [← h1, ← h2]
    exact congrArg Prod.snd hk
  subst this
  rw [hj] at hj'
  exact Option.some.inj hj'

theorem WFna.nodup_keys {na : List (List (Nd α))} (h : WFna na) {i : Nat} {col : List (Nd α)}
    (hc : na[i]? = some col) : (col.map Nd.key).Nodup := by
  rw [List.nodup_iff_injective_getElem]
  intro a b hab
  simp only [List.getElem_map] at hab
  have ha := a.2
  have hb := b.2
  simp only [List.length_map] at ha hb
  have h1 := (h i col hc a col[a] (List.getElem?_eq_getElem ha)).2
  have h2 := (h i col hc b col[b] (List.getElem?_eq_getElem hb)).2
  ext
  rw [← h1, ← h2]
  exact congrArg Prod.snd hab

theorem WFna.nodup {na : List (List (Nd α))} (h : WFna na) {i : Nat} {col : List (Nd α)}
    (hc : na[i]? = some col) : col.Nodup := List.Nodup.of_map _ (h.nodup_keys hc)

/-- The neighbours of `u`: the nodes of the next column that pass the test `ok u`. -/
def layerNbs (na : List (List (Nd α))) (ok : Nd α → Nd α → Bool) (u : Nd α) : List (Nd α) :=
  match na[u.pi + 1]? with
  | none => []
  | some col => col.filter (ok u)

/-- Walks that start in column `k0` and follow admissible edges, with the cost accumulated from the
front.  The list is the walk in reverse order. -/
inductive Walk (na : List (List (Nd α))) (ok : Nd α → Nd α → Bool) (cost : Nd α → Nd α → C)
    (k0 : Nat) : Nd α → C → List (Nd α) → Prop
  | start {v : Nd α} {col : List (Nd α)} : na[k0]? = some col → v ∈ col →
      Walk na ok cost k0 v 0 [v]
  | step {u v : Nd α} {c : C} {p : List (Nd α)} {col : List (Nd α)} :
      Walk na ok cost k0 u c p → na[u.pi + 1]? = some col → v ∈ col → ok u v = true →
      Walk na ok cost k0 v (c + cost u v) (v :: p)

/-- Following the `parent` fields from `v` visits exactly the nodes of the list and ends at the
dummy node. -/
inductive Traces (s : Store C α) : Nd α → List (Nd α) → Prop
  | start {v : Nd α} : (s.at v).parent = .dummy → Traces s v [v]
  | step {u v : Nd α} {p : List (Nd α)} : (s.at v).parent = .node u → Traces s u p →
      Traces s v (v :: p)

section
variable (na : List (List (Nd α))) (ok : Nd α → Nd α → Bool) (cost : Nd α → Nd α → C) (k0 : Nat)
  (p0 : Par α)

/-- A node as it is before any search. -/
def FreshAt (s : Store C α) (v : Nd α) : Prop :=
  (s.at v).dist = ⊤ ∧ (s.at v).parent = p0 ∧ (s.at v).visited = false

/-- The finished state of a node: visited iff reachable, distance a lower bound of all walks, and
attained by the walk given by the parents (unless it is infinite). -/
structure Final (s : Store C α) (v : Nd α) : Prop where
  vis : (s.at v).visited = true ↔ ∃ c p, Walk na ok cost k0 v c p
  low : ∀ c p, Walk na ok cost k0 v c p → (s.at v).dist ≤ c
  att : ((s.at v).dist = ⊤ ∧ (s.at v).parent = p0) ∨
    ((s.at v).dist < ⊤ ∧ ∃ p, Walk na ok cost k0 v (s.at v).dist p ∧ Traces s v p)

variable {na ok cost k0 p0}

theorem Walk.pi_eq (hwf : WFna na) {v : Nd α} {c : C} {p : List (Nd α)}
    (h : Walk na ok cost k0 v c p) : v.pi + 1 = k0 + p.length ∧ 0 < p.length := by
  induction h with
  | start hc hv => simp [hwf.pi_of_mem hc hv]
  | step _ hc hv _ ih =>
    have := hwf.pi_of_mem hc hv
    simp
    omega

theorem Walk.mem_col (hwf : WFna na) {v : Nd α} {c : C} {p : List (Nd α)}
    (h : Walk na ok cost k0 v c p) : ∃ col, na[v.pi]? = some col ∧ v ∈ col := by
  cases h with
  | start hc hv => exact ⟨_, by rw [hwf.pi_of_mem hc hv]; exact hc, hv⟩
  | step _ hc hv _ => exact ⟨_, by rw [hwf.pi_of_mem hc hv]; exact hc, hv⟩

theorem Walk.all_pi_le (hwf : WFna na) {v : Nd α} {c : C} {p : List (Nd α)}
    (h : Walk na ok cost k0 v c p) : ∀ u ∈ p, u.pi ≤ v.pi := by
  induction h with
  | start hc hv => simp
  | step _ hc hv _ ih =>
    intro w hw
    have := hwf.pi_of_mem hc hv
    rcases List.mem_cons.1 hw with rfl | hw
    · exact le_rfl
    · have := ih w hw; omega

theorem Traces.congr {s s' : Store C α} {v : Nd α} {p : List (Nd α)} (h : Traces s v p)
    (hs : ∀ u ∈ p, s'.at u = s.at u) : Traces s' v p := by
  induction h with
  | start hd => exact .start (by rw [hs _ (by simp)]; exact hd)
  | step hp _ ih =>
    exact .step (by rw [hs _ (by simp)]; exact hp) (ih fun u hu => hs u (List.mem_cons_of_mem _ hu))

theorem Final.congr (hwf : WFna na) {s s' : Store C α} {v : Nd α}
    (h : Final na ok cost k0 p0 s v) (hs : ∀ i j, i ≤ v.pi → s' i j = s i j) :
    Final na ok cost k0 p0 s' v := by
  have e : s'.at v = s.at v := hs _ _ le_rfl
  refine ⟨by rw [e]; exact h.vis, by rw [e]; exact h.low, ?_⟩
  rw [e]
  rcases h.att with h | ⟨h1, p, hw, ht⟩
  · exact Or.inl h
  · exact Or.inr ⟨h1, p, hw, ht.congr fun u hu => hs _ _ (hw.all_pi_le hwf u hu)⟩

/-- State of the layer after `k` when the nodes `P` of layer `k` have been expanded. -/
structure LayerInv (na : List (List (Nd α))) (ok : Nd α → Nd α → Bool) (cost : Nd α → Nd α → C)
    (p0 : Par α) (k : Nat) (col : List (Nd α)) (s0 : Store C α) (P : List (Nd α))
    (s : Store C α × List (Nd α)) : Prop where
  same : ∀ i j, i ≠ k + 1 → s.1 i j = s0 i j
  low : ∀ v ∈ col, ∀ u ∈ P, ok u v = true → (s.1.at v).dist ≤ (s0.at u).dist + cost u v
  att : ∀ v ∈ col, ((s.1.at v).dist = ⊤ ∧ (s.1.at v).parent = p0) ∨
    ((s.1.at v).dist < ⊤ ∧ ∃ u ∈ P, ok u v = true ∧
      (s.1.at v).dist = (s0.at u).dist + cost u v ∧ (s.1.at v).parent = .node u)
  vis : ∀ v ∈ col, (s.1.at v).visited = true ↔ ∃ u ∈ P, ok u v = true
  que : ∀ v, v ∈ s.2 ↔ v ∈ col ∧ ∃ u ∈ P, ok u v = true
  nodup : s.2.Nodup

theorem layerInv_step (hwf : WFna na) {k : Nat} {col : List (Nd α)}
    (hcol : na[k + 1]? = some col) {s0 : Store C α} {P : List (Nd α)}
    {s : Store C α × List (Nd α)} (h : LayerInv na ok cost p0 k col s0 P s) {u : Nd α}
    (hu : u.pi = k) :
    LayerInv na ok cost p0 k col s0 (P ++ [u])
      (expand cost fifoPush (layerNbs na ok) u s) := by
  have hnbs : layerNbs na ok u = col.filter (ok u) := by simp [layerNbs, hu, hcol]
  have hkeys : ((col.filter (ok u)).map Nd.key).Nodup :=
    (hwf.nodup_keys hcol).sublist (List.filter_sublist.map _)
  have hpi : ∀ n ∈ col.filter (ok u), n.pi = k + 1 := fun n hn =>
    hwf.pi_of_mem hcol (List.mem_filter.1 hn).1
  have hcur : u.key ∉ (col.filter (ok u)).map Nd.key := by
    intro hm
    obtain ⟨n, hn, hk⟩ := List.mem_map.1 hm
    have h1 := hpi n hn
    have h2 : n.pi = u.pi := congrArg Prod.fst hk
    omega
  obtain ⟨hin, hout⟩ := foldl_relax_store cost fifoPush u (col.filter (ok u)) s hkeys hcur
  have hq := foldl_relax_fifo cost u (col.filter (ok u)) s hkeys
  have hud : s.1.at u = s0.at u := h.same _ _ (by omega)
  unfold expand
  rw [hnbs]
  set r := (col.filter (ok u)).foldl (relax cost fifoPush u) s with hr
  have hin' : ∀ v ∈ col, ok u v = true →
      r.1.at v = relaxSt cost u (s0.at u).dist v (s.1.at v) := by
    intro v hv hok
    rw [hin v (List.mem_filter.2 ⟨hv, hok⟩), hud]
  have hout' : ∀ v ∈ col, ok u v ≠ true → r.1.at v = s.1.at v := by
    intro v hv hok
    apply hout
    intro hm
    obtain ⟨n, hn, hk⟩ := List.mem_map.1 hm
    have := hwf.eq_of_key hcol (List.mem_filter.1 hn).1 hv hk
    exact hok (this ▸ (List.mem_filter.1 hn).2)
  refine ⟨?_, ?_, ?_, ?_, ?_, ?_⟩
  · intro i j hij
    rw [hout i j, h.same i j hij]
    intro hm
    obtain ⟨n, hn, hk⟩ := List.mem_map.1 hm
    have h1 := hpi n hn
    have h2 : n.pi = i := congrArg Prod.fst hk
    omega
  · intro v hv w hw hok
    rcases List.mem_append.1 hw with hw | hw
    · by_cases hu' : ok u v = true
      · rw [hin' v hv hu']
        have := h.low v hv w hw hok
        unfold relaxSt
        split
        · exact le_trans (le_of_lt ‹_›) this
        · exact this
      · rw [hout' v hv hu']
        exact h.low v hv w hw hok
    · have : w = u := by simpa using hw
      subst this
      rw [hin' v hv hok]
      unfold relaxSt
      split
      · exact le_rfl
      · exact not_lt.1 ‹_›
  · intro v hv
    by_cases hu' : ok u v = true
    · rw [hin' v hv hu']
      unfold relaxSt
      split
      · rename_i hlt
        right
        exact ⟨lt_of_lt_of_le hlt le_top, u, by simp, hu', rfl, rfl⟩
      · rcases h.att v hv with h1 | ⟨h1, w, hw, h2⟩
        · exact Or.inl h1
        · exact Or.inr ⟨h1, w, List.mem_append_left _ hw, h2⟩
    · rw [hout' v hv hu']
      rcases h.att v hv with h1 | ⟨h1, w, hw, h2⟩
      · exact Or.inl h1
      · exact Or.inr ⟨h1, w, List.mem_append_left _ hw, h2⟩
  · intro v hv
    by_cases hu' : ok u v = true
    · rw [hin' v hv hu']
      have : (relaxSt cost u (s0.at u).dist v (s.1.at v)).visited = true := by
        unfold relaxSt; split <;> rfl
      rw [this]
      simp [hu']
    · rw [hout' v hv hu', h.vis v hv]
      simp [hu']
  · intro v
    rw [hq]
    simp only [List.mem_append, List.mem_filter, h.que v]
    constructor
    · rintro (⟨hv, w, hw, hok⟩ | ⟨⟨hv, hok⟩, _⟩)
      · exact ⟨hv, w, Or.inl hw, hok⟩
      · exact ⟨hv, u, Or.inr (by simp), hok⟩
    · rintro ⟨hv, w, hw | hw, hok⟩
      · exact Or.inl ⟨hv, w, hw, hok⟩
      · have : w = u := by simpa using hw
        subst this
        by_cases hvis : (s.1.at v).visited = true
        · exact Or.inl ⟨hv, (h.vis v hv).1 hvis⟩
        · exact Or.inr ⟨⟨hv, hok⟩, by simp [hvis]⟩
  · rw [hq]
    refine List.Nodup.append h.nodup (((hwf.nodup hcol).filter _).filter _) ?_
    intro v hv hv'
    have h1 := (h.que v).1 hv
    have h2 : (s.1.at v).visited = true := (h.vis v h1.1).2 h1.2
    simp [h2] at hv'

/-- Expanding a whole list of layer-`k` nodes. -/
theorem layerInv_foldl (hwf : WFna na) {k : Nat} {col : List (Nd α)}
    (hcol : na[k + 1]? = some col) {s0 : Store C α} (L : List (Nd α)) (hL : ∀ u ∈ L, u.pi = k)
    {P : List (Nd α)} {s : Store C α × List (Nd α)}
    (h : LayerInv na ok cost p0 k col s0 P s) :
    LayerInv na ok cost p0 k col s0 (P ++ L)
      (L.foldl (fun s u => expand cost fifoPush (layerNbs na ok) u s) s) := by
  induction L generalizing P s with
  | nil => simpa using h
  | cons u L ih =>
    have := ih (fun v hv => hL v (List.mem_cons_of_mem _ hv))
      (layerInv_step hwf hcol h (hL u (by simp)))
    simpa using this

/-- Running the loop over the first part of the queue. -/
theorem bfsLoop_prefix (nbs : Nd α → List (Nd α)) (L : List (Nd α)) (fuel : Nat) (s : Store C α)
    (B : List (Nd α)) :
    bfsLoop cost nbs (fuel + L.length) (s, L ++ B) =
      bfsLoop cost nbs fuel (L.foldl (fun s u => expand cost fifoPush nbs u s) (s, B)) := by
  induction L generalizing s B with
  | nil => rfl
  | cons u L ih =>
    have : fuel + (u :: L).length = (fuel + L.length) + 1 := by simp; omega
    rw [this, List.cons_append, bfsLoop, List.foldl_cons]
    have : expand cost fifoPush nbs u (s, L ++ B) =
        ((expand cost fifoPush nbs u (s, B)).1, L ++ (expand cost fifoPush nbs u (s, B)).2) := by
      unfold expand; exact foldl_relax_append ..
    rw [this, ih]

/-- State between layers: layers up to `k` are final, later ones fresh, the queue holds exactly the
reached nodes of layer `k`. -/
structure GInv (na : List (List (Nd α))) (ok : Nd α → Nd α → Bool) (cost : Nd α → Nd α → C)
    (k0 : Nat) (p0 : Par α) (k : Nat) (s : Store C α) (L : List (Nd α)) : Prop where
  final : ∀ i ≤ k, ∀ col, na[i]? = some col → ∀ v ∈ col, Final na ok cost k0 p0 s v
  fresh : ∀ i, k < i → ∀ col, na[i]? = some col → ∀ v ∈ col, FreshAt p0 s v
  que : ∀ v, v ∈ L ↔ v.pi = k ∧ ∃ c p, Walk na ok cost k0 v c p
  nodup : L.Nodup

theorem gInv_step (hwf : WFna na) {k : Nat} (hk : k0 ≤ k) {s : Store C α} {L : List (Nd α)}
    (h : GInv na ok cost k0 p0 k s L) {col : List (Nd α)} (hcol : na[k + 1]? = some col) :
    GInv na ok cost k0 p0 (k + 1)
      (L.foldl (fun s u => expand cost fifoPush (layerNbs na ok) u s) (s, [])).1
      (L.foldl (fun s u => expand cost fifoPush (layerNbs na ok) u s) (s, [])).2 := by
  have hLpi : ∀ u ∈ L, u.pi = k := fun u hu => ((h.que u).1 hu).1
  have h0 : LayerInv na ok cost p0 k col s [] (s, []) := by
    refine ⟨fun _ _ _ => rfl, by simp, ?_, ?_, by simp, by simp⟩
    · intro v hv
      have := h.fresh (k + 1) (by omega) col hcol v hv
      exact Or.inl ⟨this.1, this.2.1⟩
    · intro v hv
      have := h.fresh (k + 1) (by omega) col hcol v hv
      simp [this.2.2]
  have hI := layerInv_foldl hwf hcol L hLpi h0
  rw [List.nil_append] at hI
  set r := L.foldl (fun s u => expand cost fifoPush (layerNbs na ok) u s) (s, []) with hr
  -- walks into layer k+1 come from L
  have hwalk : ∀ v ∈ col, ∀ c p, Walk na ok cost k0 v c p →
      ∃ u ∈ L, ∃ c' p', Walk na ok cost k0 u c' p' ∧ c = c' + cost u v ∧ ok u v = true := by
    intro v hv c p hw
    have hvpi := hwf.pi_of_mem hcol hv
    cases hw with
    | start hc hv' =>
      have := hwf.pi_of_mem hc hv'
      omega
    | @step u _ c' p' col' hw' hc' hv' hok =>
      have h1 := hwf.pi_of_mem hc' hv'
      exact ⟨u, (h.que u).2 ⟨by omega, _, _, hw'⟩, c', p', hw', rfl, hok⟩
  have hfinL : ∀ u ∈ L, Final na ok cost k0 p0 s u := by
    intro u hu
    obtain ⟨hupi, c, p, hw⟩ := (h.que u).1 hu
    obtain ⟨col', hc', hu'⟩ := hw.mem_col hwf
    exact h.final u.pi (by omega) col' hc' u hu'
  refine ⟨?_, ?_, ?_, hI.nodup⟩
  · intro i hi col' hc' v hv
    by_cases hik : i ≤ k
    · refine (h.final i hik col' hc' v hv).congr hwf ?_
      intro i' j' hi'
      have := hwf.pi_of_mem hc' hv
      exact hI.same i' j' (by omega)
    · have hi : i = k + 1 := by omega
      subst hi
      have : col' = col := by rw [hc'] at hcol; exact Option.some.inj hcol
      subst this
      have hvpi := hwf.pi_of_mem hc' hv
      refine ⟨?_, ?_, ?_⟩
      · rw [hI.vis v hv]
        constructor
        · rintro ⟨u, hu, hok⟩
          obtain ⟨hupi, c, p, hw⟩ := (h.que u).1 hu
          exact ⟨_, _, .step hw (by rw [hupi]; exact hc') hv hok⟩
        · rintro ⟨c, p, hw⟩
          obtain ⟨u, hu, _, _, _, _, hok⟩ := hwalk v hv c p hw
          exact ⟨u, hu, hok⟩
      · intro c p hw
        obtain ⟨u, hu, c', p', hw', rfl, hok⟩ := hwalk v hv c p hw
        exact le_trans (hI.low v hv u hu hok) (add_mono _ _ _ ((hfinL u hu).low c' p' hw'))
      · rcases hI.att v hv with h1 | ⟨h1, u, hu, hok, hd, hp⟩
        · exact Or.inl h1
        · right
          refine ⟨h1, ?_⟩
          have hupi := hLpi u hu
          rcases (hfinL u hu).att with ⟨htop, _⟩ | ⟨_, p, hw, ht⟩
          · rw [htop, top_add] at hd
            rw [hd] at h1
            exact absurd h1 (lt_irrefl _)
          · refine ⟨v :: p, ?_, ?_⟩
            · rw [hd]
              exact .step hw (by rw [hupi]; exact hc') hv hok
            · refine .step hp (ht.congr ?_)
              intro w hw'
              have := hw.all_pi_le hwf w hw'
              exact hI.same _ _ (by omega)
  · intro i hi col' hc' v hv
    have hvpi := hwf.pi_of_mem hc' hv
    have e : r.1.at v = s.at v := hI.same _ _ (by omega)
    have := h.fresh i (by omega) col' hc' v hv
    unfold FreshAt
    rw [e]
    exact this
  · intro v
    rw [hI.que v]
    constructor
    · rintro ⟨hv, u, hu, hok⟩
      obtain ⟨hupi, c, p, hw⟩ := (h.que u).1 hu
      exact ⟨hwf.pi_of_mem hcol hv, _, _, .step hw (by rw [hupi]; exact hcol) hv hok⟩
    · rintro ⟨hvpi, c, p, hw⟩
      obtain ⟨col', hc', hv⟩ := hw.mem_col hwf
      have : col' = col := by
        rw [hvpi] at hc'; rw [hc'] at hcol; exact Option.some.inj hcol
      subst this
      obtain ⟨u, hu, _, _, _, _, hok⟩ := hwalk v hv c p hw
      exact ⟨hv, u, hu, hok⟩

theorem gInv_length (hwf : WFna na) {k : Nat} {s : Store C α}
    {L : List (Nd α)} (h : GInv na ok cost k0 p0 k s L) :
    (na[k]? = none → L = []) ∧ ∀ col, na[k]? = some col → L.length ≤ col.length := by
  have hmem : ∀ v ∈ L, ∃ col, na[k]? = some col ∧ v ∈ col := by
    intro v hv
    obtain ⟨hpi, c, p, hw⟩ := (h.que v).1 hv
    rw [← hpi]
    exact hw.mem_col hwf
  constructor
  · intro hn
    rcases L with _ | ⟨v, L⟩
    · rfl
    · obtain ⟨col, hc, _⟩ := hmem v (by simp)
      rw [hn] at hc; cases hc
  · intro col hc
    apply (List.subperm_of_subset h.nodup ?_).length_le
    intro v hv
    obtain ⟨col', hc', hv'⟩ := hmem v hv
    rw [hc] at hc'
    cases hc'
    exact hv'

/-- The loop finishes and leaves every node in its final state. -/
theorem bfsLoop_final (hwf : WFna na) (n : Nat) : ∀ (k : Nat), k0 ≤ k → na.length ≤ k + n →
    ∀ (s : Store C α) (L : List (Nd α)), GInv na ok cost k0 p0 k s L →
    ∀ fuel, ((na.drop k).map List.length).sum ≤ fuel →
    ∃ s', bfsLoop cost (layerNbs na ok) fuel (s, L) = some s' ∧
      ∀ col ∈ na, ∀ v ∈ col, Final na ok cost k0 p0 s' v := by
  induction n with
  | zero =>
    intro k hk hn s L h fuel _
    have hL : L = [] := (gInv_length hwf h).1 (by simpa using hn)
    subst hL
    refine ⟨s, by cases fuel <;> rfl, ?_⟩
    intro col hcol v hv
    obtain ⟨i, hi⟩ := List.getElem?_of_mem hcol
    have := (List.getElem?_eq_some_iff.1 hi).1
    exact h.final i (by omega) col hi v hv
  | succ n ih =>
    intro k hk hn s L h fuel hfuel
    rcases hc : na[k]? with _ | colk
    · have hlen : na.length ≤ k := by simpa using hc
      have hL : L = [] := (gInv_length hwf h).1 hc
      subst hL
      refine ⟨s, by cases fuel <;> rfl, ?_⟩
      intro col hcol v hv
      obtain ⟨i, hi⟩ := List.getElem?_of_mem hcol
      have := (List.getElem?_eq_some_iff.1 hi).1
      exact h.final i (by omega) col hi v hv
    · have hlen := (gInv_length hwf h).2 colk hc
      have hklt := (List.getElem?_eq_some_iff.1 hc).1
      have hdrop : na.drop k = colk :: na.drop (k + 1) := by
        rw [List.drop_eq_getElem_cons hklt]
        congr 1
        exact (List.getElem?_eq_some_iff.1 hc).2
      rw [hdrop, List.map_cons, List.sum_cons] at hfuel
      obtain ⟨f', rfl⟩ : ∃ f', fuel = f' + L.length := ⟨fuel - L.length, by omega⟩
      have hp := bfsLoop_prefix (cost := cost) (layerNbs na ok) L f' s []
      rw [List.append_nil] at hp
      rw [hp]
      rcases hc1 : na[k + 1]? with _ | col1
      · -- no next column: expanding does nothing
        have hnil : ∀ u ∈ L, layerNbs na ok u = [] := by
          intro u hu
          have := ((h.que u).1 hu).1
          simp [layerNbs, this, hc1]
        have hid : ∀ (L' : List (Nd α)), (∀ u ∈ L', layerNbs na ok u = []) →
            ∀ x : Store C α × List (Nd α),
            L'.foldl (fun s u => expand cost fifoPush (layerNbs na ok) u s) x = x := by
          intro L'
          induction L' with
          | nil => intro _ x; rfl
          | cons u L' ih' =>
            intro hu x
            rw [List.foldl_cons, ih' (fun v hv => hu v (List.mem_cons_of_mem _ hv))]
            simp [expand, hu u (by simp)]
        rw [hid L hnil]
        refine ⟨s, by cases f' <;> rfl, ?_⟩
        have hlen1 : na.length ≤ k + 1 := by simpa using hc1
        intro col hcol v hv
        obtain ⟨i, hi⟩ := List.getElem?_of_mem hcol
        have := (List.getElem?_eq_some_iff.1 hi).1
        exact h.final i (by omega) col hi v hv
      · have hg := gInv_step hwf hk h hc1
        exact ih (k + 1) (by omega) (by omega) _ _ hg f' (by omega)

end

/-- Effect of the set-up of the start nodes. -/
theorem startCol_spec (push : Store C α → Q → Nd α → Q) (col : List (Nd α)) (s : Store C α × Q)
    (hnd : (col.map Nd.key).Nodup) :
    (∀ n ∈ col, (startCol push col s).1.at n = ⟨0, .dummy, true⟩) ∧
    (∀ i j, (i, j) ∉ col.map Nd.key → (startCol push col s).1 i j = s.1 i j) := by
  induction col generalizing s with
  | nil => simp [startCol]
  | cons m col ih =>
    simp only [List.map_cons, List.nodup_cons] at hnd
    obtain ⟨h1, h2⟩ := ih (s.1.upd m ⟨0, .dummy, true⟩, push (s.1.upd m ⟨0, .dummy, true⟩) s.2 m) hnd.2
    constructor
    · intro n hn
      rcases List.mem_cons.1 hn with rfl | hn
      · have := h2 n.pi n.pos hnd.1
        show (startCol push (n :: col) s).1 n.pi n.pos = _
        unfold startCol at this ⊢
        rw [List.foldl_cons, this]
        exact upd_at_self ..
      · exact h1 n hn
    · intro i j hij
      simp only [List.map_cons, List.mem_cons, not_or] at hij
      have := h2 i j hij.2
      unfold startCol at this ⊢
      rw [List.foldl_cons, this]
      exact upd_other _ _ _ _ _ hij.1

theorem startCol_fifo (col : List (Nd α)) (s : Store C α × List (Nd α)) :
    (startCol fifoPush col s).2 = s.2 ++ col := by
  induction col generalizing s with
  | nil => simp [startCol]
  | cons m col ih =>
    unfold startCol at ih ⊢
    rw [List.foldl_cons, ih]
    simp [fifoPush]

/-- Breadth-first search from fresh nodes. -/
theorem bfs_final {na : List (List (Nd α))} {ok : Nd α → Nd α → Bool} {cost : Nd α → Nd α → C}
    {k0 : Nat} {p0 : Par α} (hwf : WFna na) {col0 : List (Nd α)} (hc0 : na[k0]? = some col0)
    (s : Store C α) (hfresh : ∀ col ∈ na, ∀ v ∈ col, FreshAt p0 s v) (fuel : Nat)
    (hfuel : ((na.drop k0).map List.length).sum ≤ fuel) :
    ∃ s', bfsLoop cost (layerNbs na ok) fuel (startCol fifoPush col0 (s, [])) = some s' ∧
      ∀ col ∈ na, ∀ v ∈ col, Final na ok cost k0 p0 s' v := by
  obtain ⟨h1, h2⟩ := startCol_spec fifoPush col0 (s, []) (hwf.nodup_keys hc0)
  have hq := startCol_fifo col0 (s, [])
  simp only [List.nil_append] at hq
  have hother : ∀ i, i ≠ k0 → ∀ j, (startCol fifoPush col0 (s, [])).1 i j = s i j := by
    intro i hi j
    apply h2
    intro hm
    obtain ⟨n, hn, hk⟩ := List.mem_map.1 hm
    have := hwf.pi_of_mem hc0 hn
    have h3 : n.pi = i := congrArg Prod.fst hk
    omega
  have hg : GInv na ok cost k0 p0 k0 (startCol fifoPush col0 (s, [])).1
      (startCol fifoPush col0 (s, [])).2 := by
    refine ⟨?_, ?_, ?_, ?_⟩
    · intro i hi col hc v hv
      have hvpi := hwf.pi_of_mem hc hv
      by_cases hik : i = k0
      · subst hik
        have : col = col0 := by rw [hc] at hc0; exact Option.some.inj hc0
        subst this
        have e := h1 v hv
        refine ⟨?_, ?_, ?_⟩
        · rw [e]
          exact ⟨fun _ => ⟨0, [v], .start hc hv⟩, fun _ => rfl⟩
        · intro c p hw
          rw [e]
          cases hw with
          | start _ _ => exact le_rfl
          | @step u _ _ _ _ hw hc' hv' _ =>
            have h3 := hwf.pi_of_mem hc' hv'
            have h4 := (hw.pi_eq hwf)
            omega
        · right
          rw [e]
          exact ⟨zero_lt_top, [v], .start hc hv, .start (by rw [e])⟩
      · have hlt : i < k0 := by omega
        have e : (startCol fifoPush col0 (s, [])).1.at v = s.at v := hother _ (by omega) _
        have hf := hfresh col (List.mem_of_getElem? hc) v hv
        have hnw : ∀ c p, ¬ Walk na ok cost k0 v c p := by
          intro c p hw
          have := hw.pi_eq hwf
          omega
        refine ⟨?_, ?_, ?_⟩
        · rw [e, hf.2.2]
          simp [hnw]
        · intro c p hw; exact absurd hw (hnw c p)
        · rw [e]; exact Or.inl ⟨hf.1, hf.2.1⟩
    · intro i hi col hc v hv
      have hvpi := hwf.pi_of_mem hc hv
      have e : (startCol fifoPush col0 (s, [])).1.at v = s.at v := hother _ (by omega) _
      unfold FreshAt
      rw [e]
      exact hfresh col (List.mem_of_getElem? hc) v hv
    · intro v
      rw [hq]
      constructor
      · intro hv
        exact ⟨hwf.pi_of_mem hc0 hv, 0, [v], .start hc0 hv⟩
      · rintro ⟨hpi, c, p, hw⟩
        obtain ⟨col, hc, hv⟩ := hw.mem_col hwf
        rw [hpi, hc0] at hc
        cases hc
        exact hv
    · rw [hq]; exact hwf.nodup hc0
  exact bfsLoop_final hwf na.length k0 le_rfl (by omega) _ _ hg fuel hfuel

end Verif.Search
