import Verif.Model.CppPointers
import Mathlib.Tactic.Linarith
import Mathlib.Data.List.Nodup

/-! # Buffers and addresses: what `push_back`, `init` and a run do to them -/

set_option linter.unusedSectionVars false

namespace Verif.CppPointers

variable {F : Type}

/-- Column `k` of the nodes; an empty vector without a buffer if there is none. -/
def Graph.col (g : Graph F) (k : Nat) : Vec Node := (g.na[k]?).getD ⟨0, 0, []⟩

/-- `push_back` for a list of elements. -/
def pushAll {β : Type} (grow : Nat → Nat) : Vec β → List β → Nat → Vec β × Nat
  | v, [], next => (v, next)
  | v, x :: xs, next => pushAll grow (v.push grow x next).1 xs (v.push grow x next).2

theorem push_items {β : Type} (grow : Nat → Nat) (v : Vec β) (x : β) (next : Nat) :
    (v.push grow x next).1.items = v.items ++ [x] := by
  unfold Vec.push; split <;> rfl

theorem push_next {β : Type} (grow : Nat → Nat) (v : Vec β) (x : β) (next : Nat) :
    next ≤ (v.push grow x next).2 := by
  unfold Vec.push; split <;> simp

theorem push_lt {β : Type} (grow : Nat → Nat) (v : Vec β) (x : β) (next : Nat)
    (h : v.buf < next) : (v.push grow x next).1.buf < (v.push grow x next).2 := by
  unfold Vec.push; split <;> simp [h]

theorem push_buf {β : Type} (grow : Nat → Nat) (v : Vec β) (x : β) (next : Nat) :
    ((v.push grow x next).1.buf = v.buf ∧ (v.push grow x next).1.cap = v.cap ∧
      v.items.length < v.cap) ∨ next ≤ (v.push grow x next).1.buf := by
  unfold Vec.push; split
  · exact Or.inl ⟨rfl, rfl, by assumption⟩
  · exact Or.inr (le_refl _)

theorem pushAll_items {β : Type} (grow : Nat → Nat) (xs : List β) (v : Vec β) (next : Nat) :
    (pushAll grow v xs next).1.items = v.items ++ xs := by
  induction xs generalizing v next with
  | nil => simp [pushAll]
  | cons x xs ih => simp [pushAll, ih, push_items]

theorem pushAll_next {β : Type} (grow : Nat → Nat) (xs : List β) (v : Vec β) (next : Nat) :
    next ≤ (pushAll grow v xs next).2 := by
  induction xs generalizing v next with
  | nil => simp [pushAll]
  | cons x xs ih => exact le_trans (push_next grow v x next) (ih _ _)

theorem pushAll_lt {β : Type} (grow : Nat → Nat) (xs : List β) (v : Vec β) (next : Nat)
    (h : v.buf < next) : (pushAll grow v xs next).1.buf < (pushAll grow v xs next).2 := by
  induction xs generalizing v next with
  | nil => simpa [pushAll] using h
  | cons x xs ih => exact ih _ _ (push_lt grow v x next h)

/-- Either the buffer is the old one, which then had room for all, or it is a new one. -/
theorem pushAll_buf {β : Type} (grow : Nat → Nat) (xs : List β) (v : Vec β) (next : Nat) :
    ((pushAll grow v xs next).1.buf = v.buf ∧ (pushAll grow v xs next).1.cap = v.cap ∧
      (xs = [] ∨ v.items.length + xs.length ≤ v.cap)) ∨
    (next ≤ (pushAll grow v xs next).1.buf) := by
  induction xs generalizing v next with
  | nil => exact Or.inl ⟨rfl, rfl, Or.inl rfl⟩
  | cons x xs ih =>
    rcases ih (v.push grow x next).1 (v.push grow x next).2 with ⟨h1, h2, h3⟩ | h
    · rcases push_buf grow v x next with ⟨b1, b2, b3⟩ | hb
      · refine Or.inl ⟨h1.trans b1, h2.trans b2, Or.inr ?_⟩
        rcases h3 with h3 | h3
        · subst h3
          simp only [List.length_cons, List.length_nil]
          omega
        · rw [push_items, b2] at h3
          simp only [List.length_append, List.length_cons, List.length_nil] at h3 ⊢
          omega
      · exact Or.inr (le_of_le_of_eq hb h1.symm)
    · exact Or.inr (le_trans (push_next grow v x next) h)

/-- With doubling a vector is more than half full. -/
theorem pushAll_half {β : Type} (xs : List β) (v : Vec β) (next : Nat)
    (h : v.cap < 2 * v.items.length ∨ v.cap = 0) :
    (pushAll (fun n => max 1 (2 * n)) v xs next).1.cap <
      2 * (pushAll (fun n => max 1 (2 * n)) v xs next).1.items.length ∨
    (pushAll (fun n => max 1 (2 * n)) v xs next).1.cap = 0 := by
  induction xs generalizing v next with
  | nil => simpa [pushAll] using h
  | cons x xs ih =>
    refine ih _ _ ?_
    unfold Vec.push
    split
    · rename_i hl
      left
      simp only [List.length_append, List.length_cons, List.length_nil]
      omega
    · left
      simp only [List.length_append, List.length_cons, List.length_nil]
      omega

theorem pushNode_foldl (grow : Nat → Nat) (i b : Nat) (js : List Nat) (g : Graph F) (v : Vec Node)
    (hi : g.na[i]? = some v) :
    js.foldl (Graph.pushNode grow i b) g =
      ⟨g.gd, g.na.set i (pushAll grow v (js.map (newNode i b)) g.next).1,
        (pushAll grow v (js.map (newNode i b)) g.next).2⟩ := by
  induction js generalizing g v with
  | nil =>
    have : g.na.set i v = g.na := by
      apply List.ext_getElem?
      intro k
      rw [List.getElem?_set]
      split
      · rename_i h; subst h
        obtain ⟨h1, h2⟩ := List.getElem?_eq_some_iff.1 hi
        simp [h1, h2]
      · rfl
    simp [pushAll, this]
  | cons j js ih =>
    have hlt : i < g.na.length := (List.getElem?_eq_some_iff.1 hi).1
    have hp : Graph.pushNode grow i b g j =
        ⟨g.gd, g.na.set i (v.push grow (newNode i b j) g.next).1,
          (v.push grow (newNode i b j) g.next).2⟩ := by
      unfold Graph.pushNode; rw [hi]
    rw [List.foldl_cons, hp, ih _ (v.push grow (newNode i b j) g.next).1 (by simp [hlt])]
    simp [pushAll, List.set_set]

/-- The nodes that `init` appends to column `k`. -/
def Graph.fresh (g : Graph F) (k : Nat) : List Node :=
  match g.gd[k]? with
  | none => []
  | some w => (List.range w.items.length).map (newNode k w.buf)

theorem pushColumn_gd (grow : Nat → Nat) (g : Graph F) (w : Vec F) (i : Nat)
    (hi : i ≤ g.na.length) : (g.pushColumn grow (w, i)).gd = g.gd ∧
      (g.pushColumn grow (w, i)).na.length = g.na.length + 1 ∧
      g.next ≤ (g.pushColumn grow (w, i)).next ∧
      (∀ k, (g.pushColumn grow (w, i)).col k = if k = i then
        (pushAll grow (g.col i) ((List.range w.items.length).map (newNode i w.buf)) g.next).1
        else g.col k) ∧
      (g.pushColumn grow (w, i)).next =
        (pushAll grow (g.col i) ((List.range w.items.length).map (newNode i w.buf)) g.next).2 := by
  have hcol : (g.na ++ [⟨0, 0, []⟩])[i]? = some (g.col i) := by
    unfold Graph.col
    rcases Nat.lt_or_ge i g.na.length with h | h
    · rw [List.getElem?_append_left h]; simp [h]
    · have : i = g.na.length := le_antisymm hi h
      subst this; simp
  have hf := pushNode_foldl grow i w.buf (List.range w.items.length)
    (⟨g.gd, g.na ++ [⟨0, 0, []⟩], g.next⟩ : Graph F) (g.col i) hcol
  unfold Graph.pushColumn
  simp only
  rw [hf]
  refine ⟨rfl, by simp, pushAll_next _ _ _ _, ?_, rfl⟩
  intro k
  by_cases hk : k = i
  · subst hk
    simp only [if_true]
    unfold Graph.col
    have hl : k < (g.na ++ [(⟨0, 0, []⟩ : Vec Node)]).length := by simp; omega
    simp only [List.getElem?_set_self hl]
    rfl
  · simp only [if_neg hk]
    unfold Graph.col
    simp only [List.getElem?_set_ne (Ne.symm hk)]
    rcases Nat.lt_or_ge k g.na.length with h | h
    · rw [List.getElem?_append_left h]
    · rw [List.getElem?_append_right h, List.getElem?_eq_none h]
      rcases Nat.eq_zero_or_pos (k - g.na.length) with h0 | h0
      · rw [h0]; rfl
      · rw [List.getElem?_eq_none (by simp only [List.length_cons, List.length_nil]; omega)]

/-- `init`, column by column: the new nodes are appended to the column there was. -/
theorem init_from (grow : Nat → Nat) (l : List (Vec F)) (s : Nat) (g : Graph F)
    (hs : s ≤ g.na.length) :
    ((l.zipIdx s).foldl (Graph.pushColumn grow) g).gd = g.gd ∧
    ((l.zipIdx s).foldl (Graph.pushColumn grow) g).na.length = g.na.length + l.length ∧
    g.next ≤ ((l.zipIdx s).foldl (Graph.pushColumn grow) g).next ∧
    (∀ k, (k < s ∨ s + l.length ≤ k) →
      ((l.zipIdx s).foldl (Graph.pushColumn grow) g).col k = g.col k) ∧
    (∃ at' : Nat → Nat, (∀ k, g.next ≤ at' k) ∧
      (∀ k w, l[k]? = some w → ((l.zipIdx s).foldl (Graph.pushColumn grow) g).col (s + k) =
        (pushAll grow (g.col (s + k)) ((List.range w.items.length).map (newNode (s + k) w.buf))
          (at' k)).1 ∧
        (pushAll grow (g.col (s + k)) ((List.range w.items.length).map (newNode (s + k) w.buf))
          (at' k)).2 ≤ ((l.zipIdx s).foldl (Graph.pushColumn grow) g).next) ∧
      (∀ k k' w, k < k' → l[k]? = some w →
        (pushAll grow (g.col (s + k)) ((List.range w.items.length).map (newNode (s + k) w.buf))
          (at' k)).2 ≤ at' k')) := by
  induction l generalizing s g with
  | nil => exact ⟨rfl, rfl, le_refl _, fun _ _ => rfl, fun _ => g.next, fun _ => le_refl _,
      fun k w h => by simp at h, fun k k' w _ h => by simp at h⟩
  | cons w l ih =>
    obtain ⟨p1, p2, p3, p4, p5⟩ := pushColumn_gd grow g w s hs
    obtain ⟨q1, q2, q3, q4, at', q5, q6, q7⟩ := ih (s + 1) (g.pushColumn grow (w, s)) (by omega)
    rw [List.zipIdx_cons, List.foldl_cons]
    refine ⟨q1.trans p1, by rw [q2, p2, List.length_cons]; omega, le_trans p3 q3, ?_, ?_⟩
    · intro k hk
      rw [q4 k (by simp only [List.length_cons] at hk; omega), p4 k, if_neg]
      simp only [List.length_cons] at hk
      omega
    · refine ⟨fun k => match k with | 0 => g.next | k + 1 => at' k, ?_, ?_, ?_⟩
      · intro k
        cases k with
        | zero => exact le_refl _
        | succ k => exact le_trans p3 (q5 k)
      · intro k u hu
        cases k with
        | zero =>
          simp only [List.getElem?_cons_zero, Option.some.injEq] at hu
          subst hu
          simp only [Nat.add_zero]
          rw [q4 s (by omega), p4 s, if_pos rfl]
          exact ⟨rfl, p5 ▸ q3⟩
        | succ k =>
          simp only [List.getElem?_cons_succ] at hu
          have h := q6 k u hu
          have hc : (g.pushColumn grow (w, s)).col (s + 1 + k) = g.col (s + (k + 1)) := by
            rw [p4, if_neg (by omega)]; congr 1; omega
          rw [hc] at h
          have e : s + 1 + k = s + (k + 1) := by omega
          rw [e] at h
          exact h
      · intro k k' u hk hu
        cases k' with
        | zero => omega
        | succ k' =>
          cases k with
          | zero =>
            simp only [List.getElem?_cons_zero, Option.some.injEq] at hu
            subst hu
            simp only [Nat.add_zero]
            exact p5 ▸ q5 k'
          | succ k =>
            simp only [List.getElem?_cons_succ] at hu
            have h := q7 k k' u (by omega) hu
            have hc : (g.pushColumn grow (w, s)).col (s + 1 + k) = g.col (s + (k + 1)) := by
              rw [p4, if_neg (by omega)]; congr 1; omega
            rw [hc] at h
            have e : s + 1 + k = s + (k + 1) := by omega
            rw [e] at h
            exact h

/-- What `init` does: each column gets its new nodes at the end; a column that moves gets a buffer
that was not used before, different columns different ones. -/
theorem init_spec (grow : Nat → Nat) (g : Graph F) :
    (g.init grow).gd = g.gd ∧ (g.init grow).na.length = g.na.length + g.gd.length ∧
    g.next ≤ (g.init grow).next ∧
    ∃ at' : Nat → Nat, (∀ k, g.next ≤ at' k) ∧
      (∀ k, (g.init grow).col k = (pushAll grow (g.col k) (g.fresh k) (at' k)).1) ∧
      (∀ k, (g.fresh k) ≠ [] →
        (pushAll grow (g.col k) (g.fresh k) (at' k)).2 ≤ (g.init grow).next) ∧
      (∀ k k', k < k' → g.fresh k ≠ [] →
        (pushAll grow (g.col k) (g.fresh k) (at' k)).2 ≤ at' k') := by
  obtain ⟨q1, q2, q3, q4, at', q5, q6, q7⟩ := init_from grow g.gd 0 g (Nat.zero_le _)
  have hf : ∀ k w, g.gd[k]? = some w →
      g.fresh k = (List.range w.items.length).map (newNode k w.buf) := by
    intro k w h; unfold Graph.fresh; rw [h]
  have hn : ∀ k, g.gd[k]? = none → g.fresh k = [] := by
    intro k h; unfold Graph.fresh; rw [h]
  refine ⟨q1, q2, q3, at', q5, ?_, ?_, ?_⟩
  · intro k
    rcases hk : g.gd[k]? with _ | w
    · rw [hn k hk]
      have : g.gd.length ≤ k := List.getElem?_eq_none_iff.1 hk
      exact q4 k (Or.inr (by omega))
    · rw [hf k w hk]
      have := (q6 k w hk).1
      rw [Nat.zero_add] at this
      exact this
  · intro k hne
    rcases hk : g.gd[k]? with _ | w
    · exact absurd (hn k hk) hne
    · rw [hf k w hk]
      have := (q6 k w hk).2
      rw [Nat.zero_add] at this
      exact this
  · intro k k' hkk hne
    rcases hk : g.gd[k]? with _ | w
    · exact absurd (hn k hk) hne
    · rw [hf k w hk]
      have := q7 k k' w hkk hk
      rw [Nat.zero_add] at this
      exact this

/-- What holds of the buffers after every history. -/
structure Ok (g : Graph F) : Prop where
  pos : 1 ≤ g.next
  lt : ∀ k, (g.col k).buf < g.next
  zero : ∀ k, (g.col k).buf = 0 → (g.col k).items = [] ∧ (g.col k).cap = 0
  inj : ∀ k l, k ≠ l → (g.col k).buf = (g.col l).buf → (g.col k).buf = 0
  jv : ∀ k, ∀ n ∈ (g.col k).items, n.jv.buf < g.next
  gdlt : ∀ (k : Nat) (w : Vec F), g.gd[k]? = some w → 0 < w.buf ∧ w.buf < g.next
  gdinj : ∀ (k l : Nat) (w w' : Vec F), g.gd[k]? = some w → g.gd[l]? = some w' → w.buf = w'.buf → k = l

theorem ok_new : Ok (Graph.new : Graph F) := by
  constructor <;> simp [Graph.new, Graph.col]

theorem ok_addColumn (g : Graph F) (h : Ok g) (rows : List F) : Ok (g.addColumn rows) := by
  have hc : ∀ k, (g.addColumn rows).col k = g.col k := fun k => rfl
  have hg : ∀ k w, (g.addColumn rows).gd[k]? = some w →
      g.gd[k]? = some w ∨ (k = g.gd.length ∧ w.buf = g.next) := by
    intro k w hk
    change (g.gd ++ [⟨g.next, rows.length, rows⟩])[k]? = some w at hk
    rcases Nat.lt_or_ge k g.gd.length with hl | hl
    · rw [List.getElem?_append_left hl] at hk; exact Or.inl hk
    · rw [List.getElem?_append_right hl] at hk
      rcases Nat.eq_zero_or_pos (k - g.gd.length) with h0 | h0
      · rw [h0] at hk
        simp only [List.getElem?_cons_zero, Option.some.injEq] at hk
        exact Or.inr ⟨by omega, by rw [← hk]⟩
      · rw [List.getElem?_eq_none (by simp only [List.length_cons, List.length_nil]; omega)] at hk
        cases hk
  have hn : (g.addColumn rows).next = g.next + 1 := rfl
  have := h.pos
  refine ⟨by omega, fun k => ?_, h.zero, h.inj, fun k n hm => ?_, fun k w hk => ?_, ?_⟩
  · rw [hc, hn]; have := h.lt k; omega
  · rw [hn]; have := h.jv k n hm; omega
  · rcases hg k w hk with h1 | ⟨_, h1⟩
    · have := h.gdlt k w h1; omega
    · omega
  · intro k l w w' hk hl he
    rcases hg k w hk with h1 | ⟨h1, h1'⟩ <;> rcases hg l w' hl with h2 | ⟨h2, h2'⟩
    · exact h.gdinj k l w w' h1 h2 he
    · have := h.gdlt k w h1; omega
    · have := h.gdlt l w' h2; omega
    · omega

theorem ok_addColumns (data : List (List F)) (g : Graph F) (h : Ok g) :
    Ok (data.foldl Graph.addColumn g) := by
  induction data generalizing g with
  | nil => exact h
  | cons a l ih => exact ih _ (ok_addColumn g h a)

theorem ok_setData (g : Graph F) (h : Ok g) (data : List (List F)) : Ok (g.setData data) := by
  refine ok_addColumns data _ ⟨h.pos, h.lt, h.zero, h.inj, h.jv, ?_, ?_⟩
  · intro k w hk; simp at hk
  · intro k l w w' hk; simp at hk

theorem mapParents_col (g : Graph F) (f : Nat → Nat → Par → Par) (k : Nat) :
    (g.mapParents f).col k = ⟨(g.col k).buf, (g.col k).cap, (g.col k).items.mapIdx fun j n =>
      ⟨n.pathIndex, n.sampleIndex, n.jv, f k j n.parent⟩⟩ := by
  unfold Graph.mapParents Graph.col
  simp only [List.getElem?_mapIdx]
  rcases g.na[k]? with _ | v <;> simp

theorem ok_mapParents (g : Graph F) (h : Ok g) (f : Nat → Nat → Par → Par) :
    Ok (g.mapParents f) := by
  refine ⟨h.pos, fun k => ?_, fun k => ?_, fun k l => ?_, fun k n => ?_, h.gdlt, h.gdinj⟩
  · rw [mapParents_col]; exact h.lt k
  · rw [mapParents_col]
    intro hb
    obtain ⟨h1, h2⟩ := h.zero k hb
    exact ⟨by simp [h1], h2⟩
  · rw [mapParents_col, mapParents_col]; exact h.inj k l
  · rw [mapParents_col]
    intro hm
    obtain ⟨j, hj, rfl⟩ := List.mem_mapIdx.1 hm
    exact h.jv k (g.col k).items[j] (List.getElem_mem hj)

theorem fresh_mem {g : Graph F} {k : Nat} {n : Node} (hm : n ∈ g.fresh k) :
    ∃ w j, g.gd[k]? = some w ∧ j < w.items.length ∧ n = newNode k w.buf j := by
  unfold Graph.fresh at hm
  rcases hk : g.gd[k]? with _ | w
  · rw [hk] at hm; cases hm
  · rw [hk] at hm
    obtain ⟨j, hj, rfl⟩ := List.mem_map.1 hm
    exact ⟨w, j, rfl, List.mem_range.1 hj, rfl⟩

theorem init_items (grow : Nat → Nat) (g : Graph F) (k : Nat) :
    ((g.init grow).col k).items = (g.col k).items ++ g.fresh k := by
  obtain ⟨_, _, _, at', _, h2, _⟩ := init_spec grow g
  rw [h2 k, pushAll_items]

/-- A column keeps its buffer in `init`, if it had room for all the new nodes, or it moves to a
buffer that is new. -/
theorem init_buf (grow : Nat → Nat) (g : Graph F) (k : Nat) :
    (((g.init grow).col k).buf = (g.col k).buf ∧
      (g.fresh k = [] ∨ (g.col k).items.length + (g.fresh k).length ≤ (g.col k).cap)) ∨
    g.next ≤ ((g.init grow).col k).buf := by
  obtain ⟨_, _, _, at', h1, h2, _⟩ := init_spec grow g
  rw [h2 k]
  rcases pushAll_buf grow (g.fresh k) (g.col k) (at' k) with ⟨a, _, b⟩ | a
  · exact Or.inl ⟨a, b⟩
  · exact Or.inr (le_trans (h1 k) a)

theorem ok_init (grow : Nat → Nat) (g : Graph F) (h : Ok g) : Ok (g.init grow) := by
  obtain ⟨i1, i2, i3, at', h1, h2, h3, h4⟩ := init_spec grow g
  have hpos := h.pos
  have hsame : ∀ k, g.fresh k = [] → (g.init grow).col k = g.col k := by
    intro k hk; rw [h2 k, hk]; rfl
  have hnew : ∀ k, g.fresh k ≠ [] → ((g.init grow).col k).buf <
      (pushAll grow (g.col k) (g.fresh k) (at' k)).2 := by
    intro k _
    rw [h2 k]
    exact pushAll_lt _ _ _ _ (lt_of_lt_of_le (h.lt k) (h1 k))
  have hor : ∀ k, ((g.init grow).col k).buf = (g.col k).buf ∨
      (at' k ≤ ((g.init grow).col k).buf ∧ g.fresh k ≠ []) := by
    intro k
    by_cases hf : g.fresh k = []
    · left; rw [hsame k hf]
    · rw [h2 k]
      rcases pushAll_buf grow (g.fresh k) (g.col k) (at' k) with ⟨a, _⟩ | a
      · exact Or.inl a
      · exact Or.inr ⟨a, hf⟩
  have hlt2 : ∀ k l, k < l → ((g.init grow).col k).buf = ((g.init grow).col l).buf →
      ((g.init grow).col k).buf = 0 := by
    intro k l hkl he
    have hk := h.lt k
    have hl := h.lt l
    have ak := h1 k
    have al := h1 l
    rcases hor k with a | ⟨a, fa⟩ <;> rcases hor l with b | ⟨b, fb⟩
    · rw [a]; exact h.inj k l (by omega) (by omega)
    · omega
    · omega
    · have := hnew k fa
      have := h4 k l hkl fa
      omega
  refine ⟨by omega, fun k => ?_, fun k hb => ?_, fun k l hkl he => ?_, fun k n hm => ?_, ?_, ?_⟩
  · by_cases hf : g.fresh k = []
    · rw [hsame k hf]; exact lt_of_lt_of_le (h.lt k) i3
    · exact lt_of_lt_of_le (hnew k hf) (h3 k hf)
  · rcases init_buf grow g k with ⟨a, b⟩ | a
    · obtain ⟨z1, z2⟩ := h.zero k (by omega)
      rcases b with b | b
      · rw [hsame k b]; exact ⟨z1, z2⟩
      · have : (g.fresh k).length = 0 := by omega
        rw [hsame k (List.length_eq_zero_iff.1 this)]; exact ⟨z1, z2⟩
    · omega
  · rcases Nat.lt_or_gt_of_ne hkl with hlt | hlt
    · exact hlt2 k l hlt he
    · rw [he]; exact hlt2 l k hlt he.symm
  · rw [init_items] at hm
    rcases List.mem_append.1 hm with hm | hm
    · exact lt_of_lt_of_le (h.jv k n hm) i3
    · obtain ⟨w, j, hw, _, rfl⟩ := fresh_mem hm
      have := h.gdlt k w hw
      change w.buf < _
      omega
  · rw [i1]; intro k w hk
    have := h.gdlt k w hk
    omega
  · rw [i1]; exact h.gdinj

theorem ok_call (grow : Nat → Nat) (g : Graph F) (h : Ok g) (op : Op F) : Ok (g.call grow op) := by
  cases op with
  | addColumn rows => exact ok_addColumn g h rows
  | setData data => exact ok_setData g h data
  | init => exact ok_init grow g h
  | reset => exact ok_mapParents g h fun _ _ _ => .dummy
  | run choice => exact ok_mapParents g h (g.newParent choice)

theorem history_snoc (grow : Nat → Nat) (ops : List (Op F)) (op : Op F) :
    history grow (ops ++ [op]) = (history grow ops).call grow op := by
  simp [history]

theorem ok_history (grow : Nat → Nat) (ops : List (Op F)) : Ok (history grow ops) := by
  suffices H : ∀ (ops : List (Op F)) (g : Graph F), Ok g → Ok (ops.foldl (Graph.call grow) g) from
    H ops _ ok_new
  intro ops
  induction ops with
  | nil => exact fun g h => h
  | cons op ops ih => exact fun g h => ih _ (ok_call grow g h op)

theorem find_buf {β : Type} (l : List (Vec β)) (k : Nat) (v : Vec β) (hk : l[k]? = some v)
    (hu : ∀ (i : Nat) (w : Vec β), l[i]? = some w → w.buf = v.buf → i = k) :
    (l.find? fun w => decide (w.buf = v.buf)) = some v := by
  rcases hf : l.find? fun w => decide (w.buf = v.buf) with _ | w
  · have := List.find?_eq_none.1 hf v (List.mem_of_getElem? hk)
    simp at this
  · have hw := List.find?_some hf
    simp only [decide_eq_true_eq] at hw
    obtain ⟨i, hi⟩ := List.mem_iff_getElem?.1 (List.mem_of_find?_eq_some hf)
    have := hu i w hi hw
    subst this
    rw [hi] at hk
    rw [hf, hk]

theorem getElem?_of_col {g : Graph F} {k : Nat} (h : (g.col k).items ≠ []) :
    g.na[k]? = some (g.col k) := by
  unfold Graph.col at h ⊢
  rcases hv : g.na[k]? with _ | v
  · rw [hv] at h; simp at h
  · rfl

theorem col_of_getElem? {g : Graph F} {k : Nat} {v : Vec Node} (h : g.na[k]? = some v) :
    g.col k = v := by
  unfold Graph.col; rw [h]; rfl

/-- The address of a node leads to it. -/
theorem deref_col (g : Graph F) (h : Ok g) (k j : Nat) (hj : j < (g.col k).items.length) :
    deref g.na ⟨(g.col k).buf, j⟩ = some ((g.col k).items[j]) := by
  have hne : (g.col k).items ≠ [] := by
    intro h0; rw [h0] at hj; simp at hj
  have hk := getElem?_of_col hne
  unfold deref
  simp only
  rw [find_buf g.na k (g.col k) hk]
  · simp [hj]
  · intro i w hi he
    by_contra hik
    have hi' := col_of_getElem? hi
    have := h.inj k i (Ne.symm hik) (by rw [hi', he])
    exact hne (h.zero k this).1

/-- An address in a buffer that no column has leads nowhere. -/
theorem deref_none (g : Graph F) (p : Ptr) (hp : ∀ k, (g.col k).buf ≠ p.buf) :
    deref g.na p = none := by
  unfold deref
  rw [List.find?_eq_none.2]
  · rfl
  · intro v hv
    obtain ⟨k, hk⟩ := List.mem_iff_getElem?.1 hv
    have := hp k
    rw [col_of_getElem? hk] at this
    simpa using this

theorem deref_gd (g : Graph F) (h : Ok g) (k : Nat) (w : Vec F) (hw : g.gd[k]? = some w) (j : Nat) :
    deref g.gd ⟨w.buf, j⟩ = w.items[j]? := by
  unfold deref
  simp only
  rw [find_buf g.gd k w hw]
  · rfl
  · intro i w' hi he
    exact h.gdinj i k w' w hi hw he

theorem mapM_none {α β : Type} (f : α → Option β) (l : List α) (x : α) (hx : x ∈ l)
    (hf : f x = none) : l.mapM f = none := by
  induction l with
  | nil => cases hx
  | cons y l ih =>
    rw [List.mapM_cons]
    rcases List.mem_cons.1 hx with h | h
    · subst h; rw [hf]; rfl
    · rw [ih h]
      rcases f y with _ | b <;> rfl

theorem mapM_some {α β : Type} (f : α → Option β) (l : List α)
    (hf : ∀ x ∈ l, f x ≠ none) : l.mapM f ≠ none := by
  induction l with
  | nil => simp
  | cons y l ih =>
    rw [List.mapM_cons]
    rcases hy : f y with _ | b
    · exact absurd hy (hf y (by simp))
    · rcases hl : l.mapM f with _ | bs
      · exact absurd hl (ih fun x hx => hf x (by simp [hx]))
      · simp

end Verif.CppPointers
