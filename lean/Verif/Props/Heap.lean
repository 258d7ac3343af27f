import Verif.Proofs.DijkstraOpt

/-!
# C93: the heap of libstdc++ pops a node of least distance while the distances do not change

`stdHeap` is the queue of graph.cpp:72.  The store `s` holds the distances; it is the same in all
calls here.  (In the search it is not, see C12.)
-/

set_option linter.unusedSectionVars false

namespace Verif.Props

open Verif.Search Verif.CppGraph

variable {C α : Type} [CostArith C]

/-- Every entry is at least its parent. -/
def IsHeap (s : Store C α) (h : List (Nd α)) : Prop :=
  ∀ (i : Nat) (a b : Nd α), 0 < i → h[(i - 1) / 2]? = some a → h[i]? = some b →
    (s.at a).dist ≤ (s.at b).dist

theorem IsHeap.root {s : Store C α} {h : List (Nd α)} (hh : IsHeap s h) {x : Nd α}
    (hx : h[0]? = some x) : ∀ y ∈ h, (s.at x).dist ≤ (s.at y).dist := by
  have key : ∀ (n i : Nat) (y : Nd α), i ≤ n → h[i]? = some y → (s.at x).dist ≤ (s.at y).dist := by
    intro n
    induction n with
    | zero =>
      intro i y hi hy
      obtain rfl : i = 0 := by omega
      rw [hx] at hy; cases hy; exact le_refl _
    | succ n ih =>
      intro i y hi hy
      by_cases h0 : i = 0
      · subst h0; rw [hx] at hy; cases hy; exact le_refl _
      · have hl := (List.getElem?_eq_some_iff.1 hy).1
        have hp : h[(i - 1) / 2]? = some (h[(i - 1) / 2]'(by omega)) :=
          List.getElem?_eq_getElem (by omega)
        exact (ih _ _ (by omega) hp).trans (hh i _ y (by omega) hp hy)
  intro y hy
  obtain ⟨i, hi⟩ := List.mem_iff_getElem?.1 hy
  exact key i i y (le_refl _) hi

/-- Sifting up: all relations hold except between the hole and its parent, `v` fits above the
children of the hole, and so does the parent of the hole. -/
theorem siftUp_heap (s : Store C α) (v : Nd α) (fuel : Nat) : ∀ (hole : Nat) (h : List (Nd α)),
    hole ≤ fuel → hole < h.length →
    (∀ (i : Nat) (a b : Nd α), 0 < i → i ≠ hole → h[(i - 1) / 2]? = some a → h[i]? = some b →
      (s.at a).dist ≤ (s.at b).dist) →
    (∀ (i : Nat) (b : Nd α), 0 < i → (i - 1) / 2 = hole → h[i]? = some b →
      (s.at v).dist ≤ (s.at b).dist) →
    (∀ (i : Nat) (a b : Nd α), 0 < i → 0 < hole → (i - 1) / 2 = hole →
      h[(hole - 1) / 2]? = some a → h[i]? = some b → (s.at a).dist ≤ (s.at b).dist) →
    IsHeap s (siftUp s v fuel hole h) := by
  -- writing `v` into the hole when it fits below the parent
  have fill : ∀ (hole : Nat) (h : List (Nd α)), hole < h.length →
      (∀ (i : Nat) (a b : Nd α), 0 < i → i ≠ hole → h[(i - 1) / 2]? = some a → h[i]? = some b →
        (s.at a).dist ≤ (s.at b).dist) →
      (∀ (i : Nat) (b : Nd α), 0 < i → (i - 1) / 2 = hole → h[i]? = some b →
        (s.at v).dist ≤ (s.at b).dist) →
      (0 < hole → ∀ a, h[(hole - 1) / 2]? = some a → (s.at a).dist ≤ (s.at v).dist) →
      IsHeap s (h.set hole v) := by
    intro hole h hl h1 h2 h3 i a b hi ha hb
    rw [List.getElem?_set] at ha hb
    by_cases hih : hole = i
    · subst hih
      rw [if_neg (by omega)] at ha
      rw [if_pos rfl, if_pos hl] at hb
      cases hb
      exact h3 hi a ha
    · rw [if_neg hih] at hb
      by_cases hp : hole = (i - 1) / 2
      · rw [if_pos hp, if_pos hl] at ha
        cases ha
        exact h2 i b hi hp.symm hb
      · rw [if_neg hp] at ha
        exact h1 i a b hi (fun e => hih e.symm) ha hb
  induction fuel with
  | zero =>
    intro hole h hf hl h1 h2 h3
    exact fill hole h hl h1 h2 (by omega)
  | succ fuel ih =>
    intro hole h hf hl h1 h2 h3
    unfold siftUp
    by_cases h0 : hole = 0
    · rw [if_pos h0]
      exact fill hole h hl h1 h2 (by omega)
    · rw [if_neg h0]
      have hp : h[(hole - 1) / 2]? = some (h[(hole - 1) / 2]'(by omega)) :=
        List.getElem?_eq_getElem (by omega)
      generalize h[(hole - 1) / 2]'(by omega) = p at hp
      rw [hp]
      simp only
      by_cases hlt : (s.at v).dist < (s.at p).dist
      · rw [if_pos hlt]
        refine ih ((hole - 1) / 2) (h.set hole p) (by omega) (by rw [List.length_set]; omega) ?_ ?_ ?_
        · intro i a b hi hne ha hb
          rw [List.getElem?_set] at ha hb
          by_cases hih : hole = i
          · subst hih
            rw [if_neg (by omega)] at ha
            rw [if_pos rfl, if_pos hl] at hb
            cases hb
            rw [hp] at ha; cases ha
            exact le_refl _
          · rw [if_neg hih] at hb
            by_cases hpi : hole = (i - 1) / 2
            · rw [if_pos hpi, if_pos hl] at ha
              cases ha
              exact h3 i _ b hi (by omega) hpi.symm hp hb
            · rw [if_neg hpi] at ha
              exact h1 i a b hi (fun e => hih e.symm) ha hb
        · intro i b hi hpi hb
          rw [List.getElem?_set] at hb
          by_cases hih : hole = i
          · subst hih
            rw [if_pos rfl, if_pos hl] at hb
            cases hb
            exact hlt.le
          · rw [if_neg hih] at hb
            exact hlt.le.trans (h1 i p b hi (fun e => hih e.symm) (by rw [hpi]; exact hp) hb)
        · intro i a b hi hh hpi ha hb
          rw [List.getElem?_set] at ha hb
          rw [if_neg (by omega)] at ha
          have hap := h1 _ a p hh (by omega) ha hp
          by_cases hih : hole = i
          · subst hih
            rw [if_pos rfl, if_pos hl] at hb
            cases hb
            exact hap
          · rw [if_neg hih] at hb
            exact hap.trans (h1 i p b hi (fun e => hih e.symm) (by rw [hpi]; exact hp) hb)
      · rw [if_neg hlt]
        refine fill hole h hl h1 h2 fun _ a ha => ?_
        rw [hp] at ha; cases ha
        exact not_lt.1 hlt

/-- C93. Adding a node keeps the heap order. -/
theorem heapPush_heap (s : Store C α) (q : List (Nd α)) (v : Nd α) (h : IsHeap s q) :
    IsHeap s (heapPush s q v) := by
  unfold heapPush
  have hlen : (q ++ [v]).length = q.length + 1 := by simp
  refine siftUp_heap s v _ _ _ (le_refl _) (by omega) ?_ ?_ ?_
  · intro i a b hi hne ha hb
    have hil := (List.getElem?_eq_some_iff.1 hb).1
    rw [List.getElem?_append_left (by omega)] at ha hb
    exact h i a b hi ha hb
  · intro i b hi hpi hb
    have hil := (List.getElem?_eq_some_iff.1 hb).1
    omega
  · intro i a b hi _ hpi _ hb
    have hil := (List.getElem?_eq_some_iff.1 hb).1
    omega

/-- Moving the hole down keeps the heap order (the hole holds a copy of the entry below), and it
ends at a leaf. -/
theorem siftDown_heap (s : Store C α) (fuel : Nat) : ∀ (h : List (Nd α)) (hole : Nat),
    IsHeap s h → h.length ≤ fuel + hole → hole < h.length →
    IsHeap s (siftDown s fuel h hole).1 ∧
      (siftDown s fuel h hole).2 < (siftDown s fuel h hole).1.length ∧
      (siftDown s fuel h hole).1.length ≤ 2 * (siftDown s fuel h hole).2 + 1 := by
  -- pulling up a child that is not larger than its sibling
  have pull : ∀ (h : List (Nd α)) (hole j : Nat) (c : Nd α), IsHeap s h → hole < h.length →
      (j - 1) / 2 = hole → 0 < j → h[j]? = some c →
      (∀ (i : Nat) (b : Nd α), 0 < i → (i - 1) / 2 = hole → h[i]? = some b →
        (s.at c).dist ≤ (s.at b).dist) → IsHeap s (h.set hole c) := by
    intro h hole j c hh hl hj hj0 hc hmin i a b hi ha hb
    rw [List.getElem?_set] at ha hb
    by_cases hih : hole = i
    · subst hih
      rw [if_neg (by omega)] at ha
      rw [if_pos rfl, if_pos hl] at hb
      cases hb
      have hx : h[hole]? = some h[hole] := List.getElem?_eq_getElem hl
      exact (hh hole a _ hi ha hx).trans (hh j _ c hj0 (by rw [hj]; exact hx) hc)
    · rw [if_neg hih] at hb
      by_cases hp : hole = (i - 1) / 2
      · rw [if_pos hp, if_pos hl] at ha
        cases ha
        exact hmin i b hi hp.symm hb
      · rw [if_neg hp] at ha
        exact hh i a b hi ha hb
  induction fuel with
  | zero =>
    intro h hole hh hf hl
    omega
  | succ fuel ih =>
    intro h hole hh hf hl
    unfold siftDown
    by_cases h1 : hole < (h.length - 1) / 2
    · rw [if_pos h1]
      have hr : h[2 * hole + 2]? = some (h[2 * hole + 2]'(by omega)) :=
        List.getElem?_eq_getElem (by omega)
      have hle : h[2 * hole + 1]? = some (h[2 * hole + 1]'(by omega)) :=
        List.getElem?_eq_getElem (by omega)
      generalize h[2 * hole + 2]'(by omega) = r at hr
      generalize h[2 * hole + 1]'(by omega) = l at hle
      rw [hr, hle]
      simp only
      have child : ∀ i : Nat, 0 < i → (i - 1) / 2 = hole → i = 2 * hole + 1 ∨ i = 2 * hole + 2 := by
        intro i hi hp; omega
      by_cases hlt : (s.at l).dist < (s.at r).dist
      · rw [if_pos hlt]
        refine ih _ _ (pull h hole (2 * hole + 1) l hh hl (by omega) (by omega) hle ?_)
          (by rw [List.length_set]; omega) (by rw [List.length_set]; omega)
        intro i b hi hp hb
        rcases child i hi hp with rfl | rfl
        · rw [hle] at hb; cases hb; exact le_refl _
        · rw [hr] at hb; cases hb; exact hlt.le
      · rw [if_neg hlt]
        refine ih _ _ (pull h hole (2 * hole + 2) r hh hl (by omega) (by omega) hr ?_)
          (by rw [List.length_set]; omega) (by rw [List.length_set]; omega)
        intro i b hi hp hb
        rcases child i hi hp with rfl | rfl
        · rw [hle] at hb; cases hb; exact not_lt.1 hlt
        · rw [hr] at hb; cases hb; exact le_refl _
    · rw [if_neg h1]
      by_cases h2 : h.length % 2 = 0 ∧ hole = (h.length - 2) / 2
      · rw [if_pos h2]
        have hle : h[2 * hole + 1]? = some (h[2 * hole + 1]'(by omega)) :=
          List.getElem?_eq_getElem (by omega)
        generalize h[2 * hole + 1]'(by omega) = l at hle
        rw [hle]
        simp only [List.length_set]
        refine ⟨pull h hole (2 * hole + 1) l hh hl (by omega) (by omega) hle ?_, by omega, by omega⟩
        intro i b hi hp hb
        have hil := (List.getElem?_eq_some_iff.1 hb).1
        obtain rfl : i = 2 * hole + 1 := by omega
        rw [hle] at hb; cases hb; exact le_refl _
      · rw [if_neg h2]
        exact ⟨hh, hl, by simp only; omega⟩

/-- Removing the top keeps the heap order, and the top is a node of least distance. -/
theorem heapPop_heap (s : Store C α) (q q' : List (Nd α)) (x : Nd α) (h : IsHeap s q)
    (hp : heapPop s q = some (x, q')) :
    (∀ y ∈ q, (s.at x).dist ≤ (s.at y).dist) ∧ IsHeap s q' := by
  match q, h, hp with
  | [], _, hp => cases hp
  | [z], h, hp =>
    cases hp
    exact ⟨h.root rfl, by intro i a b _ ha; simp at ha⟩
  | z :: y :: rest, h, hp =>
    simp only [heapPop, Option.some.injEq, Prod.mk.injEq] at hp
    obtain ⟨rfl, rfl⟩ := hp
    refine ⟨h.root rfl, ?_⟩
    have hd : IsHeap s (z :: y :: rest).dropLast := by
      intro i a b hi ha hb
      rw [List.getElem?_dropLast] at ha hb
      split at ha <;> split at hb
      · exact h i a b hi ha hb
      all_goals simp at *
    have hlen : (z :: y :: rest).dropLast.length = rest.length + 1 := by simp
    obtain ⟨h1, h2, h3⟩ := siftDown_heap s (z :: y :: rest).dropLast.length _ 0 hd (by omega)
      (by omega)
    refine siftUp_heap s _ _ _ _ (le_refl _) h2 ?_ ?_ ?_
    · intro i a b hi _ ha hb
      exact h1 i a b hi ha hb
    · intro i b hi hpi hb
      have hil := (List.getElem?_eq_some_iff.1 hb).1
      omega
    · intro i a b hi _ hpi _ hb
      have hil := (List.getElem?_eq_some_iff.1 hb).1
      omega

/-- One operation on the queue: `some v` pushes `v`, `none` pops (and does nothing if the queue is
empty). -/
def opStep (s : Store C α) (q : List (Nd α)) : Option (Nd α) → List (Nd α)
  | some v => heapPush s q v
  | none => match heapPop s q with
    | some r => r.2
    | none => q

/-- The queue after a sequence of operations. -/
def afterOps (s : Store C α) (ops : List (Option (Nd α))) : List (Nd α) :=
  ops.foldl (opStep s) []

/-- The contents of a queue that is given a list of operations, as a bag: a pop removes a node of
least distance. -/
inductive Holds (s : Store C α) : List (Option (Nd α)) → List (Nd α) → Prop where
  | nil : Holds s [] []
  | push {ops : List (Option (Nd α))} {bag bag' : List (Nd α)} (v : Nd α) : Holds s ops bag →
      bag'.Perm (v :: bag) → Holds s (ops ++ [some v]) bag'
  | popEmpty {ops : List (Option (Nd α))} : Holds s ops [] → Holds s (ops ++ [none]) []
  | pop {ops : List (Option (Nd α))} {bag bag' : List (Nd α)} (x : Nd α) : Holds s ops bag →
      bag.Perm (x :: bag') → (∀ y ∈ bag, (s.at x).dist ≤ (s.at y).dist) → Holds s (ops ++ [none]) bag'

theorem afterOps_heap (s : Store C α) (ops : List (Option (Nd α))) :
    IsHeap s (afterOps s ops) ∧ Holds s ops (afterOps s ops) := by
  induction ops using List.reverseRecOn with
  | nil => exact ⟨by intro i a b _ ha; simp [afterOps] at ha, .nil⟩
  | append_singleton ops op ih =>
    obtain ⟨h1, h2⟩ := ih
    have e : afterOps s (ops ++ [op]) = opStep s (afterOps s ops) op := by
      simp only [afterOps, List.foldl_append, List.foldl_cons, List.foldl_nil]
    rw [e]
    cases op with
    | some v => exact ⟨heapPush_heap s _ v h1, .push v h2 (heapPush_perm s _ v)⟩
    | none =>
      simp only [opStep]
      cases hp : heapPop s (afterOps s ops) with
      | none =>
        have := heapPop_none s _ hp
        refine ⟨h1, ?_⟩
        rw [this] at h2 ⊢
        exact .popEmpty h2
      | some r =>
        obtain ⟨h3, h4⟩ := heapPop_heap s _ r.2 r.1 h1 hp
        exact ⟨h4, .pop r.1 h2 (heapPop_some s _ r.1 r.2 hp) h3⟩

/-- C93. After any sequence of pushes and pops with unchanged distances, the queue of graph.cpp
holds what was pushed and not yet popped, and the next pop returns one of these nodes of least
distance. -/
theorem C93_pops_least (s : Store C α) (ops : List (Option (Nd α))) :
    Holds s ops (afterOps s ops) ∧
    (heapPop s (afterOps s ops) = none ↔ afterOps s ops = []) ∧
    ∀ x q', heapPop s (afterOps s ops) = some (x, q') →
      (afterOps s ops).Perm (x :: q') ∧
      ∀ y ∈ afterOps s ops, (s.at x).dist ≤ (s.at y).dist := by
  obtain ⟨h1, h2⟩ := afterOps_heap s ops
  refine ⟨h2, ⟨heapPop_none s _, ?_⟩, ?_⟩
  · intro h
    rw [h]
    rfl
  · intro x q' h
    exact ⟨heapPop_some s _ x q' h, (heapPop_heap s _ q' x h1 h).1⟩

/-- C93. Pushing any nodes and then popping as often returns all of them, sorted by distance. -/
theorem C93_sorts (s : Store C α) (vs : List (Nd α)) :
    ∃ xs : List (Nd α), xs.Perm vs ∧ xs.Pairwise (fun x y => (s.at x).dist ≤ (s.at y).dist) ∧
      ∀ k < xs.length, ∃ q, heapPop s (afterOps s (vs.map some ++ List.replicate k none)) = some q ∧
        xs[k]? = some q.1 := by
  have key : ∀ (n : Nat) (ops : List (Option (Nd α))), (afterOps s ops).length = n →
      ∃ xs : List (Nd α), xs.Perm (afterOps s ops) ∧
        xs.Pairwise (fun x y => (s.at x).dist ≤ (s.at y).dist) ∧
        ∀ k < xs.length, ∃ q, heapPop s (afterOps s (ops ++ List.replicate k none)) = some q ∧
          xs[k]? = some q.1 := by
    intro n
    induction n with
    | zero =>
      intro ops h
      rw [List.length_eq_zero_iff] at h
      exact ⟨[], by rw [h], .nil, by simp⟩
    | succ n ih =>
      intro ops h
      obtain ⟨-, h1, h2⟩ := C93_pops_least s ops
      cases hp : heapPop s (afterOps s ops) with
      | none => rw [h1.1 hp] at h; simp at h
      | some r =>
        obtain ⟨h3, h4⟩ := h2 r.1 r.2 hp
        have e : afterOps s (ops ++ [none]) = r.2 := by
          simp only [afterOps, List.foldl_append, List.foldl_cons, List.foldl_nil, opStep]
          simp only [afterOps] at hp
          rw [hp]
        have hl : (afterOps s (ops ++ [none])).length = n := by
          have := h3.length_eq
          rw [h, List.length_cons] at this
          rw [e]; omega
        obtain ⟨xs, h5, h6, h7⟩ := ih (ops ++ [none]) hl
        rw [e] at h5
        refine ⟨r.1 :: xs, (h5.cons r.1).trans h3.symm, ?_, ?_⟩
        · refine List.pairwise_cons.2 ⟨fun y hy => h4 y ?_, h6⟩
          exact h3.mem_iff.2 (List.mem_cons_of_mem _ (h5.mem_iff.1 hy))
        · intro k hk
          cases k with
          | zero => exact ⟨r, by simpa using hp, rfl⟩
          | succ k =>
            obtain ⟨q, h8, h9⟩ := h7 k (by simpa using hk)
            refine ⟨q, ?_, by simpa using h9⟩
            rw [List.replicate_succ, ← List.singleton_append, ← List.append_assoc]
            exact h8
  obtain ⟨xs, h1, h2, h3⟩ := key _ (vs.map some) rfl
  refine ⟨xs, h1.trans ?_, h2, h3⟩
  clear h1 h2 h3 key
  induction vs using List.reverseRecOn with
  | nil => exact .refl _
  | append_singleton vs v ih =>
    have e : afterOps s ((vs ++ [v]).map some) = heapPush s (afterOps s (vs.map some)) v := by
      simp only [afterOps, List.map_append, List.map_cons, List.map_nil, List.foldl_append,
        List.foldl_cons, List.foldl_nil, opStep]
    rw [e]
    exact (heapPush_perm s _ v).trans ((ih.cons v).trans (List.perm_append_singleton v vs).symm)

/-- `stdHeap`, the queue of the search, has exactly these operations. -/
example : (stdHeap : PQ C α) = ⟨List (Nd α), [], heapPush, heapPop⟩ := rfl

end Verif.Props
