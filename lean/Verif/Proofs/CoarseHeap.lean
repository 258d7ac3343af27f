import Verif.Proofs.DijkstraOpt

/-!
# libstdc++'s heap with respect to a coarse key

The heap compares distances.  A key `k` that is strictly smaller only where the distance is (`hk`)
puts several distances in one class.  The heap keeps the order of the classes, whatever it does
inside a class.
-/

set_option linter.unusedSectionVars false

namespace Verif.CppGraph

open Verif.Search

variable {C α : Type} [CostArith C]

/-- Every entry is at least its parent. -/
def KHeap (k : Nd α → Nat) (h : List (Nd α)) : Prop :=
  ∀ (i : Nat) (a b : Nd α), 0 < i → h[(i - 1) / 2]? = some a → h[i]? = some b →
    k a ≤ k b

theorem KHeap.root {k : Nd α → Nat} {h : List (Nd α)} (hh : KHeap k h) {x : Nd α}
    (hx : h[0]? = some x) : ∀ y ∈ h, k x ≤ k y := by
  have key : ∀ (n i : Nat) (y : Nd α), i ≤ n → h[i]? = some y → k x ≤ k y := by
    intro n
    induction n with
    | zero =>
      intro i y hi hy
      obtain rfl : i = 0 := by omega
      rw [hx] at hy; cases hy; exact le_refl _
    | succ n ih =>
      intro i y hi hy
      by_cases h0 : i = 0
      · subst h0; rw [hx] at hy; cases hy; exact le_refl _
      · have hl := (List.getElem?_eq_some_iff.1 hy).1
        have hp : h[(i - 1) / 2]? = some (h[(i - 1) / 2]'(by omega)) :=
          List.getElem?_eq_getElem (by omega)
        exact (ih _ _ (by omega) hp).trans (hh i _ y (by omega) hp hy)
  intro y hy
  obtain ⟨i, hi⟩ := List.mem_iff_getElem?.1 hy
  exact key i i y (le_refl _) hi

/-- Sifting up: all relations hold except between the hole and its parent, `v` fits above the
children of the hole, and so does the parent of the hole. -/
theorem siftUp_kheap (s : Store C α) (k : Nd α → Nat)
    (hk : ∀ x y, k x < k y → (s.at x).dist < (s.at y).dist) (v : Nd α) (fuel : Nat) : ∀ (hole : Nat) (h : List (Nd α)),
    hole ≤ fuel → hole < h.length →
    (∀ (i : Nat) (a b : Nd α), 0 < i → i ≠ hole → h[(i - 1) / 2]? = some a → h[i]? = some b →
      k a ≤ k b) →
    (∀ (i : Nat) (b : Nd α), 0 < i → (i - 1) / 2 = hole → h[i]? = some b →
      k v ≤ k b) →
    (∀ (i : Nat) (a b : Nd α), 0 < i → 0 < hole → (i - 1) / 2 = hole →
      h[(hole - 1) / 2]? = some a → h[i]? = some b → k a ≤ k b) →
    KHeap k (siftUp s v fuel hole h) := by
  -- writing `v` into the hole when it fits below the parent
  have fill : ∀ (hole : Nat) (h : List (Nd α)), hole < h.length →
      (∀ (i : Nat) (a b : Nd α), 0 < i → i ≠ hole → h[(i - 1) / 2]? = some a → h[i]? = some b →
        k a ≤ k b) →
      (∀ (i : Nat) (b : Nd α), 0 < i → (i - 1) / 2 = hole → h[i]? = some b →
        k v ≤ k b) →
      (0 < hole → ∀ a, h[(hole - 1) / 2]? = some a → k a ≤ k v) →
      KHeap k (h.set hole v) := by
    intro hole h hl h1 h2 h3 i a b hi ha hb
    rw [List.getElem?_set] at ha hb
    by_cases hih : hole = i
    · subst hih
      rw [if_neg (by omega)] at ha
      rw [if_pos rfl, if_pos hl] at hb
      cases hb
      exact h3 hi a ha
    · rw [if_neg hih] at hb
      by_cases hp : hole = (i - 1) / 2
      · rw [if_pos hp, if_pos hl] at ha
        cases ha
        exact h2 i b hi hp.symm hb
      · rw [if_neg hp] at ha
        exact h1 i a b hi (fun e => hih e.symm) ha hb
  induction fuel with
  | zero =>
    intro hole h hf hl h1 h2 h3
    exact fill hole h hl h1 h2 (by omega)
  | succ fuel ih =>
    intro hole h hf hl h1 h2 h3
    unfold siftUp
    by_cases h0 : hole = 0
    · rw [if_pos h0]
      exact fill hole h hl h1 h2 (by omega)
    · rw [if_neg h0]
      have hp : h[(hole - 1) / 2]? = some (h[(hole - 1) / 2]'(by omega)) :=
        List.getElem?_eq_getElem (by omega)
      generalize h[(hole - 1) / 2]'(by omega) = p at hp
      rw [hp]
      simp only
      by_cases hlt : (s.at v).dist < (s.at p).dist
      · rw [if_pos hlt]
        refine ih ((hole - 1) / 2) (h.set hole p) (by omega) (by rw [List.length_set]; omega) ?_ ?_ ?_
        · intro i a b hi hne ha hb
          rw [List.getElem?_set] at ha hb
          by_cases hih : hole = i
          · subst hih
            rw [if_neg (by omega)] at ha
            rw [if_pos rfl, if_pos hl] at hb
            cases hb
            rw [hp] at ha; cases ha
            exact le_refl _
          · rw [if_neg hih] at hb
            by_cases hpi : hole = (i - 1) / 2
            · rw [if_pos hpi, if_pos hl] at ha
              cases ha
              exact h3 i _ b hi (by omega) hpi.symm hp hb
            · rw [if_neg hpi] at ha
              exact h1 i a b hi (fun e => hih e.symm) ha hb
        · intro i b hi hpi hb
          rw [List.getElem?_set] at hb
          by_cases hih : hole = i
          · subst hih
            rw [if_pos rfl, if_pos hl] at hb
            cases hb
            exact not_lt.1 fun hc => lt_asymm (hk _ _ hc) hlt
          · rw [if_neg hih] at hb
            exact (not_lt.1 fun hc => lt_asymm (hk _ _ hc) hlt).trans (h1 i p b hi (fun e => hih e.symm) (by rw [hpi]; exact hp) hb)
        · intro i a b hi hh hpi ha hb
          rw [List.getElem?_set] at ha hb
          rw [if_neg (by omega)] at ha
          have hap := h1 _ a p hh (by omega) ha hp
          by_cases hih : hole = i
          · subst hih
            rw [if_pos rfl, if_pos hl] at hb
            cases hb
            exact hap
          · rw [if_neg hih] at hb
            exact hap.trans (h1 i p b hi (fun e => hih e.symm) (by rw [hpi]; exact hp) hb)
      · rw [if_neg hlt]
        refine fill hole h hl h1 h2 fun _ a ha => ?_
        rw [hp] at ha; cases ha
        exact not_lt.1 fun hc => hlt (hk _ _ hc)

/-- Adding a node keeps the order. -/
theorem heapPush_kheap (s : Store C α) (k : Nd α → Nat)
    (hk : ∀ x y, k x < k y → (s.at x).dist < (s.at y).dist) (q : List (Nd α)) (v : Nd α) (h : KHeap k q) :
    KHeap k (heapPush s q v) := by
  unfold heapPush
  have hlen : (q ++ [v]).length = q.length + 1 := by simp
  refine siftUp_kheap s k hk v _ _ _ (le_refl _) (by omega) ?_ ?_ ?_
  · intro i a b hi hne ha hb
    have hil := (List.getElem?_eq_some_iff.1 hb).1
    rw [List.getElem?_append_left (by omega)] at ha hb
    exact h i a b hi ha hb
  · intro i b hi hpi hb
    have hil := (List.getElem?_eq_some_iff.1 hb).1
    omega
  · intro i a b hi _ hpi _ hb
    have hil := (List.getElem?_eq_some_iff.1 hb).1
    omega

/-- Moving the hole down keeps the heap order (the hole holds a copy of the entry below), and it
ends at a leaf. -/
theorem siftDown_kheap (s : Store C α) (k : Nd α → Nat)
    (hk : ∀ x y, k x < k y → (s.at x).dist < (s.at y).dist) (fuel : Nat) : ∀ (h : List (Nd α)) (hole : Nat),
    KHeap k h → h.length ≤ fuel + hole → hole < h.length →
    KHeap k (siftDown s fuel h hole).1 ∧
      (siftDown s fuel h hole).2 < (siftDown s fuel h hole).1.length ∧
      (siftDown s fuel h hole).1.length ≤ 2 * (siftDown s fuel h hole).2 + 1 := by
  -- pulling up a child that is not larger than its sibling
  have pull : ∀ (h : List (Nd α)) (hole j : Nat) (c : Nd α), KHeap k h → hole < h.length →
      (j - 1) / 2 = hole → 0 < j → h[j]? = some c →
      (∀ (i : Nat) (b : Nd α), 0 < i → (i - 1) / 2 = hole → h[i]? = some b →
        k c ≤ k b) → KHeap k (h.set hole c) := by
    intro h hole j c hh hl hj hj0 hc hmin i a b hi ha hb
    rw [List.getElem?_set] at ha hb
    by_cases hih : hole = i
    · subst hih
      rw [if_neg (by omega)] at ha
      rw [if_pos rfl, if_pos hl] at hb
      cases hb
      have hx : h[hole]? = some h[hole] := List.getElem?_eq_getElem hl
      exact (hh hole a _ hi ha hx).trans (hh j _ c hj0 (by rw [hj]; exact hx) hc)
    · rw [if_neg hih] at hb
      by_cases hp : hole = (i - 1) / 2
      · rw [if_pos hp, if_pos hl] at ha
        cases ha
        exact hmin i b hi hp.symm hb
      · rw [if_neg hp] at ha
        exact hh i a b hi ha hb
  induction fuel with
  | zero =>
    intro h hole hh hf hl
    omega
  | succ fuel ih =>
    intro h hole hh hf hl
    unfold siftDown
    by_cases h1 : hole < (h.length - 1) / 2
    · rw [if_pos h1]
      have hr : h[2 * hole + 2]? = some (h[2 * hole + 2]'(by omega)) :=
        List.getElem?_eq_getElem (by omega)
      have hle : h[2 * hole + 1]? = some (h[2 * hole + 1]'(by omega)) :=
        List.getElem?_eq_getElem (by omega)
      generalize h[2 * hole + 2]'(by omega) = r at hr
      generalize h[2 * hole + 1]'(by omega) = l at hle
      rw [hr, hle]
      simp only
      have child : ∀ i : Nat, 0 < i → (i - 1) / 2 = hole → i = 2 * hole + 1 ∨ i = 2 * hole + 2 := by
        intro i hi hp; omega
      by_cases hlt : (s.at l).dist < (s.at r).dist
      · rw [if_pos hlt]
        refine ih _ _ (pull h hole (2 * hole + 1) l hh hl (by omega) (by omega) hle ?_)
          (by rw [List.length_set]; omega) (by rw [List.length_set]; omega)
        intro i b hi hp hb
        rcases child i hi hp with rfl | rfl
        · rw [hle] at hb; cases hb; exact le_refl _
        · rw [hr] at hb; cases hb; exact not_lt.1 fun hc => lt_asymm (hk _ _ hc) hlt
      · rw [if_neg hlt]
        refine ih _ _ (pull h hole (2 * hole + 2) r hh hl (by omega) (by omega) hr ?_)
          (by rw [List.length_set]; omega) (by rw [List.length_set]; omega)
        intro i b hi hp hb
        rcases child i hi hp with rfl | rfl
        · rw [hle] at hb; cases hb; exact not_lt.1 fun hc => hlt (hk _ _ hc)
        · rw [hr] at hb; cases hb; exact le_refl _
    · rw [if_neg h1]
      by_cases h2 : h.length % 2 = 0 ∧ hole = (h.length - 2) / 2
      · rw [if_pos h2]
        have hle : h[2 * hole + 1]? = some (h[2 * hole + 1]'(by omega)) :=
          List.getElem?_eq_getElem (by omega)
        generalize h[2 * hole + 1]'(by omega) = l at hle
        rw [hle]
        simp only [List.length_set]
        refine ⟨pull h hole (2 * hole + 1) l hh hl (by omega) (by omega) hle ?_, by omega, by omega⟩
        intro i b hi hp hb
        have hil := (List.getElem?_eq_some_iff.1 hb).1
        obtain rfl : i = 2 * hole + 1 := by omega
        rw [hle] at hb; cases hb; exact le_refl _
      · rw [if_neg h2]
        exact ⟨hh, hl, by simp only; omega⟩

/-- Removing the top keeps the heap order, and the top has the least key. -/
theorem heapPop_kheap (s : Store C α) (k : Nd α → Nat)
    (hk : ∀ x y, k x < k y → (s.at x).dist < (s.at y).dist) (q q' : List (Nd α)) (x : Nd α) (h : KHeap k q)
    (hp : heapPop s q = some (x, q')) :
    (∀ y ∈ q, k x ≤ k y) ∧ KHeap k q' := by
  match q, h, hp with
  | [], _, hp => cases hp
  | [z], h, hp =>
    cases hp
    exact ⟨h.root rfl, by intro i a b _ ha; simp at ha⟩
  | z :: y :: rest, h, hp =>
    simp only [heapPop, Option.some.injEq, Prod.mk.injEq] at hp
    obtain ⟨rfl, rfl⟩ := hp
    refine ⟨h.root rfl, ?_⟩
    have hd : KHeap k (z :: y :: rest).dropLast := by
      intro i a b hi ha hb
      rw [List.getElem?_dropLast] at ha hb
      split at ha <;> split at hb
      · exact h i a b hi ha hb
      all_goals simp at *
    have hlen : (z :: y :: rest).dropLast.length = rest.length + 1 := by simp
    obtain ⟨h1, h2, h3⟩ := siftDown_kheap s k hk (z :: y :: rest).dropLast.length _ 0 hd (by omega)
      (by omega)
    refine siftUp_kheap s k hk _ _ _ _ (le_refl _) h2 ?_ ?_ ?_
    · intro i a b hi _ ha hb
      exact h1 i a b hi ha hb
    · intro i b hi hpi hb
      have hil := (List.getElem?_eq_some_iff.1 hb).1
      omega
    · intro i a b hi _ hpi _ hb
      have hil := (List.getElem?_eq_some_iff.1 hb).1
      omega

/-- Only the keys of the entries matter. -/
theorem KHeap.congr {k k' : Nd α → Nat} {h : List (Nd α)} (hh : KHeap k h)
    (e : ∀ n ∈ h, k' n = k n) : KHeap k' h := by
  intro i a b hi ha hb
  rw [e a (List.mem_of_getElem? ha), e b (List.mem_of_getElem? hb)]
  exact hh i a b hi ha hb

end Verif.CppGraph
