import Verif.Props.Segments

/-!
# C08, C09, C86 exactly: what `get_shortest_path_segments` does

The rounds of the loop are described without the model: a round starts at some column, and when the
path breaks after `i + 1` columns the next round starts at column `i + 1`, counted from the first column
and not from the start of the round (pygraph.py:225-226).
-/

set_option linter.unusedSectionVars false

namespace Verif.Props

open Verif.Search Verif.Spec Verif.PyGraph

variable {α C : Type} [CostArith C]

/-- An admissible path from column `s` to the last column. -/
def Passable (cost : α → α → C) (lim : C) (data : List (List α)) (s : Nat) : Prop :=
  ∃ p, IsSelection (data.drop s) p ∧ StepsBelow cost lim p

/-- No admissible path leads from column `s` to the next one. -/
def StuckAt (cost : α → α → C) (lim : C) (data : List (List α)) (s : Nat) : Prop :=
  ∀ k, 1 ≤ k → s + k < data.length →
    ¬ ∃ p, IsSelection ((data.drop s).take (k + 1)) p ∧ StepsBelow cost lim p

/-- Admissible paths from column `s` get to column `s + i` and no further, at least one step and not to
the end. -/
def BreaksAfter (cost : α → α → C) (lim : C) (data : List (List α)) (s i : Nat) : Prop :=
  1 ≤ i ∧ s + i + 1 < data.length ∧ Furthest cost lim (data.drop s) i

/-- `SegRounds s ps`: some rounds have found the segments `ps` and the next one starts at column `s`. -/
inductive SegRounds (cost : α → α → C) (lim : C) (data : List (List α)) : Nat → List (List α) → Prop
  | start : SegRounds cost lim data 0 []
  | next {s i : Nat} {ps : List (List α)} {p : List α} : SegRounds cost lim data s ps →
      s + 2 < data.length → BreaksAfter cost lim data s i →
      CheapestPrefix cost lim (data.drop s) p → p.length = i + 1 →
      SegRounds cost lim data (i + 1) (ps ++ [p])

theorem furthest_unique {cost : α → α → C} {lim : C} {data : List (List α)} {i j : Nat}
    (hi : Furthest cost lim data i) (hj : Furthest cost lim data j) (h1 : i < data.length)
    (h2 : j < data.length) : i = j := by
  rcases lt_trichotomy i j with h | h | h
  · exact absurd hj.1 (hi.2 j h h2)
  · exact h
  · exact absurd hi.1 (hj.2 i h h1)

theorem breaks_unique {cost : α → α → C} {lim : C} {data : List (List α)} {s i j : Nat}
    (hi : BreaksAfter cost lim data s i) (hj : BreaksAfter cost lim data s j) : i = j :=
  furthest_unique hi.2.2 hj.2.2 (by have := hi.2.1; simp; omega) (by have := hj.2.1; simp; omega)

theorem rounds_init {cost : α → α → C} {lim : C} {data : List (List α)} {s : Nat}
    {ps : List (List α)} {p : List α} (h : SegRounds cost lim data s (ps ++ [p])) :
    ∃ s' i, SegRounds cost lim data s' ps ∧ s' + 2 < data.length ∧ BreaksAfter cost lim data s' i ∧
      CheapestPrefix cost lim (data.drop s') p ∧ p.length = i + 1 ∧ s = i + 1 := by
  generalize hq : ps ++ [p] = q at h
  cases h with
  | start => simp at hq
  | next h1 h2 h3 h4 h5 =>
    obtain ⟨rfl, h⟩ := List.append_inj' hq rfl
    cases h
    exact ⟨_, _, h1, h2, h3, h4, h5, rfl⟩

/-- The start of the next round is determined by the number of rounds. -/
theorem rounds_unique {cost : α → α → C} {lim : C} {data : List (List α)} {s t : Nat}
    {ps qs : List (List α)} (h : SegRounds cost lim data s ps) (h' : SegRounds cost lim data t qs)
    (hl : ps.length = qs.length) : s = t := by
  induction h generalizing t qs with
  | start =>
    have : qs = [] := by simpa using hl.symm
    subst this
    generalize hq : ([] : List (List α)) = q at h'
    cases h' with
    | start => rfl
    | next => simp at hq
  | @next s i ps p h1 h2 h3 h4 h5 ih =>
    rcases List.eq_nil_or_concat qs with rfl | ⟨qs', q, rfl⟩
    · simp at hl
    · rw [List.concat_eq_append] at h' hl
      obtain ⟨t', j, g1, g2, g3, g4, g5, rfl⟩ := rounds_init h'
      have : s = t' := ih g1 (by simpa using hl)
      subst this
      rw [breaks_unique h3 g3]

/-- A longer run of rounds goes through every shorter one. -/
theorem rounds_prefix {cost : α → α → C} {lim : C} {data : List (List α)} {t : Nat}
    {qs : List (List α)} (h : SegRounds cost lim data t qs) (n : Nat) (hn : n < qs.length) :
    ∃ s i, SegRounds cost lim data s (qs.take n) ∧ s + 2 < data.length ∧ BreaksAfter cost lim data s i := by
  induction h with
  | start => simp at hn
  | @next s i ps p h1 h2 h3 h4 h5 ih =>
    by_cases h : n < ps.length
    · obtain ⟨s', j, g1, g2, g3⟩ := ih h
      exact ⟨s', j, by rw [List.take_append_of_le_length (by omega)]; exact g1, g2, g3⟩
    · have : n = ps.length := by simp at hn; omega
      subst this
      exact ⟨s, i, by simpa using h1, h2, h3⟩

/-- The last round has found a way to the end: the segments `ps` of the rounds before, and `p`. -/
def Finished (cost : α → α → C) (lim : C) (data : List (List α)) (s : Nat) (ps : List (List α))
    (p : List α) : Prop := SegRounds cost lim data s ps ∧ s + 2 < data.length ∧
  IsSelection (data.drop s) p ∧ StepsBelow cost lim p ∧
  ∀ p', IsSelection (data.drop s) p' → StepsBelow cost lim p' → costL cost p ≤ costL cost p'

/-- A state of the loop between two rounds. -/
def Between (cost : α → α → C) (lim : C) (data : List (List α)) (st : SegSt α C) : Prop :=
  st.finished = false ∧ SegRounds cost lim data st.currentStart st.paths ∧
  st.currentData = data.drop st.currentStart ∧ st.starts = st.paths.map List.length

/-- One result of the loop for each of the four ways it can go. -/
theorem segLoop_exact (hno : NoOverflow C) (cost : α → α → C) (lim : C) (data : List (List α))
    (fuel : Nat) (st : SegSt α C) (hst : Between cost lim data st) :
    (∃ st', segLoop cost lim data fuel st = .ok (.inl st') ∧ Between cost lim data st' ∧
      data.length ≤ st'.currentStart + 2) ∨
    (∃ st' s ps p, segLoop cost lim data fuel st = .ok (.inl st') ∧ st'.finished = true ∧
      Finished cost lim data s ps p ∧ st'.paths = ps ++ [p] ∧
      st'.starts = ps.map List.length ++ [s]) ∨
    (∃ s ps, segLoop cost lim data fuel st = .ok (.inr { success := false, stuck := true }) ∧
      SegRounds cost lim data s ps ∧ s + 2 < data.length ∧ StuckAt cost lim data s) ∨
    (∃ s ps, segLoop cost lim data fuel st = .error .outOfFuel ∧ SegRounds cost lim data s ps ∧
      s + 2 < data.length ∧ ps.length = st.paths.length + fuel) := by
  induction fuel generalizing st with
  | zero =>
    obtain ⟨h1, h2, h3, h4⟩ := hst
    unfold segLoop
    by_cases hlt : (st.currentStart : Int) < (data.length : Int) - 2
    · right; right; right
      rw [if_pos ⟨h1, hlt⟩]
      exact ⟨_, _, rfl, h2, by omega, rfl⟩
    · left
      rw [if_neg (fun h => hlt h.2)]
      exact ⟨st, rfl, ⟨h1, h2, h3, h4⟩, by omega⟩
  | succ fuel ih =>
    obtain ⟨h1, h2, h3, h4⟩ := hst
    unfold segLoop
    by_cases hlt : (st.currentStart : Int) < (data.length : Int) - 2
    swap
    · left
      rw [if_neg (fun h => hlt h.2)]
      exact ⟨st, rfl, ⟨h1, h2, h3, h4⟩, by omega⟩
    rw [if_pos ⟨h1, hlt⟩]
    have hcd : st.currentData ≠ [] := by
      rw [h3]
      intro h
      rw [List.drop_eq_nil_iff] at h
      omega
    rcases partial_spec hno cost st.currentData lim hcd with ⟨path, c, g1, g2, g3, g4⟩ |
      ⟨g1, g2, g3⟩ | ⟨i, path, c, g1, hi1, hi2, g2, g3, g4, g5⟩
    · right; left
      simp only [g1, bind, Except.bind, key, if_true]
      rw [admissible_full hcd] at g2
      simp only [admissible_full hcd] at g4
      rw [h3] at g2 g4
      have hstop : ∀ st' : SegSt α C, st'.finished = true →
          segLoop cost lim data fuel st' = .ok (.inl st') := by
        intro st' h
        unfold segLoop
        rw [if_neg (by rw [h]; simp)]
      rw [hstop _ rfl]
      exact ⟨_, st.currentStart, st.paths, path, rfl, rfl, ⟨h2, by omega, g2.1, g2.2,
        fun p' a b => by rw [g3]; exact g4 p' ⟨a, b⟩⟩, rfl, by rw [h4]⟩
    · right; right; left
      simp only [g1, bind, Except.bind]
      refine ⟨_, _, rfl, h2, by omega, ?_⟩
      rintro k hk1 hk2 ⟨p, hp⟩
      rw [h3] at g3
      exact g3 k hk1 (by simp; omega) p hp
    · have hto : ((i : Int) + 1).toNat = i + 1 := by omega
      simp only [g1, bind, Except.bind, key, Bool.false_eq_true, if_false, hto]
      rw [h3] at hi2 g2 g4 g5
      rw [List.length_drop] at hi2
      have hlen : path.length = i + 1 := by
        rw [isSelection_length g2.1, List.length_take, List.length_drop]
        omega
      have hb : BreaksAfter cost lim data st.currentStart i := by
        refine ⟨hi1, by omega, ⟨path, g2⟩, ?_⟩
        rintro k hk1 hk2 ⟨p, hp⟩
        exact g5 k hk1 hk2 p hp
      have hc : CheapestPrefix cost lim (data.drop st.currentStart) path := by
        refine ⟨by rw [hlen]; exact g2.1, g2.2, fun p' a b => ?_⟩
        rw [hlen] at a
        rw [g3]
        exact g4 p' ⟨a, b⟩
      have hr := SegRounds.next h2 (by omega) hb hc hlen
      rcases ih { st with currentStart := i + 1, currentData := data.drop (i + 1),
                          paths := st.paths ++ [path], starts := st.starts ++ [i + 1],
                          costs := st.costs ++ [c] }
        ⟨h1, hr, rfl, by simp [h4, hlen]⟩ with h | h | h | ⟨s, ps, e1, e2, e3, e4⟩
      · exact .inl h
      · exact .inr (.inl h)
      · exact .inr (.inr (.inl h))
      · refine .inr (.inr (.inr ⟨s, ps, e1, e2, e3, ?_⟩))
        rw [e4]
        simp
        omega

theorem between_start (cost : α → α → C) (lim : C) (data : List (List α)) :
    Between cost lim data ⟨data, 0, false, [], [], []⟩ :=
  ⟨rfl, SegRounds.start, by simp, rfl⟩

theorem rounds_breaks_not_end {cost : α → α → C} {lim : C} {data : List (List α)} {s i : Nat}
    (h : BreaksAfter cost lim data s i) :
    ¬ Passable cost lim data s ∧ ¬ StuckAt cost lim data s := by
  obtain ⟨h1, h2, h3, h4⟩ := h
  constructor
  · rintro ⟨p, hp, hs⟩
    refine h4 (data.length - s - 1) (by omega) (by simp; omega) ⟨p, ?_, hs⟩
    rw [List.take_of_length_le (by simp; omega)]
    exact hp
  · intro h
    exact h i h1 (by omega) h3

/-- How a call with at least three columns can go, for every amount of fuel. -/
theorem segments_cases (hno : NoOverflow C) (cost : α → α → C) (lim : C) (data : List (List α))
    (h3 : 3 ≤ data.length) (fuel : Nat) :
    (∃ res s ps, getShortestPathSegments cost data lim fuel = .ok res ∧ res.success = false ∧
      res.doNotReachEnd = true ∧ SegRounds cost lim data s ps ∧ data.length ≤ s + 2 ∧
      res.splitPoints = some (ps.map List.length)) ∨
    (∃ res s ps p, getShortestPathSegments cost data lim fuel = .ok res ∧ res.success = true ∧
      Finished cost lim data s ps p ∧ segments res = ps ++ [p] ∧
      (ps ≠ [] → res.splitPoints = some (ps.map List.length ++ [s]))) ∨
    (∃ res s ps, getShortestPathSegments cost data lim fuel = .ok res ∧ res.success = false ∧
      res.stuck = true ∧ SegRounds cost lim data s ps ∧ s + 2 < data.length ∧
      StuckAt cost lim data s) ∨
    (∃ s ps, getShortestPathSegments cost data lim fuel = .error .outOfFuel ∧
      SegRounds cost lim data s ps ∧ s + 2 < data.length ∧ ps.length = fuel) := by
  have hne0 : ((⟨data, 0, false, [], [], []⟩ : SegSt α C).currentStart : Int)
      < (data.length : Int) - 2 →
      (⟨data, 0, false, [], [], []⟩ : SegSt α C).currentData ≠ [] := by
    intro hlt hnil
    simp only at hlt hnil
    rw [hnil] at hlt
    simp at hlt
  have hL := segLoop_exact hno cost lim data fuel _ (between_start cost lim data)
  unfold getShortestPathSegments
  rcases hL with ⟨st, e, hb, hs⟩ | ⟨st, s, ps, p, e, hf, hfin, hp, hst⟩ | ⟨s, ps, e, h⟩ |
    ⟨s, ps, e, h1, h2, hl⟩
  · left
    have hrep := segLoop_rep hno cost lim data fuel _ st hne0 (segRep_start cost lim data) e
    obtain ⟨b1, b2, b3, b4⟩ := hb
    have hl := hrep.costs.length_eq
    rcases hp : st.paths with _ | ⟨q, qs⟩
    · have := (hrep.zero hp).2.1
      omega
    · rcases hc : st.costs with _ | ⟨c, cs⟩
      · rw [hp, hc] at hl; simp at hl
      · simp only [e, hp, hc, pyGet, List.getElem?_cons_zero, bind, Except.bind, b1,
          Bool.false_eq_true, if_false]
        exact ⟨_, st.currentStart, st.paths, rfl, rfl, rfl, b2, hs, by rw [b4]⟩
  · right; left
    have hrep := segLoop_rep hno cost lim data fuel _ st hne0 (segRep_start cost lim data) e
    have hl := hrep.costs.length_eq
    rcases hq : st.paths with _ | ⟨q, qs⟩
    · rw [hq] at hp; simp at hp
    · rcases hc : st.costs with _ | ⟨c, cs⟩
      · rw [hq, hc] at hl; simp at hl
      · rw [hq, hc] at hl
        simp only [e, hq, hc, pyGet, List.getElem?_cons_zero, bind, Except.bind, hf, if_true]
        by_cases hone : (q :: qs).length = 1
        · rw [if_pos hone]
          have hqs : qs = [] := by simpa using hone
          subst hqs
          have : ps = [] ∧ q = p := by
            rw [hq] at hp
            rcases ps with _ | ⟨a, l⟩
            · simpa using hp
            · simp at hp
          obtain ⟨rfl, rfl⟩ := this
          exact ⟨_, s, [], q, rfl, rfl, hfin, rfl, fun h => absurd rfl h⟩
        · rw [if_neg hone]
          refine ⟨_, s, ps, p, rfl, rfl, hfin, ?_, fun _ => by rw [hst]⟩
          show [q] ++ ((((q :: qs).zip (c :: cs)).drop 1)).map Prod.fst = _
          rw [← hp, hq]
          show [q] ++ (qs.zip cs).map Prod.fst = _
          rw [List.map_fst_zip (by simp at hl; omega)]
          rfl
  · right; right; left
    rw [e]
    exact ⟨_, s, ps, rfl, rfl, rfl, h⟩
  · right; right; right
    rw [e]
    exact ⟨s, ps, rfl, h1, h2, by simpa using hl⟩

/-- **C09** exactly.  With at least three columns the call returns iff some number of rounds leads to a
column with at most two columns from it, or from which there is a way to the end, or from which there is
no way to the next one.  Otherwise it never ends. -/
theorem C09_exact (hno : NoOverflow C) (cost : α → α → C) (lim : C) (data : List (List α))
    (h3 : 3 ≤ data.length) :
    ((∃ fuel res, getShortestPathSegments cost data lim fuel = .ok res) ↔
      ∃ s ps, SegRounds cost lim data s ps ∧
        (data.length ≤ s + 2 ∨ Passable cost lim data s ∨ StuckAt cost lim data s)) ∧
    ((¬ ∃ fuel res, getShortestPathSegments cost data lim fuel = .ok res) →
      ∀ fuel, getShortestPathSegments cost data lim fuel = .error .outOfFuel) := by
  refine ⟨⟨?_, ?_⟩, ?_⟩
  · rintro ⟨fuel, res, h⟩
    rcases segments_cases hno cost lim data h3 fuel with ⟨_, s, ps, _, _, _, h1, h2, _⟩ |
      ⟨_, s, ps, p, _, _, h1, _⟩ | ⟨_, s, ps, _, _, _, h1, _, h2⟩ | ⟨s, ps, e, _⟩
    · exact ⟨s, ps, h1, .inl h2⟩
    · exact ⟨s, ps, h1.1, .inr (.inl ⟨p, h1.2.2.1, h1.2.2.2.1⟩)⟩
    · exact ⟨s, ps, h1, .inr (.inr h2)⟩
    · rw [h] at e
      cases e
  · rintro ⟨s, ps, h1, h2⟩
    refine ⟨ps.length + 1, ?_⟩
    rcases segments_cases hno cost lim data h3 (ps.length + 1) with ⟨res, _, _, e, _⟩ |
      ⟨res, _, _, _, e, _⟩ | ⟨res, _, _, e, _⟩ | ⟨t, qs, e, g1, g2, g3⟩
    · exact ⟨res, e⟩
    · exact ⟨res, e⟩
    · exact ⟨res, e⟩
    · exfalso
      obtain ⟨s', i, a1, a2, a3⟩ := rounds_prefix g1 ps.length (by omega)
      have : s = s' := rounds_unique h1 a1 (by simp; omega)
      subst this
      obtain ⟨n1, n2⟩ := rounds_breaks_not_end a3
      rcases h2 with h | h | h
      · omega
      · exact n1 h
      · exact n2 h
  · intro hno' fuel
    rcases segments_cases hno cost lim data h3 fuel with ⟨res, _, _, e, _⟩ |
      ⟨res, _, _, _, e, _⟩ | ⟨res, _, _, e, _⟩ | ⟨t, qs, e, _⟩
    · exact absurd ⟨fuel, res, e⟩ hno'
    · exact absurd ⟨fuel, res, e⟩ hno'
    · exact absurd ⟨fuel, res, e⟩ hno'
    · exact e

theorem rounds_last {cost : α → α → C} {lim : C} {data : List (List α)} {s : Nat}
    {ps : List (List α)} (h : SegRounds cost lim data s ps) :
    s = ((ps.map List.length).getLast?).getD 0 := by
  cases h with
  | start => rfl
  | next _ _ _ _ h5 => simp [h5]

theorem rounds_pos {cost : α → α → C} {lim : C} {data : List (List α)} {s : Nat}
    {ps : List (List α)} (h : SegRounds cost lim data s ps) : ∀ p ∈ ps, 2 ≤ p.length := by
  induction h with
  | start => simp
  | next _ _ h3 _ h5 ih =>
    intro p hp
    rcases List.mem_append.1 hp with hp | hp
    · exact ih p hp
    · rw [List.mem_singleton.1 hp, h5]
      have := h3.1
      omega

/-- **C08** exactly.  On success the segments were found in rounds, each a cheapest one for the columns
from the start of its round, and together they are one sample for every column iff there are at most two
of them. -/
theorem C08_exact (hno : NoOverflow C) (cost : α → α → C) (lim : C) (data : List (List α))
    (fuel : Nat) (res : Res α C)
    (hres : getShortestPathSegments cost data lim fuel = .ok res) (hs : res.success = true) :
    (∃ s ps p, Finished cost lim data s ps p ∧ segments res = ps ++ [p]) ∧
    (IsSelection data (segments res).flatten ↔ (segments res).length ≤ 2) := by
  have h3 : 3 ≤ data.length := by
    by_contra h
    have := (C09_segments_total_refuted (α := α) (C := C)).1 cost lim data fuel (by omega)
    rw [hres] at this
    cases this
  rcases segments_cases hno cost lim data h3 fuel with ⟨r, _, _, e, e1, _⟩ |
      ⟨r, s, ps, p, e, _, h1, h2, _⟩ | ⟨r, _, _, e, e1, _⟩ | ⟨s, ps, e, _⟩
  · rw [hres] at e; cases e; rw [hs] at e1; cases e1
  · rw [hres] at e
    cases e
    refine ⟨⟨s, ps, p, h1, h2⟩, fun hsel => ?_,
      (C08_segments_tile_partial hno cost lim data fuel res hres hs).2⟩
    by_contra hlen
    have hl := isSelection_length hsel
    have hpl : p.length = data.length - s := by
      rw [isSelection_length h1.2.2.1, List.length_drop]
    rw [h2] at hl hlen
    have hlast := rounds_last h1.1
    have hpos := rounds_pos h1.1
    rcases List.eq_nil_or_concat ps with rfl | ⟨qs, q, rfl⟩
    · simp at hlen
    · rcases List.eq_nil_or_concat qs with rfl | ⟨rs, r, rfl⟩
      · simp at hlen
      · simp at hlast hl
        have := hpos r (by simp)
        have := h1.2.1
        omega
  · rw [hres] at e; cases e; rw [hs] at e1; cases e1
  · rw [hres] at e; cases e

/-- **C86** exactly.  With two or more segments `split_points` holds the lengths of all segments but
the last, and then the length of the last but one again. -/
theorem C86_exact (hno : NoOverflow C) (cost : α → α → C) (lim : C) (data : List (List α))
    (fuel : Nat) (res : Res α C)
    (hres : getShortestPathSegments cost data lim fuel = .ok res) (hs : res.success = true)
    (h2 : 2 ≤ (segments res).length) :
    ∃ ps p q, segments res = ps ++ [p, q] ∧
      res.splitPoints = some (ps.map List.length ++ [p.length, p.length]) := by
  have h3 : 3 ≤ data.length := by
    by_contra h
    have := (C09_segments_total_refuted (α := α) (C := C)).1 cost lim data fuel (by omega)
    rw [hres] at this
    cases this
  rcases segments_cases hno cost lim data h3 fuel with ⟨r, _, _, e, e1, _⟩ |
      ⟨r, s, ps, p, e, _, h1, hseg, hsp⟩ | ⟨r, _, _, e, e1, _⟩ | ⟨s, ps, e, _⟩
  · rw [hres] at e; cases e; rw [hs] at e1; cases e1
  · rw [hres] at e
    cases e
    rcases List.eq_nil_or_concat ps with rfl | ⟨qs, q, rfl⟩
    · rw [hseg] at h2; simp at h2
    · refine ⟨qs, q, p, by simpa using hseg, ?_⟩
      rw [hsp (by simp), rounds_last h1.1]
      simp
  · rw [hres] at e; cases e; rw [hs] at e1; cases e1
  · rw [hres] at e; cases e

/-! ## Concrete cases -/

/-- C08, C86: three segments that do not tile, with their split points. -/
example : (getShortestPathSegments natCost badSegments 5 10).toOption.map
    (fun r => (r.success, segments r, r.splitPoints)) =
    some (true, [[0, 0], [100, 100, 100], [200, 200, 200, 200]], some [2, 3, 3]) := by
  decide +kernel

/-- C09: on `loopData` no number of rounds leads to an end. -/
example : ¬ ∃ s ps, SegRounds natCost 5 loopData s ps ∧ (loopData.length ≤ s + 2 ∨
    Passable natCost 5 loopData s ∨ StuckAt natCost 5 loopData s) := by
  rw [← (C09_exact noOverflow_nat natCost 5 loopData (by decide)).1]
  rintro ⟨fuel, res, h⟩
  rw [(C09_segments_total_refuted (α := Nat) (C := WithTop Nat)).2 fuel] at h
  cases h

end Verif.Props
