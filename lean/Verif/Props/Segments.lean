import Verif.Props.PyGraph

/-!
# C85, C86: what `get_shortest_path_segments` reports about its segments

C08 is about the samples of the segments; here are the other keys of the result
(pygraph.py:235-257): the costs, `single_path`, `split_points` and the failure result.
-/

set_option linter.unusedSectionVars false

namespace Verif.Props

open Verif.Search Verif.Spec Verif.PyGraph

variable {α C : Type} [CostArith C]

/-- The costs reported for the segments, first segment first. -/
def segmentCosts (r : Res α C) : List C :=
  r.totalCost.toList ++ (r.extraSegments.getD []).map Prod.snd

/-- The columns at which consecutive segments begin, counting from `start`. -/
def startColumns : Nat → List (List α) → List Nat
  | _, [] => []
  | start, p :: ps => start :: startColumns (start + p.length) ps

/-- `p` takes one sample from each of the first `p.length` columns, all steps below the limit, and
no other such choice is cheaper. -/
def CheapestPrefix (cost : α → α → C) (lim : C) (data : List (List α)) (p : List α) : Prop :=
  IsSelection (data.take p.length) p ∧ StepsBelow cost lim p ∧
  ∀ p', IsSelection (data.take p.length) p' → StepsBelow cost lim p' → costL cost p ≤ costL cost p'

/-- What the loop state says about costs and start columns. -/
structure SegRep (cost : α → α → C) (lim : C) (data : List (List α)) (st : SegSt α C) : Prop where
  costs : List.Forall₂ (fun p c => costL cost p = c) st.paths st.costs
  zero : st.paths = [] →
    st.finished = false ∧ st.currentStart = 0 ∧ st.currentData = data ∧ st.starts = []
  first : ∀ p ps, st.paths = p :: ps → CheapestPrefix cost lim data p
  one : ∀ p, st.paths = [p] → (st.finished = true ∧ st.starts = [0] ∧ p.length = data.length) ∨
    (st.finished = false ∧ st.starts = [p.length] ∧ st.currentStart = p.length)
  two : ∀ p q, st.paths = [p, q] → st.finished = true → st.starts = [p.length, p.length]
  pos : st.finished = false → st.paths ≠ [] → 0 < st.currentStart ∧ ∀ s ∈ st.starts, 0 < s
  fin : st.finished = true → 2 ≤ st.paths.length → ∀ s ∈ st.starts, 0 < s
  len : st.starts.length = st.paths.length

theorem segRep_start (cost : α → α → C) (lim : C) (data : List (List α)) :
    SegRep cost lim data ⟨data, 0, false, [], [], []⟩ := by
  constructor <;> simp

theorem segLoop_rep (hno : NoOverflow C) (cost : α → α → C) (lim : C) (data : List (List α))
    (fuel : Nat) (st st' : SegSt α C)
    (hne : (st.currentStart : Int) < (data.length : Int) - 2 → st.currentData ≠ [])
    (hinv : SegRep cost lim data st)
    (h : segLoop cost lim data fuel st = .ok (.inl st')) : SegRep cost lim data st' := by
  induction fuel generalizing st with
  | zero =>
    unfold segLoop at h
    split at h
    · simp at h
    · cases h; exact hinv
  | succ fuel ih =>
    unfold segLoop at h
    split at h
    · rename_i hcond
      have hcd := hne hcond.2
      rcases partial_spec hno cost st.currentData lim hcd with ⟨path, c, h1, h2, h3, h4⟩ |
        ⟨h1, _, _⟩ | ⟨i, path, c, h1, hi1, hi2, h2, h3, h4, h5⟩
      · simp only [h1, bind, Except.bind, key, if_true] at h
        rw [admissible_full hcd] at h2
        simp only [admissible_full hcd] at h4
        have hlen := isSelection_length h2.1
        refine ih _ ?_ ?_ h
        · intro _; exact hcd
        refine ⟨?_, by simp, ?_, ?_, ?_, by simp, ?_, by simp [hinv.len]⟩
        · exact List.rel_append hinv.costs (List.Forall₂.cons h3 List.Forall₂.nil)
        · intro p ps hp
          rcases hps : st.paths with _ | ⟨a, l⟩
          · obtain ⟨_, _, hz, _⟩ := hinv.zero hps
            simp only [hps, List.nil_append, List.cons.injEq] at hp
            obtain ⟨rfl, rfl⟩ := hp
            rw [hz] at h2 h4 hlen
            refine ⟨?_, h2.2, ?_⟩
            · rw [hlen, List.take_length]; exact h2.1
            · intro p' hp' hs'
              rw [hlen, List.take_length] at hp'
              rw [h3]; exact h4 p' ⟨hp', hs'⟩
          · simp only [hps, List.cons_append, List.cons.injEq] at hp
            obtain ⟨rfl, _⟩ := hp
            exact hinv.first _ _ hps
        · intro p hp
          left
          have hnil : st.paths = [] := by
            rcases hps : st.paths with _ | ⟨a, l⟩
            · rfl
            · rw [hps] at hp; simp at hp
          obtain ⟨_, hs0, hz, hst⟩ := hinv.zero hnil
          simp only [hnil, List.nil_append, List.cons.injEq, and_true] at hp
          subst hp
          refine ⟨rfl, by simp [hst, hs0], by rw [hlen, hz]⟩
        · intro p q hpq _
          obtain ⟨p', hp'⟩ : ∃ p', st.paths = [p'] := by
            rcases hps : st.paths with _ | ⟨a, _ | ⟨b, l⟩⟩
            · rw [hps] at hpq; simp at hpq
            · exact ⟨a, rfl⟩
            · rw [hps] at hpq; simp at hpq
          simp only [hp', List.cons_append, List.nil_append, List.cons.injEq, and_true] at hpq
          obtain ⟨rfl, rfl⟩ := hpq
          rcases hinv.one _ hp' with ⟨hf, _⟩ | ⟨_, hsel, hdat⟩
          · rw [hf] at hcond; simp at hcond
          · simp [hsel, hdat]
        · intro _ hl s hs
          have hne' : st.paths ≠ [] := by
            intro h0; rw [h0] at hl; simp at hl
          obtain ⟨g1, g2⟩ := hinv.pos hcond.1 hne'
          rcases List.mem_append.1 hs with hs | hs
          · exact g2 s hs
          · simp at hs; omega
      · simp only [h1, bind, Except.bind] at h
        simp at h
      · simp only [h1, bind, Except.bind, key] at h
        simp only [Bool.false_eq_true, if_false] at h
        have hto : ((i : Int) + 1).toNat = i + 1 := by omega
        rw [hto] at h
        have hlen : path.length = i + 1 := by
          have := isSelection_length h2.1
          rw [this, List.length_take]; omega
        refine ih _ ?_ ?_ h
        · intro hlt hnil
          simp only at hlt hnil
          have := congrArg List.length hnil
          simp at this
          omega
        refine ⟨?_, by simp, ?_, ?_, ?_, ?_, ?_, by simp [hinv.len]⟩
        · exact List.rel_append hinv.costs (List.Forall₂.cons h3 List.Forall₂.nil)
        · intro p ps hp
          rcases hps : st.paths with _ | ⟨a, l⟩
          · obtain ⟨_, _, hz, _⟩ := hinv.zero hps
            simp only [hps, List.nil_append, List.cons.injEq] at hp
            obtain ⟨rfl, rfl⟩ := hp
            rw [hz] at h2 h4
            refine ⟨?_, h2.2, ?_⟩
            · rw [hlen]; exact h2.1
            · intro p' hp' hs'
              rw [hlen] at hp'
              rw [h3]; exact h4 p' ⟨hp', hs'⟩
          · simp only [hps, List.cons_append, List.cons.injEq] at hp
            obtain ⟨rfl, _⟩ := hp
            exact hinv.first _ _ hps
        · intro p hp
          right
          have hnil : st.paths = [] := by
            rcases hps : st.paths with _ | ⟨a, l⟩
            · rfl
            · rw [hps] at hp; simp at hp
          obtain ⟨hf, hs0, hz, hst⟩ := hinv.zero hnil
          simp only [hnil, List.nil_append, List.cons.injEq, and_true] at hp
          subst hp
          exact ⟨hcond.1, by simp [hst, hlen], hlen.symm⟩
        · intro p q _ hf
          simp only at hf
          rw [hcond.1] at hf
          cases hf
        · intro _ _
          refine ⟨by simp, ?_⟩
          intro s hs
          rcases List.mem_append.1 hs with hs | hs
          · rcases hps : st.paths with _ | ⟨a, l⟩
            · rw [(hinv.zero hps).2.2.2] at hs; simp at hs
            · exact (hinv.pos hcond.1 (by rw [hps]; simp)).2 s hs
          · simp at hs; omega
        · intro hf
          simp only at hf
          rw [hcond.1] at hf
          cases hf
    · cases h; exact hinv

/-- The early return of the loop is the "stuck" result of a partial search. -/
theorem segLoop_stuck (hno : NoOverflow C) (cost : α → α → C) (lim : C) (data : List (List α))
    (fuel : Nat) (st : SegSt α C) (r : Res α C)
    (hne : (st.currentStart : Int) < (data.length : Int) - 2 → st.currentData ≠ [])
    (h : segLoop cost lim data fuel st = .ok (.inr r)) :
    r = { success := false, stuck := true } := by
  induction fuel generalizing st with
  | zero => unfold segLoop at h; split at h <;> simp at h
  | succ fuel ih =>
    unfold segLoop at h
    split at h
    · rename_i hcond
      have hcd := hne hcond.2
      rcases partial_spec hno cost st.currentData lim hcd with ⟨path, c, h1, h2, h3, h4⟩ |
        ⟨h1, _, _⟩ | ⟨i, path, c, h1, hi1, hi2, h2, h3, h4, h5⟩
      · simp only [h1, bind, Except.bind, key, if_true] at h
        refine ih _ ?_ h
        intro _; exact hcd
      · simp only [h1, bind, Except.bind] at h
        simp at h
        exact h.symm
      · simp only [h1, bind, Except.bind, key] at h
        simp only [Bool.false_eq_true, if_false] at h
        have hto : ((i : Int) + 1).toNat = i + 1 := by omega
        rw [hto] at h
        refine ih _ ?_ h
        intro hlt hnil
        simp only at hlt hnil
        have := congrArg List.length hnil
        simp at this
        omega
    · cases h

/-- The result, key by key. -/
theorem segments_result (hno : NoOverflow C) (cost : α → α → C) (lim : C)
    (data : List (List α)) (fuel : Nat) (res : Res α C)
    (hres : getShortestPathSegments cost data lim fuel = .ok res) :
    res = { success := false, stuck := true } ∨
    ∃ st : SegSt α C, SegRep cost lim data st ∧ ∃ p ps c cs, st.paths = p :: ps ∧
      st.costs = c :: cs ∧ ps.length = cs.length ∧
      ((st.finished = true ∧ ps = [] ∧
          res = { success := true, path := some p, totalCost := some c,
                  singlePath := some true }) ∨
       (st.finished = true ∧ ps ≠ [] ∧
          res = { success := true, path := some p, totalCost := some c, singlePath := some false,
                  splitPoints := some st.starts, extraSegments := some (ps.zip cs) }) ∨
       (st.finished = false ∧
          res = { success := false, path := some p, splitPoints := some st.starts,
                  totalCost := some c, doNotReachEnd := true })) := by
  have hne0 : ((⟨data, 0, false, [], [], []⟩ : SegSt α C).currentStart : Int)
      < (data.length : Int) - 2 →
      (⟨data, 0, false, [], [], []⟩ : SegSt α C).currentData ≠ [] := by
    intro hlt hnil
    simp only at hlt hnil
    rw [hnil] at hlt
    simp at hlt
  unfold getShortestPathSegments at hres
  simp only [bind, Except.bind] at hres
  split at hres
  · cases hres
  · rename_i v hv
    cases v with
    | inr r =>
      left
      simp only at hres
      cases hres
      exact segLoop_stuck hno cost lim data fuel _ _ hne0 hv
    | inl st =>
      right
      have hrep := segLoop_rep hno cost lim data fuel _ st hne0 (segRep_start cost lim data) hv
      simp only at hres
      refine ⟨st, hrep, ?_⟩
      rcases hp : st.paths with _ | ⟨p, ps⟩
      · simp [hp, pyGet] at hres
      · have hl := hrep.costs.length_eq
        rcases hc : st.costs with _ | ⟨c, cs⟩
        · rw [hp, hc] at hl; simp at hl
        · rw [hp, hc] at hl
          simp only [hp, hc, pyGet, List.getElem?_cons_zero] at hres
          refine ⟨p, ps, c, cs, rfl, rfl, by simpa using hl, ?_⟩
          split at hres
          · rename_i hfin
            split at hres
            · rename_i hone
              exact .inl ⟨hfin, by simpa using hone, (Except.ok.inj hres).symm⟩
            · rename_i hone
              exact .inr (.inl ⟨hfin, by simpa using hone, (Except.ok.inj hres).symm⟩)
          · rename_i hfin
            exact .inr (.inr ⟨by simpa using hfin, (Except.ok.inj hres).symm⟩)

/-- C85. Every result of `get_shortest_path_segments` is one of two kinds.  Either it says "Stuck
after first trajectory point" and holds nothing else; or it holds a first segment that is the
cheapest admissible choice for its columns, every segment comes with exactly its own cost, and
* on success `single_path` is present and says whether there is just one segment, which then covers
  all columns;
* on failure "Path segments do not reach the end" is reported with the first segment only. -/
theorem C85_segment_report (hno : NoOverflow C) (cost : α → α → C) (lim : C)
    (data : List (List α)) (fuel : Nat) (res : Res α C)
    (hres : getShortestPathSegments cost data lim fuel = .ok res) :
    (res.success = false ∧ res.stuck = true ∧ segments res = [] ∧ segmentCosts res = [] ∧
      res.doNotReachEnd = false) ∨
    (res.stuck = false ∧
      (∃ p, res.path = some p ∧ CheapestPrefix cost lim data p ∧
        (res.singlePath = some true → p.length = data.length)) ∧
      segmentCosts res = (segments res).map (costL cost) ∧
      (res.success = true → res.doNotReachEnd = false ∧
        res.singlePath = some (decide ((segments res).length = 1))) ∧
      (res.success = false → res.doNotReachEnd = true ∧ (segments res).length = 1)) := by
  have hmap : ∀ {l : List (List α)} {m : List C},
      List.Forall₂ (fun p c => costL cost p = c) l m → m = l.map (costL cost) := by
    intro l m h
    induction h with
    | nil => rfl
    | cons h _ ih => rw [List.map_cons, h, ih]
  rcases segments_result hno cost lim data fuel res hres with rfl | ⟨st, hrep, p, ps, c, cs, hp, hc,
    hl, ⟨hf, hps, rfl⟩ | ⟨hf, hps, rfl⟩ | ⟨hf, rfl⟩⟩
  · left; exact ⟨rfl, rfl, rfl, rfl, rfl⟩
  · right
    have hcost := hmap hrep.costs
    rw [hp, hc, hps] at hcost
    obtain ⟨hc', -⟩ := List.cons.inj hcost
    refine ⟨rfl, ⟨p, rfl, hrep.first _ _ hp, ?_⟩, ?_, fun _ => ⟨rfl, rfl⟩, by simp⟩
    · intro _
      rw [hps] at hp
      rcases hrep.one p hp with ⟨_, _, h⟩ | ⟨h, _⟩
      · exact h
      · rw [hf] at h; cases h
    · show [c] = [costL cost p]
      rw [hc']
  · right
    have hcost := hmap hrep.costs
    rw [hp, hc] at hcost
    have hseg : ∀ r : Res α C, r = ⟨true, some p, some c, none, false, some false, some st.starts,
        some (ps.zip cs), false⟩ → segments r = p :: ps := by
      rintro r rfl
      show [p] ++ (ps.zip cs).map Prod.fst = _
      rw [List.map_fst_zip (by omega)]
      rfl
    refine ⟨rfl, ⟨p, rfl, hrep.first _ _ hp, by simp⟩, ?_, fun _ => ⟨rfl, ?_⟩, by simp⟩
    · rw [hseg _ rfl]
      show [c] ++ (ps.zip cs).map Prod.snd = _
      rw [List.map_snd_zip (by omega), ← hcost]
      rfl
    · rw [hseg _ rfl]
      have : (p :: ps).length ≠ 1 := by simpa using hps
      rw [decide_eq_false this]
  · right
    have hcost := hmap hrep.costs
    rw [hp, hc] at hcost
    obtain ⟨hc', -⟩ := List.cons.inj hcost
    refine ⟨rfl, ⟨p, rfl, hrep.first _ _ hp, by simp⟩, ?_, by simp, fun _ => ⟨rfl, rfl⟩⟩
    show [c] = [costL cost p]
    rw [hc']

/-- C86 is false, and not only for odd data: whenever a result has two or more segments, the first
entry of `split_points` is not column 0, although the first segment starts there. -/
theorem C86_split_points_refuted (hno : NoOverflow C) (cost : α → α → C) (lim : C)
    (data : List (List α)) (fuel : Nat) (res : Res α C)
    (hres : getShortestPathSegments cost data lim fuel = .ok res) (hs : res.success = true)
    (h2 : 2 ≤ (segments res).length) :
    ∃ sp, res.splitPoints = some sp ∧ sp ≠ startColumns 0 (segments res) := by
  rcases segments_result hno cost lim data fuel res hres with rfl | ⟨st, hrep, p, ps, c, cs, hp, hc,
    hl, ⟨hf, hps, rfl⟩ | ⟨hf, hps, rfl⟩ | ⟨hf, rfl⟩⟩
  · cases hs
  · exact absurd h2 (by show ¬ 2 ≤ [p].length; simp)
  · refine ⟨_, rfl, ?_⟩
    intro h
    have h0 : (0 : Nat) ∈ st.starts := by
      rw [h]; exact List.mem_cons_self
    have hlen : 2 ≤ st.paths.length := by
      rw [hp]
      have : 0 < ps.length := List.length_pos_iff.2 hps
      simp; omega
    exact absurd (hrep.fin hf hlen 0 h0) (by simp)
  · cases hs

/-- C86, the part that holds.  `split_points` is present exactly when the result has more than one
segment or the segments do not reach the end, and with exactly two segments its last entry is the
column at which the second segment starts; the first entry repeats it.  Missing: the start of the
first segment, see `C86_split_points_refuted`; with more segments the numbers are counted from the
wrong column, like the segments themselves (C08). -/
theorem C86_split_points_partial (hno : NoOverflow C) (cost : α → α → C) (lim : C)
    (data : List (List α)) (fuel : Nat) (res : Res α C)
    (hres : getShortestPathSegments cost data lim fuel = .ok res) (hs : res.success = true) :
    (res.splitPoints = none ↔ (segments res).length = 1) ∧
    (∀ sp, res.splitPoints = some sp → sp.length = (segments res).length) ∧
    ((segments res).length = 2 → ∃ s, startColumns 0 (segments res) = [0, s] ∧
      res.splitPoints = some [s, s]) := by
  rcases segments_result hno cost lim data fuel res hres with rfl | ⟨st, hrep, p, ps, c, cs, hp, hc,
    hl, ⟨hf, hps, rfl⟩ | ⟨hf, hps, rfl⟩ | ⟨hf, rfl⟩⟩
  · cases hs
  · exact ⟨⟨fun _ => rfl, fun _ => rfl⟩, by simp, fun h => absurd h (by show ¬ [p].length = 2; simp)⟩
  · have hseg : ∀ r : Res α C, r = ⟨true, some p, some c, none, false, some false, some st.starts,
        some (ps.zip cs), false⟩ → segments r = p :: ps := by
      rintro r rfl
      show [p] ++ (ps.zip cs).map Prod.fst = _
      rw [List.map_fst_zip (by omega)]
      rfl
    rw [hseg _ rfl]
    refine ⟨⟨by simp, ?_⟩, ?_, ?_⟩
    · intro h
      exact absurd (by simpa using h) hps
    · rintro sp hsp
      rw [← Option.some.inj hsp, hrep.len, hp]
    · intro h
      obtain ⟨q, rfl⟩ : ∃ q, ps = [q] := by
        rcases ps with _ | ⟨q, _ | ⟨r, l⟩⟩
        · simp at h
        · exact ⟨q, rfl⟩
        · simp at h
      exact ⟨p.length, by simp [startColumns], congrArg some (hrep.two p q hp hf)⟩
  · cases hs

/-! ## Concrete cases -/

/-- C85, C86: two segments with costs 1 and 1; the second starts at column 2, reported twice. -/
example : (getShortestPathSegments natCost [[0], [1], [9], [9], [8]] 4 5).toOption.map
    (fun r => (r.success, segments r, r.singlePath, r.splitPoints)) =
    some (true, [[0, 1], [9, 9, 8]], some false, some [2, 2]) := by
  decide +kernel

/-- C85: one segment. -/
example : (getShortestPathSegments natCost [[0], [1, 5], [2]] 4 5).toOption.map
    (fun r => (r.success, segments r, r.singlePath, r.splitPoints)) =
    some (true, [[0, 1, 2]], some true, none) := by
  decide +kernel

/-- C85: the segments do not reach the end. -/
example : (getShortestPathSegments natCost [[0], [1], [9]] 4 5).toOption.map
    (fun r => (r.success, segments r, r.doNotReachEnd, r.splitPoints)) =
    some (false, [[0, 1]], true, some [2]) := by
  decide +kernel

end Verif.Props
