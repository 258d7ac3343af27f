import Verif.Props.CppQueries

/-!
# C14, what a second `init` does to every later history
-/

set_option linter.unusedSectionVars false

namespace Verif.Props

open Verif.Search Verif.Spec Verif.CppGraph Verif.ShortestPath

variable {F C : Type} [CostArith C] [JointArith F C]

theorem pushColumn_na (g : Graph F C) (i : Nat) (col : List (List F)) :
    (g.pushColumn i col).na.length = g.na.length + 1 ∧
      ∀ c, c ≠ i → (g.pushColumn i col).na[c]? = (g.na ++ [[]])[c]? := by
  unfold Graph.pushColumn
  have key : ∀ (l : List (List F × Nat)) (g : Graph F C),
      (l.foldl (fun g x => g.pushNode i x.2 x.1) g).na.length = g.na.length ∧
      ∀ c, c ≠ i → (l.foldl (fun g x => g.pushNode i x.2 x.1) g).na[c]? = g.na[c]? := by
    intro l
    induction l with
    | nil => intro g; exact ⟨rfl, fun _ _ => rfl⟩
    | cons x l ih =>
      intro g
      obtain ⟨h1, h2⟩ := ih (g.pushNode i x.2 x.1)
      refine ⟨h1.trans (by simp [Graph.pushNode]), fun c hc => (h2 c hc).trans ?_⟩
      simp only [Graph.pushNode, List.getElem?_modify]
      simp [Ne.symm hc]
  obtain ⟨h1, h2⟩ := key col.zipIdx { g with na := g.na ++ [[]] }
  exact ⟨by rw [h1]; simp, h2⟩

theorem pushColumns_na (l : List (List (List F))) (k : Nat) (g : Graph F C) :
    ((l.zipIdx k).foldl (fun g x => g.pushColumn x.2 x.1) g).na.length = g.na.length + l.length ∧
    (∀ c, k + l.length ≤ c → c < g.na.length →
      ((l.zipIdx k).foldl (fun g x => g.pushColumn x.2 x.1) g).na[c]? = g.na[c]?) ∧
    ∀ c, k + l.length ≤ c → g.na.length ≤ c → c < g.na.length + l.length →
      ((l.zipIdx k).foldl (fun g x => g.pushColumn x.2 x.1) g).na[c]? = some [] := by
  induction l generalizing k g with
  | nil => exact ⟨rfl, fun _ _ _ => rfl, fun c _ h1 h2 => by simp at h2; omega⟩
  | cons x l ih =>
    obtain ⟨p1, p2⟩ := pushColumn_na g k x
    obtain ⟨h1, h2, h3⟩ := ih (k + 1) (g.pushColumn k x)
    rw [List.zipIdx_cons, List.foldl_cons]
    refine ⟨by rw [h1, p1, List.length_cons]; omega, ?_, ?_⟩
    · intro c hc hl
      rw [List.length_cons] at hc
      rw [h2 c (by omega) (by omega), p2 c (by omega), List.getElem?_append_left hl]
    · intro c hc hl hu
      rw [List.length_cons] at hc hu
      by_cases he : c = g.na.length
      · rw [h2 c (by omega) (by omega), p2 c (by omega), he]
        simp
      · exact h3 c (by omega) (by omega) (by omega)

theorem dataToNodes_na (g : Graph F C) :
    g.dataToNodes.na.length = g.na.length + g.gd.length ∧
    (g.na ≠ [] → g.gd ≠ [] → g.dataToNodes.na.getLast? = some []) := by
  obtain ⟨h1, -, h3⟩ := pushColumns_na g.gd 0 g
  refine ⟨h1, fun hn hg => ?_⟩
  have a := List.length_pos_iff.2 hn
  have b := List.length_pos_iff.2 hg
  rw [List.getLast?_eq_getElem?]
  change g.dataToNodes.na.length = _ at h1
  rw [h1]
  exact h3 _ (by omega) (by omega) (by omega)

theorem init_na {g g' : Graph F C} (h : g.init = .ok g') :
    g'.na ≠ [] ∧ (g.na ≠ [] → g'.na.getLast? = some []) := by
  obtain ⟨h1, h2⟩ := dataToNodes_na g
  have hgd : g.dataToNodes.gd = g.gd := by
    have push : ∀ (i : Nat) (l : List (List F × Nat)) (g : Graph F C),
        (l.foldl (fun g x => g.pushNode i x.2 x.1) g).gd = g.gd := by
      intro i l
      induction l with
      | nil => intro g; rfl
      | cons x l ih => intro g; exact ih _
    have : ∀ (l : List (List (List F) × Nat)) (g : Graph F C),
        (l.foldl (fun g x => g.pushColumn x.2 x.1) g).gd = g.gd := by
      intro l
      induction l with
      | nil => intro g; rfl
      | cons x l ih => intro g; exact (ih _).trans (push _ _ _)
    exact this _ _
  simp only [Graph.init, bind, Except.bind] at h
  split at h
  · cases h
  · rename_i last hlast
    split at h
    · rename_i jv r rs hg
      cases h
      have hne : g.gd ≠ [] := by rw [← hgd, hg]; simp
      refine ⟨?_, fun hn => h2 hn hne⟩
      intro he
      have hl : g.dataToNodes.na = [] := he
      rw [hl] at hlast
      cases hlast
    · cases h

/-- No search returns normally when the last column has no nodes. -/
theorem run_dead (pq : PQ C (List F)) {g : Graph F C} (h : g.na.getLast? = some []) (g' : Graph F C) :
    g.runBfs ≠ .ok g' ∧ g.runDijkstra pq ≠ .ok g' := by
  have fin : ∀ g1 : Graph F C, g1.na = g.na → g1.pathFound = true →
      g1.finish = .error .nullDeref := by
    intro g1 h1 h2
    unfold Graph.finish Graph.getPathNodes
    rw [if_pos h2, h1, h]
    rfl
  constructor
  · intro hr
    unfold Graph.runBfs at hr
    split at hr
    · cases hr
    · split at hr
      · cases hr
      · split at hr
        · cases hr
        · rename_i s _
          rw [fin { g with store := s, pathFound := true } rfl rfl] at hr
          cases hr
  · intro hr
    unfold Graph.runDijkstra at hr
    split at hr
    · cases hr
    · split at hr
      · cases hr
      · split at hr
        · cases hr
        · rename_i s n _
          rw [fin { g with store := s, numGoals := n, pathFound := true } rfl rfl] at hr
          cases hr

/-- Calls keep a node array from becoming empty, and one with an empty last column stays so; in
that case the call was no search. -/
theorem call_na (pq : PQ C (List F)) {g g' : Graph F C} {op : Op F} {o : Out C}
    (hc : g.call pq op = .ok (g', o)) :
    (op = .init → g'.na ≠ [] ∧ (g.na ≠ [] → g'.na.getLast? = some [])) ∧
    (op ≠ .init → g'.na = g.na) ∧
    (g.na.getLast? = some [] → op ≠ .runBfs ∧ op ≠ .runDijkstra) := by
  have fin : ∀ {g1 g2 : Graph F C}, g1.finish = .ok g2 → g2.na = g1.na := by
    intro g1 g2 h
    unfold Graph.finish at h
    cases hp : g1.getPathNodes with
    | error e => rw [hp] at h; cases h
    | ok p => rw [hp] at h; cases h; rfl
  cases op with
  | addColumn mat nrows ncols =>
    refine ⟨by simp, fun _ => ?_, by simp⟩
    simp only [Graph.call, Graph.addDataColumn, bind, Except.bind] at hc
    split at hc
    · cases hc
    · rename_i v hv
      split at hv
      · cases hv
      · cases hv; cases hc; rfl
  | setWeights w =>
    refine ⟨by simp, fun _ => ?_, by simp⟩
    simp only [Graph.call] at hc; cases hc; rfl
  | init =>
    refine ⟨fun _ => ?_, by simp, by simp⟩
    simp only [Graph.call, bind, Except.bind] at hc
    cases hi : g.init with
    | error e => rw [hi] at hc; cases hc
    | ok g1 => rw [hi] at hc; cases hc; exact init_na hi
  | reset =>
    refine ⟨by simp, fun _ => ?_, by simp⟩
    simp only [Graph.call, Graph.reset, bind, Except.bind] at hc
    split at hc
    · cases hc
    · rename_i v hv
      split at hv
      · cases hv
      · cases hv; cases hc; rfl
  | runBfs =>
    simp only [Graph.call, bind, Except.bind] at hc
    cases hr : g.runBfs with
    | error e => rw [hr] at hc; cases hc
    | ok g1 =>
      rw [hr] at hc
      cases hc
      refine ⟨by simp, fun _ => ?_, fun hd => absurd hr (run_dead pq hd _).1⟩
      unfold Graph.runBfs at hr
      split at hr
      · cases hr
      · split at hr
        · cases hr
        · split at hr
          · cases hr
          · have := fin hr
            exact this
  | runDijkstra =>
    simp only [Graph.call, bind, Except.bind] at hc
    cases hr : g.runDijkstra pq with
    | error e => rw [hr] at hc; cases hc
    | ok g1 =>
      rw [hr] at hc
      cases hc
      refine ⟨by simp, fun _ => ?_, fun hd => absurd hr (run_dead pq hd _).2⟩
      unfold Graph.runDijkstra at hr
      split at hr
      · cases hr
      · split at hr
        · cases hr
        · split at hr
          · cases hr
          · have := fin hr
            exact this
  | getPath n =>
    refine ⟨by simp, fun _ => ?_, by simp⟩
    simp only [Graph.call, bind, Except.bind] at hc
    split at hc
    · cases hc
    · cases hc; rfl
  | getPathCost =>
    refine ⟨by simp, fun _ => ?_, by simp⟩
    simp only [Graph.call] at hc; cases hc; rfl

theorem calls_cons (pq : PQ C (List F)) {g g' : Graph F C} {op : Op F} {ops : List (Op F)}
    {outs : List (Out C)} (h : g.calls pq (op :: ops) = .ok (g', outs)) :
    ∃ g1 o os, g.call pq op = .ok (g1, o) ∧ g1.calls pq ops = .ok (g', os) := by
  simp only [Graph.calls, bind, Except.bind] at h
  cases h1 : g.call pq op with
  | error e => rw [h1] at h; cases h
  | ok r =>
    rw [h1] at h
    cases h2 : r.1.calls pq ops with
    | error e => simp only [h2] at h; cases h
    | ok r2 =>
      simp only [h2] at h
      cases h
      exact ⟨r.1, r.2, r2.2, rfl, h2⟩

theorem calls_alive (pq : PQ C (List F)) (ops : List (Op F)) (g g' : Graph F C)
    (outs : List (Out C)) (h : g.calls pq ops = .ok (g', outs)) (hn : g.na ≠ []) : g'.na ≠ [] := by
  induction ops generalizing g outs with
  | nil => cases h; exact hn
  | cons op ops ih =>
    obtain ⟨g1, o, os, h1, h2⟩ := calls_cons pq h
    obtain ⟨a, b, -⟩ := call_na pq h1
    refine ih g1 os h2 ?_
    by_cases ho : op = .init
    · exact (a ho).1
    · rw [b ho]; exact hn

theorem calls_dead (pq : PQ C (List F)) (ops : List (Op F)) (g g' : Graph F C)
    (outs : List (Out C)) (h : g.calls pq ops = .ok (g', outs)) (hd : g.na.getLast? = some []) :
    ∀ op ∈ ops, op ≠ .runBfs ∧ op ≠ .runDijkstra := by
  induction ops generalizing g outs with
  | nil => simp
  | cons op ops ih =>
    obtain ⟨g1, o, os, h1, h2⟩ := calls_cons pq h
    obtain ⟨a, b, c⟩ := call_na pq h1
    intro op' hop
    rcases List.mem_cons.1 hop with rfl | hop
    · exact c hd
    · refine ih g1 os h2 ?_ op' hop
      by_cases ho : op = .init
      · exact (a ho).2 (by intro he; rw [he] at hd; cases hd)
      · rw [b ho]; exact hd

/-- C14. Once `init` has been called twice, no search on the graph ever returns normally again,
whatever else is called before, in between or afterwards, with any data and weights. -/
theorem C14_second_init (pq : PQ C (List F)) (pre mid post : List (Op F)) (g : Graph F C)
    (outs : List (Out C))
    (h : (Graph.new : Graph F C).calls pq (pre ++ .init :: (mid ++ .init :: post)) = .ok (g, outs)) :
    ∀ op ∈ post, op ≠ .runBfs ∧ op ≠ .runDijkstra := by
  have app : ∀ (a b : List (Op F)) (g0 g1 : Graph F C) (o : List (Out C)),
      g0.calls pq (a ++ b) = .ok (g1, o) → ∃ g2 o1 o2, g0.calls pq a = .ok (g2, o1) ∧
        g2.calls pq b = .ok (g1, o2) := by
    intro a b g0 g1 o h
    rw [calls_append] at h
    simp only [bind, Except.bind] at h
    cases h1 : g0.calls pq a with
    | error e => rw [h1] at h; cases h
    | ok r =>
      rw [h1] at h
      cases h2 : r.1.calls pq b with
      | error e => simp only [h2] at h; cases h
      | ok r2 => simp only [h2] at h; cases h; exact ⟨r.1, r.2, r2.2, rfl, h2⟩
  obtain ⟨g1, -, o2, -, h⟩ := app _ _ _ _ _ h
  obtain ⟨g2, _, o3, hi, h⟩ := calls_cons pq h
  obtain ⟨g3, o4, o5, hm, h⟩ := app _ _ _ _ _ h
  obtain ⟨g4, _, o6, hi2, h⟩ := calls_cons pq h
  have h2 := ((call_na pq hi).1 rfl).1
  have h3 := calls_alive pq _ _ _ _ hm h2
  exact calls_dead pq post g4 g o6 h (((call_na pq hi2).1 rfl).2 h3)

/-- A history with two calls of `init` that returns normally, as it has no search. -/
example : ∃ g outs, (Graph.new : Graph ℚ (WithTop ℚ)).calls stdHeap
    (loadOps 1 twoCols ++ .init :: ([.reset] ++ .init :: [.getPath 2, .getPathCost])) =
      .ok (g, outs) := by
  have h : ((Graph.new : Graph ℚ (WithTop ℚ)).calls stdHeap
    (loadOps 1 twoCols ++ .init :: ([.reset] ++ .init :: [.getPath 2, .getPathCost]))).toOption.isSome =
      true := by decide +kernel
  cases hc : (Graph.new : Graph ℚ (WithTop ℚ)).calls stdHeap
    (loadOps 1 twoCols ++ .init :: ([.reset] ++ .init :: [.getPath 2, .getPathCost])) with
  | error e => rw [hc] at h; cases h
  | ok r => exact ⟨r.1, r.2, rfl⟩

/-- C73: a case of `C73_reset_forgets`. -/
example : ∃ g outs g0 outs0 g2,
    (Graph.new : Graph ℚ (WithTop ℚ)).calls stdHeap (setup none 1 twoCols ++ [.runBfs, .setWeights [3]]) =
      .ok (g, outs) ∧
    (Graph.new : Graph ℚ (WithTop ℚ)).calls stdHeap (setup none 1 twoCols) = .ok (g0, outs0) ∧
      g.reset = .ok g2 ∧ g2.runBfs.map view = (g0.setWeights g.weights).runBfs.map view := by
  obtain ⟨g, outs, h⟩ := (C14_histories_partial noOverflow_rat stdHeap stdHeapLawful twoCols 1
    twoCols_proper none (finite_rat _ _) [.runBfs, .setWeights [3]] (by simp [Later, finite_rat])).1
    (by rfl)
  obtain ⟨g0, outs0, g2, h1, h2, h3, -⟩ := C73_reset_forgets noOverflow_rat stdHeap stdHeapLawful twoCols
    1 twoCols_proper none (finite_rat _ _) _ (by simp [Later, finite_rat]) g outs h
  exact ⟨g, outs, g0, outs0, g2, h, h1, h2, h3⟩

/-- C14: a case of `C14_second_init`. -/
example (pq : PQ (WithTop ℚ) (List ℚ)) (g : Graph ℚ (WithTop ℚ)) (outs : List (Out (WithTop ℚ))) :
    (Graph.new : Graph ℚ (WithTop ℚ)).calls pq
      (loadOps 1 twoCols ++ .init :: ([.runBfs] ++ .init :: [.getPath 2, .runBfs])) ≠ .ok (g, outs) :=
  fun h => (C14_second_init pq _ _ _ g outs h .runBfs (by simp)).1 rfl

/-- C14: a case of `C14_unsearched`. -/
example : ∃ (g : Graph ℚ (WithTop ℚ)) (outs : List (Out (WithTop ℚ))),
    (Graph.new : Graph ℚ (WithTop ℚ)).calls stdHeap (setup none 1 twoCols ++ [.reset]) =
      .ok (g, outs) ∧ g.getPath 3 = .ok (some [-1, -1, -1]) := by
  obtain ⟨g, outs, h⟩ := (C14_histories_partial noOverflow_rat stdHeap stdHeapLawful twoCols 1
    twoCols_proper none (finite_rat _ _) [.reset] (by simp [Later, finite_rat])).1 (by rfl)
  refine ⟨g, outs, h, (C14_unsearched stdHeap _ ?_ g outs h).1 3⟩
  simp [setup, twoCols, loadOps]

/-- C14: a case of `C14_searched`. -/
example : ∃ (g : Graph ℚ (WithTop ℚ)) (outs : List (Out (WithTop ℚ))) (i j : Nat),
    (Graph.new : Graph ℚ (WithTop ℚ)).calls stdHeap
      (setup none 1 twoCols ++ ([.getPath 3, .reset] ++ .runDijkstra :: [.setWeights [5], .getPath 2])) =
      .ok (g, outs) ∧ g.getPath 2 = .ok (some [(i : Int), (j : Int)]) ∧ g.getPath 3 = .ok none := by
  obtain ⟨g, outs, h⟩ := (C14_histories_partial noOverflow_rat stdHeap stdHeapLawful twoCols 1
    twoCols_proper none (finite_rat _ _)
    ([.getPath 3, .reset] ++ .runDijkstra :: [.setWeights [5], .getPath 2])
    (by simp [Later, finite_rat])).1 (by rfl)
  obtain ⟨⟨idx, h1, h2⟩, h3⟩ := C14_searched noOverflow_rat stdHeap stdHeapLawful twoCols 1
    twoCols_proper none (finite_rat _ _) [.getPath 3, .reset] .runDijkstra [.setWeights [5], .getPath 2]
    (Or.inr rfl) (by simp [Later, finite_rat]) (by simp) g outs h
  have hl := h2.length_eq
  match idx, hl, h1 with
  | [i, j], _, h1 => exact ⟨g, outs, i, j, h, h1, h3 3 (by decide)⟩

end Verif.Props
