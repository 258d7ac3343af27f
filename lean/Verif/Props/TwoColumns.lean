import Verif.Props.ShortestPath

/-!
# C12: Dijkstra's search is right on two columns and can be wrong on three

The heap of libstdc++ does not learn that the distance of a waiting node has changed.  With two
columns that does no harm.
-/

set_option linter.unusedSectionVars false

namespace Verif.Props

open Verif.Search Verif.Spec Verif.CppGraph Verif.ShortestPath

variable {F C : Type} [CostArith C] [JointArith F C]

/-- C12 for at most two columns: with the heap of libstdc++ the result is a shortest path, if adding
a step cost never decreases a sum.  (Partial: the full property has no bound on the number of
columns, and is false for three, `C12_three_columns`.) -/
theorem C12_two_columns_partial (hno : PyGraph.NoOverflow C)
    (conv : F → F) (d : Nat) (Q : List (PyCol F)) (hQ : InputOK d Q) (hlen : Q.length ≤ 2)
    (weights : Option (List F)) (w : List F) (hw : w = effWeights C d (weights.getD []))
    (hfin : FiniteSteps C w (Q.map (asFloat32 conv)))
    (hinf : ∀ x ∈ (Q.map (asFloat32 conv)).flatten, ∀ y ∈ (Q.map (asFloat32 conv)).flatten,
      ∀ a : C, a ≤ a + stepCost C w x y) :
    ∃ path c, getShortestPath stdHeap conv Q .dijkstra weights = .ok ⟨true, some path, some c⟩ ∧
      IsSelection (Q.map (asFloat32 conv)) path ∧ costL (stepCost C w) path = c ∧
      ∀ p, IsSelection (Q.map (asFloat32 conv)) p → c ≤ costL (stepCost C w) p := by
  obtain ⟨g, hr, hp, hgw, hgo⟩ := getShortestPath_eq (C := C) conv hQ weights
  subst hw
  rw [← hgw] at hfin hinf ⊢
  obtain ⟨g', hrun, hw', idx, path, hans, hm⟩ := runDijkstra_two hno hr hfin hinf hp
    (by simpa using hlen)
  refine ⟨path, _, hgo stdHeap .dijkstra _ (Or.inr ⟨rfl, rfl⟩) _ hrun idx path hans, hans.sel, ?_, ?_⟩
  · rw [hans.cost, hw']
  · rw [hans.cost, hw']; exact hm

theorem sqDist_nonneg (w : List ℚ) (hw : ∀ x ∈ w, 0 ≤ x) (x y : List ℚ) : 0 ≤ sqDist w x y := by
  unfold sqDist
  apply List.sum_nonneg
  intro t ht
  obtain ⟨⟨a, b, c⟩, hm, rfl⟩ := List.mem_map.1 ht
  exact mul_nonneg (hw a (List.of_mem_zip hm).1) (sq_nonneg _)

/-- C12 for at most two columns, in exact arithmetic and with non-negative weights: Dijkstra's search
reports the weighted sum of squares of a path for which it is least. -/
theorem C12_two_columns_exact_partial (conv : ℚ → ℚ) (d : Nat) (Q : List (PyCol ℚ))
    (hQ : InputOK d Q) (hlen : Q.length ≤ 2) (weights : Option (List ℚ))
    (hpos : ∀ x ∈ weightsFor d weights, 0 ≤ x) :
    ∃ path, getShortestPath stdHeap conv Q .dijkstra weights =
        .ok ⟨true, some path, some ((pathLen (weightsFor d weights) path : ℚ) : WithTop ℚ)⟩ ∧
      IsSelection (Q.map (asFloat32 conv)) path ∧
      ∀ p, IsSelection (Q.map (asFloat32 conv)) p →
        pathLen (weightsFor d weights) path ≤ pathLen (weightsFor d weights) p := by
  obtain ⟨path, c, h1, h2, h3, h4⟩ := C12_two_columns_partial noOverflow_rat conv d Q hQ hlen weights
    (weightsFor d weights) rfl (fun x _ y _ => by rw [stepCost_rat]; exact WithTop.coe_lt_top _)
    (fun x _ y _ a => by
      rw [stepCost_rat]
      have : (0 : WithTop ℚ) ≤ ((sqDist (weightsFor d weights) x y : ℚ) : WithTop ℚ) := by
        exact_mod_cast sqDist_nonneg _ hpos x y
      calc a = a + 0 := (add_zero a).symm
        _ ≤ _ := add_le_add le_rfl this)
  rw [costL_rat] at h3
  subst h3
  refine ⟨path, h1, h2, fun p hp => ?_⟩
  have := h4 p hp
  rw [costL_rat] at this
  exact WithTop.coe_le_coe.1 this

/-- A case of the two theorems: three start configurations and two goals, one of which gets closer
while it waits. -/
example : ∃ path, getShortestPath stdHeap id [.arr true 1 [[0], [0], [3]], .arr true 1 [[1], [2]]]
      .dijkstra (some [1]) = .ok ⟨true, some path, some ((pathLen [1] path : ℚ) : WithTop ℚ)⟩ ∧
    pathLen [1] path ≤ 1 := by
  obtain ⟨path, h, _, hm⟩ := C12_two_columns_exact_partial id 1
    [.arr true 1 [[0], [0], [3]], .arr true 1 [[1], [2]]]
    ⟨by simp, by simp [PyCol.Proper], by simp [PyCol.isF32]⟩ (by simp) (some [1])
    (by simp [weightsFor, effWeights])
  have hw : weightsFor 1 (some [1]) = [1] := by simp [weightsFor, effWeights]
  rw [hw] at h hm
  refine ⟨path, h, (hm [[0], [1]] ?_).trans ?_⟩
  · exact .cons (by simp [asFloat32]) (.cons (by simp [asFloat32]) .nil)
  · norm_num [pathLen, sqDist]

/-- C12 is false for three columns: with weight one the search reports a path of length 4 although
3 → 3 → 2 has length 1.  There are two configurations in the second column and one goal. -/
theorem C12_three_columns :
    (∃ path, getShortestPath stdHeap (id : ℚ → ℚ) [.arr true 1 [[0], [0], [3]], .arr true 1 [[0], [3]],
        .arr true 1 [[2]]] .dijkstra (some [1]) =
      .ok ⟨true, some path, some ((4 : ℚ) : WithTop ℚ)⟩) ∧
    IsSelection ([.arr true 1 [[0], [0], [3]], .arr true 1 [[0], [3]],
      .arr true 1 [[2]]].map (asFloat32 (id : ℚ → ℚ))) [[3], [3], [2]] ∧
    pathLen [1] [[3], [3], [2]] = 1 := by
  refine ⟨?_, ?_, ?_⟩
  · have h : (getShortestPath (C := WithTop ℚ) stdHeap (id : ℚ → ℚ) [.arr true 1 [[0], [0], [3]],
        .arr true 1 [[0], [3]], .arr true 1 [[2]]] .dijkstra
        (some [1])).toOption.map (fun r => (r.success, r.path, r.length)) =
        some (true, some [[0], [0], [2]], some ((4 : ℚ) : WithTop ℚ)) := by decide +kernel
    obtain ⟨⟨a, b, c⟩, h1, h2⟩ := of_toOption_map h
    simp only [Prod.mk.injEq] at h2
    obtain ⟨rfl, rfl, rfl⟩ := h2
    exact ⟨_, h1⟩
  · simp only [List.map_cons, List.map_nil, asFloat32]
    refine .cons (by simp) (.cons (by simp) (.cons (by simp) .nil))
  · norm_num [pathLen, sqDist]

end Verif.Props
