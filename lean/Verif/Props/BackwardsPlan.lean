import Verif.Props.FewerObstacles

/-!
# C153 for the grid planner: there and back

The grid planner is called for four points and for the same points in reverse order.
-/

set_option linter.unusedSectionVars false

namespace Verif.Props

open Matrix Verif Verif.Path Verif.Geometry Verif.Kin Verif.ShortestPath Verif.CppGraph Verif.Search
  Verif.Planning Verif.Spec Verif.Task Verif.SampleSO3

noncomputable section

theorem openCols_back :
    getShortestPath (C := WithTop ℚ) stdHeap id openCols.reverse .dijkstra none =
      .ok ⟨true, some [[3], [0], [1], [4]], some ((19 : ℚ) : WithTop ℚ)⟩ := by
  have h : (getShortestPath (C := WithTop ℚ) stdHeap id openCols.reverse .dijkstra
      none).toOption.map (fun r => (r.success, r.path, r.length)) =
      some (true, some [[3], [0], [1], [4]], some ((19 : ℚ) : WithTop ℚ)) := by decide +kernel
  obtain ⟨⟨a, b, c⟩, h1, h2⟩ := of_toOption_map h
  simp only [Prod.mk.injEq] at h2
  obtain ⟨rfl, rfl, rfl⟩ := h2
  exact h1

theorem openCols_back_ok : InputOK 1 openCols.reverse := by
  refine ⟨by simp [openCols], ?_, by simp [openCols, PyCol.isF32]⟩
  intro c hc
  simp only [openCols, List.reverse_cons, List.reverse_nil, List.nil_append, List.cons_append,
    List.mem_cons, List.not_mem_nil, or_false] at hc
  rcases hc with rfl | rfl | rfl | rfl <;> simp [PyCol.Proper]

/-- **C153** is false for the grid planner too: for the four points it plans a path of length 33, for the same
points in reverse order one of length 19, whatever orientations are drawn. -/
theorem C153_plan_shorter {O : Type} (draws draws' : Nat → Nat → Draws) (time : Nat → ℝ) (fuel : Nat)
    (optimal : List PathPt → Collection Unit → Nat → List (List ℝ) → Run Unit O) :
    Returns (fun _ => True) (PlanningTask.solve (C := WithTop ℝ) (freeTask pickPoints noBox 1) pickArm
      stdHeap id draws time fuel optimal (some "grid"))
      (.plan ⟨true, some [[4], [6], [8], [3]], some ((33 : ℝ) : WithTop ℝ)⟩) ∧
    Returns (fun _ => True) (PlanningTask.solve (C := WithTop ℝ)
      { freeTask pickPoints noBox 1 with path := (freeTask pickPoints noBox 1).path.reverse } pickArm
      stdHeap id draws' time fuel optimal (some "grid"))
      (.plan ⟨true, some [[3], [0], [1], [4]], some ((19 : ℝ) : WithTop ℝ)⟩) := by
  refine ⟨(C155_longer draws time fuel optimal).2, ?_⟩
  have hp : (freeTask pickPoints noBox 1).path.reverse = (freeTask pickPoints.reverse noBox 1).path := by
    simp only [freeTask, PlanningTask.new, List.map_reverse]
  refine (C65_dispatch_partial (scene := noBox) _ rfl pickArm stdHeap id draws' time fuel optimal).1
    ((freeFrames (draws' 0) pickPoints.reverse 1).map fun Ts =>
      colOf id 1 (free (fun T => some (pickIk T)) (pickHit noBox) Ts)) _ ?_ ?_
  · show Returns _ (noRedundancyLoop pickArm noBox id (draws' 0) 1 0
      (freeTask pickPoints noBox 1).path.reverse []) _
    rw [hp]
    exact noRedundancyLoop_returns (pickArm_determined noBox) id (draws' 0) 1
      (freeTask pickPoints.reverse noBox 1).path (freeFrames (draws' 0) pickPoints.reverse 1) 0
      (by simpa using freeFrames_samples (draws' 0) pickPoints.reverse noBox 1) []
  · have hB := C154_rational openCols_back_ok .dijkstra
    rw [openCols_back] at hB
    refine Eq.trans (congrArg (fun Q => getShortestPath stdHeap id Q .dijkstra none) ?_) (hB.trans ?_)
    · simp [freeFrames, pickPoints, List.zipIdx, free, freeAt, pickIk, freeFrame, mkTf, pickHit,
        noBox, colOf, openCols, mapCol, realRow]
    · simp [Except.map, mapRes, realLen, realRow]

end

end Verif.Props
