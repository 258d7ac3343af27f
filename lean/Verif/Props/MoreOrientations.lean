import Verif.Props.FewerObstacles

/-!
# C141 for the grid planner: more orientations, a longer path

`C141_longer` compares two searches.  Here the grid planner is called twice, once with one orientation per
point and once with two, the first of them the same; the second call plans a longer path.
-/

set_option linter.unusedSectionVars false

namespace Verif.Props

open Matrix Verif Verif.Path Verif.Geometry Verif.Kin Verif.ShortestPath Verif.CppGraph Verif.Search
  Verif.Planning Verif.Spec Verif.Task Verif.SampleSO3

noncomputable section

/-- Of the values of `pickIk` the first belongs to the upright orientation and the second to the others. -/
def turnIk (T : M4) : List Config :=
  open Classical in if T 2 2 = 1 then (pickIk T).take 1 else (pickIk T).drop 1

/-- The arm of C155, with values of the joint that depend on the orientation. -/
def wristArm : Arm Unit Unit where
  ik T := pure (some (turnIk T))
  ikFixed T _ := pure (some (turnIk T))
  isInCollision _ _ := pure false
  fk _ := pure 1

/-- The numbers drawn for a point: upright first, then turned over. -/
def turnDraws : Draws := ⟨fun _ => 0, 0, fun j => if j = 0 then (0, 1 / 4, 0) else (0, 0, 0), none⟩

theorem turnIk_sub (T : M4) : turnIk T ⊆ pickIk T := by
  unfold turnIk
  split_ifs
  · exact List.take_subset _ _
  · exact List.drop_subset _ _

theorem wristArm_determined (scene : Collection Unit) :
    Determined wristArm scene (fun _ => True) (fun T => some (turnIk T)) (fun _ => false) 1 := by
  refine ⟨fun T => Returns.pure _, fun T sols h q hq => ?_, fun q _ => Returns.pure _⟩
  simp only [Option.some.injEq] at h
  subst h
  exact (pickArm_determined scene).2 T _ rfl q (turnIk_sub T hq)

theorem upright_frame (p : V3) : freeFrame (0, 1 / 4, 0) p 2 2 = 1 := by
  have h : (2 : ℝ) * Real.pi * (1 / 4) = Real.pi / 2 := by ring
  have hq : quatOf 0 (1 / 4) 0 = ⟨1, 0, 0, 0⟩ := by
    simp only [quatOf, h]
    simp
  have hn : (⟨1, 0, 0, 0⟩ : Quat).normalise = ⟨1, 0, 0, 0⟩ := by simp [Quat.normalise, Quat.norm2]
  show (quatOf 0 (1 / 4) 0).rotationMatrix 2 2 = 1
  rw [hq]
  simp [Quat.rotationMatrix, hn]

theorem turned_frame (p : V3) : freeFrame (0, 0, 0) p 2 2 ≠ 1 := by
  have hq : quatOf 0 0 0 = ⟨0, 1, 0, 0⟩ := by simp [quatOf]
  have hn : (⟨0, 1, 0, 0⟩ : Quat).normalise = ⟨0, 1, 0, 0⟩ := by simp [Quat.normalise, Quat.norm2]
  show (quatOf 0 0 0).rotationMatrix 2 2 ≠ 1
  rw [hq]
  simp [Quat.rotationMatrix, hn]
  norm_num

theorem frame_x (u : ℝ × ℝ × ℝ) (p : V3) : freeFrame u p 0 3 = p 0 := rfl

theorem turn_columns (n : Nat) (i : Nat) (x : ℝ) (hn : n = 1 ∨ n = 2) :
    free (fun T => some (turnIk T)) (fun _ => false)
      ((List.range n).map fun (j : Nat) => freeFrame (((fun _ => turnDraws) i).rnd j) ![x, 0, 0]) =
    (pickIk (freeFrame (0, 0, 0) ![x, 0, 0])).take n := by
  have h0 : turnIk (freeFrame (0, 1 / 4, 0) ![x, 0, 0]) = (pickIk (freeFrame (0, 0, 0) ![x, 0, 0])).take 1 := by
    unfold turnIk
    rw [if_pos (upright_frame _)]
    unfold pickIk
    rw [frame_x, frame_x]
  have h1 : turnIk (freeFrame (0, 0, 0) ![x, 0, 0]) = (pickIk (freeFrame (0, 0, 0) ![x, 0, 0])).drop 1 := by
    unfold turnIk
    rw [if_neg (turned_frame _)]
  have hl : ∀ T, (pickIk T).length ≤ 2 := by
    intro T
    unfold pickIk
    split_ifs <;> simp
  rcases hn with rfl | rfl
  · simpa [free, freeAt, turnDraws, List.range_succ] using h0
  · have : free (fun T => some (turnIk T)) (fun _ => false)
        ((List.range 2).map fun (j : Nat) => freeFrame (((fun _ => turnDraws) i).rnd j) ![x, 0, 0]) =
        turnIk (freeFrame (0, 1 / 4, 0) ![x, 0, 0]) ++ turnIk (freeFrame (0, 0, 0) ![x, 0, 0]) := by
      simp [free, freeAt, turnDraws, List.range_succ]
    rw [this, h0, h1, List.take_append_drop, List.take_of_length_le (hl _)]

/-- **C141**, the grid planner: with one orientation per point it plans the path 4, 1, 0, 3 of length 19; with
two orientations per point, the first ones the same as before, the path 4, 6, 8, 3 of length 33. -/
theorem C141_plan_longer {O : Type} (scene : Collection Unit) (time : Nat → ℝ) (fuel : Nat)
    (optimal : List PathPt → Collection Unit → Nat → List (List ℝ) → Run Unit O) :
    Returns (fun _ => True) (PlanningTask.solve (C := WithTop ℝ) (freeTask pickPoints scene 1) wristArm
      stdHeap id (fun _ _ => turnDraws) time fuel optimal (some "grid"))
      (.plan ⟨true, some [[4], [1], [0], [3]], some ((19 : ℝ) : WithTop ℝ)⟩) ∧
    Returns (fun _ => True) (PlanningTask.solve (C := WithTop ℝ) (freeTask pickPoints scene 2) wristArm
      stdHeap id (fun _ _ => turnDraws) time fuel optimal (some "grid"))
      (.plan ⟨true, some [[4], [6], [8], [3]], some ((33 : ℝ) : WithTop ℝ)⟩) := by
  have key : ∀ (n : Nat) (r : PlanRes ℝ (WithTop ℝ)),
      getShortestPath stdHeap id ((freeFrames (fun _ => turnDraws) pickPoints n).map fun Ts =>
        colOf id 1 (free (fun T => some (turnIk T)) (fun _ => false) Ts)) .dijkstra none = .ok r →
      Returns (fun _ => True) (PlanningTask.solve (freeTask pickPoints scene n) wristArm
        stdHeap id (fun _ _ => turnDraws) time fuel optimal (some "grid")) (.plan r) := by
    intro n r hr
    refine (C65_dispatch_partial (freeTask pickPoints scene n) rfl wristArm stdHeap id _ time fuel
      optimal).1 _ _ ?_ hr
    exact noRedundancyLoop_returns (wristArm_determined scene) id (fun _ => turnDraws) n
      (freeTask pickPoints scene n).path (freeFrames (fun _ => turnDraws) pickPoints n) 0
      (by simpa using freeFrames_samples (fun _ => turnDraws) pickPoints scene n) []
  have hc : ∀ n, n = 1 ∨ n = 2 → ((freeFrames (fun _ => turnDraws) pickPoints n).map fun Ts =>
        colOf id 1 (free (fun T => some (turnIk T)) (fun _ => false) Ts)) =
      [colOf id 1 ((pickIk (freeFrame (0, 0, 0) ![0, 0, 0])).take n),
        colOf id 1 ((pickIk (freeFrame (0, 0, 0) ![1, 0, 0])).take n),
        colOf id 1 ((pickIk (freeFrame (0, 0, 0) ![2, 0, 0])).take n),
        colOf id 1 ((pickIk (freeFrame (0, 0, 0) ![3, 0, 0])).take n)] := by
    intro n hn
    rw [← turn_columns n 0 0 hn, ← turn_columns n 1 1 hn, ← turn_columns n 2 2 hn, ← turn_columns n 3 3 hn]
    rfl
  have hB := C154_rational blockedCols_ok .dijkstra
  have hO := C154_rational openCols_ok .dijkstra
  rw [openCols_longer.1] at hB
  rw [openCols_longer.2] at hO
  refine ⟨key 1 _ ?_, key 2 _ ?_⟩
  · rw [hc 1 (.inl rfl)]
    refine Eq.trans (congrArg (fun Q => getShortestPath stdHeap id Q .dijkstra none) ?_) (hB.trans ?_)
    · simp [pickIk, frame_x, colOf, blockedCols, mapCol, realRow]
    · simp [Except.map, mapRes, realLen, realRow]
  · rw [hc 2 (.inr rfl)]
    refine Eq.trans (congrArg (fun Q => getShortestPath stdHeap id Q .dijkstra none) ?_) (hO.trans ?_)
    · simp [pickIk, frame_x, colOf, openCols, mapCol, realRow]
    · simp [Except.map, mapRes, realLen, realRow]

end

end Verif.Props
