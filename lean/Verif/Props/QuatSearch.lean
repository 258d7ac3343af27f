import Verif.Props.QuatCost
import Verif.Props.PyGraph
import Verif.Props.Dp
import Verif.Props.SampleSO3
import Verif.Props.Solve
import Verif.Model.QuatGraph

/-!
# C88: searching on quaternion samples minimises the total rotation

`get_shortest_path` of `acrobotics/pygraph.py` on columns of quaternions (examples/quat_graph.py),
and `shortest_path` of `acrobotics/dp.py` with the array cost of examples/small_passage.py.
-/

set_option linter.unusedSectionVars false

namespace Verif.Props

open Verif Verif.QuatCost Verif.Spec Verif.Search Matrix

/-- The angle of the rotation from one orientation to the other, read off the rotation matrices:
a rotation by `θ` has trace `1 + 2 cos θ`. -/
noncomputable def turnAngle (p q : Quat) : ℝ :=
  Real.arccos (((p.rotationMatrixᵀ * q.rotationMatrix).trace - 1) / 2)

/-- The angle turned through along a path. -/
noncomputable def totalTurn : List Quat → ℝ
  | p :: q :: rest => turnAngle p q + totalTurn (q :: rest)
  | _ => 0

theorem turnAngle_eq {p q : Quat} (hp : UnitQuat p) (hq : UnitQuat q) :
    turnAngle p q = 2 * costFunction p q := by
  obtain ⟨h1, h2, h3, _⟩ := C87_cost_is_half_angle p q q hp hq hq
  unfold turnAngle
  rw [h1, show (1 + 2 * Real.cos (2 * costFunction p q) - 1) / 2
    = Real.cos (2 * costFunction p q) by ring, Real.arccos_cos h2 h3]

theorem costR_turn (path : List Quat) (h : ∀ q ∈ path, UnitQuat q) :
    2 * costR costFunction path = totalTurn path := by
  induction path with
  | nil => simp [costR, totalTurn]
  | cons p rest ih =>
    cases rest with
    | nil => simp [costR, totalTurn]
    | cons q rest =>
      rw [costR, totalTurn, turnAngle_eq (h p (by simp)) (h q (by simp)),
        ← ih (fun x hx => h x (List.mem_cons_of_mem _ hx))]
      ring

/-- The step cost as an entry of the distance table, in which nodes start at infinity. -/
noncomputable def nodeCost (p q : Quat) : WithTop ℝ := ((costFunction p q : ℝ) : WithTop ℝ)

theorem costFrom_turn (path : List Quat) (acc : ℝ) (h : ∀ q ∈ path, UnitQuat q) :
    costFrom nodeCost ((acc : ℝ) : WithTop ℝ) path = ((acc + totalTurn path / 2 : ℝ) : WithTop ℝ) := by
  induction path generalizing acc with
  | nil => simp [costFrom, totalTurn]
  | cons p rest ih =>
    cases rest with
    | nil => simp [costFrom, totalTurn]
    | cons q rest =>
      rw [costFrom, totalTurn, turnAngle_eq (h p (by simp)) (h q (by simp))]
      have := ih (acc + costFunction p q) (fun x hx => h x (List.mem_cons_of_mem _ hx))
      rw [show ((acc : ℝ) : WithTop ℝ) + nodeCost p q = ((acc + costFunction p q : ℝ) : WithTop ℝ)
        from (WithTop.coe_add _ _).symm, this]
      congr 1
      ring

theorem costL_turn (path : List Quat) (h : ∀ q ∈ path, UnitQuat q) :
    costL nodeCost path = ((totalTurn path / 2 : ℝ) : WithTop ℝ) := by
  have := costFrom_turn path 0 h
  rw [zero_add] at this
  exact this

theorem selection_units {data : List (List Quat)} (hu : ∀ col ∈ data, ∀ q ∈ col, UnitQuat q)
    {p : List Quat} (h : IsSelection data p) : ∀ q ∈ p, UnitQuat q := by
  induction h with
  | nil => simp
  | cons hx _ ih =>
    intro q hq
    rcases List.mem_cons.1 hq with rfl | hq
    · exact hu _ (by simp) _ hx
    · exact ih (fun col hc => hu col (List.mem_cons_of_mem _ hc)) q hq

/-- C88. For every list of non-empty columns of unit quaternions, `get_shortest_path` with the
package's cost function succeeds with one quaternion of each column such that the total angle
turned through is the least possible, and reports half of that angle as its cost. -/
theorem C88_least_rotation (data : List (List Quat)) (hd : data ≠ [])
    (hne : ∀ col ∈ data, col ≠ []) (hu : ∀ col ∈ data, ∀ q ∈ col, UnitQuat q) :
    ∃ res path, PyGraph.getShortestPath nodeCost data = .ok res ∧ res.success = true ∧
      res.path = some path ∧ IsSelection data path ∧
      res.totalCost = some ((totalTurn path / 2 : ℝ) : WithTop ℝ) ∧
      ∀ p, IsSelection data p → totalTurn path ≤ totalTurn p := by
  obtain ⟨res, h1, h2, h3⟩ := C04_pygraph_optimal noOverflow_real nodeCost
    (fun _ _ => WithTop.coe_lt_top _) data hd
  obtain ⟨path, c, h4, h5, _, h6, h7, h8⟩ := h3 (h2.2 hne)
  refine ⟨res, path, h1, h2.2 hne, h4, h6, ?_, ?_⟩
  · rw [h5, ← h7, costL_turn path (selection_units hu h6)]
  · intro p hp
    have := h8 p hp
    rw [← h7, costL_turn path (selection_units hu h6), costL_turn p (selection_units hu hp),
      WithTop.coe_le_coe] at this
    linarith

theorem costArray_fits : Dp.Fits costArray costFunction := by
  intro a b
  refine ⟨rfl, rfl, ?_⟩
  intro i j x y hx hy
  simp only [costArray, C87_cost_matrix a b i j x y hx hy, Option.getD_some]

/-- C88, dynamic programming: the same with `shortest_path` of `dp.py` and the array cost. -/
theorem C88_least_rotation_dp (data : List (List Quat)) (h2 : 2 ≤ data.length)
    (hne : ∀ col ∈ data, col ≠ []) (hu : ∀ col ∈ data, ∀ q ∈ col, UnitQuat q) :
    ∃ path, Dp.shortestPath data costArray = .ok ⟨true, path, totalTurn path / 2⟩ ∧
      IsSelection data path ∧ ∀ p, IsSelection data p → totalTurn path ≤ totalTurn p := by
  obtain ⟨path, len, h1, h3, h4, h5⟩ := C01_dp_optimal costArray costFunction costArray_fits data
    h2 hne
  have e1 := costR_turn path (selection_units hu h3)
  refine ⟨path, ?_, h3, ?_⟩
  · rw [h1, ← h4, ← e1]
    congr 2
    ring
  · intro p hp
    have e2 := costR_turn p (selection_units hu hp)
    have := h5 p hp
    rw [← h4] at this
    linarith

/-- A selection from columns of `m` numbered elements is a choice of a number for every column. -/
theorem selection_numbered {α : Type} (n m : Nat) (g : Nat → Nat → α) (p : List α) (hm : 0 < m) :
    IsSelection ((List.range n).map fun k => (List.range m).map (g k)) p ↔
      ∃ pick : Nat → Nat, (∀ k, pick k < m) ∧ p = (List.range n).map fun k => g k (pick k) := by
  unfold IsSelection
  rw [List.forall₂_map_left_iff, List.forall₂_iff_get]
  constructor
  · rintro ⟨hl, h⟩
    rw [List.length_range] at hl
    have h' : ∀ k, ∃ i, i < m ∧ ∀ hk : k < n, p[k]? = some (g k i) := by
      intro k
      by_cases hk : k < n
      · have := h k (by simpa using hk) (hl ▸ hk)
        simp only [List.get_eq_getElem, List.getElem_range, List.mem_map, List.mem_range] at this
        obtain ⟨i, hi, e⟩ := this
        exact ⟨i, hi, fun _ => by rw [e]; exact List.getElem?_eq_getElem _⟩
      · exact ⟨0, hm, fun hk' => absurd hk' hk⟩
    choose pick hp he using h'
    refine ⟨pick, hp, List.ext_getElem? fun k => ?_⟩
    by_cases hk : k < n
    · rw [he k hk]
      simp [hk]
    · rw [List.getElem?_eq_none (by omega), List.getElem?_eq_none (by simpa using hk)]
  · rintro ⟨pick, hp, rfl⟩
    refine ⟨by simp, fun k h1 h2 => ?_⟩
    simp only [List.get_eq_getElem, List.getElem_range, List.getElem_map, List.mem_map,
      List.mem_range]
    exact ⟨pick k, hp k, rfl⟩

/-- The orientation of one draw. -/
noncomputable def drawn (rnd : Nat → Nat → ℝ × ℝ × ℝ) (k i : Nat) : Quat :=
  SampleSO3.quatOf (rnd k i).1 (rnd k i).2.1 (rnd k i).2.2

/-- The columns of the script, whatever is drawn. -/
theorem sampleColumns_eq (root : Nat → Nat) (fuel : Nat) (rnd : Nat → Nat → ℝ × ℝ × ℝ) :
    QuatGraph.sampleColumns root fuel rnd = .ok ((List.range 5).map fun k =>
      (List.range 10).map (drawn rnd k)) := by
  refine Sampling.mapM_except_ok fun k _ => ?_
  simp only [SampleSO3.sampleSO3, SampleSO3.draws, bind, Except.bind, QuatGraph.column,
    List.map_map]
  rfl

theorem quatGraph_of {root : Nat → Nat} {fuel : Nat} {rnd : Nat → Nat → ℝ × ℝ × ℝ}
    {data : List (List Quat)} (h : QuatGraph.sampleColumns root fuel rnd = .ok data) :
    QuatGraph.quatGraph root fuel rnd = PyGraph.getShortestPath nodeCost data := by
  rw [QuatGraph.quatGraph, h]
  rfl

/-- **C88**, the script examples/quat_graph.py: whatever is drawn, it ends with a success.  The path
has one of the ten drawn orientations of each of the five columns, no other choice turns through a
smaller angle, and the printed cost is half of that angle. -/
theorem C88_script (root : Nat → Nat) (fuel : Nat) (rnd : Nat → Nat → ℝ × ℝ × ℝ)
    (hr : ∀ k i, InUnit (rnd k i)) :
    ∃ res, QuatGraph.quatGraph root fuel rnd = .ok res ∧ res.success = true ∧
      ∃ pick : Nat → Nat, (∀ k, pick k < 10) ∧
        res.path = some ((List.range 5).map fun k => drawn rnd k (pick k)) ∧
        res.totalCost = some
          ((totalTurn ((List.range 5).map fun k => drawn rnd k (pick k)) / 2 : ℝ) : WithTop ℝ) ∧
        ∀ other : Nat → Nat, (∀ k, other k < 10) →
          totalTurn ((List.range 5).map fun k => drawn rnd k (pick k)) ≤
            totalTurn ((List.range 5).map fun k => drawn rnd k (other k)) := by
  obtain ⟨res, path, h1, h2, h3, h4, h5, h6⟩ := C88_least_rotation ((List.range 5).map fun k =>
      (List.range 10).map (drawn rnd k))
    (by simp) (by
      intro col hcol h
      simp only [List.mem_map] at hcol
      obtain ⟨k, _, rfl⟩ := hcol
      simp at h) (by
      intro col hcol q hq
      simp only [List.mem_map] at hcol
      obtain ⟨k, _, rfl⟩ := hcol
      simp only [List.mem_map] at hq
      obtain ⟨i, _, rfl⟩ := hq
      exact quatOf_unit (hr k i).1.1 (hr k i).1.2 _ _)
  obtain ⟨pick, hp, rfl⟩ := (selection_numbered 5 10 (drawn rnd) path (by omega)).1 h4
  refine ⟨res, ?_, h2, pick, hp, h3, h5, fun other ho => h6 _ ?_⟩
  · rw [quatGraph_of (sampleColumns_eq root fuel rnd), h1]
  · exact (selection_numbered 5 10 (drawn rnd) _ (by omega)).2 ⟨other, ho, rfl⟩

/-- A concrete case of C88_script: if every draw is the same, nothing turns. -/
example : ∃ res path, QuatGraph.quatGraph (fun n => n) 0 (fun _ _ => (0, 0, 0)) = .ok res ∧
    res.path = some path ∧ totalTurn path ≤ totalTurn (List.replicate 5 ⟨0, 1, 0, 0⟩) := by
  obtain ⟨res, h1, -, pick, -, h2, -, h3⟩ := C88_script (fun n => n) 0 (fun _ _ => (0, 0, 0))
    (fun _ _ => ⟨⟨le_rfl, zero_le_one⟩, ⟨le_rfl, zero_le_one⟩, ⟨le_rfl, zero_le_one⟩⟩)
  refine ⟨res, _, h1, h2, (h3 (fun _ => 0) (by simp)).trans (le_of_eq ?_)⟩
  simp [drawn, SampleSO3.quatOf, List.range_succ, List.replicate]

end Verif.Props
