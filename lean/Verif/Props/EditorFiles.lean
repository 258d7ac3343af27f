import Verif.Model.Scenes
import Verif.Props.Scripts
import Verif.Props.Urdf
import Mathlib.Tactic.IntervalCases
import Mathlib.Analysis.SpecialFunctions.Trigonometric.Bounds
import Mathlib.Analysis.Real.Pi.Bounds

/-! # C122–C125: the scene and task files of the editor -/

set_option linter.unusedSectionVars false

namespace Verif.Props

open Matrix Verif Verif.Path Verif.Geometry Verif.Kin Verif.ShortestPath Verif.Task Verif.Planning
  Verif.Util Verif.Resources Verif.Examples Verif.Io Verif.Urdf

noncomputable section

/-! ## C122: the scenes -/

/-- A scene file gives its boxes, upright and in the order of the file. -/
theorem import_scene {name : String} {bs : List BoxData} (hn : (bs.map BoxData.name).Nodup)
    (hw : ∀ b ∈ bs, b.name ≠ "world") {files : Files} {path : String}
    (hf : files path = some (sceneFile name bs)) :
    importUrdf files path = .ok (uprightScene (bs.map fun b => (b.size, b.xyz))) := by
  rw [import_boxes hn hw hf, uprightScene, List.map_map, List.map_map]
  rfl

/-- The boxes of industrial_1.urdf: size and centre. -/
def industrialScene : Collection Shape := uprightScene
  [(![0.2, 0.5, 0.1], ![1.1, 0, 0.05]), (![0.2, 0.0833333333333, 0.01], ![0.85, 0, 0.005]),
   (![0.7, 0.7, 0.01], ![0.85, 0, -0.005]), (![0.3, 0.1, 0.055], ![0.85, 0.2, 0.0275]),
   (![0.3, 0.1, 0.055], ![0.85, -0.2, 0.0275]), (![0.2, 0.5, 0.1], ![0.6, 0, 0.05])]

/-- The boxes of torch_obstacle.urdf: size and centre. -/
def torchObstacleScene : Collection Shape := uprightScene
  [(![0.5, 0.5, 0.1], ![0.6000000000000001, 0, 0.05]),
   (![0.1, 0.5, 0.01], ![0.8, 0, 0.10500000000000001]),
   (![0.01, 0.5, 0.1], ![0.8450000000000001, 0, 0.16000000000000003]),
   (![0.05, 0.1, 0.05], ![0.775, 0, 0.135])]

theorem workpiece_upright : workpiece = uprightScene
    [(![1.6, 0.8, 0.01], ![0, 0, 0.005]), (![1.6, 0.8, 0.01], ![0, 0, 1.015]),
     (![1.58, 0.01, 1.0], ![0, 0.395, 0.51]), (![0.01, 0.8, 1.0], ![0.795, 0, 0.51]),
     (![0.01, 0.8, 1.0], ![-0.795, 0, 0.51])] := by
  have hp : ∀ x y z : ℝ, poseX 0 x y z = mkTf 1 ![x, y, z] := fun x y z => by
    rw [poseX]
    ext i j
    fin_cases i <;> fin_cases j <;> simp [mkTf]
  simp only [workpiece, workpieceOf, uprightScene, hp, List.map_cons, List.map_nil, Matrix.cons_val]
  norm_num

theorem passage_eq : uprightScene [(![0.1, 0.03, 0.2], ![0.7325, 0, 0]),
    (![0.1, 0.03, 0.2], ![0.8675, 0, 0]), (![0.035, 0.03, 0.1], ![0.8, 0, 0.05])] =
    passageScene 0.8 := by
  rw [passageScene]
  norm_num

/-- **C122**, import: whatever the disk holds besides, the five scene files load.  circle.urdf is the
obstacle of weld_circle.json, small_passage.urdf that of small_passage_2.json, path_in_box.urdf is the
workpiece of workpiece_model.py. -/
theorem C122_import (files : Files) (path : String) :
    (files path = some circleUrdf →
      importUrdf files path = parseObstacles weldCircleTask) ∧
    (files path = some smallPassageUrdf →
      importUrdf files path = parseObstacles smallPassage2) ∧
    (files path = some pathInBoxUrdf → importUrdf files path = .ok workpiece) ∧
    (files path = some torchObstacleUrdf → importUrdf files path = .ok torchObstacleScene) ∧
    (files path = some industrial1Urdf → importUrdf files path = .ok industrialScene) := by
  refine ⟨fun h => ?_, fun h => ?_, fun h => ?_, fun h => ?_, fun h => ?_⟩
  · rw [import_scene (by simp) (by simp) h,
      load_upright (d := weldCircleTask) [(![0.5, 0.5, 0.1], ![0.8, 0, 0.02])] rfl]
    rfl
  · rw [import_scene (by simp) (by simp) h, load_upright (d := smallPassage2)
      [(![0.1, 0.03, 0.2], ![0.8 - 0.0675, 0, 0]), (![0.1, 0.03, 0.2], ![0.8 + 0.0675, 0, 0]),
       (![0.035, 0.03, 0.1], ![0.8, 0, 0.05])] rfl]
    exact congrArg _ passage_eq
  · rw [import_scene (by simp) (by simp) h, workpiece_upright]
    rfl
  · rw [import_scene (by simp) (by simp) h]
    rfl
  · rw [import_scene (by simp) (by simp) h]
    rfl

/-- **C122**, task_to_urdf.py: it ends, replaces the one file small_passage.urdf of its folder by exactly
the shipped file, and touches no other file. -/
theorem C122_script (dir : String) (files : Files) : ∃ files', taskToUrdf dir files = .ok files' ∧
    files' (dir ++ "/small_passage.urdf") = some smallPassageUrdf ∧
    ∀ f, f ≠ dir ++ "/small_passage.urdf" → files' f = files f := by
  have hname : fileName dir "small_passage" = dir ++ "/small_passage.urdf" := by
    rw [fileName, String.append_assoc, String.append_assoc]
    rfl
  have hb : boxes (passageScene 0.8) =
      [⟨"shape_0", ![0.1, 0.03, 0.2], ![0.7325, 0, 0]⟩,
       ⟨"shape_1", ![0.1, 0.03, 0.2], ![0.8675, 0, 0]⟩,
       ⟨"shape_2", ![0.035, 0.03, 0.1], ![0.8, 0, 0.05]⟩] := by
    rw [boxes_eq, ← passage_eq]
    simp [uprightScene, posPart_mkTf]
    decide
  refine ⟨write files (dir ++ "/small_passage.urdf") smallPassageUrdf, ?_, ?_⟩
  · unfold taskToUrdf
    rw [load_smallPassage2]
    simp only [bind, Except.bind, PlanningTask.new]
    rw [exportUrdf, ← boxes, exportLoop_eq, hb, if_neg (by simp), hname]
    rfl
  · exact ⟨if_pos rfl, fun f hf => if_neg hf⟩

/-- **C122**, the workpiece: exporting it as `halfopen_box` writes exactly path_in_box.urdf. -/
theorem C122_workpiece (dir : String) (files : Files) :
    exportUrdf workpiece "halfopen_box" dir files (dir ++ "/halfopen_box.urdf") =
      some pathInBoxUrdf := by
  have hname : fileName dir "halfopen_box" = dir ++ "/halfopen_box.urdf" := by
    rw [fileName, String.append_assoc, String.append_assoc]
    rfl
  have hb : boxes workpiece =
      [⟨"shape_0", ![1.6, 0.8, 0.01], ![0, 0, 0.005]⟩,
       ⟨"shape_1", ![1.6, 0.8, 0.01], ![0, 0, 1.015]⟩,
       ⟨"shape_2", ![1.58, 0.01, 1.0], ![0, 0.395, 0.51]⟩,
       ⟨"shape_3", ![0.01, 0.8, 1.0], ![0.795, 0, 0.51]⟩,
       ⟨"shape_4", ![0.01, 0.8, 1.0], ![-0.795, 0, 0.51]⟩] := by
    rw [boxes_eq, workpiece_upright]
    simp [uprightScene, posPart_mkTf]
    decide
  rw [exportUrdf, ← boxes, exportLoop_eq, hb, if_neg (by simp), hname]
  exact if_pos rfl

/-- **C122**, kingpin.py: torch_obstacle.urdf holds the boxes of that script, at the same places up to
the rounding of the numbers in the file. -/
theorem C122_kingpin : torchObstacleScene.s = kingpinScene.s ∧
    ∀ (i : Nat) (T T' : M4), torchObstacleScene.tfS[i]? = some T → kingpinScene.tfS[i]? = some T' →
      ∃ p p' : V3, T = mkTf 1 p ∧ T' = mkTf 1 p' ∧ ∀ j, |p j - p' j| ≤ 1 / 10 ^ 15 := by
  have hp : ∀ x y z : ℝ, kingpinTf x y z = mkTf 1 ![x, y, z] := fun x y z => by
    ext i j
    fin_cases i <;> fin_cases j <;> simp [mkTf, kingpinTf]
  constructor
  · simp only [torchObstacleScene, kingpinScene, kingpinSceneOf, uprightScene, List.map_cons,
      List.map_nil, Matrix.cons_val]
    norm_num
  · intro i T T' hT hT'
    simp only [kingpinScene, kingpinSceneOf, hp] at hT'
    match i, hT, hT' with
    | 0, hT, hT' =>
      cases hT; cases hT'
      refine ⟨_, _, rfl, rfl, fun j => ?_⟩
      fin_cases j <;> simp <;> norm_num [abs_le]
    | 1, hT, hT' =>
      cases hT; cases hT'
      refine ⟨_, _, rfl, rfl, fun j => ?_⟩
      fin_cases j <;> simp <;> norm_num [abs_le]
    | 2, hT, hT' =>
      cases hT; cases hT'
      refine ⟨_, _, rfl, rfl, fun j => ?_⟩
      fin_cases j <;> simp <;> norm_num [abs_le]
    | 3, hT, hT' =>
      cases hT; cases hT'
      refine ⟨_, _, rfl, rfl, fun j => ?_⟩
      fin_cases j <;> simp <;> norm_num [abs_le]
    | i + 4, hT, _ => simp [torchObstacleScene, uprightScene] at hT

/-! ## The paths of the editor -/

/-- A point of a loaded path is at `p`, whatever its tolerance. -/
def StandsAt (pt : PathPt) (p : V3) : Prop := Placed pt p ∨
  ∃ e : TolEulerPt, pt = .euler e ∧ ∃ r : V3, e.pNominal = [p 0, p 1, p 2, r 0, r 1, r 2]

theorem StandsAt.unique {pt : PathPt} {p q : V3} (hp : StandsAt pt p) (hq : StandsAt pt q) : p = q := by
  have heq : ∀ {x y : V3}, x 0 = y 0 → x 1 = y 1 → x 2 = y 2 → x = y := fun h0 h1 h2 => by
    ext i; fin_cases i <;> assumption
  rcases hp with (rfl | ⟨t, rfl, ht⟩) | ⟨e, rfl, r, he⟩
  · rcases hq with (h | ⟨t, h, _⟩) | ⟨e, h, _⟩
    · simp only [PathPt.free.injEq, FreeOrientationPt.new, FreeOrientationPt.mk.injEq] at h
      exact h.1
    · cases h
    · cases h
  · rcases hq with (h | ⟨t', h, ht'⟩) | ⟨e, h, _⟩
    · cases h
    · cases h
      rw [ht] at ht'
      simp only [List.cons.injEq, and_true] at ht'
      exact heq ht'.1 ht'.2.1 ht'.2.2
    · cases h
  · rcases hq with (h | ⟨t', h, _⟩) | ⟨e', h, r', he'⟩
    · cases h
    · cases h
    · cases h
      rw [he] at he'
      simp only [List.cons.injEq, and_true] at he'
      exact heq he'.1 he'.2.1 he'.2.2.1

/-- The path of an entry of a task file has its points at the given positions. -/
def PointsAt (pd : PathDict) (ps : List V3) : Prop :=
  ∃ pts, parsePath ⟨some pd, none⟩ = .ok pts ∧ List.Forall₂ StandsAt pts ps

theorem PointsAt.unique {pd : PathDict} {ps qs : List V3} (h : PointsAt pd ps) (h' : PointsAt pd qs) :
    ps = qs := by
  obtain ⟨pts, h1, h2⟩ := h
  obtain ⟨pts', h1', h2'⟩ := h'
  rw [h1] at h1'
  cases h1'
  clear h1
  induction h2 generalizing qs with
  | nil => cases h2'; rfl
  | cons ha _ ih =>
    cases h2' with
    | cons hb ht => rw [ha.unique hb, ih ht]

theorem points_freeLine (a b : V3) (n : Nat) :
    PointsAt (freeLine a b n) ((List.range n).map (onLine a b n)) := by
  refine ⟨_, load_freeLine (d := ⟨some (freeLine a b n), none⟩) a b n rfl, ?_⟩
  rw [List.forall₂_map_left_iff, List.forall₂_map_right_iff]
  exact List.forall₂_same.2 fun i _ => .inl (.inl rfl)

theorem points_eulerLine (a b rpy tol : V3) (n : Nat) :
    PointsAt (eulerLine a b rpy tol n) ((List.range n).map (onLine a b n)) := by
  obtain ⟨pts, h1, h2, h3⟩ := load_eulerLine a b rpy tol n
  refine ⟨pts, h1, List.forall₂_iff_get.2 ⟨by simp [h2], fun i hi hi' => ?_⟩⟩
  obtain ⟨e, he, hn⟩ := h3 i _ (List.getElem?_eq_getElem hi)
  refine .inr ⟨e, he, fun j => guessAngleUnit (rpy j), ?_⟩
  rw [hn]
  simp

/-! ## C123: the paths of the editor and their scenes -/

/-- The task files of the editor with the scene files of the same name. -/
def editorTasks : List (List PathDict × Doc) :=
  [(tasksSmallPassage, smallPassageUrdf), (tasksCircle, circleUrdf), (tasksPathInBox, pathInBoxUrdf),
   (tasksTorchObstacle, torchObstacleUrdf), (tasksIndustrial1, industrial1Urdf)]

/-- The full property: task and scene of the same name load, and no point of a path lies in an
obstacle. -/
def C123_statement : Prop := ∀ td ∈ editorTasks, ∀ (files : Files) (path : String),
  files path = some td.2 → ∃ scene, importUrdf files path = .ok scene ∧
    ∀ pd ∈ td.1, ∃ ps, PointsAt pd ps ∧ ∀ p ∈ ps, ∀ i, p ∉ wallPoints scene i

/-- Every point within `m` of `p` (in each coordinate) is outside all shapes. -/
def ClearBy (m : ℝ) (c : Collection Shape) (p : V3) : Prop :=
  ∀ v : V3, (∀ i, |v i| < m) → ∀ i, p + v ∉ wallPoints c i

theorem load_passage_scene {files : Files} {path : String}
    (h : files path = some smallPassageUrdf) : importUrdf files path = .ok (passageScene 0.8) := by
  rw [import_scene (by simp) (by simp) h]
  exact congrArg _ passage_eq

/-- **C123** is false: the seventh point of the small passage lies in the lintel. -/
theorem C123_refuted : ¬ C123_statement := by
  intro h
  obtain ⟨scene, h1, h2⟩ := h (tasksSmallPassage, smallPassageUrdf) (by simp [editorTasks])
    (fun _ => some smallPassageUrdf) "" rfl
  rw [load_passage_scene rfl] at h1
  cases h1
  obtain ⟨ps, h3, h4⟩ := h2 _ (List.mem_singleton.2 rfl)
  have := (points_freeLine _ _ 15).unique h3
  subst this
  obtain ⟨j, hj⟩ := ((C118_passage 0.8 6 (by norm_num)).1).2 (.inl rfl)
  exact h4 _ (List.mem_map.2 ⟨6, by simp, rfl⟩) j hj

/-- **C123**, the small passage: of the fifteen points of the editor's task exactly the three in the
middle touch the lintel of the editor's scene. -/
theorem C123_passage {files : Files} {path : String} (h : files path = some smallPassageUrdf) :
    ∃ scene ps, importUrdf files path = .ok scene ∧
      (∃ pd, tasksSmallPassage = [pd] ∧ PointsAt pd ps) ∧ ps.length = 15 ∧
      ∀ (i : Nat) p, ps[i]? = some p →
        ((∃ j, p ∈ wallPoints scene j) ↔ i = 6 ∨ i = 7 ∨ i = 8) := by
  refine ⟨_, _, load_passage_scene h, ⟨_, rfl, points_freeLine _ _ 15⟩, by simp, fun i p hp => ?_⟩
  rw [List.getElem?_map, Option.map_eq_some_iff] at hp
  obtain ⟨k, hk, rfl⟩ := hp
  obtain ⟨hlt, he⟩ := List.getElem?_eq_some_iff.1 hk
  rw [List.getElem_range] at he
  subst he
  exact (C118_passage 0.8 i (by simpa using hlt)).1

/-- **C123**, the welding task industrial_1: of the thirty points exactly three touch an obstacle: the
last of the approach, the first of the weld and the first of the retraction.  They touch the corner of
the table with the side plate, boxes 2 and 4, and nothing else. -/
theorem C123_industrial {files : Files} {path : String} (h : files path = some industrial1Urdf) :
    ∃ scene p1 p2 p3, importUrdf files path = .ok scene ∧
      (∃ a w r, tasksIndustrial1 = [a, w, r] ∧ PointsAt a p1 ∧ PointsAt w p2 ∧ PointsAt r p3) ∧
      p1.length = 10 ∧ p2.length = 10 ∧ p3.length = 10 ∧
      (∀ (i : Nat) p j, p1[i]? = some p → (p ∈ wallPoints scene j ↔ i = 9 ∧ (j = 2 ∨ j = 4))) ∧
      (∀ (i : Nat) p j, p2[i]? = some p → (p ∈ wallPoints scene j ↔ i = 0 ∧ (j = 2 ∨ j = 4))) ∧
      ∀ (i : Nat) p j, p3[i]? = some p → (p ∈ wallPoints scene j ↔ i = 0 ∧ (j = 2 ∨ j = 4)) := by
  have hload : importUrdf files path = .ok industrialScene := (C122_import files path).2.2.2.2 h
  refine ⟨_, _, _, _, hload, ⟨_, _, _, rfl, points_eulerLine _ _ _ _ 10, points_eulerLine _ _ _ _ 10,
    points_eulerLine _ _ _ _ 10⟩, by simp, by simp, by simp, ?_, ?_, ?_⟩
  all_goals
    intro i p j hp
    rw [List.getElem?_map, Option.map_eq_some_iff] at hp
    obtain ⟨k, hk, rfl⟩ := hp
    obtain ⟨hlt, he⟩ := List.getElem?_eq_some_iff.1 hk
    rw [List.getElem_range] at he
    subst he
    simp only [List.length_range] at hlt
    rw [industrialScene, mem_upright]
    match j with
    | 0 | 1 | 2 | 3 | 4 | 5 =>
      simp only [List.getElem?_cons_zero, List.getElem?_cons_succ, Option.some.injEq,
        exists_eq_left', Fin.forall_fin_succ, Fin.isValue, onLine, abs_le, Matrix.cons_val,
        Fin.succ_zero_eq_one, Fin.succ_one_eq_two, IsEmpty.forall_iff, and_true]
      interval_cases i <;> norm_num
    | j + 6 =>
      simp

theorem onLine_between {a b : V3} {n k : Nat} (h : k < n) (i : Fin 3) :
    min (a i) (b i) ≤ onLine a b n k i ∧ onLine a b n k i ≤ max (a i) (b i) := by
  have h0 : 0 ≤ (k : ℝ) / ((n : ℝ) - 1) := by
    have : (1 : ℝ) ≤ n := by exact_mod_cast (by omega : 1 ≤ n)
    exact div_nonneg (by positivity) (by linarith)
  have h1 : (k : ℝ) / ((n : ℝ) - 1) ≤ 1 := by
    have hk : (k : ℝ) ≤ (n : ℝ) - 1 := by
      have : (k : ℝ) + 1 ≤ n := by exact_mod_cast h
      linarith
    rcases eq_or_lt_of_le ((Nat.cast_nonneg k).trans hk) with h' | h'
    · rw [← h', div_zero]; exact zero_le_one
    · exact (div_le_one h').2 hk
  unfold onLine
  rcases le_total (a i) (b i) with h | h
  · rw [min_eq_left h, max_eq_right h]
    constructor <;> nlinarith
  · rw [min_eq_right h, max_eq_left h]
    constructor <;> nlinarith

/-- **C123**, what holds: the points of circle.json keep 3 cm distance from the scene circle.urdf, those
of path_in_box.json 4 cm from path_in_box.urdf, and those of torch_obstacle.json 1.4 cm from
torch_obstacle.urdf.  Missing: the touching points of C123_passage and C123_industrial. -/
theorem C123_partial (files : Files) (path : String) :
    (files path = some circleUrdf → ∃ scene ps, importUrdf files path = .ok scene ∧
      (∃ pd, tasksCircle = [pd] ∧ PointsAt pd ps) ∧ ps.length = 15 ∧
      ∀ p ∈ ps, ClearBy 0.03 scene p) ∧
    (files path = some pathInBoxUrdf → ∃ scene ps, importUrdf files path = .ok scene ∧
      (∃ pd, tasksPathInBox = [pd] ∧ PointsAt pd ps) ∧ ps.length = 10 ∧
      ∀ p ∈ ps, ClearBy 0.04 scene p) ∧
    (files path = some torchObstacleUrdf → ∃ scene ps, importUrdf files path = .ok scene ∧
      (∃ pd, tasksTorchObstacle = [pd] ∧ PointsAt pd ps) ∧ ps.length = 10 ∧
      ∀ p ∈ ps, ClearBy 0.014 scene p) := by
  refine ⟨fun h => ?_, fun h => ?_, fun h => ?_⟩
  · obtain ⟨ps, c1, c2, c3, -⟩ := C53 (axis := ![0, 0, 1]) (by intro h; simpa using congrFun h 2)
      ![0.8, 0, 0.1] ![0.6, 0, 0.1] 15
    have hpos : Positions circleEntry 15 ps := Or.inr ⟨_, _, _, rfl, rfl, rfl, rfl, rfl, c1⟩
    obtain ⟨pts, g1, g2, g3⟩ := (C56_path (d := ⟨some circleEntry, none⟩) rfl hpos).1 rfl
    refine ⟨_, ps, import_scene (by simp) (by simp) h, ⟨_, rfl, pts, g1, ?_⟩, c2, fun p hp => ?_⟩
    · exact List.Forall₂.imp (fun _ _ h => .inl (.inl h)) g3.flip
    · have hz := (c3 p hp).2
      simp [dotProduct, Fin.sum_univ_three] at hz
      intro v hv i hi
      obtain ⟨b, hb, hx⟩ := (mem_upright _ _ _).1 hi
      match i, hb with
      | 0, hb =>
        cases hb
        have h2 := hx 2
        have hv2 := hv 2
        simp only [Pi.add_apply, Matrix.cons_val, abs_le, abs_lt] at h2 hv2
        linarith [h2.2, hv2.1]
      | i + 1, hb => simp at hb
  · refine ⟨_, _, (C122_import files path).2.2.1 h, ⟨_, rfl, points_eulerLine _ _ _ _ 10⟩, by simp,
      fun p hp => ?_⟩
    obtain ⟨k, hk, rfl⟩ := List.mem_map.1 hp
    have hb := fun i => onLine_between (a := ![-0.69, 0.35, 0.05]) (b := ![0.69, 0.35, 0.05])
      (List.mem_range.1 hk) i
    have h0 := hb 0
    have h1 := hb 1
    have h2 := hb 2
    simp only [Matrix.cons_val, min_self, max_self] at h0 h1 h2
    rw [min_eq_left (by norm_num), max_eq_right (by norm_num)] at h0
    exact clear_of_cavity (abs_le.2 ⟨by linarith [h0.1], by linarith [h0.2]⟩) h1.2 h2.1
      (by linarith [h2.2])
  · refine ⟨_, _, (C122_import files path).2.2.2.1 h, ⟨_, rfl, points_eulerLine _ _ _ _ 10⟩, by simp,
      fun p hp => ?_⟩
    obtain ⟨k, hk, rfl⟩ := List.mem_map.1 hp
    have hb := fun i => onLine_between (a := ![0.82585786, -0.25, 0.12414214])
      (b := ![0.82585786, 0.25, 0.12414214]) (List.mem_range.1 hk) i
    have h0 := hb 0
    have h2 := hb 2
    simp only [Matrix.cons_val, min_self, max_self] at h0 h2
    intro v hv i hi
    obtain ⟨b, hb, hx⟩ := (mem_upright _ _ _).1 hi
    have hv0 := abs_lt.1 (hv 0)
    have hv2 := abs_lt.1 (hv 2)
    have hx0 := abs_le.1 (hx 0)
    have hx2 := abs_le.1 (hx 2)
    match i, hb with
    | 0, hb =>
      cases hb
      simp only [Pi.add_apply, Matrix.cons_val] at hx0 hx2
      norm_num at *
      linarith
    | 1, hb =>
      cases hb
      simp only [Pi.add_apply, Matrix.cons_val] at hx0 hx2
      norm_num at *
      linarith
    | 2, hb =>
      cases hb
      simp only [Pi.add_apply, Matrix.cons_val] at hx0 hx2
      norm_num at *
      linarith
    | 3, hb =>
      cases hb
      simp only [Pi.add_apply, Matrix.cons_val] at hx0 hx2
      norm_num at *
      linarith
    | i + 4, hb => simp at hb

/-! ## C124: the three motions of industrial_1 -/

/-- One motion ends where the next one starts. -/
def Joined (pd pd' : PathDict) : Prop := ∃ ps qs, PointsAt pd ps ∧ PointsAt pd' qs ∧
  ∃ p, ps.getLast? = some p ∧ qs.head? = some p

/-- The full property: each motion of the task industrial_1 starts where the one before ends. -/
def C124_statement : Prop := ∀ (i : Nat) pd pd', tasksIndustrial1[i]? = some pd →
  tasksIndustrial1[i + 1]? = some pd' → Joined pd pd'

theorem line_ends (a b : V3) {n : Nat} (h : 2 ≤ n) :
    ((List.range n).map (onLine a b n)).head? = some a ∧
    ((List.range n).map (onLine a b n)).getLast? = some b := by
  have hn : (n : ℝ) - 1 ≠ 0 := by
    have : (2 : ℝ) ≤ n := by exact_mod_cast h
    linarith
  obtain ⟨m, rfl⟩ : ∃ m, n = m + 1 := ⟨n - 1, by omega⟩
  constructor
  · rw [List.range_succ_eq_map]
    simp only [List.map_cons, List.head?_cons, Option.some.injEq]
    ext i
    simp [onLine]
  · rw [List.range_succ, List.map_append, List.map_singleton, List.getLast?_concat]
    congr 1
    ext i
    have : ((m : ℝ) / (((m + 1 : Nat) : ℝ) - 1)) = 1 := by
      push_cast at hn ⊢
      rw [add_sub_cancel_right] at hn ⊢
      exact div_self hn
    rw [onLine, this]
    ring

/-- **C124**, exactly when two lines of the editor are joined. -/
theorem C124_iff (a b rpy tol a' b' rpy' tol' : V3) {n n' : Nat} (h : 2 ≤ n) (h' : 2 ≤ n') :
    Joined (eulerLine a b rpy tol n) (eulerLine a' b' rpy' tol' n') ↔ b = a' := by
  have h1 := points_eulerLine a b rpy tol n
  have h2 := points_eulerLine a' b' rpy' tol' n'
  constructor
  · rintro ⟨ps, qs, g1, g2, p, g3, g4⟩
    rw [← h1.unique g1, (line_ends a b h).2] at g3
    rw [← h2.unique g2, (line_ends a' b' h').1] at g4
    cases g3
    cases g4
    rfl
  · rintro rfl
    exact ⟨_, _, h1, h2, b, (line_ends a b h).2, (line_ends b b' h').1⟩

/-- Two lines that are joined. -/
example : Joined (eulerLine ![0, 0, 0] ![1, 0, 0] 0 0 10) (eulerLine ![1, 0, 0] ![1, 1, 0] 0 0 10) :=
  (C124_iff _ _ _ _ _ _ _ _ (by norm_num) (by norm_num)).2 rfl

/-- **C124**, what holds: the approach ends where the weld starts.  Missing: the weld and the
retraction, which are not joined. -/
theorem C124_partial : ∃ a w r, tasksIndustrial1 = [a, w, r] ∧ Joined a w ∧ ¬ Joined w r :=
  ⟨_, _, _, rfl, (C124_iff _ _ _ _ _ _ _ _ (n := 10) (n' := 10) (by norm_num) (by norm_num)).2 rfl,
    fun h => by
      have := (C124_iff _ _ _ _ _ _ _ _ (n := 10) (n' := 10) (by norm_num) (by norm_num)).1 h
      have := congrFun this 1
      norm_num at this⟩

/-- **C124** is false: the retraction starts where the seam ends, but the weld ends in the air. -/
theorem C124_refuted : ¬ C124_statement := by
  intro h
  obtain ⟨a, w, r, h1, -, h3⟩ := C124_partial
  rw [C124_statement, h1] at h
  exact h3 (h 1 w r rfl rfl)

/-- The seam: the corner of the table with the inner face of the side plate. -/
def OnSeam (p : V3) : Prop := 0.7 ≤ p 0 ∧ p 0 ≤ 1 ∧ p 1 = -0.15 ∧ p 2 = 0

/-- **C124**, the weld leaves the seam at once: its first point is on the seam, each later one is above
and beside it, by `i / 9` of 5 cm; it ends where the retraction ends. -/
theorem C124_weld : ∃ a w r ps qs, tasksIndustrial1 = [a, w, r] ∧ PointsAt w ps ∧ PointsAt r qs ∧
    ps.length = 10 ∧ ps.getLast? = qs.getLast? ∧ (∃ p, qs.head? = some p ∧ OnSeam p) ∧
    ∀ (i : Nat) p, ps[i]? = some p →
      (OnSeam p ↔ i = 0) ∧ p 1 = -0.15 + i / 9 * 0.05 ∧ p 2 = i / 9 * 0.05 := by
  refine ⟨_, _, _, _, _, rfl, points_eulerLine _ _ _ _ 10, points_eulerLine _ _ _ _ 10, by simp, ?_,
    ⟨![0.71, -0.15, 0], (line_ends _ _ (by norm_num)).1, ?_⟩, fun i p hp => ?_⟩
  · rw [(line_ends _ _ (by norm_num)).2, (line_ends _ _ (by norm_num)).2]
  · norm_num [OnSeam]
    rfl
  · rw [List.getElem?_map, Option.map_eq_some_iff] at hp
    obtain ⟨k, hk, rfl⟩ := hp
    obtain ⟨hlt, he⟩ := List.getElem?_eq_some_iff.1 hk
    rw [List.getElem_range] at he
    subst he
    have e1 : onLine ![0.99, -0.15, 0] ![0.72, -0.1, 0.05] 10 i 1 = -0.15 + i / 9 * 0.05 := by
      simp only [onLine, Matrix.cons_val]; norm_num
    have e2 : onLine ![0.99, -0.15, 0] ![0.72, -0.1, 0.05] 10 i 2 = i / 9 * 0.05 := by
      simp only [onLine, Matrix.cons_val]; norm_num
    refine ⟨⟨fun h => ?_, fun h => ?_⟩, e1, e2⟩
    · have := h.2.2.2
      rw [e2] at this
      have : (i : ℝ) = 0 := by linarith
      exact_mod_cast this
    · subst h
      norm_num [OnSeam, onLine]
      rfl

/-! ## C125: the tasks of the editor and the scripts of the same name -/

theorem load_eulerPts (a b rpy tol : V3) (n : Nat) : ∃ es : Fin 3 → Entry,
    (∀ i, Centred (guessAngleUnit (rpy i)) (guessAngleUnit (tol i)) (es i)) ∧
    (∀ i, nominal (es i) = guessAngleUnit (rpy i)) ∧
    parsePath ⟨some (eulerLine a b rpy tol n), none⟩ =
      .ok ((List.range n).map fun k => .euler (eulerPt (fun i => .num (onLine a b n k i)) es)) := by
  obtain ⟨es, h1, h2, h3⟩ := symmetric3 (fun i => guessAngleUnit (rpy i))
    (fun i => guessAngleUnit (tol i))
  refine ⟨es, h2, h3, ?_⟩
  have hpos : parsePositions (eulerLine a b rpy tol n) = _ := linspaceV_ok a b n
  unfold parsePath
  simp only [key, bind, Except.bind, hpos]
  rw [parseTolerance_euler (pd := eulerLine a b rpy tol n) rfl rfl rfl rfl]
  simp only [createSymmetricEulerTolerance, bind, Except.bind, List.map_cons, List.map_nil, h1]
  refine (Path.mapM_ok (g := fun p : V3 => PathPt.euler (eulerPt (fun i => .num (p i)) es))
    fun p _ => ?_).trans ?_
  · have := eulerPt_new (fun i => .num (p i)) es
    simp only [coords, List.map_cons, List.map_nil, this]
  · rw [List.map_map]
    rfl

/-- Two frames that agree to a thousandth in every entry. -/
def Near (T T' : M4) : Prop := ∀ i j, |T i j - T' i j| ≤ 0.001

/-- The full property: every frame that kingpin.py asks for at a point is, to a thousandth, asked for at
that point of the editor's task torch_obstacle.json. -/
def C125_statement : Prop := ∀ pd ∈ tasksTorchObstacle, ∃ path pts, kingpinPath = .ok path ∧
  parsePath ⟨some pd, none⟩ = .ok pts ∧ path.length = pts.length ∧
  ∀ (i : Nat) tp tp', path[i]? = some tp → pts[i]? = some tp' → ∀ (d : Draws) (n : Nat) Ts Ts',
    getSamples d n none tp = .ok Ts → getSamples d n none tp' = .ok Ts' →
    ∀ T ∈ Ts, ∃ T' ∈ Ts', Near T T'

theorem guess_small {v : ℝ} (h : v ≤ 10) : guessAngleUnit v = v := if_neg (not_lt.2 h)

/-- The samples of the file torch_obstacle.json. -/
theorem torch_samples : ∃ pd pts, tasksTorchObstacle = [pd] ∧
    parsePath ⟨some pd, none⟩ = .ok pts ∧ pts.length = 10 ∧
    ∀ (i : Nat) tp, pts[i]? = some tp → ∀ (d : Draws) (n : Nat), ∃ Ts,
      getSamples d n none tp = .ok Ts ∧ Ts.length = 100 ∧
      ∀ T ∈ Ts, ∃ j k : Nat, j < 10 ∧ k < 10 ∧
        T = mkTf (Rxyz ![-1.5707963267948966 + (j : ℝ) / 9 * 3.1415926535897932, 2.356194490192345,
          -1.5707963267948966 + (k : ℝ) / 9 * 3.1415926535897932])
          ![0.82585786, -0.25 + 0.5 * (i : ℝ) / 9, 0.12414214] := by
  obtain ⟨es, h1, -, h3⟩ := load_eulerPts ![0.82585786, -0.25, 0.12414214]
    ![0.82585786, 0.25, 0.12414214] ![0, 2.356194490192345, 0]
    ![1.5707963267948966, 0, 1.5707963267948966] 10
  refine ⟨_, _, rfl, h3, by simp, fun i tp hi d n => ?_⟩
  rw [List.getElem?_map, Option.map_eq_some_iff] at hi
  obtain ⟨k, hk, rfl⟩ := hi
  obtain ⟨hlt, he⟩ := List.getElem?_eq_some_iff.1 hk
  rw [List.getElem_range] at he
  subst he
  have c0 := h1 0
  have c1 := h1 1
  have c2 := h1 2
  simp only [Matrix.cons_val] at c0 c1 c2
  rw [guess_small (by norm_num), guess_small (by norm_num)] at c0 c1 c2
  obtain ⟨t0, e0, l0, u0, -, n0⟩ := c0.1 (by norm_num)
  have e1 := c1.2 (by norm_num)
  obtain ⟨t2, e2, l2, u2, -, n2⟩ := c2.1 (by norm_num)
  have hs : ∀ m, Sound (es m) := by
    intro m
    fin_cases m
    · show Sound (es 0)
      rw [e0]
      exact ⟨by rw [l0, u0]; norm_num, by rw [n0]; norm_num⟩
    · show Sound (es 1)
      rw [e1]
      trivial
    · show Sound (es 2)
      rw [e2]
      exact ⟨by rw [l2, u2]; norm_num, by rw [n2]; norm_num⟩
  obtain ⟨pt, cs, g1, g2, g3, g4, -⟩ := C47_samples (pos := fun m => .num (onLine
    ![0.82585786, -0.25, 0.12414214] ![0.82585786, 0.25, 0.12414214] 10 i m)) (fun m => trivial) hs
  rw [(eulerPt_new (fun m => .num (onLine ![0.82585786, -0.25, 0.12414214]
    ![0.82585786, 0.25, 0.12414214] 10 i m)) es)] at g1
  cases g1
  refine ⟨_, by unfold getSamples; simp only [g2]; rfl, ?_, fun T hT => ?_⟩
  · rw [List.length_map, g3]
    simp [Fin.prod_univ_three, gridCount, e0, e1, e2, n0, n2]
  · obtain ⟨⟨x, a⟩, hc, rfl⟩ := List.mem_map.1 hT
    obtain ⟨gx, ga⟩ := (g4 x a).1 hc
    have ga0 := ga 0
    have ga1 := ga 1
    have ga2 := ga 2
    rw [e0] at ga0
    rw [e1] at ga1
    rw [e2] at ga2
    obtain ⟨j, hj, a0⟩ := ga0
    obtain ⟨k, hk', a2⟩ := ga2
    rw [l0, u0, n0] at a0
    rw [l2, u2, n2] at a2
    refine ⟨j, k, by rw [n0] at hj; simpa using hj, by rw [n2] at hk'; simpa using hk', ?_⟩
    have hx : x = ![0.82585786, -0.25 + 0.5 * (i : ℝ) / 9, 0.12414214] := by
      ext m
      rw [show x m = _ from gx m]
      fin_cases m
      · simp [onLine]
      · simp only [onLine, Fin.mk_one, Matrix.cons_val]
        norm_num
        ring
      · simp [onLine]
    have ha : a = ![-1.5707963267948966 + (j : ℝ) / 9 * 3.1415926535897932, 2.356194490192345,
        -1.5707963267948966 + (k : ℝ) / 9 * 3.1415926535897932] := by
      ext m
      fin_cases m
      · show a 0 = _
        rw [a0]; norm_num
      · exact ga1
      · show a 2 = _
        rw [a2]; norm_num
    rw [hx, ha]

theorem near_three_quarter : |Real.cos 2.356194490192345 - -(Real.sqrt 2 / 2)| ≤ 0.0001 ∧
    |Real.sin 2.356194490192345 - Real.sqrt 2 / 2| ≤ 0.0001 := by
  have h1 := Real.pi_gt_d20
  have h2 := Real.pi_lt_d20
  have hd : |(2.356194490192345 : ℝ) - 3 * Real.pi / 4| ≤ 0.0001 := by
    rw [abs_le]
    constructor <;> linarith
  have hc := Real.lipschitzWith_cos.dist_le_mul 2.356194490192345 (3 * Real.pi / 4)
  have hs := Real.lipschitzWith_sin.dist_le_mul 2.356194490192345 (3 * Real.pi / 4)
  rw [Real.dist_eq, Real.dist_eq, cos_three_quarter] at hc
  rw [Real.dist_eq, Real.dist_eq, sin_three_quarter] at hs
  simp only [NNReal.coe_one, one_mul] at hc hs
  exact ⟨hc.trans hd, hs.trans hd⟩

theorem sqrt_two_between : (1.4142135 : ℝ) ≤ Real.sqrt 2 ∧ Real.sqrt 2 ≤ 1.4142136 := by
  constructor
  · exact Real.le_sqrt_of_sq_le (by norm_num)
  · exact Real.sqrt_le_iff.2 ⟨by norm_num, by norm_num⟩

/-- No angle of an even grid around 0 is near 0. -/
theorem grid_sin {j : Nat} (hj : j < 10) :
    0.11 ≤ |Real.sin (-1.5707963267948966 + (j : ℝ) / 9 * 3.1415926535897932)| := by
  have h1 := Real.pi_gt_d20
  have h2 := Real.pi_lt_d20
  have key : ∀ x : ℝ, 0.1745 ≤ x → x ≤ Real.pi / 2 → 0.11 ≤ Real.sin x := fun x h h' => by
    have := Real.mul_le_sin (by linarith) h'
    have h3 : (0.636 : ℝ) ≤ 2 / Real.pi := by
      rw [le_div_iff₀ Real.pi_pos]
      linarith
    have : 0.636 * 0.1745 ≤ 2 / Real.pi * x := mul_le_mul h3 h (by norm_num) (by positivity)
    norm_num at this ⊢
    linarith
  rcases le_or_gt 5 j with h | h
  · have h5 : (5 : ℝ) ≤ j := by exact_mod_cast h
    have h9 : (j : ℝ) ≤ 9 := by exact_mod_cast (by omega : j ≤ 9)
    refine (key _ ?_ ?_).trans (le_abs_self _) <;> linarith
  · have h4 : (j : ℝ) ≤ 4 := by exact_mod_cast (by omega : j ≤ 4)
    have h0 : (0 : ℝ) ≤ j := by positivity
    rw [← abs_neg, ← Real.sin_neg]
    refine (key _ ?_ ?_).trans (le_abs_self _) <;> linarith

theorem weldFrame_entries (i j k : Nat) : weldFrame i j k 1 2 = 0 ∧
    weldFrame i j k 0 2 = Real.sin (Real.pi / 2 + (j : ℝ) / 19 * (Real.pi / 2)) := by
  constructor <;> simp [weldFrame, mkTf, rotY, rotZ, Matrix.mul_apply, Fin.sum_univ_three]

theorem Rxyz_entries (a p : V3) : mkTf (Rxyz a) p 1 2 = -(Real.sin (a 0) * Real.cos (a 1)) ∧
    mkTf (Rxyz a) p 0 2 = Real.sin (a 1) := by
  constructor <;> simp [Rxyz, mkTf, rotX, rotY, rotZ, Matrix.mul_apply, Fin.sum_univ_three]

/-- **C125**, torch_obstacle.json against kingpin.py: ten points each, at the same positions to `10⁻⁸`,
but 100 frames each instead of 600, and no frame of the file is near any frame of the script: the torch
of the file is turned sideways by at least 7 hundredths. -/
theorem C125_partial : ∃ pd path pts, tasksTorchObstacle = [pd] ∧ kingpinPath = .ok path ∧
    parsePath ⟨some pd, none⟩ = .ok pts ∧ path.length = 10 ∧ pts.length = 10 ∧
    ∀ (i : Nat) tp tp', path[i]? = some tp → pts[i]? = some tp' → ∀ (d : Draws) (n : Nat), ∃ Ts Ts',
      getSamples d n none tp = .ok Ts ∧ getSamples d n none tp' = .ok Ts' ∧
      Ts.length = 600 ∧ Ts'.length = 100 ∧
      ∀ T ∈ Ts, ∀ T' ∈ Ts', (∀ m, |posPart T m - posPart T' m| ≤ 1 / 10 ^ 8) ∧
        0.07 ≤ |T 1 2 - T' 1 2| ∧ |T' 0 2 - Real.sqrt 2 / 2| ≤ 0.0001 := by
  obtain ⟨path, h1, h2, h3⟩ := kingpin_path
  obtain ⟨pd, pts, g0, g1, g2, g3⟩ := torch_samples
  refine ⟨pd, path, pts, g0, h1, g1, h2, g2, fun i tp tp' hi hi' d n => ?_⟩
  obtain ⟨Ts, a1, a2, a3⟩ := h3 i tp hi d n
  obtain ⟨Ts', b1, b2, b3⟩ := g3 i tp' hi' d n
  refine ⟨Ts, Ts', a1, b1, a2, b2, fun T hT T' hT' => ?_⟩
  obtain ⟨j, k, hj, hk, rfl⟩ := (a3 T).1 hT
  obtain ⟨j', k', hj', hk', rfl⟩ := b3 T' hT'
  obtain ⟨s1, s2⟩ := sqrt_two_between
  obtain ⟨n1, n2⟩ := near_three_quarter
  refine ⟨fun m => ?_, ?_, ?_⟩
  · have hdiv : (0.02 : ℝ) / Real.sqrt 2 = 0.01 * Real.sqrt 2 := by
      rw [div_eq_iff (by positivity), mul_assoc, sqrt_two_sq]
      norm_num
    rw [weldFrame, posPart_mkTf, posPart_mkTf, weldPos, seamPoint, neg_div, hdiv]
    fin_cases m
    · simp only [Fin.zero_eta, Pi.add_apply, Matrix.cons_val, abs_le]
      constructor <;> norm_num at s1 s2 ⊢ <;> linarith
    · simp
    · simp only [Fin.reduceFinMk, Pi.add_apply, Matrix.cons_val, abs_le]
      constructor <;> norm_num at s1 s2 ⊢ <;> linarith
  · rw [(weldFrame_entries _ _ _).1, (Rxyz_entries _ _).1, zero_sub, abs_neg, abs_neg, abs_mul]
    have hs := grid_sin hj'
    simp only [Matrix.cons_val]
    have hc : 0.7 ≤ |Real.cos 2.356194490192345| := by
      rw [← abs_neg]
      refine le_trans ?_ (le_abs_self _)
      have := (abs_le.1 n1).2
      norm_num at s1 this ⊢
      linarith
    refine le_trans ?_ (mul_le_mul hs hc (by norm_num) (abs_nonneg _))
    norm_num
  · rw [(Rxyz_entries _ _).2]
    exact n2

/-- **C125** is false: where kingpin.py tilts the torch to and fro, the file rolls it sideways. -/
theorem C125_refuted : ¬ C125_statement := by
  intro h
  obtain ⟨pd, path, pts, h0, h1, h2, h3, h4, h5⟩ := C125_partial
  obtain ⟨path', pts', g1, g2, -, g3⟩ := h pd (by rw [h0]; simp)
  rw [h1] at g1
  rw [h2] at g2
  cases g1
  cases g2
  have hi : path[0]? = some path[0] := List.getElem?_eq_getElem (by omega)
  have hi' : pts[0]? = some pts[0] := List.getElem?_eq_getElem (by omega)
  obtain ⟨Ts, Ts', s1, s2, l1, l2, hfar⟩ := h5 0 _ _ hi hi' ⟨fun _ => 0, 0, fun _ => (0, 0, 0), none⟩ 0
  obtain ⟨T, hT⟩ := List.exists_mem_of_length_pos (by omega : 0 < Ts.length)
  obtain ⟨T', hT', hn⟩ := g3 0 _ _ hi hi' ⟨fun _ => 0, 0, fun _ => (0, 0, 0), none⟩ 0 Ts Ts' s1 s2 T hT
  have := (hfar T hT T' hT').2.1
  have h6 := hn 1 2
  norm_num at this h6
  linarith

/-- **C125**, path_in_box.json against the first path of workpiece_model.py: ten points each, at exactly
the same positions, with the same angles to `10⁻⁸`, the second without tolerance in both; but the file
gives 100 frames for each point and the module 30. -/
theorem C125_box : ∃ pd path pts, tasksPathInBox = [pd] ∧ weldPath1 0.8 1.6 0.01 0.1 10 = .ok path ∧
    parsePath ⟨some pd, none⟩ = .ok pts ∧ path.length = 10 ∧ pts.length = 10 ∧
    ∀ (i : Nat) e tp, path[i]? = some e → pts[i]? = some tp → ∃ e' : TolEulerPt, tp = .euler e' ∧
      (∃ p r r' : V3, e.pNominal = [p 0, p 1, p 2, r 0, r 1, r 2] ∧
        e'.pNominal = [p 0, p 1, p 2, r' 0, r' 1, r' 2] ∧ ∀ j, |r j - r' j| ≤ 1 / 10 ^ 8) ∧
      e.rpyHasTol = [true, false, true] ∧ e'.rpyHasTol = [true, false, true] ∧
      ∃ Ts Ts', e.getSamples = .ok Ts ∧ e'.getSamples = .ok Ts' ∧ Ts.length = 30 ∧
        Ts'.length = 100 := by
  have hpi1 := Real.pi_gt_d20
  have hpi2 := Real.pi_lt_d20
  obtain ⟨es, c, hn, h3⟩ := load_eulerPts ![-0.69, 0.35, 0.05] ![0.69, 0.35, 0.05]
    ![-2.35619449, 0, 3.14159265] ![0.5, 0, 3.1415] 10
  have c0 := c 0
  have c1 := c 1
  have c2 := c 2
  simp only [Matrix.cons_val] at c0 c1 c2
  rw [guess_small (by norm_num), guess_small (by norm_num)] at c0 c2
  rw [guess_small (by norm_num)] at c1
  obtain ⟨t0, e0, l0, u0, -, n0⟩ := c0.1 (by norm_num)
  have e1 := c1.2 (by norm_num)
  obtain ⟨t2, e2, l2, u2, -, n2⟩ := c2.1 (by norm_num)
  have hn0 := hn 0
  have hn1 := hn 1
  have hn2 := hn 2
  simp only [Matrix.cons_val] at hn0 hn1 hn2
  rw [guess_small (by norm_num)] at hn0 hn1 hn2
  have hs : ∀ m, Sound (es m) := by
    intro m
    fin_cases m
    · show Sound (es 0)
      rw [e0]
      exact ⟨by rw [l0, u0]; norm_num, by rw [n0]; norm_num⟩
    · show Sound (es 1)
      rw [e1]
      trivial
    · show Sound (es 2)
      rw [e2]
      exact ⟨by rw [l2, u2]; norm_num, by rw [n2]; norm_num⟩
  set rx : ℝ := -3 * Real.pi / 4 with hrx
  set tx : TolNum := ⟨rx - 0.5, rx + 0.5, rx - 0.5 + (rx + 0.5 - (rx - 0.5)) / 2, 3⟩ with htx
  set tz : TolNum := ⟨Real.pi - Real.pi, Real.pi + Real.pi,
    Real.pi - Real.pi + (Real.pi + Real.pi - (Real.pi - Real.pi)) / 2, 10⟩ with htz
  set A : Fin 3 → Entry := ![.tol tx, .num 0, .tol tz] with hA
  set a : V3 := ![-1.6 / 2 + 0.01 + 0.1, 0.8 / 2 - 0.01, 0.01] with ha
  set b : V3 := ![1.6 / 2 - 0.01 - 0.1, 0.8 / 2 - 0.01, 0.01] with hb
  set P : ℝ → V3 := fun s => (1 - s) • a + s • b + ![0, -0.04, 0.04] with hP
  have hpath : weldPath1 0.8 1.6 0.01 0.1 10 = .ok ((List.range 10).map fun (k : Nat) =>
      eulerPt (fun i => .num (P ((k : ℝ) / 9) i)) A) := by
    have hl : linspace 0 1 10 = .ok ((List.range 10).map fun (i : Nat) => (i : ℝ) / 9) := by
      have := linspace_unit 10
      rw [show (((10 : Nat) : Int)) = 10 from rfl] at this
      rw [this]
      norm_num
    have h1 : TolNum.new (rx - 0.5) (rx + 0.5) none 3 = .ok tx := rfl
    have h2 : TolNum.new (Real.pi - Real.pi) (Real.pi + Real.pi) none 10 = .ok tz := rfl
    unfold weldPath1 createWeldLine
    simp only [Matrix.cons_val, bind, Except.bind]
    rw [← hrx, ← ha, ← hb, h1]
    simp only []
    rw [h2]
    simp only [hl]
    refine (Path.mapM_ok (g := fun s : ℝ => eulerPt (fun i => .num (P s i)) A) fun s _ => ?_).trans ?_
    · exact eulerPt_new (fun i => .num (P s i)) A
    · rw [List.map_map]
      rfl
  refine ⟨_, _, _, rfl, hpath, h3, by simp, by simp, fun i e tp hi hi' => ?_⟩
  obtain ⟨path', q1, -, q3⟩ := C89_weld_line a b ![-3 * Real.pi / 4, 0, Real.pi] ![0, -0.04, 0.04] 10
  have q4 : path' = _ := Except.ok.inj (q1.symm.trans hpath)
  obtain ⟨-, Ts, f1, f2, -⟩ := q3 i e (by rw [q4]; exact hi)
  rw [List.getElem?_map, Option.map_eq_some_iff] at hi hi'
  obtain ⟨k, hk, rfl⟩ := hi
  obtain ⟨k', hk', rfl⟩ := hi'
  obtain ⟨hlt, he⟩ := List.getElem?_eq_some_iff.1 hk
  rw [List.getElem_range] at he
  subst he
  obtain ⟨_, he⟩ := List.getElem?_eq_some_iff.1 hk'
  rw [List.getElem_range] at he
  subst he
  obtain ⟨pt, cs, g1, g2, g3, -⟩ := C47_samples (pos := fun m => .num (onLine
    ![-0.69, 0.35, 0.05] ![0.69, 0.35, 0.05] 10 i m)) (fun m => trivial) hs
  rw [(eulerPt_new (fun m => .num (onLine ![-0.69, 0.35, 0.05] ![0.69, 0.35, 0.05] 10 i m)) es)] at g1
  cases g1
  refine ⟨_, rfl, ⟨onLine ![-0.69, 0.35, 0.05] ![0.69, 0.35, 0.05] 10 i, ![rx, 0, Real.pi],
    ![-2.35619449, 0, 3.14159265], ?_, ?_, ?_⟩, ?_, ?_, Ts, _, f1, g2, f2, ?_⟩
  · have hp : ∀ m, P ((i : ℝ) / 9) m =
        onLine ![-0.69, 0.35, 0.05] ![0.69, 0.35, 0.05] 10 i m := by
      intro m
      fin_cases m
      all_goals
        simp only [onLine, hP, ha, hb, Pi.add_apply, Pi.smul_apply, smul_eq_mul, Matrix.cons_val,
          Fin.zero_eta, Fin.mk_one, Fin.reduceFinMk]
        push_cast
        ring
    simp only [eulerPt, nominal, hp, hA, htx, htz, Matrix.cons_val, List.cons.injEq, true_and,
      and_true]
    constructor <;> ring
  · simp only [eulerPt, hn0, hn1, hn2, Matrix.cons_val]
    rfl
  · intro j
    fin_cases j
    · simp only [Fin.zero_eta, Matrix.cons_val, abs_le, hrx]
      constructor <;> norm_num at hpi1 hpi2 ⊢ <;> linarith
    · simp
    · simp only [Fin.reduceFinMk, Matrix.cons_val, abs_le]
      constructor <;> norm_num at hpi1 hpi2 ⊢ <;> linarith
  · rfl
  · simp [eulerPt, e0, e1, e2, Entry.isTol]
  · rw [List.length_map, g3]
    simp [Fin.prod_univ_three, gridCount, e0, e1, e2, n0, n2]

end

end Verif.Props
