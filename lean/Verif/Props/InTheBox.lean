import Verif.Model.BoxScript
import Verif.Props.EditorFiles
import Verif.Props.OverTable
import Verif.Props.Gui
import Verif.Props.Examples
import Verif.Props.TaskPlot

/-! # C137: path_in_box.py and multiple_paths.py -/

set_option linter.unusedSectionVars false

namespace Verif.Props

open Matrix Verif Verif.Path Verif.Geometry Verif.Kin Verif.ShortestPath Verif.Task Verif.CppGraph
  Verif.Search Verif.Planning Verif.Spec Verif.Util Verif.Resources Verif.Examples Verif.Plot Verif.Gui
  Verif.Io Verif.TaskPlot

noncomputable section

/-- The point lies inside the placed box, not on its faces. -/
def Inside (p : Geometry.Placed Shape) (x : V3) : Prop :=
  ∃ u : V3, |u 0| < p.shape.dx / 2 ∧ |u 1| < p.shape.dy / 2 ∧ |u 2| < p.shape.dz / 2 ∧
    x = p.rot *ᵥ u + p.pos

/-- The collision library reports two boxes that run into each other. -/
def SeesOverlap (hit : Oracle Shape) : Prop := ∀ (a b : Geometry.Placed Shape) (x : V3), Inside a x → Inside b x → hit a b = true

/-- The exact oracle does. -/
theorem boxOracle_sees : SeesOverlap boxOracle := by
  rintro a b x ⟨u, u0, u1, u2, rfl⟩ ⟨v, v0, v1, v2, hv⟩
  exact (boxOracle_iff _ _).2 ⟨u, ⟨u0.le, u1.le, u2.le⟩, v, ⟨v0.le, v1.le, v2.le⟩, hv⟩

/-- The first link of an upright Kuka: where its points are. -/
theorem first_link {r : Robot Shape} (hr : r.links = (kukaRobot 0.18 0.6 0.62 0.115).links) {b : V3}
    (hb : r.tfBase = mkTf 1 b) (q1 : ℝ) (q : List ℝ) (u : V3) :
    act (frameOf r (q1 :: q) 0) u = ![b 0 + Real.cos q1 * (u 0 + 0.18) + Real.sin q1 * u 2,
      b 1 + Real.sin q1 * (u 0 + 0.18) - Real.cos q1 * u 2, b 2 + u 1] := by
  have h0 : frameOf r (q1 :: q) 0 = r.tfBase * dhMat 0.18 (Real.pi / 2) 0 q1 := by
    have := frameBefore_succ r (q := q1 :: q) (k := 0) (x := q1) (by rw [hr]; rfl) rfl
    refine Eq.trans this ?_
    simp [frameBefore, linkProduct, Link.tf]
  have hm : (mkTf 1 b) 3 = ![0, 0, 0, 1] := by
    ext j; fin_cases j <;> simp [mkTf]
  rw [h0, hb, act_mul hm (dhMat_last _ _ _ _), act_mkTf, act_dhMat_coord, Matrix.one_mulVec]
  ext i
  fin_cases i <;> simp only [Fin.zero_eta, Fin.mk_one, Fin.reduceFinMk, Matrix.cons_val, Pi.add_apply,
    Real.cos_pi_div_two, Real.sin_pi_div_two] <;> ring

/-- **C137**, the robot in the box: a Kuka standing upright at a height from -0.1 to 0.11 in the box, not
nearer than 0.1 to its sides, runs into the floor of the box with its first link, in every
configuration. -/
theorem C137_floor {hit : Oracle Shape} (hs : SeesOverlap hit) {r : Robot Shape}
    (hr : r.links = (kukaRobot 0.18 0.6 0.62 0.115).links) {x y z : ℝ}
    (hb : r.tfBase = mkTf 1 ![x, y, z]) (hx : |x| ≤ 0.7) (hy : |y| ≤ 0.3) (h1 : -0.1 < z) (h2 : z < 0.11)
    {q : List ℝ} (hq : q ≠ []) : SceneTouch hit r q workpiece := by
  obtain ⟨q1, q, rfl⟩ := List.exists_cons_of_ne_nil hq
  obtain ⟨v, v1, v2, v3, v4⟩ : ∃ v : ℝ, -0.1 < v ∧ v < 0.1 ∧ 0 < z + v ∧ z + v < 0.01 := by
    have : max (-z) (-0.1) < min (0.01 - z) 0.1 := by
      rw [max_lt_iff, lt_min_iff, lt_min_iff]
      exact ⟨⟨by linarith, by linarith⟩, by linarith, by norm_num⟩
    obtain ⟨v, a, b⟩ := exists_between this
    rw [max_lt_iff] at a
    rw [lt_min_iff] at b
    exact ⟨v, a.2, b.2, by linarith [a.1], by linarith [b.1]⟩
  have hc := Real.abs_cos_le_one q1
  have hsn := Real.abs_sin_le_one q1
  rw [abs_le] at hc hsn hx hy
  refine Or.inr (Or.inl ⟨0, _, by rw [hr]; rfl, 0, 0, ⟨0.3, 0.2, 0.1⟩, ⟨1.6, 0.8, 0.01⟩,
    poseX 0 (-0.09) 0 0.05, mkTf 1 ![0, 0, 0.005], rfl, rfl, by rw [workpiece_upright]; rfl,
    by rw [workpiece_upright]; rfl, ?_⟩)
  refine hs _ _ ![x + Real.sin q1 * 0.05, y - Real.cos q1 * 0.05, z + v]
    ⟨![-0.09, v, 0], ?_, ?_, ?_, ?_⟩ ⟨![x + Real.sin q1 * 0.05, y - Real.cos q1 * 0.05, z + v - 0.005],
      ?_, ?_, ?_, ?_⟩
  · simp only [Matrix.cons_val, abs_lt]; norm_num
  · simp only [Matrix.cons_val, abs_lt]; constructor <;> linarith
  · simp only [Matrix.cons_val, abs_lt]; norm_num
  · have hm : ∀ p : V3, (mkTf 1 p) 3 = ![0, 0, 0, 1] := fun p => by
      ext j; fin_cases j <;> simp [mkTf]
    have hF : IsRigid r.tfBase := by rw [hb]; exact isRigid_mkTf.2 IsRot.one
    have : act (frameOf r (q1 :: q) 0 * poseX 0 (-0.09) 0 0.05) ![-0.09, v, 0] =
        ![x + Real.sin q1 * 0.05, y - Real.cos q1 * 0.05, z + v] := by
      rw [show poseX 0 (-0.09) 0 0.05 = mkTf 1 ![-0.09, 0, 0.05] by rw [poseX_zero],
        act_mul (frameOf_rigid hF _ _).2 (hm _), act_mkTf, Matrix.one_mulVec, first_link hr hb]
      ext i
      fin_cases i <;> simp only [Fin.zero_eta, Fin.mk_one, Fin.reduceFinMk, Matrix.cons_val,
        Pi.add_apply] <;> ring
    exact this.symm
  · simp only [Matrix.cons_val, abs_lt]; constructor <;> linarith
  · simp only [Matrix.cons_val, abs_lt]; constructor <;> linarith
  · simp only [Matrix.cons_val, abs_lt]; constructor <;> linarith
  · show _ = rotPart (1 * mkTf 1 ![0, 0, 0.005]) *ᵥ _ + posPart (1 * mkTf 1 ![0, 0, 0.005])
    rw [one_mul, rotPart_mkTf, posPart_mkTf, Matrix.one_mulVec]
    ext i
    fin_cases i <;> simp

/-- **C137**, where the first link is free: standing upright well inside the box, the first link has a
point in common with the box in one configuration exactly if it has in every one, namely at the heights
of the floor and of the ceiling. -/
theorem C137_heights {r : Robot Shape} (hr : r.links = (kukaRobot 0.18 0.6 0.62 0.115).links)
    {x y z : ℝ} (hb : r.tfBase = mkTf 1 ![x, y, z]) (hx : |x| ≤ 0.5) (hy : |y| ≤ 0.1) {q : List ℝ}
    (hq : q ≠ []) : (∃ p ∈ linkBody r q 0, ∃ i, p ∈ wallPoints workpiece i) ↔
      (-0.1 ≤ z ∧ z ≤ 0.11) ∨ (0.91 ≤ z ∧ z ≤ 1.12) := by
  obtain ⟨q1, q, rfl⟩ := List.exists_cons_of_ne_nil hq
  have hF : IsRigid r.tfBase := by rw [hb]; exact isRigid_mkTf.2 IsRot.one
  have B0 := (C113_kuka 0.18 0.6 0.62 0.115 r hr hF (q1 :: q)).1
  have hc := Real.abs_cos_le_one q1
  have hsn := Real.abs_sin_le_one q1
  have hcs := Real.cos_sq_add_sin_sq q1
  rw [abs_le] at hc hsn hx hy
  constructor
  · rintro ⟨p, hp, i, hi⟩
    obtain ⟨u, rfl, hu⟩ := B0.mem hF hp
    rw [first_link hr hb] at hi
    rw [workpiece_upright] at hi
    obtain ⟨b, hbx, hw⟩ := (mem_upright _ _ _).1 hi
    have u0 := hu 0
    have u1 := hu 1
    have u2 := hu 2
    have w0 := hw 0
    have w1 := hw 1
    have w2 := hw 2
    simp only [Matrix.cons_val, abs_le] at u0 u1 u2 w0 w1 w2
    have hrad : (u 0 + 0.18) ^ 2 + u 2 ^ 2 ≤ 0.27 ^ 2 := by nlinarith
    have f0 : (Real.cos q1 * (u 0 + 0.18) + Real.sin q1 * u 2) ^ 2 ≤ 0.27 ^ 2 := by
      nlinarith [sq_nonneg (Real.sin q1 * (u 0 + 0.18) - Real.cos q1 * u 2)]
    have f1 : (Real.sin q1 * (u 0 + 0.18) - Real.cos q1 * u 2) ^ 2 ≤ 0.27 ^ 2 := by
      nlinarith [sq_nonneg (Real.cos q1 * (u 0 + 0.18) + Real.sin q1 * u 2)]
    have g0 := abs_le.1 (abs_le_of_sq_le_sq f0 (by norm_num))
    have g1 := abs_le.1 (abs_le_of_sq_le_sq f1 (by norm_num))
    match i, hbx with
    | 0, hbx =>
      cases hbx
      simp only [Matrix.cons_val] at w2
      left; constructor <;> linarith [w2.1, w2.2]
    | 1, hbx =>
      cases hbx
      simp only [Matrix.cons_val] at w2
      right; constructor <;> linarith [w2.1, w2.2]
    | 2, hbx =>
      cases hbx
      simp only [Matrix.cons_val] at w1
      exfalso; linarith [w1.1, w1.2]
    | 3, hbx =>
      cases hbx
      simp only [Matrix.cons_val] at w0
      exfalso; linarith [w0.1, w0.2]
    | 4, hbx =>
      cases hbx
      simp only [Matrix.cons_val] at w0
      exfalso; linarith [w0.1, w0.2]
    | i + 5, hbx => simp at hbx
  · intro hz
    have key : ∀ (i : Nat) (c v : ℝ), (workpiece.s[i]?, workpiece.tfS[i]?) = (some ⟨1.6, 0.8, 0.01⟩,
        some (mkTf 1 ![0, 0, c])) → -0.1 ≤ v → v ≤ 0.1 → |z + v - c| ≤ 0.005 →
        ∃ p ∈ linkBody r (q1 :: q) 0, ∃ i, p ∈ wallPoints workpiece i := by
      intro i c v hi v1 v2 v3
      refine ⟨_, (B0 ![-0.18, v, 0.05]).2 ?_, i, _, _, (Prod.mk.inj hi).1, (Prod.mk.inj hi).2, ?_⟩
      · intro j
        fin_cases j <;> simp only [Fin.zero_eta, Fin.mk_one, Fin.reduceFinMk, Matrix.cons_val]
        · norm_num
        · exact ⟨v1, v2⟩
        · norm_num
      · rw [first_link hr hb]
        rw [abs_le] at v3
        refine ⟨![x + Real.sin q1 * 0.05, y - Real.cos q1 * 0.05, z + v - c], ⟨?_, ?_, ?_⟩, ?_⟩
        · simp only [Matrix.cons_val, abs_le]; constructor <;> linarith
        · simp only [Matrix.cons_val, abs_le]; constructor <;> linarith
        · simp only [Matrix.cons_val, abs_le]; constructor <;> linarith
        · rw [act_mkTf, Matrix.one_mulVec]
          ext i
          fin_cases i <;> simp [Matrix.cons_val]
    rcases hz with ⟨z1, z2⟩ | ⟨z1, z2⟩
    · refine key 0 0.005 (max (-0.1) (min 0.1 (0.005 - z))) (by rw [workpiece_upright]; rfl)
        (le_max_left _ _) (max_le (by norm_num) (min_le_left _ _)) ?_
      rcases le_total (0.005 - z) 0.1 with a | a
      · rw [min_eq_right a]
        rcases le_total (-0.1) (0.005 - z) with b | b
        · rw [max_eq_right b, abs_le]; constructor <;> linarith
        · rw [max_eq_left b, abs_le]; constructor <;> linarith
      · rw [min_eq_left a, max_eq_right (by norm_num), abs_le]; constructor <;> linarith
    · refine key 1 1.015 (max (-0.1) (min 0.1 (1.015 - z))) (by rw [workpiece_upright]; rfl)
        (le_max_left _ _) (max_le (by norm_num) (min_le_left _ _)) ?_
      rcases le_total (1.015 - z) 0.1 with a | a
      · rw [min_eq_right a]
        rcases le_total (-0.1) (1.015 - z) with b | b
        · rw [max_eq_right b, abs_le]; constructor <;> linarith
        · rw [max_eq_left b, abs_le]; constructor <;> linarith
      · rw [min_eq_left a, max_eq_right (by norm_num), abs_le]; constructor <;> linarith

/-! ## The editor -/

variable {C : Type} [CostArith C] [JointArith ℝ C]

/-- The arm that the planners use for `bot_2`. -/
abbrev boxArm [Zeros] (hit : Oracle Shape) (n : Nat) : Arm (RState × RState × Mem) Shape :=
  (kukaRef hit (boxKuka n)).toArm

theorem box_determined [Zeros] (hit : Oracle Shape) (n : Nat) (scene : Collection Shape) :
    Determined (boxArm hit n) scene (KukaOK n) (kukaSols 0.18 0.6 0.62 (boxKuka n).robot)
      (touches hit (boxKuka n).robot scene) 6 :=
  kuka_determined hit 0.18 0.6 0.62 0.115 n 1 (some torch) scene

theorem box_touches {hit : Oracle Shape} (hs : SeesOverlap hit) (n : Nat) {q : Config}
    (hq : q.length = 6) : touches hit (boxKuka n).robot workpiece q = true := by
  have hb : (boxKuka n).robot.tfBase = mkTf 1 ![0, 0, 0] := by
    rw [show (![0, 0, 0] : V3) = 0 by ext i; fin_cases i <;> rfl, mkTf_one]
    rfl
  have := C137_floor hs (r := (boxKuka n).robot) rfl hb (by norm_num) (by norm_num) (by norm_num)
    (by norm_num) (q := q) (by rintro rfl; simp at hq)
  unfold touches
  classical
  rw [decide_eq_true_iff]
  exact Or.inl this

theorem box_free [Zeros] {hit : Oracle Shape} (hs : SeesOverlap hit) (n : Nat) (Ts : List M4) :
    free (kukaSols 0.18 0.6 0.62 (boxKuka n).robot) (touches hit (boxKuka n).robot workpiece) Ts = [] := by
  rw [List.eq_nil_iff_forall_not_mem]
  intro q hq
  obtain ⟨T, -, sols, h1, h2, h3⟩ := mem_free.1 hq
  rw [box_touches hs n ((box_determined hit n workpiece).dof T sols h1 q h2)] at h3
  cases h3

/-- **C137** as one would expect of the script: with some collision library that reports boxes running
into each other, some scene of the editor being the box of the script, some click on "Plan" finds a
solution. -/
def C137_statement [Zeros] (C : Type) [CostArith C] [JointArith ℝ C] : Prop :=
  ∃ (hit : Oracle Shape) (pq : PQ C Config) (conv : ℝ → ℝ) (n : Nat) (wdir : String) (d : Nat → Draws)
    (e : Editor (RState × Mem)), SeesOverlap hit ∧ e.scene = some workpiece ∧ KukaOK n e.rob ∧
    (callback pq (boxKuka n).robot (boxArm hit n) conv wdir (.plan d) e).1 = .ok ()
theorem C137_refuted [Zeros] : ¬ C137_statement C := by
  rintro ⟨hit, pq, conv, n, wdir, d, e, hs, he, hI, hok⟩
  by_cases hp : e.path = []
  · simp only [callback] at hok
    obtain ⟨Q, res, p, hQ, hg, -⟩ := (plan_iff pq _ _ conv d e).1 hok
    have hcols := (planQ_columns (boxKuka n).robot (boxArm hit n) conv d e.path e.scene e.rob trivial Q _
      (Prod.ext hQ rfl)).1
    rw [hp] at hcols
    have : Q = [] := List.length_eq_zero_iff.1 hcols.1
    subst this
    exact getShortestPath_empties pq conv (by simp) _ _ _ hg
  · obtain ⟨p, -, h1, h2⟩ := C84_partial (r := (boxKuka n).robot) (show 6 ≤ 6 from le_refl _)
      (box_determined hit n workpiece) conv wdir d he hI hok
    obtain ⟨q, p, rfl⟩ := List.exists_cons_of_ne_nil (l := p) (by
      rintro rfl
      exact hp (List.length_eq_zero_iff.1 h1.symm))
    obtain ⟨tp, Ts, q', -, -, -, h3, T, -, sols, h4, h5⟩ := h2 0 q rfl
    rw [box_touches hs n ((box_determined hit n workpiece).dof T sols h4 q' h5)] at h3
    cases h3

theorem plan_in_box [Zeros] {hit : Oracle Shape} (hs : SeesOverlap hit) (n : Nat) (pq : PQ C Config)
    (conv : ℝ → ℝ) (wdir : String) (d : Nat → Draws) {e : Editor (RState × Mem)}
    (he : e.scene = some workpiece) (hI : KukaOK n e.rob) (hp : e.path ≠ []) {samples : List (List M4)}
    (hsam : SamplesOf d 1000 e.path samples) :
    let after := callback pq (boxKuka n).robot (boxArm hit n) conv wdir (.plan d) e
    after.1 = .error (.py .attributeError) ∧
      after.2.logText = e.logText ++ [.planning, .counts (List.replicate e.path.length 0)] ∧
      after.2.currentSolution = e.currentSolution := by
  intro after
  have hsam' : SamplesOf (fun j => d (0 + j)) 1000 e.path samples := by simpa using hsam
  obtain ⟨w, hw, -⟩ := noRedundancyLoop_returns (box_determined hit n workpiece) conv d 1000 e.path
    samples 0 hsam' [] e.rob hI
  have hQ : planQ (boxKuka n).robot (boxArm hit n) conv d e.path e.scene e.rob =
      (.ok (List.replicate e.path.length .emptyList), w) := by
    rw [he]
    refine Eq.trans hw ?_
    congr 2
    rw [← hsam.1, List.nil_append, ← List.map_const]
    refine List.map_congr_left fun Ts _ => ?_
    rw [box_free hs n, colOf, if_pos rfl]
    rfl
  obtain ⟨tp, path, hpath⟩ := List.exists_cons_of_ne_nil hp
  have hg : getShortestPath pq conv (List.replicate e.path.length .emptyList) .dijkstra
      (some [1, 1, 1, 1, 1, 1, 1]) = .error (.py .attributeError) := by
    rw [hpath]
    rfl
  have : after = plan pq (boxKuka n).robot (boxArm hit n) conv d e := rfl
  rw [this]
  unfold plan
  simp only [Editor.log, hQ, hg]
  refine ⟨trivial, ?_, trivial⟩
  rw [List.append_assoc]
  congr 2
  simp [PyCol.rows]

theorem plotSetup_rest {V : Type} (r : Robot Shape) (e : Editor V) :
    (plotSetup r e).2.logText = e.logText ∧ (plotSetup r e).2.pathsFilename = e.pathsFilename ∧
      (plotSetup r e).2.rob.2 = e.rob.2 := by
  unfold plotSetup
  simp only
  split
  · exact ⟨rfl, rfl, rfl⟩
  · unfold Gui.plotTask
    split <;> exact ⟨rfl, rfl, rfl⟩

/-- What "Load scene" leaves. -/
theorem loadScene_leaves {V : Type} {r : Robot Shape} (hD : Drawable r) {e : Editor V}
    (hw : WF r.links.length e.rob.1) {fs : Gui.Files} {wdir : String} {sc : Collection Shape}
    (h : fs.scenes (wdir ++ "/" ++ e.filename) = .ok sc) (hall : AllFrames e) :
    ∃ e', loadScene r wdir fs e = (.ok (), e') ∧ e'.scene = some sc ∧ e'.path = e.path ∧
      e'.currentSolution = e.currentSolution ∧ e'.logText = e.logText ∧
      e'.pathsFilename = e.pathsFilename ∧ e'.rob.2 = e.rob.2 ∧ WF r.links.length e'.rob.1 := by
  obtain ⟨e0, he0⟩ : ∃ e0 : Editor V, e0 = { e with scene := some sc } := ⟨_, rfl⟩
  have hl : loadScene r wdir fs e = plotSetup r e0 := by
    unfold loadScene
    rw [h, he0]
  have hw0 : WF r.links.length e0.rob.1 := by rw [he0]; exact hw
  obtain ⟨a1, a2, a3, a4⟩ := plotSetup_fields r e0
  obtain ⟨b1, b2, b3⟩ := plotSetup_rest r e0
  have bw := plotSetup_rob r e0 hw0
  have ok := (plotSetup_iff hD e0 hw0).2 (by rw [he0]; exact ⟨by simp, hall⟩)
  rw [hl]
  refine ⟨_, Prod.ext ok rfl, a1.trans ?_, a3.trans ?_, a4.trans ?_, b1.trans ?_, b2.trans ?_,
    b3.trans ?_, bw⟩ <;> rw [he0]

/-- What "Load paths" leaves. -/
theorem loadPaths_leaves {V : Type} {r : Robot Shape} (hD : Drawable r) {e : Editor V}
    (hw : WF r.links.length e.rob.1) (hsc : e.scene ≠ none) {fs : Gui.Files} {wdir : String}
    {pts : List PathPt} (h : fs.paths (wdir ++ "/" ++ e.pathsFilename) = .ok [pts])
    (hall : ∀ tp ∈ pts, HasFrame tp) :
    ∃ e', loadPaths r wdir fs e = (.ok (), e') ∧ e'.scene = e.scene ∧ e'.path = pts ∧
      e'.currentSolution = e.currentSolution ∧ e'.logText = e.logText ∧ e'.rob.2 = e.rob.2 ∧
      WF r.links.length e'.rob.1 := by
  obtain ⟨e0, he0⟩ : ∃ e0 : Editor V, e0 = { e with paths := [pts], path := pts } := ⟨_, rfl⟩
  have hl : loadPaths r wdir fs e = plotSetup r e0 := by
    unfold loadPaths
    rw [h, he0]
  have hw0 : WF r.links.length e0.rob.1 := by rw [he0]; exact hw
  obtain ⟨a1, a2, a3, a4⟩ := plotSetup_fields r e0
  obtain ⟨b1, b2, b3⟩ := plotSetup_rest r e0
  have bw := plotSetup_rob r e0 hw0
  have ok := (plotSetup_iff hD e0 hw0).2 (by
    rw [he0]
    refine ⟨hsc, fun path hp tp htp => ?_⟩
    rw [List.mem_singleton.1 hp] at htp
    exact hall tp htp)
  rw [hl]
  refine ⟨_, Prod.ext ok rfl, a1.trans ?_, a3.trans ?_, a4.trans ?_, b1.trans ?_, b3.trans ?_, bw⟩ <;>
    rw [he0]

/-- **C137**, partial: what the session of the script does.  With the shipped files on the disk, "Load
scene" and "Load paths" succeed and give the box and the ten points.  Every click on "Plan" then raises
AttributeError after logging that no point has a solution, with no solution stored, and "Show solution"
says so.  Missing: a solution, by C137_refuted. -/
theorem C137_partial [Zeros] {hit : Oracle Shape} (hs : SeesOverlap hit) (n : Nat) (pq : PQ C Config)
    (conv : ℝ → ℝ) (wdir : String) (d : Nat → Draws) {urdf : Urdf.Files}
    {json : String → Option (List PathDict)}
    (hu : urdf (wdir ++ "/" ++ "scenes/path_in_box.urdf") = some pathInBoxUrdf)
    (hj : json (wdir ++ "/" ++ "tasks/path_in_box.json") = some tasksPathInBox)
    {rob : RState × RState × Mem} (hI : KukaOK n rob) :
    let run := callback pq (boxKuka n).robot (boxArm hit n) conv wdir
    let e1 := run (.loadScene (diskFiles urdf json)) (boxEditor rob)
    let e2 := run (.loadPaths (diskFiles urdf json)) e1.2
    let e3 := run (.plan d) e2.2
    let e4 := run .showPath e3.2
    e1.1 = .ok () ∧ e2.1 = .ok () ∧ e2.2.scene = some workpiece ∧ e2.2.path.length = 10 ∧
      e3.1 = .error (.py .attributeError) ∧
      e3.2.logText = [.planning, .counts [0, 0, 0, 0, 0, 0, 0, 0, 0, 0]] ∧
      e3.2.currentSolution = none ∧ e4.1 = .ok () ∧
      e4.2.logText = e3.2.logText ++ [.noPath] := by
  intro run e1 e2 e3 e4
  have hD : Drawable (boxKuka n).robot := ⟨(kuka_regular 0.18 0.6 0.62 0.115 n 1 (some torch)).1,
    show 6 ≤ 7 by norm_num, show 0 < 6 by norm_num⟩
  obtain ⟨pd, gen, pts, hpd, -, hpts, hlg, hlen, hsam⟩ := C125_box
  have hframe : ∀ tp ∈ pts, HasFrame tp := by
    intro tp htp
    obtain ⟨i, hi⟩ := List.mem_iff_getElem?.1 htp
    have hi10 : i < gen.length := by
      rw [hlg, ← hlen]
      exact (List.getElem?_eq_some_iff.1 hi).1
    obtain ⟨e', rfl, ⟨p, r, r', -, h2, -⟩, -⟩ := hsam i _ tp (List.getElem?_eq_getElem hi10) hi
    simp [HasFrame, h2]
  have hscenes : (diskFiles urdf json).scenes (wdir ++ "/" ++ "scenes/path_in_box.urdf") =
      .ok workpiece := by
    change ShortestPath.liftPy (Urdf.importUrdf urdf _) = _
    rw [(C122_import urdf _).2.2.1 hu]
    rfl
  have hpaths : (diskFiles urdf json).paths (wdir ++ "/" ++ "tasks/path_in_box.json") =
      .ok [pts] := by
    change ShortestPath.liftPy (importPaths (json _)) = _
    rw [hj, hpd]
    unfold importPaths
    simp only [key, bind, Except.bind, importLoop, hpts]
    rfl
  obtain ⟨f1, k1, a1, a2, a3, a4, a5, a6, a7⟩ := loadScene_leaves hD (e := boxEditor rob)
    (show WF _ rob.1 from hI.1) (wdir := wdir) hscenes (by intro p hp; cases hp)
  have h1 : e1 = (.ok (), f1) := k1
  obtain ⟨f2, k2, c1, c2, c3, c4, c5, c6⟩ := loadPaths_leaves hD (e := f1) a7 (by rw [a1]; simp)
    (wdir := wdir) (fs := diskFiles urdf json) (pts := pts) (by rw [a5]; exact hpaths) hframe
  have h2 : e2 = (.ok (), f2) := by
    show loadPaths _ _ _ e1.2 = _
    rw [h1]
    exact k2
  have hI2 : KukaOK n f2.rob := by
    refine ⟨c6, ?_⟩
    rw [c5, a6]
    exact hI.2
  have hsc : f2.scene = some workpiece := c1.trans a1
  obtain ⟨samples, hS⟩ : ∃ samples, SamplesOf d 1000 f2.path samples := by
    have hex : ∀ i : Fin pts.length, ∃ Ts, getSamples (d i) 1000 none pts[i] = .ok Ts := by
      intro i
      have hi10 : (i : Nat) < gen.length := by rw [hlg, ← hlen]; exact i.2
      obtain ⟨e', h1, -, -, -, Ts, Ts', -, h2, -⟩ := hsam i _ pts[i] (List.getElem?_eq_getElem hi10)
        (List.getElem?_eq_getElem i.2)
      exact ⟨Ts', by rw [h1]; simp only [getSamples, h2]; rfl⟩
    choose f hf using hex
    refine ⟨List.ofFn f, by rw [c2, List.length_ofFn], fun i tp Ts htp hTs => ?_⟩
    rw [c2] at htp
    obtain ⟨hi, rfl⟩ := List.getElem?_eq_some_iff.1 htp
    rw [List.getElem?_ofFn, dif_pos hi] at hTs
    cases hTs
    exact hf ⟨i, hi⟩
  obtain ⟨p1, p2, p3⟩ := plan_in_box hs n pq conv wdir d hsc hI2
    (by rw [c2]; rintro rfl; simp at hlen) hS
  have h3 : e3 = callback pq (boxKuka n).robot (boxArm hit n) conv wdir (.plan d) f2 := by
    show callback _ _ _ _ _ _ e2.2 = _
    rw [h2]
  have hlog : f2.logText = [] := c4.trans a4
  have hcur : e3.2.currentSolution = none := by rw [h3]; exact p3.trans (c3.trans a3)
  have he4 : e4 = (.ok (), e3.2.log .noPath) := by
    change showPath _ _ = _
    unfold showPath
    rw [hcur]
  rw [c2, hlen, hlog, ← h3] at p2
  rw [← h3] at p1
  exact ⟨by rw [h1], by rw [h2], by rw [h2]; exact hsc, by rw [h2, ← hlen]; exact congrArg _ c2, p1, p2,
    hcur, by rw [he4], by rw [he4]; rfl⟩

/-- **C137**, the prints: ten times the angles -3π/4, 0, π. -/
theorem C137_prints : boxPrints = .ok (List.replicate 10 [-3 * Real.pi / 4, 0, Real.pi]) := by
  have hl : linspace 0 1 10 = .ok ((List.range 10).map fun (i : Nat) => (i : ℝ) / 9) := by
    have := linspace_unit 10
    rw [show (((10 : Nat) : Int)) = 10 from rfl] at this
    rw [this]
    norm_num
  have hpt : ∀ (a b r o : V3) (t1 t2 : TolNum) (s : ℝ), t1.nominal = -3 * Real.pi / 4 →
      t2.nominal = Real.pi → r 1 = 0 → ∃ pt, weldPoint a b r o t1 t2 s = .ok pt ∧
        pt.rpyNom = [-3 * Real.pi / 4, 0, Real.pi] := by
    intro a b r o t1 t2 s h1 h2 h3
    refine ⟨_, eulerPt_new (fun i => .num (((1 - s) • a + s • b + o) i)) ![.tol t1, .num (r 1), .tol t2],
      ?_⟩
    simp [eulerPt, nominal, h1, h2, h3]
  unfold boxPrints weldPath1 createWeldLine
  simp only [Matrix.cons_val, bind, Except.bind, hl, TolNum.new]
  choose g hg hg' using fun s : ℝ => hpt ![-1.6 / 2 + 0.01 + 0.1, 0.8 / 2 - 0.01, 0.01]
    ![1.6 / 2 - 0.01 - 0.1, 0.8 / 2 - 0.01, 0.01] ![-3 * Real.pi / 4, 0, Real.pi] ![0, -0.04, 0.04]
    ⟨-3 * Real.pi / 4 - 0.5, -3 * Real.pi / 4 + 0.5,
      -3 * Real.pi / 4 - 0.5 + (-3 * Real.pi / 4 + 0.5 - (-3 * Real.pi / 4 - 0.5)) / 2, 3⟩
    ⟨Real.pi - Real.pi, Real.pi + Real.pi,
      Real.pi - Real.pi + (Real.pi + Real.pi - (Real.pi - Real.pi)) / 2, 10⟩ s (by ring) (by ring) rfl
  rw [Path.mapM_ok (g := g) fun s _ => hg s]
  simp only [List.map_map]
  congr 1
  rw [← List.length_range (n := 10), ← List.map_const]
  refine List.map_congr_left fun i _ => ?_
  exact hg' _

theorem plot_positions {ps : List V3} {pts : List PathPt}
    (h : List.Forall₂ (fun (p : V3) pt => ∃ t : TolPositionPt, pt = .position t ∧
      t.posNom = [p 0, p 1, p 2]) ps pts) : pts.mapM plotPoint = .ok (ps.map fun p => [.dot p]) := by
  induction h with
  | nil => rfl
  | @cons p pt ps pts h _ ih =>
    obtain ⟨t, rfl, ht⟩ := h
    have : plotPoint (.position t) = .ok [.dot p] := by
      simp only [plotPoint, ht, dotOf_three, Except.map]
    simp [List.mapM_cons, ih, this, bind, Except.bind, pure, Except.pure]

/-- **C137**, multiple_paths.py: it shows ten markers on the line from (0.8, -0.2, 0.2) to (0.8, 0.2,
0.2), at equal distances, and the edges of the table. -/
theorem C137_markers : ∃ segs, multiplePaths = .ok (((List.range 10).map fun k : Nat =>
      Mark.dot ![0.8, -0.2 + 0.4 * k / 9, 0.2]) ++ [.lines segs]) ∧
    Depicts segs (At (uprightScene [(![0.5, 0.5, 0.1], ![0.8, 0, 0.12])]) 1) := by
  have hpos : Positions (Option.getD lineXTol.path {}) 10 _ :=
    Or.inl ⟨_, _, _, rfl, rfl, rfl, rfl, rfl, linspaceV_ok ![0.8, -0.2, 0.2] ![0.8, 0.2, 0.2] 10⟩
  obtain ⟨pts, g1, g2, g3⟩ := (C56_path (d := lineXTol) rfl hpos).2.1 _ 0 ![0.2, 0, 0] rfl rfl rfl rfl
  have hobs := load_upright (d := lineXTol) [(![0.5, 0.5, 0.1], ![0.8, 0, 0.12])] rfl
  refine ⟨plotCollection (uprightScene [(![0.5, 0.5, 0.1], ![0.8, 0, 0.12])]) none, ?_,
    depicts_of_mem fun seg => by rw [plotCollection_none, mem_plotCollection]⟩
  unfold multiplePaths parseTaskData
  rw [g1, hobs]
  simp only [bind, Except.bind, TaskPlot.plotTask, PlanningTask.new, plot_positions g3]
  simp only [plotScene, Option.isSome_some, if_true]
  congr 2
  rw [← List.flatMap_def, List.flatMap_map, ← List.map_eq_flatMap]
  refine List.map_congr_left fun k _ => ?_
  congr 1
  ext i
  fin_cases i <;> simp <;> ring

/-- A disk with the shipped files, the Kuka just made, an exact collision library: all hypotheses of
`C137_partial` are met. -/
example [Zeros] (d : Nat → Draws) :
    let run := callback (V := RState × Mem) (stdHeap : PQ (WithTop ℝ) Config) (boxKuka 0).robot
      (boxArm boxOracle 0) id ""
    let fs := diskFiles (fun _ => some pathInBoxUrdf) (fun _ => some tasksPathInBox)
    let e := boxEditor (RState.new 6, RState.new 3, [[[0, 0, 0], [0, 0, 0]]])
    (run (.plan d) (run (.loadPaths fs) (run (.loadScene fs) e).2).2).1 =
      .error (.py .attributeError) :=
  (C137_partial boxOracle_sees 0 stdHeap id "" d rfl rfl
    (⟨WF.new 6, WF.new 3, by decide⟩ : KukaOK 0 (RState.new 6, RState.new 3, [[[0, 0, 0], [0, 0, 0]]]))
    ).2.2.2.2.1

/-- The Kuka of the script at rest runs into the floor; moved up to 0.2 its first link is free. -/
example : SceneTouch boxOracle shippedKuka [0, 0, 0, 0, 0, 0] workpiece ∧
    ¬ ∃ p ∈ linkBody { shippedKuka with tfBase := mkTf 1 ![0, 0, 0.2] } [0, 0, 0, 0, 0, 0] 0,
      ∃ i, p ∈ wallPoints workpiece i := by
  constructor
  · refine C137_floor boxOracle_sees (x := 0) (y := 0) (z := 0) rfl ?_ (by norm_num) (by norm_num)
      (by norm_num) (by norm_num) (by simp)
    rw [show (![0, 0, 0] : V3) = 0 by ext i; fin_cases i <;> rfl, mkTf_one]
    rfl
  · rw [C137_heights (r := { shippedKuka with tfBase := mkTf 1 ![0, 0, 0.2] }) (x := 0) (y := 0)
      (z := 0.2) rfl rfl (by norm_num) (by norm_num) (by simp)]
    norm_num


end

end Verif.Props
