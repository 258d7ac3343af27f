import Verif.Props.Grown
import Verif.Props.RailPlan

/-! # C148 for every robot, and for the Kuka on a rail -/

set_option linter.unusedSectionVars false

namespace Verif.Props

open MeasureTheory Matrix Verif Verif.Path Verif.Geometry Verif.Kin Verif.ShortestPath Verif.Task Verif.CppGraph
  Verif.Search Verif.Planning Verif.Spec Verif.Util Verif.Resources Verif.Examples

open scoped ENNReal

noncomputable section

/-- Joint values that differ by at most `η` move no point within `ρ` of its frame by more than `M`. -/
def MovesLittle (r : Robot Shape) (ρ η M : ℝ) : Prop :=
  ∀ q q0 : List ℝ, q.length = r.links.length → q0.length = r.links.length →
    (∀ (j : Nat) (a b : ℝ), q[j]? = some a → q0[j]? = some b → |a - b| ≤ η) →
    movedBy r.links q q0 ρ ≤ M

/-- **C148**, any robot: take a path whose configurations are roundings, by at most `ε` per joint value, of
configurations clear of the boxes enlarged by `M`, and in which no joint value changes by more than `δ` in
one move.  If a change of `ε + δ / 2` moves no point of the robot by more than `M`, the whole motion is
clear of the boxes. -/
theorem C148_any {r : Robot Shape} (hs : RigidShapes r) {ρ ε δ M : ℝ} (hρ0 : 0 ≤ ρ)
    (hρ : BodiesWithin r ρ) (hM : MovesLittle r ρ (ε + δ / 2) M) {scene : Collection Shape}
    (hsc : ∀ t ∈ scene.tfS, IsRigid t) {path : List (List ℝ)} (hstep : SmallMoves δ path)
    (hfree : ∀ q ∈ path, ∃ q0 : List ℝ, q0.length = r.links.length ∧ q.length = r.links.length ∧
      (∀ (j : Nat) (a b : ℝ), q[j]? = some a → q0[j]? = some b → |a - b| ≤ ε) ∧
      ¬ SceneTouch boxOracle r q0 (grown M scene)) :
    MovesClear r scene path := by
  have half : ∀ (q q' : List ℝ), q ∈ path → q'.length = r.links.length →
      (∀ (j : Nat) (a b : ℝ), q[j]? = some a → q'[j]? = some b → |a - b| ≤ δ) →
      ∀ t : ℝ, 0 ≤ t → t ≤ 1 / 2 → ¬ SceneTouch boxOracle r (between q q' t) scene := by
    intro q q' hq hl' hd t h0 h1
    obtain ⟨q0, l0, l1, he, hf⟩ := hfree q hq
    have hc := between_close (l1.trans l0.symm) (hl'.trans l1.symm) he hd h0 h1
    have lb : (between q q' t).length = r.links.length := by
      rw [between_length, l1, hl', min_self]
    have hmv := hM _ q0 lb l0 hc
    exact C148_near hs hρ ((movedBy_nonneg _ _ _ hρ0).trans hmv) hsc l0 lb hmv hf
  intro i q q' hq hq' t h0 h1
  have hd := hstep i q q' hq hq'
  obtain ⟨-, -, l1, -⟩ := hfree q (List.mem_of_getElem? hq)
  obtain ⟨-, -, l2, -⟩ := hfree q' (List.mem_of_getElem? hq')
  by_cases hth : t ≤ 1 / 2
  · exact half q q' (List.mem_of_getElem? hq) l2 hd t h0 hth
  · rw [between_symm]
    exact half q' q (List.mem_of_getElem? hq') l1
      (fun j a b ha hb => (abs_sub_comm a b).le.trans (hd j b a hb ha)) _ (by linarith) (by linarith)

/-- The length of a link without its joint: the distance between the ends of its two offsets. -/
def fixedLength (l : Link Shape) : ℝ := Real.sqrt (l.dh.a ^ 2 + l.dh.d ^ 2)

theorem reachOf_revolute {ls : List (Link Shape)} (hr : ∀ l ∈ ls, l.jointType = .r) (q : List ℝ)
    {x : ℝ} : reachOf ls q x ≤ (ls.map fixedLength).sum + x := by
  induction ls generalizing q with
  | nil => simp [reachOf]
  | cons l ls ih =>
    have hpos : ∀ l : Link Shape, 0 ≤ fixedLength l := fun l => Real.sqrt_nonneg _
    cases q with
    | nil =>
      have h1 : 0 ≤ ((l :: ls).map fixedLength).sum :=
        List.sum_nonneg (by
          intro y hy
          obtain ⟨l', _, rfl⟩ := List.mem_map.1 hy
          exact hpos l')
      simp only [reachOf]
      linarith
    | cons a q =>
      have h1 := ih (fun l hl => hr l (List.mem_cons_of_mem _ hl)) q
      have h2 : linkLength l a = fixedLength l := by
        simp [linkLength, fixedLength, hr l (by simp)]
      simp only [reachOf, List.map_cons, List.sum_cons, h2]
      linarith

/-- A robot with revolute joints only: if no joint turns by more than `η`, no point within `ρ` of its
frame moves by more than `η` times the number of joints times the length of all links and `ρ`. -/
theorem C148_revolute {r : Robot Shape} (hr : ∀ l ∈ r.links, l.jointType = .r) {ρ η : ℝ} (hρ : 0 ≤ ρ)
    (hη : 0 ≤ η) :
    MovesLittle r ρ η (η * (r.links.length * ((r.links.map fixedLength).sum + ρ))) := by
  have key : ∀ (ls : List (Link Shape)) (q q0 : List ℝ), (∀ l ∈ ls, l.jointType = .r) →
      (∀ (j : Nat) (a b : ℝ), q[j]? = some a → q0[j]? = some b → |a - b| ≤ η) →
      movedBy ls q q0 ρ ≤ η * (ls.length * ((ls.map fixedLength).sum + ρ)) := by
    intro ls
    have hpos : ∀ ls : List (Link Shape), 0 ≤ (ls.map fixedLength).sum := fun ls =>
      List.sum_nonneg (by
        intro y hy
        obtain ⟨l', _, rfl⟩ := List.mem_map.1 hy
        exact Real.sqrt_nonneg _)
    induction ls with
    | nil => intro q q0 _ _; simp [movedBy]
    | cons l ls ih =>
      intro q q0 hr h
      have hnn : 0 ≤ η * (((l :: ls).length : ℝ) * (((l :: ls).map fixedLength).sum + ρ)) := by
        have := hpos (l :: ls)
        positivity
      cases q with
      | nil => simpa [movedBy] using hnn
      | cons a q =>
        cases q0 with
        | nil => simpa [movedBy] using hnn
        | cons b q0 =>
          have h1 := ih q q0 (fun l hl => hr l (List.mem_cons_of_mem _ hl))
            fun j a b ha hb => h (j + 1) a b (by simpa using ha) (by simpa using hb)
          have h2 := reachOf_revolute (ls := l :: ls) hr (b :: q0) (x := ρ)
          have h3 := h 0 a b rfl rfl
          have h4 : ¬ l.jointType = .p := by rw [hr l (by simp)]; simp
          have h5 := hpos ls
          have h6 : 0 ≤ fixedLength l := Real.sqrt_nonneg _
          simp only [movedBy, if_neg h4]
          simp only [List.map_cons, List.sum_cons, List.length_cons, Nat.cast_add, Nat.cast_one] at h2 ⊢
          have h7 : |a - b| * reachOf (l :: ls) (b :: q0) ρ ≤
              η * (fixedLength l + (ls.map fixedLength).sum + ρ) := by
            refine (mul_le_mul_of_nonneg_left h2 (abs_nonneg _)).trans ?_
            exact mul_le_mul_of_nonneg_right h3 (by positivity)
          have h8 : η * (ls.length * ((ls.map fixedLength).sum + ρ)) ≤
              η * (ls.length * (fixedLength l + (ls.map fixedLength).sum + ρ)) := by
            gcongr
            linarith
          calc _ ≤ η * (fixedLength l + (ls.map fixedLength).sum + ρ) +
                η * (ls.length * (fixedLength l + (ls.map fixedLength).sum + ρ)) := by linarith
            _ = _ := by ring
  exact fun q q0 _ _ h => key r.links q q0 hr h

/-- **C148**, the grid planner with any robot of the library (or any other whose `ik` is a function of
the pose): plan among boxes enlarged by `M`.  If the planner succeeds, no joint value changes by more than
`δ` in one move, the rounding changes no joint value of a solution by more than `ε` and such changes move
no point by more than `M`, then the robot is clear of the boxes all the way. -/
theorem C148_grid_any {W C O : Type} [CostArith C] [JointArith ℝ C] {r : Robot Shape}
    (hs : RigidShapes r) {ρ ε δ M : ℝ} (hρ0 : 0 ≤ ρ) (hρ : BodiesWithin r ρ)
    (hM : MovesLittle r ρ (ε + δ / 2) M) {scene : Collection Shape} (hsc : ∀ t ∈ scene.tfS, IsRigid t)
    {arm : Arm W Shape} {Inv : W → Prop} {ikf : M4 → Option (List Config)}
    (hdet : Determined arm (grown M scene) Inv ikf (touches boxOracle r (grown M scene)) r.links.length)
    (t : PlanningTask Shape) (ht : t.scene = some (grown M scene)) (pq : PQ C Config) {conv : ℝ → ℝ}
    (hconv : ∀ T sols q, ikf T = some sols → q ∈ sols → ∀ x ∈ q, |conv x - x| ≤ ε)
    (draws : Nat → Nat → Draws) (time : Nat → ℝ) (fuel : Nat)
    (optimal : List PathPt → Collection Shape → Nat → List (List ℝ) → Run W O)
    {w w' : W} (hw : Inv w) {path : List Config} {c : Option C}
    (hr : PlanningTask.solve t arm pq conv draws time fuel optimal (some "grid") w =
      (.ok (.plan ⟨true, some path, c⟩), w'))
    (hstep : SmallMoves δ path) : path.length = t.path.length ∧ MovesClear r scene path := by
  obtain ⟨pr, e, h⟩ := C66_reach (Reach := fun q _ => q.length = r.links.length ∧
      ∀ x ∈ q, |conv x - x| ≤ ε) hdet
    (fun T sols q h hq _ => ⟨hdet.dof T sols h q hq, hconv T sols q h hq⟩) t ht pq conv draws time fuel
    optimal (method := some "grid") rfl hw hr
  cases e
  obtain ⟨path', h1, h2, h3⟩ := h rfl
  cases h1
  refine ⟨h2, C148_any hs hρ0 hρ hM hsc hstep fun q hq => ?_⟩
  obtain ⟨i, hi⟩ := List.mem_iff_getElem?.1 hq
  obtain ⟨-, -, q0, -, -, rfl, f4, -, -, f5, f6⟩ := h3 i q hi
  refine ⟨q0, f5, by rw [List.length_map, f5], fun j a b ha hb => ?_, touches_scene f4⟩
  rw [List.getElem?_map, hb, Option.map_some] at ha
  cases ha
  exact f6 b (List.mem_of_getElem? hb)

/-! ### The Kuka on a rail -/

theorem list_seven {q : List ℝ} (h : q.length = 7) :
    ∃ q0 q1 q2 q3 q4 q5 q6, q = [q0, q1, q2, q3, q4, q5, q6] := by
  match q, h with
  | [z, a, b, c, d, e, f], _ => exact ⟨z, a, b, c, d, e, f, rfl⟩

/-- **C148** for the Kuka on a rail, with any base and tool: a change of `η` in every joint value moves
no point within `ρ` of its frame by more than `η * (1 + |a1| + 2 |a2| + 4 |d4| + 6 |d6| + 6 ρ)`. -/
theorem C148_rail_moves (a1 a2 d4 d6 : ℝ) (n : Nat) (base : M4) (tool : Option (Tool Shape)) {ρ η : ℝ}
    (hρ : 0 ≤ ρ) : MovesLittle (setupRail (Rail.new a1 a2 d4 d6 n) base tool).robot ρ η
      (η * (1 + |a1| + 2 * |a2| + 4 * |d4| + 6 * |d6| + 6 * ρ)) := by
  intro q q0 hq hq0 h
  obtain ⟨x0, x1, x2, x3, x4, x5, x6, rfl⟩ := list_seven hq
  obtain ⟨p0, p1, p2, p3, p4, p5, p6, rfl⟩ := list_seven hq0
  have hk := movedBy_kuka a1 a2 d4 d6 ρ η hρ (h 1 _ _ rfl rfl) (h 2 _ _ rfl rfl) (h 3 _ _ rfl rfl)
    (h 4 _ _ rfl rfl) (h 5 _ _ rfl rfl) (h 6 _ _ rfl rfl)
  have h0 := h 0 _ _ rfl rfl
  have e : movedBy (setupRail (Rail.new a1 a2 d4 d6 n) base tool).robot.links
      [x0, x1, x2, x3, x4, x5, x6] [p0, p1, p2, p3, p4, p5, p6] ρ = |x0 - p0| * 1 +
      movedBy (kukaRobot a1 a2 d4 d6).links [x1, x2, x3, x4, x5, x6] [p1, p2, p3, p4, p5, p6] ρ := rfl
  rw [e]
  linarith

theorem rail_rigidShapes (a1 a2 d4 d6 : ℝ) (n : Nat) {base : M4} (hb : IsRigid base)
    (tool : Option (Tool Shape)) (ht : ∀ t, tool = some t → ∀ tf ∈ t.toCollection.tfS, IsRigid tf) :
    RigidShapes (setupRail (Rail.new a1 a2 d4 d6 n) base tool).robot := by
  refine ⟨hb, fun l hl t htf => ?_, ht⟩
  simp only [setupRail, Rail.new, railRobot, Robot.new, List.mem_cons, List.not_mem_nil, or_false] at hl
  rcases hl with rfl | rfl | rfl | rfl | rfl | rfl | rfl <;>
  · rw [List.mem_singleton.1 htf]
    exact (C20_pose _ _ _ _).1.1

theorem rail_bodies (a1 a2 d4 d6 : ℝ) (n : Nat) (base : M4) (tool : Option (Tool Shape)) {ρ : ℝ}
    (hρ : 0.72 ≤ ρ) (htool : ∀ t, tool = some t → ∀ (i : Nat) (s : Shape) (tf : M4),
      t.toCollection.s[i]? = some s → t.toCollection.tfS[i]? = some tf →
      ∀ u ∈ boxPoints s, vlen (act tf u) ≤ ρ) :
    BodiesWithin (setupRail (Rail.new a1 a2 d4 d6 n) base tool).robot ρ := by
  refine ⟨fun l hl i s t e1 e2 u hu => ?_, htool⟩
  obtain hl' | hl' : l = (railRobot a1 a2 d4 d6).links.head (by simp [railRobot, Robot.new]) ∨
      l ∈ (kukaRobot a1 a2 d4 d6).links := List.mem_cons.1 hl
  · subst hl'
    refine le_trans ?_ hρ
    obtain rfl := List.mem_singleton.1 (List.mem_of_getElem? e1)
    obtain rfl := List.mem_singleton.1 (List.mem_of_getElem? e2)
    rw [(C20_pose 0 0 0 (-0.15)).1.2 u, Util.rotX_zero, one_mulVec, vlen]
    obtain ⟨b0, b1, b2⟩ := hu
    rw [abs_le] at b0 b1 b2
    norm_num at b0 b1 b2
    rw [Real.sqrt_le_left (by norm_num)]
    simp only [dotProduct, Fin.sum_univ_three, Pi.add_apply, Matrix.cons_val]
    norm_num
    nlinarith
  · exact (kuka_bodies a1 a2 d4 d6 n base tool hρ htool).link l hl' i s t e1 e2 u hu

/-- The base, the tool and the boxes are placed by rigid motions, and `ρ` bounds the size of the links and
of the tool. -/
structure PlacedWithin (base : M4) (tool : Option (Tool Shape)) (scene : Collection Shape) (ρ : ℝ) :
    Prop where
  rigidBase : IsRigid base
  rigidTool : ∀ t, tool = some t → ∀ tf ∈ t.toCollection.tfS, IsRigid tf
  rigidScene : ∀ t ∈ scene.tfS, IsRigid t
  links : 0.72 ≤ ρ
  body : ∀ t, tool = some t → ∀ (i : Nat) (s : Shape) (tf : M4), t.toCollection.s[i]? = some s →
    t.toCollection.tfS[i]? = some tf → ∀ u ∈ boxPoints s, vlen (act tf u) ≤ ρ

/-- **C148** for the Kuka on a rail in the task editor: load the scene with every box enlarged by `M` and
press the planning button.  If it ends without an exception, no joint value of the stored path changes by
more than `δ` in one move and the rounding changes no joint value by more than `ε`, with
`(ε + δ / 2) * (1 + |a1| + 2 |a2| + 4 |d4| + 6 |d6| + 6 ρ) ≤ M`, then the robot is clear of the boxes all
the way. -/
theorem C148_rail [Zeros] {C : Type} [CostArith C] [JointArith ℝ C] (pq : PQ C Config)
    {a1 a2 d4 d6 : ℝ} (n : Nat) {base : M4} {tool : Option (Tool Shape)} {scene : Collection Shape}
    {ρ ε δ M : ℝ} (hk : PlacedWithin base tool scene ρ)
    (hM : (ε + δ / 2) * (1 + |a1| + 2 * |a2| + 4 * |d4| + 6 * |d6| + 6 * ρ) ≤ M) {conv : ℝ → ℝ}
    (hconv : ∀ x, |x| ≤ 5 → |conv x - x| ≤ ε) (wdir : String) (d : Nat → Draws)
    {e : Gui.Editor (RState × Mem)} (he : e.scene = some (grown M scene)) (hI : RailOK n e.rob)
    {samples : List (List M4)} (hs : DiscretisedTo d e.path samples) (hne : ∀ Ts ∈ samples, Ts ≠ []) :
    let r := setupRail (Rail.new a1 a2 d4 d6 n) base tool
    let after := Gui.callback pq r.robot (railArm boxOracle r) conv wdir (.plan d) e
    after.1 = .ok () → ∃ p, after.2.currentSolution = some p ∧ p.length = e.path.length ∧
      (SmallMoves δ p → MovesClear r.robot scene p) := by
  intro r after hok
  have hcb : after = Gui.callback pq r.robot (railArm1 boxOracle r) conv wdir (.plan d) e :=
    rail_callback boxOracle r rfl pq conv wdir d he
  rw [hcb] at hok ⊢
  have hdet := rail_determined boxOracle a1 a2 d4 d6 n base tool (grown M scene)
  obtain ⟨p, h1, h2, h3⟩ := C97_redundant (pq := pq) (r := r.robot) (show 7 ≤ 7 from le_refl _) hdet
    conv wdir d he hI hs hne hok
  have hρ0 : 0 ≤ ρ := le_trans (by norm_num) hk.links
  refine ⟨p, h1, h2, fun hstep => ?_⟩
  refine C148_any (rail_rigidShapes a1 a2 d4 d6 n hk.rigidBase tool hk.rigidTool) hρ0
    (rail_bodies a1 a2 d4 d6 n base tool hk.links hk.body)
    (fun q q0 l l0 hc => (C148_rail_moves a1 a2 d4 d6 n base tool hρ0 q q0 l l0 hc).trans hM)
    hk.rigidScene hstep fun q hq => ?_
  obtain ⟨i, hi⟩ := List.mem_iff_getElem?.1 hq
  obtain ⟨Ts, T, k, sols, q', f1, f2, f3, f4, f5, rfl⟩ := h3 i q hi
  simp only [List.headD_cons] at f3
  unfold railSols at f3
  obtain ⟨sols', h0, rfl⟩ := Option.map_eq_some_iff.1 f3
  obtain ⟨q'', hq'', rfl⟩ := List.mem_map.1 f4
  obtain ⟨g1, g2⟩ := kukaSols_within h0 hq''
  have hb : ∀ x ∈ (-(1 / 2) + (k : ℝ) / 9) :: q'', |x| ≤ 5 := by
    intro x hx
    rcases List.mem_cons.1 hx with rfl | hx
    · have : (k : ℝ) ≤ 9 := by exact_mod_cast f2
      have h0 : (0 : ℝ) ≤ k := Nat.cast_nonneg k
      rw [abs_le]
      constructor <;> linarith
    · exact g2 x hx
  exact ⟨_, by rw [List.length_cons, g1]; rfl, by rw [List.length_map, List.length_cons, g1]; rfl,
    rounded_close hb hconv, touches_scene f5⟩

/-! ### Cases that meet the hypotheses -/

theorem farCube_low45 (j : Nat) : ∀ x ∈ wallPoints (grown 45 farCube) j, 0.5 < x 0 ∧ x 2 < 0.19 := by
  rintro x ⟨s, t, h1, h2, u, hu, rfl⟩
  obtain rfl := List.mem_singleton.1 (List.mem_of_getElem? h1)
  obtain rfl := List.mem_singleton.1 (List.mem_of_getElem? h2)
  obtain ⟨b0, b1, b2⟩ := hu
  rw [abs_le] at b0 b2
  rw [(C20_pose _ _ _ _).1.2, Util.rotX_zero, one_mulVec]
  simp only [Pi.add_apply, Matrix.cons_val]
  norm_num [grow] at b0 b2
  constructor <;> linarith

theorem kuka_moves : MovesLittle (setup (Kuka.new 0.18 0.6 0.62 0.115 0) 1 none).robot 0.72
    (0 + 6.5 / 2) 45 := by
  have h := C148_revolute (r := (setup (Kuka.new 0.18 0.6 0.62 0.115 0) 1 none).robot) (ρ := 0.72)
    (η := 0 + 6.5 / 2) (by
      intro l hl
      change l ∈ (kukaRobot 0.18 0.6 0.62 0.115).links at hl
      simp only [kukaRobot, Robot.new, List.mem_cons, List.not_mem_nil, or_false] at hl
      rcases hl with rfl | rfl | rfl | rfl | rfl | rfl <;> rfl) (by norm_num) (by norm_num)
  have hl : ((setup (Kuka.new 0.18 0.6 0.62 0.115 0) 1 none).robot.links.length : ℝ) = 6 := by
    change (((kukaRobot 0.18 0.6 0.62 0.115).links.length : ℕ) : ℝ) = 6
    norm_num [kukaRobot, Robot.new]
  have hsum : ((setup (Kuka.new 0.18 0.6 0.62 0.115 0) 1 none).robot.links.map fixedLength).sum =
      1.515 := by
    change ((kukaRobot 0.18 0.6 0.62 0.115).links.map fixedLength).sum = 1.515
    simp [kukaRobot, Robot.new, fixedLength, Real.sqrt_sq_eq_abs]
    norm_num [abs_of_pos]
  rw [hl, hsum] at h
  exact fun q q0 l l0 hc => (h q q0 l l0 hc).trans (by norm_num)

/-- A case of `C148_grid_any`, `C148_revolute` and `C148_any`: the stock Kuka, two points, moves of up to a
full turn and a cube that is far enough away.  With positive probability the grid planner succeeds. -/
example [Zeros] (draws : Nat → Nat → Draws) (time : Nat → ℝ) :
    allDraws {ω | ∃ path c, Returns (KukaOK 0) (PlanningTask.solve
      (freeTask [![0.8, 0.1, 0.2], ![0.8, -0.2, 0.2]] (grown 45 farCube) 1)
      (kukaRef boxOracle (setup (Kuka.new 0.18 0.6 0.62 0.115 0) 1 none)).toArm
      (stdHeap : PQ (WithTop ℝ) Config) id (withRandom draws ω) time 0
      (fun _ _ _ _ => (pure () : Run (RState × RState × Mem) Unit)) (some "grid"))
      (.plan ⟨true, some path, some c⟩) ∧ (SmallMoves 6.5 path →
        MovesClear (setup (Kuka.new 0.18 0.6 0.62 0.115 0) 1 none).robot farCube path)} ≠ 0 := by
  obtain ⟨u, hu, hG⟩ := kuka_common (a1 := 0.18) (a2 := 0.6) (d4 := 0.62) (d6 := 0.115) (by norm_num) 0
    IsRigid.one none (by simp) (grown 45 farCube) (ps := [![0.8, 0.1, 0.2], ![0.8, -0.2, 0.2]]) (by
      intro p hp
      simp only [List.mem_cons, List.not_mem_nil, or_false] at hp
      rcases hp with rfl | rfl
      · exact table_reached 0 farCube_low45 (by norm_num [abs_le])
      · exact table_reached 0 farCube_low45 (by norm_num [abs_le]))
  have hdet := kuka_determined boxOracle 0.18 0.6 0.62 0.115 0 1 none (grown 45 farCube)
  refine fun h0 => C142_chance hdet
    stdHeapLawful noOverflow_real (fun x y => stepCost_real _ x y) id draws time 0
    (fun _ _ _ _ => (pure () : Run (RState × RState × Mem) Unit)) (by simp) hu hG (n := 1) one_pos
    (measure_mono_null ?_ h0)
  rintro ω ⟨path, c, h⟩
  refine ⟨path, c, h, fun hs => ?_⟩
  have hw : KukaOK 0 (RState.new 6, RState.new 3, [[[0, 0, 0], [0, 0, 0]]]) :=
    ⟨WF.new 6, WF.new 3, by decide⟩
  obtain ⟨w', h1, -⟩ := h _ hw
  exact (C148_grid_any (kuka_rigidShapes 0.18 0.6 0.62 0.115 0 IsRigid.one none (by simp))
    (by norm_num) (kuka_bodies 0.18 0.6 0.62 0.115 0 1 none (le_refl _) (by simp)) kuka_moves
    farCube_margin.rigidScene hdet _ rfl stdHeap (ε := 0) (by simp) _ time 0 _ hw h1 hs).2

end

end Verif.Props
