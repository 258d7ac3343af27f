import Verif.Props.Between
import Verif.Props.Chances
import Verif.Props.Ranges

/-! # C148: planning among enlarged boxes keeps the whole motion clear of the boxes -/

set_option linter.unusedSectionVars false

namespace Verif.Props

open MeasureTheory Matrix Verif Verif.Path Verif.Geometry Verif.Kin Verif.ShortestPath Verif.Task Verif.CppGraph
  Verif.Search Verif.Planning Verif.Spec Verif.Util Verif.Resources Verif.Examples

open scoped ENNReal

noncomputable section

/-- A box with `M` added on every side. -/
def grow (M : ℝ) (s : Shape) : Shape := ⟨s.dx + 2 * M, s.dy + 2 * M, s.dz + 2 * M⟩

/-- The scene with every box enlarged by `M` on every side. -/
def grown (M : ℝ) (scene : Collection Shape) : Collection Shape := ⟨scene.s.map (grow M), scene.tfS⟩

theorem coord_le_vlen (v : V3) (i : Fin 3) : |v i| ≤ vlen v := by
  rw [vlen]
  apply Real.abs_le_sqrt
  simp only [dotProduct, Fin.sum_univ_three]
  fin_cases i <;> simp only [Fin.isValue, Fin.zero_eta, Fin.mk_one, Fin.reduceFinMk] <;>
    nlinarith [mul_self_nonneg (v 0), mul_self_nonneg (v 1), mul_self_nonneg (v 2)]

/-- A point within `M` of a box lies in the enlarged box. -/
theorem near_box {T : M4} (hT : IsRigid T) {s : Shape} {v : V3} (hv : v ∈ boxPoints s) {x : V3} {M : ℝ}
    (h : gap x (act T v) ≤ M) : ∃ v' ∈ boxPoints (grow M s), x = act T v' := by
  let v' : V3 := (rotPart T)ᵀ *ᵥ (x - posPart T)
  have e : x = act T v' := by
    rw [act, Matrix.mulVec_mulVec, hT.1.mul_transpose, Matrix.one_mulVec, sub_add_cancel]
  refine ⟨v', ?_, e⟩
  rw [e, gap_rigid hT, gap_eq] at h
  have hc : ∀ i, |v' i| ≤ |v i| + M := fun i => by
    have h1 := (coord_le_vlen (v' - v) i).trans h
    rw [Pi.sub_apply] at h1
    calc |v' i| = |v i + (v' i - v i)| := by rw [add_sub_cancel]
      _ ≤ |v i| + |v' i - v i| := abs_add_le _ _
      _ ≤ |v i| + M := by linarith
  obtain ⟨h0, h1, h2⟩ := hv
  have c0 := hc 0
  have c1 := hc 1
  have c2 := hc 2
  refine ⟨?_, ?_, ?_⟩ <;> simp only [grow] <;> linarith

/-- A body that touches a box after moving by at most `M` touched the enlarged box before. -/
theorem touch_grown {c scene : Collection Shape} {A A' : M4} {M : ℝ} (hc : ∀ t ∈ c.tfS, IsRigid t)
    (hs : ∀ t ∈ scene.tfS, IsRigid t) (hA : IsRigid A) (hA' : IsRigid A')
    (h1 : ∀ (i : Nat) (s : Shape) (t : M4), c.s[i]? = some s → c.tfS[i]? = some t →
      ∀ u ∈ boxPoints s, gap (act A' (act t u)) (act A (act t u)) ≤ M)
    (h : Touch boxOracle c A' scene 1) : Touch boxOracle c A (grown M scene) 1 := by
  rw [touch_boxes] at h ⊢
  obtain ⟨i, j, s, s', t, t', e1, e2, e3, e4, u, hu, v, hv, e⟩ := h
  have ht := (hc t (List.mem_of_getElem? e2)).2
  have hm := h1 i s t e1 e2 u hu
  rw [one_mul, act_mul hA'.2 ht] at e
  rw [e, gap_comm] at hm
  obtain ⟨v', hv', e'⟩ := near_box (hs t' (List.mem_of_getElem? e4)) hv hm
  refine ⟨i, j, s, grow M s', t, t', e1, e2, ?_, e4, u, hu, v', hv', ?_⟩
  · simp only [grown, List.getElem?_map, e3, Option.map_some]
  · rw [one_mul, act_mul hA.2 ht, e']

/-- A point of link `k` moves by at most `movedBy` between two configurations. -/
theorem gap_frame_le {r : Robot Shape} (hb : IsRigid r.tfBase) {q q' : List ℝ}
    (hq : q.length = r.links.length) (hq' : q'.length = r.links.length) (k : Nat) {v : V3} {ρ : ℝ}
    (hv : vlen v ≤ ρ) :
    gap (act (frameOf r q' k) v) (act (frameOf r q k) v) ≤ movedBy r.links q' q ρ := by
  rw [frameOf, frameOf, linkProduct_eq, linkProduct_eq, act_mul hb.2 (chain_rigid _ _).2,
    act_mul hb.2 (chain_rigid _ _).2, gap_rigid hb, chain_take, chain_take]
  exact (gap_chain (r.links.take (k + 1)) q' q (by rw [List.length_take]; omega)
    (by rw [List.length_take]; omega) v).trans (movedBy_mono _ _ _ _ (vlen_nonneg v) hv)

/-- **C148**, one configuration: if the robot at `q` is clear of the boxes enlarged by `M`, it is clear of
the boxes at every configuration that moves no point of it by more than `M`. -/
theorem C148_near {r : Robot Shape} (hs : RigidShapes r) {ρ M : ℝ} (hρ : BodiesWithin r ρ)
    (hM : 0 ≤ M) {scene : Collection Shape} (hsc : ∀ t ∈ scene.tfS, IsRigid t) {q q' : List ℝ}
    (hq : q.length = r.links.length) (hq' : q'.length = r.links.length)
    (hm : movedBy r.links q' q ρ ≤ M) (h : ¬ SceneTouch boxOracle r q (grown M scene)) :
    ¬ SceneTouch boxOracle r q' scene := by
  have hf := fun q k => frameOf_rigid hs.base q k
  rintro (⟨b, hb, ht⟩ | ⟨i, l, hi, ht⟩ | ⟨tool, htool, ht⟩)
  · refine h (.inl ⟨b, hb, ?_⟩)
    rw [touch_boxes] at ht ⊢
    obtain ⟨i, j, s, s', t, t', e1, e2, e3, e4, u, hu, v, hv, e⟩ := ht
    refine ⟨i, j, s, grow M s', t, t', e1, e2, ?_, e4, u, hu, v, ?_, e⟩
    · simp only [grown, List.getElem?_map, e3, Option.map_some]
    · obtain ⟨h0, h1, h2⟩ := hv
      refine ⟨?_, ?_, ?_⟩ <;> simp only [grow] <;> linarith
  · exact h (.inr (.inl ⟨i, l, hi, touch_grown (hs.link l (List.mem_of_getElem? hi)) hsc (hf _ _) (hf _ _)
      (fun a s t e1 e2 u hu => (gap_frame_le hs.base hq hq' i
        (hρ.link l (List.mem_of_getElem? hi) a s t e1 e2 u hu)).trans hm) ht⟩))
  · exact h (.inr (.inr ⟨tool, htool, touch_grown (hs.tool tool htool) hsc (hf _ _) (hf _ _)
      (fun a s t e1 e2 u hu => (gap_frame_le hs.base hq hq' _
        (hρ.tool tool htool a s t e1 e2 u hu)).trans hm) ht⟩))

/-! ### The Kuka -/

theorem between_close {q q' q0 : List ℝ} {ε δ t : ℝ} (hl : q.length = q0.length)
    (hl' : q'.length = q.length)
    (he : ∀ (j : Nat) (a b : ℝ), q[j]? = some a → q0[j]? = some b → |a - b| ≤ ε)
    (hd : ∀ (j : Nat) (a b : ℝ), q[j]? = some a → q'[j]? = some b → |a - b| ≤ δ)
    (h0 : 0 ≤ t) (h1 : t ≤ 1 / 2) :
    ∀ (j : Nat) (a b : ℝ), (between q q' t)[j]? = some a → q0[j]? = some b → |a - b| ≤ ε + δ / 2 := by
  intro j a b ha hb
  have hj : j < q0.length := (List.getElem?_eq_some_iff.1 hb).1
  have e1 : q[j]? = some (q[j]'(by omega)) := List.getElem?_eq_getElem _
  have e2 : q'[j]? = some (q'[j]'(by omega)) := List.getElem?_eq_getElem _
  have g1 := he j _ _ e1 hb
  have g2 := hd j _ _ e1 e2
  rw [between, List.getElem?_zipWith, e1, e2] at ha
  simp only [Option.some.injEq] at ha
  subst ha
  generalize q[j]'(by omega) = x at *
  generalize q'[j]'(by omega) = y at *
  have e : x + t * (y - x) - b = (x - b) + t * (y - x) := by ring
  rw [e]
  have hδ : 0 ≤ δ := (abs_nonneg _).trans g2
  calc |x - b + t * (y - x)| ≤ |x - b| + |t * (y - x)| := abs_add_le _ _
    _ = |x - b| + t * |x - y| := by rw [abs_mul, abs_of_nonneg h0, abs_sub_comm y x]
    _ ≤ ε + δ / 2 := by nlinarith [abs_nonneg (x - y)]

/-- **C148**, a Kuka with any base and tool: take a path whose configurations are roundings, by at most
`ε` per joint value, of configurations clear of the boxes enlarged by `M`, and in which no joint turns by
more than `δ` in one move.  If `(ε + δ / 2) * (|a1| + 2 |a2| + 4 |d4| + 6 |d6| + 6 ρ) ≤ M`, where `ρ`
bounds the size of the links and of the tool, the whole motion is clear of the boxes. -/
theorem C148_motion (a1 a2 d4 d6 : ℝ) (n : Nat) {base : M4} (hb : IsRigid base)
    (tool : Option (Tool Shape)) (ht : ∀ t, tool = some t → ∀ tf ∈ t.toCollection.tfS, IsRigid tf)
    {ρ ε δ M : ℝ} (hρ : 0.72 ≤ ρ) (htool : ∀ t, tool = some t → ∀ (i : Nat) (s : Shape) (tf : M4),
      t.toCollection.s[i]? = some s → t.toCollection.tfS[i]? = some tf →
      ∀ u ∈ boxPoints s, vlen (act tf u) ≤ ρ)
    (hM : (ε + δ / 2) * (|a1| + 2 * |a2| + 4 * |d4| + 6 * |d6| + 6 * ρ) ≤ M)
    {scene : Collection Shape} (hsc : ∀ t ∈ scene.tfS, IsRigid t) {path : List (List ℝ)}
    (hstep : ∀ (i : Nat) (q q' : List ℝ), path[i]? = some q → path[i + 1]? = some q' →
      ∀ (j : Nat) (a b : ℝ), q[j]? = some a → q'[j]? = some b → |a - b| ≤ δ)
    (hfree : ∀ q ∈ path, ∃ q0 : List ℝ, q0.length = 6 ∧ q.length = 6 ∧
      (∀ (j : Nat) (a b : ℝ), q[j]? = some a → q0[j]? = some b → |a - b| ≤ ε) ∧
      ¬ SceneTouch boxOracle (setup (Kuka.new a1 a2 d4 d6 n) base tool).robot q0 (grown M scene)) :
    ∀ (i : Nat) (q q' : List ℝ), path[i]? = some q → path[i + 1]? = some q' → ∀ t : ℝ, 0 ≤ t → t ≤ 1 →
      ¬ SceneTouch boxOracle (setup (Kuka.new a1 a2 d4 d6 n) base tool).robot (between q q' t) scene := by
  have hρ0 : 0 ≤ ρ := le_trans (by norm_num) hρ
  have half : ∀ (q q' : List ℝ), q ∈ path → q'.length = 6 →
      (∀ (j : Nat) (a b : ℝ), q[j]? = some a → q'[j]? = some b → |a - b| ≤ δ) →
      ∀ t : ℝ, 0 ≤ t → t ≤ 1 / 2 →
      ¬ SceneTouch boxOracle (setup (Kuka.new a1 a2 d4 d6 n) base tool).robot (between q q' t) scene := by
    intro q q' hq hl' hd t h0 h1
    obtain ⟨q0, l0, l1, he, hf⟩ := hfree q hq
    have hc := between_close (l1.trans l0.symm) (hl'.trans l1.symm) he hd h0 h1
    have lb : (between q q' t).length = 6 := by rw [between_length, l1, hl', min_self]
    have hmv : movedBy (setup (Kuka.new a1 a2 d4 d6 n) base tool).robot.links (between q q' t) q0 ρ ≤
        (ε + δ / 2) * (|a1| + 2 * |a2| + 4 * |d4| + 6 * |d6| + 6 * ρ) := by
      generalize between q q' t = x at hc lb
      obtain ⟨p1, p2, p3, p4, p5, p6, rfl⟩ := list_six l0
      obtain ⟨x1, x2, x3, x4, x5, x6, rfl⟩ := list_six lb
      exact movedBy_kuka a1 a2 d4 d6 ρ _ hρ0 (hc 0 _ _ rfl rfl) (hc 1 _ _ rfl rfl) (hc 2 _ _ rfl rfl)
        (hc 3 _ _ rfl rfl) (hc 4 _ _ rfl rfl) (hc 5 _ _ rfl rfl)
    exact C148_near (kuka_rigidShapes a1 a2 d4 d6 n hb tool ht) (kuka_bodies a1 a2 d4 d6 n base tool hρ htool)
      ((movedBy_nonneg _ _ _ hρ0).trans (hmv.trans hM)) hsc l0 lb (hmv.trans hM) hf
  intro i q q' hq hq' t h0 h1
  have hd := hstep i q q' hq hq'
  obtain ⟨-, -, l1, -⟩ := hfree q (List.mem_of_getElem? hq)
  obtain ⟨-, -, l2, -⟩ := hfree q' (List.mem_of_getElem? hq')
  by_cases hth : t ≤ 1 / 2
  · exact half q q' (List.mem_of_getElem? hq) l2 hd t h0 hth
  · rw [between_symm]
    exact half q' q (List.mem_of_getElem? hq') l1
      (fun j a b ha hb => (abs_sub_comm a b).le.trans (hd j b a hb ha)) _ (by linarith) (by linarith)

/-- No answer of the Kuka has a joint value beyond 5. -/
theorem kukaSols_within [Zeros] {a1 a2 d4 : ℝ} {r : Robot Shape} {T : M4} {sols : List Config}
    (h : kukaSols a1 a2 d4 r T = some sols) {q : Config} (hq : q ∈ sols) :
    q.length = 6 ∧ ∀ x ∈ q, |x| ≤ 5 := by
  unfold kukaSols at h
  obtain ⟨qs, h1, rfl⟩ := Option.map_eq_some_iff.1 h
  obtain ⟨q1, q2, q3, q4, q5, q6, rfl, g1, g2, g3, g4, g5, g6⟩ := kukaSols_range h1 hq
  have hpi := Real.pi_lt_d2
  rw [abs_le] at g1 g2 g3 g4 g5 g6
  refine ⟨rfl, fun x hx => ?_⟩
  rw [abs_le]
  simp only [List.mem_cons, List.not_mem_nil, or_false] at hx
  rcases hx with rfl | rfl | rfl | rfl | rfl | rfl <;> constructor <;> linarith [Real.pi_pos]

theorem rounded_close {q0 : Config} (h : ∀ x ∈ q0, |x| ≤ 5) {conv : ℝ → ℝ} {ε : ℝ}
    (hconv : ∀ x, |x| ≤ 5 → |conv x - x| ≤ ε) :
    ∀ (j : Nat) (a b : ℝ), (q0.map conv)[j]? = some a → q0[j]? = some b → |a - b| ≤ ε := by
  intro j a b ha hb
  rw [List.getElem?_map, hb, Option.map_some] at ha
  cases ha
  exact hconv b (h b (List.mem_of_getElem? hb))

theorem touches_scene {r : Robot Shape} {scene : Collection Shape} {q : Config}
    (h : touches boxOracle r scene q = false) : ¬ SceneTouch boxOracle r q scene := by
  unfold touches at h
  classical
  rw [decide_eq_false_iff_not] at h
  exact fun ht => h (.inl ht)

/-- What the theorems need of the Kuka, its tool and the boxes: everything is placed by rigid motions, the
links and the tool are within `ρ` of the frames they move with, and `M` is large enough for moves of `δ`
per joint and roundings of `ε`. -/
structure MarginOK (a1 a2 d4 d6 : ℝ) (base : M4) (tool : Option (Tool Shape)) (scene : Collection Shape)
    (ρ ε δ M : ℝ) : Prop where
  rigidBase : IsRigid base
  rigidTool : ∀ t, tool = some t → ∀ tf ∈ t.toCollection.tfS, IsRigid tf
  rigidScene : ∀ t ∈ scene.tfS, IsRigid t
  links : 0.72 ≤ ρ
  body : ∀ t, tool = some t → ∀ (i : Nat) (s : Shape) (tf : M4), t.toCollection.s[i]? = some s →
    t.toCollection.tfS[i]? = some tf → ∀ u ∈ boxPoints s, vlen (act tf u) ≤ ρ
  enough : (ε + δ / 2) * (|a1| + 2 * |a2| + 4 * |d4| + 6 * |d6| + 6 * ρ) ≤ M

/-- No joint turns by more than `δ` from one configuration to the next. -/
def SmallMoves (δ : ℝ) (path : List (List ℝ)) : Prop :=
  ∀ (i : Nat) (q q' : List ℝ), path[i]? = some q → path[i + 1]? = some q' →
    ∀ (j : Nat) (a b : ℝ), q[j]? = some a → q'[j]? = some b → |a - b| ≤ δ

/-- The robot touches no box of the scene while all joints move at constant speed from each configuration
to the next. -/
def MovesClear (r : Robot Shape) (scene : Collection Shape) (path : List (List ℝ)) : Prop :=
  ∀ (i : Nat) (q q' : List ℝ), path[i]? = some q → path[i + 1]? = some q' → ∀ t : ℝ, 0 ≤ t → t ≤ 1 →
    ¬ SceneTouch boxOracle r (between q q' t) scene

/-- **C148**, the grid planner: plan a path for a Kuka among boxes enlarged by `M`.  If the planner
succeeds, no joint turns by more than `δ` in one move and the rounding to float32 changes no joint value
by more than `ε`, with `(ε + δ / 2) * (|a1| + 2 |a2| + 4 |d4| + 6 |d6| + 6 ρ) ≤ M`, then the robot is clear
of the boxes not only at the configurations of the path but all the way. -/
theorem C148_grid [Zeros] {C O : Type} [CostArith C] [JointArith ℝ C] {a1 a2 d4 d6 : ℝ} (n : Nat)
    {base : M4} {tool : Option (Tool Shape)} {scene : Collection Shape} {ρ ε δ M : ℝ}
    (hk : MarginOK a1 a2 d4 d6 base tool scene ρ ε δ M) (t : PlanningTask Shape)
    (ht : t.scene = some (grown M scene)) (pq : PQ C Config) {conv : ℝ → ℝ}
    (hconv : ∀ x, |x| ≤ 5 → |conv x - x| ≤ ε) (draws : Nat → Nat → Draws) (time : Nat → ℝ) (fuel : Nat)
    (optimal : List PathPt → Collection Shape → Nat → List (List ℝ) →
      Run (RState × RState × Mem) O)
    {w w' : RState × RState × Mem} (hw : KukaOK n w) {path : List Config} {c : Option C}
    (hr : PlanningTask.solve t (kukaRef boxOracle (setup (Kuka.new a1 a2 d4 d6 n) base tool)).toArm pq
      conv draws time fuel optimal (some "grid") w = (.ok (.plan ⟨true, some path, c⟩), w'))
    (hstep : SmallMoves δ path) :
    path.length = t.path.length ∧
      MovesClear (setup (Kuka.new a1 a2 d4 d6 n) base tool).robot scene path := by
  obtain ⟨pr, e, h⟩ := C66_reach (Reach := fun q _ => q.length = 6 ∧ ∀ x ∈ q, |x| ≤ 5)
    (kuka_determined boxOracle a1 a2 d4 d6 n base tool (grown M scene))
    (fun T sols q hs hq _ => kukaSols_within hs hq) t ht pq conv draws time fuel optimal
    (method := some "grid") rfl hw hr
  cases e
  obtain ⟨path', h1, h2, h3⟩ := h rfl
  cases h1
  refine ⟨h2, C148_motion a1 a2 d4 d6 n hk.rigidBase tool hk.rigidTool hk.links hk.body hk.enough hk.rigidScene hstep
    fun q hq => ?_⟩
  obtain ⟨i, hi⟩ := List.mem_iff_getElem?.1 hq
  obtain ⟨-, -, q0, -, -, rfl, f4, -, -, f5, f6⟩ := h3 i q hi
  exact ⟨q0, f5, by rw [List.length_map, f5], rounded_close f6 hconv, touches_scene f4⟩

/-- **C148**, the incremental planner: whenever it ends (with probability one if every point can be
reached among the enlarged boxes, C146), it has a path; and if the moves of this path are small, the robot
is clear of the boxes all the way. -/
theorem C148_incremental [Zeros] {D O : Type} [CostArith D] [JointArith ℝ D] {a1 a2 d4 d6 : ℝ} (n : Nat)
    {base : M4} {tool : Option (Tool Shape)} {scene : Collection Shape} {ρ ε δ M : ℝ}
    (hk : MarginOK a1 a2 d4 d6 base tool scene ρ ε δ M) {pq : PQ D Config} {conv : ℝ → ℝ}
    (hconv : ∀ x, |x| ≤ 5 → |conv x - x| ≤ ε) {draws : Nat → Nat → Draws} {time : Nat → ℝ}
    {optimal : List PathPt → Collection Shape → Nat → List (List ℝ) → Run (RState × RState × Mem) O}
    {t : PlanningTask Shape} {ps : List V3} {N : Nat}
    (h : EndsWithin (kukaRef boxOracle (setup (Kuka.new a1 a2 d4 d6 n) base tool)).toArm (KukaOK n)
      (kukaSols a1 a2 d4 (setup (Kuka.new a1 a2 d4 d6 n) base tool).robot)
      (touches boxOracle (setup (Kuka.new a1 a2 d4 d6 n) base tool).robot (grown M scene)) pq conv time
      optimal t ps draws N) :
    ∃ (path : List Config) (c : D), path.length = ps.length ∧
      (∀ fuel ≥ N, Returns (KukaOK n) (PlanningTask.solve t
        (kukaRef boxOracle (setup (Kuka.new a1 a2 d4 d6 n) base tool)).toArm pq conv draws time fuel optimal
        (some "grid_incremental")) (.plan ⟨true, some path, some c⟩)) ∧
      (SmallMoves δ path →
        MovesClear (setup (Kuka.new a1 a2 d4 d6 n) base tool).robot scene path) := by
  obtain ⟨path, c, h1, h2, h3⟩ := h
  refine ⟨path, c, h1, h3, fun hstep => C148_motion a1 a2 d4 d6 n hk.rigidBase tool hk.rigidTool hk.links hk.body
    hk.enough hk.rigidScene hstep fun q hq => ?_⟩
  obtain ⟨i, hi⟩ := List.mem_iff_getElem?.1 hq
  obtain ⟨p, -, k, -, sols, q0, f1, f2, f3, rfl⟩ := h2 i q hi
  obtain ⟨f5, f6⟩ := kukaSols_within f1 f2
  exact ⟨q0, f5, by rw [List.length_map, f5], rounded_close f6 hconv, touches_scene f3⟩

/-! ### Cases that meet the hypotheses -/

/-- A cube far below. -/
def farCube : Collection Shape := ⟨[⟨1, 1, 1⟩], [poseX 0 100 0 (-100)]⟩

theorem farCube_low (j : Nat) : ∀ x ∈ wallPoints (grown 30 farCube) j, 0.5 < x 0 ∧ x 2 < 0.19 := by
  rintro x ⟨s, t, h1, h2, u, hu, rfl⟩
  obtain rfl := List.mem_singleton.1 (List.mem_of_getElem? h1)
  obtain rfl := List.mem_singleton.1 (List.mem_of_getElem? h2)
  obtain ⟨b0, b1, b2⟩ := hu
  rw [abs_le] at b0 b2
  rw [(C20_pose _ _ _ _).1.2, Util.rotX_zero, one_mulVec]
  simp only [Pi.add_apply, Matrix.cons_val]
  norm_num [grow] at b0 b2
  constructor <;> linarith

theorem farCube_margin : MarginOK 0.18 0.6 0.62 0.115 1 none farCube 0.72 0 6.5 30 where
  rigidBase := IsRigid.one
  rigidTool := by simp
  rigidScene := by
    intro t ht
    rw [List.mem_singleton.1 ht]
    exact (C20_pose _ _ _ _).1.1
  links := le_refl _
  body := by simp
  enough := by norm_num [abs_of_pos]

/-- Cases of `C148_grid` and `C148_incremental` (and so of `C148_motion` and `C148_near`): the stock Kuka,
two points, moves of up to a full turn and a cube that is far enough away.  With positive probability the
grid planner succeeds, with probability one the incremental planner ends. -/
example [Zeros] (draws : Nat → Nat → Draws) (time : Nat → ℝ) :
    allDraws {ω | ∃ path c, Returns (KukaOK 0) (PlanningTask.solve
      (freeTask [![0.8, 0.1, 0.2], ![0.8, -0.2, 0.2]] (grown 30 farCube) 1)
      (kukaRef boxOracle (setup (Kuka.new 0.18 0.6 0.62 0.115 0) 1 none)).toArm
      (stdHeap : PQ (WithTop ℝ) Config) id (withRandom draws ω) time 0
      (fun _ _ _ _ => (pure () : Run (RState × RState × Mem) Unit)) (some "grid"))
      (.plan ⟨true, some path, some c⟩) ∧ (SmallMoves 6.5 path →
        MovesClear (setup (Kuka.new 0.18 0.6 0.62 0.115 0) 1 none).robot farCube path)} ≠ 0 := by
  obtain ⟨u, hu, hG⟩ := kuka_common (a1 := 0.18) (a2 := 0.6) (d4 := 0.62) (d6 := 0.115) (by norm_num) 0
    IsRigid.one none (by simp) (grown 30 farCube) (ps := [![0.8, 0.1, 0.2], ![0.8, -0.2, 0.2]]) (by
      intro p hp
      simp only [List.mem_cons, List.not_mem_nil, or_false] at hp
      rcases hp with rfl | rfl
      · exact table_reached 0 farCube_low (by norm_num [abs_le])
      · exact table_reached 0 farCube_low (by norm_num [abs_le]))
  refine fun h0 => C142_chance (kuka_determined boxOracle 0.18 0.6 0.62 0.115 0 1 none (grown 30 farCube))
    stdHeapLawful noOverflow_real (fun x y => stepCost_real _ x y) id draws time 0
    (fun _ _ _ _ => (pure () : Run (RState × RState × Mem) Unit)) (by simp) hu hG (n := 1) one_pos
    (measure_mono_null ?_ h0)
  rintro ω ⟨path, c, h⟩
  refine ⟨path, c, h, fun hs => ?_⟩
  have hw : KukaOK 0 (RState.new 6, RState.new 3, [[[0, 0, 0], [0, 0, 0]]]) :=
    ⟨WF.new 6, WF.new 3, by decide⟩
  obtain ⟨w', h1, -⟩ := h _ hw
  exact (C148_grid 0 farCube_margin _ rfl stdHeap (by simp) _ time 0 _ hw h1 hs).2

end

end Verif.Props
