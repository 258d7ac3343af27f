import Verif.Props.Ranges
import Verif.Props.MoreSamples

/-!
# C144: no free way through the samples is shorter than the planned path

The grid planner is asked for a shortest path through the sampled frames.  The search sees only the
configurations that `ik` returns, with angles between minus and plus a half turn, so a way that turns a
joint beyond this is not considered, however short it is.
-/

set_option linter.unusedSectionVars false

namespace Verif.Props

open Matrix Verif Verif.Path Verif.Geometry Verif.Kin Verif.ShortestPath Verif.Task Verif.CppGraph
  Verif.Search Verif.Planning Verif.Spec Verif.Plot Verif.Gui Verif.Util

noncomputable section

variable {O : Type}

/-- The sum over all moves and joints of the squares of the changes of the joint values. -/
def moveCost (way : List Config) : ℝ :=
  ((way.zip way.tail).map fun t => ((t.1.zip t.2).map fun u => (u.1 - u.2) ^ 2).sum).sum

theorem costFrom2_ones (d : Nat) : ∀ (acc : WithTop ℝ) (x y : Config), x.length = d → y.length = d →
    costFrom2 acc (List.replicate d 1) x y =
      acc + ((((y.zip x).map fun u => (u.1 - u.2) ^ 2).sum : ℝ) : WithTop ℝ) := by
  induction d with
  | zero =>
    intro acc x y hx hy
    rw [List.length_eq_zero_iff] at hx hy
    subst hx hy
    simp [costFrom2]
  | succ d ih =>
    intro acc x y hx hy
    cases x with
    | nil => cases hx
    | cons a x =>
      cases y with
      | nil => cases hy
      | cons b y =>
        rw [List.replicate_succ, costFrom2, ih _ x y (by simpa using hx) (by simpa using hy)]
        simp only [JointArith.step, List.zip_cons_cons, List.map_cons, List.sum_cons]
        rw [show 1 * (a - b) ^ 2 = (b - a) ^ 2 by ring, WithTop.coe_add, ← add_assoc]

theorem effWeights_ones (d : Nat) :
    effWeights (WithTop ℝ) d ([] : List ℝ) = List.replicate d 1 := by
  unfold effWeights
  split_ifs with h
  · simp at h
    subst h
    rfl
  · rfl

theorem stepCost_ones {d : Nat} {x y : Config} (hx : x.length = d) (hy : y.length = d) :
    stepCost (WithTop ℝ) (effWeights (WithTop ℝ) d []) x y =
      ((((x.zip y).map fun u => (u.1 - u.2) ^ 2).sum : ℝ) : WithTop ℝ) := by
  rw [effWeights_ones, stepCost, costFn2, costFrom2_ones d 0 y x hy hx, zero_add]

theorem costFrom_move {d : Nat} (w : List Config) : ∀ acc : WithTop ℝ, (∀ q ∈ w, q.length = d) →
    costFrom (stepCost (WithTop ℝ) (effWeights (WithTop ℝ) d [])) acc w =
      acc + (moveCost w : WithTop ℝ) := by
  induction w with
  | nil => intro acc _; simp [costFrom, moveCost]
  | cons x w ih =>
    intro acc h
    cases w with
    | nil => simp [costFrom, moveCost]
    | cons y w =>
      rw [costFrom, ih _ fun q hq => h q (by simp [hq]), stepCost_ones (h x (by simp)) (h y (by simp)),
        add_assoc, ← WithTop.coe_add]
      simp [moveCost]

/-- The cost that the search computes. -/
theorem costL_move {d : Nat} {w : List Config} (h : ∀ q ∈ w, q.length = d) :
    costL (stepCost (WithTop ℝ) (effWeights (WithTop ℝ) d [])) w = (moveCost w : WithTop ℝ) := by
  rw [costL, costFrom_move w 0 h, zero_add]

/-- The search returns a shortest path: the queue pops a node of least current distance, or there are at
most two columns. -/
def FindsShortest (pq : PQ (WithTop ℝ) Config) (n : Nat) : Prop :=
  (∃ hl : Lawful pq, PopsMin hl) ∨ (pq = stdHeap ∧ n ≤ 2)

theorem FindsShortest.search {pq : PQ (WithTop ℝ) Config} {n : Nat} (h : FindsShortest pq n) {d : Nat}
    {Q : List (PyCol ℝ)} (hQ : InputOK d Q) (hn : Q.length = n) :
    ∃ path, ∃ c : WithTop ℝ, getShortestPath pq id Q .dijkstra none = .ok ⟨true, some path, some c⟩ ∧
      IsSelection (Q.map (asFloat32 id)) path ∧
      costL (stepCost (WithTop ℝ) (effWeights (WithTop ℝ) d [])) path = c ∧
      ∀ p, IsSelection (Q.map (asFloat32 id)) p →
        c ≤ costL (stepCost (WithTop ℝ) (effWeights (WithTop ℝ) d [])) p := by
  rcases h with ⟨hl, hm⟩ | ⟨rfl, h2⟩
  · exact C12_dijkstra_optimal_partial noOverflow_real pq hl hm id d Q hQ none _ rfl
      (fun x _ y _ => stepCost_real _ x y) fun x _ y _ => stepCost_nonneg d x y
  · exact C12_two_columns_partial noOverflow_real id d Q hQ (hn ▸ h2) none _ rfl
      (fun x _ y _ => stepCost_real _ x y) fun x _ y _ => stepCost_nonneg d x y

variable {W S : Type} {Inv : W → Prop} {arm : Arm W S}
  {scene : Collection S} {ikf : M4 → Option (List Config)} {hit : Config → Bool} {d : Nat}

theorem asFloat32_colOf (rows : List Config) : asFloat32 id (colOf id d rows) = rows := by
  unfold colOf
  split_ifs with h
  · rw [h]; rfl
  · simp [asFloat32]

/-- What the grid planner returns, when the search is right. -/
theorem grid_shortest (h : Determined arm scene Inv ikf hit d) {pq : PQ (WithTop ℝ) Config}
    (t : PlanningTask S) (hf : FindsShortest pq t.path.length) (ht : t.scene = some scene)
    (hne : t.path ≠ []) (draws : Nat → Nat → Draws) (time : Nat → ℝ) (fuel : Nat)
    (optimal : List PathPt → Collection S → Nat → List (List ℝ) → Run W O)
    {samples : List (List M4)} (hs : SamplesOf (draws 0) t.gridSamples t.path samples)
    (hex : ∀ Ts ∈ samples, free ikf hit Ts ≠ []) :
    ∃ path, Returns Inv (PlanningTask.solve t arm pq id draws time fuel optimal (some "grid"))
        (.plan ⟨true, some path, some (moveCost path : WithTop ℝ)⟩) ∧
      IsSelection (samples.map (free ikf hit)) path ∧
      ∀ way, IsSelection (samples.map (free ikf hit)) way → moveCost path ≤ moveCost way := by
  set Q := samples.map fun Ts => colOf id d (free ikf hit Ts) with hQ
  have hin : InputOK d Q := gridColumns_ok h hne id hs fun Ts hTs => by
    obtain ⟨q, hq⟩ := List.exists_mem_of_ne_nil _ (hex Ts hTs)
    obtain ⟨T, hT, sols, h1, h2, h3⟩ := mem_free.1 hq
    exact ⟨T, hT, sols, h1, q, h2, h3⟩
  have hcols : Q.map (asFloat32 id) = samples.map (free ikf hit) := by
    rw [hQ, List.map_map]
    exact List.map_congr_left fun Ts _ => asFloat32_colOf _
  have hlen : ∀ way, IsSelection (samples.map (free ikf hit)) way → ∀ q ∈ way, q.length = d := by
    intro way hw q hq
    obtain ⟨i, hi, rfl⟩ := List.getElem_of_mem hq
    have hi' : i < (samples.map (free ikf hit)).length := by rw [hw.length_eq]; exact hi
    have hm := hw.get hi' hi
    rw [List.get_eq_getElem, List.get_eq_getElem, List.getElem_map] at hm
    obtain ⟨T, -, sols, h1, h2, -⟩ := mem_free.1 hm
    exact h.2 T sols h1 _ h2
  obtain ⟨path, c, h1, h2, h3, h4⟩ := hf.search hin (by
    rw [hQ, List.length_map]
    exact hs.1)
  rw [hcols] at h2 h4
  rw [costL_move (hlen path h2)] at h3
  subst h3
  refine ⟨path, ?_, h2, fun way hw => ?_⟩
  · have hr := noRedundancyLoop_returns h id (draws 0) t.gridSamples t.path samples 0
      (by simpa using hs) []
    rw [List.nil_append] at hr
    exact (C65_dispatch_partial t ht arm pq id draws time fuel optimal).1 Q _ hr h1
  · have := h4 way hw
    rw [costL_move (hlen way hw)] at this
    exact WithTop.coe_le_coe.1 this

/-! ## Ways of the arms -/

/-- One of the frames is reached by the configuration without collisions, away from the singular
positions. -/
def Arm2Passes (hit : Oracle Shape) (a1 a2 a3 : ℝ) (scene : Collection Shape) (Ts : List M4)
    (q : Config) : Prop :=
  ∃ T ∈ Ts, ∃ q1 q2 q3 : ℝ, q = [q1, q2, q3] ∧ Arm2Reaches hit a1 a2 a3 q1 q2 q3 T ∧
    ¬ SceneTouch hit (arm2 a1 a2 a3) q scene ∧ ¬ SelfTouch hit (arm2 a1 a2 a3) q ∧
    (T 0 3 ≠ 0 ∨ T 1 3 ≠ 0) ∧ |Real.cos q3| ≤ 1 - 1 / 10 ^ 6

/-- The same for the Kuka. -/
def KukaPasses (hit : Oracle Shape) (a1 a2 d4 d6 : ℝ) (n : Nat) (base : M4) (tool : Option (Tool Shape))
    (scene : Collection Shape) (Ts : List M4) (q : Config) : Prop :=
  ∃ T ∈ Ts, ∃ q1 q2 q3 q4 q5 q6 : ℝ, q = [q1, q2, q3, q4, q5, q6] ∧
    FkSatisfies hit (setup (Kuka.new a1 a2 d4 d6 n) base tool).robot q (· = T) ∧
    ¬ SceneTouch hit (setup (Kuka.new a1 a2 d4 d6 n) base tool).robot q scene ∧
    ¬ SelfTouch hit (setup (Kuka.new a1 a2 d4 d6 n) base tool).robot q ∧
    a1 + a2 * Real.cos q2 + d4 * Real.sin (q2 + q3) ≠ 0 ∧
    |Real.sin q3| ≤ 1 - 1 / 10 ^ 6 ∧ Real.sin q5 ≠ 0

/-- **C144** for `Arm2` with the heap of libstdc++ and exact arithmetic. -/
def C144_statement : Prop :=
  ∀ [Zeros] (hit : Oracle Shape) (a1 a2 a3 : ℝ) (scene : Collection Shape) (t : PlanningTask Shape)
    (draws : Nat → Nat → Draws) (time : Nat → ℝ) (fuel : Nat)
    (optimal : List PathPt → Collection Shape → Nat → List (List ℝ) → Run (RState × Unit) Unit)
    (samples : List (List M4)), a2 * a3 ≠ 0 → t.scene = some scene → t.path ≠ [] →
    SamplesOf (draws 0) t.gridSamples t.path samples →
    ∀ way, List.Forall₂ (Arm2Passes hit a1 a2 a3 scene) samples way →
    ∀ path c w', PlanningTask.solve t (pureArm hit (arm2 a1 a2 a3) (arm2Ik (arm2 a1 a2 a3))) stdHeap id
        draws time fuel optimal (some "grid") (after hit (arm2 a1 a2 a3).links [], ()) =
      (.ok (.plan ⟨true, some path, some c⟩), w') → c ≤ (moveCost way : WithTop ℝ)

theorem selection_of {samples : List (List M4)} {way : List Config} {P : List M4 → Config → Prop}
    {R : Config → Prop} (h : List.Forall₂ P samples way) (hr : ∀ q ∈ way, R q)
    (hP : ∀ Ts q, P Ts q → R q → q ∈ free ikf hit Ts) :
    IsSelection (samples.map (free ikf hit)) way := by
  unfold IsSelection
  rw [List.forall₂_map_left_iff]
  induction h with
  | nil => exact .nil
  | cons h _ ih => exact .cons (hP _ _ h (hr _ (by simp))) (ih fun q hq => hr q (by simp [hq]))

theorem selection_ne {samples : List (List M4)} {way : List Config}
    (h : IsSelection (samples.map (free ikf hit)) way) : ∀ Ts ∈ samples, free ikf hit Ts ≠ [] := by
  unfold IsSelection at h
  rw [List.forall₂_map_left_iff] at h
  induction h with
  | nil => simp
  | cons h _ ih =>
    intro Ts hTs
    rcases List.mem_cons.1 hTs with rfl | hTs
    · exact List.ne_nil_of_mem h
    · exact ih Ts hTs

/-- **C144** for `Arm2`: with a queue that pops a node of least current distance, or with at most two path
points and the heap of libstdc++, the planned path costs no more than any way with joint values strictly
between minus and plus a half turn.  Missing: ways that leave these ranges, and the heap for longer
paths. -/
theorem C144_arm2_partial [Zeros] (hit : Oracle Shape) {a1 a2 a3 : ℝ} (ha : a2 * a3 ≠ 0)
    (scene : Collection Shape) {pq : PQ (WithTop ℝ) Config} (t : PlanningTask Shape)
    (hf : FindsShortest pq t.path.length) (ht : t.scene = some scene) (hne : t.path ≠ [])
    (draws : Nat → Nat → Draws) (time : Nat → ℝ) (fuel : Nat)
    (optimal : List PathPt → Collection Shape → Nat → List (List ℝ) → Run (RState × Unit) O)
    {samples : List (List M4)} (hs : SamplesOf (draws 0) t.gridSamples t.path samples)
    {way : List Config} (hway : List.Forall₂ (Arm2Passes hit a1 a2 a3 scene) samples way)
    (hr : ∀ q ∈ way, ∀ x ∈ q, |x| < Real.pi)
    (history : List (Call Shape)) (hh : ∀ c ∈ history, c.robot.links = (arm2 a1 a2 a3).links) :
    ∃ path w', PlanningTask.solve t (pureArm hit (arm2 a1 a2 a3) (arm2Ik (arm2 a1 a2 a3))) pq id
        draws time fuel optimal (some "grid") (after hit (arm2 a1 a2 a3).links history, ()) =
      (.ok (.plan ⟨true, some path, some (moveCost path : WithTop ℝ)⟩), w') ∧
      moveCost path ≤ moveCost way := by
  have hsel : IsSelection (samples.map (free (arm2Ik (arm2 a1 a2 a3))
      (touches hit (arm2 a1 a2 a3) scene))) way := by
    refine selection_of hway hr fun Ts q hp hq => ?_
    obtain ⟨T, hT, q1, q2, q3, rfl, h1, h2, h3, h4, h5⟩ := hp
    simp only [List.mem_cons, List.not_mem_nil, or_false, forall_eq_or_imp, forall_eq] at hq
    obtain ⟨sols, g1, g2⟩ := C143_back_arm2 hit ha h1 h4 h5 hq.1 hq.2.1 hq.2.2
    exact mem_free.2 ⟨T, hT, sols, g1, g2,
      (touches_free hit (r := arm2 a1 a2 a3) rfl scene _).2 ⟨h2, h3⟩⟩
  obtain ⟨path, e1, -, e3⟩ := grid_shortest (pureArm_determined hit (arm2_regular a1 a2 a3)
    (arm2Ik (arm2 a1 a2 a3)) (fun T sols h q hq => arm2Ik_len3 h q hq) scene) t hf ht hne draws time fuel
    optimal hs (selection_ne hsel)
  obtain ⟨w', hw, -⟩ := e1 (after hit (arm2 a1 a2 a3).links history, ())
    ⟨after_wf hit _ _ hh, trivial⟩
  exact ⟨path, w', hw, e3 way hsel⟩

/-- **C144** for the Kuka, likewise; the third joint between minus a quarter and plus three quarters of a
turn. -/
theorem C144_kuka_partial [Zeros] (hit : Oracle Shape) {a1 a2 d4 d6 : ℝ} (ha : a2 * d4 ≠ 0) (n : Nat)
    {base : M4} (hb : IsRigid base) (tool : Option (Tool Shape))
    (htt : ∀ t, tool = some t → IsRigid t.tfTT)
    (scene : Collection Shape) {pq : PQ (WithTop ℝ) Config} (t : PlanningTask Shape)
    (hf : FindsShortest pq t.path.length) (ht : t.scene = some scene) (hne : t.path ≠ [])
    (draws : Nat → Nat → Draws) (time : Nat → ℝ) (fuel : Nat)
    (optimal : List PathPt → Collection Shape → Nat → List (List ℝ) →
      Run (RState × RState × Mem) O)
    {samples : List (List M4)} (hs : SamplesOf (draws 0) t.gridSamples t.path samples)
    {way : List Config}
    (hway : List.Forall₂ (KukaPasses hit a1 a2 d4 d6 n base tool scene) samples way)
    (hr : ∀ q ∈ way, ∃ q1 q2 q3 q4 q5 q6 : ℝ, q = [q1, q2, q3, q4, q5, q6] ∧ |q1| < Real.pi ∧
      |q2| < Real.pi ∧ -(Real.pi / 2) < q3 ∧ q3 < 3 * Real.pi / 2 ∧ |q4| < Real.pi ∧ |q5| < Real.pi ∧
      |q6| < Real.pi) :
    ∃ path, Returns (KukaOK n)
        (PlanningTask.solve t (kukaRef hit (setup (Kuka.new a1 a2 d4 d6 n) base tool)).toArm pq id draws
          time fuel optimal (some "grid"))
        (.plan ⟨true, some path, some (moveCost path : WithTop ℝ)⟩) ∧
      moveCost path ≤ moveCost way := by
  have hsel : IsSelection (samples.map (free
      (kukaSols a1 a2 d4 (setup (Kuka.new a1 a2 d4 d6 n) base tool).robot)
      (touches hit (setup (Kuka.new a1 a2 d4 d6 n) base tool).robot scene))) way := by
    refine selection_of hway hr fun Ts q hp hq => ?_
    obtain ⟨T, hT, q1, q2, q3, q4, q5, q6, rfl, h1, h2, h3, g1, g3, g5⟩ := hp
    obtain ⟨_, _, _, _, _, _, he, r1, r2, r3, r3', r4, r5, r6⟩ := hq
    cases he
    obtain ⟨sols, t1, t2, t3, t4, t5, t6, hsol, hmem, s1, s2, s3, s4, s5, s6⟩ :=
      kukaSols_complete hit ha n hb tool htt h1 g1 g3 g5
    refine mem_free.2 ⟨T, hT, sols, hsol, ?_, (touches_free hit
      (r := (setup (Kuka.new a1 a2 d4 d6 n) base tool).robot) rfl scene _).2 ⟨h2, h3⟩⟩
    unfold kukaSols at hsol
    obtain ⟨qs, e1, rfl⟩ := Option.map_eq_some_iff.1 hsol
    obtain ⟨_, _, _, _, _, _, he, u1, u2, u3, u4, u5, u6⟩ := kukaSols_range e1 hmem
    cases he
    rw [abs_le] at u1 u2 u3 u4 u5 u6
    rw [← sameAngle_pi s1 u1 r1, ← sameAngle_pi s2 u2 r2, ← sameAngle_pi s4 u4 r4,
      ← sameAngle_pi s5 u5 r5, ← sameAngle_pi s6 u6 r6,
      ← sameAngle_eq s3 (by linarith [u3.2]) (by linarith [u3.1])]
    exact hmem
  obtain ⟨path, e1, -, e3⟩ := grid_shortest (kuka_determined hit a1 a2 d4 d6 n base tool scene) t hf ht
    hne draws time fuel optimal hs (selection_ne hsel)
  exact ⟨path, e1, e3 way hsel⟩

/-! ## A way beyond the half turn -/

/-- A point behind the arm, to the left (`s = 1`) or to the right (`s = -1`). -/
def behind (s : ℝ) : V3 := ![-Real.sqrt 2, s * Real.sqrt 2, 1]

theorem behind_reached {s : ℝ} (hs : s = 1 ∨ s = -1) :
    behind s = armPos 1 1 1 (Real.pi - s * (Real.pi / 4)) 0 (Real.pi / 2) := by
  unfold behind armPos
  rw [Real.cos_pi_sub, Real.sin_pi_sub, Real.cos_zero, zero_add, Real.cos_pi_div_two,
    Real.sin_pi_div_two, Real.sin_zero]
  rcases hs with rfl | rfl
  · rw [one_mul, one_mul, Real.cos_pi_div_four, Real.sin_pi_div_four]
    congr 1
    · ring
    · congr 1
      · ring
      · norm_num
  · rw [neg_one_mul, neg_one_mul, Real.cos_neg, Real.sin_neg, Real.cos_pi_div_four,
      Real.sin_pi_div_four]
    congr 1
    · ring
    · congr 1
      · ring
      · norm_num

/-- Every solution for such a point turns the first joint to its side. -/
theorem behind_side [Zeros] {s : ℝ} (hs : s = 1 ∨ s = -1) {T : M4} (hT : posPart T = behind s)
    {sols : List Config} (h : arm2Ik (arm2 1 1 1) T = some sols) {q : Config} (hq : q ∈ sols) :
    ∃ q1 q2 q3, q = [q1, q2, q3] ∧ Real.pi / 2 < s * q1 := by
  obtain ⟨q1, q2, q3, rfl, -, hf⟩ := C35_arm2_sound (fun _ _ => false) (by norm_num) T h q hq
  refine ⟨q1, q2, q3, rfl, ?_⟩
  rw [fkSatisfies_iff _ _ (arm2_known _ _ _) _ (le_refl _), chain_arm2] at hf
  simp only [arm2, Robot.new, tip, one_mul, Option.map_none, Option.getD_none, mul_one,
    posPart_mkTf] at hf
  have hd := hf.1
  rw [hT] at hd
  have hr := C143_arm2_partial _ T sols h _ hq q1 (by simp)
  have hp := Real.pi_pos
  set r := 1 + 1 * Real.cos q2 + 1 * Real.cos (q2 + q3) with hrdef
  have hr1 : -1 ≤ r := by
    have := Real.neg_one_le_cos q2
    have := Real.neg_one_le_cos (q2 + q3)
    rw [hrdef]
    linarith
  have h2 : Real.sqrt 2 ^ 2 = 2 := Real.sq_sqrt (by norm_num)
  have h2' : (7 / 5 : ℝ) ≤ Real.sqrt 2 := Real.le_sqrt_of_sq_le (by norm_num)
  have hd' : (Real.cos q1 * r + Real.sqrt 2) ^ 2 + (Real.sin q1 * r - s * Real.sqrt 2) ^ 2 ≤
      (1 / 100) ^ 2 := by
    have e : dist2 (armPos 1 1 1 q1 q2 q3) (behind s) = (Real.cos q1 * r + Real.sqrt 2) ^ 2 +
        (Real.sin q1 * r - s * Real.sqrt 2) ^ 2 +
        (1 * Real.sin q2 + 1 * Real.sin (q2 + q3) - 1) ^ 2 := by
      simp [dist2, dotProduct, Fin.sum_univ_three, armPos, behind, hrdef]
      ring
    rw [e] at hd
    norm_num at hd ⊢
    nlinarith [sq_nonneg (Real.sin q2 + Real.sin (q2 + q3) - 1)]
  have hx : |Real.cos q1 * r + Real.sqrt 2| ≤ 1 / 100 :=
    abs_le_of_sq_le_sq (by nlinarith [sq_nonneg (Real.sin q1 * r - s * Real.sqrt 2)]) (by norm_num)
  have hy : |Real.sin q1 * r - s * Real.sqrt 2| ≤ 1 / 100 :=
    abs_le_of_sq_le_sq (by nlinarith [sq_nonneg (Real.cos q1 * r + Real.sqrt 2)]) (by norm_num)
  rw [abs_le] at hx hy
  have hrpos : 0 < r := by
    by_contra hneg
    have h1 : r ^ 2 ≤ 1 := by nlinarith [not_lt.1 hneg]
    have h3 : (Real.cos q1 * r) ^ 2 ≤ r ^ 2 := by
      rw [mul_pow]
      nlinarith [Real.sin_sq_add_cos_sq q1, sq_nonneg (Real.sin q1), sq_nonneg r]
    nlinarith [hx.2]
  have hc : Real.cos q1 < 0 := by
    by_contra hc
    nlinarith [not_lt.1 hc, hx.2]
  rcases hs with rfl | rfl
  · have hsn : 0 < Real.sin q1 := by
      by_contra hsn
      nlinarith [not_lt.1 hsn, hy.1]
    have h0 : 0 < q1 := by
      by_contra h0
      exact absurd (Real.sin_nonpos_of_nonpos_of_neg_pi_le (not_lt.1 h0) hr.1) (not_le.2 hsn)
    by_contra hlt
    exact absurd (Real.cos_nonneg_of_neg_pi_div_two_le_of_le (by linarith)
      (by linarith : q1 ≤ Real.pi / 2)) (not_le.2 hc)
  · have hsn : Real.sin q1 < 0 := by
      by_contra hsn
      nlinarith [not_lt.1 hsn, hy.2]
    have h0 : q1 < 0 := by
      by_contra h0
      exact absurd (Real.sin_nonneg_of_nonneg_of_le_pi (not_lt.1 h0) hr.2) (not_le.2 hsn)
    by_contra hlt
    exact absurd (Real.cos_nonneg_of_neg_pi_div_two_le_of_le (by linarith : -(Real.pi / 2) ≤ q1)
      (by linarith)) (not_le.2 hc)

theorem behind_axis (R : M3) (s : ℝ) : mkTf R (behind s) 0 3 ≠ 0 ∨ mkTf R (behind s) 1 3 ≠ 0 := by
  refine .inl ?_
  change -Real.sqrt 2 ≠ 0
  exact neg_ne_zero.2 (Real.sqrt_ne_zero'.2 (by norm_num))

theorem behind_passes (R : M3) {s : ℝ} (hs : s = 1 ∨ s = -1) (scene : Collection Shape) :
    Arm2Passes (fun _ _ => false) 1 1 1 scene [mkTf R (behind s)]
      [Real.pi - s * (Real.pi / 4), 0, Real.pi / 2] := by
  have hfree := (touches_free (fun _ _ => false) (r := arm2 1 1 1) rfl scene
    [Real.pi - s * (Real.pi / 4), 0, Real.pi / 2]).1 (touches_false _ _ _)
  refine ⟨_, List.mem_singleton.2 rfl, _, _, _, rfl, ?_, hfree.1, hfree.2, behind_axis R s, ?_⟩
  · rw [arm2Reaches_iff, posPart_mkTf, behind_reached hs]
  · rw [Real.cos_pi_div_two]
    norm_num

/-- **C144** is false: from the point behind the arm on the left to the one on the right the planned path
turns the first joint by more than half a turn; going on beyond the half turn is shorter. -/
theorem C144_around [Zeros] (draws : Nat → Nat → Draws) (time : Nat → ℝ) (fuel : Nat)
    (optimal : List PathPt → Collection Shape → Nat → List (List ℝ) → Run (RState × Unit) O) :
    ∃ path w', PlanningTask.solve (freeTask [behind 1, behind (-1)] ⟨[], []⟩ 1)
        (pureArm (fun _ _ => false) (arm2 1 1 1) (arm2Ik (arm2 1 1 1))) stdHeap id
        draws time fuel optimal (some "grid") (after (fun _ _ => false) (arm2 1 1 1).links [], ()) =
      (.ok (.plan ⟨true, some path, some (moveCost path : WithTop ℝ)⟩), w') ∧
      Real.pi ^ 2 < moveCost path := by
  have hs := freeFrames_samples (draws 0) [behind 1, behind (-1)] (⟨[], []⟩ : Collection Shape) 1
  have hsam : freeFrames (draws 0) [behind 1, behind (-1)] 1 =
      [[freeFrame ((draws 0 0).rnd 0) (behind 1)], [freeFrame ((draws 0 1).rnd 0) (behind (-1))]] := rfl
  rw [hsam] at hs
  have hne : ∀ (s : ℝ) (R : M3), s = 1 ∨ s = -1 → ∃ q, q ∈ free (arm2Ik (arm2 1 1 1))
      (touches (fun _ _ => false) (arm2 1 1 1) ⟨[], []⟩) [mkTf R (behind s)] := by
    intro s R h
    obtain ⟨T, hT, q1, q2, q3, -, h1, -, -, h4, h5⟩ := behind_passes R h ⟨[], []⟩
    obtain ⟨sols, g1, t1, t2, t3, g2, -⟩ := C36_arm2_complete _ (by norm_num) q1 q2 q3 T h1 h4 h5
    exact ⟨_, mem_free.2 ⟨T, hT, sols, g1, g2, touches_false _ _ _⟩⟩
  obtain ⟨path, e1, e2, -⟩ := grid_shortest (pureArm_determined (fun _ _ => false) (arm2_regular 1 1 1)
    (arm2Ik (arm2 1 1 1)) (fun T sols h q hq => arm2Ik_len3 h q hq) ⟨[], []⟩)
    (freeTask [behind 1, behind (-1)] ⟨[], []⟩ 1) (.inr ⟨rfl, le_rfl⟩) rfl
    (by simp [freeTask, PlanningTask.new]) draws time fuel optimal hs (by
      intro Ts hTs
      simp only [List.mem_cons, List.not_mem_nil, or_false] at hTs
      rcases hTs with rfl | rfl
      · obtain ⟨q, hq⟩ := hne 1 _ (.inl rfl)
        exact List.ne_nil_of_mem hq
      · obtain ⟨q, hq⟩ := hne (-1) _ (.inr rfl)
        exact List.ne_nil_of_mem hq)
  obtain ⟨w', hw, -⟩ := e1 (after (fun _ _ => false) (arm2 1 1 1).links [], ())
    ⟨after_wf _ _ _ (by simp), trivial⟩
  refine ⟨path, w', hw, ?_⟩
  simp only [List.map_cons, List.map_nil] at e2
  cases e2 with
  | cons ha e2 =>
    cases e2 with
    | cons hb e2 =>
      cases e2
      obtain ⟨T, hT, sols, f1, f2, -⟩ := mem_free.1 ha
      rw [List.mem_singleton.1 hT] at f1
      obtain ⟨q1, q2, q3, rfl, h1⟩ := behind_side (.inl rfl) (posPart_mkTf _ _) f1 f2
      obtain ⟨T, hT, sols, f1, f2, -⟩ := mem_free.1 hb
      rw [List.mem_singleton.1 hT] at f1
      obtain ⟨p1, p2, p3, rfl, h2⟩ := behind_side (.inr rfl) (posPart_mkTf _ _) f1 f2
      simp only [moveCost, List.tail_cons, List.zip_cons_cons, List.zip_nil_right, List.map_cons,
        List.map_nil, List.sum_cons, List.sum_nil, add_zero]
      nlinarith [Real.pi_pos, sq_nonneg (q2 - p2), sq_nonneg (q3 - p3)]

theorem C144_refuted : ¬ C144_statement := by
  intro h
  letI := posZeros
  let draws : Nat → Nat → Draws := fun _ _ => ⟨fun _ => 0, 0, fun _ => 0, none⟩
  obtain ⟨path, w', hp, hc⟩ := C144_around draws (fun _ => 0) 0 (fun _ _ _ _ => pure ())
  have := h (fun _ _ => false) 1 1 1 ⟨[], []⟩ _ draws (fun _ => 0) 0 (fun _ _ _ _ => pure ()) _
    (by norm_num) rfl (by simp [freeTask, PlanningTask.new])
    (freeFrames_samples (draws 0) [behind 1, behind (-1)] (⟨[], []⟩ : Collection Shape) 1)
    [[Real.pi - 1 * (Real.pi / 4), 0, Real.pi / 2], [Real.pi - -1 * (Real.pi / 4), 0, Real.pi / 2]]
    (.cons (behind_passes _ (.inl rfl) _) (.cons (behind_passes _ (.inr rfl) _) .nil)) path _ w' hp
  have h1 := WithTop.coe_le_coe.1 this
  simp only [moveCost, List.tail_cons, List.zip_cons_cons, List.zip_nil_right, List.map_cons,
    List.map_nil, List.sum_cons, List.sum_nil, add_zero, sub_self] at h1 hc
  nlinarith [Real.pi_pos]

/-! ## Concrete cases -/

/-- `C144_arm2_partial` with the point on the left, twice: the planned path costs nothing. -/
example [Zeros] (draws : Nat → Nat → Draws) (time : Nat → ℝ) : ∃ path w',
    PlanningTask.solve (freeTask [behind 1, behind 1] ⟨[⟨1, 1, 1⟩], [1]⟩ 1)
        (pureArm (fun _ _ => false) (arm2 1 1 1) (arm2Ik (arm2 1 1 1))) stdHeap id
        draws time 0 (fun _ _ _ _ => pure ()) (some "grid")
        (after (fun _ _ => false) (arm2 1 1 1).links [.fk (arm2 1 1 1) [0, 0, 0]], ()) =
      (.ok (.plan ⟨true, some path, some (moveCost path : WithTop ℝ)⟩), w') ∧ moveCost path ≤ 0 := by
  have hp := Real.pi_pos
  have := C144_arm2_partial (fun _ _ => false) (a1 := 1) (a2 := 1) (a3 := 1) (by norm_num)
    ⟨[⟨1, 1, 1⟩], [1]⟩ (freeTask [behind 1, behind 1] ⟨[⟨1, 1, 1⟩], [1]⟩ 1) (.inr ⟨rfl, le_rfl⟩) rfl
    (by simp [freeTask, PlanningTask.new]) draws time 0 (fun _ _ _ _ => pure ())
    (freeFrames_samples (draws 0) [behind 1, behind 1] (⟨[⟨1, 1, 1⟩], [1]⟩ : Collection Shape) 1)
    (way := [[Real.pi - 1 * (Real.pi / 4), 0, Real.pi / 2], [Real.pi - 1 * (Real.pi / 4), 0, Real.pi / 2]])
    (.cons (behind_passes _ (.inl rfl) _) (.cons (behind_passes _ (.inl rfl) _) .nil)) (by
      have h1 : |Real.pi - 1 * (Real.pi / 4)| < Real.pi := by
        rw [abs_lt]
        constructor <;> linarith
      have h2 : |Real.pi / 2| < Real.pi := by
        rw [abs_lt]
        constructor <;> linarith
      simpa using ⟨by simpa using h1, hp, h2⟩) [.fk (arm2 1 1 1) [0, 0, 0]] (by simp [Call.robot])
  simpa [moveCost] using this

/-- `C144_kuka_partial` for the stock Kuka and a path of two equal points. -/
example [Zeros] (draws : Nat → Nat → Draws) (time : Nat → ℝ) : ∃ (t : PlanningTask Shape)
    (path : List Config), t.path.length = 2 ∧
    Returns (KukaOK 0) (PlanningTask.solve t
      (kukaRef (fun _ _ => false) (setup (Kuka.new 0.18 0.6 0.62 0.115 0) 1 none)).toArm
      stdHeap id draws time 0 (fun _ _ _ _ => pure ()) (some "grid"))
      (.plan ⟨true, some path, some (moveCost path : WithTop ℝ)⟩) ∧ moveCost path ≤ 0 := by
  obtain ⟨x, hx⟩ := kukaPose
  obtain ⟨pt, T, h1, -, h2, hT⟩ := C47_no_tolerance x ![Real.pi, 1, 0]
  have hT' : T = chain (kukaRobot 0.18 0.6 0.62 0.115).links [0, 0, 0, 0, 1, 0] := by
    rw [hT, ← hx]
    rfl
  let k := setup (Kuka.new 0.18 0.6 0.62 0.115 0) 1 none
  let sc : Collection Shape := ⟨[⟨1, 1, 1⟩], [1]⟩
  let t : PlanningTask Shape := PlanningTask.new [.euler pt, .euler pt] (some sc)
  have hs1 : Real.sin 1 ≠ 0 :=
    (Real.sin_pos_of_pos_of_lt_pi one_pos (by linarith [Real.two_le_pi])).ne'
  have hsam : ∀ d m, getSamples d m none (.euler pt) = .ok [T] := by
    intro d m
    show liftPy pt.getSamples = _
    rw [h2]
    rfl
  have hs : SamplesOf (draws 0) t.gridSamples t.path [[T], [T]] := by
    refine ⟨rfl, fun i tp Ts e1 e2 => ?_⟩
    rcases i with _ | _ | i
    · cases e1; cases e2; exact hsam _ _
    · cases e1; cases e2; exact hsam _ _
    · simp at e2
  have hpass : KukaPasses (fun _ _ => false) 0.18 0.6 0.62 0.115 0 1 none sc [T] [0, 0, 0, 0, 1, 0] := by
    have hfree := (touches_free (fun _ _ => false) (r := k.robot) rfl sc
      [0, 0, 0, 0, 1, 0]).1 (touches_false _ _ _)
    refine ⟨T, List.mem_singleton.2 rfl, 0, 0, 0, 0, 1, 0, rfl, ?_, hfree.1, hfree.2, by norm_num,
      by norm_num, hs1⟩
    rw [fkSatisfies_iff _ _ (setup_known _ _ _ _ _ _ _) _ (le_refl _)]
    change 1 * chain (kukaRobot 0.18 0.6 0.62 0.115).links _ * 1 = T
    rw [hT', one_mul, mul_one]
  have hp := Real.pi_pos
  obtain ⟨path, h, hc⟩ := C144_kuka_partial (fun _ _ => false) (a1 := 0.18) (a2 := 0.6) (d4 := 0.62)
    (d6 := 0.115) (by norm_num) 0 IsRigid.one none (by simp) sc t (.inr ⟨rfl, le_rfl⟩) rfl
    (by simp [t, PlanningTask.new]) draws time 0 (fun _ _ _ _ => pure ()) hs
    (.cons hpass (.cons hpass .nil)) (by
      intro q hq
      have : q = [0, 0, 0, 0, 1, 0] := by simpa using hq
      refine ⟨0, 0, 0, 0, 1, 0, this, by simpa using hp, by simpa using hp, by linarith, by linarith,
        by simpa using hp, ?_, by simpa using hp⟩
      rw [abs_one]
      linarith [Real.two_le_pi])
  exact ⟨t, path, rfl, h, by simpa [moveCost] using hc⟩

end

end Verif.Props
