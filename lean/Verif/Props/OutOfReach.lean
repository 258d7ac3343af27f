import Verif.Props.SameAnswers
import Verif.Props.GrownAny

/-! # C151: boxes that the robot cannot reach do not matter -/

set_option linter.unusedSectionVars false

namespace Verif.Props

open MeasureTheory Matrix Verif Verif.Path Verif.Geometry Verif.Kin Verif.ShortestPath Verif.Task Verif.CppGraph
  Verif.Search Verif.Planning Verif.Spec Verif.Util Verif.Resources Verif.Examples

open scoped ENNReal

noncomputable section

/-- Box `s` with pose `t` is one of the boxes of `c`. -/
def BoxIn (c : Collection Shape) (s : Shape) (t : M4) : Prop :=
  ∃ i : Nat, c.s[i]? = some s ∧ c.tfS[i]? = some t

/-- The two scenes have the same boxes within `R` of the point `p`: a box with a point at most `R` away from
`p` is in both of them or in none. -/
def SameNear (p : V3) (R : ℝ) (c c' : Collection Shape) : Prop :=
  ∀ s t, (∃ u ∈ boxPoints s, gap p (act t u) ≤ R) → (BoxIn c s t ↔ BoxIn c' s t)

theorem SameNear.symm {p : V3} {R : ℝ} {c c' : Collection Shape} (h : SameNear p R c c') :
    SameNear p R c' c := fun s t hn => (h s t hn).symm

/-- The shapes of the base keep within `R` of the point where the robot stands. -/
def BaseWithin (r : Robot Shape) (R : ℝ) : Prop :=
  ∀ base, r.geometryBase = some base → ∀ s t, BoxIn base s t → ∀ u ∈ boxPoints s,
    gap (posPart r.tfBase) (act (r.tfBase * t) u) ≤ R

/-- No point of the robot is farther than this from the point where it stands. -/
theorem frame_reach {r : Robot Shape} (hb : IsRigid r.tfBase) {t : M4} (ht : IsRigid t) {ρ : ℝ}
    (q : List ℝ) (k : Nat) {u : V3} (hu : vlen (act t u) ≤ ρ) :
    gap (posPart r.tfBase) (act (frameOf r q k * t) u) ≤ reachOf r.links q ρ := by
  have e0 : posPart r.tfBase = act r.tfBase 0 := by simp [act]
  rw [act_mul (frameOf_rigid hb q k).2 ht.2, frameOf, linkProduct_eq, act_mul hb.2 (chain_rigid _ _).2,
    e0, gap_rigid hb, gap_comm, gap_eq, sub_zero, chain_take]
  exact (vlen_chain _ _ _).trans ((reachOf_take _ _ _ _).trans (reachOf_mono _ _ hu))

theorem touch_near {c scene scene' : Collection Shape} {A : M4} {p : V3} {R : ℝ}
    (hn : SameNear p R scene scene')
    (hc : ∀ s t, BoxIn c s t → ∀ u ∈ boxPoints s, gap p (act (A * t) u) ≤ R)
    (h : Touch boxOracle c A scene 1) : Touch boxOracle c A scene' 1 := by
  rw [touch_boxes] at h ⊢
  obtain ⟨i, j, s, s', t, t', e1, e2, e3, e4, u, hu, v, hv, e⟩ := h
  have hd := hc s t ⟨i, e1, e2⟩ u hu
  rw [e, one_mul] at hd
  obtain ⟨j', e3', e4'⟩ := (hn s' t' ⟨v, hv, hd⟩).1 ⟨j, e3, e4⟩
  exact ⟨i, j', s, s', t, t', e1, e2, e3', e4', u, hu, v, hv, e⟩

/-- **C151**, the collision check: if two scenes have the same boxes within reach of the robot, the robot
touches the one if and only if it touches the other. -/
theorem C151_touch {r : Robot Shape} (hs : RigidShapes r) {ρ R : ℝ} (hρ : BodiesWithin r ρ)
    (hbase : BaseWithin r R) {scene scene' : Collection Shape} {q : List ℝ}
    (hR : reachOf r.links q ρ ≤ R) (hn : SameNear (posPart r.tfBase) R scene scene') :
    SceneTouch boxOracle r q scene ↔ SceneTouch boxOracle r q scene' := by
  have key : ∀ {c c' : Collection Shape}, SameNear (posPart r.tfBase) R c c' →
      SceneTouch boxOracle r q c → SceneTouch boxOracle r q c' := by
    rintro c c' hn (⟨b, hb, ht⟩ | ⟨i, l, hi, ht⟩ | ⟨tool, htool, ht⟩)
    · exact .inl ⟨b, hb, touch_near hn (hbase b hb) ht⟩
    · refine .inr (.inl ⟨i, l, hi, touch_near hn (fun s t ⟨k, e1, e2⟩ u hu => ?_) ht⟩)
      exact (frame_reach hs.base (hs.link l (List.mem_of_getElem? hi) t (List.mem_of_getElem? e2)) q i
        (hρ.link l (List.mem_of_getElem? hi) k s t e1 e2 u hu)).trans hR
    · refine .inr (.inr ⟨tool, htool, touch_near hn (fun s t ⟨k, e1, e2⟩ u hu => ?_) ht⟩)
      exact (frame_reach hs.base (hs.tool tool htool t (List.mem_of_getElem? e2)) q _
        (hρ.tool tool htool k s t e1 e2 u hu)).trans hR
  exact ⟨key hn, key hn.symm⟩

/-- **C151**, the answer: `is_in_collision` gives the same answer in both scenes, after any earlier calls. -/
theorem C151_answer {r : Robot Shape} (hr : Regular r) (hs : RigidShapes r) {ρ R : ℝ}
    (hρ : BodiesWithin r ρ) (hbase : BaseWithin r R) {scene scene' : Collection Shape} {q : List ℝ}
    (hq : r.links.length ≤ q.length) (hR : reachOf r.links q ρ ≤ R)
    (hn : SameNear (posPart r.tfBase) R scene scene') (history history' : List (Call Shape))
    (hh : ∀ c ∈ history, c.robot.links = r.links) (hh' : ∀ c ∈ history', c.robot.links = r.links) :
    ∃ b, (r.isInCollision boxOracle (after boxOracle r.links history) q scene).1 = .ok b ∧
      (r.isInCollision boxOracle (after boxOracle r.links history') q scene').1 = .ok b := by
  obtain ⟨b, h1, h2⟩ := C33_answer boxOracle r hr.known hr.matrix hr.tool history hh q hq scene
  obtain ⟨b', h3, h4⟩ := C33_answer boxOracle r hr.known hr.matrix hr.tool history' hh' q hq scene'
  refine ⟨b, h1, ?_⟩
  rw [h3]
  have := C151_touch hs hρ hbase hR hn
  rw [this] at h2
  rw [Bool.eq_iff_iff.2 (h4.trans h2.symm)]

theorem touches_near {r : Robot Shape} (hs : RigidShapes r) {ρ R : ℝ} (hρ : BodiesWithin r ρ)
    (hbase : BaseWithin r R) {scene scene' : Collection Shape}
    (hR : ∀ q : List ℝ, reachOf r.links q ρ ≤ R) (hn : SameNear (posPart r.tfBase) R scene scene') :
    touches boxOracle r scene = touches boxOracle r scene' := by
  funext q
  unfold touches
  classical
  rw [decide_eq_decide, C151_touch hs hρ hbase (hR q) hn]

/-- **C151**, planning with a Kuka: two scenes with the same boxes within reach give the same outcome, by
every planner of `PlanningTask.solve` that searches a grid, whatever the robot did before: the same path
and cost, or the same exception.  The reach is the sum of the lengths of the links and the size of the last
body. -/
theorem C151_kuka [Zeros] {C O : Type} [CostArith C] [JointArith ℝ C] {a1 a2 d4 d6 : ℝ} (n : Nat)
    {base : M4} {tool : Option (Tool Shape)} {scene scene' : Collection Shape} {ρ R : ℝ}
    (hb : IsRigid base)
    (htool : ∀ t, tool = some t → ∀ tf ∈ t.toCollection.tfS, IsRigid tf) (hρ : 0.72 ≤ ρ)
    (hbody : ∀ t, tool = some t → ∀ (i : Nat) (s : Shape) (tf : M4), t.toCollection.s[i]? = some s →
      t.toCollection.tfS[i]? = some tf → ∀ u ∈ boxPoints s, vlen (act tf u) ≤ ρ)
    (hR : |a1| + |a2| + |d4| + |d6| + ρ ≤ R)
    (hn : SameNear (posPart base) R scene scene') (t t' : PlanningTask Shape)
    (ht : t.scene = some scene) (ht' : t'.scene = some scene')
    (hpath : t.path = t'.path) (hgrid : t.gridSamples = t'.gridSamples)
    (hiters : t.gridBasedIters = t'.gridBasedIters) (pq : PQ C Config) (conv : ℝ → ℝ)
    (draws : Nat → Nat → Draws) (time : Nat → ℝ) (fuel : Nat)
    (optimal optimal' : List PathPt → Collection Shape → Nat → List (List ℝ) →
      Run (RState × RState × Mem) O) {method : String} (hm : method ≠ "optimization")
    {w w' : RState × RState × Mem} (hw : KukaOK n w) (hw' : KukaOK n w') :
    let arm := (kukaRef boxOracle (setup (Kuka.new a1 a2 d4 d6 n) base tool)).toArm
    (PlanningTask.solve t arm pq conv draws time fuel optimal (some method) w).1 =
      (PlanningTask.solve t' arm pq conv draws time fuel optimal' (some method) w').1 := by
  intro arm
  have hreach : ∀ q : List ℝ, reachOf (setup (Kuka.new a1 a2 d4 d6 n) base tool).robot.links q ρ ≤ R := by
    intro q
    refine (reachOf_revolute (fun l hl => ?_) q).trans (le_trans ?_ hR)
    · change l ∈ (kukaRobot a1 a2 d4 d6).links at hl
      simp only [kukaRobot, Robot.new, List.mem_cons, List.not_mem_nil, or_false] at hl
      rcases hl with rfl | rfl | rfl | rfl | rfl | rfl <;> rfl
    · change ((kukaRobot a1 a2 d4 d6).links.map fixedLength).sum + ρ ≤ _
      simp [kukaRobot, Robot.new, fixedLength, Real.sqrt_sq_eq_abs]
      linarith
  have htouch := touches_near (kuka_rigidShapes a1 a2 d4 d6 n hb tool htool)
    (kuka_bodies a1 a2 d4 d6 n base tool hρ hbody) (R := R) (by intro b hb; cases hb) hreach hn
  have h1 := kuka_determined boxOracle a1 a2 d4 d6 n base tool scene
  have h2 := kuka_determined boxOracle a1 a2 d4 d6 n base tool scene'
  rw [← htouch] at h2
  have hfk : ∀ q : Config, q.length = 6 → Returns (KukaOK n) (arm.fk q)
      (fkOf (setup (Kuka.new a1 a2 d4 d6 n) base tool).robot q) := fun q hq =>
    robotFk_returns (kuka_regular a1 a2 d4 d6 n base tool) hq
      fun v : RState × Mem => WF 3 v.1 ∧ n < v.2.length
  exact C150 h1 h2 hfk hfk t t' ht ht' hpath hgrid hiters pq conv draws time fuel optimal optimal' hm hw hw'

/-- Two scenes of which the second has more boxes, all of them out of reach. -/
theorem sameNear_append {p : V3} {R : ℝ} {c far : Collection Shape} (hl : c.s.length = c.tfS.length)
    (hfar : ∀ s t, BoxIn far s t → ∀ u ∈ boxPoints s, R < gap p (act t u)) :
    SameNear p R c ⟨c.s ++ far.s, c.tfS ++ far.tfS⟩ := by
  rintro s t ⟨u, hu, hd⟩
  constructor
  · rintro ⟨i, h1, h2⟩
    refine ⟨i, ?_, ?_⟩
    · rw [List.getElem?_append_left (List.getElem?_eq_some_iff.1 h1).1]
      exact h1
    · rw [List.getElem?_append_left (List.getElem?_eq_some_iff.1 h2).1]
      exact h2
  · rintro ⟨i, h1, h2⟩
    by_cases hi : i < c.s.length
    · rw [List.getElem?_append_left hi] at h1
      rw [List.getElem?_append_left (hl ▸ hi)] at h2
      exact ⟨i, h1, h2⟩
    · rw [List.getElem?_append_right (by omega)] at h1
      rw [List.getElem?_append_right (by omega), ← hl] at h2
      exact absurd (hfar s t ⟨_, h1, h2⟩ u hu) (not_lt.2 hd)

/-! ### Cases that meet the hypotheses -/

/-- A cube a thousand meters away. -/
def awayCube : Collection Shape := ⟨[⟨1, 1, 1⟩], [poseX 0 1000 0 0]⟩

theorem awayCube_far {M : ℝ} (hM : M ≤ 50) : ∀ s t, BoxIn (grown M awayCube) s t → ∀ u ∈ boxPoints s,
    900 < gap (posPart (1 : M4)) (act t u) := by
  rintro s t ⟨i, h1, h2⟩ u ⟨b0, -, -⟩
  obtain rfl := List.mem_singleton.1 (List.mem_of_getElem? h1)
  obtain rfl := List.mem_singleton.1 (List.mem_of_getElem? h2)
  refine lt_of_lt_of_le ?_ (coord_le_gap _ _ 0)
  rw [abs_le] at b0
  simp only [grow] at b0
  rw [(C20_pose _ _ _ _).1.2, Util.rotX_zero, one_mulVec]
  simp [posPart]
  rw [lt_abs]
  right
  linarith

theorem away_not_touched {r : Robot Shape} (hs : RigidShapes r) (hb : r.tfBase = 1) {ρ M : ℝ}
    (hρ : BodiesWithin r ρ) (hM : M ≤ 50) (hbase : r.geometryBase = none) {q : List ℝ}
    (hR : reachOf r.links q ρ ≤ 900) : ¬ SceneTouch boxOracle r q (grown M awayCube) := by
  have hn : SameNear (posPart r.tfBase) 900 ⟨[], []⟩ (grown M awayCube) := by
    rw [hb]
    exact sameNear_append (c := ⟨[], []⟩) rfl (awayCube_far hM)
  rw [← C151_touch hs hρ (by intro b h; rw [hbase] at h; cases h) hR hn]
  rintro (⟨b, h, -⟩ | ⟨i, l, -, j, k, s, s', t, t', -, -, h, -⟩ | ⟨t, -, j, k, s, s', u, u', -, -, h, -⟩)
  · rw [hbase] at h
    cases h
  · simp at h
  · simp at h

theorem rail_frame (c : ℝ) (q : List ℝ) (k : Nat) :
    frameOf (setupRail (Rail.new 0.18 0.6 0.62 0.115 0) 1 none).robot (c :: q) (k + 1) =
      frameOf (setup (Kuka.new 0.18 0.6 0.62 0.115 0) (railLink c) none).robot q k := by
  simp only [frameOf, linkProduct_eq]
  show (1 : M4) * (chain ((railRobot 0.18 0.6 0.62 0.115).links.take (k + 1 + 1)) _) =
    railLink c * chain ((kukaRobot 0.18 0.6 0.62 0.115).links.take (k + 1)) _
  rw [one_mul]
  simp [chain, railRobot, kukaRobot, Robot.new, Link.tf, railLink]

theorem far_links (c : ℝ) {j : Nat} (hj : 3 ≤ j) : ∀ x ∈ linkBody
    (setupRail (Rail.new 0.18 0.6 0.62 0.115 0) 1 none).robot [c, 0, 0, 0, 0, 1, 0] j, 0.1 < x 0 := by
  rintro x ⟨i, l, s, t, h1, h2, h3, u, hu, rfl⟩
  have hrig := frameOf_rigid IsRigid.one (r := (setupRail (Rail.new 0.18 0.6 0.62 0.115 0) 1 none).robot)
    [c, 0, 0, 0, 0, 1, 0] j
  have ht : IsRigid t := (rail_rigidShapes 0.18 0.6 0.62 0.115 0 IsRigid.one none (by simp)).link l
    (List.mem_of_getElem? h1) t (List.mem_of_getElem? h3)
  have hj6 : j ≤ 6 := by
    have := (List.getElem?_eq_some_iff.1 h1).1
    change j < 7 at this
    omega
  have hpos : 0.66 ≤ posPart (frameOf (setupRail (Rail.new 0.18 0.6 0.62 0.115 0) 1 none).robot
      [c, 0, 0, 0, 0, 1, 0] j) 0 := by
    obtain ⟨k, rfl⟩ : ∃ k, j = k + 1 := ⟨j - 1, by omega⟩
    rw [rail_frame]
    have e : ∀ T : M4, posPart T = act T 0 := fun T => by simp [act]
    have hs1 := Real.sin_le_one 1
    have hs2 : 0 ≤ Real.sin 1 :=
      (Real.sin_pos_of_pos_of_lt_pi one_pos (by linarith [Real.two_le_pi])).le
    have hc1 := Real.cos_le_one 1
    have hc2 := Real.neg_one_le_cos 1
    obtain rfl | rfl | rfl | rfl : k = 2 ∨ k = 3 ∨ k = 4 ∨ k = 5 := by omega
    all_goals
      simp only [frameOf, linkProduct_eq, setup, Kuka.new, kukaRobot, Robot.new, List.take, chain,
        List.zipWith_cons_cons, List.zipWith_nil_left, Link.tf, railLink, List.prod_cons,
        List.prod_nil, mul_one, dhMat_eq, mkTf_mul, posPart_mkTf, Util.rotZ_zero, one_mul, Util.rotX_zero]
      simp only [Matrix.mulVec, dotProduct, Fin.sum_univ_three, Matrix.mul_apply, rotX, rotZ, neg_div,
        Matrix.cons_val, Matrix.of_apply, Pi.add_apply, Real.cos_pi_div_two, Real.sin_pi_div_two,
        Real.cos_neg, Real.sin_neg, Real.sin_zero, Real.cos_zero]
      norm_num
      try linarith
  have hsize : vlen (act t u) ≤ 0.5 := by
    obtain rfl | rfl | rfl | rfl : j = 3 ∨ j = 4 ∨ j = 5 ∨ j = 6 := by omega
    all_goals
      cases h1
      obtain rfl := List.mem_singleton.1 (List.mem_of_getElem? h2)
      obtain rfl := List.mem_singleton.1 (List.mem_of_getElem? h3)
      obtain ⟨b0, b1, b2⟩ := hu
      rw [abs_le] at b0 b1 b2
      norm_num at b0 b1 b2
      rw [(C20_pose _ _ _ _).1.2 u, Util.rotX_zero, one_mulVec, vlen, Real.sqrt_le_left (by norm_num)]
      simp only [dotProduct, Fin.sum_univ_three, Pi.add_apply, Matrix.cons_val]
      norm_num
      nlinarith
  have e0 : posPart (frameOf (setupRail (Rail.new 0.18 0.6 0.62 0.115 0) 1 none).robot
      [c, 0, 0, 0, 0, 1, 0] j) = act (frameOf (setupRail (Rail.new 0.18 0.6 0.62 0.115 0) 1 none).robot
      [c, 0, 0, 0, 0, 1, 0] j) 0 := by simp [act]
  rw [act_mul hrig.2 ht.2]
  rw [e0] at hpos
  have h4 := coord_le_gap (act (frameOf (setupRail (Rail.new 0.18 0.6 0.62 0.115 0) 1 none).robot
      [c, 0, 0, 0, 0, 1, 0] j) (act t u)) (act (frameOf (setupRail (Rail.new 0.18 0.6 0.62 0.115 0) 1
      none).robot [c, 0, 0, 0, 0, 1, 0] j) 0) 0
  rw [gap_rigid hrig, gap_eq, sub_zero] at h4
  have h5 := (abs_le.1 (h4.trans hsize)).1
  norm_num at *
  linarith

theorem rail_not_self (c : ℝ) : ¬ SelfTouch boxOracle
    (setupRail (Rail.new 0.18 0.6 0.62 0.115 0) 1 none).robot [c, 0, 0, 0, 0, 1, 0] := by
  have key : ∀ i j, i + 3 ≤ j → linkBody (setupRail (Rail.new 0.18 0.6 0.62 0.115 0) 1 none).robot
      [c, 0, 0, 0, 0, 1, 0] i ∩ linkBody (setupRail (Rail.new 0.18 0.6 0.62 0.115 0) 1 none).robot
      [c, 0, 0, 0, 0, 1, 0] j = ∅ := by
    intro i j hij
    cases i with
    | zero =>
      refine Set.eq_empty_of_forall_notMem ?_
      rintro x ⟨hx, hx'⟩
      have h1 := far_links c (by omega) x hx'
      obtain ⟨i, l, s, t, e1, e2, e3, u, ⟨b0, -, -⟩, rfl⟩ := hx
      cases e1
      obtain rfl := List.mem_singleton.1 (List.mem_of_getElem? e2)
      obtain rfl := List.mem_singleton.1 (List.mem_of_getElem? e3)
      rw [abs_le] at b0
      norm_num at b0
      have e : frameOf (setupRail (Rail.new 0.18 0.6 0.62 0.115 0) 1 none).robot
          [c, 0, 0, 0, 0, 1, 0] 0 = railLink c := by
        unfold frameOf
        rw [linkProduct_eq]
        simp [setupRail, Rail.new, railRobot, Robot.new, chain, Link.tf, railLink]
      rw [e, railLink, act_mul (dhMat_rigid _ _ _ _).2 (C20_pose _ _ _ _).1.1.2, act_dhMat,
        (C20_pose _ _ _ _).1.2, Util.rotX_zero, one_mulVec] at h1
      simp [rotZ, rotX, Matrix.mulVec, dotProduct, Fin.sum_univ_three] at h1
      norm_num at h1
      exact absurd b0.2 (not_le.2 h1)
    | succ i =>
      obtain ⟨k, rfl⟩ : ∃ k, j = k + 1 := ⟨j - 1, by omega⟩
      have e : ∀ m, linkBody (setupRail (Rail.new 0.18 0.6 0.62 0.115 0) 1 none).robot
          [c, 0, 0, 0, 0, 1, 0] (m + 1) = linkBody (setup (Kuka.new 0.18 0.6 0.62 0.115 0) (railLink c)
          none).robot [0, 0, 0, 0, 1, 0] m := by
        intro m
        ext x
        unfold linkBody
        simp only [rail_frame]
        rfl
      rw [e, e]
      have hb : IsRigid (railLink c) := dhMat_rigid _ _ _ _
      refine C128_bodies (setup (Kuka.new 0.18 0.6 0.62 0.115 0) (railLink c) none).robot rfl hb
        (by simp) ?_ i k (by omega)
      have e : frameOf (setup (Kuka.new 0.18 0.6 0.62 0.115 0) (railLink c) none).robot
          [0, 0, 0, 0, 1, 0] 5 = railLink c * chain (kukaRobot 0.18 0.6 0.62 0.115).links
            [0, 0, 0, 0, 1, 0] := by
        unfold frameOf
        rw [linkProduct_eq]
        rfl
      have e0 : ∀ T : M4, posPart T = act T 0 := fun T => by simp [act]
      change 0.8 ≤ gap (posPart (railLink c)) _
      rw [e, e0, e0, act_mul hb.2 (chain_rigid _ _).2, gap_rigid hb, chain_kuka]
      refine le_trans ?_ (coord_le_gap _ _ 0)
      have hs := Real.sin_gt_sub_cube (x := 1) one_pos
      simp [act, armPos, armRot, zyz_eq, Matrix.mulVec, dotProduct, Fin.sum_univ_three,
        Matrix.mul_apply]
      norm_num [Matrix.vecHead, Matrix.vecTail]
      have h2 : (![Real.cos 1, 0, Real.sin 1] : Fin 3 → ℝ) 2 = Real.sin 1 := rfl
      rw [h2, le_abs]
      right
      linarith
  rintro (⟨i, j, li, lj, hij, hi, hj, h⟩ | ⟨tool, i, li, h, -⟩)
  · have := (touch_bodies _ _ hi hj).1 h
    rcases hij with hij | hij
    · rw [key i j hij] at this
      exact Set.not_nonempty_empty this
    · rw [Set.inter_comm, key j i hij] at this
      exact Set.not_nonempty_empty this
  · cases h

/-- A case of `C148_rail` and `C151_touch`: the default KukaOnRail, a cube a thousand meters away, and a path
of two equal points.  "Plan" succeeds. -/
example [Zeros] : ∃ (e : Gui.Editor (RState × Mem)) (d : Nat → Draws) (p : List Config),
    let r := setupRail (Rail.new 0.18 0.6 0.62 0.115 0) 1 none
    let after := Gui.callback (stdHeap : PQ (WithTop ℝ) Config) r.robot (railArm boxOracle r) id ""
      (.plan d) e
    e.scene = some (grown 50 awayCube) ∧ after.1 = .ok () ∧ after.2.currentSolution = some p ∧
      p.length = 2 ∧ (SmallMoves 10 p → MovesClear r.robot awayCube p) := by
  obtain ⟨x, hx⟩ := railPose
  obtain ⟨pt, T, h1, -, h2, hT⟩ := C47_no_tolerance x ![3 * Real.pi / 2, 1, 0]
  have hT' : T = chain (railRobot 0.18 0.6 0.62 0.115).links [-(1 / 2), 0, 0, 0, 0, 1, 0] := by
    rw [hT, ← hx]
    rfl
  let r := setupRail (Rail.new 0.18 0.6 0.62 0.115 0) 1 none
  let e : Gui.Editor (RState × Mem) := { Gui.Editor.new (RState.new 7, RState.new 3, [[]]) with
    scene := some (grown 50 awayCube), paths := [[.euler pt, .euler pt]]
    path := [.euler pt, .euler pt] }
  let d : Nat → Draws := fun _ => ⟨fun n => n, 0, fun _ => (0, 0, 0), none⟩
  have hI : RailOK 0 e.rob := ⟨WF.new 7, WF.new 3, Nat.zero_lt_one⟩
  have hdisc : ∀ i, discretise (d i) (.euler pt) = .ok ([T].map .transform) := by
    intro i
    show liftPy (pt.getSamples.map _) = _
    rw [h2]
    rfl
  have hs : DiscretisedTo d e.path [[T], [T]] := by
    refine ⟨rfl, fun i tp Ts e1 e2 => ?_⟩
    match i with
    | 0 => cases e1; cases e2; exact hdisc 0
    | 1 => cases e1; cases e2; exact hdisc 1
    | i + 2 => simp at e2
  have hs1 : Real.sin 1 ≠ 0 :=
    (Real.sin_pos_of_pos_of_lt_pi one_pos (by linarith [Real.two_le_pi])).ne'
  have hbodies := rail_bodies 0.18 0.6 0.62 0.115 0 1 none (le_refl (0.72 : ℝ)) (by simp)
  have hrigid := rail_rigidShapes 0.18 0.6 0.62 0.115 0 IsRigid.one none (by simp)
  have hok := C110_complete boxOracle (pq := (stdHeap : PQ (WithTop ℝ) Config))
    stdHeapLawful noOverflow_real stepCost_real 0 IsRigid.one none (by simp) id "" d (e := e)
    (sc := grown 50 awayCube) rfl hI (by simp [e]) hs (by
      intro Ts hTs
      have hTs' : Ts = [T] := by simpa using hTs
      rw [hTs']
      refine ⟨T, rfl, 0, 0, 0, 0, 0, 1, 0, by omega, ?_, ?_, rail_not_self _, by norm_num, by norm_num,
        hs1⟩
      · rw [fkSatisfies_iff _ (setupRail (Rail.new 0.18 0.6 0.62 0.115 0) 1 none).robot
          (rail_known _ _ _ _) _ (le_refl _)]
        change 1 * chain (railRobot 0.18 0.6 0.62 0.115).links _ * 1 = T
        rw [hT', one_mul, mul_one]
        norm_num
      · refine away_not_touched hrigid rfl hbodies (le_refl _) rfl ?_
        simp only [setupRail, Rail.new, railRobot, Robot.new, reachOf, linkLength, reduceCtorEq, if_true,
          if_false]
        have hq : ∀ x : ℝ, x ≤ 1 → Real.sqrt x ≤ 1 := fun x => Real.sqrt_le_one.2
        refine le_trans (add_le_add (hq _ ?_) (add_le_add (hq _ ?_) (add_le_add (hq _ ?_)
          (add_le_add (hq _ ?_) (add_le_add (hq _ ?_) (add_le_add (hq _ ?_) (add_le_add (hq _ ?_)
          (le_refl _)))))))) ?_ <;> norm_num)
  obtain ⟨p, e1, e2, e3⟩ := C148_rail (stdHeap : PQ (WithTop ℝ) Config) 0 (a1 := 0.18) (a2 := 0.6)
    (d4 := 0.62) (d6 := 0.115) (base := 1) (tool := none) (scene := awayCube) (ρ := 0.72) (ε := 0)
    (δ := 10) (M := 50) ⟨IsRigid.one, by simp, by
      intro t ht
      rw [List.mem_singleton.1 ht]
      exact (C20_pose _ _ _ _).1.1, le_refl _, by simp⟩ (by norm_num [abs_of_pos]) (conv := id) (by simp)
    "" d (e := e) rfl hI hs (by simp) hok
  exact ⟨e, d, p, rfl, hok, e1, e2, e3⟩

theorem farCube_sameNear : SameNear (posPart (1 : M4)) 2.235 ⟨[], []⟩ farCube := by
  refine sameNear_append (c := ⟨[], []⟩) (far := farCube) rfl ?_
  rintro s t ⟨i, h1, h2⟩ u ⟨b0, -, -⟩
  obtain rfl := List.mem_singleton.1 (List.mem_of_getElem? h1)
  obtain rfl := List.mem_singleton.1 (List.mem_of_getElem? h2)
  refine lt_of_lt_of_le ?_ (coord_le_gap _ _ 0)
  rw [abs_le] at b0
  norm_num at b0
  rw [(C20_pose _ _ _ _).1.2, Util.rotX_zero, one_mulVec]
  simp [posPart]
  rw [lt_abs]
  right
  norm_num
  linarith

/-- A case of `C151_answer`: the stock Kuka at any configuration and a cube far away: the check gives the
answer that it gives for the empty scene. -/
example (q : Config) (hq : q.length = 6) : ∃ b,
    ((setup (Kuka.new 0.18 0.6 0.62 0.115 0) 1 none).robot.isInCollision boxOracle
      (after boxOracle (kukaRobot 0.18 0.6 0.62 0.115).links []) q ⟨[], []⟩).1 = .ok b ∧
    ((setup (Kuka.new 0.18 0.6 0.62 0.115 0) 1 none).robot.isInCollision boxOracle
      (after boxOracle (kukaRobot 0.18 0.6 0.62 0.115).links []) q farCube).1 = .ok b := by
  refine C151_answer (kuka_regular 0.18 0.6 0.62 0.115 0 1 none)
    (kuka_rigidShapes 0.18 0.6 0.62 0.115 0 IsRigid.one none (by simp))
    (kuka_bodies 0.18 0.6 0.62 0.115 0 1 none (le_refl (0.72 : ℝ)) (by simp)) (R := 2.235)
    (by intro b hb; cases hb) (by rw [hq]; exact le_refl _) ?_ farCube_sameNear [] [] (by simp) (by simp)
  refine (reachOf_revolute (fun l hl => ?_) q).trans ?_
  · change l ∈ (kukaRobot 0.18 0.6 0.62 0.115).links at hl
    simp only [kukaRobot, Robot.new, List.mem_cons, List.not_mem_nil, or_false] at hl
    rcases hl with rfl | rfl | rfl | rfl | rfl | rfl <;> rfl
  · change ((kukaRobot 0.18 0.6 0.62 0.115).links.map fixedLength).sum + 0.72 ≤ _
    simp [kukaRobot, Robot.new, fixedLength, Real.sqrt_sq_eq_abs]
    norm_num [abs_of_pos]

/-- A case of `C151_kuka`, and so of `C150`: any path of free points, planned by the iterative planner in the
empty scene by a new robot, and with the far cube in the scene by a robot that has been used. -/
example [Zeros] (ps : List V3) (draws : Nat → Nat → Draws) (time : Nat → ℝ) {w : RState × RState × Mem}
    (hw : KukaOK 0 w) :
    let arm := (kukaRef boxOracle (setup (Kuka.new 0.18 0.6 0.62 0.115 0) 1 none)).toArm
    let optimal := fun (_ : List PathPt) (_ : Collection Shape) (_ : Nat) (_ : List (List ℝ)) =>
      (pure () : Run (RState × RState × Mem) Unit)
    (PlanningTask.solve (freeTask ps ⟨[], []⟩ 5) arm (stdHeap : PQ (WithTop ℝ) Config) id draws time 0
      optimal (some "grid_iterative") (RState.new 6, RState.new 3, [[[0, 0, 0], [0, 0, 0]]])).1 =
    (PlanningTask.solve (freeTask ps farCube 5) arm (stdHeap : PQ (WithTop ℝ) Config) id draws time 0
      optimal (some "grid_iterative") w).1 := by
  intro arm optimal
  have h0 : KukaOK 0 (RState.new 6, RState.new 3, [[[0, 0, 0], [0, 0, 0]]]) :=
    ⟨WF.new 6, WF.new 3, by decide⟩
  exact C151_kuka 0 (a1 := 0.18) (a2 := 0.6) (d4 := 0.62) (d6 := 0.115) (base := 1) (tool := none)
    IsRigid.one (by simp) (le_refl (0.72 : ℝ)) (by simp) (R := 2.235)
    (by norm_num [abs_of_pos]) farCube_sameNear (freeTask ps ⟨[], []⟩ 5)
    (freeTask ps farCube 5) rfl rfl rfl rfl rfl stdHeap id draws time 0 optimal
    optimal (method := "grid_iterative") (by decide) h0 hw

/-- A case of `C150_again`: the stock Kuka plans the same path twice. -/
example [Zeros] (ps : List V3) (draws : Nat → Nat → Draws) (time : Nat → ℝ)
    {w : RState × RState × Mem} {res : SolveRes (WithTop ℝ) Unit} :
    let solve := PlanningTask.solve (freeTask ps farCube 5)
      (kukaRef boxOracle (setup (Kuka.new 0.18 0.6 0.62 0.115 0) 1 none)).toArm
      (stdHeap : PQ (WithTop ℝ) Config) id draws time 0
      (fun _ _ _ _ => (pure () : Run (RState × RState × Mem) Unit)) (some "grid")
    solve (RState.new 6, RState.new 3, [[[0, 0, 0], [0, 0, 0]]]) = (.ok res, w) →
      (solve w).1 = .ok res := by
  intro solve h
  exact C150_again (kuka_determined boxOracle 0.18 0.6 0.62 0.115 0 1 none farCube)
    (fun q hq => robotFk_returns (kuka_regular 0.18 0.6 0.62 0.115 0 1 none) hq
      fun v : RState × Mem => WF 3 v.1 ∧ 0 < v.2.length) _ rfl stdHeap id draws time 0 _ (by decide)
    (w := (RState.new 6, RState.new 3, [[[0, 0, 0], [0, 0, 0]]])) ⟨WF.new 6, WF.new 3, by decide⟩ h

end

end Verif.Props
