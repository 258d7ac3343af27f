import Verif.Props.GridComplete
import Verif.Props.Rounding
import Verif.Props.OptimalPath

/-! # C140: a planned path is free of collisions between its configurations -/

set_option linter.unusedSectionVars false

namespace Verif.Props

open Matrix Verif Verif.Path Verif.Geometry Verif.Kin Verif.ShortestPath Verif.Task Verif.CppGraph
  Verif.Search Verif.Planning Verif.Spec Verif.Plot Verif.Gui Verif.Util

noncomputable section

/-- All joints move from `q` to `q'` at constant speed; `t` goes from 0 to 1. -/
def between (q q' : List ℝ) (t : ℝ) : List ℝ := List.zipWith (fun a b => a + t * (b - a)) q q'

/-- The motion through the configurations of a path touches neither the scene nor the robot itself. -/
def StaysFree (r : Robot Shape) (scene : Collection Shape) (path : List (List ℝ)) : Prop :=
  ∀ (i : Nat) (q q' : List ℝ), path[i]? = some q → path[i + 1]? = some q' →
    ∀ t : ℝ, 0 ≤ t → t ≤ 1 → ∀ history : List (Call Shape),
      (∀ c ∈ history, c.robot.links = r.links) →
      (r.isInCollision boxOracle (after boxOracle r.links history) (between q q' t) scene).1 = .ok false

/-- **C140**, the full statement: whenever the grid planner succeeds, the motion along its path is free
of collisions. -/
def C140_statement (conv : ℝ → ℝ) : Prop :=
  ∀ (r : Robot Shape) (ik : M4 → Option (List Config)) (t : PlanningTask Shape)
    (scene : Collection Shape) (pq : PQ (WithTop ℝ) Config) (draws : Nat → Nat → Draws)
    (time : Nat → ℝ) (fuel : Nat)
    (optimal : List PathPt → Collection Shape → Nat → List (List ℝ) → Run (RState × Unit) Unit)
    (history : List (Call Shape)) (path : List Config) (c : Option (WithTop ℝ)) (w' : RState × Unit),
    Regular r → (∀ T sols, ik T = some sols → ∀ q ∈ sols, q.length = r.links.length) →
    t.scene = some scene → Lawful pq → (∀ c ∈ history, c.robot.links = r.links) →
    PlanningTask.solve t (pureArm boxOracle r ik) pq conv draws time fuel optimal (some "grid")
      (after boxOracle r.links history, ()) = (.ok (.plan ⟨true, some path, c⟩), w') →
    StaysFree r scene path

/-! ### How far a point moves on the way -/

section
variable {S : Type}

theorem between_length (q q' : List ℝ) (t : ℝ) : (between q q' t).length = min q.length q'.length := by
  simp [between]

theorem movedBy_between (ls : List (Link S)) (q q' : List ℝ) (h : q.length = q'.length) {t : ℝ}
    (ht : 0 ≤ t) (x : ℝ) : movedBy ls (between q q' t) q x = t * movedBy ls q' q x := by
  induction ls generalizing q q' with
  | nil => simp [movedBy]
  | cons l ls ih =>
    cases q with
    | nil =>
      cases q' with
      | nil => simp [movedBy, between]
      | cons b q' => simp at h
    | cons a q =>
      cases q' with
      | nil => simp at h
      | cons b q' =>
        have e := ih q q' (by simpa using h)
        unfold between at e ⊢
        rw [List.zipWith_cons_cons, movedBy, movedBy, e, show a + t * (b - a) - a = t * (b - a) by ring,
          abs_mul, abs_of_nonneg ht]
        ring

theorem between_symm (q q' : List ℝ) (t : ℝ) : between q q' t = between q' q (1 - t) := by
  unfold between
  rw [List.zipWith_comm]
  congr 1
  funext a b
  ring

theorem linkLength_nonneg (l : Link S) (q : ℝ) : 0 ≤ linkLength l q := Real.sqrt_nonneg _

theorem reachOf_take (ls : List (Link S)) (qs : List ℝ) (m : Nat) (x : ℝ) :
    reachOf (ls.take m) qs x ≤ reachOf ls qs x := by
  induction ls generalizing qs m with
  | nil => simp
  | cons l ls ih =>
    cases m with
    | zero =>
      rw [List.take_zero]
      have : ∀ (ls : List (Link S)) (qs : List ℝ), x ≤ reachOf ls qs x := by
        intro ls
        induction ls with
        | nil => intro qs; rw [reachOf]; simp
        | cons l ls ih =>
          intro qs
          cases qs with
          | nil => rw [reachOf]; simp
          | cons q qs => rw [reachOf]; linarith [ih qs, linkLength_nonneg l q]
      rw [show reachOf ([] : List (Link S)) qs x = x by rw [reachOf]; simp]
      exact this _ _
    | succ m =>
      rw [List.take_succ_cons]
      cases qs with
      | nil => rw [reachOf, reachOf] <;> simp
      | cons q qs =>
        rw [reachOf, reachOf]
        linarith [ih qs m]

theorem reachOf_nonneg (ls : List (Link S)) (qs : List ℝ) {x : ℝ} (hx : 0 ≤ x) :
    0 ≤ reachOf ls qs x := by
  have := reachOf_take ls qs 0 x
  rw [List.take_zero, show reachOf ([] : List (Link S)) qs x = x by rw [reachOf]; simp] at this
  linarith

theorem movedBy_nonneg (ls : List (Link S)) (qs qs' : List ℝ) {x : ℝ} (hx : 0 ≤ x) :
    0 ≤ movedBy ls qs qs' x := by
  induction ls generalizing qs qs' with
  | nil => simp [movedBy]
  | cons l ls ih =>
    cases qs with
    | nil => simp [movedBy]
    | cons q qs =>
      cases qs' with
      | nil => simp [movedBy]
      | cons q' qs' =>
        rw [movedBy]
        refine add_nonneg (mul_nonneg (abs_nonneg _) ?_) (ih _ _)
        split
        · norm_num
        · exact reachOf_nonneg _ _ hx

/-- A body nearer to the base, and a point nearer to its frame, move less. -/
theorem movedBy_mono (ls : List (Link S)) (qs qs' : List ℝ) (m : Nat) {x y : ℝ} (hx : 0 ≤ x)
    (hxy : x ≤ y) : movedBy (ls.take m) qs qs' x ≤ movedBy ls qs qs' y := by
  induction ls generalizing qs qs' m with
  | nil => simp [movedBy]
  | cons l ls ih =>
    cases m with
    | zero =>
      rw [List.take_zero, show movedBy ([] : List (Link S)) qs qs' x = 0 by simp [movedBy]]
      exact movedBy_nonneg _ _ _ (hx.trans hxy)
    | succ m =>
      rw [List.take_succ_cons]
      cases qs with
      | nil => simp [movedBy]
      | cons q qs =>
        cases qs' with
        | nil => simp [movedBy]
        | cons q' qs' =>
          rw [movedBy, movedBy]
          refine add_le_add (mul_le_mul_of_nonneg_left ?_ (abs_nonneg _)) (ih _ _ _)
          split
          · exact le_refl _
          · have h1 := reachOf_take (l :: ls) (q' :: qs') (m + 1) x
            rw [List.take_succ_cons] at h1
            exact h1.trans (reachOf_mono _ _ hxy)

/-- A point moves with its link by at most half of `movedBy` on the first half of the way. -/
theorem gap_frame (r : Robot S) (hb : IsRigid r.tfBase) (q q' : List ℝ)
    (hq : q.length = r.links.length) (hq' : q'.length = r.links.length) {k : Nat}
    (v : V3) {t : ℝ} (h0 : 0 ≤ t) (h1 : t ≤ 1 / 2) :
    gap (act (frameOf r (between q q' t) k) v) (act (frameOf r q k) v) ≤
      movedBy (r.links.take (k + 1)) q' q (vlen v) / 2 := by
  rw [frameOf, frameOf, linkProduct_eq, linkProduct_eq, act_mul hb.2 (chain_rigid _ _).2,
    act_mul hb.2 (chain_rigid _ _).2, gap_rigid hb, chain_take, chain_take]
  have e := gap_chain (r.links.take (k + 1)) (between q q' t) q
    (by rw [List.length_take, between_length, hq, hq']; omega) (by rw [List.length_take]; omega) v
  rw [movedBy_between _ _ _ (hq.trans hq'.symm) h0] at e
  have := movedBy_nonneg (r.links.take (k + 1)) q' q (vlen_nonneg v)
  nlinarith

end

/-! ### Clearance -/

/-- Every point `x` of the first collection and every point `y` of the second, seen from the frames they
move with, are further apart than `m x + m' y`. -/
def Apart (c : Collection Shape) (A : M4) (d : Collection Shape) (B : M4) (m m' : V3 → ℝ) : Prop :=
  ∀ (i j : Nat) (s s' : Shape) (t t' : M4), c.s[i]? = some s → c.tfS[i]? = some t →
    d.s[j]? = some s' → d.tfS[j]? = some t' → ∀ u ∈ boxPoints s, ∀ v ∈ boxPoints s',
      m (act t u) + m' (act t' v) < gap (act (A * t) u) (act (B * t') v)

/-- What a point of link `k` can move on half of the way from `q` to `q'`. -/
def halfway (r : Robot Shape) (q q' : List ℝ) (k : Nat) (v : V3) : ℝ :=
  movedBy (r.links.take (k + 1)) q' q (vlen v) / 2

/-- At `q` the robot keeps further away from the scene and from itself than its points move, where `m k`
tells how far the points of link `k` move (the tool moves with the last link). -/
structure ClearOf (r : Robot Shape) (q : List ℝ) (scene : Collection Shape) (m : Nat → V3 → ℝ) : Prop where
  base : ∀ base, r.geometryBase = some base → ¬ Touch boxOracle base r.tfBase scene 1
  link : ∀ (i : Nat) (l : Link Shape), r.links[i]? = some l →
    Apart l.geometry (frameOf r q i) scene 1 (m i) 0
  tool : ∀ tool, r.tool = some tool → Apart tool.toCollection (frameOf r q (r.links.length - 1)) scene 1
    (m (r.links.length - 1)) 0
  self : r.doCheckSelfCollision = true → ∀ (i j : Nat) (li lj : Link Shape), (i + 3 ≤ j ∨ j + 3 ≤ i) →
    r.links[i]? = some li → r.links[j]? = some lj →
    Apart li.geometry (frameOf r q i) lj.geometry (frameOf r q j) (m i) (m j)
  toolSelf : r.doCheckSelfCollision = true → ∀ (tool : Tool Shape) (i : Nat) (li : Link Shape),
    r.tool = some tool → i + 1 < r.links.length → r.links[i]? = some li →
    Apart li.geometry (frameOf r q i) tool.toCollection (frameOf r q (r.links.length - 1))
      (m i) (m (r.links.length - 1))

/-- At `q` the robot keeps further away from the scene and from itself than it can move on half of the
way to `q'`. -/
def ClearStep (r : Robot Shape) (q q' : List ℝ) (scene : Collection Shape) : Prop :=
  ClearOf r q scene (halfway r q q')

/-- The shapes of the links and of the tool are placed by rigid motions. -/
structure RigidShapes (r : Robot Shape) : Prop where
  base : IsRigid r.tfBase
  link : ∀ l ∈ r.links, ∀ t ∈ l.geometry.tfS, IsRigid t
  tool : ∀ tool, r.tool = some tool → ∀ t ∈ tool.toCollection.tfS, IsRigid t

theorem Apart.no_touch {c d : Collection Shape} {A B A' B' : M4} {m m' : V3 → ℝ}
    (h : Apart c A d B m m') (hc : ∀ t ∈ c.tfS, IsRigid t) (hd : ∀ t ∈ d.tfS, IsRigid t)
    (hA : IsRigid A) (hB : IsRigid B) (hA' : IsRigid A') (hB' : IsRigid B')
    (h1 : ∀ x, gap (act A' x) (act A x) ≤ m x) (h2 : ∀ x, gap (act B' x) (act B x) ≤ m' x) :
    ¬ Touch boxOracle c A' d B' := by
  rw [touch_boxes]
  rintro ⟨i, j, s, s', t, t', e1, e2, e3, e4, u, hu, v, hv, e⟩
  have ht := (hc t (List.mem_of_getElem? e2)).2
  have ht' := (hd t' (List.mem_of_getElem? e4)).2
  have hlt := h i j s s' t t' e1 e2 e3 e4 u hu v hv
  rw [act_mul hA.2 ht, act_mul hB.2 ht'] at hlt
  rw [act_mul hA'.2 ht, act_mul hB'.2 ht'] at e
  have g1 := h1 (act t u)
  have g2 := h2 (act t' v)
  have g3 := gap_triangle (act A (act t u)) (act A' (act t u)) (act B (act t' v))
  rw [gap_comm] at g1
  rw [← e] at g2
  linarith

/-- The scene stands still: its transforms may be any matrices. -/
theorem Apart.no_touch_scene {c d : Collection Shape} {A A' : M4} {m : V3 → ℝ}
    (h : Apart c A d 1 m 0) (hc : ∀ t ∈ c.tfS, IsRigid t) (hA : IsRigid A) (hA' : IsRigid A')
    (h1 : ∀ x, gap (act A' x) (act A x) ≤ m x) : ¬ Touch boxOracle c A' d 1 := by
  rw [touch_boxes]
  rintro ⟨i, j, s, s', t, t', e1, e2, e3, e4, u, hu, v, hv, e⟩
  have ht := (hc t (List.mem_of_getElem? e2)).2
  have hlt := h i j s s' t t' e1 e2 e3 e4 u hu v hv
  rw [act_mul hA.2 ht, ← e, act_mul hA'.2 ht] at hlt
  have g1 := h1 (act t u)
  rw [gap_comm] at g1
  simp only [Pi.zero_apply] at hlt
  linarith

theorem clear_half {r : Robot Shape} (hs : RigidShapes r) {scene : Collection Shape} {q q' : List ℝ}
    (hq : q.length = r.links.length) (hq' : q'.length = r.links.length) (h : ClearStep r q q' scene)
    {t : ℝ} (h0 : 0 ≤ t) (h1 : t ≤ 1 / 2) :
    ¬ SceneTouch boxOracle r (between q q' t) scene ∧
      (r.doCheckSelfCollision = true → ¬ SelfTouch boxOracle r (between q q' t)) := by
  have hg : ∀ k x, gap (act (frameOf r (between q q' t) k) x) (act (frameOf r q k) x) ≤
    halfway r q q' k x := fun k x => gap_frame r hs.base q q' hq hq' x h0 h1
  have hf := fun q k => frameOf_rigid hs.base q k
  have hl : ∀ (i : Nat) (l : Link Shape), r.links[i]? = some l → ∀ t ∈ l.geometry.tfS, IsRigid t :=
    fun i l hi => hs.link l (List.mem_of_getElem? hi)
  constructor
  · rintro (⟨b, hb, ht⟩ | ⟨i, l, hi, ht⟩ | ⟨tool, htool, ht⟩)
    · exact h.base b hb ht
    · exact (h.link i l hi).no_touch_scene (hl i l hi) (hf _ _) (hf _ _) (hg i) ht
    · exact (h.tool tool htool).no_touch_scene (hs.tool tool htool) (hf _ _) (hf _ _) (hg _) ht
  · rintro hc (⟨i, j, li, lj, hij, hi, hj, ht⟩ | ⟨tool, i, li, htool, hlt, hi, ht⟩)
    · exact (h.self hc i j li lj hij hi hj).no_touch (hl i li hi) (hl j lj hj) (hf _ _) (hf _ _)
        (hf _ _) (hf _ _) (hg i) (hg j) ht
    · exact (h.toolSelf hc tool i li htool hlt hi).no_touch (hl i li hi) (hs.tool tool htool) (hf _ _)
        (hf _ _) (hf _ _) (hf _ _) (hg i) (hg _) ht

/-- **C140**, what holds for every robot: the motion is free of collisions if at every configuration of
the path the robot keeps further away from the scene and from itself than it can move on half of the way
to the configurations before and after. -/
theorem C140_partial {r : Robot Shape} (hr : Regular r) (hs : RigidShapes r) {scene : Collection Shape}
    {path : List (List ℝ)} (hlen : ∀ q ∈ path, q.length = r.links.length)
    (h : ∀ (i : Nat) (q q' : List ℝ), path[i]? = some q → path[i + 1]? = some q' →
      ClearStep r q q' scene ∧ ClearStep r q' q scene) : StaysFree r scene path := by
  intro i q q' hq hq' t h0 h1 history hh
  have l1 := hlen q (List.mem_of_getElem? hq)
  have l2 := hlen q' (List.mem_of_getElem? hq')
  have key : ¬ SceneTouch boxOracle r (between q q' t) scene ∧
      (r.doCheckSelfCollision = true → ¬ SelfTouch boxOracle r (between q q' t)) := by
    by_cases ht : t ≤ 1 / 2
    · exact clear_half hs l1 l2 (h i q q' hq hq').1 h0 ht
    · rw [between_symm]
      exact clear_half hs l2 l1 (h i q q' hq hq').2 (by linarith) (by linarith)
  obtain ⟨b, e, hb⟩ := C33_answer boxOracle r hr.known hr.matrix hr.tool history hh (between q q' t)
    (by rw [between_length]; omega) scene
  rw [e]
  cases b with
  | false => rfl
  | true =>
    rcases hb.1 rfl with h' | ⟨h', h''⟩
    · exact absurd h' key.1
    · exact absurd h'' (key.2 h')

/-! ### The Kuka -/

/-- All points of the links and of the tool are within `ρ` of the origin of the frame they move with. -/
structure BodiesWithin (r : Robot Shape) (ρ : ℝ) : Prop where
  link : ∀ l ∈ r.links, ∀ (i : Nat) (s : Shape) (t : M4), l.geometry.s[i]? = some s →
    l.geometry.tfS[i]? = some t → ∀ u ∈ boxPoints s, vlen (act t u) ≤ ρ
  tool : ∀ tool, r.tool = some tool → ∀ (i : Nat) (s : Shape) (t : M4),
    tool.toCollection.s[i]? = some s → tool.toCollection.tfS[i]? = some t →
    ∀ u ∈ boxPoints s, vlen (act t u) ≤ ρ

theorem ClearStep.of_margin {r : Robot Shape} {q q' : List ℝ} {scene : Collection Shape} {ρ M : ℝ}
    (hρ : BodiesWithin r ρ) (hM : movedBy r.links q' q ρ ≤ 2 * M)
    (h : ClearOf r q scene fun _ _ => M) : ClearStep r q q' scene := by
  have hh : ∀ k x, vlen x ≤ ρ → halfway r q q' k x ≤ M := fun k x hx => by
    have := movedBy_mono r.links q' q (k + 1) (vlen_nonneg x) hx
    unfold halfway
    linarith
  refine ⟨h.base, fun i l hi a j s s' t t' e1 e2 e3 e4 u hu v hv => ?_,
    fun tool ht a j s s' t t' e1 e2 e3 e4 u hu v hv => ?_,
    fun hc i j li lj hij hi hj a b s s' t t' e1 e2 e3 e4 u hu v hv => ?_,
    fun hc tool i li ht hlt hi a b s s' t t' e1 e2 e3 e4 u hu v hv => ?_⟩
  · have h1 := h.link i l hi a j s s' t t' e1 e2 e3 e4 u hu v hv
    have h2 := hh i _ (hρ.link l (List.mem_of_getElem? hi) a s t e1 e2 u hu)
    linarith
  · have h1 := h.tool tool ht a j s s' t t' e1 e2 e3 e4 u hu v hv
    have h2 := hh (r.links.length - 1) _ (hρ.tool tool ht a s t e1 e2 u hu)
    linarith
  · have h1 := h.self hc i j li lj hij hi hj a b s s' t t' e1 e2 e3 e4 u hu v hv
    have h2 := hh i _ (hρ.link li (List.mem_of_getElem? hi) a s t e1 e2 u hu)
    have h3 := hh j _ (hρ.link lj (List.mem_of_getElem? hj) b s' t' e3 e4 v hv)
    linarith
  · have h1 := h.toolSelf hc tool i li ht hlt hi a b s s' t t' e1 e2 e3 e4 u hu v hv
    have h2 := hh i _ (hρ.link li (List.mem_of_getElem? hi) a s t e1 e2 u hu)
    have h3 := hh (r.links.length - 1) _ (hρ.tool tool ht b s' t' e3 e4 v hv)
    linarith

theorem list_six {q : List ℝ} (h : q.length = 6) :
    ∃ q1 q2 q3 q4 q5 q6, q = [q1, q2, q3, q4, q5, q6] := by
  match q, h with
  | [a, b, c, d, e, f], _ => exact ⟨a, b, c, d, e, f, rfl⟩

theorem kuka_rigidShapes (a1 a2 d4 d6 : ℝ) (n : Nat) {base : M4} (hb : IsRigid base)
    (tool : Option (Tool Shape)) (ht : ∀ t, tool = some t → ∀ tf ∈ t.toCollection.tfS, IsRigid tf) :
    RigidShapes (setup (Kuka.new a1 a2 d4 d6 n) base tool).robot := by
  refine ⟨hb, fun l hl t htf => ?_, ht⟩
  simp only [setup, Kuka.new, kukaRobot, Robot.new, List.mem_cons, List.not_mem_nil, or_false] at hl
  rcases hl with rfl | rfl | rfl | rfl | rfl | rfl <;>
  · rw [List.mem_singleton.1 htf]
    exact (C20_pose _ _ _ _).1.1

theorem kuka_bodies (a1 a2 d4 d6 : ℝ) (n : Nat) (base : M4) (tool : Option (Tool Shape)) {ρ : ℝ}
    (hρ : 0.72 ≤ ρ) (htool : ∀ t, tool = some t → ∀ (i : Nat) (s : Shape) (tf : M4),
      t.toCollection.s[i]? = some s → t.toCollection.tfS[i]? = some tf →
      ∀ u ∈ boxPoints s, vlen (act tf u) ≤ ρ) :
    BodiesWithin (setup (Kuka.new a1 a2 d4 d6 n) base tool).robot ρ := by
  refine ⟨fun l hl i s t e1 e2 u hu => le_trans ?_ hρ, htool⟩
  have hv : ∀ (x y z : ℝ) (u : V3), vlen (act (poseX 0 x y z) u) =
      Real.sqrt ((u 0 + x) ^ 2 + (u 1 + y) ^ 2 + (u 2 + z) ^ 2) := by
    intro x y z u
    rw [(C20_pose 0 x y z).1.2 u, Util.rotX_zero, one_mulVec, vlen]
    congr 1
    simp only [dotProduct, Fin.sum_univ_three, Pi.add_apply, Matrix.cons_val]
    ring
  have hsq : ∀ a b c : ℝ, a ^ 2 + b ^ 2 + c ^ 2 ≤ 0.5184 → Real.sqrt (a ^ 2 + b ^ 2 + c ^ 2) ≤ 0.72 :=
    fun a b c h => by
      rw [Real.sqrt_le_left (by norm_num)]
      norm_num at h ⊢
      exact h
  simp only [setup, Kuka.new, kukaRobot, Robot.new, List.mem_cons, List.not_mem_nil, or_false] at hl
  rcases hl with rfl | rfl | rfl | rfl | rfl | rfl <;>
  · obtain rfl := List.mem_singleton.1 (List.mem_of_getElem? e1)
    obtain rfl := List.mem_singleton.1 (List.mem_of_getElem? e2)
    rw [hv]
    apply hsq
    obtain ⟨b0, b1, b2⟩ := hu
    rw [abs_le] at b0 b1 b2
    norm_num at b0 b1 b2
    nlinarith

/-- **C140** for a Kuka: if no joint turns by more than `δ` from one configuration to the next, a margin
of `δ / 2 * (|a1| + 2 |a2| + 4 |d4| + 6 |d6| + 6 ρ)` from the scene (and twice that between its own links)
at the configurations of the path is enough; `ρ` bounds the size of the links and of the tool. -/
theorem C140_kuka (a1 a2 d4 d6 : ℝ) (n : Nat) {base : M4} (hb : IsRigid base)
    (tool : Option (Tool Shape)) (ht : ∀ t, tool = some t → ∀ tf ∈ t.toCollection.tfS, IsRigid tf)
    {ρ δ : ℝ} (hρ : 0.72 ≤ ρ) (htool : ∀ t, tool = some t → ∀ (i : Nat) (s : Shape) (tf : M4),
      t.toCollection.s[i]? = some s → t.toCollection.tfS[i]? = some tf →
      ∀ u ∈ boxPoints s, vlen (act tf u) ≤ ρ)
    {scene : Collection Shape} {path : List (List ℝ)} (hlen : ∀ q ∈ path, q.length = 6)
    (hstep : ∀ (i : Nat) (q q' : List ℝ), path[i]? = some q → path[i + 1]? = some q' →
      ∀ (j : Nat) (a b : ℝ), q[j]? = some a → q'[j]? = some b → |a - b| ≤ δ)
    (hfree : ∀ q ∈ path, ClearOf (setup (Kuka.new a1 a2 d4 d6 n) base tool).robot q scene fun _ _ =>
      δ / 2 * (|a1| + 2 * |a2| + 4 * |d4| + 6 * |d6| + 6 * ρ)) :
    StaysFree (setup (Kuka.new a1 a2 d4 d6 n) base tool).robot scene path := by
  have hrig := kuka_rigidShapes a1 a2 d4 d6 n hb tool ht
  have hwithin := kuka_bodies a1 a2 d4 d6 n base tool hρ htool
  have hreg : Regular (setup (Kuka.new a1 a2 d4 d6 n) base tool).robot :=
    ⟨fun l hl => by
      simp only [setup, Kuka.new, kukaRobot, Robot.new, List.mem_cons, List.not_mem_nil, or_false] at hl
      rcases hl with rfl | rfl | rfl | rfl | rfl | rfl <;> simp, rfl, Or.inr (Nat.succ_pos 5)⟩
  refine C140_partial hreg hrig (fun q hq => hlen q hq) fun i q q' hq hq' => ?_
  have hstep' := hstep i q q' hq hq'
  obtain ⟨q1, q2, q3, q4, q5, q6, rfl⟩ := list_six (hlen q (List.mem_of_getElem? hq))
  obtain ⟨p1, p2, p3, p4, p5, p6, rfl⟩ := list_six (hlen q' (List.mem_of_getElem? hq'))
  have g1 := hstep' 0 _ _ rfl rfl
  have g2 := hstep' 1 _ _ rfl rfl
  have g3 := hstep' 2 _ _ rfl rfl
  have g4 := hstep' 3 _ _ rfl rfl
  have g5 := hstep' 4 _ _ rfl rfl
  have g6 := hstep' 5 _ _ rfl rfl
  have hρ0 : 0 ≤ ρ := le_trans (by norm_num) hρ
  refine ⟨ClearStep.of_margin hwithin ?_ (hfree _ (List.mem_of_getElem? hq)),
    ClearStep.of_margin hwithin ?_ (hfree _ (List.mem_of_getElem? hq'))⟩
  · refine (movedBy_kuka a1 a2 d4 d6 ρ δ hρ0 ((abs_sub_comm p1 q1).le.trans g1)
      ((abs_sub_comm p2 q2).le.trans g2) ((abs_sub_comm p3 q3).le.trans g3)
      ((abs_sub_comm p4 q4).le.trans g4) ((abs_sub_comm p5 q5).le.trans g5)
      ((abs_sub_comm p6 q6).le.trans g6)).trans (le_of_eq (by ring))
  · exact (movedBy_kuka a1 a2 d4 d6 ρ δ hρ0 g1 g2 g3 g4 g5 g6).trans (le_of_eq (by ring))

/-! ### An Arm2 that sweeps through an obstacle -/

/-- The first joint value of an answer of the Arm2 lies between -π and π. -/
theorem arm2Ik_first [Zeros] {a1 a2 a3 : ℝ} {T : M4} {sols : List (List ℝ)}
    (h : arm2Ik (arm2 a1 a2 a3) T = some sols) {q : List ℝ} (hq : q ∈ sols) :
    ∃ q1 q2 q3, q = [q1, q2, q3] ∧ -Real.pi ≤ q1 ∧ q1 ≤ Real.pi := by
  unfold arm2Ik at h
  simp only at h
  split at h
  · cases h
    rw [List.mem_append] at hq
    rcases hq with hm | hm
    · revert hm
      generalize snap _ = o
      cases o with
      | none => simp
      | some c =>
        intro hm
        simp only [Option.map_some, Option.getD_some, arm2Pos, elbow, List.mem_cons,
          List.not_mem_nil, or_false] at hm
        rcases hm with rfl | rfl <;> exact ⟨_, _, _, rfl, atan2_mem _ _ _ _⟩
    · revert hm
      generalize snap _ = o
      cases o with
      | none => simp
      | some c =>
        intro hm
        simp only [Option.map_some, Option.getD_some, arm2Neg, elbow, List.mem_cons,
          List.not_mem_nil, or_false] at hm
        rcases hm with rfl | rfl <;> exact ⟨_, _, _, rfl, atan2_mem _ _ _ _⟩
  · cases h

/-- All answers for a target at `(0, 2 ε, 1)`, `ε = ± 1`, have the first joint at `ε π / 2`. -/
theorem arm2Ik_side [Zeros] {ε : ℝ} (hε : ε = 1 ∨ ε = -1) {T : M4} (h0 : T 0 3 = 0)
    (h1 : T 1 3 = 2 * ε) (h2 : T 2 3 = 1) {sols : List (List ℝ)}
    (h : arm2Ik (arm2 1 1 1) T = some sols) {q : List ℝ} (hq : q ∈ sols) :
    ∃ q2 q3, q = [ε * (Real.pi / 2), q2, q3] := by
  obtain ⟨p1, p2, p3, rfl, b1, b2⟩ := arm2Ik_first h hq
  obtain ⟨u, q1, c', sg, b, d, b', d', e1, e2, hsg, hsnap, e⟩ := arm2Ik_cand h hq
  rw [h0] at e1
  rw [h1] at e2
  rw [h2] at hsnap
  obtain ⟨s1, s2, s3, s4, s5⟩ := snap_some hsnap
  have hu : u ^ 2 = 4 := by
    have := Real.sin_sq_add_cos_sq q1
    have hε2 : ε ^ 2 = 1 := by rcases hε with rfl | rfl <;> norm_num
    calc u ^ 2 = (Real.cos q1 * u) ^ 2 + (Real.sin q1 * u) ^ 2 := by linear_combination (-u ^ 2) * this
      _ = 4 := by rw [← e1, ← e2]; linear_combination 4 * hε2
  have hu' : u = 2 ∨ u = -2 := by
    have : (u - 2) * (u + 2) = 0 := by linear_combination hu
    rcases mul_eq_zero.1 this with h | h
    · exact Or.inl (by linarith)
    · exact Or.inr (by linarith)
  have hu2 : u = 2 := by
    rcases hu' with h | h
    · exact h
    · rw [h] at s3
      have := (abs_le.1 s3).1
      norm_num [tol] at this
      linarith
  subst hu2
  have hp : p1 = q1 := (List.cons.inj e).1
  subst hp
  have hsin : Real.sin p1 = ε := by linarith
  refine ⟨p2, p3, ?_⟩
  congr 1
  have hpi := Real.pi_pos
  rcases hε with rfl | rfl
  · have := (Real.cos_eq_one_iff_of_lt_of_lt (x := p1 - Real.pi / 2) (by linarith) (by linarith)).1
      (by rw [Real.cos_sub_pi_div_two]; exact hsin)
    linarith
  · have := (Real.cos_eq_one_iff_of_lt_of_lt (x := p1 + Real.pi / 2) (by linarith) (by linarith)).1
      (by rw [Real.cos_add_pi_div_two]; linarith)
    linarith

/-- A cube of ten centimetres at the place where the end of the first link passes. -/
def midCube : Collection Shape := ⟨[⟨0.1, 0.1, 0.1⟩], [poseX 0 1 0 0]⟩

theorem arm2_frames (q1 q2 q3 : ℝ) (v : V3) :
    act (frameOf (arm2 1 1 1) [q1, q2, q3] 0) v =
      rotZ q1 *ᵥ (rotX (Real.pi / 2) *ᵥ v + ![1, 0, 0]) ∧
    act (frameOf (arm2 1 1 1) [q1, q2, q3] 1) v =
      rotZ q1 *ᵥ (rotX (Real.pi / 2) *ᵥ (rotZ q2 *ᵥ (rotX 0 *ᵥ v + ![1, 0, 0])) + ![1, 0, 0]) ∧
    act (frameOf (arm2 1 1 1) [q1, q2, q3] 2) v =
      rotZ q1 *ᵥ (rotX (Real.pi / 2) *ᵥ (rotZ q2 *ᵥ (rotX 0 *ᵥ
        (rotZ q3 *ᵥ (rotX (Real.pi / 2) *ᵥ v + ![1, 0, 0])) + ![1, 0, 0])) + ![1, 0, 0]) := by
  have hlast := fun a b c d => dhMat_last a b c d
  have h2 : ∀ a b c d a' b' c' d', (dhMat a b c d * dhMat a' b' c' d') 3 = ![0, 0, 0, 1] := by
    intro a b c d a' b' c' d'
    exact ((dhMat_rigid a b c d).mul (dhMat_rigid a' b' c' d')).2
  have e0 : frameOf (arm2 1 1 1) [q1, q2, q3] 0 = dhMat 1 (Real.pi / 2) 0 q1 := by
    simp [frameOf, linkProduct_eq, chain, arm2, Robot.new, Link.tf]
  have e1 : frameOf (arm2 1 1 1) [q1, q2, q3] 1 = dhMat 1 (Real.pi / 2) 0 q1 * dhMat 1 0 0 q2 := by
    simp [frameOf, linkProduct_eq, chain, arm2, Robot.new, Link.tf]
  have e2 : frameOf (arm2 1 1 1) [q1, q2, q3] 2 = dhMat 1 (Real.pi / 2) 0 q1 * (dhMat 1 0 0 q2 *
      dhMat 1 (Real.pi / 2) 0 q3) := by
    simp [frameOf, linkProduct_eq, chain, arm2, Robot.new, Link.tf]
  rw [e0, e1, e2, act_mul (hlast _ _ _ _) (hlast _ _ _ _), act_mul (hlast _ _ _ _) (h2 _ _ _ _ _ _ _ _),
    act_mul (hlast _ _ _ _) (hlast _ _ _ _)]
  simp only [act_dhMat, and_self]

theorem arm2_side_free {q1 : ℝ} (hc : Real.cos q1 = 0) (q2 q3 : ℝ) :
    ¬ SceneTouch boxOracle (arm2 1 1 1) [q1, q2, q3] midCube := by
  have hs : |Real.sin q1| ≤ 1 := Real.abs_sin_le_one q1
  rintro (⟨b, hb, -⟩ | ⟨i, l, hi, ht⟩ | ⟨tool, htool, -⟩)
  · exact absurd hb (by simp [arm2, Robot.new])
  · rw [touch_boxes] at ht
    obtain ⟨a, j, s, s', t, t', e1, e2, e3, e4, u, hu, v, hv, e⟩ := ht
    obtain rfl := List.mem_singleton.1 (List.mem_of_getElem? e3)
    obtain rfl := List.mem_singleton.1 (List.mem_of_getElem? e4)
    rw [one_mul, (C20_pose 0 1 0 0).1.2 v, Util.rotX_zero, one_mulVec] at e
    have ex := congrFun e 0
    simp only [Pi.add_apply, Matrix.cons_val] at ex
    have hv0 := (abs_le.1 hv.1).1
    norm_num at hv0
    have key : |act (frameOf (arm2 1 1 1) [q1, q2, q3] i * t) u 0| ≤ 0.05 := by
      obtain ⟨f0, f1, f2⟩ := arm2_frames q1 q2 q3 u
      have hz : ∀ w : V3, (rotZ q1 *ᵥ (rotX (Real.pi / 2) *ᵥ w + ![1, 0, 0])) 0 =
          Real.sin q1 * w 2 := by
        intro w
        simp [rotZ, rotX, Matrix.mulVec, dotProduct, Fin.sum_univ_succ, hc]
      have hle : ∀ x : ℝ, |x| ≤ 0.1 / 2 → |Real.sin q1 * x| ≤ 0.05 := by
        intro x hx
        rw [abs_mul]
        norm_num at hx ⊢
        nlinarith [abs_nonneg x, abs_nonneg (Real.sin q1)]
      rcases i with _ | _ | _ | i
      · obtain rfl : _ = l := Option.some.inj hi
        obtain rfl := List.mem_singleton.1 (List.mem_of_getElem? e1)
        obtain rfl := List.mem_singleton.1 (List.mem_of_getElem? e2)
        rw [mul_one, f0, hz]
        exact hle _ hu.2.2
      · obtain rfl : _ = l := Option.some.inj hi
        obtain rfl := List.mem_singleton.1 (List.mem_of_getElem? e1)
        obtain rfl := List.mem_singleton.1 (List.mem_of_getElem? e2)
        rw [mul_one, f1, hz]
        have : (rotZ q2 *ᵥ (rotX 0 *ᵥ u + ![1, 0, 0])) 2 = u 2 := by
          simp [rotZ, rotX, Matrix.mulVec, dotProduct, Fin.sum_univ_succ]
        rw [this]
        exact hle _ hu.2.2
      · obtain rfl : _ = l := Option.some.inj hi
        obtain rfl := List.mem_singleton.1 (List.mem_of_getElem? e1)
        obtain rfl := List.mem_singleton.1 (List.mem_of_getElem? e2)
        rw [mul_one, f2, hz]
        have : (rotZ q2 *ᵥ (rotX 0 *ᵥ (rotZ q3 *ᵥ (rotX (Real.pi / 2) *ᵥ u + ![1, 0, 0])) +
            ![1, 0, 0])) 2 = u 1 := by
          simp [rotZ, rotX, Matrix.mulVec, dotProduct, Fin.sum_univ_succ]
        rw [this]
        exact hle _ hu.2.1
      · simp [arm2, Robot.new] at hi
    have := (abs_le.1 key).2
    linarith
  · exact absurd htool (by simp [arm2, Robot.new])

/-- On the way from one side to the other the first link runs into the cube. -/
theorem arm2_mid_hit (q2 q3 : ℝ) : SceneTouch boxOracle (arm2 1 1 1) [0, q2, q3] midCube := by
  refine Or.inr (Or.inl ⟨0, _, rfl, ?_⟩)
  rw [touch_boxes]
  refine ⟨0, 0, _, _, _, _, rfl, rfl, rfl, rfl, 0, ?_, 0, ?_, ?_⟩
  · norm_num [boxPoints]
  · norm_num [boxPoints]
  · rw [mul_one, one_mul, (arm2_frames 0 q2 q3 0).1, (C20_pose 0 1 0 0).1.2 0, mulVec_zero, mulVec_zero,
      zero_add]
    ext i
    fin_cases i <;> simp [rotZ, Matrix.mulVec, dotProduct, Fin.sum_univ_succ]

/-- **C140**: an Arm2 with links of length one that has to reach points on its right and on its left finds
a path, and swings its first link through a cube on the way, whatever the queue and the random draws,
and for any rounding of the joint values that treats both signs alike. -/
theorem C140_swing [Zeros] (conv : ℝ → ℝ) (hodd : ∀ x, conv (-x) = -conv x)
    {pq : PQ (WithTop ℝ) Config} (hpq : Lawful pq) (draws : Nat → Nat → Draws) (time : Nat → ℝ)
    (fuel : Nat)
    (optimal : List PathPt → Collection Shape → Nat → List (List ℝ) → Run (RState × Unit) Unit)
    (history : List (Call Shape)) (hh : ∀ c ∈ history, c.robot.links = (arm2 1 1 1).links) :
    ∃ (t : PlanningTask Shape) (path : List Config) (c : WithTop ℝ) (w' : RState × Unit),
      t.scene = some midCube ∧
      PlanningTask.solve t (pureArm boxOracle (arm2 1 1 1) (arm2Ik (arm2 1 1 1))) pq conv draws time fuel
        optimal (some "grid") (after boxOracle (arm2 1 1 1).links history, ()) =
        (.ok (.plan ⟨true, some path, some c⟩), w') ∧
      ¬ StaysFree (arm2 1 1 1) midCube path := by
  obtain ⟨pl, Tl, -, -, hl, hTl⟩ := C47_no_tolerance ![0, 2 * -1, 1] 0
  obtain ⟨pr, Tr, -, -, hr, hTr⟩ := C47_no_tolerance ![0, 2 * 1, 1] 0
  let t : PlanningTask Shape := PlanningTask.new [.euler pl, .euler pr] (some midCube)
  have hsl : ∀ d m, getSamples d m none (.euler pl) = .ok [Tl] := by
    intro d m
    show liftPy pl.getSamples = _
    rw [hl]
    rfl
  have hsr : ∀ d m, getSamples d m none (.euler pr) = .ok [Tr] := by
    intro d m
    show liftPy pr.getSamples = _
    rw [hr]
    rfl
  have hs : SamplesOf (draws 0) t.gridSamples t.path [[Tl], [Tr]] := by
    refine ⟨rfl, fun i tp Ts e1 e2 => ?_⟩
    rcases i with _ | _ | i
    · cases e1; cases e2; exact hsl _ _
    · cases e1; cases e2; exact hsr _ _
    · simp at e2
  have hreach : ∀ (ε : ℝ) (T : M4), (ε = 1 ∨ ε = -1) →
      T = mkTf (rotX ((0 : V3) 0) * rotY ((0 : V3) 1) * rotZ ((0 : V3) 2)) ![0, 2 * ε, 1] →
      ∃ q1 q2 q3 : ℝ, Arm2Reaches boxOracle 1 1 1 q1 q2 q3 T ∧
        ¬ SceneTouch boxOracle (arm2 1 1 1) [q1, q2, q3] midCube ∧
        ¬ SelfTouch boxOracle (arm2 1 1 1) [q1, q2, q3] ∧
        (T 0 3 ≠ 0 ∨ T 1 3 ≠ 0) ∧ |Real.cos q3| ≤ 1 - 1 / 10 ^ 6 := by
    intro ε T hε hT
    have hc : Real.cos (ε * (Real.pi / 2)) = 0 := by rcases hε with rfl | rfl <;> simp
    have hsn : Real.sin (ε * (Real.pi / 2)) = ε := by rcases hε with rfl | rfl <;> simp
    refine ⟨ε * (Real.pi / 2), 0, Real.pi / 2, ?_, arm2_side_free hc _ _, ?_, Or.inr ?_, by norm_num⟩
    · rw [arm2Reaches_iff, hT, posPart_mkTf]
      ext i; fin_cases i <;> norm_num [armPos, hc, hsn]
      ring
    · rintro (⟨i, j, li, lj, hij, hi, hj, -⟩ | ⟨tool, i, li, htool, -⟩)
      · have h1 := (List.getElem?_eq_some_iff.1 hi).1
        have h2 := (List.getElem?_eq_some_iff.1 hj).1
        change i < 3 at h1
        change j < 3 at h2
        omega
      · exact absurd htool (by simp [arm2, Robot.new])
    · rw [hT]
      change 2 * ε ≠ 0
      rcases hε with rfl | rfl <;> norm_num
  obtain ⟨path, c, w', hsolve⟩ := C111_arm2 boxOracle (a1 := 1) (a2 := 1) (a3 := 1) (by norm_num) midCube
    (pq := pq) hpq noOverflow_real stepCost_real t rfl
    (by simp [t, PlanningTask.new]) conv draws time fuel optimal hs (by
      intro Ts hTs
      rcases List.mem_cons.1 hTs with rfl | hTs
      · exact ⟨Tl, List.mem_singleton.2 rfl, hreach (-1) Tl (Or.inr rfl) hTl⟩
      · rw [List.mem_singleton.1 hTs]
        exact ⟨Tr, List.mem_singleton.2 rfl, hreach 1 Tr (Or.inl rfl) hTr⟩) history hh
  refine ⟨t, path, c, w', rfl, hsolve, fun hfree => ?_⟩
  obtain ⟨pr', e, h2⟩ := C66_reach (Reach := fun q T => ∃ sols, arm2Ik (arm2 1 1 1) T = some sols ∧ q ∈ sols)
    (pureArm_determined boxOracle (arm2_regular 1 1 1) (arm2Ik (arm2 1 1 1))
      (fun T sols h q hq => arm2Ik_len3 h q hq) midCube)
    (fun T sols q h1 h2 _ => ⟨sols, h1, h2⟩) t rfl pq conv draws time fuel
    optimal (method := some "grid") rfl
    ⟨after_wf boxOracle _ _ hh, trivial⟩ hsolve
  cases e
  obtain ⟨path', e, hlen, hpts⟩ := h2 rfl
  cases e
  have hlen' : path.length = 2 := hlen
  obtain ⟨x, y, rfl⟩ := List.length_eq_two.1 hlen'
  obtain ⟨tp, Ts, q, g1, g2, rfl, -, T, hT, sols, g3, g4⟩ := hpts 0 x rfl
  obtain ⟨tp', Ts', q', g1', g2', rfl, -, T', hT', sols', g3', g4'⟩ := hpts 1 y rfl
  cases g1
  cases g1'
  rw [hsl] at g2
  rw [hsr] at g2'
  cases g2
  cases g2'
  rw [List.mem_singleton.1 hT, hTl] at g3
  rw [List.mem_singleton.1 hT', hTr] at g3'
  obtain ⟨q2, q3, rfl⟩ := arm2Ik_side (ε := -1) (Or.inr rfl) rfl rfl rfl g3 g4
  obtain ⟨p2, p3, rfl⟩ := arm2Ik_side (ε := 1) (Or.inl rfl) rfl rfl rfl g3' g4'
  have hmid := hfree 0 _ _ rfl rfl (1 / 2) (by norm_num) (by norm_num) [] (by simp)
  have e0 : between ([-1 * (Real.pi / 2), q2, q3].map conv) ([1 * (Real.pi / 2), p2, p3].map conv) (1 / 2) =
      [0, conv q2 + 1 / 2 * (conv p2 - conv q2), conv q3 + 1 / 2 * (conv p3 - conv q3)] := by
    simp only [between, List.map_cons, List.map_nil, List.zipWith_cons_cons, List.zipWith_nil_left]
    rw [neg_one_mul, one_mul, hodd]
    congr 1
    ring
  rw [e0] at hmid
  obtain ⟨b, hb, hiff⟩ := C33_answer boxOracle (arm2 1 1 1) (arm2_regular 1 1 1).known rfl (Or.inl rfl) []
    (by simp) [0, conv q2 + 1 / 2 * (conv p2 - conv q2), conv q3 + 1 / 2 * (conv p3 - conv q3)]
    (le_refl _) midCube
  rw [hb] at hmid
  have htrue := hiff.2 (Or.inl (arm2_mid_hit _ _))
  rw [htrue] at hmid
  cases hmid

/-- **C140** is false. -/
theorem C140_refuted [Zeros] (conv : ℝ → ℝ) (hodd : ∀ x, conv (-x) = -conv x) :
    ¬ C140_statement conv := by
  intro hall
  have draws : Nat → Nat → Draws := fun _ _ => ⟨fun _ => 0, 0, fun _ => (0, 0, 0), none⟩
  obtain ⟨t, path, c, w', h1, h2, h3⟩ := C140_swing conv hodd
    (pq := (stdHeap : PQ (WithTop ℝ) Config)) stdHeapLawful draws (fun _ => 0) 0
    (fun _ _ _ _ => pure ()) [] (by simp)
  exact h3 (hall (arm2 1 1 1) (arm2Ik (arm2 1 1 1)) t midCube stdHeap draws (fun _ => 0) 0
    (fun _ _ _ _ => pure ()) [] path (some c) w' (arm2_regular 1 1 1)
    (fun T sols h q hq => arm2Ik_len3 h q hq) h1 stdHeapLawful (by simp) h2)

/-! ### Cases that meet the hypotheses -/

theorem gap_ge (x y : V3) : |x 2 - y 2| ≤ gap x y := by
  rw [gap, ← Real.sqrt_sq_eq_abs]
  refine Real.sqrt_le_sqrt ?_
  simp only [dist2, dotProduct, Fin.sum_univ_three, Pi.sub_apply]
  nlinarith [sq_nonneg (x 0 - y 0), sq_nonneg (x 1 - y 1)]

/-- The lowest point of link `k` of a Kuka of the default size with all joints but the first at zero. -/
def lowest : Nat → ℝ
  | 0 => -0.1
  | 1 => -0.1
  | 2 => -0.42
  | 3 => -0.62
  | 4 => -0.705
  | _ => -0.735

/-- The highest point of the link. -/
def highest : Nat → ℝ
  | 0 => 0.1
  | 1 => 0.1
  | 2 => 0.08
  | 3 => -0.42
  | 4 => -0.62
  | _ => -0.705

theorem act_chain_cons {S : Type} (l : Link S) (ls : List (Link S)) (q : ℝ) (qs : List ℝ) (v : V3) :
    act (chain (l :: ls) (q :: qs)) v = act (l.tf q) (act (chain ls qs) v) := by
  rw [chain_cons, act_mul (l.tf_rigid q).2 (chain_rigid ls qs).2]

theorem act_chain_nil {S : Type} (qs : List ℝ) (v : V3) : act (chain ([] : List (Link S)) qs) v = v := by
  simp [chain, act_one]

/-- Where the links are. -/
theorem kuka_heights (q1 : ℝ) {k : Nat} {l : Link Shape}
    (hk : (kukaRobot 0.18 0.6 0.62 0.115).links[k]? = some l) {i : Nat} {s : Shape} {t : M4}
    (hs : l.geometry.s[i]? = some s) (ht : l.geometry.tfS[i]? = some t) {u : V3} (hu : u ∈ boxPoints s) :
    lowest k ≤ act (frameOf (kukaRobot 0.18 0.6 0.62 0.115) [q1, 0, 0, 0, 0, 0] k * t) u 2 ∧
      act (frameOf (kukaRobot 0.18 0.6 0.62 0.115) [q1, 0, 0, 0, 0, 0] k * t) u 2 ≤ highest k := by
  have hf := frameOf_rigid (r := kukaRobot 0.18 0.6 0.62 0.115) IsRigid.one [q1, 0, 0, 0, 0, 0] k
  obtain ⟨b0, b1, b2⟩ := hu
  rw [abs_le] at b0 b1 b2
  have hkk : k < 6 := (List.getElem?_eq_some_iff.1 hk).1
  have hrow : ∀ v : V3, act (frameOf (kukaRobot 0.18 0.6 0.62 0.115) [q1, 0, 0, 0, 0, 0] k) v 2 =
      if k = 0 then v 1 else if k = 1 then v 1 else if k = 2 then -v 2 else
      if k = 3 then v 1 - 0.62 else if k = 4 then -v 2 - 0.62 else -v 2 - 0.735 := by
    intro v
    rw [frameOf, linkProduct_eq, chain_take, show (kukaRobot 0.18 0.6 0.62 0.115).tfBase = 1 from rfl,
      one_mul]
    interval_cases k
    all_goals
      simp only [kukaRobot, Robot.new, List.take_succ_cons, List.take_zero, act_chain_cons, act_chain_nil,
        Link.tf, act_dhMat, neg_div]
      simp [rotZ, rotX, Matrix.mulVec, dotProduct, Fin.sum_univ_succ]
    all_goals (try norm_num) <;> ring
  interval_cases k <;> cases hk
  all_goals
    obtain rfl := List.mem_singleton.1 (List.mem_of_getElem? hs)
    obtain rfl := List.mem_singleton.1 (List.mem_of_getElem? ht)
    rw [act_mul hf.2 (C20_pose _ _ _ _).1.1.2, hrow, (C20_pose _ _ _ _).1.2, Util.rotX_zero, one_mulVec]
    norm_num at b0 b1 b2
    simp only [Pi.add_apply, Matrix.cons_val]
    norm_num [lowest, highest]
    constructor <;> linarith

/-- A case of `C140_kuka` (and so of `C140_partial`): the default Kuka turns its first joint. -/
example : ∃ (q q' : List ℝ) (scene : Collection Shape), q ≠ q' ∧ scene.s ≠ [] ∧
    StaysFree (setup (Kuka.new 0.18 0.6 0.62 0.115 0) 1 none).robot scene [q, q'] := by
  let scene : Collection Shape := ⟨[⟨1, 1, 1⟩], [poseX 0 0 0 10]⟩
  refine ⟨[0, 0, 0, 0, 0, 0], [0.03, 0, 0, 0, 0, 0], scene, by norm_num, by simp [scene],
    C140_kuka 0.18 0.6 0.62 0.115 0 IsRigid.one none (by simp) (ρ := 0.72) (δ := 0.03) (le_refl _)
      (by simp) (by simp) ?_ ?_⟩
  · intro i q q' hq hq' j a b ha hb
    obtain rfl : i = 0 := by
      have := (List.getElem?_eq_some_iff.1 hq').1
      simp at this
      exact this
    cases hq
    cases hq'
    rcases j with _ | _ | _ | _ | _ | _ | j <;> first | (cases ha; cases hb; norm_num [abs_le]) | simp at ha
  · intro q hq
    have hq : ∃ q1, q = [q1, 0, 0, 0, 0, 0] := by
      simp only [List.mem_cons, List.not_mem_nil, or_false] at hq
      rcases hq with rfl | rfl <;> exact ⟨_, rfl⟩
    obtain ⟨q1, rfl⟩ := hq
    set r := (setup (Kuka.new 0.18 0.6 0.62 0.115 0) 1 none).robot with hr
    have hlow : ∀ k : Nat, -0.735 ≤ lowest k ∧ highest k ≤ 0.1 := by
      intro k
      rcases k with _ | _ | _ | _ | _ | k
      all_goals
        simp only [lowest, highest]
        norm_num
    have hM : 0.03 / 2 * (|0.18| + 2 * |0.6| + 4 * |0.62| + 6 * |0.115| + 6 * 0.72) < (0.14 : ℝ) := by
      norm_num [abs_of_pos]
    refine ⟨by simp [hr, setup, Kuka.new, kukaRobot, Robot.new], ?_,
      by simp [hr, setup], ?_, by simp [hr, setup]⟩
    · intro i l hi a j s s' t t' e1 e2 e3 e4 u hu v hv
      have h1 := (kuka_heights q1 hi e1 e2 hu).2
      obtain rfl := List.mem_singleton.1 (List.mem_of_getElem? e3)
      obtain rfl := List.mem_singleton.1 (List.mem_of_getElem? e4)
      have h2 : act (1 * poseX 0 0 0 10) v 2 = v 2 + 10 := by
        rw [one_mul, (C20_pose _ _ _ _).1.2, Util.rotX_zero, one_mulVec]
        simp
      have h3 := (abs_le.1 hv.2.2).1
      have h4 := gap_ge (act (frameOf r [q1, 0, 0, 0, 0, 0] i * t) u) (act (1 * poseX 0 0 0 10) v)
      have h5 := (abs_le.1 h4).1
      have h6 := (hlow i).2
      change act (frameOf r [q1, 0, 0, 0, 0, 0] i * t) u 2 ≤ _ at h1
      rw [h2] at h5
      norm_num at h3 h6
      simp only [Pi.zero_apply, add_zero]
      linarith
    · intro _ i j li lj hij hi hj a b s s' t t' e1 e2 e3 e4 u hu v hv
      have h1 := kuka_heights q1 hi e1 e2 hu
      have h2 := kuka_heights q1 hj e3 e4 hv
      have h4 := gap_ge (act (frameOf r [q1, 0, 0, 0, 0, 0] i * t) u)
        (act (frameOf r [q1, 0, 0, 0, 0, 0] j * t') v)
      change _ ≤ act (frameOf r [q1, 0, 0, 0, 0, 0] i * t) u 2 ∧
        act (frameOf r [q1, 0, 0, 0, 0, 0] i * t) u 2 ≤ _ at h1
      change _ ≤ act (frameOf r [q1, 0, 0, 0, 0, 0] j * t') v 2 ∧
        act (frameOf r [q1, 0, 0, 0, 0, 0] j * t') v 2 ≤ _ at h2
      have hi6 : i < 6 := (List.getElem?_eq_some_iff.1 hi).1
      have hj6 : j < 6 := (List.getElem?_eq_some_iff.1 hj).1
      have hsep : highest j + 0.28 ≤ lowest i ∨ highest i + 0.28 ≤ lowest j := by
        interval_cases i <;> interval_cases j <;> first | omega | (norm_num [lowest, highest])
      have h5 := abs_le.1 h4
      rcases hsep with hsep | hsep <;> linarith [h5.1, h5.2]

end

end Verif.Props
