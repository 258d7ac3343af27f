import Verif.Props.Editor

/-! # C110: planning for the KukaOnRail in the task editor -/

set_option linter.unusedSectionVars false

namespace Verif.Props

open Matrix Verif Verif.Path Verif.Geometry Verif.Kin Verif.ShortestPath Verif.Task Verif.CppGraph
  Verif.Search Verif.Planning Verif.Spec Verif.Plot Verif.Gui Verif.Util

noncomputable section

/-! ### robots with equal link transforms -/

theorem frameOf_congr {r : Robot Shape} {q q' : List ℝ} (h : List.zipWith dhOf r.links q =
    List.zipWith dhOf r.links q') : frameOf r q = frameOf r q' := by
  funext k
  unfold frameOf linkProduct
  rw [← List.take_zipWith, ← List.take_zipWith, h]

theorem touches_congr (hit : Oracle Shape) {r : Robot Shape} {q q' : List ℝ}
    (h : List.zipWith dhOf r.links q = List.zipWith dhOf r.links q') (scene : Collection Shape) :
    touches hit r scene q = touches hit r scene q' := by
  unfold touches SceneTouch SelfTouch
  rw [frameOf_congr h]

theorem touches_free (hit : Oracle Shape) {r : Robot Shape} (hr : r.doCheckSelfCollision = true)
    (scene : Collection Shape) (q : List ℝ) :
    touches hit r scene q = false ↔ ¬ SceneTouch hit r q scene ∧ ¬ SelfTouch hit r q := by
  unfold touches
  classical
  rw [decide_eq_false_iff_not, hr]
  tauto

theorem dhOf_sameAngle {S : Type} {l : Link S} (hl : l.jointType = .r) {x y : ℝ}
    (h : SameAngle x y) : dhOf l x = dhOf l y := by
  rw [dhOf_eq, dhOf_eq]
  unfold Link.tf
  simp only [hl, dhMat, h.cs.1, h.cs.2]

/-! ### the inverse kinematics -/

/-- The state of a KukaOnRail in use. -/
def RailOK (n : Nat) (w : RState × RState × Mem) : Prop :=
  WF 7 w.1 ∧ WF 3 w.2.1 ∧ n < w.2.2.length

theorem rail_regular (a1 a2 d4 d6 : ℝ) (n : Nat) (base : M4) (tool : Option (Tool Shape)) :
    Regular (setupRail (Rail.new a1 a2 d4 d6 n) base tool).robot :=
  ⟨fun l hl => by
    simp only [setupRail, Rail.new, railRobot, Robot.new, List.mem_cons, List.not_mem_nil,
      or_false] at hl
    rcases hl with rfl | rfl | rfl | rfl | rfl | rfl | rfl <;> simp, rfl,
    Or.inr (show 0 < 7 by decide)⟩

/-- The values of the solutions of a KukaOnRail. -/
def railSols [Zeros] (n : Nat) (r : Robot Shape) (T : M4) (x : ℝ) : Option (List Config) :=
  (kukaSols 0.18 0.6 0.62 (innerKuka n x).robot (railTarget r T)).map (List.map (x :: ·))

/-- `railArm` for every list of rail positions: only the first one is used. -/
def railArm1 [Zeros] (hit : Oracle Shape) (r : Rail) : Arm (RState × RState × Mem) Shape :=
  { railArm hit r with ikFixed := fun T qf => (railArm hit r).ikFixed T [qf.headD 0] }

theorem railArm_ik [Zeros] (hit : Oracle Shape) (a1 a2 d4 d6 : ℝ) (n : Nat) (base : M4)
    (tool : Option (Tool Shape)) (T : M4) (x : ℝ) :
    Returns (RailOK n)
      ((railArm hit (setupRail (Rail.new a1 a2 d4 d6 n) base tool)).ikFixed T [x])
      (railSols n (setupRail (Rail.new a1 a2 d4 d6 n) base tool).robot T x) := by
  intro w hw
  set r := setupRail (Rail.new a1 a2 d4 d6 n) base tool with hr
  obtain ⟨⟨ms, pr⟩, st, mem⟩ := w
  obtain ⟨⟨hl, hI, hp⟩, hw3, hm⟩ := hw
  simp only at hl hI hp hw3 hm
  cases ms with
  | nil => simp at hl
  | cons m ms =>
    obtain ⟨m', hm', e⟩ := railIk_eq (r := r) (a1 := a1) (a2 := a2) (d4 := d4) (d6 := d6) rfl rfl
      (hI m (by simp)) st mem T x
    have hW : ∀ st' mem', WF 3 st' → n < mem'.length → RailOK n (⟨m' :: ms, pr⟩, st', mem') :=
      fun st' mem' h1 h2 => ⟨⟨by simpa using hl, fun y hy => by
        rcases List.mem_cons.1 hy with rfl | hy
        · exact hm'
        · exact hI y (List.mem_cons_of_mem _ hy), hp⟩, h1, h2⟩
    cases hs : arm2Ik (arm2 0.18 0.6 0.62) (kukaTarget (innerKuka n x).robot
        (railTarget r.robot T)) with
    | none =>
      rw [kukaIk_none (innerKuka n x) (a1 := 0.18) (a2 := 0.6) (d4 := 0.62) rfl st mem hs] at e
      refine ⟨_, ?_, hW st mem hw3 hm⟩
      simp only [railArm, e, railSols, kukaSols, hs]
      rfl
    | some qs =>
      obtain ⟨st', X, e2, hwf⟩ := kukaIk_some (innerKuka n x) (a1 := 0.18) (a2 := 0.6) (d4 := 0.62)
        rfl hw3 (show (innerKuka n x).qsol < mem.length from hm) hs
      set rows := qs.flatMap (kSols 0.18 0.6 0.62 (kukaTarget (innerKuka n x).robot
        (railTarget r.robot T))) with hrows
      have hlen : rows.length = 2 * qs.length := by
        rw [hrows, List.length_flatMap]
        simp [kSols_length, mul_comm]
      set mem1 := mem.set (innerKuka n x).qsol X ++ rows.map fun q => [q] with hmem1
      have hl1 : mem1.length = mem.length + rows.length := by simp [hmem1]
      have hlt : ∀ a ∈ List.range' mem.length (2 * qs.length), a < mem1.length := by
        intro a ha
        rw [List.mem_range'_1] at ha
        omega
      rw [e2] at e
      simp only [railRows_eq x _ mem1 [] hlt, List.nil_append, List.length_range'] at e
      have hread := readRef_append (mem.set (innerKuka n x).qsol X) rows
      rw [List.length_set, hlen, ← hmem1] at hread
      have hcells : (List.range' mem.length (2 * qs.length)).map
          (fun a => [x :: (((mem1[a]?).getD [])[0]?).getD []]) =
          (rows.map (x :: ·)).map fun q => [q] := by
        conv_rhs => rw [← hread]
        rw [List.map_map, List.map_map]
        rfl
      rw [hcells] at e
      have hread2 := readRef_append mem1 (rows.map (x :: ·))
      rw [List.length_map, hlen] at hread2
      refine ⟨_, ?_, hW st' (mem1 ++ (rows.map (x :: ·)).map fun q => [q]) hwf (by
        rw [List.length_append]; omega)⟩
      simp only [railArm, e, railSols, kukaSols, hs]
      refine Prod.ext ?_ rfl
      change Except.ok (some _) = Except.ok (some (rows.map (x :: ·)))
      conv_rhs => rw [← hread2]

theorem rail_determined [Zeros] (hit : Oracle Shape) (a1 a2 d4 d6 : ℝ) (n : Nat) (base : M4)
    (tool : Option (Tool Shape)) (scene : Collection Shape) :
    DeterminedFixed (railArm1 hit (setupRail (Rail.new a1 a2 d4 d6 n) base tool)) scene (RailOK n)
      (fun T qf => railSols n (setupRail (Rail.new a1 a2 d4 d6 n) base tool).robot T (qf.headD 0))
      (touches hit (setupRail (Rail.new a1 a2 d4 d6 n) base tool).robot scene) 7 := by
  refine ⟨fun T qf => railArm_ik hit a1 a2 d4 d6 n base tool T _, fun T qf sols hs q hq => ?_,
    fun q hq => ?_⟩
  · unfold railSols kukaSols at hs
    obtain ⟨sols', h0, rfl⟩ := Option.map_eq_some_iff.1 hs
    obtain ⟨qs, h1, rfl⟩ := Option.map_eq_some_iff.1 h0
    obtain ⟨q', hq', rfl⟩ := List.mem_map.1 hq
    rw [List.length_cons, kSols_len h1 q' hq']
  · exact robotCollision_returns hit (rail_regular a1 a2 d4 d6 n base tool) scene hq
      fun v : RState × Mem => WF 3 v.1 ∧ n < v.2.length

/-! ### the planner only uses the rail positions it is given -/

variable {W S : Type}

theorem cartToJointSimple_congr {A B : Arm W S} (hc : A.isInCollision = B.isInCollision)
    {qFixed : List Config} (hik : ∀ T, ∀ qf ∈ qFixed, A.ikFixed T qf = B.ikFixed T qf)
    (conv : ℝ → ℝ) (draws : Nat → Draws) (path : List PathPt) (scene : Collection S) :
    cartToJointSimple A conv draws path scene qFixed =
      cartToJointSimple B conv draws path scene qFixed := by
  have hk : ∀ sols acc, keepFree A scene sols acc = keepFree B scene sols acc := by
    intro sols
    induction sols with
    | nil => intro acc; rfl
    | cons q qs ih =>
      intro acc
      unfold keepFree
      simp only [hc, ih]
  have hf : ∀ Ti l acc, (∀ qf ∈ l, qf ∈ qFixed) →
      fixedLoop A scene Ti l acc = fixedLoop B scene Ti l acc := by
    intro Ti l
    induction l with
    | nil => intro acc _; rfl
    | cons qf l ih =>
      intro acc hl
      have ih' := fun acc => ih acc fun x hx => hl x (List.mem_cons_of_mem _ hx)
      unfold fixedLoop
      cases Ti with
      | point _ => rfl
      | transform T => simp only [hik T qf (hl qf (by simp)), hk, ih']
  have hs : ∀ Ts qSol, simpleSamples A scene qFixed Ts qSol = simpleSamples B scene qFixed Ts qSol := by
    intro Ts
    induction Ts with
    | nil => intro qSol; rfl
    | cons T Ts ih =>
      intro qSol
      unfold simpleSamples
      simp only [hf T qFixed [] fun _ h => h, ih]
  have hp : ∀ path i qSol Q, simpleLoop A scene conv draws qFixed i path qSol Q =
      simpleLoop B scene conv draws qFixed i path qSol Q := by
    intro path
    induction path with
    | nil => intro i qSol Q; rfl
    | cons tp path ih =>
      intro i qSol Q
      unfold simpleLoop
      simp only [hs, ih]
  exact hp path 0 none []

theorem qfSamples_single {qf : Config} (h : qf ∈ qfSamples) : [qf.headD 0] = qf := by
  obtain ⟨k, -, rfl⟩ := List.mem_map.1 h
  rfl

variable {C : Type} [CostArith C] [JointArith ℝ C]

theorem rail_callback [Zeros] (hit : Oracle Shape) (r : Rail) (h7 : r.robot.links.length = 7)
    (pq : PQ C Config) (conv : ℝ → ℝ) (wdir : String) (d : Nat → Draws)
    {e : Editor (RState × Mem)} {sc : Collection Shape} (he : e.scene = some sc) :
    callback pq r.robot (railArm hit r) conv wdir (.plan d) e =
      callback pq r.robot (railArm1 hit r) conv wdir (.plan d) e := by
  simp only [callback]
  have : planQ r.robot (railArm hit r) conv d e.path e.scene =
      planQ r.robot (railArm1 hit r) conv d e.path e.scene := by
    unfold planQ
    simp only [he, Option.isNone_some, if_neg Bool.false_ne_true, h7, if_pos (show 7 > 6 by decide)]
    exact cartToJointSimple_congr (A := railArm hit r) (B := railArm1 hit r) rfl (fun T qf hqf => by
      show _ = (railArm hit r).ikFixed T [qf.headD 0]
      rw [qfSamples_single hqf]) conv d e.path _
  unfold Gui.plan
  simp only [Editor.log, this]

/-! ### soundness and completeness of the solutions -/

theorem railTarget_flange {a1 a2 d4 d6 : ℝ} (n : Nat) {base T : M4} (hb : IsRigid base)
    (tool : Option (Tool Shape)) (ht : ∀ t, tool = some t → IsRigid t.tfTT) {X : M4}
    (hT : T = base * X * tipOf tool) :
    railTarget (setupRail (Rail.new a1 a2 d4 d6 n) base tool).robot T = X :=
  railTarget_eq (r := (setupRail (Rail.new a1 a2 d4 d6 n) base tool).robot) hb (tipOf_rigid ht) hT

theorem railSols_sound [Zeros] (hit : Oracle Shape) (n : Nat) {base T : M4} (hb : IsRigid base)
    (tool : Option (Tool Shape)) (ht : ∀ t, tool = some t → IsRigid t.tfTT) (hT : IsRigid T) {x : ℝ}
    {sols : List Config} {a1 a2 d4 d6 : ℝ}
    (hs : railSols n (setupRail (Rail.new a1 a2 d4 d6 n) base tool).robot T x = some sols)
    {q : Config} (hq : q ∈ sols) : ∃ q1 q2 q3 q4 q5 q6, q = [x, q1, q2, q3, q4, q5, q6] ∧
      (Real.cos q3 ≠ 0 → Real.sin q5 ≠ 0 →
        FkSatisfies hit (setupRail (Rail.new 0.18 0.6 0.62 0.115 n) base tool).robot q (· = T)) := by
  obtain ⟨R, p, hR, hTe⟩ := exists_flange hb (tipOf_rigid ht) hT
  have htgt := railTarget_flange (a1 := a1) (a2 := a2) (d4 := d4) (d6 := d6) n hb tool ht hTe
  unfold railSols at hs
  rw [htgt] at hs
  obtain ⟨sols', h0, rfl⟩ := Option.map_eq_some_iff.1 hs
  obtain ⟨q', hq', rfl⟩ := List.mem_map.1 hq
  obtain ⟨q1, q2, q3, q4, q5, q6, rfl, hf⟩ := kukaSols_sound hit (a1 := 0.18) (a2 := 0.6)
    (d4 := 0.62) (d6 := 0.115) (by norm_num) n (dhMat_rigid _ _ _ _) none (by simp)
    (isRigid_mkTf.2 hR) (T := mkTf R p) (base := railLink x) h0 hq'
  refine ⟨q1, q2, q3, q4, q5, q6, rfl, fun h3 h5 => ?_⟩
  have := hf h3 h5
  rw [fkSatisfies_iff _ _ (setup_known _ _ _ _ n _ _) _ (le_refl _)] at this
  rw [fkSatisfies_iff _ (setupRail (Rail.new 0.18 0.6 0.62 0.115 n) base tool).robot
    (rail_known _ _ _ _) _ (le_refl _)]
  change base * chain (railRobot 0.18 0.6 0.62 0.115).links _ * tipOf tool = T
  change railLink x * chain (kukaRobot 0.18 0.6 0.62 0.115).links _ * 1 = _ at this
  rw [mul_one] at this
  rw [chain_rail, this, hTe]

theorem railSols_complete [Zeros] (hit : Oracle Shape) (n : Nat) {base T : M4} (hb : IsRigid base)
    (tool : Option (Tool Shape)) (ht : ∀ t, tool = some t → IsRigid t.tfTT)
    {x q1 q2 q3 q4 q5 q6 : ℝ}
    (hT : FkSatisfies hit (setupRail (Rail.new 0.18 0.6 0.62 0.115 n) base tool).robot
      [x, q1, q2, q3, q4, q5, q6] (· = T))
    (h1 : 0.18 + 0.6 * Real.cos q2 + 0.62 * Real.sin (q2 + q3) ≠ 0)
    (h3 : |Real.sin q3| ≤ 1 - 1 / 10 ^ 6) (h5 : Real.sin q5 ≠ 0) :
    ∃ sols t1 t2 t3 t4 t5 t6,
      railSols n (setupRail (Rail.new 0.18 0.6 0.62 0.115 n) base tool).robot T x = some sols ∧
      [x, t1, t2, t3, t4, t5, t6] ∈ sols ∧ SameAngle t1 q1 ∧ SameAngle t2 q2 ∧ SameAngle t3 q3 ∧
      SameAngle t4 q4 ∧ SameAngle t5 q5 ∧ SameAngle t6 q6 := by
  rw [fkSatisfies_iff _ (setupRail (Rail.new 0.18 0.6 0.62 0.115 n) base tool).robot
    (rail_known _ _ _ _) _ (le_refl _)] at hT
  change base * chain (railRobot 0.18 0.6 0.62 0.115).links _ * tipOf tool = T at hT
  obtain ⟨R, p, hR, hch⟩ := (chain_rigid (kukaRobot 0.18 0.6 0.62 0.115).links
    [q1, q2, q3, q4, q5, q6]).exists_mk
  rw [chain_rail, hch] at hT
  have htgt := railTarget_flange (a1 := 0.18) (a2 := 0.6) (d4 := 0.62) (d6 := 0.115) n hb tool ht
    hT.symm
  have hktgt : kukaTarget (innerKuka n x).robot (railLink x * mkTf R p) =
      mkTf R (p - R *ᵥ ![0, 0, 0.115]) :=
    kukaTarget_eq (r := (innerKuka n x).robot) (dhMat_rigid _ _ _ _) IsRigid.one (by
      change _ = railLink x * mkTf R p * 1
      rw [mul_one]) rfl
  obtain ⟨qs, hq⟩ := kuka_succeeds (a1 := 0.18) (a2 := 0.6) (d4 := 0.62) (by norm_num) hch
  obtain ⟨t1, t2, t3, hmem, s1, s2, s3, hwr⟩ := kuka_complete (by norm_num) hch hq h1 h3
  obtain ⟨t4, t5, t6, hk, s4, s5, s6⟩ := hwr h5
  refine ⟨(qs.flatMap (kSols 0.18 0.6 0.62 (mkTf R (p - R *ᵥ ![0, 0, 0.115])))).map (x :: ·),
    t1, t2, t3, t4, t5, t6, ?_, ?_, s1, s2, s3, s4, s5, s6⟩
  · unfold railSols kukaSols
    rw [htgt, hktgt, hq]
    rfl
  · exact List.mem_map.2 ⟨_, List.mem_flatMap.2 ⟨_, hmem, hk⟩, rfl⟩

/-- **C110**, soundness. After a successful "Plan" for a KukaOnRail, with any parameters, base and
tool, the solution has one configuration per path point. It is the float32 rounding of one that
touches neither the scene nor the robot itself, with the rail at one of the ten values
`-1/2, …, 1/2`; if the robot has the default parameters, it reaches the last sample of the point
exactly, unless the elbow is snapped (`cos q3 = 0`) or the wrist stretched (`sin q5 = 0`). -/
theorem C110_sound [Zeros] (hit : Oracle Shape) (pq : PQ C Config) (a1 a2 d4 d6 : ℝ) (n : Nat)
    {base : M4}
    (hb : IsRigid base) (tool : Option (Tool Shape)) (ht : ∀ t, tool = some t → IsRigid t.tfTT)
    (conv : ℝ → ℝ) (wdir : String) (d : Nat → Draws) {e : Editor (RState × Mem)}
    {sc : Collection Shape} (he : e.scene = some sc) (hI : RailOK n e.rob) {samples : List (List M4)}
    (hs : DiscretisedTo d e.path samples) (hne : ∀ Ts ∈ samples, Ts ≠ []) :
    let r := setupRail (Rail.new a1 a2 d4 d6 n) base tool
    let after := callback pq r.robot (railArm hit r) conv wdir (.plan d) e
    after.1 = .ok () → ∃ p, after.2.currentSolution = some p ∧ p.length = e.path.length ∧
      ∀ (i : Nat) (q : Config), p[i]? = some q → ∃ (Ts : List M4) (T : M4) (k : Nat)
        (q1 q2 q3 q4 q5 q6 : ℝ), samples[i]? = some (Ts ++ [T]) ∧ k ≤ 9 ∧
        q = [-(1 / 2) + (k : ℝ) / 9, q1, q2, q3, q4, q5, q6].map conv ∧
        ¬ SceneTouch hit r.robot [-(1 / 2) + (k : ℝ) / 9, q1, q2, q3, q4, q5, q6] sc ∧
        ¬ SelfTouch hit r.robot [-(1 / 2) + (k : ℝ) / 9, q1, q2, q3, q4, q5, q6] ∧
        (IsRigid T → a1 = 0.18 → a2 = 0.6 → d4 = 0.62 → d6 = 0.115 → Real.cos q3 ≠ 0 →
          Real.sin q5 ≠ 0 →
          FkSatisfies hit r.robot [-(1 / 2) + (k : ℝ) / 9, q1, q2, q3, q4, q5, q6] (· = T)) := by
  intro r after hok
  have hcb : after = callback pq r.robot (railArm1 hit r) conv wdir (.plan d) e :=
    rail_callback hit r rfl pq conv wdir d he
  rw [hcb] at hok ⊢
  have hdet := rail_determined hit a1 a2 d4 d6 n base tool sc
  obtain ⟨p, h1, h2, h3⟩ := C97_redundant (pq := pq) (r := r.robot) (show 7 ≤ 7 from le_refl _) hdet
    conv wdir d he hI hs hne hok
  refine ⟨p, h1, h2, fun i q hq => ?_⟩
  obtain ⟨Ts, T, k, sols, q', f1, f2, f3, f4, f5, rfl⟩ := h3 i q hq
  obtain ⟨g1, g2⟩ := (touches_free hit (r := r.robot) rfl sc q').1 f5
  simp only [List.headD_cons] at f3
  by_cases hT : IsRigid T
  · obtain ⟨q1, q2, q3, q4, q5, q6, rfl, hf⟩ := railSols_sound hit n hb tool ht hT f3 f4
    refine ⟨Ts, T, k, q1, q2, q3, q4, q5, q6, f1, f2, rfl, g1, g2, ?_⟩
    intro _ e1 e2 e3 e4 h3 h5
    simp only [r, e1, e2, e3, e4]
    exact hf h3 h5
  · obtain ⟨sols', h0, rfl⟩ := Option.map_eq_some_iff.1 f3
    obtain ⟨q', hq', rfl⟩ := List.mem_map.1 f4
    obtain ⟨qs, h1, rfl⟩ := Option.map_eq_some_iff.1 h0
    have := kSols_len h1 q' hq'
    match q', this with
    | [q1, q2, q3, q4, q5, q6], _ =>
      exact ⟨Ts, T, k, q1, q2, q3, q4, q5, q6, f1, f2, rfl, g1, g2, fun h => absurd h hT⟩

/-- **C110**, completeness. If a path has been loaded, and the last sample of every point is reached
by some configuration that touches neither the scene nor the robot itself, with the rail at one of
the ten values and no singularity of the arm near it, then "Plan" succeeds for the KukaOnRail with
the default parameters. -/
theorem C110_complete [Zeros] (hit : Oracle Shape) {pq : PQ C Config} (hl : Lawful pq)
    (hno : PyGraph.NoOverflow C) (hfin : ∀ (w : List ℝ) (x y : Config), stepCost C w x y < ⊤)
    (n : Nat) {base : M4}
    (hb : IsRigid base) (tool : Option (Tool Shape)) (ht : ∀ t, tool = some t → IsRigid t.tfTT)
    (conv : ℝ → ℝ) (wdir : String) (d : Nat → Draws) {e : Editor (RState × Mem)}
    {sc : Collection Shape} (he : e.scene = some sc) (hI : RailOK n e.rob) (hpath : e.path ≠ [])
    {samples : List (List M4)} (hs : DiscretisedTo d e.path samples) :
    let r := setupRail (Rail.new 0.18 0.6 0.62 0.115 n) base tool
    (∀ Ts ∈ samples, ∃ T, Ts.getLast? = some T ∧ ∃ (k : Nat) (q1 q2 q3 q4 q5 q6 : ℝ), k ≤ 9 ∧
      FkSatisfies hit r.robot [-(1 / 2) + (k : ℝ) / 9, q1, q2, q3, q4, q5, q6] (· = T) ∧
      ¬ SceneTouch hit r.robot [-(1 / 2) + (k : ℝ) / 9, q1, q2, q3, q4, q5, q6] sc ∧
      ¬ SelfTouch hit r.robot [-(1 / 2) + (k : ℝ) / 9, q1, q2, q3, q4, q5, q6] ∧
      0.18 + 0.6 * Real.cos q2 + 0.62 * Real.sin (q2 + q3) ≠ 0 ∧
      |Real.sin q3| ≤ 1 - 1 / 10 ^ 6 ∧ Real.sin q5 ≠ 0) →
    (callback pq r.robot (railArm hit r) conv wdir (.plan d) e).1 = .ok () := by
  intro r hex
  rw [rail_callback hit r rfl pq conv wdir d he]
  refine C97_plans hl hno hfin (r := r.robot) (show 7 ≤ 7 from le_refl _)
    (rail_determined hit 0.18 0.6 0.62 0.115 n base tool sc) conv wdir d he hI hpath hs
    fun Ts hTs => ?_
  obtain ⟨T, hT, k, q1, q2, q3, q4, q5, q6, hk, hf, hsc, hse, h1, h3, h5⟩ := hex Ts hTs
  obtain ⟨sols, t1, t2, t3, t4, t5, t6, hsol, hmem, s1, s2, s3, s4, s5, s6⟩ :=
    railSols_complete hit n hb tool ht hf h1 h3 h5
  refine ⟨T, hT, k, hk, sols, hsol, _, hmem, ?_⟩
  rw [touches_congr hit (q' := [-(1 / 2) + (k : ℝ) / 9, q1, q2, q3, q4, q5, q6])]
  · exact (touches_free hit (r := r.robot) rfl sc _).2 ⟨hsc, hse⟩
  · simp only [setupRail, Rail.new, railRobot, Robot.new, List.zipWith_cons_cons,
      List.zipWith_nil_left]
    rw [dhOf_sameAngle rfl s1, dhOf_sameAngle rfl s2, dhOf_sameAngle rfl s3, dhOf_sameAngle rfl s4,
      dhOf_sameAngle rfl s5, dhOf_sameAngle rfl s6]

/-- The end of the default KukaOnRail with the rail at -0.5 and the wrist turned, as a path point. -/
theorem railPose : ∃ x : V3, mkTf (rotX (3 * Real.pi / 2) * rotY 1 * rotZ 0) x =
    chain (railRobot 0.18 0.6 0.62 0.115).links [-(1 / 2), 0, 0, 0, 0, 1, 0] := by
  have hC := chain_rigid (railRobot 0.18 0.6 0.62 0.115).links [-(1 / 2), 0, 0, 0, 0, 1, 0]
  refine ⟨posPart (chain (railRobot 0.18 0.6 0.62 0.115).links [-(1 / 2), 0, 0, 0, 0, 1, 0]), ?_⟩
  conv_rhs => rw [← mkTf_parts hC.2]
  congr 1
  have h1 : railLink (-(1 / 2)) = mkTf (rotX (Real.pi / 2)) ![0, 0, -(1 / 2)] := by
    rw [railLink, dhMat_eq, Util.rotZ_zero, one_mul]
    simp
  have h2 : armRot 0 (0 + 0) = rotX Real.pi := by
    ext i j
    fin_cases i <;> fin_cases j <;> simp [armRot, rotX]
  rw [chain_rail, chain_kuka, h1, mkTf_mul, rotPart_mkTf, h2, zyz, Util.rotZ_zero, one_mul,
    ← mul_assoc, ← mul_assoc, Util.rotX_add]
  congr 3
  ring

/-- The default KukaOnRail in a scene with a box, nothing in collision, and a path of one point:
"Plan" succeeds, and the solution has the rail at one of the ten positions. -/
example [Zeros] : ∃ (e : Editor (RState × Mem)) (d : Nat → Draws) (p : List Config),
    let r := setupRail (Rail.new 0.18 0.6 0.62 0.115 0) 1 none
    (callback (stdHeap : PQ (WithTop ℝ) Config) r.robot (railArm (fun _ _ => false) r) id ""
      (.plan d) e).2.currentSolution = some p ∧ p.length = 1 ∧
    ∀ q ∈ p, ∃ (k : Nat) (q1 q2 q3 q4 q5 q6 : ℝ), k ≤ 9 ∧
      q = [-(1 / 2) + (k : ℝ) / 9, q1, q2, q3, q4, q5, q6] := by
  obtain ⟨x, hx⟩ := railPose
  obtain ⟨pt, T, h1, -, h2, hT⟩ := C47_no_tolerance x ![3 * Real.pi / 2, 1, 0]
  have hT' : T = chain (railRobot 0.18 0.6 0.62 0.115).links [-(1 / 2), 0, 0, 0, 0, 1, 0] := by
    rw [hT, ← hx]
    rfl
  let r := setupRail (Rail.new 0.18 0.6 0.62 0.115 0) 1 none
  let sc : Collection Shape := ⟨[⟨1, 1, 1⟩], [1]⟩
  let e : Editor (RState × Mem) := { Editor.new (RState.new 7, RState.new 3, [[]]) with
    scene := some sc, paths := [[.euler pt]], path := [.euler pt] }
  let d : Nat → Draws := fun _ => ⟨fun n => n, 0, fun _ => (0, 0, 0), none⟩
  have hI : RailOK 0 e.rob := ⟨WF.new 7, WF.new 3, Nat.zero_lt_one⟩
  have hs : DiscretisedTo d e.path [[T]] := by
    refine ⟨rfl, fun i tp Ts e1 e2 => ?_⟩
    cases i with
    | zero =>
      cases e1
      cases e2
      show liftPy (pt.getSamples.map _) = _
      rw [h2]
      rfl
    | succ i => simp at e2
  have hs1 : Real.sin 1 ≠ 0 :=
    (Real.sin_pos_of_pos_of_lt_pi one_pos (by linarith [Real.two_le_pi])).ne'
  have hok := C110_complete (fun _ _ => false) (pq := (stdHeap : PQ (WithTop ℝ) Config))
    stdHeapLawful noOverflow_real stepCost_real 0 IsRigid.one none (by simp) id "" d (e := e)
    (sc := sc) rfl hI (by simp [e]) hs (by
      intro Ts hTs
      rw [List.mem_singleton.1 hTs]
      have hfree := (touches_free (fun _ _ => false) (r := r.robot) rfl sc
        [-(1 / 2) + ((0 : Nat) : ℝ) / 9, 0, 0, 0, 0, 1, 0]).1 (touches_false _ _ _)
      refine ⟨T, rfl, 0, 0, 0, 0, 0, 1, 0, by omega, ?_, hfree.1, hfree.2, by norm_num, by norm_num,
        hs1⟩
      rw [fkSatisfies_iff _ (setupRail (Rail.new 0.18 0.6 0.62 0.115 0) 1 none).robot
        (rail_known _ _ _ _) _ (le_refl _)]
      change 1 * chain (railRobot 0.18 0.6 0.62 0.115).links _ * 1 = T
      rw [hT', one_mul, mul_one]
      norm_num)
  obtain ⟨p, e1, e2, e3⟩ := C110_sound (fun _ _ => false) (stdHeap : PQ (WithTop ℝ) Config)
    0.18 0.6 0.62 0.115 0 IsRigid.one none (by simp) id "" d (e := e) (sc := sc) rfl hI hs (by simp)
    hok
  refine ⟨e, d, p, e1, e2, fun q hq => ?_⟩
  obtain ⟨i, hi⟩ := List.mem_iff_getElem?.1 hq
  obtain ⟨Ts, T', k, q1, q2, q3, q4, q5, q6, -, hk, rfl, -⟩ := e3 i q hi
  exact ⟨k, q1, q2, q3, q4, q5, q6, hk, by simp⟩

end

end Verif.Props
