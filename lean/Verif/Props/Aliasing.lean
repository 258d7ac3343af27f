import Verif.Model.Aliasing
import Verif.Props.Solve
import Verif.Props.Kuka

/-! # C66 for the robots of the library, and C76: the columns when `ik` hands out shared arrays -/

set_option linter.unusedSectionVars false

namespace Verif.Props

open Matrix Verif Verif.Path Verif.Geometry Verif.Kin Verif.ShortestPath Verif.Task Verif.CppGraph
  Verif.Search Verif.Planning Verif.Spec

noncomputable section

variable {W S : Type}

/-! ## Robots whose arrays are not overwritten -/

/-- The call `(o, w')` made in `w` keeps the contents of all arrays that are in use. -/
def KeepsRefs (A : RefArm W S) (Valid : W → Ref → Prop) (w w' : W) : Prop :=
  ∀ r, Valid w r → Valid w' r ∧ A.read w' r = A.read w r

/-- Arrays handed out by `ik` keep their contents. -/
structure Stable (A : RefArm W S) (Inv : W → Prop) (Valid : W → Ref → Prop) : Prop where
  ik : ∀ T w, Inv w → Inv (A.ik T w).2 ∧ KeepsRefs A Valid w (A.ik T w).2 ∧
    ∀ sols, (A.ik T w).1 = .ok (some sols) → ∀ r ∈ sols, Valid (A.ik T w).2 r
  col : ∀ q scene w, Inv w → Inv (A.isInCollision q scene w).2 ∧
    KeepsRefs A Valid w (A.isInCollision q scene w).2

theorem KeepsRefs.refl (A : RefArm W S) (Valid : W → Ref → Prop) (w : W) : KeepsRefs A Valid w w :=
  fun _ h => ⟨h, rfl⟩

theorem KeepsRefs.trans {A : RefArm W S} {Valid : W → Ref → Prop} {w w' w'' : W}
    (h : KeepsRefs A Valid w w') (h' : KeepsRefs A Valid w' w'') : KeepsRefs A Valid w w'' :=
  fun r hr => ⟨(h' r (h r hr).1).1, (h' r (h r hr).1).2.trans (h r hr).2⟩

theorem KeepsRefs.map {A : RefArm W S} {Valid : W → Ref → Prop} {w w' : W}
    (h : KeepsRefs A Valid w w') {l : List Ref} (hl : ∀ r ∈ l, Valid w r) :
    l.map (A.read w') = l.map (A.read w) ∧ ∀ r ∈ l, Valid w' r :=
  ⟨List.map_congr_left fun r hr => (h r (hl r hr)).2, fun r hr => (h r (hl r hr)).1⟩

/-- The run with references and the run with values agree. -/
def Agree (A : RefArm W S) (Inv : W → Prop) (Valid : W → Ref → Prop) (x : Run W (List Ref))
    (y : Run W (List Config)) (w : W) : Prop :=
  y w = ((x w).1.map (List.map (A.read (x w).2)), (x w).2) ∧ Inv (x w).2 ∧
    KeepsRefs A Valid w (x w).2 ∧ ∀ l, (x w).1 = .ok l → ∀ r ∈ l, Valid (x w).2 r

theorem keepFree_agree {A : RefArm W S} {Inv : W → Prop} {Valid : W → Ref → Prop}
    (h : Stable A Inv Valid) (scene : Collection S) (rs acc : List Ref) (w : W) (hw : Inv w)
    (hrs : ∀ r ∈ rs, Valid w r) (hacc : ∀ r ∈ acc, Valid w r) :
    Agree A Inv Valid (keepFreeRef A scene rs acc)
      (keepFree A.toArm scene (rs.map (A.read w)) (acc.map (A.read w))) w := by
  induction rs generalizing acc w with
  | nil =>
    refine ⟨rfl, hw, KeepsRefs.refl _ _ _, fun l hl r hr => ?_⟩
    cases hl
    exact hacc r hr
  | cons r rs ih =>
    obtain ⟨hw', hk⟩ := h.col (A.read w r) scene w hw
    obtain ⟨e1, v1⟩ := hk.map (l := rs) fun x hx => hrs x (List.mem_cons_of_mem _ hx)
    obtain ⟨e2, v2⟩ := hk.map hacc
    have hx : keepFreeRef A scene (r :: rs) acc w =
        match A.isInCollision (A.read w r) scene w with
        | (.error e, w') => (.error e, w')
        | (.ok c, w') => (if c then keepFreeRef A scene rs acc
            else keepFreeRef A scene rs (acc ++ [r])) w' := by
      rw [keepFreeRef]
      change Run.bind _ _ w = _
      unfold Run.bind
      simp only
      rcases A.isInCollision (A.read w r) scene w with ⟨_ | _, w'⟩ <;> rfl
    have hy : keepFree A.toArm scene ((r :: rs).map (A.read w)) (acc.map (A.read w)) w =
        match A.isInCollision (A.read w r) scene w with
        | (.error e, w') => (.error e, w')
        | (.ok c, w') => (if c then keepFree A.toArm scene (rs.map (A.read w)) (acc.map (A.read w))
            else keepFree A.toArm scene (rs.map (A.read w))
              (acc.map (A.read w) ++ [A.read w r])) w' := by
      rw [List.map_cons, keepFree]
      change Run.bind (A.isInCollision (A.read w r) scene) _ w = _
      unfold Run.bind
      rcases A.isInCollision (A.read w r) scene w with ⟨_ | _, w'⟩ <;> rfl
    unfold Agree
    rw [hx, hy]
    rcases hc : A.isInCollision (A.read w r) scene w with ⟨o, w'⟩
    rw [hc] at hw' hk e1 v1 e2 v2
    cases o with
    | error e => exact ⟨rfl, hw', hk, by simp⟩
    | ok c =>
      simp only at hw' hk e1 v1 e2 v2 ⊢
      cases c with
      | true =>
        simp only [if_true]
        obtain ⟨i1, i2, i3, i4⟩ := ih acc w' hw' v1 v2
        rw [e1, e2] at i1
        exact ⟨i1, i2, hk.trans i3, i4⟩
      | false =>
        simp only [Bool.false_eq_true, if_false]
        have hr := hk r (hrs r (by simp))
        obtain ⟨i1, i2, i3, i4⟩ := ih (acc ++ [r]) w' hw' v1 (by
          intro x hx
          rcases List.mem_append.1 hx with hx | hx
          · exact v2 x hx
          · rw [List.mem_singleton] at hx
            rw [hx]
            exact hr.1)
        rw [List.map_append, e1, e2, List.map_cons, List.map_nil, hr.2] at i1
        exact ⟨i1, i2, hk.trans i3, i4⟩

theorem samplesLoop_agree {A : RefArm W S} {Inv : W → Prop} {Valid : W → Ref → Prop}
    (h : Stable A Inv Valid) (scene : Collection S) (Ts : List M4) (acc : List Ref) (w : W)
    (hw : Inv w) (hacc : ∀ r ∈ acc, Valid w r) :
    Agree A Inv Valid (samplesLoopRef A scene Ts acc)
      (samplesLoop A.toArm scene Ts (acc.map (A.read w))) w := by
  induction Ts generalizing acc w with
  | nil =>
    refine ⟨rfl, hw, KeepsRefs.refl _ _ _, fun l hl r hr => ?_⟩
    cases hl
    exact hacc r hr
  | cons T Ts ih =>
    obtain ⟨hw', hk, hnew⟩ := h.ik T w hw
    obtain ⟨e2, v2⟩ := hk.map hacc
    have hx : samplesLoopRef A scene (T :: Ts) acc w =
        match A.ik T w with
        | (.error e, w') => (.error e, w')
        | (.ok none, w') => samplesLoopRef A scene Ts acc w'
        | (.ok (some sols), w') =>
          match keepFreeRef A scene sols acc w' with
          | (.error e, w'') => (.error e, w'')
          | (.ok acc', w'') => samplesLoopRef A scene Ts acc' w'' := by
      rw [samplesLoopRef]
      change Run.bind _ _ w = _
      unfold Run.bind
      rcases A.ik T w with ⟨_ | _ | sols, w'⟩
      · rfl
      · rfl
      · change Run.bind _ _ w' = _
        unfold Run.bind
        simp only
        rcases keepFreeRef A scene sols acc w' with ⟨_ | _, w''⟩ <;> rfl
    have hy : samplesLoop A.toArm scene (T :: Ts) (acc.map (A.read w)) w =
        match A.toArm.ik T w with
        | (.error e, w') => (.error e, w')
        | (.ok none, w') => samplesLoop A.toArm scene Ts (acc.map (A.read w)) w'
        | (.ok (some sols), w') =>
          match keepFree A.toArm scene sols (acc.map (A.read w)) w' with
          | (.error e, w'') => (.error e, w'')
          | (.ok acc', w'') => samplesLoop A.toArm scene Ts acc' w'' := by
      rw [samplesLoop]
      change Run.bind _ _ w = _
      unfold Run.bind
      rcases A.toArm.ik T w with ⟨_ | _ | sols, w'⟩
      · rfl
      · rfl
      · change Run.bind _ _ w' = _
        unfold Run.bind
        simp only
        rcases keepFree A.toArm scene sols (acc.map (A.read w)) w' with ⟨_ | _, w''⟩ <;> rfl
    have hz : A.toArm.ik T w = ((A.ik T w).1.map (Option.map (List.map (A.read (A.ik T w).2))),
      (A.ik T w).2) := rfl
    unfold Agree
    rw [hx, hy, hz]
    rcases hc : A.ik T w with ⟨o, w'⟩
    rw [hc] at hw' hk e2 v2 hnew
    rcases o with e | _ | sols
    · exact ⟨rfl, hw', hk, by simp⟩
    · simp only [Except.map, Option.map_none] at hw' hk e2 v2 ⊢
      obtain ⟨i1, i2, i3, i4⟩ := ih acc w' hw' v2
      rw [e2] at i1
      exact ⟨i1, i2, hk.trans i3, i4⟩
    · simp only [Except.map, Option.map_some] at hw' hk e2 v2 hnew ⊢
      obtain ⟨j1, j2, j3, j4⟩ := keepFree_agree h scene sols acc w' hw' (hnew sols rfl) v2
      rw [e2] at j1
      rw [j1]
      rcases hd : keepFreeRef A scene sols acc w' with ⟨p, w''⟩
      rw [hd] at j2 j3 j4
      cases p with
      | error e => exact ⟨rfl, j2, hk.trans j3, by simp⟩
      | ok acc' =>
        simp only [Except.map] at j2 j3 j4 ⊢
        obtain ⟨i1, i2, i3, i4⟩ := ih acc' w'' j2 (j4 acc' rfl)
        exact ⟨i1, i2, (hk.trans j3).trans i3, i4⟩

/-- **C76**, for robots whose `ik` hands out arrays that are not overwritten: the planner gets exactly
the columns it would get with values. -/
theorem C76_stable_partial {A : RefArm W S} {Inv : W → Prop} {Valid : W → Ref → Prop}
    (h : Stable A Inv Valid) (conv : ℝ → ℝ) (draws : Nat → Draws) (path : List PathPt)
    (scene : Collection S) (n : Nat) (w : W) (hw : Inv w) :
    cartToJointNoRedundancyRef A conv draws path scene n w =
      cartToJointNoRedundancy A.toArm conv draws path scene n w := by
  have key : ∀ (path : List PathPt) (i : Nat) (Q : List (PyCol ℝ)) (w : W), Inv w →
      noRedundancyLoopRef A scene conv draws n i path Q w =
        noRedundancyLoop A.toArm scene conv draws n i path Q w := by
    intro path
    induction path with
    | nil => intro i Q w _; rfl
    | cons tp rest ih =>
      intro i Q w hw
      rw [noRedundancyLoopRef, noRedundancyLoop]
      change Run.bind _ _ w = Run.bind _ _ w
      unfold Run.bind
      rcases hs : getSamples (draws i) n none tp with e | Ts
      · rfl
      · simp only [Run.lift]
        change Run.bind _ _ w = Run.bind _ _ w
        obtain ⟨i1, i2, i3, i4⟩ := samplesLoop_agree h scene Ts [] w hw (by simp)
        unfold Run.bind
        rw [List.map_nil] at i1
        rw [i1]
        rcases hd : samplesLoopRef A scene Ts [] w with ⟨o, w'⟩
        rw [hd] at i2
        cases o with
        | error e => rfl
        | ok l =>
          simp only [Except.map]
          change Run.bind (columnRef A conv l) _ w' = Run.bind (Run.lift _) _ w'
          unfold Run.bind
          simp only [columnRef, Run.lift]
          cases column conv (l.map (A.read w')) with
          | error e => rfl
          | ok c => exact ih (i + 1) (Q ++ [c]) w' i2
  exact key path 0 [] w hw

/-! ## The robots of the library -/

open Classical in
/-- What the collision check answers, see C33. -/
def touches (hit : Oracle Shape) (r : Robot Shape) (scene : Collection Shape) (q : Config) : Bool :=
  decide (SceneTouch hit r q scene ∨ (r.doCheckSelfCollision = true ∧ SelfTouch hit r q))

theorem robotCollision_answer (hit : Oracle Shape) (r : Robot Shape) (hk : KnownTypes r.links)
    (hc : r.collisionMatrix = bandMatrix) (h0 : r.tool = none ∨ 0 < r.links.length)
    (scene : Collection Shape) {q : Config} (hq : q.length = r.links.length) {st : RState}
    (hw : WF r.links.length st) :
    (r.isInCollision hit st q scene).1 = .ok (touches hit r scene q) ∧
      WF r.links.length (r.isInCollision hit st q scene).2 := by
  refine ⟨?_, hw.isInCollision q scene⟩
  obtain ⟨b, hb, hiff⟩ := C33_answer hit r hk hc h0 [] (by simp) q hq.ge scene
  rw [isInCollision_indep hw (after_wf hit r.links [] (by simp)) q scene, hb]
  congr 1
  unfold touches
  classical
  rw [Bool.eq_iff_iff, hiff, decide_eq_true_iff]

theorem robotFk_answer (r : Robot Shape) (hk : KnownTypes r.links) {q : Config}
    (hq : q.length = r.links.length) {st : RState} (hw : WF r.links.length st) :
    (r.fk st q).1 = .ok (r.tfBase * chain r.links q * tip r) ∧ WF r.links.length (r.fk st q).2 := by
  constructor
  · rw [fk_ok hw hq.ge hk.known, tip]
    cases r.tool <;> simp
  · exact hw.fkAllLinks q

theorem liftPy_ok_eq {α : Type} {x : Except PyErr α} {a : α} (h : x = .ok a) :
    liftPy x = .ok a := by rw [h]; rfl

/-- The hypotheses on a robot: known joint types, collision matrix as constructed, no tool on a robot
without links. -/
structure Regular (r : Robot Shape) : Prop where
  known : KnownTypes r.links
  matrix : r.collisionMatrix = bandMatrix
  tool : r.tool = none ∨ 0 < r.links.length

/-- `fk` of a robot. -/
def fkOf (r : Robot Shape) (q : Config) : M4 := r.tfBase * chain r.links q * tip r

variable {V : Type}

theorem robotCollision_returns (hit : Oracle Shape) {r : Robot Shape} (hr : Regular r)
    (scene : Collection Shape) {q : Config} (hq : q.length = r.links.length) (P : V → Prop) :
    Returns (fun w : RState × V => WF r.links.length w.1 ∧ P w.2) (robotCollision hit r q scene)
      (touches hit r scene q) := by
  intro w hw
  obtain ⟨h1, h2⟩ := robotCollision_answer hit r hr.known hr.matrix hr.tool scene hq hw.1
  exact ⟨_, Prod.ext (liftPy_ok_eq h1) rfl, h2, hw.2⟩

theorem robotFk_returns {r : Robot Shape} (hr : Regular r) {q : Config}
    (hq : q.length = r.links.length) (P : V → Prop) :
    Returns (fun w : RState × V => WF r.links.length w.1 ∧ P w.2) (robotFk r q) (fkOf r q) := by
  intro w hw
  obtain ⟨h1, h2⟩ := robotFk_answer r hr.known hq hw.1
  exact ⟨_, Prod.ext (liftPy_ok_eq h1) rfl, h2, hw.2⟩

/-- Arm2, AnthropomorphicArm and every robot with an `ik` that is a function: the hypotheses of the
planner theorems hold. -/
theorem pureArm_determined (hit : Oracle Shape) {r : Robot Shape} (hr : Regular r)
    (ik : M4 → Option (List Config)) (hik : ∀ T sols, ik T = some sols → ∀ q ∈ sols,
      q.length = r.links.length) (scene : Collection Shape) :
    Determined (pureArm hit r ik) scene (fun w => WF r.links.length w.1 ∧ True) ik
      (touches hit r scene) r.links.length :=
  ⟨fun _ w hw => ⟨w, rfl, hw⟩, hik, fun _ hq => robotCollision_returns hit hr scene hq fun _ => True⟩

theorem arm2_regular (a1 a2 a3 : ℝ) : Regular (arm2 a1 a2 a3) :=
  ⟨fun l hl => by
    simp only [arm2, Robot.new, List.mem_cons, List.not_mem_nil, or_false] at hl
    rcases hl with rfl | rfl | rfl <;> simp, rfl, Or.inl rfl⟩

/-- **C66** for an Arm2 in any scene: if the grid planner succeeds, the path has one configuration per
path point, touching neither the scene nor itself, and its end is within
the tolerance of a sample of the point (before rounding to float32). -/
theorem C66_arm2 [Zeros] {C O : Type} [CostArith C] [JointArith ℝ C] (hit : Oracle Shape)
    {a1 a2 a3 : ℝ}
    (ha : a2 * a3 ≠ 0) (scene : Collection Shape) (t : PlanningTask Shape)
    (ht : t.scene = some scene) (pq : PQ C Config) (conv : ℝ → ℝ) (draws : Nat → Nat → Draws)
    (time : Nat → ℝ) (fuel : Nat)
    (optimal : List PathPt → Collection Shape → Nat → List (List ℝ) → Run (RState × Unit) O)
    (history : List (Call Shape)) (hh : ∀ c ∈ history, c.robot.links = (arm2 a1 a2 a3).links)
    {w' : RState × Unit} {r : SolveRes C O}
    (hr : PlanningTask.solve t (pureArm hit (arm2 a1 a2 a3) (arm2Ik (arm2 a1 a2 a3))) pq conv draws
      time fuel optimal (some "grid") (after hit (arm2 a1 a2 a3).links history, ()) = (.ok r, w')) :
    ∃ pr : PlanRes ℝ C, r = .plan pr ∧ (pr.success = true → ∃ path, pr.path = some path ∧
      path.length = t.path.length ∧
      ∀ (i : Nat) (q : Config), path[i]? = some q → ∃ tp Ts T q', t.path[i]? = some tp ∧
        getSamples (draws 0 i) t.gridSamples none tp = .ok Ts ∧ T ∈ Ts ∧ q = q'.map conv ∧
        ¬ SceneTouch hit (arm2 a1 a2 a3) q' scene ∧ ¬ SelfTouch hit (arm2 a1 a2 a3) q' ∧
        FkSatisfies hit (arm2 a1 a2 a3) q' fun F =>
          dist2 (posPart F) (posPart T) ≤ 2 * |a2 * a3| * (1 / 10 ^ 6)) := by
  have hdet := pureArm_determined hit (arm2_regular a1 a2 a3) (arm2Ik (arm2 a1 a2 a3))
    (fun T sols h q hq => arm2Ik_len3 h q hq) scene
  obtain ⟨pr, h1, h2⟩ := C66_reach (Reach := fun q T => FkSatisfies hit (arm2 a1 a2 a3) q fun F =>
      dist2 (posPart F) (posPart T) ≤ 2 * |a2 * a3| * (1 / 10 ^ 6)) hdet
    (fun T sols q hs hq _ => by
      obtain ⟨q1, q2, q3, rfl, -, hf⟩ := C35_arm2_sound hit ha T hs q hq
      intro history hh
      obtain ⟨F, f1, f2, -⟩ := hf history hh
      exact ⟨F, f1, f2⟩) t ht pq conv draws time fuel optimal (method := some "grid") rfl
    ⟨after_wf hit _ _ hh, trivial⟩ hr
  refine ⟨pr, h1, fun hs => ?_⟩
  obtain ⟨path, e1, e2, e3⟩ := h2 hs
  refine ⟨path, e1, e2, fun i q hq => ?_⟩
  obtain ⟨tp, Ts, q', f1, f2, f3, f4, T, f5, f6⟩ := e3 i q hq
  unfold touches at f4
  classical
  rw [decide_eq_false_iff_not] at f4
  exact ⟨tp, Ts, T, q', f1, f2, f5, f3, fun htouch => f4 (Or.inl htouch),
    fun hself => f4 (Or.inr ⟨rfl, hself⟩), f6⟩

/-! ### Kuka -/

theorem kuka_regular (a1 a2 d4 d6 : ℝ) (n : Nat) (base : M4) (tool : Option (Tool Shape)) :
    Regular (setup (Kuka.new a1 a2 d4 d6 n) base tool).robot :=
  ⟨fun l hl => by
    simp only [setup, Kuka.new, kukaRobot, Robot.new, List.mem_cons, List.not_mem_nil, or_false] at hl
    rcases hl with rfl | rfl | rfl | rfl | rfl | rfl <;> simp, rfl, Or.inr (show 0 < 6 by decide)⟩

/-- The state of a Kuka in use. -/
def KukaOK (n : Nat) (w : RState × RState × Mem) : Prop :=
  WF 6 w.1 ∧ WF 3 w.2.1 ∧ n < w.2.2.length

/-- The values of the solutions of a Kuka. -/
def kukaSols [Zeros] (a1 a2 d4 : ℝ) (r : Robot Shape) (T : M4) : Option (List Config) :=
  (arm2Ik (arm2 a1 a2 d4) (kukaTarget r T)).map fun qs =>
    qs.flatMap (kSols a1 a2 d4 (kukaTarget r T))

theorem readRef_append (mem : Mem) (rows : List Config) :
    (List.range' mem.length rows.length).map (fun a => readRef (mem ++ rows.map fun q => [q]) (a, 0)) =
      rows := by
  apply List.ext_getElem?
  intro i
  rw [List.getElem?_map]
  by_cases hi : i < rows.length
  · rw [List.getElem?_range' hi, Option.map_some, readRef]
    simp [hi]
  · simp [Nat.le_of_not_lt hi]

theorem kukaRef_ik [Zeros] (hit : Oracle Shape) (a1 a2 d4 d6 : ℝ) (n : Nat) (base : M4)
    (tool : Option (Tool Shape)) (T : M4) :
    Returns (KukaOK n) ((kukaRef hit (setup (Kuka.new a1 a2 d4 d6 n) base tool)).toArm.ik T)
      (kukaSols a1 a2 d4 (setup (Kuka.new a1 a2 d4 d6 n) base tool).robot T) := by
  intro w hw
  set k := setup (Kuka.new a1 a2 d4 d6 n) base tool with hk
  cases hs : arm2Ik (arm2 a1 a2 d4) (kukaTarget k.robot T) with
  | none =>
    have e := kukaIk_none k (a1 := a1) (a2 := a2) (d4 := d4) rfl w.2.1 w.2.2 hs
    refine ⟨w, ?_, hw⟩
    simp only [RefArm.toArm, kukaRef, e, kukaSols, hs]
    rfl
  | some qs =>
    obtain ⟨st', X, e, hwf⟩ := kukaIk_some k (a1 := a1) (a2 := a2) (d4 := d4) rfl hw.2.1
      (show k.qsol < w.2.2.length from hw.2.2) hs
    refine ⟨(w.1, st', w.2.2.set k.qsol X ++
      (qs.flatMap (kSols a1 a2 d4 (kukaTarget k.robot T))).map fun q => [q]), ?_, hw.1, hwf, ?_⟩
    · simp only [RefArm.toArm, kukaRef, e, kukaSols, hs]
      have hlen : (qs.flatMap (kSols a1 a2 d4 (kukaTarget k.robot T))).length = 2 * qs.length := by
        rw [List.length_flatMap]
        simp [kSols_length, mul_comm]
      have := readRef_append (w.2.2.set k.qsol X)
        (qs.flatMap (kSols a1 a2 d4 (kukaTarget k.robot T)))
      rw [hlen, List.length_set] at this
      refine Prod.ext ?_ rfl
      change Except.ok (some ((List.map (fun a => (a, 0)) _).map _)) = Except.ok (some _)
      rw [List.map_map]
      exact congrArg (fun l => Except.ok (some l)) this
    · simp only [List.length_append, List.length_set]
      have := hw.2.2
      omega

/-- A Kuka hands out new arrays. -/
theorem kuka_stable [Zeros] (hit : Oracle Shape) (a1 a2 d4 d6 : ℝ) (n : Nat) (base : M4)
    (tool : Option (Tool Shape)) :
    Stable (kukaRef hit (setup (Kuka.new a1 a2 d4 d6 n) base tool)) (KukaOK n)
      (fun w r => r.1 < w.2.2.length ∧ r.1 ≠ n) := by
  set k := setup (Kuka.new a1 a2 d4 d6 n) base tool with hk
  constructor
  · intro T w hw
    obtain ⟨i1, i2, i3, i4, -⟩ := kukaIk_inv k (a1 := a1) (a2 := a2) (d4 := d4) rfl T hw.2.1
      (show k.qsol < w.2.2.length from hw.2.2)
    refine ⟨⟨hw.1, i1, lt_of_lt_of_le hw.2.2 i2⟩, fun r hr => ⟨⟨lt_of_lt_of_le hr.1 i2, hr.2⟩, ?_⟩,
      fun sols hs r hr => ?_⟩
    · show readRef _ r = readRef _ r
      unfold readRef
      rw [show (((kukaRef hit k).ik T w).2.2.2[r.1]?) = w.2.2[r.1]? from i3 r.1 hr.1 hr.2]
    · have hs' : liftPy ((k.ik w.2.1 w.2.2 T).1.map (Option.map (List.map fun a => (a, 0)))) =
        .ok (some sols) := hs
      rcases hx : (k.ik w.2.1 w.2.2 T).1 with e | _ | l
      · rw [hx] at hs'; cases hs'
      · rw [hx] at hs'; cases hs'
      · rw [hx] at hs'
        cases hs'
        obtain ⟨a, ha, rfl⟩ := List.mem_map.1 hr
        obtain ⟨h1, h2⟩ := i4 l hx a ha
        refine ⟨h2, ?_⟩
        rintro rfl
        exact absurd hw.2.2 (not_lt.2 h1)
  · intro q scene w hw
    exact ⟨⟨WF.isInCollision (r := k.robot) hw.1 q scene, hw.2⟩, fun r hr => ⟨hr, rfl⟩⟩

/-- **C76** for a Kuka: whatever was called before, the planner gets the same columns as with values. -/
theorem C76_kuka [Zeros] (hit : Oracle Shape) (a1 a2 d4 d6 : ℝ) (n : Nat) (base : M4)
    (tool : Option (Tool Shape)) (conv : ℝ → ℝ) (draws : Nat → Draws) (path : List PathPt)
    (scene : Collection Shape) (m : Nat) (w : RState × RState × Mem) (hw : KukaOK n w) :
    cartToJointNoRedundancyRef (kukaRef hit (setup (Kuka.new a1 a2 d4 d6 n) base tool)) conv draws
        path scene m w =
      cartToJointNoRedundancy (kukaRef hit (setup (Kuka.new a1 a2 d4 d6 n) base tool)).toArm conv
        draws path scene m w :=
  C76_stable_partial (kuka_stable hit a1 a2 d4 d6 n base tool) conv draws path scene m w hw

/-- **C76**, called without a number of samples: each point gets the thousand samples of the code. -/
theorem C76_kuka_default [Zeros] (hit : Oracle Shape) (a1 a2 d4 d6 : ℝ) (n : Nat) (base : M4)
    (tool : Option (Tool Shape)) (conv : ℝ → ℝ) (draws : Nat → Draws) (path : List PathPt)
    (scene : Collection Shape) (w : RState × RState × Mem) (hw : KukaOK n w) :
    (cartToJointNoRedundancyRef (kukaRef hit (setup (Kuka.new a1 a2 d4 d6 n) base tool)) conv draws
        path scene) w =
      cartToJointNoRedundancy (kukaRef hit (setup (Kuka.new a1 a2 d4 d6 n) base tool)).toArm conv
        draws path scene 1000 w :=
  C76_kuka hit a1 a2 d4 d6 n base tool conv draws path scene 1000 w hw

/-- The default Kuka, new, among a box, for a path of two points. -/
example [Zeros] (hit : Oracle Shape) (draws : Nat → Draws) :
    (cartToJointNoRedundancyRef (kukaRef hit (setup (Kuka.new 0.18 0.6 0.62 0.115 0) 1 none)) id draws
        ([0, ![1, 1, 1]].map fun p => .free (.new p)) ⟨[⟨1, 1, 1⟩], [1]⟩)
        (RState.new 6, RState.new 3, [[]]) =
      cartToJointNoRedundancy (kukaRef hit (setup (Kuka.new 0.18 0.6 0.62 0.115 0) 1 none)).toArm id
        draws ([0, ![1, 1, 1]].map fun p => .free (.new p)) ⟨[⟨1, 1, 1⟩], [1]⟩ 1000
        (RState.new 6, RState.new 3, [[]]) :=
  C76_kuka_default hit _ _ _ _ _ _ _ _ _ _ _ _ ⟨WF.new 6, WF.new 3, by decide⟩

theorem kSols_len [Zeros] {a1 a2 d4 : ℝ} {Tw : M4} {qs : List (List ℝ)}
    (h : arm2Ik (arm2 a1 a2 d4) Tw = some qs) : ∀ q ∈ qs.flatMap (kSols a1 a2 d4 Tw), q.length = 6 := by
  intro q hq
  obtain ⟨q0, h0, hq⟩ := List.mem_flatMap.1 hq
  have := arm2Ik_len3 h q0 h0
  simp only [kSols, wristRows_eq, List.map_cons, List.map_nil, List.mem_cons, List.not_mem_nil,
    or_false] at hq
  rcases hq with rfl | rfl <;> simp [this]

theorem kuka_determined [Zeros] (hit : Oracle Shape) (a1 a2 d4 d6 : ℝ) (n : Nat) (base : M4)
    (tool : Option (Tool Shape)) (scene : Collection Shape) :
    Determined (kukaRef hit (setup (Kuka.new a1 a2 d4 d6 n) base tool)).toArm scene (KukaOK n)
      (kukaSols a1 a2 d4 (setup (Kuka.new a1 a2 d4 d6 n) base tool).robot)
      (touches hit (setup (Kuka.new a1 a2 d4 d6 n) base tool).robot scene) 6 := by
  refine ⟨kukaRef_ik hit a1 a2 d4 d6 n base tool, fun T sols hs q hq => ?_, fun q hq => ?_⟩
  · unfold kukaSols at hs
    obtain ⟨qs, h1, rfl⟩ := Option.map_eq_some_iff.1 hs
    exact kSols_len h1 q hq
  · exact robotCollision_returns hit (kuka_regular a1 a2 d4 d6 n base tool) scene hq
      fun v : RState × Mem => WF 3 v.1 ∧ n < v.2.length

/-- The values of the solutions of a Kuka: exact unless the elbow is snapped or the wrist stretched. -/
theorem kukaSols_sound [Zeros] (hit : Oracle Shape) {a1 a2 d4 d6 : ℝ} (ha : a2 * d4 ≠ 0) (n : Nat)
    {base T : M4} (hb : IsRigid base) (tool : Option (Tool Shape))
    (ht : ∀ t, tool = some t → IsRigid t.tfTT) (hT : IsRigid T) {sols : List Config}
    (hs : kukaSols a1 a2 d4 (setup (Kuka.new a1 a2 d4 d6 n) base tool).robot T = some sols)
    {q : Config} (hq : q ∈ sols) : ∃ q1 q2 q3 q4 q5 q6, q = [q1, q2, q3, q4, q5, q6] ∧
      (Real.cos q3 ≠ 0 → Real.sin q5 ≠ 0 →
        FkSatisfies hit (setup (Kuka.new a1 a2 d4 d6 n) base tool).robot q (· = T)) := by
  set k := setup (Kuka.new a1 a2 d4 d6 n) base tool with hk
  unfold kukaSols at hs
  obtain ⟨qs, h1, rfl⟩ := Option.map_eq_some_iff.1 hs
  obtain ⟨q0, h0, hq⟩ := List.mem_flatMap.1 hq
  have htip := tipOf_rigid ht
  obtain ⟨R, p, hR, hTe⟩ := exists_flange hb htip hT
  have htgt : kukaTarget k.robot T = mkTf R (p - R *ᵥ ![0, 0, d6]) :=
    kukaTarget_eq (r := k.robot) hb htip hTe rfl
  rw [htgt] at h1 hq
  obtain ⟨q1, q2, q3, q4, q5, q6, rfl, -, -, hex, hrot⟩ := kuka_solution ha hR h1 h0 hq
  have hC := chain_rigid (kukaRobot a1 a2 d4 d6).links [q1, q2, q3, q4, q5, q6]
  refine ⟨q1, q2, q3, q4, q5, q6, rfl, fun h3 h5 => ?_⟩
  rw [fkSatisfies_iff _ _ (setup_known a1 a2 d4 d6 n base tool) _ (le_refl _)]
  have e : chain (kukaRobot a1 a2 d4 d6).links [q1, q2, q3, q4, q5, q6] = mkTf R p := by
    rw [← mkTf_parts hC.2, hrot h5, hex h3]
  change base * chain (kukaRobot a1 a2 d4 d6).links [q1, q2, q3, q4, q5, q6] * tipOf tool = T
  rw [e, hTe]

/-- **C66** for a Kuka with any base and tool, in any scene, after any history of `ik` and collision
calls: every configuration of a successful grid plan is the rounding of one that touches neither the
scene nor itself, and that reaches a sample of its path point exactly, unless the elbow
is snapped (`cos q3 = 0`) or the wrist is stretched (`sin q5 = 0`), where C39 fails.
The samples of the path point classes are rigid by C47-C50. -/
theorem C66_kuka [Zeros] {C O : Type} [CostArith C] [JointArith ℝ C] (hit : Oracle Shape)
    {a1 a2 d4 d6 : ℝ}
    (ha : a2 * d4 ≠ 0) (n : Nat) {base : M4} (hb : IsRigid base) (tool : Option (Tool Shape))
    (htt : ∀ t, tool = some t → IsRigid t.tfTT) (scene : Collection Shape) (t : PlanningTask Shape)
    (ht : t.scene = some scene) (pq : PQ C Config) (conv : ℝ → ℝ) (draws : Nat → Nat → Draws)
    (time : Nat → ℝ) (fuel : Nat)
    (optimal : List PathPt → Collection Shape → Nat → List (List ℝ) →
      Run (RState × RState × Mem) O)
    {w w' : RState × RState × Mem} (hw : KukaOK n w) {r : SolveRes C O}
    (hr : PlanningTask.solve t (kukaRef hit (setup (Kuka.new a1 a2 d4 d6 n) base tool)).toArm pq conv
      draws time fuel optimal (some "grid") w = (.ok r, w')) :
    ∃ pr : PlanRes ℝ C, r = .plan pr ∧ (pr.success = true → ∃ path, pr.path = some path ∧
      path.length = t.path.length ∧
      ∀ (i : Nat) (q : Config), path[i]? = some q → ∃ tp Ts T q1 q2 q3 q4 q5 q6,
        t.path[i]? = some tp ∧ getSamples (draws 0 i) t.gridSamples none tp = .ok Ts ∧ T ∈ Ts ∧
        q = [q1, q2, q3, q4, q5, q6].map conv ∧
        ¬ SceneTouch hit (setup (Kuka.new a1 a2 d4 d6 n) base tool).robot [q1, q2, q3, q4, q5, q6]
          scene ∧
        ¬ SelfTouch hit (setup (Kuka.new a1 a2 d4 d6 n) base tool).robot [q1, q2, q3, q4, q5, q6] ∧
        (IsRigid T → Real.cos q3 ≠ 0 → Real.sin q5 ≠ 0 →
          FkSatisfies hit (setup (Kuka.new a1 a2 d4 d6 n) base tool).robot [q1, q2, q3, q4, q5, q6]
            (· = T))) := by
  have hdet := kuka_determined hit a1 a2 d4 d6 n base tool scene
  obtain ⟨pr, h1, h2⟩ := C66_reach (Reach := fun q T => ∃ q1 q2 q3 q4 q5 q6,
      q = [q1, q2, q3, q4, q5, q6] ∧ (IsRigid T → Real.cos q3 ≠ 0 → Real.sin q5 ≠ 0 →
        FkSatisfies hit (setup (Kuka.new a1 a2 d4 d6 n) base tool).robot q (· = T))) hdet
    (fun T sols q hs hq _ => by
      by_cases hT : IsRigid T
      · obtain ⟨q1, q2, q3, q4, q5, q6, e, hf⟩ := kukaSols_sound hit ha n hb tool htt hT hs hq
        exact ⟨q1, q2, q3, q4, q5, q6, e, fun _ => hf⟩
      · have := hdet.dof T sols hs q hq
        match q, this with
        | [q1, q2, q3, q4, q5, q6], _ => exact ⟨q1, q2, q3, q4, q5, q6, rfl, fun h => absurd h hT⟩)
    t ht pq conv draws time fuel optimal (method := some "grid") rfl hw hr
  refine ⟨pr, h1, fun hs => ?_⟩
  obtain ⟨path, e1, e2, e3⟩ := h2 hs
  refine ⟨path, e1, e2, fun i q hq => ?_⟩
  obtain ⟨tp, Ts, q', f1, f2, f3, f4, T, f5, q1, q2, q3, q4, q5, q6, rfl, f6⟩ := e3 i q hq
  unfold touches at f4
  classical
  rw [decide_eq_false_iff_not] at f4
  exact ⟨tp, Ts, T, q1, q2, q3, q4, q5, q6, f1, f2, f5, f3, fun htouch => f4 (Or.inl htouch),
    fun hself => f4 (Or.inr ⟨rfl, hself⟩), f6⟩

/-- A new Kuka is in a state as required. -/
example : KukaOK 0 (RState.new 6, RState.new 3, [[[0, 0, 0], [0, 0, 0]]]) :=
  ⟨WF.new 6, WF.new 3, by decide⟩

/-! ### SphericalWrist -/

/-- The state of a SphericalWrist in use. -/
def WristOK (n : Nat) (w : RState × Mem) : Prop := WF 3 w.1 ∧ n < w.2.length

/-- The rows of the solution for `T` that are free of collisions. -/
def keptRows [Zeros] (hit : Config → Bool) (base T : M4) : List Nat :=
  (List.range 2).filter fun i => !hit ((wristRows base T)[i]?.getD [])

theorem wristRows_len [Zeros] (base T : M4) {i : Nat} (hi : i < 2) :
    ((wristRows base T)[i]?.getD []).length = 3 := by
  rw [wristRows_eq]
  rcases i with _ | _ | i
  · rfl
  · rfl
  · omega

theorem wrist_keepFree [Zeros] (hit : Oracle Shape) {r : Robot Shape} (hr : Regular r)
    (hl : r.links.length = 3) (scene : Collection Shape) (n : Nat) {base T : M4} (is : List Nat)
    (hi : ∀ i ∈ is, i < 2) (acc : List Ref) (w : RState × Mem) (hw : WristOK n w)
    (hm : w.2[n]? = some (wristRows base T)) :
    ∃ st', keepFreeRef (wristRef hit r n) scene (is.map fun i => (n, i)) acc w =
      (.ok (acc ++ (is.filter fun i => !touches hit r scene ((wristRows base T)[i]?.getD [])).map
        fun i => (n, i)), st', w.2) ∧ WF 3 st' := by
  induction is generalizing acc w with
  | nil => exact ⟨w.1, by simp [keepFreeRef]; rfl, hw.1⟩
  | cons i is ih =>
    have hread : (wristRef hit r n).read w (n, i) = (wristRows base T)[i]?.getD [] := by
      show readRef w.2 (n, i) = _
      rw [readRef, hm]
      rfl
    obtain ⟨h1, h2⟩ := robotCollision_answer hit r hr.known hr.matrix hr.tool scene
      (q := (wristRows base T)[i]?.getD []) (by rw [wristRows_len _ _ (hi i (by simp)), hl])
      (st := w.1) (by rw [hl]; exact hw.1)
    rw [hl] at h2
    have hcall : (wristRef hit r n).isInCollision ((wristRef hit r n).read w (n, i)) scene w =
        (.ok (touches hit r scene ((wristRows base T)[i]?.getD [])),
          (r.isInCollision hit w.1 ((wristRows base T)[i]?.getD []) scene).2, w.2) := by
      rw [hread]
      exact Prod.ext (liftPy_ok_eq h1) rfl
    have hstep : keepFreeRef (wristRef hit r n) scene ((i :: is).map fun i => (n, i)) acc w =
        (if touches hit r scene ((wristRows base T)[i]?.getD []) = true then
          keepFreeRef (wristRef hit r n) scene (is.map fun i => (n, i)) acc
        else keepFreeRef (wristRef hit r n) scene (is.map fun i => (n, i)) (acc ++ [(n, i)]))
          ((r.isInCollision hit w.1 ((wristRows base T)[i]?.getD []) scene).2, w.2) := by
      rw [List.map_cons, keepFreeRef]
      change Run.bind _ _ w = _
      unfold Run.bind
      simp only [hcall]
    rw [hstep]
    have hi' : ∀ i ∈ is, i < 2 := fun x hx => hi x (List.mem_cons_of_mem _ hx)
    by_cases hb : touches hit r scene ((wristRows base T)[i]?.getD []) = true
    · rw [if_pos hb, List.filter_cons_of_neg (by simp [hb])]
      exact ih hi' acc _ ⟨h2, hw.2⟩ hm
    · rw [if_neg hb, List.filter_cons_of_pos (by simpa using hb)]
      obtain ⟨st', e, hwf⟩ := ih hi' (acc ++ [(n, i)]) (_, w.2) ⟨h2, hw.2⟩ hm
      exact ⟨st', by rw [e]; simp, hwf⟩

theorem wrist_samples [Zeros] (hit : Oracle Shape) {r : Robot Shape} (hr : Regular r)
    (hl : r.links.length = 3) (scene : Collection Shape) (n : Nat) (Ts : List M4) (acc : List Ref)
    (w : RState × Mem) (hw : WristOK n w) :
    ∃ w', samplesLoopRef (wristRef hit r n) scene Ts acc w =
      (.ok (acc ++ (Ts.flatMap (keptRows (touches hit r scene) r.tfBase)).map fun i => (n, i)), w') ∧
      WristOK n w' ∧
      w'.2[n]? = ((Ts.getLast?).map (wristRows r.tfBase)).or w.2[n]? := by
  induction Ts generalizing acc w with
  | nil => exact ⟨w, by simp [samplesLoopRef]; rfl, hw, rfl⟩
  | cons T Ts ih =>
    have hset : (w.2.set n (wristRows r.tfBase T))[n]? = some (wristRows r.tfBase T) := by
      rw [List.getElem?_set_self hw.2]
    have hik : (wristRef hit r n).ik T w = (.ok (some ((List.range 2).map fun i => (n, i))), w.1,
        w.2.set n (wristRows r.tfBase T)) := by
      simp only [wristRef, wristIk, hset, Option.getD_some]
      rfl
    obtain ⟨st', e, hwf⟩ := wrist_keepFree hit hr hl scene n (base := r.tfBase) (T := T)
      (List.range 2) (by simp) acc (w.1, w.2.set n (wristRows r.tfBase T))
      ⟨hw.1, by simpa using hw.2⟩ hset
    have hstep : samplesLoopRef (wristRef hit r n) scene (T :: Ts) acc w =
        samplesLoopRef (wristRef hit r n) scene Ts
          (acc ++ (keptRows (touches hit r scene) r.tfBase T).map fun i => (n, i))
          (st', w.2.set n (wristRows r.tfBase T)) := by
      rw [samplesLoopRef]
      change Run.bind _ _ w = _
      unfold Run.bind
      rw [hik]
      simp only
      change Run.bind _ _ _ = _
      unfold Run.bind
      rw [e]
      rfl
    rw [hstep]
    obtain ⟨w', e', hw', hm'⟩ := ih
      (acc ++ (keptRows (touches hit r scene) r.tfBase T).map fun i => (n, i))
      (st', w.2.set n (wristRows r.tfBase T)) ⟨hwf, by simpa using hw.2⟩
    refine ⟨w', by rw [e']; simp, hw', ?_⟩
    rw [hm', hset]
    cases hlast : Ts.getLast? with
    | none =>
      rw [List.getLast?_eq_none_iff] at hlast
      subst hlast
      rfl
    | some T' => simp [List.getLast?_cons, hlast]

/-- **C76** for a SphericalWrist: the column of a path point holds the solutions of its *last* sample
only, one copy for every solution of any sample that was free of collisions. -/
theorem C76_wrist [Zeros] (hit : Oracle Shape) {r : Robot Shape} (hr : Regular r)
    (hl : r.links.length = 3) (scene : Collection Shape) (n : Nat) (conv : ℝ → ℝ)
    (draws : Nat → Draws) (m : Nat) (tp : PathPt) (Ts : List M4) (T : M4)
    (hs : getSamples (draws 0) m none tp = .ok (Ts ++ [T])) (w : RState × Mem) (hw : WristOK n w) :
    (cartToJointNoRedundancyRef (wristRef hit r n) conv draws [tp] scene m w).1 =
      .ok [colOf conv 3 (((Ts ++ [T]).flatMap (keptRows (touches hit r scene) r.tfBase)).map
        fun i => (wristRows r.tfBase T)[i]?.getD [])] := by
  obtain ⟨w', e, hw', hm⟩ := wrist_samples hit hr hl scene n (Ts ++ [T]) [] w hw
  rw [List.getLast?_append] at hm
  have hm : w'.2[n]? = some (wristRows r.tfBase T) := by rw [hm]; rfl
  unfold cartToJointNoRedundancyRef noRedundancyLoopRef
  change (Run.bind _ _ w).1 = _
  unfold Run.bind
  rw [hs]
  simp only [Run.lift]
  change (Run.bind _ _ w).1 = _
  unfold Run.bind
  rw [e]
  simp only [List.nil_append]
  change (Run.bind (columnRef _ _ _) _ w').1 = _
  unfold Run.bind
  have hread : ((((Ts ++ [T]).flatMap (keptRows (touches hit r scene) r.tfBase)).map
      fun i => (n, i)).map ((wristRef hit r n).read w')) =
      ((Ts ++ [T]).flatMap (keptRows (touches hit r scene) r.tfBase)).map
        fun i => (wristRows r.tfBase T)[i]?.getD [] := by
    rw [List.map_map]
    refine List.map_congr_left fun i _ => ?_
    show readRef w'.2 (n, i) = _
    rw [readRef, hm]
    rfl
  have hcol : columnRef (wristRef hit r n) conv (((Ts ++ [T]).flatMap
      (keptRows (touches hit r scene) r.tfBase)).map fun i => (n, i)) w' =
      (.ok (colOf conv 3 (((Ts ++ [T]).flatMap (keptRows (touches hit r scene) r.tfBase)).map
        fun i => (wristRows r.tfBase T)[i]?.getD [])), w') := by
    unfold columnRef
    rw [hread, column_ok conv (d := 3)]
    intro q hq
    obtain ⟨i, hi, rfl⟩ := List.mem_map.1 hq
    obtain ⟨T', -, hi⟩ := List.mem_flatMap.1 hi
    exact wristRows_len _ _ (by simpa [keptRows] using (List.mem_filter.1 hi).1)
  rw [hcol]
  rfl

/-- The full property: for every robot of the library that hands out references, here the
SphericalWrist, the columns hold exactly the collision-free solutions as they were when `ik` returned
them. -/
def C76_statement [Zeros] : Prop := ∀ (hit : Oracle Shape) (d3 : ℝ) (n : Nat) (conv : ℝ → ℝ)
  (draws : Nat → Draws) (path : List PathPt) (scene : Collection Shape) (m : Nat) (w : RState × Mem),
  WristOK n w →
  cartToJointNoRedundancyRef (wristRef hit (sphericalWrist d3) n) conv draws path scene m w =
    cartToJointNoRedundancy (wristRef hit (sphericalWrist d3) n).toArm conv draws path scene m w

theorem wrist_regular (d3 : ℝ) : Regular (sphericalWrist d3) :=
  ⟨fun l hl => by
    simp only [sphericalWrist, Robot.new, List.mem_cons, List.not_mem_nil, or_false] at hl
    rcases hl with rfl | rfl | rfl <;> simp, rfl, Or.inl rfl⟩

theorem touch_empty (hit : Oracle Shape) (c : Collection Shape) (A : M4) :
    ¬ Touch hit c A ⟨[], []⟩ 1 := by
  rintro ⟨_, _, _, _, _, _, _, _, h, _⟩
  simp at h

theorem wrist_free (hit : Oracle Shape) (d3 : ℝ) (q : Config) :
    touches hit (sphericalWrist d3) ⟨[], []⟩ q = false := by
  unfold touches
  classical
  rw [decide_eq_false_iff_not]
  rintro (h | ⟨-, h⟩)
  · rcases h with ⟨b, hb, -⟩ | ⟨i, li, -, h⟩ | ⟨t, ht, -⟩
    · cases hb
    · exact touch_empty _ _ _ h
    · cases ht
  · rcases h with ⟨i, j, li, lj, hij, hi, hj, -⟩ | ⟨t, i, li, ht, -⟩
    · have h1 := (List.getElem?_eq_some_iff.1 hi).1
      have h2 := (List.getElem?_eq_some_iff.1 hj).1
      change i < 3 at h1
      change j < 3 at h2
      omega
    · cases ht

theorem kept_all [Zeros] (hit : Oracle Shape) (d3 : ℝ) (base T : M4) :
    keptRows (touches hit (sphericalWrist d3) ⟨[], []⟩) base T = [0, 1] := by
  simp [keptRows, wrist_free, List.range_succ]

/-- An Euler point with two samples whose approach axes differ. -/
theorem twoAxes : ∃ (pt : TolEulerPt) (R0 R1 : M3), IsRot R0 ∧ IsRot R1 ∧ R0 1 2 ≠ R1 1 2 ∧
    ∀ dr m dist, getSamples dr m dist (.euler pt) = .ok [mkTf R0 0, mkTf R1 0] := by
  obtain ⟨pt, combos, h1, h2, h3, h4, h5⟩ := C47_samples
    (pos := fun _ => .num 0) (rpy := ![.tol ⟨0, Real.pi / 2, 0, 2⟩, .num 0, .num 0])
    (fun _ => trivial) (by simp [Fin.forall_fin_succ, Sound]; positivity)
  have h3 : combos.length = 2 := by
    rw [h3]
    simp [Fin.prod_univ_three, gridCount]
  have h5 := h5 (fun _ => trivial) (by simp [Fin.forall_fin_succ, Spread]; positivity)
  obtain ⟨⟨x, a⟩, ⟨y, b⟩, rfl⟩ := List.length_eq_two.1 h3
  have hx := (h4 x a).1 (by simp)
  have hy := (h4 y b).1 (by simp)
  have ex : x = 0 := funext fun i => hx.1 i
  have ey : y = 0 := funext fun i => hy.1 i
  subst ex ey
  have a1 : a 1 = 0 := hx.2 1
  have a2 : a 2 = 0 := hx.2 2
  have b1 : b 1 = 0 := hy.2 1
  have b2 : b 2 = 0 := hy.2 2
  have hval : ∀ c : V3, (∀ i, GridValue (c i)
      ((![.tol ⟨0, Real.pi / 2, 0, 2⟩, .num 0, .num 0] : Fin 3 → Entry) i)) →
      c 0 = 0 ∨ c 0 = Real.pi / 2 := by
    intro c hc
    obtain ⟨i, hi, h⟩ := hc 0
    change (i : Int) < 2 at hi
    change c 0 = 0 + (i : ℝ) / (((2 : Int) : ℝ) - 1) * (Real.pi / 2 - 0) at h
    rw [h]
    have : i = 0 ∨ i = 1 := by omega
    rcases this with rfl | rfl <;> norm_num
  refine ⟨pt, Rxyz a, Rxyz b, Rxyz_isRot a, Rxyz_isRot b, ?_, fun dr m dist => ?_⟩
  · have hab : a 0 ≠ b 0 := by
      intro h0
      have : a = b := by
        funext i
        fin_cases i
        · exact h0
        · exact a1.trans b1.symm
        · exact a2.trans b2.symm
      subst this
      simp at h5
    have e : ∀ c : V3, c 1 = 0 → c 2 = 0 → Rxyz c 1 2 = -Real.sin (c 0) := by
      intro c h1 h2
      simp [Rxyz, Util.rotX, Util.rotY, Util.rotZ, Matrix.mul_apply, Fin.sum_univ_succ, h1, h2]
    rw [e a a1 a2, e b b1 b2]
    rcases hval a hx.2 with ha | ha <;> rcases hval b hy.2 with hb | hb <;> rw [ha, hb] at hab ⊢ <;>
      simp at hab ⊢
  · show liftPy pt.getSamples = _
    rw [h2]
    rfl

/-- Seen as a robot that returns values, the wrist is as C59 wants it. -/
theorem wrist_determined [Zeros] (hit : Oracle Shape) (d3 : ℝ) (n : Nat)
    (scene : Collection Shape) :
    Determined (wristRef hit (sphericalWrist d3) n).toArm scene (WristOK n)
      (fun T => some (wristRows 1 T)) (touches hit (sphericalWrist d3) scene) 3 := by
  refine ⟨fun T w hw => ?_, fun T sols hs q hq => ?_, fun q hq => ?_⟩
  · have hset : (w.2.set n (wristRows 1 T))[n]? = some (wristRows 1 T) := by
      rw [List.getElem?_set_self hw.2]
    refine ⟨(w.1, w.2.set n (wristRows 1 T)), ?_, hw.1, by simpa using hw.2⟩
    have hb : (sphericalWrist d3).tfBase = 1 := rfl
    simp only [RefArm.toArm, wristRef, wristIk, hb, hset, Option.getD_some, Except.map]
    refine Prod.ext ?_ rfl
    simp only [Option.map_some, List.map_map]
    congr 2
    have hr : ∀ i, readRef (w.2.set n (wristRows 1 T)) (n, i) = (wristRows 1 T)[i]?.getD [] := by
      intro i
      rw [readRef, hset]
      rfl
    simp only [Function.comp_def, hr]
    rw [wristRows_eq]
    rfl
  · cases hs
    rw [wristRows_eq] at hq
    simp only [List.mem_cons, List.not_mem_nil, or_false] at hq
    rcases hq with rfl | rfl <;> rfl
  · exact robotCollision_returns hit (wrist_regular d3) scene hq fun m : Mem => n < m.length

theorem wristRows_inj [Zeros] {R0 R1 : M3} (h0 : IsRot R0) (h1 : IsRot R1)
    (h : wristRows 1 (mkTf R0 0) = wristRows 1 (mkTf R1 0)) (i : Fin 3) : R0 i 2 = R1 i 2 := by
  have hone : rotPart (1 : M4) = 1 := by rw [← mkTf_one, rotPart_mkTf]
  have e : ∀ R, relRot 1 (mkTf R 0) = R := by
    intro R
    rw [relRot, hone, rotPart_mkTf, Matrix.transpose_one, one_mul]
  obtain ⟨t1, t2, t3, hq⟩ : ∃ t1 t2 t3, [t1, t2, t3] ∈ wristRows 1 (mkTf R0 0) := by
    rw [wristRows_eq]; exact ⟨_, _, _, List.mem_cons_self⟩
  have hq' := hq
  rw [h] at hq'
  have a0 := (wristRows_axis (by rw [e]; exact h0) hq).1 1
  have a1 := (wristRows_axis (by rw [e]; exact h1) hq').1 1
  rw [a0, e, e] at a1
  have := congrFun a1 i
  simpa [Matrix.mulVec, dotProduct, Fin.sum_univ_succ] using this

/-- **C76** is false: two samples with different approach axes, no obstacles. -/
theorem C76_refuted [Zeros] : ¬ C76_statement := by
  intro h
  obtain ⟨pt, R0, R1, hR0, hR1, hne, hs⟩ := twoAxes
  have hw : WristOK 0 ((RState.new 3, [[]]) : RState × Mem) := ⟨WF.new 3, by decide⟩
  obtain ⟨dr, -⟩ : ∃ _ : Nat → Draws, True := ⟨fun _ => ⟨fun n => n, 0, fun _ => (0, 0, 0), none⟩, trivial⟩
  obtain ⟨hit, -⟩ : ∃ _ : Oracle Shape, True := ⟨fun _ _ => false, trivial⟩
  obtain ⟨w, hw⟩ : ∃ w : RState × Mem, WristOK 0 w := ⟨_, hw⟩
  have e1 := C76_wrist hit (wrist_regular 1) rfl ⟨[], []⟩ 0 id dr 2 (.euler pt) [mkTf R0 0]
    (mkTf R1 0) (hs _ _ _) _ hw
  have hb : (sphericalWrist 1).tfBase = 1 := rfl
  rw [h hit 1 0 id dr [.euler pt] ⟨[], []⟩ 2 _ hw] at e1
  simp only [hb] at e1
  have hdet := wrist_determined hit 1 0 ⟨[], []⟩
  obtain ⟨w', e2, -⟩ := noRedundancyLoop_returns hdet id dr 2 [.euler pt] [[mkTf R0 0, mkTf R1 0]] 0
    ⟨rfl, fun i tp Ts h1 h2 => by
      cases i with
      | zero => cases h1; cases h2; exact hs _ _ _
      | succ i => simp at h1⟩ [] _ hw
  unfold cartToJointNoRedundancy at e1
  rw [e2] at e1
  simp only [List.nil_append, List.map_cons, List.map_nil, Except.ok.injEq, List.cons.injEq,
    and_true] at e1
  have hrows := congrArg PyCol.rows e1
  rw [colOf_rows, colOf_rows] at hrows
  have hid : (List.map id : Config → Config) = id := by funext l; simp
  rw [hid, List.map_id, List.map_id] at hrows
  have hf : free (fun T => some (wristRows 1 T)) (touches hit (sphericalWrist 1) ⟨[], []⟩)
      [mkTf R0 0, mkTf R1 0] = wristRows 1 (mkTf R0 0) ++ wristRows 1 (mkTf R1 0) := by
    simp [free, freeAt, wrist_free]
  rw [hf] at hrows
  simp only [List.cons_append, List.nil_append, List.flatMap_cons, List.flatMap_nil, kept_all,
    List.append_nil] at hrows
  have h2 : ∀ T : M4, ([0, 1].map fun i => (wristRows 1 T)[i]?.getD []) = wristRows 1 T := by
    intro T
    rw [wristRows_eq]
    rfl
  rw [show ([0, 1, 0, 1] : List Nat) = [0, 1] ++ [0, 1] from rfl, List.map_append, h2] at hrows
  have hlen : ∀ T : M4, (wristRows 1 T).length = 2 := fun T => by
    simp only [wristRows_eq, List.length_cons, List.length_nil]
  have h3 := (List.append_inj hrows (by rw [hlen, hlen])).1
  exact hne (wristRows_inj hR0 hR1 h3 1)

end

end Verif.Props
