import Verif.Props.OutOfReach

/-! # C152: moving the robot, the scene and the path together changes nothing -/

set_option linter.unusedSectionVars false

namespace Verif.Props

open Matrix Verif Verif.Path Verif.Geometry Verif.Kin Verif.ShortestPath Verif.Task Verif.CppGraph
  Verif.Search Verif.Planning Verif.Spec Verif.Util Verif.Grid Verif.Resources Verif.Examples

noncomputable section

/-! ### The collision check -/

/-- The robot with its base moved by `G`. -/
def movedRobot {S : Type} (G : M4) (r : Robot S) : Robot S := { r with tfBase := G * r.tfBase }

/-- The collection with every shape moved by `G`. -/
def movedScene {S : Type} (G : M4) (c : Collection S) : Collection S := ⟨c.s, c.tfS.map (G * ·)⟩

theorem frameOf_moved {S : Type} (G : M4) (r : Robot S) (q : List ℝ) (k : Nat) :
    frameOf (movedRobot G r) q k = G * frameOf r q k := by
  unfold frameOf movedRobot
  rw [Matrix.mul_assoc]

theorem hit_moved {hit : Oracle Shape} (hi : OracleInvariant hit) {G X Y : M4} (hG : IsRigid G)
    (hX : X 3 = ![0, 0, 0, 1]) (hY : Y 3 = ![0, 0, 0, 1]) (s s' : Shape) :
    hit ⟨s, rotPart (G * X), posPart (G * X)⟩ ⟨s', rotPart (G * Y), posPart (G * Y)⟩ =
      hit ⟨s, rotPart X, posPart X⟩ ⟨s', rotPart Y, posPart Y⟩ := by
  rw [rotPart_mul hG.2 hX, rotPart_mul hG.2 hY, posPart_mul hG.2 hX, posPart_mul hG.2 hY]
  exact hi (rotPart G) (posPart G) ⟨s, rotPart X, posPart X⟩ ⟨s', rotPart Y, posPart Y⟩ hG.1

/-- Two collections moved by `G`. -/
theorem touch_both {hit : Oracle Shape} (hi : OracleInvariant hit) {G A B : M4} (hG : IsRigid G)
    (hA : IsRigid A) (hB : IsRigid B) {c d : Collection Shape} (hc : ∀ t ∈ c.tfS, IsRigid t)
    (hd : ∀ t ∈ d.tfS, IsRigid t) :
    Touch hit c (G * A) d (G * B) ↔ Touch hit c A d B := by
  constructor
  · rintro ⟨i, j, s, s', t, t', e1, e2, e3, e4, h⟩
    refine ⟨i, j, s, s', t, t', e1, e2, e3, e4, ?_⟩
    rw [Matrix.mul_assoc, Matrix.mul_assoc, hit_moved hi hG (hA.mul (hc t (List.mem_of_getElem? e2))).2
      (hB.mul (hd t' (List.mem_of_getElem? e4))).2] at h
    exact h
  · rintro ⟨i, j, s, s', t, t', e1, e2, e3, e4, h⟩
    refine ⟨i, j, s, s', t, t', e1, e2, e3, e4, ?_⟩
    rw [Matrix.mul_assoc, Matrix.mul_assoc, hit_moved hi hG (hA.mul (hc t (List.mem_of_getElem? e2))).2
      (hB.mul (hd t' (List.mem_of_getElem? e4))).2]
    exact h

/-- A collection moved by `G` and a moved scene. -/
theorem touch_movedScene {hit : Oracle Shape} (hi : OracleInvariant hit) {G A : M4} (hG : IsRigid G)
    (hA : IsRigid A) {c d : Collection Shape} (hc : ∀ t ∈ c.tfS, IsRigid t)
    (hd : ∀ t ∈ d.tfS, IsRigid t) :
    Touch hit c (G * A) (movedScene G d) 1 ↔ Touch hit c A d 1 := by
  rw [← touch_both hi hG hA IsRigid.one hc hd, mul_one]
  constructor
  · rintro ⟨i, j, s, s', t, t', e1, e2, e3, e4, h⟩
    simp only [movedScene, List.getElem?_map, Option.map_eq_some_iff] at e4
    obtain ⟨u, e4, rfl⟩ := e4
    rw [one_mul] at h
    exact ⟨i, j, s, s', t, u, e1, e2, e3, e4, h⟩
  · rintro ⟨i, j, s, s', t, t', e1, e2, e3, e4, h⟩
    refine ⟨i, j, s, s', t, G * t', e1, e2, e3, ?_, ?_⟩
    · simp only [movedScene, List.getElem?_map, e4, Option.map_some]
    · rw [one_mul]
      exact h

/-- The shapes of the base of the robot have rigid transforms. -/
def RigidBase (r : Robot Shape) : Prop := ∀ b, r.geometryBase = some b → ∀ t ∈ b.tfS, IsRigid t

/-- **C152**, the collision check: a rigid motion of the base of the robot together with the scene does not
change which configurations collide. -/
theorem C152_touches {hit : Oracle Shape} (hi : OracleInvariant hit) {G : M4} (hG : IsRigid G)
    {r : Robot Shape} (hs : RigidShapes r) (hb : RigidBase r) {scene : Collection Shape}
    (hsc : ∀ t ∈ scene.tfS, IsRigid t) (q : List ℝ) :
    (SceneTouch hit (movedRobot G r) q (movedScene G scene) ↔ SceneTouch hit r q scene) ∧
      (SelfTouch hit (movedRobot G r) q ↔ SelfTouch hit r q) := by
  have hf := fun k => frameOf_rigid hs.base q k
  constructor
  · unfold SceneTouch
    simp only [frameOf_moved]
    refine or_congr ?_ (or_congr ?_ ?_)
    · exact exists_congr fun b => and_congr_right fun e => touch_movedScene hi hG hs.base (hb b e) hsc
    · exact exists_congr fun i => exists_congr fun l => and_congr_right fun e =>
        touch_movedScene hi hG (hf i) (hs.link l (List.mem_of_getElem? e)) hsc
    · exact exists_congr fun t => and_congr_right fun e =>
        touch_movedScene hi hG (hf _) (hs.tool t e) hsc
  · unfold SelfTouch
    simp only [frameOf_moved]
    refine or_congr ?_ ?_
    · exact exists_congr fun i => exists_congr fun j => exists_congr fun l => exists_congr fun l' =>
        and_congr_right fun _ => and_congr_right fun e => and_congr_right fun e' =>
          touch_both hi hG (hf i) (hf j) (hs.link l (List.mem_of_getElem? e))
            (hs.link l' (List.mem_of_getElem? e'))
    · exact exists_congr fun t => exists_congr fun i => exists_congr fun l =>
        and_congr_right fun e => and_congr_right fun _ => and_congr_right fun e' =>
          touch_both hi hG (hf i) (hf _) (hs.link l (List.mem_of_getElem? e')) (hs.tool t e)

theorem touches_moved {hit : Oracle Shape} (hi : OracleInvariant hit) {G : M4} (hG : IsRigid G)
    {r : Robot Shape} (hs : RigidShapes r) (hb : RigidBase r) {scene : Collection Shape}
    (hsc : ∀ t ∈ scene.tfS, IsRigid t) :
    touches hit (movedRobot G r) (movedScene G scene) = touches hit r scene := by
  funext q
  obtain ⟨h1, h2⟩ := C152_touches hi hG hs hb hsc q
  unfold touches
  classical
  rw [decide_eq_decide, h1, h2]
  rfl

/-! ### Kinematics -/

theorem kukaTarget_moved {G : M4} (hG : IsRigid G) {r : Robot Shape} (hb : IsRigid r.tfBase) (T : M4) :
    kukaTarget (movedRobot G r) (G * T) = kukaTarget r T := by
  have e : tfInverse (G * r.tfBase) * (G * T) = tfInverse r.tfBase * T := by
    rw [tfInverse_mul_rev hG hb, Matrix.mul_assoc, ← Matrix.mul_assoc (tfInverse G), tfInverse_mul hG,
      one_mul]
  unfold kukaTarget movedRobot
  simp only [e]
  rfl

theorem railTarget_moved {G : M4} (hG : IsRigid G) {r : Robot Shape} (hb : IsRigid r.tfBase) (T : M4) :
    railTarget (movedRobot G r) (G * T) = railTarget r T := by
  have e : tfInverse (G * r.tfBase) * (G * T) = tfInverse r.tfBase * T := by
    rw [tfInverse_mul_rev hG hb, Matrix.mul_assoc, ← Matrix.mul_assoc (tfInverse G), tfInverse_mul hG,
      one_mul]
  unfold railTarget movedRobot
  simp only [e]

theorem kukaSols_moved [Zeros] (a1 a2 d4 : ℝ) {G : M4} (hG : IsRigid G) {r : Robot Shape}
    (hb : IsRigid r.tfBase) (T : M4) :
    kukaSols a1 a2 d4 (movedRobot G r) (G * T) = kukaSols a1 a2 d4 r T := by
  unfold kukaSols
  rw [kukaTarget_moved hG hb]

theorem fkOf_moved (G : M4) (r : Robot Shape) (q : Config) :
    fkOf (movedRobot G r) q = G * fkOf r q := by
  unfold fkOf movedRobot
  rw [Matrix.mul_assoc, Matrix.mul_assoc, Matrix.mul_assoc]
  rfl

/-! ### Path points -/

/-- The number or the interval moved by `a`. -/
def shiftEntry (a : ℝ) : Entry → Entry
  | .num x => .num (x + a)
  | .tol t => .tol ⟨t.lower + a, t.upper + a, t.nominal + a, t.numSamples⟩

/-- Path point `tp'` was made with the same arguments as `tp`, except that the position (or its interval) is
moved by `v`. -/
inductive ShiftedPt (v : V3) : PathPt → PathPt → Prop
  | free (p : V3) : ShiftedPt v (.free (.new p)) (.free (.new (p + v)))
  | orientation (p : V3) (o : Quat) : ShiftedPt v (.orientation ⟨p, o⟩) (.orientation ⟨p + v, o⟩)
  | axisAngle (p axis : V3) (angle : TolNum) (o : Quat) :
      ShiftedPt v (.axisAngle ⟨p, axis, angle, o⟩) (.axisAngle ⟨p + v, axis, angle, o⟩)
  | euler {x y z : Entry} {rpy : List Entry} {pt pt' : TolEulerPt}
      (h : TolEulerPt.new [x, y, z] rpy = .ok pt)
      (h' : TolEulerPt.new [shiftEntry (v 0) x, shiftEntry (v 1) y, shiftEntry (v 2) z] rpy = .ok pt') :
      ShiftedPt v (.euler pt) (.euler pt')
  | position {x y z : Entry} {o : Quat} {pt pt' : TolPositionPt}
      (h : TolPositionPt.new [x, y, z] o = .ok pt)
      (h' : TolPositionPt.new [shiftEntry (v 0) x, shiftEntry (v 1) y, shiftEntry (v 2) z] o = .ok pt') :
      ShiftedPt v (.position pt) (.position pt')

/-- All samples of `tp'` are those of `tp` moved by `G`. -/
def MovedPt (G : M4) (tp tp' : PathPt) : Prop := ∀ (dr : Draws) (n : Nat) (dist : Option ℝ),
  getSamples dr n dist tp' = (getSamples dr n dist tp).map (List.map (G * ·))

theorem shift_mkTf (v : V3) (R : M3) (p : V3) : mkTf 1 v * mkTf R p = mkTf R (p + v) := by
  rw [mkTf_mul, one_mul, one_mulVec]

theorem setPos_transformation (q : Quat) (p : V3) :
    setPos q.transformationMatrix p = mkTf q.rotationMatrix p := setPos_mkTf _ _ _

theorem mapM_map_ok {α β γ ε : Type} {f : α → α} {g : β → γ} {h : α → Except ε β} {k : α → Except ε γ}
    (l : List α) (hl : ∀ x ∈ l, k (f x) = (h x).map g) :
    (l.map f).mapM k = (l.mapM h).map (List.map g) := by
  induction l with
  | nil => rfl
  | cons x l ih =>
    rw [List.map_cons, List.mapM_cons, List.mapM_cons, hl x (by simp),
      ih fun y hy => hl y (List.mem_cons_of_mem _ hy)]
    cases h x with
    | error e => rfl
    | ok b =>
      cases hm : l.mapM h with
      | error e => simp only [bind, Except.bind, Except.map, hm]
      | ok bs => simp only [bind, Except.bind, Except.map, hm]; rfl

theorem liftPy_map {α β : Type} (f : α → β) (x : Except PyErr α) :
    liftPy (x.map f) = (liftPy x).map f := by
  cases x <;> rfl

theorem axisOf_shift (a : ℝ) (e : Entry) :
    axisOf (shiftEntry a e).isTol (shiftEntry a e) = (axisOf e.isTol e).map (List.map (· + a)) := by
  cases e with
  | num x => rfl
  | tol t =>
    simp only [shiftEntry, Entry.isTol, axisOf, TolNum.discretise, linspace]
    split_ifs with h
    · rfl
    · simp only [Except.map, List.map_map]
      congr 1
      refine List.map_congr_left fun i _ => ?_
      simp only [Function.comp]
      rw [add_sub_add_right_eq_sub]
      ring

/-- The first three numbers moved by `v`. -/
def shiftRow (v : V3) : List ℝ → List ℝ
  | x :: y :: z :: rest => (x + v 0) :: (y + v 1) :: (z + v 2) :: rest
  | l => l

theorem createGrid_shift (v : V3) (a b c : List ℝ) (r : List (List ℝ)) :
    createGrid ([a.map (· + v 0), b.map (· + v 1), c.map (· + v 2)] ++ r) =
      (createGrid ([a, b, c] ++ r)).map (shiftRow v) ∧
    ∀ row ∈ createGrid ([a, b, c] ++ r), ∃ x y z rest, row = x :: y :: z :: rest := by
  rw [createGrid_eq (by simp), createGrid_eq (by simp)]
  have ho : order ([a.map (· + v 0), b.map (· + v 1), c.map (· + v 2)] ++ r) = order ([a, b, c] ++ r) := by
    simp [order]
  have key : ∀ j ∈ order ([a, b, c] ++ r), ∃ x y z rest,
      pick ([a, b, c] ++ r) j = x :: y :: z :: rest ∧
      pick ([a.map (· + v 0), b.map (· + v 1), c.map (· + v 2)] ++ r) j =
        (x + v 0) :: (y + v 1) :: (z + v 2) :: rest := by
    intro j hj
    rw [mem_order] at hj
    simp only [List.cons_append, List.nil_append, List.map_cons] at hj
    obtain ⟨k0, j1, h0, hj1, rfl⟩ := List.forall₂_cons_right_iff.1 hj
    obtain ⟨k1, j2, h1, hj2, rfl⟩ := List.forall₂_cons_right_iff.1 hj1
    obtain ⟨k2, j3, h2, -, rfl⟩ := List.forall₂_cons_right_iff.1 hj2
    refine ⟨a[k0], b[k1], c[k2], pick r j3, ?_, ?_⟩
    · simp [pick, h0, h1, h2]
    · simp [pick, h0, h1, h2]
  constructor
  · rw [ho, List.map_map]
    refine List.map_congr_left fun j hj => ?_
    obtain ⟨x, y, z, rest, e1, e2⟩ := key j hj
    rw [Function.comp, e1, e2, shiftRow]
  · intro row hrow
    obtain ⟨j, hj, rfl⟩ := List.mem_map.1 hrow
    obtain ⟨x, y, z, rest, e1, -⟩ := key j hj
    exact ⟨x, y, z, rest, e1⟩

theorem axesOf_three (x y z : Entry) : axesOf [x.isTol, y.isTol, z.isTol] [x, y, z] =
    (axisOf x.isTol x).bind fun a => (axisOf y.isTol y).bind fun b => (axisOf z.isTol z).bind fun c =>
      .ok [a, b, c] := by
  unfold axesOf
  rw [show List.range 3 = [0, 1, 2] from rfl]
  simp only [List.mapM_cons, List.mapM_nil]
  change (axisOf x.isTol x >>= fun a => (axisOf y.isTol y >>= fun b => (axisOf z.isTol z >>= fun c =>
    (pure [] >>= fun l => pure (c :: l))) >>= fun l => pure (b :: l)) >>= fun l => pure (a :: l)) = _
  cases axisOf x.isTol x with
  | error e => rfl
  | ok a =>
  cases axisOf y.isTol y with
  | error e => rfl
  | ok b =>
  cases axisOf z.isTol z <;> rfl

theorem eulerSample_shift (v : V3) (x y z : ℝ) (rest : List ℝ) :
    eulerSample (shiftRow v (x :: y :: z :: rest)) =
      (eulerSample (x :: y :: z :: rest)).map (mkTf 1 v * ·) := by
  have e : eulerOf (shiftRow v (x :: y :: z :: rest)) = eulerOf (x :: y :: z :: rest) := rfl
  unfold eulerSample
  rw [e]
  cases eulerOf (x :: y :: z :: rest) with
  | error e => rfl
  | ok R =>
    have h : ∀ p : V3, setPos (setRot 1 R) p = mkTf R p := by
      intro p
      ext i j
      fin_cases i <;> fin_cases j <;> simp [setPos, setRot, mkTf]
    show Except.ok (setPos (setRot 1 R) ![x + v 0, y + v 1, z + v 2]) =
      Except.ok (mkTf 1 v * setPos (setRot 1 R) ![x, y, z])
    rw [h, h, shift_mkTf]
    congr 2
    ext i
    fin_cases i <;> rfl

/-- The grid of a list of three entries moved by `v`. -/
theorem grid_shift (v : V3) (x y z : Entry) (f : List (List ℝ) → Except PyErr (List (List ℝ)))
    (k : List ℝ → Except PyErr M4)
    (hf : ∀ a b c : List ℝ, ∃ r : Except PyErr (List (List ℝ)), f [a, b, c] = r.map ([a, b, c] ++ ·) ∧
      f [a.map (· + v 0), b.map (· + v 1), c.map (· + v 2)] =
        r.map ([a.map (· + v 0), b.map (· + v 1), c.map (· + v 2)] ++ ·))
    (hk : ∀ x y z rest, k (shiftRow v (x :: y :: z :: rest)) =
      (k (x :: y :: z :: rest)).map (mkTf 1 v * ·)) :
    ((axesOf [(shiftEntry (v 0) x).isTol, (shiftEntry (v 1) y).isTol, (shiftEntry (v 2) z).isTol]
      [shiftEntry (v 0) x, shiftEntry (v 1) y, shiftEntry (v 2) z]).bind fun r =>
        (f r).bind fun r => (createGrid r).mapM k) =
    ((axesOf [x.isTol, y.isTol, z.isTol] [x, y, z]).bind fun r =>
      (f r).bind fun r => (createGrid r).mapM k).map (List.map (mkTf 1 v * ·)) := by
  rw [axesOf_three, axesOf_three, axisOf_shift, axisOf_shift, axisOf_shift]
  cases axisOf x.isTol x with
  | error e => rfl
  | ok a =>
  cases axisOf y.isTol y with
  | error e => rfl
  | ok b =>
  cases axisOf z.isTol z with
  | error e => rfl
  | ok c =>
  simp only [Except.map, Except.bind]
  obtain ⟨r, h1, h2⟩ := hf a b c
  rw [h1, h2]
  cases r with
  | error e => rfl
  | ok r =>
  simp only [Except.map]
  obtain ⟨h3, h4⟩ := createGrid_shift v a b c r
  rw [h3, mapM_map_ok]
  · rfl
  · intro row hrow
    obtain ⟨x, y, z, rest, rfl⟩ := h4 row hrow
    exact hk x y z rest

theorem positionSample_shift (o : Quat) (v : V3) (x y z : ℝ) (rest : List ℝ) :
    positionSample o (shiftRow v (x :: y :: z :: rest)) =
      (positionSample o (x :: y :: z :: rest)).map (mkTf 1 v * ·) := by
  cases rest with
  | cons _ _ => rfl
  | nil =>
    show Except.ok (setPos o.transformationMatrix ![x + v 0, y + v 1, z + v 2]) =
      Except.ok (mkTf 1 v * setPos o.transformationMatrix ![x, y, z])
    rw [setPos_transformation, setPos_transformation, shift_mkTf]
    congr 2
    ext i
    fin_cases i <;> rfl

theorem checkForTolerance_fst {l : List Entry} {p : List Bool × List ℝ} (h : checkForTolerance l = .ok p) :
    p.1 = l.map Entry.isTol := by
  unfold checkForTolerance at h
  simp only [bind, Except.bind] at h
  split at h
  · cases h
  · cases h
    rfl

theorem eulerNew_fields {pos rpy : List Entry} {pt : TolEulerPt} (h : TolEulerPt.new pos rpy = .ok pt) :
    pt.pos = pos ∧ pt.posHasTol = pos.map Entry.isTol ∧ pt.rpy = rpy ∧
      pt.rpyHasTol = rpy.map Entry.isTol := by
  unfold TolEulerPt.new at h
  cases h1 : checkForTolerance pos with
  | error e => rw [h1] at h; cases h
  | ok p =>
    cases h2 : checkForTolerance rpy with
    | error e => rw [h1, h2] at h; cases h
    | ok r =>
      rw [h1, h2] at h
      cases h
      exact ⟨rfl, checkForTolerance_fst h1, rfl, checkForTolerance_fst h2⟩

theorem positionNew_fields {pos : List Entry} {o : Quat} {pt : TolPositionPt}
    (h : TolPositionPt.new pos o = .ok pt) :
    pt.pos = pos ∧ pt.posHasTol = pos.map Entry.isTol ∧ pt.quat = o := by
  unfold TolPositionPt.new at h
  cases h1 : checkForTolerance pos with
  | error e => rw [h1] at h; cases h
  | ok p =>
    rw [h1] at h
    cases h
    exact ⟨rfl, checkForTolerance_fst h1, rfl⟩

/-- **C152**, the samples: if the position of a path point, of any of the five classes, is moved by `v`, all
its samples are moved by `v`, for the same random numbers. -/
theorem C152_samples {v : V3} {tp tp' : PathPt} (h : ShiftedPt v tp tp') :
    MovedPt (mkTf 1 v) tp tp' := by
  intro dr n dist
  unfold getSamples
  rw [← liftPy_map]
  congr 1
  cases h with
  | free p =>
    simp only [FreeOrientationPt.getSamples, Option.getD_some, FreeOrientationPt.new, SampleSO3.sampleSO3]
    cases SampleSO3.draws dr.root dr.fuel dr.rnd n ((none : Option SampleSO3.Method).getD .random) with
    | error e => rfl
    | ok rs =>
      show Except.ok (List.map _ (List.map _ _)) = Except.ok (List.map _ (List.map _ (List.map _ _)))
      simp only [List.map_map]
      congr 1
      refine List.map_congr_left fun r _ => ?_
      simp only [Function.comp, setPos_transformation, shift_mkTf]
  | orientation p o =>
    simp only [TolOrientationPt.getSamples]
    cases dr.near with
    | none =>
      cases n with
      | zero => rfl
      | succ n =>
        rw [List.range_succ_eq_map, List.mapM_cons]
        rfl
    | some f =>
      have e : ∀ l : List Nat, (l.mapM fun (i : Nat) => (Except.ok
          (f o (dist.getD (1 / 10)) i).transformationMatrix : Except PyErr M4)) =
          .ok (l.map fun i => (f o (dist.getD (1 / 10)) i).transformationMatrix) := by
        intro l
        induction l with
        | nil => rfl
        | cons a l ih =>
          rw [List.mapM_cons, ih]
          rfl
      simp only [e]
      show Except.ok (List.map _ (List.map _ _)) = Except.ok (List.map _ (List.map _ (List.map _ _)))
      simp only [List.map_map]
      congr 1
      refine List.map_congr_left fun r _ => ?_
      simp only [Function.comp, setPos_transformation, shift_mkTf]
  | axisAngle p axis angle o =>
    simp only [AxisAnglePt.getSamples]
    cases angle.discretise with
    | error e => rfl
    | ok l =>
      have := mapM_map_ok (f := id) (g := (mkTf 1 v * ·)) (h := AxisAnglePt.sample ⟨p, axis, angle, o⟩)
        (k := AxisAnglePt.sample ⟨p + v, axis, angle, o⟩) l (by
          intro x _
          simp only [AxisAnglePt.sample, id]
          cases Quat.ofAxisAngle axis x with
          | error e => rfl
          | ok qa =>
            show Except.ok _ = Except.ok _
            simp only [setPos_transformation, shift_mkTf])
      rw [List.map_id] at this
      exact this
  | @euler x y z rpy pt pt' h h' =>
    obtain ⟨e1, e2, e3, e4⟩ := eulerNew_fields h
    obtain ⟨f1, f2, f3, f4⟩ := eulerNew_fields h'
    show pt'.getSamples = pt.getSamples.map _
    unfold TolEulerPt.getSamples
    rw [e1, e2, e3, e4, f1, f2, f3, f4]
    have := grid_shift v x y z (fun r1 => (axesOf (rpy.map Entry.isTol) rpy).map (r1 ++ ·)) eulerSample
      (fun a b c => ⟨_, rfl, rfl⟩) (eulerSample_shift v)
    simp only [List.map_cons, List.map_nil]
    have hb : ∀ r1 : List (List ℝ), (((axesOf (rpy.map Entry.isTol) rpy).map (r1 ++ ·)).bind
        fun r => (createGrid r).mapM eulerSample) = (axesOf (rpy.map Entry.isTol) rpy).bind
        fun r2 => (createGrid (r1 ++ r2)).mapM eulerSample := by
      intro r1
      cases axesOf (rpy.map Entry.isTol) rpy <;> rfl
    simp only [hb] at this
    exact this
  | @position x y z o pt pt' h h' =>
    obtain ⟨e1, e2, e3⟩ := positionNew_fields h
    obtain ⟨f1, f2, f3⟩ := positionNew_fields h'
    show pt'.getSamples = pt.getSamples.map _
    unfold TolPositionPt.getSamples
    rw [e1, e2, e3, f1, f2, f3]
    have := grid_shift v x y z (fun r1 => .ok r1) (positionSample o)
      (fun a b c => ⟨.ok [], by simp [Except.map], by simp [Except.map]⟩) (positionSample_shift o v)
    simp only [List.map_cons, List.map_nil]
    exact this

/-! ### The planners -/

variable {W W' S S' α α' β β' : Type} {Inv : W → Prop} {Inv' : W' → Prop}

/-- From all states with `Inv` and `Inv'`, the two calls raise the same exception, or both give values, which
are related by `R`, and the states keep `Inv` and `Inv'`. -/
def Related (Inv : W → Prop) (Inv' : W' → Prop) (R : α → α' → Prop) (x : Run W α) (y : Run W' α') : Prop :=
  ∀ w w', Inv w → Inv' w' → (∃ e, (x w).1 = .error e ∧ (y w').1 = .error e) ∨
    ∃ a a', (x w).1 = .ok a ∧ (y w').1 = .ok a' ∧ R a a' ∧ Inv (x w).2 ∧ Inv' (y w').2

theorem Related.pure {R : α → α' → Prop} {a : α} {a' : α'} (h : R a a') :
    Related Inv Inv' R (Pure.pure a : Run W α) (Pure.pure a' : Run W' α') :=
  fun _ _ hw hw' => .inr ⟨a, a', rfl, rfl, h, hw, hw'⟩

theorem Related.raise {R : α → α' → Prop} (e : PyErr) :
    Related Inv Inv' R (Planning.raise e : Run W α) (Planning.raise e : Run W' α') :=
  fun _ _ _ _ => .inl ⟨_, rfl, rfl⟩

/-- Values computed without the robot. -/
theorem Related.lift_map {R : α → α' → Prop} {f : α → α'} {x : Except Err α} {y : Except Err α'}
    (hy : y = x.map f) (h : ∀ a, x = .ok a → R a (f a)) :
    Related Inv Inv' R (Run.lift x : Run W α) (Run.lift y : Run W' α') := by
  subst hy
  intro w w' hw hw'
  cases x with
  | error e => exact .inl ⟨e, rfl, rfl⟩
  | ok a => exact .inr ⟨a, f a, rfl, rfl, h a rfl, hw, hw'⟩

/-- The same value on both sides. -/
theorem Related.lift {x : Except Err α} :
    Related Inv Inv' Eq (Run.lift x : Run W α) (Run.lift x : Run W' α) :=
  Related.lift_map (f := id) (by cases x <;> rfl) fun _ _ => rfl

theorem Related.bind {R : α → α' → Prop} {T : β → β' → Prop} {x : Run W α} {y : Run W' α'}
    {f : α → Run W β} {g : α' → Run W' β'} (hx : Related Inv Inv' R x y)
    (hf : ∀ a a', R a a' → Related Inv Inv' T (f a) (g a')) :
    Related Inv Inv' T (x >>= f) (y >>= g) := by
  intro w w' hw hw'
  show (∃ e, (Run.bind x f w).1 = .error e ∧ (Run.bind y g w').1 = .error e) ∨
    ∃ a a', (Run.bind x f w).1 = .ok a ∧ (Run.bind y g w').1 = .ok a' ∧ T a a' ∧
      Inv (Run.bind x f w).2 ∧ Inv' (Run.bind y g w').2
  have h := hx w w' hw hw'
  unfold Run.bind
  cases hc : x w with
  | mk o w1 =>
    cases hd : y w' with
    | mk o' w1' =>
      rw [hc, hd] at h
      rcases h with ⟨e, h1, h2⟩ | ⟨a, a', h1, h2, h3, h4, h5⟩
      · cases h1
        cases h2
        exact .inl ⟨e, rfl, rfl⟩
      · cases h1
        cases h2
        exact hf a a' h3 w1 w1' h4 h5

theorem Related.of_returns {R : α → α' → Prop} {x : Run W α} {y : Run W' α'} {a : α} {a' : α'}
    (hx : Returns Inv x a) (hy : Returns Inv' y a') (h : R a a') : Related Inv Inv' R x y := by
  intro w w' hw hw'
  obtain ⟨w1, h1, h2⟩ := hx w hw
  obtain ⟨w2, h3, h4⟩ := hy w' hw'
  rw [h1, h3]
  exact .inr ⟨a, a', rfl, rfl, h, h2, h4⟩

theorem Related.same {x : Run W α} {y : Run W' α} (h : Related Inv Inv' Eq x y) {w : W} {w' : W'}
    (hw : Inv w) (hw' : Inv' w') : (x w).1 = (y w').1 := by
  rcases h w w' hw hw' with ⟨e, h1, h2⟩ | ⟨a, a', h1, h2, rfl, -, -⟩
  · rw [h1, h2]
  · rw [h1, h2]

variable {arm : Arm W S} {arm' : Arm W' S'} {scene : Collection S} {scene' : Collection S'}
  {ikf ikf' : M4 → Option (List Config)} {hit : Config → Bool} {d : Nat} {fkf fkf' : Config → M4}
variable {C O : Type} [CostArith C] [JointArith ℝ C] {G : M4}

theorem freeAt_moved (hik : ∀ T, ikf' (G * T) = ikf T) (T : M4) :
    freeAt ikf' hit (G * T) = freeAt ikf hit T := by
  unfold freeAt
  rw [hik]

theorem free_moved (hik : ∀ T, ikf' (G * T) = ikf T) (Ts : List M4) :
    free ikf' hit (Ts.map (G * ·)) = free ikf hit Ts := by
  unfold free
  rw [List.flatMap_map]
  simp only [freeAt_moved hik]

theorem noRedundancyLoop_moved (h : Determined arm scene Inv ikf hit d)
    (h' : Determined arm' scene' Inv' ikf' hit d) (hik : ∀ T, ikf' (G * T) = ikf T) (conv : ℝ → ℝ)
    (draws : Nat → Draws) (n : Nat) (i : Nat) {path path' : List PathPt}
    (hp : List.Forall₂ (MovedPt G) path path') (Q : List (PyCol ℝ)) :
    Related Inv Inv' Eq (noRedundancyLoop arm scene conv draws n i path Q)
      (noRedundancyLoop arm' scene' conv draws n i path' Q) := by
  induction hp generalizing i Q with
  | nil => exact Related.pure rfl
  | cons hm _ ih =>
    unfold noRedundancyLoop
    refine Related.bind (Related.lift_map (R := fun Ts Ts' => Ts' = Ts.map (G * ·)) (hm _ _ _)
      fun _ _ => rfl) fun Ts Ts' hT => ?_
    subst hT
    refine Related.bind (R := Eq) (Related.of_returns (samplesLoop_returns h Ts [])
      (samplesLoop_returns h' _ []) (by rw [free_moved hik])) fun qs qs' hq => ?_
    subst hq
    refine Related.bind Related.lift fun c c' hc => ?_
    subst hc
    exact ih _ _

theorem pyGet_map (f : M4 → M4) (l : List M4) (i : Nat) :
    (liftPy (pyGet (l.map f) i) : Except Err M4) = (liftPy (pyGet l i)).map f := by
  unfold pyGet
  rw [List.getElem?_map]
  cases l[i]? <;> rfl

theorem incrementalLoop_moved (h : Determined arm scene Inv ikf hit d)
    (h' : Determined arm' scene' Inv' ikf' hit d) (hik : ∀ T, ikf' (G * T) = ikf T)
    (draws : Nat → Draws) {tp tp' : PathPt} (hm : MovedPt G tp tp')
    (minSamples maxTries : Int) (fuel k : Nat) (cnt : Int) (qSol : List Config) :
    Related Inv Inv' Eq
      (incrementalLoop arm scene draws tp minSamples maxTries fuel k cnt qSol)
      (incrementalLoop arm' scene' draws tp' minSamples maxTries fuel k cnt qSol) := by
  induction fuel generalizing k cnt qSol with
  | zero =>
    unfold incrementalLoop
    by_cases hc : cnt < maxTries
    · rw [if_pos hc, if_pos hc]
      exact Related.raise _
    · rw [if_neg hc, if_neg hc]
      exact Related.pure rfl
  | succ fuel ih =>
    unfold incrementalLoop
    by_cases hc : cnt < maxTries
    · rw [if_pos hc, if_pos hc]
      refine Related.bind (Related.lift_map (R := fun Ts Ts' => Ts' = Ts.map (G * ·)) (hm _ _ _)
        fun _ _ => rfl) fun Ts Ts' hT => ?_
      subst hT
      refine Related.bind (Related.lift_map (R := fun T T' => T' = G * T) (pyGet_map _ _ _)
        fun _ _ => rfl) fun T T' hT => ?_
      subst hT
      refine Related.bind (R := Eq) (Related.of_returns (round_returns h T) (round_returns h' _)
        (by rw [freeAt_moved hik])) fun new new' hn => ?_
      subst hn
      by_cases hm : cnt + new.length ≥ minSamples
      · simp only [if_pos hm]
        exact Related.pure rfl
      · simp only [if_neg hm]
        exact ih _ _ _
    · rw [if_neg hc, if_neg hc]
      exact Related.pure rfl

theorem incrementalPath_moved (h : Determined arm scene Inv ikf hit d)
    (h' : Determined arm' scene' Inv' ikf' hit d) (hik : ∀ T, ikf' (G * T) = ikf T) (conv : ℝ → ℝ)
    (draws : Nat → Nat → Draws) (minSamples maxTries : Int) (fuel i : Nat) {path path' : List PathPt}
    (hp : List.Forall₂ (MovedPt G) path path') (Q : List (PyCol ℝ)) :
    Related Inv Inv' Eq
      (incrementalPath arm scene conv draws minSamples maxTries fuel i path Q)
      (incrementalPath arm' scene' conv draws minSamples maxTries fuel i path' Q) := by
  induction hp generalizing i Q with
  | nil => exact Related.pure rfl
  | cons hm _ ih =>
    unfold incrementalPath
    refine Related.bind (incrementalLoop_moved h h' hik _ hm _ _ _ _ _ _) fun qs qs' hq => ?_
    subst hq
    refine Related.bind Related.lift fun c c' hc => ?_
    subst hc
    exact ih _ _

/-- The point of the iterative planner, moved by `v`. -/
structure MovedSol (v : V3) (sp sp' : SolPt) : Prop where
  ty : sp.tolType = .tolOri
  ty' : sp'.tolType = .tolOri
  dist : sp'.quatDistTol = sp.quatDistTol
  pt : MovedPt (mkTf 1 v) sp.tpCurrent sp'.tpCurrent

variable {v : V3}

theorem iterColumns_moved (h : Determined arm scene Inv ikf hit d)
    (h' : Determined arm' scene' Inv' ikf' hit d) (hik : ∀ T, ikf' (mkTf 1 v * T) = ikf T)
    (conv : ℝ → ℝ) (draws : Nat → Draws) (n i : Nat) {pts pts' : List SolPt}
    (hp : List.Forall₂ (MovedSol v) pts pts') :
    Related Inv Inv' (fun Q Q' => Q = Q' ∧ Columns d Q) (iterColumns arm conv scene draws n i pts)
      (iterColumns arm' conv scene' draws n i pts') := by
  induction hp generalizing i with
  | nil => exact Related.pure ⟨rfl, fun c hc => absurd hc (by simp)⟩
  | cons hm _ ih =>
    unfold iterColumns
    rw [hm.dist]
    refine Related.bind (Related.lift_map (R := fun Ts Ts' => Ts' = Ts.map (mkTf 1 v * ·)) (hm.pt _ _ _)
      fun _ _ => rfl) fun Ts Ts' hT => ?_
    subst hT
    refine Related.bind (R := fun c c' => c = c' ∧ Columns d [c])
      (Related.of_returns (calcJointSolutions_returns h conv Ts)
      (calcJointSolutions_returns h' conv _) ⟨by rw [free_moved hik], ?_⟩) fun c c' hc => ?_
    · intro c hc
      obtain rfl := List.mem_singleton.1 hc
      refine ⟨_, _, rfl, fun x hx => ?_⟩
      obtain ⟨q, hq, rfl⟩ := List.mem_map.1 hx
      rw [List.length_map]
      exact free_dof h q hq
    obtain ⟨rfl, hc⟩ := hc
    refine Related.bind (ih (i + 1)) fun cs cs' hcs => Related.pure ⟨by rw [hcs.1], fun c' hc' => ?_⟩
    rcases List.mem_cons.1 hc' with rfl | hc'
    · exact hc _ (by simp)
    · exact hcs.2 c' hc'

theorem resampleAll_moved (hfk : ∀ q, q.length = d → Returns Inv (arm.fk q) (fkf q))
    (hfk' : ∀ q, q.length = d → Returns Inv' (arm'.fk q) (mkTf 1 v * fkf q))
    (hrig : ∀ q, IsRigid (fkf q)) (path : List Config)
    (hl : ∀ q ∈ path, q.length = d) {pts pts' : List SolPt} (hp : List.Forall₂ (MovedSol v) pts pts') :
    Related Inv Inv' (List.Forall₂ (MovedSol v)) (resampleAll arm path pts)
      (resampleAll arm' path pts') := by
  induction path generalizing pts pts' with
  | nil =>
    unfold resampleAll
    exact Related.pure hp
  | cons q qs ih =>
    cases hp with
    | nil =>
      unfold resampleAll
      exact Related.pure .nil
    | @cons sp sp' sps sps' hm hp =>
      unfold resampleAll
      refine Related.bind (R := MovedSol v) ?_ fun sp1 sp2 h12 => ?_
      · unfold SolPt.resample
        refine Related.bind (R := fun T T' => T' = mkTf 1 v * T ∧ IsRigid T)
          (Related.of_returns (hfk q (hl q (by simp))) (hfk' q (hl q (by simp))) ⟨rfl, hrig q⟩)
          fun T T' hT => ?_
        obtain ⟨rfl, hT⟩ := hT
        have e1 : rotPart (mkTf 1 v * T) = rotPart T := by
          rw [← mkTf_parts hT.2, shift_mkTf]
          simp
        have e2 : posPart (mkTf 1 v * T) = posPart T + v := by
          rw [← mkTf_parts hT.2, shift_mkTf]
          simp
        rw [e1, e2]
        refine Related.bind Related.lift fun o o' ho => ?_
        subst ho
        have k1 : newPoint { sp with qBest := some q } (posPart T) o 2 = .ok { sp with
            qBest := some q, tpCurrent := .orientation ⟨posPart T, o⟩
            quatDistTol := sp.quatDistTol / 2 } := by
          unfold newPoint
          simp only [hm.ty]
          rw [if_neg (by norm_num)]
        have k2 : newPoint { sp' with qBest := some q } (posPart T + v) o 2 = .ok { sp' with
            qBest := some q, tpCurrent := .orientation ⟨posPart T + v, o⟩
            quatDistTol := sp'.quatDistTol / 2 } := by
          unfold newPoint
          simp only [hm.ty']
          rw [if_neg (by norm_num)]
        rw [k1, k2]
        exact Related.pure (Inv := Inv) (Inv' := Inv') (R := MovedSol v)
          ⟨hm.ty, hm.ty', by simp only [hm.dist], C152_samples (.orientation _ _)⟩
      · exact Related.bind (ih (fun q hq => hl q (List.mem_cons_of_mem _ hq)) hp)
          fun _ _ h => Related.pure (.cons h12 h)

/-- The state of the iterative planner, with moved points. -/
structure MovedSt (v : V3) (st st' : IterSt C) : Prop where
  pts : List.Forall₂ (MovedSol v) st.pts st'.pts
  costs : st'.costs = st.costs
  paths : st'.paths = st.paths
  times : st'.times = st.times
  sol : st'.sol = st.sol

/-- Both rounds ended early, or both went on. -/
def MovedOpt (v : V3) (o o' : Option (IterSt C)) : Prop :=
  (o = none ∧ o' = none) ∨ ∃ st st', o = some st ∧ o' = some st' ∧ MovedSt v st st'

theorem iterRound_moved (h : Determined arm scene Inv ikf hit d)
    (h' : Determined arm' scene' Inv' ikf' hit d) (hik : ∀ T, ikf' (mkTf 1 v * T) = ikf T)
    (hfk : ∀ q, q.length = d → Returns Inv (arm.fk q) (fkf q))
    (hfk' : ∀ q, q.length = d → Returns Inv' (arm'.fk q) (mkTf 1 v * fkf q))
    (hrig : ∀ q, IsRigid (fkf q)) (pq : PQ C Config) (conv : ℝ → ℝ)
    (draws : Nat → Draws) (n : Nat) (time : ℝ) {st st' : IterSt C} (hst : MovedSt v st st') :
    Related Inv Inv' (MovedOpt v) (iterRound arm pq conv scene draws n time st)
      (iterRound arm' pq conv scene' draws n time st') := by
  unfold iterRound
  refine Related.bind (iterColumns_moved h h' hik conv draws n 0 hst.pts) fun Q Q' hQ => ?_
  obtain ⟨rfl, hQ⟩ := hQ
  by_cases hne : ∀ c ∈ Q, c.rows.length ≠ 0
  swap
  · rw [if_neg hne, if_neg hne]
    exact Related.pure (.inl ⟨rfl, rfl⟩)
  rw [if_pos hne, if_pos hne]
  refine Related.bind (Related.lift_map (f := id) (R := fun sol sol' => sol = sol' ∧
    getShortestPath pq conv Q .dijkstra none = .ok sol)
    (by cases getShortestPath pq conv Q .dijkstra none <;> rfl) fun a ha => ⟨rfl, ha⟩)
    fun sol sol' hsol => ?_
  obtain ⟨rfl, hsol⟩ := hsol
  by_cases hs : sol.success = true
  swap
  · rw [if_neg hs, if_neg hs]
    exact Related.pure (.inl ⟨rfl, rfl⟩)
  rw [if_pos hs, if_pos hs]
  obtain ⟨p, c, rfl, hsel⟩ := getShortestPath_selection (fun c hc => by
    obtain ⟨m, rows, rfl, -⟩ := hQ c hc
    trivial) hsol hs
  obtain ⟨-, hpsel⟩ := selection_get hsel
  refine Related.bind (resampleAll_moved hfk hfk' hrig p (fun q hq => ?_) hst.pts) fun pts pts' hpts =>
    Related.pure (.inr ⟨_, _, rfl, rfl, hpts, by simp only [hst.costs], by simp only [hst.paths],
      by simp only [hst.times], rfl⟩)
  obtain ⟨i, hi⟩ := List.mem_iff_getElem?.1 hq
  obtain ⟨col, hc, hm⟩ := hpsel i q hi
  rw [List.getElem?_map, Option.map_eq_some_iff] at hc
  obtain ⟨c', hc', rfl⟩ := hc
  obtain ⟨m, rows, rfl, hl⟩ := hQ c' (List.mem_of_getElem? hc')
  exact hl q hm

theorem iterLoop_moved (h : Determined arm scene Inv ikf hit d)
    (h' : Determined arm' scene' Inv' ikf' hit d) (hik : ∀ T, ikf' (mkTf 1 v * T) = ikf T)
    (hfk : ∀ q, q.length = d → Returns Inv (arm.fk q) (fkf q))
    (hfk' : ∀ q, q.length = d → Returns Inv' (arm'.fk q) (mkTf 1 v * fkf q))
    (hrig : ∀ q, IsRigid (fkf q)) (pq : PQ C Config) (conv : ℝ → ℝ)
    (draws : Nat → Nat → Draws) (n : Nat) (time : Nat → ℝ) (m k : Nat) {st st' : IterSt C}
    (hst : MovedSt v st st') :
    Related Inv Inv' (MovedOpt v) (iterLoop arm pq conv scene draws n time m k st)
      (iterLoop arm' pq conv scene' draws n time m k st') := by
  induction m generalizing k st st' with
  | zero => exact Related.pure (.inr ⟨_, _, rfl, rfl, hst⟩)
  | succ m ih =>
    unfold iterLoop
    refine Related.bind (iterRound_moved h h' hik hfk hfk' hrig pq conv _ n _ hst) fun o o' ho => ?_
    rcases ho with ⟨rfl, rfl⟩ | ⟨st1, st2, rfl, rfl, h12⟩
    · exact Related.pure (.inl ⟨rfl, rfl⟩)
    · exact ih _ h12

/-- The iterative planner accepts the same paths, and starts with moved points. -/
theorem solPts_moved {path path' : List PathPt} (hp : List.Forall₂ (ShiftedPt v) path path') :
    (∃ e, path.mapM SolPt.new = .error e ∧ path'.mapM SolPt.new = .error e) ∨
    ∃ pts pts', path.mapM SolPt.new = .ok pts ∧ path'.mapM SolPt.new = .ok pts' ∧
      List.Forall₂ (MovedSol v) pts pts' := by
  induction hp with
  | nil => exact .inr ⟨[], [], rfl, rfl, .nil⟩
  | @cons tp tp' path path' hm _ ih =>
    rw [List.mapM_cons, List.mapM_cons]
    have hm' := C152_samples hm
    cases hm with
    | free p =>
      rcases ih with ⟨e, h1, h2⟩ | ⟨pts, pts', h1, h2, h3⟩
      · rw [h1, h2]
        exact .inl ⟨e, rfl, rfl⟩
      · rw [h1, h2]
        exact .inr ⟨_, _, rfl, rfl, .cons ⟨rfl, rfl, rfl, hm'⟩ h3⟩
    | orientation => exact .inl ⟨_, rfl, rfl⟩
    | axisAngle => exact .inl ⟨_, rfl, rfl⟩
    | euler => exact .inl ⟨_, rfl, rfl⟩
    | position => exact .inl ⟨_, rfl, rfl⟩

theorem iterative_moved (h : Determined arm scene Inv ikf hit d)
    (h' : Determined arm' scene' Inv' ikf' hit d) (hik : ∀ T, ikf' (mkTf 1 v * T) = ikf T)
    (hfk : ∀ q, q.length = d → Returns Inv (arm.fk q) (fkf q))
    (hfk' : ∀ q, q.length = d → Returns Inv' (arm'.fk q) (mkTf 1 v * fkf q))
    (hrig : ∀ q, IsRigid (fkf q)) (pq : PQ C Config) (conv : ℝ → ℝ)
    (draws : Nat → Nat → Draws) (time : Nat → ℝ) {path path' : List PathPt}
    (hp : List.Forall₂ (ShiftedPt v) path path') (n maxIters : Nat) :
    Related Inv Inv' Eq (cartToJointIterative arm pq conv draws time path scene n maxIters)
      (cartToJointIterative arm' pq conv draws time path' scene' n maxIters) := by
  unfold cartToJointIterative
  refine Related.bind (R := List.Forall₂ (MovedSol v)) ?_ fun pts pts' hpts => ?_
  · intro w w' hw hw'
    rcases solPts_moved hp with ⟨e, h1, h2⟩ | ⟨pts, pts', h1, h2, h3⟩
    · rw [h1, h2]
      exact .inl ⟨_, rfl, rfl⟩
    · rw [h1, h2]
      exact .inr ⟨_, _, rfl, rfl, h3, hw, hw'⟩
  refine Related.bind (iterLoop_moved h h' hik hfk hfk' hrig pq conv draws n time _ _
    ⟨hpts, rfl, rfl, rfl, rfl⟩) fun o o' ho => ?_
  rcases ho with ⟨rfl, rfl⟩ | ⟨st, st', rfl, rfl, h12⟩
  · exact Related.pure rfl
  · simp only [h12.sol, h12.costs, h12.paths, h12.times]
    cases hs : st.sol with
    | none => exact Related.raise _
    | some sol => exact Related.pure rfl

/-- **C152**, planning: a robot whose answers are moved by `v`, in a moved scene, with a moved path: the
outcome of `PlanningTask.solve` is the same. -/
theorem C152_solve (h : Determined arm scene Inv ikf hit d)
    (h' : Determined arm' scene' Inv' ikf' hit d) (hik : ∀ T, ikf' (mkTf 1 v * T) = ikf T)
    (hfk : ∀ q, q.length = d → Returns Inv (arm.fk q) (fkf q))
    (hfk' : ∀ q, q.length = d → Returns Inv' (arm'.fk q) (mkTf 1 v * fkf q))
    (hrig : ∀ q, IsRigid (fkf q)) (t : PlanningTask S)
    (t' : PlanningTask S') (ht : t.scene = some scene) (ht' : t'.scene = some scene')
    (hpath : List.Forall₂ (ShiftedPt v) t.path t'.path) (hgrid : t'.gridSamples = t.gridSamples)
    (hiters : t'.gridBasedIters = t.gridBasedIters) (pq : PQ C Config)
    (conv : ℝ → ℝ) (draws : Nat → Nat → Draws) (time : Nat → ℝ) (fuel : Nat)
    (optimal : List PathPt → Collection S → Nat → List (List ℝ) → Run W O)
    (optimal' : List PathPt → Collection S' → Nat → List (List ℝ) → Run W' O) {method : String}
    (hm : method ≠ "optimization") :
    Related Inv Inv' Eq
      (PlanningTask.solve t arm pq conv draws time fuel optimal (some method))
      (PlanningTask.solve t' arm' pq conv draws time fuel optimal' (some method)) := by
  have e : sceneOf t = .ok scene := by rw [sceneOf, ht]
  have e' : sceneOf t' = .ok scene' := by rw [sceneOf, ht']
  have hsc : ∀ {β : Type} {f : Collection S → Run W β} {g : Collection S' → Run W' β},
      Related Inv Inv' Eq (f scene) (g scene') →
      Related Inv Inv' Eq (Run.lift (sceneOf t) >>= f) (Run.lift (sceneOf t') >>= g) := by
    intro β f g hfg
    rw [e, e']
    exact hfg
  have hmv : List.Forall₂ (MovedPt (mkTf 1 v)) t.path t'.path := hpath.imp fun _ _ => C152_samples
  have hend : ∀ {x : Run W (List (PyCol ℝ))} {y : Run W' (List (PyCol ℝ))}, Related Inv Inv' Eq x y →
      Related Inv Inv' Eq
        (x >>= fun Q => Run.lift (getShortestPath pq conv Q .dijkstra none) >>= fun r =>
          (pure (.plan r) : Run W (SolveRes C O)))
        (y >>= fun Q => Run.lift (getShortestPath pq conv Q .dijkstra none) >>= fun r =>
          (pure (.plan r) : Run W' (SolveRes C O))) := by
    intro x y hxy
    refine Related.bind hxy fun Q Q' hQ => ?_
    subst hQ
    exact Related.bind Related.lift fun _ _ hr => Related.pure (by rw [hr])
  unfold PlanningTask.solve
  simp only [Option.getD_some]
  by_cases h1 : method = "grid"
  · rw [if_pos h1, if_pos h1]
    refine hsc (hend ?_)
    rw [hgrid]
    exact noRedundancyLoop_moved h h' hik conv _ _ _ hmv _
  rw [if_neg h1, if_neg h1]
  by_cases h2 : method = "grid_iterative"
  · rw [if_pos h2, if_pos h2]
    refine hsc (Related.bind (R := Eq) ?_ fun _ _ hr => Related.pure (by rw [hr]))
    rw [hgrid, hiters]
    exact iterative_moved h h' hik hfk hfk' hrig pq conv draws time hpath _ _
  rw [if_neg h2, if_neg h2, if_neg hm, if_neg hm]
  by_cases h3 : method = "grid_incremental"
  · rw [if_pos h3, if_pos h3]
    exact hsc (hend (incrementalPath_moved h h' hik conv _ _ _ _ _ hmv _))
  · rw [if_neg h3, if_neg h3]
    exact Related.raise _

/-- **C152**: take a Kuka on its base, a scene and a path of points of any class.  Move the base, every shape
of the scene and every path point by the same vector.  Then every planner of `PlanningTask.solve` that
searches a grid has the same outcome as before, whatever the robots did earlier: the same path and cost, or
the same exception.  (The collision test between two shapes depends only on their relative pose; the random
numbers are the same on both sides.) -/
theorem C152 [Zeros] {hitf : Oracle Shape} (hi : OracleInvariant hitf) {a1 a2 d4 d6 : ℝ} (n : Nat)
    {base : M4} {tool : Option (Tool Shape)} {scene : Collection Shape} (hb : IsRigid base)
    (htool : ∀ t, tool = some t → IsRigid t.tfTT ∧ ∀ tf ∈ t.toCollection.tfS, IsRigid tf)
    (hsc : ∀ tf ∈ scene.tfS, IsRigid tf) (t t' : PlanningTask Shape)
    (ht : t.scene = some scene) (ht' : t'.scene = some (movedScene (mkTf 1 v) scene))
    (hpath : List.Forall₂ (ShiftedPt v) t.path t'.path) (hgrid : t'.gridSamples = t.gridSamples)
    (hiters : t'.gridBasedIters = t.gridBasedIters) (pq : PQ C Config) (conv : ℝ → ℝ)
    (draws : Nat → Nat → Draws) (time : Nat → ℝ) (fuel : Nat)
    (optimal optimal' : List PathPt → Collection Shape → Nat → List (List ℝ) →
      Run (RState × RState × Mem) O) {method : String} (hm : method ≠ "optimization")
    {w w' : RState × RState × Mem} (hw : KukaOK n w) (hw' : KukaOK n w') :
    let arm := (kukaRef hitf (setup (Kuka.new a1 a2 d4 d6 n) base tool)).toArm
    let arm' := (kukaRef hitf (setup (Kuka.new a1 a2 d4 d6 n) (mkTf 1 v * base) tool)).toArm
    (PlanningTask.solve t arm pq conv draws time fuel optimal (some method) w).1 =
      (PlanningTask.solve t' arm' pq conv draws time fuel optimal' (some method) w').1 := by
  intro arm arm'
  have hG : IsRigid (mkTf 1 v) := isRigid_mkTf.2 IsRot.one
  let r := (setup (Kuka.new a1 a2 d4 d6 n) base tool).robot
  have er : (setup (Kuka.new a1 a2 d4 d6 n) (mkTf 1 v * base) tool).robot = movedRobot (mkTf 1 v) r := rfl
  have h1 := kuka_determined hitf a1 a2 d4 d6 n base tool scene
  have h2 := kuka_determined hitf a1 a2 d4 d6 n (mkTf 1 v * base) tool (movedScene (mkTf 1 v) scene)
  rw [er, touches_moved hi hG (kuka_rigidShapes a1 a2 d4 d6 n hb tool fun t e => (htool t e).2)
    (by intro b hb; cases hb) hsc] at h2
  have hfk : ∀ q : Config, q.length = 6 → Returns (KukaOK n) (arm.fk q) (fkOf r q) := fun q hq =>
    robotFk_returns (kuka_regular a1 a2 d4 d6 n base tool) hq
      fun v : RState × Mem => WF 3 v.1 ∧ n < v.2.length
  have hfk' : ∀ q : Config, q.length = 6 → Returns (KukaOK n) (arm'.fk q) (mkTf 1 v * fkOf r q) := by
    intro q hq
    rw [← fkOf_moved, ← er]
    exact robotFk_returns (kuka_regular a1 a2 d4 d6 n (mkTf 1 v * base) tool) hq
      fun v : RState × Mem => WF 3 v.1 ∧ n < v.2.length
  refine (C152_solve h1 h2 (kukaSols_moved a1 a2 d4 hG hb) hfk hfk' (fun q => ?_) t t' ht ht' hpath hgrid
    hiters pq conv draws time fuel optimal optimal' hm).same hw hw'
  refine (hb.mul (chain_rigid _ _)).mul ?_
  unfold tip
  cases htt : tool with
  | none =>
    show IsRigid (((setup (Kuka.new a1 a2 d4 d6 n) base tool).robot.tool.map Tool.tfTT).getD 1)
    rw [htt]
    exact IsRigid.one
  | some tl =>
    show IsRigid (((setup (Kuka.new a1 a2 d4 d6 n) base tool).robot.tool.map Tool.tfTT).getD 1)
    rw [htt]
    exact (htool tl htt).1

/-! ### `cart_to_joint_simple` and the Kuka on a rail -/

/-- A transform moved by `G`; rows of six numbers are not looked at. -/
def MovedDisc (G : M4) : Disc → Disc → Prop
  | .transform T, .transform T' => T' = G * T
  | .point _, .point _ => True
  | _, _ => False

theorem discretise_moved {tp tp' : PathPt} (h : ShiftedPt v tp tp') (dr : Draws) :
    (∃ e, discretise dr tp = .error e ∧ discretise dr tp' = .error e) ∨
    ∃ l l', discretise dr tp = .ok l ∧ discretise dr tp' = .ok l' ∧
      List.Forall₂ (MovedDisc (mkTf 1 v)) l l' := by
  have hts : ∀ {x y : Except PyErr (List M4)},
      (liftPy y : Except Err _) = (liftPy x).map (List.map (mkTf 1 v * ·)) →
      (∃ e, (liftPy (x.map (List.map Disc.transform)) : Except Err _) = .error e ∧
        (liftPy (y.map (List.map Disc.transform)) : Except Err _) = .error e) ∨
      ∃ l l', (liftPy (x.map (List.map Disc.transform)) : Except Err _) = .ok l ∧
        (liftPy (y.map (List.map Disc.transform)) : Except Err _) = .ok l' ∧
        List.Forall₂ (MovedDisc (mkTf 1 v)) l l' := by
    intro x y hxy
    rw [liftPy_map, liftPy_map, hxy]
    cases x with
    | error e => exact .inl ⟨_, rfl, rfl⟩
    | ok l =>
      refine .inr ⟨_, _, rfl, rfl, ?_⟩
      rw [List.map_map, List.forall₂_map_left_iff, List.forall₂_map_right_iff]
      exact List.forall₂_same.2 fun T _ => rfl
  have hm := C152_samples h
  cases h with
  | free p =>
    unfold discretise FreeOrientationPt.discretise FreeOrientationPt.getSamples SampleSO3.sampleSO3
    simp only [Option.getD_none]
    cases SampleSO3.draws dr.root dr.fuel dr.rnd 100 .random with
    | error e => exact .inl ⟨_, rfl, rfl⟩
    | ok rs =>
      simp only [bind, Except.bind, hstackPoints]
      split_ifs with h0
      · exact .inl ⟨_, rfl, rfl⟩
      · refine .inr ⟨_, _, rfl, rfl, ?_⟩
        rw [List.forall₂_map_left_iff, List.forall₂_map_right_iff, List.forall₂_map_left_iff,
          List.forall₂_map_right_iff]
        exact List.forall₂_same.2 fun T _ => trivial
  | orientation p o => exact hts (hm dr 100 none)
  | axisAngle => exact .inl ⟨_, rfl, rfl⟩
  | euler h h' => exact hts (hm dr 0 none)
  | position h h' => exact .inl ⟨_, rfl, rfl⟩

variable {ikq ikq' : M4 → Config → Option (List Config)}

theorem simpleFree_moved (hik : ∀ T qf, ikq' (G * T) qf = ikq T qf) (qFixed : List Config) (T : M4) :
    simpleFree ikq' hit qFixed (G * T) = simpleFree ikq hit qFixed T := by
  unfold simpleFree
  simp only [hik]

theorem simpleSamples_moved (h : DeterminedFixed arm scene Inv ikq hit d)
    (h' : DeterminedFixed arm' scene' Inv' ikq' hit d) (hik : ∀ T qf, ikq' (G * T) qf = ikq T qf)
    (qFixed : List Config) {l l' : List Disc} (hl : List.Forall₂ (MovedDisc G) l l')
    (qSol : Option (List Config)) :
    Related Inv Inv' Eq (simpleSamples arm scene qFixed l qSol)
      (simpleSamples arm' scene' qFixed l' qSol) := by
  induction hl generalizing qSol with
  | nil => exact Related.pure rfl
  | @cons T T' l l' hT _ ih =>
    unfold simpleSamples
    refine Related.bind (R := Eq) ?_ fun q q' hq => ?_
    · cases T with
      | transform T =>
        cases T' with
        | point _ => exact hT.elim
        | transform T' =>
          obtain rfl : T' = G * T := hT
          exact Related.of_returns (fixedLoop_returns h T qFixed []) (fixedLoop_returns h' _ qFixed [])
            (by rw [simpleFree_moved hik])
      | point _ =>
        cases T' with
        | transform T' => exact hT.elim
        | point _ =>
          cases qFixed with
          | nil => exact Related.pure rfl
          | cons qf rest => exact Related.raise _
    · subst hq
      exact ih _

theorem simpleLoop_moved (h : DeterminedFixed arm scene Inv ikq hit d)
    (h' : DeterminedFixed arm' scene' Inv' ikq' hit d)
    (hik : ∀ T qf, ikq' (mkTf 1 v * T) qf = ikq T qf) (conv : ℝ → ℝ) (draws : Nat → Draws)
    (qFixed : List Config) (i : Nat) {path path' : List PathPt}
    (hp : List.Forall₂ (ShiftedPt v) path path') (qSol : Option (List Config)) (Q : List (PyCol ℝ)) :
    Related Inv Inv' Eq (simpleLoop arm scene conv draws qFixed i path qSol Q)
      (simpleLoop arm' scene' conv draws qFixed i path' qSol Q) := by
  induction hp generalizing i qSol Q with
  | nil => exact Related.pure rfl
  | @cons tp tp' path path' hm _ ih =>
    unfold simpleLoop
    refine Related.bind (R := List.Forall₂ (MovedDisc (mkTf 1 v))) ?_ fun l l' hl => ?_
    · intro w w' hw hw'
      rcases discretise_moved hm (draws i) with ⟨e, h1, h2⟩ | ⟨l, l', h1, h2, h3⟩
      · exact .inl ⟨e, h1, h2⟩
      · exact .inr ⟨l, l', h1, h2, h3, hw, hw'⟩
    refine Related.bind (simpleSamples_moved h h' hik qFixed hl qSol) fun o o' ho => ?_
    subst ho
    cases o with
    | none => exact Related.raise _
    | some q =>
      refine Related.bind Related.lift fun c c' hc => ?_
      subst hc
      exact ih _ _ _

theorem movedDisc_one (l : List Disc) : List.Forall₂ (MovedDisc 1) l l :=
  List.forall₂_same.2 fun T _ => by
    cases T with
    | transform T => exact (one_mul T).symm
    | point _ => trivial

/-- **C150**, `cart_to_joint_simple`: two robots that give the same answers, in their scenes and after any
earlier calls, have the same outcome for the same path and the same fixed joint values. -/
theorem C150_simple (h : DeterminedFixed arm scene Inv ikq hit d)
    (h' : DeterminedFixed arm' scene' Inv' ikq hit d) (conv : ℝ → ℝ) (draws : Nat → Draws)
    (path : List PathPt) (qFixed : List Config) {w : W} {w' : W'} (hw : Inv w) (hw' : Inv' w') :
    (cartToJointSimple arm conv draws path scene qFixed w).1 =
      (cartToJointSimple arm' conv draws path scene' qFixed w').1 := by
  have key : ∀ (i : Nat) (qSol : Option (List Config)) (Q : List (PyCol ℝ)),
      Related Inv Inv' Eq (simpleLoop arm scene conv draws qFixed i path qSol Q)
        (simpleLoop arm' scene' conv draws qFixed i path qSol Q) := by
    induction path with
    | nil => exact fun _ _ _ => Related.pure rfl
    | cons tp path ih =>
      intro i qSol Q
      unfold simpleLoop
      refine Related.bind Related.lift fun l l' hl => ?_
      subst hl
      refine Related.bind (simpleSamples_moved (G := 1) h h' (fun T qf => by rw [one_mul]) qFixed
        (movedDisc_one l) qSol) fun o o' ho => ?_
      subst ho
      cases o with
      | none => exact Related.raise _
      | some q =>
        refine Related.bind Related.lift fun c c' hc => ?_
        subst hc
        exact ih _ _ _
  exact (key 0 none []).same hw hw'

theorem railSols_moved [Zeros] (n : Nat) {G : M4} (hG : IsRigid G) {r : Robot Shape}
    (hb : IsRigid r.tfBase) (T : M4) (x : ℝ) :
    railSols n (movedRobot G r) (G * T) x = railSols n r T x := by
  unfold railSols
  rw [railTarget_moved hG hb]

/-- **C152**, inverse kinematics: after any rigid motion `G` of the base, a Kuka gives for the frame `G * T`
the solutions that it gave for `T`, and so does a KukaOnRail for every position on the rail. -/
theorem C152_ik [Zeros] (hitf : Oracle Shape) {G : M4} (hG : IsRigid G) (a1 a2 d4 d6 : ℝ) (n : Nat)
    {base : M4} (hb : IsRigid base) (tool : Option (Tool Shape)) (T : M4) :
    (∀ w w' : RState × RState × Mem, KukaOK n w → KukaOK n w' →
      ((kukaRef hitf (setup (Kuka.new a1 a2 d4 d6 n) (G * base) tool)).toArm.ik (G * T) w').1 =
        ((kukaRef hitf (setup (Kuka.new a1 a2 d4 d6 n) base tool)).toArm.ik T w).1) ∧
    ∀ (x : ℝ) (w w' : RState × RState × Mem), RailOK n w → RailOK n w' →
      ((railArm hitf (setupRail (Rail.new a1 a2 d4 d6 n) (G * base) tool)).ikFixed (G * T) [x] w').1 =
        ((railArm hitf (setupRail (Rail.new a1 a2 d4 d6 n) base tool)).ikFixed T [x] w).1 := by
  constructor
  · intro w w' hw hw'
    obtain ⟨w1, h1, -⟩ := (kuka_determined hitf a1 a2 d4 d6 n base tool ⟨[], []⟩).ik T w hw
    obtain ⟨w2, h2, -⟩ := (kuka_determined hitf a1 a2 d4 d6 n (G * base) tool ⟨[], []⟩).ik (G * T) w' hw'
    rw [h1, h2]
    exact congrArg Except.ok (kukaSols_moved a1 a2 d4 hG
      (r := (setup (Kuka.new a1 a2 d4 d6 n) base tool).robot) hb T)
  · intro x w w' hw hw'
    obtain ⟨w1, h1, -⟩ := railArm_ik hitf a1 a2 d4 d6 n base tool T x w hw
    obtain ⟨w2, h2, -⟩ := railArm_ik hitf a1 a2 d4 d6 n (G * base) tool (G * T) x w' hw'
    rw [h1, h2]
    exact congrArg Except.ok (railSols_moved n hG
      (r := (setupRail (Rail.new a1 a2 d4 d6 n) base tool).robot) hb T x)

/-- **C152**, `cart_to_joint_simple` with a KukaOnRail (the planner of the task editor), for any list of
positions on the rail: the same columns, or the same exception, after the robot, the scene and the path are
moved by the same vector. -/
theorem C152_rail [Zeros] {hitf : Oracle Shape} (hi : OracleInvariant hitf) {a1 a2 d4 d6 : ℝ} (n : Nat)
    {base : M4} {tool : Option (Tool Shape)} {scene : Collection Shape} (hb : IsRigid base)
    (htool : ∀ t, tool = some t → ∀ tf ∈ t.toCollection.tfS, IsRigid tf)
    (hsc : ∀ tf ∈ scene.tfS, IsRigid tf) {path path' : List PathPt}
    (hpath : List.Forall₂ (ShiftedPt v) path path') (conv : ℝ → ℝ) (draws : Nat → Draws) (xs : List ℝ)
    {w w' : RState × RState × Mem} (hw : RailOK n w) (hw' : RailOK n w') :
    (cartToJointSimple (railArm hitf (setupRail (Rail.new a1 a2 d4 d6 n) base tool)) conv draws path scene
      (xs.map fun x => [x]) w).1 =
    (cartToJointSimple (railArm hitf (setupRail (Rail.new a1 a2 d4 d6 n) (mkTf 1 v * base) tool)) conv
      draws path' (movedScene (mkTf 1 v) scene) (xs.map fun x => [x]) w').1 := by
  have hG : IsRigid (mkTf 1 v) := isRigid_mkTf.2 IsRot.one
  have hcongr : ∀ (b : M4) (p : List PathPt) (sc : Collection Shape),
      cartToJointSimple (railArm hitf (setupRail (Rail.new a1 a2 d4 d6 n) b tool)) conv draws p sc
        (xs.map fun x => [x]) =
      cartToJointSimple (railArm1 hitf (setupRail (Rail.new a1 a2 d4 d6 n) b tool)) conv draws p sc
        (xs.map fun x => [x]) := by
    intro b p sc
    refine cartToJointSimple_congr (A := railArm hitf (setupRail (Rail.new a1 a2 d4 d6 n) b tool))
      (B := railArm1 hitf (setupRail (Rail.new a1 a2 d4 d6 n) b tool)) rfl (fun T qf hqf => ?_) conv draws
      p sc
    obtain ⟨x, -, rfl⟩ := List.mem_map.1 hqf
    rfl
  rw [hcongr, hcongr]
  have h1 := rail_determined hitf a1 a2 d4 d6 n base tool scene
  have h2 := rail_determined hitf a1 a2 d4 d6 n (mkTf 1 v * base) tool (movedScene (mkTf 1 v) scene)
  have er : (setupRail (Rail.new a1 a2 d4 d6 n) (mkTf 1 v * base) tool).robot =
    movedRobot (mkTf 1 v) (setupRail (Rail.new a1 a2 d4 d6 n) base tool).robot := rfl
  rw [er, touches_moved hi hG (rail_rigidShapes a1 a2 d4 d6 n hb tool htool)
    (by intro b hb; cases hb) hsc] at h2
  exact (simpleLoop_moved h1 h2 (fun T qf => railSols_moved n hG hb T _) conv draws _ 0 hpath none []).same
    hw hw'

/-! ### Cases that meet the hypotheses -/

/-- A case of `C152`: the stock Kuka, a cube, any path of free points, and everything one meter to the side;
the iterative planner. -/
example [Zeros] (ps : List V3) (draws : Nat → Nat → Draws) (time : Nat → ℝ) {w : RState × RState × Mem}
    (hw : KukaOK 0 w) :
    let optimal := fun (_ : List PathPt) (_ : Collection Shape) (_ : Nat) (_ : List (List ℝ)) =>
      (pure () : Run (RState × RState × Mem) Unit)
    (PlanningTask.solve (freeTask ps farCube 5)
      (kukaRef boxOracle (setup (Kuka.new 0.18 0.6 0.62 0.115 0) 1 none)).toArm
      (stdHeap : PQ (WithTop ℝ) Config) id draws time 0 optimal (some "grid_iterative")
      (RState.new 6, RState.new 3, [[[0, 0, 0], [0, 0, 0]]])).1 =
    (PlanningTask.solve (freeTask (ps.map (· + ![0, 1, 0])) (movedScene (mkTf 1 ![0, 1, 0]) farCube) 5)
      (kukaRef boxOracle (setup (Kuka.new 0.18 0.6 0.62 0.115 0) (mkTf 1 ![0, 1, 0] * 1) none)).toArm
      (stdHeap : PQ (WithTop ℝ) Config) id draws time 0 optimal (some "grid_iterative") w).1 := by
  intro optimal
  have h0 : KukaOK 0 (RState.new 6, RState.new 3, [[[0, 0, 0], [0, 0, 0]]]) :=
    ⟨WF.new 6, WF.new 3, by decide⟩
  refine C152 boxOracle_ok.2 0 (a1 := 0.18) (a2 := 0.6) (d4 := 0.62) (d6 := 0.115) (base := 1)
    (tool := none) (scene := farCube) (v := ![0, 1, 0]) IsRigid.one (by simp) ?_ (freeTask ps farCube 5)
    (freeTask (ps.map (· + ![0, 1, 0])) (movedScene (mkTf 1 ![0, 1, 0]) farCube) 5) rfl rfl ?_ rfl rfl
    stdHeap id draws time 0 optimal optimal (method := "grid_iterative") (by decide) h0 hw
  · intro t ht
    rw [List.mem_singleton.1 ht]
    exact (C20_pose _ _ _ _).1.1
  · show List.Forall₂ _ (ps.map _) ((ps.map _).map _)
    rw [List.map_map, List.forall₂_map_left_iff, List.forall₂_map_right_iff]
    exact List.forall₂_same.2 fun p _ => .free p

/-- A case of `C150_simple`: a new KukaOnRail and one that has been used. -/
example [Zeros] (path : List PathPt) (draws : Nat → Draws) {w : RState × RState × Mem} (hw : RailOK 0 w) :
    let arm := railArm1 boxOracle (setupRail (Rail.new 0.18 0.6 0.62 0.115 0) 1 none)
    (cartToJointSimple arm id draws path farCube [[0], [1]] (RState.new 7, RState.new 3, [[]])).1 =
      (cartToJointSimple arm id draws path farCube [[0], [1]] w).1 :=
  C150_simple (rail_determined boxOracle 0.18 0.6 0.62 0.115 0 1 none farCube)
    (rail_determined boxOracle 0.18 0.6 0.62 0.115 0 1 none farCube) id draws path _
    ⟨WF.new 7, WF.new 3, Nat.zero_lt_one⟩ hw

/-- A case of `ShiftedPt` with a tolerance: an interval on the x axis. -/
example (o : Quat) : ∃ pt pt', ShiftedPt ![1, 0, 0] (.position pt) (.position pt') ∧
    pt.posNom = [1, 2, 3] ∧ pt'.posNom = [2, 2, 3] := by
  refine ⟨_, _, .position (x := .tol ⟨0, 2, 1, 5⟩) (y := .num 2) (z := .num 3) (o := o) rfl rfl, ?_, ?_⟩
  · rfl
  · show [(1 : ℝ) + 1, 2 + 0, 3 + 0] = [2, 2, 3]
    norm_num

/-- A case of `C152_rail`: the default KukaOnRail in an empty scene, a point without tolerance, and the
positions of the task editor. -/
example [Zeros] (p a : V3) (draws : Nat → Draws) : ∃ pt pt', ShiftedPt ![0, 0, 1] (.euler pt) (.euler pt') ∧
    (cartToJointSimple (railArm boxOracle (setupRail (Rail.new 0.18 0.6 0.62 0.115 0) 1 none)) id draws
      [.euler pt] farCube ([0, 1, 2].map fun x => [x]) (RState.new 7, RState.new 3, [[]])).1 =
    (cartToJointSimple (railArm boxOracle (setupRail (Rail.new 0.18 0.6 0.62 0.115 0)
      (mkTf 1 ![0, 0, 1] * 1) none)) id draws [.euler pt'] (movedScene (mkTf 1 ![0, 0, 1]) farCube)
      ([0, 1, 2].map fun x => [x]) (RState.new 7, RState.new 3, [[]])).1 := by
  obtain ⟨pt, -, h1, -, -, -⟩ := C47_no_tolerance p a
  obtain ⟨pt', -, h2, -, -, -⟩ := C47_no_tolerance (p + ![0, 0, 1]) a
  have hs : ShiftedPt ![0, 0, 1] (.euler pt) (.euler pt') := .euler h1 h2
  refine ⟨pt, pt', hs, C152_rail boxOracle_ok.2 0 IsRigid.one (by simp) ?_ (.cons hs .nil) id draws _
    ⟨WF.new 7, WF.new 3, Nat.zero_lt_one⟩ ⟨WF.new 7, WF.new 3, Nat.zero_lt_one⟩⟩
  intro t ht
  rw [List.mem_singleton.1 ht]
  exact (C20_pose _ _ _ _).1.1

end

end Verif.Props
