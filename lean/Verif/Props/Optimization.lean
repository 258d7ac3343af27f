import Verif.Props.Certificate
import Verif.Props.Solve
import Verif.Props.Robot

/-! # C69, C70, C77, C78: the optimisation-based planner -/

set_option linter.unusedSectionVars false

namespace Verif.Props

open Matrix Verif Verif.Geometry Verif.Kin Verif.Path Verif.Optimization Verif.CppGraph
  Verif.ShortestPath Verif.Spec

noncomputable section

/-! ## The constraints of one joint pose -/

/-- The multipliers satisfy the constraints for link shape `P` moved by `T` and obstacle `O`. -/
def Hold (P : Polyhedron) (T : M4) (O : Polyhedron) (lam mu : Fin 6 → ℝ) : Prop :=
  ∀ c ∈ collisionConstraints lam mu (Matrix.of (movedPoly P T).A) (Matrix.of O.A) (movedPoly P T).b O.b,
    c

/-- Moving the polyhedron of a box is the polyhedron of the moved box. -/
theorem movedPoly_eq (s : Shape) {T tf : M4} (hT : IsRigid T) (htf : IsRigid tf) :
    movedPoly (s.getPolyhedron tf) T = s.getPolyhedron (T * tf) := by
  have hA : Matrix.of (getNormals tf) * (rotPart T)ᵀ = Matrix.of (getNormals (T * tf)) := by
    have hr := rotPart_mul hT.2 htf.2
    ext i k
    have : (Matrix.of (getNormals tf) * (rotPart T)ᵀ) i k = (rotPart T *ᵥ getNormals tf i) k := by
      simp [Matrix.mul_apply, Matrix.mulVec, dotProduct, mul_comm]
    rw [this]
    show _ = getNormals (T * tf) i k
    fin_cases i <;>
      simp only [getNormals, Fin.mk_one, Fin.zero_eta, Fin.reduceFinMk, Matrix.cons_val, hr,
        Matrix.mulVec_mulVec]
  unfold movedPoly
  have h1 : (Matrix.of (s.getPolyhedron tf).A * (rotPart T)ᵀ : Matrix (Fin 6) (Fin 3) ℝ) =
      Matrix.of (getNormals (T * tf)) := hA
  rw [h1]
  unfold Shape.getPolyhedron
  refine congrArg (Polyhedron.mk _) (funext fun i => ?_)
  have hp := posPart_mul hT.2 htf.2
  have hrow : getNormals (T * tf) i = rotPart T *ᵥ getNormals tf i := by
    have := congrFun hA i
    have h2 : (Matrix.of (getNormals tf) * (rotPart T)ᵀ) i = rotPart T *ᵥ getNormals tf i := by
      ext k
      simp [Matrix.mul_apply, Matrix.mulVec, dotProduct, mul_comm]
    rw [← h2, this]
    rfl
  have e1 : (Matrix.of (getNormals (T * tf)) *ᵥ posPart T) i = getNormals (T * tf) i ⬝ᵥ posPart T :=
    rfl
  rw [Pi.add_apply, e1, hp]
  have e2 : getNormals (T * tf) i ⬝ᵥ act T (posPart tf) =
      getNormals tf i ⬝ᵥ posPart tf + getNormals (T * tf) i ⬝ᵥ posPart T := by
    unfold act
    rw [dotProduct_add, hrow, hT.1.dot]
  rw [e2]
  exact add_assoc _ _ _

theorem linkCc_ok {polyRobot : List Polyhedron} {i : Nat} {P : Polyhedron}
    (hP : polyRobot[i]? = some P) (T : M4) (lamk muk : Mult) (scene : List Polyhedron) (j0 : Nat) :
    ∃ cons, linkCc polyRobot T i lamk muk j0 scene = .ok cons ∧
      ((∀ c ∈ cons, c) ↔ ∀ (j : Nat) (O : Polyhedron), scene[j]? = some O →
        Hold P T O (lamk i (j0 + j)) (muk i (j0 + j))) := by
  induction scene generalizing j0 with
  | nil => exact ⟨[], rfl, by simp⟩
  | cons O rest ih =>
    obtain ⟨cons, h1, h2⟩ := ih (j0 + 1)
    refine ⟨collisionConstraints (lamk i j0) (muk i j0) (Matrix.of (movedPoly P T).A)
      (Matrix.of O.A) (movedPoly P T).b O.b ++ cons, ?_, ?_⟩
    · unfold linkCc
      rw [show pyGet polyRobot i = .ok P by rw [pyGet, hP], h1]
      rfl
    · rw [List.forall_mem_append, h2]
      constructor
      · rintro ⟨a, b⟩ j O' hj
        cases j with
        | zero => cases hj; exact a
        | succ j =>
          have := b j O' hj
          rwa [show j0 + 1 + j = j0 + (j + 1) by omega] at this
      · intro h
        refine ⟨h 0 O rfl, fun j O' hj => ?_⟩
        have := h (j + 1) O' hj
        rwa [show j0 + (j + 1) = j0 + 1 + j by omega] at this

theorem linkCc_error {polyRobot : List Polyhedron} {i : Nat} (hP : polyRobot[i]? = none) (T : M4)
    (lamk muk : Mult) {scene : List Polyhedron} (hs : scene ≠ []) (j0 : Nat) :
    linkCc polyRobot T i lamk muk j0 scene = .error .indexError := by
  cases scene with
  | nil => exact absurd rfl hs
  | cons O rest =>
    unfold linkCc
    rw [show pyGet polyRobot i = .error .indexError by rw [pyGet, hP]]
    rfl

theorem linksCc_ok {polyRobot : List Polyhedron} (polyScene : List Polyhedron) (lamk muk : Mult)
    (fks : List M4) (i0 : Nat) (hlen : i0 + fks.length ≤ polyRobot.length) :
    ∃ cons, linksCc polyRobot polyScene lamk muk i0 fks = .ok cons ∧
      ((∀ c ∈ cons, c) ↔ ∀ (i j : Nat) (P O : Polyhedron) (T : M4), fks[i]? = some T →
        polyRobot[i0 + i]? = some P → polyScene[j]? = some O →
        Hold P T O (lamk (i0 + i) j) (muk (i0 + i) j)) := by
  induction fks generalizing i0 with
  | nil => exact ⟨[], rfl, by simp⟩
  | cons T fks ih =>
    rw [List.length_cons] at hlen
    have hi : i0 < polyRobot.length := by omega
    obtain ⟨c1, h1, h2⟩ := linkCc_ok (List.getElem?_eq_getElem hi) T lamk muk polyScene 0
    obtain ⟨c2, h3, h4⟩ := ih (i0 + 1) (by omega)
    refine ⟨c1 ++ c2, ?_, ?_⟩
    · unfold linksCc
      rw [h1, h3]
      rfl
    · rw [List.forall_mem_append, h2, h4]
      simp only [Nat.zero_add]
      constructor
      · rintro ⟨a, b⟩ i j P O T' hT hP hO
        cases i with
        | zero =>
          cases hT
          rw [Nat.add_zero, List.getElem?_eq_getElem hi] at hP
          cases hP
          exact a j O hO
        | succ i =>
          have := b i j P O T' hT (by rwa [show i0 + 1 + i = i0 + (i + 1) by omega]) hO
          rwa [show i0 + 1 + i = i0 + (i + 1) by omega] at this
      · intro h
        refine ⟨fun j O hO => h 0 j _ O T rfl (List.getElem?_eq_getElem hi) hO,
          fun i j P O T' hT hP hO => ?_⟩
        have := h (i + 1) j P O T' hT (by rwa [show i0 + (i + 1) = i0 + 1 + i by omega]) hO
        rwa [show i0 + (i + 1) = i0 + 1 + i by omega] at this

/-- `create_cc_for_joint_pose` pairs frame `i` with entry `i` of `poly_robot`. -/
theorem ccPose_ok {r : Robot Shape} {polyRobot : List Polyhedron} (polyScene : List Polyhedron)
    {q : List ℝ} (lamk muk : Mult) {fks : List M4} (hf : r.fkAllLinksCasadi q = .ok fks)
    (hlen : fks.length ≤ polyRobot.length) :
    ∃ cons, ccForJointPose r polyRobot polyScene q lamk muk = .ok cons ∧
      ((∀ c ∈ cons, c) ↔ ∀ (i j : Nat) (P O : Polyhedron) (T : M4), fks[i]? = some T →
        polyRobot[i]? = some P → polyScene[j]? = some O → Hold P T O (lamk i j) (muk i j)) := by
  obtain ⟨cons, h1, h2⟩ := linksCc_ok polyScene lamk muk fks 0 (by simpa using hlen)
  refine ⟨cons, ?_, ?_⟩
  · unfold ccForJointPose
    rw [hf]
    exact h1
  · rw [h2]
    simp only [Nat.zero_add]

theorem getPolyhedrons_get (c : Collection Shape) (j : Nat) (O : Polyhedron) :
    c.getPolyhedrons[j]? = some O ↔
      ∃ s tf, c.s[j]? = some s ∧ c.tfS[j]? = some tf ∧ O = s.getPolyhedron tf := by
  unfold Collection.getPolyhedrons
  rw [List.getElem?_map, Option.map_eq_some_iff]
  constructor
  · rintro ⟨⟨s, tf⟩, h, rfl⟩
    rw [List.getElem?_zip_eq_some] at h
    exact ⟨s, tf, h.1, h.2, rfl⟩
  · rintro ⟨s, tf, h1, h2, rfl⟩
    exact ⟨(s, tf), List.getElem?_zip_eq_some.2 ⟨h1, h2⟩, rfl⟩

theorem revolute_frames {r : Robot Shape} (hr : ∀ l ∈ r.links, l.jointType = .r) {q : List ℝ}
    (hq : r.links.length ≤ q.length) : r.fkAllLinksCasadi q = .ok (frames r.links q r.tfBase) := by
  have h := (C32_casadi_partial boxOracle r hr [] (by simp) q).2
  rw [h]
  exact fkAllLinks_ok (after_wf boxOracle _ _ (by simp)) hq fun l hl => by
    rw [Link.Known, hr l hl]
    simp

/-! ## C69 -/

/-- The distance that the constraints ask for. -/
def margin : ℝ := 1 / 10 ^ 6

/-- Every shape of every link keeps the distance `margin` from every shape of the scene, at joint
values `q`. -/
def LinksKeepAway (r : Robot Shape) (q : List ℝ) (scene : Collection Shape) : Prop :=
  ∀ (i a j : Nat) (l : Link Shape) (s o : Shape) (tf tfo : M4), r.links[i]? = some l →
    l.geometry.s[a]? = some s → l.geometry.tfS[a]? = some tf → scene.s[j]? = some o →
    scene.tfS[j]? = some tfo → ∀ u ∈ boxPoints s, ∀ v ∈ boxPoints o,
      margin ≤ Real.sqrt (dist2 (act (frameOf r q i * tf) u) (act tfo v))

/-- All placements are rigid motions. -/
structure RigidRobot (r : Robot Shape) : Prop where
  base : IsRigid r.tfBase
  shapes : ∀ l ∈ r.links, ∀ tf ∈ l.geometry.tfS, IsRigid tf

/-- There are multipliers for which all constraints for `q` hold. -/
def PoseFeasible (r : Robot Shape) (q : List ℝ) (scene : Collection Shape) : Prop :=
  ∃ lam mu cons, ccForJointPose r (polyRobotOf r) scene.getPolyhedrons q lam mu = .ok cons ∧
    ∀ c ∈ cons, c

/-- The full property. -/
def C69_statement : Prop := ∀ (r : Robot Shape) (q : List ℝ) (scene : Collection Shape),
  KnownTypes r.links → RigidRobot r → (∀ tf ∈ scene.tfS, IsRigid tf) → r.links.length ≤ q.length →
  PoseFeasible r q scene → LinksKeepAway r q scene

theorem hold_iff (s o : Shape) {T tf tfo : M4} (hT : IsRigid T) (htf : IsRigid tf)
    (htfo : IsRigid tfo) :
    (∃ lam mu, Hold (s.getPolyhedron tf) T (o.getPolyhedron tfo) lam mu) ↔
      ∀ u ∈ boxPoints s, ∀ v ∈ boxPoints o,
        margin ≤ Real.sqrt (dist2 (act (T * tf) u) (act tfo v)) := by
  unfold Hold
  rw [movedPoly_eq s hT htf]
  exact C68_iff s o (hT.mul htf) htfo _

/-- Feasibility, in terms of the list `poly_robot`: frame `i` with shape `i` of that list. -/
theorem poseFeasible_iff {r : Robot Shape} {q : List ℝ} {scene : Collection Shape} {fks : List M4}
    (hf : r.fkAllLinksCasadi q = .ok fks) (hlen : fks.length ≤ (polyRobotOf r).length) :
    PoseFeasible r q scene ↔ ∀ (i j : Nat) (P O : Polyhedron) (T : M4), fks[i]? = some T →
        (polyRobotOf r)[i]? = some P → scene.getPolyhedrons[j]? = some O →
        ∃ lam mu, Hold P T O lam mu := by
  constructor
  · rintro ⟨lam, mu, cons, h1, h2⟩ i j P O T hT hP hO
    obtain ⟨cons', h3, h4⟩ := ccPose_ok scene.getPolyhedrons lam mu hf hlen
    rw [h1] at h3
    cases h3
    exact ⟨_, _, h4.1 h2 i j P O T hT hP hO⟩
  · intro h
    have : ∀ i j : Nat, ∃ lm : (Fin 6 → ℝ) × (Fin 6 → ℝ), ∀ P O T, fks[i]? = some T →
        (polyRobotOf r)[i]? = some P → scene.getPolyhedrons[j]? = some O →
        Hold P T O lm.1 lm.2 := by
      intro i j
      by_cases hex : ∃ P O T, fks[i]? = some T ∧ (polyRobotOf r)[i]? = some P ∧
          scene.getPolyhedrons[j]? = some O
      · obtain ⟨P, O, T, h1, h2, h3⟩ := hex
        obtain ⟨lam, mu, hh⟩ := h i j P O T h1 h2 h3
        refine ⟨(lam, mu), fun P' O' T' h1' h2' h3' => ?_⟩
        rw [h1] at h1'
        rw [h2] at h2'
        rw [h3] at h3'
        cases h1'
        cases h2'
        cases h3'
        exact hh
      · exact ⟨(0, 0), fun P O T h1 h2 h3 => absurd ⟨P, O, T, h1, h2, h3⟩ hex⟩
    choose f hf' using this
    obtain ⟨cons, h3, h4⟩ := ccPose_ok scene.getPolyhedrons (fun i j => (f i j).1)
      (fun i j => (f i j).2) hf hlen
    exact ⟨_, _, cons, h3, h4.2 fun i j P O T h1 h2 h3 => hf' i j P O T h1 h2 h3⟩

/-- Every link has exactly one shape. -/
def OneShape (r : Robot Shape) : Prop :=
  ∀ l ∈ r.links, ∃ s tf, l.geometry = ⟨[s], [tf]⟩

theorem polyRobotOf_one {r : Robot Shape} (h : OneShape r) :
    (polyRobotOf r).length = r.links.length ∧ ∀ (i : Nat) (P : Polyhedron),
      (polyRobotOf r)[i]? = some P ↔ ∃ l s tf, r.links[i]? = some l ∧ l.geometry = ⟨[s], [tf]⟩ ∧
        P = s.getPolyhedron tf := by
  unfold OneShape at h
  unfold polyRobotOf
  generalize r.links = ls at h
  induction ls with
  | nil => simp
  | cons l ls ih =>
    obtain ⟨ih1, ih2⟩ := ih fun l hl => h l (List.mem_cons_of_mem _ hl)
    obtain ⟨s, tf, hg⟩ := h l List.mem_cons_self
    have e : l.geometry.getPolyhedrons = [s.getPolyhedron tf] := by rw [hg]; rfl
    rw [List.flatMap_cons, e]
    refine ⟨by simp [ih1], fun i P => ?_⟩
    cases i with
    | zero =>
      simp only [List.cons_append, List.nil_append, List.getElem?_cons_zero, Option.some.injEq]
      constructor
      · rintro rfl
        exact ⟨l, s, tf, rfl, hg, rfl⟩
      · rintro ⟨l', s', tf', rfl, hg', rfl⟩
        rw [hg] at hg'
        cases hg'
        rfl
    | succ i =>
      simpa using ih2 i P

theorem frameOf_rigid {r : Robot Shape} (h : IsRigid r.tfBase) (q : List ℝ) (k : Nat) :
    IsRigid (frameOf r q k) := by
  unfold frameOf
  rw [linkProduct_eq]
  exact h.mul (chain_rigid _ _)

/-- **C69**, what holds, for robots with revolute joints only and exactly one shape per link: the
constraints for `q` can be met exactly when all links keep the distance from all obstacles.
Missing: links with another number of shapes and prismatic joints, where the property is false
(`C69_refuted`, `C69_prismatic`). -/
theorem C69_partial {r : Robot Shape} (hr : ∀ l ∈ r.links, l.jointType = .r) (h1 : OneShape r)
    (hrig : RigidRobot r) {scene : Collection Shape} (hs : ∀ tf ∈ scene.tfS, IsRigid tf) {q : List ℝ}
    (hq : r.links.length ≤ q.length) : PoseFeasible r q scene ↔ LinksKeepAway r q scene := by
  obtain ⟨hlen, hget⟩ := polyRobotOf_one h1
  rw [poseFeasible_iff (revolute_frames hr hq) (by rw [frames_length hq, hlen])]
  constructor
  · intro h i a j l s o tf tfo hi hsa htfa hoj htfo
    obtain ⟨s', tf', hg⟩ := h1 l (List.mem_of_getElem? hi)
    have ha : a = 0 := by
      have := (List.getElem?_eq_some_iff.1 hsa).1
      rw [hg] at this
      simpa using this
    subst ha
    rw [hg] at hsa htfa
    cases hsa
    cases htfa
    have hil := (List.getElem?_eq_some_iff.1 hi).1
    have := h i j _ _ (frameOf r q i) ((frames_get r hq).2 ⟨hil, rfl⟩)
      ((hget i _).2 ⟨l, _, _, hi, hg, rfl⟩) ((getPolyhedrons_get scene j _).2 ⟨o, tfo, hoj, htfo, rfl⟩)
    exact (hold_iff _ _ (frameOf_rigid hrig.base q i)
      (hrig.shapes l (List.mem_of_getElem? hi) _ (by rw [hg]; simp))
      (hs _ (List.mem_of_getElem? htfo))).1 this
  · intro h i j P O T hT hP hO
    obtain ⟨-, rfl⟩ := (frames_get r hq).1 hT
    obtain ⟨l, s, tf, hi, hg, rfl⟩ := (hget i P).1 hP
    obtain ⟨o, tfo, ho, htfo, rfl⟩ := (getPolyhedrons_get scene j O).1 hO
    refine (hold_iff _ _ (frameOf_rigid hrig.base q i)
      (hrig.shapes l (List.mem_of_getElem? hi) _ (by rw [hg]; simp))
      (hs _ (List.mem_of_getElem? htfo))).2 ?_
    exact h i 0 j l s o tf tfo hi (by rw [hg]; rfl) (by rw [hg]; rfl) ho htfo

/-- Boxes whose heights differ by more than one are apart: the witness of the refutations. -/
theorem far_boxes {T U : M4} {h : ℝ} (hT : ∀ u, act T u 2 = u 2) (hU : ∀ v, act U v 2 = v 2 + h)
    (hh : 2 ≤ h) : ∀ u ∈ boxPoints ⟨1, 1, 1⟩, ∀ v ∈ boxPoints ⟨1, 1, 1⟩,
      margin ≤ Real.sqrt (dist2 (act T u) (act U v)) := by
  intro u hu v hv
  refine Real.le_sqrt_of_sq_le ?_
  have h1 := abs_le.1 hu.2.2
  have h2 := abs_le.1 hv.2.2
  simp only at h1 h2
  have e : (act T u 2 - act U v 2) ^ 2 ≤ dist2 (act T u) (act U v) := by
    simp only [dist2, dotProduct, Fin.sum_univ_three, Pi.sub_apply]
    nlinarith [sq_nonneg (act T u 0 - act U v 0), sq_nonneg (act T u 1 - act U v 1)]
  refine le_trans ?_ e
  rw [hT, hU]
  unfold margin
  nlinarith

/-- The unit box at height `h`. -/
def unitAt (h : ℝ) : Collection Shape := ⟨[⟨1, 1, 1⟩], [mkTf 1 ![0, 0, h]]⟩

theorem act_lift (h : ℝ) (u : V3) : act (mkTf 1 ![0, 0, h]) u 2 = u 2 + h := by
  simp only [act, rotPart_mkTf, posPart_mkTf, Matrix.one_mulVec, Pi.add_apply, Matrix.cons_val]

theorem not_keepAway_of_touch {r : Robot Shape} {q : List ℝ} {scene : Collection Shape}
    {i a j : Nat} {l : Link Shape} {s o : Shape} {tf tfo : M4} (hi : r.links[i]? = some l)
    (hs : l.geometry.s[a]? = some s) (htf : l.geometry.tfS[a]? = some tf)
    (ho : scene.s[j]? = some o) (htfo : scene.tfS[j]? = some tfo) {u v : V3} (hu : u ∈ boxPoints s)
    (hv : v ∈ boxPoints o) (he : act (frameOf r q i * tf) u = act tfo v) :
    ¬ LinksKeepAway r q scene := by
  intro h
  have := h i a j l s o tf tfo hi hs htf ho htfo u hu v hv
  rw [he] at this
  simp [dist2, margin] at this
  norm_num at this

/-- **C69** is false: a link with two shapes, of which only the first is constrained. -/
theorem C69_refuted : ¬ C69_statement := by
  intro h
  let l : Link Shape := ⟨⟨0, 0, 0, 0⟩, .r, ⟨[⟨1, 1, 1⟩, ⟨1, 1, 1⟩], [1, mkTf 1 ![0, 0, 5]]⟩⟩
  let r : Robot Shape := Robot.new [l]
  have hr : ∀ l ∈ r.links, l.jointType = .r := by
    intro l' hl
    rw [List.mem_singleton.1 hl]
  have hlift : IsRigid (mkTf 1 ![0, 0, 5]) := isRigid_mkTf.2 IsRot.one
  have hrig : RigidRobot r := ⟨IsRigid.one, by
    intro l' hl tf htf
    rw [List.mem_singleton.1 hl] at htf
    simp only [l, List.mem_cons, List.not_mem_nil, or_false] at htf
    rcases htf with rfl | rfl
    · exact IsRigid.one
    · exact hlift⟩
  have hframe : frameOf r [0] 0 = 1 := by
    simp [frameOf, r, Robot.new, l, linkProduct, dhOf, dhProduct_eq, dhMat]
    ext i j; fin_cases i <;> fin_cases j <;> simp
  have hfeas : PoseFeasible r [0] (unitAt 5) := by
    rw [poseFeasible_iff (revolute_frames hr (q := [0]) le_rfl)
      (by rw [frames_length (by exact le_rfl)]; exact (show 1 ≤ 2 by omega))]
    intro i j P O T hT hP hO
    obtain ⟨hi, rfl⟩ := (frames_get r (q := [0]) le_rfl).1 hT
    have hi0 : i = 0 := by
      change i < 1 at hi
      omega
    subst hi0
    have hP' : P = (⟨1, 1, 1⟩ : Shape).getPolyhedron 1 := (Option.some.inj hP).symm
    obtain ⟨o, tfo, ho, htfo, rfl⟩ := (getPolyhedrons_get _ j O).1 hO
    have hj0 : j = 0 := by
      have := (List.getElem?_eq_some_iff.1 ho).1
      change j < 1 at this
      omega
    subst hj0
    cases ho
    cases htfo
    rw [hP', hframe]
    refine (hold_iff _ _ IsRigid.one IsRigid.one hlift).2 ?_
    rw [mul_one]
    exact far_boxes (fun u => by rw [act_one]) (fun v => act_lift 5 v) (by norm_num)
  refine not_keepAway_of_touch (i := 0) (a := 1) (j := 0) (u := 0) (v := 0) rfl rfl rfl rfl rfl
    (by simp [boxPoints]) (by simp [boxPoints]) ?_
    (h r [0] (unitAt 5) (fun l' hl => Or.inl (hr l' hl)) hrig (fun tf htf => by
      rw [List.mem_singleton.1 htf]; exact hlift) le_rfl hfeas)
  rw [hframe, one_mul]

/-- **C69** is also false for robots with one shape per link, if a joint is prismatic. -/
theorem C69_prismatic : ∃ (r : Robot Shape) (q : List ℝ) (scene : Collection Shape),
    KnownTypes r.links ∧ OneShape r ∧ RigidRobot r ∧ (∀ tf ∈ scene.tfS, IsRigid tf) ∧
      r.links.length ≤ q.length ∧ PoseFeasible r q scene ∧ ¬ LinksKeepAway r q scene := by
  let l : Link Shape := ⟨⟨0, 0, 0, 0⟩, .p, ⟨[⟨1, 1, 1⟩], [1]⟩⟩
  let r : Robot Shape := Robot.new [l]
  have hlift : IsRigid (mkTf 1 ![0, 0, 5]) := isRigid_mkTf.2 IsRot.one
  have hone : OneShape r := fun l' hl => ⟨⟨1, 1, 1⟩, 1, by rw [List.mem_singleton.1 hl]⟩
  have hf : r.fkAllLinksCasadi [5] = .ok [1 * l.relTfCasadi 5] := rfl
  have hrel : l.relTfCasadi 5 = mkTf (Util.rotZ 5) 0 := by
    ext i j; fin_cases i <;> fin_cases j <;> simp [Link.relTfCasadi, l, mkTf, Util.rotZ]
  refine ⟨r, [5], unitAt 5, fun l' hl => Or.inr (by rw [List.mem_singleton.1 hl]), hone,
    ⟨IsRigid.one, fun l' hl tf htf => ?_⟩, fun tf htf => by
      rw [List.mem_singleton.1 htf]; exact hlift, le_rfl, ?_, ?_⟩
  · rw [List.mem_singleton.1 hl] at htf
    rw [List.mem_singleton.1 htf]
    exact IsRigid.one
  · rw [poseFeasible_iff hf (by rw [(polyRobotOf_one hone).1]; rfl)]
    intro i j P O T hT hP hO
    have hi0 : i = 0 := by
      have := (List.getElem?_eq_some_iff.1 hT).1
      simpa using this
    subst hi0
    cases hT
    have hP' : P = (⟨1, 1, 1⟩ : Shape).getPolyhedron 1 := (Option.some.inj hP).symm
    obtain ⟨o, tfo, ho, htfo, rfl⟩ := (getPolyhedrons_get _ j O).1 hO
    have hj0 : j = 0 := by
      have := (List.getElem?_eq_some_iff.1 ho).1
      change j < 1 at this
      omega
    subst hj0
    cases ho
    cases htfo
    rw [hP', one_mul, hrel]
    have hz : IsRigid (mkTf (Util.rotZ 5) 0) := isRigid_mkTf.2 (Util.rotZ_isRot 5)
    refine (hold_iff _ _ hz IsRigid.one hlift).2 ?_
    rw [mul_one]
    refine far_boxes (fun u => ?_) (fun v => act_lift 5 v) (by norm_num)
    simp [act, Util.rotZ, dotProduct, Fin.sum_univ_three]
  · refine not_keepAway_of_touch (i := 0) (a := 0) (j := 0) (u := 0) (v := 0) rfl rfl rfl rfl rfl
      (by simp [boxPoints]) (by simp [boxPoints]) ?_
    have hframe : frameOf r [5] 0 = mkTf 1 ![0, 0, 5] := by
      simp [frameOf, r, Robot.new, l, linkProduct, dhOf, dhProduct_eq, dhMat]
      ext i j; fin_cases i <;> fin_cases j <;> simp [mkTf]
    rw [hframe, mul_one]

/-- With fewer shapes than links, and an obstacle, building the constraints raises IndexError. -/
theorem C69_index_error {r : Robot Shape} (hr : ∀ l ∈ r.links, l.jointType = .r) {q : List ℝ}
    (hq : r.links.length ≤ q.length) (hlen : (polyRobotOf r).length < r.links.length)
    {polyScene : List Polyhedron} (hs : polyScene ≠ []) (lam mu : Mult) :
    ccForJointPose r (polyRobotOf r) polyScene q lam mu = .error .indexError := by
  unfold ccForJointPose
  rw [revolute_frames hr hq]
  have hf : (frames r.links q r.tfBase).length = r.links.length := frames_length hq _
  have key : ∀ (fks : List M4) (i0 : Nat), i0 ≤ (polyRobotOf r).length →
      (polyRobotOf r).length < i0 + fks.length →
      linksCc (polyRobotOf r) polyScene lam mu i0 fks = .error .indexError := by
    intro fks
    induction fks with
    | nil => intro i0 h1 h2; simp at h2; omega
    | cons T fks ih =>
      intro i0 h1 h2
      unfold linksCc
      rcases h1.lt_or_eq with h1 | h1
      · obtain ⟨c1, e1, -⟩ := linkCc_ok (List.getElem?_eq_getElem h1) T lam mu polyScene 0
        rw [e1, ih (i0 + 1) h1 (by simp at h2; omega)]
        rfl
      · rw [linkCc_error (List.getElem?_eq_none (by omega)) T lam mu hs 0]
        rfl
  exact key _ 0 (by omega) (by omega)

/-! ## C70 -/

theorem costFrom2_coe (acc : ℝ) (n : Nat) (a b : List ℝ) (ha : a.length = n) (hb : b.length = n) :
    costFrom2 (acc : WithTop ℝ) (List.replicate n (1 : ℝ)) a b = ((acc + rowSq a b : ℝ) : WithTop ℝ) := by
  induction n generalizing acc a b with
  | zero =>
    rw [List.length_eq_zero_iff] at ha hb
    subst ha hb
    simp [costFrom2, rowSq]
  | succ n ih =>
    cases a with
    | nil => simp at ha
    | cons x xs =>
      cases b with
      | nil => simp at hb
      | cons y ys =>
        rw [List.replicate_succ, costFrom2]
        have e : (JointArith.step (acc : WithTop ℝ) (1 : ℝ) x y) =
            ((acc + (x - y) ^ 2 : ℝ) : WithTop ℝ) := by
          show (acc : WithTop ℝ) + ((1 * (x - y) ^ 2 : ℝ) : WithTop ℝ) = _
          rw [one_mul, ← WithTop.coe_add]
        rw [e, ih _ _ _ (by simpa using ha) (by simpa using hb)]
        congr 1
        simp [rowSq]
        ring

theorem rowSq_comm (a b : List ℝ) : rowSq a b = rowSq b a := by
  unfold rowSq
  induction a generalizing b with
  | nil => cases b <;> simp
  | cons x xs ih =>
    cases b with
    | nil => simp
    | cons y ys =>
      simp only [List.zipWith_cons_cons, List.sum_cons, ih]
      ring

/-- The weights used by the graph search if none are given are ones. -/
theorem effWeights_default (n : Nat) (hn : 0 < n) :
    effWeights (WithTop ℝ) n ([] : List ℝ) = List.replicate n 1 := by
  unfold effWeights
  rw [if_neg (by simp; omega)]
  rfl

theorem costFrom_coe (n : Nat) (acc : ℝ) (q : List (List ℝ)) (h : ∀ row ∈ q, row.length = n) :
    costFrom (stepCost (WithTop ℝ) (List.replicate n (1 : ℝ))) (acc : WithTop ℝ) q =
      ((acc + objective q : ℝ) : WithTop ℝ) := by
  induction q generalizing acc with
  | nil => simp [costFrom, objective]
  | cons a q ih =>
    cases q with
    | nil => simp [costFrom, objective]
    | cons b q =>
      have ha := h a (by simp)
      have hb := h b (by simp)
      have e : stepCost (WithTop ℝ) (List.replicate n (1 : ℝ)) a b = ((rowSq a b : ℝ) : WithTop ℝ) := by
        unfold stepCost costFn2
        have := costFrom2_coe 0 n b a hb ha
        rw [zero_add, rowSq_comm] at this
        exact this
      rw [costFrom, e, ← WithTop.coe_add, ih _ fun row hr => h row (List.mem_cons_of_mem _ hr)]
      congr 1
      simp [objective]
      ring

/-- **C70**: the objective of `get_optimal_path` is the path cost of the graph search with its
default weights. -/
theorem C70 (n : Nat) (hn : 0 < n) (q : List (List ℝ)) (h : ∀ row ∈ q, row.length = n) :
    costL (stepCost (WithTop ℝ) (effWeights (WithTop ℝ) n ([] : List ℝ))) q =
      ((objective q : ℝ) : WithTop ℝ) := by
  rw [effWeights_default n hn]
  have := costFrom_coe n 0 q h
  rw [zero_add] at this
  exact this

/-- The objective, written out for three configurations of two joints. -/
example : objective [[0, 1], [2, 3], [2, 5]] = 12 := by
  norm_num [objective, rowSq]

end

end Verif.Props
