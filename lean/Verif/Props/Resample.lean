import Verif.Props.Solve
import Verif.Props.Path

/-! # C126: resampling around a solution; C64: joint solutions without collision check -/

set_option linter.unusedSectionVars false

namespace Verif.Props

open Matrix Verif Verif.Path Verif.Geometry Verif.Kin Verif.ShortestPath Verif.CppGraph Verif.Planning
  Verif.Util

noncomputable section

variable {W S : Type} {Inv : W → Prop} {arm : Arm W S} {scene : Collection S}
  {ikf : M4 → Option (List Config)} {hit : Config → Bool} {d : Nat}

/-! ## C64 -/

/-- **C64**, without collision check all solutions of all samples are kept, in order, whether or not a
scene is given; the collision library is not asked. -/
theorem C64_unchecked (hik : ∀ T, Returns Inv (arm.ik T) (ikf T))
    (hd : ∀ T sols, ikf T = some sols → ∀ q ∈ sols, q.length = d) (conv : ℝ → ℝ) (Ts : List M4)
    (sc : Option (Collection S)) :
    Returns Inv (calcJointSolutions arm conv Ts false sc)
      (.arr true (if (Ts.flatMap fun T => (ikf T).getD []) = [] then 0 else d)
        ((Ts.flatMap fun T => (ikf T).getD []).map (List.map conv))) := by
  have hl : ∀ acc, Returns Inv (jointLoop arm none Ts acc)
      (acc ++ Ts.flatMap fun T => (ikf T).getD []) := by
    induction Ts with
    | nil => intro acc; simpa [jointLoop] using Returns.pure (Inv := Inv) acc
    | cons T Ts ih =>
      intro acc
      unfold jointLoop
      refine Returns.bind (hik T) ?_
      cases h : ikf T with
      | none => simpa [h] using ih acc
      | some sols =>
        refine Returns.bind (Returns.pure _) ?_
        simpa [h] using ih (acc ++ sols)
  unfold calcJointSolutions
  rw [if_neg (by simp)]
  refine Returns.bind (a := Ts.flatMap fun T => (ikf T).getD []) ?_ (Returns.lift ?_)
  · simpa using hl []
  · by_cases he : (Ts.flatMap fun T => (ikf T).getD []) = []
    · rw [if_neg (by simp [he]), if_pos he, he]
      rfl
    · rw [if_pos (List.length_pos_iff.2 he), if_neg he]
      refine vstack_ok conv he fun q hq => ?_
      obtain ⟨T, -, hq⟩ := List.mem_flatMap.1 hq
      cases h : ikf T with
      | none => simp [h] at hq
      | some sols =>
        rw [h] at hq
        exact hd T sols h q hq

/-- **C64**, asking for the collision check without a scene raises ValueError. -/
theorem C64_no_scene (conv : ℝ → ℝ) (Ts : List M4) :
    Raises Inv (calcJointSolutions arm conv Ts true none) (.py .valueError) := by
  intro w _
  exact ⟨w, rfl⟩

/-- An arm with one solution for one of two poses. -/
example : Returns (fun _ => True) (calcJointSolutions (stripArm 2) id
    [mkTf 1 ![2, 0, 0], mkTf 1 ![3, 0, 0]] false none) (.arr true 1 [[0]]) := by
  have h := stripArm_fixed 2
  have := C64_unchecked (arm := stripArm 2) (Inv := fun _ => True)
    (ikf := fun T => if T 0 3 = 2 then some [[0]] else none) (d := 1) (fun T => Returns.pure _)
    (fun T sols hs q hq => h.dof T [] sols hs q hq) id [mkTf 1 ![2, 0, 0], mkTf 1 ![3, 0, 0]] none
  have e1 : mkTf 1 ![2, 0, 0] 0 3 = 2 := by simp [mkTf]
  have e2 : ¬ mkTf 1 ![3, 0, 0] 0 3 = 2 := by simp [mkTf]
  simpa [e1, e2] using this

/-! ## C126 -/

/-- The axis of a unit quaternion: nothing for a quaternion next to the identity, and otherwise a unit
vector that its rotation leaves where it is. -/
theorem quatAxis_spec {q : Quat} (h : q.norm2 = 1) :
    (q.rotationMatrix = 1 → quatAxis q = 0) ∧
    (quatAxis q = 0 ∨ quatAxis q ⬝ᵥ quatAxis q = 1) ∧
    q.rotationMatrix *ᵥ quatAxis q = quatAxis q := by
  have hn := h
  simp only [Quat.norm2] at hn
  unfold quatAxis
  simp only [Quat.normalise_of_unit h]
  set n := Real.sqrt (q.x ^ 2 + q.y ^ 2 + q.z ^ 2) with hdef
  refine ⟨fun h1 => ?_, ?_, ?_⟩
  · have h00 := congrFun (congrFun h1 0) 0
    have h11 := congrFun (congrFun h1 1) 1
    have h22 := congrFun (congrFun h1 2) 2
    simp [Quat.rotationMatrix, Quat.normalise_of_unit h] at h00 h11 h22
    have hs : q.x ^ 2 + q.y ^ 2 + q.z ^ 2 = 0 := by
      nlinarith [sq_nonneg q.x, sq_nonneg q.y, sq_nonneg q.z]
    rw [hdef, hs, Real.sqrt_zero, if_pos (by norm_num)]
  · by_cases hl : n < 1 / 10 ^ 14
    · exact .inl (if_pos hl)
    · right
      rw [if_neg hl]
      have hpos : 0 < n := lt_of_lt_of_le (by norm_num) (not_lt.1 hl)
      have hsq : n * n = q.x ^ 2 + q.y ^ 2 + q.z ^ 2 := Real.mul_self_sqrt (by positivity)
      simp only [dotProduct, Fin.sum_univ_three, Matrix.cons_val]
      field_simp
      nlinarith
  · by_cases hl : n < 1 / 10 ^ 14
    · rw [if_pos hl, Matrix.mulVec_zero]
    · rw [if_neg hl]
      have hpos : 0 < n := lt_of_lt_of_le (by norm_num) (not_lt.1 hl)
      ext i
      fin_cases i
      all_goals
        simp [Quat.rotationMatrix, Quat.normalise_of_unit h, Matrix.mulVec, dotProduct,
          Fin.sum_univ_three]
        field_simp
      · linear_combination q.x * hn
      · linear_combination q.y * hn
      · linear_combination q.z * hn

/-- `T` is allowed by the axis-angle point `p`: at its position, with the nominal orientation turned
about the axis by an angle within the tolerance. -/
def AllowedBy (p : AxisAnglePt) (T : M4) : Prop := posPart T = p.pos ∧
  ∃ a, p.angle.lower ≤ a ∧ a ≤ p.angle.upper ∧
    ∀ v, rotPart T *ᵥ v = rotateAbout (unitOf p.axis) a (p.quat.rotationMatrix *ᵥ v)

/-- The full property: resampling an axis-angle point around a solution that it allows gives a point
whose samples are all allowed by the point before. -/
def C126_statement : Prop := ∀ (arm : Arm Unit Unit) (sp : SolPt) (p : AxisAnglePt) (q : Config) (T : M4),
  sp.tolType = .axis → sp.tpCurrent = .axisAngle p → GoodAxis p.axis → p.quat.norm2 = 1 →
  p.angle.lower ≤ p.angle.upper → 0 ≤ p.angle.numSamples →
  Returns (fun _ => True) (arm.fk q) T → IsRigid T → AllowedBy p T →
  ∃ sp' p' Ts, Returns (fun _ => True) (sp.resample arm q) sp' ∧ sp'.tpCurrent = .axisAngle p' ∧
    p'.getSamples = .ok Ts ∧ ∀ T' ∈ Ts, AllowedBy p T'

/-- **C126**, what holds, for every solution: the new point is at the position of the solution with its
orientation as the nominal one, and with half the range of angles and the same number of samples.  The
axis is not kept: the new one is the axis of the solution's own orientation, so it is fixed by that
orientation, and it is zero for the unit orientation. -/
theorem C126_partial {sp : SolPt} {p : AxisAnglePt} {q : Config} {T : M4} (ht : sp.tolType = .axis)
    (hp : sp.tpCurrent = .axisAngle p) (hfk : Returns Inv (arm.fk q) T) (hT : IsRigid T)
    (reduction : ℝ) :
    ∃ p', Returns Inv (sp.resample arm q reduction)
        { sp with qBest := some q, tpCurrent := .axisAngle p' } ∧
      p'.pos = posPart T ∧ p'.quat.norm2 = 1 ∧ p'.quat.rotationMatrix = rotPart T ∧
      p'.angle.lower = p.angle.lower / 2 ∧ p'.angle.upper = p.angle.upper / 2 ∧
      p'.angle.numSamples = p.angle.numSamples ∧
      rotPart T *ᵥ p'.axis = p'.axis ∧ (p'.axis = 0 ∨ p'.axis ⬝ᵥ p'.axis = 1) ∧
      (rotPart T = 1 → p'.axis = 0) := by
  obtain ⟨qee, h1, h2, h3⟩ := Quat.ofRotation_spec hT.1
  obtain ⟨a1, a2, a3⟩ := quatAxis_spec h2
  rw [h3] at a1 a3
  refine ⟨⟨posPart T, quatAxis qee, ⟨p.angle.lower / 2, p.angle.upper / 2,
    p.angle.lower / 2 + (p.angle.upper / 2 - p.angle.lower / 2) / 2, p.angle.numSamples⟩, qee⟩, ?_, rfl,
    h2, h3, rfl, rfl, rfl, a3, a2, a1⟩
  unfold SolPt.resample
  refine Returns.bind hfk (Returns.bind (Returns.lift (a := qee) (by rw [h1]; rfl)) (Returns.lift ?_))
  unfold newPoint
  simp only [ht, hp]
  rfl

/-- **C126**, the next samples, when there is an axis: the solution turned about the axis of its own
orientation. -/
theorem C126_samples {sp : SolPt} {p : AxisAnglePt} {q : Config} {T : M4} (ht : sp.tolType = .axis)
    (hp : sp.tpCurrent = .axisAngle p) (hfk : Returns Inv (arm.fk q) T) (hT : IsRigid T) {n : Nat}
    (hn : p.angle.numSamples = n) (reduction : ℝ) :
    ∃ p', Returns Inv (sp.resample arm q reduction)
        { sp with qBest := some q, tpCurrent := .axisAngle p' } ∧
      ((p'.axis = 0 ∧ (0 < n → p'.getSamples = .error .zeroDivisionError)) ∨
       ∃ u Ts, u ⬝ᵥ u = 1 ∧ rotPart T *ᵥ u = u ∧ p'.getSamples = .ok Ts ∧ Ts.length = n ∧
        ∀ (k : Nat) T', Ts[k]? = some T' → posPart T' = posPart T ∧ ∀ v, rotPart T' *ᵥ v =
          rotateAbout u ((p.angle.lower + k / ((n : ℝ) - 1) * (p.angle.upper - p.angle.lower)) / 2)
            (rotPart T *ᵥ v)) := by
  obtain ⟨p', h1, h2, h3, h4, h5, h6, h7, h8, h9, -⟩ := C126_partial ht hp hfk hT reduction
  refine ⟨p', h1, ?_⟩
  rcases h9 with h9 | h9
  · left
    refine ⟨h9, fun h => C49_zero_axis h9 ?_⟩
    rw [h7, hn]
    exact_mod_cast h
  · right
    obtain ⟨Ts, g1, g2, g3⟩ := C49 (pt := p') (h7.trans hn) (.inl h9) h3
    refine ⟨p'.axis, Ts, h9, h8, g1, g2, fun k T' hk => ?_⟩
    obtain ⟨-, k1, k2⟩ := g3 k T' hk
    refine ⟨k1.trans h2, fun v => ?_⟩
    rw [k2, unitOf_of_unit h9, h4, h5, h6]
    congr 1
    ring

/-- **C126** is false: for a tool that may turn about the vertical and that points down, the resampled
point turns the tool about the first axis instead. -/
theorem C126_refuted : ¬ C126_statement := by
  intro h
  let R : M3 := !![1, 0, 0; 0, -1, 0; 0, 0, -1]
  let quat : Quat := ⟨0, 1, 0, 0⟩
  have hn : quat.norm2 = 1 := by simp [quat, Quat.norm2]
  have hR : quat.rotationMatrix = R := by
    ext i j
    fin_cases i <;> fin_cases j <;> simp [quat, R, Quat.rotationMatrix, Quat.normalise_of_unit hn]
  let p : AxisAnglePt := ⟨0, ![0, 0, 1], ⟨-1, 1, 0, 2⟩, quat⟩
  let sp : SolPt := ⟨.axisAngle p, .axisAngle p, none, .axis, 0⟩
  let arm : Arm Unit Unit := { stripArm 0 with fk := fun _ => pure (mkTf R 0) }
  have hrot : IsRot R := hR ▸ Quat.rotationMatrix_isRot hn
  have hrig : IsRigid (mkTf R 0) := isRigid_mkTf.2 hrot
  have hu : (![0, 0, 1] : V3) ⬝ᵥ ![0, 0, 1] = 1 := by simp [dotProduct, Fin.sum_univ_three]
  have hfk : Returns (fun _ : Unit => True) (arm.fk []) (mkTf R 0) := Returns.pure _
  obtain ⟨sp', p', Ts, h1, h2, h3, h4⟩ := h arm sp p [] (mkTf R 0) rfl rfl (.inl hu) hn
    (by norm_num [p]) (by norm_num [p]) hfk hrig
    ⟨by rw [posPart_mkTf], 0, by norm_num [p], by norm_num [p], fun v => by
      rw [rotPart_mkTf]
      show _ = rotateAbout _ 0 (quat.rotationMatrix *ᵥ v)
      rw [hR]
      simp [rotateAbout]⟩
  obtain ⟨p'', g1, g2⟩ := C126_samples (arm := arm) (Inv := fun _ => True) (sp := sp) (p := p) (q := [])
    rfl rfl hfk hrig (n := 2) rfl 2
  obtain ⟨w, e1, -⟩ := h1 () trivial
  obtain ⟨w', e2, -⟩ := g1 () trivial
  rw [e1] at e2
  cases e2
  cases h2
  rcases g2 with ⟨-, g2⟩ | ⟨u, Ts', k1, k2, k3, k4, k5⟩
  · rw [g2 (by norm_num)] at h3
    cases h3
  · rw [h3] at k3
    cases k3
    rw [rotPart_mkTf] at k2
    have u1 : u 1 = 0 := by
      have := congrFun k2 1
      simp [R, Matrix.mulVec, dotProduct, Fin.sum_univ_three] at this
      linarith
    have u2 : u 2 = 0 := by
      have := congrFun k2 2
      simp [R, Matrix.mulVec, dotProduct, Fin.sum_univ_three] at this
      linarith
    have u0 : u 0 * u 0 = 1 := by
      simpa [dotProduct, Fin.sum_univ_three, u1, u2] using k1
    obtain ⟨T', hT'⟩ : ∃ T', Ts[0]? = some T' := ⟨_, List.getElem?_eq_getElem (by omega)⟩
    obtain ⟨-, hv⟩ := k5 0 T' hT'
    obtain ⟨-, a, -, -, ha⟩ := h4 T' (List.mem_of_getElem? hT')
    have e := (hv ![0, 1, 0]).symm.trans (ha ![0, 1, 0])
    rw [unitOf_of_unit hu] at e
    have e2 := congrFun e 2
    rw [(rotateAbout_apply _ _ _).2.2, (rotateAbout_apply _ _ _).2.2, rotPart_mkTf] at e2
    have hq : p.quat.rotationMatrix = R := hR
    rw [hq] at e2
    simp only [p] at e2
    simp [R, Matrix.mulVec, dotProduct, Fin.sum_univ_three, u1, u2] at e2
    rcases e2 with e2 | e2
    · have := Real.sin_pos_of_pos_of_lt_pi (x := 1 / 2) (by norm_num)
        (by linarith [Real.two_le_pi])
      rw [show ((-1 : ℝ) / 2) = -(1 / 2) by ring, Real.sin_neg] at e2
      linarith
    · rw [e2] at u0
      norm_num at u0

/-- **C126**, a tool in the unit orientation has no axis: the next round raises ZeroDivisionError,
whatever the axis was. -/
theorem C126_identity {sp : SolPt} {p : AxisAnglePt} {q : Config} {T : M4} (ht : sp.tolType = .axis)
    (hp : sp.tpCurrent = .axisAngle p) (hfk : Returns Inv (arm.fk q) T) (hT : IsRigid T)
    (h1 : rotPart T = 1) (hn : 0 < p.angle.numSamples) (reduction : ℝ) :
    ∃ sp', Returns Inv (sp.resample arm q reduction) sp' ∧ ∀ (dr : Draws) (n : Nat) (dist : Option ℝ),
      Planning.getSamples dr n dist sp'.tpCurrent = .error (.py .zeroDivisionError) := by
  obtain ⟨p', k1, -, -, -, -, -, k7, -, -, k10⟩ := C126_partial ht hp hfk hT reduction
  refine ⟨_, k1, fun dr n dist => ?_⟩
  unfold Planning.getSamples
  simp only [C49_zero_axis (k10 h1) (k7 ▸ hn)]
  rfl

/-- The arm of the refutation, with a unit orientation. -/
example : ∃ sp', Returns (fun _ => True)
    (SolPt.resample (stripArm 0) ⟨.axisAngle ⟨0, ![0, 0, 1], ⟨-1, 1, 0, 2⟩, ⟨0, 1, 0, 0⟩⟩,
      .axisAngle ⟨0, ![0, 0, 1], ⟨-1, 1, 0, 2⟩, ⟨0, 1, 0, 0⟩⟩, none, .axis, 0⟩ [0]) sp' ∧
    ∀ (dr : Draws) (n : Nat) (dist : Option ℝ),
      Planning.getSamples dr n dist sp'.tpCurrent = .error (.py .zeroDivisionError) :=
  C126_identity (p := ⟨0, ![0, 0, 1], ⟨-1, 1, 0, 2⟩, ⟨0, 1, 0, 0⟩⟩) (T := 1) rfl rfl (Returns.pure _)
    IsRigid.one (by rw [← mkTf_one, rotPart_mkTf]) (by norm_num) 2

end

end Verif.Props
