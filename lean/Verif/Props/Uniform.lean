import Verif.Proofs.Uniform
import Verif.Proofs.Rotation
import Verif.Props.Path
import Verif.Props.Angles
import Verif.Props.Sampler
import Mathlib.MeasureTheory.Constructions.Pi

/-!
# C138: the random orientations are spread evenly over the rotations

`sample_SO3` says of its samples that they are uniformly distributed across the rotation space
(util.py:234-239).  A distribution of rotations is uniform if turning every rotation by a fixed one,
from the left or from the right, does not change it; there is only one such distribution.
-/

set_option linter.unusedSectionVars false

namespace Verif.Props

open MeasureTheory Set Matrix Verif Verif.SampleSO3 Verif.Path Verif.Sampler
open scoped ENNReal

noncomputable section

/-- The nine numbers of a rotation matrix. -/
abbrev Entries := Fin 3 → Fin 3 → ℝ

/-- The draws of `np.random.random`: three numbers of `[0, 1)`. -/
def DrawBox : Set (ℝ × ℝ × ℝ) := Ico 0 1 ×ˢ Ico 0 1 ×ˢ Ico 0 1

/-- The law of one draw. -/
def drawLaw : Measure (ℝ × ℝ × ℝ) := volume.restrict DrawBox

/-- The law of `n` draws that do not depend on each other. -/
def drawsLaw (n : Nat) : Measure (Fin n → ℝ × ℝ × ℝ) := Measure.pi fun _ => drawLaw

/-- The uniform distribution on the rotations: total mass one, all of it on the rotations, and
turning everything by a fixed rotation changes nothing. -/
structure UniformOnRotations (μ : Measure Entries) : Prop where
  total : μ univ = 1
  rotations : μ {E | ¬ IsRot (Matrix.of E)} = 0
  left : ∀ R : M3, IsRot R → ∀ A : Set Entries, MeasurableSet A →
    μ {E | (fun i j => (R * Matrix.of E) i j) ∈ A} = μ A
  right : ∀ R : M3, IsRot R → ∀ A : Set Entries, MeasurableSet A →
    μ {E | (fun i j => (Matrix.of E * R) i j) ∈ A} = μ A

theorem measurable_mulLeft (R : M3) : Measurable fun E : Entries => fun i j => (R * Matrix.of E) i j := by
  refine measurable_pi_lambda _ fun i => measurable_pi_lambda _ fun j => ?_
  simp only [Matrix.mul_apply, Matrix.of_apply]
  fun_prop

theorem measurable_mulRight (R : M3) : Measurable fun E : Entries => fun i j => (Matrix.of E * R) i j := by
  refine measurable_pi_lambda _ fun i => measurable_pi_lambda _ fun j => ?_
  simp only [Matrix.mul_apply, Matrix.of_apply]
  fun_prop

theorem measurable_mulBoth : Measurable fun p : Entries × Entries =>
    (fun i j => (Matrix.of p.1 * Matrix.of p.2) i j : Entries) := by
  refine measurable_pi_lambda _ fun i => measurable_pi_lambda _ fun j => ?_
  simp only [Matrix.mul_apply, Matrix.of_apply]
  fun_prop

/-- **C138**, there is only one uniform distribution on the rotations. -/
theorem C138_unique {μ ν : Measure Entries} (hμ : UniformOnRotations μ) (hν : UniformOnRotations ν) :
    μ = ν := by
  haveI : IsProbabilityMeasure μ := ⟨hμ.total⟩
  haveI : IsProbabilityMeasure ν := ⟨hν.total⟩
  have hrμ : ∀ᵐ E ∂μ, IsRot (Matrix.of E) := by rw [ae_iff]; exact hμ.rotations
  have hrν : ∀ᵐ E ∂ν, IsRot (Matrix.of E) := by rw [ae_iff]; exact hν.rotations
  ext A hA
  let f : Entries × Entries → ℝ≥0∞ := fun p =>
    A.indicator (fun _ => 1) (fun i j => (Matrix.of p.1 * Matrix.of p.2) i j)
  have hf : Measurable f := (measurable_const.indicator hA).comp measurable_mulBoth
  have h1 : ∫⁻ E, ∫⁻ F, f (E, F) ∂ν ∂μ = ν A := by
    have : ∀ᵐ E ∂μ, ∫⁻ F, f (E, F) ∂ν = ν A := by
      filter_upwards [hrμ] with E hE
      have h := hν.left _ hE A hA
      have hS : MeasurableSet {F : Entries | (fun i j => (Matrix.of E * Matrix.of F) i j : Entries) ∈ A} :=
        measurable_mulLeft _ hA
      exact (lintegral_indicator_one hS).trans h
    rw [lintegral_congr_ae this]
    simp
  have h2 : ∫⁻ F, ∫⁻ E, f (E, F) ∂μ ∂ν = μ A := by
    have : ∀ᵐ F ∂ν, ∫⁻ E, f (E, F) ∂μ = μ A := by
      filter_upwards [hrν] with F hF
      have h := hμ.right _ hF A hA
      have hS : MeasurableSet {E : Entries | (fun i j => (Matrix.of E * Matrix.of F) i j : Entries) ∈ A} :=
        measurable_mulRight _ hA
      exact (lintegral_indicator_one hS).trans h
    rw [lintegral_congr_ae this]
    simp
  rw [← h1, ← h2]
  exact (lintegral_lintegral_swap (f := fun E F => f (E, F)) hf.aemeasurable).symm

/-! ## Four numbers as a quaternion -/

/-- The quaternion of a point of the two planes. -/
def toQuat (a : Uniform.Four) : Quat := ⟨a.1.2, a.1.1, a.2.2, a.2.1⟩

/-- The point of the two planes of a quaternion. -/
def ofQuat (q : Quat) : Uniform.Four := ((q.x, q.w), (q.z, q.y))

theorem toQuat_ofQuat (q : Quat) : toQuat (ofQuat q) = q := rfl

theorem sq_ofQuat (q : Quat) : Uniform.sq (ofQuat q) = q.norm2 := by
  simp only [Uniform.sq, ofQuat, Quat.norm2]; ring

theorem norm2_toQuat (a : Uniform.Four) : (toQuat a).norm2 = Uniform.sq a := by
  simp only [Uniform.sq, toQuat, Quat.norm2]; ring

theorem toQuat_spherePt (u : ℝ × ℝ × ℝ) : toQuat (Uniform.spherePt u) = quatOf u.1 u.2.1 u.2.2 := rfl

/-- The polynomials of the rotation matrix. -/
def polyRot (q : Quat) : M3 :=
  !![q.w ^ 2 + q.x ^ 2 - q.y ^ 2 - q.z ^ 2, 2 * (q.x * q.y - q.w * q.z),
      2 * (q.x * q.z + q.w * q.y);
     2 * (q.x * q.y + q.w * q.z), q.w ^ 2 - q.x ^ 2 + q.y ^ 2 - q.z ^ 2,
      2 * (q.y * q.z - q.w * q.x);
     2 * (q.x * q.z - q.w * q.y), 2 * (q.y * q.z + q.w * q.x),
      q.w ^ 2 - q.x ^ 2 - q.y ^ 2 + q.z ^ 2]

theorem polyRot_eq {q : Quat} (h : q.norm2 = 1) : polyRot q = q.rotationMatrix := by
  simp only [polyRot, Quat.rotationMatrix, Quat.normalise_of_unit h]

/-- The entries as a function of the four numbers. -/
def rotEntries (a : Uniform.Four) : Entries := fun i j => polyRot (toQuat a) i j

theorem measurable_rotEntries : Measurable rotEntries := by
  refine measurable_pi_lambda _ fun i => measurable_pi_lambda _ fun j => ?_
  fin_cases i <;> fin_cases j <;> simp [rotEntries, polyRot, toQuat] <;> fun_prop

theorem of_rotEntries (a : Uniform.Four) : Matrix.of (rotEntries a) = polyRot (toQuat a) := rfl

/-- The conjugate of a quaternion. -/
def conjQ (q : Quat) : Quat := ⟨q.w, -q.x, -q.y, -q.z⟩

/-- Multiplication from the left by a unit quaternion, as a map of the two planes. -/
def leftMap (p : Quat) (hp : p.norm2 = 1) : Uniform.Four ≃ₗ[ℝ] Uniform.Four where
  toFun a := ofQuat (p.mul (toQuat a))
  map_add' a b := by simp [ofQuat, toQuat, Quat.mul]; constructor <;> constructor <;> ring
  map_smul' c a := by simp [ofQuat, toQuat, Quat.mul]; constructor <;> constructor <;> ring
  invFun a := ofQuat ((conjQ p).mul (toQuat a))
  left_inv a := by
    simp only [Quat.norm2] at hp
    ext <;> simp [ofQuat, toQuat, Quat.mul, conjQ]
    · linear_combination a.1.1 * hp
    · linear_combination a.1.2 * hp
    · linear_combination a.2.1 * hp
    · linear_combination a.2.2 * hp
  right_inv a := by
    simp only [Quat.norm2] at hp
    ext <;> simp [ofQuat, toQuat, Quat.mul, conjQ]
    · linear_combination a.1.1 * hp
    · linear_combination a.1.2 * hp
    · linear_combination a.2.1 * hp
    · linear_combination a.2.2 * hp

/-- Multiplication from the right. -/
def rightMap (p : Quat) (hp : p.norm2 = 1) : Uniform.Four ≃ₗ[ℝ] Uniform.Four where
  toFun a := ofQuat ((toQuat a).mul p)
  map_add' a b := by simp [ofQuat, toQuat, Quat.mul]; constructor <;> constructor <;> ring
  map_smul' c a := by simp [ofQuat, toQuat, Quat.mul]; constructor <;> constructor <;> ring
  invFun a := ofQuat ((toQuat a).mul (conjQ p))
  left_inv a := by
    simp only [Quat.norm2] at hp
    ext <;> simp [ofQuat, toQuat, Quat.mul, conjQ]
    · linear_combination a.1.1 * hp
    · linear_combination a.1.2 * hp
    · linear_combination a.2.1 * hp
    · linear_combination a.2.2 * hp
  right_inv a := by
    simp only [Quat.norm2] at hp
    ext <;> simp [ofQuat, toQuat, Quat.mul, conjQ]
    · linear_combination a.1.1 * hp
    · linear_combination a.1.2 * hp
    · linear_combination a.2.1 * hp
    · linear_combination a.2.2 * hp

/-- The samples of `samplers.py` name the four numbers in another order. -/
def turnMap : Uniform.Four ≃ₗ[ℝ] Uniform.Four where
  toFun a := ofQuat ⟨(toQuat a).x, (toQuat a).y, (toQuat a).z, (toQuat a).w⟩
  map_add' a b := by simp [ofQuat, toQuat]
  map_smul' c a := by simp [ofQuat, toQuat]
  invFun a := ofQuat ⟨(toQuat a).z, (toQuat a).w, (toQuat a).x, (toQuat a).y⟩
  left_inv a := rfl
  right_inv a := rfl

/-- The first and the third of the vector part exchanged. -/
def swapMap : Uniform.Four ≃ₗ[ℝ] Uniform.Four where
  toFun a := ofQuat ⟨(toQuat a).w, (toQuat a).z, (toQuat a).y, (toQuat a).x⟩
  map_add' a b := by simp [ofQuat, toQuat]
  map_smul' c a := by simp [ofQuat, toQuat]
  invFun a := ofQuat ⟨(toQuat a).w, (toQuat a).z, (toQuat a).y, (toQuat a).x⟩
  left_inv a := rfl
  right_inv a := rfl

/-- The distribution of the rotation of one sample. -/
def rotLaw : Measure Entries := drawLaw.map fun u => rotEntries (Uniform.spherePt u)

theorem measurable_rot : Measurable fun u => rotEntries (Uniform.spherePt u) :=
  measurable_rotEntries.comp Uniform.measurable_spherePt

theorem measurableSet_drawBox : MeasurableSet DrawBox :=
  measurableSet_Ico.prod (measurableSet_Ico.prod measurableSet_Ico)

instance : IsProbabilityMeasure drawLaw := by
  refine ⟨?_⟩
  rw [drawLaw, Measure.restrict_apply_univ, DrawBox, Measure.volume_eq_prod, Measure.prod_prod,
    Measure.volume_eq_prod, Measure.prod_prod]
  simp

/-- A rearrangement of the four dimensions does not change the distribution. -/
theorem rotLaw_comp (L : Uniform.Four ≃ₗ[ℝ] Uniform.Four) (hL : ∀ x, Uniform.sq (L x) = Uniform.sq x) :
    (drawLaw.map fun u => rotEntries (L (Uniform.spherePt u))) = rotLaw := by
  have hLm : Measurable L := (L.toLinearMap.continuous_of_finiteDimensional).measurable
  ext A hA
  have hm1 : Measurable fun u => rotEntries (L (Uniform.spherePt u)) :=
    measurable_rotEntries.comp (hLm.comp Uniform.measurable_spherePt)
  rw [rotLaw, Measure.map_apply hm1 hA, Measure.map_apply measurable_rot hA,
    ← lintegral_indicator_one (hm1 hA), ← lintegral_indicator_one (measurable_rot hA)]
  exact Uniform.even L hL (fun a => (rotEntries ⁻¹' A).indicator 1 a)
    (measurable_one.indicator (measurable_rotEntries hA))

theorem unit_of_mem {u : ℝ × ℝ × ℝ} (hu : u ∈ DrawBox) : (quatOf u.1 u.2.1 u.2.2).norm2 = 1 :=
  quatOf_unit hu.1.1 hu.1.2.le _ _

theorem ae_mem : ∀ᵐ u ∂drawLaw, u ∈ DrawBox := ae_restrict_mem measurableSet_drawBox

theorem uniform_rotLaw : UniformOnRotations rotLaw where
  total := by
    rw [rotLaw, Measure.map_apply measurable_rot MeasurableSet.univ, preimage_univ, measure_univ]
  rotations := by
    have : ∀ᵐ E ∂rotLaw, IsRot (Matrix.of E) := by
      rw [rotLaw]
      have hc : MeasurableSet {E : Entries | IsRot (Matrix.of E)} := by
        have he : {E : Entries | IsRot (Matrix.of E)} =
            {E | (fun i j => ((Matrix.of E)ᵀ * Matrix.of E) i j : Entries) = fun i j => (1 : M3) i j} ∩
            {E | (Matrix.of E).det = 1} := by
          ext E
          simp only [IsRot, mem_ofPred_eq, mem_inter_iff]
          exact and_congr_left fun _ => ⟨fun h => by rw [h], fun h => by ext i j; exact congrFun (congrFun h i) j⟩
        rw [he]
        refine MeasurableSet.inter (measurableSet_eq_fun ?_ measurable_const)
          (measurableSet_eq_fun ?_ measurable_const)
        · refine measurable_pi_lambda _ fun i => measurable_pi_lambda _ fun j => ?_
          simp only [Matrix.mul_apply, Matrix.transpose_apply, Matrix.of_apply]
          fun_prop
        · simp only [Matrix.det_fin_three, Matrix.of_apply]
          fun_prop
      rw [ae_map_iff measurable_rot.aemeasurable hc]
      filter_upwards [ae_mem] with u hu
      rw [of_rotEntries, toQuat_spherePt, polyRot_eq (unit_of_mem hu)]
      exact Quat.rotationMatrix_isRot (unit_of_mem hu)
    exact ae_iff.1 this
  left R hR A hA := by
    obtain ⟨p, hp, rfl⟩ := hR.exists_quat
    conv_rhs => rw [← rotLaw_comp (leftMap p hp) (fun x => by
      change Uniform.sq (ofQuat _) = _
      rw [sq_ofQuat, Quat.norm2_mul, hp, one_mul, norm2_toQuat])]
    have hLm : Measurable (leftMap p hp) :=
      ((leftMap p hp).toLinearMap.continuous_of_finiteDimensional).measurable
    have hm1 : Measurable fun u => rotEntries (leftMap p hp (Uniform.spherePt u)) :=
      measurable_rotEntries.comp (hLm.comp Uniform.measurable_spherePt)
    have hS : MeasurableSet {E : Entries | (fun i j => (p.rotationMatrix * Matrix.of E) i j : Entries) ∈ A} :=
      measurable_mulLeft _ hA
    refine (Measure.map_apply measurable_rot hS).trans ?_
    rw [Measure.map_apply hm1 hA]
    refine measure_congr ?_
    filter_upwards [ae_mem] with u hu
    have e : (fun i j => (p.rotationMatrix * Matrix.of (rotEntries (Uniform.spherePt u))) i j) =
        rotEntries (leftMap p hp (Uniform.spherePt u)) := by
      rw [of_rotEntries, toQuat_spherePt, polyRot_eq (unit_of_mem hu),
        ← Quat.rotationMatrix_mul hp (unit_of_mem hu), ← polyRot_eq (by
          rw [Quat.norm2_mul, hp, unit_of_mem hu, one_mul])]
      rfl
    exact propext (by
      change (fun i j => (p.rotationMatrix * Matrix.of (rotEntries (Uniform.spherePt u))) i j) ∈ A ↔ _
      rw [e]; rfl)
  right R hR A hA := by
    obtain ⟨p, hp, rfl⟩ := hR.exists_quat
    conv_rhs => rw [← rotLaw_comp (rightMap p hp) (fun x => by
      change Uniform.sq (ofQuat _) = _
      rw [sq_ofQuat, Quat.norm2_mul, hp, mul_one, norm2_toQuat])]
    have hLm : Measurable (rightMap p hp) :=
      ((rightMap p hp).toLinearMap.continuous_of_finiteDimensional).measurable
    have hm1 : Measurable fun u => rotEntries (rightMap p hp (Uniform.spherePt u)) :=
      measurable_rotEntries.comp (hLm.comp Uniform.measurable_spherePt)
    have hS : MeasurableSet {E : Entries | (fun i j => (Matrix.of E * p.rotationMatrix) i j : Entries) ∈ A} :=
      measurable_mulRight _ hA
    refine (Measure.map_apply measurable_rot hS).trans ?_
    rw [Measure.map_apply hm1 hA]
    refine measure_congr ?_
    filter_upwards [ae_mem] with u hu
    have e : (fun i j => (Matrix.of (rotEntries (Uniform.spherePt u)) * p.rotationMatrix) i j) =
        rotEntries (rightMap p hp (Uniform.spherePt u)) := by
      rw [of_rotEntries, toQuat_spherePt, polyRot_eq (unit_of_mem hu),
        ← Quat.rotationMatrix_mul (unit_of_mem hu) hp, ← polyRot_eq (by
          rw [Quat.norm2_mul, hp, unit_of_mem hu, one_mul])]
      rfl
    exact propext (by
      change (fun i j => (Matrix.of (rotEntries (Uniform.spherePt u)) * p.rotationMatrix) i j) ∈ A ↔ _
      rw [e]; rfl)

/-! ## What the functions return -/

/-- `n` independent samples, each of them uniform. -/
def IndependentUniform {n : Nat} (X : (Fin n → ℝ × ℝ × ℝ) → Fin n → Entries) : Prop :=
  Measurable X ∧ ∃ μ, UniformOnRotations μ ∧ (drawsLaw n).map X = Measure.pi fun _ => μ

theorem independent_of (L : Uniform.Four ≃ₗ[ℝ] Uniform.Four)
    (hL : ∀ x, Uniform.sq (L x) = Uniform.sq x) (n : Nat) :
    IndependentUniform fun (d : Fin n → ℝ × ℝ × ℝ) i => rotEntries (L (Uniform.spherePt (d i))) := by
  have hLm : Measurable L := (L.toLinearMap.continuous_of_finiteDimensional).measurable
  have hm1 : Measurable fun u => rotEntries (L (Uniform.spherePt u)) :=
    measurable_rotEntries.comp (hLm.comp Uniform.measurable_spherePt)
  refine ⟨measurable_pi_lambda _ fun i => hm1.comp (measurable_pi_apply i), rotLaw, uniform_rotLaw, ?_⟩
  haveI : IsProbabilityMeasure (drawLaw.map fun u => rotEntries (L (Uniform.spherePt u))) :=
    Measure.isProbabilityMeasure_map hm1.aemeasurable
  rw [drawsLaw, Measure.pi_map_pi (f := fun (_ : Fin n) u => rotEntries (L (Uniform.spherePt u)))
    fun _ => hm1.aemeasurable, rotLaw_comp L hL]

theorem map_range_ofFn {α β : Type} (n : Nat) (rnd : Nat → α) (f : α → β) :
    ((List.range n).map rnd).map f = List.ofFn fun i : Fin n => f (rnd i) := by
  apply List.ext_getElem <;> simp

/-- **C138**: `n` calls' worth of draws give `n` rotations that are independent of each other and
each uniform on the rotations, as the docstring of `sample_SO3` says; the transforms and the
quaternions returned are these rotations. -/
theorem C138_samples (n : Nat) : ∃ X : (Fin n → ℝ × ℝ × ℝ) → Fin n → Entries, IndependentUniform X ∧
    ∀ (root : Nat → Nat) (fuel : Nat) (rnd : Nat → ℝ × ℝ × ℝ), (∀ i < n, rnd i ∈ DrawBox) →
      sampleSO3 root fuel rnd n .transform .random =
        .ok (.transforms (List.ofFn fun i => mkTf (Matrix.of (X (fun i => rnd i) i)) 0)) ∧
      ∃ qs, sampleSO3 root fuel rnd n .quat .random = .ok (.quats qs) ∧
        qs.map Quat.rotationMatrix = List.ofFn fun i => Matrix.of (X (fun i => rnd i) i) := by
  refine ⟨_, independent_of (LinearEquiv.refl ℝ _) (fun _ => rfl) n, fun root fuel rnd hr => ?_⟩
  have e : ∀ i : Fin n, (quatOf (rnd i).1 (rnd i).2.1 (rnd i).2.2).rotationMatrix =
      Matrix.of (rotEntries ((LinearEquiv.refl ℝ Uniform.Four) (Uniform.spherePt (rnd i)))) := by
    intro i
    rw [of_rotEntries, LinearEquiv.refl_apply, toQuat_spherePt, polyRot_eq (unit_of_mem (hr i i.2))]
  refine ⟨?_, _, rfl, ?_⟩
  · simp only [sampleSO3, draws, bind, Except.bind]
    rw [List.map_map, map_range_ofFn]
    simp only [Function.comp, Quat.transformationMatrix, e]
  · rw [List.map_map, map_range_ofFn]
    simp only [Function.comp, e]

/-- **C138**, a path point with free orientation: with `rep="transform"` the samples are
independent, uniform and at the point. -/
theorem C138_point (n : Nat) : ∃ X : (Fin n → ℝ × ℝ × ℝ) → Fin n → Entries, IndependentUniform X ∧
    ∀ (root : Nat → Nat) (fuel : Nat) (rnd : Nat → ℝ × ℝ × ℝ) (p : V3), (∀ i < n, rnd i ∈ DrawBox) →
      (FreeOrientationPt.new p).getSamples root fuel rnd n (some .transform) none =
        .ok (.transforms (List.ofFn fun i => mkTf (Matrix.of (X (fun i => rnd i) i)) p)) := by
  refine ⟨_, independent_of (LinearEquiv.refl ℝ _) (fun _ => rfl) n, fun root fuel rnd p hr => ?_⟩
  have e : ∀ i : Fin n, (quatOf (rnd i).1 (rnd i).2.1 (rnd i).2.2).rotationMatrix =
      Matrix.of (rotEntries ((LinearEquiv.refl ℝ Uniform.Four) (Uniform.spherePt (rnd i)))) := by
    intro i
    rw [of_rotEntries, LinearEquiv.refl_apply, toQuat_spherePt, polyRot_eq (unit_of_mem (hr i i.2))]
  rw [C50_rotation]
  have := map_range_ofFn n rnd fun u => mkTf (quatOf u.1 u.2.1 u.2.2).rotationMatrix p
  rw [List.map_map] at this
  simp only [Function.comp_def] at this
  rw [this]
  simp only [e]

theorem mapM_ofFn {α β : Type} {n : Nat} {f : α → Except PyErr β} {a : Fin n → α} {b : Fin n → β}
    (h : ∀ i, f (a i) = .ok (b i)) : (List.ofFn a).mapM f = .ok (List.ofFn b) := by
  induction n with
  | zero => rfl
  | succ n ih =>
    rw [List.ofFn_succ, List.ofFn_succ, List.mapM_cons, h 0, ih fun i => h i.succ]
    rfl

/-- A draw whose first number is not one half is away from the gimbal lock. -/
theorem off_gimbal {u : ℝ × ℝ × ℝ} (hu : u ∈ DrawBox) (hh : u.1 ≠ 1 / 2) :
    |2 * ((quatOf u.1 u.2.1 u.2.2).w * (quatOf u.1 u.2.1 u.2.2).y +
      (quatOf u.1 u.2.1 u.2.2).z * (quatOf u.1 u.2.1 u.2.2).x)| < 1 := by
  have hn := unit_of_mem hu
  have a := Real.sq_sqrt hu.1.1
  have b := Real.sq_sqrt (sub_nonneg.2 hu.1.2.le)
  have c := Real.sin_sq_add_cos_sq (2 * Real.pi * u.2.1)
  have d := Real.sin_sq_add_cos_sq (2 * Real.pi * u.2.2)
  have h1 : (quatOf u.1 u.2.1 u.2.2).w ^ 2 + (quatOf u.1 u.2.1 u.2.2).x ^ 2 = 1 - u.1 := by
    simp only [quatOf, mul_pow, b]
    linear_combination (1 - u.1) * c
  have h2 : (quatOf u.1 u.2.1 u.2.2).y ^ 2 + (quatOf u.1 u.2.1 u.2.2).z ^ 2 = u.1 := by
    simp only [quatOf, mul_pow, a]
    linear_combination u.1 * d
  generalize quatOf u.1 u.2.1 u.2.2 = q at *
  have hne : ∀ s : ℝ, s ^ 2 = 1 → 0 < (q.w - s * q.y) ^ 2 + (q.x - s * q.z) ^ 2 := by
    intro s hs
    refine lt_of_le_of_ne (by positivity) fun h0 => hh ?_
    have hw : q.w - s * q.y = 0 := by nlinarith [sq_nonneg (q.w - s * q.y), sq_nonneg (q.x - s * q.z)]
    have hx : q.x - s * q.z = 0 := by nlinarith [sq_nonneg (q.w - s * q.y), sq_nonneg (q.x - s * q.z)]
    have ew : q.w = s * q.y := by linarith
    have ex : q.x = s * q.z := by linarith
    rw [ew, ex, mul_pow, mul_pow, hs] at h1
    linarith
  have p1 := hne 1 (by norm_num)
  have p2 := hne (-1) (by norm_num)
  rw [abs_lt]
  constructor <;> nlinarith

/-- The frame that is made of a default row: the rotation of the quaternion with two parts
exchanged. -/
theorem pointToFrame_swapped {q : Quat} (hq : q.norm2 = 1) (hg : |2 * (q.w * q.y + q.z * q.x)| < 1)
    (p : V3) :
    pointToFrame [p 0, p 1, p 2, q.yawPitchRoll 0, q.yawPitchRoll 1, q.yawPitchRoll 2] =
      .ok (mkTf (polyRot ⟨q.w, q.z, q.y, q.x⟩) p) := by
  have hs : (⟨q.w, q.z, q.y, q.x⟩ : Quat).norm2 = 1 := by
    rw [← hq]; simp only [Quat.norm2]; ring
  have h := Quat.yawPitchRoll_spec hs (by
    have e : q.w * q.y + q.x * q.z = q.w * q.y + q.z * q.x := by ring
    simpa only [e] using hg)
  have e0 : (⟨q.w, q.z, q.y, q.x⟩ : Quat).yawPitchRoll = ![q.yawPitchRoll 2, q.yawPitchRoll 1,
      q.yawPitchRoll 0] := by
    simp only [Quat.yawPitchRoll, Quat.normalise_of_unit hs, Quat.normalise_of_unit hq]
    ext i
    fin_cases i <;> simp <;> ring_nf
  rw [e0] at h
  simp only [Matrix.cons_val] at h
  rw [pointToFrame_ok p q.yawPitchRoll, frame, h, polyRot_eq hs]

/-- **C138**, the default rows of a free point: `point_to_frame` reads the yaw angle of a row as the
first angle and the roll as the last, so a frame is not the rotation that was drawn (C74), yet for
almost all draws the frames are independent, uniform and at the point. -/
theorem C138_rows {n : Nat} (hn : 0 < n) : ∃ X : (Fin n → ℝ × ℝ × ℝ) → Fin n → Entries,
    IndependentUniform X ∧ ∀ᵐ d ∂drawsLaw n,
      ∀ (root : Nat → Nat) (fuel : Nat) (rnd : Nat → ℝ × ℝ × ℝ) (p : V3),
        (∀ i : Fin n, rnd i = d i) →
        ∃ pts, (FreeOrientationPt.new p).getSamples root fuel rnd n = .ok (.points pts) ∧
          pts.mapM pointToFrame = .ok (List.ofFn fun i => mkTf (Matrix.of (X d i)) p) := by
  refine ⟨_, independent_of swapMap (fun x => by simp [Uniform.sq, swapMap, toQuat, ofQuat]; ring) n, ?_⟩
  have hhalf : ∀ᵐ u ∂drawLaw, u.1 ≠ 1 / 2 := by
    rw [drawLaw, DrawBox, Measure.volume_eq_prod, ← Measure.prod_restrict, ae_iff]
    have e : {u : ℝ × ℝ × ℝ | ¬ u.1 ≠ 1 / 2} = {1 / 2} ×ˢ univ := by ext u; simp
    rw [e, Measure.prod_prod]
    simp
  have hall : ∀ᵐ d ∂drawsLaw n, ∀ i, d i ∈ DrawBox ∧ (d i).1 ≠ 1 / 2 := by
    rw [Filter.eventually_all]
    intro i
    exact (Measure.tendsto_eval_ae_ae (μ := fun _ : Fin n => drawLaw) (i := i)).eventually
      (ae_mem.and hhalf)
  filter_upwards [hall] with d hd root fuel rnd p hr
  obtain ⟨as, h1, h2, h3⟩ := (C50_rpy root fuel rnd p n).1 hn
  refine ⟨_, h3, ?_⟩
  have h1' := Out.rpys.inj (Except.ok.inj h1)
  subst h1'
  rw [List.map_map, map_range_ofFn, List.map_ofFn, mapM_ofFn]
  intro i
  have hu := hd i
  rw [← hr i] at hu
  have hq := unit_of_mem hu.1
  have hg := off_gimbal hu.1 hu.2
  have e := pointToFrame_swapped hq hg p
  simp only [Function.comp]
  rw [e, ← hr i, of_rotEntries]
  rfl

/-- **C138**, `random_quaternion` of samplers.py, once the missing import is there: uniform too. -/
theorem C138_sampler : ∃ X : ℝ × ℝ × ℝ → Entries, Measurable X ∧ UniformOnRotations (drawLaw.map X) ∧
    ∀ u ∈ DrawBox, ∃ q, randomQuaternion true u = .ok q ∧ q.rotationMatrix = Matrix.of (X u) := by
  have hL : ∀ x, Uniform.sq (turnMap x) = Uniform.sq x := fun x => by
    simp [Uniform.sq, turnMap, toQuat, ofQuat]; ring
  refine ⟨fun u => rotEntries (turnMap (Uniform.spherePt u)), ?_, ?_, fun u hu => ?_⟩
  · exact measurable_rotEntries.comp
      ((turnMap.toLinearMap.continuous_of_finiteDimensional).measurable.comp Uniform.measurable_spherePt)
  · rw [rotLaw_comp turnMap hL]; exact uniform_rotLaw
  · obtain ⟨q, h1, h2, h3⟩ := C95_unit_partial u
      ⟨⟨hu.1.1, hu.1.2.le⟩, ⟨hu.2.1.1, hu.2.1.2.le⟩, hu.2.2.1, hu.2.2.2.le⟩
    refine ⟨q, h1, ?_⟩
    rw [of_rotEntries, ← polyRot_eq h2]
    congr 1
    change q = toQuat (ofQuat ⟨(toQuat (Uniform.spherePt u)).x, _, _, _⟩)
    rw [toQuat_ofQuat, toQuat_spherePt, h3]

/-- A draw meeting the hypotheses, and a distribution that is uniform: the one of a single sample. -/
example : ((1 / 4, 1 / 2, 1 / 3) : ℝ × ℝ × ℝ) ∈ DrawBox ∧ ∃ μ, UniformOnRotations μ := by
  refine ⟨?_, _, uniform_rotLaw⟩
  simp only [DrawBox, Set.mem_prod, Set.mem_Ico]
  norm_num

end

end Verif.Props
