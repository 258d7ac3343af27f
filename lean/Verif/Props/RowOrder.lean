import Verif.Props.Angles
import Mathlib.MeasureTheory.Measure.Lebesgue.Basic
import Mathlib.MeasureTheory.Measure.Prod
import Mathlib.Analysis.SpecialFunctions.Trigonometric.Complex

/-!
# C74: how often the angles of a sample are read correctly

The rows of `FreeOrientationPt.get_samples` hold yaw, pitch, roll, and `point_to_frame` reads them as
roll, pitch, yaw (see C74).  The draws for which the frame is right all the same have measure zero.
-/

set_option linter.unusedSectionVars false

namespace Verif.Props

open Matrix MeasureTheory Verif Verif.Path Verif.Geometry Verif.Kin Verif.Util Verif.SampleSO3

/-- The draws for which the first and the last entry on the diagonal of the rotation are the same. -/
def EvenDraws : Set (ℝ × ℝ × ℝ) :=
  {r | r.1 * Real.cos (2 * Real.pi * r.2.2) ^ 2 = (1 - r.1) * Real.cos (2 * Real.pi * r.2.1) ^ 2}

theorem countable_cos (c : ℝ) : {x : ℝ | Real.cos x = c}.Countable := by
  rcases Set.eq_empty_or_nonempty {x : ℝ | Real.cos x = c} with h | ⟨y, hy⟩
  · rw [h]; exact Set.countable_empty
  · refine ((Set.countable_range fun k : ℤ => 2 * (k : ℝ) * Real.pi + y).union
      (Set.countable_range fun k : ℤ => 2 * (k : ℝ) * Real.pi - y)).mono fun x hx => ?_
    have hx' : Real.cos y = Real.cos x := by rw [hy, hx]
    obtain ⟨k, hk | hk⟩ := (Real.cos_eq_cos_iff).1 hx'
    · exact .inl ⟨k, hk.symm⟩
    · exact .inr ⟨k, hk.symm⟩

theorem evenDraws_null : volume EvenDraws = 0 := by
  have hm : MeasurableSet EvenDraws := (isClosed_eq (by fun_prop) (by fun_prop)).measurableSet
  rw [Measure.volume_eq_prod, Measure.measure_prod_null hm]
  have h0 : ∀ᵐ a : ℝ, a ≠ 0 := by simp [ae_iff]
  filter_upwards [h0] with a ha
  rw [Pi.zero_apply, Measure.volume_eq_prod, Measure.measure_prod_null (measurable_prodMk_left hm)]
  refine Filter.Eventually.of_forall fun b => ?_
  refine Set.Countable.measure_zero ?_ _
  have : {x : ℝ | Real.cos x = 2 * ((1 - a) * Real.cos (2 * Real.pi * b) ^ 2 / a) - 1}.Countable :=
    countable_cos _
  refine (this.preimage (f := fun c : ℝ => 4 * Real.pi * c) ?_).mono ?_
  · exact mul_right_injective₀ (by positivity)
  · intro c hc
    have hc' : a * Real.cos (2 * Real.pi * c) ^ 2 = (1 - a) * Real.cos (2 * Real.pi * b) ^ 2 := hc
    show Real.cos (4 * Real.pi * c) = _
    rw [show 4 * Real.pi * c = 2 * (2 * Real.pi * c) by ring, Real.cos_two_mul, ← hc']
    field_simp

/-- The frame of a row is the frame of the draw only if two entries of the rotation agree. -/
theorem rows_diagonal {root : Nat → Nat} {fuel : Nat} {rnd : Nat → ℝ × ℝ × ℝ}
    (hr : ∀ i, InUnit (rnd i)) {p : V3} {n : Nat} {rows : List (List ℝ)} {Ts : List M4}
    (h1 : (FreeOrientationPt.new p).getSamples root fuel rnd n = .ok (.points rows))
    (h2 : (FreeOrientationPt.new p).getSamples root fuel rnd n (some .transform) =
      .ok (.transforms Ts)) {i : Nat} {row : List ℝ} {T : M4} (hrow : rows[i]? = some row)
    (hT : Ts[i]? = some T) (h : pointToFrame row = .ok T) : rnd i ∈ EvenDraws := by
  rcases Nat.eq_zero_or_pos n with rfl | hn
  · rw [(C50_rpy root fuel rnd p 0).2] at h1
    cases h1
  obtain ⟨pts, Ts', -, -, e1, e2, e3⟩ := C74_iff root fuel hr p hn
  rw [e1] at h1
  cases h1
  rw [e2] at h2
  cases h2
  have hTi : T = mkTf (quatOf (rnd i).1 (rnd i).2.1 (rnd i).2.2).rotationMatrix p := by
    rw [C50_rotation] at e2
    cases e2
    simp only [List.getElem?_map, Option.map_eq_some_iff] at hT
    obtain ⟨k, hk, rfl⟩ := hT
    obtain ⟨_, rfl⟩ := List.getElem?_eq_some_iff.1 hk
    simp only [List.getElem_range]
  have hu := quatOf_unit (hr i).1.1 (hr i).1.2 (rnd i).2.1 (rnd i).2.2
  have hR := Quat.rotationMatrix_isRot hu
  have hd : T 0 0 = T 2 2 := by
    by_cases hg : |T 0 2| < 1
    · exact ((e3 i row T hrow hT hg).1 h).1
    · have hRR := mul_eq_one_comm.1 hR.1
      have hrow2 := congrFun (congrFun hRR 0) 0
      have hcol := congrFun (congrFun hR.1 2) 2
      set R := (quatOf (rnd i).1 (rnd i).2.1 (rnd i).2.2).rotationMatrix
      simp only [Matrix.mul_apply, Fin.sum_univ_three, Matrix.transpose_apply, Matrix.one_apply_eq]
        at hrow2 hcol
      have e : ∀ a b : Fin 3, T a.castSucc b.castSucc = R a b := fun a b => by
        rw [hTi]
        exact congrFun (congrFun (rotPart_mkTf R p) a) b
      have e00 : T 0 0 = R 0 0 := e 0 0
      have e02 : T 0 2 = R 0 2 := e 0 2
      have e22 : T 2 2 = R 2 2 := e 2 2
      rw [e02] at hg
      have h2 : 1 ≤ R 0 2 ^ 2 := (one_le_sq_iff_one_le_abs _).2 (not_lt.1 hg)
      have z0 : R 0 0 = 0 := by nlinarith [sq_nonneg (R 0 0), sq_nonneg (R 0 1)]
      have z2 : R 2 2 = 0 := by nlinarith [sq_nonneg (R 2 2), sq_nonneg (R 1 2)]
      rw [e00, e22, z0, z2]
  rw [hTi] at hd
  have a := Real.sq_sqrt (hr i).1.1
  have b := Real.sq_sqrt (sub_nonneg.2 (hr i).1.2)
  simp [mkTf, Quat.rotationMatrix, Quat.normalise_of_unit hu] at hd
  simp only [quatOf, mul_pow, a, b] at hd
  show _ = _
  linarith

/-- **C74**, almost never: outside a set of draws of measure zero no row is read as the frame of its
draw. -/
theorem C74_never : ∃ N : Set (ℝ × ℝ × ℝ), volume N = 0 ∧
    ∀ (root : Nat → Nat) (fuel : Nat) (rnd : Nat → ℝ × ℝ × ℝ), (∀ i, InUnit (rnd i)) →
      ∀ (p : V3) (n : Nat) (rows : List (List ℝ)) (Ts : List M4),
        (FreeOrientationPt.new p).getSamples root fuel rnd n = .ok (.points rows) →
        (FreeOrientationPt.new p).getSamples root fuel rnd n (some .transform) = .ok (.transforms Ts) →
        ∀ (i : Nat) (row : List ℝ) (T : M4), rows[i]? = some row → Ts[i]? = some T → rnd i ∉ N →
          pointToFrame row ≠ .ok T :=
  ⟨EvenDraws, evenDraws_null, fun _ _ _ hr _ _ _ _ h1 h2 _ _ _ hrow hT hN h =>
    hN (rows_diagonal hr h1 h2 hrow hT h)⟩

end Verif.Props
