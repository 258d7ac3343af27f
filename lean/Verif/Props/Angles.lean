import Verif.Props.Nominal
import Verif.Props.Io

/-!
# C74 and C75, exactly

C74: the angles of a sample of a FreeOrientationPt are given in the order yaw, pitch, roll, and
`point_to_frame` reads them in the order x, y, z.  C75: angles above ten are taken for degrees with
euler tolerance but not with position tolerance.  Here it is shown exactly when this makes no
difference.
-/

set_option linter.unusedSectionVars false

namespace Verif.Props

open Matrix Verif.Path Verif.Util Verif.SampleSO3 Verif.Io

theorem swapped_iff {a b c : ℝ} (hb : Real.cos b ≠ 0) :
    rotX a * (rotY b * rotZ c) = rotX c * (rotY b * rotZ a) ↔
      (rotX c * (rotY b * rotZ a)) 0 0 = (rotX c * (rotY b * rotZ a)) 2 2 ∧
        (rotX c * (rotY b * rotZ a)) 0 1 = (rotX c * (rotY b * rotZ a)) 1 2 := by
  have e00 : ∀ x z : ℝ, (rotX x * (rotY b * rotZ z)) 0 0 = Real.cos b * Real.cos z := by
    intro x z; simp [rotX, rotY, rotZ, Matrix.mul_apply, Fin.sum_univ_three]
  have e01 : ∀ x z : ℝ, (rotX x * (rotY b * rotZ z)) 0 1 = -(Real.cos b * Real.sin z) := by
    intro x z; simp [rotX, rotY, rotZ, Matrix.mul_apply, Fin.sum_univ_three]
  have e22 : ∀ x z : ℝ, (rotX x * (rotY b * rotZ z)) 2 2 = Real.cos x * Real.cos b := by
    intro x z; simp [rotX, rotY, rotZ, Matrix.mul_apply, Fin.sum_univ_three]
  have e12 : ∀ x z : ℝ, (rotX x * (rotY b * rotZ z)) 1 2 = -(Real.sin x * Real.cos b) := by
    intro x z; simp [rotX, rotY, rotZ, Matrix.mul_apply, Fin.sum_univ_three]
  constructor
  · intro h
    refine ⟨?_, ?_⟩
    · have := congrFun (congrFun h 0) 0
      rw [e00, e00] at this
      rw [e00, e22, ← this, mul_comm]
    · have := congrFun (congrFun h 0) 1
      rw [e01, e01] at this
      rw [e01, e12, ← this, mul_comm]
  · rintro ⟨h1, h2⟩
    rw [e00, e22, mul_comm] at h1
    rw [e01, e12, mul_comm, neg_inj] at h2
    have hc := mul_right_cancel₀ hb h1
    have hs := mul_right_cancel₀ hb h2
    have hz : rotZ a = rotZ c := by simp only [rotZ, hc, hs]
    have hx : rotX a = rotX c := by simp only [rotX, hc, hs]
    rw [hz, hx]

/-- **C74**, exactly when: for every sample whose pitch is not a right angle, `point_to_frame` gives
the transform of the draw iff the yaw and roll angles are the same; that is, iff the first entry of
the rotation is its last, and its entries above the diagonal are the same. -/
theorem C74_iff (root : Nat → Nat) (fuel : Nat) {rnd : Nat → ℝ × ℝ × ℝ}
    (hr : ∀ i, InUnit (rnd i)) (p : V3) {n : Nat} (hn : 0 < n) :
    ∃ (pts : List (List ℝ)) (Ts : List M4), pts.length = n ∧ Ts.length = n ∧
      (FreeOrientationPt.new p).getSamples root fuel rnd n = .ok (.points pts) ∧
      (FreeOrientationPt.new p).getSamples root fuel rnd n (some .transform) = .ok (.transforms Ts) ∧
      ∀ (i : Nat) (pt : List ℝ) (T : M4), pts[i]? = some pt → Ts[i]? = some T → |T 0 2| < 1 →
        (pointToFrame pt = .ok T ↔ T 0 0 = T 2 2 ∧ T 0 1 = T 1 2) := by
  obtain ⟨as, Ts, h1, h2, h3, h4, h5⟩ := C74_partial root fuel hr p hn
  refine ⟨_, Ts, by rw [List.length_map, h1], h2, h3, h4, fun i pt T hpt hT hg => ?_⟩
  simp only [List.getElem?_map, Option.map_eq_some_iff] at hpt
  obtain ⟨a, ha, rfl⟩ := hpt
  have h6 := (h5 i a T ha hT).2 hg
  have h7 := pointToFrame_ok p ![a 2, a 1, a 0]
  simp only [Matrix.cons_val_zero, Matrix.cons_val_one, Matrix.cons_val] at h7
  rw [h7] at h6
  have h8 := Except.ok.inj h6
  rw [frame] at h8
  simp only [Matrix.cons_val_zero, Matrix.cons_val_one, Matrix.cons_val] at h8
  have hb : Real.cos (a 1) ≠ 0 := by
    intro h0
    have hs : Real.sin (a 1) ^ 2 = 1 := by
      have := Real.sin_sq_add_cos_sq (a 1)
      rw [h0] at this
      linarith
    have e : T 0 2 = Real.sin (a 1) := by
      rw [← h8]
      simp [mkTf, rotX, rotY, rotZ, Matrix.mul_apply, Fin.sum_univ_three]
    rw [e] at hg
    have := abs_lt.1 hg
    nlinarith
  rw [pointToFrame_ok p a, frame]
  have hsw := swapped_iff (a := a 0) (c := a 2) hb
  have hent : ∀ i j : Fin 3, T i.castSucc j.castSucc =
      (rotX (a 2) * (rotY (a 1) * rotZ (a 0))) i j := by
    intro i j
    have := congrFun (congrFun (congrArg rotPart h8) i) j
    rw [rotPart_mkTf] at this
    rw [this]
    rfl
  rw [← hent 0 0, ← hent 2 2, ← hent 0 1, ← hent 1 2] at hsw
  constructor
  · intro h
    have h' := congrArg rotPart (Except.ok.inj h)
    rw [← h8, rotPart_mkTf, rotPart_mkTf] at h'
    exact hsw.1 h'
  · intro h
    rw [← h8, hsw.2 h]

/-- A rational number that is a rational multiple of `π` is zero. -/
theorem rat_mul_pi {x r : ℚ} (h : (x : ℝ) = Real.pi * r) : x = 0 := by
  by_cases hr : r = 0
  · rw [hr] at h
    simpa using h
  · exfalso
    have hr' : (r : ℝ) ≠ 0 := by exact_mod_cast hr
    refine irrational_pi ⟨x / r, ?_⟩
    push_cast
    rw [h]
    field_simp

/-- An angle and its conversion: the difference or the sum makes half turns only for angles that are
left as they are. -/
theorem guess_half_turns {x : ℚ} {k : Int} (s : ℝ) (hs : s = 1 ∨ s = -1)
    (h : (x : ℝ) - s * guessAngleUnit x = Real.pi * k) : x ≤ 10 := by
  by_contra hx
  have hx' : (10 : ℝ) < x := by exact_mod_cast not_le.1 hx
  have h1 : (x : ℝ) = Real.pi * ((k : ℝ) + s * (x / 180)) := by
    rw [guessAngleUnit, if_pos hx'] at h
    linarith
  have h0 : x = 0 := by
    rcases hs with rfl | rfl
    · exact rat_mul_pi (r := k + x / 180) (by push_cast; linarith)
    · exact rat_mul_pi (r := k - x / 180) (by push_cast; linarith)
  rw [h0] at hx
  exact hx (by norm_num)

theorem cos_rat_ne {x : ℚ} : Real.cos x ≠ 0 := by
  intro h
  obtain ⟨k, hk⟩ := Real.cos_eq_zero_iff.1 h
  have h0 : x = 0 := rat_mul_pi (r := (2 * k + 1) / 2) (by rw [hk]; push_cast; ring)
  rw [h0] at h
  simp at h

/-- **C75**, exactly when: for rational angles (all numbers of a JSON file) the two tolerances agree
on the nominal orientation iff no angle exceeds ten. -/
theorem C75_rational {p tol tol' : V3} (r : Fin 3 → ℚ) {t : TolPositionPt} {e : TolEulerPt} {T : M4}
    (h1 : createSymmetricPositionTolerance [p] [(r 0 : ℝ), (r 1 : ℝ), (r 2 : ℝ)]
      [tol 0, tol 1, tol 2] = .ok [.position t])
    (h2 : createSymmetricEulerTolerance [p] [(r 0 : ℝ), (r 1 : ℝ), (r 2 : ℝ)]
      [tol' 0, tol' 1, tol' 2] = .ok [.euler e])
    (h3 : e.nominalTransform = .ok T) :
    t.quat.rotationMatrix = rotPart T ↔ ∀ i, r i ≤ 10 := by
  constructor
  · intro h
    obtain ⟨t', g1, g2⟩ := position_one p (fun i => (r i : ℝ)) tol
    obtain ⟨e', g3, g4⟩ := euler_one p (rpy := fun i => (r i : ℝ))
      (r := fun i => guessAngleUnit (r i)) tol' (fun i => guess_understood _)
    rw [h1] at g1
    rw [h2] at g3
    cases g1
    cases g3
    rw [h3] at g4
    cases g4
    rw [g2, rotPart_mkTf] at h
    set b' := guessAngleUnit (r 1) with hb'
    have e02 := congrFun (congrFun h 0) 2
    have e00 := congrFun (congrFun h 0) 0
    have e01 := congrFun (congrFun h 0) 1
    have e22 := congrFun (congrFun h 2) 2
    have e12 := congrFun (congrFun h 1) 2
    simp only [Rxyz, rotX, rotY, rotZ] at e02 e00 e01 e22 e12
    simp [Matrix.mul_apply, Fin.sum_univ_three] at e02 e00 e01 e22 e12
    have hc : Real.cos (r 1) = Real.cos b' ∨ Real.cos (r 1) = -Real.cos b' := by
      apply sq_eq_sq_iff_eq_or_eq_neg.1
      have a1 := Real.sin_sq_add_cos_sq (r 1 : ℝ)
      have a2 := Real.sin_sq_add_cos_sq b'
      rw [e02] at a1
      linarith
    have hne : Real.cos (r 1 : ℝ) ≠ 0 := cos_rat_ne
    have key : ∀ x y : ℝ, Real.cos (r 1) * Real.cos x = Real.cos b' * Real.cos y →
        Real.cos (r 1) * Real.sin x = Real.cos b' * Real.sin y → ∃ k : Int, x - y = Real.pi * k := by
      intro x y hx hy
      rcases hc with hc | hc
      · rw [← hc] at hx hy
        obtain ⟨m, hm⟩ := turns_of_cos_sin (mul_left_cancel₀ hne hx) (mul_left_cancel₀ hne hy)
        exact ⟨2 * m, by rw [hm]; push_cast; ring⟩
      · have hc' : Real.cos b' = -Real.cos (r 1) := by linarith
        rw [hc', neg_mul, ← mul_neg] at hx hy
        have hx' := mul_left_cancel₀ hne hx
        have hy' := mul_left_cancel₀ hne hy
        rw [← Real.cos_add_pi] at hx'
        rw [← Real.sin_add_pi] at hy'
        obtain ⟨m, hm⟩ := turns_of_cos_sin hx' hy'
        exact ⟨2 * m + 1, by push_cast; linarith⟩
    have k2 : r 2 ≤ 10 := by
      obtain ⟨k, hk⟩ := key _ _ e00 e01
      exact guess_half_turns 1 (.inl rfl) (by rw [one_mul]; exact hk)
    have k0 : r 0 ≤ 10 := by
      obtain ⟨k, hk⟩ := key (r 0) (guessAngleUnit (r 0)) (by rw [mul_comm, e22, mul_comm])
        (by rw [mul_comm, e12, mul_comm])
      exact guess_half_turns 1 (.inl rfl) (by rw [one_mul]; exact hk)
    have k1 : r 1 ≤ 10 := by
      obtain ⟨k, hk | hk⟩ := Real.sin_eq_sin_iff.1 e02
      · exact guess_half_turns (k := -(2 * k)) 1 (.inl rfl) (by push_cast; linarith)
      · exact guess_half_turns (k := 2 * k + 1) (-1) (.inr rfl) (by push_cast; linarith)
    intro i
    fin_cases i
    · exact k0
    · exact k1
    · exact k2
  · intro h
    exact C75_partial (rpy := fun i => (r i : ℝ)) (fun i => by exact_mod_cast h i) h1 h2 h3

/-- C74: three draws that meet the hypotheses. -/
example (p : V3) : ∃ (pts : List (List ℝ)) (Ts : List M4), pts.length = 3 ∧ Ts.length = 3 ∧
    ∀ (i : Nat) (pt : List ℝ) (T : M4), pts[i]? = some pt → Ts[i]? = some T → |T 0 2| < 1 →
      (pointToFrame pt = .ok T ↔ T 0 0 = T 2 2 ∧ T 0 1 = T 1 2) := by
  obtain ⟨pts, Ts, h1, h2, -, -, h⟩ := C74_iff (fun n => n) 0 (rnd := fun _ => (1 / 2, 1 / 4, 0))
    (fun _ => by simp only [InUnit]; norm_num) p (n := 3) (by norm_num)
  exact ⟨pts, Ts, h1, h2, h⟩

/-- A quarter turn in degrees about each of the axes, and a tenth of a radian. -/
example (i : Fin 3) : ∃ t e T,
    createSymmetricPositionTolerance [0] [(Pi.single i (90 : ℚ) : Fin 3 → ℚ) 0,
      (Pi.single i (90 : ℚ) : Fin 3 → ℚ) 1, (Pi.single i (90 : ℚ) : Fin 3 → ℚ) 2] [0, 0, 0]
        = .ok [.position t] ∧
    createSymmetricEulerTolerance [0] [(Pi.single i (90 : ℚ) : Fin 3 → ℚ) 0,
      (Pi.single i (90 : ℚ) : Fin 3 → ℚ) 1, (Pi.single i (90 : ℚ) : Fin 3 → ℚ) 2] [0, 0, 0]
        = .ok [.euler e] ∧
    e.nominalTransform = .ok T ∧ t.quat.rotationMatrix ≠ rotPart T := by
  obtain ⟨t, g1, -⟩ := position_one 0 (fun j => ((Pi.single i (90 : ℚ) : Fin 3 → ℚ) j : ℝ)) 0
  obtain ⟨e, g3, g4⟩ := euler_one 0 (rpy := fun j => ((Pi.single i (90 : ℚ) : Fin 3 → ℚ) j : ℝ))
    (r := fun j => guessAngleUnit ((Pi.single i (90 : ℚ) : Fin 3 → ℚ) j)) 0
    (fun i => guess_understood _)
  refine ⟨t, e, _, g1, g3, g4, fun h => ?_⟩
  have := (C75_rational (p := 0) (tol := 0) (tol' := 0) _ g1 g3 g4).1 h i
  rw [Pi.single_eq_same] at this
  norm_num at this

end Verif.Props
