import Verif.Props.Resources
import Mathlib.Analysis.Real.Pi.Bounds

/-!
# C91: the welding torch (torch_model.py)
-/

set_option linter.unusedSectionVars false

namespace Verif.Props

open Matrix Verif.Util Verif.Geometry Verif.Kin Verif.Path Verif.Resources
theorem tool_rot : rotY (-Real.pi / 2) * rotX (-Real.pi / 2) = !![0, 1, 0; 0, 0, 1; 1, 0, 0] := by
  have c : Real.cos (-Real.pi / 2) = 0 := by
    rw [neg_div, Real.cos_neg, Real.cos_pi_div_two]
  have s : Real.sin (-Real.pi / 2) = -1 := by
    rw [neg_div, Real.sin_neg, Real.sin_pi_div_two]
  ext i j
  fin_cases i <;> fin_cases j <;> simp [rotX, rotY, c, s, Matrix.mul_apply, Fin.sum_univ_succ]

/-- The frame whose x-axis is the flange z-axis turned by `a` about the flange y-axis. -/
noncomputable def torchRot (a : ℝ) : M3 :=
  !![Real.sin a, Real.cos a, 0; 0, 0, 1; Real.cos a, -Real.sin a, 0]

theorem tool_rotZ (a : ℝ) :
    (!![0, 1, 0; 0, 0, 1; 1, 0, 0] : M3) * rotZ a = torchRot a := by
  ext i j
  fin_cases i <;> fin_cases j <;> simp [rotZ, torchRot, Matrix.mul_apply, Fin.sum_univ_succ]

theorem torchRot_mul (a b : ℝ) : torchRot a * rotZ b = torchRot (a + b) := by
  ext i j
  fin_cases i <;> fin_cases j <;>
    simp [rotZ, torchRot, Matrix.mul_apply, Fin.sum_univ_succ, Real.sin_add, Real.cos_add] <;> ring

theorem torchRot_isRot (a : ℝ) : IsRot (torchRot a) := by
  rw [← tool_rotZ, ← tool_rot]
  exact ((rotY_isRot _).mul (rotX_isRot _)).mul (rotZ_isRot _)

theorem torch_eq (a1 a2 : ℝ) :
    (torchOf a1 a2).tfS = [mkTf (torchRot 0) (torchRot 0 *ᵥ torchPos a2 0),
      mkTf (torchRot a1) (torchRot a1 *ᵥ torchPos a2 1),
      mkTf (torchRot a1) (torchRot a1 *ᵥ torchPos a2 2),
      mkTf (torchRot a1) (torchRot a1 *ᵥ torchPos a2 3),
      mkTf (torchRot (a1 + a2)) (torchRot a1 *ᵥ torchPos a2 4)] ∧
    (torchOf a1 a2).tfTT = mkTf (torchRot (a1 + a2) * rotY (Real.pi / 2))
      (torchRot a1 *ᵥ (torchPos a2 4 + rotZ a2 *ᵥ ![0.06, 0, 0])) := by
  have h0 : (!![0, 1, 0; 0, 0, 1; 1, 0, 0] : M3) = torchRot 0 := by
    rw [← tool_rotZ, rotZ_zero, mul_one]
  have h6 : (0.05 + 0.01 : ℝ) = 0.06 := by norm_num
  constructor
  · simp only [torchOf, setPos_one, setRot_one, setRot_mkTf, mkTf_mul, rotPart_mkTf, tool_rot,
      List.map_cons, List.map_nil, add_zero, mul_one, Matrix.mulVec_mulVec, tool_rotZ,
      ← Matrix.mul_assoc, torchRot_mul]
    rw [h0]
  · simp only [torchOf, setPos_one, setRot_one, setRot_mkTf, mkTf_mul, rotPart_mkTf, tool_rot,
      add_zero, mul_one, Matrix.mulVec_mulVec, tool_rotZ, ← Matrix.mul_assoc, torchRot_mul, h6]

theorem act_mkTf (R : M3) (p u : V3) : act (mkTf R p) u = R *ᵥ u + p := by
  rw [act, rotPart_mkTf, posPart_mkTf]

theorem rot_inj {R : M3} (h : IsRot R) {x y : V3} (e : R *ᵥ x = R *ᵥ y) : x = y := by
  have := congrArg (Rᵀ *ᵥ ·) e
  simpa [Matrix.mulVec_mulVec, h.1] using this

theorem rot_norm {R : M3} (h : IsRot R) (x : V3) : (R *ᵥ x) ⬝ᵥ (R *ᵥ x) = x ⬝ᵥ x := by
  rw [Matrix.dotProduct_mulVec, ← Matrix.mulVec_transpose, Matrix.mulVec_mulVec, h.1,
    Matrix.one_mulVec]

/-- C91. For all angles the torch has five boxes with positive sides and five rigid placements, and
the tip frame is rigid. -/
theorem C91_torch (a1 a2 : ℝ) :
    (torchOf a1 a2).s.length = 5 ∧ (torchOf a1 a2).tfS.length = 5 ∧
    (∀ b ∈ (torchOf a1 a2).s, 0 < b.dx ∧ 0 < b.dy ∧ 0 < b.dz) ∧
    (∀ T ∈ (torchOf a1 a2).tfS, IsRigid T) ∧ IsRigid (torchOf a1 a2).tfTT := by
  obtain ⟨e1, e2⟩ := torch_eq a1 a2
  refine ⟨rfl, by rw [e1]; rfl, ?_, ?_, ?_⟩
  · intro b hb
    have hb' : b ∈ torchShapes := hb
    simp only [torchShapes, List.mem_cons, List.not_mem_nil, or_false] at hb'
    rcases hb' with rfl | rfl | rfl | rfl | rfl <;> norm_num
  · rw [e1]
    intro T hT
    simp only [List.mem_cons, List.not_mem_nil, or_false] at hT
    rcases hT with rfl | rfl | rfl | rfl | rfl <;> exact isRigid_mkTf.2 (torchRot_isRot _)
  · rw [e2]
    exact isRigid_mkTf.2 ((torchRot_isRot _).mul (rotY_isRot _))

/-- C91. For all angles: the first box sits on the flange z-axis; every box and the tip lie in the
plane of the flange x- and z-axes; the neck (fourth box) makes the first angle with the flange
z-axis and the end piece (fifth box) the sum of both; the end piece starts on the axis of the neck;
the tip is 1 cm in front of the end piece, its z-axis is the axis of the end piece and its x-axis
points against the flange y-axis. -/
theorem C91_tip (a1 a2 : ℝ) : ∃ T1 T2 T3 T4 T5 b4 b5,
    (torchOf a1 a2).tfS = [T1, T2, T3, T4, T5] ∧
    (torchOf a1 a2).s[3]? = some b4 ∧ (torchOf a1 a2).s[4]? = some b5 ∧
    act T1 0 = ![0, 0, 0.035] ∧
    (∀ T ∈ [T1, T2, T3, T4, T5], posPart T 1 = 0 ∧ rotPart T *ᵥ ![0, 0, 1] = ![0, 1, 0]) ∧
    rotPart T4 *ᵥ ![1, 0, 0] = ![Real.sin a1, 0, Real.cos a1] ∧
    rotPart T5 *ᵥ ![1, 0, 0] = ![Real.sin (a1 + a2), 0, Real.cos (a1 + a2)] ∧
    act T5 ![-b5.dx / 2, 0, 0] = act T4 ![b4.dx / 2 + 0.05 * (1 - Real.cos a2), 0, 0] ∧
    posPart (torchOf a1 a2).tfTT = act T5 ![b5.dx / 2 + 0.01, 0, 0] ∧
    posPart (torchOf a1 a2).tfTT 1 = 0 ∧
    rotPart (torchOf a1 a2).tfTT *ᵥ ![0, 0, 1] = rotPart T5 *ᵥ ![1, 0, 0] ∧
    rotPart (torchOf a1 a2).tfTT *ᵥ ![1, 0, 0] = ![0, -1, 0] := by
  obtain ⟨e1, e2⟩ := torch_eq a1 a2
  have p1 : torchRot a1 *ᵥ (rotZ a2 *ᵥ ![0.06, 0, 0]) = torchRot (a1 + a2) *ᵥ ![0.06, 0, 0] := by
    rw [Matrix.mulVec_mulVec, torchRot_mul]
  have q1 : torchRot (a1 + a2) *ᵥ ![-0.05, 0, 0] =
      torchRot a1 *ᵥ (rotZ a2 *ᵥ ![-0.05, 0, 0]) := by
    rw [Matrix.mulVec_mulVec, torchRot_mul]
  refine ⟨_, _, _, _, _, _, _, e1, rfl, rfl, ?_, ?_, ?_, ?_, ?_, ?_, ?_, ?_, ?_⟩
  · rw [act_mkTf]
    ext i
    fin_cases i <;> simp [torchRot, torchPos]
  · intro T hT
    simp only [List.mem_cons, List.not_mem_nil, or_false] at hT
    rcases hT with rfl | rfl | rfl | rfl | rfl <;> rw [rotPart_mkTf, posPart_mkTf] <;>
    · refine ⟨by simp [torchRot, torchPos], ?_⟩
      ext i
      fin_cases i <;> simp [torchRot]
  · rw [rotPart_mkTf]
    ext i
    fin_cases i <;> simp [torchRot]
  · rw [rotPart_mkTf]
    ext i
    fin_cases i <;> simp [torchRot]
  · rw [act_mkTf, act_mkTf, show (-(0.10 : ℝ) / 2) = -0.05 by norm_num, q1, ← Matrix.mulVec_add,
      ← Matrix.mulVec_add]
    congr 1
    ext i
    fin_cases i <;> simp [rotZ, torchPos] <;> norm_num <;> ring
  · rw [e2, posPart_mkTf, act_mkTf, Matrix.mulVec_add, p1, add_comm]
    norm_num
  · rw [e2, posPart_mkTf]
    simp [torchRot, torchPos, rotZ, Matrix.mulVec, dotProduct, Fin.sum_univ_succ]
  · rw [e2, rotPart_mkTf, rotPart_mkTf, ← Matrix.mulVec_mulVec]
    congr 1
    ext i
    fin_cases i <;> simp [rotY]
  · rw [e2, rotPart_mkTf, ← Matrix.mulVec_mulVec]
    ext i
    fin_cases i <;>
      simp [rotY, torchRot, Matrix.mulVec, dotProduct, Fin.sum_univ_succ]

/-- The coordinates of `x` along the flange z-axis and the flange x-axis after turning both by `a`
about the flange y-axis. -/
noncomputable def alongAxis (a : ℝ) (x : V3) : ℝ := Real.sin a * x 0 + Real.cos a * x 2

@[inherit_doc alongAxis]
noncomputable def besideAxis (a : ℝ) (x : V3) : ℝ := Real.cos a * x 0 - Real.sin a * x 2

theorem torchRot_inv (a : ℝ) (x : V3) :
    (torchRot a)ᵀ *ᵥ x = ![alongAxis a x, besideAxis a x, x 1] := by
  ext i
  fin_cases i <;>
    simp [torchRot, alongAxis, besideAxis, Matrix.mulVec, dotProduct, Fin.sum_univ_succ] <;> ring

theorem mem_torchBox (a : ℝ) (p x : V3) (s : Shape) :
    (∃ u, (|u 0| ≤ s.dx / 2 ∧ |u 1| ≤ s.dy / 2 ∧ |u 2| ≤ s.dz / 2) ∧
      act (mkTf (torchRot a) (torchRot a *ᵥ p)) u = x) ↔
    |alongAxis a x - p 0| ≤ s.dx / 2 ∧ |besideAxis a x - p 1| ≤ s.dy / 2 ∧
      |x 1 - p 2| ≤ s.dz / 2 := by
  have hR := torchRot_isRot a
  have hR' : torchRot a * (torchRot a)ᵀ = 1 := mul_eq_one_comm.1 hR.1
  have hi := torchRot_inv a x
  constructor
  · rintro ⟨u, hu, rfl⟩
    rw [act_mkTf, ← Matrix.mulVec_add] at *
    rw [Matrix.mulVec_mulVec, hR.1, Matrix.one_mulVec] at hi
    have h0 := congrFun hi 0
    have h1 := congrFun hi 1
    have h2 := congrFun hi 2
    simp only [Matrix.cons_val, Pi.add_apply] at h0 h1 h2
    rw [← h0, ← h1, ← h2]
    simpa using hu
  · rintro ⟨h0, h1, h2⟩
    refine ⟨(torchRot a)ᵀ *ᵥ x - p, ?_, ?_⟩
    · rw [hi]
      simpa using ⟨h0, h1, h2⟩
    · rw [act_mkTf, ← Matrix.mulVec_add, sub_add_cancel, Matrix.mulVec_mulVec, hR',
        Matrix.one_mulVec]

theorem mem_wall_torch {c : Collection Shape} {i : Nat} {s : Shape} {a : ℝ} {q : V3} (p : V3)
    (hs : c.s[i]? = some s) (hT : c.tfS[i]? = some (mkTf (torchRot a) q))
    (hq : q = torchRot a *ᵥ p) (x : V3) : x ∈ wallPoints c i ↔
      |alongAxis a x - p 0| ≤ s.dx / 2 ∧ |besideAxis a x - p 1| ≤ s.dy / 2 ∧
        |x 1 - p 2| ≤ s.dz / 2 := by
  subst hq
  rw [← mem_torchBox]
  constructor
  · rintro ⟨s', T', hs', hT', hx⟩
    rw [hs] at hs'
    rw [hT] at hT'
    cases hs'
    cases hT'
    exact hx
  · intro hx
    exact ⟨s, _, hs, hT, hx⟩

/-- C91. For all angles, the exact space each part of the torch takes: the base is a cube of 8 cm
around the flange axis that reaches from 5 mm behind the flange to 7.5 cm in front of it; body,
bracket and neck are boxes along the axis turned by the first angle, each starting exactly where
the one before ends; the end piece is a box along the axis turned by both angles that ends 1 cm
before the tip; there is nothing else. -/
theorem C91_body (a1 a2 : ℝ) (x : V3) :
    (x ∈ wallPoints (torchOf a1 a2).toCollection 0 ↔
      |x 0| ≤ 0.04 ∧ |x 1| ≤ 0.04 ∧ -0.005 ≤ x 2 ∧ x 2 ≤ 0.075) ∧
    (x ∈ wallPoints (torchOf a1 a2).toCollection 1 ↔
      alongAxis a1 x ∈ Set.Icc (-0.11) 0.07 ∧ besideAxis a1 x ∈ Set.Icc 0.1125 0.1875 ∧
        |x 1| ≤ 0.0375) ∧
    (x ∈ wallPoints (torchOf a1 a2).toCollection 2 ↔
      alongAxis a1 x ∈ Set.Icc 0.07 0.1 ∧ besideAxis a1 x ∈ Set.Icc (-0.035) 0.185 ∧
        |x 1| ≤ 0.035) ∧
    (x ∈ wallPoints (torchOf a1 a2).toCollection 3 ↔
      alongAxis a1 x ∈ Set.Icc 0.1 0.2 ∧ besideAxis a1 x ∈ Set.Icc 0.1375 0.1625 ∧
        |x 1| ≤ 0.0125) ∧
    (x ∈ wallPoints (torchOf a1 a2).toCollection 4 ↔
      alongAxis (a1 + a2) (x - posPart (torchOf a1 a2).tfTT) ∈ Set.Icc (-0.11) (-0.01) ∧
        |besideAxis (a1 + a2) (x - posPart (torchOf a1 a2).tfTT)| ≤ 0.0125 ∧ |x 1| ≤ 0.0125) ∧
    ∀ i, 5 ≤ i → x ∉ wallPoints (torchOf a1 a2).toCollection i := by
  obtain ⟨e1, e2⟩ := torch_eq a1 a2
  refine ⟨?_, ?_, ?_, ?_, ?_, ?_⟩
  · rw [mem_wall_torch (torchPos a2 0) rfl (by show (torchOf a1 a2).tfS[0]? = _; rw [e1]; rfl) rfl]
    simp [torchPos, alongAxis, besideAxis, abs_le]
    norm_num
    constructor <;> rintro ⟨⟨_, _⟩, ⟨_, _⟩, _, _⟩ <;> refine ⟨⟨?_, ?_⟩, ⟨?_, ?_⟩, ?_, ?_⟩ <;>
      linarith
  · rw [mem_wall_torch (torchPos a2 1) rfl (by show (torchOf a1 a2).tfS[1]? = _; rw [e1]; rfl) rfl]
    simp [torchPos, abs_le]
    norm_num
    constructor <;> rintro ⟨⟨_, _⟩, ⟨_, _⟩, _, _⟩ <;> refine ⟨⟨?_, ?_⟩, ⟨?_, ?_⟩, ?_, ?_⟩ <;>
      linarith
  · rw [mem_wall_torch (torchPos a2 2) rfl (by show (torchOf a1 a2).tfS[2]? = _; rw [e1]; rfl) rfl]
    simp [torchPos, abs_le]
    norm_num
    constructor <;> rintro ⟨⟨_, _⟩, ⟨_, _⟩, _, _⟩ <;> refine ⟨⟨?_, ?_⟩, ⟨?_, ?_⟩, ?_, ?_⟩ <;>
      linarith
  · rw [mem_wall_torch (torchPos a2 3) rfl (by show (torchOf a1 a2).tfS[3]? = _; rw [e1]; rfl) rfl]
    simp [torchPos, abs_le]
    norm_num
    constructor <;> rintro ⟨⟨_, _⟩, ⟨_, _⟩, _, _⟩ <;> refine ⟨⟨?_, ?_⟩, ⟨?_, ?_⟩, ?_, ?_⟩ <;>
      linarith
  · have hrr : rotZ a2 * rotZ (-a2) = 1 := by
      ext i j
      have := Real.sin_sq_add_cos_sq a2
      fin_cases i <;> fin_cases j <;>
        simp [rotZ, Matrix.mul_apply, Fin.sum_univ_succ] <;> nlinarith
    have hq : torchRot a1 *ᵥ torchPos a2 4 =
        torchRot (a1 + a2) *ᵥ (rotZ (-a2) *ᵥ torchPos a2 4) := by
      rw [← torchRot_mul, ← Matrix.mulVec_mulVec, Matrix.mulVec_mulVec _ (rotZ a2), hrr,
        Matrix.one_mulVec]
    rw [mem_wall_torch _ rfl (by show (torchOf a1 a2).tfS[4]? = _; rw [e1]; rfl) hq]
    have ht : posPart (torchOf a1 a2).tfTT =
        torchRot (a1 + a2) *ᵥ (rotZ (-a2) *ᵥ torchPos a2 4 + ![0.06, 0, 0]) := by
      have h6 : torchRot a1 *ᵥ (rotZ a2 *ᵥ ![0.06, 0, 0]) =
          torchRot (a1 + a2) *ᵥ ![0.06, 0, 0] := by
        rw [Matrix.mulVec_mulVec, torchRot_mul]
      rw [e2, posPart_mkTf, Matrix.mulVec_add, Matrix.mulVec_add, hq, h6]
    have hi := torchRot_inv (a1 + a2) (x - posPart (torchOf a1 a2).tfTT)
    rw [Matrix.mulVec_sub, torchRot_inv, ht, Matrix.mulVec_mulVec, (torchRot_isRot _).1,
      Matrix.one_mulVec, ← ht] at hi
    have h0 := congrFun hi 0
    have h1 := congrFun hi 1
    simp only [Matrix.cons_val, Pi.add_apply, Pi.sub_apply] at h0 h1
    rw [← h0, ← h1]
    have h2 : (rotZ (-a2) *ᵥ torchPos a2 4) 2 = 0 := by
      simp [rotZ, torchPos]
    rw [h2]
    generalize (rotZ (-a2) *ᵥ torchPos a2 4) 0 = c0
    generalize (rotZ (-a2) *ᵥ torchPos a2 4) 1 = c1
    simp only [abs_le, Set.mem_Icc]
    constructor <;> rintro ⟨⟨_, _⟩, ⟨_, _⟩, _, _⟩ <;> refine ⟨⟨?_, ?_⟩, ⟨?_, ?_⟩, ?_, ?_⟩ <;>
      linarith
  · rintro i hi ⟨s, T, hs, -⟩
    have hs' : torchShapes[i]? = some s := hs
    rw [List.getElem?_eq_none (by simpa [torchShapes] using hi)] at hs'
    cases hs'

/-- C91. For all angles, where the tip is. -/
theorem C91_tip_position (a1 a2 : ℝ) :
    alongAxis a1 (posPart (torchOf a1 a2).tfTT) = 0.25 + 0.06 * Real.cos a2 ∧
    besideAxis a1 (posPart (torchOf a1 a2).tfTT) = 0.15 + 0.11 * Real.sin a2 ∧
    posPart (torchOf a1 a2).tfTT 1 = 0 := by
  obtain ⟨-, e2⟩ := torch_eq a1 a2
  have hi := torchRot_inv a1 (posPart (torchOf a1 a2).tfTT)
  rw [e2, posPart_mkTf, Matrix.mulVec_mulVec, (torchRot_isRot _).1, Matrix.one_mulVec,
    ← posPart_mkTf (torchRot (a1 + a2) * rotY (Real.pi / 2)) (torchRot a1 *ᵥ _), ← e2] at hi
  have h0 := congrFun hi 0
  have h1 := congrFun hi 1
  have h2 := congrFun hi 2
  simp only [Matrix.cons_val] at h0 h1 h2
  rw [← h0, ← h1, ← h2]
  simp [torchPos, rotZ]
  ring

/-- C91. The shipped torch: the neck leaves the flange axis by 11.3 degrees, the welding direction
by 20.2 degrees to the other side. -/
theorem C91_shipped : torch = torchOf (11.3 * Real.pi / 180) (-(31.5 * Real.pi / 180)) ∧
    rotPart torch.tfTT *ᵥ ![0, 0, 1] =
      ![-Real.sin (20.2 * Real.pi / 180), 0, Real.cos (20.2 * Real.pi / 180)] := by
  have h2 : torchAngle2 = -(31.5 * Real.pi / 180) := by unfold torchAngle2; ring
  have ht : torch = torchOf (11.3 * Real.pi / 180) (-(31.5 * Real.pi / 180)) := by
    rw [← h2]
    rfl
  refine ⟨ht, ?_⟩
  rw [ht]
  obtain ⟨T1, T2, T3, T4, T5, b4, b5, -, -, -, -, -, -, h5, -, -, -, h8, -⟩ :=
    C91_tip (11.3 * Real.pi / 180) (-(31.5 * Real.pi / 180))
  rw [h8, h5, show 11.3 * Real.pi / 180 + -(31.5 * Real.pi / 180) = -(20.2 * Real.pi / 180) by ring,
    Real.sin_neg, Real.cos_neg]

/-- C91. As long as the end piece does not bend backwards, the tip is outside every box of the
torch. -/
theorem C91_tip_free (a1 a2 : ℝ) (h : 0 ≤ Real.cos a2) (i : Nat) :
    posPart (torchOf a1 a2).tfTT ∉ wallPoints (torchOf a1 a2).toCollection i := by
  obtain ⟨e1, e2⟩ := torch_eq a1 a2
  rintro ⟨s, T, hs, hT, u, hu, hx⟩
  rw [e2, posPart_mkTf] at hx
  have hs' : torchShapes[i]? = some s := hs
  rw [e1] at hT
  obtain ⟨b0, b1, b2⟩ := hu
  rw [abs_le] at b0 b1 b2
  obtain ⟨l0, r0⟩ := b0
  obtain ⟨l1, r1⟩ := b1
  obtain ⟨l2, r2⟩ := b2
  rcases i with _ | _ | _ | _ | _ | i
  all_goals simp only [torchShapes, List.getElem?_cons_zero, List.getElem?_cons_succ,
      Option.some.injEq, List.getElem?_nil, reduceCtorEq] at hs' hT
  all_goals
    subst hs' hT
    rw [act_mkTf] at hx
    simp only at l0 r0 l1 r1 l2 r2
  · rw [← Matrix.mulVec_add] at hx
    have hn := congrArg (fun v => v ⬝ᵥ v) hx
    simp only [rot_norm (torchRot_isRot _)] at hn
    simp [torchPos, rotZ, dotProduct, Fin.sum_univ_succ] at hn
    nlinarith [mul_self_nonneg (0.15 + Real.sin a2 * 0.05 + Real.sin a2 * 0.06), h]
  all_goals try
    rw [← Matrix.mulVec_add] at hx
    have := congrFun (rot_inj (torchRot_isRot _) hx) 0
    simp [torchPos, rotZ] at this
    linarith
  · rw [← torchRot_mul, ← Matrix.mulVec_mulVec, ← Matrix.mulVec_add] at hx
    have hu := rot_inj (torchRot_isRot _) hx
    rw [add_comm] at hu
    have := congrFun (rot_inj (rotZ_isRot _) (add_left_cancel hu)) 0
    simp at this
    linarith

/-- The shipped angles meet the hypothesis of `C91_tip_free`. -/
theorem torch_cos : 0 ≤ Real.cos torchAngle2 := by
  have h1 := Real.pi_pos
  have : torchAngle2 = -(31.5 * Real.pi / 180) := by unfold torchAngle2; ring
  rw [this, Real.cos_neg]
  exact Real.cos_nonneg_of_mem_Icc ⟨by linarith, by linarith⟩

theorem torch_angle_gap : 4 * Real.cos torchAngle2 + |Real.sin torchAngle2| < 4 := by
  have h1 := Real.pi_gt_d2
  have h2 := Real.pi_lt_d2
  have hx : |torchAngle2| < 0.5513 ∧ 0.5494 < |torchAngle2| := by
    have : torchAngle2 = -(31.5 * Real.pi / 180) := by unfold torchAngle2; ring
    rw [this, abs_neg, abs_of_pos (by positivity)]
    constructor <;> linarith
  have hs : |Real.sin torchAngle2| ≤ |torchAngle2| := Real.abs_sin_le_abs
  have hc := Real.cos_bound (x := torchAngle2) (by linarith [hx.1])
  have hc' := (abs_le.1 hc).2
  have hsq : torchAngle2 ^ 2 = |torchAngle2| ^ 2 := (sq_abs _).symm
  generalize |torchAngle2| = y at *
  rw [hsq] at hc'
  have : y ^ 2 < 0.5513 ^ 2 := by nlinarith
  have : 0.5494 ^ 2 < y ^ 2 := by nlinarith
  have : y ^ 4 < 0.5513 ^ 4 := by
    have : y ^ 4 = (y ^ 2) ^ 2 := by ring
    nlinarith
  norm_num at *
  linarith

/-- C91, a finding: in the shipped torch the end piece does not touch the neck it starts from. -/
theorem C91_gap : wallPoints torch.toCollection 3 ∩ wallPoints torch.toCollection 4 = ∅ := by
  obtain ⟨e1, -⟩ := torch_eq torchAngle1 torchAngle2
  ext x
  simp only [Set.mem_inter_iff, Set.mem_empty_iff_false, iff_false, not_and]
  rintro ⟨s, T, hs, hT, u, hu, rfl⟩ ⟨s', T', hs', hT', u', hu', hx⟩
  have g := torch_angle_gap
  have hs1 : torchShapes[3]? = some s := hs
  have hs2 : torchShapes[4]? = some s' := hs'
  simp only [torch] at hT hT'
  rw [e1] at hT hT'
  simp only [torchShapes, List.getElem?_cons_zero, List.getElem?_cons_succ,
      Option.some.injEq] at hs1 hs2 hT hT'
  subst hs1 hs2 hT hT'
  rw [act_mkTf, act_mkTf, ← torchRot_mul, ← Matrix.mulVec_mulVec, ← Matrix.mulVec_add,
    ← Matrix.mulVec_add] at hx
  have h0 := congrFun (rot_inj (torchRot_isRot _) hx) 0
  simp [torchPos, rotZ, dotProduct, Fin.sum_univ_succ] at h0
  obtain ⟨b0, -, -⟩ := hu
  obtain ⟨c0, c1, -⟩ := hu'
  simp only at b0 c0 c1
  have k1 : -(0.05 * Real.cos torchAngle2) ≤ Real.cos torchAngle2 * u' 0 := by
    have := (abs_le.1 c0).1
    nlinarith [torch_cos]
  have k2 : Real.sin torchAngle2 * u' 1 ≤ |Real.sin torchAngle2| * 0.0125 := by
    refine (le_abs_self _).trans ?_
    rw [abs_mul]
    exact mul_le_mul_of_nonneg_left (by linarith) (abs_nonneg _)
  have k3 := (abs_le.1 b0).2
  linarith

end Verif.Props
