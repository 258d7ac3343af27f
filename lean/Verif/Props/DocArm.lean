import Verif.Model.DocArm
import Verif.Props.OptimalPath
import Verif.Props.Path
import Verif.Props.Robots

/-! # C133: what the documentation shows -/

set_option linter.unusedSectionVars false

namespace Verif.Props

open Matrix Verif.Geometry Verif.Kin Verif.Util

/-- The points of the shapes of a collection that is moved by `A`. -/
def solid (c : Collection Shape) (A : M4) : Set V3 :=
  {x | ∃ (i : Nat) (s : Shape) (t : M4), c.s[i]? = some s ∧ c.tfS[i]? = some t ∧
    x ∈ act (A * t) '' boxPoints s}

theorem touch_solid {c d : Collection Shape} {A B : M4} :
    Touch boxOracle c A d B ↔ ∃ x, x ∈ solid c A ∧ x ∈ solid d B := by
  rw [touch_boxes]
  constructor
  · rintro ⟨i, j, s, s', t, t', h1, h2, h3, h4, u, hu, v, hv, e⟩
    exact ⟨_, ⟨i, s, t, h1, h2, u, hu, rfl⟩, j, s', t', h3, h4, v, hv, e.symm⟩
  · rintro ⟨x, ⟨i, s, t, h1, h2, u, hu, rfl⟩, j, s', t', h3, h4, v, hv, e⟩
    exact ⟨i, j, s, s', t, t', h1, h2, h3, h4, u, hu, v, hv, e.symm⟩

/-- The beam of length `a` and 0.1 by 0.1 thick that starts at `(x, y)` in the direction `θ`. -/
def beam (x y θ a : ℝ) : Set V3 :=
  {p | ∃ s t w : ℝ, 0 ≤ s ∧ s ≤ a ∧ |t| ≤ 0.05 ∧ |w| ≤ 0.05 ∧
    p = ![x + s * Real.cos θ - t * Real.sin θ, y + s * Real.sin θ + t * Real.cos θ, w]}

/-- The frame at `(x, y)` turned by `θ` about the vertical. -/
noncomputable def flatFrame (x y θ : ℝ) : M4 :=
  !![Real.cos θ, -Real.sin θ, 0, x; Real.sin θ, Real.cos θ, 0, y; 0, 0, 1, 0; 0, 0, 0, 1]

theorem flatFrame_row (x y θ : ℝ) : flatFrame x y θ 3 = ![0, 0, 0, 1] := by
  ext i; fin_cases i <;> rfl

theorem translation_row (x y z : ℝ) : translation x y z 3 = ![0, 0, 0, 1] := by
  ext i; fin_cases i <;> rfl

theorem act_translation (x y z : ℝ) (u : V3) :
    act (translation x y z) u = ![u 0 + x, u 1 + y, u 2 + z] := by
  ext i
  fin_cases i <;>
    simp [act, translation, rotPart, posPart, Matrix.mulVec, dotProduct, Fin.sum_univ_three]

theorem act_flat (x y θ : ℝ) (u : V3) : act (flatFrame x y θ) u =
    ![x + u 0 * Real.cos θ - u 1 * Real.sin θ, y + u 0 * Real.sin θ + u 1 * Real.cos θ, u 2] := by
  ext i
  fin_cases i <;>
    simp [act, flatFrame, rotPart, posPart, Matrix.mulVec, dotProduct, Fin.sum_univ_three] <;> ring

theorem dhMat_flat (a θ : ℝ) :
    dhMat a 0 0 θ = flatFrame (a * Real.cos θ) (a * Real.sin θ) θ := by
  ext i j
  fin_cases i <;> fin_cases j <;> simp [dhMat, flatFrame]

theorem flat_mul (x y θ a φ : ℝ) :
    flatFrame x y θ * flatFrame (a * Real.cos φ) (a * Real.sin φ) φ =
      flatFrame (x + a * Real.cos (θ + φ)) (y + a * Real.sin (θ + φ)) (θ + φ) := by
  ext i j
  fin_cases i <;> fin_cases j <;>
    simp [flatFrame, Matrix.mul_apply, Fin.sum_univ_succ, Real.cos_add, Real.sin_add] <;> ring

theorem solid_beam (x y θ a : ℝ) :
    solid ⟨[⟨a, 0.1, 0.1⟩], [translation (-a / 2) 0 0]⟩
      (flatFrame (x + a * Real.cos θ) (y + a * Real.sin θ) θ) = beam x y θ a := by
  ext p
  have hact : ∀ u : V3, act (flatFrame (x + a * Real.cos θ) (y + a * Real.sin θ) θ *
      translation (-a / 2) 0 0) u = ![x + (u 0 + a / 2) * Real.cos θ - u 1 * Real.sin θ,
        y + (u 0 + a / 2) * Real.sin θ + u 1 * Real.cos θ, u 2] := by
    intro u
    rw [act_mul (flatFrame_row _ _ _) (translation_row _ _ _), act_translation, act_flat]
    ext i
    fin_cases i <;> simp <;> ring
  constructor
  · rintro ⟨i, s, t, h1, h2, u, ⟨hu0, hu1, hu2⟩, rfl⟩
    rcases i with _ | i
    · simp only [List.getElem?_cons_zero, Option.some.injEq] at h1 h2
      subst h1 h2
      rw [hact]
      have := abs_le.1 hu0
      refine ⟨u 0 + a / 2, u 1, u 2, by simp only at this; linarith, by simp only at this; linarith,
        by simp only at hu1; linarith, by simp only at hu2; linarith, rfl⟩
    · simp at h1
  · rintro ⟨s, t, w, h1, h2, h3, h4, rfl⟩
    refine ⟨0, _, _, rfl, rfl, ![s - a / 2, t, w], ⟨?_, ?_, ?_⟩, ?_⟩
    · simp only [Matrix.cons_val]
      rw [abs_le]
      constructor <;> linarith
    · simp only [Matrix.cons_val]; linarith
    · simp only [Matrix.cons_val]; linarith
    · rw [hact]
      simp

/-- The tool that sits in the frame `A`, if there is one. -/
def toolSolid (r : Robot Shape) (A : M4) : Set V3 :=
  {x | ∃ tool, r.tool = some tool ∧ x ∈ solid tool.toCollection A}

theorem doc_revolute (a1 a2 a3 : ℝ) : KnownTypes (docPlanarArm a1 a2 a3).links := by
  intro l hl
  simp only [docPlanarArm, Robot.new, List.mem_cons, List.not_mem_nil, or_false] at hl
  rcases hl with rfl | rfl | rfl <;> simp

theorem doc_frames {a1 a2 a3 : ℝ} {r : Robot Shape} (hl : r.links = (docPlanarArm a1 a2 a3).links)
    (hb : r.tfBase = 1) (q1 q2 q3 : ℝ) :
    frameOf r [q1, q2, q3] 0 = flatFrame (0 + a1 * Real.cos q1) (0 + a1 * Real.sin q1) q1 ∧
    frameOf r [q1, q2, q3] 1 = flatFrame (a1 * Real.cos q1 + a2 * Real.cos (q1 + q2))
      (a1 * Real.sin q1 + a2 * Real.sin (q1 + q2)) (q1 + q2) ∧
    frameOf r [q1, q2, q3] 2 = flatFrame
      (a1 * Real.cos q1 + a2 * Real.cos (q1 + q2) + a3 * Real.cos (q1 + q2 + q3))
      (a1 * Real.sin q1 + a2 * Real.sin (q1 + q2) + a3 * Real.sin (q1 + q2 + q3))
      (q1 + q2 + q3) := by
  refine ⟨?_, ?_, ?_⟩ <;>
    simp only [frameOf, hl, hb, linkProduct_eq, chain, docPlanarArm, Robot.new, List.take,
      List.zipWith, List.prod_cons, List.prod_nil, Link.tf, dhMat_flat, one_mul, mul_one, zero_add]
  · rw [flat_mul]
  · rw [← mul_assoc, flat_mul, flat_mul]

/-- **C133**, the planar arm of the page: with any tool, after any history, `is_in_collision` says
whether a beam between two joints or the tool meets the scene, or the tool meets one of the first two
beams. -/
theorem C133_answer {a1 a2 a3 : ℝ} {r : Robot Shape}
    (hl : r.links = (docPlanarArm a1 a2 a3).links) (hb : r.tfBase = 1)
    (hg : r.geometryBase = none) (hm : r.collisionMatrix = bandMatrix)
    (hs : r.doCheckSelfCollision = true) (history : List (Call Shape))
    (hh : ∀ c ∈ history, c.robot.links = r.links) (q1 q2 q3 : ℝ) (scene : Collection Shape) :
    ∃ b, (r.isInCollision boxOracle (after boxOracle r.links history) [q1, q2, q3] scene).1 =
        .ok b ∧
      (b = true ↔
        (∃ x ∈ solid scene 1,
          x ∈ beam 0 0 q1 a1 ∨
          x ∈ beam (a1 * Real.cos q1) (a1 * Real.sin q1) (q1 + q2) a2 ∨
          x ∈ beam (a1 * Real.cos q1 + a2 * Real.cos (q1 + q2))
            (a1 * Real.sin q1 + a2 * Real.sin (q1 + q2)) (q1 + q2 + q3) a3 ∨
          x ∈ toolSolid r (flatFrame
            (a1 * Real.cos q1 + a2 * Real.cos (q1 + q2) + a3 * Real.cos (q1 + q2 + q3))
            (a1 * Real.sin q1 + a2 * Real.sin (q1 + q2) + a3 * Real.sin (q1 + q2 + q3))
            (q1 + q2 + q3))) ∨
        (∃ x ∈ toolSolid r (flatFrame
            (a1 * Real.cos q1 + a2 * Real.cos (q1 + q2) + a3 * Real.cos (q1 + q2 + q3))
            (a1 * Real.sin q1 + a2 * Real.sin (q1 + q2) + a3 * Real.sin (q1 + q2 + q3))
            (q1 + q2 + q3)),
          x ∈ beam 0 0 q1 a1 ∨
          x ∈ beam (a1 * Real.cos q1) (a1 * Real.sin q1) (q1 + q2) a2)) := by
  have hlen : r.links.length = 3 := by rw [hl]; rfl
  obtain ⟨b, h1, h2⟩ := C33_answer boxOracle r (by rw [hl]; exact doc_revolute _ _ _) hm
    (Or.inr (by omega)) history hh [q1, q2, q3] (by simp [hlen]) scene
  refine ⟨b, h1, h2.trans ?_⟩
  obtain ⟨f0, f1, f2⟩ := doc_frames hl hb q1 q2 q3
  have b0 := solid_beam 0 0 q1 a1
  have b1 := solid_beam (a1 * Real.cos q1) (a1 * Real.sin q1) (q1 + q2) a2
  have b2 := solid_beam (a1 * Real.cos q1 + a2 * Real.cos (q1 + q2))
    (a1 * Real.sin q1 + a2 * Real.sin (q1 + q2)) (q1 + q2 + q3) a3
  have hlinks : ∀ (P : M4 → Collection Shape → Prop),
      (∃ (i : Nat) (li : Link Shape), r.links[i]? = some li ∧
        P (frameOf r [q1, q2, q3] i) li.geometry) ↔
      P (frameOf r [q1, q2, q3] 0) ⟨[⟨a1, 0.1, 0.1⟩], [translation (-a1 / 2) 0 0]⟩ ∨
      P (frameOf r [q1, q2, q3] 1) ⟨[⟨a2, 0.1, 0.1⟩], [translation (-a2 / 2) 0 0]⟩ ∨
      P (frameOf r [q1, q2, q3] 2) ⟨[⟨a3, 0.1, 0.1⟩], [translation (-a3 / 2) 0 0]⟩ := by
    intro P
    constructor
    · rintro ⟨i, li, hi, hP⟩
      rw [hl] at hi
      rcases i with _ | _ | _ | i
      · simp only [docPlanarArm, Robot.new, List.getElem?_cons_zero, Option.some.injEq] at hi
        subst hi; exact Or.inl hP
      · simp only [docPlanarArm, Robot.new, zero_add, List.getElem?_cons_succ,
          List.getElem?_cons_zero, Option.some.injEq] at hi
        subst hi; exact Or.inr (Or.inl hP)
      · simp only [docPlanarArm, Robot.new, zero_add, List.getElem?_cons_succ,
          List.getElem?_cons_zero, Option.some.injEq] at hi
        subst hi; exact Or.inr (Or.inr hP)
      · simp [docPlanarArm, Robot.new] at hi
    · rintro (hP | hP | hP)
      · exact ⟨0, _, by rw [hl]; rfl, hP⟩
      · exact ⟨1, _, by rw [hl]; rfl, hP⟩
      · exact ⟨2, _, by rw [hl]; rfl, hP⟩
  have hscene : SceneTouch boxOracle r [q1, q2, q3] scene ↔
      ∃ x ∈ solid scene 1, x ∈ beam 0 0 q1 a1 ∨
          x ∈ beam (a1 * Real.cos q1) (a1 * Real.sin q1) (q1 + q2) a2 ∨
          x ∈ beam (a1 * Real.cos q1 + a2 * Real.cos (q1 + q2))
            (a1 * Real.sin q1 + a2 * Real.sin (q1 + q2)) (q1 + q2 + q3) a3 ∨
          x ∈ toolSolid r (frameOf r [q1, q2, q3] 2) := by
    unfold SceneTouch
    have := hlinks fun F c => Touch boxOracle c F scene 1
    rw [this, f0, f1, f2, touch_solid, touch_solid, touch_solid, b0, b1, b2, hg, hlen, ← f2]
    simp only [touch_solid, toolSolid]
    constructor
    · rintro (⟨_, h, _⟩ | (⟨x, h, h'⟩ | ⟨x, h, h'⟩ | ⟨x, h, h'⟩) | ⟨t, ht, x, h, h'⟩)
      · exact absurd h (by simp)
      · exact ⟨x, h', Or.inl h⟩
      · exact ⟨x, h', Or.inr (Or.inl h)⟩
      · exact ⟨x, h', Or.inr (Or.inr (Or.inl h))⟩
      · exact ⟨x, h', Or.inr (Or.inr (Or.inr ⟨t, ht, h⟩))⟩
    · rintro ⟨x, h', h | h | h | ⟨t, ht, h⟩⟩
      · exact Or.inr (Or.inl (Or.inl ⟨x, h, h'⟩))
      · exact Or.inr (Or.inl (Or.inr (Or.inl ⟨x, h, h'⟩)))
      · exact Or.inr (Or.inl (Or.inr (Or.inr ⟨x, h, h'⟩)))
      · exact Or.inr (Or.inr ⟨t, ht, x, h, h'⟩)
  have hself : SelfTouch boxOracle r [q1, q2, q3] ↔
      ∃ x ∈ toolSolid r (frameOf r [q1, q2, q3] 2), x ∈ beam 0 0 q1 a1 ∨
          x ∈ beam (a1 * Real.cos q1) (a1 * Real.sin q1) (q1 + q2) a2 := by
    unfold SelfTouch
    simp only [touch_solid, hlen, toolSolid, Nat.add_one_sub_one]
    constructor
    · rintro (⟨i, j, li, lj, hij, hi, hj, _⟩ | ⟨tool, i, li, ht, hi, hli, x, hx, hx'⟩)
      · have := (List.getElem?_eq_some_iff.1 hi).1
        have := (List.getElem?_eq_some_iff.1 hj).1
        omega
      · refine ⟨x, ⟨tool, ht, hx'⟩, ?_⟩
        rcases i with _ | _ | i
        · rw [hl] at hli
          simp only [docPlanarArm, Robot.new, List.getElem?_cons_zero, Option.some.injEq] at hli
          subst hli
          rw [f0, b0] at hx
          exact Or.inl hx
        · rw [hl] at hli
          simp only [docPlanarArm, Robot.new, zero_add, List.getElem?_cons_succ,
            List.getElem?_cons_zero, Option.some.injEq] at hli
          subst hli
          rw [f1, b1] at hx
          exact Or.inr hx
        · omega
    · rintro ⟨x, ⟨tool, ht, hx'⟩, h | h⟩
      · refine Or.inr ⟨tool, 0, _, ht, by omega, by rw [hl]; rfl, x, ?_, hx'⟩
        rw [f0, b0]; exact h
      · refine Or.inr ⟨tool, 1, _, ht, by omega, by rw [hl]; rfl, x, ?_, hx'⟩
        rw [f1, b1]; exact h
  rw [hscene, hself, hs, f2]
  simp

/-- **C133**, the pen of the page: `fk` of the arm with the pen returns the frame of the last link
moved 0.3 in its own direction, and the pen is the 0.05 thick beam from the end of the last link to
that point. -/
theorem C133_pen (hit : Oracle Shape) (a1 a2 a3 : ℝ) (history : List (Call Shape))
    (hh : ∀ c ∈ history, c.robot.links = (docPlanarArm a1 a2 a3).links) (q1 q2 q3 : ℝ) :
    let x := a1 * Real.cos q1 + a2 * Real.cos (q1 + q2) + a3 * Real.cos (q1 + q2 + q3)
    let y := a1 * Real.sin q1 + a2 * Real.sin (q1 + q2) + a3 * Real.sin (q1 + q2 + q3)
    let φ := q1 + q2 + q3
    ((penArm a1 a2 a3).fk (after hit (docPlanarArm a1 a2 a3).links history) [q1, q2, q3]).1 =
      .ok (flatFrame (x + 0.3 * Real.cos φ) (y + 0.3 * Real.sin φ) φ) ∧
    toolSolid (penArm a1 a2 a3) (flatFrame x y φ) = {p | ∃ s t w : ℝ, 0 ≤ s ∧ s ≤ 0.3 ∧
      |t| ≤ 0.025 ∧ |w| ≤ 0.025 ∧
      p = ![x + s * Real.cos φ - t * Real.sin φ, y + s * Real.sin φ + t * Real.cos φ, w]} := by
  intro x y φ
  constructor
  · have h := C31_fk hit (penArm a1 a2 a3) (doc_revolute _ _ _) history hh [q1, q2, q3]
      (by simp [penArm, docPlanarArm, Robot.new])
    have hf := (doc_frames (r := penArm a1 a2 a3) (a1 := a1) (a2 := a2) (a3 := a3) rfl rfl
      q1 q2 q3).2.2
    refine h.trans (congrArg _ ?_)
    have e : (penArm a1 a2 a3).tfBase * linkProduct (penArm a1 a2 a3).links [q1, q2, q3] *
        ((penArm a1 a2 a3).tool.map Tool.tfTT).getD 1 =
        frameOf (penArm a1 a2 a3) [q1, q2, q3] 2 * translation 0.3 0 0 := by
      simp [frameOf, penArm, pen, docPlanarArm, Robot.new]
    rw [e, hf]
    ext i j
    fin_cases i <;> fin_cases j <;>
      simp [flatFrame, translation, Matrix.mul_apply, Fin.sum_univ_succ, x, y, φ] <;> ring
  · ext p
    have hact : ∀ u : V3, act (flatFrame x y φ * translation 0.15 0 0) u =
        ![x + (u 0 + 0.15) * Real.cos φ - u 1 * Real.sin φ,
          y + (u 0 + 0.15) * Real.sin φ + u 1 * Real.cos φ, u 2] := by
      intro u
      rw [act_mul (flatFrame_row _ _ _) (translation_row _ _ _), act_translation, act_flat]
      ext i
      fin_cases i <;> simp
    constructor
    · rintro ⟨tool, ht, i, sh, tf, g1, g2, u, ⟨u0, u1, u2⟩, rfl⟩
      obtain rfl : pen = tool := Option.some.inj ht
      rcases i with _ | i
      · simp only [pen, List.getElem?_cons_zero, Option.some.injEq] at g1 g2
        subst g1 g2
        rw [hact]
        have := abs_le.1 u0
        simp only at this u1 u2
        exact ⟨u 0 + 0.15, u 1, u 2, by linarith, by linarith, by linarith, by linarith, rfl⟩
      · simp [pen] at g1
    · rintro ⟨s, t, w, h1, h2, h3, h4, rfl⟩
      refine ⟨pen, rfl, 0, _, _, rfl, rfl, ![s - 0.15, t, w], ⟨?_, ?_, ?_⟩, ?_⟩
      · simp only [Matrix.cons_val]
        rw [abs_le]
        constructor <;> linarith
      · simp only [Matrix.cons_val]; linarith
      · simp only [Matrix.cons_val]; linarith
      · rw [hact]
        simp

/-! ### The recorded answers -/

theorem trig_small {x : ℝ} (h0 : |x| ≤ 1) :
    |Real.cos x - (1 - x ^ 2 / 2)| ≤ |x| ^ 4 * (5 / 96) ∧
    |Real.sin x - (x - x ^ 3 / 6)| ≤ |x| ^ 5 / 100 :=
  ⟨Real.cos_bound h0, Real.sin_bound h0⟩

theorem trig_6 : 0.81 ≤ Real.cos 0.6 ∧ Real.cos 0.6 ≤ 0.83 ∧ 0.55 ≤ Real.sin 0.6 ∧
    Real.sin 0.6 ≤ 0.58 := by
  obtain ⟨h1, h2⟩ := trig_small (x := 0.6) (by rw [abs_of_pos] <;> norm_num)
  rw [abs_of_pos (by norm_num : (0 : ℝ) < 0.6)] at h1 h2
  rw [abs_le] at h1 h2
  norm_num at h1 h2 ⊢
  refine ⟨?_, ?_, ?_, ?_⟩ <;> linarith

theorem trig_5 : 0.87 ≤ Real.cos 0.5 ∧ Real.cos 0.5 ≤ 0.88 ∧ 0.47 ≤ Real.sin 0.5 ∧
    Real.sin 0.5 ≤ 0.49 := by
  obtain ⟨h1, h2⟩ := trig_small (x := 0.5) (by rw [abs_of_pos] <;> norm_num)
  rw [abs_of_pos (by norm_num : (0 : ℝ) < 0.5)] at h1 h2
  rw [abs_le] at h1 h2
  norm_num at h1 h2 ⊢
  refine ⟨?_, ?_, ?_, ?_⟩ <;> linarith

theorem trig_2 : 0.97 ≤ Real.cos 0.2 ∧ Real.cos 0.2 ≤ 0.99 ∧ 0.19 ≤ Real.sin 0.2 ∧
    Real.sin 0.2 ≤ 0.2 := by
  obtain ⟨h1, h2⟩ := trig_small (x := 0.2) (by rw [abs_of_pos] <;> norm_num)
  rw [abs_of_pos (by norm_num : (0 : ℝ) < 0.2)] at h1 h2
  rw [abs_le] at h1 h2
  norm_num at h1 h2 ⊢
  refine ⟨?_, ?_, ?_, ?_⟩ <;> linarith

theorem trig_3 : 0.95 ≤ Real.cos 0.3 ∧ Real.cos 0.3 ≤ 0.96 ∧ 0.29 ≤ Real.sin 0.3 ∧
    Real.sin 0.3 ≤ 0.3 := by
  obtain ⟨h1, h2⟩ := trig_small (x := 0.3) (by rw [abs_of_pos] <;> norm_num)
  rw [abs_of_pos (by norm_num : (0 : ℝ) < 0.3)] at h1 h2
  rw [abs_le] at h1 h2
  norm_num at h1 h2 ⊢
  refine ⟨?_, ?_, ?_, ?_⟩ <;> linarith

theorem trig_8 : 0.65 ≤ Real.cos 0.8 ∧ Real.cos 0.8 ≤ 0.71 ∧ 0.69 ≤ Real.sin 0.8 ∧
    Real.sin 0.8 ≤ 0.74 := by
  obtain ⟨h1, h2⟩ := trig_small (x := 0.8) (by rw [abs_of_pos] <;> norm_num)
  rw [abs_of_pos (by norm_num : (0 : ℝ) < 0.8)] at h1 h2
  rw [abs_le] at h1 h2
  norm_num at h1 h2 ⊢
  refine ⟨?_, ?_, ?_, ?_⟩ <;> linarith

/-- The points of one box that is only shifted. -/
theorem solid_shifted (d e f x y z : ℝ) (p : V3) :
    p ∈ solid ⟨[⟨d, e, f⟩], [translation x y z]⟩ 1 ↔
      |p 0 - x| ≤ d / 2 ∧ |p 1 - y| ≤ e / 2 ∧ |p 2 - z| ≤ f / 2 := by
  constructor
  · rintro ⟨i, s, t, h1, h2, u, hu, rfl⟩
    rcases i with _ | i
    · simp only [List.getElem?_cons_zero, Option.some.injEq] at h1 h2
      subst h1 h2
      rw [one_mul, act_translation]
      simpa [boxPoints] using hu
    · simp at h1
  · rintro ⟨h1, h2, h3⟩
    refine ⟨0, _, _, rfl, rfl, ![p 0 - x, p 1 - y, p 2 - z], ⟨h1, h2, h3⟩, ?_⟩
    rw [one_mul, act_translation]
    ext i
    fin_cases i <;> simp

/-- **C133**, robots_and_links.ipynb:211 and 217: the answer for the good box, after any history. -/
theorem C133_good_box (history : List (Call Shape))
    (hh : ∀ c ∈ history, c.robot.links = (docPlanarArm 1 1 0.2).links) :
    ((docPlanarArm 1 1 0.2).isInCollision boxOracle (after boxOracle (docPlanarArm 1 1 0.2).links history)
      [0.6, -1.1, 0.3] goodBox).1 = .ok false := by
  obtain ⟨b, h1, h2⟩ := C133_answer (r := docPlanarArm 1 1 0.2) rfl rfl rfl rfl rfl history hh
    0.6 (-1.1) 0.3 goodBox
  change ((docPlanarArm 1 1 0.2).isInCollision boxOracle (after boxOracle (docPlanarArm 1 1 0.2).links history)
    _ _).1 = _
  rw [h1]
  congr 1
  rw [Bool.eq_false_iff, ne_eq, h2]
  rw [show (0.6 : ℝ) + -1.1 = -0.5 by norm_num, show (-0.5 : ℝ) + 0.3 = -0.2 by norm_num]
  simp only [Real.cos_neg, Real.sin_neg]
  obtain ⟨c1, c2, s1, s2⟩ := trig_6
  obtain ⟨c3, c4, s3, s4⟩ := trig_5
  obtain ⟨c5, c6, s5, s6⟩ := trig_2
  rintro (⟨x, hx, h | h | h | ⟨tool, ht, -⟩⟩ | ⟨x, ⟨tool, ht, -⟩, -⟩)
  · obtain ⟨-, hy, -⟩ := (solid_shifted _ _ _ _ _ _ x).1 hx
    obtain ⟨s, t, w, g1, g2, g3, -, rfl⟩ := h
    simp only [Matrix.cons_val] at hy
    rw [abs_le] at hy g3
    nlinarith
  · obtain ⟨-, hy, -⟩ := (solid_shifted _ _ _ _ _ _ x).1 hx
    obtain ⟨s, t, w, g1, g2, g3, -, rfl⟩ := h
    simp only [Matrix.cons_val, Real.cos_neg, Real.sin_neg] at hy
    rw [abs_le] at hy g3
    nlinarith
  · obtain ⟨-, hy, -⟩ := (solid_shifted _ _ _ _ _ _ x).1 hx
    obtain ⟨s, t, w, g1, g2, g3, -, rfl⟩ := h
    simp only [Matrix.cons_val, Real.cos_neg, Real.sin_neg] at hy
    rw [abs_le] at hy g3
    nlinarith
  · simp [docPlanarArm, Robot.new] at ht
  · simp [docPlanarArm, Robot.new] at ht

/-- **C133**, robots_and_links.ipynb:212 and 217: the answer for the bad box, after any history. -/
theorem C133_bad_box (history : List (Call Shape))
    (hh : ∀ c ∈ history, c.robot.links = (docPlanarArm 1 1 0.2).links) :
    ((docPlanarArm 1 1 0.2).isInCollision boxOracle (after boxOracle (docPlanarArm 1 1 0.2).links history)
      [0.6, -1.1, 0.3] badBox).1 = .ok true := by
  obtain ⟨b, h1, h2⟩ := C133_answer (r := docPlanarArm 1 1 0.2) rfl rfl rfl rfl rfl history hh
    0.6 (-1.1) 0.3 badBox
  change ((docPlanarArm 1 1 0.2).isInCollision boxOracle (after boxOracle (docPlanarArm 1 1 0.2).links history)
    _ _).1 = _
  rw [h1]
  congr 1
  rw [h2]
  rw [show (0.6 : ℝ) + -1.1 = -0.5 by norm_num]
  obtain ⟨c1, c2, s1, s2⟩ := trig_6
  obtain ⟨c3, c4, s3, s4⟩ := trig_5
  refine Or.inl ⟨_, (solid_shifted _ _ _ _ _ _ _).2 ?_,
    Or.inr (Or.inl ⟨0.8, 0, 0, by norm_num, by norm_num, by norm_num, by norm_num, rfl⟩)⟩
  simp only [Matrix.cons_val, Real.cos_neg, Real.sin_neg, abs_le]
  norm_num
  refine ⟨⟨?_, ?_⟩, ?_, ?_⟩ <;> linarith

/-- **C133**, robots_and_links.ipynb:467 and 493: the pen beside the blackboard, after any history. -/
theorem C133_beside (history : List (Call Shape))
    (hh : ∀ c ∈ history, c.robot.links = (docPlanarArm 1 1 0.2).links) :
    ((penArm 1 1 0.2).isInCollision boxOracle (after boxOracle (docPlanarArm 1 1 0.2).links history)
      [0.5, 0.3, -0.5] blackboard).1 = .ok false := by
  obtain ⟨b, h1, h2⟩ := C133_answer (r := penArm 1 1 0.2) (a1 := 1) (a2 := 1) (a3 := 0.2)
    rfl rfl rfl rfl rfl history hh 0.5 0.3 (-0.5) blackboard
  change ((penArm 1 1 0.2).isInCollision boxOracle (after boxOracle (penArm 1 1 0.2).links history)
    _ _).1 = _
  rw [h1]
  congr 1
  rw [Bool.eq_false_iff, ne_eq, h2]
  rw [show (0.5 : ℝ) + 0.3 = 0.8 by norm_num, show (0.8 : ℝ) + -0.5 = 0.3 by norm_num]
  obtain ⟨c1, c2, s1, s2⟩ := trig_5
  obtain ⟨c3, c4, s3, s4⟩ := trig_8
  obtain ⟨c5, c6, s5, s6⟩ := trig_3
  have hpen : ∀ x ∈ toolSolid (penArm 1 1 0.2) (flatFrame (1 * Real.cos 0.5 + 1 * Real.cos 0.8 +
      0.2 * Real.cos 0.3) (1 * Real.sin 0.5 + 1 * Real.sin 0.8 + 0.2 * Real.sin 0.3) 0.3),
      ∃ s t : ℝ, 0 ≤ s ∧ s ≤ 0.3 ∧ |t| ≤ 0.025 ∧
        x 0 = Real.cos 0.5 + Real.cos 0.8 + (0.2 + s) * Real.cos 0.3 - t * Real.sin 0.3 ∧
        x 1 = Real.sin 0.5 + Real.sin 0.8 + (0.2 + s) * Real.sin 0.3 + t * Real.cos 0.3 := by
    rintro x ⟨tool, ht, i, sh, tf, g1, g2, u, ⟨u0, u1, -⟩, rfl⟩
    obtain rfl : pen = tool := Option.some.inj ht
    rcases i with _ | i
    · simp only [pen, List.getElem?_cons_zero, Option.some.injEq] at g1 g2
      subst g1 g2
      rw [act_mul (flatFrame_row _ _ _) (translation_row _ _ _), act_translation, act_flat]
      have := abs_le.1 u0
      simp only at this u1
      refine ⟨u 0 + 0.15, u 1, by linarith, by linarith, by linarith, ?_, ?_⟩ <;>
        simp only [Matrix.cons_val] <;> ring
    · simp [pen] at g1
  rintro (⟨x, hx, h | h | h | h⟩ | ⟨x, hx, h | h⟩)
  · obtain ⟨hy, -, -⟩ := (solid_shifted _ _ _ _ _ _ x).1 hx
    obtain ⟨s, t, w, g1, g2, g3, -, rfl⟩ := h
    simp only [Matrix.cons_val] at hy
    rw [abs_le] at hy g3
    nlinarith
  · obtain ⟨hy, -, -⟩ := (solid_shifted _ _ _ _ _ _ x).1 hx
    obtain ⟨s, t, w, g1, g2, g3, -, rfl⟩ := h
    simp only [Matrix.cons_val] at hy
    rw [abs_le] at hy g3
    nlinarith
  · obtain ⟨hy, -, -⟩ := (solid_shifted _ _ _ _ _ _ x).1 hx
    obtain ⟨s, t, w, g1, g2, g3, -, rfl⟩ := h
    simp only [Matrix.cons_val] at hy
    rw [abs_le] at hy g3
    nlinarith
  · obtain ⟨-, hy, -⟩ := (solid_shifted _ _ _ _ _ _ x).1 hx
    obtain ⟨s, t, g1, g2, g3, -, e⟩ := hpen x h
    rw [e] at hy
    rw [abs_le] at hy g3
    nlinarith
  · -- the pen lies beyond the first two beams
    obtain ⟨s, t, g1, g2, g3, e, -⟩ := hpen x hx
    obtain ⟨s', t', w', k1, k2, k3, -, rfl⟩ := h
    simp only [Matrix.cons_val] at e
    rw [abs_le] at g3 k3
    nlinarith
  · obtain ⟨s, t, g1, g2, g3, e, e'⟩ := hpen x hx
    obtain ⟨s', t', w', k1, k2, k3, -, rfl⟩ := h
    simp only [Matrix.cons_val] at e e'
    rw [abs_le] at g3 k3
    nlinarith

/-- **C133**, robots_and_links.ipynb:468 and 494: the pen in the blackboard, after any history. -/
theorem C133_inside (history : List (Call Shape))
    (hh : ∀ c ∈ history, c.robot.links = (docPlanarArm 1 1 0.2).links) :
    ((penArm 1 1 0.2).isInCollision boxOracle (after boxOracle (docPlanarArm 1 1 0.2).links history)
      [0.6, -1.2, 0.6] blackboard).1 = .ok true := by
  obtain ⟨b, h1, h2⟩ := C133_answer (r := penArm 1 1 0.2) (a1 := 1) (a2 := 1) (a3 := 0.2)
    rfl rfl rfl rfl rfl history hh 0.6 (-1.2) 0.6 blackboard
  change ((penArm 1 1 0.2).isInCollision boxOracle (after boxOracle (penArm 1 1 0.2).links history)
    _ _).1 = _
  rw [h1]
  congr 1
  rw [h2]
  rw [show (0.6 : ℝ) + -1.2 = -0.6 by norm_num, show (-0.6 : ℝ) + 0.6 = 0 by norm_num]
  obtain ⟨c1, c2, s1, s2⟩ := trig_6
  refine Or.inl ⟨![2, 0, 0], (solid_shifted _ _ _ _ _ _ _).2 ?_,
    Or.inr (Or.inr (Or.inr ⟨pen, rfl, 0, _, _, rfl, rfl,
      ![2 - (2 * Real.cos 0.6 + 0.2) - 0.15, 0, 0], ⟨?_, ?_, ?_⟩, ?_⟩))⟩
  · simp only [Matrix.cons_val, abs_le]
    norm_num
  · simp only [Matrix.cons_val, abs_le]
    constructor <;> linarith
  · simp only [Matrix.cons_val, abs_le]
    norm_num
  · simp only [Matrix.cons_val, abs_le]
    norm_num
  · rw [act_mul (flatFrame_row _ _ _) (translation_row _ _ _), act_translation, act_flat]
    simp only [Matrix.cons_val, Real.cos_neg, Real.sin_neg, Real.cos_zero, Real.sin_zero]
    ext i
    fin_cases i <;> simp only [Matrix.cons_val, Fin.mk_zero, Fin.mk_one, Fin.reduceFinMk] <;> ring

/-- robots_and_links.ipynb:187-199: `robot.fk([0, 0, 0])` -/
example : ((docPlanarArm 1 1 0.2).fk (RState.new 3) [0, 0, 0]).1 =
    .ok !![1, 0, 0, 2.2; 0, 1, 0, 0; 0, 0, 1, 0; 0, 0, 0, 1] := by
  have h := C31_fk boxOracle (docPlanarArm 1 1 0.2) (doc_revolute _ _ _) [] (by simp) [0, 0, 0]
    (by simp [docPlanarArm, Robot.new])
  have hf := (doc_frames (r := docPlanarArm 1 1 0.2) (a1 := 1) (a2 := 1) (a3 := 0.2) rfl rfl
    0 0 0).2.2
  rw [show RState.new 3 = after boxOracle (docPlanarArm 1 1 0.2).links [] from rfl, h]
  congr 1
  have : (docPlanarArm 1 1 0.2).tfBase * linkProduct (docPlanarArm 1 1 0.2).links [0, 0, 0] *
      ((docPlanarArm 1 1 0.2).tool.map Tool.tfTT).getD 1 =
      frameOf (docPlanarArm 1 1 0.2) [0, 0, 0] 2 := by
    simp [frameOf, docPlanarArm, Robot.new]
  rw [this, hf]
  ext i j
  fin_cases i <;> fin_cases j <;> simp [flatFrame]
  norm_num

/-- robots_and_links.ipynb:276 and 295-299: "Can we reach this position? True" -/
example [Zeros] :
    (anthropomorphicIk (anthropomorphicArm 1 0.7) (translation 1.0 0.2 0.5)).isSome := by
  rw [C42_anthropomorphic_iff (by norm_num)]
  simp only [translation, Matrix.of_apply, Matrix.cons_val]
  rw [abs_le, abs_of_pos] <;> norm_num

/-- geometry_nb.ipynb:72-84 and 105-118: the corners of `Shape(1, 2, 2)` in the two places. -/
example : (∀ i, (Shape.getVertices ⟨1, 2, 2⟩ 1) i =
      ![![-0.5, 1, 1], ![-0.5, 1, -1], ![-0.5, -1, 1], ![-0.5, -1, -1],
        ![0.5, 1, 1], ![0.5, 1, -1], ![0.5, -1, 1], ![0.5, -1, -1]] i) ∧
    ∀ i, (Shape.getVertices ⟨1, 2, 2⟩ (translation 0 0 0.6)) i =
      ![![-0.5, 1, 1.6], ![-0.5, 1, -0.4], ![-0.5, -1, 1.6], ![-0.5, -1, -0.4],
        ![0.5, 1, 1.6], ![0.5, 1, -0.4], ![0.5, -1, 1.6], ![0.5, -1, -0.4]] i := by
  have h1 : ∀ v : V3, tfApply 1 v = v := by
    intro v
    ext k
    fin_cases k <;>
      simp [tfApply, rotPart, posPart, Matrix.mulVec, dotProduct, Fin.sum_univ_three, Matrix.one_apply]
  have h2 : ∀ v : V3, tfApply (translation 0 0 0.6) v = ![v 0, v 1, v 2 + 0.6] := by
    intro v
    have := act_translation 0 0 0.6 v
    simp only [add_zero] at this
    exact this
  constructor
  · intro i
    simp only [Shape.getVertices, h1]
    fin_cases i <;> ext k <;> fin_cases k <;> norm_num
  · intro i
    simp only [Shape.getVertices, h2, Matrix.cons_val]
    fin_cases i <;> ext k <;> fin_cases k <;> norm_num

/-! ### C134: the order of the arguments on the page about tolerances -/

open Verif.Path in
/-- **C134** (false): written as on the page, nominal value first, the number has that nominal value
and those bounds. -/
def C134_statement : Prop := ∀ nominal lower upper : ℝ, lower ≤ nominal → nominal ≤ upper →
  ∃ t, TolNum.new nominal lower (some upper) = .ok t ∧
    t.nominal = nominal ∧ t.lower = lower ∧ t.upper = upper

open Verif.Path in
/-- **C134** is false: the very line of the page raises. -/
theorem C134_refuted : ¬ C134_statement ∧
    TolNum.new 1.0 0.5 (some 1.5) = .error Verif.PyErr.valueError := by
  have h : TolNum.new 1.0 0.5 (some 1.5) = .error Verif.PyErr.valueError := by
    simp only [TolNum.new]
    rw [if_pos]
    right
    norm_num
  refine ⟨fun hs => ?_, h⟩
  obtain ⟨t, ht, -⟩ := hs 1.0 0.5 1.5 (by norm_num) (by norm_num)
  rw [h] at ht
  cases ht

open Verif.Path in
/-- **C134**, what holds: that order raises for every range that is not a single number, and the order
lower, upper, nominal gives what the page says. -/
theorem C134_partial {nominal lower upper : ℝ} (h1 : lower ≤ nominal) (h2 : nominal ≤ upper) :
    (TolNum.new nominal lower (some upper) = .error Verif.PyErr.valueError ↔ lower < upper) ∧
    ∃ t, TolNum.new lower upper (some nominal) = .ok t ∧
      t.nominal = nominal ∧ t.lower = lower ∧ t.upper = upper := by
  constructor
  · simp only [TolNum.new]
    constructor
    · intro h
      by_contra hc
      rw [if_neg] at h
      · cases h
      · push Not
        constructor <;> linarith
    · intro h
      rw [if_pos (Or.inr h)]
  · refine ⟨⟨lower, upper, nominal, 10⟩, ?_, rfl, rfl, rfl⟩
    simp only [TolNum.new]
    rw [if_neg]
    push Not
    exact ⟨h1, h2⟩

open Verif.Path in
/-- The range of the page in the order of the code. -/
example : ∃ t, TolNum.new 0.5 1.5 (some 1.0) = .ok t ∧ t.nominal = 1.0 ∧ t.lower = 0.5 ∧
    t.upper = 1.5 := (C134_partial (by norm_num) (by norm_num)).2

end Verif.Props
