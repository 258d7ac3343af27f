import Verif.Props.Resources

/-!
# C92: the paths over the table (path_on_table.py)
-/

set_option linter.unusedSectionVars false

namespace Verif.Props

open Matrix Verif.Util Verif.Geometry Verif.Kin Verif.Path Verif.Resources

/-- Every point within 2 cm of `p` (in each coordinate) is outside all shapes. -/
def ClearBy2cm (c : Collection Shape) (p : V3) : Prop :=
  ∀ v : V3, (∀ i, |v i| < 0.02) → ∀ i, p + v ∉ wallPoints c i

theorem act_shift (x y z : ℝ) (u : V3) :
    act !![1, 0, 0, x; 0, 1, 0, y; 0, 0, 1, z; 0, 0, 0, 1] u = u + ![x, y, z] := by
  ext i
  fin_cases i <;>
    simp [act, rotPart, posPart, Matrix.mulVec, dotProduct, Fin.sum_univ_succ]

theorem clear_scene1 {p : V3} (h : p 2 = 0.2) : ClearBy2cm scene1 p := by
  rintro v hv i ⟨s, T, hs, hT, hx⟩
  have h2 := abs_lt.1 (hv 2)
  rcases i with _ | i
  all_goals simp only [scene1, List.getElem?_cons_zero, List.getElem?_cons_succ,
      Option.some.injEq, List.getElem?_nil, reduceCtorEq] at hs hT
  subst hs hT
  rw [mem_translated (act_shift _ _ _)] at hx
  have := (abs_le.1 hx.2.2).2
  simp only [Pi.add_apply, h, Matrix.cons_val] at this
  norm_num at this h2
  linarith [h2.1, h2.2]

theorem clear_scene2 {p : V3} (h : p 2 = 0.2) : ClearBy2cm scene2 p := by
  rintro v hv i ⟨s, T, hs, hT, hx⟩
  have h2 := abs_lt.1 (hv 2)
  rcases i with _ | _ | _ | i
  all_goals simp only [scene2, List.getElem?_cons_zero, List.getElem?_cons_succ,
      Option.some.injEq, List.getElem?_nil, reduceCtorEq] at hs hT
  all_goals
    subst hs hT
    rw [mem_translated (act_shift _ _ _)] at hx
    have := abs_le.1 hx.2.2
    simp only [Pi.add_apply, h, Matrix.cons_val] at this
    norm_num at this h2
    linarith [h2.1, h2.2, this.1, this.2]

/-- C92: the space both scenes take.  The table of the first scene reaches up to 0.17.  In the second
scene the table reaches up to 0.18 and starts behind the middle of the path; the two boxes stand
around y = -0.1, one above and one below the height 0.2 of the paths, at the same distance of 7 cm.
There is nothing else. -/
theorem C92_scenes (x : V3) :
    ((∃ i, x ∈ wallPoints scene1 i) ↔
      |x 0 - 0.8| ≤ 0.25 ∧ |x 1| ≤ 0.25 ∧ 0.07 ≤ x 2 ∧ x 2 ≤ 0.17) ∧
    ((∃ i, x ∈ wallPoints scene2 i) ↔
      (|x 0 - 0.8| ≤ 0.25 ∧ 0.125 ≤ x 1 ∧ x 1 ≤ 0.375 ∧ 0.08 ≤ x 2 ∧ x 2 ≤ 0.18) ∨
      (|x 0 - 0.8| ≤ 0.05 ∧ |x 1 + 0.1| ≤ 0.05 ∧ 0.2 + 0.07 ≤ x 2 ∧ x 2 ≤ 0.2 + 0.17) ∨
      (|x 0 - 0.8| ≤ 0.05 ∧ |x 1 + 0.1| ≤ 0.05 ∧ 0.2 - 0.17 ≤ x 2 ∧ x 2 ≤ 0.2 - 0.07)) := by
  have key : ∀ (c : Collection Shape) (i : Nat) (s : Shape) (a b d : ℝ), c.s[i]? = some s →
      c.tfS[i]? = some !![1, 0, 0, a; 0, 1, 0, b; 0, 0, 1, d; 0, 0, 0, 1] →
      (x ∈ wallPoints c i ↔
        |x 0 - a| ≤ s.dx / 2 ∧ |x 1 - b| ≤ s.dy / 2 ∧ |x 2 - d| ≤ s.dz / 2) := by
    intro c i s a b d hs hT
    have hm := mem_translated (act_shift a b d) s x
    simp only [Matrix.cons_val] at hm
    rw [← hm]
    constructor
    · rintro ⟨s', T', hs', hT', hx⟩
      rw [hs] at hs'
      rw [hT] at hT'
      cases hs'
      cases hT'
      exact hx
    · intro hx
      exact ⟨s, _, hs, hT, hx⟩
  constructor
  · have h0 := key scene1 0 _ _ _ _ rfl rfl
    constructor
    · rintro ⟨i, hi⟩
      rcases i with _ | i
      · obtain ⟨g0, g1, g2⟩ := h0.1 hi
        have g2 := abs_le.1 g2
        refine ⟨by norm_num at g0 ⊢; linarith, by norm_num at g1 ⊢; linarith, ?_, ?_⟩ <;>
          norm_num at g2 ⊢ <;> linarith [g2.1, g2.2]
      · obtain ⟨s, T, hs, -⟩ := hi
        simp [scene1] at hs
    · rintro ⟨g0, g1, g2, g3⟩
      refine ⟨0, h0.2 ⟨?_, ?_, abs_le.2 ⟨?_, ?_⟩⟩⟩ <;> norm_num at * <;> linarith
  · have h0 := key scene2 0 _ _ _ _ rfl rfl
    have h1 := key scene2 1 _ _ _ _ rfl rfl
    have h2 := key scene2 2 _ _ _ _ rfl rfl
    constructor
    · rintro ⟨i, hi⟩
      rcases i with _ | _ | _ | i
      · obtain ⟨g0, g1, g2⟩ := h0.1 hi
        have g1 := abs_le.1 g1
        have g2 := abs_le.1 g2
        refine .inl ⟨by norm_num at g0 ⊢; linarith, ?_, ?_, ?_, ?_⟩ <;>
          norm_num at g1 g2 ⊢ <;> linarith [g1.1, g1.2, g2.1, g2.2]
      · obtain ⟨g0, g1, g2⟩ := h1.1 hi
        have g2 := abs_le.1 g2
        rw [sub_neg_eq_add] at g1
        refine .inr (.inl ⟨by norm_num at g0 ⊢; linarith, by norm_num at g1 ⊢; linarith, ?_, ?_⟩) <;>
          norm_num at g2 ⊢ <;> linarith [g2.1, g2.2]
      · obtain ⟨g0, g1, g2⟩ := h2.1 hi
        have g2 := abs_le.1 g2
        rw [sub_neg_eq_add] at g1
        refine .inr (.inr ⟨by norm_num at g0 ⊢; linarith, by norm_num at g1 ⊢; linarith, ?_, ?_⟩) <;>
          norm_num at g2 ⊢ <;> linarith [g2.1, g2.2]
      · obtain ⟨s, T, hs, -⟩ := hi
        simp [scene2] at hs
    · rintro (⟨g0, g1, g2, g3, g4⟩ | ⟨g0, g1, g2, g3⟩ | ⟨g0, g1, g2, g3⟩)
      · refine ⟨0, h0.2 ⟨?_, abs_le.2 ⟨?_, ?_⟩, abs_le.2 ⟨?_, ?_⟩⟩⟩ <;> norm_num at * <;> linarith
      · refine ⟨1, h1.2 ⟨?_, ?_, abs_le.2 ⟨?_, ?_⟩⟩⟩ <;> norm_num at * <;> linarith
      · refine ⟨2, h2.2 ⟨?_, ?_, abs_le.2 ⟨?_, ?_⟩⟩⟩ <;> norm_num at * <;> linarith

/-- C92. For every number of points, `path_ori_free` has that many points, evenly spaced on the line
from (0.8, -0.2, 0.2) to (0.8, 0.2, 0.2), and each keeps 2 cm distance from all shapes of both
scenes. -/
theorem C92_path_ori_free (n : Nat) : ∃ path, pathOriFree n = .ok path ∧ path.length = n ∧
    ∀ (k : Nat) (pt : FreeOrientationPt), path[k]? = some pt →
      pt.p = onLine ![0.8, -0.2, 0.2] ![0.8, 0.2, 0.2] n k ∧
      ClearBy2cm scene1 pt.p ∧ ClearBy2cm scene2 pt.p := by
  refine ⟨_, by unfold pathOriFree; rw [linspace_unit]; rfl, by simp, ?_⟩
  intro k pt hk
  obtain ⟨hkn, rfl⟩ := List.getElem?_eq_some_iff.1 hk
  simp only [List.getElem_map, List.getElem_range, FreeOrientationPt.new]
  refine ⟨?_, clear_scene1 (by simp), clear_scene2 (by simp)⟩
  ext i
  fin_cases i <;> simp [onLine]
  ring

theorem down_quat : Quat.ofAxisAngle ![0, 1, 0] Real.pi = .ok ⟨0, 0, 1, 0⟩ := by
  have hm : (![0, 1, 0] : V3) ⬝ᵥ ![0, 1, 0] = 1 := by simp
  unfold Quat.ofAxisAngle
  simp only [hm]
  norm_num [Matrix.cons_val]
  simp

/-- C92. For every number of points, `path_pos_tol` has that many points.  Point `k` has ten
samples; all point straight down, at height 0.2, at fraction `k / (n - 1)` of the way from y = -0.2
to 0.2, within 5 cm of the sine curve, and 2 cm from all shapes of both scenes. -/
theorem C92_path_pos_tol (n : Nat) : ∃ path, pathPosTol n = .ok path ∧ path.length = n ∧
    ∀ (k : Nat) (pt : TolPositionPt), path[k]? = some pt →
      ∃ Ts, pt.getSamples = .ok Ts ∧ Ts.length = 10 ∧ Ts.Nodup ∧ ∀ T ∈ Ts, IsRigid T ∧
        rotPart T = rotY Real.pi ∧
        |posPart T 0 - (0.8 + 0.1 * Real.sin (2 * Real.pi * (k / ((n : ℝ) - 1))))| ≤ 0.05 ∧
        posPart T 1 = -0.2 + 0.4 * (k / ((n : ℝ) - 1)) ∧ posPart T 2 = 0.2 ∧
        ClearBy2cm scene1 (posPart T) ∧ ClearBy2cm scene2 (posPart T) := by
  set X : ℝ → ℝ := fun s => 0.8 + 0.1 * Real.sin (2 * Real.pi * s) with hX
  set P : ℝ → Fin 3 → Entry := fun s => ![.tol ⟨X s - 0.05, X s + 0.05,
    X s - 0.05 + (X s + 0.05 - (X s - 0.05)) / 2, 10⟩, .num (s * 0.2 + (1 - s) * (-0.2)),
    .num 0.2] with hP
  have hq : (⟨0, 0, 1, 0⟩ : Quat).norm2 = 1 := by simp [Quat.norm2]
  have hsound : ∀ s i, Sound (P s i) := by
    intro s i
    fin_cases i <;> simp [P, Sound]
    linarith
  have hspread : ∀ s i, Spread (P s i) := by
    intro s i
    fin_cases i <;> simp [P, Spread]
    linarith
  have hrun : pathPosTol n = .ok (((List.range n).map fun (i : Nat) => (i : ℝ) / ((n : ℝ) - 1)).map
      fun s => positionPt (P s) ⟨0, 0, 1, 0⟩) := by
    unfold pathPosTol
    rw [down_quat]
    simp only [bind, Except.bind, linspace_unit]
    exact mapM_ok fun s _ => positionPt_new (P s) _
  refine ⟨_, hrun, by simp, ?_⟩
  intro k pt hk
  obtain ⟨hkn, rfl⟩ := List.getElem?_eq_some_iff.1 hk
  simp only [List.getElem_map, List.getElem_range]
  generalize (k : ℝ) / ((n : ℝ) - 1) = s
  obtain ⟨pt, cs, h1, h2, h3, h4, h5, h6⟩ := C48 (hsound s) hq
  rw [positionPt_new] at h1
  obtain rfl := Except.ok.inj h1
  refine ⟨_, h2, ?_, ?_, ?_⟩
  · rw [List.length_map, h3]
    simp [P, Fin.prod_univ_succ, gridCount]
  · exact (List.nodup_map_iff fun x y hxy => (mkTf_inj hxy).2).2 (h5 (hspread s))
  · intro T hT
    obtain ⟨x, hx, rfl⟩ := List.mem_map.1 hT
    obtain ⟨hr, ha⟩ := h6 x hx
    have a0 := ha 0
    have a1 := ha 1
    have a2 := ha 2
    simp [P, Allowed] at a0 a1 a2
    rw [rotPart_mkTf, posPart_mkTf]
    refine ⟨hr, ?_, ?_, ?_, a2, clear_scene1 a2, clear_scene2 a2⟩
    · ext i j
      fin_cases i <;> fin_cases j <;> simp [Quat.rotationMatrix, Quat.normalise_of_unit hq, rotY]
    · rw [abs_le]
      have e : X s = 0.8 + 0.1 * Real.sin (2 * Real.pi * s) := rfl
      constructor <;> linarith [a0.1, a0.2]
    · rw [a1]; ring

end Verif.Props
