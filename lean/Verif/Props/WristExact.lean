import Verif.Props.Robots

/-!
# C37, exactly when the wrist solutions are right
-/

set_option linter.unusedSectionVars false

namespace Verif.Props

open Matrix Verif.Geometry Verif.Kin Verif.Util

/-- **C37**, exactly when a returned solution has the orientation of the target: the approach axes of
target and base are not parallel, or the target is one of two singular ones: relative to the base a turn
`Z` about the z axis, or this after half a turn about the y axis.  `Z` is half a turn if the zeros
`Ree_rel[0, 2]` and `Ree_rel[2, 0]` have the same sign, and no turn otherwise. -/
theorem C37_iff [Zeros] (hit : Oracle Shape) (d3 : ℝ) {base T : M4} (hb : IsRigid base)
    (hT : IsRigid T)
    (n : Nat) (mem : Mem) (hn : n < mem.length) :
    ∃ rows, (wristIk n base mem T).2[(wristIk n base mem T).1]? = some rows ∧ rows.length = 2 ∧
      ∀ q ∈ rows,
        (FkSatisfies hit (wristOn d3 base) q (fun F => rotPart F = rotPart T) ↔
          ((∀ s : ℝ, ∃ i, rotPart T i 2 ≠ s * rotPart base i 2) ∨
            rotPart T = rotPart base * zeroTurn base T ∨
            rotPart T = rotPart base * (zeroTurn base T * rotY Real.pi))) := by
  obtain ⟨r1, r2, hr, hq⟩ := C37_wrist_sound_partial hit d3 hb hT n mem hn
  have hrows : [r1, r2] = wristRows base T := by
    simp [wristIk, hn] at hr
    exact hr.symm
  refine ⟨[r1, r2], hr, rfl, fun q hqm => ?_⟩
  obtain ⟨hax, hfull⟩ := hq q (by simpa using hqm)
  have hrel : IsRot (relRot base T) := hb.1.transpose.mul hT.1
  have hTe : rotPart T = rotPart base * relRot base T := by
    rw [relRot, ← Matrix.mul_assoc, hb.1.mul_transpose, one_mul]
  have hsing : ¬ (∀ s : ℝ, ∃ i, rotPart T i 2 ≠ s * rotPart base i 2) →
      FkSatisfies hit (wristOn d3 base) q fun F =>
        rotPart F = rotPart base * zeroTurn base T ∨
          rotPart F = rotPart base * (zeroTurn base T * rotY Real.pi) := by
    intro hp
    push Not at hp
    obtain ⟨s, hs⟩ := hp
    have hz : ∀ j, relRot base T j 2 = s * (1 : M3) j 2 := by
      intro j
      rw [← hb.1.1]
      simp only [relRot, Matrix.mul_apply, Matrix.transpose_apply, hs, Finset.mul_sum]
      exact Finset.sum_congr rfl fun _ _ => by ring
    exact C37_singular hit d3 hb hT ((hz 0).trans (by simp)) ((hz 1).trans (by simp)) q
      (hrows ▸ hqm)
  constructor
  · intro hF
    by_cases hp : ∀ s : ℝ, ∃ i, rotPart T i 2 ≠ s * rotPart base i 2
    · exact Or.inl hp
    · obtain ⟨F, h1, h2⟩ := hsing hp [] (by simp)
      obtain ⟨F', h1', h2'⟩ := hF [] (by simp)
      rw [h1] at h1'
      cases h1'
      rw [h2'] at h2
      exact Or.inr h2
  · intro h
    by_cases hp : ∀ s : ℝ, ∃ i, rotPart T i 2 ≠ s * rotPart base i 2
    · exact hfull hp
    · intro history hh
      obtain ⟨F, h1, h2⟩ := hsing hp history hh
      obtain ⟨F', h1', h2'⟩ := hax history hh
      rw [h1] at h1'
      cases h1'
      refine ⟨F, h1, ?_⟩
      change rotPart F = rotPart T
      have hne : ¬ ∀ i, (rotPart base * zeroTurn base T) i 2 =
          (rotPart base * (zeroTurn base T * rotY Real.pi)) i 2 := by
        have hcol : ∀ i, (rotPart base * zeroTurn base T) i 2 = rotPart base i 2 ∧
            (rotPart base * (zeroTurn base T * rotY Real.pi)) i 2 = - rotPart base i 2 := by
          intro i
          unfold zeroTurn
          split
          · simp [Matrix.mul_apply, Fin.sum_univ_succ, rotY, rotZ]
          · rw [one_mul, mul_one]
            simp [Matrix.mul_apply, Fin.sum_univ_succ, rotY]
        intro hall
        have hz : ∀ i, rotPart base i 2 = 0 := fun i => by
          have := hall i; rw [(hcol i).1, (hcol i).2] at this; linarith
        have := congrFun (congrFun hb.1.1 2) 2
        simp [Matrix.mul_apply, hz] at this
      rcases h with h | h | h
      · exact absurd h hp
      · rcases h2 with h2 | h2
        · rw [h2, h]
        · exact absurd (fun i => by have := h2' i; rw [h2, h] at this; exact this.symm) hne
      · rcases h2 with h2 | h2
        · exact absurd (fun i => by have := h2' i; rw [h2, h] at this; exact this) hne
        · rw [h2, h]

/-- Both sides occur: a target turned by half a turn about the z axis is reached from the base if all
zeros are positive, and the orientation of the base itself is not (`C37_at_base`). -/
example (hit : Oracle Shape) (d3 : ℝ) :
    ∀ q ∈ @wristRows posZeros 1 (mkTf (rotZ Real.pi) 0),
      FkSatisfies hit (wristOn d3 1) q fun F => rotPart F = rotZ Real.pi := by
  have hT : IsRigid (mkTf (rotZ Real.pi) 0) := isRigid_mkTf.2 (rotZ_isRot _)
  obtain ⟨rows, h1, -, h3⟩ := @C37_iff posZeros hit d3 1 _ IsRigid.one hT 0 [[]] (by simp)
  have : rows = @wristRows posZeros 1 (mkTf (rotZ Real.pi) 0) := by simpa [wristIk] using h1.symm
  intro q hq
  have hone : rotPart (1 : M4) = 1 := by rw [← mkTf_one, rotPart_mkTf]
  have := (h3 q (this ▸ hq)).2 (Or.inr (Or.inl (by rw [hone, one_mul, rotPart_mkTf]; exact (if_pos rfl).symm)))
  simpa using this

end Verif.Props
