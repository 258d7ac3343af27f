import Verif.Props.Kuka

/-!
# C39, what is returned for a stretched wrist
-/

set_option linter.unusedSectionVars false

namespace Verif.Props

open Matrix Verif.Geometry Verif.Kin Verif.Util

/-- A wrist row whose middle angle is a multiple of half a turn has such multiples around it. -/
theorem wristRows_stretched [Zeros] {tfBase T : M4} (h : IsRot (relRot tfBase T)) {t1 t2 t3 : ℝ}
    (hq : [t1, t2, t3] ∈ wristRows tfBase T) (h0 : Real.sin t2 = 0) :
    (t1 = 0 ∨ t1 = Real.pi ∨ t1 = -Real.pi) ∧ (t3 = 0 ∨ t3 = Real.pi ∨ t3 = -Real.pi) := by
  obtain ⟨-, -, hs⟩ := wristRows_axis h hq
  have hz := hs h0
  obtain ⟨s0, s1, -⟩ := stretchedRot_axis (halfTurn tfBase T) (relRot tfBase T 2 2)
  by_cases hns : relRot tfBase T 0 2 ≠ 0 ∨ relRot tfBase T 1 2 ≠ 0
  · obtain ⟨_, _, _, he, hz'⟩ := wristRows_sound h hns _ hq
    cases he
    rw [hz] at hz'
    exfalso
    rcases hns with hns | hns
    · exact hns (by rw [← hz', s0])
    · exact hns (by rw [← hz', s1])
  · push Not at hns
    obtain ⟨r1, r2, -⟩ := h.relations
    rw [hns.1, hns.2] at r1
    have hz : relRot tfBase T 2 2 ^ 2 = 1 := by linarith
    have h20 : relRot tfBase T 2 0 = 0 := by nlinarith [sq_nonneg (relRot tfBase T 2 1)]
    have h21 : relRot tfBase T 2 1 = 0 := by nlinarith [sq_nonneg (relRot tfBase T 2 0)]
    have hat : ∀ b c, atan2 b c 0 0 = 0 ∨ atan2 b c 0 0 = Real.pi ∨ atan2 b c 0 0 = -Real.pi := by
      intro b c
      rw [atan2_zero]
      cases b <;> cases c <;> simp
    rw [wristRows_eq] at hq
    simp only [List.mem_cons, List.not_mem_nil, or_false, hns.1, hns.2, h20, h21, neg_zero,
      List.cons.injEq, and_true] at hq
    rcases hq with ⟨rfl, -, rfl⟩ | ⟨rfl, -, rfl⟩ <;> exact ⟨hat _ _, hat _ _⟩

/-- **C39**, stretched wrist: in a returned solution with `sin q5 = 0`, `q4` and `q6` are 0, π or −π,
whatever the target.  So if the elbow is bent it can reach the target only if this is the pose with
`q4 = 0` and `q6` zero or half a turn; every other turn about the approach axis is lost.
`C39_refuted` has such a solution, for the default Kuka. -/
theorem C39_stretched [Zeros] (hit : Oracle Shape) {a1 a2 d4 d6 : ℝ} (ha : a2 * d4 ≠ 0) (n : Nat)
    (mem : Mem) (hn : n < mem.length) (history : List IkCall) {base T : M4} (hb : IsRigid base)
    (tool : Option (Tool Shape)) (ht : ∀ t, tool = some t → IsRigid t.tfTT) (hT : IsRigid T) :
    let k := setup (Kuka.new a1 a2 d4 d6 n) base tool
    let s := kukaAfter (Kuka.new a1 a2 d4 d6 n) mem history
    ∀ sols, (k.ik s.1 s.2 T).1 = .ok (some sols) → ∀ a ∈ sols, ∃ q1 q2 q3 q4 q5 q6,
      (k.ik s.1 s.2 T).2.2[a]? = some [[q1, q2, q3, q4, q5, q6]] ∧
      (Real.sin q5 = 0 → (q4 = 0 ∨ q4 = Real.pi ∨ q4 = -Real.pi) ∧
        (q6 = 0 ∨ q6 = Real.pi ∨ q6 = -Real.pi)) ∧
      (FkSatisfies hit k.robot [q1, q2, q3, q4, q5, q6] (· = T) → Real.sin q5 ≠ 0 ∨
        FkSatisfies hit k.robot [q1, q2, q3, 0, q5, 0] (· = T) ∨
        FkSatisfies hit k.robot [q1, q2, q3, 0, q5, Real.pi] (· = T)) ∧
      (Real.cos q3 ≠ 0 → Real.sin q5 ≠ 0 →
        FkSatisfies hit k.robot [q1, q2, q3, q4, q5, q6] (· = T)) := by
  intro k s sols hs a hmem
  obtain ⟨-, hpart⟩ := C39_kuka_sound_partial hit (a1 := a1) (d6 := d6) ha n mem hn history hb tool
    ht hT
  obtain ⟨q1, q2, q3, q4, q5, q6, hcell, hex, -⟩ := hpart sols hs a hmem
  have h46 : Real.sin q5 = 0 → (q4 = 0 ∨ q4 = Real.pi ∨ q4 = -Real.pi) ∧
      (q6 = 0 ∨ q6 = Real.pi ∨ q6 = -Real.pi) := by
    obtain ⟨hw, hlen⟩ := kukaAfter_inv (a1 := a1) (a2 := a2) (d4 := d4) (d6 := d6) mem hn history
    have hm : k.qsol < s.2.length := lt_of_lt_of_le hn hlen
    have htip := tipOf_rigid ht
    obtain ⟨R, p, hR, hTe⟩ := exists_flange hb htip hT
    have htgt : kukaTarget k.robot T = mkTf R (p - R *ᵥ ![0, 0, d6]) :=
      kukaTarget_eq (r := k.robot) hb htip hTe rfl
    cases hq : arm2Ik (arm2 a1 a2 d4) (kukaTarget k.robot T) with
    | none =>
      rw [kukaIk_none k (a1 := a1) (a2 := a2) (d4 := d4) rfl s.1 s.2 hq] at hs
      simp at hs
    | some qs =>
      obtain ⟨-, hc, -⟩ := kukaIk_content k (a1 := a1) (a2 := a2) (d4 := d4) rfl hw hm hq hs
      obtain ⟨q, hqm, q', hq'm, hcell'⟩ := hc a hmem
      rw [htgt] at hq hq'm
      have hcand' : IsCand a1 a2 d4 ((p - R *ᵥ ![0, 0, d6]) 0) ((p - R *ᵥ ![0, 0, d6]) 1)
        ((p - R *ᵥ ![0, 0, d6]) 2) q := arm2Ik_cand hq hqm
      obtain ⟨u1, u2, u3, t1, t2, t3, -, rfl, hrow, hrel⟩ := kSols_mem hcand' hq'm
      have hrelrot := (armRot_isRot u1 (u2 + (u3 + Real.pi / 2))).transpose.mul hR
      rw [← hrel] at hrelrot
      have := hcell.symm.trans hcell'
      simp only [Option.some.injEq, List.cons.injEq, and_true] at this
      obtain ⟨-, -, -, rfl, rfl, rfl⟩ := this
      exact fun h0 => wristRows_stretched hrelrot hrow h0
  refine ⟨q1, q2, q3, q4, q5, q6, hcell, h46, fun hF => ?_, hex⟩
  by_cases h5 : Real.sin q5 = 0
  · right
    have hfk : ∀ t6, zyz q4 q5 q6 = zyz 0 q5 t6 →
        FkSatisfies hit k.robot [q1, q2, q3, 0, q5, t6] (· = T) := by
      intro t6 he
      rw [fkSatisfies_iff _ _ (setup_known a1 a2 d4 d6 n base tool) _ (le_refl _)] at hF ⊢
      change base * chain (kukaRobot a1 a2 d4 d6).links [q1, q2, q3, q4, q5, q6] * tipOf tool = T at hF
      change base * chain (kukaRobot a1 a2 d4 d6).links [q1, q2, q3, 0, q5, t6] * tipOf tool = T
      rw [chain_kuka, he, ← chain_kuka] at hF
      exact hF
    have h5' : Real.cos q5 = 1 ∨ Real.cos q5 = -1 := by
      have := Real.cos_sq_add_sin_sq q5
      rw [h5, zero_pow two_ne_zero, add_zero] at this
      simpa using this
    obtain ⟨h4, h6⟩ := h46 h5
    have hz : zyz q4 q5 q6 = zyz 0 q5 0 ∨ zyz q4 q5 q6 = zyz 0 q5 Real.pi := by
      simp only [zyz_eq, h5]
      rcases h4 with rfl | rfl | rfl <;> rcases h6 with rfl | rfl | rfl <;>
        rcases h5' with h | h <;> simp [h]
    exact hz.imp (hfk _) (hfk _)
  · exact Or.inl h5

end Verif.Props
