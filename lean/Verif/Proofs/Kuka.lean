import Verif.Proofs.Robots

/-! # Kuka and KukaOnRail: what their ik methods return -/

set_option linter.unusedSectionVars false

namespace Verif.Kin

open Matrix Verif.Geometry Verif.Util

theorem setPos_mkTf (R : M3) (p p' : V3) : setPos (mkTf R p) p' = mkTf R p' := by
  ext i j; fin_cases i <;> fin_cases j <;> rfl

/-- The tool tip, or the identity. -/
noncomputable def tip (r : Robot Shape) : M4 := (r.tool.map Tool.tfTT).getD 1

theorem kukaTarget_eq {r : Robot Shape} {T : M4} {R : M3} {p : V3} (hb : IsRigid r.tfBase)
    (ht : IsRigid (tip r)) (hT : T = r.tfBase * mkTf R p * tip r) {d6 : ℝ}
    (hd : (dhOfLink r 5).d = d6) : kukaTarget r T = mkTf R (p - R *ᵥ ![0, 0, d6]) := by
  have h1 : tfInverse r.tfBase * T = mkTf R p * tip r := by
    rw [hT, ← mul_assoc, ← mul_assoc, tfInverse_mul hb, one_mul]
  unfold kukaTarget
  simp only [hd, h1]
  unfold tip at *
  cases h : r.tool with
  | none => simp [setPos_mkTf]
  | some tool =>
    rw [h] at ht
    simp only [Option.map_some, Option.getD_some] at ht ⊢
    rw [mul_assoc, mul_tfInverse ht, mul_one]
    simp [setPos_mkTf]

theorem rotPart_wristBase (R : M3) (Tw : M4) : rotPart (wristBase R Tw) = R := by
  ext i j; fin_cases i <;> fin_cases j <;> rfl

/-! ### The loops -/

theorem kukaRows_eq (qArm : List ℝ) (rows : List (List ℝ)) (mem : Mem) (sols : List Nat) :
    kukaRows qArm rows mem sols = (sols ++ List.range' mem.length rows.length,
      mem ++ rows.map fun r => [qArm ++ r]) := by
  induction rows generalizing mem sols with
  | nil => simp [kukaRows]
  | cons r rows ih =>
    rw [kukaRows, ih]
    simp [List.range'_succ]

/-- The solutions that belong to one solution of the arm. -/
noncomputable def kSols [Zeros] (a1 a2 d4 : ℝ) (Tw : M4) (q : List ℝ) : List (List ℝ) :=
  (wristRows (wristBase (rotPart (chain (arm2 a1 a2 d4).links (q.modify 2 (· + Real.pi / 2)))) Tw)
    Tw).map fun r => q.modify 2 (· + Real.pi / 2) ++ r

theorem arm2_known (a1 a2 a3 : ℝ) : ∀ l ∈ (arm2 a1 a2 a3).links, l.Known := by
  intro l hl
  simp only [arm2, Robot.new, List.mem_cons, List.not_mem_nil, or_false] at hl
  rcases hl with rfl | rfl | rfl <;> simp [Link.Known]

theorem kSols_length [Zeros] (a1 a2 d4 : ℝ) (Tw : M4) (q : List ℝ) :
    (kSols a1 a2 d4 Tw q).length = 2 := by
  simp [kSols, wristRows_eq]

theorem kukaLoop_eq [Zeros] {a1 a2 d4 : ℝ} (k : Kuka) (hk : k.arm = arm2 a1 a2 d4) (Tw : M4) :
    ∀ (qs : List (List ℝ)) (st : RState) (mem : Mem) (sols : List Nat),
      (∀ q ∈ qs, q.length = 3) → WF 3 st → k.qsol < mem.length →
      ∃ st' X, kukaLoop k Tw qs st mem sols =
        (.ok (sols ++ List.range' mem.length (qs.flatMap (kSols a1 a2 d4 Tw)).length), st',
          mem.set k.qsol X ++ (qs.flatMap (kSols a1 a2 d4 Tw)).map fun q => [q]) ∧ WF 3 st' := by
  intro qs
  induction qs with
  | nil =>
    intro st mem sols _ hw hm
    refine ⟨st, mem[k.qsol], ?_, hw⟩
    simp [kukaLoop]
  | cons q qs ih =>
    intro st mem sols hq hw hm
    have hl : (arm2 a1 a2 d4).links.length ≤ (q.modify 2 (· + Real.pi / 2)).length := by
      rw [List.length_modify, hq q List.mem_cons_self]; exact le_refl _
    have hfk := fk_ok (r := arm2 a1 a2 d4) hw hl (arm2_known a1 a2 d4)
    have hfk' : ((arm2 a1 a2 d4).fk st (q.modify 2 (· + Real.pi / 2))).1 =
        .ok (chain (arm2 a1 a2 d4).links (q.modify 2 (· + Real.pi / 2))) := by
      rw [hfk]; simp [arm2, Robot.new]
    have hw' : WF 3 ((arm2 a1 a2 d4).fk st (q.modify 2 (· + Real.pi / 2))).2 :=
      hw.fkAllLinks (r := arm2 a1 a2 d4) _
    unfold kukaLoop
    simp only [hk, hfk']
    set base := wristBase (rotPart (chain (arm2 a1 a2 d4).links (q.modify 2 (· + Real.pi / 2)))) Tw
      with hbase
    have hrow : ((wristIk k.qsol base mem Tw).2[(wristIk k.qsol base mem Tw).1]?).getD [] =
        wristRows base Tw := by
      simp [wristIk, hm]
    rw [hrow, kukaRows_eq]
    simp only
    obtain ⟨st', X, e, hwf⟩ := ih ((arm2 a1 a2 d4).fk st (q.modify 2 (· + Real.pi / 2))).2
      ((wristIk k.qsol base mem Tw).2 ++ (wristRows base Tw).map fun r =>
        [q.modify 2 (· + Real.pi / 2) ++ r])
      (sols ++ List.range' (wristIk k.qsol base mem Tw).2.length (wristRows base Tw).length)
      (fun q' h => hq q' (List.mem_cons_of_mem _ h)) hw' (by simp [wristIk]; omega)
    refine ⟨st', X, ?_, hwf⟩
    rw [e]
    have hlen : (wristIk k.qsol base mem Tw).2.length = mem.length := by simp [wristIk]
    have hks : (kSols a1 a2 d4 Tw q).length = (wristRows base Tw).length := by simp [kSols, hbase]
    refine Prod.ext ?_ (Prod.ext rfl ?_)
    · simp only [List.flatMap_cons, List.length_append, hks, hlen, List.length_map, List.append_assoc]
      rw [List.range'_append_1]
    · simp only [List.flatMap_cons, List.map_append, ← List.append_assoc]
      congr 1
      rw [List.set_append_left _ _ (by rw [hlen]; exact hm)]
      simp [wristIk, List.set_set, kSols, hbase]

theorem arm2Ik_len3 [Zeros] {a1 a2 a3 : ℝ} {T : M4} {sols : List (List ℝ)}
    (h : arm2Ik (arm2 a1 a2 a3) T = some sols) : ∀ q ∈ sols, q.length = 3 := by
  intro q hq
  obtain ⟨u, q1, c', sg, b, d, b', d', -, -, -, -, rfl⟩ := arm2Ik_cand h hq
  rfl

/-- `Kuka.ik` when the arm reaches the target. -/
theorem kukaIk_some [Zeros] {a1 a2 d4 : ℝ} (k : Kuka) (hk : k.arm = arm2 a1 a2 d4) {st : RState}
    {mem : Mem}
    {T : M4} (hw : WF 3 st) (hm : k.qsol < mem.length) {qs : List (List ℝ)}
    (hs : arm2Ik (arm2 a1 a2 d4) (kukaTarget k.robot T) = some qs) :
    ∃ st' X, k.ik st mem T = (.ok (some (List.range' mem.length (2 * qs.length))), st',
      mem.set k.qsol X ++
        (qs.flatMap (kSols a1 a2 d4 (kukaTarget k.robot T))).map fun q => [q]) ∧ WF 3 st' := by
  obtain ⟨st', X, e, hwf⟩ := kukaLoop_eq k hk (kukaTarget k.robot T) qs st mem [] (arm2Ik_len3 hs) hw hm
  have hlen : (qs.flatMap (kSols a1 a2 d4 (kukaTarget k.robot T))).length = 2 * qs.length := by
    rw [List.length_flatMap]
    simp [kSols_length, mul_comm]
  have hpos := (arm2Ik_length hs).1
  refine ⟨st', X, ?_, hwf⟩
  unfold Kuka.ik
  simp only [hk, hs]
  rw [e, hlen]
  simp [Except.map, hpos]

theorem kukaIk_none [Zeros] {a1 a2 d4 : ℝ} (k : Kuka) (hk : k.arm = arm2 a1 a2 d4) (st : RState)
    (mem : Mem)
    {T : M4} (hs : arm2Ik (arm2 a1 a2 d4) (kukaTarget k.robot T) = none) :
    k.ik st mem T = (.ok none, st, mem) := by
  unfold Kuka.ik
  simp only [hk, hs]

/-- Every call keeps the helper arm well formed, and old cells other than `qsol` unchanged. -/
theorem kukaIk_inv [Zeros] {a1 a2 d4 : ℝ} (k : Kuka) (hk : k.arm = arm2 a1 a2 d4) {st : RState}
    {mem : Mem}
    (T : M4) (hw : WF 3 st) (hm : k.qsol < mem.length) :
    WF 3 (k.ik st mem T).2.1 ∧ mem.length ≤ (k.ik st mem T).2.2.length ∧
    (∀ addr : Nat, addr < mem.length → addr ≠ k.qsol →
      (k.ik st mem T).2.2[addr]? = mem[addr]?) ∧
    (∀ sols, (k.ik st mem T).1 = .ok (some sols) → ∀ a ∈ sols, mem.length ≤ a ∧
      a < (k.ik st mem T).2.2.length) ∧ ∃ r, (k.ik st mem T).1 = .ok r := by
  cases hs : arm2Ik (arm2 a1 a2 d4) (kukaTarget k.robot T) with
  | none =>
    rw [kukaIk_none k hk st mem hs]
    exact ⟨hw, le_refl _, fun _ _ _ => rfl, fun sols h => (by simp at h), none, rfl⟩
  | some qs =>
    obtain ⟨st', X, e, hwf⟩ := kukaIk_some k hk hw hm hs
    have hlen : (qs.flatMap (kSols a1 a2 d4 (kukaTarget k.robot T))).length = 2 * qs.length := by
      rw [List.length_flatMap]
      simp [kSols_length, mul_comm]
    rw [e]
    refine ⟨hwf, by simp, ?_, ?_, _, rfl⟩
    · intro addr h1 h2
      simp only
      rw [List.getElem?_append_left (by simpa using h1), List.getElem?_set_ne (fun h => h2 h.symm)]
    · intro sols h a ha
      cases h
      rw [List.mem_range'_1] at ha
      simp only [List.length_append, List.length_set, List.length_map, hlen]
      exact ha

/-- What an address returned by `Kuka.ik` holds. -/
theorem kukaIk_content [Zeros] {a1 a2 d4 : ℝ} (k : Kuka) (hk : k.arm = arm2 a1 a2 d4) {st : RState}
    {mem : Mem}
    {T : M4} (hw : WF 3 st) (hm : k.qsol < mem.length) {qs : List (List ℝ)}
    (hs : arm2Ik (arm2 a1 a2 d4) (kukaTarget k.robot T) = some qs) {sols : List Nat}
    (h : (k.ik st mem T).1 = .ok (some sols)) :
    sols.length = 2 * qs.length ∧
    (∀ a ∈ sols, ∃ q ∈ qs, ∃ q' ∈ kSols a1 a2 d4 (kukaTarget k.robot T) q,
      (k.ik st mem T).2.2[a]? = some [q']) ∧
    (∀ q ∈ qs, ∀ q' ∈ kSols a1 a2 d4 (kukaTarget k.robot T) q, ∃ a ∈ sols,
      (k.ik st mem T).2.2[a]? = some [q']) := by
  obtain ⟨st', X, e, hwf⟩ := kukaIk_some k hk hw hm hs
  have hlen : (qs.flatMap (kSols a1 a2 d4 (kukaTarget k.robot T))).length = 2 * qs.length := by
    rw [List.length_flatMap]
    simp [kSols_length, mul_comm]
  rw [e] at h ⊢
  cases h
  refine ⟨by simp, ?_, ?_⟩
  · intro a ha
    rw [List.mem_range'_1] at ha
    obtain ⟨i, rfl⟩ := Nat.exists_eq_add_of_le ha.1
    have hi : i < (qs.flatMap (kSols a1 a2 d4 (kukaTarget k.robot T))).length := by omega
    have hmem := List.getElem_mem hi
    obtain ⟨q, hq, hq'⟩ := List.mem_flatMap.1 hmem
    refine ⟨q, hq, _, hq', ?_⟩
    simp only
    rw [List.getElem?_append_right (by simp), List.getElem?_map]
    simp
  · intro q hq q' hq'
    obtain ⟨i, hi, he⟩ := List.mem_iff_getElem.1 (List.mem_flatMap.2 ⟨q, hq, hq'⟩)
    refine ⟨mem.length + i, ?_, ?_⟩
    · rw [List.mem_range'_1]; omega
    · simp only
      rw [List.getElem?_append_right (by simp), List.getElem?_map]
      simp [List.getElem?_eq_getElem hi, he]

/-! ### The solutions -/

theorem kuka_known (a1 a2 d4 d6 : ℝ) : ∀ l ∈ (kukaRobot a1 a2 d4 d6).links, l.Known := by
  intro l hl
  simp only [kukaRobot, Robot.new, List.mem_cons, List.not_mem_nil, or_false] at hl
  rcases hl with rfl | rfl | rfl | rfl | rfl | rfl <;> simp [Link.Known]

/-- Shape of a solution. -/
theorem kSols_mem [Zeros] {a1 a2 d4 : ℝ} {R : M3} {wc : V3} {q q' : List ℝ}
    (hc : IsCand a1 a2 d4 (wc 0) (wc 1) (wc 2) q)
    (h : q' ∈ kSols a1 a2 d4 (mkTf R wc) q) :
    ∃ q1 q2 q3 t1 t2 t3, q = [q1, q2, q3] ∧ q' = [q1, q2, q3 + Real.pi / 2, t1, t2, t3] ∧
      [t1, t2, t3] ∈ wristRows (wristBase (armRot q1 (q2 + (q3 + Real.pi / 2))) (mkTf R wc))
        (mkTf R wc) ∧
      relRot (wristBase (armRot q1 (q2 + (q3 + Real.pi / 2))) (mkTf R wc)) (mkTf R wc) =
        (armRot q1 (q2 + (q3 + Real.pi / 2)))ᵀ * R := by
  obtain ⟨u, q1, c', sg, b, d, b', d', -, -, -, -, rfl⟩ := hc
  set q2 := atan2 b d (wc 2 * (a2 + d4 * c') - (u - a1) * (d4 * (sg * Real.sqrt (1 - c' ^ 2))))
        ((u - a1) * (a2 + d4 * c') + wc 2 * (d4 * (sg * Real.sqrt (1 - c' ^ 2))))
  set q3 := atan2 b' d' (sg * Real.sqrt (1 - c' ^ 2)) c'
  unfold kSols at h
  obtain ⟨row, hrow, rfl⟩ := List.mem_map.1 h
  have hmod : [q1, q2, q3].modify 2 (· + Real.pi / 2) = [q1, q2, q3 + Real.pi / 2] := rfl
  rw [hmod, chain_arm2, rotPart_mkTf] at hrow
  have hrow' := hrow
  rw [wristRows_eq] at hrow'
  simp only [List.mem_cons, List.not_mem_nil, or_false] at hrow'
  obtain ⟨t1, t2, t3, rfl⟩ : ∃ t1 t2 t3, row = [t1, t2, t3] := by
    rcases hrow' with rfl | rfl <;> exact ⟨_, _, _, rfl⟩
  exact ⟨q1, q2, q3, t1, t2, t3, rfl, rfl, hrow, by rw [relRot, rotPart_wristBase, rotPart_mkTf]⟩

/-- Third column of the Euler matrix of either row: always right. -/
theorem wristRows_axis [Zeros] {tfBase T : M4} (h : IsRot (relRot tfBase T)) {t1 t2 t3 : ℝ}
    (hq : [t1, t2, t3] ∈ wristRows tfBase T) :
    (∀ v, zyz t1 t2 t3 *ᵥ ![0, 0, v] = relRot tfBase T *ᵥ ![0, 0, v]) ∧
    (Real.sin t2 ≠ 0 → zyz t1 t2 t3 = relRot tfBase T) ∧
    (Real.sin t2 = 0 →
      zyz t1 t2 t3 = stretchedRot (halfTurn tfBase T) (relRot tfBase T 2 2)) := by
  by_cases hns : relRot tfBase T 0 2 ≠ 0 ∨ relRot tfBase T 1 2 ≠ 0
  · obtain ⟨_, _, _, he, hz⟩ := wristRows_sound h hns _ hq
    cases he
    refine ⟨fun v => by rw [hz], fun _ => hz, fun h0 => ?_⟩
    exfalso
    have e0 := congrFun (congrFun hz 0) 2
    have e1 := congrFun (congrFun hz 1) 2
    rw [zyz_eq] at e0 e1
    simp [h0] at e0 e1
    rcases hns with h | h
    · exact h e0.symm
    · exact h e1.symm
  · push Not at hns
    obtain ⟨_, _, _, he, hz⟩ := wristRows_singular h hns.1 hns.2 _ hq
    cases he
    obtain ⟨s0, s1, s2⟩ := stretchedRot_axis (halfTurn tfBase T) (relRot tfBase T 2 2)
    refine ⟨fun v => ?_, fun h0 => ?_, fun _ => hz⟩
    · rw [hz]
      ext i
      fin_cases i <;>
        simp [Matrix.mulVec, dotProduct, Fin.sum_univ_succ, hns.1, hns.2, s0, s1, s2]
    · exfalso
      have e0 := congrFun (congrFun hz 0) 2
      have e1 := congrFun (congrFun hz 1) 2
      rw [zyz_eq] at e0 e1
      simp [h0, s0, s1] at e0 e1
      have := Real.cos_sq_add_sin_sq t1
      rw [e0, e1] at this
      norm_num at this

/-- Forward kinematics (base and tool aside) of a solution. -/
theorem kuka_solution [Zeros] {a1 a2 d4 d6 : ℝ} (ha : a2 * d4 ≠ 0) {R : M3} (hR : IsRot R) {p : V3}
    {qs : List (List ℝ)}
    (hs : arm2Ik (arm2 a1 a2 d4) (mkTf R (p - R *ᵥ ![0, 0, d6])) = some qs) {q q' : List ℝ}
    (hq : q ∈ qs) (hq' : q' ∈ kSols a1 a2 d4 (mkTf R (p - R *ᵥ ![0, 0, d6])) q) :
    ∃ q1 q2 q3 q4 q5 q6, q' = [q1, q2, q3, q4, q5, q6] ∧
      dist2 (posPart (chain (kukaRobot a1 a2 d4 d6).links q')) p ≤ 2 * |a2 * d4| * tol ∧
      (∀ i, rotPart (chain (kukaRobot a1 a2 d4 d6).links q') i 2 = R i 2) ∧
      (Real.cos q3 ≠ 0 → posPart (chain (kukaRobot a1 a2 d4 d6).links q') = p) ∧
      (Real.sin q5 ≠ 0 → rotPart (chain (kukaRobot a1 a2 d4 d6).links q') = R) := by
  have hcand := arm2Ik_cand hs hq
  set wc := p - R *ᵥ ![0, 0, d6] with hwc
  have hcand' : IsCand a1 a2 d4 (wc 0) (wc 1) (wc 2) q := hcand
  obtain ⟨q1, q2, q3, t1, t2, t3, hqe, rfl, hrow, hrel⟩ := kSols_mem hcand' hq'
  obtain ⟨q1', q2', q3', hqe', hb, hex, -⟩ := hcand'.sound ha
  rw [hqe] at hqe'
  cases hqe'
  have hA := armRot_isRot q1 (q2 + (q3 + Real.pi / 2))
  have hrelrot : IsRot (relRot (wristBase (armRot q1 (q2 + (q3 + Real.pi / 2))) (mkTf R wc))
      (mkTf R wc)) := by rw [hrel]; exact hA.transpose.mul hR
  obtain ⟨hax, hfull, -⟩ := wristRows_axis hrelrot hrow
  rw [hrel] at hax hfull
  have hAA := hA.mul_transpose
  have hmulv : ∀ v, (armRot q1 (q2 + (q3 + Real.pi / 2)) * zyz t1 t2 t3) *ᵥ ![0, 0, v] =
      R *ᵥ ![0, 0, v] := by
    intro v
    rw [← Matrix.mulVec_mulVec, hax v, Matrix.mulVec_mulVec, ← Matrix.mul_assoc, hAA, one_mul]
  have hpv : (![wc 0, wc 1, wc 2] : V3) = wc := by ext i; fin_cases i <;> rfl
  rw [hpv] at hb hex
  have hpos : posPart (chain (kukaRobot a1 a2 d4 d6).links
      [q1, q2, q3 + Real.pi / 2, t1, t2, t3]) = armPos a1 a2 d4 q1 q2 q3 + R *ᵥ ![0, 0, d6] := by
    rw [chain_kuka, posPart_mkTf, hmulv, add_sub_cancel_right]
  have hrotp : rotPart (chain (kukaRobot a1 a2 d4 d6).links
      [q1, q2, q3 + Real.pi / 2, t1, t2, t3]) =
      armRot q1 (q2 + (q3 + Real.pi / 2)) * zyz t1 t2 t3 := by
    rw [chain_kuka, rotPart_mkTf]
  refine ⟨q1, q2, q3 + Real.pi / 2, t1, t2, t3, rfl, ?_, ?_, ?_, ?_⟩
  · rw [hpos]
    have : dist2 (armPos a1 a2 d4 q1 q2 q3 + R *ᵥ ![0, 0, d6]) p =
        dist2 (armPos a1 a2 d4 q1 q2 q3) wc := by
      rw [dist2, dist2, hwc]
      congr 1 <;> abel
    rw [this]; exact hb
  · intro i
    rw [hrotp]
    have := congrFun (hmulv 1) i
    simpa [Matrix.mulVec, dotProduct, Fin.sum_univ_succ] using this
  · intro h0
    rw [hpos, hex (by rwa [Real.cos_add_pi_div_two, neg_ne_zero] at h0), hwc]
    abel
  · intro h0
    rw [hrotp, hfull h0, ← Matrix.mul_assoc, hAA, one_mul]

/-! ### Full turns -/

theorem SameAngle.cs {x y : ℝ} (h : SameAngle x y) :
    Real.cos x = Real.cos y ∧ Real.sin x = Real.sin y := by
  obtain ⟨k, rfl⟩ := h
  rw [mul_comm (2 * Real.pi)]
  exact ⟨Real.cos_add_int_mul_two_pi _ _, Real.sin_add_int_mul_two_pi _ _⟩

theorem SameAngle.add {x y : ℝ} (h : SameAngle x y) (c : ℝ) : SameAngle (x + c) (y + c) := by
  obtain ⟨k, rfl⟩ := h
  exact ⟨k, by ring⟩

theorem SameAngle.rfl' (x : ℝ) : SameAngle x x := ⟨0, by simp⟩

theorem SameAngle.add2 {x y x' y' : ℝ} (h : SameAngle x y) (h' : SameAngle x' y') :
    SameAngle (x + x') (y + y') := by
  obtain ⟨k, rfl⟩ := h
  obtain ⟨k', rfl⟩ := h'
  exact ⟨k + k', by push_cast; ring⟩

theorem armRot_congr {q1 q1' φ φ' : ℝ} (h1 : SameAngle q1' q1) (h2 : SameAngle φ' φ) :
    armRot q1' φ' = armRot q1 φ := by
  simp only [armRot, h1.cs, h2.cs]

/-- Completeness. -/
theorem kuka_complete [Zeros] {a1 a2 d4 d6 : ℝ} (ha : a2 * d4 ≠ 0) {q1 q2 q3 q4 q5 q6 : ℝ} {R : M3}
    {p : V3}
    (hch : chain (kukaRobot a1 a2 d4 d6).links [q1, q2, q3, q4, q5, q6] = mkTf R p)
    {qs : List (List ℝ)}
    (hs : arm2Ik (arm2 a1 a2 d4) (mkTf R (p - R *ᵥ ![0, 0, d6])) = some qs)
    (hw0 : a1 + a2 * Real.cos q2 + d4 * Real.sin (q2 + q3) ≠ 0)
    (h3 : |Real.sin q3| ≤ 1 - tol) :
    ∃ t1 t2 t3, [t1, t2, t3 - Real.pi / 2] ∈ qs ∧ SameAngle t1 q1 ∧ SameAngle t2 q2 ∧
      SameAngle t3 q3 ∧
      (Real.sin q5 ≠ 0 → ∃ t4 t5 t6, [t1, t2, t3, t4, t5, t6] ∈
        kSols a1 a2 d4 (mkTf R (p - R *ᵥ ![0, 0, d6])) [t1, t2, t3 - Real.pi / 2] ∧
        SameAngle t4 q4 ∧ SameAngle t5 q5 ∧ SameAngle t6 q6) := by
  rw [chain_kuka] at hch
  obtain ⟨hR, hp⟩ := mkTf_inj hch
  have hwc : p - R *ᵥ ![0, 0, d6] = armPos a1 a2 d4 q1 q2 (q3 - Real.pi / 2) := by
    rw [← hp, ← hR, add_sub_cancel_right]
  rw [hwc] at hs ⊢
  have hb : q2 + (q3 - Real.pi / 2) = q2 + q3 - Real.pi / 2 := by ring
  obtain ⟨t1, t2, t3, hmem, s1, s2, s3⟩ := arm2Ik_complete ha q1 q2 (q3 - Real.pi / 2)
    (posPart_mkTf _ _) (by rwa [hb, Real.cos_sub_pi_div_two])
    (by rwa [Real.cos_sub_pi_div_two]) hs
  have s3' : SameAngle (t3 + Real.pi / 2) q3 := by
    have := s3.add (Real.pi / 2)
    rwa [sub_add_cancel] at this
  refine ⟨t1, t2, t3 + Real.pi / 2, by rwa [add_sub_cancel_right], s1, s2, s3', fun h5 => ?_⟩
  rw [add_sub_cancel_right]
  set wc := armPos a1 a2 d4 q1 q2 (q3 - Real.pi / 2)
  have hA := armRot_isRot q1 (q2 + q3)
  have hcongr := armRot_congr s1 (s2.add2 s3')
  have hrel : relRot (wristBase (armRot t1 (t2 + (t3 + Real.pi / 2))) (mkTf R wc)) (mkTf R wc) =
      zyz q4 q5 q6 := by
    rw [relRot, rotPart_wristBase, rotPart_mkTf, hcongr, ← hR, ← Matrix.mul_assoc, hA.1, one_mul]
  obtain ⟨t4, t5, t6, hrow, s4, s5, s6⟩ := wristRows_complete hrel h5
  refine ⟨t4, t5, t6, ?_, s4, s5, s6⟩
  unfold kSols
  have hmod : [t1, t2, t3].modify 2 (· + Real.pi / 2) = [t1, t2, t3 + Real.pi / 2] := rfl
  rw [hmod, chain_arm2, rotPart_mkTf]
  exact List.mem_map.2 ⟨_, hrow, rfl⟩

/-- Success on reachable poses. -/
theorem kuka_succeeds [Zeros] {a1 a2 d4 d6 : ℝ} (ha : a2 * d4 ≠ 0) {q1 q2 q3 q4 q5 q6 : ℝ} {R : M3}
    {p : V3}
    (hch : chain (kukaRobot a1 a2 d4 d6).links [q1, q2, q3, q4, q5, q6] = mkTf R p) :
    ∃ qs, arm2Ik (arm2 a1 a2 d4) (mkTf R (p - R *ᵥ ![0, 0, d6])) = some qs := by
  rw [chain_kuka] at hch
  obtain ⟨hR, hp⟩ := mkTf_inj hch
  have hwc : p - R *ᵥ ![0, 0, d6] = armPos a1 a2 d4 q1 q2 (q3 - Real.pi / 2) := by
    rw [← hp, ← hR, add_sub_cancel_right]
  rw [hwc]
  exact arm2Ik_succeeds ha q1 q2 (q3 - Real.pi / 2) (posPart_mkTf _ _)

end Verif.Kin

namespace Verif.Kin

open Matrix Verif.Geometry Verif.Util

/-! ### The other robots -/

theorem chain_planar (a1 a2 a3 q1 q2 q3 : ℝ) : chain (planarArm a1 a2 a3).links [q1, q2, q3] =
    !![Real.cos (q1 + q2 + q3), -Real.sin (q1 + q2 + q3), 0,
        a1 * Real.cos q1 + a2 * Real.cos (q1 + q2) + a3 * Real.cos (q1 + q2 + q3);
       Real.sin (q1 + q2 + q3), Real.cos (q1 + q2 + q3), 0,
        a1 * Real.sin q1 + a2 * Real.sin (q1 + q2) + a3 * Real.sin (q1 + q2 + q3);
       0, 0, 1, 0; 0, 0, 0, 1] := by
  ext i j
  fin_cases i <;> fin_cases j <;>
    simp [chain, planarArm, Robot.new, Link.tf, dhMat, Matrix.mul_apply, Fin.sum_univ_succ,
      Real.cos_add, Real.sin_add, -mul_eq_mul_left_iff] <;> ring

theorem chain_sphericalArm (d2 q1 q2 q3 : ℝ) : chain (sphericalArm d2).links [q1, q2, q3] =
    !![Real.cos q1 * Real.cos q2, -Real.sin q1, Real.cos q1 * Real.sin q2,
        Real.cos q1 * Real.sin q2 * q3 - Real.sin q1 * d2;
       Real.sin q1 * Real.cos q2, Real.cos q1, Real.sin q1 * Real.sin q2,
        Real.sin q1 * Real.sin q2 * q3 + Real.cos q1 * d2;
       -Real.sin q2, 0, Real.cos q2, Real.cos q2 * q3;
       0, 0, 0, 1] := by
  ext i j
  fin_cases i <;> fin_cases j <;>
    simp [chain, sphericalArm, Robot.new, Link.tf, dhMat, Matrix.mul_apply, Fin.sum_univ_succ,
      cos_neg_pi_half, sin_neg_pi_half, -mul_eq_mul_left_iff] <;> ring

theorem chain_anthropomorphic (a2 a3 q1 q2 q3 : ℝ) :
    chain (anthropomorphicArm a2 a3).links [q1, q2, q3] =
    !![Real.cos q1 * Real.cos (q2 + q3), -Real.cos q1 * Real.sin (q2 + q3), Real.sin q1,
        Real.cos q1 * (a2 * Real.cos q2 + a3 * Real.cos (q2 + q3));
       Real.sin q1 * Real.cos (q2 + q3), -Real.sin q1 * Real.sin (q2 + q3), -Real.cos q1,
        Real.sin q1 * (a2 * Real.cos q2 + a3 * Real.cos (q2 + q3));
       Real.sin (q2 + q3), Real.cos (q2 + q3), 0,
        a2 * Real.sin q2 + a3 * Real.sin (q2 + q3);
       0, 0, 0, 1] := by
  ext i j
  fin_cases i <;> fin_cases j <;>
    simp [chain, anthropomorphicArm, Robot.new, Link.tf, dhMat, Matrix.mul_apply,
      Fin.sum_univ_succ, Real.cos_add, Real.sin_add, -mul_eq_mul_left_iff] <;> ring

theorem posPart_anthropomorphic (a2 a3 q1 q2 q3 : ℝ) :
    posPart (chain (anthropomorphicArm a2 a3).links [q1, q2, q3]) = armPos 0 a2 a3 q1 q2 q3 := by
  rw [chain_anthropomorphic]
  ext i
  fin_cases i <;> simp [posPart, armPos]

theorem anthropomorphicIk_succeeds [Zeros] {a2 a3 : ℝ} (ha : a2 * a3 ≠ 0) (q1 q2 q3 : ℝ) {T : M4}
    (hT : posPart T = armPos 0 a2 a3 q1 q2 q3) :
    ∃ sols, anthropomorphicIk (anthropomorphicArm a2 a3) T = some sols := by
  set w := 0 + a2 * Real.cos q2 + a3 * Real.cos (q2 + q3) with hw
  have hx : T 0 3 = Real.cos q1 * w := congrFun hT 0
  have hy : T 1 3 = Real.sin q1 * w := congrFun hT 1
  have hz : T 2 3 = a2 * Real.sin q2 + a3 * Real.sin (q2 + q3) := congrFun hT 2
  have hcos := elbow_cos (a1 := 0) ha hw hz
  obtain ⟨c', hc'⟩ := snap_isSome (Real.neg_one_le_cos q3) (Real.cos_le_one q3)
  unfold anthropomorphicIk
  simp only [show (dhOfLink (anthropomorphicArm a2 a3) 1).a = a2 from rfl,
    show (dhOfLink (anthropomorphicArm a2 a3) 2).a = a3 from rfl]
  have e : T 0 3 ^ 2 + T 1 3 ^ 2 + T 2 3 ^ 2 = (w - 0) ^ 2 + T 2 3 ^ 2 := by
    rw [hx, hy]
    linear_combination w ^ 2 * Real.cos_sq_add_sin_sq q1
  rw [e, hcos, hc']
  exact ⟨_, rfl⟩

theorem anthropomorphicIk_length [Zeros] {r : Robot Shape} {T : M4} {sols : List (List ℝ)}
    (h : anthropomorphicIk r T = some sols) : sols.length = 4 := by
  unfold anthropomorphicIk at h
  obtain ⟨c, -, rfl⟩ := Option.map_eq_some_iff.1 h
  rfl

theorem anthropomorphic_known (a2 a3 : ℝ) : ∀ l ∈ (anthropomorphicArm a2 a3).links, l.Known := by
  intro l hl
  simp only [anthropomorphicArm, Robot.new, List.mem_cons, List.not_mem_nil, or_false] at hl
  rcases hl with rfl | rfl | rfl <;> simp [Link.Known]

/-! ### KukaOnRail -/

/-- The first link of the rail robot. -/
noncomputable def railLink (q0 : ℝ) : M4 := dhMat 0 (Real.pi / 2) q0 0

theorem chain_rail (a1 a2 d4 d6 q0 : ℝ) (q : List ℝ) :
    chain (railRobot a1 a2 d4 d6).links (q0 :: q) =
      railLink q0 * chain (kukaRobot a1 a2 d4 d6).links q := by
  simp [chain, railRobot, kukaRobot, Robot.new, Link.tf, railLink]

theorem rail_known (a1 a2 d4 d6 : ℝ) : ∀ l ∈ (railRobot a1 a2 d4 d6).links, l.Known := by
  intro l hl
  simp only [railRobot, Robot.new, List.mem_cons, List.not_mem_nil, or_false] at hl
  rcases hl with rfl | rfl | rfl | rfl | rfl | rfl | rfl <;> simp [Link.Known]

theorem railTarget_eq {r : Robot Shape} {T X : M4} (hb : IsRigid r.tfBase) (ht : IsRigid (tip r))
    (hT : T = r.tfBase * X * tip r) : railTarget r T = X := by
  have h1 : tfInverse r.tfBase * T = X * tip r := by
    rw [hT, ← mul_assoc, ← mul_assoc, tfInverse_mul hb, one_mul]
  unfold railTarget
  simp only [h1]
  unfold tip at *
  cases h : r.tool with
  | none => simp
  | some tool =>
    rw [h] at ht
    simp only [Option.map_some, Option.getD_some] at ht ⊢
    rw [mul_assoc, mul_tfInverse ht, mul_one]

theorem railRows_eq (qf : ℝ) (addrs : List Nat) (mem : Mem) (sols : List Nat)
    (h : ∀ a ∈ addrs, a < mem.length) :
    railRows qf addrs mem sols = (sols ++ List.range' mem.length addrs.length,
      mem ++ addrs.map fun a => [qf :: (((mem[a]?).getD [])[0]?).getD []]) := by
  induction addrs generalizing mem sols with
  | nil => simp [railRows]
  | cons a addrs ih =>
    rw [railRows, ih _ _ (by
      intro b hb
      have := h b (List.mem_cons_of_mem _ hb)
      simp; omega)]
    refine Prod.ext ?_ ?_
    · simp [List.range'_succ]
    · simp only [List.map_cons, List.append_assoc, List.singleton_append]
      congr 2
      refine List.map_congr_left fun b hb => ?_
      rw [List.getElem?_append_left (h b (List.mem_cons_of_mem _ hb))]

/-- The inner Kuka while the rail is at `q0`. -/
noncomputable def innerKuka (n : Nat) (q0 : ℝ) : Kuka :=
  { Kuka.new 0.18 0.6 0.62 0.115 n with
    robot := { kukaRobot 0.18 0.6 0.62 0.115 with tfBase := railLink q0 } }

theorem railIk_eq [Zeros] {a1 a2 d4 d6 : ℝ} {r : Rail} {n : Nat}
    (hr : r.robot.links = (railRobot a1 a2 d4 d6).links)
    (hk : r.kuka = Kuka.new 0.18 0.6 0.62 0.115 n) {st0 : M4} (h0 : Intact st0) (st : RState)
    (mem : Mem) (T : M4) (qf : ℝ) :
    ∃ st0', Intact st0' ∧ r.ik st0 st mem T qf =
      match (innerKuka n qf).ik st mem (railTarget r.robot T) with
      | (.error e, st', mem') => (.error e, st0', st', mem')
      | (.ok none, st', mem') => (.ok none, st0', st', mem')
      | (.ok (some sols), st', mem') =>
        (.ok (some (railRows qf sols mem' []).1), st0', st', (railRows qf sols mem' []).2) := by
  have hl : r.robot.links[0]? = some (⟨⟨0, Real.pi / 2, 0, 0⟩, .p,
      ⟨[⟨0.2, 0.2, 0.1⟩], [poseX 0 0 0 (-0.15)]⟩⟩ : Link Shape) := by rw [hr]; rfl
  obtain ⟨hI, hok, -⟩ := relTf_spec (⟨⟨0, Real.pi / 2, 0, 0⟩, .p,
      ⟨[⟨0.2, 0.2, 0.1⟩], [poseX 0 0 0 (-0.15)]⟩⟩ : Link Shape) h0 qf
  refine ⟨_, hI, ?_⟩
  unfold Rail.ik
  simp only [hl]
  have hk' : ((⟨⟨0, Real.pi / 2, 0, 0⟩, .p, ⟨[⟨0.2, 0.2, 0.1⟩], [poseX 0 0 0 (-0.15)]⟩⟩ :
      Link Shape).relTf st0 qf).1 = .ok (railLink qf) := by
    rw [hok (by simp)]; rfl
  simp only [hk']
  have e : ({ r.kuka with robot := { r.kuka.robot with tfBase := railLink qf } } : Kuka) =
      innerKuka n qf := by rw [hk]; rfl
  rw [e]
  rcases (innerKuka n qf).ik st mem (railTarget r.robot T) with ⟨x, st', mem'⟩
  rcases x with e | (_ | sols) <;> rfl

end Verif.Kin
