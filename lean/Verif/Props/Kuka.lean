import Verif.Props.Robots

/-! # C39, C40, C41 and C44: inverse kinematics of Kuka and KukaOnRail -/

set_option linter.unusedSectionVars false

namespace Verif.Props

open Matrix Verif.Geometry Verif.Kin Verif.Util

/-- The transform of the tool tip, or the identity. -/
noncomputable def tipOf (tool : Option (Tool Shape)) : M4 := (tool.map Tool.tfTT).getD 1

/-- A Kuka after `robot.tf_base = base` and `robot.tool = tool`. -/
noncomputable def setup (k : Kuka) (base : M4) (tool : Option (Tool Shape)) : Kuka :=
  { k with
    robot := { k.robot with
      tfBase := base
      tool := tool } }

/-- An earlier call of `Kuka.ik`: the base and tool at that time, and the target (any matrices). -/
structure IkCall where
  base : M4
  tool : Option (Tool Shape)
  target : M4

/-- The state of the helper arm and the arrays after a history of calls on one robot. -/
noncomputable def kukaAfter [Zeros] (k : Kuka) (mem : Mem) (history : List IkCall) : RState × Mem :=
  history.foldl (fun s c => ((setup k c.base c.tool).ik s.1 s.2 c.target).2) (RState.new 3, mem)

theorem kukaRun_inv [Zeros] {a1 a2 d4 : ℝ} (k : Kuka) (hk : k.arm = arm2 a1 a2 d4)
    (history : List IkCall)
    (s : RState × Mem) (hw : WF 3 s.1) (hm : k.qsol < s.2.length) :
    WF 3 (history.foldl (fun s c => ((setup k c.base c.tool).ik s.1 s.2 c.target).2) s).1 ∧
    s.2.length ≤ (history.foldl (fun s c => ((setup k c.base c.tool).ik s.1 s.2 c.target).2) s).2.length ∧
    ∀ addr : Nat, addr < s.2.length → addr ≠ k.qsol →
      (history.foldl (fun s c => ((setup k c.base c.tool).ik s.1 s.2 c.target).2) s).2[addr]? =
        s.2[addr]? := by
  induction history generalizing s with
  | nil => exact ⟨hw, le_refl _, fun _ _ _ => rfl⟩
  | cons c cs ih =>
    obtain ⟨i1, i2, i3, -⟩ := kukaIk_inv (setup k c.base c.tool) (a1 := a1) (a2 := a2) (d4 := d4) hk
      c.target hw hm
    obtain ⟨j1, j2, j3⟩ := ih ((setup k c.base c.tool).ik s.1 s.2 c.target).2 i1
      (lt_of_lt_of_le hm i2)
    refine ⟨j1, le_trans i2 j2, fun addr h1 h2 => ?_⟩
    rw [List.foldl_cons, j3 addr (lt_of_lt_of_le h1 i2) h2]
    exact i3 addr h1 h2

theorem kukaAfter_inv [Zeros] {a1 a2 d4 d6 : ℝ} {n : Nat} (mem : Mem) (hn : n < mem.length)
    (history : List IkCall) :
    WF 3 (kukaAfter (Kuka.new a1 a2 d4 d6 n) mem history).1 ∧
    mem.length ≤ (kukaAfter (Kuka.new a1 a2 d4 d6 n) mem history).2.length := by
  obtain ⟨h1, h2, -⟩ := kukaRun_inv (Kuka.new a1 a2 d4 d6 n) (a1 := a1) (a2 := a2) (d4 := d4) rfl
    history (RState.new 3, mem) (WF.new 3) hn
  exact ⟨h1, h2⟩

theorem tip_setup (k : Kuka) (base : M4) (tool : Option (Tool Shape)) :
    tip (setup k base tool).robot = tipOf tool := rfl

theorem tipOf_rigid {tool : Option (Tool Shape)} (ht : ∀ t, tool = some t → IsRigid t.tfTT) :
    IsRigid (tipOf tool) := by
  cases tool with
  | none => exact IsRigid.one
  | some t => exact ht t rfl

theorem setup_known (a1 a2 d4 d6 : ℝ) (n : Nat) (base : M4) (tool : Option (Tool Shape)) :
    ∀ l ∈ (setup (Kuka.new a1 a2 d4 d6 n) base tool).robot.links, l.Known :=
  kuka_known a1 a2 d4 d6

/-- Every rigid target is base times a flange frame times tool. -/
theorem exists_flange {base T tip : M4} (hb : IsRigid base) (ht : IsRigid tip) (hT : IsRigid T) :
    ∃ R p, IsRot R ∧ T = base * mkTf R p * tip := by
  have hb' := tfInverse_rigid hb.1
  have ht' := tfInverse_rigid ht.1
  obtain ⟨R, p, hR, e⟩ := ((hb'.mul hT).mul ht').exists_mk
  refine ⟨R, p, hR, ?_⟩
  rw [← e, ← mul_assoc, ← mul_assoc, mul_tfInverse hb, one_mul, mul_assoc, tfInverse_mul ht, mul_one]

/-- A solution of the flange problem, seen through base and tool. -/
theorem through {r : Robot Shape} {R : M3} {p : V3} {T C : M4} {bound : ℝ} (hb : IsRigid r.tfBase)
    (ht : IsRigid (tip r)) (hC : IsRigid C) (hT : T = r.tfBase * mkTf R p * tip r)
    (hd : dist2 (posPart C) p ≤ bound) (hz : ∀ i, rotPart C i 2 = R i 2) (X : M4)
    (hX : X * tip r = T) :
    dist2 (posPart (r.tfBase * C)) (posPart X) ≤ bound ∧
      ∀ i, rotPart (r.tfBase * C) i 2 = rotPart X i 2 := by
  have hXe : X = r.tfBase * mkTf R p := by
    have : X * tip r * tfInverse (tip r) = r.tfBase * mkTf R p * tip r * tfInverse (tip r) := by
      rw [hX, hT]
    rwa [mul_assoc, mul_assoc _ (tip r), mul_tfInverse ht, mul_one, mul_one] at this
  rw [hXe, posPart_mul hb.2 hC.2, posPart_mul hb.2 (mkTf_last _ _), rotPart_mul hb.2 hC.2,
    rotPart_mul hb.2 (mkTf_last _ _), posPart_mkTf, rotPart_mkTf]
  constructor
  · have := hb.dist2 (posPart C) p
    rw [this]
    exact hd
  · intro i
    simp only [Matrix.mul_apply, hz]

/-! ### C39 -/

/-- **C39**, partial: after every history of calls, `ik` does not raise, and every array it returns
holds six joint values that reach the target exactly, provided the elbow is bent (`cos q3 ≠ 0`) and the
wrist is not stretched (`sin q5 ≠ 0`).  In all cases the approach axis of the flange is right, and its
position to within a squared distance of 2·|a2·d4|·1e-6.

Missing: the orientation for a stretched wrist, where it is wrong in general (`C39_refuted`), and the
exact position for a snapped elbow. -/
theorem C39_kuka_sound_partial [Zeros] (hit : Oracle Shape) {a1 a2 d4 d6 : ℝ} (ha : a2 * d4 ≠ 0)
    (n : Nat)
    (mem : Mem) (hn : n < mem.length) (history : List IkCall) {base T : M4} (hb : IsRigid base)
    (tool : Option (Tool Shape)) (ht : ∀ t, tool = some t → IsRigid t.tfTT) (hT : IsRigid T) :
    let k := setup (Kuka.new a1 a2 d4 d6 n) base tool
    let s := kukaAfter (Kuka.new a1 a2 d4 d6 n) mem history
    (∃ res, (k.ik s.1 s.2 T).1 = .ok res) ∧
    ∀ sols, (k.ik s.1 s.2 T).1 = .ok (some sols) → ∀ a ∈ sols, ∃ q1 q2 q3 q4 q5 q6,
      (k.ik s.1 s.2 T).2.2[a]? = some [[q1, q2, q3, q4, q5, q6]] ∧
      (Real.cos q3 ≠ 0 → Real.sin q5 ≠ 0 →
        FkSatisfies hit k.robot [q1, q2, q3, q4, q5, q6] (· = T)) ∧
      FkSatisfies hit { k.robot with tool := none } [q1, q2, q3, q4, q5, q6] fun F =>
        ∀ X, X * tipOf tool = T →
          dist2 (posPart F) (posPart X) ≤ 2 * |a2 * d4| * (1 / 10 ^ 6) ∧
          ∀ i, rotPart F i 2 = rotPart X i 2 := by
  intro k s
  obtain ⟨hw, hlen⟩ := kukaAfter_inv (a1 := a1) (a2 := a2) (d4 := d4) (d6 := d6) mem hn history
  have hm : k.qsol < s.2.length := lt_of_lt_of_le hn hlen
  have hinv := kukaIk_inv k (a1 := a1) (a2 := a2) (d4 := d4) rfl T hw hm
  refine ⟨hinv.2.2.2.2, fun sols hs a hmem => ?_⟩
  have htip := tipOf_rigid ht
  obtain ⟨R, p, hR, hTe⟩ := exists_flange hb htip hT
  have htgt : kukaTarget k.robot T = mkTf R (p - R *ᵥ ![0, 0, d6]) :=
    kukaTarget_eq (r := k.robot) hb htip hTe rfl
  cases hq : arm2Ik (arm2 a1 a2 d4) (kukaTarget k.robot T) with
  | none =>
    rw [kukaIk_none k (a1 := a1) (a2 := a2) (d4 := d4) rfl s.1 s.2 hq] at hs
    simp at hs
  | some qs =>
    obtain ⟨-, hc, -⟩ := kukaIk_content k (a1 := a1) (a2 := a2) (d4 := d4) rfl hw hm hq hs
    obtain ⟨q, hqm, q', hq'm, hcell⟩ := hc a hmem
    rw [htgt] at hq hq'm
    obtain ⟨q1, q2, q3, q4, q5, q6, rfl, hd, hz, hex, hrot⟩ := kuka_solution ha hR hq hqm hq'm
    have hC := chain_rigid (kukaRobot a1 a2 d4 d6).links [q1, q2, q3, q4, q5, q6]
    refine ⟨q1, q2, q3, q4, q5, q6, hcell, fun h3 h5 => ?_, ?_⟩
    · rw [fkSatisfies_iff _ _ (setup_known a1 a2 d4 d6 n base tool) _ (le_refl _)]
      have e : chain (kukaRobot a1 a2 d4 d6).links [q1, q2, q3, q4, q5, q6] = mkTf R p := by
        rw [← mkTf_parts hC.2, hrot h5, hex h3]
      change base * chain (kukaRobot a1 a2 d4 d6).links [q1, q2, q3, q4, q5, q6] * tipOf tool = T
      rw [e, hTe]
    · rw [fkSatisfies_iff _ { k.robot with tool := none } (setup_known a1 a2 d4 d6 n base tool) _
        (le_refl _)]
      intro X hX
      have e : ({ k.robot with tool := none } : Robot Shape).tfBase *
          chain ({ k.robot with tool := none } : Robot Shape).links [q1, q2, q3, q4, q5, q6] *
          tip ({ k.robot with tool := none } : Robot Shape) =
          k.robot.tfBase * chain (kukaRobot a1 a2 d4 d6).links [q1, q2, q3, q4, q5, q6] := by
        change _ * _ * 1 = _
        rw [mul_one]; rfl
      rw [e]
      exact through (r := k.robot) hb htip hC hTe hd hz X hX

/-! ### C40 -/

/-- **C40**: every pose that some `q` reaches is solved, with at most eight solutions; if the wrist
centre is not on the first axis, the elbow not within the tolerance of stretched or folded, and the
wrist not stretched, then one of them is `q` up to full turns. -/
theorem C40_kuka_complete [Zeros] (hit : Oracle Shape) {a1 a2 d4 d6 : ℝ} (ha : a2 * d4 ≠ 0)
    (n : Nat)
    (mem : Mem) (hn : n < mem.length) (history : List IkCall) {base T : M4} (hb : IsRigid base)
    (tool : Option (Tool Shape)) (ht : ∀ t, tool = some t → IsRigid t.tfTT)
    (q1 q2 q3 q4 q5 q6 : ℝ)
    (hT : FkSatisfies hit (setup (Kuka.new a1 a2 d4 d6 n) base tool).robot [q1, q2, q3, q4, q5, q6]
      (· = T)) :
    let k := setup (Kuka.new a1 a2 d4 d6 n) base tool
    let s := kukaAfter (Kuka.new a1 a2 d4 d6 n) mem history
    ∃ sols, (k.ik s.1 s.2 T).1 = .ok (some sols) ∧ 0 < sols.length ∧ sols.length ≤ 8 ∧
      (a1 + a2 * Real.cos q2 + d4 * Real.sin (q2 + q3) ≠ 0 → |Real.sin q3| ≤ 1 - 1 / 10 ^ 6 →
        Real.sin q5 ≠ 0 → ∃ a ∈ sols, ∃ t1 t2 t3 t4 t5 t6,
          (k.ik s.1 s.2 T).2.2[a]? = some [[t1, t2, t3, t4, t5, t6]] ∧
          SameAngle t1 q1 ∧ SameAngle t2 q2 ∧ SameAngle t3 q3 ∧ SameAngle t4 q4 ∧
          SameAngle t5 q5 ∧ SameAngle t6 q6) := by
  intro k s
  obtain ⟨hw, hlen⟩ := kukaAfter_inv (a1 := a1) (a2 := a2) (d4 := d4) (d6 := d6) mem hn history
  have hm : k.qsol < s.2.length := lt_of_lt_of_le hn hlen
  have htip := tipOf_rigid ht
  rw [fkSatisfies_iff _ _ (setup_known a1 a2 d4 d6 n base tool) _ (le_refl _)] at hT
  obtain ⟨R, p, hR, hch⟩ := (chain_rigid (kukaRobot a1 a2 d4 d6).links
    [q1, q2, q3, q4, q5, q6]).exists_mk
  have hTe : T = base * mkTf R p * tipOf tool := by rw [← hch]; exact hT.symm
  have htgt : kukaTarget k.robot T = mkTf R (p - R *ᵥ ![0, 0, d6]) :=
    kukaTarget_eq (r := k.robot) hb htip hTe rfl
  obtain ⟨qs, hq⟩ := kuka_succeeds ha hch
  have hq0 : arm2Ik (arm2 a1 a2 d4) (kukaTarget k.robot T) = some qs := by rw [htgt]; exact hq
  obtain ⟨st', X, e, -⟩ := kukaIk_some k (a1 := a1) (a2 := a2) (d4 := d4) rfl hw hm hq0
  have hsols : (k.ik s.1 s.2 T).1 = .ok (some (List.range' s.2.length (2 * qs.length))) := by rw [e]
  obtain ⟨hl, -, hc⟩ := kukaIk_content k (a1 := a1) (a2 := a2) (d4 := d4) rfl hw hm hq0 hsols
  obtain ⟨p1, p2⟩ := arm2Ik_length hq
  refine ⟨_, hsols, by simp; omega, by simp; omega, fun h1 h3 h5 => ?_⟩
  obtain ⟨t1, t2, t3, hmem, s1, s2, s3, hwr⟩ := kuka_complete ha hch hq h1 h3
  obtain ⟨t4, t5, t6, hk, s4, s5, s6⟩ := hwr h5
  rw [← htgt] at hk
  obtain ⟨a, ha, hcell⟩ := hc _ hmem _ hk
  exact ⟨a, ha, t1, t2, t3, t4, t5, t6, hcell, s1, s2, s3, s4, s5, s6⟩

/-- The default Kuka at (0, 0, 0, 0, 1, 0), on a turned base, after another call. -/
example [Zeros] (hit : Oracle Shape) : ∃ (T : M4) (sols : List Nat) (a : Nat),
    let k := setup (Kuka.new 0.18 0.6 0.62 0.115 0) (mkTf (rotZ 1) ![1, 2, 3]) none
    let s := kukaAfter (Kuka.new 0.18 0.6 0.62 0.115 0) [[]] [⟨1, none, 1⟩]
    (k.ik s.1 s.2 T).1 = .ok (some sols) ∧ a ∈ sols ∧
      ∃ q1 q2 q3 q4 q5 q6, (k.ik s.1 s.2 T).2.2[a]? = some [[q1, q2, q3, q4, q5, q6]] ∧
        SameAngle q5 1 ∧ FkSatisfies hit k.robot [q1, q2, q3, q4, q5, q6] (· = T) := by
  have hb : IsRigid (mkTf (rotZ 1) ![1, 2, 3]) := isRigid_mkTf.2 (rotZ_isRot _)
  have hs1 : Real.sin 1 ≠ 0 :=
    (Real.sin_pos_of_pos_of_lt_pi one_pos (by linarith [Real.two_le_pi])).ne'
  have hTex := (fkSatisfies_iff hit (setup (Kuka.new 0.18 0.6 0.62 0.115 0)
    (mkTf (rotZ 1) ![1, 2, 3]) none).robot (setup_known _ _ _ _ _ _ _) [0, 0, 0, 0, 1, 0] (le_refl _)
    (· = _)).2 rfl
  have hTr : IsRigid (mkTf (rotZ 1) ![1, 2, 3] * chain (kukaRobot 0.18 0.6 0.62 0.115).links
    [0, 0, 0, 0, 1, 0] * 1) := (hb.mul (chain_rigid _ _)).mul IsRigid.one
  obtain ⟨sols, h1, -, -, h2⟩ := C40_kuka_complete hit (a1 := 0.18) (a2 := 0.6) (d4 := 0.62)
    (d6 := 0.115) (by norm_num) 0 [[]] (by simp) [⟨1, none, 1⟩] hb none (by simp) _ _ _ _ _ _ hTex
  obtain ⟨a, ha, t1, t2, t3, t4, t5, t6, hcell, s1, s2, s3, s4, s5, s6⟩ :=
    h2 (by norm_num) (by norm_num) hs1
  obtain ⟨-, h3⟩ := C39_kuka_sound_partial hit (a1 := 0.18) (a2 := 0.6) (d4 := 0.62)
    (d6 := 0.115) (by norm_num) 0 [[]] (by simp) [⟨1, none, 1⟩] hb none (by simp) hTr
  obtain ⟨q1, q2, q3, q4, q5, q6, hcell', hex, -⟩ := h3 sols h1 a ha
  have hcell'' := hcell
  erw [hcell'] at hcell''
  simp only [Option.some.injEq, List.cons.injEq, and_true] at hcell''
  obtain ⟨rfl, rfl, rfl, rfl, rfl, rfl⟩ := hcell''
  refine ⟨_, sols, a, h1, ha, _, _, _, _, _, _, hcell, s5, hex ?_ ?_⟩
  · rw [s3.cs.1]; simp
  · rw [s5.cs.2]; exact hs1

/-- **C39** is false: for the default Kuka and a pose it reaches with a stretched wrist, there is a
returned solution that does not reach it. -/
theorem C39_refuted [Zeros] (hit : Oracle Shape) : ∃ (T : M4) (sols : List Nat) (a : Nat)
    (q : List ℝ),
    let k := setup (Kuka.new 0.18 0.6 0.62 0.115 0) 1 none
    IsRigid T ∧ FkSatisfies hit k.robot [0, 0, 0, Real.pi / 2, 0, 0] (· = T) ∧
    (k.ik (RState.new 3) [[]] T).1 = .ok (some sols) ∧ a ∈ sols ∧
    (k.ik (RState.new 3) [[]] T).2.2[a]? = some [q] ∧ ¬ FkSatisfies hit k.robot q (· = T) := by
  have ha : (0.6 * 0.62 : ℝ) ≠ 0 := by norm_num
  let k := setup (Kuka.new 0.18 0.6 0.62 0.115 0) 1 none
  obtain ⟨R, p, hR, hch⟩ := (chain_rigid (kukaRobot 0.18 0.6 0.62 0.115).links
    [0, 0, 0, Real.pi / 2, 0, 0]).exists_mk
  obtain ⟨qs, hq⟩ := kuka_succeeds ha hch
  obtain ⟨t1, t2, t3, hmem, s1, s2, s3, -⟩ := kuka_complete ha hch hq (by norm_num)
    (by norm_num [tol])
  have htgt : kukaTarget k.robot (mkTf R p) = mkTf R (p - R *ᵥ ![0, 0, 0.115]) :=
    kukaTarget_eq (r := k.robot) IsRigid.one IsRigid.one (by
      change _ = 1 * mkTf R p * 1
      rw [one_mul, mul_one]) rfl
  have hq0 : arm2Ik (arm2 0.18 0.6 0.62) (kukaTarget k.robot (mkTf R p)) = some qs := by
    rw [htgt]; exact hq
  have hm : k.qsol < ([[]] : Mem).length := by change 0 < 1; norm_num
  obtain ⟨st', X, e, -⟩ := kukaIk_some k (a1 := 0.18) (a2 := 0.6) (d4 := 0.62) rfl (WF.new 3) hm hq0
  have hsols : (k.ik (RState.new 3) [[]] (mkTf R p)).1 =
      .ok (some (List.range' ([[]] : Mem).length (2 * qs.length))) := by rw [e]
  obtain ⟨hl, -, hc⟩ := kukaIk_content k (a1 := 0.18) (a2 := 0.6) (d4 := 0.62) rfl (WF.new 3) hm hq0
    hsols
  -- a solution with the arm in the configuration of the pose
  obtain ⟨q', hq'⟩ : ∃ q', q' ∈ kSols 0.18 0.6 0.62 (mkTf R (p - R *ᵥ ![0, 0, 0.115]))
      [t1, t2, t3 - Real.pi / 2] := by
    refine List.exists_mem_of_length_pos ?_
    rw [kSols_length]; norm_num
  have hcell := hc _ hmem q' (by rw [htgt]; exact hq')
  obtain ⟨a, haddr, hcell⟩ := hcell
  refine ⟨mkTf R p, _, a, q', isRigid_mkTf.2 hR, ?_, hsols, haddr, hcell, ?_⟩
  · rw [fkSatisfies_iff _ _ (setup_known _ _ _ _ _ _ _) _ (le_refl _)]
    change 1 * chain (kukaRobot 0.18 0.6 0.62 0.115).links _ * 1 = _
    rw [one_mul, mul_one, hch]
  · obtain ⟨_, _, _, t4, t5, t6, he, rfl, hrow, hrel⟩ := kSols_mem (arm2Ik_cand hq hmem) hq'
    cases he
    rw [sub_add_cancel] at hrow hrel ⊢
    rw [fkSatisfies_iff _ _ (setup_known _ _ _ _ _ _ _) _ (le_refl _)]
    change ¬ 1 * chain (kukaRobot 0.18 0.6 0.62 0.115).links _ * 1 = _
    rw [one_mul, mul_one, ← hch, chain_kuka, chain_kuka]
    intro h
    have hrot := (mkTf_inj h).1
    have hcongr : armRot t1 (t2 + t3) = armRot 0 (0 + 0) := armRot_congr s1 (s2.add2 s3)
    rw [hcongr] at hrot hrel
    have hA := armRot_isRot 0 (0 + 0)
    have hz : zyz t4 t5 t6 = zyz (Real.pi / 2) 0 0 := by
      have := congrArg (fun M => (armRot 0 (0 + 0))ᵀ * M) hrot
      simpa only [← Matrix.mul_assoc, hA.1, one_mul] using this
    have hRe : R = armRot 0 (0 + 0) * zyz (Real.pi / 2) 0 0 := by
      rw [chain_kuka] at hch
      exact (mkTf_inj hch).1.symm
    have hrel' : relRot (wristBase (armRot 0 (0 + 0)) (mkTf R (p - R *ᵥ ![0, 0, 0.115])))
        (mkTf R (p - R *ᵥ ![0, 0, 0.115])) = zyz (Real.pi / 2) 0 0 := by
      rw [relRot, rotPart_wristBase, rotPart_mkTf, hRe, ← Matrix.mul_assoc, hA.1, one_mul]
    rw [hcongr] at hrow
    obtain ⟨-, -, hsing⟩ := wristRows_axis (by rw [hrel']; exact zyz_isRot _ _ _) hrow
    have e02 := congrFun (congrFun hz 0) 2
    have e12 := congrFun (congrFun hz 1) 2
    rw [zyz_eq, zyz_eq] at e02 e12
    simp at e02 e12
    have h5 : Real.sin t5 = 0 := by
      by_contra h0
      have c0 := e02.resolve_right h0
      have c1 := e12.resolve_right h0
      have := Real.cos_sq_add_sin_sq t4
      rw [c0, c1] at this
      norm_num at this
    have h10 := congrFun (congrFun (hsing h5) 1) 0
    rw [hz, zyz_eq, (stretchedRot_off _ _).1] at h10
    simp at h10

/-! ### C41 -/

/-- A KukaOnRail after `robot.tf_base = base` and `robot.tool = tool`. -/
noncomputable def setupRail (r : Rail) (base : M4) (tool : Option (Tool Shape)) : Rail :=
  { r with
    robot := { r.robot with
      tfBase := base
      tool := tool } }

/-- Something that happened to a KukaOnRail before: a call of `ik`, or a call of `fk` (or of a
collision check), which rewrites the matrix of the first link. -/
inductive RailCall where
  | ik (base : M4) (tool : Option (Tool Shape)) (target : M4) (qFixed : ℝ)
  | move (q0 : ℝ)

/-- Matrix of the first link, state of the helper arm, arrays. -/
structure RailState where
  st0 : M4
  st : RState
  mem : Mem

noncomputable def RailCall.run [Zeros] (r : Rail) (s : RailState) : RailCall → RailState
  | .ik base tool T qf =>
    let x := ((setupRail r base tool).ik s.st0 s.st s.mem T qf).2
    ⟨x.1, x.2.1, x.2.2⟩
  | .move q0 => { s with st0 := ((r.robot.links[0]?).map fun l => (l.relTf s.st0 q0).2).getD s.st0 }

noncomputable def railAfter [Zeros] (r : Rail) (mem : Mem) (history : List RailCall) : RailState :=
  history.foldl (RailCall.run r) ⟨1, RState.new 3, mem⟩

/-- Every call keeps the invariant, changes no old array but `n`, returns new arrays, and does not
raise. -/
theorem railIk_inv [Zeros] {a1 a2 d4 d6 : ℝ} {r : Rail} {n : Nat}
    (hr : r.robot.links = (railRobot a1 a2 d4 d6).links)
    (hk : r.kuka = Kuka.new 0.18 0.6 0.62 0.115 n) {st0 : M4} (h0 : Intact st0) {st : RState}
    {mem : Mem} (hw : WF 3 st) (hm : n < mem.length) (T : M4) (qf : ℝ) :
    Intact (r.ik st0 st mem T qf).2.1 ∧ WF 3 (r.ik st0 st mem T qf).2.2.1 ∧
    mem.length ≤ (r.ik st0 st mem T qf).2.2.2.length ∧
    (∀ addr : Nat, addr < mem.length → addr ≠ n →
      (r.ik st0 st mem T qf).2.2.2[addr]? = mem[addr]?) ∧
    (∀ sols, (r.ik st0 st mem T qf).1 = .ok (some sols) → ∀ a ∈ sols, mem.length ≤ a ∧
      a < (r.ik st0 st mem T qf).2.2.2.length) ∧ ∃ res, (r.ik st0 st mem T qf).1 = .ok res := by
  obtain ⟨st0', h0', e⟩ := railIk_eq hr hk h0 st mem T qf
  obtain ⟨i1, i2, i3, i4, res, i5⟩ := kukaIk_inv (innerKuka n qf) (a1 := 0.18)
    (a2 := 0.6) (d4 := 0.62) rfl (railTarget r.robot T) hw hm
  rcases hx : (innerKuka n qf).ik st mem (railTarget r.robot T) with ⟨x, st', mem'⟩
  rw [hx] at e i1 i2 i3 i4 i5
  simp only at i1 i2 i3 i4 i5
  subst i5
  cases res with
  | none =>
    rw [e]
    exact ⟨h0', i1, i2, i3, fun sols h => (by simp at h), none, rfl⟩
  | some sols =>
    have hlt : ∀ a ∈ sols, a < mem'.length := fun a ha => (i4 sols rfl a ha).2
    simp only [railRows_eq qf sols mem' [] hlt, List.nil_append] at e
    rw [e]
    refine ⟨h0', i1, by simp; omega, ?_, ?_, _, rfl⟩
    · intro addr h1 h2
      simp only
      rw [List.getElem?_append_left (by omega)]
      exact i3 addr h1 h2
    · intro sols' h a ha
      cases h
      rw [List.mem_range'_1] at ha
      simp
      omega

theorem railRun_inv [Zeros] {a1 a2 d4 d6 : ℝ} {r : Rail} {n : Nat}
    (hr : r.robot.links = (railRobot a1 a2 d4 d6).links)
    (hk : r.kuka = Kuka.new 0.18 0.6 0.62 0.115 n) (history : List RailCall) (s : RailState)
    (h0 : Intact s.st0) (hw : WF 3 s.st) (hm : n < s.mem.length) :
    Intact (history.foldl (RailCall.run r) s).st0 ∧ WF 3 (history.foldl (RailCall.run r) s).st ∧
    s.mem.length ≤ (history.foldl (RailCall.run r) s).mem.length ∧
    ∀ addr : Nat, addr < s.mem.length → addr ≠ n →
      (history.foldl (RailCall.run r) s).mem[addr]? = s.mem[addr]? := by
  induction history generalizing s with
  | nil => exact ⟨h0, hw, le_refl _, fun _ _ _ => rfl⟩
  | cons c cs ih =>
    cases c with
    | ik base tool T qf =>
      obtain ⟨i0, i1, i2, i3, -⟩ := railIk_inv (r := setupRail r base tool) hr hk h0 hw hm T qf
      obtain ⟨j0, j1, j2, j3⟩ := ih (RailCall.run r s (.ik base tool T qf)) i0 i1
        (lt_of_lt_of_le hm i2)
      refine ⟨j0, j1, le_trans i2 j2, fun addr h1 h2 => ?_⟩
      rw [List.foldl_cons, j3 addr (lt_of_lt_of_le h1 i2) h2]
      exact i3 addr h1 h2
    | move q0 =>
      have hi : Intact (RailCall.run r s (.move q0)).st0 := by
        unfold RailCall.run
        cases hl : r.robot.links[0]? with
        | none => simpa using h0
        | some l => exact (relTf_spec l h0 q0).1
      exact ih (RailCall.run r s (.move q0)) hi hw hm

theorem railAfter_inv [Zeros] {a1 a2 d4 d6 : ℝ} {n : Nat} (mem : Mem) (hn : n < mem.length)
    (history : List RailCall) :
    Intact (railAfter (Rail.new a1 a2 d4 d6 n) mem history).st0 ∧
    WF 3 (railAfter (Rail.new a1 a2 d4 d6 n) mem history).st ∧
    mem.length ≤ (railAfter (Rail.new a1 a2 d4 d6 n) mem history).mem.length := by
  obtain ⟨h0, h1, h2, -⟩ := railRun_inv (r := Rail.new a1 a2 d4 d6 n) (a1 := a1) (a2 := a2)
    (d4 := d4) (d6 := d6) rfl rfl history ⟨1, RState.new 3, mem⟩ intact_one (WF.new 3) hn
  exact ⟨h0, h1, h2⟩

/-- Every solution of KukaOnRail is one of the Kuka, with the rail position in front. -/
theorem rail_from [Zeros] {a1 a2 d4 d6 : ℝ} {r : Rail} {n : Nat}
    (hr : r.robot.links = (railRobot a1 a2 d4 d6).links)
    (hk : r.kuka = Kuka.new 0.18 0.6 0.62 0.115 n) {st0 : M4} (h0 : Intact st0) {st : RState}
    {mem : Mem} (hw : WF 3 st) (hm : n < mem.length) {T : M4} {qf : ℝ} {R : M3} {p : V3}
    (hX : railTarget r.robot T = railLink qf * mkTf R p) {sols : List Nat}
    (hs : (r.ik st0 st mem T qf).1 = .ok (some sols)) :
    ∃ qs, arm2Ik (arm2 0.18 0.6 0.62) (mkTf R (p - R *ᵥ ![0, 0, 0.115])) = some qs ∧
      ∀ a ∈ sols, ∃ q ∈ qs, ∃ q' ∈ kSols 0.18 0.6 0.62 (mkTf R (p - R *ᵥ ![0, 0, 0.115])) q,
        (r.ik st0 st mem T qf).2.2.2[a]? = some [qf :: q'] := by
  obtain ⟨st0', h0', e⟩ := railIk_eq hr hk h0 st mem T qf
  obtain ⟨i1, i2, i3, i4, res, i5⟩ := kukaIk_inv (innerKuka n qf) (a1 := 0.18)
    (a2 := 0.6) (d4 := 0.62) rfl (railTarget r.robot T) hw hm
  have htgt : kukaTarget (innerKuka n qf).robot (railTarget r.robot T) =
      mkTf R (p - R *ᵥ ![0, 0, 0.115]) :=
    kukaTarget_eq (r := (innerKuka n qf).robot) (dhMat_rigid _ _ _ _) IsRigid.one (by
      rw [hX]
      change _ = railLink qf * mkTf R p * 1
      rw [mul_one]) rfl
  cases res with
  | none =>
    rcases hx : (innerKuka n qf).ik st mem (railTarget r.robot T) with ⟨x, st', mem'⟩
    rw [hx] at e i5
    simp only at i5
    subst i5
    rw [e] at hs
    simp at hs
  | some inner =>
    cases hq : arm2Ik (arm2 0.18 0.6 0.62) (kukaTarget (innerKuka n qf).robot
        (railTarget r.robot T)) with
    | none =>
      rw [kukaIk_none (innerKuka n qf) (a1 := 0.18) (a2 := 0.6) (d4 := 0.62) rfl st mem hq] at i5
      simp at i5
    | some qs =>
      obtain ⟨-, hc, -⟩ := kukaIk_content (innerKuka n qf) (a1 := 0.18) (a2 := 0.6) (d4 := 0.62) rfl
        hw hm hq i5
      have i4' := i4 inner i5
      rcases hx : (innerKuka n qf).ik st mem (railTarget r.robot T) with ⟨x, st', mem'⟩
      rw [hx] at e i5 hc i4'
      simp only at i5 hc i4'
      subst i5
      have hlt : ∀ a ∈ inner, a < mem'.length := fun a ha => (i4' a ha).2
      simp only [railRows_eq qf inner mem' [] hlt, List.nil_append] at e
      rw [e] at hs ⊢
      cases hs
      rw [htgt] at hq hc
      refine ⟨qs, hq, fun a ha => ?_⟩
      rw [List.mem_range'_1] at ha
      obtain ⟨i, rfl⟩ := Nat.exists_eq_add_of_le ha.1
      have hi : i < inner.length := by omega
      obtain ⟨q, hqm, q', hq'm, hcell⟩ := hc inner[i] (List.getElem_mem hi)
      refine ⟨q, hqm, q', hq'm, ?_⟩
      simp only
      rw [List.getElem?_append_right (by omega), List.getElem?_map]
      simp [hi, hcell]

/-- What an address returned by `KukaOnRail.ik` holds. -/
theorem railIk_content [Zeros] {a1 a2 d4 d6 : ℝ} {r : Rail} {n : Nat}
    (hr : r.robot.links = (railRobot a1 a2 d4 d6).links)
    (hk : r.kuka = Kuka.new 0.18 0.6 0.62 0.115 n) {st0 : M4} (h0 : Intact st0) {st : RState}
    {mem : Mem} (hw : WF 3 st) (hm : n < mem.length) {T : M4} {qf : ℝ} {R : M3} {p : V3}
    (hR : IsRot R) (hX : railTarget r.robot T = railLink qf * mkTf R p) {sols : List Nat}
    (hs : (r.ik st0 st mem T qf).1 = .ok (some sols)) :
    ∀ a ∈ sols, ∃ q1 q2 q3 q4 q5 q6,
      (r.ik st0 st mem T qf).2.2.2[a]? = some [[qf, q1, q2, q3, q4, q5, q6]] ∧
      dist2 (posPart (chain (kukaRobot 0.18 0.6 0.62 0.115).links [q1, q2, q3, q4, q5, q6])) p ≤
        2 * |0.6 * 0.62| * tol ∧
      (∀ i, rotPart (chain (kukaRobot 0.18 0.6 0.62 0.115).links [q1, q2, q3, q4, q5, q6]) i 2 =
        R i 2) ∧
      (Real.cos q3 ≠ 0 →
        posPart (chain (kukaRobot 0.18 0.6 0.62 0.115).links [q1, q2, q3, q4, q5, q6]) = p) ∧
      (Real.sin q5 ≠ 0 →
        rotPart (chain (kukaRobot 0.18 0.6 0.62 0.115).links [q1, q2, q3, q4, q5, q6]) = R) := by
  obtain ⟨qs, hq, h⟩ := rail_from hr hk h0 hw hm hX hs
  intro a ha
  obtain ⟨q, hqm, q', hq'm, hcell⟩ := h a ha
  obtain ⟨q1, q2, q3, q4, q5, q6, rfl, hd, hz, hex, hrot⟩ :=
    kuka_solution (by norm_num) hR hq hqm hq'm
  exact ⟨q1, q2, q3, q4, q5, q6, hcell, hd, hz, hex, hrot⟩

/-- **C41**, partial: for every constructor parameters, the solutions returned are right for the robot
with the *default* parameters (0.18, 0.6, 0.62, 0.115), with the same base and tool, under the
conditions of C39; the first entry is always the requested rail position.  So the claim holds, as far
as C39 does, if the robot has the default parameters.

Missing: other parameters, for which the claim fails (`C41_refuted`), and the cases missing in C39. -/
theorem C41_rail_sound_partial [Zeros] (hit : Oracle Shape) (a1 a2 d4 d6 : ℝ) (n : Nat) (mem : Mem)
    (hn : n < mem.length) (history : List RailCall) {base T : M4} (hb : IsRigid base)
    (tool : Option (Tool Shape)) (ht : ∀ t, tool = some t → IsRigid t.tfTT) (hT : IsRigid T)
    (qFixed : ℝ) :
    let r := setupRail (Rail.new a1 a2 d4 d6 n) base tool
    let s := railAfter (Rail.new a1 a2 d4 d6 n) mem history
    (∃ res, (r.ik s.st0 s.st s.mem T qFixed).1 = .ok res) ∧
    ∀ sols, (r.ik s.st0 s.st s.mem T qFixed).1 = .ok (some sols) → ∀ a ∈ sols,
      ∃ q1 q2 q3 q4 q5 q6,
      (r.ik s.st0 s.st s.mem T qFixed).2.2.2[a]? = some [[qFixed, q1, q2, q3, q4, q5, q6]] ∧
      (Real.cos q3 ≠ 0 → Real.sin q5 ≠ 0 →
        FkSatisfies hit (setupRail (Rail.new 0.18 0.6 0.62 0.115 n) base tool).robot
          [qFixed, q1, q2, q3, q4, q5, q6] (· = T)) := by
  intro r s
  obtain ⟨h0, hw, hlen⟩ := railAfter_inv (a1 := a1) (a2 := a2) (d4 := d4) (d6 := d6) mem hn history
  have hm : n < s.mem.length := lt_of_lt_of_le hn hlen
  have hinv := railIk_inv (r := r) (a1 := a1) (a2 := a2) (d4 := d4) (d6 := d6) rfl rfl h0 hw hm T
    qFixed
  refine ⟨hinv.2.2.2.2.2, fun sols hs a ha => ?_⟩
  have htip := tipOf_rigid ht
  obtain ⟨R', p', hR', hTe⟩ := exists_flange hb htip hT
  have hlink : IsRigid (railLink qFixed) := dhMat_rigid _ _ _ _
  obtain ⟨R, p, hR, hX⟩ := exists_flange hlink IsRigid.one (isRigid_mkTf.2 hR') (T := mkTf R' p')
  rw [mul_one] at hX
  have htgt : railTarget r.robot T = railLink qFixed * mkTf R p := by
    rw [railTarget_eq (r := r.robot) hb htip hTe, hX]
  obtain ⟨q1, q2, q3, q4, q5, q6, hcell, -, -, hex, hrot⟩ := railIk_content (r := r) (a1 := a1)
    (a2 := a2) (d4 := d4) (d6 := d6) rfl rfl h0 hw hm hR htgt hs a ha
  refine ⟨q1, q2, q3, q4, q5, q6, hcell, fun h3 h5 => ?_⟩
  rw [fkSatisfies_iff _ (setupRail (Rail.new 0.18 0.6 0.62 0.115 n) base tool).robot
    (rail_known _ _ _ _) _ (le_refl _)]
  change base * chain (railRobot 0.18 0.6 0.62 0.115).links _ * tipOf tool = T
  have hC := chain_rigid (kukaRobot 0.18 0.6 0.62 0.115).links [q1, q2, q3, q4, q5, q6]
  rw [chain_rail, ← mkTf_parts hC.2, hrot h5, hex h3, ← hX, hTe]

/-- **C41** is false for other parameters: with `d6 = 1` there is a target that the inner Kuka solves,
and every solution returned is wrong. -/
theorem C41_refuted [Zeros] (hit : Oracle Shape) : ∃ (T : M4) (sols : List Nat),
    let r := Rail.new 0.18 0.6 0.62 1 0
    IsRigid T ∧ (r.ik 1 (RState.new 3) [[]] T 0).1 = .ok (some sols) ∧ 0 < sols.length ∧
    ∀ a ∈ sols, ∃ q, (r.ik 1 (RState.new 3) [[]] T 0).2.2.2[a]? = some [q] ∧
      ¬ FkSatisfies hit r.robot q (· = T) := by
  let r := Rail.new 0.18 0.6 0.62 1 0
  obtain ⟨R, p, hR, hch⟩ := (chain_rigid (kukaRobot 0.18 0.6 0.62 0.115).links
    [0, 0, 0, 0, 1, 0]).exists_mk
  have hT : IsRigid (railLink 0 * mkTf R p) := (dhMat_rigid _ _ _ _).mul (isRigid_mkTf.2 hR)
  have htgt : railTarget r.robot (railLink 0 * mkTf R p) = railLink 0 * mkTf R p :=
    railTarget_eq (r := r.robot) IsRigid.one IsRigid.one (by
      change _ = 1 * _ * 1
      rw [one_mul, mul_one])
  have hm : 0 < ([[]] : Mem).length := by norm_num
  have hktgt : kukaTarget (innerKuka 0 0).robot (railTarget r.robot (railLink 0 * mkTf R p)) =
      mkTf R (p - R *ᵥ ![0, 0, 0.115]) :=
    kukaTarget_eq (r := (innerKuka 0 0).robot) (dhMat_rigid _ _ _ _) IsRigid.one (by
      rw [htgt]
      change _ = railLink 0 * mkTf R p * 1
      rw [mul_one]) rfl
  obtain ⟨qs, hq⟩ := kuka_succeeds (by norm_num) hch
  rw [← hktgt] at hq
  obtain ⟨st', X, e, -⟩ := kukaIk_some (innerKuka 0 0) (a1 := 0.18) (a2 := 0.6) (d4 := 0.62) rfl
    (WF.new 3) hm hq
  obtain ⟨st0', -, er⟩ := railIk_eq (r := r) (a1 := 0.18) (a2 := 0.6) (d4 := 0.62) (d6 := 1) rfl rfl
    intact_one (RState.new 3) [[]] (railLink 0 * mkTf R p) 0
  have hlen : (qs.flatMap (kSols 0.18 0.6 0.62 (kukaTarget (innerKuka 0 0).robot
      (railTarget r.robot (railLink 0 * mkTf R p))))).length = 2 * qs.length := by
    rw [List.length_flatMap]
    simp [kSols_length, mul_comm]
  have hpos := (arm2Ik_length hq).1
  have hsols : ∃ sols, (r.ik 1 (RState.new 3) [[]] (railLink 0 * mkTf R p) 0).1 = .ok (some sols) ∧
      0 < sols.length := by
    rw [er, e]
    refine ⟨_, rfl, ?_⟩
    rw [railRows_eq]
    · simp; omega
    · intro a ha
      rw [List.mem_range'_1] at ha
      simp only [List.length_append, List.length_set, List.length_map, hlen]
      exact ha.2
  obtain ⟨sols, hs, hpos'⟩ := hsols
  refine ⟨railLink 0 * mkTf R p, sols, hT, hs, hpos', fun a ha => ?_⟩
  obtain ⟨q1, q2, q3, q4, q5, q6, hcell, hd, hz, -, -⟩ := railIk_content (r := r) (a1 := 0.18)
    (a2 := 0.6) (d4 := 0.62) (d6 := 1) rfl rfl intact_one (WF.new 3) hm hR htgt hs a ha
  refine ⟨_, hcell, ?_⟩
  rw [fkSatisfies_iff _ r.robot (rail_known _ _ _ _) _ (le_refl _)]
  change ¬ 1 * chain (railRobot 0.18 0.6 0.62 1).links _ * 1 = _
  rw [one_mul, mul_one, chain_rail]
  intro h
  have hl : IsRigid (railLink 0) := dhMat_rigid _ _ _ _
  have h' : chain (kukaRobot 0.18 0.6 0.62 1).links [q1, q2, q3, q4, q5, q6] = mkTf R p := by
    have := congrArg (fun M => tfInverse (railLink 0) * M) h
    simpa only [← mul_assoc, tfInverse_mul hl, one_mul] using this
  rw [chain_kuka] at h' hd hz
  obtain ⟨hRe, hpe⟩ := mkTf_inj h'
  rw [posPart_mkTf, hRe, ← hpe, hRe] at hd
  have hdist : dist2 (armPos 0.18 0.6 0.62 q1 q2 (q3 - Real.pi / 2) + R *ᵥ ![0, 0, 0.115])
      (armPos 0.18 0.6 0.62 q1 q2 (q3 - Real.pi / 2) + R *ᵥ ![0, 0, 1]) = 0.885 ^ 2 := by
    have e : armPos 0.18 0.6 0.62 q1 q2 (q3 - Real.pi / 2) + R *ᵥ ![0, 0, 0.115] -
        (armPos 0.18 0.6 0.62 q1 q2 (q3 - Real.pi / 2) + R *ᵥ ![0, 0, 1]) =
        R *ᵥ ![0, 0, -0.885] := by
      have : (![0, 0, -0.885] : V3) = ![0, 0, 0.115] - ![0, 0, 1] := by
        ext i; fin_cases i <;> norm_num
      rw [this, Matrix.mulVec_sub]
      abel
    rw [dist2, e, hR.dot]
    norm_num [dotProduct, Fin.sum_univ_succ]
  rw [hdist] at hd
  rw [abs_of_pos (by norm_num)] at hd
  norm_num [tol] at hd

/-! ### C44 -/

/-- **C44**, partial, Kuka: an array returned by `ik` holds the same values after any further calls on
the same robot. -/
theorem C44_kuka_partial [Zeros] {a1 a2 d4 d6 : ℝ} (n : Nat) (mem : Mem) (hn : n < mem.length)
    (before later : List IkCall) (c : IkCall) :
    let k := Kuka.new a1 a2 d4 d6 n
    let s := kukaAfter k mem before
    ∀ sols, ((setup k c.base c.tool).ik s.1 s.2 c.target).1 = .ok (some sols) → ∀ a ∈ sols,
      (kukaAfter k mem (before ++ c :: later)).2[a]? =
        (kukaAfter k mem (before ++ [c])).2[a]? ∧
      a < (kukaAfter k mem (before ++ [c])).2.length := by
  intro k s sols hs a ha
  obtain ⟨hw, hlen⟩ := kukaAfter_inv (a1 := a1) (a2 := a2) (d4 := d4) (d6 := d6) mem hn before
  have hm : k.qsol < s.2.length := lt_of_lt_of_le hn hlen
  obtain ⟨i1, i2, i3, i4, -⟩ := kukaIk_inv (setup k c.base c.tool) (a1 := a1) (a2 := a2) (d4 := d4)
    rfl c.target hw hm
  obtain ⟨b1, b2⟩ := i4 sols hs a ha
  obtain ⟨-, -, j⟩ := kukaRun_inv k (a1 := a1) (a2 := a2) (d4 := d4) rfl later
    ((setup k c.base c.tool).ik s.1 s.2 c.target).2 i1 (lt_of_lt_of_le hm i2)
  have e1 : kukaAfter k mem (before ++ c :: later) =
      later.foldl (fun s c => ((setup k c.base c.tool).ik s.1 s.2 c.target).2)
        ((setup k c.base c.tool).ik s.1 s.2 c.target).2 := by
    unfold kukaAfter; rw [List.foldl_append, List.foldl_cons]; rfl
  have e2 : kukaAfter k mem (before ++ [c]) = ((setup k c.base c.tool).ik s.1 s.2 c.target).2 := by
    unfold kukaAfter; rw [List.foldl_append]; rfl
  rw [e1, e2]
  refine ⟨j a b2 ?_, b2⟩
  intro h
  rw [h] at b1
  exact absurd hm (not_lt.2 b1)

/-- **C44**, partial, KukaOnRail. -/
theorem C44_rail_partial [Zeros] {a1 a2 d4 d6 : ℝ} (n : Nat) (mem : Mem) (hn : n < mem.length)
    (before later : List RailCall) (base : M4) (tool : Option (Tool Shape)) (T : M4) (qf : ℝ) :
    let r := Rail.new a1 a2 d4 d6 n
    let s := railAfter r mem before
    ∀ sols, ((setupRail r base tool).ik s.st0 s.st s.mem T qf).1 = .ok (some sols) → ∀ a ∈ sols,
      (railAfter r mem (before ++ .ik base tool T qf :: later)).mem[a]? =
        (railAfter r mem (before ++ [.ik base tool T qf])).mem[a]? ∧
      a < (railAfter r mem (before ++ [.ik base tool T qf])).mem.length := by
  intro r s sols hs a ha
  obtain ⟨h0, hw, hlen⟩ := railAfter_inv (a1 := a1) (a2 := a2) (d4 := d4) (d6 := d6) mem hn before
  have hm : n < s.mem.length := lt_of_lt_of_le hn hlen
  obtain ⟨i0, i1, i2, i3, i4, -⟩ := railIk_inv (r := setupRail r base tool) (a1 := a1) (a2 := a2)
    (d4 := d4) (d6 := d6) rfl rfl h0 hw hm T qf
  obtain ⟨b1, b2⟩ := i4 sols hs a ha
  obtain ⟨-, -, -, j⟩ := railRun_inv (r := r) (a1 := a1) (a2 := a2) (d4 := d4) (d6 := d6) rfl rfl
    later (RailCall.run r s (.ik base tool T qf)) i0 i1 (lt_of_lt_of_le hm i2)
  have e1 : railAfter r mem (before ++ .ik base tool T qf :: later) =
      later.foldl (RailCall.run r) (RailCall.run r s (.ik base tool T qf)) := by
    unfold railAfter; rw [List.foldl_append, List.foldl_cons]; rfl
  have e2 : railAfter r mem (before ++ [.ik base tool T qf]) =
      RailCall.run r s (.ik base tool T qf) := by
    unfold railAfter; rw [List.foldl_append]; rfl
  rw [e1, e2]
  refine ⟨j a b2 ?_, b2⟩
  intro h
  rw [h] at b1
  exact absurd hm (not_lt.2 b1)

/-- **C44** is false for SphericalWrist: there are two targets such that the array returned for the
first holds other values after the second call. -/
theorem C44_refuted [Zeros] : ∃ T T' : M4, IsRigid T ∧ IsRigid T' ∧
    ∀ (n : Nat) (mem : Mem), n < mem.length →
      let x := wristIk n 1 mem T
      let y := wristIk n 1 x.2 T'
      y.2[x.1]? ≠ x.2[x.1]? := by
  refine ⟨mkTf (rotY (Real.pi / 2)) 0, 1, isRigid_mkTf.2 (rotY_isRot _), IsRigid.one,
    fun n mem hn => ?_⟩
  have hone : rotPart (1 : M4) = 1 := by rw [← mkTf_one, rotPart_mkTf]
  have hr1 : IsRot (relRot 1 (mkTf (rotY (Real.pi / 2)) 0)) := by
    rw [relRot, hone, rotPart_mkTf, Matrix.transpose_one, one_mul]; exact rotY_isRot _
  have hr2 : IsRot (relRot 1 1) := by
    rw [relRot, hone, Matrix.transpose_one, one_mul]; exact IsRot.one
  simp only [wristIk]
  rw [List.getElem?_set_self (by simpa using hn), List.getElem?_set_self hn]
  intro h
  have h' : wristRows 1 1 = wristRows 1 (mkTf (rotY (Real.pi / 2)) 0) := Option.some.inj h
  obtain ⟨q, hq⟩ : ∃ q, q ∈ wristRows 1 (1 : M4) := by
    rw [wristRows_eq]; exact ⟨_, List.mem_cons_self⟩
  have hq' := hq
  rw [h'] at hq'
  obtain ⟨t1, t2, t3, rfl⟩ : ∃ t1 t2 t3, q = [t1, t2, t3] := by
    have := hq
    rw [wristRows_eq] at this
    simp only [List.mem_cons, List.not_mem_nil, or_false] at this
    rcases this with rfl | rfl <;> exact ⟨_, _, _, rfl⟩
  have a1 := (wristRows_axis hr1 hq').1 1
  have a2 := (wristRows_axis hr2 hq).1 1
  rw [a2] at a1
  have := congrFun a1 0
  rw [relRot, relRot, hone, rotPart_mkTf, Matrix.transpose_one, one_mul, one_mul] at this
  simp [rotY, Matrix.mulVec, dotProduct, Fin.sum_univ_succ] at this

end Verif.Props
