import Verif.Model.WristBase
import Verif.Props.Workspace

/-!
# C157: where `Kuka.ik` leaves its wrist

`Kuka.ik` puts its helper robot `wrist` behind every solution of the arm.  The line that should set the
position writes the last row of the matrix instead of the last column (robots.py:342-343), so the wrist
stands in the origin, with the right orientation.
-/

set_option linter.unusedSectionVars false

namespace Verif.Props

open Matrix Verif Verif.Geometry Verif.Kin Verif.Util

noncomputable section

/-- `q` is the last solution that `ik` gives. -/
def LastSolution [Zeros] (k : Kuka) (st : RState) (mem : Mem) (T : M4) (q : List ℝ) : Prop :=
  ∃ sols a, (k.ik st mem T).1 = .ok (some sols) ∧ sols.getLast? = some a ∧
    (k.ik st mem T).2.2[a]? = some [q]

/-- **C157** as the comment in the code promises: the wrist is left at the end of the arm, so its own forward
kinematics gives the target for the angles of the wrist in the last solution. -/
def C157_statement : Prop :=
  ∀ (_ : Zeros) (hit : Oracle Shape) (a1 a2 d4 d6 : ℝ) (n : Nat) (st : RState) (mem : Mem) (b : M4)
    (R : M3) (p : V3) (q : List ℝ), IsRot R → WF 3 st → n < mem.length →
    LastSolution (Kuka.new a1 a2 d4 d6 n) st mem (mkTf R p) q →
    FkSatisfies hit (wristOn d6 ((Kuka.new a1 a2 d4 d6 n).wristAfter st (mkTf R p) b)) (q.drop 3)
      fun F => posPart F = p

variable {a1 a2 d4 d6 : ℝ} {n : Nat} {base : M4} {tool : Option (Tool Shape)}

theorem kukaWristBase_eq [Zeros] (k : Kuka) (hk : k.arm = arm2 a1 a2 d4) (Tw : M4) :
    ∀ (qs : List (List ℝ)) (st : RState) (b : M4), (∀ q ∈ qs, q.length = 3) → WF 3 st →
      kukaWristBase k Tw qs st b = (qs.getLast?.map fun q => wristBase
        (rotPart (chain (arm2 a1 a2 d4).links (q.modify 2 (· + Real.pi / 2)))) Tw).getD b := by
  intro qs
  induction qs with
  | nil => intro st b _ _; rfl
  | cons q qs ih =>
    intro st b hq hw
    have hl : (arm2 a1 a2 d4).links.length ≤ (q.modify 2 (· + Real.pi / 2)).length := by
      rw [List.length_modify, hq q List.mem_cons_self]; exact le_refl _
    have hfk : ((arm2 a1 a2 d4).fk st (q.modify 2 (· + Real.pi / 2))).1 =
        .ok (chain (arm2 a1 a2 d4).links (q.modify 2 (· + Real.pi / 2))) := by
      rw [fk_ok (r := arm2 a1 a2 d4) hw hl (arm2_known a1 a2 d4)]; simp [arm2, Robot.new]
    have hw' : WF 3 ((arm2 a1 a2 d4).fk st (q.modify 2 (· + Real.pi / 2))).2 :=
      hw.fkAllLinks (r := arm2 a1 a2 d4) _
    unfold kukaWristBase
    simp only [hk, hfk]
    rw [ih _ _ (fun q' h => hq q' (List.mem_cons_of_mem _ h)) hw']
    cases qs with
    | nil => rfl
    | cons q' qs =>
      rw [List.getLast?_cons_cons]
      rw [List.getLast?_eq_some_getLast (List.cons_ne_nil q' qs)]
      rfl

theorem wristBase_zero {A R : M3} {w : V3} : wristBase A (mkTf R w) = mkTf A 0 := by
  ext i j; fin_cases i <;> fin_cases j <;> rfl

/-- **C157**: after `ik`, when the arm reaches the target, the wrist has the orientation of the arm at the last
solution and stands in the origin; its forward kinematics for the angles of the wrist points along the
approach axis of the target, with its orientation unless the wrist is stretched, at the position of the
flange relative to the center of the wrist.  Missing: the position of the center (`C157_refuted`). -/
theorem C157_partial [Zeros] (hit : Oracle Shape) (hb : IsRigid base)
    (ht : ∀ t, tool = some t → IsRigid t.tfTT) {T : M4} {R : M3} {p : V3} (hR : IsRot R)
    (hT : T = base * mkTf R p * tipOf tool) {st : RState} {mem : Mem} (hw : WF 3 st)
    (hn : n < mem.length) (b : M4) {q : List ℝ}
    (hq : LastSolution (setup (Kuka.new a1 a2 d4 d6 n) base tool) st mem T q) :
    ∃ (A : M3) (t1 t2 t3 : ℝ), IsRot A ∧ q.drop 3 = [t1, t2, t3] ∧
      (setup (Kuka.new a1 a2 d4 d6 n) base tool).wristAfter st T b = mkTf A 0 ∧
      (FkSatisfies hit (arm2 a1 a2 d4) (q.take 3) fun F => rotPart F = A) ∧
      FkSatisfies hit (wristOn d6 (mkTf A 0)) (q.drop 3) fun F =>
        posPart F = R *ᵥ ![0, 0, d6] ∧ (∀ i, rotPart F i 2 = R i 2) ∧
          (Real.sin t2 ≠ 0 → rotPart F = R) := by
  set k := setup (Kuka.new a1 a2 d4 d6 n) base tool with hk
  have hka : k.arm = arm2 a1 a2 d4 := rfl
  obtain ⟨w, hTw⟩ : ∃ w, kukaTarget k.robot T = mkTf R w :=
    ⟨fun i => p i - d6 * R i 2, kukaTarget_at hb ht hT (fun i => rfl) n⟩
  obtain ⟨sols, a, h1, h2, h3⟩ := hq
  cases hs : arm2Ik (arm2 a1 a2 d4) (kukaTarget k.robot T) with
  | none =>
    rw [kukaIk_none k hka st mem hs] at h1
    cases h1
  | some qs =>
    obtain ⟨st', X, e, -⟩ := kukaIk_some k hka hw (mem := mem) hn hs
    rw [e] at h1 h3
    simp only [Except.ok.injEq, Option.some.injEq] at h1
    subst h1
    have hne : qs ≠ [] := List.ne_nil_of_length_pos (arm2Ik_length hs).1
    obtain ⟨init, q', rfl⟩ : ∃ init q', qs = init ++ [q'] :=
      ⟨_, _, (List.dropLast_append_getLast hne).symm⟩
    have hq' : q'.length = 3 := arm2Ik_len3 hs q' (by simp)
    -- the last solution belongs to the last solution of the arm
    have hmem : q ∈ kSols a1 a2 d4 (mkTf R w) q' := by
      rw [hTw] at h3
      have hl : ((init ++ [q']).flatMap (kSols a1 a2 d4 (mkTf R w))).length = 2 * (init.length + 1) := by
        rw [List.length_flatMap]
        simp [kSols_length]
        ring
      have ha : a = mem.length + (2 * init.length + 1) := by
        rw [List.getLast?_range'] at h2
        simp only [List.length_append, List.length_cons, List.length_nil] at h2
        split at h2
        · cases h2
        · rw [Option.some.injEq] at h2
          omega
      subst ha
      simp only at h3
      rw [List.getElem?_append_right (by simp), List.length_set, Nat.add_sub_cancel_left,
        List.getElem?_map, List.flatMap_append, List.getElem?_append_right (by
          rw [List.length_flatMap]; simp [kSols_length]; omega)] at h3
      obtain ⟨x, hx, hx'⟩ := Option.map_eq_some_iff.1 h3
      cases hx'
      have := List.mem_of_getElem? hx
      simpa using this
    obtain ⟨row, hrow, rfl⟩ := List.mem_map.1 hmem
    set qa := q'.modify 2 (· + Real.pi / 2) with hqa
    have hqal : qa.length = 3 := by rw [hqa, List.length_modify, hq']
    set A := rotPart (chain (arm2 a1 a2 d4).links qa) with hA
    have hAr : IsRot A := (chain_rigid _ _).1
    rw [wristBase_zero] at hrow
    have hrel : relRot (mkTf A 0) (mkTf R w) = Aᵀ * R := by rw [relRot, rotPart_mkTf, rotPart_mkTf]
    have hrr : IsRot (relRot (mkTf A 0) (mkTf R w)) := by rw [hrel]; exact hAr.transpose.mul hR
    obtain ⟨t1, t2, t3, rfl⟩ : ∃ t1 t2 t3, row = [t1, t2, t3] := by
      rw [wristRows_eq] at hrow
      simp only [List.mem_cons, List.not_mem_nil, or_false] at hrow
      rcases hrow with rfl | rfl <;> exact ⟨_, _, _, rfl⟩
    have hax := wristRows_axis hrr hrow
    rw [hrel] at hax
    have hAA : A * Aᵀ = 1 := hAr.transpose.1 |> fun h => by rwa [Matrix.transpose_transpose] at h
    have hd : (qa ++ [t1, t2, t3]).drop 3 = [t1, t2, t3] := by
      rw [← hqal, List.drop_left]
    have htk : (qa ++ [t1, t2, t3]).take 3 = qa := by rw [← hqal, List.take_left]
    refine ⟨A, t1, t2, t3, hAr, hd, ?_, ?_, ?_⟩
    · unfold Kuka.wristAfter
      simp only [hka, hs]
      rw [kukaWristBase_eq k hka _ _ _ _ (arm2Ik_len3 hs) hw, List.getLast?_append, hTw]
      simp only [List.getLast?_singleton, Option.some_or, Option.map_some, Option.getD_some]
      exact wristBase_zero
    · rw [htk, fkSatisfies_iff hit _ (arm2_known _ _ _) _ (by rw [hqal]; exact le_refl _)]
      simp [arm2, Robot.new, tip, hA]
    · rw [hd, wristOn_fk hit d6 (isRigid_mkTf.2 hAr)]
      rw [mkTf_mul, rotPart_mkTf, posPart_mkTf, add_zero]
      refine ⟨?_, fun i => ?_, fun h => ?_⟩
      · rw [hax.1 d6, Matrix.mulVec_mulVec, ← Matrix.mul_assoc, hAA, one_mul]
      · have := congrFun (congrArg (A *ᵥ ·) (hax.1 1)) i
        simp only [Matrix.mulVec_mulVec] at this
        rw [← Matrix.mul_assoc A Aᵀ R, hAA, one_mul] at this
        simpa [Matrix.mulVec, dotProduct, Fin.sum_univ_three] using this
      · rw [hax.2.1 h, ← Matrix.mul_assoc, hAA, one_mul]

/-- **C157**, out of reach: when `ik` finds no solution, the wrist stays as it was. -/
theorem C157_out_of_reach [Zeros] {st : RState} {mem : Mem} (hw : WF 3 st) (hn : n < mem.length) (T b : M4)
    (h : ((setup (Kuka.new a1 a2 d4 d6 n) base tool).ik st mem T).1 = .ok none) :
    (setup (Kuka.new a1 a2 d4 d6 n) base tool).wristAfter st T b = b := by
  set k := setup (Kuka.new a1 a2 d4 d6 n) base tool with hk
  have hka : k.arm = arm2 a1 a2 d4 := rfl
  cases hs : arm2Ik (arm2 a1 a2 d4) (kukaTarget k.robot T) with
  | none =>
    unfold Kuka.wristAfter
    simp only [hka, hs]
  | some qs =>
    obtain ⟨st', X, e, -⟩ := kukaIk_some k hka hw (mem := mem) hn hs
    rw [e] at h
    cases h

/-- When the arm reaches the target there is a last solution. -/
theorem lastSolution_exists [Zeros] (k : Kuka) (hk : k.arm = arm2 a1 a2 d4) {st : RState} {mem : Mem} {T : M4}
    (hw : WF 3 st) (hm : k.qsol < mem.length) {qs : List (List ℝ)}
    (hs : arm2Ik (arm2 a1 a2 d4) (kukaTarget k.robot T) = some qs) : ∃ q, LastSolution k st mem T q := by
  obtain ⟨st', X, e, -⟩ := kukaIk_some k hk hw hm hs
  have hpos := (arm2Ik_length hs).1
  have hl : (qs.flatMap (kSols a1 a2 d4 (kukaTarget k.robot T))).length = 2 * qs.length := by
    rw [List.length_flatMap]
    simp [kSols_length, mul_comm]
  obtain ⟨m, hm'⟩ : ∃ m, 2 * qs.length = m + 1 := ⟨2 * qs.length - 1, by omega⟩
  have hlt : m < (qs.flatMap (kSols a1 a2 d4 (kukaTarget k.robot T))).length := by omega
  refine ⟨(qs.flatMap (kSols a1 a2 d4 (kukaTarget k.robot T)))[m], _, mem.length + m, by rw [e], ?_, ?_⟩
  · rw [List.getLast?_range', if_neg (by omega), hm']
    simp
  · rw [e]
    simp only
    rw [List.getElem?_append_right (by simp), List.length_set, Nat.add_sub_cancel_left,
      List.getElem?_map, List.getElem?_eq_getElem hlt]
    rfl

/-- A target of a Kuka with lengths one: two to the front and two up. -/
theorem wrist_reach [Zeros] : ∃ q, LastSolution (Kuka.new 1 1 1 1 0) (RState.new 3) [[]]
    (mkTf 1 ![2, 0, 2]) q := by
  have hTw : kukaTarget (Kuka.new 1 1 1 1 0).robot (mkTf 1 ![2, 0, 2]) = mkTf 1 ![2, 0, 1] := by
    refine kukaTarget_at (a1 := 1) (a2 := 1) (d4 := 1) (d6 := 1) (base := 1) (tool := none)
      IsRigid.one (by simp) (R := 1) (p := ![2, 0, 2]) (by simp [tipOf]) (fun i => ?_) 0
    fin_cases i
    · simp
    · simp
    · show (1 : ℝ) = 2 - 1 * (1 : M3) 2 2
      rw [Matrix.one_apply_eq]
      norm_num
  obtain ⟨qs, hs⟩ := arm2Ik_succeeds (a1 := 1) (a2 := 1) (a3 := 1) (by norm_num) 0 0 (Real.pi / 2)
    (T := mkTf 1 ![2, 0, 1]) (by
      rw [posPart_mkTf]
      ext i
      fin_cases i <;> simp [armPos]
      norm_num)
  rw [← hTw] at hs
  exact lastSolution_exists (Kuka.new 1 1 1 1 0) rfl (WF.new 3) (by decide) hs

/-- **C157** is false of the code: the Kuka with lengths one and the target above. -/
theorem C157_refuted : ¬ C157_statement := by
  intro h
  letI : Zeros := posZeros
  obtain ⟨q, hq⟩ := wrist_reach
  have h1 := h posZeros (fun _ _ => false) 1 1 1 1 0 (RState.new 3) [[]] 1 1 ![2, 0, 2] q IsRot.one
    (WF.new 3) (by decide) hq
  obtain ⟨A, t1, t2, t3, -, -, e, -, h2⟩ := C157_partial (a1 := 1) (a2 := 1) (d4 := 1) (d6 := 1) (n := 0)
    (fun _ _ => false) (base := 1) (tool := none) IsRigid.one (by simp) (R := 1) (p := ![2, 0, 2]) IsRot.one
    (by simp [tipOf]) (WF.new 3) (by decide) 1 hq
  have e' : (Kuka.new 1 1 1 1 0).wristAfter (RState.new 3) (mkTf 1 ![2, 0, 2]) 1 = mkTf A 0 := e
  rw [e'] at h1
  obtain ⟨F, f1, f2⟩ := h1 [] (by simp)
  obtain ⟨F', f1', f2', -⟩ := h2 [] (by simp)
  rw [f1, Except.ok.injEq] at f1'
  subst f1'
  rw [f2] at f2'
  have := congrFun f2' 0
  simp at this

/-- A case of `C157_partial`, whatever the wrist was before. -/
example [Zeros] (hit : Oracle Shape) (b : M4) : ∃ q, LastSolution (Kuka.new 1 1 1 1 0) (RState.new 3) [[]]
      (mkTf 1 ![2, 0, 2]) q ∧
    ∃ A : M3, IsRot A ∧ (Kuka.new 1 1 1 1 0).wristAfter (RState.new 3) (mkTf 1 ![2, 0, 2]) b = mkTf A 0 ∧
      FkSatisfies hit (wristOn 1 (mkTf A 0)) (q.drop 3) fun F => posPart F = ![0, 0, 1] := by
  obtain ⟨q, hq⟩ := wrist_reach
  obtain ⟨A, t1, t2, t3, hA, -, e, -, h2⟩ := C157_partial (a1 := 1) (a2 := 1) (d4 := 1) (d6 := 1) (n := 0)
    hit (base := 1) (tool := none) IsRigid.one (by simp) (R := 1) (p := ![2, 0, 2]) IsRot.one
    (by simp [tipOf]) (WF.new 3) (by decide) b hq
  refine ⟨q, hq, A, hA, e, fun hist hh => ?_⟩
  obtain ⟨F, f1, f2, -⟩ := h2 hist hh
  exact ⟨F, f1, f2.trans (Matrix.one_mulVec _)⟩

end

end Verif.Props
