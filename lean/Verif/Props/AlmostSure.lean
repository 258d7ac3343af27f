import Verif.Proofs.Nearby
import Verif.Props.FreeOpen
import Verif.Props.MoreSamples
import Verif.Props.GridComplete
import Verif.Props.Evenly
import Verif.Props.KukaTests
import Mathlib.Probability.ProductMeasure

/-!
# C142: with enough samples the grid planner almost surely succeeds

The grid planner tries a number of random orientations at every point (planning.py:283-315,
path.py `FreeOrientationPt.get_samples`, util.py `sample_SO3`).  Every call of `np.random.random` is
independent of the others.
-/

set_option linter.unusedSectionVars false

namespace Verif.Props

open MeasureTheory Matrix Verif Verif.Path Verif.Geometry Verif.Kin Verif.ShortestPath Verif.Task
  Verif.CppGraph Verif.Search Verif.Planning Verif.Spec Verif.Util Verif.SampleSO3 Filter Topology
open scoped ENNReal

noncomputable section

/-- The law of the draws: number `j` at point `i`, all independent. -/
def allDraws : Measure (Nat × Nat → ℝ × ℝ × ℝ) := Measure.infinitePi fun _ => drawLaw

instance : IsProbabilityMeasure allDraws := by unfold allDraws; infer_instance

/-- The planner's draws, with the random numbers `ω`. -/
def withRandom (draws : Nat → Nat → Draws) (ω : Nat × Nat → ℝ × ℝ × ℝ) : Nat → Nat → Draws :=
  fun k i => { draws k i with rnd := fun j => ω (i, j) }

/-- The draws for which the orientation at `p` has a collision-free solution. -/
def goodDraws (ikf : M4 → Option (List Config)) (hit : Config → Bool) (p : V3) : Set (ℝ × ℝ × ℝ) :=
  {u | ∃ sols q, ikf (freeFrame u p) = some sols ∧ q ∈ sols ∧ hit q = false}

/-- `n` draws at one point all miss a set. -/
theorem all_miss {G : Set (ℝ × ℝ × ℝ)} (hG : MeasurableSet G) {u : ℝ≥0∞} (hu : u ≤ drawLaw G)
    (i n : Nat) : allDraws {ω | ∀ j < n, ω (i, j) ∉ G} ≤ (1 - u) ^ n := by
  have e : {ω : Nat × Nat → ℝ × ℝ × ℝ | ∀ j < n, ω (i, j) ∉ G} =
      Set.pi (((Finset.range n).map ⟨fun j => (i, j), fun a b h => (Prod.mk.inj h).2⟩ :
        Finset (Nat × Nat)) : Set (Nat × Nat)) fun _ => Gᶜ := by
    ext ω
    simp only [Set.mem_setOf_eq, Set.mem_pi, Finset.coe_map, Set.mem_image, Finset.mem_coe,
      Finset.mem_range, Function.Embedding.coeFn_mk, forall_exists_index, and_imp,
      forall_apply_eq_imp_iff₂, Set.mem_compl_iff]
    exact Iff.rfl
  rw [e, allDraws, Measure.infinitePi_pi _ fun _ _ => hG.compl, Finset.prod_const, Finset.card_map,
    Finset.card_range, prob_compl_eq_one_sub hG]
  exact pow_le_pow_left' (tsub_le_tsub_left hu 1) n

variable {D W S O : Type} [CostArith D] [JointArith ℝ D] {Inv : W → Prop} {arm : Arm W S}
  {scene : Collection S} {ikf : M4 → Option (List Config)} {hit : Config → Bool} {d : Nat}

theorem unsolvable_le (draws : Nat → Nat → Draws) {ps : List V3} {u : ℝ≥0∞}
    (hG : ∀ p ∈ ps, ∃ G ⊆ goodDraws ikf hit p, MeasurableSet G ∧ u ≤ drawLaw G) (n : Nat) :
    allDraws {ω | ¬ Solvable ikf hit (withRandom draws ω 0) ps n} ≤ ps.length * (1 - u) ^ n := by
  have hG' : ∀ i : Fin ps.length, ∃ G ⊆ goodDraws ikf hit ps[i], MeasurableSet G ∧ u ≤ drawLaw G :=
    fun i => hG _ (List.getElem_mem _)
  choose G h1 h2 h3 using hG'
  have hsub : {ω | ¬ Solvable ikf hit (withRandom draws ω 0) ps n} ⊆
      ⋃ i : Fin ps.length, {ω | ∀ j < n, ω (i, j) ∉ G i} := by
    intro ω hω
    by_contra hno
    refine hω fun i p hp => ?_
    obtain ⟨hi, rfl⟩ := List.getElem?_eq_some_iff.1 hp
    have : ∃ j < n, ω (i, j) ∈ G ⟨i, hi⟩ := by
      by_contra hc
      push Not at hc
      exact hno (Set.mem_iUnion.2 ⟨⟨i, hi⟩, hc⟩)
    obtain ⟨j, hj, hm⟩ := this
    obtain ⟨sols, q, e1, e2, e3⟩ := h1 ⟨i, hi⟩ hm
    exact ⟨j, sols, q, hj, e1, e2, e3⟩
  refine (measure_mono hsub).trans ((measure_iUnion_fintype_le _ _).trans ?_)
  refine (Finset.sum_le_sum fun i _ => all_miss (h2 i) (h3 i) i n).trans ?_
  simp

/-- **C142**, how fast: if at every point a random orientation has a collision-free solution with
probability `u` or more, then the grid planner fails with probability at most `(number of points) *
(1 - u) ^ n`, where `n` is the number of samples per point. -/
theorem C142_rate (h : Determined arm scene Inv ikf hit d) {pq : PQ D Config} (hl : Lawful pq)
    (hno : PyGraph.NoOverflow D) (hfin : ∀ x y : Config, stepCost D (effWeights D d []) x y < ⊤)
    (conv : ℝ → ℝ) (draws : Nat → Nat → Draws) (time : Nat → ℝ) (fuel : Nat)
    (optimal : List PathPt → Collection S → Nat → List (List ℝ) → Run W O) {ps : List V3}
    (hne : ps ≠ []) {u : ℝ≥0∞}
    (hG : ∀ p ∈ ps, ∃ G ⊆ goodDraws ikf hit p, MeasurableSet G ∧ u ≤ drawLaw G) (n : Nat) :
    allDraws {ω | ¬ ∃ path c, Returns Inv (PlanningTask.solve (freeTask ps scene n) arm pq conv
      (withRandom draws ω) time fuel optimal (some "grid")) (.plan ⟨true, some path, some c⟩)} ≤
      ps.length * (1 - u) ^ n := by
  refine le_trans (measure_mono ?_) (unsolvable_le draws hG n)
  intro ω hω hs
  refine hω ?_
  obtain ⟨path, c, h1, -⟩ := C66_succeeds h hl hno hfin (freeTask ps scene n) rfl
    (by simpa [freeTask, PlanningTask.new] using hne) conv (withRandom draws ω) time fuel optimal
    (freeFrames_samples _ ps scene n) (Solvable.frames hs)
  exact ⟨path, c, h1⟩

/-- **C142**, in the limit: if at every point a random orientation has a collision-free solution with
positive probability, then for almost all random numbers the planner succeeds from some number of
samples on. -/
theorem C142_almost_surely (h : Determined arm scene Inv ikf hit d) {pq : PQ D Config}
    (hl : Lawful pq) (hno : PyGraph.NoOverflow D)
    (hfin : ∀ x y : Config, stepCost D (effWeights D d []) x y < ⊤)
    (conv : ℝ → ℝ) (draws : Nat → Nat → Draws) (time : Nat → ℝ) (fuel : Nat)
    (optimal : List PathPt → Collection S → Nat → List (List ℝ) → Run W O) {ps : List V3}
    (hne : ps ≠ []) {u : ℝ≥0∞} (hu : u ≠ 0)
    (hG : ∀ p ∈ ps, ∃ G ⊆ goodDraws ikf hit p, MeasurableSet G ∧ u ≤ drawLaw G) :
    ∀ᵐ ω ∂allDraws, ∃ n₀, ∀ n ≥ n₀, ∃ path c, Returns Inv (PlanningTask.solve (freeTask ps scene n)
      arm pq conv (withRandom draws ω) time fuel optimal (some "grid"))
      (.plan ⟨true, some path, some c⟩) := by
  have key : allDraws {ω | ∀ n, ¬ Solvable ikf hit (withRandom draws ω 0) ps n} = 0 := by
    have hlim : Tendsto (fun n : Nat => (ps.length : ℝ≥0∞) * (1 - u) ^ n) atTop (𝓝 0) := by
      have h1 : Tendsto (fun n : Nat => (1 - u) ^ n) atTop (𝓝 0) :=
        ENNReal.tendsto_pow_atTop_nhds_zero_of_lt_one (ENNReal.sub_lt_self ENNReal.one_ne_top one_ne_zero hu)
      have := ENNReal.Tendsto.const_mul h1 (a := (ps.length : ℝ≥0∞)) (.inr (ENNReal.natCast_ne_top _))
      rwa [mul_zero] at this
    refine le_antisymm (ge_of_tendsto' hlim fun n => ?_) bot_le
    refine le_trans (measure_mono ?_) (unsolvable_le draws hG n)
    exact fun ω hω => hω n
  filter_upwards [measure_eq_zero_iff_ae_notMem.1 key] with ω hω
  simp only [Set.mem_setOf_eq, not_forall, not_not] at hω
  obtain ⟨n₀, h0⟩ := hω
  refine ⟨n₀, fun n hn => ?_⟩
  obtain ⟨path, c, h1, -⟩ := C66_succeeds h hl hno hfin (freeTask ps scene n) rfl
    (by simpa [freeTask, PlanningTask.new] using hne) conv (withRandom draws ω) time fuel optimal
    (freeFrames_samples _ ps scene n) (h0.mono hn).frames
  exact ⟨path, c, h1⟩

/-! ## The Kuka -/

/-- A configuration of the Kuka at which the code's inverse kinematics has no trouble: not on the axis
of the base, elbow not (nearly) stretched, wrist bent. -/
def KukaRegular (a1 a2 d4 q2 q3 q5 : ℝ) : Prop :=
  a1 + a2 * Real.cos q2 + d4 * Real.sin (q2 + q3) ≠ 0 ∧ |Real.sin q3| < 1 - 1 / 10 ^ 6 ∧
    Real.sin q5 ≠ 0

/-- The rotations near `R₀`, by their entries. -/
def nearRot (R₀ : M3) : Filter Entries := 𝓝 (fun i j => R₀ i j) ⊓ 𝓟 {E | IsRot (Matrix.of E)}

/-- What holds for the rotations near one rotation has a positive probability. -/
theorem likely {P : M4 → Prop} {R₀ : M3} (hR : IsRot R₀) {p : V3}
    (h : ∀ᶠ E in nearRot R₀, P (mkTf (Matrix.of E) p)) :
    ∃ G ⊆ {u | P (freeFrame u p)}, MeasurableSet G ∧ drawLaw G ≠ 0 := by
  rw [nearRot, Filter.eventually_inf_principal] at h
  obtain ⟨U, hU1, hU2, hU3⟩ := mem_nhds_iff.1 h
  refine ⟨{u | rotEntries (Uniform.spherePt u) ∈ U} ∩ DrawBox, ?_, ?_, ?_⟩
  · rintro u ⟨hu, hbox⟩
    have e : Matrix.of (rotEntries (Uniform.spherePt u)) =
        (quatOf u.1 u.2.1 u.2.2).rotationMatrix := by
      rw [of_rotEntries, toQuat_spherePt, polyRot_eq (unit_of_mem hbox)]
    have := hU1 hu (by
      show IsRot (Matrix.of _)
      rw [e]
      exact Quat.rotationMatrix_isRot (unit_of_mem hbox))
    rw [e] at this
    exact this
  · exact (measurable_rot hU2.measurableSet).inter measurableSet_drawBox
  · have hpos := uniform_pos uniform_rotLaw (R := R₀) hR hU2 hU3
    rw [rotLaw, Measure.map_apply measurable_rot hU2.measurableSet] at hpos
    rwa [drawLaw, Measure.restrict_apply' measurableSet_drawBox, Set.inter_assoc, Set.inter_self,
      ← Measure.restrict_apply' measurableSet_drawBox]

/-- Where a free configuration reaches, nearby free configurations reach all nearby orientations. -/
theorem kuka_follows {a1 a2 d4 d6 : ℝ} (ha : a2 * d4 ≠ 0) (n : Nat) {base : M4}
    (hb : IsRigid base) (tool : Option (Tool Shape)) (htt : ∀ t, tool = some t → IsRigid t.tfTT)
    (scene : Collection Shape) {p : V3} {q1 q2 q3 q4 q5 q6 : ℝ}
    (hf : FkSatisfies boxOracle (setup (Kuka.new a1 a2 d4 d6 n) base tool).robot
      [q1, q2, q3, q4, q5, q6] (fun T => posPart T = p))
    (h1 : ¬ SceneTouch boxOracle (setup (Kuka.new a1 a2 d4 d6 n) base tool).robot
      [q1, q2, q3, q4, q5, q6] scene)
    (h2 : ¬ SelfTouch boxOracle (setup (Kuka.new a1 a2 d4 d6 n) base tool).robot
      [q1, q2, q3, q4, q5, q6])
    (hr : KukaRegular a1 a2 d4 q2 q3 q5) :
    ∃ R₀ : M3, IsRot R₀ ∧ ∃ t1 t2 t3 t4 t5 t6 : Entries → ℝ,
      Tendsto t1 (nearRot R₀) (𝓝 q1) ∧ Tendsto t2 (nearRot R₀) (𝓝 q2) ∧
      Tendsto t3 (nearRot R₀) (𝓝 q3) ∧ Tendsto t4 (nearRot R₀) (𝓝 q4) ∧
      Tendsto t5 (nearRot R₀) (𝓝 q5) ∧ Tendsto t6 (nearRot R₀) (𝓝 q6) ∧
      ∀ᶠ E in nearRot R₀,
        FkSatisfies boxOracle (setup (Kuka.new a1 a2 d4 d6 n) base tool).robot
          [t1 E, t2 E, t3 E, t4 E, t5 E, t6 E] (· = mkTf (Matrix.of E) p) ∧
        touches boxOracle (setup (Kuka.new a1 a2 d4 d6 n) base tool).robot scene
          [t1 E, t2 E, t3 E, t4 E, t5 E, t6 E] = false ∧
        KukaRegular a1 a2 d4 (t2 E) (t3 E) (t5 E) := by
  set k := setup (Kuka.new a1 a2 d4 d6 n) base tool with hk
  rw [fkSatisfies_iff _ _ (setup_known a1 a2 d4 d6 n base tool) _ (le_refl _)] at hf
  change posPart (base * chain (kukaRobot a1 a2 d4 d6).links [q1, q2, q3, q4, q5, q6] * tipOf tool) = p
    at hf
  have htip := tipOf_rigid htt
  have hch := chain_rigid (kukaRobot a1 a2 d4 d6).links [q1, q2, q3, q4, q5, q6]
  set C₀ := chain (kukaRobot a1 a2 d4 d6).links [q1, q2, q3, q4, q5, q6] with hC₀
  have hT₀ := (hb.mul hch).mul htip
  set R₀ : M3 := rotPart (base * C₀ * tipOf tool) with hR₀
  have hT₀e : base * C₀ * tipOf tool = mkTf R₀ p := by rw [← hf, hR₀, mkTf_parts hT₀.2]
  let E₀ : Entries := fun i j => R₀ i j
  let Z : Entries → M4 := fun E => tfInverse base * mkTf (Matrix.of E) p * tfInverse (tipOf tool)
  have hZ : Continuous Z := by
    refine Continuous.mul (Continuous.mul continuous_const ?_) continuous_const
    refine continuous_matrix fun i j => ?_
    fin_cases i <;> fin_cases j <;> simp [mkTf] <;> fun_prop
  have hback : ∀ E, base * Z E * tipOf tool = mkTf (Matrix.of E) p := by
    intro E
    simp only [Z]
    rw [← mul_assoc, ← mul_assoc, mul_tfInverse hb, one_mul, mul_assoc, tfInverse_mul htip, mul_one]
  have hrig : ∀ E, IsRot (Matrix.of E) → IsRigid (Z E) := fun E hE =>
    ((tfInverse_rigid hb.1).mul (isRigid_mkTf.2 hE)).mul (tfInverse_rigid htip.1)
  have hZ₀ : Z E₀ = C₀ := by
    have : mkTf (Matrix.of E₀) p = base * C₀ * tipOf tool := by rw [hT₀e]; rfl
    simp only [Z, this]
    rw [mul_assoc, mul_assoc, mul_tfInverse htip, mul_one, ← mul_assoc, tfInverse_mul hb, one_mul]
  let l : Filter Entries := nearRot R₀
  have hlrot : ∀ᶠ E in l, IsRot (Matrix.of E) := mem_inf_of_right (mem_principal_self _)
  have hZl : Tendsto Z l (𝓝 C₀) := by
    have := hZ.tendsto E₀
    rw [hZ₀] at this
    exact this.mono_left (inf_le_left (a := 𝓝 E₀))
  have hrotc : Continuous fun T : M4 => rotPart T := continuous_matrix fun i j => by
    simp only [rotPart, Matrix.of_apply]
    fun_prop
  have hposc : Continuous fun T : M4 => posPart T := continuous_pi fun i => by
    simp only [posPart]
    fun_prop
  have hcos : Real.cos q3 ≠ 0 := by
    intro h0
    have := Real.sin_sq_add_cos_sq q3
    rw [h0] at this
    have h3 := hr.2.1
    rw [abs_lt] at h3
    nlinarith
  obtain ⟨t1, t2, t3, t4, t5, t6, T1, T2, T3, T4, T5, T6, hE⟩ := lift_kuka (l := l) ha hr.1 hcos hr.2.2
    (R₀ := rotPart C₀) (p₀ := posPart C₀) (mkTf_parts hch.2).symm
    (R := fun E => rotPart (Z E)) (p := fun E => posPart (Z E)) (by
      exact Tendsto.congr (fun _ => rfl) ((hrotc.tendsto C₀).comp hZl)) (by
      exact Tendsto.congr (fun _ => rfl) ((hposc.tendsto C₀).comp hZl)) (by
      filter_upwards [hlrot] with E hE
      exact (hrig E hE).1)
  have hfree := free_nearby k.robot scene (l := l) (qs := [t1, t2, t3, t4, t5, t6])
    (q := [q1, q2, q3, q4, q5, q6])
    (.cons T1 (.cons T2 (.cons T3 (.cons T4 (.cons T5 (.cons T6 .nil)))))) h1 h2
  have g1 : ∀ᶠ E in l, a1 + a2 * Real.cos (t2 E) + d4 * Real.sin (t2 E + t3 E) ≠ 0 := by
    refine Tendsto.eventually_ne ?_ hr.1
    exact ((tendsto_const_nhds).add ((Real.continuous_cos.tendsto q2).comp T2 |>.const_mul a2)).add
      (((Real.continuous_sin.tendsto (q2 + q3)).comp (T2.add T3)).const_mul d4)
  have g3 : ∀ᶠ E in l, |Real.sin (t3 E)| < 1 - 1 / 10 ^ 6 :=
    Tendsto.eventually_lt_const hr.2.1 (((Real.continuous_sin.tendsto q3).comp T3).abs)
  have g5 : ∀ᶠ E in l, Real.sin (t5 E) ≠ 0 :=
    Tendsto.eventually_ne ((Real.continuous_sin.tendsto q5).comp T5) hr.2.2
  refine ⟨R₀, hT₀.1, t1, t2, t3, t4, t5, t6, T1, T2, T3, T4, T5, T6, ?_⟩
  filter_upwards [hE, hfree, g1, g3, g5, hlrot] with E e1 e2 e3 e4 e5 e6
  rw [mkTf_parts (hrig E e6).2] at e1
  refine ⟨?_, (touches_free boxOracle (r := k.robot) rfl scene _).2 e2, e3, e4, e5⟩
  rw [fkSatisfies_iff _ _ (setup_known a1 a2 d4 d6 n base tool) _ (le_refl _)]
  change base * chain (kukaRobot a1 a2 d4 d6).links _ * tipOf tool = _
  rw [e1, hback]

/-- The rotations near the one of a free configuration have free configurations, which `ik` finds. -/
theorem kuka_good [Zeros] {a1 a2 d4 d6 : ℝ} (ha : a2 * d4 ≠ 0) (n : Nat) {base : M4}
    (hb : IsRigid base) (tool : Option (Tool Shape)) (htt : ∀ t, tool = some t → IsRigid t.tfTT)
    (scene : Collection Shape) {p : V3} {q1 q2 q3 q4 q5 q6 : ℝ}
    (hf : FkSatisfies boxOracle (setup (Kuka.new a1 a2 d4 d6 n) base tool).robot
      [q1, q2, q3, q4, q5, q6] (fun T => posPart T = p))
    (h1 : ¬ SceneTouch boxOracle (setup (Kuka.new a1 a2 d4 d6 n) base tool).robot
      [q1, q2, q3, q4, q5, q6] scene)
    (h2 : ¬ SelfTouch boxOracle (setup (Kuka.new a1 a2 d4 d6 n) base tool).robot
      [q1, q2, q3, q4, q5, q6])
    (hr : KukaRegular a1 a2 d4 q2 q3 q5) :
    ∃ G ⊆ goodDraws (kukaSols a1 a2 d4 (setup (Kuka.new a1 a2 d4 d6 n) base tool).robot)
      (touches boxOracle (setup (Kuka.new a1 a2 d4 d6 n) base tool).robot scene) p,
      MeasurableSet G ∧ drawLaw G ≠ 0 := by
  obtain ⟨R₀, hR₀, t1, t2, t3, t4, t5, t6, -, -, -, -, -, -, hev⟩ :=
    kuka_follows ha n hb tool htt scene hf h1 h2 hr
  refine likely (P := fun T => ∃ sols q,
    kukaSols a1 a2 d4 (setup (Kuka.new a1 a2 d4 d6 n) base tool).robot T = some sols ∧ q ∈ sols ∧
      touches boxOracle (setup (Kuka.new a1 a2 d4 d6 n) base tool).robot scene q = false) hR₀ ?_
  filter_upwards [hev] with E e
  obtain ⟨e1, e2, e3, e4, e5⟩ := e
  obtain ⟨sols, s1, s2, s3, s4, s5, s6, hsol, hmem, m1, m2, m3, m4, m5, m6⟩ :=
    kukaSols_complete boxOracle ha n hb tool htt e1 e3 e4.le e5
  refine ⟨sols, _, hsol, hmem, ?_⟩
  rw [touches_congr boxOracle (q' := [t1 E, t2 E, t3 E, t4 E, t5 E, t6 E])]
  · exact e2
  · simp only [setup, Kuka.new, kukaRobot, Robot.new, List.zipWith_cons_cons, List.zipWith_nil_left]
    rw [dhOf_sameAngle rfl m1, dhOf_sameAngle rfl m2, dhOf_sameAngle rfl m3,
      dhOf_sameAngle rfl m4, dhOf_sameAngle rfl m5, dhOf_sameAngle rfl m6]

/-- **C142** for a Kuka with any base and tool among boxes: if every point of the path can be reached,
in some orientation, by a configuration that touches neither a box nor the robot itself and is not
singular, then the probability that `solve(robot, "grid")` fails falls exponentially with the number of
samples, and almost surely it succeeds from some number of samples on. -/
theorem C142_kuka [Zeros] {C O : Type} [CostArith C] [JointArith ℝ C] {a1 a2 d4 d6 : ℝ}
    (ha : a2 * d4 ≠ 0) (n : Nat) {base : M4} (hb : IsRigid base) (tool : Option (Tool Shape))
    (htt : ∀ t, tool = some t → IsRigid t.tfTT) (scene : Collection Shape) {pq : PQ C Config}
    (hl : Lawful pq) (hno : PyGraph.NoOverflow C)
    (hfin : ∀ (w : List ℝ) (x y : Config), stepCost C w x y < ⊤) (conv : ℝ → ℝ)
    (draws : Nat → Nat → Draws) (time : Nat → ℝ) (fuel : Nat)
    (optimal : List PathPt → Collection Shape → Nat → List (List ℝ) →
      Run (RState × RState × Mem) O) {ps : List V3} (hne : ps ≠ []) :
    let k := setup (Kuka.new a1 a2 d4 d6 n) base tool
    let Solves := fun (ω : Nat × Nat → ℝ × ℝ × ℝ) (m : Nat) => ∃ path c, Returns (KukaOK n)
      (PlanningTask.solve (freeTask ps scene m) (kukaRef boxOracle k).toArm pq conv
        (withRandom draws ω) time fuel optimal (some "grid")) (.plan ⟨true, some path, some c⟩)
    (∀ p ∈ ps, ∃ q1 q2 q3 q4 q5 q6 : ℝ,
      FkSatisfies boxOracle k.robot [q1, q2, q3, q4, q5, q6] (fun T => posPart T = p) ∧
      ¬ SceneTouch boxOracle k.robot [q1, q2, q3, q4, q5, q6] scene ∧
      ¬ SelfTouch boxOracle k.robot [q1, q2, q3, q4, q5, q6] ∧ KukaRegular a1 a2 d4 q2 q3 q5) →
    (∃ u : ℝ≥0∞, u ≠ 0 ∧ ∀ m, allDraws {ω | ¬ Solves ω m} ≤ ps.length * (1 - u) ^ m) ∧
      ∀ᵐ ω ∂allDraws, ∃ m₀, ∀ m ≥ m₀, Solves ω m := by
  intro k Solves hex
  have hG : ∃ u : ℝ≥0∞, u ≠ 0 ∧ ∀ p ∈ ps, ∃ G ⊆ goodDraws (kukaSols a1 a2 d4 k.robot)
      (touches boxOracle k.robot scene) p, MeasurableSet G ∧ u ≤ drawLaw G := by
    clear hne
    induction ps with
    | nil => exact ⟨1, one_ne_zero, by simp⟩
    | cons p ps ih =>
      obtain ⟨u, hu, hG⟩ := ih fun p hp => hex p (by simp [hp])
      obtain ⟨q1, q2, q3, q4, q5, q6, e1, e2, e3, e4⟩ := hex p (by simp)
      obtain ⟨G, f1, f2, f3⟩ := kuka_good ha n hb tool htt scene e1 e2 e3 e4
      refine ⟨min u (drawLaw G), (lt_min (pos_iff_ne_zero.2 hu) (pos_iff_ne_zero.2 f3)).ne', ?_⟩
      intro p' hp'
      rcases List.mem_cons.1 hp' with rfl | hp'
      · exact ⟨G, f1, f2, min_le_right _ _⟩
      · obtain ⟨G', g1, g2, g3⟩ := hG p' hp'
        exact ⟨G', g1, g2, (min_le_left _ _).trans g3⟩
  obtain ⟨u, hu, hG⟩ := hG
  have hdet := kuka_determined boxOracle a1 a2 d4 d6 n base tool scene
  exact ⟨⟨u, hu, C142_rate hdet hl hno (fun x y => hfin _ x y) conv draws time fuel optimal hne hG⟩,
    C142_almost_surely hdet hl hno (fun x y => hfin _ x y) conv draws time fuel optimal hne hu hG⟩

/-! ## A concrete case -/

/-- The arm at `q0` of the tests is free among the second objects of the tests. -/
theorem q0_free : ¬ SceneTouch boxOracle shippedKuka testQ0 testObj2 ∧
    ¬ SelfTouch boxOracle shippedKuka testQ0 := by
  obtain ⟨b, h1, h2⟩ := C33_answer boxOracle shippedKuka shipped_known rfl (Or.inl rfl) [] (by simp)
    testQ0 (le_refl _) testObj2
  have := (q0_objects [] (by simp)).2
  rw [this] at h1
  cases h1
  have h3 := fun h => Bool.false_ne_true (h2.2 h)
  exact ⟨fun h => h3 (.inl h), fun h => h3 (.inr ⟨rfl, h⟩)⟩

/-- The stock Kuka among the second objects of the tests: there is a point to which this applies,
twice in a row.  The arm at `q0` has a straight wrist, but it can be bent a little. -/
example [Zeros] (draws : Nat → Nat → Draws) (time : Nat → ℝ) : ∃ p : V3,
    ∀ᵐ ω ∂allDraws, ∃ m₀, ∀ m ≥ m₀, ∃ path, ∃ c : WithTop ℝ, Returns (KukaOK 0)
      (PlanningTask.solve (freeTask [p, p] testObj2 m)
        (kukaRef boxOracle (setup (Kuka.new 0.18 0.6 0.62 0.115 0) 1 none)).toArm
        (stdHeap : PQ (WithTop ℝ) Config) id (withRandom draws ω) time 0 (fun _ _ _ _ => pure ())
        (some "grid")) (.plan ⟨true, some path, some c⟩) := by
  have hT : Tendsto (fun x : ℝ => x) (𝓝[>] 0) (𝓝 0) := tendsto_id.mono_left nhdsWithin_le_nhds
  have hc : ∀ a : ℝ, Tendsto (fun _ : ℝ => a) (𝓝[>] 0) (𝓝 a) := fun a => tendsto_const_nhds
  have hfree := free_nearby shippedKuka testObj2 (l := 𝓝[>] (0 : ℝ))
    (qs := [fun _ => 0, fun _ => Real.pi / 2, fun _ => 0, fun _ => 0, fun x => x, fun _ => 0])
    (q := testQ0) (.cons (hc _) (.cons (hc _) (.cons (hc _) (.cons (hc _) (.cons hT
      (.cons (hc _) .nil)))))) q0_free.1 q0_free.2
  have hsmall : ∀ᶠ x : ℝ in 𝓝[>] 0, x ∈ Set.Ioo (0 : ℝ) 1 := Ioo_mem_nhdsGT one_pos
  obtain ⟨x, ⟨h1, h2⟩, h3⟩ := (hfree.and hsmall).exists
  have hx : Real.sin x ≠ 0 :=
    (Real.sin_pos_of_pos_of_lt_pi h3.1 (by linarith [Real.two_le_pi, h3.2])).ne'
  let k := setup (Kuka.new 0.18 0.6 0.62 0.115 0) 1 none
  refine ⟨posPart (k.robot.tfBase * chain k.robot.links [0, Real.pi / 2, 0, 0, x, 0] * tip k.robot),
    (C142_kuka (by norm_num) 0 IsRigid.one none (by simp) testObj2 stdHeapLawful noOverflow_real
      stepCost_real id draws time 0 (fun _ _ _ _ => pure ()) (by simp) ?_).2⟩
  intro p hp
  simp only [List.mem_cons, List.not_mem_nil, or_false, or_self] at hp
  subst hp
  refine ⟨0, Real.pi / 2, 0, 0, x, 0, ?_, h1, h2, ?_, by norm_num, hx⟩
  · rw [fkSatisfies_iff _ _ (setup_known _ _ _ _ _ _ _) _ (le_refl _)]
  · norm_num

end

end Verif.Props
