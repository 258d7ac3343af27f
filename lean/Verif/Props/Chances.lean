import Verif.Props.AlmostEnds

/-!
# Scripts that may find a path: tool_first_cc.py (C115), iterative_grid_refining.py (C116), any number
of samples (C142)

A planner that draws a fixed number of orientations can miss.  When every point can be reached it
finds a path with positive probability, whatever that number.
-/

set_option linter.unusedSectionVars false

namespace Verif.Props

open MeasureTheory Matrix Verif Verif.Path Verif.Geometry Verif.Kin Verif.ShortestPath Verif.Task
  Verif.CppGraph Verif.Search Verif.Planning Verif.Spec Verif.Util Verif.Resources Verif.Examples
open scoped ENNReal

noncomputable section

variable {D W S O : Type} [CostArith D] [JointArith ℝ D] {Inv : W → Prop} {arm : Arm W S}
  {scene : Collection S} {ikf : M4 → Option (List Config)} {hit : Config → Bool} {d : Nat}

/-- With positive probability the first draw at every point is in the set given for the point. -/
theorem first_hits {n : Nat} {G : Fin n → Set (ℝ × ℝ × ℝ)} (hG : ∀ i, MeasurableSet (G i))
    (hpos : ∀ i, drawLaw (G i) ≠ 0) :
    allDraws {ω | ∀ i : Fin n, ω (i, 0) ∈ G i} ≠ 0 := by
  classical
  let B : Nat × Nat → Set (ℝ × ℝ × ℝ) := fun k => if h : k.1 < n then G ⟨k.1, h⟩ else Set.univ
  have hBi : ∀ (i : Nat) (hi : i < n), B (i, 0) = G ⟨i, hi⟩ := fun i hi => dif_pos hi
  have e : {ω : Nat × Nat → ℝ × ℝ × ℝ | ∀ i : Fin n, ω (i, 0) ∈ G i} =
      Set.pi (((Finset.range n).map ⟨fun i => (i, 0), fun a b h => (Prod.mk.inj h).1⟩ :
        Finset (Nat × Nat)) : Set (Nat × Nat)) B := by
    ext ω
    simp only [Set.mem_setOf_eq, Set.mem_pi, Finset.coe_map, Set.mem_image, Finset.mem_coe,
      Finset.mem_range, Function.Embedding.coeFn_mk, forall_exists_index, and_imp,
      forall_apply_eq_imp_iff₂]
    constructor
    · intro h i hi
      change ω (i, 0) ∈ B (i, 0)
      rw [hBi i hi]
      exact h ⟨i, hi⟩
    · intro h i
      rw [← hBi i i.2]
      exact h i i.2
  have hB : ∀ k ∈ (Finset.range n).map ⟨fun i => (i, 0), fun a b h => (Prod.mk.inj h).1⟩,
      MeasurableSet (B k) := by
    intro k _
    by_cases h : k.1 < n
    · simpa [B, h] using hG _
    · simp [B, h]
  rw [e, allDraws, Measure.infinitePi_pi _ hB, Finset.prod_ne_zero_iff]
  intro k hk
  obtain ⟨i, hi, rfl⟩ := Finset.mem_map.1 hk
  have hi' := Finset.mem_range.1 hi
  change drawLaw (B (i, 0)) ≠ 0
  rw [hBi i hi']
  exact hpos ⟨i, hi'⟩

/-- With positive probability a single sample per point is enough. -/
theorem solvable_chance (draws : Nat → Nat → Draws) {ps : List V3} {u : ℝ≥0∞} (hu : u ≠ 0)
    (hG : ∀ p ∈ ps, ∃ G ⊆ goodDraws ikf hit p, MeasurableSet G ∧ u ≤ drawLaw G) {n : Nat}
    (hn : 0 < n) : allDraws {ω | Solvable ikf hit (withRandom draws ω 0) ps n} ≠ 0 := by
  have hG' : ∀ i : Fin ps.length, ∃ G ⊆ goodDraws ikf hit ps[i], MeasurableSet G ∧ u ≤ drawLaw G :=
    fun i => hG _ (List.getElem_mem _)
  choose G h1 h2 h3 using hG'
  refine fun h0 => first_hits h2 (fun i => ((pos_iff_ne_zero.2 hu).trans_le (h3 i)).ne') ?_
  refine measure_mono_null ?_ h0
  intro ω hω i p hp
  obtain ⟨hi, rfl⟩ := List.getElem?_eq_some_iff.1 hp
  obtain ⟨sols, q, e1, e2, e3⟩ := h1 ⟨i, hi⟩ (hω ⟨i, hi⟩)
  exact ⟨0, sols, q, hn, e1, e2, e3⟩

/-- **C142**, few samples: if at every point a random orientation has a collision-free solution with
positive probability, then the grid planner succeeds with positive probability, whatever the number of
samples per point, as long as there is one. -/
theorem C142_chance (h : Determined arm scene Inv ikf hit d) {pq : PQ D Config} (hl : Lawful pq)
    (hno : PyGraph.NoOverflow D) (hfin : ∀ x y : Config, stepCost D (effWeights D d []) x y < ⊤)
    (conv : ℝ → ℝ) (draws : Nat → Nat → Draws) (time : Nat → ℝ) (fuel : Nat)
    (optimal : List PathPt → Collection S → Nat → List (List ℝ) → Run W O) {ps : List V3}
    (hne : ps ≠ []) {u : ℝ≥0∞} (hu : u ≠ 0)
    (hG : ∀ p ∈ ps, ∃ G ⊆ goodDraws ikf hit p, MeasurableSet G ∧ u ≤ drawLaw G) {n : Nat}
    (hn : 0 < n) :
    allDraws {ω | ∃ path c, Returns Inv (PlanningTask.solve (freeTask ps scene n) arm pq conv
      (withRandom draws ω) time fuel optimal (some "grid")) (.plan ⟨true, some path, some c⟩)} ≠ 0 := by
  refine fun h0 => solvable_chance draws hu hG hn (measure_mono_null ?_ h0)
  intro ω hs
  obtain ⟨path, c, h1, -⟩ := C66_succeeds h hl hno hfin (freeTask ps scene n) rfl
    (by simpa [freeTask, PlanningTask.new] using hne) conv (withRandom draws ω) time fuel optimal
    (freeFrames_samples _ ps scene n) (Solvable.frames hs)
  exact ⟨path, c, h1⟩

/-! ## How many rounds on average -/

/-- The mean of a waiting time from its tail. -/
theorem mean_of_tail {Ω : Type} [MeasurableSpace Ω] (μ : Measure Ω) {E : Ω → Nat → Prop}
    (hmono : ∀ ω a b, a ≤ b → E ω a → E ω b) (B : Nat) {K u : ℝ≥0∞} (hu : u ≤ 1) (hB : 0 < B)
    (htail : ∀ m, μ {ω | ¬ E ω (B * m)} ≤ K * (1 - u) ^ m) :
    ∃ T : Ω → ℝ≥0∞, Measurable T ∧ ∫⁻ ω, T ω ∂μ ≤ B * K / u ∧ ∀ ω (N : Nat), T ω ≤ N → E ω N := by
  classical
  refine ⟨fun ω => ∑' m : Nat, (toMeasurable μ {ω | ¬ E ω (B * m)}).indicator (fun _ => (B : ℝ≥0∞)) ω,
    ?_, ?_, ?_⟩
  · exact Measurable.ennreal_tsum fun m => measurable_const.indicator (measurableSet_toMeasurable _ _)
  · rw [lintegral_tsum fun m =>
      (measurable_const.indicator (measurableSet_toMeasurable _ _)).aemeasurable]
    calc ∑' m : Nat, ∫⁻ ω, (toMeasurable μ {ω | ¬ E ω (B * m)}).indicator (fun _ => (B : ℝ≥0∞)) ω ∂μ
        ≤ ∑' m : Nat, B * K * (1 - u) ^ m := by
          refine ENNReal.tsum_le_tsum fun m => ?_
          rw [lintegral_indicator_const (measurableSet_toMeasurable _ _), measure_toMeasurable, mul_assoc]
          exact mul_le_mul_right (htail m) _
      _ = B * K / u := by
          rw [ENNReal.tsum_mul_left, ENNReal.tsum_geometric,
            ENNReal.sub_sub_cancel ENNReal.one_ne_top hu, ENNReal.div_eq_inv_mul, mul_comm]
  · intro ω N hT
    by_contra hN
    have hsum : ∑ m ∈ Finset.range (N / B + 1),
        (toMeasurable μ {ω | ¬ E ω (B * m)}).indicator (fun _ => (B : ℝ≥0∞)) ω ≤ N :=
      (ENNReal.sum_le_tsum _).trans hT
    have hall : ∀ m ∈ Finset.range (N / B + 1),
        (toMeasurable μ {ω | ¬ E ω (B * m)}).indicator (fun _ => (B : ℝ≥0∞)) ω = B := by
      intro m hm
      have hm' : m ≤ N / B := Nat.le_of_lt_succ (Finset.mem_range.1 hm)
      have hle : B * m ≤ N := (Nat.mul_le_mul_left _ hm').trans (Nat.mul_div_le _ _)
      have hnot : ω ∈ {ω | ¬ E ω (B * m)} := fun h => hN (hmono ω _ _ hle h)
      exact Set.indicator_of_mem (subset_toMeasurable _ _ hnot) _
    rw [Finset.sum_congr rfl hall, Finset.sum_const, Finset.card_range, nsmul_eq_mul] at hsum
    have h' : (N / B + 1) * B ≤ N := by exact_mod_cast hsum
    have h2 := Nat.lt_div_mul_add (a := N) hB
    rw [Nat.add_mul, one_mul] at h'
    omega

/-- **C146**, on average: if at every point a random orientation has a collision-free solution with
probability `u` or more, then there is a number of rounds after which
`solve(robot, "grid_incremental")` has ended, whose mean is at most `2500 * (number of points) / u`. -/
theorem C146_mean (h : Determined arm scene Inv ikf hit d) {pq : PQ D Config} (hl : Lawful pq)
    (hno : PyGraph.NoOverflow D) (hfin : ∀ x y : Config, stepCost D (effWeights D d []) x y < ⊤)
    (conv : ℝ → ℝ) (draws : Nat → Nat → Draws) (time : Nat → ℝ)
    (optimal : List PathPt → Collection S → Nat → List (List ℝ) → Run W O) {t : PlanningTask S}
    (ht : t.scene = some scene) {ps : List V3} (hp : t.path = ps.map fun p => .free (.new p))
    (hne : ps ≠ []) {u : ℝ≥0∞}
    (hG : ∀ p ∈ ps, ∃ G ⊆ goodDraws ikf hit p, MeasurableSet G ∧ u ≤ drawLaw G) :
    ∃ T : (Nat × Nat → ℝ × ℝ × ℝ) → ℝ≥0∞, Measurable T ∧
      ∫⁻ ω, T ω ∂allDraws ≤ 2500 * ps.length / u ∧
      ∀ ω (N : Nat), T ω ≤ N →
        EndsWithin arm Inv ikf hit pq conv time optimal t ps (roundRandom draws ω) N := by
  have hu : u ≤ 1 := by
    obtain ⟨p, hp⟩ := List.exists_mem_of_ne_nil _ hne
    obtain ⟨G, -, -, h3⟩ := hG p hp
    exact h3.trans prob_le_one
  obtain ⟨T, h1, h2, h3⟩ := mean_of_tail allDraws
    (E := fun ω N => EndsWithin arm Inv ikf hit pq conv time optimal t ps (roundRandom draws ω) N)
    (by
      rintro ω a b hab ⟨path, c, e1, e2, e3⟩
      refine ⟨path, c, e1, fun i x hx => ?_, fun fuel hf => e3 fuel (hab.trans hf)⟩
      obtain ⟨p, f1, k, f2, f3⟩ := e2 i x hx
      exact ⟨p, f1, k, lt_of_lt_of_le f2 hab, f3⟩) 50 hu (by norm_num)
    (C146_rate h hl hno hfin conv draws time optimal ht hp hne hG)
  refine ⟨T, h1, h2.trans (le_of_eq ?_), h3⟩
  push_cast
  ring_nf

/-! ## Over a table -/

/-- Above anything that is beyond 50 cm and lower than 19 cm, the points of the line can be reached. -/
theorem table_reached (n : Nat) {scene : Collection Shape}
    (hs : ∀ j, ∀ x ∈ wallPoints scene j, 0.5 < x 0 ∧ x 2 < 0.19) {y : ℝ} (hy : |y| ≤ 0.2) :
    KukaReaches 0.18 0.6 0.62 0.115 n 1 none scene ![0.8, y, 0.2] := by
  obtain ⟨q1, q2, q3, q5, h1, ⟨r1, r2, r3⟩, h2⟩ := over_table hy
  have hfar : act (frameOf scriptKuka.robot [q1, q2, q3, 0, q5, 0] 5) 0 = ![0.8, y, 0.2] := h1
  have e0 : ∀ T : M4, posPart T = act T 0 := fun T => by simp [act]
  refine ⟨q1, q2, q3, 0, q5, 0, ?_, ?_, ?_, r1, lt_of_le_of_lt r2 (by norm_num), r3⟩
  · rw [fkSatisfies_iff _ _ (setup_known 0.18 0.6 0.62 0.115 n 1 none) _ (le_refl _)]
    change posPart (scriptKuka.robot.tfBase * chain scriptKuka.robot.links _ * tip scriptKuka.robot) = _
    rw [← script_frame rfl, e0, h1]
  · rintro (⟨base, h, -⟩ | ⟨i, li, hi, h⟩ | ⟨tool, h, -⟩)
    · cases h
    · obtain ⟨x, hx, j, hj⟩ := touch_wall scriptKuka.robot _ hi h
      obtain ⟨w0, w2⟩ := hs j x hj
      rcases h2 i x hx with h | h <;> linarith
    · cases h
  · refine far_not_self scriptKuka.robot rfl IsRigid.one rfl (le_refl _) ?_
    change 0.8 ≤ gap _ _
    refine le_trans ?_ (coord_le_gap _ _ 0)
    rw [e0 (frameOf _ _ _), h1]
    change 0.8 ≤ |(posPart (1 : M4)) 0 - 0.8|
    simp [posPart]
    norm_num

theorem toolFirst_low (j : Nat) : ∀ x ∈ wallPoints toolFirstScene j, 0.5 < x 0 ∧ x 2 < 0.19 := by
  intro x hx
  obtain ⟨h0, -, h2⟩ := (C115_scene.1 x).1 ⟨j, hx⟩
  rw [abs_le] at h0 h2
  constructor <;> linarith

theorem scene1_low (j : Nat) : ∀ x ∈ wallPoints scene1 j, 0.5 < x 0 ∧ x 2 < 0.19 := by
  intro x hx
  obtain ⟨h0, -, -, h2⟩ := (C92_scenes x).1.1 ⟨j, hx⟩
  rw [abs_le] at h0
  constructor <;> linarith

/-- **C115**: with positive probability tool_first_cc.py, with the robot of the script and whatever was
done with it before, finds a path. -/
theorem C115_chance [Zeros] (n : Nat) {pq : PQ D Config} (hl : Lawful pq) (hno : PyGraph.NoOverflow D)
    (hfin : ∀ (w : List ℝ) (x y : Config), stepCost D w x y < ⊤) (conv : ℝ → ℝ)
    (draws : Nat → Nat → Draws) :
    let k := setup (Kuka.new 0.18 0.6 0.62 0.115 n) 1 none
    let Finds := fun ω : Nat × Nat → ℝ × ℝ × ℝ => ∃ path : List Config,
      Returns (KukaOK n) (toolFirst (kukaRef boxOracle k).toArm pq conv (withRandom draws ω 0))
        (some path) ∧ path.length = 5 ∧
      ∀ (i : Nat) (x : Config), path[i]? = some x → ∃ j < 1000, ∃ sols q,
        kukaSols 0.18 0.6 0.62 k.robot (freeFrame (ω (i, j)) (linePoint i)) = some sols ∧ q ∈ sols ∧
        ¬ SceneTouch boxOracle k.robot q toolFirstScene ∧ ¬ SelfTouch boxOracle k.robot q ∧
        x = q.map conv
    allDraws {ω | Finds ω} ≠ 0 := by
  intro k Finds
  obtain ⟨u, hu, hG⟩ := kuka_common (a1 := 0.18) (a2 := 0.6) (d4 := 0.62) (d6 := 0.115) (by norm_num) n
    IsRigid.one none (by simp) toolFirstScene (ps := (List.range 5).map linePoint) (by
      intro p hp
      obtain ⟨i, hi, rfl⟩ := List.mem_map.1 hp
      obtain ⟨h0, h1, h2⟩ := C115_scene.2.2 i (List.mem_range.1 hi)
      have e : linePoint i = ![0.8, linePoint i 1, 0.2] := by
        funext j
        fin_cases j
        · exact h0
        · rfl
        · exact h2
      rw [e]
      exact table_reached n toolFirst_low h1)
  have key : ∀ ω, Solvable (kukaSols 0.18 0.6 0.62 k.robot) (touches boxOracle k.robot toolFirstScene)
      (withRandom draws ω 0) ((List.range 5).map linePoint) 1000 → Finds ω := by
    intro ω hs
    obtain ⟨path, h1, h2, h3⟩ := (C115_run (kuka_determined boxOracle 0.18 0.6 0.62 0.115 n 1 none
      toolFirstScene) hl hno (fun x y => hfin _ x y) conv (withRandom draws ω 0)).2 fun i hi => by
        obtain ⟨j, sols, q, hj, e1, e2, e3⟩ := hs i (linePoint i) (by simp [hi])
        exact ⟨q, j, hj, sols, e1, e2, e3⟩
    refine ⟨path, h1, h2, fun i x hx => ?_⟩
    obtain ⟨q, ⟨j, hj, sols, e1, e2, e3⟩, rfl⟩ := h3 i x hx
    obtain ⟨f1, f2⟩ := (touches_free boxOracle (r := k.robot) rfl toolFirstScene _).1 e3
    exact ⟨j, hj, sols, q, e1, e2, f1, f2, rfl⟩
  exact fun h0 => solvable_chance draws hu hG (n := 1000) (by norm_num) (measure_mono_null key h0)

/-- **C116**: with the published pyquaternion and the robot of the script, iterative_grid_refining.py
gets through its first round with positive probability, and then raises AttributeError. -/
theorem C116_chance [Zeros] (n : Nat) {pq : PQ D Config} (hl : Lawful pq) (hno : PyGraph.NoOverflow D)
    (hfin : ∀ (w : List ℝ) (x y : Config), stepCost D w x y < ⊤) (conv : ℝ → ℝ)
    {draws : Nat → Nat → Draws} (hdr : ∀ k i, (draws k i).near = none) (time : Nat → ℝ) :
    let k := setup (Kuka.new 0.18 0.6 0.62 0.115 n) 1 none
    allDraws {ω | Raises (KukaOK n) (iterativeGridRefining (kukaRef boxOracle k).toArm pq conv
      (withRandom draws ω) time) (.py .attributeError)} ≠ 0 := by
  intro k
  obtain ⟨u, hu, hG⟩ := kuka_common (a1 := 0.18) (a2 := 0.6) (d4 := 0.62) (d6 := 0.115) (by norm_num) n
    IsRigid.one none (by simp) scene1 (ps := (List.range 15).map tablePoint) (by
      intro p hp
      obtain ⟨i, hi, rfl⟩ := List.mem_map.1 hp
      have hi' : ((i : Nat) : ℝ) ≤ 14 := by exact_mod_cast Nat.le_of_lt_succ (List.mem_range.1 hi)
      have h0 : (0 : ℝ) ≤ ((i : Nat) : ℝ) := Nat.cast_nonneg _
      have e : tablePoint i = ![0.8, (tablePoint i) 1, 0.2] := by
        funext j
        fin_cases j
        · simp [tablePoint, onLine]
        · rfl
        · simp [tablePoint, onLine]
      rw [e]
      refine table_reached n scene1_low ?_
      simp only [tablePoint, onLine, Matrix.cons_val]
      rw [abs_le]
      constructor <;> norm_num <;> linarith)
  have key : ∀ ω, Solvable (kukaSols 0.18 0.6 0.62 k.robot) (touches boxOracle k.robot scene1)
      (withRandom draws ω 0) ((List.range 15).map tablePoint) 500 →
      Raises (KukaOK n) (iterativeGridRefining (kukaRef boxOracle k).toArm pq conv (withRandom draws ω)
        time) (.py .attributeError) := by
    intro ω hs
    have hstock := C116_stock (kuka_determined boxOracle 0.18 0.6 0.62 0.115 n 1 none scene1)
      (fun q hq => robotFk_returns (kuka_regular 0.18 0.6 0.62 0.115 n 1 none) hq
        fun v : RState × Mem => WF 3 v.1 ∧ n < v.2.length)
      (fun q => (IsRigid.one.mul (chain_rigid _ _)).mul IsRigid.one) hl hno (fun x y => hfin _ x y) conv
      (draws := withRandom draws ω) (fun a b => hdr a b) time
    refine hstock.2 fun i hi => ?_
    obtain ⟨j, sols, q, hj, e1, e2, e3⟩ := hs i (tablePoint i) (by simp [hi])
    exact ⟨q, j, hj, sols, e1, e2, e3⟩
  exact fun h0 => solvable_chance draws hu hG (n := 500) (by norm_num) (measure_mono_null key h0)

/-! ## Cases -/

/-- A case of `C142_chance`: the stock Kuka, one sample at each of two points over the table. -/
example [Zeros] (draws : Nat → Nat → Draws) (time : Nat → ℝ) :
    allDraws {ω | ∃ path c, Returns (KukaOK 0) (PlanningTask.solve
      (freeTask [![0.8, 0.1, 0.2], ![0.8, -0.2, 0.2]] scene1 1)
      (kukaRef boxOracle (setup (Kuka.new 0.18 0.6 0.62 0.115 0) 1 none)).toArm
      (stdHeap : PQ (WithTop ℝ) Config) id (withRandom draws ω) time 0
      (fun _ _ _ _ => (pure () : Run (RState × RState × Mem) Unit)) (some "grid"))
      (.plan ⟨true, some path, some c⟩)} ≠ 0 := by
  obtain ⟨u, hu, hG⟩ := kuka_common (a1 := 0.18) (a2 := 0.6) (d4 := 0.62) (d6 := 0.115) (by norm_num) 0
    IsRigid.one none (by simp) scene1 (ps := [![0.8, 0.1, 0.2], ![0.8, -0.2, 0.2]]) (by
      intro p hp
      simp only [List.mem_cons, List.not_mem_nil, or_false] at hp
      rcases hp with rfl | rfl
      · exact table_reached 0 scene1_low (by norm_num)
      · exact table_reached 0 scene1_low (by norm_num))
  exact C142_chance (kuka_determined boxOracle 0.18 0.6 0.62 0.115 0 1 none scene1) stdHeapLawful
    noOverflow_real (fun x y => stepCost_real _ x y) id draws time 0 _ (by simp) hu hG (n := 1) one_pos

/-- A case of `C146_mean`: for the stock Kuka and two points over the table the mean is finite. -/
example [Zeros] (draws : Nat → Nat → Draws) (time : Nat → ℝ) : ∃ T, Measurable T ∧
    ∫⁻ ω, T ω ∂allDraws ≠ ⊤ ∧ ∀ ω (N : Nat), T ω ≤ N →
    EndsWithin (kukaRef boxOracle (setup (Kuka.new 0.18 0.6 0.62 0.115 0) 1 none)).toArm (KukaOK 0)
      (kukaSols 0.18 0.6 0.62 (setup (Kuka.new 0.18 0.6 0.62 0.115 0) 1 none).robot)
      (touches boxOracle (setup (Kuka.new 0.18 0.6 0.62 0.115 0) 1 none).robot scene1)
      (stdHeap : PQ (WithTop ℝ) Config) id time
      (fun _ _ _ _ => (pure () : Run (RState × RState × Mem) Unit))
      (PlanningTask.new [.free (.new ![0.8, 0.1, 0.2]), .free (.new ![0.8, -0.2, 0.2])] (some scene1))
      [![0.8, 0.1, 0.2], ![0.8, -0.2, 0.2]] (roundRandom draws ω) N := by
  obtain ⟨u, hu, hG⟩ := kuka_common (a1 := 0.18) (a2 := 0.6) (d4 := 0.62) (d6 := 0.115) (by norm_num) 0
    IsRigid.one none (by simp) scene1 (ps := [![0.8, 0.1, 0.2], ![0.8, -0.2, 0.2]]) (by
      intro p hp
      simp only [List.mem_cons, List.not_mem_nil, or_false] at hp
      rcases hp with rfl | rfl
      · exact table_reached 0 scene1_low (by norm_num)
      · exact table_reached 0 scene1_low (by norm_num))
  obtain ⟨T, h1, h2, h3⟩ := C146_mean (kuka_determined boxOracle 0.18 0.6 0.62 0.115 0 1 none scene1)
    (pq := (stdHeap : PQ (WithTop ℝ) Config)) stdHeapLawful noOverflow_real
    (fun x y => stepCost_real _ x y) id draws time
    (fun _ _ _ _ => (pure () : Run (RState × RState × Mem) Unit))
    (t := PlanningTask.new [.free (.new ![0.8, 0.1, 0.2]), .free (.new ![0.8, -0.2, 0.2])] (some scene1))
    rfl rfl (by simp) hG
  refine ⟨T, h1, (h2.trans_lt ?_).ne, h3⟩
  exact ENNReal.div_lt_top (by simp [ENNReal.mul_eq_top]) hu

/-- A case of `C115_chance` and `C116_chance`: real costs, the heap of the standard library, and the
random numbers of a library without `random_near`. -/
example [Zeros] (time : Nat → ℝ) :=
  And.intro
    (C115_chance 0 (pq := (stdHeap : PQ (WithTop ℝ) Config)) stdHeapLawful noOverflow_real stepCost_real
      id fun _ _ => ⟨fun _ => 0, 0, fun _ => 0, none⟩)
    (C116_chance 0 (pq := (stdHeap : PQ (WithTop ℝ) Config)) stdHeapLawful noOverflow_real stepCost_real
      id (draws := fun _ _ => ⟨fun _ => 0, 0, fun _ => 0, none⟩) (fun _ _ => rfl) time)

end

end Verif.Props
