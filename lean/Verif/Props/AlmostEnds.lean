import Verif.Props.AlmostSure
import Verif.Props.Scripts
import Verif.Props.OverTable
import Verif.Props.SelfClear

/-!
# C146: the incremental planner ends with probability one, or with probability zero

`cart_to_joint_incremental` (planning.py:316-352) draws one random orientation per round until enough
collision-free solutions are found.  Every call of `np.random.random` is independent of the others.
-/

set_option linter.unusedSectionVars false

namespace Verif.Props

open MeasureTheory Matrix Verif Verif.Path Verif.Geometry Verif.Kin Verif.ShortestPath Verif.Task
  Verif.CppGraph Verif.Search Verif.Planning Verif.Spec Verif.Util Verif.SampleSO3 Verif.Examples
  Verif.Resources Filter Topology
open scoped ENNReal

noncomputable section

/-- The planner's draws, with the random numbers `ω`: in round `k` for point `i` one orientation is
drawn. -/
def roundRandom (draws : Nat → Nat → Draws) (ω : Nat × Nat → ℝ × ℝ × ℝ) : Nat → Nat → Draws :=
  fun i k => { draws i k with rnd := fun _ => ω (i, k) }

/-- The draws of a block of rounds at one point all miss a set. -/
theorem block_miss {G : Set (ℝ × ℝ × ℝ)} (hG : MeasurableSet G) {u : ℝ≥0∞} (hu : u ≤ drawLaw G)
    (i a n : Nat) : allDraws {ω | ∀ j < n, ω (i, a + j) ∉ G} ≤ (1 - u) ^ n := by
  have e : {ω : Nat × Nat → ℝ × ℝ × ℝ | ∀ j < n, ω (i, a + j) ∉ G} =
      Set.pi (((Finset.range n).map ⟨fun j => (i, a + j), fun b c h => by
        have := (Prod.mk.inj h).2
        omega⟩ : Finset (Nat × Nat)) : Set (Nat × Nat)) fun _ => Gᶜ := by
    ext ω
    simp only [Set.mem_setOf_eq, Set.mem_pi, Finset.coe_map, Set.mem_image, Finset.mem_coe,
      Finset.mem_range, Function.Embedding.coeFn_mk, forall_exists_index, and_imp,
      forall_apply_eq_imp_iff₂, Set.mem_compl_iff]
    exact Iff.rfl
  rw [e, allDraws, Measure.infinitePi_pi _ fun _ _ => hG.compl, Finset.prod_const, Finset.card_map,
    Finset.card_range, prob_compl_eq_one_sub hG]
  exact pow_le_pow_left' (tsub_le_tsub_left hu 1) n

variable {D W S O : Type} [CostArith D] [JointArith ℝ D] {Inv : W → Prop} {arm : Arm W S}
  {scene : Collection S} {ikf : M4 → Option (List Config)} {hit : Config → Bool} {d : Nat}

theorem foundBy_mono (T : Nat → M4) {a b : Nat} (h : a ≤ b) :
    (foundBy ikf hit T a).length ≤ (foundBy ikf hit T b).length := by
  induction h with
  | refl => exact le_rfl
  | step _ ih =>
    rw [foundBy_succ, List.length_append]
    omega

/-- A round with a collision-free solution counts. -/
theorem foundBy_step {T : Nat → M4} {k : Nat}
    (h : ∃ sols q, ikf (T k) = some sols ∧ q ∈ sols ∧ hit q = false) :
    (foundBy ikf hit T k).length + 1 ≤ (foundBy ikf hit T (k + 1)).length := by
  obtain ⟨sols, q, h1, h2, h3⟩ := h
  rw [foundBy_succ, List.length_append]
  have : q ∈ freeAt ikf hit (T k) := by simp [freeAt, h1, h2, h3]
  have := List.length_pos_of_mem this
  omega

/-- One good round in every block of `n` rounds. -/
theorem foundBy_blocks {T : Nat → M4} {n : Nat} (m : Nat)
    (h : ∀ b < m, ∃ j < n, ∃ sols q, ikf (T (b * n + j)) = some sols ∧ q ∈ sols ∧ hit q = false) :
    m ≤ (foundBy ikf hit T (m * n)).length := by
  induction m with
  | zero => exact Nat.zero_le _
  | succ m ih =>
    have h1 := ih fun b hb => h b (by omega)
    obtain ⟨j, hj, hs⟩ := h m (by omega)
    have h2 := foundBy_mono (ikf := ikf) (hit := hit) T (a := m * n) (b := m * n + j) (by omega)
    have h3 := foundBy_step hs
    have h4 := foundBy_mono (ikf := ikf) (hit := hit) T (a := m * n + j + 1) (b := (m + 1) * n) (by
      rw [Nat.succ_mul]; omega)
    omega

/-- The rounds needed: after `m * n` rounds per point fewer than `m` solutions were found somewhere. -/
theorem few_le (draws : Nat → Nat → Draws) {ps : List V3} {u : ℝ≥0∞}
    (hG : ∀ p ∈ ps, ∃ G ⊆ goodDraws ikf hit p, MeasurableSet G ∧ u ≤ drawLaw G) (m n : Nat) :
    allDraws {ω | ∃ (i : Nat) (p : V3), ps[i]? = some p ∧
      (foundAt ikf hit (roundRandom draws ω) p i (m * n)).length < m} ≤
      (ps.length * m : Nat) * (1 - u) ^ n := by
  have hG' : ∀ i : Fin ps.length, ∃ G ⊆ goodDraws ikf hit ps[i], MeasurableSet G ∧ u ≤ drawLaw G :=
    fun i => hG _ (List.getElem_mem _)
  choose G h1 h2 h3 using hG'
  have hsub : {ω | ∃ (i : Nat) (p : V3), ps[i]? = some p ∧
      (foundAt ikf hit (roundRandom draws ω) p i (m * n)).length < m} ⊆
      ⋃ ib : Fin ps.length × Fin m, {ω | ∀ j < n, ω (ib.1, ib.2 * n + j) ∉ G ib.1} := by
    rintro ω ⟨i, p, hp, hlt⟩
    by_contra hno
    obtain ⟨hi, rfl⟩ := List.getElem?_eq_some_iff.1 hp
    refine absurd (foundBy_blocks m fun b hb => ?_) (Nat.not_le.2 hlt)
    have : ∃ j < n, ω (i, b * n + j) ∈ G ⟨i, hi⟩ := by
      by_contra hc
      push Not at hc
      exact hno (Set.mem_iUnion.2 ⟨(⟨i, hi⟩, ⟨b, hb⟩), hc⟩)
    obtain ⟨j, hj, hm⟩ := this
    obtain ⟨sols, q, e⟩ := h1 ⟨i, hi⟩ hm
    exact ⟨j, hj, sols, q, e⟩
  refine (measure_mono hsub).trans ((measure_iUnion_fintype_le _ _).trans ?_)
  refine (Finset.sum_le_sum fun ib _ => block_miss (h2 ib.1) (h3 ib.1) ib.1 (ib.2 * n) n).trans ?_
  simp

/-- With probability one fifty solutions are found at every point. -/
theorem found_ae (draws : Nat → Nat → Draws) {ps : List V3} {u : ℝ≥0∞} (hu : u ≠ 0)
    (hG : ∀ p ∈ ps, ∃ G ⊆ goodDraws ikf hit p, MeasurableSet G ∧ u ≤ drawLaw G) (m : Nat) :
    ∀ᵐ ω ∂allDraws, ∃ N, ∀ (i : Nat) (p : V3), ps[i]? = some p →
      m ≤ (foundAt ikf hit (roundRandom draws ω) p i N).length := by
  have key : allDraws {ω | ∀ N, ∃ (i : Nat) (p : V3), ps[i]? = some p ∧
      (foundAt ikf hit (roundRandom draws ω) p i N).length < m} = 0 := by
    have hlim : Tendsto (fun n : Nat => ((ps.length * m : Nat) : ℝ≥0∞) * (1 - u) ^ n) atTop (𝓝 0) := by
      have h1 : Tendsto (fun n : Nat => (1 - u) ^ n) atTop (𝓝 0) :=
        ENNReal.tendsto_pow_atTop_nhds_zero_of_lt_one
          (ENNReal.sub_lt_self ENNReal.one_ne_top one_ne_zero hu)
      have := ENNReal.Tendsto.const_mul h1 (a := ((ps.length * m : Nat) : ℝ≥0∞))
        (.inr (ENNReal.natCast_ne_top _))
      rwa [mul_zero] at this
    refine le_antisymm (ge_of_tendsto' hlim fun n => ?_) bot_le
    exact le_trans (measure_mono fun ω hω => hω (m * n)) (few_le draws hG m n)
  filter_upwards [measure_eq_zero_iff_ae_notMem.1 key] with ω hω
  simp only [Set.mem_setOf_eq, not_forall, not_exists, not_and, Nat.not_lt] at hω
  exact hω

/-- The frames tried at the points. -/
theorem free_first (draws : Nat → Nat → Draws) (ps : List V3) :
    ∀ (i : Nat) (tp : PathPt), (ps.map fun p => PathPt.free (.new p))[i]? = some tp →
      FirstSample (draws i) tp (triedFrame draws (ps[i]?.getD 0) i) := by
  intro i tp hi k
  rw [List.getElem?_map, Option.map_eq_some_iff] at hi
  obtain ⟨p, hp, rfl⟩ := hi
  rw [hp]
  exact ⟨[], free_samples _ _ _ _⟩

/-- `solve(robot, "grid_incremental")` ends after at most `N` rounds per point, with a path that has
one configuration per point, each a collision-free solution of a frame tried at that point. -/
def EndsWithin (arm : Arm W S) (Inv : W → Prop) (ikf : M4 → Option (List Config))
    (hit : Config → Bool) (pq : PQ D Config) (conv : ℝ → ℝ) (time : Nat → ℝ)
    (optimal : List PathPt → Collection S → Nat → List (List ℝ) → Run W O) (t : PlanningTask S)
    (ps : List V3) (draws : Nat → Nat → Draws) (N : Nat) : Prop :=
  ∃ (path : List Config) (c : D), path.length = ps.length ∧
    (∀ (i : Nat) (x : Config), path[i]? = some x → ∃ p, ps[i]? = some p ∧ ∃ k < N, ∃ sols q,
      ikf (freeFrame ((draws i k).rnd 0) p) = some sols ∧ q ∈ sols ∧ hit q = false ∧
        x = q.map conv) ∧
    ∀ fuel ≥ N, Returns Inv (PlanningTask.solve t arm pq conv draws time fuel optimal
      (some "grid_incremental")) (.plan ⟨true, some path, some c⟩)

/-- Fifty solutions per point are enough. -/
theorem ends_of (h : Determined arm scene Inv ikf hit d) {pq : PQ D Config} (hl : Lawful pq)
    (hno : PyGraph.NoOverflow D) (hfin : ∀ x y : Config, stepCost D (effWeights D d []) x y < ⊤)
    (conv : ℝ → ℝ) (draws : Nat → Nat → Draws) (time : Nat → ℝ)
    (optimal : List PathPt → Collection S → Nat → List (List ℝ) → Run W O) {t : PlanningTask S}
    (ht : t.scene = some scene) {ps : List V3} (hp : t.path = ps.map fun p => .free (.new p))
    (hne : ps ≠ []) {N : Nat}
    (hN : ∀ (i : Nat) p, ps[i]? = some p → 50 ≤ (foundAt ikf hit draws p i N).length) :
    EndsWithin arm Inv ikf hit pq conv time optimal t ps draws N := by
  classical
  let T := fun i => triedFrame draws (ps[i]?.getD 0) i
  have enough : ∀ n : Nat, Enough 50 1000 n ↔ 50 ≤ n := fun n => by unfold Enough; omega
  have hK : ∀ i, ∃ K, i < ps.length → 1 ≤ K ∧ K ≤ N ∧ Enough 50 1000 (foundBy ikf hit (T i) K).length ∧
      ∀ k, 1 ≤ k → k < K → ¬ Enough 50 1000 (foundBy ikf hit (T i) k).length := by
    intro i
    by_cases hi : i < ps.length
    · have hn := hN i ps[i] (List.getElem?_eq_getElem hi)
      have hT : T i = triedFrame draws ps[i] i := by simp [T, List.getElem?_eq_getElem hi]
      have hex : ∃ k, 1 ≤ k ∧ Enough 50 1000 (foundBy ikf hit (T i) k).length := by
        refine ⟨N, ?_, (enough _).2 (by rw [hT]; exact hn)⟩
        rcases Nat.eq_zero_or_pos N with rfl | h0
        · simp [foundAt, foundBy] at hn
        · exact h0
      refine ⟨Nat.find hex, fun _ => ⟨(Nat.find_spec hex).1, Nat.find_min' hex ⟨?_, ?_⟩,
        (Nat.find_spec hex).2, fun k h1 h2 h3 => Nat.find_min hex h2 ⟨h1, h3⟩⟩⟩
      · rcases Nat.eq_zero_or_pos N with rfl | h0
        · simp [foundAt, foundBy] at hn
        · exact h0
      · exact (enough _).2 (by rw [hT]; exact hn)
    · exact ⟨0, fun h => absurd h hi⟩
  choose K hK using hK
  set samples := (List.range ps.length).map fun (i : Nat) => (List.range (K i)).map (T i) with hs
  have hcols : ((List.range ps.length).map fun i => colOf conv d (foundBy ikf hit (T i) (K i))) =
      samples.map fun Ts => colOf conv d (free ikf hit Ts) := by
    rw [hs, List.map_map]
    refine List.map_congr_left fun i _ => ?_
    rw [foundBy_free]
    rfl
  have hsl : samples.length = ps.length := by simp [hs]
  have hget : ∀ (i : Nat) (Ts : List M4), samples[i]? = some Ts → i < ps.length ∧
      Ts = (List.range (K i)).map (T i) := by
    intro i Ts hi
    rw [hs, List.getElem?_map, Option.map_eq_some_iff] at hi
    obtain ⟨i', hi', rfl⟩ := hi
    obtain ⟨hlt, he⟩ := List.getElem?_eq_some_iff.1 hi'
    rw [List.getElem_range] at he
    rw [List.length_range] at hlt
    subst he
    exact ⟨hlt, rfl⟩
  obtain ⟨path, c, p1, p2, -, p3⟩ := search_columns h hl hno hfin conv (samples := samples)
    (fun he => by
      rw [he] at hsl
      exact hne (List.length_eq_zero_iff.1 hsl.symm)) (fun Ts hTs => by
      obtain ⟨i, hi, rfl⟩ := List.getElem_of_mem hTs
      obtain ⟨hi', e⟩ := hget i _ (List.getElem?_eq_getElem hi)
      have := (enough _).1 (hK i hi').2.2.1
      rw [foundBy_free, ← e] at this
      intro h0
      rw [h0] at this
      simp at this)
  refine ⟨path, c, by rw [p2, hsl], fun i x hx => ?_, fun fuel hf => ?_⟩
  · obtain ⟨Ts, q, e1, e2, rfl⟩ := p3 i x hx
    obtain ⟨hi, rfl⟩ := hget i Ts e1
    rw [← foundBy_free, mem_foundBy] at e2
    obtain ⟨k, hk, sols, f1, f2, f3⟩ := e2
    refine ⟨ps[i], List.getElem?_eq_getElem hi, k, lt_of_lt_of_le hk (hK i hi).2.1, sols, q, ?_, f2, f3,
      rfl⟩
    simpa [T, triedFrame, List.getElem?_eq_getElem hi] using f1
  · have hr := incrementalPath_returns h conv (minSamples := 50) (maxTries := 1000) (fuel := fuel)
      (by norm_num) K t.path 0 (T := T) (draws := draws) (by
        intro j tp hj
        rw [hp] at hj
        rw [Nat.zero_add]
        exact free_first draws ps j tp hj) (by
        intro j hj
        rw [hp, List.length_map] at hj
        rw [Nat.zero_add]
        obtain ⟨k1, k2, k3, k4⟩ := hK j hj
        exact ⟨k1, k2.trans hf, k3, k4⟩) []
    have hr' : Returns Inv (cartToJointIncremental arm conv draws fuel t.path scene 50 1000)
        (samples.map fun Ts => colOf conv d (free ikf hit Ts)) := by
      rw [← hcols]
      simpa [cartToJointIncremental, hp] using hr
    exact (C65_dispatch_partial t ht arm pq conv draws time fuel optimal (Inv := Inv)).2.2.2.1 _ _ hr' p1

/-- **C146**, how fast: if at every point a random orientation has a collision-free solution with
probability `u` or more, then the probability that `solve(robot, "grid_incremental")` needs more than
`50 * n` rounds at some point is at most `50 * (number of points) * (1 - u) ^ n`. -/
theorem C146_rate (h : Determined arm scene Inv ikf hit d) {pq : PQ D Config} (hl : Lawful pq)
    (hno : PyGraph.NoOverflow D) (hfin : ∀ x y : Config, stepCost D (effWeights D d []) x y < ⊤)
    (conv : ℝ → ℝ) (draws : Nat → Nat → Draws) (time : Nat → ℝ)
    (optimal : List PathPt → Collection S → Nat → List (List ℝ) → Run W O) {t : PlanningTask S}
    (ht : t.scene = some scene) {ps : List V3} (hp : t.path = ps.map fun p => .free (.new p))
    (hne : ps ≠ []) {u : ℝ≥0∞}
    (hG : ∀ p ∈ ps, ∃ G ⊆ goodDraws ikf hit p, MeasurableSet G ∧ u ≤ drawLaw G) (n : Nat) :
    allDraws {ω | ¬ EndsWithin arm Inv ikf hit pq conv time optimal t ps (roundRandom draws ω)
      (50 * n)} ≤ (50 * ps.length : Nat) * (1 - u) ^ n := by
  refine le_trans (measure_mono ?_) ((few_le draws hG 50 n).trans (by rw [Nat.mul_comm]))
  intro ω hω
  by_contra hc
  refine hω (ends_of h hl hno hfin conv (roundRandom draws ω) time optimal ht hp hne fun i p hi => ?_)
  by_contra hlt
  exact hc ⟨i, p, hi, Nat.not_le.1 hlt⟩

/-- **C146**: if at every point a random orientation has a collision-free solution with positive
probability, then `solve(robot, "grid_incremental")` ends with probability one, with a path that visits
the points. -/
theorem C146_ends (h : Determined arm scene Inv ikf hit d) {pq : PQ D Config} (hl : Lawful pq)
    (hno : PyGraph.NoOverflow D) (hfin : ∀ x y : Config, stepCost D (effWeights D d []) x y < ⊤)
    (conv : ℝ → ℝ) (draws : Nat → Nat → Draws) (time : Nat → ℝ)
    (optimal : List PathPt → Collection S → Nat → List (List ℝ) → Run W O) {t : PlanningTask S}
    (ht : t.scene = some scene) {ps : List V3} (hp : t.path = ps.map fun p => .free (.new p))
    (hne : ps ≠ []) {u : ℝ≥0∞} (hu : u ≠ 0)
    (hG : ∀ p ∈ ps, ∃ G ⊆ goodDraws ikf hit p, MeasurableSet G ∧ u ≤ drawLaw G) :
    ∀ᵐ ω ∂allDraws, ∃ N, EndsWithin arm Inv ikf hit pq conv time optimal t ps (roundRandom draws ω) N := by
  filter_upwards [found_ae draws hu hG 50] with ω hω
  obtain ⟨N, hN⟩ := hω
  exact ⟨N, ends_of h hl hno hfin conv (roundRandom draws ω) time optimal ht hp hne hN⟩

/-- **C146**, the other side: if at some point no orientation, but for a set of probability zero, has a
collision-free solution, then with probability one the program does not end. -/
theorem C146_never (h : Determined arm scene Inv ikf hit d) (pq : PQ D Config) (conv : ℝ → ℝ)
    (draws : Nat → Nat → Draws) (time : Nat → ℝ)
    (optimal : List PathPt → Collection S → Nat → List (List ℝ) → Run W O) {t : PlanningTask S}
    (ht : t.scene = some scene) {ps : List V3} (hp : t.path = ps.map fun p => .free (.new p))
    (hbad : ∃ p ∈ ps, drawLaw (goodDraws ikf hit p) = 0) :
    ∀ᵐ ω ∂allDraws, ∀ fuel, Raises Inv (PlanningTask.solve t arm pq conv (roundRandom draws ω) time fuel
      optimal (some "grid_incremental")) (.py .outOfFuel) := by
  obtain ⟨p, hmem, h0⟩ := hbad
  obtain ⟨i, hi, rfl⟩ := List.getElem_of_mem hmem
  have hae : ∀ᵐ ω ∂allDraws, ∀ k, ω (i, k) ∉ goodDraws ikf hit ps[i] := by
    rw [ae_all_iff]
    intro k
    have hmp : MeasurePreserving (fun ω : Nat × Nat → ℝ × ℝ × ℝ => ω (i, k)) allDraws drawLaw :=
      measurePreserving_eval_infinitePi _ _
    exact hmp.quasiMeasurePreserving.ae (measure_eq_zero_iff_ae_notMem.1 h0)
  filter_upwards [hae] with ω hω fuel
  have hnone : ∀ k, (foundBy ikf hit (triedFrame (roundRandom draws ω) (ps[i]?.getD 0) i) k).length = 0 := by
    intro k
    rw [List.length_eq_zero_iff, List.eq_nil_iff_forall_not_mem]
    intro q hq
    obtain ⟨j, -, sols, f1, f2, f3⟩ := mem_foundBy.1 hq
    rw [List.getElem?_eq_getElem hi] at f1
    exact hω j ⟨sols, q, f1, f2, f3⟩
  have hr := (C61_exact h conv (minSamples := 50) (maxTries := 1000) (by norm_num) (path := t.path)
    (draws := roundRandom draws ω) (T := fun i => triedFrame (roundRandom draws ω) (ps[i]?.getD 0) i)
    (by rw [hp]; exact free_first _ ps)).2 ⟨i, by rw [hp]; simpa using hi, fun k _ hk => by
      rw [hnone k] at hk
      unfold Enough at hk
      omega⟩ fuel
  unfold PlanningTask.solve
  simp only [Option.getD_some, String.reduceEq, if_false, if_true]
  exact Returns.bind_raises (a := scene) (Returns.lift (by rw [sceneOf, ht])) (Raises.bind hr)

/-- The points that a configuration of the Kuka reaches which touches nothing and is not singular. -/
def KukaReaches (a1 a2 d4 d6 : ℝ) (n : Nat) (base : M4) (tool : Option (Tool Shape))
    (scene : Collection Shape) (p : V3) : Prop :=
  ∃ q1 q2 q3 q4 q5 q6 : ℝ,
    FkSatisfies boxOracle (setup (Kuka.new a1 a2 d4 d6 n) base tool).robot [q1, q2, q3, q4, q5, q6]
      (fun T => posPart T = p) ∧
    ¬ SceneTouch boxOracle (setup (Kuka.new a1 a2 d4 d6 n) base tool).robot
      [q1, q2, q3, q4, q5, q6] scene ∧
    ¬ SelfTouch boxOracle (setup (Kuka.new a1 a2 d4 d6 n) base tool).robot [q1, q2, q3, q4, q5, q6] ∧
    KukaRegular a1 a2 d4 q2 q3 q5

/-- Random orientations at reachable points have solutions with some common probability. -/
theorem kuka_common [Zeros] {a1 a2 d4 d6 : ℝ} (ha : a2 * d4 ≠ 0) (n : Nat) {base : M4}
    (hb : IsRigid base) (tool : Option (Tool Shape)) (htt : ∀ t, tool = some t → IsRigid t.tfTT)
    (scene : Collection Shape) {ps : List V3}
    (hex : ∀ p ∈ ps, KukaReaches a1 a2 d4 d6 n base tool scene p) :
    ∃ u : ℝ≥0∞, u ≠ 0 ∧ ∀ p ∈ ps,
      ∃ G ⊆ goodDraws (kukaSols a1 a2 d4 (setup (Kuka.new a1 a2 d4 d6 n) base tool).robot)
        (touches boxOracle (setup (Kuka.new a1 a2 d4 d6 n) base tool).robot scene) p,
      MeasurableSet G ∧ u ≤ drawLaw G := by
  induction ps with
  | nil => exact ⟨1, one_ne_zero, by simp⟩
  | cons p ps ih =>
    obtain ⟨u, hu, hG⟩ := ih fun p hp => hex p (by simp [hp])
    obtain ⟨q1, q2, q3, q4, q5, q6, e1, e2, e3, e4⟩ := hex p (by simp)
    obtain ⟨G, f1, f2, f3⟩ := kuka_good ha n hb tool htt scene e1 e2 e3 e4
    refine ⟨min u (drawLaw G), (lt_min (pos_iff_ne_zero.2 hu) (pos_iff_ne_zero.2 f3)).ne', ?_⟩
    intro p' hp'
    rcases List.mem_cons.1 hp' with rfl | hp'
    · exact ⟨G, f1, f2, min_le_right _ _⟩
    · obtain ⟨G', g1, g2, g3⟩ := hG p' hp'
      exact ⟨G', g1, g2, (min_le_left _ _).trans g3⟩

/-- **C146** for a Kuka with any base and tool among boxes: if every point of the path can be reached,
in some orientation, by a configuration that touches neither a box nor the robot itself and is not
singular, then the probability that `solve(robot, "grid_incremental")` has not ended falls exponentially
with the number of rounds, and with probability one it ends with a path that visits the points. -/
theorem C146_kuka [Zeros] {a1 a2 d4 d6 : ℝ} (ha : a2 * d4 ≠ 0) (n : Nat) {base : M4}
    (hb : IsRigid base) (tool : Option (Tool Shape)) (htt : ∀ t, tool = some t → IsRigid t.tfTT)
    (scene : Collection Shape) {pq : PQ D Config} (hl : Lawful pq) (hno : PyGraph.NoOverflow D)
    (hfin : ∀ (w : List ℝ) (x y : Config), stepCost D w x y < ⊤) (conv : ℝ → ℝ)
    (draws : Nat → Nat → Draws) (time : Nat → ℝ)
    (optimal : List PathPt → Collection Shape → Nat → List (List ℝ) → Run (RState × RState × Mem) O)
    {t : PlanningTask Shape} (ht : t.scene = some scene) {ps : List V3}
    (hp : t.path = ps.map fun p => .free (.new p)) (hne : ps ≠ [])
    (hex : ∀ p ∈ ps, KukaReaches a1 a2 d4 d6 n base tool scene p) :
    let k := setup (Kuka.new a1 a2 d4 d6 n) base tool
    let Ends := fun (ω : Nat × Nat → ℝ × ℝ × ℝ) (N : Nat) => EndsWithin (kukaRef boxOracle k).toArm
      (KukaOK n) (kukaSols a1 a2 d4 k.robot) (touches boxOracle k.robot scene) pq conv time optimal t ps
      (roundRandom draws ω) N
    (∃ u : ℝ≥0∞, u ≠ 0 ∧ ∀ m, allDraws {ω | ¬ Ends ω (50 * m)} ≤ (50 * ps.length : Nat) * (1 - u) ^ m) ∧
      ∀ᵐ ω ∂allDraws, ∃ N, Ends ω N := by
  intro k Ends
  obtain ⟨u, hu, hG⟩ := kuka_common ha n hb tool htt scene hex
  have hdet := kuka_determined boxOracle a1 a2 d4 d6 n base tool scene
  exact ⟨⟨u, hu, C146_rate hdet hl hno (fun x y => hfin _ x y) conv draws time optimal ht hp hne hG⟩,
    C146_ends hdet hl hno (fun x y => hfin _ x y) conv draws time optimal ht hp hne hu hG⟩

/-! ## follow_line_orientation_free.py -/

theorem touch_wall (r : Robot Shape) (q : List ℝ) {i : Nat} {li : Link Shape}
    (hi : r.links[i]? = some li) {scene : Collection Shape}
    (h : Touch boxOracle li.geometry (frameOf r q i) scene 1) :
    ∃ x ∈ linkBody r q i, ∃ j, x ∈ wallPoints scene j := by
  obtain ⟨m, n, s, s', t, t', h1, h2, h3, h4, h⟩ := h
  obtain ⟨u, hu, v, hv, he⟩ := (boxOracle_iff _ _).1 h
  refine ⟨act (frameOf r q i * t) u, ⟨m, li, s, t, hi, h1, h2, u, hu, rfl⟩, n, s', t', h3, h4, v, hv, ?_⟩
  rw [one_mul] at he
  exact he.symm

/-- The points of the line over the table can be reached. -/
theorem line_reached (n : Nat) {y : ℝ} (hy : |y| ≤ 0.2) :
    KukaReaches 0.18 0.6 0.62 0.115 n 1 none lineScene ![0.8, y, 0.2] := by
  obtain ⟨q1, q2, q3, q5, h1, ⟨r1, r2, r3⟩, h2⟩ := over_table hy
  have hfar : act (frameOf scriptKuka.robot [q1, q2, q3, 0, q5, 0] 5) 0 = ![0.8, y, 0.2] := h1
  refine ⟨q1, q2, q3, 0, q5, 0, ?_, ?_, ?_, r1, lt_of_le_of_lt r2 (by norm_num), r3⟩
  · rw [fkSatisfies_iff _ _ (setup_known 0.18 0.6 0.62 0.115 n 1 none) _ (le_refl _)]
    change posPart (scriptKuka.robot.tfBase * chain scriptKuka.robot.links _ * tip scriptKuka.robot) = _
    rw [← script_frame rfl]
    have e0 : ∀ T : M4, posPart T = act T 0 := fun T => by simp [act]
    rw [e0, h1]
  · rintro (⟨base, h, -⟩ | ⟨i, li, hi, h⟩ | ⟨tool, h, -⟩)
    · cases h
    · obtain ⟨x, hx, j, hj⟩ := touch_wall scriptKuka.robot _ hi h
      obtain ⟨b, hb, hw⟩ := (mem_upright _ _ _).1 hj
      match j, hb with
      | 0, hb =>
        cases hb
        have w0 := hw 0
        have w2 := hw 2
        simp only [Matrix.cons_val, abs_le] at w0 w2
        rcases h2 i x hx with h | h <;> linarith
      | j + 1, hb => simp at hb
    · cases h
  · refine far_not_self scriptKuka.robot rfl IsRigid.one rfl (le_refl _) ?_
    have e0 : ∀ T : M4, posPart T = act T 0 := fun T => by simp [act]
    change 0.8 ≤ gap _ _
    refine le_trans ?_ (coord_le_gap _ _ 0)
    rw [e0 (frameOf _ _ _), h1]
    change 0.8 ≤ |(posPart (1 : M4)) 0 - 0.8|
    simp [posPart]
    norm_num

/-- **C146**: the script follow_line_orientation_free.py, whatever was done with the robot before, ends
with probability one: with ten configurations, the `i`-th of them the rounding of a collision-free
solution for a random orientation at point `i` of the line. -/
theorem C146_line [Zeros] (n : Nat) {pq : PQ D Config} (hl : Lawful pq) (hno : PyGraph.NoOverflow D)
    (hfin : ∀ (w : List ℝ) (x y : Config), stepCost D w x y < ⊤) (conv : ℝ → ℝ)
    (draws : Nat → Nat → Draws) (time : Nat → ℝ)
    (optimal : List PathPt → Collection Shape → Nat → List (List ℝ) → Run (RState × RState × Mem) O) :
    let k := setup (Kuka.new 0.18 0.6 0.62 0.115 n) 1 none
    ∀ᵐ ω ∂allDraws, ∃ path : List Config, path.length = 10 ∧
      (∀ (i : Nat) (x : Config), path[i]? = some x → ∃ j sols q,
        kukaSols 0.18 0.6 0.62 k.robot (freeFrame (ω (i, j)) (linePos i)) = some sols ∧ q ∈ sols ∧
        ¬ SceneTouch boxOracle k.robot q lineScene ∧ ¬ SelfTouch boxOracle k.robot q ∧
        x = q.map conv) ∧
      ∃ N : Nat, ∀ fuel ≥ N, Returns (KukaOK n) (followLine (kukaRef boxOracle k).toArm pq conv
        (roundRandom draws ω) time fuel optimal) path := by
  intro k
  obtain ⟨u, hu, hG⟩ := kuka_common (a1 := 0.18) (a2 := 0.6) (d4 := 0.62) (d6 := 0.115) (by norm_num) n
    IsRigid.one none (by simp) lineScene (ps := (List.range 10).map linePos) (by
      intro p hp
      obtain ⟨i, hi, rfl⟩ := List.mem_map.1 hp
      have hi' : ((i : Nat) : ℝ) ≤ 9 := by exact_mod_cast Nat.le_of_lt_succ (List.mem_range.1 hi)
      have h0 : (0 : ℝ) ≤ ((i : Nat) : ℝ) := Nat.cast_nonneg _
      have e : linePos i = ![0.8, (linePos i) 1, 0.2] := by
        funext j
        fin_cases j
        · simp [linePos, onLine]
        · rfl
        · simp [linePos, onLine]
      rw [e]
      refine line_reached n ?_
      simp only [linePos, onLine, Matrix.cons_val]
      rw [abs_le]
      constructor <;> norm_num <;> linarith)
  filter_upwards [found_ae draws hu hG 50] with ω hω
  obtain ⟨N, hN⟩ := hω
  obtain ⟨path, h1, h2, N', h3, -⟩ := (C117_line (kuka_determined boxOracle 0.18 0.6 0.62 0.115 n 1 none
    lineScene) hl hno (fun x y => hfin _ x y) conv (roundRandom draws ω) time optimal).1 fun i hi =>
      ⟨N, hN i (linePos i) (by simp [hi])⟩
  refine ⟨path, h1, fun i x hx => ?_, N', h3⟩
  obtain ⟨q, K, hq, rfl⟩ := h2 i x hx
  obtain ⟨j, -, sols, e1, e2, e3⟩ := mem_foundBy.1 hq
  obtain ⟨f1, f2⟩ := (touches_free boxOracle (r := k.robot) rfl lineScene _).1 e3
  exact ⟨j, sols, q, e1, e2, f1, f2, rfl⟩

/-- C146_kuka applies to the stock Kuka over the table. -/
example [Zeros] (draws : Nat → Nat → Draws) (time : Nat → ℝ) : ∀ᵐ ω ∂allDraws, ∃ N,
    EndsWithin (kukaRef boxOracle (setup (Kuka.new 0.18 0.6 0.62 0.115 0) 1 none)).toArm (KukaOK 0)
      (kukaSols 0.18 0.6 0.62 (setup (Kuka.new 0.18 0.6 0.62 0.115 0) 1 none).robot)
      (touches boxOracle (setup (Kuka.new 0.18 0.6 0.62 0.115 0) 1 none).robot lineScene)
      (stdHeap : PQ (WithTop ℝ) Config) id time (fun _ _ _ _ => pure ())
      (PlanningTask.new [.free (.new ![0.8, 0.1, 0.2]), .free (.new ![0.8, -0.2, 0.2])] (some lineScene))
      [![0.8, 0.1, 0.2], ![0.8, -0.2, 0.2]] (roundRandom draws ω) N := by
  refine (C146_kuka (by norm_num) 0 IsRigid.one none (by simp) lineScene stdHeapLawful noOverflow_real
    stepCost_real id draws time (fun _ _ _ _ => pure ()) rfl rfl (by simp) ?_).2
  intro p hp
  simp only [List.mem_cons, List.not_mem_nil, or_false] at hp
  rcases hp with rfl | rfl
  · exact line_reached 0 (by norm_num)
  · exact line_reached 0 (by norm_num)

/-- C146_never applies to an arm that reaches nothing. -/
example (draws : Nat → Nat → Draws) : ∀ᵐ ω ∂allDraws, ∀ fuel, Raises (fun _ => True)
    (PlanningTask.solve (PlanningTask.new [.free (.new ![1, 0, 0])] (some (⟨[], []⟩ : Collection Unit)))
      (stripArm 0) (stdHeap : PQ (WithTop ℝ) Config) id (roundRandom draws ω) (fun _ => 0) fuel
      (fun _ _ _ _ => (pure () : Run Unit Unit)) (some "grid_incremental")) (.py .outOfFuel) := by
  refine C146_never (stripArm_determined 0) _ id draws _ _ rfl (ps := [![1, 0, 0]]) rfl ?_
  refine ⟨_, List.mem_singleton.2 rfl, ?_⟩
  refine measure_mono_null (t := ∅) (fun u hu => ?_) measure_empty
  obtain ⟨sols, q, h1, -⟩ := hu
  have h0 : freeFrame u ![1, 0, 0] 0 3 = 1 := mkTf_x _ _
  have h2 : (if freeFrame u ![1, 0, 0] 0 3 = 0 then some [[0]] else none) = some sols := h1
  rw [if_neg (by rw [h0]; exact one_ne_zero)] at h2
  cases h2

end

end Verif.Props
