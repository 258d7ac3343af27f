import Verif.Props.AlmostSure
import Verif.Props.NoShorter

/-!
# C145: with more and more samples the planned path approaches the shortest free way

The grid planner (planning.py:283-315) takes the random orientations of `FreeOrientationPt.get_samples`
(path.py, util.py `sample_SO3`).  Every call of `np.random.random` is independent of the others.  No way
between the points, whatever its orientations, is shorter than the planned path in the limit.
-/

set_option linter.unusedSectionVars false

namespace Verif.Props

open MeasureTheory Matrix Verif Verif.Path Verif.Geometry Verif.Kin Verif.ShortestPath Verif.Task
  Verif.CppGraph Verif.Search Verif.Planning Verif.Spec Verif.Util Verif.SampleSO3 Filter Topology
open scoped ENNReal

noncomputable section

/-! ## Nearby ways cost nearly the same -/

/-- Every joint value of `q'` is within `δ` of that of `q`. -/
def Close (δ : ℝ) (q q' : Config) : Prop := List.Forall₂ (fun a b => |b - a| < δ) q q'

theorem Close.mono {δ δ' : ℝ} (h : δ ≤ δ') {q q' : Config} (hc : Close δ q q') : Close δ' q q' :=
  List.Forall₂.imp (fun _ _ hab => lt_of_lt_of_le hab h) hc

theorem move_close (x y : Config) {ε : ℝ} (hε : 0 < ε) : ∃ δ > 0, ∀ x' y', Close δ x x' →
    Close δ y y' → ((x'.zip y').map fun u => (u.1 - u.2) ^ 2).sum <
      ((x.zip y).map fun u => (u.1 - u.2) ^ 2).sum + ε := by
  induction x generalizing y ε with
  | nil =>
    refine ⟨1, one_pos, fun x' y' h _ => ?_⟩
    cases h
    simpa using hε
  | cons a x ih =>
    cases y with
    | nil =>
      refine ⟨1, one_pos, fun x' y' _ h => ?_⟩
      cases h
      simpa using hε
    | cons b y =>
      obtain ⟨δ, hδ, hd⟩ := ih y (half_pos hε)
      have hc : Tendsto (fun z : ℝ × ℝ => (z.1 - z.2) ^ 2) (𝓝 (a, b)) (𝓝 ((a - b) ^ 2)) := by
        have : Continuous fun z : ℝ × ℝ => (z.1 - z.2) ^ 2 := by fun_prop
        exact this.tendsto (a, b)
      obtain ⟨δ', hδ', hd'⟩ := Metric.eventually_nhds_iff.1
        (hc.eventually_lt_const (lt_add_of_pos_right ((a - b) ^ 2) (half_pos hε)))
      refine ⟨min δ δ', lt_min hδ hδ', fun x' y' hx hy => ?_⟩
      cases hx with
      | @cons _ a' _ x' ha hx =>
        cases hy with
        | @cons _ b' _ y' hb hy =>
          have h1 := hd x' y' (Close.mono (min_le_left _ _) hx) (Close.mono (min_le_left _ _) hy)
          have h2 := hd' (y := (a', b')) (by
            rw [Prod.dist_eq, max_lt_iff, Real.dist_eq, Real.dist_eq]
            exact ⟨ha.trans_le (min_le_right _ _), hb.trans_le (min_le_right _ _)⟩)
          simp only [List.zip_cons_cons, List.map_cons, List.sum_cons]
          simp only at h2
          linarith

theorem moveCost_close (way : List Config) {ε : ℝ} (hε : 0 < ε) : ∃ δ > 0, ∀ way',
    List.Forall₂ (Close δ) way way' → moveCost way' < moveCost way + ε := by
  induction way generalizing ε with
  | nil =>
    refine ⟨1, one_pos, fun w h => ?_⟩
    cases h
    simpa [moveCost] using hε
  | cons x way ih =>
    cases way with
    | nil =>
      refine ⟨1, one_pos, fun w h => ?_⟩
      cases h with
      | cons _ h =>
        cases h
        simpa [moveCost] using hε
    | cons y way =>
      obtain ⟨δ, hδ, hd⟩ := ih (half_pos hε)
      obtain ⟨δ', hδ', hd'⟩ := move_close x y (half_pos hε)
      refine ⟨min δ δ', lt_min hδ hδ', fun w h => ?_⟩
      have hm := List.Forall₂.imp (fun _ _ hab => Close.mono (min_le_left δ δ') hab) h
      cases h with
      | @cons _ x' _ w hx h =>
        cases h with
        | @cons _ y' _ w hy h =>
          cases hm with
          | cons _ hm =>
            have h1 := hd _ hm
            have h2 := hd' x' y' (Close.mono (min_le_right _ _) hx) (Close.mono (min_le_right _ _) hy)
            simp only [moveCost, List.tail_cons, List.zip_cons_cons, List.map_cons, List.sum_cons] at *
            linarith

/-! ## Sets that the draws meet -/

/-- At each of the first `len` points one of the first `m` draws is in the set of the point. -/
def Meets (G : Nat → Set (ℝ × ℝ × ℝ)) (len m : Nat) (ω : Nat × Nat → ℝ × ℝ × ℝ) : Prop :=
  ∀ i < len, ∃ j < m, ω (i, j) ∈ G i

theorem not_meets_le {G : Nat → Set (ℝ × ℝ × ℝ)} {len : Nat} {u : ℝ≥0∞}
    (hG : ∀ i < len, MeasurableSet (G i) ∧ u ≤ drawLaw (G i)) (m : Nat) :
    allDraws {ω | ¬ Meets G len m ω} ≤ len * (1 - u) ^ m := by
  have hsub : {ω | ¬ Meets G len m ω} ⊆ ⋃ i : Fin len, {ω | ∀ j < m, ω (i, j) ∉ G i} := by
    intro ω hω
    simp only [Meets, Set.mem_setOf_eq, not_forall, not_exists, not_and] at hω
    obtain ⟨i, hi, h⟩ := hω
    exact Set.mem_iUnion.2 ⟨⟨i, hi⟩, h⟩
  refine (measure_mono hsub).trans ((measure_iUnion_fintype_le _ _).trans ?_)
  refine (Finset.sum_le_sum fun (i : Fin len) _ => all_miss (hG i i.2).1 (hG i i.2).2 i m).trans ?_
  simp

theorem ae_meets {G : Nat → Set (ℝ × ℝ × ℝ)} {len : Nat} {u : ℝ≥0∞} (hu : u ≠ 0)
    (hG : ∀ i < len, MeasurableSet (G i) ∧ u ≤ drawLaw (G i)) :
    ∀ᵐ ω ∂allDraws, ∃ m₀, ∀ m ≥ m₀, Meets G len m ω := by
  have key : allDraws {ω | ∀ m, ¬ Meets G len m ω} = 0 := by
    have hlim : Tendsto (fun n : Nat => (len : ℝ≥0∞) * (1 - u) ^ n) atTop (𝓝 0) := by
      have h1 : Tendsto (fun n : Nat => (1 - u) ^ n) atTop (𝓝 0) :=
        ENNReal.tendsto_pow_atTop_nhds_zero_of_lt_one
          (ENNReal.sub_lt_self ENNReal.one_ne_top one_ne_zero hu)
      have := ENNReal.Tendsto.const_mul h1 (a := (len : ℝ≥0∞)) (.inr (ENNReal.natCast_ne_top _))
      rwa [mul_zero] at this
    refine le_antisymm (ge_of_tendsto' hlim fun n => ?_) bot_le
    refine le_trans (measure_mono ?_) (not_meets_le hG n)
    exact fun ω hω => hω n
  filter_upwards [measure_eq_zero_iff_ae_notMem.1 key] with ω hω
  simp only [Set.mem_setOf_eq, not_forall, not_not] at hω
  obtain ⟨m₀, h0⟩ := hω
  refine ⟨m₀, fun m hm i hi => ?_⟩
  obtain ⟨j, hj, h⟩ := h0 i hi
  exact ⟨j, hj.trans_le hm, h⟩

/-! ## The grid planner -/

variable {W S O : Type} {Inv : W → Prop} {arm : Arm W S}
  {scene : Collection S} {ikf : M4 → Option (List Config)} {hit : Config → Bool} {d : Nat}

/-- The draws for which the orientation at `p` has a collision-free solution close to `q`. -/
def closeDraws (ikf : M4 → Option (List Config)) (hit : Config → Bool) (δ : ℝ) (p : V3) (q : Config) :
    Set (ℝ × ℝ × ℝ) :=
  {u | ∃ sols q', ikf (freeFrame u p) = some sols ∧ q' ∈ sols ∧ hit q' = false ∧ Close δ q q'}

/-- `solve(robot, "grid")` with `m` samples per point succeeds, with a path that costs at most `b`; the
reported cost is that of the path. -/
def PlansWithin (arm : Arm W S) (Inv : W → Prop) (pq : PQ (WithTop ℝ) Config)
    (optimal : List PathPt → Collection S → Nat → List (List ℝ) → Run W O) (time : Nat → ℝ) (fuel : Nat)
    (scene : Collection S) (ps : List V3) (m : Nat) (draws : Nat → Nat → Draws) (b : ℝ) : Prop :=
  ∃ path, Returns Inv (PlanningTask.solve (freeTask ps scene m) arm pq id draws time fuel optimal
    (some "grid")) (.plan ⟨true, some path, some (moveCost path : WithTop ℝ)⟩) ∧ moveCost path ≤ b

theorem plans_of_meets (h : Determined arm scene Inv ikf hit d) {pq : PQ (WithTop ℝ) Config}
    (draws : Nat → Nat → Draws) (time : Nat → ℝ) (fuel : Nat)
    (optimal : List PathPt → Collection S → Nat → List (List ℝ) → Run W O) {ps : List V3} (hne : ps ≠ [])
    (hf : FindsShortest pq ps.length) {way : List Config} (hlen : way.length = ps.length) {δ b : ℝ}
    (hb : ∀ way', List.Forall₂ (Close δ) way way' → moveCost way' < b)
    {G : Nat → Set (ℝ × ℝ × ℝ)}
    (hG : ∀ (i : Nat) p q, ps[i]? = some p → way[i]? = some q → G i ⊆ closeDraws ikf hit δ p q) {m : Nat}
    {ω : Nat × Nat → ℝ × ℝ × ℝ} (hm : Meets G ps.length m ω) :
    PlansWithin arm Inv pq optimal time fuel scene ps m (withRandom draws ω) b := by
  have hpick : ∀ i : Fin ps.length, ∃ q', q' ∈ free ikf hit
      ((List.range m).map fun (j : Nat) => freeFrame (ω (i, j)) ps[i]) ∧
      Close δ (way[i]'(by rw [hlen]; exact i.2)) q' := by
    intro i
    obtain ⟨j, hj, hω⟩ := hm i i.2
    obtain ⟨sols, q', e1, e2, e3, e4⟩ := hG i ps[i] (way[i]'(by rw [hlen]; exact i.2))
      (List.getElem?_eq_getElem i.2) (List.getElem?_eq_getElem (by rw [hlen]; exact i.2)) hω
    exact ⟨q', mem_free.2 ⟨_, List.mem_map.2 ⟨j, List.mem_range.2 hj, rfl⟩, sols, e1, e2, e3⟩, e4⟩
  choose f hf1 hf2 using hpick
  have hsel : IsSelection ((freeFrames (withRandom draws ω 0) ps m).map (free ikf hit)) (List.ofFn f) := by
    unfold IsSelection
    rw [List.forall₂_iff_get]
    refine ⟨by simp [freeFrames], fun i h1 h2 => ?_⟩
    have hi : i < ps.length := by simpa using h2
    have := hf1 ⟨i, hi⟩
    simpa [freeFrames, withRandom] using this
  have hclose : List.Forall₂ (Close δ) way (List.ofFn f) := by
    rw [List.forall₂_iff_get]
    refine ⟨by simp [hlen], fun i h1 h2 => ?_⟩
    have hi : i < ps.length := by simpa using h2
    simpa using hf2 ⟨i, hi⟩
  have hlp : (freeTask ps scene m).path.length = ps.length := by simp [freeTask, PlanningTask.new]
  obtain ⟨path, e1, -, e3⟩ := grid_shortest h (freeTask ps scene m) (hlp ▸ hf) rfl
    (by simpa [freeTask, PlanningTask.new] using hne) (withRandom draws ω) time fuel optimal
    (freeFrames_samples _ ps scene m) (selection_ne hsel)
  exact ⟨path, e1, ((e3 _ hsel).trans_lt (hb _ hclose)).le⟩

/-- **C145**, for any robot: if for every `δ` a random orientation at each point has, with positive
probability, a collision-free solution within `δ` of the configuration of a way, then planned paths that
cost more than the way by `ε` become exponentially unlikely with the number of samples, and almost surely
there are none from some number on. -/
theorem C145_way (h : Determined arm scene Inv ikf hit d) {pq : PQ (WithTop ℝ) Config}
    (draws : Nat → Nat → Draws) (time : Nat → ℝ) (fuel : Nat)
    (optimal : List PathPt → Collection S → Nat → List (List ℝ) → Run W O) {ps : List V3} (hne : ps ≠ [])
    (hf : FindsShortest pq ps.length) {way : List Config}
    (hG : List.Forall₂ (fun p q => ∀ δ > 0, ∃ G ⊆ closeDraws ikf hit δ p q,
      MeasurableSet G ∧ drawLaw G ≠ 0) ps way) {ε : ℝ} (hε : 0 < ε) :
    (∃ u : ℝ≥0∞, u ≠ 0 ∧ ∀ m, allDraws {ω | ¬ PlansWithin arm Inv pq optimal time fuel scene ps m
      (withRandom draws ω) (moveCost way + ε)} ≤ ps.length * (1 - u) ^ m) ∧
    ∀ᵐ ω ∂allDraws, ∃ m₀, ∀ m ≥ m₀, PlansWithin arm Inv pq optimal time fuel scene ps m
      (withRandom draws ω) (moveCost way + ε) := by
  obtain ⟨δ, hδ, hclose⟩ := moveCost_close way hε
  have hsets : ∃ (G : Nat → Set (ℝ × ℝ × ℝ)) (u : ℝ≥0∞), u ≠ 0 ∧
      (∀ i < ps.length, MeasurableSet (G i) ∧ u ≤ drawLaw (G i)) ∧
      ∀ (i : Nat) p q, ps[i]? = some p → way[i]? = some q → G i ⊆ closeDraws ikf hit δ p q := by
    clear hf hne hclose
    induction hG with
    | nil => exact ⟨fun _ => ∅, 1, one_ne_zero, by simp, by simp⟩
    | cons h1 _ ih =>
      obtain ⟨G, u, hu, g1, g2⟩ := ih
      obtain ⟨G₀, a1, a2, a3⟩ := h1 δ hδ
      refine ⟨fun i => Nat.casesOn i G₀ G, min u (drawLaw G₀),
        (lt_min (pos_iff_ne_zero.2 hu) (pos_iff_ne_zero.2 a3)).ne', fun i hi => ?_, fun i p q hp hq => ?_⟩
      · cases i with
        | zero => exact ⟨a2, min_le_right _ _⟩
        | succ i =>
          obtain ⟨b1, b2⟩ := g1 i (by simpa using hi)
          exact ⟨b1, (min_le_left _ _).trans b2⟩
      · cases i with
        | zero =>
          cases hp
          cases hq
          exact a1
        | succ i => exact g2 i p q (by simpa using hp) (by simpa using hq)
  obtain ⟨G, u, hu, g1, g2⟩ := hsets
  have hplan := fun {m : Nat} {ω : Nat × Nat → ℝ × ℝ × ℝ} (hm : Meets G ps.length m ω) =>
    plans_of_meets h draws time fuel optimal hne hf hG.length_eq.symm hclose g2 hm
  refine ⟨⟨u, hu, fun m => ?_⟩, ?_⟩
  · refine le_trans (measure_mono ?_) (not_meets_le g1 m)
    exact fun ω hω hm => hω (hplan hm)
  · filter_upwards [ae_meets hu g1] with ω hω
    obtain ⟨m₀, h0⟩ := hω
    exact ⟨m₀, fun m hm => hplan (h0 m hm)⟩

/-! ## The Kuka -/

/-- A way of the Kuka at a point: the configuration reaches the point in some orientation, touches
neither a box nor the robot itself, is not singular, and its joint values are strictly within the ranges
of `ik`. -/
def KukaVisits (a1 a2 d4 d6 : ℝ) (n : Nat) (base : M4) (tool : Option (Tool Shape))
    (scene : Collection Shape) (p : V3) (q : Config) : Prop :=
  ∃ q1 q2 q3 q4 q5 q6 : ℝ, q = [q1, q2, q3, q4, q5, q6] ∧
    FkSatisfies boxOracle (setup (Kuka.new a1 a2 d4 d6 n) base tool).robot q (fun T => posPart T = p) ∧
    ¬ SceneTouch boxOracle (setup (Kuka.new a1 a2 d4 d6 n) base tool).robot q scene ∧
    ¬ SelfTouch boxOracle (setup (Kuka.new a1 a2 d4 d6 n) base tool).robot q ∧
    KukaRegular a1 a2 d4 q2 q3 q5 ∧ |q1| < Real.pi ∧ |q2| < Real.pi ∧ -(Real.pi / 2) < q3 ∧
    q3 < 3 * Real.pi / 2 ∧ |q4| < Real.pi ∧ |q5| < Real.pi ∧ |q6| < Real.pi

theorem kuka_close [Zeros] {a1 a2 d4 d6 : ℝ} (ha : a2 * d4 ≠ 0) (n : Nat) {base : M4}
    (hb : IsRigid base) (tool : Option (Tool Shape)) (htt : ∀ t, tool = some t → IsRigid t.tfTT)
    (scene : Collection Shape) {p : V3} {q : Config}
    (hq : KukaVisits a1 a2 d4 d6 n base tool scene p q) {δ : ℝ} (hδ : 0 < δ) :
    ∃ G ⊆ closeDraws (kukaSols a1 a2 d4 (setup (Kuka.new a1 a2 d4 d6 n) base tool).robot)
      (touches boxOracle (setup (Kuka.new a1 a2 d4 d6 n) base tool).robot scene) δ p q,
      MeasurableSet G ∧ drawLaw G ≠ 0 := by
  obtain ⟨q1, q2, q3, q4, q5, q6, rfl, hf, h1, h2, hr, r1, r2, r3, r3', r4, r5, r6⟩ := hq
  obtain ⟨R₀, hR₀, t1, t2, t3, t4, t5, t6, T1, T2, T3, T4, T5, T6, hev⟩ :=
    kuka_follows ha n hb tool htt scene hf h1 h2 hr
  refine likely (P := fun T => ∃ sols q',
    kukaSols a1 a2 d4 (setup (Kuka.new a1 a2 d4 d6 n) base tool).robot T = some sols ∧ q' ∈ sols ∧
      touches boxOracle (setup (Kuka.new a1 a2 d4 d6 n) base tool).robot scene q' = false ∧
      Close δ [q1, q2, q3, q4, q5, q6] q') hR₀ ?_
  have near : ∀ {t : Entries → ℝ} {x : ℝ}, Tendsto t (nearRot R₀) (𝓝 x) →
      ∀ᶠ E in nearRot R₀, |t E - x| < δ := by
    intro t x ht
    filter_upwards [Metric.tendsto_nhds.1 ht δ hδ] with E hE
    rwa [Real.dist_eq] at hE
  filter_upwards [hev, near T1, near T2, near T3, near T4, near T5, near T6,
    T1.abs.eventually_lt_const r1, T2.abs.eventually_lt_const r2, T3.eventually_const_lt r3,
    T3.eventually_lt_const r3', T4.abs.eventually_lt_const r4, T5.abs.eventually_lt_const r5,
    T6.abs.eventually_lt_const r6] with E e n1 n2 n3 n4 n5 n6 v1 v2 v3 v3' v4 v5 v6
  obtain ⟨e1, e2, e3, e4, e5⟩ := e
  obtain ⟨sols, s1, s2, s3, s4, s5, s6, hsol, hmem, m1, m2, m3, m4, m5, m6⟩ :=
    kukaSols_complete boxOracle ha n hb tool htt e1 e3 e4.le e5
  refine ⟨sols, [t1 E, t2 E, t3 E, t4 E, t5 E, t6 E], hsol, ?_, e2,
    .cons n1 (.cons n2 (.cons n3 (.cons n4 (.cons n5 (.cons n6 .nil)))))⟩
  unfold kukaSols at hsol
  obtain ⟨qs, f1, rfl⟩ := Option.map_eq_some_iff.1 hsol
  obtain ⟨_, _, _, _, _, _, he, u1, u2, u3, u4, u5, u6⟩ := kukaSols_range f1 hmem
  cases he
  rw [abs_le] at u1 u2 u3 u4 u5 u6
  rw [← sameAngle_pi m1 u1 v1, ← sameAngle_pi m2 u2 v2, ← sameAngle_pi m4 u4 v4,
    ← sameAngle_pi m5 u5 v5, ← sameAngle_pi m6 u6 v6,
    ← sameAngle_eq m3 (by linarith [u3.2]) (by linarith [u3.1])]
  exact hmem

/-- **C145** for a Kuka with any base and tool among boxes.  Take any way that visits the points of the
path in configurations of its choice, with any orientations, without touching.  The probability that the
planned path costs more than the way by `ε` falls exponentially with the number of samples, and almost
surely it is no more from some number of samples on. -/
theorem C145_kuka_way [Zeros] {a1 a2 d4 d6 : ℝ} (ha : a2 * d4 ≠ 0) (n : Nat) {base : M4}
    (hb : IsRigid base) (tool : Option (Tool Shape)) (htt : ∀ t, tool = some t → IsRigid t.tfTT)
    (scene : Collection Shape) {pq : PQ (WithTop ℝ) Config} (draws : Nat → Nat → Draws)
    (time : Nat → ℝ) (fuel : Nat)
    (optimal : List PathPt → Collection Shape → Nat → List (List ℝ) → Run (RState × RState × Mem) O)
    {ps : List V3} (hne : ps ≠ []) (hf : FindsShortest pq ps.length) {way : List Config}
    (hway : List.Forall₂ (KukaVisits a1 a2 d4 d6 n base tool scene) ps way) {ε : ℝ} (hε : 0 < ε) :
    let Plans := fun (ω : Nat × Nat → ℝ × ℝ × ℝ) (m : Nat) =>
      PlansWithin (kukaRef boxOracle (setup (Kuka.new a1 a2 d4 d6 n) base tool)).toArm (KukaOK n) pq
        optimal time fuel scene ps m (withRandom draws ω) (moveCost way + ε)
    (∃ u : ℝ≥0∞, u ≠ 0 ∧ ∀ m, allDraws {ω | ¬ Plans ω m} ≤ ps.length * (1 - u) ^ m) ∧
      ∀ᵐ ω ∂allDraws, ∃ m₀, ∀ m ≥ m₀, Plans ω m := by
  intro Plans
  refine C145_way (kuka_determined boxOracle a1 a2 d4 d6 n base tool scene) draws time fuel optimal hne
    hf ?_ hε
  exact hway.imp fun p q hq δ hδ => kuka_close ha n hb tool htt scene hq hδ

/-- **C145**, in the limit: almost surely the cost of the planned path comes, and stays, below every
number above the infimum of the costs of all ways. -/
theorem C145_kuka [Zeros] {a1 a2 d4 d6 : ℝ} (ha : a2 * d4 ≠ 0) (n : Nat) {base : M4}
    (hb : IsRigid base) (tool : Option (Tool Shape)) (htt : ∀ t, tool = some t → IsRigid t.tfTT)
    (scene : Collection Shape) {pq : PQ (WithTop ℝ) Config} (draws : Nat → Nat → Draws)
    (time : Nat → ℝ) (fuel : Nat)
    (optimal : List PathPt → Collection Shape → Nat → List (List ℝ) → Run (RState × RState × Mem) O)
    {ps : List V3} (hne : ps ≠ []) (hf : FindsShortest pq ps.length)
    (hex : ∃ way, List.Forall₂ (KukaVisits a1 a2 d4 d6 n base tool scene) ps way) :
    ∀ᵐ ω ∂allDraws, ∀ b, sInf {c | ∃ way,
        List.Forall₂ (KukaVisits a1 a2 d4 d6 n base tool scene) ps way ∧ moveCost way = c} < b →
      ∃ m₀, ∀ m ≥ m₀,
        PlansWithin (kukaRef boxOracle (setup (Kuka.new a1 a2 d4 d6 n) base tool)).toArm (KukaOK n) pq
          optimal time fuel scene ps m (withRandom draws ω) b := by
  set A := {c | ∃ way, List.Forall₂ (KukaVisits a1 a2 d4 d6 n base tool scene) ps way ∧
    moveCost way = c} with hA
  have hA' : A.Nonempty := hex.imp' moveCost fun way h => ⟨way, h, rfl⟩
  have hk : ∀ k : ℕ, ∀ᵐ ω ∂allDraws, ∃ m₀, ∀ m ≥ m₀,
      PlansWithin (kukaRef boxOracle (setup (Kuka.new a1 a2 d4 d6 n) base tool)).toArm (KukaOK n) pq
        optimal time fuel scene ps m (withRandom draws ω) (sInf A + 1 / (k + 1)) := by
    intro k
    have hpos : (0 : ℝ) < 1 / (k + 1) := by positivity
    obtain ⟨c, ⟨way, hw, rfl⟩, hc⟩ := exists_lt_of_csInf_lt hA' (lt_add_of_pos_right (sInf A) hpos)
    filter_upwards [(C145_kuka_way ha n hb tool htt scene draws time fuel optimal hne hf hw
      (sub_pos.2 hc)).2] with ω hω
    simpa using hω
  filter_upwards [ae_all_iff.2 hk] with ω hω b hb
  obtain ⟨k, hk⟩ := exists_nat_one_div_lt (sub_pos.2 hb)
  obtain ⟨m₀, h0⟩ := hω k
  refine ⟨m₀, fun m hm => ?_⟩
  obtain ⟨path, e1, e2⟩ := h0 m hm
  exact ⟨path, e1, by linarith⟩

/-! ## A concrete case -/

theorem moveCost_stay (q : Config) (n : Nat) : moveCost (List.replicate n q) = 0 := by
  induction n with
  | zero => rfl
  | succ n ih =>
    cases n with
    | zero => simp [moveCost]
    | succ n =>
      have e : moveCost (q :: q :: List.replicate n q) =
          ((q.zip q).map fun u => (u.1 - u.2) ^ 2).sum + moveCost (q :: List.replicate n q) := by
        simp [moveCost]
      rw [List.replicate_succ, List.replicate_succ, e, ← List.replicate_succ, ih, add_zero]
      refine List.sum_eq_zero fun x hx => ?_
      obtain ⟨⟨a, b⟩, hab, rfl⟩ := List.mem_map.1 hx
      have : a = b := by
        rw [← List.map_id q, List.zip_map'] at hab
        obtain ⟨c, -, hc⟩ := List.mem_map.1 hab
        cases hc
        rfl
      simp [this]

/-- The stock Kuka among the second objects of the tests, with a path that stays at one point: almost
surely the cost of the planned path tends to zero. -/
theorem C145_stays [Zeros] : ∃ p : V3, ∀ (n : Nat) (pq : PQ (WithTop ℝ) Config),
    FindsShortest pq (n + 1) → ∀ (draws : Nat → Nat → Draws) (time : Nat → ℝ),
    ∀ᵐ ω ∂allDraws, ∀ b > 0, ∃ m₀, ∀ m ≥ m₀,
      PlansWithin (kukaRef boxOracle (setup (Kuka.new 0.18 0.6 0.62 0.115 0) 1 none)).toArm (KukaOK 0)
        pq (fun _ _ _ _ => pure ()) time 0 testObj2 (List.replicate (n + 1) p) m
        (withRandom draws ω) b := by
  have hT : Tendsto (fun x : ℝ => x) (𝓝[>] 0) (𝓝 0) := tendsto_id.mono_left nhdsWithin_le_nhds
  have hc : ∀ a : ℝ, Tendsto (fun _ : ℝ => a) (𝓝[>] 0) (𝓝 a) := fun a => tendsto_const_nhds
  have hfree := free_nearby shippedKuka testObj2 (l := 𝓝[>] (0 : ℝ))
    (qs := [fun _ => 0, fun _ => Real.pi / 2, fun _ => 0, fun _ => 0, fun x => x, fun _ => 0])
    (q := testQ0) (.cons (hc _) (.cons (hc _) (.cons (hc _) (.cons (hc _) (.cons hT
      (.cons (hc _) .nil)))))) q0_free.1 q0_free.2
  have hsmall : ∀ᶠ x : ℝ in 𝓝[>] 0, x ∈ Set.Ioo (0 : ℝ) 1 := Ioo_mem_nhdsGT one_pos
  obtain ⟨x, ⟨h1, h2⟩, h3⟩ := (hfree.and hsmall).exists
  have hpi := Real.two_le_pi
  have hx : Real.sin x ≠ 0 := (Real.sin_pos_of_pos_of_lt_pi h3.1 (by linarith [h3.2])).ne'
  let k := setup (Kuka.new 0.18 0.6 0.62 0.115 0) 1 none
  set p := posPart (k.robot.tfBase * chain k.robot.links [0, Real.pi / 2, 0, 0, x, 0] * tip k.robot)
    with hp
  have hv : KukaVisits 0.18 0.6 0.62 0.115 0 1 none testObj2 p [0, Real.pi / 2, 0, 0, x, 0] := by
    refine ⟨0, Real.pi / 2, 0, 0, x, 0, rfl, ?_, h1, h2, ⟨by norm_num, by norm_num, hx⟩, ?_, ?_, ?_, ?_,
      ?_, ?_, ?_⟩
    · rw [fkSatisfies_iff _ _ (setup_known _ _ _ _ _ _ _) _ (le_refl _)]
    · simpa using Real.pi_pos
    · rw [abs_of_pos (by linarith)]; linarith
    · linarith
    · linarith
    · simpa using Real.pi_pos
    · rw [abs_of_pos h3.1]; linarith [h3.2]
    · simpa using Real.pi_pos
  refine ⟨p, fun n pq hf draws time => ?_⟩
  have hw : List.Forall₂ (KukaVisits 0.18 0.6 0.62 0.115 0 1 none testObj2) (List.replicate (n + 1) p)
      (List.replicate (n + 1) [0, Real.pi / 2, 0, 0, x, 0]) := by
    rw [List.forall₂_iff_get]
    refine ⟨by simp, fun i h1 h2 => ?_⟩
    simpa using hv
  filter_upwards [C145_kuka (by norm_num) 0 IsRigid.one none (by simp) testObj2 draws time 0
    (fun _ _ _ _ => pure ()) (by simp) (by simpa using hf) ⟨_, hw⟩] with ω hω b hb
  refine hω b (lt_of_le_of_lt (csInf_le ?_ ⟨_, hw, rfl⟩) ?_)
  · refine ⟨0, ?_⟩
    rintro c ⟨way, -, rfl⟩
    refine List.sum_nonneg fun y hy => ?_
    obtain ⟨t, -, rfl⟩ := List.mem_map.1 hy
    refine List.sum_nonneg fun z hz => ?_
    obtain ⟨u, -, rfl⟩ := List.mem_map.1 hz
    positivity
  · rw [moveCost_stay]
    exact hb

/-- With the heap of the code and two points. -/
example : FindsShortest stdHeap (1 + 1) := .inr ⟨rfl, le_rfl⟩

/-- With a queue that searches for the least distance and a hundred points. -/
example : FindsShortest scanQueue (99 + 1) := 
  .inl ⟨scanLawful, fun s q n q' h => (scan_some s q n q' h).2⟩

end

end Verif.Props
