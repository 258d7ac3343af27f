import Verif.Props.Scaled
import Verif.Props.Backwards
import Verif.Props.InTheBox

/-!
# C155: obstacles taken away

With fewer obstacles every configuration that was free is still free, so the grid planner still finds a path,
and a shortest path cannot become longer.  The path that the code finds can: with more configurations to
choose from, its search can miss the shorter path it found before.
-/

set_option linter.unusedSectionVars false

namespace Verif.Props

open Matrix Verif Verif.Path Verif.Geometry Verif.Kin Verif.ShortestPath Verif.CppGraph Verif.Search
  Verif.Planning Verif.Spec Verif.Task Verif.SampleSO3 Verif.Resources Verif.Examples Verif.Gui

noncomputable section

/-- **C155** as stated, for the grid planner with the heap of libstdc++ and exact arithmetic: `hit` and `hit'`
are the answers of the collision check with all obstacles and with some of them taken away. -/
def C155_statement : Prop :=
  ∀ (W S O : Type) (Inv : W → Prop) (arm : Arm W S) (scene scene' : Collection S)
    (ikf : M4 → Option (List Config)) (hit hit' : Config → Bool) (d : Nat),
    Determined arm scene Inv ikf hit d → Determined arm scene' Inv ikf hit' d →
    (∀ q, hit' q = true → hit q = true) →
    ∀ (t : PlanningTask S) (draws : Nat → Nat → Draws) (time : Nat → ℝ) (fuel : Nat)
      (optimal : List PathPt → Collection S → Nat → List (List ℝ) → Run W O) (samples : List (List M4))
      (w w1 : W) (p : List Config) (c : WithTop ℝ), t.path ≠ [] →
      SamplesOf (draws 0) t.gridSamples t.path samples → Inv w →
      PlanningTask.solve { t with scene := some scene } arm stdHeap id draws time fuel optimal
        (some "grid") w = (.ok (.plan ⟨true, some p, some c⟩), w1) →
      ∃ p' c', Returns Inv (PlanningTask.solve { t with scene := some scene' } arm stdHeap id draws time
        fuel optimal (some "grid")) (.plan ⟨true, some p', some c'⟩) ∧ c' ≤ c

/-- Every obstacle of `scene'` is one of `scene`, at the same place. -/
def FewerThan (scene' scene : Collection Shape) : Prop :=
  ∀ (i : Nat) (s : Shape) (T : M4), scene'.s[i]? = some s → scene'.tfS[i]? = some T →
    ∃ j : Nat, scene.s[j]? = some s ∧ scene.tfS[j]? = some T

/-- **C155**, the check: what a robot touches among some of the obstacles, it touches among all of them. -/
theorem C155_touches (hit : Oracle Shape) (r : Robot Shape) {scene scene' : Collection Shape}
    (h : FewerThan scene' scene) {q : Config} (ht : touches hit r scene' q = true) : touches hit r scene q = true := by
  have hm : ∀ (c : Collection Shape) (A : M4), Touch hit c A scene' 1 → Touch hit c A scene 1 := by
    rintro c A ⟨i, j, s, s', T, T', h1, h2, h3, h4, h5⟩
    obtain ⟨k, h3', h4'⟩ := h j s' T' h3 h4
    exact ⟨i, k, s, s', T, T', h1, h2, h3', h4', h5⟩
  classical
  unfold touches at ht ⊢
  rw [decide_eq_true_eq] at ht ⊢
  refine ht.imp_left ?_
  rintro (⟨b, h1, h2⟩ | ⟨i, li, h1, h2⟩ | ⟨tool, h1, h2⟩)
  · exact .inl ⟨b, h1, hm _ _ h2⟩
  · exact .inr (.inl ⟨i, li, h1, hm _ _ h2⟩)
  · exact .inr (.inr ⟨tool, h1, hm _ _ h2⟩)

section

variable {D W S O : Type} [CostArith D] [JointArith ℝ D] {Inv : W → Prop} {arm : Arm W S}
  {scene scene' : Collection S} {ikf : M4 → Option (List Config)} {hit hit' : Config → Bool} {d : Nat}

theorem free_sub (hle : ∀ q, hit' q = true → hit q = true) (Ts : List M4) :
    free ikf hit Ts ⊆ free ikf hit' Ts := by
  intro q hq
  obtain ⟨T, hT, sols, h1, h2, h3⟩ := mem_free.1 hq
  refine mem_free.2 ⟨T, hT, sols, h1, h2, ?_⟩
  cases h : hit' q with
  | false => rfl
  | true => rw [hle q h] at h3; cases h3

/-- When the grid planner succeeds, every point has a configuration that is free. -/
theorem grid_free (h : Determined arm scene Inv ikf hit d) {pq : PQ D Config} {conv : ℝ → ℝ}
    {t : PlanningTask S} (ht : t.scene = some scene) {draws : Nat → Nat → Draws} {time : Nat → ℝ}
    {fuel : Nat} {optimal : List PathPt → Collection S → Nat → List (List ℝ) → Run W O}
    {samples : List (List M4)} (hs : SamplesOf (draws 0) t.gridSamples t.path samples) {w w1 : W}
    (hw : Inv w) {pr : PlanRes ℝ D}
    (hr : PlanningTask.solve t arm pq conv draws time fuel optimal (some "grid") w =
      (.ok (.plan pr), w1)) (hsuc : pr.success = true) :
    ∀ Ts ∈ samples, free ikf hit Ts ≠ [] := by
  obtain ⟨pr', h1, h2⟩ := C66_reach (Reach := fun q T => ∃ sols, ikf T = some sols ∧ q ∈ sols) h
    (fun T sols q a b _ => ⟨sols, a, b⟩) t ht pq conv draws time fuel optimal rfl hw hr
  cases h1
  obtain ⟨path, -, e2, e3⟩ := h2 hsuc
  intro Ts hTs
  obtain ⟨i, hi, rfl⟩ := List.getElem_of_mem hTs
  have hip : i < path.length := by rw [e2, ← hs.1]; exact hi
  obtain ⟨tp, Ts', q', f1, f2, -, f4, T, f5, sols, f6, f7⟩ := e3 i _ (List.getElem?_eq_getElem hip)
  have := hs.2 i tp _ f1 (List.getElem?_eq_getElem hi)
  rw [f2, Except.ok.injEq] at this
  exact List.ne_nil_of_mem (mem_free.2 ⟨T, this ▸ f5, sols, f6, f7, f4⟩)

/-- **C155**, success: if the grid planner finds a path, it finds one after obstacles are taken away, with
the same samples and every queue that neither loses nor invents nodes. -/
theorem C155_succeeds (h : Determined arm scene Inv ikf hit d) (h' : Determined arm scene' Inv ikf hit' d)
    (hle : ∀ q, hit' q = true → hit q = true) {pq : PQ D Config} (hl : Lawful pq)
    (hno : PyGraph.NoOverflow D) (hfin : ∀ x y : Config, stepCost D (effWeights D d []) x y < ⊤)
    {conv : ℝ → ℝ} (t : PlanningTask S) (hne : t.path ≠ []) {draws : Nat → Nat → Draws} {time : Nat → ℝ}
    {fuel : Nat} {optimal : List PathPt → Collection S → Nat → List (List ℝ) → Run W O}
    {samples : List (List M4)} (hs : SamplesOf (draws 0) t.gridSamples t.path samples) {w w1 : W}
    (hw : Inv w) {pr : PlanRes ℝ D}
    (hr : PlanningTask.solve { t with scene := some scene } arm pq conv draws time fuel optimal
      (some "grid") w = (.ok (.plan pr), w1)) (hsuc : pr.success = true) :
    ∃ p c, Returns Inv (PlanningTask.solve { t with scene := some scene' } arm pq conv draws time
      fuel optimal (some "grid")) (.plan ⟨true, some p, some c⟩) := by
  have hf := grid_free h (t := { t with scene := some scene }) rfl hs hw hr hsuc
  obtain ⟨p, c, h1, -⟩ := C66_succeeds h' hl hno hfin { t with scene := some scene' } rfl hne conv draws
    time fuel optimal hs (fun Ts hTs => by
      obtain ⟨q, hq⟩ := List.exists_mem_of_ne_nil _ (hf Ts hTs)
      obtain ⟨T, hT, sols, g1, g2, g3⟩ := mem_free.1 (free_sub hle Ts hq)
      exact ⟨T, hT, sols, g1, q, g2, g3⟩)
  exact ⟨p, c, h1⟩

/-- **C155**, lengths: when the search is right, the planned path among fewer obstacles is not longer.
Missing: the heap of the code for more than two points. -/
theorem C155_partial (h : Determined arm scene Inv ikf hit d) (h' : Determined arm scene' Inv ikf hit' d)
    (hle : ∀ q, hit' q = true → hit q = true) {pq : PQ (WithTop ℝ) Config} (t : PlanningTask S)
    (hf : FindsShortest pq t.path.length) (hne : t.path ≠ []) (draws : Nat → Nat → Draws)
    (time : Nat → ℝ) (fuel : Nat) (optimal : List PathPt → Collection S → Nat → List (List ℝ) → Run W O)
    {samples : List (List M4)} (hs : SamplesOf (draws 0) t.gridSamples t.path samples)
    (hex : ∀ Ts ∈ samples, free ikf hit Ts ≠ []) :
    ∃ p p', ∃ c c' : ℝ,
      Returns Inv (PlanningTask.solve { t with scene := some scene } arm pq id draws time fuel optimal
        (some "grid")) (.plan ⟨true, some p, some (c : WithTop ℝ)⟩) ∧
      Returns Inv (PlanningTask.solve { t with scene := some scene' } arm pq id draws time fuel optimal
        (some "grid")) (.plan ⟨true, some p', some (c' : WithTop ℝ)⟩) ∧ c' ≤ c := by
  obtain ⟨p, h1, h2, -⟩ := grid_shortest h { t with scene := some scene } hf rfl hne draws time fuel
    optimal hs hex
  obtain ⟨p', h1', -, h3'⟩ := grid_shortest h' { t with scene := some scene' } hf rfl hne draws time fuel
    optimal hs (fun Ts hTs => by
      obtain ⟨q, hq⟩ := List.exists_mem_of_ne_nil _ (hex Ts hTs)
      exact List.ne_nil_of_mem (free_sub hle Ts hq))
  refine ⟨p, p', _, _, h1, h1', h3' p ?_⟩
  unfold IsSelection at h2 ⊢
  rw [List.forall₂_map_left_iff] at h2 ⊢
  exact h2.imp fun Ts q hq => free_sub hle Ts hq

end

/-- **C155** for an Arm2 with obstacles taken away: if the grid planner found a path, it still finds one. -/
theorem C155_arm2 [Zeros] {D O : Type} [CostArith D] [JointArith ℝ D] (hit : Oracle Shape) (a1 a2 a3 : ℝ)
    {scene scene' : Collection Shape} (hsc : FewerThan scene' scene) {pq : PQ D Config} (hl : Lawful pq)
    (hno : PyGraph.NoOverflow D) (hfin : ∀ x y : Config, stepCost D (effWeights D 3 []) x y < ⊤)
    {conv : ℝ → ℝ} (t : PlanningTask Shape) (hne : t.path ≠ []) {draws : Nat → Nat → Draws}
    {time : Nat → ℝ} {fuel : Nat}
    {optimal : List PathPt → Collection Shape → Nat → List (List ℝ) → Run (RState × Unit) O}
    {samples : List (List M4)} (hs : SamplesOf (draws 0) t.gridSamples t.path samples)
    (history history' : List (Call Shape)) (hh : ∀ c ∈ history, c.robot.links = (arm2 a1 a2 a3).links)
    (hh' : ∀ c ∈ history', c.robot.links = (arm2 a1 a2 a3).links) {w1 : RState × Unit} {pr : PlanRes ℝ D}
    (hr : PlanningTask.solve { t with scene := some scene }
      (pureArm hit (arm2 a1 a2 a3) (arm2Ik (arm2 a1 a2 a3))) pq conv draws time fuel optimal
      (some "grid") (after hit (arm2 a1 a2 a3).links history, ()) = (.ok (.plan pr), w1))
    (hsuc : pr.success = true) :
    ∃ p c w', PlanningTask.solve { t with scene := some scene' }
      (pureArm hit (arm2 a1 a2 a3) (arm2Ik (arm2 a1 a2 a3))) pq conv draws time fuel optimal
      (some "grid") (after hit (arm2 a1 a2 a3).links history', ()) =
        (.ok (.plan ⟨true, some p, some c⟩), w') := by
  have hdet := pureArm_determined hit (arm2_regular a1 a2 a3) (arm2Ik (arm2 a1 a2 a3))
    (fun T sols h q hq => arm2Ik_len3 h q hq)
  obtain ⟨p, c, h1⟩ := C155_succeeds (hdet scene) (hdet scene')
    (fun q => C155_touches hit (arm2 a1 a2 a3) hsc) hl hno hfin t hne hs
    ⟨after_wf hit _ _ hh, trivial⟩ hr hsuc
  obtain ⟨w', h2, -⟩ := h1 (after hit (arm2 a1 a2 a3).links history', ()) ⟨after_wf hit _ _ hh', trivial⟩
  exact ⟨p, c, w', h2⟩

/-- **C155** for a Kuka of any lengths with any base and tool. -/
theorem C155_kuka [Zeros] {D O : Type} [CostArith D] [JointArith ℝ D] (hit : Oracle Shape)
    (a1 a2 d4 d6 : ℝ) (n : Nat) (base : M4) (tool : Option (Tool Shape))
    {scene scene' : Collection Shape} (hsc : FewerThan scene' scene) {pq : PQ D Config} (hl : Lawful pq)
    (hno : PyGraph.NoOverflow D) (hfin : ∀ x y : Config, stepCost D (effWeights D 6 []) x y < ⊤)
    {conv : ℝ → ℝ} (t : PlanningTask Shape) (hne : t.path ≠ []) {draws : Nat → Nat → Draws}
    {time : Nat → ℝ} {fuel : Nat}
    {optimal : List PathPt → Collection Shape → Nat → List (List ℝ) → Run (RState × RState × Mem) O}
    {samples : List (List M4)} (hs : SamplesOf (draws 0) t.gridSamples t.path samples)
    {w w1 : RState × RState × Mem} (hw : KukaOK n w) {pr : PlanRes ℝ D}
    (hr : PlanningTask.solve { t with scene := some scene }
      (kukaRef hit (setup (Kuka.new a1 a2 d4 d6 n) base tool)).toArm pq conv draws time fuel optimal
      (some "grid") w = (.ok (.plan pr), w1)) (hsuc : pr.success = true) :
    ∃ p c, Returns (KukaOK n) (PlanningTask.solve { t with scene := some scene' }
      (kukaRef hit (setup (Kuka.new a1 a2 d4 d6 n) base tool)).toArm pq conv draws time fuel optimal
      (some "grid")) (.plan ⟨true, some p, some c⟩) :=
  C155_succeeds (kuka_determined hit a1 a2 d4 d6 n base tool scene)
    (kuka_determined hit a1 a2 d4 d6 n base tool scene')
    (fun _ => C155_touches hit _ hsc) hl hno hfin t hne hs hw hr hsuc

/-! ## The code can find a longer path with fewer obstacles -/

/-- Rational costs as real costs. -/
def realLen : WithTop ℚ → WithTop ℝ := WithTop.map (fun x : ℚ => (x : ℝ))

theorem realLen_map : CostMap realLen := by
  refine ⟨?_, ?_, ?_, rfl⟩
  · intro a b
    cases a with
    | top => simp [realLen]
    | coe a =>
      cases b with
      | top => exact ⟨fun _ => WithTop.coe_lt_top a, fun _ => WithTop.coe_lt_top (a : ℝ)⟩
      | coe b =>
        show ((a : ℝ) : WithTop ℝ) < ((b : ℝ) : WithTop ℝ) ↔ _
        rw [WithTop.coe_lt_coe, WithTop.coe_lt_coe, Rat.cast_lt]
  · intro a b
    cases a with
    | top => rfl
    | coe a =>
      cases b with
      | top => rfl
      | coe b =>
        show (((a + b : ℚ) : ℝ) : WithTop ℝ) = ((a + b : ℝ) : WithTop ℝ)
        rw [Rat.cast_add]
  · show (((0 : ℚ) : ℝ) : WithTop ℝ) = ((0 : ℝ) : WithTop ℝ)
    rw [Rat.cast_zero]

/-- Rational joint values as real ones. -/
def realRow (x : List ℚ) : List ℝ := x.map fun a : ℚ => (a : ℝ)

/-- **C154**, from rational to real numbers: on rational columns the search over the real numbers gives what it
gives over the rational numbers. -/
theorem C154_rational {d : Nat} {Q : List (PyCol ℚ)} (hQ : InputOK d Q) (method : ShortestPath.Method) :
    getShortestPath (C := WithTop ℝ) stdHeap id (Q.map (mapCol realRow)) method none =
      (getShortestPath (C := WithTop ℚ) stdHeap id Q method none).map (mapRes realLen realRow) := by
  refine C154_same_choices (m := realRow) realLen_map (fun _ => by simp [realRow]) (fun x => by simp)
    hQ
    (fun x y => ?_) method
  have hw : effWeights (WithTop ℝ) d ((none : Option (List ℝ)).getD []) =
      realRow (effWeights (WithTop ℚ) d ((none : Option (List ℚ)).getD [])) := by
    simp only [effWeights, Option.getD_none, List.length_nil]
    split
    · rfl
    · have h1 : (JointArith.one (WithTop ℝ) : ℝ) = 1 := rfl
      have h2 : (JointArith.one (WithTop ℚ) : ℚ) = 1 := rfl
      rw [h1, h2]
      unfold realRow
      rw [List.map_replicate, Rat.cast_one]
  rw [hw]
  generalize effWeights (WithTop ℚ) d ((none : Option (List ℚ)).getD []) = ws
  unfold stepCost costFn2
  suffices hs : ∀ (acc : WithTop ℚ) (ws x y : List ℚ),
      costFrom2 (realLen acc) (realRow ws) (realRow x) (realRow y) = realLen (costFrom2 acc ws x y) by
    rw [← realLen_map.zero]; exact hs _ _ _ _
  intro acc ws
  induction ws generalizing acc with
  | nil => intro x y; cases x <;> cases y <;> rfl
  | cons a ws ih =>
    intro x y
    cases x with
    | nil => cases y <;> rfl
    | cons b x =>
      cases y with
      | nil => rfl
      | cons c y =>
        show costFrom2 (realLen acc + (((a : ℝ) * ((b : ℝ) - (c : ℝ)) ^ 2 : ℝ) : WithTop ℝ)) (realRow ws)
          (realRow x) (realRow y) = realLen (costFrom2 (acc + ((a * (b - c) ^ 2 : ℚ) : WithTop ℚ)) ws x y)
        rw [← ih, realLen_map.add]
        congr 2
        show _ = (((a * (b - c) ^ 2 : ℚ) : ℝ) : WithTop ℝ)
        push_cast
        rfl

/-- The values of the joint at the four points. -/
def pickIk (T : M4) : List Config :=
  open Classical in
  if T 0 3 = 0 then [[4]] else if T 0 3 = 1 then [[1], [6]] else if T 0 3 = 2 then [[0], [8]] else [[3]]

/-- Values above 4 are in collision, if there is an obstacle. -/
def pickHit (scene : Collection Unit) (q : Config) : Bool :=
  open Classical in decide (scene.s ≠ [] ∧ ∃ x ∈ q, 4 < x)

/-- The columns among the obstacles. -/
def blockedCols : List (PyCol ℚ) :=
  [.arr true 1 [[4]], .arr true 1 [[1]], .arr true 1 [[0]], .arr true 1 [[3]]]

/-- The columns without obstacles. -/
def openCols : List (PyCol ℚ) :=
  [.arr true 1 [[4]], .arr true 1 [[1], [6]], .arr true 1 [[0], [8]], .arr true 1 [[3]]]

theorem openCols_longer :
    getShortestPath (C := WithTop ℚ) stdHeap id blockedCols .dijkstra none =
      .ok ⟨true, some [[4], [1], [0], [3]], some ((19 : ℚ) : WithTop ℚ)⟩ ∧
    getShortestPath (C := WithTop ℚ) stdHeap id openCols .dijkstra none =
      .ok ⟨true, some [[4], [6], [8], [3]], some ((33 : ℚ) : WithTop ℚ)⟩ := by
  have h : (getShortestPath (C := WithTop ℚ) stdHeap id blockedCols .dijkstra
      none).toOption.map (fun r => (r.success, r.path, r.length)) =
      some (true, some [[4], [1], [0], [3]], some ((19 : ℚ) : WithTop ℚ)) := by decide +kernel
  have h' : (getShortestPath (C := WithTop ℚ) stdHeap id openCols .dijkstra
      none).toOption.map (fun r => (r.success, r.path, r.length)) =
      some (true, some [[4], [6], [8], [3]], some ((33 : ℚ) : WithTop ℚ)) := by decide +kernel
  obtain ⟨⟨a, b, c⟩, h1, h2⟩ := of_toOption_map h
  obtain ⟨⟨a', b', c'⟩, h1', h2'⟩ := of_toOption_map h'
  simp only [Prod.mk.injEq] at h2 h2'
  obtain ⟨rfl, rfl, rfl⟩ := h2
  obtain ⟨rfl, rfl, rfl⟩ := h2'
  exact ⟨h1, h1'⟩

theorem blockedCols_ok : InputOK 1 blockedCols := by
  refine ⟨by simp [blockedCols], ?_, by simp [blockedCols, PyCol.isF32]⟩
  intro c hc
  simp only [blockedCols, List.mem_cons, List.not_mem_nil, or_false] at hc
  rcases hc with rfl | rfl | rfl | rfl <;> simp [PyCol.Proper]

theorem openCols_ok : InputOK 1 openCols := by
  refine ⟨by simp [openCols], ?_, by simp [openCols, PyCol.isF32]⟩
  intro c hc
  simp only [openCols, List.mem_cons, List.not_mem_nil, or_false] at hc
  rcases hc with rfl | rfl | rfl | rfl <;> simp [PyCol.Proper]

/-- An arm with one joint: at the four points it can take the values 4; 1 or 6; 0 or 8; 3.  As soon as there
is an obstacle, the values above 4 are in collision. -/
def pickArm : Arm Unit Unit where
  ik T := pure (some (pickIk T))
  ikFixed T _ := pure (some (pickIk T))
  isInCollision q scene := pure (pickHit scene q)
  fk _ := pure 1

/-- The four points. -/
def pickPoints : List V3 := [![0, 0, 0], ![1, 0, 0], ![2, 0, 0], ![3, 0, 0]]

theorem pickArm_determined (scene : Collection Unit) :
    Determined pickArm scene (fun _ => True) (fun T => some (pickIk T)) (pickHit scene) 1 := by
  refine ⟨fun T => Returns.pure _, fun T sols h q hq => ?_, fun q _ => Returns.pure _⟩
  simp only [Option.some.injEq] at h
  subst h
  unfold pickIk at hq
  split_ifs at hq <;> simp only [List.mem_cons, List.not_mem_nil, or_false] at hq
  · rw [hq]; rfl
  · rcases hq with rfl | rfl <;> rfl
  · rcases hq with rfl | rfl <;> rfl
  · rw [hq]; rfl

/-- One obstacle. -/
def oneBox : Collection Unit := ⟨[()], [1]⟩

/-- No obstacles. -/
def noBox : Collection Unit := ⟨[], []⟩

theorem pick_columns (draws : Nat → Draws) :
    ((freeFrames draws pickPoints 1).map fun Ts =>
      colOf id 1 (free (fun T => some (pickIk T)) (pickHit oneBox) Ts)) =
        blockedCols.map (mapCol realRow) ∧
    ((freeFrames draws pickPoints 1).map fun Ts =>
      colOf id 1 (free (fun T => some (pickIk T)) (pickHit noBox) Ts)) =
        openCols.map (mapCol realRow) := by
  constructor <;>
  · simp [freeFrames, pickPoints, List.zipIdx, free, freeAt, pickIk, freeFrame, mkTf, pickHit, oneBox,
      noBox, colOf, blockedCols, openCols, mapCol, realRow]
    try norm_num

section

variable {O : Type}

/-- **C155**, the grid planner: with the obstacle the path 4, 1, 0, 3 of length 19 is planned; after the
obstacle is taken away, the path 4, 6, 8, 3 of length 33. -/
theorem C155_longer (draws : Nat → Nat → Draws) (time : Nat → ℝ) (fuel : Nat)
    (optimal : List PathPt → Collection Unit → Nat → List (List ℝ) → Run Unit O) :
    Returns (fun _ => True) (PlanningTask.solve (C := WithTop ℝ) (freeTask pickPoints oneBox 1) pickArm
      stdHeap id draws time fuel optimal (some "grid"))
      (.plan ⟨true, some [[4], [1], [0], [3]], some ((19 : ℝ) : WithTop ℝ)⟩) ∧
    Returns (fun _ => True) (PlanningTask.solve (C := WithTop ℝ) (freeTask pickPoints noBox 1) pickArm
      stdHeap id draws time fuel optimal (some "grid"))
      (.plan ⟨true, some [[4], [6], [8], [3]], some ((33 : ℝ) : WithTop ℝ)⟩) := by
  have key : ∀ (scene : Collection Unit) (r : PlanRes ℝ (WithTop ℝ)),
      getShortestPath stdHeap id ((freeFrames (draws 0) pickPoints 1).map fun Ts =>
        colOf id 1 (free (fun T => some (pickIk T)) (pickHit scene) Ts)) .dijkstra none = .ok r →
      Returns (fun _ => True) (PlanningTask.solve (freeTask pickPoints scene 1) pickArm
        stdHeap id draws time fuel optimal (some "grid")) (.plan r) := by
    intro scene r hr
    refine (C65_dispatch_partial (freeTask pickPoints scene 1) rfl pickArm stdHeap id draws time fuel
      optimal).1 _ _ ?_ hr
    have hb := noRedundancyLoop_returns (pickArm_determined scene) id (draws 0) 1
      (freeTask pickPoints scene 1).path (freeFrames (draws 0) pickPoints 1) 0
      (by simpa using freeFrames_samples (draws 0) pickPoints scene 1) []
    exact hb
  have hB := C154_rational blockedCols_ok .dijkstra
  have hO := C154_rational openCols_ok .dijkstra
  rw [openCols_longer.1] at hB
  rw [openCols_longer.2] at hO
  rw [← (pick_columns (draws 0)).1] at hB
  rw [← (pick_columns (draws 0)).2] at hO
  refine ⟨key _ _ (hB.trans ?_), key _ _ (hO.trans ?_)⟩
  · simp [Except.map, mapRes, realLen, realRow]
  · simp [Except.map, mapRes, realLen, realRow]

end

theorem pickHit_none (q : Config) : pickHit noBox q = false := by
  simp [pickHit, noBox]

/-- **C155** is false of the code: the path can get longer when an obstacle is taken away. -/
theorem C155_refuted : ¬ C155_statement := by
  intro h
  have hl := C155_longer (O := Unit) (fun _ _ => ⟨fun _ => 0, 0, fun _ => (0, 0, 0), none⟩) (fun _ => 0) 0 (fun _ _ _ _ => pure ())
  obtain ⟨w1, h1, -⟩ := hl.1 () trivial
  obtain ⟨p', c', h2, h3⟩ := h Unit Unit Unit (fun _ => True) pickArm oneBox noBox
    (fun T => some (pickIk T)) (pickHit oneBox) (pickHit noBox) 1 (pickArm_determined _)
    (pickArm_determined _) (fun q hq => by rw [pickHit_none] at hq; cases hq)
    (freeTask pickPoints oneBox 1) (fun _ _ => ⟨fun _ => 0, 0, fun _ => (0, 0, 0), none⟩) (fun _ => 0) 0 (fun _ _ _ _ => pure ())
    (freeFrames (fun _ => ⟨fun _ => 0, 0, fun _ => (0, 0, 0), none⟩) pickPoints 1) () w1 _ _ (by simp [freeTask, PlanningTask.new, pickPoints])
    (freeFrames_samples _ pickPoints oneBox 1) trivial h1
  have := h2.unique (w := ()) trivial hl.2
  simp only [SolveRes.plan.injEq, PlanRes.mk.injEq, Option.some.injEq] at this
  obtain ⟨-, -, rfl⟩ := this
  rw [WithTop.coe_le_coe] at h3
  norm_num at h3

/-! ## Concrete cases -/

/-- `C155_touches`: the Kuka of the box script, which stands in the floor of the workpiece, also touches the
workpiece with a box added. -/
example {hit : Oracle Shape} (hs : SeesOverlap hit) (n : Nat) (b : Shape) (T : M4) :
    touches hit (boxKuka n).robot ⟨workpiece.s ++ [b], workpiece.tfS ++ [T]⟩ [0, 0, 0, 0, 0, 0] = true :=
  C155_touches hit _ (scene' := workpiece) (fun i _ _ h1 h2 =>
    ⟨i, by rw [List.getElem?_append_left (List.getElem?_eq_some_iff.1 h1).1]; exact h1,
      by rw [List.getElem?_append_left (List.getElem?_eq_some_iff.1 h2).1]; exact h2⟩)
    (box_touches hs n rfl)

/-- `C155_succeeds` for the arm with one joint, with the heap of the code. -/
example (draws : Nat → Nat → Draws) : ∃ p c, Returns (fun _ => True)
    (PlanningTask.solve (C := WithTop ℝ) (freeTask pickPoints noBox 1) pickArm stdHeap id draws
      (fun _ => 0) 0 (fun _ _ _ _ => (pure () : Run Unit Unit)) (some "grid"))
    (.plan ⟨true, some p, some c⟩) := by
  obtain ⟨w1, h1, -⟩ := (C155_longer draws (fun _ => 0) 0
    (fun _ _ _ _ => (pure () : Run Unit Unit))).1 () trivial
  exact C155_succeeds (pickArm_determined oneBox) (pickArm_determined noBox)
    (fun q hq => by rw [pickHit_none] at hq; cases hq) stdHeapLawful noOverflow_real
    (fun x y => stepCost_real _ x y)
    (freeTask pickPoints oneBox 1) (by simp [freeTask, PlanningTask.new, pickPoints])
    (freeFrames_samples (draws 0) pickPoints oneBox 1) trivial h1 rfl

/-- `C155_partial` for the arm with one joint, with a queue that searches for the least distance. -/
example (draws : Nat → Nat → Draws) : ∃ p p', ∃ c c' : ℝ,
    Returns (fun _ => True) (PlanningTask.solve (freeTask pickPoints oneBox 1) pickArm scanQueue id draws
      (fun _ => 0) 0 (fun _ _ _ _ => (pure () : Run Unit Unit)) (some "grid"))
      (.plan ⟨true, some p, some (c : WithTop ℝ)⟩) ∧
    Returns (fun _ => True) (PlanningTask.solve (freeTask pickPoints noBox 1) pickArm scanQueue id draws
      (fun _ => 0) 0 (fun _ _ _ _ => (pure () : Run Unit Unit)) (some "grid"))
      (.plan ⟨true, some p', some (c' : WithTop ℝ)⟩) ∧ c' ≤ c := by
  obtain ⟨w1, h1, -⟩ := (C155_longer draws (fun _ => 0) 0
    (fun _ _ _ _ => (pure () : Run Unit Unit))).1 () trivial
  exact C155_partial (pickArm_determined oneBox) (pickArm_determined noBox)
    (fun q hq => by rw [pickHit_none] at hq; cases hq) (freeTask pickPoints oneBox 1)
    (.inl ⟨scanLawful, fun s q n q' h => (scan_some s q n q' h).2⟩)
    (by simp [freeTask, PlanningTask.new, pickPoints]) draws _ 0 _
    (freeFrames_samples (draws 0) pickPoints oneBox 1)
    (grid_free (pickArm_determined oneBox) rfl (freeFrames_samples (draws 0) pickPoints oneBox 1)
      trivial h1 rfl)

end

end Verif.Props
