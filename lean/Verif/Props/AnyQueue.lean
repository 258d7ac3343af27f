import Verif.Props.Examples
import Verif.Props.Gui

/-!
# C114, C115: what the scripts show, with whatever queue and costs

`C114_run` and `C115_run` need an exact queue and costs that stay finite, to know that the search
succeeds.  Whatever path the scripts show, it is as they say: this needs neither.
-/

set_option linter.unusedSectionVars false

namespace Verif.Props

open Matrix Verif Verif.Path Verif.Geometry Verif.Kin Verif.ShortestPath Verif.CppGraph
  Verif.Search Verif.Planning Verif.Spec Verif.Util Verif.Resources Verif.Examples

variable {W C : Type} [CostArith C] [JointArith ℝ C] {Inv : W → Prop}
  {ikf : M4 → Option (List Config)} {hit : Config → Bool} {d : Nat}

/-- `res["path"]` of a search among the free solutions, if it is there: one of them per point. -/
theorem pathKey_columns {pq : PQ C Config} {conv : ℝ → ℝ} {samples : List (List M4)}
    {res : PlanRes ℝ C} {p : List Config}
    (hg : getShortestPath pq conv (samples.map fun Ts => colOf conv d (free ikf hit Ts)) .dijkstra
      none = .ok res) (hp : pathKey res = .ok p) :
    p.length = samples.length ∧ ∀ (i : Nat) (q : Config), p[i]? = some q → ∃ Ts q',
      samples[i]? = some Ts ∧ q' ∈ free ikf hit Ts ∧ q = q'.map conv := by
  have hpath : res.path = some p := by
    unfold pathKey at hp
    cases h : res.path with
    | none => rw [h] at hp; cases hp
    | some x => rw [h] at hp; cases hp; rfl
  obtain ⟨p', c, rfl, hsel⟩ := getShortestPath_selection (fun c hc => by
    obtain ⟨Ts, -, rfl⟩ := List.mem_map.1 hc
    unfold colOf
    split_ifs <;> trivial) hg (getShortestPath_path hg hpath)
  cases hpath
  obtain ⟨hlen, hget⟩ := selection_get hsel
  refine ⟨by rw [hlen, List.length_map, List.length_map], fun i q hq => ?_⟩
  obtain ⟨col, hc, hm⟩ := hget i q hq
  rw [List.map_map, List.getElem?_map, Option.map_eq_some_iff] at hc
  obtain ⟨Ts, hTs, rfl⟩ := hc
  simp only [Function.comp, colOf_rows] at hm
  obtain ⟨q', hq', rfl⟩ := List.mem_map.1 hm
  exact ⟨Ts, q', hTs, hq', rfl⟩

/-- A run that ended well, step by step. -/
theorem run_bind_ok {α β : Type} {m : Run W α} {f : α → Run W β} {w w' : W} {b : β}
    (h : (m >>= f) w = (.ok b, w')) : ∃ a w₁, m w = (.ok a, w₁) ∧ f a w₁ = (.ok b, w') := by
  simp only [bind, Run.bind] at h
  cases hm : m w with
  | mk r w₁ =>
    rw [hm] at h
    cases r with
    | error e => cases h
    | ok a => exact ⟨a, w₁, rfl, h⟩

theorem lift_ok {α : Type} {x : Except Err α} {w w' : W} {a : α}
    (h : (Run.lift x : Run W α) w = (.ok a, w')) : x = .ok a ∧ w = w' := by
  simpa only [Run.lift, Prod.mk.injEq] using h

/-- **C114**, whatever the queue and the costs, and also if sums of costs overflow: a path that
kingpin.py animates has ten configurations, the `i`-th being the rounding of a collision-free solution
for one of the frames at point `i` of the seam. -/
theorem C114_any {arm : Arm W Shape} (h : Determined arm kingpinScene Inv ikf hit d)
    (pq : PQ C Config) (conv : ℝ → ℝ) (draws : Nat → Draws) {w w' : W} (hw : Inv w)
    {p : List Config} (hr : kingpin arm pq conv draws w = (.ok p, w')) :
    p.length = 10 ∧ ∀ (i : Nat) (q : Config), p[i]? = some q →
      ∃ q', WeldsAt ikf hit i q' ∧ q = q'.map conv := by
  obtain ⟨path, hpath, hlen, hpts⟩ := kingpin_path
  have hex : ∀ i : Fin path.length, ∃ Ts, getSamples (draws i) 400 none path[i] = .ok Ts ∧
      ∀ T, T ∈ Ts ↔ ∃ j k : Nat, j < 20 ∧ k < 30 ∧ T = weldFrame i j k := fun i => by
    obtain ⟨Ts, h1, -, h2⟩ := hpts i path[i] (List.getElem?_eq_getElem i.2) (draws i) 400
    exact ⟨Ts, h1, h2⟩
  choose f hf using hex
  have hs : SamplesOf draws 400 path (List.ofFn f) := by
    refine ⟨by simp, fun i tp Ts h1 h2 => ?_⟩
    obtain ⟨hi, rfl⟩ := List.getElem?_eq_some_iff.1 h1
    obtain ⟨hi', rfl⟩ := List.getElem?_eq_some_iff.1 h2
    rw [List.getElem_ofFn]
    exact (hf ⟨i, hi⟩).1
  obtain ⟨w₂, hQ, -⟩ := noRedundancyLoop_returns h conv draws 400 path (List.ofFn f) 0
    (by simpa using hs) [] w hw
  rw [List.nil_append] at hQ
  unfold kingpin at hr
  obtain ⟨path', w₁, e1, hr⟩ := run_bind_ok hr
  obtain ⟨e2, rfl⟩ := lift_ok e1
  rw [hpath] at e2
  cases e2
  obtain ⟨Q, w₃, e3, hr⟩ := run_bind_ok hr
  unfold cartToJointNoRedundancy at e3
  rw [hQ] at e3
  cases e3
  obtain ⟨qp, w₄, -, hr⟩ := run_bind_ok hr
  obtain ⟨res, w₅, e4, hr⟩ := run_bind_ok hr
  have e5 := (lift_ok hr).1
  obtain ⟨g1, g2⟩ := pathKey_columns (lift_ok e4).1 (p := p) (by
    cases hk : pathKey res with
    | error e => rw [hk] at e5; cases e5
    | ok x => rw [hk] at e5; cases e5; rfl)
  refine ⟨by rw [g1, List.length_ofFn, hlen], fun i q hq => ?_⟩
  obtain ⟨Ts, q', h1, h2, rfl⟩ := g2 i q hq
  obtain ⟨hi', rfl⟩ := List.getElem?_eq_some_iff.1 h1
  rw [List.getElem_ofFn, mem_free] at h2
  obtain ⟨T, hT, sols, k1, k2, k3⟩ := h2
  obtain ⟨j, k, hj, hk, rfl⟩ := ((hf ⟨i, by simpa using hi'⟩).2 T).1 hT
  exact ⟨q', ⟨j, k, hj, hk, sols, k1, k2, k3⟩, rfl⟩

/-- **C115**, whatever the queue and the costs: a path that tool_first_cc.py animates has five
configurations, the `i`-th being the rounding of a collision-free solution for point `i`. -/
theorem C115_any {arm : Arm W Shape} (h : Determined arm toolFirstScene Inv ikf hit d)
    (pq : PQ C Config) (conv : ℝ → ℝ) (draws : Nat → Draws) {w w' : W} (hw : Inv w)
    {p : List Config} (hr : toolFirst arm pq conv draws w = (.ok (some p), w')) :
    p.length = 5 ∧ ∀ (i : Nat) (q : Config), p[i]? = some q →
      ∃ q', FollowsAt ikf hit draws i q' ∧ q = q'.map conv := by
  set path : List PathPt := (List.range 5).map fun i => .free (.new (linePoint i)) with hpath
  set samples : List (List M4) := (List.range 5).map fun i =>
    (List.range 1000).map fun j => freeFrame ((draws i).rnd j) (linePoint i) with hsamples
  have hget : ∀ i Ts, samples[i]? = some Ts → i < 5 ∧
      Ts = (List.range 1000).map fun j => freeFrame ((draws i).rnd j) (linePoint i) := by
    intro i Ts hi
    rw [hsamples, List.getElem?_map, Option.map_eq_some_iff] at hi
    obtain ⟨i', hi', rfl⟩ := hi
    obtain ⟨hlt, he⟩ := List.getElem?_eq_some_iff.1 hi'
    rw [List.getElem_range] at he
    subst he
    exact ⟨by simpa using hlt, rfl⟩
  have hs : SamplesOf draws 1000 path samples := by
    refine ⟨by simp [hpath, hsamples], fun i tp Ts h1 h2 => ?_⟩
    rw [(hget i Ts h2).2]
    rw [hpath, List.getElem?_map, Option.map_eq_some_iff] at h1
    obtain ⟨i', hi', rfl⟩ := h1
    obtain ⟨hlt, he⟩ := List.getElem?_eq_some_iff.1 hi'
    rw [List.getElem_range] at he
    subst he
    exact free_samples _ _ _ _
  have hlen : samples.length = 5 := by simp [hsamples]
  clear_value samples
  obtain ⟨w₂, hQ, -⟩ := noRedundancyLoop_returns h conv draws 1000 path samples 0
    (by simpa using hs) [] w hw
  rw [List.nil_append] at hQ
  unfold toolFirst at hr
  obtain ⟨path', w₁, e1, hr⟩ := run_bind_ok hr
  obtain ⟨e2, rfl⟩ := lift_ok e1
  rw [toolFirst_path] at e2
  cases e2
  obtain ⟨Q, w₃, e3, hr⟩ := run_bind_ok hr
  unfold cartToJointNoRedundancy at e3
  rw [hQ] at e3
  cases e3
  split_ifs at hr with hc
  · obtain ⟨res, w₄, e4, hr⟩ := run_bind_ok hr
    obtain ⟨x, w₅, e6, hr⟩ := run_bind_ok hr
    have e5 := (lift_ok e6).1
    cases hr
    obtain ⟨g1, g2⟩ := pathKey_columns (lift_ok e4).1 (p := p) (by
      cases hk : pathKey res with
      | error e => rw [hk] at e5; cases e5
      | ok y => rw [hk] at e5; cases e5; rfl)
    refine ⟨by rw [g1, hlen], fun i q hq => ?_⟩
    obtain ⟨Ts, q', h1, h2, rfl⟩ := g2 i q hq
    rw [(hget i Ts h1).2, mem_free] at h2
    obtain ⟨T, hT, sols, k1, k2, k3⟩ := h2
    obtain ⟨j, hj, rfl⟩ := List.mem_map.1 hT
    exact ⟨q', ⟨j, List.mem_range.1 hj, sols, k1, k2, k3⟩, rfl⟩
  · cases hr

/-! ## Concrete cases -/

/-- A robot that reaches every frame: the script ends with a path, so the hypotheses are met. -/
example (draws : Nat → Draws) : ∃ (p : List Config) (w' : Unit),
    toolFirst easyArm (stdHeap : PQ (WithTop ℝ) Config) id draws () = (.ok (some p), w') ∧
      p.length = 5 := by
  have hdet : Determined easyArm toolFirstScene (fun _ => True) (fun _ => some [[0]])
      (fun _ => false) 1 := by
    refine ⟨fun T => Returns.pure _, fun T sols hs q hq => ?_, fun q _ => Returns.pure _⟩
    cases hs
    rw [List.mem_singleton] at hq
    rw [hq]
    rfl
  obtain ⟨p, h, -⟩ := (C115_run hdet (C := WithTop ℝ)
    stdHeapLawful noOverflow_real (stepCost_real _) id draws).2
    (fun i _ => ⟨[0], 0, by norm_num, [[0]], rfl, by simp, rfl⟩)
  obtain ⟨w', hw, -⟩ := h () trivial
  exact ⟨p, w', hw, (C115_any hdet _ _ _ trivial hw).1⟩

/-- The same for kingpin.py. -/
example (draws : Nat → Draws) : ∃ (p : List Config) (w' : Unit),
    kingpin easyArm (stdHeap : PQ (WithTop ℝ) Config) id draws () = (.ok p, w') ∧
      p.length = 10 := by
  have hdet : Determined easyArm kingpinScene (fun _ => True) (fun _ => some [[0]])
      (fun _ => false) 1 := by
    refine ⟨fun T => Returns.pure _, fun T sols hs q hq => ?_, fun q _ => Returns.pure _⟩
    cases hs
    rw [List.mem_singleton] at hq
    rw [hq]
    rfl
  obtain ⟨p, h, -⟩ := (C114_run hdet (C := WithTop ℝ)
    stdHeapLawful noOverflow_real (stepCost_real _) id draws).2
    (fun i _ => ⟨[0], 0, 0, by norm_num, by norm_num, [[0]], rfl, by simp, rfl⟩)
  obtain ⟨w', hw, -⟩ := h () trivial
  exact ⟨p, w', hw, (C114_any hdet _ _ _ trivial hw).1⟩

end Verif.Props
