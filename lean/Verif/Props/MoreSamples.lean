import Verif.Props.TwoColumns
import Verif.Props.Settings

/-!
# C141: more configurations to choose from

With more samples per path point the columns handed to the search only grow, so the shortest path can
only become shorter.  The breadth-first search follows this; Dijkstra's search, which the planners use,
can find a longer path after configurations have been added.
-/

set_option linter.unusedSectionVars false

namespace Verif.Props

open Matrix Verif Verif.Path Verif.Geometry Verif.Kin Verif.ShortestPath Verif.CppGraph Verif.Search
  Verif.Planning Verif.Spec Verif.Task Verif.SampleSO3

variable {F C : Type} [CostArith C] [JointArith F C]

/-- Every column of the second list is an array of the same type that offers at least the
configurations of the first. -/
def Offers (Q Q' : List (PyCol F)) : Prop :=
  List.Forall₂ (fun c c' => ∃ b n rows rows', c = .arr b n rows ∧ c' = .arr b n rows' ∧
    rows ⊆ rows') Q Q'

/-- The second list of columns is the first with configurations added below. -/
def Extends (Q Q' : List (PyCol F)) : Prop :=
  List.Forall₂ (fun c c' => ∃ b n rows more, c = .arr b n rows ∧ c' = .arr b n (rows ++ more)) Q Q'

theorem Extends.offers {Q Q' : List (PyCol F)} (h : Extends Q Q') : Offers Q Q' :=
  h.imp fun _ _ ⟨b, n, rows, more, h1, h2⟩ => ⟨b, n, rows, rows ++ more, h1, h2, by simp⟩

/-- **C141** as stated, with the heap of libstdc++, exact arithmetic and non-negative weights. -/
def C141_statement : Prop :=
  ∀ (m : ShortestPath.Method) (d : Nat) (Q Q' : List (PyCol ℚ)) (w : List ℚ), (m = .bfs ∨ m = .dijkstra) →
    InputOK d Q → InputOK d Q' → Extends Q Q' → w.length = d → (∀ x ∈ w, 0 ≤ x) →
    ∀ (p p' : List (List ℚ)) (c c' : WithTop ℚ),
      getShortestPath stdHeap id Q m (some w) = .ok ⟨true, some p, some c⟩ →
      getShortestPath stdHeap id Q' m (some w) = .ok ⟨true, some p', some c'⟩ → c' ≤ c

theorem Offers.selection {Q Q' : List (PyCol F)} (h : Offers Q Q') (conv : F → F) {p : List (List F)}
    (hp : IsSelection (Q.map (asFloat32 conv)) p) : IsSelection (Q'.map (asFloat32 conv)) p := by
  unfold IsSelection at hp ⊢
  rw [List.forall₂_map_left_iff] at hp ⊢
  induction h generalizing p with
  | nil => exact hp
  | cons hc _ ih =>
    cases hp with
    | cons hx hp =>
      refine .cons ?_ (ih hp)
      obtain ⟨b, n, rows, rows', rfl, rfl, hs⟩ := hc
      cases b
      · exact List.map_subset _ hs hx
      · exact hs hx

/-- **C141** for the breadth-first search, with any arithmetic: the answer for the longer columns is at
most the answer for the shorter ones. -/
theorem C141_bfs_partial (pq : PQ C (List F)) (conv : F → F) (d : Nat) {Q Q' : List (PyCol F)}
    (hQ : InputOK d Q) (hQ' : InputOK d Q') (ho : Offers Q Q') (weights : Option (List F)) (w : List F)
    (hw : w = effWeights C d (weights.getD []))
    (hex : ∃ p, IsSelection (Q.map (asFloat32 conv)) p ∧ costL (stepCost C w) p < ⊤) :
    ∃ p p' c c', getShortestPath pq conv Q .bfs weights = .ok ⟨true, some p, some c⟩ ∧
      getShortestPath pq conv Q' .bfs weights = .ok ⟨true, some p', some c'⟩ ∧ c' ≤ c := by
  obtain ⟨p, c, h1, h2, h3, -⟩ := C10_bfs_optimal pq conv d Q hQ weights w hw hex
  obtain ⟨x, hx, hx'⟩ := hex
  obtain ⟨p', c', h1', -, -, h4⟩ := C10_bfs_optimal pq conv d Q' hQ' weights w hw
    ⟨x, ho.selection conv hx, hx'⟩
  exact ⟨p, p', c, c', h1, h1', h3 ▸ h4 p (ho.selection conv h2)⟩

/-- **C141** for Dijkstra's search with a queue that pops a node of least current distance.  Missing: the
queue that the code uses (`C141_refuted`). -/
theorem C141_partial (hno : PyGraph.NoOverflow C) (pq : PQ C (List F)) (hl : Lawful pq)
    (hmin : PopsMin hl) (conv : F → F) (d : Nat) {Q Q' : List (PyCol F)} (hQ : InputOK d Q)
    (hQ' : InputOK d Q') (ho : Offers Q Q') (weights : Option (List F)) (w : List F)
    (hw : w = effWeights C d (weights.getD [])) (hfin : ∀ x y, stepCost C w x y < ⊤)
    (hinf : ∀ x y, ∀ a : C, a ≤ a + stepCost C w x y) :
    ∃ p p' c c', getShortestPath pq conv Q .dijkstra weights = .ok ⟨true, some p, some c⟩ ∧
      getShortestPath pq conv Q' .dijkstra weights = .ok ⟨true, some p', some c'⟩ ∧ c' ≤ c := by
  obtain ⟨p, c, h1, h2, h3, -⟩ := C12_dijkstra_optimal_partial hno pq hl hmin conv d Q hQ weights w hw
    (fun x _ y _ => hfin x y) (fun x _ y _ => hinf x y)
  obtain ⟨p', c', h1', -, -, h4⟩ := C12_dijkstra_optimal_partial hno pq hl hmin conv d Q' hQ' weights w
    hw (fun x _ y _ => hfin x y) (fun x _ y _ => hinf x y)
  exact ⟨p, p', c, c', h1, h1', h3 ▸ h4 p (ho.selection conv h2)⟩

/-- **C141** with the heap of libstdc++ and at most two columns. -/
theorem C141_two_columns_partial (hno : PyGraph.NoOverflow C) (conv : F → F) (d : Nat)
    {Q Q' : List (PyCol F)} (hQ : InputOK d Q)
    (hQ' : InputOK d Q') (ho : Offers Q Q') (hlen : Q.length ≤ 2) (weights : Option (List F))
    (w : List F) (hw : w = effWeights C d (weights.getD [])) (hfin : ∀ x y, stepCost C w x y < ⊤)
    (hinf : ∀ x y, ∀ a : C, a ≤ a + stepCost C w x y) :
    ∃ p p', ∃ c c' : C, getShortestPath stdHeap conv Q .dijkstra weights = .ok ⟨true, some p, some c⟩ ∧
      getShortestPath stdHeap conv Q' .dijkstra weights = .ok ⟨true, some p', some c'⟩ ∧ c' ≤ c := by
  obtain ⟨p, c, h1, h2, h3, -⟩ := C12_two_columns_partial hno conv d Q hQ hlen weights w hw
    (fun x _ y _ => hfin x y) (fun x _ y _ => hinf x y)
  obtain ⟨p', c', h1', -, -, h4⟩ := C12_two_columns_partial hno conv d Q' hQ'
    (by rw [← ho.length_eq]; exact hlen) weights w hw (fun x _ y _ => hfin x y)
    (fun x _ y _ => hinf x y)
  exact ⟨p, p', c, c', h1, h1', h3 ▸ h4 p (ho.selection conv h2)⟩

/-- Five columns of one joint value, two samples each. -/
def fewSamples : List (PyCol ℚ) :=
  [.arr true 1 [[6], [3]], .arr true 1 [[2], [8]], .arr true 1 [[7], [4]], .arr true 1 [[9], [4]],
    .arr true 1 [[1], [3]]]

/-- The same with two more samples each. -/
def manySamples : List (PyCol ℚ) :=
  [.arr true 1 ([[6], [3]] ++ [[4], [1]]), .arr true 1 ([[2], [8]] ++ [[10], [10]]),
    .arr true 1 ([[7], [4]] ++ [[5], [4]]), .arr true 1 ([[9], [4]] ++ [[3], [8]]),
    .arr true 1 ([[1], [3]] ++ [[10], [1]])]

/-- **C141** is false: with two samples per point Dijkstra's search finds a path of length 6, with four,
among them these two, one of length 10. -/
theorem C141_longer :
    getShortestPath (C := WithTop ℚ) stdHeap id fewSamples .dijkstra (some [1]) =
      .ok ⟨true, some [[3], [2], [4], [4], [3]], some ((6 : ℚ) : WithTop ℚ)⟩ ∧
    getShortestPath (C := WithTop ℚ) stdHeap id manySamples .dijkstra (some [1]) =
      .ok ⟨true, some [[6], [8], [7], [9], [10]], some ((10 : ℚ) : WithTop ℚ)⟩ := by
  have h : (getShortestPath (C := WithTop ℚ) stdHeap id fewSamples .dijkstra
      (some [1])).toOption.map (fun r => (r.success, r.path, r.length)) =
      some (true, some [[3], [2], [4], [4], [3]], some ((6 : ℚ) : WithTop ℚ)) := by decide +kernel
  have h' : (getShortestPath (C := WithTop ℚ) stdHeap id manySamples .dijkstra
      (some [1])).toOption.map (fun r => (r.success, r.path, r.length)) =
      some (true, some [[6], [8], [7], [9], [10]], some ((10 : ℚ) : WithTop ℚ)) := by decide +kernel
  obtain ⟨⟨a, b, c⟩, h1, h2⟩ := of_toOption_map h
  obtain ⟨⟨a', b', c'⟩, h1', h2'⟩ := of_toOption_map h'
  simp only [Prod.mk.injEq] at h2 h2'
  obtain ⟨rfl, rfl, rfl⟩ := h2
  obtain ⟨rfl, rfl, rfl⟩ := h2'
  exact ⟨h1, h1'⟩

theorem fewSamples_ok : InputOK 1 fewSamples := by
  refine ⟨by simp [fewSamples], ?_, by simp [fewSamples, PyCol.isF32]⟩
  intro c hc
  simp only [fewSamples, List.mem_cons, List.not_mem_nil, or_false] at hc
  rcases hc with rfl | rfl | rfl | rfl | rfl <;> simp [PyCol.Proper]

theorem manySamples_ok : InputOK 1 manySamples := by
  refine ⟨by simp [manySamples], ?_, by simp [manySamples, PyCol.isF32]⟩
  intro c hc
  simp only [manySamples, List.mem_cons, List.not_mem_nil, or_false] at hc
  rcases hc with rfl | rfl | rfl | rfl | rfl <;> simp [PyCol.Proper]

theorem samples_extend : Extends fewSamples manySamples :=
  .cons ⟨_, _, _, _, rfl, rfl⟩ (.cons ⟨_, _, _, _, rfl, rfl⟩ (.cons ⟨_, _, _, _, rfl, rfl⟩
    (.cons ⟨_, _, _, _, rfl, rfl⟩ (.cons ⟨_, _, _, _, rfl, rfl⟩ .nil))))

theorem C141_refuted : ¬ C141_statement := by
  intro h
  have := h .dijkstra 1 fewSamples manySamples [1] (.inr rfl) fewSamples_ok manySamples_ok
    samples_extend rfl (by simp) _ _ _ _ C141_longer.1 C141_longer.2
  exact absurd (WithTop.coe_le_coe.1 this) (by norm_num)

/-! ## The planner -/

noncomputable section

variable {D W S O : Type} [CostArith D] [JointArith ℝ D] {Inv : W → Prop} {arm : Arm W S}
  {scene : Collection S} {ikf : M4 → Option (List Config)} {hit : Config → Bool} {d : Nat}

/-- The task of the points `ps` with any orientation, with `n` orientations to be tried per point. -/
def freeTask (ps : List V3) (scene : Collection S) (n : Nat) : PlanningTask S :=
  { PlanningTask.new (ps.map fun p => .free (.new p)) (some scene) with gridSamples := n }

/-- The frames that are tried. -/
def freeFrames (draws : Nat → Draws) (ps : List V3) (n : Nat) : List (List M4) :=
  ps.zipIdx.map fun pi => (List.range n).map fun (j : Nat) => freeFrame ((draws pi.2).rnd j) pi.1

theorem freeFrames_samples (draws : Nat → Draws) (ps : List V3) (scene : Collection S) (n : Nat) :
    SamplesOf draws n (freeTask ps scene n).path (freeFrames draws ps n) := by
  refine ⟨by simp [freeFrames, freeTask, PlanningTask.new], fun i tp Ts h1 h2 => ?_⟩
  simp only [freeTask, PlanningTask.new, List.getElem?_map, Option.map_eq_some_iff] at h1
  obtain ⟨p, hp, rfl⟩ := h1
  simp only [freeFrames, List.getElem?_map, List.getElem?_zipIdx, hp, Option.map_some,
    Option.some.injEq] at h2
  subst h2
  rw [free_samples]
  simp only [Nat.zero_add, FreeOrientationPt.new]

theorem freeFrames_sub (draws : Nat → Draws) (ps : List V3) {n m : Nat} (hnm : n ≤ m) :
    List.Forall₂ (fun Ts Ts' : List M4 => Ts ⊆ Ts') (freeFrames draws ps n) (freeFrames draws ps m) := by
  unfold freeFrames
  rw [List.forall₂_map_left_iff, List.forall₂_map_right_iff, List.forall₂_same]
  exact fun pi _ => List.map_subset _ (List.range_subset.2 hnm)

/-- Every point has a collision-free solution among its frames. -/
def Solvable (ikf : M4 → Option (List Config)) (hit : Config → Bool) (draws : Nat → Draws)
    (ps : List V3) (n : Nat) : Prop :=
  ∀ (i : Nat) (p : V3), ps[i]? = some p → ∃ (j : Nat) (sols : List Config) (q : Config),
    j < n ∧ ikf (freeFrame ((draws i).rnd j) p) = some sols ∧ q ∈ sols ∧ hit q = false

theorem Solvable.frames {draws : Nat → Draws} {ps : List V3} {n : Nat}
    (hex : Solvable ikf hit draws ps n) : ∀ Ts ∈ freeFrames draws ps n, ∃ T ∈ Ts, ∃ sols,
      ikf T = some sols ∧ ∃ q ∈ sols, hit q = false := by
  intro Ts hTs
  obtain ⟨⟨p, i⟩, hpi, rfl⟩ := List.mem_map.1 hTs
  have hp : ps[i]? = some p := by simpa using List.mem_zipIdx_iff_getElem?.1 hpi
  obtain ⟨j, sols, q, e1, e2, e3, e4⟩ := hex i p hp
  exact ⟨_, List.mem_map.2 ⟨j, List.mem_range.2 e1, rfl⟩, sols, e2, q, e3, e4⟩

theorem Solvable.mono {draws : Nat → Draws} {ps : List V3} {n m : Nat} (hnm : n ≤ m)
    (hex : Solvable ikf hit draws ps n) : Solvable ikf hit draws ps m := by
  intro i p hp
  obtain ⟨j, sols, q, e1, e2⟩ := hex i p hp
  exact ⟨j, sols, q, lt_of_lt_of_le e1 hnm, e2⟩

/-- The grid planner succeeds exactly on the solvable tasks. -/
theorem free_solvable (h : Determined arm scene Inv ikf hit d) (pq : PQ D Config) (conv : ℝ → ℝ)
    (draws : Nat → Nat → Draws) (time : Nat → ℝ) (fuel : Nat)
    (optimal : List PathPt → Collection S → Nat → List (List ℝ) → Run W O) {ps : List V3} {n : Nat}
    {w w' : W} (hw : Inv w) {pr : PlanRes ℝ D}
    (hr : PlanningTask.solve (freeTask ps scene n) arm pq conv draws time fuel optimal (some "grid") w =
      (.ok (.plan pr), w')) (hs : pr.success = true) : Solvable ikf hit (draws 0) ps n := by
  obtain ⟨pr', h1, h2⟩ := C66_reach (Reach := fun q T => ∃ sols, ikf T = some sols ∧ q ∈ sols) h
    (fun T sols q a b _ => ⟨sols, a, b⟩) (freeTask ps scene n) rfl pq conv draws time fuel optimal rfl
    hw hr
  cases h1
  obtain ⟨path, -, e2, e3⟩ := h2 hs
  intro i p hp
  have hi : i < path.length := by
    rw [e2]
    simpa [freeTask, PlanningTask.new] using (List.getElem?_eq_some_iff.1 hp).1
  obtain ⟨tp, Ts, q', f1, f2, -, f4, T, f5, sols, f6, f7⟩ := e3 i _ (List.getElem?_eq_getElem hi)
  simp only [freeTask, PlanningTask.new, List.getElem?_map, hp, Option.map_some,
    Option.some.injEq] at f1
  subst f1
  rw [free_samples, Except.ok.injEq] at f2
  rw [← f2] at f5
  obtain ⟨j, hj, rfl⟩ := List.mem_map.1 f5
  exact ⟨j, sols, q', List.mem_range.1 hj, f6, f7, f4⟩

/-- **C141** for the grid planner, whether it succeeds: if it succeeds with `n` orientations per point,
then also with `m ≥ n`, when the random numbers are the same, with every queue that neither loses nor
invents nodes. -/
theorem C141_succeeds (h : Determined arm scene Inv ikf hit d) {pq : PQ D Config} (hl : Lawful pq)
    (hno : PyGraph.NoOverflow D) (hfin : ∀ x y : Config, stepCost D (effWeights D d []) x y < ⊤)
    (conv : ℝ → ℝ) (draws : Nat → Nat → Draws) (time : Nat → ℝ) (fuel : Nat)
    (optimal : List PathPt → Collection S → Nat → List (List ℝ) → Run W O) {ps : List V3}
    (hne : ps ≠ []) {n m : Nat} (hnm : n ≤ m) {w w' : W} (hw : Inv w) {pr : PlanRes ℝ D}
    (hr : PlanningTask.solve (freeTask ps scene n) arm pq conv draws time fuel optimal (some "grid") w =
      (.ok (.plan pr), w')) (hs : pr.success = true) :
    ∃ path c, Returns Inv (PlanningTask.solve (freeTask ps scene m) arm pq conv draws time fuel optimal
      (some "grid")) (.plan ⟨true, some path, some c⟩) := by
  have hm := (free_solvable h pq conv draws time fuel optimal hw hr hs).mono hnm
  obtain ⟨path, c, h1, -⟩ := C66_succeeds h hl hno hfin (freeTask ps scene m) rfl
    (by simpa [freeTask, PlanningTask.new] using hne) conv draws time fuel optimal
    (freeFrames_samples (draws 0) ps scene m) hm.frames
  exact ⟨path, c, h1⟩

/-- **C141** for the grid planner with a queue that pops a node of least current distance: the path
found with `m ≥ n` orientations per point costs at most as much as the one found with `n`.  Missing: the
queue that the code uses. -/
theorem C141_planner_partial (h : Determined arm scene Inv ikf hit d) {pq : PQ D Config} (hl : Lawful pq)
    (hmin : PopsMin hl)
    (hno : PyGraph.NoOverflow D) (hfin : ∀ x y : Config, stepCost D (effWeights D d []) x y < ⊤)
    (hinf : ∀ x y : Config, ∀ a : D, a ≤ a + stepCost D (effWeights D d []) x y)
    (conv : ℝ → ℝ) (draws : Nat → Nat → Draws) (time : Nat → ℝ) (fuel : Nat)
    (optimal : List PathPt → Collection S → Nat → List (List ℝ) → Run W O) {ps : List V3}
    (hne : ps ≠ []) {n m : Nat} (hnm : n ≤ m) (hex : Solvable ikf hit (draws 0) ps n) :
    ∃ p p' c c', Returns Inv (PlanningTask.solve (freeTask ps scene n) arm pq conv draws time fuel
        optimal (some "grid")) (.plan ⟨true, some p, some c⟩) ∧
      Returns Inv (PlanningTask.solve (freeTask ps scene m) arm pq conv draws time fuel
        optimal (some "grid")) (.plan ⟨true, some p', some c'⟩) ∧ c' ≤ c := by
  have key : ∀ k, Solvable ikf hit (draws 0) ps k →
      InputOK d ((freeFrames (draws 0) ps k).map fun Ts => colOf conv d (free ikf hit Ts)) ∧
      ∀ res : PlanRes ℝ D, getShortestPath pq conv
        ((freeFrames (draws 0) ps k).map fun Ts => colOf conv d (free ikf hit Ts)) .dijkstra none =
          .ok res →
      Returns Inv (PlanningTask.solve (freeTask ps scene k) arm pq conv draws time fuel
        optimal (some "grid")) (.plan res) := by
    intro k hk
    have hs := freeFrames_samples (draws 0) ps scene k
    refine ⟨gridColumns_ok h (by simpa [freeTask, PlanningTask.new] using hne) conv hs hk.frames,
      fun res hres => ?_⟩
    have hr := noRedundancyLoop_returns h conv (draws 0) k (freeTask ps scene k).path _ 0
      (by simpa using hs) []
    rw [List.nil_append] at hr
    exact (C65_dispatch_partial (freeTask ps scene k) rfl arm pq conv draws time fuel optimal).1 _ _
      hr hres
  obtain ⟨a1, a2⟩ := key n hex
  obtain ⟨b1, b2⟩ := key m (hex.mono hnm)
  obtain ⟨p, p', c, c', h1, h2, h3⟩ := C141_partial hno pq hl hmin conv d a1 b1 (by
    unfold Offers
    rw [List.forall₂_map_left_iff, List.forall₂_map_right_iff]
    have hf := hex.frames
    have hsub := freeFrames_sub (draws 0) ps hnm
    clear a1 a2 b1 b2
    revert hf
    generalize freeFrames (draws 0) ps n = A at hsub ⊢
    generalize freeFrames (draws 0) ps m = B at hsub ⊢
    induction hsub with
    | nil => exact fun _ => .nil
    | @cons Ts Ts' _ _ hsub _ ih =>
      intro hf
      refine .cons ?_ (ih fun Ts h => hf Ts (by simp [h]))
      obtain ⟨T, hT, sols, g1, q, g2, g3⟩ := hf Ts (by simp)
      have m1 : q ∈ free ikf hit Ts := mem_free.2 ⟨T, hT, sols, g1, g2, g3⟩
      have m2 : q ∈ free ikf hit Ts' := mem_free.2 ⟨T, hsub hT, sols, g1, g2, g3⟩
      refine ⟨true, d, (free ikf hit Ts).map (List.map conv), (free ikf hit Ts').map (List.map conv),
        by rw [colOf, if_neg (List.ne_nil_of_mem m1)], by rw [colOf, if_neg (List.ne_nil_of_mem m2)],
        List.map_subset _ fun x hx => ?_⟩
      obtain ⟨T, hT, sols, k1, k2, k3⟩ := mem_free.1 hx
      exact mem_free.2 ⟨T, hsub hT, sols, k1, k2, k3⟩) none
    (effWeights D d []) rfl hfin hinf
  exact ⟨p, p', c, c', a2 _ h1, b2 _ h2, h3⟩

/-! ## Concrete cases -/

/-- The breadth-first search on the columns of `C141_longer`. -/
example : ∃ p p' c c',
    getShortestPath (C := WithTop ℚ) stdHeap id fewSamples .bfs (some [1]) =
      .ok ⟨true, some p, some c⟩ ∧
    getShortestPath (C := WithTop ℚ) stdHeap id manySamples .bfs (some [1]) =
      .ok ⟨true, some p', some c'⟩ ∧ c' ≤ c :=
  C141_bfs_partial stdHeap id 1 fewSamples_ok manySamples_ok samples_extend.offers (some [1]) _ rfl
    ⟨[[3], [2], [4], [4], [3]], .cons (by simp [asFloat32]) (.cons (by simp [asFloat32])
      (.cons (by simp [asFloat32]) (.cons (by simp [asFloat32]) (.cons (by simp [asFloat32]) .nil)))),
      by decide +kernel⟩

theorem costFrom2_nonneg (acc : WithTop ℝ) (hacc : 0 ≤ acc) (w a b : List ℝ) (hw : ∀ x ∈ w, 0 ≤ x) :
    0 ≤ costFrom2 acc w a b := by
  induction w generalizing acc a b with
  | nil => cases a <;> cases b <;> exact hacc
  | cons w ws ih =>
    cases a with
    | nil => exact hacc
    | cons a as =>
      cases b with
      | nil => exact hacc
      | cons b bs =>
        refine ih _ (add_nonneg hacc ?_) as bs fun x hx => hw x (by simp [hx])
        exact WithTop.coe_nonneg.2 (mul_nonneg (hw w (by simp)) (sq_nonneg _))

theorem stepCost_nonneg (d : Nat) (x y : List ℝ) (a : WithTop ℝ) :
    a ≤ a + stepCost (WithTop ℝ) (effWeights (WithTop ℝ) d []) x y := by
  refine le_add_of_nonneg_right (costFrom2_nonneg 0 le_rfl _ _ _ fun x hx => ?_)
  unfold effWeights at hx
  split_ifs at hx
  · cases hx
  · rw [List.eq_of_mem_replicate hx]
    exact zero_le_one

/-- An arm whose only joint value depends on the orientation that is asked for. -/
def turnArm : Arm Unit Shape :=
  ⟨fun T => pure (some [[T 0 0]]), fun _ _ => pure none, fun _ _ => pure false, fun _ => pure 1⟩

theorem turnArm_determined (scene : Collection Shape) :
    Determined turnArm scene (fun _ => True) (fun T => some [[T 0 0]]) (fun _ => false) 1 :=
  ⟨fun T => Returns.pure _, fun T sols hs q hq => by
    cases hs
    rw [List.mem_singleton.1 hq]
    rfl, fun q _ => Returns.pure _⟩

/-- Two columns; the second list offers one row more in each. -/
example : ∃ p p', ∃ c c' : WithTop ℝ,
    getShortestPath (C := WithTop ℝ) stdHeap id
      ([.arr true 1 [[0]], .arr true 1 [[5]]] : List (PyCol ℝ)) .dijkstra none =
        .ok ⟨true, some p, some c⟩ ∧
    getShortestPath (C := WithTop ℝ) stdHeap id
      ([.arr true 1 [[0], [4]], .arr true 1 [[5], [8]]] : List (PyCol ℝ)) .dijkstra none =
        .ok ⟨true, some p', some c'⟩ ∧ c' ≤ c := by
  refine C141_two_columns_partial noOverflow_real id 1 ⟨by simp, ?_, by simp [PyCol.isF32]⟩
    ⟨by simp, ?_, by simp [PyCol.isF32]⟩ (.cons ⟨_, _, _, _, rfl, rfl, by simp⟩
      (.cons ⟨_, _, _, _, rfl, rfl, by simp⟩ .nil)) (by simp) none _ rfl
    (fun x y => stepCost_real _ x y) (fun x y a => stepCost_nonneg 1 x y a)
  all_goals
    intro c hc
    simp only [List.mem_cons, List.not_mem_nil, or_false] at hc
    rcases hc with rfl | rfl <;> simp [PyCol.Proper]

/-- Two points, two or three orientations each, among a box. -/
example (draws : Nat → Nat → Draws) (time : Nat → ℝ) (fuel : Nat) :
    ∃ p p', ∃ c c' : WithTop ℝ,
      Returns (fun _ => True) (PlanningTask.solve (freeTask [0, ![1, 1, 1]] ⟨[⟨1, 1, 1⟩], [1]⟩ 2) turnArm
        scanQueue id draws time fuel (fun _ _ _ _ => pure ()) (some "grid"))
        (.plan ⟨true, some p, some c⟩) ∧
      Returns (fun _ => True) (PlanningTask.solve (freeTask [0, ![1, 1, 1]] ⟨[⟨1, 1, 1⟩], [1]⟩ 3) turnArm
        scanQueue id draws time fuel (fun _ _ _ _ => pure ()) (some "grid"))
        (.plan ⟨true, some p', some c'⟩) ∧ c' ≤ c :=
  C141_planner_partial (turnArm_determined _) scanLawful
    (fun s q n q' h => (scan_some s q n q' h).2) noOverflow_real (fun x y => stepCost_real _ x y)
    (stepCost_nonneg 1) id draws time fuel _ (by simp) (by norm_num)
    (fun i p _ => ⟨0, _, _, by norm_num, rfl, List.mem_singleton.2 rfl, rfl⟩)

end

end Verif.Props
