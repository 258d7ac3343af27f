import Verif.Props.MoreSamples
import Verif.Props.NoShorter

/-!
# C153: a path followed backwards

The cost of a joint path is the sum of the squares of its moves, so a path costs the same forwards and
backwards, and the shortest path through the columns in reverse order is as long as the one through the
columns in order.  The breadth-first search and Dijkstra's search with a queue that is kept in order
follow this; the search that the planners use can report another length for the reversed path.
-/

set_option linter.unusedSectionVars false

namespace Verif.Props

open Matrix Verif Verif.Path Verif.Geometry Verif.Kin Verif.ShortestPath Verif.CppGraph Verif.Search
  Verif.Planning Verif.Spec Verif.Task Verif.SampleSO3

/-- **C153** as stated, with the heap of libstdc++, exact arithmetic and non-negative weights. -/
def C153_statement : Prop :=
  ∀ (m : ShortestPath.Method) (d : Nat) (Q : List (PyCol ℚ)) (w : List ℚ), (m = .bfs ∨ m = .dijkstra) →
    InputOK d Q → InputOK d Q.reverse → w.length = d → (∀ x ∈ w, 0 ≤ x) →
    ∀ (p p' : List (List ℚ)) (c c' : WithTop ℚ),
      getShortestPath stdHeap id Q m (some w) = .ok ⟨true, some p, some c⟩ →
      getShortestPath stdHeap id Q.reverse m (some w) = .ok ⟨true, some p', some c'⟩ → c' = c

/-! ## Reversed lists -/

theorem isSelection_reverse {α : Type} {cols : List (List α)} {p : List α}
    (h : IsSelection cols p) : IsSelection cols.reverse p.reverse := by
  unfold IsSelection at h ⊢
  induction h with
  | nil => exact .nil
  | cons hx _ ih =>
    rw [List.reverse_cons, List.reverse_cons]
    exact List.rel_append ih (.cons hx .nil)

/-- A sum over the steps of a list is the same backwards, when the summand is symmetric. -/
theorem steps_reverse {α β : Type} [AddCommMonoid β] (g : α → α → β) (hg : ∀ x y, g x y = g y x)
    (p : List α) : ((p.reverse.zip p.reverse.tail).map fun t => g t.1 t.2).sum =
      ((p.zip p.tail).map fun t => g t.1 t.2).sum := by
  have snoc : ∀ (q : List α) (x : α), (((q ++ [x]).zip (q ++ [x]).tail).map fun t => g t.1 t.2).sum =
      ((q.zip q.tail).map fun t => g t.1 t.2).sum + (q.getLast?.map fun y => g y x).getD 0 := by
    intro q x
    induction q with
    | nil => simp
    | cons y q ih =>
      cases q with
      | nil => simp
      | cons z q =>
        simp only [List.cons_append, List.tail_cons, List.zip_cons_cons, List.map_cons,
          List.sum_cons, List.getLast?_cons_cons] at ih ⊢
        rw [ih, add_assoc]
  induction p with
  | nil => rfl
  | cons x p ih =>
    rw [List.reverse_cons, snoc, ih, List.getLast?_reverse]
    cases p with
    | nil => simp
    | cons y p =>
      simp only [List.head?_cons, Option.map_some, Option.getD_some, List.tail_cons,
        List.zip_cons_cons, List.map_cons, List.sum_cons]
      rw [hg y x, add_comm]

/-- A path is as long backwards as forwards. -/
theorem pathLen_reverse (w : List ℚ) (p : List (List ℚ)) : pathLen w p.reverse = pathLen w p :=
  steps_reverse (sqDist w) (sqDist_symm w) p

/-- The moves of a path cost the same backwards. -/
theorem moveCost_reverse (p : List Config) : moveCost p.reverse = moveCost p := by
  refine steps_reverse (fun x y : Config => ((x.zip y).map fun u => (u.1 - u.2) ^ 2).sum) ?_ p
  intro x y
  induction x generalizing y with
  | nil => simp
  | cons a x ih =>
    cases y with
    | nil => simp
    | cons b y =>
      simp only [List.zip_cons_cons, List.map_cons, List.sum_cons]
      rw [ih y]
      ring

/-! ## The search -/

theorem selection_back {F : Type} {conv : F → F} {Q : List (PyCol F)} {p : List (List F)}
    (h : IsSelection (Q.map (asFloat32 conv)) p) :
    IsSelection (Q.reverse.map (asFloat32 conv)) p.reverse := by
  rw [List.map_reverse]
  exact isSelection_reverse h

theorem selection_back' {F : Type} {conv : F → F} {Q : List (PyCol F)} {p : List (List F)}
    (h : IsSelection (Q.reverse.map (asFloat32 conv)) p) :
    IsSelection (Q.map (asFloat32 conv)) p.reverse := by
  have := selection_back h
  rwa [List.reverse_reverse] at this

/-- **C153** for the breadth-first search in exact arithmetic and all weights: both directions have the same
length, and the path that is found for one is, backwards, a shortest path for the other. -/
theorem C153_bfs_partial (pq : PQ (WithTop ℚ) (List ℚ)) (conv : ℚ → ℚ) (d : Nat) {Q : List (PyCol ℚ)}
    (hQ : InputOK d Q) (hQ' : InputOK d Q.reverse) (weights : Option (List ℚ)) :
    ∃ p p', ∃ c : WithTop ℚ, getShortestPath pq conv Q .bfs weights = .ok ⟨true, some p, some c⟩ ∧
      getShortestPath pq conv Q.reverse .bfs weights = .ok ⟨true, some p', some c⟩ ∧
      ∀ x, IsSelection (Q.map (asFloat32 conv)) x →
        pathLen (weightsFor d weights) p'.reverse ≤ pathLen (weightsFor d weights) x := by
  obtain ⟨p, h1, h2, h3⟩ := C10_bfs_optimal_exact pq conv d Q hQ weights
  obtain ⟨p', h1', h2', h3'⟩ := C10_bfs_optimal_exact pq conv d Q.reverse hQ' weights
  have e : pathLen (weightsFor d weights) p' = pathLen (weightsFor d weights) p := by
    refine le_antisymm ?_ ?_
    · have := h3' _ (selection_back h2)
      rwa [pathLen_reverse] at this
    · have := h3 _ (selection_back' h2')
      rwa [pathLen_reverse] at this
  refine ⟨p, p', _, h1, by rw [h1', e], fun x hx => ?_⟩
  rw [pathLen_reverse, e]
  exact h3 x hx

/-- What Dijkstra's search reports in exact arithmetic with non-negative weights, when the queue pops a
node of least current distance. -/
theorem dijkstra_exact (pq : PQ (WithTop ℚ) (List ℚ)) (hl : Lawful pq) (hmin : PopsMin hl)
    (conv : ℚ → ℚ) (d : Nat) (Q : List (PyCol ℚ)) (hQ : InputOK d Q) (weights : Option (List ℚ))
    (hpos : ∀ x ∈ weightsFor d weights, 0 ≤ x) :
    ∃ path, getShortestPath pq conv Q .dijkstra weights =
        .ok ⟨true, some path, some ((pathLen (weightsFor d weights) path : ℚ) : WithTop ℚ)⟩ ∧
      IsSelection (Q.map (asFloat32 conv)) path ∧
      ∀ p, IsSelection (Q.map (asFloat32 conv)) p →
        pathLen (weightsFor d weights) path ≤ pathLen (weightsFor d weights) p := by
  obtain ⟨path, c, h1, h2, h3, h4⟩ := C12_dijkstra_optimal_partial noOverflow_rat pq hl hmin conv d Q hQ
    weights (weightsFor d weights) rfl
    (fun x _ y _ => by rw [stepCost_rat]; exact WithTop.coe_lt_top _)
    (fun x _ y _ a => by
      rw [stepCost_rat]
      have : (0 : WithTop ℚ) ≤ ((sqDist (weightsFor d weights) x y : ℚ) : WithTop ℚ) := by
        exact_mod_cast sqDist_nonneg _ hpos x y
      calc a = a + 0 := (add_zero a).symm
        _ ≤ _ := add_le_add le_rfl this)
  rw [costL_rat] at h3
  subst h3
  refine ⟨path, h1, h2, fun p hp => ?_⟩
  have := h4 p hp
  rw [costL_rat] at this
  exact WithTop.coe_le_coe.1 this

/-- **C153** for Dijkstra's search with a queue that pops a node of least current distance.  Missing: the
queue that the code uses (`C153_refuted`). -/
theorem C153_partial (pq : PQ (WithTop ℚ) (List ℚ)) (hl : Lawful pq) (hmin : PopsMin hl)
    (conv : ℚ → ℚ) (d : Nat) {Q : List (PyCol ℚ)} (hQ : InputOK d Q) (hQ' : InputOK d Q.reverse)
    (weights : Option (List ℚ)) (hpos : ∀ x ∈ weightsFor d weights, 0 ≤ x) :
    ∃ p p', ∃ c : WithTop ℚ, getShortestPath pq conv Q .dijkstra weights = .ok ⟨true, some p, some c⟩ ∧
      getShortestPath pq conv Q.reverse .dijkstra weights = .ok ⟨true, some p', some c⟩ := by
  obtain ⟨p, h1, h2, h3⟩ := dijkstra_exact pq hl hmin conv d Q hQ weights hpos
  obtain ⟨p', h1', h2', h3'⟩ := dijkstra_exact pq hl hmin conv d Q.reverse hQ' weights hpos
  have e : pathLen (weightsFor d weights) p' = pathLen (weightsFor d weights) p := by
    refine le_antisymm ?_ ?_
    · have := h3' _ (selection_back h2)
      rwa [pathLen_reverse] at this
    · have := h3 _ (selection_back' h2')
      rwa [pathLen_reverse] at this
  exact ⟨p, p', _, h1, by rw [h1', e]⟩

/-- **C153** with the heap of libstdc++ and at most two columns. -/
theorem C153_two_columns_partial (conv : ℚ → ℚ) (d : Nat) {Q : List (PyCol ℚ)} (hQ : InputOK d Q)
    (hQ' : InputOK d Q.reverse) (hlen : Q.length ≤ 2) (weights : Option (List ℚ))
    (hpos : ∀ x ∈ weightsFor d weights, 0 ≤ x) :
    ∃ p p', ∃ c : WithTop ℚ,
      getShortestPath stdHeap conv Q .dijkstra weights = .ok ⟨true, some p, some c⟩ ∧
      getShortestPath stdHeap conv Q.reverse .dijkstra weights = .ok ⟨true, some p', some c⟩ := by
  obtain ⟨p, h1, h2, h3⟩ := C12_two_columns_exact_partial conv d Q hQ hlen weights hpos
  obtain ⟨p', h1', h2', h3'⟩ := C12_two_columns_exact_partial conv d Q.reverse hQ' (by simpa using hlen)
    weights hpos
  have e : pathLen (weightsFor d weights) p' = pathLen (weightsFor d weights) p := by
    refine le_antisymm ?_ ?_
    · have := h3' _ (selection_back h2)
      rwa [pathLen_reverse] at this
    · have := h3 _ (selection_back' h2')
      rwa [pathLen_reverse] at this
  exact ⟨p, p', _, h1, by rw [h1', e]⟩

/-- **C153** is false: through these five columns Dijkstra's search finds a path of length 10, through the
same columns in reverse order one of length 6. -/
theorem C153_shorter :
    getShortestPath (C := WithTop ℚ) stdHeap id manySamples.reverse .dijkstra (some [1]) =
      .ok ⟨true, some [[3], [3], [4], [2], [3]], some ((6 : ℚ) : WithTop ℚ)⟩ := by
  have h : (getShortestPath (C := WithTop ℚ) stdHeap id manySamples.reverse .dijkstra
      (some [1])).toOption.map (fun r => (r.success, r.path, r.length)) =
      some (true, some [[3], [3], [4], [2], [3]], some ((6 : ℚ) : WithTop ℚ)) := by decide +kernel
  obtain ⟨⟨a, b, c⟩, h1, h2⟩ := of_toOption_map h
  simp only [Prod.mk.injEq] at h2
  obtain ⟨rfl, rfl, rfl⟩ := h2
  exact h1

theorem manySamples_back_ok : InputOK 1 manySamples.reverse :=
  ⟨by simp [manySamples], fun c hc => manySamples_ok.col c (List.mem_reverse.1 hc),
    by simp [manySamples, PyCol.isF32]⟩

theorem C153_refuted : ¬ C153_statement := by
  intro h
  have := h .dijkstra 1 manySamples [1] (.inr rfl) manySamples_ok manySamples_back_ok rfl (by simp)
    _ _ _ _ C141_longer.2 C153_shorter
  exact absurd (WithTop.coe_inj.1 this) (by norm_num)

/-- The hypotheses of the positive results are met by the columns of the counterexample. -/
example : ∃ p p', ∃ c : WithTop ℚ,
    getShortestPath scanQueue id manySamples .dijkstra (some [1]) = .ok ⟨true, some p, some c⟩ ∧
    getShortestPath scanQueue id manySamples.reverse .dijkstra (some [1]) =
      .ok ⟨true, some p', some c⟩ :=
  C153_partial scanQueue scanLawful (fun s q n q' h => (scan_some s q n q' h).2) id 1 manySamples_ok
    manySamples_back_ok (some [1]) (by simp [weightsFor, effWeights])

example : ∃ p p', ∃ c : WithTop ℚ,
    getShortestPath stdHeap id manySamples .bfs (some [1]) = .ok ⟨true, some p, some c⟩ ∧
    getShortestPath stdHeap id manySamples.reverse .bfs (some [1]) = .ok ⟨true, some p', some c⟩ := by
  obtain ⟨p, p', c, h, h', -⟩ := C153_bfs_partial stdHeap id 1 manySamples_ok manySamples_back_ok (some [1])
  exact ⟨p, p', c, h, h'⟩

/-! ## The planner -/

noncomputable section

variable {O W S : Type} {Inv : W → Prop} {arm : Arm W S}
  {scene : Collection S} {ikf : M4 → Option (List Config)} {hit : Config → Bool} {d : Nat}

/-- The random numbers of the points taken in reverse order. -/
def backDraws (n : Nat) (draws : Nat → Draws) : Nat → Draws := fun i => draws (n - 1 - i)

theorem samplesOf_back {draws : Nat → Draws} {n : Nat} {path : List PathPt} {samples : List (List M4)}
    (h : SamplesOf draws n path samples) :
    SamplesOf (backDraws path.length draws) n path.reverse samples.reverse := by
  refine ⟨by simpa using h.1, fun i tp Ts h1 h2 => ?_⟩
  have hi : i < path.length := by
    have := (List.getElem?_eq_some_iff.1 h1).1
    simpa using this
  rw [List.getElem?_reverse hi] at h1
  rw [List.getElem?_reverse (by rw [h.1]; exact hi), h.1] at h2
  exact h.2 _ tp Ts h1 h2

/-- **C153** for the grid planner of a robot whose inverse kinematics and collision checks are determined
by the configuration: when the search is right, the planned path for the points in reverse order, with the
same samples, costs as much as the planned path for the points in order.  Missing: the heap of the code
for more than two points. -/
theorem C153_plan_partial (h : Determined arm scene Inv ikf hit d) {pq : PQ (WithTop ℝ) Config}
    (t : PlanningTask S) (hf : FindsShortest pq t.path.length) (ht : t.scene = some scene)
    (hne : t.path ≠ []) (draws : Nat → Nat → Draws) (time : Nat → ℝ) (fuel : Nat)
    (optimal : List PathPt → Collection S → Nat → List (List ℝ) → Run W O)
    {samples : List (List M4)} (hs : SamplesOf (draws 0) t.gridSamples t.path samples)
    (hex : ∀ Ts ∈ samples, free ikf hit Ts ≠ []) :
    ∃ path path', ∃ c : ℝ,
      Returns Inv (PlanningTask.solve t arm pq id draws time fuel optimal (some "grid"))
        (.plan ⟨true, some path, some (c : WithTop ℝ)⟩) ∧
      Returns Inv (PlanningTask.solve { t with path := t.path.reverse } arm pq id
          (fun i => backDraws t.path.length (draws i)) time fuel optimal (some "grid"))
        (.plan ⟨true, some path', some (c : WithTop ℝ)⟩) := by
  obtain ⟨path, h1, h2, h3⟩ := grid_shortest h t hf ht hne draws time fuel optimal hs hex
  obtain ⟨path', h1', h2', h3'⟩ := grid_shortest h { t with path := t.path.reverse }
    (by simpa using hf) ht (by simpa using hne) (fun i => backDraws t.path.length (draws i)) time fuel
    optimal (samplesOf_back hs) (fun Ts hTs => hex Ts (List.mem_reverse.1 hTs))
  have e : moveCost path' = moveCost path := by
    rw [List.map_reverse] at h2' h3'
    refine le_antisymm ?_ ?_
    · have := h3' _ (isSelection_reverse h2)
      rwa [moveCost_reverse] at this
    · have := isSelection_reverse h2'
      rw [List.reverse_reverse] at this
      have := h3 _ this
      rwa [moveCost_reverse] at this
  exact ⟨path, path', moveCost path, h1, e ▸ h1'⟩

/-- `C153_plan_partial` for `Arm2` and the points behind it, one to the left and one to the right. -/
example [Zeros] (draws : Nat → Nat → Draws) (time : Nat → ℝ) : ∃ path path' w w', ∃ c : ℝ,
    PlanningTask.solve (freeTask [behind 1, behind (-1)] ⟨[], []⟩ 1)
        (pureArm (fun _ _ => false) (arm2 1 1 1) (arm2Ik (arm2 1 1 1))) stdHeap id
        draws time 0 (fun _ _ _ _ => pure ()) (some "grid")
        (after (fun _ _ => false) (arm2 1 1 1).links [], ()) =
      (.ok (.plan ⟨true, some path, some (c : WithTop ℝ)⟩), w) ∧
    PlanningTask.solve (freeTask [behind (-1), behind 1] ⟨[], []⟩ 1)
        (pureArm (fun _ _ => false) (arm2 1 1 1) (arm2Ik (arm2 1 1 1))) stdHeap id
        (fun i => backDraws 2 (draws i)) time 0 (fun _ _ _ _ => pure ()) (some "grid")
        (after (fun _ _ => false) (arm2 1 1 1).links [], ()) =
      (.ok (.plan ⟨true, some path', some (c : WithTop ℝ)⟩), w') := by
  have hs := freeFrames_samples (draws 0) [behind 1, behind (-1)] (⟨[], []⟩ : Collection Shape) 1
  have hsam : freeFrames (draws 0) [behind 1, behind (-1)] 1 =
      [[freeFrame ((draws 0 0).rnd 0) (behind 1)], [freeFrame ((draws 0 1).rnd 0) (behind (-1))]] := rfl
  rw [hsam] at hs
  have hne : ∀ (s : ℝ) (R : M3), s = 1 ∨ s = -1 → free (arm2Ik (arm2 1 1 1))
      (touches (fun _ _ => false) (arm2 1 1 1) ⟨[], []⟩) [mkTf R (behind s)] ≠ [] := by
    intro s R h
    obtain ⟨T, hT, q1, q2, q3, -, h1, -, -, h4, h5⟩ := behind_passes R h ⟨[], []⟩
    obtain ⟨sols, g1, t1, t2, t3, g2, -⟩ := C36_arm2_complete _ (by norm_num) q1 q2 q3 T h1 h4 h5
    exact List.ne_nil_of_mem (mem_free.2 ⟨T, hT, sols, g1, g2, touches_false _ _ _⟩)
  obtain ⟨path, path', c, e1, e2⟩ := C153_plan_partial (pureArm_determined (fun _ _ => false)
    (arm2_regular 1 1 1) (arm2Ik (arm2 1 1 1)) (fun T sols h q hq => arm2Ik_len3 h q hq) ⟨[], []⟩)
    (freeTask [behind 1, behind (-1)] ⟨[], []⟩ 1) (.inr ⟨rfl, le_rfl⟩) rfl
    (by simp [freeTask, PlanningTask.new]) draws time 0
    (fun _ _ _ _ => (pure () : Run (RState × Unit) Unit)) hs (by
      intro Ts hTs
      simp only [List.mem_cons, List.not_mem_nil, or_false] at hTs
      rcases hTs with rfl | rfl
      · exact hne 1 _ (.inl rfl)
      · exact hne (-1) _ (.inr rfl))
  obtain ⟨w, hw, -⟩ := e1 (after (fun _ _ => false) (arm2 1 1 1).links [], ())
    ⟨after_wf _ _ _ (by simp), trivial⟩
  obtain ⟨w', hw', -⟩ := e2 (after (fun _ _ => false) (arm2 1 1 1).links [], ())
    ⟨after_wf _ _ _ (by simp), trivial⟩
  exact ⟨path, path', w, w', c, hw, hw'⟩

end

end Verif.Props
