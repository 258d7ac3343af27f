import Verif.Proofs.ShortestPath
import Verif.Props.PyGraph
import Verif.Props.Dp
import Mathlib.Tactic.Ring
import Mathlib.Tactic.NormNum
import Mathlib.Tactic.Positivity

/-!
# C10 – C12, C15 – C19: the compiled graph search behind `planning.get_shortest_path`

`Q.map (asFloat32 conv)` are the configurations of every column after the conversion to float32.
The cost of a path is the sum in the order in which the program adds; `stepCost C w x y` is the
value of `cost_function_2` for a step from `x` to `y`.  The section "exact arithmetic" restates the
main results with the textbook weighted sum of squares over the rationals.
-/

set_option linter.unusedSectionVars false

namespace Verif.Props

open Verif.Search Verif.Spec Verif.CppGraph Verif.ShortestPath

variable {F C : Type} [CostArith C] [JointArith F C]

/-- C10. On non-empty columns breadth-first search returns success, one configuration per column,
the cost of exactly these configurations, and no other choice is cheaper; for all weights, provided
that not every choice has infinite cost. -/
theorem C10_bfs_optimal (pq : PQ C (List F)) (conv : F → F) (d : Nat) (Q : List (PyCol F))
    (hQ : InputOK d Q) (weights : Option (List F)) (w : List F)
    (hw : w = effWeights C d (weights.getD []))
    (hex : ∃ p, IsSelection (Q.map (asFloat32 conv)) p ∧ costL (stepCost C w) p < ⊤) :
    ∃ path c, getShortestPath pq conv Q .bfs weights = .ok ⟨true, some path, some c⟩ ∧
      IsSelection (Q.map (asFloat32 conv)) path ∧ costL (stepCost C w) path = c ∧
      ∀ p, IsSelection (Q.map (asFloat32 conv)) p → c ≤ costL (stepCost C w) p := by
  obtain ⟨g, hr, hp, hgw, hgo⟩ := getShortestPath_eq (C := C) conv hQ weights
  subst hw
  rw [← hgw] at hex ⊢
  obtain ⟨s, c, hrun, _, _, idx, path, hans, hcost, hmin⟩ := runBfs_spec hr (Or.inl hp.1) hex
  exact ⟨path, c, hgo pq .bfs _ (Or.inl ⟨rfl, rfl⟩) _ hrun idx path hans, hans.sel, hcost, hmin⟩

/-- C11. With *any* queue that neither loses nor invents elements, Dijkstra's search terminates,
succeeds, returns one configuration per column and reports the cost of exactly these. -/
theorem C11_dijkstra_sound (hno : PyGraph.NoOverflow C) (pq : PQ C (List F)) (hl : Lawful pq)
    (conv : F → F) (d : Nat) (Q : List (PyCol F)) (hQ : InputOK d Q) (weights : Option (List F))
    (w : List F) (hw : w = effWeights C d (weights.getD []))
    (hfin : FiniteSteps C w (Q.map (asFloat32 conv))) :
    ∃ path c, getShortestPath pq conv Q .dijkstra weights = .ok ⟨true, some path, some c⟩ ∧
      IsSelection (Q.map (asFloat32 conv)) path ∧ costL (stepCost C w) path = c := by
  obtain ⟨g, hr, hp, hgw, hgo⟩ := getShortestPath_eq (C := C) conv hQ weights
  subst hw
  rw [← hgw] at hfin
  obtain ⟨g', hrun, _, _, _, hw', idx, path, hans⟩ := runDijkstra_spec hno hr hfin hp hl
  refine ⟨path, _, hgo pq .dijkstra _ (Or.inr ⟨rfl, rfl⟩) _ hrun idx path hans, hans.sel, ?_⟩
  rw [hans.cost, hw', hgw]

/-- C11 for the heap of libstdc++, whose keys change while nodes are in it. -/
theorem C11_dijkstra_sound_heap (hno : PyGraph.NoOverflow C)
    (conv : F → F) (d : Nat) (Q : List (PyCol F)) (hQ : InputOK d Q) (weights : Option (List F))
    (w : List F) (hw : w = effWeights C d (weights.getD []))
    (hfin : FiniteSteps C w (Q.map (asFloat32 conv))) :
    ∃ path c, getShortestPath stdHeap conv Q .dijkstra weights = .ok ⟨true, some path, some c⟩ ∧
      IsSelection (Q.map (asFloat32 conv)) path ∧ costL (stepCost C w) path = c :=
  C11_dijkstra_sound hno stdHeap stdHeapLawful conv d Q hQ weights w hw hfin

/-- C12, what holds: with a queue that always pops a node of least *current* distance the result is
a shortest path, if adding a step cost never decreases a sum.  Missing: the code's queue is a heap
whose keys are changed from outside, and for it the property is false (`C12_…_refuted`). -/
theorem C12_dijkstra_optimal_partial (hno : PyGraph.NoOverflow C) (pq : PQ C (List F))
    (hl : Lawful pq) (hmin : PopsMin hl)
    (conv : F → F) (d : Nat) (Q : List (PyCol F)) (hQ : InputOK d Q) (weights : Option (List F))
    (w : List F) (hw : w = effWeights C d (weights.getD []))
    (hfin : FiniteSteps C w (Q.map (asFloat32 conv)))
    (hinf : ∀ x ∈ (Q.map (asFloat32 conv)).flatten, ∀ y ∈ (Q.map (asFloat32 conv)).flatten,
      ∀ a : C, a ≤ a + stepCost C w x y) :
    ∃ path c, getShortestPath pq conv Q .dijkstra weights = .ok ⟨true, some path, some c⟩ ∧
      IsSelection (Q.map (asFloat32 conv)) path ∧ costL (stepCost C w) path = c ∧
      ∀ p, IsSelection (Q.map (asFloat32 conv)) p → c ≤ costL (stepCost C w) p := by
  obtain ⟨g, hr, hp, hgw, hgo⟩ := getShortestPath_eq (C := C) conv hQ weights
  subst hw
  rw [← hgw] at hfin hinf ⊢
  obtain ⟨g', hrun, hw', idx, path, hans, hm⟩ := runDijkstra_opt hno hr hfin hinf hp hl hmin
  refine ⟨path, _, hgo pq .dijkstra _ (Or.inr ⟨rfl, rfl⟩) _ hrun idx path hans, hans.sel, ?_, ?_⟩
  · rw [hans.cost, hw']
  · rw [hans.cost, hw']; exact hm

/-! ## Exact arithmetic -/

/-- Exact rational joint values and costs. -/
instance ratJoint : JointArith ℚ (WithTop ℚ) where
  step acc w a b := acc + ((w * (a - b) ^ 2 : ℚ) : WithTop ℚ)
  one := 1

/-- `Σ wᵢ (xᵢ - yᵢ)²`. -/
def sqDist (w x y : List ℚ) : ℚ :=
  ((w.zip (x.zip y)).map fun t => t.1 * (t.2.1 - t.2.2) ^ 2).sum

/-- Sum of `sqDist` over the steps of a path. -/
def pathLen (w : List ℚ) (p : List (List ℚ)) : ℚ :=
  ((p.zip p.tail).map fun t => sqDist w t.1 t.2).sum

theorem costFrom2_rat (acc : ℚ) (w a b : List ℚ) :
    costFrom2 (acc : WithTop ℚ) w a b = ((acc + sqDist w a b : ℚ) : WithTop ℚ) := by
  induction w generalizing acc a b with
  | nil => cases a <;> cases b <;> simp [costFrom2, sqDist]
  | cons w ws ih =>
    cases a with
    | nil => simp [costFrom2, sqDist]
    | cons a as =>
      cases b with
      | nil => simp [costFrom2, sqDist]
      | cons b bs =>
        have : costFrom2 (acc : WithTop ℚ) (w :: ws) (a :: as) (b :: bs) =
            costFrom2 ((acc + w * (a - b) ^ 2 : ℚ) : WithTop ℚ) ws as bs := by
          simp [costFrom2, JointArith.step]
        rw [this, ih]
        congr 1
        simp [sqDist, add_assoc]

theorem sqDist_symm (w a b : List ℚ) : sqDist w a b = sqDist w b a := by
  induction w generalizing a b with
  | nil => simp [sqDist]
  | cons w ws ih =>
    cases a <;> cases b <;> simp only [sqDist, List.zip_nil_left, List.zip_nil_right,
      List.zip_cons_cons, List.map_cons, List.sum_cons] 
    rename_i a as b bs
    have := ih as bs
    simp only [sqDist] at this
    rw [this]; ring

theorem stepCost_rat (w x y : List ℚ) :
    stepCost (WithTop ℚ) w x y = ((sqDist w x y : ℚ) : WithTop ℚ) := by
  have := costFrom2_rat 0 w y x
  rw [zero_add] at this
  rw [sqDist_symm]
  exact this

theorem costFrom_rat (w : List ℚ) (acc : ℚ) (p : List (List ℚ)) :
    costFrom (stepCost (WithTop ℚ) w) (acc : WithTop ℚ) p =
      ((acc + pathLen w p : ℚ) : WithTop ℚ) := by
  induction p generalizing acc with
  | nil => simp [costFrom, pathLen]
  | cons x p ih =>
    cases p with
    | nil => simp [costFrom, pathLen]
    | cons y p =>
      rw [costFrom, stepCost_rat, ← WithTop.coe_add, ih]
      congr 1
      simp [pathLen, add_assoc]

theorem costL_rat (w : List ℚ) (p : List (List ℚ)) :
    costL (stepCost (WithTop ℚ) w) p = ((pathLen w p : ℚ) : WithTop ℚ) := by
  have := costFrom_rat w 0 p
  rw [zero_add] at this
  exact this

theorem noOverflow_rat : PyGraph.NoOverflow (WithTop ℚ) :=
  fun _ _ ha hc => WithTop.add_lt_top.2 ⟨ha, hc⟩

theorem input_selection {d : Nat} {Q : List (PyCol F)} (conv : F → F) (hQ : InputOK d Q) :
    ∃ p, IsSelection (Q.map (asFloat32 conv)) p := by
  apply exists_selection
  intro c hc
  obtain ⟨q, hq, rfl⟩ := List.mem_map.1 hc
  exact (asFloat32_proper conv (hQ.col q hq)).1

/-- The weights in force: the given ones if there are `d` of them, otherwise ones. -/
def weightsFor (d : Nat) (weights : Option (List ℚ)) : List ℚ :=
  if (weights.getD []).length = d then weights.getD [] else List.replicate d 1

/-- C10 in exact arithmetic, with no side condition: the returned path minimises
`Σ_steps Σ_joints wᵢ Δᵢ²` over all choices of one configuration per column. -/
theorem C10_bfs_optimal_exact (pq : PQ (WithTop ℚ) (List ℚ)) (conv : ℚ → ℚ) (d : Nat)
    (Q : List (PyCol ℚ)) (hQ : InputOK d Q) (weights : Option (List ℚ)) :
    ∃ path, getShortestPath pq conv Q .bfs weights =
        .ok ⟨true, some path, some ((pathLen (weightsFor d weights) path : ℚ) : WithTop ℚ)⟩ ∧
      IsSelection (Q.map (asFloat32 conv)) path ∧
      ∀ p, IsSelection (Q.map (asFloat32 conv)) p →
        pathLen (weightsFor d weights) path ≤ pathLen (weightsFor d weights) p := by
  obtain ⟨p0, hp0⟩ := input_selection conv hQ
  obtain ⟨path, c, h1, h2, h3, h4⟩ := C10_bfs_optimal pq conv d Q hQ weights
    (weightsFor d weights) rfl ⟨p0, hp0, by rw [costL_rat]; exact WithTop.coe_lt_top _⟩
  rw [costL_rat] at h3
  subst h3
  refine ⟨path, h1, h2, ?_⟩
  intro p hp
  have := h4 p hp
  rw [costL_rat] at this
  exact WithTop.coe_le_coe.1 this

/-- C15. The weights that enter the cost are the given ones if and only if there are as many as
joints; otherwise every joint has weight one.  (Both methods.) -/
theorem C15_weights (conv : ℚ → ℚ) (d : Nat) (Q : List (PyCol ℚ)) (hQ : InputOK d Q)
    (method : Method) (hm : method = .bfs ∨ method = .dijkstra) (weights : List ℚ) :
    ∃ path c, getShortestPath stdHeap conv Q method (some weights) =
        .ok ⟨true, some path, some ((c : ℚ) : WithTop ℚ)⟩ ∧
      (weights.length = d → c = pathLen weights path) ∧
      (weights.length ≠ d → c = pathLen (List.replicate d 1) path) := by
  have key : ∃ path, getShortestPath stdHeap conv Q method (some weights) =
      .ok ⟨true, some path,
        some ((pathLen (weightsFor d (some weights)) path : ℚ) : WithTop ℚ)⟩ := by
    rcases hm with rfl | rfl
    · obtain ⟨path, h, _⟩ := C10_bfs_optimal_exact stdHeap conv d Q hQ (some weights)
      exact ⟨path, h⟩
    · obtain ⟨path, c, h1, _, h3⟩ := C11_dijkstra_sound_heap noOverflow_rat conv d Q hQ
        (some weights) (weightsFor d (some weights)) rfl
        (fun x _ y _ => by rw [stepCost_rat]; exact WithTop.coe_lt_top _)
      rw [costL_rat] at h3
      subst h3
      exact ⟨path, h1⟩
  obtain ⟨path, h⟩ := key
  refine ⟨path, _, h, ?_, ?_⟩
  · intro hl; simp [weightsFor, hl]
  · intro hl; simp [weightsFor, hl]

/-- C15 on the object: `init` keeps the weights exactly when they fit. -/
theorem C15_weights_init (g : Graph F C) (d : Nat) (hp : Proper g.gd d) (hna : g.na = [])
    (hs : ∀ i j, g.store i j = freshSt) :
    ∃ g', g.init = .ok g' ∧ (g.weights.length = d → g'.weights = g.weights) ∧
      (g.weights.length ≠ d → g'.weights = List.replicate d (JointArith.one C)) := by
  obtain ⟨g', h1, _, _, _, h2⟩ := init_spec hp hna hs
  refine ⟨g', h1, ?_, ?_⟩
  · intro h; rw [h2, effWeights, if_pos h]
  · intro h; rw [h2, effWeights, if_neg h]

/-! ## Data columns -/

/-- C16. `add_data_column` of a row-major buffer of `nrows * ncols` numbers appends one column with
`nrows` vectors of `ncols` numbers, and number `j` of vector `i` is entry `i, j`; nothing else of
the graph changes. -/
theorem C16_add_data_column (g : Graph F C) (mat : List F) (nrows ncols : Nat)
    (hlen : mat.length = nrows * ncols) :
    ∃ col, g.addDataColumn mat nrows ncols = .ok { g with gd := g.gd ++ [col] } ∧
      col.length = nrows ∧
      ∀ (i j : Nat), i < nrows → j < ncols →
        ∃ row, col[i]? = some row ∧ row.length = ncols ∧ row[j]? = mat[i * ncols + j]? ∧
          row[j]? ≠ none := by
  obtain ⟨rows, hrl, hrr, hfl⟩ : ∃ rows : List (List F), rows.length = nrows ∧
      (∀ r ∈ rows, r.length = ncols) ∧ rows.flatten = mat := by
    induction nrows generalizing mat with
    | zero => exact ⟨[], rfl, by simp, by simp at hlen; simp [hlen]⟩
    | succ n ih =>
      obtain ⟨rows, h1, h2, h3⟩ := ih (mat.drop ncols) (by
        rw [List.length_drop, hlen, Nat.succ_mul]; omega)
      refine ⟨mat.take ncols :: rows, by simp [h1], ?_, ?_⟩
      · intro r hr
        rcases List.mem_cons.1 hr with rfl | hr
        · rw [List.length_take, hlen, Nat.succ_mul]; omega
        · exact h2 r hr
      · rw [List.flatten_cons, h3, List.take_append_drop]
  refine ⟨rows, ?_, hrl, ?_⟩
  · rw [← hfl, ← hrl]; exact addDataColumn_ok g rows hrr
  · intro i j hi hj
    have hi' : i < rows.length := by omega
    refine ⟨rows[i], List.getElem?_eq_getElem hi', hrr _ (List.getElem_mem hi'), ?_, ?_⟩
    · rw [← hfl, show i * ncols + j = j + ncols * i by rw [Nat.mul_comm]; omega,
        flatten_getElem? rows hrr i j hj, List.getElem?_eq_getElem hi']
      rfl
    · have := hrr _ (List.getElem_mem hi')
      rw [List.getElem?_eq_getElem (by omega)]
      simp

/-- C16 for an array given by its rows. -/
theorem C16_add_data_column_rows (g : Graph F C) (rows : List (List F)) (ncols : Nat)
    (h : ∀ r ∈ rows, r.length = ncols) :
    g.addDataColumn rows.flatten rows.length ncols = .ok { g with gd := g.gd ++ [rows] } :=
  addDataColumn_ok g rows h

/-! ## `_check_dtype` -/

/-- C18. On a non-empty list of arrays: a float32 array in front leaves the list untouched;
otherwise every entry is replaced by its float32 version (same number of columns and rows, every
number of a float64 array converted, float32 arrays kept). -/
theorem C18_check_dtype (conv : F → F) (Q : List (PyCol F)) (hne : Q ≠ [])
    (harr : ∀ c ∈ Q, c ≠ .emptyList) :
    (checkDtype conv Q).1 = .ok () ∧
    ((∃ n rows, Q.head? = some (.arr true n rows)) → (checkDtype conv Q).2 = Q) ∧
    ((∃ n rows, Q.head? = some (.arr false n rows)) →
      (checkDtype conv Q).2.length = Q.length ∧
      ∀ (i : Nat) (c : PyCol F), Q[i]? = some c → ∃ b n rows, c = .arr b n rows ∧
        (checkDtype conv Q).2[i]? =
          some (.arr true n (if b then rows else rows.map (List.map conv)))) := by
  rcases Q with _ | ⟨c0, cs⟩
  · exact absurd rfl hne
  rcases c0 with _ | ⟨b0, n0, rows0⟩
  · exact absurd rfl (harr .emptyList (by simp))
  cases b0 with
  | true => exact ⟨rfl, fun _ => rfl, by simp⟩
  | false =>
    obtain ⟨Q', h1, h2⟩ := convertLoop_ok conv _ harr
    have h3 : checkDtype conv (.arr false n0 rows0 :: cs) = (.ok (), Q') := h1
    rw [h3]
    refine ⟨rfl, by simp, fun _ => ⟨(List.Forall₂.length_eq h2).symm, ?_⟩⟩
    intro i c hc
    have := (List.forall₂_iff_get.1 h2).2
    obtain ⟨hi, hci⟩ := List.getElem?_eq_some_iff.1 hc
    have hi' : i < Q'.length := by rw [← List.Forall₂.length_eq h2]; exact hi
    obtain ⟨b, n, rows, h4, h5⟩ := this i hi hi'
    simp only [List.get_eq_getElem] at h4 h5
    rw [hci] at h4 h5
    refine ⟨b, n, rows, h4, ?_⟩
    rw [List.getElem?_eq_getElem hi', h5, h4]
    cases b <;> rfl

/-- C18, the other inputs: nothing is converted when the list is empty or starts with `[]`; a `[]`
behind a float64 array raises AttributeError, after the entries in front of it were converted in the
caller's list. -/
theorem C18_check_dtype_errors (conv : F → F) (Q : List (PyCol F)) :
    (Q = [] → checkDtype conv Q = (.error .indexError, Q)) ∧
    (Q.head? = some .emptyList → checkDtype conv Q = (.error .attributeError, Q)) ∧
    (∀ pre post n rows, Q = pre ++ .emptyList :: post → (∀ c ∈ pre, c ≠ .emptyList) →
      pre.head? = some (.arr false n rows) →
      ∃ pre', checkDtype conv Q = (.error .attributeError, pre' ++ .emptyList :: post) ∧
        List.Forall₂ (fun c c' => ∃ b n rows, c = .arr b n rows ∧
          c' = .arr true n (if b then rows else rows.map (List.map conv))) pre pre') := by
  refine ⟨fun h => by subst h; rfl, ?_, ?_⟩
  · intro h
    rcases Q with _ | ⟨c, cs⟩
    · simp at h
    · simp at h; subst h; rfl
  · intro pre post n rows hQ hpre hhead
    have loop : ∀ pre : List (PyCol F), (∀ c ∈ pre, c ≠ .emptyList) → ∃ pre',
        convertLoop conv (pre ++ .emptyList :: post) =
          (.error .attributeError, pre' ++ .emptyList :: post) ∧
        List.Forall₂ (fun c c' => ∃ b n rows, c = .arr b n rows ∧
          c' = .arr true n (if b then rows else rows.map (List.map conv))) pre pre' := by
      intro pre
      induction pre with
      | nil => intro _; exact ⟨[], rfl, .nil⟩
      | cons c pre ih =>
        intro h
        obtain ⟨pre', h1, h2⟩ := ih (fun c hc => h c (List.mem_cons_of_mem _ hc))
        rcases c with _ | ⟨b, n, rows⟩
        · exact absurd rfl (h _ (by simp))
        · refine ⟨.arr true n (if b then rows else rows.map (List.map conv)) :: pre', ?_,
            .cons ⟨b, n, rows, rfl, rfl⟩ h2⟩
          cases b <;> simp [convertLoop, PyCol.astype, h1]
    obtain ⟨pre', h1, h2⟩ := loop pre hpre
    refine ⟨pre', ?_, h2⟩
    rcases pre with _ | ⟨c, cs⟩
    · simp at hhead
    · simp at hhead
      subst hhead
      rw [hQ]
      exact h1

/-! ## Unreachable path points -/

/-- An array whose rows have the stated length. -/
def WellShaped : PyCol F → Prop
  | .emptyList => True
  | .arr _ n rows => ∀ r ∈ rows, r.length = n

theorem forall₂_split {A B : Type} {R : A → B → Prop} {l1 l2 : List A} {l : List B}
    (h : List.Forall₂ R (l1 ++ l2) l) :
    ∃ m1 m2, List.Forall₂ R l1 m1 ∧ List.Forall₂ R l2 m2 ∧ l = m1 ++ m2 := by
  induction l1 generalizing l with
  | nil => exact ⟨[], l, .nil, h, rfl⟩
  | cons x l1 ih =>
    cases h with
    | cons hx h =>
      obtain ⟨m1, m2, h1, h2, rfl⟩ := ih h
      exact ⟨_ :: m1, m2, .cons hx h1, h2, rfl⟩

theorem addColumns_empty (g : Graph F C) (Q : List (PyCol F)) (hsh : ∀ c ∈ Q, WellShaped c)
    (hex : ∃ pre c post, Q = pre ++ c :: post ∧ c.rows = [] ∧ ∀ x ∈ pre, x.isF32 = true) :
    addColumns g Q = .ok none := by
  obtain ⟨pre, c, post, rfl, hc, hpre⟩ := hex
  induction pre generalizing g with
  | nil =>
    rw [List.nil_append]
    unfold addColumns
    rw [if_pos (by rw [hc]; rfl)]
  | cons x pre ih =>
    rw [List.cons_append]
    unfold addColumns
    split
    · rfl
    · have hx := hpre x (by simp)
      rcases x with _ | ⟨b, n, rows⟩
      · simp [PyCol.isF32] at hx
      · cases b
        · simp [PyCol.isF32] at hx
        · have hs := hsh (.arr true n rows) (by simp)
          simp only [addDataColumn_ok g rows hs, liftCpp, Except.mapError, bind, Except.bind]
          exact ih _ (fun y hy => hsh y (List.mem_cons_of_mem _ hy))
            (fun y hy => hpre y (List.mem_cons_of_mem _ hy))

/-- C17, what holds: if some column has no rows, the list does not start with the Python list `[]`,
contains no `[]` at all in case it starts with a float64 array, and no float64 array precedes the
first empty column in case it starts with a float32 array, then the result is
`{"success": False}`.  Missing: lists with `[]` entries, which is what `cart_to_joint_*` produce for
an unreachable point; there the call raises (`C17_unreachable_raises`). -/
theorem C17_unreachable_partial (pq : PQ C (List F)) (conv : F → F) (Q : List (PyCol F))
    (method : Method) (weights : Option (List F)) (hsh : ∀ c ∈ Q, WellShaped c)
    (pre post : List (PyCol F)) (c : PyCol F) (hQ : Q = pre ++ c :: post) (hc : c.rows = [])
    (hfirst : Q.head? ≠ some .emptyList)
    (h64 : ∀ n rows, Q.head? = some (.arr false n rows) → ∀ x ∈ Q, x ≠ .emptyList)
    (h32 : ∀ n rows, Q.head? = some (.arr true n rows) → ∀ x ∈ pre, x.isF32 = true) :
    getShortestPath pq conv Q method weights = .ok { success := false } := by
  have hne : Q ≠ [] := by rw [hQ]; simp
  have hok : ∃ Q', checkDtype conv Q = (.ok (), Q') ∧ (∀ c ∈ Q', WellShaped c) ∧
      ∃ pre c post, Q' = pre ++ c :: post ∧ c.rows = [] ∧ ∀ x ∈ pre, x.isF32 = true := by
    rcases hq : Q with _ | ⟨c0, cs⟩
    · exact absurd hq hne
    rcases c0 with _ | ⟨b0, n0, rows0⟩
    · rw [hq] at hfirst; simp at hfirst
    cases b0 with
    | true =>
      refine ⟨_, rfl, by rw [← hq]; exact hsh, pre, c, post, by rw [← hq]; exact hQ, hc, ?_⟩
      exact h32 n0 rows0 (by rw [hq]; rfl)
    | false =>
      have harr := h64 n0 rows0 (by rw [hq]; rfl)
      obtain ⟨Q', h1, h2⟩ := convertLoop_ok conv Q harr
      refine ⟨Q', by rw [hq] at h1; exact h1, ?_, ?_⟩
      · intro x hx
        obtain ⟨i, hi, rfl⟩ := List.getElem_of_mem hx
        have hi0 : i < Q.length := by rw [List.Forall₂.length_eq h2]; exact hi
        obtain ⟨b, n, rows, h4, h5⟩ := (List.forall₂_iff_get.1 h2).2 i hi0 hi
        simp only [List.get_eq_getElem] at h4 h5
        have hs := hsh _ (List.getElem_mem hi0)
        rw [h5]
        rw [h4] at hs ⊢
        intro r hr
        cases b
        · simp only [asFloat32, List.mem_map] at hr
          obtain ⟨r', hr', rfl⟩ := hr
          simpa using hs r' hr'
        · exact hs r hr
      · rw [hQ] at h2
        obtain ⟨A, B, hA, hB, rfl⟩ : ∃ A B, List.Forall₂ (fun c c' => ∃ b n rows,
            c = PyCol.arr b n rows ∧ c' = .arr true n (asFloat32 conv c)) pre A ∧
            List.Forall₂ (fun c c' => ∃ b n rows, c = PyCol.arr b n rows ∧
              c' = .arr true n (asFloat32 conv c)) (c :: post) B ∧ Q' = A ++ B :=
          forall₂_split h2
        cases hB with
        | cons hcc _ =>
          rename_i c' B'
          obtain ⟨b, n, rows, rfl, rfl⟩ := hcc
          refine ⟨A, _, _, rfl, ?_, ?_⟩
          · have : rows = [] := hc
            subst this
            cases b <;> rfl
          · intro x hx
            obtain ⟨i, hi, rfl⟩ := List.getElem_of_mem hx
            have hi0 : i < pre.length := by rw [List.Forall₂.length_eq hA]; exact hi
            obtain ⟨b, n, rows, _, h5⟩ := (List.forall₂_iff_get.1 hA).2 i hi0 hi
            simp only [List.get_eq_getElem] at h5
            rw [h5]; rfl
  obtain ⟨Q', h1, h2, h3⟩ := hok
  unfold getShortestPath
  rw [h1]
  simp only [addColumns_empty _ Q' h2 h3, liftPy, Except.mapError, bind, Except.bind]

/-- The complement of `C17_unreachable_partial` for `[]` entries: the call raises AttributeError. -/
theorem C17_unreachable_raises (pq : PQ C (List F)) (conv : F → F) (Q : List (PyCol F))
    (method : Method) (weights : Option (List F)) :
    (Q.head? = some .emptyList →
      getShortestPath pq conv Q method weights = .error (.py .attributeError)) ∧
    (∀ n rows, Q.head? = some (.arr false n rows) → (∃ x ∈ Q, x = .emptyList) →
      getShortestPath pq conv Q method weights = .error (.py .attributeError)) := by
  constructor
  · intro h
    unfold getShortestPath
    rw [(C18_check_dtype_errors conv Q).2.1 h]
    rfl
  · rintro n rows hh ⟨x, hx, rfl⟩
    obtain ⟨pre, post, hQ, hpre⟩ : ∃ pre post, Q = pre ++ .emptyList :: post ∧
        ∀ c ∈ pre, c ≠ PyCol.emptyList := by
      clear hh
      induction Q with
      | nil => simp at hx
      | cons c Q ih =>
        rcases c with _ | ⟨b, m, rs⟩
        · exact ⟨[], Q, rfl, by simp⟩
        · obtain ⟨pre, post, h1, h2⟩ := ih (by simpa using hx)
          exact ⟨.arr b m rs :: pre, post, by rw [h1]; rfl, by simpa using h2⟩
    have hph : pre.head? = some (.arr false n rows) := by
      rcases pre with _ | ⟨c, cs⟩
      · rw [hQ] at hh; simp at hh
      · rw [hQ] at hh; simpa using hh
    obtain ⟨pre', h1, _⟩ := (C18_check_dtype_errors conv Q).2.2 pre post n rows hQ hpre hph
    unfold getShortestPath
    rw [h1]
    rfl

/-- C17 is false: with an unreachable first or second path point, as `cart_to_joint_*` report it,
`get_shortest_path` raises AttributeError instead of returning `{"success": False}`. -/
theorem C17_unreachable_refuted :
    getShortestPath (F := ℚ) (C := WithTop ℚ) stdHeap id
        [.emptyList, .arr false 1 [[1], [2]]] .bfs none = .error (.py .attributeError) ∧
    getShortestPath (F := ℚ) (C := WithTop ℚ) stdHeap id
        [.arr false 1 [[1], [2]], .emptyList] .bfs none = .error (.py .attributeError) :=
  ⟨(C17_unreachable_raises _ _ _ _ _).1 rfl,
    (C17_unreachable_raises _ _ _ _ _).2 1 [[1], [2]] rfl ⟨.emptyList, by simp, rfl⟩⟩

/-! ## The solvers agree -/

/-- In exact arithmetic the order of the additions does not matter. -/
theorem costL_eq_costR {α : Type} (hassoc : ∀ a b c : C, a + b + c = a + (b + c))
    (hz : ∀ a : C, a + 0 = a) (hz' : ∀ a : C, 0 + a = a) (g : α → α → C) (p : List α) :
    costL g p = costR g p := by
  have : ∀ (p : List α) (acc : C), costFrom g acc p = acc + costR g p := by
    intro p
    induction p with
    | nil => intro acc; rw [costFrom, costR, hz]
    | cons x p ih =>
      intro acc
      cases p with
      | nil => rw [costFrom, costR, hz]
      | cons y p => rw [costFrom, costR, ih, hassoc]
  rw [costL, this, hz']

/-- C19. In exact arithmetic the dynamic programming solver, the Python graph search and the
compiled breadth-first search report the same cost on the same data and step cost. -/
theorem C19_solvers_agree [AddLeftMono C] (hno : PyGraph.NoOverflow C)
    (hassoc : ∀ a b c : C, a + b + c = a + (b + c))
    (hz : ∀ a : C, a + 0 = a) (hz' : ∀ a : C, 0 + a = a)
    (pq : PQ C (List F)) (conv : F → F) (d : Nat) (Q : List (PyCol F)) (hQ : InputOK d Q)
    (h2 : 2 ≤ Q.length) (weights : Option (List F)) (w : List F)
    (hw : w = effWeights C d (weights.getD [])) (hfin : ∀ x y, stepCost C w x y < ⊤)
    (fn : List (List F) → List (List F) → Dp.Mat C) (hfit : Dp.Fits fn (stepCost C w)) :
    ∃ c path1 path2 res path3,
      Dp.shortestPath (Q.map (asFloat32 conv)) fn = .ok ⟨true, path1, c⟩ ∧
      PyGraph.getShortestPath (stepCost C w) (Q.map (asFloat32 conv)) = .ok res ∧
      res.success = true ∧ res.path = some path2 ∧ res.totalCost = some c ∧
      getShortestPath pq conv Q .bfs weights = .ok ⟨true, some path3, some c⟩ := by
  have hne : ∀ col ∈ Q.map (asFloat32 conv), col ≠ [] := by
    intro c hc
    obtain ⟨q, hq, rfl⟩ := List.mem_map.1 hc
    exact (asFloat32_proper conv (hQ.col q hq)).1
  have hLR := costL_eq_costR (α := List F) hassoc hz hz' (stepCost C w)
  obtain ⟨p1, c1, h11, h12, h13, h14⟩ := C01_dp_optimal fn (stepCost C w) hfit _ (by simpa using h2) hne
  obtain ⟨res, h21, h22, h23⟩ := C04_pygraph_optimal hno (stepCost C w) hfin
    (Q.map (asFloat32 conv)) (by simpa using hQ.ne)
  obtain ⟨p2, c2, h24, h25, _, h26, h27, h28⟩ := h23 (h22.2 hne)
  have hc2 : c2 < ⊤ := by
    rw [← h27]
    refine PyGraph.costFrom_lt_top hno (stepCost C w) ⊤ p2 0 zero_lt_top ?_
    unfold StepsBelow
    clear h24 h26 h27
    induction p2 with
    | nil => simp
    | cons x p ih =>
      cases p with
      | nil => simp
      | cons y p => rw [List.isChain_cons_cons]; exact ⟨hfin x y, ih⟩
  obtain ⟨p3, c3, h31, h32, h33, h34⟩ := C10_bfs_optimal pq conv d Q hQ weights w hw
    ⟨p2, h26, by rw [h27]; exact hc2⟩
  have e23 : c2 = c3 := le_antisymm (h33 ▸ h28 p3 h32) (h27 ▸ h34 p2 h26)
  have e12 : c1 = c2 := le_antisymm (by rw [← h27, hLR]; exact h14 p2 h26)
    (by rw [← h13, ← hLR]; exact h28 p1 h12)
  exact ⟨c1, p1, p2, res, p3, h11, h21, h22.2 hne, h24, by rw [h25, e12], by rw [h31, e12, e23]⟩

/-! ## Dijkstra's search is not optimal -/

/-- Four columns with one joint. -/
def dijkstraData : List (PyCol ℚ) :=
  [.arr false 1 [[4]], .arr false 1 [[2], [5]], .arr false 1 [[1], [5]], .arr false 1 [[2]]]

theorem dijkstraData_ok : InputOK 1 dijkstraData := by
  refine ⟨by simp [dijkstraData], ?_, by simp [dijkstraData, PyCol.isF32]⟩
  intro c hc
  simp only [dijkstraData, List.mem_cons, List.not_mem_nil, or_false] at hc
  rcases hc with rfl | rfl | rfl | rfl <;> simp [PyCol.Proper]

/-- C12 is false: on the data above, with weight one, Dijkstra's search with the heap of libstdc++
reports a path of length 10 although 4 → 2 → 1 → 2 has length 6. -/
theorem C12_dijkstra_optimal_refuted :
    (∃ path, getShortestPath stdHeap id dijkstraData .dijkstra (some [1]) =
      .ok ⟨true, some path, some ((10 : ℚ) : WithTop ℚ)⟩) ∧
    IsSelection (dijkstraData.map (asFloat32 id)) [[4], [2], [1], [2]] ∧
    pathLen [1] [[4], [2], [1], [2]] = 6 := by
  refine ⟨?_, ?_, ?_⟩
  · have h : (getShortestPath (C := WithTop ℚ) stdHeap id dijkstraData .dijkstra
        (some [1])).toOption.map (fun r => (r.success, r.path, r.length)) =
        some (true, some [[4], [5], [5], [2]], some ((10 : ℚ) : WithTop ℚ)) := by decide +kernel
    obtain ⟨⟨a, b, c⟩, h1, h2⟩ := of_toOption_map h
    simp only [Prod.mk.injEq] at h2
    obtain ⟨rfl, rfl, rfl⟩ := h2
    exact ⟨_, h1⟩
  · simp only [dijkstraData, List.map_cons, List.map_nil, asFloat32]
    refine .cons (by simp) (.cons (by simp) (.cons (by simp) (.cons (by simp) .nil)))
  · norm_num [pathLen, sqDist]

/-! ## The hypotheses are satisfiable -/

/-- C10 on the same data: breadth-first search finds length 6. -/
example : (getShortestPath (C := WithTop ℚ) stdHeap id dijkstraData .bfs (some [1])).toOption.map
    (fun r => (r.success, r.path, r.length)) =
    some (true, some [[4], [2], [1], [2]], some ((6 : ℚ) : WithTop ℚ)) := by decide +kernel

example : ∃ path, getShortestPath stdHeap id dijkstraData .bfs (some [-3]) =
    .ok ⟨true, some path, some ((pathLen [-3] path : ℚ) : WithTop ℚ)⟩ := by
  obtain ⟨p, h, _⟩ := C10_bfs_optimal_exact stdHeap id 1 dijkstraData dijkstraData_ok (some [-3])
  exact ⟨p, h⟩

/-- A queue that scans for the minimum: it satisfies the hypotheses of C12's partial theorem. -/
def scanMin (s : Store C (List F)) : List (Nd (List F)) → Option (Nd (List F) × List (Nd (List F)))
  | [] => none
  | x :: xs =>
    match scanMin s xs with
    | none => some (x, [])
    | some (m, rest) => if (s.at m).dist < (s.at x).dist then some (m, x :: rest) else some (x, m :: rest)

theorem scanMin_spec (s : Store C (List F)) (l : List (Nd (List F))) :
    (scanMin s l = none ∧ l = []) ∨ ∃ m rest, scanMin s l = some (m, rest) ∧
      l.Perm (m :: rest) ∧ ∀ x ∈ l, (s.at m).dist ≤ (s.at x).dist := by
  induction l with
  | nil => exact Or.inl ⟨rfl, rfl⟩
  | cons x xs ih =>
    right
    rcases ih with ⟨h1, rfl⟩ | ⟨m, rest, h1, h2, h3⟩
    · exact ⟨x, [], by simp [scanMin], List.Perm.refl _, by simp⟩
    · by_cases hlt : (s.at m).dist < (s.at x).dist
      · refine ⟨m, x :: rest, by simp [scanMin, h1, hlt], ?_, ?_⟩
        · exact (h2.cons x).trans (List.Perm.swap m x rest)
        · intro y hy
          rcases List.mem_cons.1 hy with rfl | hy
          · exact hlt.le
          · exact h3 y hy
      · refine ⟨x, m :: rest, by simp [scanMin, h1, hlt], h2.cons x, ?_⟩
        intro y hy
        rcases List.mem_cons.1 hy with rfl | hy
        · exact le_rfl
        · exact le_trans (not_lt.1 hlt) (h3 y hy)

def scanQueue : PQ C (List F) := ⟨List (Nd (List F)), [], fun _ q n => n :: q, scanMin⟩

theorem scan_none (s : Store C (List F)) (q : List (Nd (List F))) (h : scanMin s q = none) :
    q = [] := by
  rcases scanMin_spec s q with ⟨_, h'⟩ | ⟨m, r, h1, _⟩
  · exact h'
  · rw [h] at h1; cases h1

theorem scan_some (s : Store C (List F)) (q : List (Nd (List F))) (n : Nd (List F))
    (q' : List (Nd (List F))) (h : scanMin s q = some (n, q')) :
    q.Perm (n :: q') ∧ ∀ m ∈ q, (s.at n).dist ≤ (s.at m).dist := by
  rcases scanMin_spec s q with ⟨h', _⟩ | ⟨m, r, h1, h2, h3⟩
  · rw [h] at h'; cases h'
  · rw [h] at h1; cases h1; exact ⟨h2, h3⟩

def scanLawful : Lawful (scanQueue : PQ C (List F)) where
  elems q := q
  empty := rfl
  push _ _ _ := List.Perm.refl _
  pop_none := scan_none
  pop_some s q n q' h := (scan_some s q n q' h).1

example : ∃ path c, getShortestPath scanQueue id dijkstraData .dijkstra (some [1]) =
      .ok ⟨true, some path, some c⟩ ∧
    ∀ p, IsSelection (dijkstraData.map (asFloat32 id)) p →
      c ≤ costL (stepCost (WithTop ℚ) [1]) p := by
  obtain ⟨path, c, h, _, _, h'⟩ := C12_dijkstra_optimal_partial noOverflow_rat scanQueue scanLawful
    (fun s q n q' h => (scan_some s q n q' h).2) id 1 dijkstraData dijkstraData_ok (some [1]) [1]
    (by simp [effWeights])
    (fun x _ y _ => by rw [stepCost_rat]; exact WithTop.coe_lt_top _)
    (fun x _ y _ a => by
      rw [stepCost_rat]
      have : (0 : WithTop ℚ) ≤ ((sqDist [1] x y : ℚ) : WithTop ℚ) := by
        have : (0 : ℚ) ≤ sqDist [1] x y := by
          cases x <;> cases y <;> simp [sqDist]
          positivity
        exact_mod_cast this
      calc a = a + 0 := (add_zero a).symm
        _ ≤ _ := add_le_add le_rfl this)
  exact ⟨path, c, h, h'⟩

/-- C17's partial theorem applies to an array without rows. -/
example : getShortestPath (F := ℚ) (C := WithTop ℚ) stdHeap id
    [.arr false 1 [[1], [2]], .arr false 1 [], .arr true 1 [[1]]] .bfs none =
    .ok { success := false } :=
  C17_unreachable_partial _ _ _ _ _ (by simp [WellShaped]) [.arr false 1 [[1], [2]]]
    [.arr true 1 [[1]]] (.arr false 1 []) rfl rfl (by simp) (by simp) (by simp)

/-- C15: a case of `C15_weights`.  Two weights for one joint are replaced by one. -/
example : ∃ path c, getShortestPath stdHeap id dijkstraData .bfs (some [3, 3]) =
      .ok ⟨true, some path, some ((c : ℚ) : WithTop ℚ)⟩ ∧ c = pathLen [1] path := by
  obtain ⟨path, c, h, -, h'⟩ := C15_weights id 1 dijkstraData dijkstraData_ok .bfs (.inl rfl) [3, 3]
  exact ⟨path, c, h, h' (by simp)⟩

/-- C15: a case of `C15_weights_init`. -/
example : ∃ g', ({ (Graph.new : Graph ℚ (WithTop ℚ)) with
      gd := [[[1, 2], [3, 4]], [[5, 6]]], weights := [7, 8] }).init = .ok g' ∧ g'.weights = [7, 8] := by
  obtain ⟨g', h, h', -⟩ := C15_weights_init (F := ℚ) (C := WithTop ℚ)
    { (Graph.new : Graph ℚ (WithTop ℚ)) with gd := [[[1, 2], [3, 4]], [[5, 6]]], weights := [7, 8] } 2
    ⟨by simp, by simp, by simp⟩ rfl (fun _ _ => rfl)
  exact ⟨g', h, h' rfl⟩

/-- C16: a case of `C16_add_data_column` and `C16_add_data_column_rows`: two rows of three numbers. -/
example : (Graph.new : Graph ℚ (WithTop ℚ)).addDataColumn [1, 2, 3, 4, 5, 6] 2 3 =
    .ok { (Graph.new : Graph ℚ (WithTop ℚ)) with gd := [[[1, 2, 3], [4, 5, 6]]] } :=
  C16_add_data_column_rows Graph.new [[1, 2, 3], [4, 5, 6]] 3 (by simp)

example : ∃ col, (Graph.new : Graph ℚ (WithTop ℚ)).addDataColumn [1, 2, 3, 4, 5, 6] 2 3 =
    .ok { (Graph.new : Graph ℚ (WithTop ℚ)) with gd := [] ++ [col] } ∧ col.length = 2 := by
  obtain ⟨col, h, h', -⟩ := C16_add_data_column (F := ℚ) (C := WithTop ℚ) Graph.new [1, 2, 3, 4, 5, 6] 2 3 rfl
  exact ⟨col, h, h'⟩

/-- C18: a case of `C18_check_dtype`.  The array in front has float64 numbers, so all are converted. -/
example : (checkDtype (fun x : ℚ => (x.floor : ℚ)) [.arr false 1 [[1/2], [7/3]], .arr true 1 [[5/2]]]).2 =
    [.arr true 1 [[0], [2]], .arr true 1 [[5/2]]] := by
  obtain ⟨-, -, h⟩ := C18_check_dtype (fun x : ℚ => (x.floor : ℚ))
    [.arr false 1 [[1/2], [7/3]], .arr true 1 [[5/2]]] (by simp) (by simp)
  obtain ⟨hl, h⟩ := h ⟨1, _, rfl⟩
  obtain ⟨b, n, rows, e, h0⟩ := h 0 _ rfl
  obtain ⟨b', n', rows', e', h1⟩ := h 1 _ rfl
  cases e
  cases e'
  refine List.ext_getElem? fun i => ?_
  match i with
  | 0 =>
    rw [h0]
    simp only [Bool.false_eq_true, if_false, List.map_cons, List.map_nil, List.getElem?_cons_zero]
    have h1 : (1 / 2 : ℚ).floor = 0 := by decide +kernel
    have h2 : (7 / 3 : ℚ).floor = 2 := by decide +kernel
    rw [h1, h2]
    rfl
  | 1 => rw [h1]; rfl
  | i + 2 => rw [List.getElem?_eq_none (by rw [hl]; simp)]; rfl

/-- C19: a case of `C19_solvers_agree`, in rational arithmetic. -/
example : ∃ c path1 path2 res path3,
    Dp.shortestPath (dijkstraData.map (asFloat32 id)) (fun a b => ⟨a.length, b.length, fun i j =>
      stepCost (WithTop ℚ) [1] (a[i]?.getD []) (b[j]?.getD [])⟩) = .ok ⟨true, path1, c⟩ ∧
    PyGraph.getShortestPath (stepCost (WithTop ℚ) [1]) (dijkstraData.map (asFloat32 id)) = .ok res ∧
    res.success = true ∧ res.path = some path2 ∧ res.totalCost = some c ∧
    getShortestPath (stdHeap : PQ (WithTop ℚ) (List ℚ)) id dijkstraData .bfs (some [1]) =
      .ok ⟨true, some path3, some c⟩ := by
  refine C19_solvers_agree noOverflow_rat add_assoc add_zero zero_add stdHeap id 1 dijkstraData
    dijkstraData_ok (by simp [dijkstraData]) (some [1]) [1] (by simp [effWeights])
    (fun x y => by rw [stepCost_rat]; exact WithTop.coe_lt_top _) _ ?_
  intro a b
  exact ⟨rfl, rfl, fun i j x y hx hy => by simp [hx, hy]⟩

end Verif.Props
