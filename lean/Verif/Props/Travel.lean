import Verif.Model.CppTravel
import Verif.Props.NoShorter

/-!
# C147: the planned path and the travel of the joints

The searches add up the squares of the joint changes.  The travel of the joints, the sum of the absolute
changes (`cost_function` of graph.cpp, which nothing calls), is a different thing.
-/

set_option linter.unusedSectionVars false

namespace Verif.Props

open Verif Verif.ShortestPath Verif.CppGraph Verif.Search Verif.Planning Verif.Spec

noncomputable section

/-- The sum over all moves and joints of the absolute changes of the joint values. -/
def travel (way : List (List ℝ)) : ℝ :=
  ((way.zip way.tail).map fun t => ((t.1.zip t.2).map fun u => |u.1 - u.2|).sum).sum

/-- What one would like: the planned path has the least travel of all paths through the columns. -/
def C147_statement : Prop :=
  ∀ (d : Nat) (Q : List (PyCol ℝ)) (path : List (List ℝ)) (c : WithTop ℝ), InputOK d Q →
    getShortestPath (stdHeap : PQ (WithTop ℝ) (List ℝ)) id Q .dijkstra none =
      .ok ⟨true, some path, some c⟩ →
    ∀ p, IsSelection (Q.map (asFloat32 id)) p → travel path ≤ travel p

/-! ## The changes of the joints as one list -/

/-- All changes of joint values along a way. -/
def changes (way : List (List ℝ)) : List ℝ :=
  (way.zip way.tail).flatMap fun t => (t.1.zip t.2).map fun u => u.1 - u.2

theorem travel_changes (way : List (List ℝ)) : travel way = ((changes way).map abs).sum := by
  unfold travel changes
  induction way.zip way.tail with
  | nil => rfl
  | cons t l ih =>
    rw [List.map_cons, List.sum_cons, ih, List.flatMap_cons, List.map_append, List.sum_append, List.map_map]
    rfl

theorem moveCost_changes (way : List (List ℝ)) : moveCost way = ((changes way).map (· ^ 2)).sum := by
  unfold moveCost changes
  induction way.zip way.tail with
  | nil => rfl
  | cons t l ih =>
    rw [List.map_cons, List.sum_cons, ih, List.flatMap_cons, List.map_append, List.sum_append, List.map_map]
    rfl

theorem changes_length {d : Nat} {way : List (List ℝ)} (h : ∀ q ∈ way, q.length = d) :
    (changes way).length = (way.length - 1) * d := by
  induction way with
  | nil => simp [changes]
  | cons x way ih =>
    cases way with
    | nil => simp [changes]
    | cons y way =>
      have := ih fun q hq => h q (by simp [hq])
      simp only [changes, List.tail_cons, List.zip_cons_cons, List.flatMap_cons, List.length_append,
        List.length_map, List.length_zip, h x (by simp), h y (by simp), List.length_cons,
        Nat.add_sub_cancel, min_self] at this ⊢
      rw [this]
      ring

theorem abs_sum_nonneg (l : List ℝ) : 0 ≤ (l.map abs).sum :=
  List.sum_nonneg fun x hx => by
    obtain ⟨y, -, rfl⟩ := List.mem_map.1 hx
    exact abs_nonneg y

theorem cross_le (a : ℝ) (l : List ℝ) :
    2 * |a| * (l.map abs).sum ≤ l.length * a ^ 2 + (l.map (· ^ 2)).sum := by
  induction l with
  | nil => simp
  | cons x l ih =>
    simp only [List.map_cons, List.sum_cons, List.length_cons, Nat.cast_add, Nat.cast_one]
    nlinarith [sq_nonneg (|a| - |x|), sq_abs a, sq_abs x]

/-- The sum of absolute values against the sum of squares. -/
theorem sq_abs_sum_le (l : List ℝ) : (l.map abs).sum ^ 2 ≤ l.length * (l.map (· ^ 2)).sum := by
  induction l with
  | nil => simp
  | cons x l ih =>
    have := cross_le x l
    simp only [List.map_cons, List.sum_cons, List.length_cons, Nat.cast_add, Nat.cast_one]
    nlinarith [sq_abs x]

theorem sum_sq_le (l : List ℝ) : (l.map (· ^ 2)).sum ≤ (l.map abs).sum ^ 2 := by
  induction l with
  | nil => simp
  | cons x l ih =>
    simp only [List.map_cons, List.sum_cons]
    nlinarith [mul_nonneg (abs_nonneg x) (abs_sum_nonneg l), sq_abs x]

theorem travel_nonneg (way : List (List ℝ)) : 0 ≤ travel way := by
  rw [travel_changes]
  exact abs_sum_nonneg _

/-! ## What holds -/

theorem selection_length {d : Nat} {Q : List (PyCol ℝ)} (hQ : InputOK d Q) {p : List (List ℝ)}
    (hp : IsSelection (Q.map (asFloat32 id)) p) : p.length = Q.length ∧ ∀ q ∈ p, q.length = d := by
  have hlen : p.length = Q.length := by rw [← hp.length_eq, List.length_map]
  refine ⟨hlen, fun q hq => ?_⟩
  obtain ⟨i, hi, rfl⟩ := List.getElem_of_mem hq
  have hi' : i < (Q.map (asFloat32 id)).length := by rw [hp.length_eq]; exact hi
  have hm := hp.get hi' hi
  rw [List.get_eq_getElem, List.get_eq_getElem, List.getElem_map] at hm
  have hc := hQ.col Q[i] (List.getElem_mem _)
  generalize Q[i]'(by simpa using hi') = c at hm hc
  cases c with
  | emptyList => exact hc.elim
  | arr b n rows =>
    refine hc.2.2 _ ?_
    cases b <;> simpa [asFloat32] using hm

/-- **C147**, what holds: when the search is exact, the travel of the planned path is at most
`√((number of points - 1) * (number of joints))` times that of any other path through the columns.
Missing: that it is the least. -/
theorem C147_partial {pq : PQ (WithTop ℝ) (List ℝ)} {d : Nat} {Q : List (PyCol ℝ)}
    (hf : FindsShortest pq Q.length) (hQ : InputOK d Q) : ∃ path, ∃ c : WithTop ℝ,
    getShortestPath pq id Q .dijkstra none = .ok ⟨true, some path, some c⟩ ∧
    IsSelection (Q.map (asFloat32 id)) path ∧
    ∀ p, IsSelection (Q.map (asFloat32 id)) p →
      travel path ≤ Real.sqrt ((Q.length - 1 : Nat) * d) * travel p := by
  obtain ⟨path, c, h1, h2, h3, h4⟩ := hf.search hQ rfl
  refine ⟨path, c, h1, h2, fun p hp => ?_⟩
  obtain ⟨l1, l2⟩ := selection_length hQ h2
  obtain ⟨l3, l4⟩ := selection_length hQ hp
  have hle := h4 p hp
  rw [← h3, costL_move l2, costL_move l4, WithTop.coe_le_coe] at hle
  have hn : ((changes path).length : ℝ) = (Q.length - 1 : Nat) * d := by
    rw [changes_length l2, l1, Nat.cast_mul]
  have h0 : (0 : ℝ) ≤ (Q.length - 1 : Nat) * d := by positivity
  refine abs_le_of_sq_le_sq' ?_ (mul_nonneg (Real.sqrt_nonneg _) (travel_nonneg p)) |>.2
  calc travel path ^ 2 ≤ (changes path).length * moveCost path := by
        rw [travel_changes, moveCost_changes]
        exact sq_abs_sum_le _
    _ ≤ (changes path).length * travel p ^ 2 := by
        refine mul_le_mul_of_nonneg_left (hle.trans ?_) (Nat.cast_nonneg _)
        rw [travel_changes, moveCost_changes]
        exact sum_sq_le _
    _ = (Real.sqrt ((Q.length - 1 : Nat) * d) * travel p) ^ 2 := by
        rw [mul_pow, Real.sq_sqrt h0, hn]

/-- **C147**: with one joint and two points the planned path does have the least travel. -/
theorem C147_one_joint {Q : List (PyCol ℝ)} (hQ : InputOK 1 Q) (h2 : Q.length ≤ 2) : ∃ path,
    ∃ c : WithTop ℝ, getShortestPath stdHeap id Q .dijkstra none = .ok ⟨true, some path, some c⟩ ∧
    IsSelection (Q.map (asFloat32 id)) path ∧
    ∀ p, IsSelection (Q.map (asFloat32 id)) p → travel path ≤ travel p := by
  obtain ⟨path, c, h1, h3, h4⟩ := C147_partial (.inr ⟨rfl, h2⟩) hQ
  refine ⟨path, c, h1, h3, fun p hp => (h4 p hp).trans ?_⟩
  have hs : Real.sqrt ((Q.length - 1 : Nat) * (1 : Nat)) ≤ 1 := by
    rw [Real.sqrt_le_one]
    have : Q.length - 1 ≤ 1 := by omega
    rw [Nat.cast_one, mul_one]
    exact_mod_cast this
  calc _ ≤ 1 * travel p := mul_le_mul_of_nonneg_right hs (travel_nonneg p)
    _ = travel p := one_mul _

/-! ## The factor cannot be improved -/

/-- One joint turned back by one. -/
def back (d : Nat) : List ℝ := -1 :: List.replicate (d - 1) 0

/-- All joints at `x`. -/
def level (d : Nat) (x : ℝ) : List ℝ := List.replicate d x

/-- A start, and then `m` times two places to go: one joint back by one, or all joints `t` further. -/
def twoWays (d m : Nat) (t : ℝ) : List (PyCol ℝ) :=
  .arr false d [level d 0] ::
    (List.range' 1 m).map fun i : Nat => .arr false d [back d, level d (i * t)]

theorem back_length {d : Nat} (hd : 0 < d) : (back d).length = d := by
  simp only [back, List.length_cons, List.length_replicate]
  omega

theorem twoWays_ok {d : Nat} (hd : 0 < d) (m : Nat) (t : ℝ) : InputOK d (twoWays d m t) where
  ne := by simp [twoWays]
  col := by
    intro c hc
    rw [twoWays, List.mem_cons, List.mem_map] at hc
    rcases hc with rfl | ⟨i, -, rfl⟩
    · exact ⟨rfl, by simp, by simp [level]⟩
    · refine ⟨rfl, by simp, ?_⟩
      intro r hr
      simp only [List.mem_cons, List.not_mem_nil, or_false] at hr
      rcases hr with rfl | rfl
      · exact back_length hd
      · simp [level]
  f32 := by
    intro h
    simp [twoWays, PyCol.isF32] at h

theorem twoWays_cols (d m : Nat) (t : ℝ) : (twoWays d m t).map (asFloat32 id) =
    [level d 0] :: (List.range' 1 m).map fun i : Nat => [back d, level d (i * t)] := by
  simp [twoWays, asFloat32, Function.comp_def]

theorem sum_zip_replicate (f : ℝ × ℝ → ℝ) (a b : ℝ) (d : Nat) :
    (((List.replicate d a).zip (List.replicate d b)).map f).sum = d * f (a, b) := by
  simp [List.zip_replicate']

theorem moveCost_cons (x y : List ℝ) (l : List (List ℝ)) : moveCost (x :: y :: l) =
    ((x.zip y).map fun u => (u.1 - u.2) ^ 2).sum + moveCost (y :: l) := by
  simp [moveCost]

theorem travel_cons (x y : List ℝ) (l : List (List ℝ)) : travel (x :: y :: l) =
    ((x.zip y).map fun u => |u.1 - u.2|).sum + travel (y :: l) := by
  simp [travel]

theorem moveCost_nonneg (way : List (List ℝ)) : 0 ≤ moveCost way := by
  rw [moveCost_changes]
  exact List.sum_nonneg fun x hx => by
    obtain ⟨y, -, rfl⟩ := List.mem_map.1 hx
    exact sq_nonneg y

theorem squares_nonneg (x y : List ℝ) : 0 ≤ ((x.zip y).map fun u => (u.1 - u.2) ^ 2).sum :=
  List.sum_nonneg fun x hx => by
    obtain ⟨y, -, rfl⟩ := List.mem_map.1 hx
    exact sq_nonneg _

theorem back_far {d : Nat} (hd : 0 < d) {x : ℝ} (hx : 0 ≤ x) :
    1 ≤ (((level d x).zip (back d)).map fun u => (u.1 - u.2) ^ 2).sum := by
  obtain ⟨e, rfl⟩ : ∃ e, d = e + 1 := ⟨d - 1, by omega⟩
  rw [level, List.replicate_succ, back, List.zip_cons_cons, List.map_cons, List.sum_cons]
  have := squares_nonneg (List.replicate e x) (List.replicate (e + 1 - 1) 0)
  dsimp only
  nlinarith

/-- A path through the columns either goes up all the way or has squares of at least one. -/
theorem way_alternative {d : Nat} (hd : 0 < d) {t : ℝ} (ht : 0 ≤ t) (m : Nat) :
    ∀ (s : Nat) (p : List (List ℝ)),
      IsSelection ((List.range' (s + 1) m).map fun i : Nat => [back d, level d (i * t)]) p →
      p = ((List.range' (s + 1) m).map fun i : Nat => level d (i * t)) ∨
        1 ≤ moveCost (level d (s * t) :: p) := by
  induction m with
  | zero =>
    intro s p h
    cases h
    exact .inl rfl
  | succ m ih =>
    intro s p h
    rw [List.range'_succ, List.map_cons] at h
    cases h with
    | cons hx h =>
      rename_i x p'
      simp only [List.mem_cons, List.not_mem_nil, or_false] at hx
      rcases hx with rfl | rfl
      · right
        rw [moveCost_cons]
        have := back_far hd (x := s * t) (by positivity)
        have := moveCost_nonneg (back d :: p')
        linarith
      · rcases ih (s + 1) p' h with rfl | h1
        · left
          rw [List.range'_succ, List.map_cons]
        · right
          rw [moveCost_cons]
          have := squares_nonneg (level d (s * t)) (level d ((s + 1 : Nat) * t))
          linarith

theorem up_cost (d : Nat) {t : ℝ} (ht : 0 ≤ t) (m : Nat) : ∀ s : Nat,
    moveCost (level d (s * t) :: (List.range' (s + 1) m).map fun i : Nat => level d (i * t)) =
      m * d * t ^ 2 ∧
    travel (level d (s * t) :: (List.range' (s + 1) m).map fun i : Nat => level d (i * t)) = m * d * t := by
  induction m with
  | zero => intro s; simp [moveCost, travel]
  | succ m ih =>
    intro s
    obtain ⟨h1, h2⟩ := ih (s + 1)
    have e : (s : ℝ) * t - (s + 1 : Nat) * t = -t := by push_cast; ring
    rw [List.range'_succ, List.map_cons, moveCost_cons, travel_cons, h1, h2, level, level,
      sum_zip_replicate, sum_zip_replicate, e, abs_neg, abs_of_nonneg ht]
    push_cast
    constructor <;> ring

theorem zip_self (l : List ℝ) : l.zip l = l.map fun a => (a, a) := by
  induction l with
  | nil => rfl
  | cons a l ih => rw [List.zip_cons_cons, ih, List.map_cons]

theorem back_cost {d : Nat} (hd : 0 < d) (m : Nat) :
    travel (level d 0 :: List.replicate (m + 1) (back d)) = 1 := by
  have h0 : ∀ k, travel (List.replicate (k + 1) (back d)) = 0 := by
    intro k
    induction k with
    | zero => simp [travel]
    | succ k ih =>
      rw [List.replicate_succ, List.replicate_succ, travel_cons, ← List.replicate_succ, ih, add_zero]
      refine List.sum_eq_zero fun x hx => ?_
      obtain ⟨u, hu, rfl⟩ := List.mem_map.1 hx
      rw [zip_self] at hu
      obtain ⟨a, -, rfl⟩ := List.mem_map.1 hu
      simp
  rw [List.replicate_succ, travel_cons, ← List.replicate_succ, h0, add_zero]
  obtain ⟨e, rfl⟩ : ∃ e, d = e + 1 := ⟨d - 1, by omega⟩
  rw [level, List.replicate_succ, back, List.zip_cons_cons, List.map_cons, List.sum_cons,
    Nat.add_sub_cancel, sum_zip_replicate]
  norm_num

theorem sel_back (d m : Nat) (t : ℝ) : ∀ s : Nat,
    IsSelection ((List.range' s m).map fun i : Nat => [back d, level d (i * t)])
      (List.replicate m (back d)) := by
  induction m with
  | zero => exact fun _ => .nil
  | succ m ih =>
    intro s
    rw [List.range'_succ, List.map_cons, List.replicate_succ]
    exact .cons (by simp) (ih (s + 1))

theorem sel_up (d m : Nat) (t : ℝ) : ∀ s : Nat,
    IsSelection ((List.range' s m).map fun i : Nat => [back d, level d (i * t)])
      ((List.range' s m).map fun i : Nat => level d (i * t)) := by
  induction m with
  | zero => exact fun _ => .nil
  | succ m ih =>
    intro s
    rw [List.range'_succ, List.map_cons, List.map_cons]
    exact .cons (by simp) (ih (s + 1))

/-- **C147**, how bad it can be: for any number of joints `d`, any number of moves `m` and any factor below
`√(m * d)`, there are columns for which the exact search returns a path whose travel is more than that
factor times the travel of another path. -/
theorem C147_sharp {pq : PQ (WithTop ℝ) (List ℝ)} {d m : Nat} (hd : 0 < d) (hm : 0 < m)
    (hpq : FindsShortest pq (m + 1)) {f : ℝ} (hf : f < Real.sqrt (m * d)) : ∃ Q : List (PyCol ℝ),
    InputOK d Q ∧ Q.length = m + 1 ∧ ∃ path, ∃ c : WithTop ℝ,
    getShortestPath pq id Q .dijkstra none = .ok ⟨true, some path, some c⟩ ∧
    ∃ p, IsSelection (Q.map (asFloat32 id)) p ∧ 0 < travel p ∧ f * travel p < travel path := by
  have hd' : (0 : ℝ) < m * d := by exact_mod_cast Nat.mul_pos hm hd
  have hs : 0 < Real.sqrt (m * d) := Real.sqrt_pos.2 hd'
  have hss : Real.sqrt (m * d) * Real.sqrt (m * d) = m * d := Real.mul_self_sqrt hd'.le
  obtain ⟨g, g1, g2⟩ := exists_between (max_lt hf hs)
  have g0 : 0 < g := (le_max_right _ _).trans_lt g1
  have gf : f < g := (le_max_left _ _).trans_lt g1
  have ht : m * d * (g / (m * d)) ^ 2 < 1 := by
    have e : m * d * (g / (m * d)) ^ 2 = g ^ 2 / (m * d) := by field_simp
    rw [e, div_lt_one hd']
    nlinarith
  have ht' : m * d * (g / (m * d)) = g := by field_simp
  have ht0 : 0 ≤ g / (m * d) := by positivity
  generalize g / (m * d : ℝ) = t at ht ht' ht0
  have hlen : (twoWays d m t).length = m + 1 := by simp [twoWays]
  have hok := twoWays_ok hd m t
  refine ⟨twoWays d m t, hok, hlen, ?_⟩
  obtain ⟨path, c, h1, h2, h3, h4⟩ := FindsShortest.search (hlen ▸ hpq) hok rfl
  have hA : IsSelection ((twoWays d m t).map (asFloat32 id))
      (level d 0 :: List.replicate m (back d)) := by
    rw [twoWays_cols]
    exact .cons (by simp) (sel_back d m t 1)
  have hB : IsSelection ((twoWays d m t).map (asFloat32 id))
      (level d 0 :: (List.range' 1 m).map fun i : Nat => level d (i * t)) := by
    rw [twoWays_cols]
    exact .cons (by simp) (sel_up d m t 1)
  obtain ⟨u1, u2⟩ := up_cost d ht0 m 0
  rw [Nat.cast_zero, zero_mul] at u1 u2
  have hle := h4 _ hB
  rw [← h3, costL_move (selection_length hok h2).2, costL_move (selection_length hok hB).2,
    WithTop.coe_le_coe] at hle
  have hb : travel (level d 0 :: List.replicate m (back d)) = 1 := by
    obtain ⟨k, rfl⟩ : ∃ k, m = k + 1 := ⟨m - 1, by omega⟩
    exact back_cost hd k
  refine ⟨path, c, h1, _, hA, by rw [hb]; exact one_pos, ?_⟩
  rw [hb, mul_one]
  rw [twoWays_cols] at h2
  cases h2 with
  | cons hx h2 =>
    rename_i x p'
    rw [List.mem_singleton.1 hx] at hle ⊢
    have hw := way_alternative hd ht0 m 0 p' h2
    rw [Nat.cast_zero, zero_mul] at hw
    rcases hw with rfl | hw
    · rw [u2, ht']
      exact gf
    · rw [u1] at hle
      linarith

/-- **C147** is false: with two joints the path with the least squares can have more travel. -/
theorem C147_refuted : ¬ C147_statement := by
  intro h
  obtain ⟨Q, h1, -, path, c, h2, p, h3, h4, h5⟩ := C147_sharp (pq := stdHeap) (d := 2) (m := 1)
    (by norm_num) (by norm_num) (.inr ⟨rfl, le_rfl⟩) (f := 1) (by
    rw [Real.lt_sqrt (by norm_num)]
    norm_num)
  have := h 2 Q path c h1 h2 p h3
  linarith

/-! ## The function that is not called -/

theorem costFrom1_ones (x y : List ℝ) : ∀ (acc : ℝ), x.length = y.length →
    costFrom1 acc (List.replicate x.length 1) x y =
      acc + ((x.zip y).map fun u => |u.1 - u.2|).sum := by
  induction x generalizing y with
  | nil => intro acc _; simp [costFrom1]
  | cons a x ih =>
    intro acc h
    cases y with
    | nil => cases h
    | cons b y =>
      rw [List.length_cons, List.replicate_succ, costFrom1, ih y _ (by simpa using h)]
      simp only [List.zip_cons_cons, List.map_cons, List.sum_cons]
      ring

theorem sum_abs_comm (x y : List ℝ) : ((x.zip y).map fun u => |u.1 - u.2|).sum =
    ((y.zip x).map fun u => |u.1 - u.2|).sum := by
  rw [← List.zip_swap, List.map_map]
  congr 2
  funext u
  exact abs_sub_comm _ _

/-- **C147**: `get_path_cost` with `cost_function` and weights one would be the travel. -/
theorem C147_cost {d : Nat} (way : List (List ℝ)) : ∀ (acc : ℝ), (∀ q ∈ way, q.length = d) →
    pathCost1 (List.replicate d 1) acc way = acc + travel way := by
  induction way with
  | nil => intro acc _; simp [pathCost1, travel]
  | cons x way ih =>
    intro acc h
    cases way with
    | nil => simp [pathCost1, travel]
    | cons y way =>
      have hx := h x (by simp)
      have hy := h y (by simp)
      rw [pathCost1, ih _ fun q hq => h q (by simp [hq]), costFn1]
      rw [← hy, costFrom1_ones y x 0 (hy.trans hx.symm), sum_abs_comm]
      simp only [travel, List.tail_cons, List.zip_cons_cons, List.map_cons, List.sum_cons]
      ring

/-! ## Cases -/

/-- A case of `C147_partial`: two joints, three points, a queue that pops a node of least distance. -/
example : ∃ path, ∃ c : WithTop ℝ, getShortestPath scanQueue id
      [.arr false 2 [[0, 0]], .arr false 2 [[1, 0], [0.5, 0.5]], .arr false 2 [[1, 1]]] .dijkstra none =
      .ok ⟨true, some path, some c⟩ ∧
    travel path ≤ Real.sqrt 4 * travel [[0, 0], [1, 0], [1, 1]] := by
  have hQ : InputOK 2 ([.arr false 2 [[0, 0]], .arr false 2 [[1, 0], [0.5, 0.5]],
      .arr false 2 [[1, 1]]] : List (PyCol ℝ)) := ⟨by simp, by simp [PyCol.Proper], by simp [PyCol.isF32]⟩
  obtain ⟨path, c, h1, -, h3⟩ := C147_partial (pq := scanQueue) (.inl ⟨scanLawful, fun s q n q' h => (scan_some s q n q' h).2⟩) hQ
  refine ⟨path, c, h1, ?_⟩
  have := h3 [[0, 0], [1, 0], [1, 1]] (.cons (by simp [asFloat32]) (.cons (by simp [asFloat32])
    (.cons (by simp [asFloat32]) .nil)))
  norm_num at this ⊢
  exact this

/-- A case of `C147_one_joint`. -/
example : InputOK 1 ([.arr false 1 [[0]], .arr false 1 [[2], [-1]]] : List (PyCol ℝ)) :=
  ⟨by simp, by simp [PyCol.Proper], by simp [PyCol.isF32]⟩

/-- A case of `C147_sharp`: six joints, as the Kuka has, and the heap of the code. -/
example : ∃ Q : List (PyCol ℝ), InputOK 6 Q ∧ Q.length = 2 ∧ ∃ path, ∃ c : WithTop ℝ,
    getShortestPath stdHeap id Q .dijkstra none = .ok ⟨true, some path, some c⟩ ∧
    ∃ p, IsSelection (Q.map (asFloat32 id)) p ∧ 0 < travel p ∧ 2.4 * travel p < travel path :=
  C147_sharp (m := 1) (by norm_num) one_pos (.inr ⟨rfl, le_rfl⟩)
    (by rw [Real.lt_sqrt (by norm_num)]; norm_num)

/-- And fifteen points, as in the notebook, with an exact queue. -/
example : ∃ Q : List (PyCol ℝ), InputOK 6 Q ∧ Q.length = 15 ∧ ∃ path, ∃ c : WithTop ℝ,
    getShortestPath scanQueue id Q .dijkstra none = .ok ⟨true, some path, some c⟩ ∧
    ∃ p, IsSelection (Q.map (asFloat32 id)) p ∧ 0 < travel p ∧ 9 * travel p < travel path :=
  C147_sharp (m := 14) (by norm_num) (by norm_num)
    (.inl ⟨scanLawful, fun s q n q' h => (scan_some s q n q' h).2⟩)
    (by rw [Real.lt_sqrt (by norm_num)]; norm_num)

/-- A case of `C147_cost`. -/
example : pathCost1 [1, 1] 0 [[0, 0], [1, -2], [1, 1]] = 6 := by
  have := C147_cost (d := 2) [[0, 0], [1, -2], [1, 1]] 0 (by simp)
  rw [show List.replicate 2 (1 : ℝ) = [1, 1] from rfl] at this
  rw [this]
  norm_num [travel]

end

end Verif.Props
