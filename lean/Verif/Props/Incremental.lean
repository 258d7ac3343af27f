import Verif.Props.Planning

/-! # C61: cart_to_joint_incremental; C62, C63, C67: resampling and the planners that cannot run -/

set_option linter.unusedSectionVars false

namespace Verif.Props

open Verif Verif.Path Verif.Geometry Verif.Kin Verif.ShortestPath Verif.Task Verif.CppGraph
  Verif.Search Verif.Planning

noncomputable section

variable {W S : Type} {Inv : W → Prop} {arm : Arm W S} {scene : Collection S}
  {ikf : M4 → Option (List Config)} {hit : Config → Bool} {d : Nat}

/-! ## C61 -/

/-- The collision-free solutions of the first `K` poses drawn. -/
def foundBy (ikf : M4 → Option (List Config)) (hit : Config → Bool) (T : Nat → M4) (K : Nat) :
    List Config :=
  (List.range K).flatMap fun k => ((ikf (T k)).getD []).filter fun q => hit q = false

theorem foundBy_succ (T : Nat → M4) (K : Nat) :
    foundBy ikf hit T (K + 1) = foundBy ikf hit T K ++ freeAt ikf hit (T K) := by
  unfold foundBy freeAt
  rw [List.range_succ, List.flatMap_append]
  congr 1
  rw [List.flatMap_singleton]
  congr 1
  funext q
  cases hit q <;> rfl

theorem mem_foundBy {T : Nat → M4} {K : Nat} {q : Config} : q ∈ foundBy ikf hit T K ↔
    ∃ k < K, ∃ sols, ikf (T k) = some sols ∧ q ∈ sols ∧ hit q = false := by
  unfold foundBy
  simp only [List.mem_flatMap, List.mem_range, List.mem_filter, decide_eq_true_eq]
  constructor
  · rintro ⟨k, hk, hq, hh⟩
    cases h : ikf (T k) with
    | none => rw [h] at hq; simp at hq
    | some sols => rw [h] at hq; exact ⟨k, hk, sols, h, hq, hh⟩
  · rintro ⟨k, hk, sols, h, hq, hh⟩
    exact ⟨k, hk, by rw [h]; exact hq, hh⟩

/-- The first pose of every round. -/
def FirstSample (draws : Nat → Draws) (tp : PathPt) (T : Nat → M4) : Prop :=
  ∀ k, ∃ rest, getSamples (draws k) 1 none tp = .ok (T k :: rest)

/-- Enough has been found after `K` rounds. -/
def Enough (minSamples maxTries : Int) (found : Nat) : Prop :=
  minSamples ≤ found ∨ maxTries ≤ found

theorem round_returns (h : Determined arm scene Inv ikf hit d) (T : M4) :
    Returns Inv (do
        match ← arm.ik T with
        | none => pure []
        | some sols => keepFree arm scene sols [] : Run W (List Config)) (freeAt ikf hit T) := by
  refine Returns.bind (h.ik T) ?_
  cases hT : ikf T with
  | none => simpa [freeAt, hT] using Returns.pure (Inv := Inv) ([] : List Config)
  | some sols =>
    have := keepFree_returns h.col sols (h.dof T sols hT) []
    simpa [freeAt, hT] using this

theorem incrementalLoop_returns (h : Determined arm scene Inv ikf hit d) {draws : Nat → Draws}
    {tp : PathPt} {T : Nat → M4} (hT : FirstSample draws tp T) {minSamples maxTries : Int} {K : Nat}
    (hK : Enough minSamples maxTries (foundBy ikf hit T K).length)
    (hleast : ∀ k, 1 ≤ k → k < K → ¬ Enough minSamples maxTries (foundBy ikf hit T k).length)
    (hmax : 0 < maxTries) (fuel k : Nat) (hk : k < K) (hf : K ≤ k + fuel) :
    Returns Inv (incrementalLoop arm scene draws tp minSamples maxTries fuel k
      (foundBy ikf hit T k).length (foundBy ikf hit T k)) (foundBy ikf hit T K) := by
  induction fuel generalizing k with
  | zero => omega
  | succ fuel ih =>
    have hlt : ((foundBy ikf hit T k).length : Int) < maxTries := by
      by_cases h0 : k = 0
      · subst h0
        simpa [foundBy] using hmax
      · have := hleast k (by omega) hk
        unfold Enough at this
        omega
    unfold incrementalLoop
    rw [if_pos hlt]
    obtain ⟨rest, hs⟩ := hT k
    refine Returns.bind (Returns.lift hs) ?_
    refine Returns.bind (a := T k) (Returns.lift rfl) ?_
    refine Returns.bind (round_returns h (T k)) ?_
    simp only
    rw [← foundBy_succ]
    have hlen : ((foundBy ikf hit T k).length : Int) + ((freeAt ikf hit (T k)).length : Int) =
        ((foundBy ikf hit T (k + 1)).length : Int) := by
      rw [foundBy_succ, List.length_append, Nat.cast_add]
    rw [hlen]
    by_cases hlast : k + 1 = K
    · subst hlast
      by_cases hm : ((foundBy ikf hit T (k + 1)).length : Int) ≥ minSamples
      · rw [if_pos hm]
        exact Returns.pure _
      · rw [if_neg hm]
        have hge : ¬ ((foundBy ikf hit T (k + 1)).length : Int) < maxTries := by
          unfold Enough at hK
          omega
        cases fuel with
        | zero =>
          unfold incrementalLoop
          rw [if_neg hge]
          exact Returns.pure _
        | succ f =>
          unfold incrementalLoop
          rw [if_neg hge]
          exact Returns.pure _
    · have hn := hleast (k + 1) (by omega) (by omega)
      unfold Enough at hn
      rw [if_neg (by omega)]
      exact ih (k + 1) (by omega) (by omega)

theorem incrementalLoop_diverges (h : Determined arm scene Inv ikf hit d) {draws : Nat → Draws}
    {tp : PathPt} {T : Nat → M4} (hT : FirstSample draws tp T) {minSamples maxTries : Int}
    (hnever : ∀ k, 1 ≤ k → ¬ Enough minSamples maxTries (foundBy ikf hit T k).length)
    (hmax : 0 < maxTries) (fuel k : Nat) :
    Raises Inv (incrementalLoop arm scene draws tp minSamples maxTries fuel k
      (foundBy ikf hit T k).length (foundBy ikf hit T k)) (.py .outOfFuel) := by
  have hlt : ∀ k, ((foundBy ikf hit T k).length : Int) < maxTries := by
    intro k
    by_cases h0 : k = 0
    · subst h0
      simpa [foundBy] using hmax
    · have := hnever k (by omega)
      unfold Enough at this
      omega
  induction fuel generalizing k with
  | zero =>
    unfold incrementalLoop
    rw [if_pos (hlt k)]
    exact Raises.raise _
  | succ fuel ih =>
    unfold incrementalLoop
    rw [if_pos (hlt k)]
    obtain ⟨rest, hs⟩ := hT k
    refine Returns.bind_raises (Returns.lift hs) ?_
    refine Returns.bind_raises (a := T k) (Returns.lift rfl) ?_
    refine Returns.bind_raises (round_returns h (T k)) ?_
    simp only
    rw [← foundBy_succ]
    have hlen : ((foundBy ikf hit T k).length : Int) + ((freeAt ikf hit (T k)).length : Int) =
        ((foundBy ikf hit T (k + 1)).length : Int) := by
      rw [foundBy_succ, List.length_append, Nat.cast_add]
    have hn := hnever (k + 1) (by omega)
    unfold Enough at hn
    rw [hlen, if_neg (by omega)]
    exact ih (k + 1)

theorem incrementalPath_returns (h : Determined arm scene Inv ikf hit d) (conv : ℝ → ℝ)
    {draws : Nat → Nat → Draws} {T : Nat → Nat → M4} {minSamples maxTries : Int}
    (hmax : 0 < maxTries) {fuel : Nat} (K : Nat → Nat) (path : List PathPt) (i : Nat)
    (hT : ∀ j tp, path[j]? = some tp → FirstSample (draws (i + j)) tp (T (i + j)))
    (hK : ∀ j, j < path.length → 1 ≤ K (i + j) ∧ K (i + j) ≤ fuel ∧
      Enough minSamples maxTries (foundBy ikf hit (T (i + j)) (K (i + j))).length ∧
      ∀ k, 1 ≤ k → k < K (i + j) →
        ¬ Enough minSamples maxTries (foundBy ikf hit (T (i + j)) k).length)
    (Q : List (PyCol ℝ)) :
    Returns Inv (incrementalPath arm scene conv draws minSamples maxTries fuel i path Q)
      (Q ++ (List.range path.length).map fun j =>
        colOf conv d (foundBy ikf hit (T (i + j)) (K (i + j)))) := by
  induction path generalizing i Q with
  | nil => simpa [incrementalPath] using Returns.pure (Inv := Inv) Q
  | cons tp path ih =>
    unfold incrementalPath
    obtain ⟨k1, k2, k3, k4⟩ := hK 0 (by simp)
    have hr := incrementalLoop_returns h (hT 0 tp rfl) k3 k4 hmax fuel 0 (by omega) (by omega)
    have h0 : foundBy ikf hit (T (i + 0)) 0 = [] := rfl
    rw [h0] at hr
    refine Returns.bind hr ?_
    have hdof : ∀ q ∈ foundBy ikf hit (T (i + 0)) (K (i + 0)), q.length = d := by
      intro q hq
      obtain ⟨k, _, sols, h1, h2, _⟩ := mem_foundBy.1 hq
      exact h.dof _ sols h1 q h2
    refine Returns.bind (Returns.lift (column_ok conv hdof)) ?_
    have := ih (i + 1) (fun j tp' hj => by
        have := hT (j + 1) tp' hj
        rwa [show i + (j + 1) = i + 1 + j by omega] at this)
      (fun j hj => by
        have := hK (j + 1) (by simpa using hj)
        rwa [show i + (j + 1) = i + 1 + j by omega] at this)
      (Q ++ [colOf conv d (foundBy ikf hit (T (i + 0)) (K (i + 0)))])
    rw [List.append_assoc] at this
    convert this using 2
    rw [List.length_cons, List.range_succ_eq_map, List.map_cons, List.map_map]
    simp only [List.singleton_append, List.cons.injEq, true_and]
    refine List.map_congr_left fun j _ => ?_
    simp only [Function.comp, Nat.succ_eq_add_one, show i + (j + 1) = i + 1 + j by omega]

/-- The full property: the function returns for all robots and draws when `max_tries` rounds per path
point are allowed. -/
def C61_statement : Prop := ∀ (W S : Type) (Inv : W → Prop) (arm : Arm W S) (scene : Collection S)
  (ikf : M4 → Option (List Config)) (hit : Config → Bool) (d : Nat) (w : W),
  Determined arm scene Inv ikf hit d → Inv w →
  ∀ (conv : ℝ → ℝ) (draws : Nat → Nat → Draws) (path : List PathPt) (T : Nat → Nat → M4)
    (minSamples maxTries : Nat), 0 < maxTries →
    (∀ i tp, path[i]? = some tp → FirstSample (draws i) tp (T i)) →
    ∃ Q, Returns Inv (cartToJointIncremental arm conv draws maxTries path scene minSamples maxTries) Q

/-- **C61**, what holds: if for every path point the poses drawn in some `K ≥ 1` rounds have together
at least `min_samples` or at least `max_tries` collision-free solutions, the function returns as soon
as that happens (`fuel` rounds are enough as soon as `fuel ≥ K`), and the column holds exactly the
collision-free solutions of the poses drawn until then: at least `min_samples` or at least `max_tries`
of them.  Missing: the bound on the number of rounds, which does not exist (`C61_diverges`). -/
theorem C61_partial (h : Determined arm scene Inv ikf hit d) (conv : ℝ → ℝ)
    {draws : Nat → Nat → Draws} {path : List PathPt} {T : Nat → Nat → M4}
    {minSamples maxTries : Int} (hmax : 0 < maxTries)
    (hT : ∀ i tp, path[i]? = some tp → FirstSample (draws i) tp (T i))
    {K : Nat → Nat} {fuel : Nat}
    (hK : ∀ i < path.length, 1 ≤ K i ∧ K i ≤ fuel ∧
      Enough minSamples maxTries (foundBy ikf hit (T i) (K i)).length ∧
      ∀ k, 1 ≤ k → k < K i → ¬ Enough minSamples maxTries (foundBy ikf hit (T i) k).length) :
    ∃ Q, Returns Inv (cartToJointIncremental arm conv draws fuel path scene minSamples maxTries) Q ∧
      Q.length = path.length ∧
      ∀ i < path.length, ∃ c : PyCol ℝ, Q[i]? = some c ∧
        c.rows = (foundBy ikf hit (T i) (K i)).map (List.map conv) ∧
        (c = .emptyList ↔ c.rows = []) ∧
        (minSamples ≤ c.rows.length ∨ maxTries ≤ c.rows.length) := by
  have hr := incrementalPath_returns h conv hmax (minSamples := minSamples) K path 0
    (by simpa using hT) (by simpa using hK) []
  rw [List.nil_append] at hr
  refine ⟨_, hr, by simp, fun i hi => ?_⟩
  refine ⟨colOf conv d (foundBy ikf hit (T i) (K i)), ?_, colOf_rows _ _ _, ?_, ?_⟩
  · simp [List.getElem?_map, List.getElem?_range hi]
  · rw [colOf_rows, colOf_empty]
    simp
  · rw [colOf_rows, List.length_map]
    exact (hK i hi).2.2.1

/-- **C61**, the other half: when the poses drawn for the first path point never have enough
collision-free solutions, no number of rounds is enough. -/
theorem C61_diverges (h : Determined arm scene Inv ikf hit d) (conv : ℝ → ℝ)
    {draws : Nat → Nat → Draws} {tp : PathPt} {rest : List PathPt} {T : Nat → M4}
    {minSamples maxTries : Int} (hmax : 0 < maxTries) (hT : FirstSample (draws 0) tp T)
    (hnever : ∀ k, 1 ≤ k → ¬ Enough minSamples maxTries (foundBy ikf hit T k).length) (fuel : Nat) :
    Raises Inv (cartToJointIncremental arm conv draws fuel (tp :: rest) scene minSamples maxTries)
      (.py .outOfFuel) := by
  unfold cartToJointIncremental incrementalPath
  exact Raises.bind (incrementalLoop_diverges h hT hnever hmax fuel 0)

/-- **C61**: an unreachable path point makes the function run forever. -/
theorem C61_unreachable (h : Determined arm scene Inv ikf hit d) (conv : ℝ → ℝ)
    {draws : Nat → Nat → Draws} {tp : PathPt} {rest : List PathPt} {T : Nat → M4}
    {minSamples maxTries : Int} (hmin : 0 < minSamples) (hmax : 0 < maxTries)
    (hT : FirstSample (draws 0) tp T) (hno : ∀ k, ikf (T k) = none) (fuel : Nat) :
    Raises Inv (cartToJointIncremental arm conv draws fuel (tp :: rest) scene minSamples maxTries)
      (.py .outOfFuel) := by
  refine C61_diverges h conv hmax hT (fun k _ => ?_) fuel
  have : foundBy ikf hit T k = [] := by
    unfold foundBy
    rw [List.flatMap_eq_nil_iff]
    intro j _
    rw [hno]
    rfl
  rw [this, Enough]
  simp only [List.length_nil, Nat.cast_zero]
  omega

theorem stripArm_determined (x : ℝ) : Determined (stripArm x) (⟨[], []⟩ : Collection Unit)
    (fun _ => True) (fun T => if T 0 3 = x then some [[0]] else none) (fun _ => false) 1 := by
  refine ⟨fun T => Returns.pure _, fun T sols hs q hq => ?_, fun q _ => Returns.pure _⟩
  by_cases hT : T 0 3 = x
  · simp only [hT, if_true, Option.some.injEq] at hs
    subst hs
    simp only [List.mem_singleton] at hq
    subst hq
    rfl
  · simp [hT] at hs

/-- An Euler point without tolerance always gives its one pose. -/
theorem fixedPoint (x a : V3) : ∃ pt,
    TolEulerPt.new [.num (x 0), .num (x 1), .num (x 2)] [.num (a 0), .num (a 1), .num (a 2)]
      = .ok pt ∧ ∀ dr n dist, getSamples dr n dist (.euler pt) = .ok [mkTf (Rxyz a) x] := by
  obtain ⟨pt, T, h1, -, h2, rfl⟩ := C47_no_tolerance x a
  refine ⟨pt, h1, fun dr n dist => ?_⟩
  show liftPy pt.getSamples = _
  rw [h2]
  rfl

theorem mkTf_x (R : M3) (x : V3) : mkTf R x 0 3 = x 0 := by
  have := congrFun (posPart_mkTf R x) 0
  exact this

/-- **C61** is false: one fixed path point, a robot that cannot reach it, `min_samples = 1`. -/
theorem C61_refuted : ¬ C61_statement := by
  intro h
  obtain ⟨pt, -, hpt⟩ := fixedPoint 0 0
  obtain ⟨Q, hQ⟩ := h Unit Unit _ _ _ _ _ 1 () (stripArm_determined 1) trivial id
    (fun _ _ => ⟨fun n => n, 0, fun _ => (0, 0, 0), none⟩) [.euler pt]
    (fun _ _ => mkTf (Rxyz 0) 0) 1 1 (by omega) (fun i tp hi k => by
      cases i with
      | zero => cases hi; exact ⟨[], hpt _ _ _⟩
      | succ i => simp at hi)
  refine Returns.not_raises (e := .py .outOfFuel) (w := ()) trivial hQ ?_
  exact C61_unreachable (stripArm_determined 1) id (by simp) (by simp)
    (T := fun _ => mkTf (Rxyz 0) 0) (fun k => ⟨[], hpt _ _ _⟩) (fun k => by
      rw [mkTf_x]
      simp) _

/-- The hypotheses of `C61_partial` are met: a robot with one solution per pose, 3 samples wanted. -/
example : ∃ Q, Returns (fun _ => True) (cartToJointIncremental (stripArm 0) id
    (fun _ _ => ⟨fun n => n, 0, fun _ => (0, 0, 0), none⟩) 3
    [.euler (Classical.choose (fixedPoint 0 0))] (⟨[], []⟩ : Collection Unit) 3 1000) Q ∧
    ∃ c, Q[0]? = some c ∧ c.rows = [[0], [0], [0]] := by
  have hpt := (Classical.choose_spec (fixedPoint 0 0)).2
  have hf : ∀ k, foundBy (fun T : M4 => if T 0 3 = 0 then some [[(0 : ℝ)]] else none)
      (fun _ => false) (fun _ => mkTf (Rxyz 0) 0) k = List.replicate k [0] := by
    intro k
    induction k with
    | zero => rfl
    | succ k ih =>
      rw [foundBy_succ, ih, freeAt, mkTf_x, List.replicate_succ']
      simp
  obtain ⟨Q, h1, -, h2⟩ := C61_partial (stripArm_determined 0) id
    (draws := fun _ _ => ⟨fun n => n, 0, fun _ => (0, 0, 0), none⟩)
    (path := [.euler (Classical.choose (fixedPoint 0 0))]) (T := fun _ _ => mkTf (Rxyz 0) 0)
    (minSamples := 3) (maxTries := 1000) (by norm_num)
    (fun i tp hi k => by
      cases i with
      | zero => cases hi; exact ⟨[], hpt _ _ _⟩
      | succ i => simp at hi) (K := fun _ => 3) (fuel := 3)
    (fun i _ => ⟨by omega, le_refl _, by rw [hf, List.length_replicate, Enough]; norm_num,
      fun k h1 h2 => by rw [hf, List.length_replicate, Enough]; omega⟩)
  refine ⟨Q, h1, ?_⟩
  obtain ⟨c, hc1, hc2, -⟩ := h2 0 (by simp)
  exact ⟨c, hc1, by rw [hc2, hf]; rfl⟩

/-! ## C62 -/

/-- **C62**: the new interval lies in the old one, contains the point and is at most `2 / red` as
wide. -/
theorem C62 {l u m red : ℝ} (hl : l ≤ m) (hu : m ≤ u) (hr : 0 < red) :
    ∃ l' u', getNewBounds l u m red = .ok (l', u') ∧ l ≤ l' ∧ l' ≤ m ∧ m ≤ u' ∧ u' ≤ u ∧
      u' - l' ≤ 2 / red * (u - l) := by
  have hlu : 0 ≤ u - l := by linarith
  have hd : 0 ≤ (u - l) / red := div_nonneg hlu hr.le
  refine ⟨max (m - (u - l) / red) l, min (m + (u - l) / red) u, ?_, le_max_right _ _,
    max_le (by linarith) hl, le_min (by linarith) hu, min_le_right _ _, ?_⟩
  · unfold getNewBounds
    rw [if_neg hr.ne', abs_of_nonneg hlu]
  · have h1 := min_le_left (m + (u - l) / red) u
    have h2 := le_max_left (m - (u - l) / red) l
    have : 2 / red * (u - l) = 2 * ((u - l) / red) := by ring
    linarith

/-- **C62**, exactly: the interval of half width `|u - l| / red` around the point, cut off at the old
bounds. -/
theorem C62_exact {l u m red : ℝ} (hlu : l ≤ u) (hr : 0 < red) :
    ∃ l' u', getNewBounds l u m red = .ok (l', u') ∧
      ∀ x, (l' ≤ x ∧ x ≤ u') ↔ (l ≤ x ∧ x ≤ u) ∧ |x - m| ≤ (u - l) / red := by
  refine ⟨max (m - (u - l) / red) l, min (m + (u - l) / red) u, ?_, fun x => ?_⟩
  · unfold getNewBounds
    rw [if_neg hr.ne', abs_of_nonneg (by linarith)]
  · rw [max_le_iff, le_min_iff, abs_le]
    constructor
    · rintro ⟨⟨h1, h2⟩, h3, h4⟩
      exact ⟨⟨h2, h4⟩, by linarith, by linarith⟩
    · rintro ⟨⟨h1, h2⟩, h3, h4⟩
      exact ⟨⟨by linarith, h1⟩, by linarith, h2⟩

/-- **C62**, the default reduction halves the width (at least). -/
theorem C62_default {l u m : ℝ} (hl : l ≤ m) (hu : m ≤ u) :
    ∃ l' u', getNewBounds l u m = .ok (l', u') ∧ l ≤ l' ∧ l' ≤ m ∧ m ≤ u' ∧ u' ≤ u ∧
      u' - l' ≤ (u - l) / 2 := by
  obtain ⟨l', u', h, h1, h2, h3, h4, h5⟩ := C62 hl hu (red := 4) (by norm_num)
  exact ⟨l', u', h, h1, h2, h3, h4, by linarith⟩

/-- The bounds after `n` rounds with the points `m 0, m 1, …`. -/
def boundsAfter (red : ℝ) (m : Nat → ℝ) (l u : ℝ) : Nat → Except PyErr (ℝ × ℝ)
  | 0 => .ok (l, u)
  | n + 1 => (boundsAfter red m l u n).bind fun b => getNewBounds b.1 b.2 (m n) red

/-- **C62**, iterated: as long as every point lies in the bounds of its round, the intervals are
nested, contain their points, and after `n` rounds the width is at most `(2 / red) ^ n` times the
first. -/
theorem C62_iterated {l u red : ℝ} (hlu : l ≤ u) (hr : 0 < red) (m : Nat → ℝ) (n : Nat)
    (hm : ∀ k < n, ∀ b, boundsAfter red m l u k = .ok b → b.1 ≤ m k ∧ m k ≤ b.2) :
    ∃ b : Nat → ℝ × ℝ, (∀ k ≤ n, boundsAfter red m l u k = .ok (b k)) ∧
      (∀ k < n, (b k).1 ≤ (b (k + 1)).1 ∧ (b (k + 1)).1 ≤ m k ∧ m k ≤ (b (k + 1)).2 ∧
        (b (k + 1)).2 ≤ (b k).2) ∧
      ∀ k ≤ n, (b k).1 ≤ (b k).2 ∧ (b k).2 - (b k).1 ≤ (2 / red) ^ k * (u - l) := by
  induction n with
  | zero =>
    refine ⟨fun _ => (l, u), fun k hk => ?_, fun k hk => by omega, fun k hk => ?_⟩
    · obtain rfl : k = 0 := by omega
      rfl
    · obtain rfl : k = 0 := by omega
      simpa using hlu
  | succ n ih =>
    obtain ⟨b, h1, h2, h3⟩ := ih (fun k hk => hm k (by omega))
    obtain ⟨m1, m2⟩ := hm n (by omega) (b n) (h1 n (le_refl _))
    obtain ⟨l', u', hb, c1, c2, c3, c4, c5⟩ := C62 m1 m2 hr
    refine ⟨fun k => if k ≤ n then b k else (l', u'), fun k hk => ?_, fun k hk => ?_, fun k hk => ?_⟩
    · by_cases hkn : k ≤ n
      · simp only [hkn, if_true]
        exact h1 k hkn
      · obtain rfl : k = n + 1 := by omega
        simp only [hkn, if_false]
        rw [boundsAfter, h1 n (le_refl _)]
        exact hb
    · by_cases hkn : k + 1 ≤ n
      · simp only [hkn, if_true, show k ≤ n by omega]
        exact h2 k hkn
      · obtain rfl : k = n := by omega
        simp only [hkn, if_false, le_refl, if_true]
        exact ⟨c1, c2, c3, c4⟩
    · by_cases hkn : k ≤ n
      · simp only [hkn, if_true]
        exact h3 k hkn
      · obtain rfl : k = n + 1 := by omega
        simp only [hkn, if_false]
        refine ⟨c2.trans c3, c5.trans ?_⟩
        have := mul_le_mul_of_nonneg_left (h3 n (le_refl _)).2 (show 0 ≤ 2 / red by positivity)
        rw [pow_succ]
        linarith

/-- **C62** as the code's comment says: a reduction of 2 around the middle does not reduce. -/
theorem C62_red_two {l u : ℝ} (hlu : l ≤ u) : getNewBounds l u ((l + u) / 2) 2 = .ok (l, u) := by
  unfold getNewBounds
  rw [if_neg (by norm_num), abs_of_nonneg (by linarith)]
  simp only
  rw [show (l + u) / 2 - (u - l) / 2 = l by ring, show (l + u) / 2 + (u - l) / 2 = u by ring]
  simp

/-- **C62** for a coordinate of a path point: wherever the robot ended up, the new tolerance lies in
the old one and is at most half as wide, keeps the number of samples, and contains the coordinate if
that was within the old tolerance. -/
theorem C62_entry {t : TolNum} (ht : t.lower ≤ t.upper) (x : ℝ) :
    ∃ t', newEntry true (.tol t) x = .ok (.tol t') ∧ t.lower ≤ t'.lower ∧ t'.lower ≤ t'.nominal ∧
      t'.nominal ≤ t'.upper ∧ t'.upper ≤ t.upper ∧ t'.upper - t'.lower ≤ (t.upper - t.lower) / 2 ∧
      t'.numSamples = t.numSamples ∧
      (t.lower ≤ x → x ≤ t.upper → t'.lower ≤ x ∧ x ≤ t'.upper) := by
  have hc : t.lower ≤ clampTo t x ∧ clampTo t x ≤ t.upper ∧
      (t.lower ≤ x → x ≤ t.upper → clampTo t x = x) := by
    unfold clampTo
    by_cases h1 : x < t.lower
    · simp only [h1, if_true]
      rw [if_neg (by linarith)]
      exact ⟨le_refl _, ht, fun h => absurd h1 (by linarith)⟩
    · simp only [h1, if_false]
      by_cases h2 : x > t.upper
      · rw [if_pos h2]
        exact ⟨ht, le_refl _, fun _ h => absurd h2 (by linarith)⟩
      · rw [if_neg h2]
        exact ⟨by linarith, by linarith, fun _ _ => rfl⟩
  obtain ⟨l', u', hb, h1, h2, h3, h4, h5⟩ := C62_default hc.1 hc.2.1
  refine ⟨⟨l', u', l' + (u' - l') / 2, t.numSamples⟩, ?_, h1, ?_, ?_, h4, h5, rfl, fun a b => ?_⟩
  · simp only [newEntry, hb, TolNum.new, bind, Except.bind]
  · show l' ≤ l' + (u' - l') / 2
    linarith
  · show l' + (u' - l') / 2 ≤ u'
    linarith
  · rw [hc.2.2 a b] at h2 h3
    exact ⟨h2, h3⟩

/-- The new entry for a coordinate of which the robot reached the value `x`: a number stays as it is, a
tolerance shrinks to half its width around `x`, within the old one. -/
def Shrunk : Entry → ℝ → Entry → Prop
  | .num v, _, e => e = .num v
  | .tol t, x, .tol t' => t.lower ≤ t'.lower ∧ t'.lower ≤ t'.nominal ∧ t'.nominal ≤ t'.upper ∧
      t'.upper ≤ t.upper ∧ t'.upper - t'.lower ≤ (t.upper - t.lower) / 2 ∧
      t'.numSamples = t.numSamples ∧ (t.lower ≤ x → x ≤ t.upper → t'.lower ≤ x ∧ x ≤ t'.upper)
  | .tol _, _, .num _ => False

/-- The tolerance is an interval. -/
def Ordered : Entry → Prop
  | .num _ => True
  | .tol t => t.lower ≤ t.upper

theorem newEntries_go (flags : List Bool) (posEe : List ℝ) (l : List Entry) (k : Nat)
    (h : ∀ (i : Nat) (e : Entry), l[i]? = some e → flags[k + i]? = some e.isTol ∧
      k + i < posEe.length ∧ Ordered e) :
    ∃ es, ((l.zipIdx k).mapM fun vi => do
        let h ← pyGet flags vi.2
        if h then do
          let x ← pyGet posEe vi.2
          newEntry true vi.1 x
        else newEntry false vi.1 0) = Except.ok es ∧ es.length = l.length ∧
      ∀ (i : Nat) (e : Entry) (x : ℝ), l[i]? = some e → posEe[k + i]? = some x →
        ∃ e', es[i]? = some e' ∧ Shrunk e x e' := by
  induction l generalizing k with
  | nil => exact ⟨[], rfl, rfl, by simp⟩
  | cons a l ih =>
    obtain ⟨h1, h2, h3⟩ := h 0 a rfl
    obtain ⟨es, e1, e2, e3⟩ := ih (k + 1) fun i e he => by
      have := h (i + 1) e (by simpa using he)
      rwa [← add_assoc, add_right_comm] at this
    rw [add_zero] at h1 h2
    have hx : posEe[k]? = some posEe[k] := List.getElem?_eq_getElem h2
    have hstep : ∃ a', (do
        let h ← pyGet flags k
        if h then do
          let x ← pyGet posEe k
          newEntry true a x
        else newEntry false a 0) = Except.ok a' ∧ Shrunk a posEe[k] a' := by
      cases a with
      | num v => exact ⟨.num v, by simp [pyGet, h1, Entry.isTol, newEntry, bind, Except.bind], rfl⟩
      | tol t =>
        obtain ⟨t', g1, g2⟩ := C62_entry (t := t) h3 posEe[k]
        exact ⟨.tol t', by simp [pyGet, h1, hx, Entry.isTol, g1, bind, Except.bind], g2⟩
    obtain ⟨a', f1, f2⟩ := hstep
    refine ⟨a' :: es, ?_, by simp [e2], fun i e x he hp => ?_⟩
    · rw [List.zipIdx_cons, List.mapM_cons, e1]
      simp only [f1]
      rfl
    · rcases i with _ | i
      · cases he
        rw [add_zero, hx] at hp
        cases hp
        exact ⟨a', rfl, f2⟩
      · exact e3 i e x (by simpa using he) (by rw [← hp]; congr 1; omega)

/-- **C62** for a whole path point, as its constructor makes it: every coordinate gets its new entry
around the place the robot reached in that coordinate.  The new point is not made, because the name of
its class is wrong. -/
theorem C62_point {pos : List Entry} {q : Quat} {tp : TolPositionPt}
    (htp : TolPositionPt.new pos q = .ok tp) (ho : ∀ e ∈ pos, Ordered e) (posEe : List ℝ)
    (hlen : posEe.length = pos.length) (qee : Quat) :
    ∃ es, newEntries tp posEe = .ok es ∧ es.length = pos.length ∧
      (∀ (i : Nat) (e : Entry) (x : ℝ), pos[i]? = some e → posEe[i]? = some x →
        ∃ e', es[i]? = some e' ∧ Shrunk e x e') ∧
      resampleTrajectoryPoint tp posEe qee = .error .nameError := by
  have hp : tp.pos = pos ∧ tp.posHasTol = pos.map Entry.isTol := by
    unfold TolPositionPt.new at htp
    cases hc : checkForTolerance pos with
    | error e => rw [hc] at htp; cases htp
    | ok p =>
      rw [hc] at htp
      cases htp
      refine ⟨rfl, ?_⟩
      unfold checkForTolerance at hc
      simp only [bind, Except.bind] at hc
      split at hc
      · cases hc
      · cases hc; rfl
  obtain ⟨es, h1, h2, h3⟩ := newEntries_go tp.posHasTol posEe pos 0 fun i e he => by
    have hi := (List.getElem?_eq_some_iff.1 he).1
    refine ⟨?_, by omega, ho e (List.mem_of_getElem? he)⟩
    rw [hp.2, zero_add, List.getElem?_map, he]
    rfl
  have h1' : newEntries tp posEe = .ok es := by
    unfold newEntries
    rw [hp.1]
    exact h1
  refine ⟨es, h1', h2, fun i e x he hx => h3 i e x he (by rw [zero_add]; exact hx), ?_⟩
  unfold resampleTrajectoryPoint
  rw [h1']
  rfl

/-- A point with a tolerance on its first coordinate, reached off the middle. -/
example : ∃ (tp : TolPositionPt) (t' : TolNum), TolPositionPt.new
      [.tol ⟨-1, 1, 0, 5⟩, .num 2, .num 3] ⟨1, 0, 0, 0⟩ = .ok tp ∧
    newEntries tp [0.25, 2, 3] = .ok [.tol t', .num 2, .num 3] ∧ t'.lower ≤ 0.25 ∧ 0.25 ≤ t'.upper ∧
      t'.upper - t'.lower ≤ 1 := by
  obtain ⟨es, h1, h2, h3, -⟩ := C62_point (pos := [.tol ⟨-1, 1, 0, 5⟩, .num 2, .num 3])
    (q := ⟨1, 0, 0, 0⟩) rfl (by simp [Ordered]) [0.25, 2, 3] rfl ⟨1, 0, 0, 0⟩
  obtain ⟨e0, g0, s0⟩ := h3 0 _ _ rfl rfl
  obtain ⟨e1, g1, s1⟩ := h3 1 _ _ rfl rfl
  obtain ⟨e2, g2, s2⟩ := h3 2 _ _ rfl rfl
  match es, h2 with
  | [a, b, c], _ =>
    cases g0
    cases g1
    cases g2
    cases s1
    cases s2
    cases e0 with
    | num v => exact absurd s0 id
    | tol t' =>
      obtain ⟨-, -, -, -, b5, -, b7⟩ := s0
      norm_num at b5 b7
      exact ⟨_, t', rfl, h1, by norm_num; exact b7.1, by norm_num; exact b7.2, by linarith⟩

/-! ## C63 -/

/-- A point of a class other than FreeOrientationPt. -/
def NotFree : PathPt → Prop
  | .free _ => False
  | _ => True

theorem new_notFree {tp : PathPt} (h : NotFree tp) : SolPt.new tp = .error .nameError := by
  cases tp <;> first | rfl | exact absurd h id

/-- What a new SolutionPoint of a free point is. -/
def freshPt (p : FreeOrientationPt) : SolPt :=
  ⟨.free p, .free p, none, .tolOri, Real.pi / 4⟩

theorem new_all (path : List PathPt) :
    path.mapM SolPt.new = .error .nameError ∨
    ∃ ps : List FreeOrientationPt, path = ps.map .free ∧ path.mapM SolPt.new = .ok (ps.map freshPt) := by
  induction path with
  | nil => exact Or.inr ⟨[], rfl, rfl⟩
  | cons tp path ih =>
    by_cases h : NotFree tp
    · left
      rw [List.mapM_cons, new_notFree h]
      rfl
    · obtain ⟨p, rfl⟩ : ∃ p, tp = .free p := by
        cases tp <;> first | exact ⟨_, rfl⟩ | exact absurd trivial h
      rw [List.mapM_cons, show SolPt.new (.free p) = .ok (freshPt p) from rfl]
      rcases ih with ih | ⟨ps, rfl, ih⟩
      · left
        rw [ih]
        rfl
      · right
        refine ⟨p :: ps, rfl, ?_⟩
        rw [ih]
        rfl

variable {C : Type} [CostArith C] [JointArith ℝ C]

/-- The full property: building the list of solution points succeeds for all free, position-toleranced
and axis-angle points. -/
def C63_statement : Prop := ∀ path : List PathPt,
  (∀ tp ∈ path, (∃ p, tp = .free p) ∨ (∃ p, tp = .position p) ∨ ∃ p, tp = .axisAngle p) →
  ∃ pts, path.mapM SolPt.new = .ok pts

/-- **C63** is false: for every path with a point that is not a FreeOrientationPt, every robot, scene,
number of samples and of rounds, the iterative planner raises NameError (the class TolPositionPoint
does not exist). -/
theorem C63_raises {path : List PathPt} (h : ∃ tp ∈ path, ∀ p, tp ≠ .free p) (arm : Arm W S)
    (pq : PQ C Config) (conv : ℝ → ℝ) (draws : Nat → Nat → Draws) (time : Nat → ℝ)
    (scene : Collection S) (n maxIters : Nat) :
    Raises Inv (cartToJointIterative arm pq conv draws time path scene n maxIters)
      (.py .nameError) := by
  unfold cartToJointIterative
  refine Raises.bind (Raises.lift ?_)
  rcases new_all path with h' | ⟨ps, rfl, _⟩
  · rw [h']
    rfl
  · obtain ⟨tp, htp, hne⟩ := h
    obtain ⟨p, _, rfl⟩ := List.mem_map.1 htp
    exact absurd rfl (hne p)

theorem C63_refuted : ¬ C63_statement := by
  intro h
  obtain ⟨pts, hp⟩ := h [.axisAngle ⟨0, ![0, 0, 1], ⟨0, 1, 1 / 2, 5⟩, ⟨1, 0, 0, 0⟩⟩]
    (fun tp htp => Or.inr (Or.inr ⟨_, List.mem_singleton.1 htp⟩))
  rcases new_all [.axisAngle ⟨0, ![0, 0, 1], ⟨0, 1, 1 / 2, 5⟩, ⟨1, 0, 0, 0⟩⟩] with h' | ⟨ps, h', _⟩
  · rw [hp] at h'
    cases h'
  · cases ps with
    | nil => cases h'
    | cons p ps => simp at h'

/-- **C63**, what holds: paths of free-orientation points are accepted, and every solution point
starts as its path point with tolerance π/4.  Missing: all other classes (`C63_raises`). -/
theorem C63_partial (ps : List FreeOrientationPt) :
    (ps.map PathPt.free).mapM SolPt.new =
      .ok (ps.map fun p => ⟨.free p, .free p, none, .tolOri, Real.pi / 4⟩) := by
  rcases new_all (ps.map PathPt.free) with h | ⟨ps', h, h'⟩
  · exfalso
    induction ps with
    | nil => cases h
    | cons p ps ih =>
      rw [List.map_cons, List.mapM_cons, show SolPt.new (.free p) = .ok (freshPt p) from rfl] at h
      cases hm : (ps.map PathPt.free).mapM SolPt.new with
      | error e =>
        rw [hm] at h ih
        cases h
        exact ih rfl
      | ok l => rw [hm] at h; cases h
  · rw [h']
    have : ps = ps' := by
      have hinj : Function.Injective PathPt.free := fun a b h => by cases h; rfl
      exact (List.map_injective_iff.2 hinj) h
    rw [this]
    rfl

/-- **C63**: resampling a position-toleranced point never works. -/
theorem C63_resample (tp : TolPositionPt) (pos : List ℝ) (q : Quat) :
    ∃ e, resampleTrajectoryPoint tp pos q = .error e := by
  unfold resampleTrajectoryPoint
  cases newEntries tp pos with
  | error e => exact ⟨e, rfl⟩
  | ok l => exact ⟨_, rfl⟩

/-! ## C67 -/

/-- The full property: the function returns something for every robot with links. -/
def C67_statement : Prop := ∀ (r : Robot Shape) (path : List PathPt) (scene : Collection Shape),
  r.links ≠ [] → ∃ Q, cartToJointToolFirstCc r path scene = .ok Q

/-- **C67** is false for every input: IndexError for a robot without links, AttributeError
otherwise. -/
theorem C67_raises (r : Robot S) (path : List PathPt) (scene : Collection S) :
    cartToJointToolFirstCc r path scene =
      .error (if r.links = [] then .indexError else .attributeError) := by
  unfold cartToJointToolFirstCc
  by_cases h : r.links = []
  · rw [if_pos h, h]
    rfl
  · rw [if_neg h]
    obtain ⟨l, hl⟩ : ∃ l, r.links.getLast? = some l := by
      cases hg : r.links.getLast? with
      | none => exact absurd (List.getLast?_eq_none_iff.1 hg) h
      | some l => exact ⟨l, rfl⟩
    have : pyLast r.links = .ok l := by rw [pyLast, hl]
    rw [this]
    rfl

theorem C67_refuted : ¬ C67_statement := by
  intro h
  obtain ⟨Q, hQ⟩ := h (planarArm 1 1 1) [] ⟨[], []⟩ (by simp [planarArm, Robot.new])
  rw [C67_raises] at hQ
  cases hQ

/-- C62: a case of `C62_iterated`.  The point is 0 in every round, the width goes down to a hundredth. -/
example : ∃ b : Nat → ℝ × ℝ, boundsAfter 20 (fun _ => 0) (-1) 1 2 = .ok (b 2) ∧
    (b 2).2 - (b 2).1 ≤ (2 / 20) ^ 2 * (1 - -1) := by
  have key : ∀ k b, boundsAfter 20 (fun _ => 0) (-1) 1 k = .ok b → b.1 ≤ 0 ∧ 0 ≤ b.2 := by
    intro k
    induction k with
    | zero => rintro b ⟨⟩; norm_num
    | succ k ih =>
      intro b h
      unfold boundsAfter at h
      cases hc : boundsAfter 20 (fun _ => 0) (-1) 1 k with
      | error e => rw [hc] at h; cases h
      | ok c =>
        rw [hc] at h
        obtain ⟨h1, h2⟩ := ih c hc
        obtain ⟨l', u', e, hx⟩ := C62_exact (m := 0) (red := 20) (h1.trans h2) (by norm_num)
        have e2 : getNewBounds c.1 c.2 0 20 = .ok b := h
        rw [e] at e2
        cases e2
        exact (hx 0).2 ⟨⟨h1, h2⟩, by rw [sub_zero, abs_zero]; exact div_nonneg (by linarith) (by norm_num)⟩
  obtain ⟨b, h1, -, h3⟩ := C62_iterated (l := -1) (u := 1) (red := 20) (by norm_num) (by norm_num)
    (fun _ => 0) 2 (fun k _ b hb => key k b hb)
  exact ⟨b, h1 2 le_rfl, (h3 2 le_rfl).2⟩

/-- C62: a case of `C62_entry`, with the coordinate outside the tolerance. -/
example := C62_entry (t := ⟨-1, 1, 0, 10⟩) (by norm_num) 3

end

end Verif.Props
