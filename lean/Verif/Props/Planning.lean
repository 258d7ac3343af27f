import Verif.Proofs.Planning
import Verif.Props.Path

/-! # C59-C61: from cartesian paths to joint space (planning.py) -/

set_option linter.unusedSectionVars false

namespace Verif.Props

open Verif Verif.Path Verif.Geometry Verif.Kin Verif.ShortestPath Verif.Task Verif.CppGraph
  Verif.Search Verif.Planning

noncomputable section

variable {W S : Type} {Inv : W → Prop} {arm : Arm W S} {scene : Collection S}
  {ikf : M4 → Option (List Config)} {hit : Config → Bool} {d : Nat}

/-! ## C59: cart_to_joint_no_redundancy -/

/-- `samples` are the samples of the path points, in order. -/
def SamplesOf (draws : Nat → Draws) (n : Nat) (path : List PathPt) (samples : List (List M4)) :
    Prop :=
  samples.length = path.length ∧
    ∀ (i : Nat) (tp : PathPt) (Ts : List M4), path[i]? = some tp → samples[i]? = some Ts →
      getSamples (draws i) n none tp = .ok Ts

theorem noRedundancyLoop_returns (h : Determined arm scene Inv ikf hit d) (conv : ℝ → ℝ)
    (draws : Nat → Draws) (n : Nat) (path : List PathPt) (samples : List (List M4)) (i : Nat)
    (hs : SamplesOf (fun j => draws (i + j)) n path samples) (Q : List (PyCol ℝ)) :
    Returns Inv (noRedundancyLoop arm scene conv draws n i path Q)
      (Q ++ samples.map fun Ts => colOf conv d (free ikf hit Ts)) := by
  induction path generalizing samples i Q with
  | nil =>
    have : samples = [] := List.length_eq_zero_iff.1 hs.1
    subst this
    simpa [noRedundancyLoop] using Returns.pure (Inv := Inv) Q
  | cons tp path ih =>
    cases samples with
    | nil => exact absurd hs.1 (by simp)
    | cons Ts samples =>
      unfold noRedundancyLoop
      refine Returns.bind (Returns.lift (hs.2 0 tp Ts rfl rfl)) ?_
      refine Returns.bind (samplesLoop_returns h Ts []) ?_
      rw [List.nil_append]
      refine Returns.bind (Returns.lift (column_ok conv (free_dof h))) ?_
      have := ih samples (i + 1) ⟨by simpa using hs.1, fun j tp' Ts' h1 h2 => by
        have := hs.2 (j + 1) tp' Ts' h1 h2
        simpa only [show i + (j + 1) = i + 1 + j by omega] using this⟩
        (Q ++ [colOf conv d (free ikf hit Ts)])
      simpa using this

/-- **C59**: for every robot with determined answers, every path with its samples, every scene and
all draws, column `i` holds exactly the collision-free solutions of the samples of point `i`, in the
order of the samples and of the solutions, rounded to float32; it is `[]` exactly when there are
none. -/
theorem C59 (h : Determined arm scene Inv ikf hit d) (conv : ℝ → ℝ) {draws : Nat → Draws} {n : Nat}
    {path : List PathPt} {samples : List (List M4)} (hs : SamplesOf draws n path samples) :
    ∃ Q, Returns Inv (cartToJointNoRedundancy arm conv draws path scene n) Q ∧
      Q.length = path.length ∧
      ∀ (i : Nat) (Ts : List M4), samples[i]? = some Ts → ∃ (c : PyCol ℝ) (sols : List Config),
        Q[i]? = some c ∧
        sols = Ts.flatMap (fun T => ((ikf T).getD []).filter fun q => hit q = false) ∧
        c.rows = sols.map (List.map conv) ∧ (c = .emptyList ↔ sols = []) ∧
        (sols ≠ [] → c = .arr true d (sols.map (List.map conv))) ∧
        ∀ q, q ∈ sols ↔ ∃ T ∈ Ts, ∃ l, ikf T = some l ∧ q ∈ l ∧ hit q = false := by
  have hr := noRedundancyLoop_returns h conv draws n path samples 0 (by simpa using hs) []
  rw [List.nil_append] at hr
  refine ⟨_, hr, by simp [hs.1], ?_⟩
  intro i Ts hi
  have he : free ikf hit Ts =
      Ts.flatMap (fun T => ((ikf T).getD []).filter fun q => hit q = false) := by
    unfold free freeAt
    congr 1
    funext T
    congr 1
    funext q
    cases hit q <;> rfl
  refine ⟨colOf conv d (free ikf hit Ts), free ikf hit Ts, by simp [hi], he, colOf_rows _ _ _,
    colOf_empty _ _ _, ?_, fun q => mem_free⟩
  intro hne
  rw [colOf, if_neg hne]

/-- **C59**, the other inputs: when the samples of a point cannot be computed, the call raises that
exception (all points before it having been processed). -/
theorem C59_raises (h : Determined arm scene Inv ikf hit d) (conv : ℝ → ℝ) {draws : Nat → Draws}
    {n : Nat} {pre post : List PathPt} {tp : PathPt} {samples : List (List M4)} {e : Err}
    (hs : SamplesOf draws n pre samples) (he : getSamples (draws pre.length) n none tp = .error e) :
    Raises Inv (cartToJointNoRedundancy arm conv draws (pre ++ tp :: post) scene n) e := by
  have key : ∀ (pre : List PathPt) (samples : List (List M4)) (i : Nat) (Q : List (PyCol ℝ)),
      SamplesOf (fun j => draws (i + j)) n pre samples →
      getSamples (draws (i + pre.length)) n none tp = .error e →
      Raises Inv (noRedundancyLoop arm scene conv draws n i (pre ++ tp :: post) Q) e := by
    intro pre
    induction pre with
    | nil =>
      intro samples i Q _ he
      rw [List.nil_append, noRedundancyLoop]
      exact Raises.bind (Raises.lift he)
    | cons p pre ih =>
      intro samples i Q hs he
      cases samples with
      | nil => exact absurd hs.1 (by simp)
      | cons Ts samples =>
        rw [List.cons_append, noRedundancyLoop]
        refine Returns.bind_raises (Returns.lift (hs.2 0 p Ts rfl rfl)) ?_
        refine Returns.bind_raises (samplesLoop_returns h Ts []) ?_
        rw [List.nil_append]
        refine Returns.bind_raises (Returns.lift (column_ok conv (free_dof h))) ?_
        refine ih samples (i + 1) _ ⟨by simpa using hs.1, fun j tp' Ts' h1 h2 => ?_⟩ ?_
        · have := hs.2 (j + 1) tp' Ts' h1 h2
          simpa only [show i + (j + 1) = i + 1 + j by omega] using this
        · rwa [show i + 1 + pre.length = i + (p :: pre).length by simp; omega]
  exact key pre samples 0 [] (by simpa using hs) (by simpa using he)

/-! ## C60: cart_to_joint_simple -/

/-- The solutions of one discretised sample over the fixed joint values, without those in
collision. -/
def simpleFree (ikq : M4 → Config → Option (List Config)) (hit : Config → Bool)
    (qFixed : List Config) (T : M4) : List Config :=
  qFixed.flatMap fun qf => ((ikq T qf).getD []).filter fun q => !hit q

/-- The answers of `ik` with fixed joint values and of the collision check are determined. -/
structure DeterminedFixed (arm : Arm W S) (scene : Collection S) (Inv : W → Prop)
    (ikq : M4 → Config → Option (List Config)) (hit : Config → Bool) (d : Nat) : Prop where
  ik : ∀ T qf, Returns Inv (arm.ikFixed T qf) (ikq T qf)
  dof : ∀ T qf sols, ikq T qf = some sols → ∀ q ∈ sols, q.length = d
  col : ∀ q, q.length = d → Returns Inv (arm.isInCollision q scene) (hit q)

variable {ikq : M4 → Config → Option (List Config)}

theorem fixedLoop_returns (h : DeterminedFixed arm scene Inv ikq hit d) (T : M4)
    (qFixed acc : List Config) :
    Returns Inv (fixedLoop arm scene (.transform T) qFixed acc)
      (acc ++ simpleFree ikq hit qFixed T) := by
  induction qFixed generalizing acc with
  | nil => simpa [fixedLoop, simpleFree] using Returns.pure (Inv := Inv) acc
  | cons qf rest ih =>
    unfold fixedLoop
    refine Returns.bind (h.ik T qf) ?_
    cases hT : ikq T qf with
    | none => simpa [simpleFree, hT] using ih acc
    | some sols =>
      have : acc ++ simpleFree ikq hit (qf :: rest) T =
          (acc ++ sols.filter fun q => !hit q) ++ simpleFree ikq hit rest T := by
        simp [simpleFree, hT]
      rw [this]
      exact Returns.bind (keepFree_returns h.col sols (h.dof T qf sols hT) acc) (ih _)

theorem simpleSamples_returns (h : DeterminedFixed arm scene Inv ikq hit d) (qFixed : List Config)
    (Ts : List M4) (qSol : Option (List Config)) :
    Returns Inv (simpleSamples arm scene qFixed (Ts.map .transform) qSol)
      (match Ts.getLast? with
        | none => qSol
        | some T => some (simpleFree ikq hit qFixed T)) := by
  induction Ts generalizing qSol with
  | nil => simpa [simpleSamples] using Returns.pure (Inv := Inv) qSol
  | cons T Ts ih =>
    rw [List.map_cons, simpleSamples]
    have h1 := fixedLoop_returns h T qFixed []
    rw [List.nil_append] at h1
    refine Returns.bind h1 ?_
    have := ih (some (simpleFree ikq hit qFixed T))
    rw [List.getLast?_cons]
    cases hl : Ts.getLast? with
    | none => rw [hl] at this; simpa using this
    | some T' => rw [hl] at this; simpa using this

theorem simpleFree_dof (h : DeterminedFixed arm scene Inv ikq hit d) {qFixed : List Config}
    {T : M4} : ∀ q ∈ simpleFree ikq hit qFixed T, q.length = d := by
  intro q hq
  unfold simpleFree at hq
  obtain ⟨qf, _, hq⟩ := List.mem_flatMap.1 hq
  have hq := (List.mem_filter.1 hq).1
  cases hT : ikq T qf with
  | none => rw [hT] at hq; simp at hq
  | some sols => rw [hT] at hq; exact h.dof T qf sols hT q hq

/-- `samples` are the transforms that the path points discretise to. -/
def DiscretisedTo (draws : Nat → Draws) (path : List PathPt) (samples : List (List M4)) : Prop :=
  samples.length = path.length ∧
    ∀ (i : Nat) (tp : PathPt) (Ts : List M4), path[i]? = some tp → samples[i]? = some Ts →
      discretise (draws i) tp = .ok (Ts.map .transform)

theorem DiscretisedTo.tail {draws : Nat → Draws} {i : Nat} {tp : PathPt} {path : List PathPt}
    {Ts : List M4} {samples : List (List M4)}
    (hs : DiscretisedTo (fun j => draws (i + j)) (tp :: path) (Ts :: samples)) :
    DiscretisedTo (fun j => draws (i + 1 + j)) path samples :=
  ⟨by simpa using hs.1, fun j tp' Ts' h1 h2 => by
    have := hs.2 (j + 1) tp' Ts' h1 h2
    simpa only [show i + (j + 1) = i + 1 + j by omega] using this⟩

theorem simpleLoop_returns (h : DeterminedFixed arm scene Inv ikq hit d) (conv : ℝ → ℝ)
    (draws : Nat → Draws) (qFixed : List Config) (path : List PathPt) (samples : List (List M4))
    (hne : ∀ Ts ∈ samples, Ts ≠ []) (i : Nat)
    (hs : DiscretisedTo (fun j => draws (i + j)) path samples) (qSol : Option (List Config))
    (Q : List (PyCol ℝ)) :
    Returns Inv (simpleLoop arm scene conv draws qFixed i path qSol Q)
      (Q ++ samples.map fun Ts => colOf conv d (simpleFree ikq hit qFixed (Ts.getLast?.getD 1))) := by
  induction path generalizing samples i qSol Q with
  | nil =>
    have : samples = [] := List.length_eq_zero_iff.1 hs.1
    subst this
    simpa [simpleLoop] using Returns.pure (Inv := Inv) Q
  | cons tp path ih =>
    cases samples with
    | nil => exact absurd hs.1 (by simp)
    | cons Ts samples =>
      unfold simpleLoop
      refine Returns.bind (Returns.lift (hs.2 0 tp Ts rfl rfl)) ?_
      have h1 := simpleSamples_returns h qFixed Ts qSol
      obtain ⟨T, hT⟩ : ∃ T, Ts.getLast? = some T := by
        cases hl : Ts.getLast? with
        | none => exact absurd (List.getLast?_eq_none_iff.1 hl) (hne Ts (by simp))
        | some T => exact ⟨T, rfl⟩
      rw [hT] at h1
      refine Returns.bind h1 ?_
      refine Returns.bind (Returns.lift (column_ok conv (simpleFree_dof h))) ?_
      have := ih samples (fun x hx => hne x (List.mem_cons_of_mem _ hx)) (i + 1) hs.tail
        (some (simpleFree ikq hit qFixed T)) (Q ++ [colOf conv d (simpleFree ikq hit qFixed T)])
      simpa [hT] using this

/-- **C60**, exactly what the function gives when every path point discretises to at least one
transform: column `i` holds the collision-free solutions of the *last* sample only. -/
theorem C60_last (h : DeterminedFixed arm scene Inv ikq hit d) (conv : ℝ → ℝ) {draws : Nat → Draws}
    (qFixed : List Config) {path : List PathPt} {samples : List (List M4)}
    (hs : DiscretisedTo draws path samples) (hne : ∀ Ts ∈ samples, Ts ≠ []) :
    ∃ Q, Returns Inv (cartToJointSimple arm conv draws path scene qFixed) Q ∧
      Q.length = path.length ∧
      ∀ (i : Nat) (Ts : List M4) (T : M4), samples[i]? = some (Ts ++ [T]) →
        ∃ c : PyCol ℝ, Q[i]? = some c ∧
          c.rows = (qFixed.flatMap fun qf =>
            ((ikq T qf).getD []).filter fun q => !hit q).map (List.map conv) ∧
          (c = .emptyList ↔ c.rows = []) := by
  have hr := simpleLoop_returns h conv draws qFixed path samples hne 0 (by simpa using hs) none []
  rw [List.nil_append] at hr
  refine ⟨_, hr, by simp [hs.1], ?_⟩
  intro i Ts T hi
  refine ⟨colOf conv d (simpleFree ikq hit qFixed T), by simp [hi], colOf_rows _ _ _, ?_⟩
  rw [colOf_rows, colOf_empty]
  simp

/-- The full property: column `i` holds the collision-free solutions of all samples of point `i` and
all fixed joint values. -/
def C60_statement : Prop := ∀ (W S : Type) (Inv : W → Prop) (arm : Arm W S) (scene : Collection S)
  (ikq : M4 → Config → Option (List Config)) (hit : Config → Bool) (d : Nat) (w : W),
  DeterminedFixed arm scene Inv ikq hit d → Inv w →
  ∀ (conv : ℝ → ℝ) (draws : Nat → Draws) (qFixed : List Config) (path : List PathPt)
    (samples : List (List M4)), DiscretisedTo draws path samples →
    ∃ Q, Returns Inv (cartToJointSimple arm conv draws path scene qFixed) Q ∧
      ∀ (i : Nat) (Ts : List M4), samples[i]? = some Ts → ∃ c : PyCol ℝ, Q[i]? = some c ∧
        ∀ q, (∃ T ∈ Ts, ∃ qf ∈ qFixed, ∃ l, ikq T qf = some l ∧ q ∈ l ∧ hit q = false) →
          q.map conv ∈ c.rows

/-- **C60**, what holds: when every path point discretises to exactly one transform, the column has
exactly the solutions of all samples.  Missing: points with several samples, of which only the last
one counts (`C60_last`), and points with none (`C60_unbound`, `C60_stale`). -/
theorem C60_partial (h : DeterminedFixed arm scene Inv ikq hit d) (conv : ℝ → ℝ)
    {draws : Nat → Draws} (qFixed : List Config) {path : List PathPt} {samples : List (List M4)}
    (hs : DiscretisedTo draws path samples) (h1 : ∀ Ts ∈ samples, Ts.length = 1) :
    ∃ Q, Returns Inv (cartToJointSimple arm conv draws path scene qFixed) Q ∧
      Q.length = path.length ∧
      ∀ (i : Nat) (Ts : List M4), samples[i]? = some Ts → ∃ (c : PyCol ℝ) (sols : List Config),
        Q[i]? = some c ∧ c.rows = sols.map (List.map conv) ∧
        ∀ q, q ∈ sols ↔
          ∃ T ∈ Ts, ∃ qf ∈ qFixed, ∃ l, ikq T qf = some l ∧ q ∈ l ∧ hit q = false := by
  obtain ⟨Q, hQ, hl, hc⟩ := C60_last h conv qFixed hs (fun Ts hT he => by
    have := h1 Ts hT
    rw [he] at this
    exact absurd this (by simp))
  refine ⟨Q, hQ, hl, ?_⟩
  intro i Ts hi
  obtain ⟨T, rfl⟩ := List.length_eq_one_iff.1 (h1 Ts (List.mem_of_getElem? hi))
  obtain ⟨c, hc1, hc2, _⟩ := hc i [] T hi
  refine ⟨c, _, hc1, hc2, ?_⟩
  intro q
  simp only [List.mem_flatMap, List.mem_filter, List.mem_singleton, Bool.not_eq_true',
    exists_eq_left]
  constructor
  · rintro ⟨qf, hqf, hq, hh⟩
    cases hk : ikq T qf with
    | none => rw [hk] at hq; simp at hq
    | some l => rw [hk] at hq; exact ⟨qf, hqf, l, hk, hq, hh⟩
  · rintro ⟨qf, hqf, l, hk, hq, hh⟩
    exact ⟨qf, hqf, by rw [hk]; exact hq, hh⟩

/-- **C60**, a first point without samples: the variable is unbound. -/
theorem C60_unbound (conv : ℝ → ℝ) {draws : Nat → Draws} (qFixed : List Config) {tp : PathPt}
    (rest : List PathPt) (h : discretise (draws 0) tp = .ok []) :
    Raises Inv (cartToJointSimple arm conv draws (tp :: rest) scene qFixed)
      (.py .unboundLocalError) := by
  unfold cartToJointSimple simpleLoop
  refine Returns.bind_raises (Returns.lift h) ?_
  refine Returns.bind_raises (a := none) ?_ (Raises.raise _)
  exact Returns.pure none

/-- **C60**, a later point without samples gets the column of the point before it. -/
theorem C60_stale (h : DeterminedFixed arm scene Inv ikq hit d) (conv : ℝ → ℝ)
    {draws : Nat → Draws} (qFixed : List Config) {tp1 tp2 : PathPt} {Ts : List M4}
    (h1 : discretise (draws 0) tp1 = .ok (Ts.map .transform)) (hne : Ts ≠ [])
    (h2 : discretise (draws 1) tp2 = .ok []) :
    ∃ c, Returns Inv (cartToJointSimple arm conv draws [tp1, tp2] scene qFixed) [c, c] := by
  obtain ⟨T, hT⟩ : ∃ T, Ts.getLast? = some T := by
    cases hl : Ts.getLast? with
    | none => exact absurd (List.getLast?_eq_none_iff.1 hl) hne
    | some T => exact ⟨T, rfl⟩
  refine ⟨colOf conv d (simpleFree ikq hit qFixed T), ?_⟩
  unfold cartToJointSimple simpleLoop
  refine Returns.bind (Returns.lift h1) ?_
  have hr := simpleSamples_returns h qFixed Ts none
  rw [hT] at hr
  refine Returns.bind hr ?_
  refine Returns.bind (Returns.lift (column_ok conv (simpleFree_dof h))) ?_
  unfold simpleLoop
  refine Returns.bind (Returns.lift h2) ?_
  refine Returns.bind (a := some (simpleFree ikq hit qFixed T)) (Returns.pure _) ?_
  refine Returns.bind (Returns.lift (column_ok conv (simpleFree_dof h))) ?_
  exact Returns.pure _

/-- **C60**, position-toleranced and axis-angle points have no `discretise`; the rows of a
free-orientation point are not matrices. -/
theorem C60_other_points (conv : ℝ → ℝ) {draws : Nat → Draws} (qFixed : List Config)
    (rest : List PathPt) :
    (∀ p, Raises Inv (cartToJointSimple arm conv draws (.position p :: rest) scene qFixed)
      (.py .attributeError)) ∧
    (∀ p, Raises Inv (cartToJointSimple arm conv draws (.axisAngle p :: rest) scene qFixed)
      (.py .attributeError)) ∧
    (∀ p pts, discretise (draws 0) (.free p) = .ok (pts.map .point) → pts ≠ [] → qFixed ≠ [] →
      Raises Inv (cartToJointSimple arm conv draws (.free p :: rest) scene qFixed)
        (.py .indexError)) := by
  refine ⟨fun p => Raises.bind (Raises.lift rfl), fun p => Raises.bind (Raises.lift rfl), ?_⟩
  intro p pts hp hne hq
  unfold cartToJointSimple simpleLoop
  refine Returns.bind_raises (Returns.lift hp) ?_
  refine Raises.bind ?_
  cases pts with
  | nil => exact absurd rfl hne
  | cons p0 pts =>
    rw [List.map_cons, simpleSamples]
    refine Raises.bind ?_
    cases qFixed with
    | nil => exact absurd rfl hq
    | cons qf qs => exact Raises.raise _

/-- An Euler point with two samples: `x = 0` and `x = 1`. -/
theorem twoSamples : ∃ (pt : TolEulerPt) (T0 T1 : M4), T0 0 3 ≠ T1 0 3 ∧
    TolEulerPt.new [.tol ⟨0, 1, 1 / 2, 2⟩, .num 0, .num 0] [.num 0, .num 0, .num 0] = .ok pt ∧
    ∀ dr, discretise dr (.euler pt) = .ok ([T0, T1].map .transform) := by
  obtain ⟨pt, combos, h1, h2, h3, h4, h5⟩ := C47_samples
    (pos := ![.tol ⟨0, 1, 1 / 2, 2⟩, .num 0, .num 0]) (rpy := fun _ => .num 0)
    (by simp [Fin.forall_fin_succ, Sound]) (fun _ => trivial)
  have h3 : combos.length = 2 := by
    rw [h3]
    simp [Fin.prod_univ_three, gridCount]
  have h5 := h5 (by simp [Fin.forall_fin_succ, Spread]) (fun _ => trivial)
  obtain ⟨⟨x, a⟩, ⟨y, b⟩, rfl⟩ := List.length_eq_two.1 h3
  have hx := (h4 x a).1 (by simp)
  have hy := (h4 y b).1 (by simp)
  refine ⟨pt, mkTf (Rxyz a) x, mkTf (Rxyz b) y, ?_, h1, fun dr => ?_⟩
  · intro he
    have h0 : x 0 = y 0 := by
      have h6 := posPart_mkTf (Rxyz a) x
      have h7 := posPart_mkTf (Rxyz b) y
      rw [← h6, ← h7]
      exact he
    have hxy : x = y := by
      funext i
      fin_cases i
      · exact h0
      · exact (show x 1 = 0 from hx.1 1).trans (show y 1 = 0 from hy.1 1).symm
      · exact (show x 2 = 0 from hx.1 2).trans (show y 2 = 0 from hy.1 2).symm
    have hab : a = b := funext fun i =>
      (show a i = 0 from hx.2 i).trans (show b i = 0 from hy.2 i).symm
    subst hxy hab
    simp at h5
  · show liftPy (pt.getSamples.map _) = _
    rw [h2]
    rfl

/-- A robot that reaches only poses with the given `x`. -/
def stripArm (x : ℝ) : Arm Unit Unit where
  ik T := pure (if T 0 3 = x then some [[0]] else none)
  ikFixed T _ := pure (if T 0 3 = x then some [[0]] else none)
  isInCollision _ _ := pure false
  fk _ := pure 1

theorem stripArm_fixed (x : ℝ) : DeterminedFixed (stripArm x) (⟨[], []⟩ : Collection Unit)
    (fun _ => True) (fun T _ => if T 0 3 = x then some [[0]] else none) (fun _ => false) 1 := by
  refine ⟨fun T qf => Returns.pure _, fun T qf sols hs q hq => ?_, fun q _ => Returns.pure _⟩
  by_cases hT : T 0 3 = x
  · simp only [hT, if_true, Option.some.injEq] at hs
    subst hs
    simp only [List.mem_singleton] at hq
    subst hq
    rfl
  · simp [hT] at hs

/-- **C60** is false: with two samples of which only the first is reachable, the column is empty. -/
theorem C60_refuted : ¬ C60_statement := by
  intro h
  obtain ⟨pt, T0, T1, h01, -, hd⟩ := twoSamples
  have hdet := stripArm_fixed (T0 0 3)
  let dr : Nat → Draws := fun _ => ⟨fun n => n, 0, fun _ => (0, 0, 0), none⟩
  have hto : DiscretisedTo dr [.euler pt] [[T0, T1]] := by
    refine ⟨rfl, fun i tp Ts h1 h2 => ?_⟩
    cases i with
    | zero => cases h1; cases h2; exact hd _
    | succ i => simp at h1
  obtain ⟨Q, hQ, hc⟩ := h Unit Unit _ _ _ _ _ 1 () hdet trivial id dr [[]] _ _ hto
  obtain ⟨c, hc1, hc2⟩ := hc 0 _ rfl
  obtain ⟨Q', hQ', _, hc'⟩ := C60_last hdet id [[]] hto (by simp)
  have := Returns.unique (w := ()) trivial hQ hQ'
  subst this
  obtain ⟨c', hc1', hc2', _⟩ := hc' 0 [T0] T1 rfl
  rw [hc1] at hc1'
  cases hc1'
  have := hc2 [0] ⟨T0, by simp, [], by simp, [[0]], by simp, by simp, rfl⟩
  rw [hc2'] at this
  simp [Ne.symm h01] at this

/-- C59, C60: the hypotheses of `C59` and `C60_last` are met by an arm that reaches the first of two
samples: `cart_to_joint_no_redundancy` finds its solution, `cart_to_joint_simple` loses it. -/
example : ∃ (pt : TolEulerPt) (x : ℝ) (Q Q' : List (PyCol ℝ)) (c c' : PyCol ℝ),
    Returns (fun _ => True) (cartToJointNoRedundancy (stripArm x) id
      (fun _ => ⟨fun n => n, 0, fun _ => (0, 0, 0), none⟩) [.euler pt] ⟨[], []⟩ 5) Q ∧
    Q[0]? = some c ∧ c.rows = [[0]] ∧
    Returns (fun _ => True) (cartToJointSimple (stripArm x) id
      (fun _ => ⟨fun n => n, 0, fun _ => (0, 0, 0), none⟩) [.euler pt] ⟨[], []⟩ [[]]) Q' ∧
    Q'[0]? = some c' ∧ c'.rows = [] := by
  obtain ⟨pt, T0, T1, h01, -, hd⟩ := twoSamples
  let dr : Nat → Draws := fun _ => ⟨fun n => n, 0, fun _ => (0, 0, 0), none⟩
  have hg : getSamples (dr 0) 5 none (.euler pt) = .ok [T0, T1] := by
    have h := hd (dr 0)
    change liftPy (pt.getSamples.map fun Ts => Ts.map Disc.transform) = _ at h
    change liftPy pt.getSamples = _
    cases hs : pt.getSamples with
    | error e => rw [hs] at h; cases h
    | ok Ts =>
      rw [hs] at h
      have h : Ts.map Disc.transform = [T0, T1].map Disc.transform := by
        injection h
      rw [List.map_injective_iff.2 (fun a b h => by injection h) h]
      rfl
  have hdet : Determined (stripArm (T0 0 3)) (⟨[], []⟩ : Collection Unit) (fun _ => True)
      (fun T => if T 0 3 = T0 0 3 then some [[0]] else none) (fun _ => false) 1 := by
    refine ⟨fun T => Returns.pure _, fun T sols hs q hq => ?_, fun q _ => Returns.pure _⟩
    by_cases hT : T 0 3 = T0 0 3
    · simp only [hT, if_true, Option.some.injEq] at hs
      subst hs
      simp only [List.mem_singleton] at hq
      subst hq
      rfl
    · simp [hT] at hs
  have hs : SamplesOf dr 5 [.euler pt] [[T0, T1]] := by
    refine ⟨rfl, fun i tp Ts h1 h2 => ?_⟩
    cases i with
    | zero => cases h1; cases h2; exact hg
    | succ i => simp at h1
  have hto : DiscretisedTo dr [.euler pt] [[T0, T1]] := by
    refine ⟨rfl, fun i tp Ts h1 h2 => ?_⟩
    cases i with
    | zero => cases h1; cases h2; exact hd _
    | succ i => simp at h1
  obtain ⟨Q, hQ, -, hc⟩ := C59 hdet id hs
  obtain ⟨c, sols, h1, h2, h3, -⟩ := hc 0 _ rfl
  obtain ⟨Q', hQ', -, hc'⟩ := C60_last (stripArm_fixed (T0 0 3)) id [[]] hto (by simp)
  obtain ⟨c', h1', h2', -⟩ := hc' 0 [T0] T1 rfl
  refine ⟨pt, T0 0 3, Q, Q', c, c', hQ, h1, ?_, hQ', h1', ?_⟩
  · rw [h3, h2]
    simp [Ne.symm h01]
  · rw [h2']
    simp [Ne.symm h01]

/-- C60: the hypotheses of `C60_partial` are met by a path of one point without tolerance. -/
example : ∃ (pt : TolEulerPt) (Q : List (PyCol ℝ)) (c : PyCol ℝ) (sols : List Config),
    Returns (fun _ => True) (cartToJointSimple (stripArm 7) id
      (fun _ => ⟨fun n => n, 0, fun _ => (0, 0, 0), none⟩) [.euler pt] ⟨[], []⟩ [[]]) Q ∧
    Q[0]? = some c ∧ c.rows = sols.map (List.map id) ∧ [0] ∈ sols := by
  obtain ⟨pt, T, -, -, h2, h3⟩ := C47_no_tolerance ![7, 0, 0] 0
  have hT : T 0 3 = 7 := by
    rw [h3]
    exact congrFun (posPart_mkTf _ ![7, 0, 0]) 0
  have hto : DiscretisedTo (fun _ => ⟨fun n => n, 0, fun _ => (0, 0, 0), none⟩) [.euler pt] [[T]] := by
    refine ⟨rfl, fun i tp Ts h1 h4 => ?_⟩
    cases i with
    | zero =>
      cases h1
      cases h4
      show liftPy (pt.getSamples.map _) = _
      rw [h2]
      rfl
    | succ i => simp at h1
  obtain ⟨Q, hQ, -, hc⟩ := C60_partial (stripArm_fixed 7) id [[]] hto (by simp)
  obtain ⟨c, sols, h1, h2, h3⟩ := hc 0 _ rfl
  exact ⟨pt, Q, c, sols, hQ, h1, h2, (h3 [0]).2 ⟨T, by simp, [], by simp, [[0]], by simp [hT], by simp, rfl⟩⟩

/-- C59: a case of `C59_raises`.  An axis-angle point with axis zero has no samples. -/
example (q : Quat) : Raises (fun _ => True) (cartToJointNoRedundancy (stripArm 7) id
    (fun _ => ⟨fun n => n, 0, fun _ => (0, 0, 0), none⟩)
    [.axisAngle ⟨0, 0, ⟨0, 1, 1 / 2, 2⟩, q⟩] ⟨[], []⟩ 5) (.py .zeroDivisionError) := by
  have hdet : Determined (stripArm 7) (⟨[], []⟩ : Collection Unit) (fun _ => True)
      (fun T => if T 0 3 = 7 then some [[0]] else none) (fun _ => false) 1 := by
    refine ⟨fun T => Returns.pure _, fun T sols hs q hq => ?_, fun q _ => Returns.pure _⟩
    by_cases hT : T 0 3 = 7
    · simp only [hT, if_true, Option.some.injEq] at hs
      subst hs
      simp only [List.mem_singleton] at hq
      subst hq
      rfl
    · simp [hT] at hs
  refine C59_raises (pre := []) (samples := []) hdet id ⟨rfl, by simp⟩ ?_
  show liftPy (AxisAnglePt.getSamples _) = _
  rw [C49_zero_axis rfl (by norm_num)]
  rfl

end

end Verif.Props
