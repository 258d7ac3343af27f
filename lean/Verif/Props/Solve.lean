import Verif.Proofs.Solve
import Verif.Props.Incremental
import Verif.Proofs.Rotation
import Verif.RealCost

/-! # C64-C66: the iterative planner, PlanningTask.solve and its grid method -/

set_option linter.unusedSectionVars false

namespace Verif.Props

open Verif Verif.Path Verif.Geometry Verif.Kin Verif.ShortestPath Verif.Task Verif.CppGraph
  Verif.Search Verif.Planning Verif.Spec

noncomputable section

variable {W S : Type} {Inv : W → Prop} {arm : Arm W S} {scene : Collection S}
  {ikf : M4 → Option (List Config)} {hit : Config → Bool} {d : Nat} {fkf : Config → M4}
variable {C O : Type} [CostArith C] [JointArith ℝ C]

/-! ## C64 -/

theorem calcJointSolutions_returns (h : Determined arm scene Inv ikf hit d) (conv : ℝ → ℝ)
    (Ts : List M4) :
    Returns Inv (calcJointSolutions arm conv Ts true (some scene))
      (.arr true (if free ikf hit Ts = [] then 0 else d) ((free ikf hit Ts).map (List.map conv))) := by
  unfold calcJointSolutions
  rw [if_neg (by simp)]
  have h1 := jointLoop_returns h Ts []
  rw [List.nil_append] at h1
  refine Returns.bind h1 (Returns.lift ?_)
  by_cases he : free ikf hit Ts = []
  · rw [if_neg (by simp [he]), if_pos he, he]
    rfl
  · rw [if_pos (List.length_pos_iff.2 he), if_neg he]
    exact vstack_ok conv he (free_dof h)

/-- Column `c` belongs to the samples of `sp`. -/
def ColumnOf (ikf : M4 → Option (List Config)) (hit : Config → Bool) (d : Nat) (conv : ℝ → ℝ)
    (dr : Draws) (n : Nat) (sp : SolPt) (c : PyCol ℝ) : Prop :=
  ∃ Ts, getSamples dr n (some sp.quatDistTol) sp.tpCurrent = .ok Ts ∧
    c = .arr true (if free ikf hit Ts = [] then 0 else d) ((free ikf hit Ts).map (List.map conv))

theorem iterColumns_yields (h : Determined arm scene Inv ikf hit d) (conv : ℝ → ℝ)
    (draws : Nat → Draws) (n : Nat) (pts : List SolPt) (i : Nat) :
    Yields Inv (iterColumns arm conv scene draws n i pts) fun cs => cs.length = pts.length ∧
      ∀ (j : Nat) (sp : SolPt) (c : PyCol ℝ), pts[j]? = some sp → cs[j]? = some c →
        ColumnOf ikf hit d conv (draws (i + j)) n sp c := by
  induction pts generalizing i with
  | nil => exact Yields.pure ⟨rfl, by simp⟩
  | cons sp pts ih =>
    unfold iterColumns
    refine Yields.bind (P := fun Ts => getSamples (draws i) n (some sp.quatDistTol) sp.tpCurrent =
      .ok Ts) (Yields.lift fun a ha => ha) fun Ts hTs => ?_
    refine Yields.bind (calcJointSolutions_returns h conv Ts).yields fun c hc => ?_
    refine Yields.bind (ih (i + 1)) fun cs hcs => Yields.pure ⟨by simp [hcs.1], ?_⟩
    intro j sp' c' h1 h2
    cases j with
    | zero =>
      cases h1
      cases h2
      exact ⟨Ts, hTs, hc⟩
    | succ j =>
      have := hcs.2 j sp' c' h1 h2
      rwa [show i + 1 + j = i + (j + 1) by omega] at this

/-- The point that round `k` samples in place of path point `i`: the path point itself in the first
round, later a point with the pose of the configuration found in the round before. -/
def PointAt (fkf : Config → M4) (ps : List FreeOrientationPt) (paths : List (List Config)) :
    Nat → Nat → PathPt → Prop
  | 0, i, tp => ∃ p, ps[i]? = some p ∧ tp = .free p
  | k + 1, i, tp => ∃ path q o, paths[k]? = some path ∧ path[i]? = some q ∧
      Quat.ofRotation (rotPart (fkf q)) = .ok o ∧ tp = .orientation ⟨posPart (fkf q), o⟩

theorem PointAt.append {ps : List FreeOrientationPt} {paths more : List (List Config)} {k i : Nat}
    {tp : PathPt} (h : PointAt fkf ps paths k i tp) : PointAt fkf ps (paths ++ more) k i tp := by
  cases k with
  | zero => exact h
  | succ k =>
    obtain ⟨path, q, o, h1, h2⟩ := h
    exact ⟨path, q, o, List.getElem?_append_left (List.getElem?_eq_some_iff.1 h1).1 ▸ h1, h2⟩

/-- The configuration `q` of round `k` for path point `i` is the rounding of a collision-free solution
for one of the samples. -/
def Sampled (ikf : M4 → Option (List Config)) (hit : Config → Bool) (fkf : Config → M4)
    (conv : ℝ → ℝ) (draws : Nat → Nat → Draws) (n : Nat) (ps : List FreeOrientationPt)
    (paths : List (List Config)) (k i : Nat) (q : Config) : Prop :=
  ∃ tp Ts T sols q', PointAt fkf ps paths k i tp ∧
    getSamples (draws k i) n (some (Real.pi / 4 / 2 ^ k)) tp = .ok Ts ∧ T ∈ Ts ∧
    ikf T = some sols ∧ q' ∈ sols ∧ hit q' = false ∧ q = q'.map conv

theorem Sampled.append {conv : ℝ → ℝ} {draws : Nat → Nat → Draws} {n : Nat}
    {ps : List FreeOrientationPt} {paths more : List (List Config)} {k i : Nat} {q : Config}
    (h : Sampled ikf hit fkf conv draws n ps paths k i q) :
    Sampled ikf hit fkf conv draws n ps (paths ++ more) k i q := by
  obtain ⟨tp, Ts, T, sols, q', h1, h2⟩ := h
  exact ⟨tp, Ts, T, sols, q', h1.append, h2⟩

/-- The state after `k` rounds. -/
structure Rounds (ikf : M4 → Option (List Config)) (hit : Config → Bool) (fkf : Config → M4)
    (conv : ℝ → ℝ) (draws : Nat → Nat → Draws) (n : Nat) (ps : List FreeOrientationPt)
    (good : List Config → C → Prop) (k : Nat) (st : IterSt C) : Prop where
  pts : st.pts.length = ps.length
  pt : ∀ (i : Nat) (sp : SolPt), st.pts[i]? = some sp → sp.tolType = .tolOri ∧
    sp.quatDistTol = Real.pi / 4 / 2 ^ k ∧ PointAt fkf ps st.paths k i sp.tpCurrent
  costs : st.costs.length = k
  paths : st.paths.length = k
  times : st.times.length = k
  sol : (k = 0 ∧ st.sol = none) ∨
    ∃ p c, st.paths.getLast? = some p ∧ st.costs.getLast? = some c ∧
      st.sol = some ⟨true, some p, some c⟩
  path : ∀ (j : Nat) (p : List Config), st.paths[j]? = some p → p.length = ps.length ∧
    ∀ (i : Nat) (q : Config), p[i]? = some q → Sampled ikf hit fkf conv draws n ps st.paths j i q
  cost : ∀ (j : Nat) (p : List Config) (c : C), st.paths[j]? = some p → st.costs[j]? = some c →
    good p c

theorem resampleAll_yields
    (hfk : ∀ q, q.length = d → Yields Inv (arm.fk q) (· = fkf q)) (path : List Config)
    (pts : List SolPt) (hl : path.length = pts.length) (hd : ∀ q ∈ path, q.length = d)
    (ho : ∀ sp ∈ pts, sp.tolType = .tolOri) :
    Yields Inv (resampleAll arm path pts) fun pts' => pts'.length = pts.length ∧
      ∀ (i : Nat) (sp' : SolPt), pts'[i]? = some sp' → ∃ sp q o, pts[i]? = some sp ∧
        path[i]? = some q ∧ Quat.ofRotation (rotPart (fkf q)) = .ok o ∧ sp'.tolType = .tolOri ∧
        sp'.quatDistTol = sp.quatDistTol / 2 ∧
        sp'.tpCurrent = .orientation ⟨posPart (fkf q), o⟩ := by
  induction path generalizing pts with
  | nil =>
    have : pts = [] := List.length_eq_zero_iff.1 hl.symm
    subst this
    exact Yields.pure ⟨rfl, by simp⟩
  | cons q path ih =>
    cases pts with
    | nil => simp at hl
    | cons sp pts =>
      unfold resampleAll
      have hsp : Yields Inv (sp.resample arm q) fun sp' => ∃ o,
          Quat.ofRotation (rotPart (fkf q)) = .ok o ∧ sp'.tolType = .tolOri ∧
          sp'.quatDistTol = sp.quatDistTol / 2 ∧
          sp'.tpCurrent = .orientation ⟨posPart (fkf q), o⟩ := by
        unfold SolPt.resample
        refine Yields.bind (hfk q (hd q (by simp))) fun Tee hT => ?_
        subst hT
        refine Yields.bind (Yields.lift (P := fun o => Quat.ofRotation (rotPart (fkf q)) = .ok o)
          fun o h => liftPy_ok h) fun o h => ?_
        refine Yields.lift fun sp' h' => ?_
        have h' := liftPy_ok h'
        unfold newPoint at h'
        have hty : sp.tolType = .tolOri := ho sp (by simp)
        simp only [hty] at h'
        rw [if_neg (by norm_num)] at h'
        cases h'
        exact ⟨o, h, rfl, rfl, rfl⟩
      refine Yields.bind hsp fun sp' h' => ?_
      refine Yields.bind (ih pts (by simpa using hl) (fun x hx => hd x (List.mem_cons_of_mem _ hx))
        (fun x hx => ho x (List.mem_cons_of_mem _ hx))) fun pts' hp => Yields.pure ⟨by simp [hp.1], ?_⟩
      intro i s hs
      cases i with
      | zero =>
        cases hs
        obtain ⟨o, h1, h2, h3, h4⟩ := h'
        exact ⟨sp, q, o, rfl, rfl, h1, h2, h3, h4⟩
      | succ i => exact hp.2 i s hs

theorem selection_get {α : Type} {cols : List (List α)} {p : List α} (h : IsSelection cols p) :
    p.length = cols.length ∧ ∀ (i : Nat) (x : α), p[i]? = some x → ∃ col, cols[i]? = some col ∧
      x ∈ col := by
  unfold IsSelection at h
  refine ⟨h.length_eq.symm, fun i x hx => ?_⟩
  rw [List.forall₂_iff_get] at h
  obtain ⟨hi, rfl⟩ := List.getElem?_eq_some_iff.1 hx
  have hi' : i < cols.length := by rw [h.1]; exact hi
  exact ⟨cols[i], List.getElem?_eq_getElem hi', h.2 i hi' hi⟩

/-- What the rounds need to know about the search: a success is a choice of one row per column with a
`good` cost. -/
def SearchGood (pq : PQ C Config) (conv : ℝ → ℝ) (d : Nat) (good : List Config → C → Prop) : Prop :=
  ∀ (Q : List (PyCol ℝ)) (r : PlanRes ℝ C), (∀ c ∈ Q, ∃ rows, c = .arr true d rows ∧ rows ≠ [] ∧
      ∀ x ∈ rows, x.length = d) →
    getShortestPath pq conv Q .dijkstra none = .ok r → r.success = true →
    ∃ p c, r = ⟨true, some p, some c⟩ ∧ IsSelection (Q.map PyCol.rows) p ∧ good p c

theorem iterRound_yields (h : Determined arm scene Inv ikf hit d)
    (hfk : ∀ q, q.length = d → Yields Inv (arm.fk q) (· = fkf q)) {pq : PQ C Config} {conv : ℝ → ℝ}
    {draws : Nat → Nat → Draws} {n : Nat} {ps : List FreeOrientationPt}
    {good : List Config → C → Prop} (hgood : SearchGood pq conv d good) {k : Nat} {st : IterSt C}
    (hst : Rounds ikf hit fkf conv draws n ps good k st) (time : ℝ) :
    Yields Inv (iterRound arm pq conv scene (draws k) n time st) fun o => ∀ st', o = some st' →
      Rounds ikf hit fkf conv draws n ps good (k + 1) st' := by
  unfold iterRound
  refine Yields.bind (iterColumns_yields h conv (draws k) n st.pts 0) fun Q hQ => ?_
  by_cases hne : ∀ c ∈ Q, c.rows.length ≠ 0
  swap
  · rw [if_neg hne]
    exact Yields.pure (by simp)
  · rw [if_pos hne]
    refine Yields.bind (Yields.lift (P := fun sol =>
      getShortestPath pq conv Q .dijkstra none = .ok sol) fun a ha => ha) fun sol hsol => ?_
    by_cases hs : sol.success = true
    swap
    · rw [if_neg hs]
      exact Yields.pure (by simp)
    · rw [if_pos hs]
      -- the columns
      have hcol : ∀ (i : Nat) (c : PyCol ℝ), Q[i]? = some c → ∃ sp Ts, st.pts[i]? = some sp ∧
          getSamples (draws k i) n (some sp.quatDistTol) sp.tpCurrent = .ok Ts ∧
          c = .arr true d ((free ikf hit Ts).map (List.map conv)) := by
        intro i c hc
        have hi : i < st.pts.length := by
          rw [← hQ.1]
          exact (List.getElem?_eq_some_iff.1 hc).1
        obtain ⟨Ts, h1, h2⟩ := hQ.2 i _ c (List.getElem?_eq_getElem hi) hc
        rw [Nat.zero_add] at h1
        have hne' := hne c (List.mem_of_getElem? hc)
        have hf : free ikf hit Ts ≠ [] := by
          intro he
          rw [h2, he] at hne'
          exact hne' rfl
        rw [if_neg hf] at h2
        exact ⟨_, Ts, List.getElem?_eq_getElem hi, h1, h2⟩
      obtain ⟨p, c, rfl, hsel, hg⟩ := hgood Q sol (by
        intro c hc
        obtain ⟨i, hi⟩ := List.mem_iff_getElem?.1 hc
        obtain ⟨sp, Ts, -, -, rfl⟩ := hcol i c hi
        refine ⟨_, rfl, fun he => hne _ hc (by rw [PyCol.rows, he]; rfl), fun x hx => ?_⟩
        obtain ⟨q, hq, rfl⟩ := List.mem_map.1 hx
        rw [List.length_map]
        exact free_dof h q hq) hsol hs
      obtain ⟨hplen, hpsel⟩ := selection_get hsel
      have hplen : p.length = st.pts.length := by rw [hplen, List.length_map, hQ.1]
      have hp : ∀ (i : Nat) (q : Config), p[i]? = some q →
          Sampled ikf hit fkf conv draws n ps st.paths k i q ∧ q.length = d := by
        intro i q hq
        obtain ⟨col, hc, hm⟩ := hpsel i q hq
        rw [List.getElem?_map, Option.map_eq_some_iff] at hc
        obtain ⟨c, hc, rfl⟩ := hc
        obtain ⟨sp, Ts, h1, h2, rfl⟩ := hcol i c hc
        obtain ⟨q', hq', rfl⟩ := List.mem_map.1 hm
        obtain ⟨T, hT, sols, h3, h4, h5⟩ := mem_free.1 hq'
        obtain ⟨-, e2, e3⟩ := hst.pt i sp h1
        rw [e2] at h2
        exact ⟨⟨_, Ts, T, sols, q', e3, h2, hT, h3, h4, h5, rfl⟩, by
          rw [List.length_map]; exact free_dof h q' hq'⟩
      refine Yields.bind (resampleAll_yields hfk p st.pts hplen (fun q hq => by
        obtain ⟨i, hi⟩ := List.mem_iff_getElem?.1 hq
        exact (hp i q hi).2) (fun sp hsp => by
        obtain ⟨i, hi⟩ := List.mem_iff_getElem?.1 hsp
        exact (hst.pt i sp hi).1)) fun pts' hpts' => Yields.pure fun st' he => ?_
      cases he
      have hlast : (st.paths ++ [p])[k]? = some p := by
        rw [List.getElem?_append_right (by rw [hst.paths]), hst.paths, Nat.sub_self]
        rfl
      refine ⟨by rw [hpts'.1]; exact hst.pts, ?_, by simp [hst.costs], by simp [hst.paths],
        by simp [hst.times], Or.inr ⟨p, c, by simp, by simp, rfl⟩, ?_, ?_⟩
      · intro i sp' hsp'
        obtain ⟨sp, q, o, h1, h2, h3, h4, h5, h6⟩ := hpts'.2 i sp' hsp'
        refine ⟨h4, ?_, p, q, o, hlast, h2, h3, h6⟩
        rw [h5, (hst.pt i sp h1).2.1, pow_succ]
        field_simp
      · intro j p' hp'
        by_cases hj : j < st.paths.length
        · have hp' : st.paths[j]? = some p' := by
            rw [← hp']
            exact (List.getElem?_append_left hj).symm
          obtain ⟨h1, h2⟩ := hst.path j p' hp'
          exact ⟨h1, fun i q hq => (h2 i q hq).append⟩
        · have hjk : j = k := by
            have := (List.getElem?_eq_some_iff.1 hp').1
            rw [List.length_append, List.length_singleton] at this
            rw [hst.paths] at this hj
            omega
          subst hjk
          have hp' := hlast.symm.trans hp'
          cases hp'
          exact ⟨hplen.trans hst.pts, fun i q hq => (hp i q hq).1.append⟩
      · intro j p' c' hp' hc'
        by_cases hj : j < st.paths.length
        · have hp'' : st.paths[j]? = some p' := by
            rw [← hp']
            exact (List.getElem?_append_left hj).symm
          have hc'' : st.costs[j]? = some c' := by
            rw [← hc']
            refine (List.getElem?_append_left ?_).symm
            rw [hst.costs, ← hst.paths]
            exact hj
          exact hst.cost j p' c' hp'' hc''
        · have hjk : j = k := by
            have := (List.getElem?_eq_some_iff.1 hp').1
            rw [List.length_append, List.length_singleton] at this
            rw [hst.paths] at this hj
            omega
          subst hjk
          have hp' := hlast.symm.trans hp'
          cases hp'
          have hlast' : (st.costs ++ [c])[j]? = some c := by
            rw [List.getElem?_append_right (by rw [hst.costs]), hst.costs, Nat.sub_self]
            rfl
          have hc' := hlast'.symm.trans hc'
          cases hc'
          exact hg

theorem iterLoop_yields (h : Determined arm scene Inv ikf hit d)
    (hfk : ∀ q, q.length = d → Yields Inv (arm.fk q) (· = fkf q)) {pq : PQ C Config} {conv : ℝ → ℝ}
    {draws : Nat → Nat → Draws} {n : Nat} {ps : List FreeOrientationPt}
    {good : List Config → C → Prop} (hgood : SearchGood pq conv d good) (time : Nat → ℝ) (m k : Nat)
    {st : IterSt C} (hst : Rounds ikf hit fkf conv draws n ps good k st) :
    Yields Inv (iterLoop arm pq conv scene draws n time m k st) fun o => ∀ st', o = some st' →
      Rounds ikf hit fkf conv draws n ps good (k + m) st' := by
  induction m generalizing k st with
  | zero =>
    unfold iterLoop
    refine Yields.pure fun st' he => ?_
    cases he
    exact hst
  | succ m ih =>
    unfold iterLoop
    refine Yields.bind (iterRound_yields h hfk hgood hst (time k)) fun o ho => ?_
    cases o with
    | none => exact Yields.pure (by simp)
    | some st' =>
      have := ih (k + 1) (ho st' rfl)
      rwa [show k + 1 + m = k + (m + 1) by omega] at this

theorem iterative_yields (h : Determined arm scene Inv ikf hit d)
    (hfk : ∀ q, q.length = d → Yields Inv (arm.fk q) (· = fkf q)) {pq : PQ C Config} {conv : ℝ → ℝ}
    {draws : Nat → Nat → Draws} {n : Nat} (ps : List FreeOrientationPt)
    {good : List Config → C → Prop} (hgood : SearchGood pq conv d good) (time : Nat → ℝ)
    (maxIters : Nat) :
    Yields Inv (cartToJointIterative arm pq conv draws time (ps.map .free) scene n maxIters) fun r =>
      r.success = true → ∃ st, Rounds ikf hit fkf conv draws n ps good maxIters st ∧
        r.costs = some st.costs ∧ r.paths = some st.paths ∧ r.times = some st.times ∧
        ∃ p c, st.paths.getLast? = some p ∧ st.costs.getLast? = some c ∧ r.path = some p ∧
          r.length = some c := by
  unfold cartToJointIterative
  refine Yields.bind (Yields.lift (P := fun pts => pts = ps.map freshPt) fun pts hp => ?_)
    fun pts hp => ?_
  · have := liftPy_ok hp
    rw [C63_partial] at this
    exact (Except.ok.inj this).symm
  · subst hp
    have h0 : Rounds ikf hit fkf conv draws n ps good 0 ⟨ps.map freshPt, [], [], [], none⟩ := by
      refine ⟨by simp, ?_, rfl, rfl, rfl, Or.inl ⟨rfl, rfl⟩, by simp, by simp⟩
      intro i sp hi
      rw [List.getElem?_map, Option.map_eq_some_iff] at hi
      obtain ⟨p, hp, rfl⟩ := hi
      exact ⟨rfl, by simp [freshPt], p, hp, rfl⟩
    refine Yields.bind (iterLoop_yields h hfk hgood time maxIters 0 h0) fun o ho => ?_
    cases o with
    | none => exact Yields.pure (by simp)
    | some st =>
      have hst := ho st rfl
      rw [Nat.zero_add] at hst
      cases hs : st.sol with
      | none => simpa only [hs] using Yields.raise _ _
      | some sol =>
        simp only [hs]
        refine Yields.pure fun hsucc => ⟨st, hst, rfl, rfl, rfl, ?_⟩
        rcases hst.sol with ⟨_, hn⟩ | ⟨p, c, h1, h2, h3⟩
        · rw [hn] at hs; cases hs
        · rw [hs] at h3
          cases h3
          exact ⟨p, c, h1, h2, rfl, rfl⟩

/-- **C64**: when the iterative planner succeeds on free-orientation points, it reports exactly
`max_iters` costs, paths and times, path and length are those of the last round, and every
configuration on every path is the rounding of a collision-free IK solution of a sample: in round 0 a
sample of the path point, in round `k` a sample near the pose of round `k-1`, within π/4/2^k. -/
theorem C64 (h : Determined arm scene Inv ikf hit d)
    (hfk : ∀ q, q.length = d → Yields Inv (arm.fk q) (· = fkf q)) (pq : PQ C Config) (conv : ℝ → ℝ)
    (draws : Nat → Nat → Draws) (n : Nat) (ps : List FreeOrientationPt) (time : Nat → ℝ)
    (maxIters : Nat) {w w' : W} (hw : Inv w) {r : IterRes C}
    (hr : cartToJointIterative arm pq conv draws time (ps.map .free) scene n maxIters w = (.ok r, w'))
    (hs : r.success = true) :
    ∃ costs paths times, r.costs = some costs ∧ r.paths = some paths ∧ r.times = some times ∧
      costs.length = maxIters ∧ paths.length = maxIters ∧ times.length = maxIters ∧
      r.path = paths.getLast? ∧ r.length = costs.getLast? ∧
      ∀ (k : Nat) (p : List Config), paths[k]? = some p → p.length = ps.length ∧
        ∀ (i : Nat) (q : Config), p[i]? = some q →
          ∃ tp Ts T sols q', PointAt fkf ps paths k i tp ∧
            getSamples (draws k i) n (some (Real.pi / 4 / 2 ^ k)) tp = .ok Ts ∧ T ∈ Ts ∧
            ikf T = some sols ∧ q' ∈ sols ∧ hit q' = false ∧ q = q'.map conv := by
  obtain ⟨h1, -⟩ := iterative_yields h hfk ps (pq := pq) (conv := conv) (draws := draws) (n := n)
    (good := fun _ _ => True) (fun Q r hQ hr hs => by
      obtain ⟨p, c, h1, h2⟩ := getShortestPath_selection (fun c hc => by
        obtain ⟨rows, rfl, -⟩ := hQ c hc
        trivial) hr hs
      exact ⟨p, c, h1, h2, trivial⟩) time maxIters w hw r w' hr
  obtain ⟨st, hst, e1, e2, e3, p, c, e4, e5, e6, e7⟩ := h1 hs
  exact ⟨st.costs, st.paths, st.times, e1, e2, e3, hst.costs, hst.paths, hst.times,
    e6.trans e4.symm, e7.trans e5.symm, hst.path⟩

/-- **C64**, the reported costs are the costs of the reported paths (sum of the squared joint
differences, as the C++ code adds them), for every queue that neither loses nor invents nodes. -/
theorem C64_costs (h : Determined arm scene Inv ikf hit d)
    (hfk : ∀ q, q.length = d → Yields Inv (arm.fk q) (· = fkf q)) {pq : PQ C Config}
    (hl : Lawful pq) (hno : PyGraph.NoOverflow C)
    (hfin : ∀ x y : Config, stepCost C (effWeights C d []) x y < ⊤) (conv : ℝ → ℝ)
    (draws : Nat → Nat → Draws) (n : Nat) (ps : List FreeOrientationPt) (time : Nat → ℝ)
    (maxIters : Nat) {w w' : W} (hw : Inv w) {r : IterRes C}
    (hr : cartToJointIterative arm pq conv draws time (ps.map .free) scene n maxIters w = (.ok r, w'))
    (hs : r.success = true) :
    ∃ costs paths, r.costs = some costs ∧ r.paths = some paths ∧
      ∀ (k : Nat) (p : List Config) (c : C), paths[k]? = some p → costs[k]? = some c →
        costL (stepCost C (effWeights C d [])) p = c := by
  obtain ⟨h1, -⟩ := iterative_yields h hfk ps (pq := pq) (conv := conv) (draws := draws) (n := n)
    (good := fun p c => costL (stepCost C (effWeights C d [])) p = c) (fun Q r hQ hr hs => by
      have hne : Q ≠ [] := by
        rintro rfl
        cases hr
      have hin : InputOK d Q := by
        refine ⟨hne, fun c hc => ?_, fun _ c hc => ?_⟩
        · obtain ⟨rows, rfl, h1, h2⟩ := hQ c hc
          exact ⟨rfl, h1, h2⟩
        · obtain ⟨rows, rfl, h1, h2⟩ := hQ c hc
          rfl
      obtain ⟨p, c, h1, h2, h3⟩ := C11_dijkstra_sound hno pq hl conv d Q hin none
        (effWeights C d []) rfl (fun x _ y _ => hfin x y)
      rw [hr] at h1
      cases h1
      refine ⟨p, c, rfl, ?_, h3⟩
      convert h2 using 1
      refine List.map_congr_left fun c hc => ?_
      obtain ⟨rows, rfl, -⟩ := hQ c hc
      rfl) time maxIters w hw r w' hr
  obtain ⟨st, hst, e1, e2, -⟩ := h1 hs
  exact ⟨st.costs, st.paths, e1, e2, hst.cost⟩

/-- `samples` are the samples of the solution points, in order. -/
def SamplesOfPts (draws : Nat → Draws) (n : Nat) (pts : List SolPt) (samples : List (List M4)) :
    Prop :=
  samples.length = pts.length ∧
    ∀ (i : Nat) (sp : SolPt) (Ts : List M4), pts[i]? = some sp → samples[i]? = some Ts →
      getSamples (draws i) n (some sp.quatDistTol) sp.tpCurrent = .ok Ts

theorem iterColumns_returns (h : Determined arm scene Inv ikf hit d) (conv : ℝ → ℝ)
    (draws : Nat → Draws) (n : Nat) (pts : List SolPt) (i : Nat) (samples : List (List M4))
    (hs : SamplesOfPts (fun j => draws (i + j)) n pts samples) :
    Returns Inv (iterColumns arm conv scene draws n i pts) (samples.map fun Ts =>
      .arr true (if free ikf hit Ts = [] then 0 else d) ((free ikf hit Ts).map (List.map conv))) := by
  induction pts generalizing i samples with
  | nil =>
    have : samples = [] := List.length_eq_zero_iff.1 hs.1
    subst this
    exact Returns.pure _
  | cons sp pts ih =>
    cases samples with
    | nil => exact absurd hs.1 (by simp)
    | cons Ts samples =>
      unfold iterColumns
      refine Returns.bind (Returns.lift (hs.2 0 sp Ts rfl rfl)) ?_
      refine Returns.bind (calcJointSolutions_returns h conv Ts) ?_
      refine Returns.bind (ih (i + 1) samples ⟨by simpa using hs.1, fun j sp' Ts' h1 h2 => ?_⟩)
        (Returns.pure _)
      have := hs.2 (j + 1) sp' Ts' h1 h2
      simpa only [show i + (j + 1) = i + 1 + j by omega] using this

/-- **C64**, failure: in whatever round, as soon as one point has no collision-free solution for any of
its samples, the round ends the planner with `success = False`. -/
theorem C64_fails (h : Determined arm scene Inv ikf hit d) (pq : PQ C Config) (conv : ℝ → ℝ)
    {draws : Nat → Draws} {n : Nat} (time : ℝ) {st : IterSt C} {samples : List (List M4)}
    (hs : SamplesOfPts draws n st.pts samples)
    (hno : ∃ Ts ∈ samples, ∀ T ∈ Ts, ∀ sols, ikf T = some sols → ∀ q ∈ sols, hit q = true) :
    Returns Inv (iterRound arm pq conv scene draws n time st) none := by
  unfold iterRound
  refine Returns.bind (iterColumns_returns h conv draws n st.pts 0 samples (by simpa using hs)) ?_
  rw [if_neg]
  · exact Returns.pure _
  · intro hall
    obtain ⟨Ts, hTs, hq⟩ := hno
    have hf : free ikf hit Ts = [] := by
      rw [List.eq_nil_iff_forall_not_mem]
      intro q hm
      obtain ⟨T, hT, sols, h1, h2, h3⟩ := mem_free.1 hm
      rw [hq T hT sols h1 q h2] at h3
      cases h3
    refine hall _ (List.mem_map.2 ⟨Ts, hTs, rfl⟩) ?_
    rw [hf]
    rfl

/-- **C64**, failure in the first round: the answer of the planner is `success = False`. -/
theorem C64_fails_first (h : Determined arm scene Inv ikf hit d) (pq : PQ C Config) (conv : ℝ → ℝ)
    {draws : Nat → Nat → Draws} {n maxIters : Nat} (hm : 1 ≤ maxIters) (time : Nat → ℝ)
    {ps : List FreeOrientationPt} {samples : List (List M4)}
    (hlen : samples.length = ps.length)
    (hs : ∀ i p Ts, ps[i]? = some p → samples[i]? = some Ts →
      getSamples (draws 0 i) n (some (Real.pi / 4)) (.free p) = .ok Ts)
    (hno : ∃ Ts ∈ samples, ∀ T ∈ Ts, ∀ sols, ikf T = some sols → ∀ q ∈ sols, hit q = true) :
    Returns Inv (cartToJointIterative arm pq conv draws time (ps.map .free) scene n maxIters)
      { success := false } := by
  obtain ⟨m, rfl⟩ : ∃ m, maxIters = m + 1 := ⟨maxIters - 1, by omega⟩
  unfold cartToJointIterative
  refine Returns.bind (Returns.lift (a := ps.map freshPt) (by rw [C63_partial]; rfl)) ?_
  refine Returns.bind (a := none) ?_ (Returns.pure _)
  unfold iterLoop
  refine Returns.bind (C64_fails h pq conv (time 0) (samples := samples) ⟨?_, ?_⟩ hno)
    (Returns.pure _)
  · simpa using hlen
  · intro i sp Ts h1 h2
    rw [List.getElem?_map, Option.map_eq_some_iff] at h1
    obtain ⟨p, hp, rfl⟩ := h1
    exact hs i p Ts hp h2

/-- **C64**, the corner cases: no rounds leave the variable `sol` unbound; an empty path has no first
column. -/
theorem C64_corner (arm : Arm W S) (pq : PQ C Config) (conv : ℝ → ℝ) (draws : Nat → Nat → Draws)
    (time : Nat → ℝ) (scene : Collection S) (n : Nat) :
    (∀ ps : List FreeOrientationPt,
      Raises Inv (cartToJointIterative arm pq conv draws time (ps.map .free) scene n 0)
        (.py .unboundLocalError)) ∧
    ∀ m, Raises Inv (cartToJointIterative arm pq conv draws time [] scene n (m + 1))
      (.py .indexError) := by
  constructor
  · intro ps
    unfold cartToJointIterative
    refine Returns.bind_raises (Returns.lift (a := ps.map freshPt) (by rw [C63_partial]; rfl)) ?_
    exact Returns.bind_raises (Returns.pure _) (Raises.raise _)
  · intro m
    unfold cartToJointIterative
    refine Returns.bind_raises (Returns.lift (a := []) rfl) ?_
    refine Raises.bind ?_
    unfold iterLoop
    refine Raises.bind ?_
    unfold iterRound
    refine Returns.bind_raises (Returns.pure _) ?_
    rw [if_pos (by simp)]
    exact Raises.bind (Raises.lift rfl)

/-- **C64** with the published pyquaternion, which has no `random_near`: asked for two rounds or more,
the planner never succeeds, whatever the robot. -/
theorem C64_stock (h : Determined arm scene Inv ikf hit d)
    (hfk : ∀ q, q.length = d → Yields Inv (arm.fk q) (· = fkf q)) (pq : PQ C Config) (conv : ℝ → ℝ)
    {draws : Nat → Nat → Draws} (hdr : ∀ k i, (draws k i).near = none) (n : Nat)
    {ps : List FreeOrientationPt} (hne : ps ≠ []) (time : Nat → ℝ) {maxIters : Nat}
    (hm : 2 ≤ maxIters) {w w' : W} (hw : Inv w) {r : IterRes C}
    (hr : cartToJointIterative arm pq conv draws time (ps.map .free) scene n maxIters w =
      (.ok r, w')) : r.success = false := by
  by_contra hs
  rw [Bool.not_eq_false] at hs
  obtain ⟨costs, paths, times, -, -, -, -, hlen, -, -, -, hp⟩ :=
    C64 h hfk pq conv draws n ps time maxIters hw hr hs
  have h1 : 1 < paths.length := by omega
  obtain ⟨hl, hq⟩ := hp 1 _ (List.getElem?_eq_getElem h1)
  have h0 : 0 < paths[1].length := by rw [hl]; exact List.length_pos_iff.2 hne
  obtain ⟨tp, Ts, T, sols, q', hpt, hsam, hT, -⟩ := hq 0 _ (List.getElem?_eq_getElem h0)
  obtain ⟨path, q, o, -, -, -, rfl⟩ := hpt
  unfold getSamples at hsam
  simp only [hdr] at hsam
  have hsam := liftPy_ok hsam
  rcases Nat.eq_zero_or_pos n with rfl | hn
  · cases hsam
    cases hT
  · rw [C50_tolOrientation_stock _ hn] at hsam
    cases hsam

/-- A point that a round may have to sample: a path point, or the pose of some configuration. -/
def MayVisit (fkf : Config → M4) (d : Nat) (ps : List FreeOrientationPt) (i : Nat) (tp : PathPt) :
    Prop :=
  (∃ p, ps[i]? = some p ∧ tp = .free p) ∨
    ∃ q o, q.length = d ∧ Quat.ofRotation (rotPart (fkf q)) = .ok o ∧
      tp = .orientation ⟨posPart (fkf q), o⟩

/-- In every round every point that may be visited has a sample with a collision-free solution. -/
def AllReachable (ikf : M4 → Option (List Config)) (hit : Config → Bool) (fkf : Config → M4) (d : Nat)
    (draws : Nat → Nat → Draws) (n : Nat) (ps : List FreeOrientationPt) : Prop :=
  ∀ k i tp, MayVisit fkf d ps i tp →
    ∃ Ts, getSamples (draws k i) n (some (Real.pi / 4 / 2 ^ k)) tp = .ok Ts ∧
      ∃ T ∈ Ts, ∃ sols, ikf T = some sols ∧ ∃ q ∈ sols, hit q = false

/-- The solution points of round `k`. -/
structure PtsAt (fkf : Config → M4) (d : Nat) (ps : List FreeOrientationPt) (k : Nat)
    (pts : List SolPt) : Prop where
  len : pts.length = ps.length
  pt : ∀ (i : Nat) (sp : SolPt), pts[i]? = some sp → sp.tolType = .tolOri ∧
    sp.quatDistTol = Real.pi / 4 / 2 ^ k ∧ MayVisit fkf d ps i sp.tpCurrent

theorem resampleAll_returns
    (hfk : ∀ q, q.length = d → Returns Inv (arm.fk q) (fkf q))
    (hrot : ∀ q, q.length = d → ∃ o, Quat.ofRotation (rotPart (fkf q)) = .ok o) (path : List Config)
    (pts : List SolPt) (hl : path.length = pts.length) (hd : ∀ q ∈ path, q.length = d)
    (ho : ∀ sp ∈ pts, sp.tolType = .tolOri) :
    ∃ pts', Returns Inv (resampleAll arm path pts) pts' ∧ pts'.length = pts.length ∧
      ∀ (i : Nat) (sp' : SolPt), pts'[i]? = some sp' → ∃ sp q o, pts[i]? = some sp ∧ q.length = d ∧
        Quat.ofRotation (rotPart (fkf q)) = .ok o ∧ sp'.tolType = .tolOri ∧
        sp'.quatDistTol = sp.quatDistTol / 2 ∧
        sp'.tpCurrent = .orientation ⟨posPart (fkf q), o⟩ := by
  induction path generalizing pts with
  | nil =>
    have : pts = [] := List.length_eq_zero_iff.1 hl.symm
    subst this
    exact ⟨[], Returns.pure _, rfl, by simp⟩
  | cons q path ih =>
    cases pts with
    | nil => simp at hl
    | cons sp pts =>
      obtain ⟨o, hoq⟩ := hrot q (hd q (by simp))
      have hsp : Returns Inv (sp.resample arm q) { sp with
          qBest := some q, tpCurrent := .orientation ⟨posPart (fkf q), o⟩
          quatDistTol := sp.quatDistTol / 2 } := by
        unfold SolPt.resample
        refine Returns.bind (hfk q (hd q (by simp))) ?_
        refine Returns.bind (Returns.lift (a := o) (by rw [hoq]; rfl)) ?_
        refine Returns.lift ?_
        unfold newPoint
        have hty : sp.tolType = .tolOri := ho sp (by simp)
        simp only [hty]
        rw [if_neg (by norm_num)]
        rfl
      obtain ⟨pts', h1, h2, h3⟩ := ih pts (by simpa using hl)
        (fun x hx => hd x (List.mem_cons_of_mem _ hx)) (fun x hx => ho x (List.mem_cons_of_mem _ hx))
      unfold resampleAll
      refine ⟨_, Returns.bind hsp (Returns.bind h1 (Returns.pure _)), by simp [h2], ?_⟩
      intro i s hs
      cases i with
      | zero =>
        cases hs
        exact ⟨sp, q, o, rfl, hd q (by simp), hoq, ho sp (by simp), rfl, rfl⟩
      | succ i => exact h3 i s hs

theorem iterRound_continues (h : Determined arm scene Inv ikf hit d)
    (hfk : ∀ q, q.length = d → Returns Inv (arm.fk q) (fkf q))
    (hrot : ∀ q, q.length = d → ∃ o, Quat.ofRotation (rotPart (fkf q)) = .ok o)
    {pq : PQ C Config} (hl : Lawful pq) (hno : PyGraph.NoOverflow C)
    (hfin : ∀ x y : Config, stepCost C (effWeights C d []) x y < ⊤) (conv : ℝ → ℝ)
    {draws : Nat → Nat → Draws} {n : Nat} {ps : List FreeOrientationPt} (hne : ps ≠ [])
    (time : ℝ) {k : Nat} {st : IterSt C} (hst : PtsAt fkf d ps k st.pts)
    (hsam : ∀ i : Fin st.pts.length, ∃ Ts,
      getSamples (draws k i) n (some st.pts[i].quatDistTol) st.pts[i].tpCurrent = .ok Ts ∧
      ∃ T ∈ Ts, ∃ sols, ikf T = some sols ∧ ∃ q ∈ sols, hit q = false) :
    ∃ st', Returns Inv (iterRound arm pq conv scene (draws k) n time st) (some st') ∧
      PtsAt fkf d ps (k + 1) st'.pts ∧ (∃ p c, st'.sol = some ⟨true, some p, some c⟩) ∧
      ∀ sp ∈ st'.pts, ∃ pt, sp.tpCurrent = .orientation pt := by
  choose f hf using hsam
  set samples := List.ofFn f with hsamples
  have hs : SamplesOfPts (draws k) n st.pts samples := by
    refine ⟨by simp [hsamples], fun i sp Ts h1 h2 => ?_⟩
    obtain ⟨hi, rfl⟩ := List.getElem?_eq_some_iff.1 h1
    obtain ⟨hi', rfl⟩ := List.getElem?_eq_some_iff.1 h2
    rw [List.getElem_ofFn]
    exact (hf ⟨i, hi⟩).1
  have hfree : ∀ Ts ∈ samples, free ikf hit Ts ≠ [] := by
    intro Ts hTs
    obtain ⟨i, rfl⟩ := (List.mem_ofFn' _ _).1 hTs
    obtain ⟨-, T, hT, sols, h1, q, h2, h3⟩ := hf i
    exact List.ne_nil_of_mem (mem_free.2 ⟨T, hT, sols, h1, h2, h3⟩)
  set Q := samples.map (fun Ts => (PyCol.arr true (if free ikf hit Ts = [] then 0 else d)
    ((free ikf hit Ts).map (List.map conv)) : PyCol ℝ)) with hQ
  have hcols := iterColumns_returns h conv (draws k) n st.pts 0 samples (by simpa using hs)
  rw [← hQ] at hcols
  have hcol : ∀ c ∈ Q, ∃ rows, c = .arr true d rows ∧ rows ≠ [] ∧ ∀ x ∈ rows, x.length = d := by
    intro c hc
    obtain ⟨Ts, hTs, rfl⟩ := List.mem_map.1 hc
    have hfr := hfree Ts hTs
    refine ⟨_, by rw [if_neg hfr], by simpa using hfr, fun x hx => ?_⟩
    obtain ⟨q', hq', rfl⟩ := List.mem_map.1 hx
    rw [List.length_map]
    exact free_dof h q' hq'
  have hQlen : Q.length = ps.length := by rw [hQ, List.length_map, hs.1, hst.len]
  have hin : InputOK d Q := by
    refine ⟨?_, fun c hc => ?_, fun _ c hc => ?_⟩
    · intro he
      rw [he] at hQlen
      exact hne (List.length_eq_zero_iff.1 hQlen.symm)
    · obtain ⟨rows, rfl, h1, h2⟩ := hcol c hc
      exact ⟨rfl, h1, h2⟩
    · obtain ⟨rows, rfl, h1, h2⟩ := hcol c hc
      rfl
  obtain ⟨p, c, h1, h2, -⟩ := C11_dijkstra_sound hno pq hl conv d Q hin none
    (effWeights C d []) rfl (fun x _ y _ => hfin x y)
  obtain ⟨hplen, hpget⟩ := selection_get h2
  have hpd : ∀ q ∈ p, q.length = d := by
    intro q hq
    obtain ⟨i, hi⟩ := List.getElem?_of_mem hq
    obtain ⟨col, hc, hm⟩ := hpget i q hi
    rw [List.getElem?_map, Option.map_eq_some_iff] at hc
    obtain ⟨c', hc', rfl⟩ := hc
    obtain ⟨rows, rfl, -, hlen⟩ := hcol c' (List.mem_of_getElem? hc')
    exact hlen q hm
  obtain ⟨pts', g1, g2, g3⟩ := resampleAll_returns hfk hrot p st.pts
    (by rw [hplen, List.length_map, hQlen, hst.len]) hpd (fun sp hsp => by
      obtain ⟨i, hi⟩ := List.getElem?_of_mem hsp
      exact (hst.pt i sp hi).1)
  refine ⟨⟨pts', st.costs ++ [c], st.paths ++ [p], st.times ++ [time], some ⟨true, some p, some c⟩⟩,
    ?_, ⟨g2.trans hst.len, fun i sp' hi => ?_⟩, ⟨p, c, rfl⟩, fun sp' hsp => ?_⟩
  · unfold iterRound
    refine Returns.bind hcols ?_
    rw [if_pos]
    · refine Returns.bind (Returns.lift h1) ?_
      simp only [if_true]
      exact Returns.bind g1 (Returns.pure _)
    · intro c' hc'
      obtain ⟨rows, rfl, hr, -⟩ := hcol c' hc'
      exact fun h0 => hr (List.length_eq_zero_iff.1 h0)
  · obtain ⟨sp, q, o, a1, a2, a3, a4, a5, a6⟩ := g3 i sp' hi
    refine ⟨a4, ?_, Or.inr ⟨q, o, a2, a3, a6⟩⟩
    rw [a5, (hst.pt i sp a1).2.1, pow_succ]
    ring
  · obtain ⟨i, hi⟩ := List.getElem?_of_mem hsp
    obtain ⟨sp, q, o, -, -, -, -, -, a6⟩ := g3 i sp' hi
    exact ⟨_, a6⟩

theorem iterRound_returns (h : Determined arm scene Inv ikf hit d)
    (hfk : ∀ q, q.length = d → Returns Inv (arm.fk q) (fkf q))
    (hrot : ∀ q, q.length = d → ∃ o, Quat.ofRotation (rotPart (fkf q)) = .ok o)
    {pq : PQ C Config} (hl : Lawful pq) (hno : PyGraph.NoOverflow C)
    (hfin : ∀ x y : Config, stepCost C (effWeights C d []) x y < ⊤) (conv : ℝ → ℝ)
    {draws : Nat → Nat → Draws} {n : Nat} {ps : List FreeOrientationPt} (hne : ps ≠ [])
    (hex : AllReachable ikf hit fkf d draws n ps) (time : ℝ) {k : Nat} {st : IterSt C}
    (hst : PtsAt fkf d ps k st.pts) :
    ∃ st', Returns Inv (iterRound arm pq conv scene (draws k) n time st) (some st') ∧
      PtsAt fkf d ps (k + 1) st'.pts ∧ ∃ p c, st'.sol = some ⟨true, some p, some c⟩ := by
  obtain ⟨st', g1, g2, g3, -⟩ := iterRound_continues h hfk hrot hl hno hfin conv hne time hst fun i => by
    obtain ⟨-, e2, e3⟩ := hst.pt i _ (List.getElem?_eq_getElem i.2)
    obtain ⟨Ts, h1, h2⟩ := hex k i _ e3
    exact ⟨Ts, by rw [← h1]; exact congrArg (fun x => getSamples (draws k i) n (some x) _) e2, h2⟩
  exact ⟨st', g1, g2, g3⟩

theorem iterLoop_returns (h : Determined arm scene Inv ikf hit d)
    (hfk : ∀ q, q.length = d → Returns Inv (arm.fk q) (fkf q))
    (hrot : ∀ q, q.length = d → ∃ o, Quat.ofRotation (rotPart (fkf q)) = .ok o)
    {pq : PQ C Config} (hl : Lawful pq) (hno : PyGraph.NoOverflow C)
    (hfin : ∀ x y : Config, stepCost C (effWeights C d []) x y < ⊤) (conv : ℝ → ℝ)
    {draws : Nat → Nat → Draws} {n : Nat} {ps : List FreeOrientationPt} (hne : ps ≠ [])
    (hex : AllReachable ikf hit fkf d draws n ps) (time : Nat → ℝ) (m : Nat) (k : Nat)
    (st : IterSt C) (hst : PtsAt fkf d ps k st.pts) :
    ∃ st', Returns Inv (iterLoop arm pq conv scene draws n time m k st) (some st') ∧
      ((∃ p c, st.sol = some ⟨true, some p, some c⟩) ∨ 1 ≤ m →
        ∃ p c, st'.sol = some ⟨true, some p, some c⟩) := by
  induction m generalizing k st with
  | zero => exact ⟨st, Returns.pure _, fun h => h.resolve_right (by omega)⟩
  | succ m ih =>
    obtain ⟨st1, r1, p1, s1⟩ := iterRound_returns h hfk hrot hl hno hfin conv hne hex (time k) hst
    obtain ⟨st2, r2, s2⟩ := ih (k + 1) st1 p1
    refine ⟨st2, ?_, fun _ => s2 (Or.inl s1)⟩
    unfold iterLoop
    exact Returns.bind r1 r2

/-- **C64**, success: with at least one round and one path point, for a robot for which every point
that may be visited has a sample with a collision-free solution, the planner succeeds. -/
theorem C64_succeeds (h : Determined arm scene Inv ikf hit d)
    (hfk : ∀ q, q.length = d → Returns Inv (arm.fk q) (fkf q))
    (hrot : ∀ q, q.length = d → ∃ o, Quat.ofRotation (rotPart (fkf q)) = .ok o)
    {pq : PQ C Config} (hl : Lawful pq) (hno : PyGraph.NoOverflow C)
    (hfin : ∀ x y : Config, stepCost C (effWeights C d []) x y < ⊤) (conv : ℝ → ℝ)
    {draws : Nat → Nat → Draws} {n : Nat} {ps : List FreeOrientationPt} (hne : ps ≠ [])
    (hex : AllReachable ikf hit fkf d draws n ps) (time : Nat → ℝ) {maxIters : Nat}
    (hm : 1 ≤ maxIters) :
    ∃ r, Returns Inv (cartToJointIterative arm pq conv draws time (ps.map .free) scene n maxIters) r ∧
      r.success = true := by
  obtain ⟨st, h1, h2⟩ := iterLoop_returns h hfk hrot hl hno hfin conv hne hex time maxIters 0
    ⟨ps.map freshPt, [], [], [], none⟩ ⟨by simp, fun i sp hi => by
      rw [List.getElem?_map, Option.map_eq_some_iff] at hi
      obtain ⟨p, hp, rfl⟩ := hi
      exact ⟨rfl, by simp [freshPt], Or.inl ⟨p, hp, rfl⟩⟩⟩
  obtain ⟨p, c, hs⟩ := h2 (Or.inr hm)
  refine ⟨⟨true, some p, some c, some st.costs, some st.paths, some st.times⟩, ?_, rfl⟩
  unfold cartToJointIterative
  refine Returns.bind (Returns.lift (a := ps.map freshPt) (by rw [C63_partial]; rfl)) ?_
  refine Returns.bind h1 ?_
  simp only [hs]
  exact Returns.pure _

/-- **C64** with the published pyquaternion, exactly: asked for two rounds or more, the planner
answers `success = False` when some path point has no collision-free solution for its samples, and
raises AttributeError (`random_near` does not exist) when every point has one. -/
theorem C64_stock_exact (h : Determined arm scene Inv ikf hit d)
    (hfk : ∀ q, q.length = d → Returns Inv (arm.fk q) (fkf q))
    (hrot : ∀ q, q.length = d → ∃ o, Quat.ofRotation (rotPart (fkf q)) = .ok o)
    {pq : PQ C Config} (hl : Lawful pq) (hno : PyGraph.NoOverflow C)
    (hfin : ∀ x y : Config, stepCost C (effWeights C d []) x y < ⊤) (conv : ℝ → ℝ)
    {draws : Nat → Nat → Draws} (hdr : ∀ k i, (draws k i).near = none) {n : Nat} (hn : 0 < n)
    {ps : List FreeOrientationPt} (hne : ps ≠ []) (time : Nat → ℝ) {maxIters : Nat}
    (hm : 2 ≤ maxIters) {samples : List (List M4)} (hlen : samples.length = ps.length)
    (hs : ∀ i p Ts, ps[i]? = some p → samples[i]? = some Ts →
      getSamples (draws 0 i) n (some (Real.pi / 4)) (.free p) = .ok Ts) :
    ((∃ Ts ∈ samples, ∀ T ∈ Ts, ∀ sols, ikf T = some sols → ∀ q ∈ sols, hit q = true) →
      Returns Inv (cartToJointIterative arm pq conv draws time (ps.map .free) scene n maxIters)
        { success := false }) ∧
    ((∀ Ts ∈ samples, ∃ T ∈ Ts, ∃ sols, ikf T = some sols ∧ ∃ q ∈ sols, hit q = false) →
      Raises Inv (cartToJointIterative arm pq conv draws time (ps.map .free) scene n maxIters)
        (.py .attributeError)) := by
  refine ⟨C64_fails_first h pq conv (by omega) time hlen hs, fun hex => ?_⟩
  obtain ⟨m, rfl⟩ : ∃ m, maxIters = m + 2 := ⟨maxIters - 2, by omega⟩
  obtain ⟨st, h1, h2, -, h4⟩ := iterRound_continues h hfk hrot hl hno hfin conv hne (time 0)
    (draws := draws) (n := n) (k := 0) (st := ⟨ps.map freshPt, [], [], [], none⟩)
    ⟨by simp, fun i sp hi => by
      rw [List.getElem?_map, Option.map_eq_some_iff] at hi
      obtain ⟨p, hp, rfl⟩ := hi
      exact ⟨rfl, by simp [freshPt], Or.inl ⟨p, hp, rfl⟩⟩⟩ (fun i => by
        have hi : i.1 < ps.length := by simpa using i.2
        have hi' : i.1 < samples.length := by omega
        refine ⟨samples[i.1], ?_, hex _ (List.getElem_mem hi')⟩
        have := hs i.1 _ _ (List.getElem?_eq_getElem hi) (List.getElem?_eq_getElem hi')
        simpa [freshPt] using this)
  unfold cartToJointIterative
  refine Returns.bind_raises (Returns.lift (a := ps.map freshPt) (by rw [C63_partial]; rfl)) ?_
  refine Raises.bind ?_
  unfold iterLoop
  refine Returns.bind_raises h1 ?_
  unfold iterLoop
  refine Raises.bind ?_
  unfold iterRound
  refine Raises.bind ?_
  cases hp : st.pts with
  | nil =>
    have := h2.len
    rw [hp] at this
    exact absurd (List.length_eq_zero_iff.1 this.symm) hne
  | cons sp rest =>
    obtain ⟨pt, hpt⟩ := h4 sp (by simp [hp])
    unfold iterColumns
    refine Raises.bind (Raises.lift ?_)
    unfold getSamples
    simp only [hpt, hdr, C50_tolOrientation_stock _ hn]
    rfl

/-! ## C65 -/

/-- The full property: a task without obstacles can be solved with the default method whenever the
same task with an empty scene can. -/
def C65_statement : Prop := ∀ (W S C : Type) [CostArith C] [JointArith ℝ C] (Inv : W → Prop)
  (arm : Arm W S) (pq : PQ C Config) (conv : ℝ → ℝ) (draws : Nat → Nat → Draws) (time : Nat → ℝ)
  (fuel : Nat) (optimal : List PathPt → Collection S → Nat → List (List ℝ) → Run W Unit)
  (path : List PathPt) (r : SolveRes C Unit),
  Returns Inv (PlanningTask.solve (PlanningTask.new path (some ⟨[], []⟩)) arm pq conv draws time fuel
    optimal) r →
  Returns Inv (PlanningTask.solve (PlanningTask.new path none) arm pq conv draws time fuel optimal) r

/-- **C65**: without a scene every known method raises AttributeError, whatever the robot and the
path. -/
theorem C65_no_scene (t : PlanningTask S) (ht : t.scene = none) (arm : Arm W S) (pq : PQ C Config)
    (conv : ℝ → ℝ) (draws : Nat → Nat → Draws) (time : Nat → ℝ) (fuel : Nat)
    (optimal : List PathPt → Collection S → Nat → List (List ℝ) → Run W O) {m : String}
    (hm : m ∈ ["grid", "grid_iterative", "optimization", "grid_incremental"]) :
    Raises Inv (PlanningTask.solve t arm pq conv draws time fuel optimal (some m))
      (.py .attributeError) := by
  have hsc : sceneOf t = .error (.py .attributeError) := by rw [sceneOf, ht]
  unfold PlanningTask.solve
  simp only [Option.getD_some]
  simp only [List.mem_cons, List.not_mem_nil, or_false] at hm
  rcases hm with rfl | rfl | rfl | rfl
  · rw [if_pos rfl]
    exact Raises.bind (Raises.lift hsc)
  · rw [if_neg (by simp), if_pos rfl]
    exact Raises.bind (Raises.lift hsc)
  · rw [if_neg (by simp), if_neg (by simp), if_pos rfl]
    exact Raises.bind (Raises.lift hsc)
  · rw [if_neg (by simp), if_neg (by simp), if_neg (by simp), if_pos rfl]
    exact Raises.bind (Raises.lift hsc)

/-- **C65**: an unknown method name raises, with or without a scene. -/
theorem C65_unknown (t : PlanningTask S) (arm : Arm W S) (pq : PQ C Config)
    (conv : ℝ → ℝ) (draws : Nat → Nat → Draws) (time : Nat → ℝ) (fuel : Nat)
    (optimal : List PathPt → Collection S → Nat → List (List ℝ) → Run W O) {m : String}
    (hm : m ∉ ["grid", "grid_iterative", "optimization", "grid_incremental"]) :
    Raises Inv (PlanningTask.solve t arm pq conv draws time fuel optimal (some m))
      (.py .exception) := by
  simp only [List.mem_cons, List.not_mem_nil, or_false, not_or] at hm
  unfold PlanningTask.solve
  simp only [Option.getD_some]
  rw [if_neg hm.1, if_neg hm.2.1, if_neg hm.2.2.1, if_neg hm.2.2.2]
  exact Raises.raise _

/-- **C65**, what holds: with a scene, `solve` returns what the planner of that name returns, given
the task's own settings.  Missing: tasks without a scene (`C65_no_scene`). -/
theorem C65_dispatch_partial (t : PlanningTask S) (ht : t.scene = some scene) (arm : Arm W S)
    (pq : PQ C Config) (conv : ℝ → ℝ) (draws : Nat → Nat → Draws) (time : Nat → ℝ) (fuel : Nat)
    (optimal : List PathPt → Collection S → Nat → List (List ℝ) → Run W O) :
    (∀ Q r, Returns Inv (cartToJointNoRedundancy arm conv (draws 0) t.path scene t.gridSamples) Q →
      getShortestPath pq conv Q .dijkstra none = .ok r →
      Returns Inv (PlanningTask.solve t arm pq conv draws time fuel optimal (some "grid"))
        (.plan r)) ∧
    (∀ r, Returns Inv (cartToJointIterative arm pq conv draws time t.path scene t.gridSamples
        t.gridBasedIters) r →
      Returns Inv (PlanningTask.solve t arm pq conv draws time fuel optimal (some "grid_iterative"))
        (.iter r)) ∧
    (∀ r, Returns Inv (optimal t.path scene t.optBasedMaxIters t.qpInit) r →
      Returns Inv (PlanningTask.solve t arm pq conv draws time fuel optimal (some "optimization"))
        (.opt r)) ∧
    (∀ Q r, Returns Inv (cartToJointIncremental arm conv draws fuel t.path scene 50 1000) Q →
      getShortestPath pq conv Q .dijkstra none = .ok r →
      Returns Inv (PlanningTask.solve t arm pq conv draws time fuel optimal
        (some "grid_incremental")) (.plan r)) ∧
    PlanningTask.solve t arm pq conv draws time fuel optimal none =
      PlanningTask.solve t arm pq conv draws time fuel optimal (some t.method) := by
  have hsc : sceneOf t = .ok scene := by rw [sceneOf, ht]
  refine ⟨fun Q r hQ hr => ?_, fun r hr => ?_, fun r hr => ?_, fun Q r hQ hr => ?_, rfl⟩
  · unfold PlanningTask.solve
    simp only [Option.getD_some]
    rw [if_pos trivial]
    exact Returns.bind (Returns.lift hsc) (Returns.bind hQ (Returns.bind (Returns.lift hr)
      (Returns.pure _)))
  · unfold PlanningTask.solve
    simp only [Option.getD_some]
    rw [if_neg (by simp), if_pos trivial]
    exact Returns.bind (Returns.lift hsc) (Returns.bind hr (Returns.pure _))
  · unfold PlanningTask.solve
    simp only [Option.getD_some]
    rw [if_neg (by simp), if_neg (by simp), if_pos trivial]
    exact Returns.bind (Returns.lift hsc) (Returns.bind hr (Returns.pure _))
  · unfold PlanningTask.solve
    simp only [Option.getD_some]
    rw [if_neg (by simp), if_neg (by simp), if_neg (by simp), if_pos trivial]
    exact Returns.bind (Returns.lift hsc) (Returns.bind hQ (Returns.bind (Returns.lift hr)
      (Returns.pure _)))

/-! ## C66 -/

/-- What `cart_to_joint_no_redundancy` returns, also when samples may fail. -/
theorem noRedundancy_yields (h : Determined arm scene Inv ikf hit d) (conv : ℝ → ℝ)
    (draws : Nat → Draws) (n : Nat) (path : List PathPt) (i : Nat) (Q : List (PyCol ℝ)) :
    Yields Inv (noRedundancyLoop arm scene conv draws n i path Q) fun Q' =>
      ∃ samples : List (List M4), SamplesOf (fun j => draws (i + j)) n path samples ∧
        Q' = Q ++ samples.map fun Ts => colOf conv d (free ikf hit Ts) := by
  induction path generalizing i Q with
  | nil => exact Yields.pure ⟨[], ⟨rfl, by simp⟩, by simp⟩
  | cons tp path ih =>
    unfold noRedundancyLoop
    refine Yields.bind (Yields.lift (P := fun Ts => getSamples (draws i) n none tp = .ok Ts)
      fun a ha => ha) fun Ts hTs => ?_
    refine Yields.bind (samplesLoop_returns h Ts []).yields fun qSol hq => ?_
    subst hq
    rw [List.nil_append]
    refine Yields.bind (Returns.lift (column_ok conv (free_dof h))).yields fun c hc => ?_
    subst hc
    refine Yields.mono (ih (i + 1) _) ?_
    rintro Q' ⟨samples, hs, rfl⟩
    refine ⟨Ts :: samples, ⟨by simp [hs.1], fun j tp' Ts' h1 h2 => ?_⟩, by simp⟩
    cases j with
    | zero => cases h1; cases h2; exact hTs
    | succ j =>
      have := hs.2 j tp' Ts' h1 h2
      simpa only [show i + 1 + j = i + (j + 1) by omega] using this

theorem colOf_float32 (conv : ℝ → ℝ) (rows : List Config) : Float32Col (colOf conv d rows) := by
  unfold colOf
  split <;> trivial

/-- **C66**, for any notion of reaching: if `solve(robot, "grid")` succeeds, for a robot whose inverse
kinematics is sound (its free solutions for `T` reach `T`) and whose collision check answers `hit`, the
path has one configuration per path point, each the float32 rounding of a collision-free configuration
that reaches one of the samples of that point. -/
theorem C66_reach (h : Determined arm scene Inv ikf hit d)
    {Reach : Config → M4 → Prop}
    (hsound : ∀ T sols q, ikf T = some sols → q ∈ sols → hit q = false → Reach q T)
    (t : PlanningTask S) (ht : t.scene = some scene) (pq : PQ C Config) (conv : ℝ → ℝ)
    (draws : Nat → Nat → Draws) (time : Nat → ℝ) (fuel : Nat)
    (optimal : List PathPt → Collection S → Nat → List (List ℝ) → Run W O) {method : Option String}
    (hm : method.getD t.method = "grid") {w w' : W} (hw : Inv w) {r : SolveRes C O}
    (hr : PlanningTask.solve t arm pq conv draws time fuel optimal method w = (.ok r, w')) :
    ∃ pr : PlanRes ℝ C, r = .plan pr ∧ (pr.success = true → ∃ path, pr.path = some path ∧
      path.length = t.path.length ∧
      ∀ (i : Nat) (q : Config), path[i]? = some q → ∃ tp Ts q', t.path[i]? = some tp ∧
        getSamples (draws 0 i) t.gridSamples none tp = .ok Ts ∧ q = q'.map conv ∧ hit q' = false ∧
        ∃ T ∈ Ts, Reach q' T) := by
  have hsc : sceneOf t = .ok scene := by rw [sceneOf, ht]
  have key : Yields Inv (PlanningTask.solve t arm pq conv draws time fuel optimal method) fun r =>
      ∃ pr : PlanRes ℝ C, r = .plan pr ∧ (pr.success = true → ∃ path, pr.path = some path ∧
        path.length = t.path.length ∧
        ∀ (i : Nat) (q : Config), path[i]? = some q → ∃ tp Ts q', t.path[i]? = some tp ∧
          getSamples (draws 0 i) t.gridSamples none tp = .ok Ts ∧ q = q'.map conv ∧ hit q' = false ∧
          ∃ T ∈ Ts, Reach q' T) := by
    unfold PlanningTask.solve
    simp only [hm]
    rw [if_pos trivial]
    refine Yields.bind (Returns.lift hsc).yields fun s hs => ?_
    subst hs
    refine Yields.bind (noRedundancy_yields h conv (draws 0) t.gridSamples t.path 0 []) fun Q hQ => ?_
    obtain ⟨samples, hsa, rfl⟩ := hQ
    rw [List.nil_append]
    refine Yields.bind (Yields.lift (P := fun pr => getShortestPath pq conv
      (samples.map fun Ts => colOf conv d (free ikf hit Ts)) .dijkstra none = .ok pr)
      fun a ha => ha) fun pr hpr => Yields.pure ⟨pr, rfl, fun hsucc => ?_⟩
    obtain ⟨p, c, rfl, hsel⟩ := getShortestPath_selection (fun c hc => by
      obtain ⟨Ts, -, rfl⟩ := List.mem_map.1 hc
      exact colOf_float32 conv _) hpr hsucc
    obtain ⟨hlen, hget⟩ := selection_get hsel
    refine ⟨p, rfl, by rw [hlen, List.length_map, List.length_map, hsa.1], fun i q hq => ?_⟩
    obtain ⟨col, hc, hm⟩ := hget i q hq
    rw [List.map_map, List.getElem?_map, Option.map_eq_some_iff] at hc
    obtain ⟨Ts, hTs, rfl⟩ := hc
    simp only [Function.comp, colOf_rows] at hm
    obtain ⟨q', hq', rfl⟩ := List.mem_map.1 hm
    obtain ⟨T, hT, sols, h1, h2, h3⟩ := mem_free.1 hq'
    have hi : i < t.path.length := by
      rw [← hsa.1]
      exact (List.getElem?_eq_some_iff.1 hTs).1
    have hg := hsa.2 i _ Ts (List.getElem?_eq_getElem hi) hTs
    simp only [Nat.zero_add] at hg
    refine ⟨_, Ts, q', List.getElem?_eq_getElem hi, hg, rfl, h3, T, hT,
      hsound T sols q' h1 h2 h3⟩
  exact (key w hw r w' hr).1

/-- **C66**: if `solve(robot, "grid")` succeeds, for a robot whose inverse kinematics is sound
(`fkf` being its forward kinematics), the path has one configuration per path point, each the float32
rounding of a collision-free configuration whose forward kinematics is one of the samples of that
point. -/
theorem C66 (h : Determined arm scene Inv ikf hit d)
    (hsound : ∀ T sols q, ikf T = some sols → q ∈ sols → fkf q = T)
    (t : PlanningTask S) (ht : t.scene = some scene) (pq : PQ C Config) (conv : ℝ → ℝ)
    (draws : Nat → Nat → Draws) (time : Nat → ℝ) (fuel : Nat)
    (optimal : List PathPt → Collection S → Nat → List (List ℝ) → Run W O) {method : Option String}
    (hm : method.getD t.method = "grid") {w w' : W} (hw : Inv w) {r : SolveRes C O}
    (hr : PlanningTask.solve t arm pq conv draws time fuel optimal method w = (.ok r, w')) :
    ∃ pr : PlanRes ℝ C, r = .plan pr ∧ (pr.success = true → ∃ path, pr.path = some path ∧
      path.length = t.path.length ∧
      ∀ (i : Nat) (q : Config), path[i]? = some q → ∃ tp Ts q', t.path[i]? = some tp ∧
        getSamples (draws 0 i) t.gridSamples none tp = .ok Ts ∧ q = q'.map conv ∧ hit q' = false ∧
        fkf q' ∈ Ts) := by
  obtain ⟨pr, h1, h2⟩ := C66_reach (Reach := fun q T => fkf q = T) h
    (fun T sols q a b _ => hsound T sols q a b) t ht pq conv draws time fuel optimal hm hw hr
  refine ⟨pr, h1, fun hs => ?_⟩
  obtain ⟨path, e1, e2, e3⟩ := h2 hs
  refine ⟨path, e1, e2, fun i q hq => ?_⟩
  obtain ⟨tp, Ts, q', f1, f2, f3, f4, T, f5, f6⟩ := e3 i q hq
  exact ⟨tp, Ts, q', f1, f2, f3, f4, f6 ▸ f5⟩

/-- The columns that `solve(robot, "grid")` searches are proper when every path point has a
collision-free solution. -/
theorem gridColumns_ok (h : Determined arm scene Inv ikf hit d) {path : List PathPt} (hne : path ≠ [])
    (conv : ℝ → ℝ) {draws : Nat → Draws} {n : Nat} {samples : List (List M4)}
    (hs : SamplesOf draws n path samples)
    (hex : ∀ Ts ∈ samples, ∃ T ∈ Ts, ∃ sols, ikf T = some sols ∧ ∃ q ∈ sols, hit q = false) :
    InputOK d (samples.map fun Ts => colOf conv d (free ikf hit Ts)) := by
  set Q := samples.map fun Ts => colOf conv d (free ikf hit Ts) with hQ
  have hcol : ∀ c ∈ Q, ∃ rows, c = .arr true d rows ∧ rows ≠ [] ∧ ∀ x ∈ rows, x.length = d := by
    intro c hc
    obtain ⟨Ts, hTs, rfl⟩ := List.mem_map.1 hc
    obtain ⟨T, hT, sols, h1, q, h2, h3⟩ := hex Ts hTs
    have hf : free ikf hit Ts ≠ [] :=
      List.ne_nil_of_mem (mem_free.2 ⟨T, hT, sols, h1, h2, h3⟩)
    refine ⟨_, by rw [colOf, if_neg hf], by simpa using hf, fun x hx => ?_⟩
    obtain ⟨q', hq', rfl⟩ := List.mem_map.1 hx
    rw [List.length_map]
    exact free_dof h q' hq'
  refine ⟨?_, fun c hc => ?_, fun _ c hc => ?_⟩
  · intro he
    have : samples = [] := by simpa [hQ] using he
    have h0 := hs.1
    rw [this] at h0
    exact hne (List.length_eq_zero_iff.1 h0.symm)
  · obtain ⟨rows, rfl, h1, h2⟩ := hcol c hc
    exact ⟨rfl, h1, h2⟩
  · obtain ⟨rows, rfl, h1, h2⟩ := hcol c hc
    rfl

/-- **C66**, the other direction: with a non-empty path and a collision-free solution for every path
point, `solve(robot, "grid")` does succeed, with a choice of these solutions and its cost, for every
queue that neither loses nor invents nodes. -/
theorem C66_succeeds (h : Determined arm scene Inv ikf hit d) {pq : PQ C Config} (hl : Lawful pq)
    (hno : PyGraph.NoOverflow C) (hfin : ∀ x y : Config, stepCost C (effWeights C d []) x y < ⊤)
    (t : PlanningTask S) (ht : t.scene = some scene) (hne : t.path ≠ []) (conv : ℝ → ℝ)
    (draws : Nat → Nat → Draws) (time : Nat → ℝ) (fuel : Nat)
    (optimal : List PathPt → Collection S → Nat → List (List ℝ) → Run W O)
    {samples : List (List M4)} (hs : SamplesOf (draws 0) t.gridSamples t.path samples)
    (hex : ∀ Ts ∈ samples, ∃ T ∈ Ts, ∃ sols, ikf T = some sols ∧ ∃ q ∈ sols, hit q = false) :
    ∃ path c, Returns Inv (PlanningTask.solve t arm pq conv draws time fuel optimal (some "grid"))
        (.plan ⟨true, some path, some c⟩) ∧
      costL (stepCost C (effWeights C d [])) path = c := by
  set Q := samples.map fun Ts => colOf conv d (free ikf hit Ts)
  have hin : InputOK d Q := gridColumns_ok h hne conv hs hex
  obtain ⟨p, c, h1, h2, h3⟩ := C11_dijkstra_sound hno pq hl conv d Q hin none
    (effWeights C d []) rfl (fun x _ y _ => hfin x y)
  refine ⟨p, c, ?_, h3⟩
  have hr := noRedundancyLoop_returns h conv (draws 0) t.gridSamples t.path samples 0
    (by simpa using hs) []
  rw [List.nil_append] at hr
  exact (C65_dispatch_partial t ht arm pq conv draws time fuel optimal).1 Q _ hr h1

/-! ## Concrete cases -/

/-- Exact real joint values and costs. -/
instance realJoint : JointArith ℝ (WithTop ℝ) where
  step acc w a b := acc + ((w * (a - b) ^ 2 : ℝ) : WithTop ℝ)
  one := 1

theorem noOverflow_real : PyGraph.NoOverflow (WithTop ℝ) :=
  fun _ _ ha hc => WithTop.add_lt_top.2 ⟨ha, hc⟩

theorem costFrom2_real (acc : WithTop ℝ) (h : acc < ⊤) (w a b : List ℝ) :
    costFrom2 acc w a b < ⊤ := by
  induction w generalizing acc a b with
  | nil => cases a <;> cases b <;> exact h
  | cons w ws ih =>
    cases a with
    | nil => exact h
    | cons a as =>
      cases b with
      | nil => exact h
      | cons b bs => exact ih _ (WithTop.add_lt_top.2 ⟨h, WithTop.coe_lt_top _⟩) as bs

theorem stepCost_real (w x y : List ℝ) : stepCost (WithTop ℝ) w x y < ⊤ :=
  costFrom2_real 0 (WithTop.coe_lt_top 0) w y x

/-- **C65** is false: a task whose only point the robot reaches. -/
theorem C65_refuted : ¬ C65_statement := by
  intro h
  obtain ⟨pt, -, hpt⟩ := fixedPoint 0 0
  let dr : Nat → Nat → Draws := fun _ _ => ⟨fun n => n, 0, fun _ => (0, 0, 0), none⟩
  let opt : List PathPt → Collection Unit → Nat → List (List ℝ) → Run Unit Unit :=
    fun _ _ _ _ => pure ()
  obtain ⟨path, c, h1, -⟩ := C66_succeeds (stripArm_determined 0) (pq := (stdHeap : PQ (WithTop ℝ) _))
    stdHeapLawful noOverflow_real (stepCost_real _)
    (PlanningTask.new [.euler pt] (some ⟨[], []⟩)) rfl (by simp [PlanningTask.new]) id
    dr (fun _ => 0) 0 opt (samples := [[mkTf (Rxyz 0) 0]])
    ⟨rfl, fun i tp Ts h1 h2 => by
      cases i with
      | zero => cases h1; cases h2; exact hpt _ _ _
      | succ i => simp [PlanningTask.new] at h1⟩
    (fun Ts hTs => by
      rw [List.mem_singleton] at hTs
      subst hTs
      exact ⟨_, List.mem_singleton.2 rfl, [[0]], by rw [mkTf_x]; simp, [0], by simp, rfl⟩)
  have h2 := h Unit Unit (WithTop ℝ) (fun _ => True) (stripArm 0) stdHeap id dr (fun _ => 0) 0 opt
    [.euler pt] _ h1
  exact Returns.not_raises (w := ()) trivial h2
    (C65_no_scene (PlanningTask.new [.euler pt] none) rfl (stripArm 0) stdHeap id dr (fun _ => 0) 0 opt
      (m := "grid") (by simp))

/-- The hypotheses of C64 and C64_succeeds can be met: three rounds over one free point. -/
example : ∃ r : IterRes (WithTop ℝ), Returns (fun _ : Unit => True)
    (cartToJointIterative (stripArm 0) stdHeap id
      (fun _ _ => ⟨fun n => n, 0, fun _ => (0, 0, 0), some fun _ _ _ => ⟨1, 0, 0, 0⟩⟩) (fun _ => 0)
      [.free (FreeOrientationPt.new 0)] (⟨[], []⟩ : Collection Unit) 5 3) r ∧ r.success = true := by
  have hq : ∃ o, Quat.ofRotation (rotPart (1 : M4)) = .ok o := by
    rw [← mkTf_one, rotPart_mkTf]
    obtain ⟨o, ho, -⟩ := Quat.ofRotation_spec (R := 1) (by simp [IsRot])
    exact ⟨o, ho⟩
  refine C64_succeeds (fkf := fun _ => 1) (ps := [FreeOrientationPt.new 0]) (stripArm_determined 0)
    (fun q _ => Returns.pure _) (fun _ _ => hq) stdHeapLawful noOverflow_real (stepCost_real _) id
    (by simp) (fun k i tp htp => ?_) _ (by omega)
  have hone : posPart (1 : M4) = 0 := by rw [← mkTf_one, posPart_mkTf]
  have fin : ∀ Ts, LocatedAt 0 5 Ts → ∃ T ∈ Ts, ∃ sols : List Config,
      (if T 0 3 = 0 then some [[(0 : ℝ)]] else none) = some sols ∧ ∃ q ∈ sols, false = false := by
    intro Ts ⟨hl, hT⟩
    obtain ⟨T, Ts, rfl⟩ : ∃ T Ts', Ts = T :: Ts' := List.exists_cons_of_length_eq_add_one hl
    have h0 : T 0 3 = 0 := congrFun (hT T (by simp)).2 0
    exact ⟨T, by simp, [[0]], by rw [if_pos h0], [0], by simp, rfl⟩
  rcases htp with ⟨p, hp, rfl⟩ | ⟨q, o, -, -, rfl⟩
  · have : p = FreeOrientationPt.new 0 := by
      cases i with
      | zero => exact (Option.some.inj hp).symm
      | succ i => simp at hp
    subst this
    obtain ⟨Ts, h1, h2⟩ := C50_random (fun n => n) 0 (rnd := fun _ => (0, 0, 0))
      (fun i => by simp [InUnit]) 0 5 (m := none) (Or.inl rfl)
    exact ⟨Ts, by unfold getSamples; simp only [h1]; rfl, fin Ts h2⟩
  · obtain ⟨Ts, h1, h2, -⟩ := C50_tolOrientation (f := fun _ _ _ => ⟨1, 0, 0, 0⟩)
      (pt := ⟨posPart (1 : M4), o⟩) (Real.pi / 4 / 2 ^ k) (fun i => by simp [Quat.norm2]) 5
    rw [hone] at h2
    exact ⟨Ts, by unfold getSamples; simp only [Option.getD_some, h1]; rfl, fin Ts h2⟩

end

end Verif.Props
