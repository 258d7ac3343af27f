import Verif.Props.Optimization
import Verif.Props.ShortestPath

/-! # C70 (search), C77, C78: results of `get_optimal_path` -/

set_option linter.unusedSectionVars false

namespace Verif.Props

open Matrix Verif Verif.Geometry Verif.Kin Verif.Path Verif.Optimization Verif.CppGraph
  Verif.ShortestPath Verif.Spec

noncomputable section

/-! ## C70 against the graph search -/

theorem selection_rows {conv : ℝ → ℝ} {n : Nat} {Q : List (PyCol ℝ)} (hQ : InputOK n Q)
    {p : List (List ℝ)} (h : IsSelection (Q.map (asFloat32 conv)) p) : ∀ row ∈ p, row.length = n := by
  have hcol : ∀ col ∈ Q.map (asFloat32 conv), ∀ r ∈ col, r.length = n := by
    intro col hc
    obtain ⟨c, hc', rfl⟩ := List.mem_map.1 hc
    exact (asFloat32_proper conv (hQ.col c hc')).2
  generalize Q.map (asFloat32 conv) = cols at h hcol
  clear hQ
  unfold IsSelection at h
  induction h with
  | nil => simp
  | cons h1 _ ih =>
    intro row hr
    rcases List.mem_cons.1 hr with rfl | hr
    · exact hcol _ List.mem_cons_self _ h1
    · exact ih (fun col hc => hcol col (List.mem_cons_of_mem _ hc)) row hr

theorem selection_exists {conv : ℝ → ℝ} {n : Nat} {Q : List (PyCol ℝ)} (hQ : InputOK n Q) :
    ∃ p, IsSelection (Q.map (asFloat32 conv)) p := by
  have hcol : ∀ col ∈ Q.map (asFloat32 conv), col ≠ [] := by
    intro col hc
    obtain ⟨c, hc', rfl⟩ := List.mem_map.1 hc
    exact (asFloat32_proper conv (hQ.col c hc')).1
  generalize Q.map (asFloat32 conv) = cols at hcol
  induction cols with
  | nil => exact ⟨[], .nil⟩
  | cons c cs ih =>
    obtain ⟨p, hp⟩ := ih fun col hc => hcol col (List.mem_cons_of_mem _ hc)
    obtain ⟨x, hx⟩ := List.exists_mem_of_ne_nil _ (hcol c List.mem_cons_self)
    exact ⟨x :: p, .cons hx hp⟩

/-- **C70**, both planners side by side, with exact arithmetic: `get_shortest_path` without weights
succeeds, the cost that it reports is the objective of `get_optimal_path` for the path that it
returns, and no other choice of one configuration per column has a smaller objective. -/
theorem C70_search (pq : PQ (WithTop ℝ) (List ℝ)) (conv : ℝ → ℝ) (n : Nat) (hn : 0 < n)
    (Q : List (PyCol ℝ)) (hQ : InputOK n Q) :
    ∃ path, getShortestPath pq conv Q .bfs none =
        .ok ⟨true, some path, some ((objective path : ℝ) : WithTop ℝ)⟩ ∧
      IsSelection (Q.map (asFloat32 conv)) path ∧
      ∀ p, IsSelection (Q.map (asFloat32 conv)) p → objective path ≤ objective p := by
  have hc : ∀ p, IsSelection (Q.map (asFloat32 conv)) p →
      costL (stepCost (WithTop ℝ) (effWeights (WithTop ℝ) n ([] : List ℝ))) p =
        ((objective p : ℝ) : WithTop ℝ) := fun p hp => C70 n hn p (selection_rows hQ hp)
  obtain ⟨p0, hp0⟩ := selection_exists (conv := conv) hQ
  obtain ⟨path, c, h1, h2, h3, h4⟩ := C10_bfs_optimal pq conv n Q hQ none _ rfl
    ⟨p0, hp0, by
      have := hc p0 hp0
      rw [show (none : Option (List ℝ)).getD [] = [] from rfl, this]
      exact WithTop.coe_lt_top _⟩
  have h3' := (hc path h2).symm.trans h3
  refine ⟨path, by rw [h3']; exact h1, h2, fun p hp => ?_⟩
  have h5 := h4 p hp
  rw [← h3'] at h5
  exact WithTop.coe_le_coe.1 (h5.trans_eq (hc p hp))

/-! ## The program, taken apart -/

theorem fkLoopCasadi_length {S : Type} (ls : List (Link S)) (q : List ℝ) (T : M4) :
    (ls.length ≤ q.length → ∃ fs, fkLoopCasadi ls q T = .ok fs ∧ fs.length = ls.length) ∧
    (q.length < ls.length → fkLoopCasadi ls q T = .error .indexError) := by
  induction ls generalizing q T with
  | nil => exact ⟨fun _ => ⟨[], rfl, rfl⟩, fun h => absurd h (by simp)⟩
  | cons l ls ih =>
    cases q with
    | nil => exact ⟨fun h => absurd h (by simp), fun _ => rfl⟩
    | cons x q =>
      obtain ⟨h1, h2⟩ := ih q (T * l.relTfCasadi x)
      constructor
      · intro h
        obtain ⟨fs, e, hl⟩ := h1 (by simpa using h)
        refine ⟨T * l.relTfCasadi x :: fs, ?_, by simp [hl]⟩
        rw [fkLoopCasadi, e]
        rfl
      · intro h
        rw [fkLoopCasadi, h2 (by simpa using h)]
        rfl

theorem fkCasadi_ok (r : Robot Shape) {q : List ℝ} (h : r.links.length ≤ q.length) :
    ∃ T, r.fkCasadi q = .ok T := by
  obtain ⟨fs, e, -⟩ := (fkLoopCasadi_length r.links q r.tfBase).1 h
  unfold Robot.fkCasadi
  rw [e]
  cases r.tool <;> exact ⟨_, rfl⟩

theorem fkCasadi_short (r : Robot Shape) {q : List ℝ} (h : q.length < r.links.length) :
    r.fkCasadi q = .error .indexError := by
  unfold Robot.fkCasadi
  rw [(fkLoopCasadi_length r.links q r.tfBase).2 h]
  rfl

/-- `p` is the position of a path point of one of the two classes that have such an attribute. -/
def PositionOf (tp : PathPt) (p : V3) : Prop :=
  (∃ pt, tp = .free pt ∧ p = pt.p) ∨ ∃ pt, tp = .orientation pt ∧ p = pt.p

theorem pointP_ok {tp : PathPt} {p : V3} : pointP tp = .ok p ↔ PositionOf tp p := by
  cases tp <;> simp [pointP, PositionOf, eq_comm]

theorem mapM_pointP_ok {path : List PathPt} {xyz : List V3} (h : path.mapM pointP = .ok xyz) :
    xyz.length = path.length ∧ ∀ (i : Nat) (tp : PathPt), path[i]? = some tp →
      ∃ p, xyz[i]? = some p ∧ pointP tp = .ok p := by
  induction path generalizing xyz with
  | nil =>
    cases h
    exact ⟨rfl, by simp⟩
  | cons a path ih =>
    rw [List.mapM_cons] at h
    cases hp : pointP a with
    | error e => rw [hp] at h; cases h
    | ok p =>
      rw [hp] at h
      cases hm : path.mapM pointP with
      | error e => rw [hm] at h; cases h
      | ok ps =>
        rw [hm] at h
        cases h
        obtain ⟨h1, h2⟩ := ih hm
        refine ⟨by simp [h1], fun i tp hi => ?_⟩
        cases i with
        | zero => cases hi; exact ⟨p, rfl, hp⟩
        | succ i => exact h2 i tp hi

theorem mapM_pointP_of {path : List PathPt} (h : ∀ tp ∈ path, ∃ p, pointP tp = .ok p) :
    ∃ xyz, path.mapM pointP = .ok xyz := by
  induction path with
  | nil => exact ⟨[], rfl⟩
  | cons a path ih =>
    obtain ⟨p, hp⟩ := h a List.mem_cons_self
    obtain ⟨ps, hm⟩ := ih fun tp ht => h tp (List.mem_cons_of_mem _ ht)
    exact ⟨p :: ps, by rw [List.mapM_cons, hp, hm]; rfl⟩

theorem mapM_pointP_error {path : List PathPt} {tp : PathPt} (ht : tp ∈ path)
    (h : pointP tp = .error .attributeError) : path.mapM pointP = .error .attributeError := by
  induction path with
  | nil => simp at ht
  | cons a path ih =>
    rw [List.mapM_cons]
    rcases List.mem_cons.1 ht with rfl | ht
    · rw [h]
      rfl
    · rw [ih ht]
      cases a <;> rfl

theorem pathCc_ok (r : Robot Shape) {xyz : List V3} {qs : List (List ℝ)} {cons : List Prop}
    (h : pathCc r xyz qs = .ok cons) (hc : ∀ c ∈ cons, c) (i : Nat) (x : V3) (q : List ℝ)
    (hx : xyz[i]? = some x) (hq : qs[i]? = some q) : ∃ T, r.fkCasadi q = .ok T ∧ posPart T = x := by
  induction xyz generalizing qs cons i with
  | nil => simp at hx
  | cons y xyz ih =>
    cases qs with
    | nil => simp at hq
    | cons q0 qs =>
      rw [pathCc] at h
      cases hf : r.fkCasadi q0 with
      | error e => rw [hf] at h; cases h
      | ok T =>
        rw [hf] at h
        cases hr : pathCc r xyz qs with
        | error e => rw [hr] at h; cases h
        | ok c' =>
          rw [hr] at h
          cases h
          cases i with
          | zero =>
            cases hx
            cases hq
            refine ⟨T, hf, ?_⟩
            have h0 := hc (x 0 = T 0 3) (by simp)
            have h1 := hc (x 1 = T 1 3) (by simp)
            have h2 := hc (x 2 = T 2 3) (by simp)
            funext k
            fin_cases k
            · exact h0.symm
            · exact h1.symm
            · exact h2.symm
          | succ i => exact ih hr (fun c hc' => hc c (by simp [hc'])) i hx hq

theorem pathCc_of (r : Robot Shape) (xyz : List V3) (qs : List (List ℝ))
    (hl : xyz.length ≤ qs.length) (hq : ∀ q ∈ qs, r.links.length ≤ q.length) :
    ∃ cons, pathCc r xyz qs = .ok cons ∧ ((∀ (i : Nat) (x : V3) (q : List ℝ), xyz[i]? = some x →
      qs[i]? = some q → ∃ T, r.fkCasadi q = .ok T ∧ posPart T = x) → ∀ c ∈ cons, c) := by
  induction xyz generalizing qs with
  | nil => exact ⟨[], rfl, by simp⟩
  | cons y xyz ih =>
    cases qs with
    | nil => simp at hl
    | cons q0 qs =>
      obtain ⟨T, hT⟩ := fkCasadi_ok r (hq q0 List.mem_cons_self)
      obtain ⟨cons, h1, h2⟩ := ih qs (by simpa using hl) fun q h => hq q (List.mem_cons_of_mem _ h)
      refine ⟨[y 0 = T 0 3, y 1 = T 1 3, y 2 = T 2 3] ++ cons, ?_, fun h c hc => ?_⟩
      · rw [pathCc, hT, h1]
        rfl
      · rcases List.mem_append.1 hc with hc | hc
        · obtain ⟨T', hT', hp⟩ := h 0 y q0 rfl rfl
          rw [hT] at hT'
          cases hT'
          have hk : ∀ k : Fin 3, y k = T k.castSucc 3 := fun k => (congrFun hp k).symm
          simp only [List.mem_cons, List.not_mem_nil, or_false] at hc
          rcases hc with rfl | rfl | rfl
          · exact hk 0
          · exact hk 1
          · exact hk 2
        · exact h2 (fun i x q hx hq => h (i + 1) x q hx hq) c hc

theorem ccLoop_ok {r : Robot Shape} {pr ps : List Polyhedron} {lam mu : Nat → Mult}
    {qs : List (List ℝ)} {k0 : Nat} {cons : List Prop} (h : ccLoop r pr ps lam mu k0 qs = .ok cons)
    (hc : ∀ c ∈ cons, c) (k : Nat) (q : List ℝ) (hq : qs[k]? = some q) :
    ∃ c', ccForJointPose r pr ps q (lam (k0 + k)) (mu (k0 + k)) = .ok c' ∧ ∀ c ∈ c', c := by
  induction qs generalizing k0 k cons with
  | nil => simp at hq
  | cons q0 qs ih =>
    rw [ccLoop] at h
    cases hf : ccForJointPose r pr ps q0 (lam k0) (mu k0) with
    | error e => rw [hf] at h; cases h
    | ok c1 =>
      rw [hf] at h
      cases hr : ccLoop r pr ps lam mu (k0 + 1) qs with
      | error e => rw [hr] at h; cases h
      | ok c2 =>
        rw [hr] at h
        cases h
        cases k with
        | zero =>
          cases hq
          exact ⟨c1, hf, fun c h => hc c (List.mem_append_left _ h)⟩
        | succ k =>
          have := ih hr (fun c h => hc c (List.mem_append_right _ h)) k hq
          rwa [show k0 + 1 + k = k0 + (k + 1) by omega] at this

theorem ccLoop_of {r : Robot Shape} {pr ps : List Polyhedron} {lam mu : Nat → Mult}
    (qs : List (List ℝ)) (k0 : Nat)
    (h : ∀ (k : Nat) (q : List ℝ), qs[k]? = some q →
      ∃ c', ccForJointPose r pr ps q (lam (k0 + k)) (mu (k0 + k)) = .ok c') :
    ∃ cons, ccLoop r pr ps lam mu k0 qs = .ok cons ∧
      ((∀ (k : Nat) (q : List ℝ), qs[k]? = some q →
        ∃ c', ccForJointPose r pr ps q (lam (k0 + k)) (mu (k0 + k)) = .ok c' ∧ ∀ c ∈ c', c) →
        ∀ c ∈ cons, c) := by
  induction qs generalizing k0 with
  | nil => exact ⟨[], rfl, by simp⟩
  | cons q0 qs ih =>
    obtain ⟨c1, h1⟩ := h 0 q0 rfl
    obtain ⟨c2, h2, h3⟩ := ih (k0 + 1) fun k q hq => by
      rw [show k0 + 1 + k = k0 + (k + 1) by omega]
      exact h (k + 1) q hq
    have h1' : ccForJointPose r pr ps q0 (lam k0) (mu k0) = .ok c1 := h1
    have hl : ccLoop r pr ps lam mu k0 (q0 :: qs) = .ok (c1 ++ c2) := by
      rw [ccLoop, h1', h2]
      rfl
    refine ⟨c1 ++ c2, hl, fun hh c hc => ?_⟩
    rcases List.mem_append.1 hc with hc | hc
    · obtain ⟨c', e, hc'⟩ := hh 0 q0 rfl
      rw [h1] at e
      cases e
      exact hc' c hc
    · refine h3 (fun k q hq => ?_) c hc
      rw [show k0 + 1 + k = k0 + (k + 1) by omega]
      exact hh (k + 1) q hq

/-- Building the program succeeds, and its constraints hold, for these values. -/
def Feasible (prob : Vars → Except PyErr (List Prop × ℝ)) (v : Vars) : Prop :=
  ∃ cons obj, prob v = .ok (cons, obj) ∧ ∀ c ∈ cons, c

theorem feasible_parts {path : List PathPt} {r : Robot Shape} {scene : Option (Collection Shape)}
    {v : Vars} (h : Feasible (problem path r scene) v) :
    (∃ xyz cons, path.mapM pointP = .ok xyz ∧ pathCc r xyz v.q = .ok cons ∧ ∀ c ∈ cons, c) ∧
    ∀ s, scene = some s → ∃ cons, createCc r s v = .ok cons ∧ ∀ c ∈ cons, c := by
  obtain ⟨cons, obj, h, hc⟩ := h
  unfold problem at h
  cases hx : path.mapM pointP with
  | error e => rw [hx] at h; cases h
  | ok xyz =>
    rw [hx] at h
    cases scene with
    | none =>
      cases hp : pathCc r xyz v.q with
      | error e => simp only [bind, Except.bind, hp] at h; cases h
      | ok pc =>
        simp only [bind, Except.bind, hp] at h
        cases h
        exact ⟨⟨xyz, pc, rfl, hp, fun c h => hc c (by simpa using h)⟩, by simp⟩
    | some s =>
      cases hs : createCc r s v with
      | error e => simp only [bind, Except.bind, hs] at h; cases h
      | ok cc =>
        cases hp : pathCc r xyz v.q with
        | error e => simp only [bind, Except.bind, hs, hp] at h; cases h
        | ok pc =>
          simp only [bind, Except.bind, hs, hp] at h
          cases h
          refine ⟨⟨xyz, pc, rfl, hp, fun c h => hc c (List.mem_append_right _ h)⟩, ?_⟩
          rintro s' ⟨⟩
          exact ⟨cc, hs, fun c h => hc c (List.mem_append_left _ h)⟩

theorem createCc_pose {r : Robot Shape} {s : Collection Shape} {v : Vars} {cons : List Prop}
    (h : createCc r s v = .ok cons) (hc : ∀ c ∈ cons, c) (k : Nat) (q : List ℝ)
    (hq : v.q[k]? = some q) : PoseFeasible r q s := by
  unfold createCc at h
  cases hp : pyGet (polyRobotOf r) 0 with
  | error e => simp only [bind, Except.bind, hp] at h; cases h
  | ok P =>
    simp only [bind, Except.bind, hp] at h
    obtain ⟨c', h1, h2⟩ := ccLoop_ok h hc k q hq
    exact ⟨_, _, c', h1, h2⟩

/-- Building the program succeeds. -/
theorem problem_zero {path : List PathPt} (hp : ∀ tp ∈ path, ∃ p, pointP tp = .ok p) {r : Robot Shape}
    (h6 : r.links.length = 6) (h1 : OneShape r) (scene : Option (Collection Shape)) :
    ∃ x, problem path r scene (Vars.zero path.length) = .ok x := by
  have hrow : ∀ q ∈ List.replicate path.length (List.replicate 6 (0 : ℝ)), r.links.length ≤ q.length := by
    intro q hq
    rw [List.eq_of_mem_replicate hq, h6]
    simp
  obtain ⟨xyz, hx⟩ := mapM_pointP_of hp
  have hxl := (mapM_pointP_ok hx).1
  obtain ⟨pc, hpc, -⟩ := pathCc_of r xyz (Vars.zero path.length).q (by simp [Vars.zero, hxl]) hrow
  unfold problem
  cases scene with
  | none => exact ⟨_, by simp only [hx, bind, Except.bind, hpc]; rfl⟩
  | some s =>
    have hcc : ∃ cc, createCc r s (Vars.zero path.length) = .ok cc := by
      unfold createCc
      have hlen := (polyRobotOf_one h1).1
      rw [h6] at hlen
      have hg : pyGet (polyRobotOf r) 0 = .ok ((polyRobotOf r)[0]'(by omega)) := by
        rw [pyGet, List.getElem?_eq_getElem (by omega)]
      simp only [hg, bind, Except.bind]
      obtain ⟨cc, e, -⟩ := ccLoop_of (r := r) (pr := polyRobotOf r) (ps := s.getPolyhedrons)
        (lam := (Vars.zero path.length).lam) (mu := (Vars.zero path.length).mu)
        (Vars.zero path.length).q 0 fun k q hq => by
          obtain ⟨fs, hfs, hfl⟩ := (fkLoopCasadi_length r.links q r.tfBase).1
            (hrow q (List.mem_of_getElem? hq))
          obtain ⟨c, e, -⟩ := ccPose_ok (r := r) (polyRobot := polyRobotOf r) s.getPolyhedrons
            ((Vars.zero path.length).lam (0 + k)) ((Vars.zero path.length).mu (0 + k)) hfs
            (by omega)
          exact ⟨c, e⟩
      exact ⟨cc, e⟩
    obtain ⟨cc, hcc⟩ := hcc
    exact ⟨_, by simp only [hx, bind, Except.bind, hcc, hpc]; rfl⟩

/-! ## C77 -/

/-- The contract of the solver: values reported with success have the right shape and meet the
constraints. -/
def SolverOK (solver : Solver) : Prop := ∀ prob qInit maxIters v,
  solver prob qInit maxIters = .ok (true, v) →
    v.q.length = qInit.length ∧ (∀ row ∈ v.q, row.length = 6) ∧ Feasible prob v

/-- The path and the robot keep their promises at every point: the position is reached, and
`is_in_collision` is False, after every history of calls. -/
def GoodResult (path : List PathPt) (r : Robot Shape) (scene : Option (Collection Shape))
    (q : List (List ℝ)) : Prop :=
  q.length = path.length ∧ ∀ (i : Nat) (qi : List ℝ) (tp : PathPt), q[i]? = some qi →
    path[i]? = some tp → ∀ history : List (Call Shape), (∀ c ∈ history, c.robot.links = r.links) →
      (∃ T p, PositionOf tp p ∧ (r.fk (after boxOracle r.links history) qi).1 = .ok T ∧
        posPart T = p) ∧
      ∀ s, scene = some s →
        (r.isInCollision boxOracle (after boxOracle r.links history) qi s).1 = .ok false

/-- The full property. -/
def C77_statement : Prop := ∀ (solver : Solver) (path : List PathPt) (r : Robot Shape)
  (scene : Option (Collection Shape)) (qInit : Option (List (List ℝ))) (maxIters : Nat)
  (q : List (List ℝ)), SolverOK solver → KnownTypes r.links → r.collisionMatrix = bandMatrix →
  RigidRobot r → (∀ s, scene = some s → ∀ tf ∈ s.tfS, IsRigid tf) →
  getOptimalPath solver path r scene qInit maxIters = .ok ⟨true, some q⟩ →
  GoodResult path r scene q

/-- What a result of `get_optimal_path` says about the solver. -/
theorem getOptimalPath_success {solver : Solver} (hs : SolverOK solver) {path : List PathPt}
    {r : Robot Shape} {scene : Option (Collection Shape)} {qInit : Option (List (List ℝ))}
    {maxIters : Nat} {q : List (List ℝ)}
    (h : getOptimalPath solver path r scene qInit maxIters = .ok ⟨true, some q⟩) :
    ∃ v : Vars, v.q = q ∧ v.Shaped path.length ∧ Feasible (problem path r scene) v := by
  unfold getOptimalPath at h
  simp only at h
  cases hp : problem path r scene (Vars.zero path.length) with
  | error e => rw [hp] at h; cases h
  | ok x =>
    rw [hp] at h
    generalize hq0 : qInit.getD (List.replicate path.length (List.replicate r.links.length 0)) = q0
      at h
    by_cases hsh : q0.length = path.length ∧ ∀ row ∈ q0, row.length = 6
    · simp only [bind, Except.bind] at h
      rw [if_pos hsh] at h
      cases hr : solver (problem path r scene) q0 maxIters with
      | error e => rw [hr] at h; cases h
      | ok res =>
        rw [hr] at h
        obtain ⟨b, v⟩ := res
        cases b with
        | false => cases h
        | true =>
          cases h
          obtain ⟨h1, h2, h3⟩ := hs _ _ _ _ hr
          exact ⟨v, rfl, ⟨h1.trans hsh.1, h2⟩, h3⟩
    · simp only [bind, Except.bind] at h
      rw [if_neg hsh] at h
      cases h

theorem touch_boxes {c d : Collection Shape} {A B : M4} : Touch boxOracle c A d B ↔
    ∃ (i j : Nat) (s s' : Shape) (t t' : M4), c.s[i]? = some s ∧ c.tfS[i]? = some t ∧
      d.s[j]? = some s' ∧ d.tfS[j]? = some t' ∧ ∃ u ∈ boxPoints s, ∃ v ∈ boxPoints s',
        act (A * t) u = act (B * t') v := by
  unfold Touch
  simp only [boxOracle_iff]
  rfl

/-- A link that keeps away does not touch. -/
theorem keepAway_no_touch {r : Robot Shape} {q : List ℝ} {scene : Collection Shape}
    (h : LinksKeepAway r q scene) (i : Nat) (l : Link Shape) (hi : r.links[i]? = some l) :
    ¬ Touch boxOracle l.geometry (frameOf r q i) scene 1 := by
  rw [touch_boxes]
  rintro ⟨a, j, s, o, tf, tfo, h1, h2, h3, h4, u, hu, v, hv, e⟩
  rw [one_mul] at e
  exact not_keepAway_of_touch hi h1 h2 h3 h4 hu hv e h

/-- **C77**, what holds, for robots with revolute joints and one shape per link: one row of six per
path point, the robot reaches the position of every point, every link keeps the margin from the
scene, and `is_in_collision` can only be True because of the base, the tool or a self-collision.
Missing: these three (`C77_refuted`, `C77_self`), other numbers of shapes and prismatic joints. -/
theorem C77_partial {solver : Solver} (hs : SolverOK solver) {path : List PathPt} {r : Robot Shape}
    (hr : ∀ l ∈ r.links, l.jointType = .r) (h1 : OneShape r) (hrig : RigidRobot r)
    (hc : r.collisionMatrix = bandMatrix) {scene : Option (Collection Shape)}
    (hsc : ∀ s, scene = some s → ∀ tf ∈ s.tfS, IsRigid tf) {qInit : Option (List (List ℝ))}
    {maxIters : Nat} {q : List (List ℝ)}
    (h : getOptimalPath solver path r scene qInit maxIters = .ok ⟨true, some q⟩)
    (h0 : r.tool = none ∨ 0 < r.links.length) :
    q.length = path.length ∧ ∀ (i : Nat) (qi : List ℝ) (tp : PathPt), q[i]? = some qi →
      path[i]? = some tp → qi.length = 6 ∧ ∀ history : List (Call Shape),
        (∀ c ∈ history, c.robot.links = r.links) →
        (∃ T p, PositionOf tp p ∧ (r.fk (after boxOracle r.links history) qi).1 = .ok T ∧
          posPart T = p) ∧
        ∀ s, scene = some s → LinksKeepAway r qi s ∧
          ∃ b, (r.isInCollision boxOracle (after boxOracle r.links history) qi s).1 = .ok b ∧
            (b = true ↔ (∃ base, r.geometryBase = some base ∧ Touch boxOracle base r.tfBase s 1) ∨
              (∃ tool, r.tool = some tool ∧ Touch boxOracle tool.toCollection
                (frameOf r qi (r.links.length - 1)) s 1) ∨
              (r.doCheckSelfCollision = true ∧ SelfTouch boxOracle r qi)) := by
  obtain ⟨v, rfl, ⟨hlen, hrow⟩, hf⟩ := getOptimalPath_success hs h
  obtain ⟨⟨xyz, cons, hx, hp, hpc⟩, hcc⟩ := feasible_parts hf
  refine ⟨hlen, fun i qi tp hqi htp => ?_⟩
  have h6 := hrow qi (List.mem_of_getElem? hqi)
  obtain ⟨p, hxi, hpp⟩ := (mapM_pointP_ok hx).2 i tp htp
  obtain ⟨T, hT, hpos⟩ := pathCc_ok r hp hpc i p qi hxi hqi
  have hq : r.links.length ≤ qi.length := by
    by_contra hcon
    rw [fkCasadi_short r (by omega)] at hT
    cases hT
  refine ⟨h6, fun history hh => ⟨⟨T, p, pointP_ok.1 hpp, ?_, hpos⟩, fun s hs' => ?_⟩⟩
  · rw [← (C32_casadi_partial boxOracle r hr history hh qi).1, hT]
  · obtain ⟨cons', hcr, hcc'⟩ := hcc s hs'
    have hka := (C69_partial hr h1 hrig (hsc s hs') hq).1 (createCc_pose hcr hcc' i qi hqi)
    refine ⟨hka, ?_⟩
    obtain ⟨b, hb, hiff⟩ := C33_answer boxOracle r (fun l hl => Or.inl (hr l hl)) hc h0 history hh qi
      hq s
    refine ⟨b, hb, hiff.trans ?_⟩
    unfold SceneTouch
    constructor
    · rintro ((h | ⟨k, l, hl, ht⟩ | h) | h)
      · exact Or.inl h
      · exact absurd ht (keepAway_no_touch hka k l hl)
      · exact Or.inr (Or.inl h)
      · exact Or.inr (Or.inr h)
    · rintro (h | h | h)
      · exact Or.inl (Or.inl h)
      · exact Or.inl (Or.inr (Or.inr h))
      · exact Or.inr h

/-- **C77** in full for robots without base shapes and tool that do not check self-collisions. -/
theorem C77_plain_partial {solver : Solver} (hs : SolverOK solver) {path : List PathPt}
    {r : Robot Shape} (hr : ∀ l ∈ r.links, l.jointType = .r) (h1 : OneShape r) (hrig : RigidRobot r)
    (hc : r.collisionMatrix = bandMatrix) (hb : r.geometryBase = none) (ht : r.tool = none)
    (hd : r.doCheckSelfCollision = false) {scene : Option (Collection Shape)}
    (hsc : ∀ s, scene = some s → ∀ tf ∈ s.tfS, IsRigid tf) {qInit : Option (List (List ℝ))}
    {maxIters : Nat} {q : List (List ℝ)}
    (h : getOptimalPath solver path r scene qInit maxIters = .ok ⟨true, some q⟩) :
    GoodResult path r scene q := by
  obtain ⟨hl, hh⟩ := C77_partial hs hr h1 hrig hc hsc h (Or.inl ht)
  refine ⟨hl, fun i qi tp hqi htp history hist => ?_⟩
  obtain ⟨h2, h3⟩ := (hh i qi tp hqi htp).2 history hist
  refine ⟨h2, fun s hs' => ?_⟩
  obtain ⟨b, e, hiff⟩ := (h3 s hs').2
  rw [e]
  cases b with
  | false => rfl
  | true =>
    rw [hb, ht, hd] at hiff
    simp at hiff

/-! ### Witnesses -/

open Classical in
/-- A solver that knows one answer and reports it if it is feasible. -/
def oracleSolver (v : Vars) : Solver := fun prob qInit _ =>
  if v.q.length = qInit.length ∧ (∀ row ∈ v.q, row.length = 6) ∧ Feasible prob v then .ok (true, v)
  else .error .runtimeError

theorem oracleSolver_ok (v : Vars) : SolverOK (oracleSolver v) := by
  intro prob qInit n w h
  unfold oracleSolver at h
  by_cases hc : v.q.length = qInit.length ∧ (∀ row ∈ v.q, row.length = 6) ∧ Feasible prob v
  · rw [if_pos hc] at h
    cases h
    exact hc
  · rw [if_neg hc] at h
    cases h

/-- Six unit boxes at the origin, turning about the same axis. -/
def pileLink : Link Shape := ⟨⟨0, 0, 0, 0⟩, .r, ⟨[⟨1, 1, 1⟩], [1]⟩⟩

def pile : Robot Shape := Robot.new (List.replicate 6 pileLink)

theorem pile_revolute : ∀ l ∈ pile.links, l.jointType = .r := by
  intro l hl
  rw [List.eq_of_mem_replicate hl]
  rfl

theorem pile_one : OneShape pile := by
  intro l hl
  rw [List.eq_of_mem_replicate hl]
  exact ⟨_, _, rfl⟩

theorem pile_rigid : RigidRobot pile := by
  refine ⟨IsRigid.one, fun l hl tf htf => ?_⟩
  rw [List.eq_of_mem_replicate hl] at htf
  rw [List.mem_singleton.1 htf]
  exact IsRigid.one

/-- A link with all parameters zero turns about its axis. -/
theorem pile_chain (n m : Nat) : linkProduct (List.replicate n pileLink) (List.replicate m 0) = 1 := by
  unfold linkProduct
  have : ∀ n m : Nat, (List.zipWith dhOf (List.replicate n pileLink) (List.replicate m (0 : ℝ))).prod =
      (1 : M4) := by
    intro n
    induction n with
    | zero => intro m; simp
    | succ n ih =>
      intro m
      cases m with
      | zero => simp
      | succ m =>
        rw [List.replicate_succ, List.replicate_succ, List.zipWith_cons_cons, List.prod_cons, ih,
          mul_one]
        simp [dhOf, pileLink, dhProduct_eq, dhMat]
        ext i j; fin_cases i <;> fin_cases j <;> simp
  exact this n m

theorem pile_frame (k : Nat) : frameOf pile (List.replicate 6 0) k = 1 := by
  unfold frameOf
  rw [show pile.links = List.replicate 6 pileLink from rfl, List.take_replicate, List.take_replicate,
    pile_chain]
  exact one_mul _

/-- A path of one point, the origin. -/
def originPath : List PathPt := [.free (.new 0)]

/-- The origin is reached and no link is near the box at height five. -/
theorem pile_feasible (r : Robot Shape) (h : r.links = pile.links) (hb : r.tfBase = 1)
    (ht : r.tool = none) : ∃ v : Vars, v.q = [List.replicate 6 0] ∧
      Feasible (problem originPath r (some (unitAt 5))) v := by
  have hkeep : LinksKeepAway pile (List.replicate 6 0) (unitAt 5) := by
    intro i a j l s o tf tfo hi hsa htf ho htfo
    have hl : l = pileLink := List.eq_of_mem_replicate (List.mem_of_getElem? hi)
    subst hl
    have hs := List.mem_singleton.1 (List.mem_of_getElem? hsa)
    have htf := List.mem_singleton.1 (List.mem_of_getElem? htf)
    have ho := List.mem_singleton.1 (List.mem_of_getElem? ho)
    have htfo := List.mem_singleton.1 (List.mem_of_getElem? htfo)
    subst hs htf ho htfo
    rw [pile_frame, one_mul]
    exact far_boxes (fun u => by rw [act_one]) (fun v => act_lift 5 v) (by norm_num)
  have hrigs : ∀ tf ∈ (unitAt 5).tfS, IsRigid tf := by
    intro tf htf
    rw [List.mem_singleton.1 htf]
    exact isRigid_mkTf.2 IsRot.one
  have hlen : pile.links.length ≤ (List.replicate 6 (0 : ℝ)).length := by
    simp [pile, Robot.new]
  obtain ⟨lam, mu, cons, h1, h2⟩ := (C69_partial pile_revolute pile_one pile_rigid hrigs hlen).2 hkeep
  have hcc : ∀ q lamk muk, ccForJointPose r (polyRobotOf r) (unitAt 5).getPolyhedrons q lamk muk =
      ccForJointPose pile (polyRobotOf pile) (unitAt 5).getPolyhedrons q lamk muk := by
    intro q lamk muk
    unfold ccForJointPose Robot.fkAllLinksCasadi polyRobotOf
    rw [h, hb]
    rfl
  have hfk : r.fkCasadi (List.replicate 6 0) = .ok 1 := by
    have e1 := (C32_casadi_partial boxOracle r (by rw [h]; exact pile_revolute) [] (by simp)
      (List.replicate 6 0)).1
    rw [e1, C31_fk boxOracle r (fun l hl => Or.inl (pile_revolute l (by rwa [← h]))) [] (by simp) _
      (by rw [h]; exact hlen), hb, ht, h, show pile.links = List.replicate 6 pileLink from rfl,
      pile_chain]
    simp
  obtain ⟨pc, hp1, hp2⟩ := pathCc_of r [0] [List.replicate 6 0] le_rfl (by
    intro q hq
    rw [List.mem_singleton.1 hq, h]
    exact hlen)
  refine ⟨⟨[List.replicate 6 0], fun _ => lam, fun _ => mu⟩, rfl, (cons ++ []) ++ pc,
    objective [List.replicate 6 0], ?_,
    ?_⟩
  · unfold problem
    have hm : originPath.mapM pointP = .ok [0] := rfl
    have hc : createCc r (unitAt 5) ⟨[List.replicate 6 0], fun _ => lam, fun _ => mu⟩ =
        .ok (cons ++ []) := by
      unfold createCc
      have hg : pyGet (polyRobotOf r) 0 = .ok ((⟨1, 1, 1⟩ : Shape).getPolyhedron 1) := by
        unfold polyRobotOf
        rw [h]
        rfl
      simp only [hg, bind, Except.bind, ccLoop, hcc, h1]
    simp only [hm, bind, Except.bind, hc, hp1]
  · intro c hc
    rcases List.mem_append.1 hc with hc | hc
    · exact h2 c (by simpa using hc)
    · refine hp2 (fun i x q hx hq => ?_) c hc
      have hi : i = 0 := by
        have := (List.getElem?_eq_some_iff.1 hx).1
        simpa using this
      subst hi
      cases hx
      cases hq
      refine ⟨1, hfk, ?_⟩
      funext k
      fin_cases k <;> simp [posPart]

theorem pile_result (r : Robot Shape) (h : r.links = pile.links) (hb : r.tfBase = 1)
    (ht : r.tool = none) : ∃ solver, SolverOK solver ∧
      getOptimalPath solver originPath r (some (unitAt 5)) none 100 =
        .ok ⟨true, some [List.replicate 6 0]⟩ := by
  obtain ⟨v, hv, hf⟩ := pile_feasible r h hb ht
  refine ⟨oracleSolver v, oracleSolver_ok v, ?_⟩
  have hl6 : r.links.length = 6 := by rw [h]; simp [pile, Robot.new]
  obtain ⟨x, hx⟩ := problem_zero (path := originPath) (by
    intro tp ht
    rw [List.mem_singleton.1 ht]
    exact ⟨_, rfl⟩) hl6 (by unfold OneShape; rw [h]; exact pile_one) (some (unitAt 5))
  unfold getOptimalPath
  simp only [Option.getD_none, hl6]
  rw [hx]
  simp only [bind, Except.bind]
  rw [if_pos (by simp)]
  unfold oracleSolver
  rw [if_pos ⟨by rw [hv]; rfl, by rw [hv]; simp, hf⟩]
  simp [hv]

/-- **C77** is false: the base stands in the obstacle. -/
theorem C77_refuted : ¬ C77_statement := by
  intro h
  let r : Robot Shape := { pile with geometryBase := some (unitAt 5), doCheckSelfCollision := false }
  obtain ⟨solver, hs, hres⟩ := pile_result r rfl rfl rfl
  have hgood := h solver originPath r (some (unitAt 5)) none 100 _ hs
    (fun l hl => Or.inl (pile_revolute l hl)) rfl ⟨pile_rigid.base, pile_rigid.shapes⟩ (by
      rintro s ⟨⟩ tf htf
      rw [List.mem_singleton.1 htf]
      exact isRigid_mkTf.2 IsRot.one) hres
  have h1 := (hgood.2 0 _ _ rfl rfl [] (by simp)).2 _ rfl
  obtain ⟨b, hb, hiff⟩ := C33_answer boxOracle r (fun l hl => Or.inl (pile_revolute l hl)) rfl
    (Or.inl rfl) [] (by simp) (List.replicate 6 0) (by simp [r, pile, Robot.new]) (unitAt 5)
  rw [h1] at hb
  cases hb
  have : ¬ SceneTouch boxOracle r (List.replicate 6 0) (unitAt 5) := fun hc => by
    have := hiff.2 (Or.inl hc)
    cases this
  refine this (Or.inl ⟨_, rfl, touch_boxes.2 ⟨0, 0, _, _, _, _, rfl, rfl, rfl, rfl, 0, by simp [boxPoints],
    0, by simp [boxPoints], rfl⟩⟩)

/-- **C77** is also false because self-collisions are not constrained: all six links overlap. -/
theorem C77_self : ∃ solver, SolverOK solver ∧
    getOptimalPath solver originPath pile (some (unitAt 5)) none 100 =
      .ok ⟨true, some [List.replicate 6 0]⟩ ∧
    (pile.isInCollision boxOracle (RState.new 6) (List.replicate 6 0) (unitAt 5)).1 = .ok true := by
  obtain ⟨solver, hs, hres⟩ := pile_result pile rfl rfl rfl
  refine ⟨solver, hs, hres, ?_⟩
  obtain ⟨b, hb, hiff⟩ := C33_answer boxOracle pile (fun l hl => Or.inl (pile_revolute l hl)) rfl
    (Or.inl rfl) [] (by simp) (List.replicate 6 0) (by simp [pile, Robot.new]) (unitAt 5)
  have : b = true := hiff.2 (Or.inr ⟨rfl, Or.inl ⟨0, 3, pileLink, pileLink, Or.inl (by omega), rfl, rfl,
    touch_boxes.2 ⟨0, 0, ⟨1, 1, 1⟩, ⟨1, 1, 1⟩, 1, 1, rfl, rfl, rfl, rfl, 0, by simp [boxPoints], 0,
      by simp [boxPoints], by rw [pile_frame, pile_frame]⟩⟩⟩)
  rw [this] at hb
  exact hb

/-- The hypotheses of `C77_plain_partial` are met, with a result. -/
example : ∃ (solver : Solver) (r : Robot Shape), SolverOK solver ∧
    GoodResult originPath r (some (unitAt 5)) [List.replicate 6 0] := by
  let r : Robot Shape := { pile with doCheckSelfCollision := false }
  obtain ⟨solver, hs, hres⟩ := pile_result r rfl rfl rfl
  exact ⟨solver, r, hs, C77_plain_partial hs (r := r) pile_revolute pile_one
    ⟨pile_rigid.base, pile_rigid.shapes⟩ rfl rfl rfl rfl (by
      rintro s ⟨⟩ tf htf
      rw [List.mem_singleton.1 htf]
      exact isRigid_mkTf.2 IsRot.one) hres⟩

/-! ### Kuka -/

/-- **C69** for the Kuka model of the library, anywhere: its constraints can be met exactly at the
joint values where all six links keep the margin from all obstacles. -/
theorem C69_kuka (a1 a2 d4 d6 : ℝ) {base : M4} (hb : IsRigid base) (tool : Option (Tool Shape))
    {scene : Collection Shape} (hs : ∀ tf ∈ scene.tfS, IsRigid tf) {q : List ℝ} (hq : 6 ≤ q.length) :
    PoseFeasible { kukaRobot a1 a2 d4 d6 with tfBase := base, tool := tool } q scene ↔
      LinksKeepAway { kukaRobot a1 a2 d4 d6 with tfBase := base, tool := tool } q scene := by
  refine C69_partial (r := { kukaRobot a1 a2 d4 d6 with tfBase := base, tool := tool }) ?_ ?_
    ⟨hb, ?_⟩ hs hq
  · intro l hl
    simp only [kukaRobot, Robot.new, List.mem_cons, List.not_mem_nil, or_false] at hl
    rcases hl with rfl | rfl | rfl | rfl | rfl | rfl <;> rfl
  · intro l hl
    simp only [kukaRobot, Robot.new, List.mem_cons, List.not_mem_nil, or_false] at hl
    rcases hl with rfl | rfl | rfl | rfl | rfl | rfl <;> exact ⟨_, _, rfl⟩
  · intro l hl tf htf
    simp only [kukaRobot, Robot.new, List.mem_cons, List.not_mem_nil, or_false] at hl
    rcases hl with rfl | rfl | rfl | rfl | rfl | rfl <;>
      · rw [List.mem_singleton.1 htf]
        exact (C20_pose _ _ _ _).1.1

/-! ## C78 -/

/-- The full property: with a solver that does not raise, `get_optimal_path` does not raise. -/
def C78_statement : Prop := ∀ (solver : Solver) (path : List PathPt) (r : Robot Shape)
  (scene : Option (Collection Shape)) (maxIters : Nat),
  (∀ prob q n, ∃ res, solver prob q n = .ok res) → KnownTypes r.links → 0 < r.links.length →
  path ≠ [] → ∃ res, getOptimalPath solver path r scene none maxIters = .ok res

/-- **C78**: a path point without attribute `p` raises AttributeError, whatever else is given. -/
theorem C78_points (solver : Solver) {path : List PathPt} (r : Robot Shape)
    (scene : Option (Collection Shape)) (qInit : Option (List (List ℝ))) (maxIters : Nat)
    {tp : PathPt} (ht : tp ∈ path)
    (hk : (∃ pt, tp = .euler pt) ∨ (∃ pt, tp = .position pt) ∨ ∃ pt, tp = .axisAngle pt) :
    getOptimalPath solver path r scene qInit maxIters = .error .attributeError := by
  have hp : pointP tp = .error .attributeError := by
    rcases hk with ⟨pt, rfl⟩ | ⟨pt, rfl⟩ | ⟨pt, rfl⟩ <;> rfl
  unfold getOptimalPath problem
  rw [mapM_pointP_error ht hp]
  rfl

theorem pathCc_short (r : Robot Shape) (hl : 6 < r.links.length) (x : V3) (xyz : List V3) (n : Nat) :
    pathCc r (x :: xyz) (List.replicate (n + 1) (List.replicate 6 0)) = .error .indexError := by
  rw [List.replicate_succ, pathCc, fkCasadi_short r (by simpa using hl)]
  rfl

/-- **C78**: robots with another number of joints than six raise with the default start value. -/
theorem C78_joints (solver : Solver) {path : List PathPt} (hne : path ≠ []) (r : Robot Shape)
    (h6 : r.links.length ≠ 6) (scene : Option (Collection Shape)) (maxIters : Nat) :
    ∃ e, getOptimalPath solver path r scene none maxIters = .error e := by
  unfold getOptimalPath
  simp only [Option.getD_none]
  cases hp : problem path r scene (Vars.zero path.length) with
  | error e => exact ⟨e, rfl⟩
  | ok x =>
    refine ⟨.runtimeError, ?_⟩
    simp only [bind, Except.bind]
    rw [if_neg]
    rintro ⟨-, h⟩
    have := h (List.replicate r.links.length 0)
      (List.mem_replicate.2 ⟨by simpa using hne, rfl⟩)
    simp at this
    exact h6 this

/-- **C78**: robots with more than six joints raise for every start value. -/
theorem C78_seven (solver : Solver) {path : List PathPt} (hne : path ≠ []) (r : Robot Shape)
    (h6 : 6 < r.links.length) (scene : Option (Collection Shape)) (qInit : Option (List (List ℝ)))
    (maxIters : Nat) : ∃ e, getOptimalPath solver path r scene qInit maxIters = .error e := by
  obtain ⟨tp, path', rfl⟩ := List.exists_cons_of_ne_nil hne
  have : ∃ e, problem (tp :: path') r scene (Vars.zero (tp :: path').length) = .error e := by
    unfold problem
    cases hm : (tp :: path').mapM pointP with
    | error e => exact ⟨e, rfl⟩
    | ok xyz =>
      have hl := (mapM_pointP_ok hm).1
      obtain ⟨x, xs, rfl⟩ : ∃ x xs, xyz = x :: xs := by
        cases xyz with
        | nil => simp at hl
        | cons x xs => exact ⟨x, xs, rfl⟩
      cases scene with
      | none =>
        refine ⟨.indexError, ?_⟩
        simp only [bind, Except.bind, Vars.zero, List.length_cons, pathCc_short r h6]
      | some s =>
        cases hc : createCc r s (Vars.zero (tp :: path').length) with
        | error e => exact ⟨e, by simp only [bind, Except.bind, hc]⟩
        | ok cc =>
          refine ⟨.indexError, ?_⟩
          simp only [bind, Except.bind, hc]
          simp only [Vars.zero, List.length_cons, pathCc_short r h6]
  obtain ⟨e, he⟩ := this
  refine ⟨e, ?_⟩
  unfold getOptimalPath
  simp only [he]
  rfl

open Classical in
/-- **C78**, what holds: with six links of one shape each and points that have `p`, the start value
(zeros by default) goes to the solver if it has the right shape, and the result says whether the
solver succeeded, with its joint values if so; another shape raises RuntimeError. -/
theorem C78_result (solver : Solver) {path : List PathPt} (hp : ∀ tp ∈ path, ∃ p, PositionOf tp p)
    (r : Robot Shape) (h6 : r.links.length = 6) (h1 : OneShape r) (scene : Option (Collection Shape))
    (qInit : Option (List (List ℝ))) (maxIters : Nat) (start : List (List ℝ))
    (hi : qInit = some start ∨
      qInit = none ∧ start = List.replicate path.length [0, 0, 0, 0, 0, 0]) :
    getOptimalPath solver path r scene qInit maxIters =
      if start.length = path.length ∧ ∀ row ∈ start, row.length = 6 then
        (solver (problem path r scene) start maxIters).map fun sol =>
          ⟨sol.1, if sol.1 = true then some sol.2.q else none⟩
      else .error .runtimeError := by
  obtain ⟨x, hx'⟩ := problem_zero (fun tp h => (hp tp h).imp fun p h => pointP_ok.2 h) h6 h1 scene
  have hs : qInit.getD (List.replicate path.length (List.replicate 6 0)) = start := by
    rcases hi with rfl | ⟨rfl, rfl⟩ <;> rfl
  unfold getOptimalPath
  simp only [h6, hs, hx', bind, Except.bind]
  by_cases hc : start.length = path.length ∧ ∀ row ∈ start, row.length = 6
  · rw [if_pos hc, if_pos hc]
    cases solver (problem path r scene) start maxIters with
    | error e => rfl
    | ok sol => rcases sol with ⟨b, v⟩; cases b <;> rfl
  · rw [if_neg hc, if_neg hc]

/-- **C78**, what holds: with six links of one shape each and points that have `p`, only the solver
can raise.  Missing: everything else (`C78_points`, `C78_joints`, `C69_index_error`). -/
theorem C78_partial (solver : Solver) (hsolve : ∀ prob q n, ∃ res, solver prob q n = .ok res)
    {path : List PathPt} (hp : ∀ tp ∈ path, ∃ p, PositionOf tp p) (r : Robot Shape)
    (h6 : r.links.length = 6) (h1 : OneShape r) (scene : Option (Collection Shape)) (maxIters : Nat) :
    ∃ res, getOptimalPath solver path r scene none maxIters = .ok res := by
  classical
  rw [C78_result solver hp r h6 h1 scene none maxIters _ (Or.inr ⟨rfl, rfl⟩),
    if_pos ⟨by simp, fun row h => by rw [List.eq_of_mem_replicate h]; rfl⟩]
  obtain ⟨res, hres⟩ := hsolve (problem path r scene)
    (List.replicate path.length [0, 0, 0, 0, 0, 0]) maxIters
  rw [hres]
  exact ⟨_, rfl⟩

/-- **C78** is false: a path of toleranced Euler points, and a robot with two joints. -/
theorem C78_refuted : ¬ C78_statement := by
  intro h
  obtain ⟨res, hres⟩ := h (fun _ _ _ => .ok (true, Vars.zero 1)) originPath
    (Robot.new [pileLink, pileLink]) none 100 (fun _ _ _ => ⟨_, rfl⟩)
    (fun l hl => Or.inl (by
      have : l = pileLink := by simpa [Robot.new] using hl
      rw [this]
      rfl)) (by simp [Robot.new]) (by simp [originPath])
  obtain ⟨e, he⟩ := C78_joints (fun _ _ _ => .ok (true, Vars.zero 1)) (path := originPath)
    (by simp [originPath]) (Robot.new [pileLink, pileLink]) (by simp [Robot.new]) none 100
  rw [hres] at he
  cases he

/-- A path of two points meets the hypotheses of `C78_partial`. -/
example : ∃ res, getOptimalPath (fun _ _ _ => .ok (true, Vars.zero 2)) [.free (.new 0), .free (.new 1)] pile
    (some (unitAt 5)) none 100 = .ok res :=
  C78_partial _ (fun _ _ _ => ⟨_, rfl⟩) (by
    intro tp ht
    simp only [List.mem_cons, List.not_mem_nil, or_false] at ht
    rcases ht with rfl | rfl <;> exact ⟨_, Or.inl ⟨_, rfl, rfl⟩⟩) pile (by simp [pile, Robot.new]) pile_one _ _

/-- C69: a case of `C69_kuka`. -/
example := C69_kuka 0.18 0.6 0.62 0.115 (base := mkTf (Util.rotZ 1) ![1, 2, 3])
  (isRigid_mkTf.2 (Util.rotZ_isRot _)) none (scene := unitAt 5) (by
    intro tf htf
    rw [List.mem_singleton.1 htf]
    exact isRigid_mkTf.2 IsRot.one) (q := [1, 2, 3, 4, 5, 6]) (le_refl _)

/-- C70: a case of `C70_search`: two columns of two configurations of two joints. -/
example := C70_search (stdHeap : PQ (WithTop ℝ) (List ℝ)) id 2 (by norm_num)
  [.arr false 2 [[0, 1], [2, 3]], .arr false 2 [[4, 5], [6, 7]]]
  ⟨by simp, by
    intro c hc
    simp only [List.mem_cons, List.not_mem_nil, or_false] at hc
    rcases hc with rfl | rfl <;> simp [PyCol.Proper], by simp [PyCol.isF32]⟩

/-- C78: a case of `C78_seven`, the KukaOnRail. -/
example (solver : Solver) : ∃ e, getOptimalPath solver [.free (.new 0)] (railRobot 0.18 0.6 0.62 0.115)
    (some (unitAt 5)) none 100 = .error e :=
  C78_seven solver (by simp) _ (by simp [railRobot, Robot.new]) _ _ _

end

end Verif.Props
