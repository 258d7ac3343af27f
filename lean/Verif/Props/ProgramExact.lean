import Verif.Props.OptimalPath
import Verif.Props.Robots

/-! # Which paths the optimization problem admits, and at what price (C129) -/

set_option linter.unusedSectionVars false

namespace Verif.Props

open Matrix Verif Verif.Geometry Verif.Kin Verif.Util Verif.Path Verif.Optimization

theorem createCc_of {r : Robot Shape} {s : Collection Shape} {q : List (List ℝ)}
    (hne : 0 < r.links.length) (h1 : OneShape r) (h : ∀ qi ∈ q, PoseFeasible r qi s) :
    ∃ lam mu cons, createCc r s ⟨q, lam, mu⟩ = .ok cons ∧ ∀ c ∈ cons, c := by
  classical
  have hex : ∀ k : Nat, ∃ lam mu, ∀ qi, q[k]? = some qi → ∃ c',
      ccForJointPose r (polyRobotOf r) s.getPolyhedrons qi lam mu = .ok c' ∧ ∀ c ∈ c', c := by
    intro k
    cases hk : q[k]? with
    | none => exact ⟨fun _ _ _ => 0, fun _ _ _ => 0, by simp⟩
    | some qi =>
      obtain ⟨lam, mu, c, e, hc⟩ := h qi (List.mem_of_getElem? hk)
      refine ⟨lam, mu, ?_⟩
      rintro qj ⟨⟩
      exact ⟨c, e, hc⟩
  choose lam mu hlm using hex
  obtain ⟨cons, e, hc⟩ := ccLoop_of (r := r) (pr := polyRobotOf r) (ps := s.getPolyhedrons)
    (lam := lam) (mu := mu) q 0 fun k qi hk => by
      rw [Nat.zero_add]
      obtain ⟨c, e, -⟩ := hlm k qi hk
      exact ⟨c, e⟩
  refine ⟨lam, mu, cons, ?_, hc fun k qi hk => by rw [Nat.zero_add]; exact hlm k qi hk⟩
  have hlen := (polyRobotOf_one h1).1
  have hg : pyGet (polyRobotOf r) 0 = .ok ((polyRobotOf r)[0]'(by omega)) := by
    rw [pyGet, List.getElem?_eq_getElem (by omega)]
  unfold createCc
  simp only [hg, bind, Except.bind]
  exact e

/-- **C129**: for robots with six revolute joints and one shape per link, the joint paths that the
problem admits are exactly those that reach the position of every path point, with all links at the
margin from all obstacles. -/
theorem C129_feasible {path : List PathPt} (hp : ∀ tp ∈ path, ∃ p, PositionOf tp p)
    {r : Robot Shape} (h6 : r.links.length = 6) (hr : ∀ l ∈ r.links, l.jointType = .r)
    (h1 : OneShape r) (hrig : RigidRobot r) {scene : Option (Collection Shape)}
    (hsc : ∀ s, scene = some s → ∀ tf ∈ s.tfS, IsRigid tf) {q : List (List ℝ)}
    (hq : q.length = path.length) (hrow : ∀ row ∈ q, row.length = 6) :
    (∃ v : Vars, v.q = q ∧ Feasible (problem path r scene) v) ↔
      ∀ (i : Nat) (qi : List ℝ) (tp : PathPt), q[i]? = some qi → path[i]? = some tp →
        FkSatisfies boxOracle r qi (fun T => PositionOf tp (posPart T)) ∧
        ∀ s, scene = some s → LinksKeepAway r qi s := by
  constructor
  · rintro ⟨v, rfl, hf⟩ i qi tp hqi htp
    obtain ⟨⟨xyz, cons, hx, hpc, hc⟩, hcc⟩ := feasible_parts hf
    have hl := hrow qi (List.mem_of_getElem? hqi)
    obtain ⟨p, hxi, hpp⟩ := (mapM_pointP_ok hx).2 i tp htp
    obtain ⟨T, hT, hpos⟩ := pathCc_ok r hpc hc i p qi hxi hqi
    refine ⟨fun history hh => ⟨T, ?_, ?_⟩, fun s hs => ?_⟩
    · rw [← (C32_casadi_partial boxOracle r hr history hh qi).1, hT]
    · change PositionOf tp (posPart T)
      rw [hpos]
      exact pointP_ok.1 hpp
    · obtain ⟨cons', hcr, hcc'⟩ := hcc s hs
      exact (C69_partial hr h1 hrig (hsc s hs) (by omega)).1 (createCc_pose hcr hcc' i qi hqi)
  · intro h
    obtain ⟨xyz, hx⟩ := mapM_pointP_of fun tp ht => (hp tp ht).imp fun p h => pointP_ok.2 h
    have hxl := (mapM_pointP_ok hx).1
    obtain ⟨pc, hpc, hpc'⟩ := pathCc_of r xyz q (by omega) fun qi hqi => by
      rw [h6, hrow qi hqi]
    have hpath : ∀ c ∈ pc, c := by
      refine hpc' fun i x qi hxi hqi => ?_
      have hi : i < path.length := by
        rw [← hq]
        exact (List.getElem?_eq_some_iff.1 hqi).1
      obtain ⟨x', hx', hpp⟩ := (mapM_pointP_ok hx).2 i _ (List.getElem?_eq_getElem hi)
      rw [hxi] at hx'
      cases hx'
      obtain ⟨T, hT, hpos⟩ := (h i qi _ hqi (List.getElem?_eq_getElem hi)).1 [] (by simp)
      refine ⟨T, ?_, ?_⟩
      · rw [(C32_casadi_partial boxOracle r hr [] (by simp) qi).1, hT]
      · have := pointP_ok.2 hpos
        rw [hpp] at this
        cases this
        rfl
    cases scene with
    | none =>
      refine ⟨⟨q, fun _ _ _ _ => 0, fun _ _ _ _ => 0⟩, rfl, [] ++ pc, objective q, ?_, ?_⟩
      · unfold problem
        simp only [hx, bind, Except.bind, hpc]
      · simpa using hpath
    | some s =>
      obtain ⟨lam, mu, cc, hcc, hc⟩ := createCc_of (r := r) (s := s) (q := q) (by omega) h1
        fun qi hqi => by
          obtain ⟨i, hi⟩ := List.mem_iff_getElem?.1 hqi
          have hip : i < path.length := by
            rw [← hq]
            exact (List.getElem?_eq_some_iff.1 hi).1
          exact (C69_partial hr h1 hrig (hsc s rfl) (by rw [h6, hrow qi hqi])).2
            ((h i qi _ hi (List.getElem?_eq_getElem hip)).2 s rfl)
      refine ⟨⟨q, lam, mu⟩, rfl, cc ++ pc, objective q, ?_, ?_⟩
      · unfold problem
        simp only [hx, bind, Except.bind, hcc, hpc]
      · intro c h
        rcases List.mem_append.1 h with h | h
        · exact hc c h
        · exact hpath c h

/-- C129: each of them is the result of `get_optimal_path` with some solver that keeps its promise,
whatever the start value. -/
theorem C129_found {path : List PathPt} (hp : ∀ tp ∈ path, ∃ p, PositionOf tp p)
    {r : Robot Shape} (h6 : r.links.length = 6) (hr : ∀ l ∈ r.links, l.jointType = .r)
    (h1 : OneShape r) (hrig : RigidRobot r) {scene : Option (Collection Shape)}
    (hsc : ∀ s, scene = some s → ∀ tf ∈ s.tfS, IsRigid tf) {q : List (List ℝ)}
    (hq : q.length = path.length) (hrow : ∀ row ∈ q, row.length = 6)
    (h : ∀ (i : Nat) (qi : List ℝ) (tp : PathPt), q[i]? = some qi → path[i]? = some tp →
      FkSatisfies boxOracle r qi (fun T => PositionOf tp (posPart T)) ∧
      ∀ s, scene = some s → LinksKeepAway r qi s) :
    ∃ solver, SolverOK solver ∧ ∀ (start : List (List ℝ)) (n : Nat), start.length = path.length →
      (∀ row ∈ start, row.length = 6) →
      getOptimalPath solver path r scene (some start) n = .ok ⟨true, some q⟩ := by
  obtain ⟨v, rfl, hf⟩ := (C129_feasible hp h6 hr h1 hrig hsc hq hrow).2 h
  refine ⟨oracleSolver v, oracleSolver_ok v, fun start n hs hs' => ?_⟩
  rw [C78_result _ hp r h6 h1 scene _ n start (Or.inl rfl), if_pos ⟨hs, hs'⟩]
  unfold oracleSolver
  rw [if_pos ⟨by rw [hq, hs], hrow, hf⟩]
  rfl

theorem rowSq_eq (a b : List ℝ) (ha : a.length = 6) (hb : b.length = 6) :
    rowSq a b = ∑ j : Fin 6, ((a[j]?).getD 0 - (b[j]?).getD 0) ^ 2 := by
  obtain ⟨a0, a1, a2, a3, a4, a5, rfl⟩ : ∃ a0 a1 a2 a3 a4 a5, a = [a0, a1, a2, a3, a4, a5] := by
    match a, ha with
    | [a0, a1, a2, a3, a4, a5], _ => exact ⟨_, _, _, _, _, _, rfl⟩
  obtain ⟨b0, b1, b2, b3, b4, b5, rfl⟩ : ∃ b0 b1 b2 b3 b4 b5, b = [b0, b1, b2, b3, b4, b5] := by
    match b, hb with
    | [b0, b1, b2, b3, b4, b5], _ => exact ⟨_, _, _, _, _, _, rfl⟩
  simp [rowSq, Fin.sum_univ_succ]

/-- C129: what is minimised is the sum, over the steps and the six joints, of the squared change of
the joint value. -/
theorem C129_objective {path : List PathPt} {r : Robot Shape} {scene : Option (Collection Shape)}
    {v : Vars} (hrow : ∀ row ∈ v.q, row.length = 6) {cons : List Prop} {obj : ℝ}
    (h : problem path r scene v = .ok (cons, obj)) :
    obj = ∑ i ∈ Finset.range (v.q.length - 1), ∑ j : Fin 6,
      ((((v.q[i]?).getD [])[j]?).getD 0 - (((v.q[i + 1]?).getD [])[j]?).getD 0) ^ 2 := by
  have hobj : obj = objective v.q := by
    unfold problem at h
    cases hx : path.mapM pointP with
    | error e => rw [hx] at h; cases h
    | ok xyz =>
      rw [hx] at h
      cases hp : pathCc r xyz v.q with
      | error e =>
        cases scene with
        | none => simp only [bind, Except.bind, hp] at h; cases h
        | some s =>
          cases hs : createCc r s v with
          | error e => simp only [bind, Except.bind, hs] at h; cases h
          | ok cc => simp only [bind, Except.bind, hs, hp] at h; cases h
      | ok pc =>
        cases scene with
        | none => simp only [bind, Except.bind, hp] at h; cases h; rfl
        | some s =>
          cases hs : createCc r s v with
          | error e => simp only [bind, Except.bind, hs] at h; cases h
          | ok cc => simp only [bind, Except.bind, hs, hp] at h; cases h; rfl
  rw [hobj]
  clear hobj h
  generalize v.q = q at *
  induction q with
  | nil => simp [objective]
  | cons a q ih =>
    cases q with
    | nil => simp [objective]
    | cons b q =>
      have ih := ih fun row h => hrow row (List.mem_cons_of_mem _ h)
      have e : objective (a :: b :: q) = rowSq a b + objective (b :: q) := by
        simp [objective]
      rw [e, ih, rowSq_eq a b (hrow a (by simp)) (hrow b (by simp))]
      simp only [List.length_cons, Nat.add_sub_cancel]
      rw [Finset.sum_range_succ' _ q.length, add_comm]
      congr 1

/-- C129: a case of `C129_objective`. -/
example (path : List PathPt) (r : Robot Shape) (lam mu : Nat → Mult) (cons : List Prop) (obj : ℝ)
    (h : problem path r none ⟨[[0, 0, 0, 0, 0, 0], [1, 0, 2, 0, 0, 0], [1, 0, 2, 0, 0, 3]], lam, mu⟩ =
      .ok (cons, obj)) : obj = 14 := by
  rw [C129_objective (by simp) h]
  norm_num [Finset.sum_range_succ, Fin.sum_univ_succ]

end Verif.Props
