import Verif.Model.TaskPlot
import Verif.Props.Plot
import Verif.Props.Path

/-! # C105, C106: the plots of planning tasks and of joint paths -/

set_option linter.unusedSectionVars false

namespace Verif.Props

open Verif Verif.Path Verif.Geometry Verif.Kin Verif.Task Verif.Plot Verif.TaskPlot

noncomputable section

/-! ## C105 -/

/-- The nominal value of each entry. -/
def NominalAt (pos : Fin 3 → Entry) (x : V3) : Prop :=
  ∀ i, pos i = .num (x i) ∨ ∃ t, pos i = .tol t ∧ x i = t.nominal

/-- The point was made by its constructor, from a position with nominal values `x`. -/
def MadeAt : PathPt → V3 → Prop
  | .euler pt, x => ∃ pos rpy : Fin 3 → Entry,
    TolEulerPt.new [pos 0, pos 1, pos 2] [rpy 0, rpy 1, rpy 2] = .ok pt ∧ NominalAt pos x
  | .position pt, x => ∃ (pos : Fin 3 → Entry) (o : Quat),
    TolPositionPt.new [pos 0, pos 1, pos 2] o = .ok pt ∧ NominalAt pos x
  | .axisAngle pt, x => x = pt.pos
  | .free pt, x => x = pt.p
  | .orientation pt, x => x = pt.p

/-- What the plot of a point shows: a marker at its nominal position, and for a TolEulerPt the axes
of its nominal frame, which is at the marker. -/
def PointMarks : PathPt → V3 → List Mark → Prop
  | .euler pt, x, ms => ∃ T, pt.nominalTransform = .ok T ∧ IsRigid T ∧ posPart T = x ∧
    ms = [.dot x, .lines (triad T 0.2)]
  | _, x, ms => ms = [.dot x]

theorem nominal_list {pos : Fin 3 → Entry} {x : V3} (h : NominalAt pos x) :
    [nominal (pos 0), nominal (pos 1), nominal (pos 2)] = [x 0, x 1, x 2] := by
  have ex : ∀ i, nominal (pos i) = x i := by
    intro i
    rcases h i with h | ⟨t, h, h'⟩
    · rw [h]; rfl
    · rw [h, h']; rfl
  rw [ex, ex, ex]

theorem dotOf_three (x : V3) : dotOf [x 0, x 1, x 2] = .ok (.dot x) := by
  have : ![x 0, x 1, x 2] = x := by ext i; fin_cases i <;> rfl
  simp only [dotOf, pyGet, List.getElem?_cons_zero, List.getElem?_cons_succ, bind, Except.bind, this]

theorem plotPoint_marks {pt : PathPt} {x : V3} (h : MadeAt pt x) :
    ∃ ms, plotPoint pt = .ok ms ∧ PointMarks pt x ms := by
  cases pt with
  | euler pt =>
    obtain ⟨pos, rpy, h1, h2⟩ := h
    obtain ⟨pt', h3, h4⟩ := C47_nominal pos rpy
    rw [h1] at h3
    cases h3
    have hT := h4 x (fun i => nominal (rpy i)) h2 (fun i => by
      cases he : rpy i with
      | num y => exact .inl rfl
      | tol t => exact .inr ⟨t, rfl, rfl⟩)
    rw [eulerPt_new] at h1
    cases h1
    have hp : (eulerPt pos rpy).posNom = [x 0, x 1, x 2] := nominal_list h2
    refine ⟨_, ?_, _, hT, isRigid_mkTf.2 (Rxyz_isRot _), posPart_mkTf _ _, rfl⟩
    simp only [plotPoint, plotEuler, hp, dotOf_three, hT, bind, Except.bind, C82_default]
  | position pt =>
    obtain ⟨pos, o, h1, h2⟩ := h
    rw [positionPt_new] at h1
    cases h1
    have hp : (positionPt pos o).posNom = [x 0, x 1, x 2] := nominal_list h2
    exact ⟨_, by simp only [plotPoint, hp, dotOf_three, Except.map], rfl⟩
  | axisAngle pt => cases h; exact ⟨_, rfl, rfl⟩
  | free pt => cases h; exact ⟨_, rfl, rfl⟩
  | orientation pt => cases h; exact ⟨_, rfl, rfl⟩

/-- **C105**: the plot of a planning task shows for every path point, in order, a marker at its
nominal position and for a TolEulerPt its nominal frame; after these, exactly the edges of the
obstacles at their places, and nothing if no scene was given. -/
theorem C105 (path : List PathPt) (xs : List V3) (hx : List.Forall₂ MadeAt path xs)
    (scene : Option (Collection Shape)) :
    ∃ (parts : List (List Mark)) (sc : List Mark),
      plotTask (PlanningTask.new path scene) = .ok (parts.flatten ++ sc) ∧
      parts.length = path.length ∧
      (∀ (i : Nat) pt x ms, path[i]? = some pt → xs[i]? = some x → parts[i]? = some ms →
        PointMarks pt x ms) ∧
      (scene = none → sc = []) ∧
      ∀ s, scene = some s → ∃ segs, sc = [.lines segs] ∧ Depicts segs (At s 1) := by
  have hsc : ∃ sc, plotScene (PlanningTask.new path scene) = .ok sc ∧ (scene = none → sc = []) ∧
      ∀ s, scene = some s → ∃ segs, sc = [.lines segs] ∧ Depicts segs (At s 1) := by
    cases scene with
    | none => exact ⟨[], rfl, fun _ => rfl, by simp⟩
    | some s =>
      refine ⟨_, rfl, by simp, ?_⟩
      rintro s' ⟨⟩
      refine ⟨_, rfl, depicts_of_mem fun seg => ?_⟩
      rw [plotCollection_none, mem_plotCollection]
  obtain ⟨sc, h1, h2, h3⟩ := hsc
  have hpts : ∃ parts, path.mapM plotPoint = .ok parts ∧ parts.length = path.length ∧
      ∀ (i : Nat) pt x ms, path[i]? = some pt → xs[i]? = some x → parts[i]? = some ms →
        PointMarks pt x ms := by
    clear h1 h2 h3
    induction hx with
    | nil => exact ⟨[], rfl, rfl, by simp⟩
    | @cons pt x path xs h _ ih =>
      obtain ⟨parts, a, b, c⟩ := ih
      obtain ⟨ms, d, e⟩ := plotPoint_marks h
      refine ⟨ms :: parts, by simp [List.mapM_cons, a, d, bind, Except.bind, pure, Except.pure],
        by simp [b], ?_⟩
      intro i pt' x' ms' f g k
      cases i with
      | zero =>
        simp only [List.getElem?_cons_zero, Option.some.injEq] at f g k
        subst f; subst g; subst k
        exact e
      | succ i => exact c i pt' x' ms' f g k
  obtain ⟨parts, a, b, c⟩ := hpts
  refine ⟨parts, sc, ?_, b, c, h2, h3⟩
  have a' : (PlanningTask.new path scene).path.mapM plotPoint = .ok parts := a
  simp only [plotTask, a', h1, bind, Except.bind]

/-- A TolEulerPt with a tolerance on `y`, and a point with free orientation. -/
example : ∃ pt, TolEulerPt.new [.num 1, .tol ⟨0, 4, 3, 5⟩, .num 2] [.num 0, .num 0, .num 0] = .ok pt ∧
    List.Forall₂ MadeAt [.euler pt, .free (.new ![7, 8, 9])] [![1, 3, 2], ![7, 8, 9]] := by
  refine ⟨_, eulerPt_new ![.num 1, .tol ⟨0, 4, 3, 5⟩, .num 2] ![.num 0, .num 0, .num 0], ?_⟩
  refine .cons ⟨_, _, eulerPt_new _ _, ?_⟩ (.cons rfl .nil)
  intro i
  fin_cases i
  · exact .inl rfl
  · exact .inr ⟨_, rfl, rfl⟩
  · exact .inl rfl

/-! ## C106 -/

theorem plotConfigs_ok {r : Robot Shape} (hk : KnownTypes r.links)
    (h0 : r.tool = none ∨ 0 < r.links.length) (path : List (List ℝ)) :
    ∀ (alpha : List ℝ) (st : RState), WF r.links.length st → alpha.length = path.length →
      (∀ q ∈ path, r.links.length ≤ q.length) →
      ∃ drawn st', plotConfigs r path alpha st = (.ok drawn, st') ∧ drawn.length = path.length ∧
        ∀ (i : Nat) a segs, drawn[i]? = some (a, segs) → alpha[i]? = some a ∧
          ∃ q, path[i]? = some q ∧ ∀ st'', WF r.links.length st'' →
            (plotRobot r st'' q).1 = .ok segs := by
  induction path with
  | nil => intro alpha st _ _ _; exact ⟨[], st, rfl, rfl, by simp⟩
  | cons q qs ih =>
    intro alpha st hw hl hq
    cases alpha with
    | nil => simp at hl
    | cons a as =>
      have hfr : ∀ st'', WF r.links.length st'' → (plotRobot r st'' q).1 = (plotRobot r st q).1 := by
        intro st'' hw''
        simp only [plotRobot, fkAllLinks_ok hw'' (hq q (by simp)) hk.known,
          fkAllLinks_ok hw (hq q (by simp)) hk.known]
      obtain ⟨segs, hs, -⟩ := plotRobot_drawn hk hw (hq q (by simp)) h0
      have hw2 : WF r.links.length (plotRobot r st q).2 := hw.fkAllLinks q
      obtain ⟨drawn, st', h1, h2, h3⟩ := ih as _ hw2 (by simpa using hl)
        fun q' h' => hq q' (by simp [h'])
      refine ⟨(a, segs) :: drawn, st', by simp [plotConfigs, hs, h1, Except.map], by simp [h2], ?_⟩
      intro i a' segs' hi
      cases i with
      | zero =>
        simp only [List.getElem?_cons_zero, Option.some.injEq, Prod.mk.injEq] at hi
        obtain ⟨rfl, rfl⟩ := hi
        exact ⟨rfl, q, rfl, fun st'' hw'' => by rw [hfr st'' hw'', hs]⟩
      | succ i => exact h3 i a' segs' hi

/-- **C106**: `plot_path` draws, in order, every configuration of the path exactly as `plot` draws it
(whatever was called before), the `i`-th of `n` with opacity `1 - 0.8 i / (n - 1)`: from 1 for the
first to 0.2 for the last, strictly decreasing. -/
theorem C106 (hit : Oracle Shape) (r : Robot Shape) (hk : KnownTypes r.links)
    (history : List (Call Shape)) (hh : ∀ c ∈ history, c.robot.links = r.links)
    (path : List (List ℝ)) (hp : ∀ q ∈ path, r.links.length ≤ q.length)
    (h0 : r.tool = none ∨ 0 < r.links.length) :
    ∃ drawn st, plotPath r path (after hit r.links history) = (.ok drawn, st) ∧
      drawn.length = path.length ∧
      (∀ (i : Nat) q a segs, path[i]? = some q → drawn[i]? = some (a, segs) →
        (plotRobot r (after hit r.links history) q).1 = .ok segs ∧
        a = 1 - 0.8 * i / ((path.length : ℝ) - 1)) ∧
      (∀ a segs, drawn[0]? = some (a, segs) → a = 1) ∧
      (∀ a segs, 1 < path.length → drawn[path.length - 1]? = some (a, segs) → a = 0.2) ∧
      ∀ (i j : Nat) a b segs segs', i < j → drawn[i]? = some (a, segs) →
        drawn[j]? = some (b, segs') → b < a := by
  have hw := after_wf hit r.links history hh
  set alpha := (List.range path.length).map
    fun (i : Nat) => (1 : ℝ) + i * ((0.2 - 1) / ((((path.length : ℕ) : ℤ) : ℝ) - 1)) with ha
  have hl : linspace 1 0.2 (path.length : ℤ) = .ok alpha := by
    rw [linspace, if_neg (by omega), Int.toNat_natCast]
  obtain ⟨drawn, st, h1, h2, h3⟩ := plotConfigs_ok hk h0 path alpha _ hw (by simp [ha]) hp
  have hop : ∀ (i : Nat) a segs, drawn[i]? = some (a, segs) → i < path.length ∧
      a = 1 - 0.8 * i / ((path.length : ℝ) - 1) := by
    intro i a segs hi
    have hi' := (h3 i a segs hi).1
    rw [ha, List.getElem?_map] at hi'
    obtain ⟨k, hk, rfl⟩ := Option.map_eq_some_iff.1 hi'
    obtain ⟨hk1, hk2⟩ := List.getElem?_eq_some_iff.1 hk
    rw [List.getElem_range] at hk2
    subst hk2
    rw [List.length_range] at hk1
    refine ⟨hk1, ?_⟩
    push_cast
    ring
  refine ⟨drawn, st, by rw [plotPath, hl]; exact h1, h2, ?_, ?_, ?_, ?_⟩
  · intro i q a segs hq hd
    obtain ⟨-, q', hq', h4⟩ := h3 i a segs hd
    rw [hq] at hq'
    cases hq'
    exact ⟨h4 _ hw, (hop i a segs hd).2⟩
  · intro a segs hd
    rw [(hop 0 a segs hd).2]
    simp
  · intro a segs hn hd
    rw [(hop _ a segs hd).2, Nat.cast_sub hn.le, Nat.cast_one]
    have : (path.length : ℝ) - 1 ≠ 0 := by
      have : (1 : ℝ) < path.length := by exact_mod_cast hn
      linarith
    rw [mul_div_assoc, div_self this]
    norm_num
  · intro i j a b segs segs' hij hi hj
    obtain ⟨-, rfl⟩ := hop i a segs hi
    obtain ⟨hj', rfl⟩ := hop j b segs' hj
    have hn : (0 : ℝ) < (path.length : ℝ) - 1 := by
      have : (1 : ℝ) < path.length := by exact_mod_cast (by omega : 1 < path.length)
      linarith
    have hij' : (i : ℝ) < j := by exact_mod_cast hij
    have := div_lt_div_of_pos_right (mul_lt_mul_of_pos_left hij' (by norm_num : (0 : ℝ) < 0.8)) hn
    linarith

/-- Three configurations of the robot `cubes`: the opacities are 1, 0.6 and 0.2. -/
example (hit : Oracle Shape) : ∃ d1 d2 d3 st,
    plotPath cubes [[1], [2], [3]] (after hit cubes.links []) =
      (.ok [(1, d1), (0.6, d2), (0.2, d3)], st) := by
  obtain ⟨drawn, st, h1, h2, h3, -⟩ := C106 hit cubes cubes_known [] (by simp) [[1], [2], [3]]
    (by simp [cubes, Robot.new]) (.inr (by simp [cubes, Robot.new]))
  match drawn, h2 with
  | [(a1, d1), (a2, d2), (a3, d3)], _ =>
    refine ⟨d1, d2, d3, st, ?_⟩
    rw [h1, (h3 0 _ _ _ rfl rfl).2, (h3 1 _ _ _ rfl rfl).2, (h3 2 _ _ _ rfl rfl).2]
    norm_num

end

end Verif.Props
