import Verif.Props.Solve

/-!
# C99-C102: the frames a planner tries, the start of the optimisation, discretise and
is_in_collision_multi
-/

set_option linter.unusedSectionVars false

namespace Verif.Props

open Verif Verif.Path Verif.Geometry Verif.Kin Verif.ShortestPath Verif.Task Verif.CppGraph
  Verif.Search Verif.Planning Verif.SampleSO3

noncomputable section

variable {W S C O : Type} [CostArith C] [JointArith ℝ C] {Inv : W → Prop} {arm : Arm W S}
  {scene : Collection S} {ikf : M4 → Option (List Config)} {hit : Config → Bool} {d : Nat}
  {fkf : Config → M4}

/-! ## C99: the frames that are tried -/

/-- The frame at `p` turned by the rotation belonging to three random numbers. -/
def freeFrame (u : ℝ × ℝ × ℝ) (p : V3) : M4 := mkTf (quatOf u.1 u.2.1 u.2.2).rotationMatrix p

theorem free_samples (dr : Draws) (n : Nat) (dist : Option ℝ) (p : FreeOrientationPt) :
    getSamples dr n dist (.free p) =
      .ok ((List.range n).map fun (j : Nat) => freeFrame (dr.rnd j) p.p) := by
  have : p.getSamples dr.root dr.fuel dr.rnd n (some .transform) none =
      (FreeOrientationPt.new p.p).getSamples dr.root dr.fuel dr.rnd n (some .transform) none := rfl
  simp only [getSamples]
  rw [this, C50_rotation]
  rfl

theorem orientation_frames (near : Quat → ℝ → Nat → Quat) (p : V3) (o : Quat) (n : Nat) (dist : ℝ) :
    (TolOrientationPt.mk p o).getSamples (some near) n dist =
      .ok ((List.range n).map fun (j : Nat) => mkTf (near o dist j).rotationMatrix p) := by
  simp only [TolOrientationPt.getSamples]
  rw [ShortestPath.mapM_ok _ _ (fun (i : Nat) => (near o dist i).transformationMatrix)
    (fun _ _ => rfl)]
  simp only [bind, Except.bind, List.map_map]
  congr 1
  refine List.map_congr_left fun j _ => ?_
  simp only [Function.comp, Quat.transformationMatrix, Kin.setPos_mkTf]

theorem orientation_samples {dr : Draws} {n : Nat} {dist : ℝ} {p : V3} {o : Quat} {Ts : List M4}
    (h : getSamples dr n (some dist) (.orientation ⟨p, o⟩) = .ok Ts) {T : M4} (hT : T ∈ Ts) :
    ∃ (near : Quat → ℝ → Nat → Quat) (j : Nat), dr.near = some near ∧ j < n ∧
      T = mkTf (near o dist j).rotationMatrix p := by
  have h : (TolOrientationPt.mk p o).getSamples dr.near n dist = .ok Ts := liftPy_ok h
  rcases Nat.eq_zero_or_pos n with rfl | hn
  · cases h
    cases hT
  cases hd : dr.near with
  | none =>
    rw [hd, C50_tolOrientation_stock _ hn] at h
    cases h
  | some f =>
    rw [hd, orientation_frames] at h
    cases h
    obtain ⟨j, hj, rfl⟩ := List.mem_map.1 hT
    exact ⟨f, j, rfl, List.mem_range.1 hj, rfl⟩

/-- **C99**, the iterative planner: every configuration of round 0 is a collision-free solution for
the path point turned by one of the `n` rotations drawn for it; every configuration of round `k + 1`
is one for the frame of the same point's configuration in round `k`, turned to one of the `n`
rotations drawn within the distance π/4/2^(k+1) of it. -/
theorem C99_iterative (h : Determined arm scene Inv ikf hit d)
    (hfk : ∀ q, q.length = d → Yields Inv (arm.fk q) (· = fkf q)) (pq : PQ C Config) (conv : ℝ → ℝ)
    (draws : Nat → Nat → Draws) (n : Nat) (ps : List FreeOrientationPt) (time : Nat → ℝ)
    (maxIters : Nat) {w w' : W} (hw : Inv w) {r : IterRes C}
    (hr : cartToJointIterative arm pq conv draws time (ps.map .free) scene n maxIters w = (.ok r, w'))
    (hs : r.success = true) :
    ∃ paths, r.paths = some paths ∧ paths.length = maxIters ∧
      ∀ (k i : Nat) (p : List Config) (q : Config), paths[k]? = some p → p[i]? = some q →
        ∃ (T : M4) (sols : List Config) (q' : Config), ikf T = some sols ∧ q' ∈ sols ∧
          hit q' = false ∧ q = q'.map conv ∧
          (k = 0 → ∃ (pt : FreeOrientationPt) (j : Nat), ps[i]? = some pt ∧ j < n ∧
            T = freeFrame ((draws 0 i).rnd j) pt.p) ∧
          ∀ k', k = k' + 1 → ∃ (before : List Config) (q₀ : Config) (o : Quat)
            (near : Quat → ℝ → Nat → Quat) (j : Nat), paths[k']? = some before ∧
            before[i]? = some q₀ ∧ Quat.ofRotation (rotPart (fkf q₀)) = .ok o ∧
            (draws k i).near = some near ∧ j < n ∧
            T = mkTf (near o (Real.pi / 4 / 2 ^ k) j).rotationMatrix (posPart (fkf q₀)) := by
  obtain ⟨costs, paths, times, -, e2, -, -, e5, -, -, -, e9⟩ :=
    C64 h hfk pq conv draws n ps time maxIters hw hr hs
  refine ⟨paths, e2, e5, fun k i p q hp hq => ?_⟩
  obtain ⟨tp, Ts, T, sols, q', h1, h2, h3, h4, h5, h6, h7⟩ := (e9 k p hp).2 i q hq
  refine ⟨T, sols, q', h4, h5, h6, h7, ?_, ?_⟩
  · rintro rfl
    obtain ⟨pt, hpt, rfl⟩ := h1
    rw [free_samples] at h2
    cases h2
    obtain ⟨j, hj, rfl⟩ := List.mem_map.1 h3
    exact ⟨pt, j, hpt, List.mem_range.1 hj, rfl⟩
  · rintro k' rfl
    obtain ⟨before, q₀, o, f1, f2, f3, rfl⟩ := h1
    obtain ⟨near, j, g1, g2, g3⟩ := orientation_samples h2 h3
    exact ⟨before, q₀, o, near, j, f1, f2, f3, g1, g2, g3⟩

/-- **C99**, `solve()` of a fresh task whose points have free orientation: it uses the grid planner
with 500 orientations per point; a successful answer has one configuration per point, each the
rounding of a collision-free solution for the point turned by one of the 500 rotations. -/
theorem C99_grid (h : Determined arm scene Inv ikf hit d) (pq : PQ C Config) (conv : ℝ → ℝ)
    (draws : Nat → Nat → Draws) (time : Nat → ℝ) (fuel : Nat)
    (optimal : List PathPt → Collection S → Nat → List (List ℝ) → Run W O) (ps : List V3)
    {w w' : W} (hw : Inv w) {r : SolveRes C O}
    (hr : PlanningTask.solve (PlanningTask.new (ps.map fun p => .free (.new p)) (some scene)) arm pq
      conv draws time fuel optimal none w = (.ok r, w')) :
    ∃ pr : PlanRes ℝ C, r = .plan pr ∧ (pr.success = true → ∃ path, pr.path = some path ∧
      path.length = ps.length ∧
      ∀ (i : Nat) (q : Config) (p : V3), path[i]? = some q → ps[i]? = some p →
        ∃ (j : Nat) (sols : List Config) (q' : Config), j < 500 ∧
          ikf (freeFrame ((draws 0 i).rnd j) p) = some sols ∧ q' ∈ sols ∧ hit q' = false ∧
          q = q'.map conv) := by
  obtain ⟨pr, h1, h2⟩ := C66_reach (Reach := fun q T => ∃ sols, ikf T = some sols ∧ q ∈ sols) h
    (fun T sols q a b _ => ⟨sols, a, b⟩)
    (PlanningTask.new (ps.map fun p => .free (.new p)) (some scene)) rfl pq conv draws time fuel
    optimal rfl hw hr
  refine ⟨pr, h1, fun hs => ?_⟩
  obtain ⟨path, e1, e2, e3⟩ := h2 hs
  refine ⟨path, e1, by simpa [PlanningTask.new] using e2, fun i q p hq hp => ?_⟩
  obtain ⟨tp, Ts, q', f1, f2, f3, f4, T, f5, sols, f6, f7⟩ := e3 i q hq
  simp only [PlanningTask.new, List.getElem?_map, hp, Option.map_some, Option.some.injEq] at f1
  subst f1
  rw [free_samples, Except.ok.injEq] at f2
  rw [← f2] at f5
  obtain ⟨j, hj, rfl⟩ := List.mem_map.1 f5
  exact ⟨j, sols, q', List.mem_range.1 hj, f6, f7, f4, f3⟩

/-- **C99**, the other direction: when for every point one of the 500 rotations has a
collision-free solution, `solve()` of the fresh task succeeds. -/
theorem C99_grid_succeeds (h : Determined arm scene Inv ikf hit d) {pq : PQ C Config}
    (hl : Lawful pq) (hno : PyGraph.NoOverflow C)
    (hfin : ∀ x y : Config, stepCost C (effWeights C d []) x y < ⊤) (conv : ℝ → ℝ)
    (draws : Nat → Nat → Draws) (time : Nat → ℝ) (fuel : Nat)
    (optimal : List PathPt → Collection S → Nat → List (List ℝ) → Run W O) {ps : List V3}
    (hne : ps ≠ [])
    (hex : ∀ (i : Nat) (p : V3), ps[i]? = some p → ∃ (j : Nat) (sols : List Config) (q : Config),
      j < 500 ∧ ikf (freeFrame ((draws 0 i).rnd j) p) = some sols ∧ q ∈ sols ∧ hit q = false) :
    ∃ path c, Returns Inv (PlanningTask.solve
      (PlanningTask.new (ps.map fun p => .free (.new p)) (some scene)) arm pq conv draws time fuel
      optimal none) (.plan ⟨true, some path, some c⟩) := by
  set t : PlanningTask S := PlanningTask.new (ps.map fun p => .free (.new p)) (some scene) with ht
  let samples : List (List M4) := ps.zipIdx.map fun pi =>
    (List.range 500).map fun (j : Nat) => freeFrame ((draws 0 pi.2).rnd j) pi.1
  have hs : SamplesOf (draws 0) t.gridSamples t.path samples := by
    refine ⟨by simp [samples, ht, PlanningTask.new], fun i tp Ts h1 h2 => ?_⟩
    simp only [ht, PlanningTask.new, List.getElem?_map, Option.map_eq_some_iff] at h1
    obtain ⟨p, hp, rfl⟩ := h1
    simp only [samples, List.getElem?_map, List.getElem?_zipIdx, hp, Option.map_some,
      Option.some.injEq] at h2
    subst h2
    rw [free_samples]
    simp only [Nat.zero_add, ht, PlanningTask.new, FreeOrientationPt.new]
  obtain ⟨path, c, h1, -⟩ := C66_succeeds h hl hno hfin t rfl (by simpa [ht, PlanningTask.new] using hne)
    conv draws time fuel optimal hs (by
      intro Ts hTs
      obtain ⟨⟨p, i⟩, hpi, rfl⟩ := List.mem_map.1 hTs
      have hp : ps[i]? = some p := by
        have := List.mem_zipIdx_iff_getElem?.1 hpi
        simpa using this
      obtain ⟨j, sols, q, e1, e2, e3, e4⟩ := hex i p hp
      exact ⟨_, List.mem_map.2 ⟨j, List.mem_range.2 e1, rfl⟩, sols, e2, q, e3, e4⟩)
  refine ⟨path, c, ?_⟩
  rw [(C65_dispatch_partial t rfl arm pq conv draws time fuel optimal (Inv := Inv)).2.2.2.2]
  exact h1

/-- **C99**, `solve(robot, "grid_iterative")` of a fresh task: a successful answer reports three
rounds, and the configurations of the first round are collision-free solutions for the path point
turned by one of 500 rotations (those of the later rounds are described in `C99_iterative`). -/
theorem C99_grid_iterative (h : Determined arm scene Inv ikf hit d)
    (hfk : ∀ q, q.length = d → Yields Inv (arm.fk q) (· = fkf q)) (pq : PQ C Config) (conv : ℝ → ℝ)
    (draws : Nat → Nat → Draws) (time : Nat → ℝ) (fuel : Nat)
    (optimal : List PathPt → Collection S → Nat → List (List ℝ) → Run W O)
    (ps : List V3) {w w' : W} (hw : Inv w) {r : SolveRes C O}
    (hr : PlanningTask.solve (PlanningTask.new (ps.map fun p => .free (.new p)) (some scene)) arm pq
      conv draws time fuel optimal (some "grid_iterative") w = (.ok r, w')) :
    ∃ ir : IterRes C, r = .iter ir ∧ (ir.success = true →
      ∃ p₀ p₁ p₂, ir.paths = some [p₀, p₁, p₂] ∧ ir.path = some p₂ ∧ p₀.length = ps.length ∧
        p₁.length = ps.length ∧ p₂.length = ps.length ∧
        ∀ (i : Nat) (q : Config), p₀[i]? = some q → ∃ (p : V3) (j : Nat) (sols : List Config)
          (q' : Config), ps[i]? = some p ∧ j < 500 ∧
            ikf (freeFrame ((draws 0 i).rnd j) p) = some sols ∧ q' ∈ sols ∧ hit q' = false ∧
            q = q'.map conv) := by
  unfold PlanningTask.solve at hr
  simp only [Option.getD_some] at hr
  rw [if_neg (by simp), if_pos trivial] at hr
  simp only [bind, Run.bind, Run.lift, sceneOf, PlanningTask.new] at hr
  have hmap : (ps.map fun p => PathPt.free (.new p)) =
      (ps.map fun p => FreeOrientationPt.new p).map .free := by
    rw [List.map_map]
    rfl
  rw [hmap] at hr
  cases hc : cartToJointIterative arm pq conv draws time
      ((ps.map fun p => FreeOrientationPt.new p).map .free) scene 500 3 w with
  | mk a w₁ =>
    rw [hc] at hr
    cases a with
    | error e => cases hr
    | ok ir =>
      cases hr
      refine ⟨ir, rfl, fun hs => ?_⟩
      obtain ⟨-, paths, -, -, e2, -, -, e5, -, e7, -, e9⟩ :=
        C64 h hfk pq conv draws 500 _ time 3 hw hc hs
      obtain ⟨paths', f1, -, f3⟩ := C99_iterative h hfk pq conv draws 500 _ time 3 hw hc hs
      obtain rfl : paths = paths' := Option.some.inj (e2.symm.trans f1)
      match paths, e5 with
      | [p₀, p₁, p₂], _ =>
        have hl := fun k p hk => (e9 k p hk).1
        simp only [List.length_map] at hl
        refine ⟨p₀, p₁, p₂, e2, e7, hl 0 _ rfl, hl 1 _ rfl, hl 2 _ rfl, fun i q hq => ?_⟩
        obtain ⟨T, sols, q', g1, g2, g3, g4, g5, -⟩ := f3 0 i p₀ q rfl hq
        obtain ⟨pt, j, k1, k2, rfl⟩ := g5 rfl
        rw [List.getElem?_map, Option.map_eq_some_iff] at k1
        obtain ⟨p, hp, rfl⟩ := k1
        exact ⟨p, j, sols, q', hp, k2, g1, g2, g3, g4⟩

/-- A robot that reaches every frame with the configuration `[1]`, in a scene with a box: the fresh
task with the points at 0 and at (1,1,1) is solved. -/
example (draws : Nat → Nat → Draws) (time : Nat → ℝ) (fuel : Nat) :
    ∃ (arm : Arm Unit Shape) (path : List Config) (c : WithTop ℝ),
      (PlanningTask.solve (PlanningTask.new ([0, ![1, 1, 1]].map fun p => .free (.new p))
        (some ⟨[⟨1, 1, 1⟩], [1]⟩)) arm (stdHeap : PQ (WithTop ℝ) Config) id draws time fuel
        (fun _ _ _ _ => pure ()) none ()).1 = .ok (.plan ⟨true, some path, some c⟩) := by
  let arm : Arm Unit Shape := ⟨fun _ => pure (some [[1]]), fun _ _ => pure none,
    fun _ _ => pure false, fun _ => pure 1⟩
  have hdet : Determined arm ⟨[⟨1, 1, 1⟩], [1]⟩ (fun _ => True) (fun _ => some [[1]])
      (fun _ => false) 1 :=
    ⟨fun T => Returns.pure _, fun T sols hs q hq => by
      cases hs
      rw [List.mem_singleton.1 hq]
      rfl, fun q _ => Returns.pure _⟩
  obtain ⟨path, c, h⟩ := C99_grid_succeeds (ps := [0, ![1, 1, 1]]) hdet
    (pq := (stdHeap : PQ (WithTop ℝ) Config)) stdHeapLawful noOverflow_real
    (fun x y => stepCost_real _ x y) id draws time fuel (fun _ _ _ _ => pure ()) (by simp)
    (fun i p _ => ⟨0, _, [1], by norm_num, rfl, by simp, rfl⟩)
  obtain ⟨w, hw, -⟩ := h () trivial
  exact ⟨arm, path, c, by rw [hw]⟩

/-! ## C100: the start of the optimisation -/

/-- The optimiser started by `solve(robot, "optimization")` of task `t` gets the start value `q`, the
path, the scene and 100 iterations, and `solve` returns its answer. -/
def StartsAt (t : PlanningTask S) (path : List PathPt) (scene : Collection S)
    (q : List (List ℝ)) : Prop :=
  ∀ (W C O : Type) [CostArith C] [JointArith ℝ C] (arm : Arm W S) (pq : PQ C Config) (conv : ℝ → ℝ)
    (draws : Nat → Nat → Draws) (time : Nat → ℝ) (fuel : Nat)
    (optimal : List PathPt → Collection S → Nat → List (List ℝ) → Run W O) (w : W),
    PlanningTask.solve t arm pq conv draws time fuel optimal (some "optimization") w =
      ((optimal path scene 100 q w).1.map .opt, (optimal path scene 100 q w).2)

theorem startsAt (t : PlanningTask S) (hsc : t.scene = some scene) (hm : t.optBasedMaxIters = 100) :
    StartsAt t t.path scene t.qpInit := by
  intro W C O _ _ arm pq conv draws time fuel optimal w
  unfold PlanningTask.solve
  simp only [Option.getD_some]
  rw [if_neg (by simp), if_neg (by simp), if_pos trivial, ← hm]
  simp only [bind, Run.bind, Run.lift, sceneOf, hsc]
  cases h : optimal t.path scene t.optBasedMaxIters t.qpInit w with
  | mk a w' => cases a <;> rfl

/-- **C100**: a fresh task starts the optimiser with six zeros per path point.  A vector handed to
`set_initial_path` becomes the start for every point; a matrix is accepted exactly when it has one
row per point, and is then the start; arrays of other dimensions raise.  A refused array leaves
nothing behind: the calls raise AssertionError and Exception. -/
theorem C100 (path : List PathPt) (scene : Collection S) :
    StartsAt (PlanningTask.new path (some scene)) path scene
      (path.map fun _ => [0, 0, 0, 0, 0, 0]) ∧
    ∀ t : PlanningTask S, t.path = path → t.scene = some scene → t.optBasedMaxIters = 100 →
      (∀ q, ∃ t', t.setInitialPath (.vec q) = .ok t' ∧ StartsAt t' path scene (path.map fun _ => q) ∧
        t'.path = path ∧ t'.scene = some scene) ∧
      (∀ q, q.length = path.length → ∃ t', t.setInitialPath (.mat q) = .ok t' ∧
        StartsAt t' path scene q ∧ t'.path = path ∧ t'.scene = some scene) ∧
      (∀ q, q.length ≠ path.length → t.setInitialPath (.mat q) = .error .assertionError) ∧
      t.setInitialPath .other = .error .exception := by
  constructor
  · have := startsAt (PlanningTask.new path (some scene)) rfl rfl
    rwa [show (PlanningTask.new path (some scene)).qpInit = path.map fun _ => [0, 0, 0, 0, 0, 0] from
      List.map_const'.symm] at this
  · rintro t rfl h2 h3
    refine ⟨fun q => ?_, fun q hq => ?_, fun q hq => ?_, rfl⟩
    · refine ⟨_, rfl, ?_, rfl, h2⟩
      rw [List.map_const']
      exact startsAt { t with qpInit := List.replicate t.path.length q } h2 h3
    · refine ⟨{ t with qpInit := q }, ?_, ?_, rfl, h2⟩
      · simp only [PlanningTask.setInitialPath, if_pos hq]
      · exact startsAt { t with qpInit := q } h2 h3
    · simp only [PlanningTask.setInitialPath, if_neg hq]

/-! ## C101: discretise -/

/-- **C101**: `discretise` of a point with free orientation gives 100 rows, each the position
followed by the three angles of one of 100 drawn rotations; `discretise` of a point with a tolerance
on its orientation gives 100 frames at the point, the rotations drawn within distance 1/10. -/
theorem C101 (root : Nat → Nat) (fuel : Nat) (rnd : Nat → ℝ × ℝ × ℝ) (p : V3) (o : Quat)
    (near : Quat → ℝ → Nat → Quat) :
    (∃ as : List V3, sampleSO3 root fuel rnd 100 .rpy .random = .ok (.rpys as) ∧ as.length = 100 ∧
      (FreeOrientationPt.new p).discretise root fuel rnd =
        .ok (.points (as.map fun a => [p 0, p 1, p 2, a 0, a 1, a 2]))) ∧
    (TolOrientationPt.mk p o).discretise (some near) =
      .ok ((List.range 100).map fun (j : Nat) => mkTf (near o (1 / 10) j).rotationMatrix p) ∧
    (TolOrientationPt.mk p o).discretise none = .error .attributeError := by
  refine ⟨?_, ?_, C50_tolOrientation_stock _ (n := 100) (by norm_num) _⟩
  · obtain ⟨as, h1, h2, h3⟩ := (C50_rpy root fuel rnd p 100).1 (by norm_num)
    exact ⟨as, h1, h2, h3⟩
  · exact orientation_frames near p o 100 (1 / 10)

/-! ## C102: is_in_collision_multi -/

/-- The full property: the method answers whether the shape touches one of the others. -/
def C102_statement : Prop := ∀ (s : Shape) (others : List Shape),
  ∃ b, shapeInCollisionMulti s others = .ok b

/-- **C102** is false: with any other shape the call raises TypeError, as the call in the loop lacks
the transforms. -/
theorem C102_raises (s : S) {others : List S} (h : others ≠ []) :
    shapeInCollisionMulti s others = .error .typeError := by
  cases others with
  | nil => exact absurd rfl h
  | cons a l => rfl

theorem C102_refuted : ¬ C102_statement := by
  intro h
  obtain ⟨b, hb⟩ := h ⟨1, 1, 1⟩ [⟨2, 1, 1⟩]
  rw [C102_raises _ (by simp)] at hb
  cases hb

/-- **C102**, what holds: among no shapes none is touched.  Missing: every other list
(`C102_raises`). -/
theorem C102_partial (s : S) : shapeInCollisionMulti s [] = .ok false := rfl

end

end Verif.Props
