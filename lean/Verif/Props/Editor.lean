import Verif.Props.Gui

/-!
# C97, C98: what the editor plans for redundant robots, which files it reads and what it logs
-/

set_option linter.unusedSectionVars false

namespace Verif.Props

open Matrix Verif.Geometry Verif.Kin Verif.Plot Verif.Path Verif.Planning Verif.ShortestPath
  Verif.Search Verif.CppGraph Verif.Gui Verif.Spec

variable {V C : Type} [CostArith C] [JointArith ℝ C]

/-- C97. For a robot with more than six joints, right after a successful "Plan" the solution has
one configuration per path point: each is the float32 rounding of a solution of the inverse
kinematics, free of collisions with the scene, for the last sample of the point, with the redundant
joint at one of the ten values `-1/2, -1/2 + 1/9, …, 1/2`. -/
theorem C97_redundant {pq : PQ C Config} {r : Robot Shape} (h7 : 7 ≤ r.links.length)
    {arm : Arm (RState × V) Shape} {sc : Collection Shape} {Inv : RState × V → Prop}
    {ikq : M4 → Config → Option (List Config)} {hit : Config → Bool} {n : Nat}
    (h : DeterminedFixed arm sc Inv ikq hit n) (conv : ℝ → ℝ) (wdir : String) (d : Nat → Draws)
    {e : Editor V} (he : e.scene = some sc) (hI : Inv e.rob) {samples : List (List M4)}
    (hs : DiscretisedTo d e.path samples) (hne : ∀ Ts ∈ samples, Ts ≠ [])
    (hok : (callback pq r arm conv wdir (.plan d) e).1 = .ok ()) :
    ∃ p, (callback pq r arm conv wdir (.plan d) e).2.currentSolution = some p ∧
      p.length = e.path.length ∧
      ∀ (i : Nat) (q : Config), p[i]? = some q → ∃ (Ts : List M4) (T : M4) (k : Nat)
        (sols : List Config) (q' : Config), samples[i]? = some (Ts ++ [T]) ∧ k ≤ 9 ∧
        ikq T [-(1 / 2) + k / 9] = some sols ∧ q' ∈ sols ∧ hit q' = false ∧ q = q'.map conv := by
  simp only [callback] at hok ⊢
  obtain ⟨Q, res, p, hQ, hg, hp⟩ := (plan_iff pq r arm conv d e).1 hok
  have hcols := (planQ_columns r arm conv d e.path e.scene e.rob trivial Q _ (Prod.ext hQ rfl)).1
  obtain ⟨p', c, rfl, hsel⟩ := getShortestPath_selection hcols.2 hg (getShortestPath_path hg hp)
  cases hp
  have hq2 : (cartToJointSimple arm conv d e.path sc qfSamples e.rob).1 = .ok Q := by
    rw [← hQ, he]
    unfold planQ
    rw [if_pos (by omega)]
    rfl
  obtain ⟨Q', hQ', _, hcol⟩ := C60_last h conv qfSamples hs hne
  obtain ⟨w, hw, _⟩ := hQ' e.rob hI
  have hQQ : Q' = Q := by
    rw [hw] at hq2
    exact Except.ok.inj hq2
  subst hQQ
  obtain ⟨hlen, hget⟩ := selection_get hsel
  refine ⟨p, ?_, by rw [hlen, List.length_map, hcols.1], fun i q hq => ?_⟩
  · unfold Gui.plan
    simp only [Editor.log, hQ, hg]
  · obtain ⟨col, hc, hm⟩ := hget i q hq
    have hi : i < samples.length := by
      rw [hs.1, ← hcols.1, ← List.length_map (f := PyCol.rows), ← hlen]
      exact (List.getElem?_eq_some_iff.1 hq).1
    have hTs : samples[i]? = some samples[i] := List.getElem?_eq_getElem hi
    have hsplit := List.dropLast_append_getLast (hne samples[i] (List.getElem_mem hi))
    rw [← hsplit] at hTs
    obtain ⟨c', h1, h2, _⟩ := hcol i _ _ hTs
    rw [List.getElem?_map, h1, Option.map_some, Option.some.injEq] at hc
    rw [← hc, h2] at hm
    obtain ⟨q', hq', rfl⟩ := List.mem_map.1 hm
    obtain ⟨qf, hqf, hq'⟩ := List.mem_flatMap.1 hq'
    obtain ⟨k, hk, rfl⟩ := List.mem_map.1 hqf
    rw [List.mem_range] at hk
    obtain ⟨hq', hh⟩ := List.mem_filter.1 hq'
    have hval : (-(1 / 2 : ℝ) + k * ((1 / 2 - -(1 / 2)) / ((10 : ℝ) - 1))) = -(1 / 2) + k / 9 := by
      ring
    rw [hval] at hq'
    cases hsol : ikq (samples[i].getLast (hne samples[i] (List.getElem_mem hi)))
        [-(1 / 2) + (k : ℝ) / 9] with
    | none =>
      rw [hsol] at hq'
      simp at hq'
    | some sols =>
      rw [hsol] at hq'
      exact ⟨_, _, k, sols, q', hTs, by omega, hsol, hq', by simpa using hh, rfl⟩

/-- C97, when: "Plan" does succeed for such a robot when a path has been loaded and the last sample
of every point has a solution free of collisions at one of the ten values. -/
theorem C97_plans {pq : PQ C Config} (hl : Lawful pq) (hno : PyGraph.NoOverflow C)
    (hfin : ∀ (w : List ℝ) (x y : Config), stepCost C w x y < ⊤)
    {r : Robot Shape} (h7 : 7 ≤ r.links.length)
    {arm : Arm (RState × V) Shape} {sc : Collection Shape} {Inv : RState × V → Prop}
    {ikq : M4 → Config → Option (List Config)} {hit : Config → Bool} {n : Nat}
    (h : DeterminedFixed arm sc Inv ikq hit n) (conv : ℝ → ℝ) (wdir : String) (d : Nat → Draws)
    {e : Editor V} (he : e.scene = some sc) (hI : Inv e.rob) (hpath : e.path ≠ [])
    {samples : List (List M4)} (hs : DiscretisedTo d e.path samples)
    (hex : ∀ Ts ∈ samples, ∃ T, Ts.getLast? = some T ∧ ∃ k : Nat, k ≤ 9 ∧
      ∃ sols, ikq T [-(1 / 2) + k / 9] = some sols ∧ ∃ q ∈ sols, hit q = false) :
    (callback pq r arm conv wdir (.plan d) e).1 = .ok () := by
  have hne : ∀ Ts ∈ samples, Ts ≠ [] := by
    rintro Ts hT rfl
    obtain ⟨T, h, _⟩ := hex [] hT
    simp at h
  set Q := samples.map fun Ts => colOf conv n (simpleFree ikq hit qfSamples (Ts.getLast?.getD 1))
    with hQ
  have hcol : ∀ c ∈ Q, ∃ rows, c = .arr true n rows ∧ rows ≠ [] ∧ ∀ x ∈ rows, x.length = n := by
    intro c hc
    obtain ⟨Ts, hTs, rfl⟩ := List.mem_map.1 hc
    obtain ⟨T, hT, k, hk, sols, h1, q, h2, h3⟩ := hex Ts hTs
    have hf : simpleFree ikq hit qfSamples (Ts.getLast?.getD 1) ≠ [] := by
      refine List.ne_nil_of_mem (a := q) (List.mem_flatMap.2 ⟨[-(1 / 2) + k / 9], ?_, ?_⟩)
      · refine List.mem_map.2 ⟨k, by rw [List.mem_range]; omega, ?_⟩
        congr 1
        ring
      · rw [hT, Option.getD_some, h1]
        exact List.mem_filter.2 ⟨h2, by rw [h3]; rfl⟩
    refine ⟨_, by rw [colOf, if_neg hf], by simpa using hf, fun x hx => ?_⟩
    obtain ⟨q', hq', rfl⟩ := List.mem_map.1 hx
    rw [List.length_map]
    exact simpleFree_dof h q' hq'
  have hin : InputOK n Q := by
    refine ⟨?_, fun c hc => ?_, fun _ c hc => ?_⟩
    · intro he
      have : samples = [] := by simpa [hQ] using he
      have h0 := hs.1
      rw [this] at h0
      exact hpath (List.length_eq_zero_iff.1 h0.symm)
    · obtain ⟨rows, rfl, h1, h2⟩ := hcol c hc
      exact ⟨rfl, h1, h2⟩
    · obtain ⟨rows, rfl, h1, h2⟩ := hcol c hc
      rfl
  obtain ⟨p, c, h1, -, -⟩ := C11_dijkstra_sound hno pq hl conv n Q hin (some [1, 1, 1, 1, 1, 1, 1])
    _ rfl (fun x _ y _ => hfin _ x y)
  have hr := simpleLoop_returns h conv d qfSamples e.path samples hne 0 (by simpa using hs) none []
  rw [List.nil_append] at hr
  obtain ⟨w, hw, -⟩ := hr e.rob hI
  refine (plan_iff pq r arm conv d e).2 ⟨Q, _, p, ?_, h1, rfl⟩
  rw [he]
  unfold planQ
  rw [if_pos (by omega)]
  exact (congrArg Prod.fst hw)

/-- A robot with seven joints on a rail, in a scene with a box, and a path of one point: "Plan"
succeeds and the redundant joint has one of the ten values. -/
example : ∃ (e : Editor Unit) (arm : Arm (RState × Unit) Shape) (r : Robot Shape)
    (d : Nat → Draws) (p : List Config),
    (callback (stdHeap : PQ (WithTop ℝ) Config) r arm id "" (.plan d) e).2.currentSolution = some p ∧
    p.length = 1 ∧ ∀ q ∈ p, ∃ k : Nat, k ≤ 9 ∧ q = [-(1 / 2) + (k : ℝ) / 9, 0, 0, 0, 0, 0, 0] := by
  obtain ⟨pt, T, h1, -, h2, -⟩ := C47_no_tolerance 0 0
  let link : Link Shape := ⟨⟨1, 0, 0, 0⟩, .r, ⟨[], []⟩⟩
  let r : Robot Shape := Robot.new [link, link, link, link, link, link, link]
  let arm : Arm (RState × Unit) Shape :=
    ⟨fun _ => pure none, fun _ qf => pure (some [[qf.headD 0, 0, 0, 0, 0, 0, 0]]),
      fun _ _ => pure false, fun _ => pure 1⟩
  let sc : Collection Shape := ⟨[⟨1, 1, 1⟩], [1]⟩
  let e : Editor Unit := { Editor.new (RState.new 7, ()) with
    scene := some sc, paths := [[.euler pt]], path := [.euler pt] }
  let d : Nat → Draws := fun _ => ⟨fun n => n, 0, fun _ => (0, 0, 0), none⟩
  have hdet : DeterminedFixed arm sc (fun _ => True)
      (fun _ qf => some [[qf.headD 0, 0, 0, 0, 0, 0, 0]]) (fun _ => false) 7 :=
    ⟨fun T qf => Returns.pure _, fun T qf sols hs q hq => by
      cases hs
      rw [List.mem_singleton.1 hq]
      rfl, fun q _ => Returns.pure _⟩
  have hs : DiscretisedTo d e.path [[T]] := by
    refine ⟨rfl, fun i tp Ts e1 e2 => ?_⟩
    cases i with
    | zero =>
      cases e1
      cases e2
      show liftPy (pt.getSamples.map _) = _
      rw [h2]
      rfl
    | succ i => simp at e2
  have hok := C97_plans (pq := (stdHeap : PQ (WithTop ℝ) Config)) stdHeapLawful noOverflow_real
    stepCost_real (r := r) (by simp [r, Robot.new]) hdet id "" d (e := e) rfl trivial (by simp [e]) hs
    (by
      intro Ts hTs
      rw [List.mem_singleton.1 hTs]
      exact ⟨T, rfl, 0, by omega, _, rfl, _, List.mem_singleton.2 rfl, rfl⟩)
  obtain ⟨p, e1, e2, e3⟩ := C97_redundant (r := r) (by simp [r, Robot.new]) hdet id "" d (e := e) rfl
    trivial hs (by simp) hok
  refine ⟨e, arm, r, d, p, e1, e2, fun q hq => ?_⟩
  obtain ⟨i, hi⟩ := List.mem_iff_getElem?.1 hq
  obtain ⟨Ts, T, k, sols, q', -, hk, f1, f2, -, rfl⟩ := e3 i q hi
  refine ⟨k, hk, ?_⟩
  cases f1
  rw [List.mem_singleton.1 f2]
  simp

/-! ### files -/

/-- The name in the scene box: the last one submitted, at first the default. -/
def sceneName (evs : List Event) : String :=
  evs.foldl (fun n ev => match ev with
    | .submitFileName m => m
    | _ => n) "scenes/path_in_box.urdf"

/-- The name in the paths box. -/
def pathsName (evs : List Event) : String :=
  evs.foldl (fun n ev => match ev with
    | .submitPathFileName m => m
    | _ => n) "tasks/path_in_box.json"

theorem plotSetup_names (r : Robot Shape) (e : Editor V) :
    (plotSetup r e).2.filename = e.filename ∧ (plotSetup r e).2.pathsFilename = e.pathsFilename ∧
      (plotSetup r e).2.logText = e.logText := by
  unfold plotSetup
  simp only
  split
  · exact ⟨rfl, rfl, rfl⟩
  · unfold plotTask
    split <;> exact ⟨rfl, rfl, rfl⟩

theorem plan_names (pq : PQ C Config) (r : Robot Shape) (arm : Arm (RState × V) Shape)
    (conv : ℝ → ℝ) (d : Nat → Draws) (e : Editor V) :
    (Gui.plan pq r arm conv d e).2.filename = e.filename ∧
      (Gui.plan pq r arm conv d e).2.pathsFilename = e.pathsFilename := by
  unfold Gui.plan
  simp only [Editor.log]
  split
  · exact ⟨rfl, rfl⟩
  · split
    · exact ⟨rfl, rfl⟩
    · split <;> exact ⟨rfl, rfl⟩

theorem showPath_names (r : Robot Shape) (e : Editor V) :
    (showPath r e).2.filename = e.filename ∧ (showPath r e).2.pathsFilename = e.pathsFilename := by
  unfold showPath
  split
  · exact ⟨rfl, rfl⟩
  · rename_i p _
    have := plotSetup_names r { e with drawn := [] }
    simp only
    split <;> exact ⟨this.1, this.2.1⟩

theorem reached_names (pq : PQ C Config) (hit : Oracle Shape) (r : Robot Shape)
    (arm : Arm (RState × V) Shape) (conv : ℝ → ℝ) (wdir : String) (v : V)
    (history : List (Call Shape)) (evs : List Event) :
    (reached pq hit r arm conv wdir v history evs).filename = sceneName evs ∧
      (reached pq hit r arm conv wdir v history evs).pathsFilename = pathsName evs := by
  induction evs using List.reverseRecOn with
  | nil => exact ⟨rfl, rfl⟩
  | append_singleton evs ev ih =>
    unfold reached runEvents sceneName pathsName at ih ⊢
    simp only [List.foldl_append, List.foldl_cons, List.foldl_nil]
    generalize evs.foldl (fun e ev => (callback pq r arm conv wdir ev e).2)
      (Editor.new (after hit r.links history, v)) = e at ih ⊢
    cases ev with
    | submitFileName n => exact ⟨rfl, ih.2⟩
    | submitPathFileName n => exact ⟨ih.1, rfl⟩
    | loadScene fs =>
      simp only [callback, loadScene]
      split
      · exact ih
      · rename_i sc _
        have := plotSetup_names r { e with scene := some sc }
        exact ⟨this.1.trans ih.1, this.2.1.trans ih.2⟩
    | loadPaths fs =>
      simp only [callback, loadPaths]
      split
      · exact ih
      · split
        · exact ih
        · rename_i p ps _
          have := plotSetup_names r { e with paths := p :: ps, path := p }
          exact ⟨this.1.trans ih.1, this.2.1.trans ih.2⟩
    | plan d =>
      have := plan_names pq r arm conv d e
      exact ⟨this.1.trans ih.1, this.2.trans ih.2⟩
    | showPath =>
      have := showPath_names r e
      exact ⟨this.1.trans ih.1, this.2.trans ih.2⟩

/-- C98, files. After any events, "Load scene" reads the file whose name was submitted last (at
first the default) in the working directory: if it cannot be read the error is raised and nothing
changes; otherwise its contents are the scene, and the rest of the task is as before. -/
theorem C98_load_scene (pq : PQ C Config) (hit : Oracle Shape) (r : Robot Shape)
    (arm : Arm (RState × V) Shape) (conv : ℝ → ℝ) (wdir : String) (v : V)
    (history : List (Call Shape)) (evs : List Event) (fs : Files) (e : Editor V)
    (he : e = reached pq hit r arm conv wdir v history evs) :
    (∀ err, fs.scenes (wdir ++ "/" ++ sceneName evs) = .error err →
      callback pq r arm conv wdir (.loadScene fs) e = (.error err, e)) ∧
    ∀ sc, fs.scenes (wdir ++ "/" ++ sceneName evs) = .ok sc →
      (callback pq r arm conv wdir (.loadScene fs) e).2.scene = some sc ∧
      (callback pq r arm conv wdir (.loadScene fs) e).2.path = e.path ∧
      (callback pq r arm conv wdir (.loadScene fs) e).2.paths = e.paths ∧
      (callback pq r arm conv wdir (.loadScene fs) e).2.currentSolution = e.currentSolution := by
  have hn := (reached_names pq hit r arm conv wdir v history evs).1
  rw [← he] at hn
  constructor
  · intro err h
    simp only [callback, loadScene, hn, h]
  · intro sc h
    have := plotSetup_fields r { e with scene := some sc }
    rw [hn] at this
    simp only [callback, loadScene, hn, h]
    exact ⟨this.1, this.2.2.1, this.2.1, this.2.2.2⟩

/-- C98, files: the same for "Load paths". A file with paths makes them the paths of the task and
the first of them the current path; a file without any raises IndexError. -/
theorem C98_load_paths (pq : PQ C Config) (hit : Oracle Shape) (r : Robot Shape)
    (arm : Arm (RState × V) Shape) (conv : ℝ → ℝ) (wdir : String) (v : V)
    (history : List (Call Shape)) (evs : List Event) (fs : Files) (e : Editor V)
    (he : e = reached pq hit r arm conv wdir v history evs) :
    (∀ err, fs.paths (wdir ++ "/" ++ pathsName evs) = .error err →
      callback pq r arm conv wdir (.loadPaths fs) e = (.error err, e)) ∧
    (fs.paths (wdir ++ "/" ++ pathsName evs) = .ok [] →
      (callback pq r arm conv wdir (.loadPaths fs) e).1 = .error (.py .indexError)) ∧
    ∀ p ps, fs.paths (wdir ++ "/" ++ pathsName evs) = .ok (p :: ps) →
      (callback pq r arm conv wdir (.loadPaths fs) e).2.paths = p :: ps ∧
      (callback pq r arm conv wdir (.loadPaths fs) e).2.path = p ∧
      (callback pq r arm conv wdir (.loadPaths fs) e).2.scene = e.scene ∧
      (callback pq r arm conv wdir (.loadPaths fs) e).2.currentSolution = e.currentSolution := by
  have hn := (reached_names pq hit r arm conv wdir v history evs).2
  rw [← he] at hn
  refine ⟨fun err h => ?_, fun h => ?_, fun p ps h => ?_⟩
  · simp only [callback, loadPaths, hn, h]
  · simp only [callback, loadPaths, hn, h]
  · have := plotSetup_fields r { e with paths := p :: ps, path := p }
    rw [hn] at this
    simp only [callback, loadPaths, hn, h]
    exact ⟨this.2.1, this.2.2.1, this.1, this.2.2.2⟩

/-- Files are named, one of them twice, and loaded: the last name counts. -/
example (pq : PQ C Config) (hit : Oracle Shape) (r : Robot Shape) (arm : Arm (RState × V) Shape)
    (v : V) (p : List PathPt) : ∃ (e : Editor V) (fs : Files),
    e = reached pq hit r arm id "." v [] [.submitFileName "a", .submitPathFileName "b",
      .submitPathFileName "c"] ∧
    fs.scenes "./a" = .ok ⟨[⟨1, 1, 1⟩], [1]⟩ ∧ fs.paths "./b" = .ok [] ∧ fs.paths "./c" = .ok [p] ∧
    (callback pq r arm id "." (.loadScene fs) e).2.scene = some ⟨[⟨1, 1, 1⟩], [1]⟩ ∧
    (callback pq r arm id "." (.loadPaths fs) e).2.path = p := by
  let fs : Files := ⟨fun _ => .ok ⟨[⟨1, 1, 1⟩], [1]⟩, fun s => if s = "./c" then .ok [p] else .ok []⟩
  have hc : fs.paths ("." ++ "/" ++ pathsName [.submitFileName "a", .submitPathFileName "b",
      .submitPathFileName "c"]) = .ok [p] := by rfl
  exact ⟨_, fs, rfl, rfl, rfl, rfl,
    ((C98_load_scene pq hit r arm id "." v [] _ fs _ rfl).2 _ rfl).1,
    ((C98_load_paths pq hit r arm id "." v [] _ fs _ rfl).2.2 p [] hc).2.1⟩

/-! ### the log -/

/-- C98, the log. Lines are only ever added. "Plan" adds "Planning..." first and, when it gets
so far, the numbers of joint solutions and the success flag; it ends without an exception exactly
when the flag is True, and then there is a number for every point of the path and none is zero.
"Show solution" adds a line exactly when there is no solution; the other callbacks add nothing. -/
theorem C98_log (pq : PQ C Config) (r : Robot Shape) (arm : Arm (RState × V) Shape) (conv : ℝ → ℝ)
    (wdir : String) (e : Editor V) :
    (∀ d, ∃ tail, (callback pq r arm conv wdir (.plan d) e).2.logText
        = e.logText ++ .planning :: tail ∧
      (tail = [] ∨ (∃ l, tail = [.counts l]) ∨ ∃ l b, tail = [.counts l, .success b]) ∧
      ((callback pq r arm conv wdir (.plan d) e).1 = .ok () ↔ ∃ l, tail = [.counts l, .success true]) ∧
      ∀ l, tail = [.counts l, .success true] → l.length = e.path.length ∧ ∀ n ∈ l, 0 < n) ∧
    (callback pq r arm conv wdir .showPath e).2.logText =
      e.logText ++ (if e.currentSolution.isSome then [] else [.noPath]) ∧
    ∀ ev, (∀ d, ev ≠ .plan d) → ev ≠ .showPath →
      (callback pq r arm conv wdir ev e).2.logText = e.logText := by
  refine ⟨fun d => ?_, ?_, fun ev h1 h2 => ?_⟩
  · have hcols := planQ_columns r arm conv d e.path e.scene e.rob trivial
    simp only [callback]
    unfold Gui.plan
    simp only [Editor.log]
    cases hx : (planQ r arm conv d e.path e.scene e.rob).1 with
    | error err => exact ⟨[], by simp⟩
    | ok Q =>
      obtain ⟨hl, hf⟩ := (hcols Q _ (Prod.ext hx rfl)).1
      simp only
      cases hg : getShortestPath pq conv Q .dijkstra (some [1, 1, 1, 1, 1, 1, 1]) with
      | error err => exact ⟨[.counts (Q.map fun c => c.rows.length)], by simp⟩
      | ok res =>
        simp only
        cases hp : res.path with
        | none =>
          have hb : res.success = false := by
            by_contra hb
            rw [Bool.not_eq_false] at hb
            obtain ⟨p', c, rfl, hsel⟩ := getShortestPath_selection hf hg hb
            cases hp
          exact ⟨[.counts (Q.map fun c => c.rows.length), .success res.success], by simp, by simp,
            by simp [hb], by simp [hb]⟩
        | some p =>
          have hb := getShortestPath_path hg hp
          obtain ⟨p', c, rfl, hsel⟩ := getShortestPath_selection hf hg hb
          refine ⟨[.counts (Q.map fun c => c.rows.length), .success true], by simp, by simp,
            by simp, ?_⟩
          rintro l hl'
          simp only [List.cons.injEq, Msg.counts.injEq, and_true] at hl'
          subst hl'
          refine ⟨by simpa using hl, fun n hn => ?_⟩
          obtain ⟨c', hc', rfl⟩ := List.mem_map.1 hn
          have := selection_nonempty hsel c'.rows (List.mem_map.2 ⟨c', hc', rfl⟩)
          exact List.length_pos_iff.2 this
  · simp only [callback]
    unfold showPath
    cases h : e.currentSolution with
    | none => simp [Editor.log]
    | some p =>
      have := (plotSetup_names r { e with drawn := [] }).2.2
      rw [h] at this
      simp only [Option.isSome_some, if_true, List.append_nil]
      split <;> exact this
  · cases ev with
    | submitFileName n => rfl
    | submitPathFileName n => rfl
    | loadScene fs =>
      simp only [callback, loadScene]
      split
      · rfl
      · exact (plotSetup_names r _).2.2
    | loadPaths fs =>
      simp only [callback, loadPaths]
      split
      · rfl
      · split
        · rfl
        · exact (plotSetup_names r _).2.2
    | plan d => exact absurd rfl (h1 d)
    | showPath => exact absurd rfl h2

/-- **C83**, the frames in the statement: for a point with tolerances on the Euler angles the frame
at its nominal position with its nominal angles, for a point with free orientation the unrotated
frame at its position, and none for the other three kinds. -/
theorem C83_frames (T : M4) :
    (∀ (pos rpy : Fin 3 → Entry), ∃ pt,
      TolEulerPt.new [pos 0, pos 1, pos 2] [rpy 0, rpy 1, rpy 2] = .ok pt ∧
      (NominalFrame (.euler pt) T ↔
        T = mkTf (Rxyz fun i => nominal (rpy i)) fun i => nominal (pos i))) ∧
    (∀ x : V3, NominalFrame (.free (FreeOrientationPt.new x)) T ↔ T = mkTf 1 x) ∧
    (∀ pt, ¬ NominalFrame (.position pt) T) ∧ (∀ pt, ¬ NominalFrame (.axisAngle pt) T) ∧
    ∀ pt, ¬ NominalFrame (.orientation pt) T := by
  refine ⟨fun pos rpy => ⟨_, eulerPt_new pos rpy, ?_⟩, fun x => ?_, fun _ h => h, fun _ h => h,
    fun _ h => h⟩
  · constructor
    · rintro ⟨x, a, rest, h1, h2⟩
      simp only [eulerPt, List.cons_append, List.nil_append, List.cons.injEq] at h1
      obtain ⟨e1, e2, e3, e4, e5, e6, -⟩ := h1
      rw [h2]
      congr 1
      · congr 1; funext i; fin_cases i <;> simp [e4, e5, e6]
      · funext i; fin_cases i <;> simp [e1, e2, e3]
    · intro h
      exact ⟨_, _, [], rfl, h⟩
  · have h1 : Rxyz (0 : V3) = 1 := by simp [Rxyz, Util.rotX_zero, Util.rotY_zero, Util.rotZ_zero]
    constructor
    · rintro ⟨y, a, rest, h2, h3⟩
      simp only [FreeOrientationPt.new, List.cons.injEq] at h2
      obtain ⟨e1, e2, e3, e4, e5, e6, -⟩ := h2
      have ha : a = 0 := by funext i; fin_cases i <;> simp [← e4, ← e5, ← e6]
      have hy : y = x := by funext i; fin_cases i <;> simp [e1, e2, e3]
      rw [h3, ha, hy, h1]
    · intro h
      exact ⟨x, 0, [], rfl, by rw [h, h1]⟩

end Verif.Props
