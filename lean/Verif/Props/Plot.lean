import Verif.Model.Plot
import Verif.Props.Robot
import Mathlib.LinearAlgebra.CrossProduct

/-! # C79, C80, C81, C82: what is drawn -/

set_option linter.unusedSectionVars false

namespace Verif.Props

open Matrix Verif.Geometry Verif.Kin Verif.Plot

/-- Shape `s` of the collection is placed by `T` when the collection is placed by `A`. -/
def At {S : Type} (c : Collection S) (A : M4) (s : S) (T : M4) : Prop :=
  ∃ (i : Nat) (t : M4), c.s[i]? = some s ∧ c.tfS[i]? = some t ∧ T = A * t

/-- The shapes of the links and the tool, where forward kinematics puts them. -/
def BodyAt {S : Type} (r : Robot S) (q : List ℝ) (s : S) (T : M4) : Prop :=
  (∃ (i : Nat) (l : Link S), r.links[i]? = some l ∧ At l.geometry (frameOf r q i) s T) ∨
  (∃ tool, r.tool = some tool ∧ At tool.toCollection (frameOf r q (r.links.length - 1)) s T)

/-- The shapes of the base, where `tf_base` puts them. -/
def BaseAt {S : Type} (r : Robot S) (s : S) (T : M4) : Prop :=
  ∃ base, r.geometryBase = some base ∧ At base r.tfBase s T

/-- All shapes of the robot. -/
def RobotAt {S : Type} (r : Robot S) (q : List ℝ) (s : S) (T : M4) : Prop :=
  BaseAt r s T ∨ BodyAt r q s T

/-- These are the places the collision check uses. -/
theorem sceneTouch_placed {S : Type} (hit : Oracle S) (r : Robot S) (q : List ℝ)
    (scene : Collection S) : SceneTouch hit r q scene ↔ ∃ (s s' : S) (T T' : M4), RobotAt r q s T ∧
      At scene 1 s' T' ∧ hit ⟨s, rotPart T, posPart T⟩ ⟨s', rotPart T', posPart T'⟩ = true := by
  constructor
  · rintro (⟨b, hb, i, j, s, s', t, t', h1, h2, h3, h4, h⟩ |
      ⟨k, l, hl, i, j, s, s', t, t', h1, h2, h3, h4, h⟩ |
      ⟨b, hb, i, j, s, s', t, t', h1, h2, h3, h4, h⟩)
    · exact ⟨s, s', _, _, .inl ⟨b, hb, i, t, h1, h2, rfl⟩, ⟨j, t', h3, h4, rfl⟩, h⟩
    · exact ⟨s, s', _, _, .inr (.inl ⟨k, l, hl, i, t, h1, h2, rfl⟩), ⟨j, t', h3, h4, rfl⟩, h⟩
    · exact ⟨s, s', _, _, .inr (.inr ⟨b, hb, i, t, h1, h2, rfl⟩), ⟨j, t', h3, h4, rfl⟩, h⟩
  · rintro ⟨s, s', _, _, (⟨b, hb, i, t, h1, h2, rfl⟩ | ⟨k, l, hl, i, t, h1, h2, rfl⟩ |
      ⟨b, hb, i, t, h1, h2, rfl⟩), ⟨j, t', h3, h4, rfl⟩, h⟩
    · exact .inl ⟨b, hb, i, j, s, s', t, t', h1, h2, h3, h4, h⟩
    · exact .inr (.inl ⟨k, l, hl, i, j, s, s', t, t', h1, h2, h3, h4, h⟩)
    · exact .inr (.inr ⟨b, hb, i, j, s, s', t, t', h1, h2, h3, h4, h⟩)

/-- A segment is an edge of the box `s` placed by `T`: its ends are corners that differ in one
coordinate. -/
def IsEdge (s : Shape) (T : M4) (seg : Seg) : Prop :=
  ∃ (g : Fin 3 → Bool) (a : Fin 3), s(seg.1, seg.2) =
    s(act T (cornerPoint s g), act T (cornerPoint s (Function.update g a (!g a))))

/-- Exactly the edges of the placed boxes are drawn. -/
def Depicts (segs : List Seg) (P : Shape → M4 → Prop) : Prop :=
  (∀ seg ∈ segs, ∃ s T, P s T ∧ IsEdge s T seg) ∧
  (∀ s T, P s T → ∀ seg, IsEdge s T seg → seg ∈ segs ∨ seg.swap ∈ segs)

theorem shapeLines_sound {s : Shape} {T : M4} {seg : Seg} (h : seg ∈ shapeLines s T) :
    IsEdge s T seg := by
  obtain ⟨k, rfl⟩ := List.mem_ofFn.1 h
  obtain ⟨axis, -, hax⟩ := C28_edges s
  obtain ⟨⟨g, h1, h2⟩, -⟩ := hax T k
  exact ⟨g, axis k, by rw [h1, h2]⟩

theorem shapeLines_complete {s : Shape} {T : M4} {seg : Seg} (h : IsEdge s T seg) :
    seg ∈ shapeLines s T ∨ seg.swap ∈ shapeLines s T := by
  obtain ⟨g, a, h⟩ := h
  have table : ∀ (i : Fin 8) (a : Fin 3), ∃ k : Fin 12, ∃ j : Fin 8,
      signs j = Function.update (signs i) a (!signs i a) ∧
      ((edgeIdx k) = (i, j) ∨ edgeIdx k = (j, i)) := by decide +kernel
  obtain ⟨i, rfl⟩ := signs_surj g
  obtain ⟨k, j, hj, hk⟩ := table i a
  rw [cornerPoint_eq, cornerPoint_eq, ← hj, ← vertices_eq, ← vertices_eq] at h
  have he := edges_eq s T k
  simp only [shapeLines, List.mem_ofFn]
  rcases seg with ⟨x, y⟩
  rcases Sym2.eq_iff.1 h with ⟨h1, h2⟩ | ⟨h1, h2⟩ <;> rcases hk with hk | hk <;> rw [hk] at he <;>
    simp only at h1 h2 he <;> subst h1 h2
  · exact .inl ⟨k, he⟩
  · exact .inr ⟨k, he⟩
  · exact .inr ⟨k, he⟩
  · exact .inl ⟨k, he⟩

theorem mem_zip_iff {α β : Type} {l : List α} {m : List β} {a : α} {b : β} :
    (a, b) ∈ l.zip m ↔ ∃ i : Nat, l[i]? = some a ∧ m[i]? = some b := by
  rw [List.mem_iff_getElem?]
  simp only [List.getElem?_zip_eq_some]

theorem mem_plotCollection {c : Collection Shape} {A : M4} {seg : Seg} :
    seg ∈ plotCollection c (some A) ↔ ∃ s T, At c A s T ∧ seg ∈ shapeLines s T := by
  simp only [plotCollection, plotShape, List.mem_flatMap, Prod.exists, mem_zip_iff]
  constructor
  · rintro ⟨s, t, ⟨i, h1, h2⟩, h⟩; exact ⟨s, _, ⟨i, t, h1, h2, rfl⟩, h⟩
  · rintro ⟨s, _, ⟨i, t, h1, h2, rfl⟩, h⟩; exact ⟨s, t, ⟨i, h1, h2⟩, h⟩

theorem plotCollection_none (c : Collection Shape) : plotCollection c none = plotCollection c (some 1) := by
  simp [plotCollection]

theorem mem_plotLinks (r : Robot Shape) {q : List ℝ} (hq : r.links.length ≤ q.length) {seg : Seg} :
    seg ∈ plotLinks r.links (frames r.links q r.tfBase) ↔ ∃ s T,
      (∃ (i : Nat) (l : Link Shape), r.links[i]? = some l ∧ At l.geometry (frameOf r q i) s T) ∧
      seg ∈ shapeLines s T := by
  simp only [plotLinks, List.mem_flatMap, Prod.exists, mem_zip_iff, mem_plotCollection]
  constructor
  · rintro ⟨l, F, ⟨i, h1, h2⟩, s, T, h, hs⟩
    obtain ⟨-, rfl⟩ := (frames_get r hq).1 h2
    exact ⟨s, T, ⟨i, l, h1, h⟩, hs⟩
  · rintro ⟨s, T, ⟨i, l, h1, h⟩, hs⟩
    exact ⟨l, _, ⟨i, h1, (frames_get r hq).2 ⟨(List.getElem?_eq_some_iff.1 h1).1, rfl⟩⟩, s, T, h, hs⟩

theorem depicts_of_mem {segs : List Seg} {P : Shape → M4 → Prop}
    (h : ∀ seg, seg ∈ segs ↔ ∃ s T, P s T ∧ seg ∈ shapeLines s T) : Depicts segs P := by
  constructor
  · intro seg hs
    obtain ⟨s, T, hP, hl⟩ := (h seg).1 hs
    exact ⟨s, T, hP, shapeLines_sound hl⟩
  · intro s T hP seg he
    exact (shapeLines_complete he).imp (fun hl => (h _).2 ⟨s, T, hP, hl⟩)
      (fun hl => (h _).2 ⟨s, T, hP, hl⟩)

/-- What `plot` draws from any state in order. -/
theorem plotRobot_drawn {r : Robot Shape} (hk : KnownTypes r.links) {st : RState}
    (hw : WF r.links.length st) {q : List ℝ}
    (hq : r.links.length ≤ q.length) (h0 : r.tool = none ∨ 0 < r.links.length) :
    ∃ segs, (plotRobot r st q).1 = .ok segs ∧
      Depicts segs fun s T => (∃ base, r.geometryBase = some base ∧ At base 1 s T) ∨ BodyAt r q s T := by
  have hf := fkAllLinks_ok hw hq hk.known
  have htool : ∃ ts, plotTool r.tool (frames r.links q r.tfBase) = .ok ts ∧ ∀ seg, seg ∈ ts ↔
      ∃ s T, (∃ tool, r.tool = some tool ∧
        At tool.toCollection (frameOf r q (r.links.length - 1)) s T) ∧ seg ∈ shapeLines s T := by
    cases ht : r.tool with
    | none => exact ⟨[], rfl, by simp⟩
    | some t =>
      rcases h0 with h0 | h0
      · rw [ht] at h0; cases h0
      · refine ⟨_, by simp only [plotTool, frames_last r hq h0]; rfl, fun seg => ?_⟩
        simp [mem_plotCollection]
  obtain ⟨ts, hts, hmem⟩ := htool
  refine ⟨plotBase r.geometryBase ++ plotLinks r.links (frames r.links q r.tfBase) ++ ts, ?_, ?_⟩
  · simp only [plotRobot, hf, Except.bind, hts, bind]
  · refine depicts_of_mem fun seg => ?_
    rw [List.mem_append, List.mem_append, mem_plotLinks r hq, hmem]
    have hbase : seg ∈ plotBase r.geometryBase ↔ ∃ s T,
        (∃ base, r.geometryBase = some base ∧ At base 1 s T) ∧ seg ∈ shapeLines s T := by
      cases r.geometryBase with
      | none => simp [plotBase]
      | some b => simp [plotBase, plotCollection_none, mem_plotCollection]
    rw [hbase]
    constructor
    · rintro ((⟨s, T, h, hs⟩ | ⟨s, T, h, hs⟩) | ⟨s, T, h, hs⟩)
      · exact ⟨s, T, .inl h, hs⟩
      · exact ⟨s, T, .inr (.inl h), hs⟩
      · exact ⟨s, T, .inr (.inr h), hs⟩
    · rintro ⟨s, T, h | h | h, hs⟩
      · exact .inl (.inl ⟨s, T, h, hs⟩)
      · exact .inl (.inr ⟨s, T, h, hs⟩)
      · exact .inr ⟨s, T, h, hs⟩

/-- What `plot` really draws: links and tool at their places, the base as if `tf_base` were the
identity. -/
theorem C79_drawn (hit : Oracle Shape) (r : Robot Shape) (hk : KnownTypes r.links)
    (history : List (Call Shape)) (hh : ∀ c ∈ history, c.robot.links = r.links) (q : List ℝ)
    (hq : r.links.length ≤ q.length) (h0 : r.tool = none ∨ 0 < r.links.length) :
    ∃ segs, (plotRobot r (after hit r.links history) q).1 = .ok segs ∧
      Depicts segs fun s T => (∃ base, r.geometryBase = some base ∧ At base 1 s T) ∨ BodyAt r q s T :=
  plotRobot_drawn hk (after_wf hit r.links history hh) hq h0

/-- **C79** as stated: after any history, `plot` draws exactly the edges of all shapes of the robot
where the collision check places them. -/
def C79_statement : Prop :=
  ∀ (hit : Oracle Shape) (r : Robot Shape) (history : List (Call Shape)) (q : List ℝ),
    KnownTypes r.links → (∀ c ∈ history, c.robot.links = r.links) → r.links.length ≤ q.length →
    (r.tool = none ∨ 0 < r.links.length) →
    ∃ segs, (plotRobot r (after hit r.links history) q).1 = .ok segs ∧ Depicts segs (RobotAt r q)

/-- **C79**, partial: it holds without a base geometry or with the base frame in the origin.  Missing:
a base geometry on a robot with another base frame, for which the statement is false. -/
theorem C79_partial (hit : Oracle Shape) (r : Robot Shape) (hk : KnownTypes r.links)
    (history : List (Call Shape)) (hh : ∀ c ∈ history, c.robot.links = r.links) (q : List ℝ)
    (hq : r.links.length ≤ q.length) (h0 : r.tool = none ∨ 0 < r.links.length)
    (hb : r.geometryBase = none ∨ r.tfBase = 1) :
    ∃ segs, (plotRobot r (after hit r.links history) q).1 = .ok segs ∧ Depicts segs (RobotAt r q) := by
  obtain ⟨segs, h1, h2⟩ := C79_drawn hit r hk history hh q hq h0
  refine ⟨segs, h1, ?_⟩
  convert h2 using 1
  funext s T
  unfold RobotAt BaseAt
  rcases hb with hb | hb
  · simp [hb]
  · rw [hb]

/-- A robot without links, with a cube as base geometry and the base frame at height 5. -/
noncomputable def raised : Robot Shape :=
  { Robot.new [] with tfBase := Util.translation 0 0 5, geometryBase := some ⟨[⟨1, 1, 1⟩], [1]⟩ }

theorem raised_plot (st : RState) :
    (plotRobot raised st []).1 = .ok (shapeLines ⟨1, 1, 1⟩ 1) := by
  simp [plotRobot, Robot.fkAllLinks, raised, Robot.new, fkLoop, Except.bind, bind, plotTool, plotBase,
    plotLinks, plotCollection, plotShape]

theorem cornerPoint_cube_z (g : Fin 3 → Bool) : |cornerPoint ⟨1, 1, 1⟩ g 2| ≤ 1 / 2 := by
  have : cornerPoint ⟨1, 1, 1⟩ g 2 = if g 2 then 1 / 2 else -(1 / 2) := by simp [cornerPoint]
  rw [this]
  cases g 2 <;> norm_num [abs_le]

/-- **C79** is false: the base is drawn around the origin although it is at height 5. -/
theorem C79_refuted : ¬ C79_statement := by
  intro h
  obtain ⟨segs, h1, h2, -⟩ := h (fun _ _ => false) raised [] [] (by simp [KnownTypes, raised, Robot.new])
    (by simp) (by simp [raised, Robot.new]) (.inl rfl)
  rw [raised_plot] at h1
  cases h1
  have hmem : (⟨1, 1, 1⟩ : Shape).getEdges 1 0 ∈ shapeLines ⟨1, 1, 1⟩ 1 := List.mem_ofFn.2 ⟨0, rfl⟩
  have hlow : ∀ x : V3, x ∈ s(((⟨1, 1, 1⟩ : Shape).getEdges 1 0).1,
      ((⟨1, 1, 1⟩ : Shape).getEdges 1 0).2) → |x 2| ≤ 1 / 2 := by
    obtain ⟨g, a, hg⟩ := shapeLines_sound hmem
    intro x hx
    rw [hg, Sym2.mem_iff, act_one, act_one] at hx
    rcases hx with rfl | rfl <;> exact cornerPoint_cube_z _
  obtain ⟨s, T, hP, g, a, he⟩ := h2 _ hmem
  rcases hP with ⟨b, hb, i, t, hs, ht, rfl⟩ | ⟨i, l, hl, -⟩ | ⟨tool, ht, -⟩
  · cases hb
    have hi : i = 0 := by
      cases i with
      | zero => rfl
      | succ i => simp at hs
    subst hi
    simp only [List.getElem?_cons_zero, Option.some.injEq] at hs ht
    subst hs ht
    have hx := hlow (act (raised.tfBase * 1) (cornerPoint ⟨1, 1, 1⟩ g)) (by
      rw [he]; exact Sym2.mem_mk_left _ _)
    have hz : act (raised.tfBase * 1) (cornerPoint ⟨1, 1, 1⟩ g) 2 =
        cornerPoint ⟨1, 1, 1⟩ g 2 + 5 := by
      simp [act, raised, Util.translation, rotPart, posPart, Matrix.mulVec, dotProduct,
        Fin.sum_univ_succ]
    rw [hz] at hx
    have := cornerPoint_cube_z g
    rw [abs_le] at hx this
    linarith [hx.2, this.1]
  · simp [raised, Robot.new] at hl
  · cases ht

/-- A robot with a link, a tool and a base for the partial theorem. -/
noncomputable def cubes : Robot Shape :=
  { Robot.new [⟨⟨1, 0, 0, 0⟩, .r, ⟨[⟨1, 1, 1⟩], [1]⟩⟩] with
    tool := some ⟨⟨[⟨2, 1, 1⟩], [1]⟩, 1⟩, geometryBase := some ⟨[⟨3, 1, 1⟩], [1]⟩ }

theorem cubes_known : KnownTypes cubes.links := by simp [KnownTypes, cubes, Robot.new]

/-- It has a base, a link shape and a tool shape to draw. -/
example (hit : Oracle Shape) : ∃ segs, (plotRobot cubes (after hit cubes.links []) [7]).1 = .ok segs ∧
    Depicts segs (RobotAt cubes [7]) ∧ (∃ T, RobotAt cubes [7] ⟨1, 1, 1⟩ T) ∧
    (∃ T, RobotAt cubes [7] ⟨2, 1, 1⟩ T) ∧ ∃ T, RobotAt cubes [7] ⟨3, 1, 1⟩ T := by
  obtain ⟨segs, h1, h2⟩ := C79_partial hit cubes cubes_known [] (by simp) [7]
    (by simp [cubes, Robot.new]) (.inr (by simp [cubes, Robot.new])) (.inr rfl)
  exact ⟨segs, h1, h2, ⟨_, .inr (.inl ⟨0, _, rfl, 0, 1, rfl, rfl, rfl⟩)⟩,
    ⟨_, .inr (.inr ⟨_, rfl, 0, 1, rfl, rfl, rfl⟩)⟩, ⟨_, .inl ⟨_, rfl, 0, 1, rfl, rfl, rfl⟩⟩⟩

/-! ### C80 -/

theorem setLines_ok : ∀ (ps : List (M4 × Shape)) (lines : List (List Seg)) (cnt : Nat),
    cnt + ps.length ≤ lines.length → setLines lines cnt ps =
      .ok (lines.take cnt ++ ps.map (fun p => shapeLines p.2 p.1) ++ lines.drop (cnt + ps.length),
        cnt + ps.length)
  | [], lines, cnt, h => by simp [setLines]
  | (T, s) :: ps, lines, cnt, h => by
    simp only [List.length_cons] at h
    have hc : cnt < lines.length := by omega
    have hg : pyGet lines cnt = .ok lines[cnt] := by simp [pyGet, hc]
    rw [setLines]
    simp only [bind, Except.bind, hg]
    rw [setLines_ok ps _ (cnt + 1) (by simp; omega)]
    congr 2
    · rw [List.take_set, List.drop_set_of_lt (by omega), List.take_add_one,
        List.getElem?_eq_getElem hc, List.set_append_right _ _ (by simp)]
      simp [Nat.min_eq_left hc.le, Nat.add_assoc, Nat.add_comm]
    · simp [Nat.add_assoc, Nat.add_comm]

/-- How many groups of lines are used. -/
def usedLines (r : Robot Shape) : Nat :=
  (r.links.map fun l => min l.geometry.tfS.length l.geometry.s.length).sum +
    match r.tool with
    | none => 0
    | some t => min t.tfS.length t.s.length

theorem linkShapes_length : ∀ (links : List (Link Shape)) (F : List M4), F.length = links.length →
    (linkShapes links F).length =
      (links.map fun l => min l.geometry.tfS.length l.geometry.s.length).sum
  | [], [], _ => rfl
  | l :: ls, f :: F, h => by
    have := linkShapes_length ls F (by simpa using h)
    simp only [linkShapes] at this ⊢
    simp [this]
  | [], _ :: _, h => by simp at h
  | _ :: _, [], h => by simp at h

theorem emptyLines_eq (r : Robot Shape) :
    emptyLines r = List.replicate (emptyLines r).length [] := by
  rw [List.eq_replicate_iff]
  refine ⟨rfl, fun b hb => ?_⟩
  unfold emptyLines at hb
  rcases List.mem_append.1 hb with hb | hb
  · simp only [List.mem_flatMap, List.mem_map] at hb
    obtain ⟨_, _, _, _, rfl⟩ := hb; rfl
  · cases ht : r.tool with
    | none => simp [ht] at hb
    | some t =>
      simp only [ht, List.mem_map] at hb
      obtain ⟨_, _, rfl⟩ := hb; rfl

theorem usedLines_le (r : Robot Shape) : usedLines r ≤ (emptyLines r).length := by
  unfold usedLines emptyLines
  rw [List.length_append, List.length_flatMap]
  refine Nat.add_le_add ?_ ?_
  · refine List.sum_le_sum fun l _ => ?_
    simp
  · cases r.tool with
    | none => simp
    | some t => simp

theorem mem_linkShapes (r : Robot Shape) {q : List ℝ} (hq : r.links.length ≤ q.length) {T : M4}
    {s : Shape} : (T, s) ∈ linkShapes r.links (frames r.links q r.tfBase) ↔
      ∃ (i : Nat) (l : Link Shape), r.links[i]? = some l ∧ At l.geometry (frameOf r q i) s T := by
  simp only [linkShapes, List.mem_flatMap, Prod.exists, mem_zip_iff, List.mem_map, Prod.mk.injEq]
  constructor
  · rintro ⟨F, l, ⟨i, h1, h2⟩, t, s, ⟨j, h3, h4⟩, rfl, rfl⟩
    obtain ⟨-, rfl⟩ := (frames_get r hq).1 h1
    exact ⟨i, l, h2, j, t, h4, h3, rfl⟩
  · rintro ⟨i, l, h2, j, t, h4, h3, rfl⟩
    exact ⟨_, l, ⟨i, (frames_get r hq).2 ⟨(List.getElem?_eq_some_iff.1 h2).1, rfl⟩, h2⟩, t, s,
      ⟨j, h3, h4⟩, rfl, rfl⟩

theorem toolShapes_ok (r : Robot Shape) {q : List ℝ} (hq : r.links.length ≤ q.length)
    (h0 : r.tool = none ∨ 0 < r.links.length) :
    ∃ ps, toolShapes r.tool (frames r.links q r.tfBase) = .ok ps ∧
      (linkShapes r.links (frames r.links q r.tfBase) ++ ps).length = usedLines r ∧
      ∀ s T, (T, s) ∈ ps ↔ ∃ tool, r.tool = some tool ∧
        At tool.toCollection (frameOf r q (r.links.length - 1)) s T := by
  have hlen := linkShapes_length r.links _ (frames_length hq r.tfBase)
  cases ht : r.tool with
  | none => exact ⟨[], rfl, by simp [usedLines, ht, hlen], by simp⟩
  | some t =>
    rcases h0 with h0 | h0
    · rw [ht] at h0; cases h0
    · refine ⟨(t.tfS.zip t.s).map fun p => (frameOf r q (r.links.length - 1) * p.1, p.2), ?_, ?_, ?_⟩
      · simp only [toolShapes]
        cases hz : t.tfS.zip t.s with
        | nil => rfl
        | cons a as => simp only [bind, Except.bind, frames_last r hq h0]
      · simp [usedLines, ht, hlen]
      · intro s T
        simp only [List.mem_map, Prod.exists, mem_zip_iff, Prod.mk.injEq, Option.some.injEq]
        constructor
        · rintro ⟨t', s', ⟨j, h3, h4⟩, rfl, rfl⟩
          exact ⟨t, rfl, j, t', h4, h3, rfl⟩
        · rintro ⟨_, rfl, j, t', h4, h3, rfl⟩
          exact ⟨t', s, ⟨j, h3, h4⟩, rfl, rfl⟩

/-- The lines when `n` groups have been drawn once. -/
def LinesInv (r : Robot Shape) (lines : List (List Seg)) : Prop :=
  lines.length = (emptyLines r).length ∧
    lines.drop (usedLines r) = List.replicate ((emptyLines r).length - usedLines r) []

theorem updateFrame_ok (r : Robot Shape) (hk : KnownTypes r.links) (path : List (List ℝ)) (f : Nat)
    (q : List ℝ) (hf : path[f]? = some q) (hq : r.links.length ≤ q.length)
    (h0 : r.tool = none ∨ 0 < r.links.length) (lines : List (List Seg)) (st : RState)
    (hi : LinesInv r lines) (hw : WF r.links.length st) :
    ∃ lines' st', updateFrame r path f (lines, st) = (.ok (), (lines', st')) ∧ LinesInv r lines' ∧
      WF r.links.length st' ∧ Depicts lines'.flatten (BodyAt r q) := by
  obtain ⟨ps, hps, hlen, hmem⟩ := toolShapes_ok r hq h0
  have hfk := fkAllLinks_ok hw hq hk.known
  have hget : pyGet path f = .ok q := by simp [pyGet, hf]
  have hle := usedLines_le r
  have hl := hi.1
  generalize hL : linkShapes r.links (frames r.links q r.tfBase) = L at *
  have hlen' : L.length + ps.length = usedLines r := by rw [← hlen, List.length_append]
  have e1 := setLines_ok L lines 0 (by omega)
  have e2 := setLines_ok ps ([] ++ L.map (fun p => shapeLines p.2 p.1) ++
    lines.drop (0 + L.length)) (0 + L.length) (by simp; omega)
  set out := ([] ++ L.map (fun p : M4 × Shape => shapeLines p.2 p.1) ++
    lines.drop (0 + L.length)).take (0 + L.length) ++ ps.map (fun p : M4 × Shape => shapeLines p.2 p.1) ++
      ([] ++ L.map (fun p : M4 × Shape => shapeLines p.2 p.1) ++
        lines.drop (0 + L.length)).drop (0 + L.length + ps.length) with hout
  have hout' : out = (L ++ ps).map (fun p : M4 × Shape => shapeLines p.2 p.1) ++
      List.replicate ((emptyLines r).length - usedLines r) [] := by
    rw [hout, ← hi.2, ← hlen', List.nil_append, Nat.zero_add, List.take_left' (by simp),
      List.drop_append, List.map_append]
    simp [List.drop_eq_nil_of_le]
  refine ⟨out, (r.fkAllLinks st q).2, ?_, ?_, hw.fkAllLinks q, ?_⟩
  · unfold updateFrame
    simp only [hget, hfk, Except.bind, bind, hL, e1, hps]
    rw [List.take_zero, e2]
  · constructor
    · rw [hout']; simp; omega
    · rw [hout', List.drop_left' (by simp [hlen'])]
  · refine depicts_of_mem fun seg => ?_
    rw [hout', List.flatten_append, List.mem_append]
    simp only [List.flatten_replicate_nil, List.not_mem_nil, or_false, List.mem_flatten,
      List.mem_map, List.mem_append, Prod.exists]
    constructor
    · rintro ⟨_, ⟨T, s, h, rfl⟩, hs⟩
      refine ⟨s, T, h.imp (fun h => ?_) (fun h => (hmem s T).1 h), hs⟩
      rw [← hL] at h
      exact (mem_linkShapes r hq).1 h
    · rintro ⟨s, T, h, hs⟩
      refine ⟨_, ⟨T, s, h.imp (fun h => ?_) (fun h => (hmem s T).2 h), rfl⟩, hs⟩
      rw [← hL]
      exact (mem_linkShapes r hq).2 h

theorem linesInv_empty (r : Robot Shape) : LinesInv r (emptyLines r) := by
  refine ⟨rfl, ?_⟩
  conv_lhs => rw [emptyLines_eq r]
  rw [List.drop_replicate]

theorem runFrames_ok (r : Robot Shape) (hk : KnownTypes r.links) (path : List (List ℝ))
    (hp : ∀ q ∈ path, r.links.length ≤ q.length) (h0 : r.tool = none ∨ 0 < r.links.length) :
    ∀ (fs : List Nat) (f : Nat) (q : List ℝ), (∀ x ∈ fs, x < path.length) → path[f]? = some q →
    ∀ (lines : List (List Seg)) (st : RState), LinesInv r lines → WF r.links.length st →
    ∃ lines' st', runFrames r path (fs ++ [f]) (lines, st) = (.ok (), (lines', st')) ∧
      Depicts lines'.flatten (BodyAt r q)
  | [], f, q, _, hf, lines, st, hi, hw => by
    obtain ⟨l', st', h, -, -, hd⟩ := updateFrame_ok r hk path f q hf
      (hp q (List.mem_of_getElem? hf)) h0 lines st hi hw
    exact ⟨l', st', by simp [runFrames, h], hd⟩
  | x :: xs, f, q, hx, hf, lines, st, hi, hw => by
    have hlt := hx x List.mem_cons_self
    obtain ⟨l', st', h, hi', hw', -⟩ := updateFrame_ok r hk path x _ (List.getElem?_eq_getElem hlt)
      (hp _ (List.getElem_mem hlt)) h0 lines st hi hw
    obtain ⟨l2, st2, h2, hd⟩ := runFrames_ok r hk path hp h0 xs f q
      (fun y hy => hx y (List.mem_cons_of_mem _ hy)) hf l' st' hi' hw'
    exact ⟨l2, st2, by simp only [List.cons_append, runFrames, h]; exact h2, hd⟩

/-- **C80**, what the animation shows: whatever frames have been shown before, in any order and any
number of times, frame `f` shows exactly the edges of the links and the tool for the joint values
number `f`; nothing of an earlier frame is left. -/
theorem C80_frame (hit : Oracle Shape) (r : Robot Shape) (hk : KnownTypes r.links)
    (history : List (Call Shape)) (hh : ∀ c ∈ history, c.robot.links = r.links)
    (path : List (List ℝ)) (hp : ∀ q ∈ path, r.links.length ≤ q.length)
    (h0 : r.tool = none ∨ 0 < r.links.length) (shown : List Nat) (hs : ∀ x ∈ shown, x < path.length)
    (f : Nat) (q : List ℝ) (hf : path[f]? = some q) :
    ∃ lines st, runFrames r path (shown ++ [f]) (emptyLines r, after hit r.links history) =
      (.ok (), (lines, st)) ∧ Depicts lines.flatten (BodyAt r q) :=
  runFrames_ok r hk path hp h0 shown f q hs hf _ _ (linesInv_empty r)
    (after_wf hit r.links history hh)

/-- **C80**, a configuration with too few values: the animation raises IndexError there, shows none of
the frames after it, and what is on the screen is the frame before it. -/
theorem C80_stops (hit : Oracle Shape) (r : Robot Shape) (hk : KnownTypes r.links)
    (history : List (Call Shape)) (hh : ∀ c ∈ history, c.robot.links = r.links)
    (path : List (List ℝ)) (h0 : r.tool = none ∨ 0 < r.links.length) (shown : List Nat) (f : Nat)
    (q : List ℝ) (hs : ∀ x ∈ shown ++ [f], ∃ p, path[x]? = some p ∧ r.links.length ≤ p.length)
    (hf : path[f]? = some q) (g : Nat) (p : List ℝ) (hg : path[g]? = some p)
    (hshort : p.length < r.links.length) (later : List Nat) :
    ∃ lines st, runFrames r path (shown ++ f :: g :: later) (emptyLines r, after hit r.links history) =
      (.error .indexError, (lines, st)) ∧ Depicts lines.flatten (BodyAt r q) := by
  have key : ∀ (shown : List Nat), (∀ x ∈ shown ++ [f], ∃ p, path[x]? = some p ∧
      r.links.length ≤ p.length) → ∀ (lines : List (List Seg)) (st : RState), LinesInv r lines →
      WF r.links.length st → ∃ lines' st', runFrames r path (shown ++ f :: g :: later) (lines, st) =
        (.error .indexError, (lines', st')) ∧ Depicts lines'.flatten (BodyAt r q) := by
    intro shown
    induction shown with
    | nil =>
      intro hs lines st hi hw
      obtain ⟨p', e1, e2⟩ := hs f (by simp)
      rw [hf] at e1
      cases e1
      obtain ⟨l', st', h, hi', hw', hd⟩ := updateFrame_ok r hk path f q hf e2 h0 lines st hi hw
      refine ⟨l', (r.fkAllLinks st' p).2, ?_, hd⟩
      have herr : (r.fkAllLinks st' p).1 = .error .indexError := fkAllLinks_short hk hw' hshort
      have hget : pyGet path g = .ok p := by simp [pyGet, hg]
      have hup : updateFrame r path g (l', st') =
          (.error .indexError, (l', (r.fkAllLinks st' p).2)) := by
        simp [updateFrame, hget, herr, Except.bind, bind]
      simp [runFrames, h, hup]
    | cons x xs ih =>
      intro hs lines st hi hw
      obtain ⟨p', e1, e2⟩ := hs x (by simp)
      obtain ⟨l', st', h, hi', hw', -⟩ := updateFrame_ok r hk path x p' e1 e2 h0 lines st hi hw
      obtain ⟨l2, st2, h2, hd⟩ := ih (fun y hy => hs y (List.mem_cons_of_mem _ hy)) l' st' hi' hw'
      exact ⟨l2, st2, by simp only [List.cons_append, runFrames, h]; exact h2, hd⟩
  exact key shown hs _ _ (linesInv_empty r) (after_wf hit r.links history hh)

/-- **C80** as stated: frame `f` of the animation shows exactly the edges of all shapes of the robot
for the joint values number `f`. -/
def C80_statement : Prop :=
  ∀ (hit : Oracle Shape) (r : Robot Shape) (history : List (Call Shape)) (path : List (List ℝ))
    (shown : List Nat) (f : Nat) (q : List ℝ), KnownTypes r.links →
    (∀ c ∈ history, c.robot.links = r.links) → (∀ q ∈ path, r.links.length ≤ q.length) →
    (r.tool = none ∨ 0 < r.links.length) → (∀ x ∈ shown, x < path.length) → path[f]? = some q →
    ∃ lines st, runFrames r path (shown ++ [f]) (emptyLines r, after hit r.links history) =
      (.ok (), (lines, st)) ∧ Depicts lines.flatten (RobotAt r q)

/-- **C80**, partial: it holds for robots without base geometry.  Missing: base geometry, which the
animation never shows. -/
theorem C80_partial (hit : Oracle Shape) (r : Robot Shape) (hk : KnownTypes r.links)
    (history : List (Call Shape)) (hh : ∀ c ∈ history, c.robot.links = r.links)
    (path : List (List ℝ)) (hp : ∀ q ∈ path, r.links.length ≤ q.length)
    (h0 : r.tool = none ∨ 0 < r.links.length) (shown : List Nat) (hs : ∀ x ∈ shown, x < path.length)
    (f : Nat) (q : List ℝ) (hf : path[f]? = some q) (hb : r.geometryBase = none) :
    ∃ lines st, runFrames r path (shown ++ [f]) (emptyLines r, after hit r.links history) =
      (.ok (), (lines, st)) ∧ Depicts lines.flatten (RobotAt r q) := by
  obtain ⟨l, st, h, hd⟩ := C80_frame hit r hk history hh path hp h0 shown hs f q hf
  refine ⟨l, st, h, ?_⟩
  convert hd using 1
  funext s T
  simp [RobotAt, BaseAt, hb]

/-- **C80** is false: the base of the robot `raised` is not in the animation at all. -/
theorem C80_refuted : ¬ C80_statement := by
  intro h
  obtain ⟨l, st, h1, -, h2⟩ := h (fun _ _ => false) raised [] [[]] [] 0 []
    (by simp [KnownTypes, raised, Robot.new]) (by simp) (by simp [raised, Robot.new]) (.inl rfl)
    (by simp) rfl
  have hl : l = [] := by
    simp [runFrames, updateFrame, pyGet, Robot.fkAllLinks, raised, Robot.new, fkLoop, Except.bind,
      bind, emptyLines, linkShapes, toolShapes, setLines] at h1
    exact h1.1
  subst hl
  have := h2 ⟨1, 1, 1⟩ (raised.tfBase * 1) (.inl ⟨_, rfl, 0, 1, rfl, rfl, rfl⟩)
    (act (raised.tfBase * 1) (cornerPoint ⟨1, 1, 1⟩ fun _ => true), _) ⟨fun _ => true, 0, rfl⟩
  simp at this

/-- Three frames of the robot `cubes`, one of them shown twice. -/
example (hit : Oracle Shape) : ∃ lines st, runFrames { cubes with geometryBase := none }
      [[1], [2], [3]] ([0, 2, 2] ++ [1]) (emptyLines { cubes with geometryBase := none },
        after hit cubes.links []) = (.ok (), (lines, st)) ∧
    Depicts lines.flatten (RobotAt { cubes with geometryBase := none } [2]) :=
  C80_partial hit { cubes with geometryBase := none } cubes_known [] (by simp) _
    (by simp [cubes, Robot.new]) (.inr (by simp [cubes, Robot.new])) _ (by simp) 1 [2] rfl rfl

/-- A path with a configuration that has no value at all: the frame before it stays. -/
example (hit : Oracle Shape) : ∃ lines st, runFrames cubes [[1], [2], []] ([0] ++ 1 :: 2 :: [0, 1])
      (emptyLines cubes, after hit cubes.links []) = (.error .indexError, (lines, st)) ∧
    Depicts lines.flatten (BodyAt cubes [2]) :=
  C80_stops hit cubes cubes_known [] (by simp) _ (.inr (by simp [cubes, Robot.new])) [0] 1 [2]
    (by simp [cubes, Robot.new]) rfl 2 [] rfl (by simp [cubes, Robot.new]) [0, 1]

/-! ### C81, C82 -/

/-- The three axes of length `l` of a frame. -/
noncomputable def triad (T : M4) (l : ℝ) : List Seg :=
  [(act T 0, act T ![l, 0, 0]), (act T 0, act T ![0, l, 0]), (act T 0, act T ![0, 0, l])]

theorem plotReferenceFrame_some (T : M4) (l : ℝ) : plotReferenceFrame (some T) l = triad T l := by
  simp [plotReferenceFrame, triad, act]

/-- **C82**: `plot_reference_frame` draws three segments from the origin of the frame to the points at
distance `arrow_length` on its axes. -/
theorem C82_segments (T : M4) (l : ℝ) : plotReferenceFrame (some T) l = triad T l ∧
    plotReferenceFrame none l = triad 1 l := by
  refine ⟨plotReferenceFrame_some T l, ?_⟩
  simp [plotReferenceFrame, triad, act_one]

/-- **C82**: for a rigid transform the three are orthogonal, have length `|arrow_length|`, and are in
the order of a right-handed frame. -/
theorem C82_orthogonal {T : M4} (hT : IsRigid T) (l : ℝ) :
    ∃ o x y z : V3, plotReferenceFrame (some T) l = [(o, o + x), (o, o + y), (o, o + z)] ∧
      o = posPart T ∧ x ⬝ᵥ x = l ^ 2 ∧ y ⬝ᵥ y = l ^ 2 ∧ z ⬝ᵥ z = l ^ 2 ∧
      x ⬝ᵥ y = 0 ∧ y ⬝ᵥ z = 0 ∧ x ⬝ᵥ z = 0 ∧ x ⨯₃ y = l • z := by
  obtain ⟨R, p, hR, rfl⟩ := hT.exists_mk
  refine ⟨p, R *ᵥ ![l, 0, 0], R *ᵥ ![0, l, 0], R *ᵥ ![0, 0, l], ?_, ?_⟩
  · rw [plotReferenceFrame_some]
    simp [triad, act, rotPart_mkTf, posPart_mkTf, add_comm]
  · have h1 := hR.1
    have key : ∀ u v : V3, (R *ᵥ u) ⬝ᵥ (R *ᵥ v) = u ⬝ᵥ v := by
      intro u v
      rw [Matrix.dotProduct_mulVec, ← Matrix.mulVec_transpose, Matrix.mulVec_mulVec, h1,
        Matrix.one_mulVec]
    have hadj : R.adjugate = Rᵀ := by
      have : Rᵀ * (R * R.adjugate) = Rᵀ * (R.det • (1 : M3)) := by rw [Matrix.mul_adjugate]
      rw [← Matrix.mul_assoc, h1, one_mul, hR.2, one_smul, mul_one] at this
      exact this
    rw [Matrix.adjugate_fin_three] at hadj
    have e0 := congrFun (congrFun hadj 2) 0
    have e1 := congrFun (congrFun hadj 2) 1
    have e2 := congrFun (congrFun hadj 2) 2
    simp at e0 e1 e2
    refine ⟨posPart_mkTf R p |>.symm, ?_, ?_, ?_, ?_, ?_, ?_, ?_⟩
    iterate 6 · rw [key]; simp [dotProduct, Fin.sum_univ_succ]; try ring
    ext i
    fin_cases i <;> simp [cross_apply, Matrix.mulVec, dotProduct, Fin.sum_univ_succ]
    · rw [← e0]; ring
    · rw [← e1]; ring
    · rw [← e2]; ring

/-- A frame turned by one radian. -/
example : IsRigid (Util.poseZ 1 1 2 3) ∧ ∃ x y : V3, plotReferenceFrame (some (Util.poseZ 1 1 2 3)) 2 =
    [(![1, 2, 3], ![1, 2, 3] + x), (![1, 2, 3], ![1, 2, 3] + y), (![1, 2, 3], ![1, 2, 5])] := by
  refine ⟨(C20_pose 1 1 2 3).2.2.1.1, ![2 * Real.cos 1, 2 * Real.sin 1, 0],
    ![-2 * Real.sin 1, 2 * Real.cos 1, 0], ?_⟩
  rw [plotReferenceFrame_some]
  have e : ∀ a b c : ℝ, Util.rotZ 1 *ᵥ ![a, b, c] =
      ![Real.cos 1 * a - Real.sin 1 * b, Real.sin 1 * a + Real.cos 1 * b, c] := by
    intro a b c
    ext i; fin_cases i <;> simp [Util.rotZ, sub_eq_add_neg, mul_comm]
  simp only [triad, ((C20_pose 1 1 2 3).2.2.1.2), e]
  simp
  refine ⟨⟨?_, ?_⟩, ⟨?_, ?_⟩, ?_⟩ <;> ring_nf

/-- **C82**: the default length. -/
theorem C82_default (T : M4) : plotReferenceFrame (some T) = triad T 0.2 := plotReferenceFrame_some T _

/-- **C81**: the line of `plot_kinematics` runs from the base origin through the origins of the link
frames in order; frames are drawn at the base, at every link, and at the tool tip where `fk` puts it. -/
theorem C81_kinematics (hit : Oracle Shape) (r : Robot Shape) (hk : KnownTypes r.links)
    (history : List (Call Shape)) (hh : ∀ c ∈ history, c.robot.links = r.links) (q : List ℝ)
    (hq : r.links.length ≤ q.length) (h0 : 0 < r.links.length) :
    ∃ (segs tip : List Seg), (plotKinematics r (after hit r.links history) q).1 =
        .ok (posPart r.tfBase :: (List.range r.links.length).map (fun k => posPart (frameOf r q k)), segs) ∧
      segs = triad r.tfBase 0.2 ++
        (List.range r.links.length).flatMap (fun k => triad (frameOf r q k) 0.2) ++ tip ∧
      (r.tool = none → tip = []) ∧
      (r.tool ≠ none → ∀ T, (r.fk (after hit r.links history) q).1 = .ok T → tip = triad T 0.2) := by
  have hw := after_wf hit r.links history hh
  have hf := fkAllLinks_ok hw hq hk.known
  have hfr : frames r.links q r.tfBase = (List.range r.links.length).map (frameOf r q) := by
    refine List.ext_getElem? fun k => ?_
    rw [List.getElem?_map]
    rcases Nat.lt_or_ge k r.links.length with h | h
    · rw [(frames_get r hq).2 ⟨h, rfl⟩, List.getElem?_range h]; rfl
    · rw [List.getElem?_eq_none (by rw [frames_length hq]; exact h),
        List.getElem?_eq_none (by simpa using h)]; rfl
  have hne : frames r.links q r.tfBase ≠ [] := by
    intro h
    have := frames_length hq r.tfBase
    rw [h] at this; simp at this; omega
  have hlast := frames_last r hq h0
  have hfk := fk_ok hw hq hk.known
  cases ht : r.tool with
  | none =>
    refine ⟨_, [], ?_, rfl, fun _ => rfl, fun h => absurd rfl h⟩
    simp only [plotKinematics, hf, Except.bind, bind, if_neg hne, ht]
    simp [hfr, plotReferenceFrame_some, List.flatMap_map, Function.comp_def]
  | some t =>
    refine ⟨_, triad (frameOf r q (r.links.length - 1) * t.tfTT) 0.2, ?_, rfl, by simp, ?_⟩
    · simp only [plotKinematics, hf, Except.bind, bind, if_neg hne, ht, hlast]
      simp [hfr, plotReferenceFrame_some, List.flatMap_map, Function.comp_def]
    · intro _ T hT
      rw [hfk, ht] at hT
      cases hT
      have hg := frames_getLast hq r.tfBase
      rw [List.getLast?_eq_getElem?, frames_length hq,
        (frames_get r hq (T := frameOf r q (r.links.length - 1))).2 ⟨by omega, rfl⟩] at hg
      rw [show frameOf r q (r.links.length - 1) = r.tfBase * chain r.links q from hg]

/-- **C81**: a robot without links cannot be drawn that way. -/
theorem C81_no_links (r : Robot Shape) (h : r.links = []) (st : RState) (q : List ℝ) :
    (plotKinematics r st q).1 = .error .valueError := by
  simp [plotKinematics, Robot.fkAllLinks, h, fkLoop, Except.bind]

/-- The robot `cubes`: the tip frame is that of `fk`. -/
example (hit : Oracle Shape) : ∃ segs tip T, (plotKinematics cubes (after hit cubes.links []) [7]).1 =
    .ok (posPart cubes.tfBase :: [posPart (frameOf cubes [7] 0)], segs) ∧
    segs = triad cubes.tfBase 0.2 ++ triad (frameOf cubes [7] 0) 0.2 ++ tip ∧ tip = triad T 0.2 ∧
    (cubes.fk (after hit cubes.links []) [7]).1 = .ok T := by
  obtain ⟨segs, tip, h1, h2, -, h4⟩ := C81_kinematics hit cubes cubes_known [] (by simp) [7]
    (by simp [cubes, Robot.new]) (by simp [cubes, Robot.new])
  have hfk := fk_ok (after_wf hit cubes.links [] (by simp)) (q := [7])
    (by simp [cubes, Robot.new]) cubes_known.known
  have hT := h4 (by simp [cubes]) _ hfk
  exact ⟨segs, tip, _, h1, by simpa [cubes, Robot.new] using h2, hT, hfk⟩

end Verif.Props
