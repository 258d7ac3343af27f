import Verif.Model.Layout
import Verif.Props.Gui

/-!
# C108, C109: the layout of the editor and the template

`Rect.Has` is `closedRect`.
-/

set_option linter.unusedSectionVars false

namespace Verif.Props

open Verif Verif.Gui Verif.Path

noncomputable section

theorem layout_eq : createLayout = .ok
    [(.sceneFile, ⟨0.02, 0.92, 0.21, 0.06⟩), (.loadScene, ⟨0.02, 0.82, 0.21, 0.06⟩),
     (.pathsFile, ⟨0.02, 0.72, 0.21, 0.06⟩), (.loadPaths, ⟨0.02, 0.62, 0.21, 0.06⟩),
     (.planBtn, ⟨0.02, 0.32, 0.21, 0.06⟩), (.showPath, ⟨0.27, 0.32, 0.21, 0.06⟩),
     (.logText, ⟨0.02, 0.22, 0.21, 0.06⟩)] := by
  have hs : ∀ i : Nat, i < 10 → ∀ j : Nat, j < 4 → ∀ slots, createLayoutSlots 10 4 0.02 = .ok slots →
      getSlot slots i j = .ok ⟨j * (1 / 4) + 0.02, i * (1 / 10) + 0.02, 1 / 4 - 2 * 0.02,
        1 / 10 - 2 * 0.02⟩ := by
    intro i hi j hj slots h
    rw [createLayoutSlots, if_neg (by norm_num), if_neg (by norm_num)] at h
    have h := Except.ok.inj h
    subst h
    have e1 : ((10 : Int).toNat) = 10 := rfl
    have e2 : ((4 : Int).toNat) = 4 := rfl
    simp only [getSlot, List.getElem?_map, e1, List.getElem?_range hi, Option.map_some, rowSlots, e2,
      List.getElem?_range hj]
    norm_num
  obtain ⟨slots, h⟩ : ∃ slots, createLayoutSlots 10 4 0.02 = .ok slots :=
    ⟨_, by rw [createLayoutSlots, if_neg (by norm_num), if_neg (by norm_num)]⟩
  unfold createLayout
  rw [h]
  simp only [bind, Except.bind, hs 9 (by norm_num) 0 (by norm_num) slots h,
    hs 8 (by norm_num) 0 (by norm_num) slots h, hs 7 (by norm_num) 0 (by norm_num) slots h,
    hs 6 (by norm_num) 0 (by norm_num) slots h, hs 3 (by norm_num) 0 (by norm_num) slots h,
    hs 3 (by norm_num) 1 (by norm_num) slots h, hs 2 (by norm_num) 0 (by norm_num) slots h]
  norm_num

/-- **C108**: the layout has each of the seven widgets once, in rectangles inside the figure; every
point of the figure is in at most one of them, and in none if it is in the 3D view.  A click calls
at most one callback, the one of the button under the mouse, and none in the view, in the log and in
the two text boxes. -/
theorem C108_layout : ∃ layout, createLayout = .ok layout ∧
    (∀ w : Widget, ∃ r, (w, r) ∈ layout ∧ 0 < r.width ∧ 0 < r.height ∧
      (∀ p, r.Has p → 0 ≤ p.1 ∧ p.1 ≤ 1 ∧ 0 ≤ p.2 ∧ p.2 ≤ 1) ∧
      (∀ r', (w, r') ∈ layout → r' = r) ∧
      ∀ p, r.Has p → ¬ viewRect.Has p ∧ (∀ w' r', (w', r') ∈ layout → r'.Has p → w' = w) ∧
        ∀ fs d ev, Fires layout fs d p ev ↔ onClicked fs d w = some ev) ∧
    ∀ p fs d ev ev', Fires layout fs d p ev → Fires layout fs d p ev' → ev = ev' := by
  have hun : ∀ w r w' r' p, (w, r) ∈ [(Widget.sceneFile, (⟨0.02, 0.92, 0.21, 0.06⟩ : Rect)),
      (.loadScene, ⟨0.02, 0.82, 0.21, 0.06⟩),
      (.pathsFile, ⟨0.02, 0.72, 0.21, 0.06⟩), (.loadPaths, ⟨0.02, 0.62, 0.21, 0.06⟩),
      (.planBtn, ⟨0.02, 0.32, 0.21, 0.06⟩), (.showPath, ⟨0.27, 0.32, 0.21, 0.06⟩),
      (.logText, ⟨0.02, 0.22, 0.21, 0.06⟩)] →
      (w', r') ∈ [(Widget.sceneFile, (⟨0.02, 0.92, 0.21, 0.06⟩ : Rect)),
      (.loadScene, ⟨0.02, 0.82, 0.21, 0.06⟩),
      (.pathsFile, ⟨0.02, 0.72, 0.21, 0.06⟩), (.loadPaths, ⟨0.02, 0.62, 0.21, 0.06⟩),
      (.planBtn, ⟨0.02, 0.32, 0.21, 0.06⟩), (.showPath, ⟨0.27, 0.32, 0.21, 0.06⟩),
      (.logText, ⟨0.02, 0.22, 0.21, 0.06⟩)] → r.Has p → r'.Has p → w = w' := by
    intro w r w' r' p h h'
    simp only [List.mem_cons, Prod.mk.injEq, List.not_mem_nil, or_false] at h h'
    rcases h with ⟨rfl, rfl⟩ | ⟨rfl, rfl⟩ | ⟨rfl, rfl⟩ | ⟨rfl, rfl⟩ | ⟨rfl, rfl⟩ | ⟨rfl, rfl⟩ |
      ⟨rfl, rfl⟩ <;>
    rcases h' with ⟨rfl, rfl⟩ | ⟨rfl, rfl⟩ | ⟨rfl, rfl⟩ | ⟨rfl, rfl⟩ | ⟨rfl, rfl⟩ | ⟨rfl, rfl⟩ |
      ⟨rfl, rfl⟩ <;>
    first
    | exact fun _ _ => rfl
    | (rintro ⟨a, b, c, d⟩ ⟨a', b', c', d'⟩
       exfalso
       norm_num at a b c d a' b' c' d'
       linarith)
  refine ⟨_, layout_eq, ?_, ?_⟩
  · intro w
    have hrec : ∃ r, (w, r) ∈ [(Widget.sceneFile, (⟨0.02, 0.92, 0.21, 0.06⟩ : Rect)),
      (.loadScene, ⟨0.02, 0.82, 0.21, 0.06⟩),
      (.pathsFile, ⟨0.02, 0.72, 0.21, 0.06⟩), (.loadPaths, ⟨0.02, 0.62, 0.21, 0.06⟩),
      (.planBtn, ⟨0.02, 0.32, 0.21, 0.06⟩), (.showPath, ⟨0.27, 0.32, 0.21, 0.06⟩),
      (.logText, ⟨0.02, 0.22, 0.21, 0.06⟩)] := by
      cases w <;> simp
    obtain ⟨r, hr⟩ := hrec
    have hgeo : 0 < r.width ∧ 0 < r.height ∧ 0 ≤ r.left ∧ r.left + r.width < 0.5 ∧ 0 ≤ r.bottom ∧
        r.bottom + r.height ≤ 1 := by
      simp only [List.mem_cons, Prod.mk.injEq, List.not_mem_nil, or_false] at hr
      rcases hr with ⟨-, rfl⟩ | ⟨-, rfl⟩ | ⟨-, rfl⟩ | ⟨-, rfl⟩ | ⟨-, rfl⟩ | ⟨-, rfl⟩ | ⟨-, rfl⟩ <;>
        norm_num
    obtain ⟨g1, g2, g3, g4, g5, g6⟩ := hgeo
    refine ⟨r, hr, g1, g2, ?_, ?_, ?_⟩
    · rintro p ⟨a, b, c, d⟩
      exact ⟨by linarith, by norm_num at g4; linarith, by linarith, by linarith⟩
    · intro r' hr'
      simp only [List.mem_cons, Prod.mk.injEq, List.not_mem_nil, or_false] at hr hr'
      cases w <;> simp at hr hr' <;> rw [hr, hr']
    · intro p hp
      refine ⟨?_, fun w' r' h' hp' => (hun w r w' r' p hr h' hp hp').symm, fun fs d ev => ⟨?_, ?_⟩⟩
      · rintro ⟨a, -, -, -⟩
        obtain ⟨-, b, -, -⟩ := hp
        simp only [viewRect] at a
        linarith
      · rintro ⟨w', r', h', hp', he⟩
        rw [hun w r w' r' p hr h' hp hp']
        exact he
      · intro he
        exact ⟨w, r, hr, hp, he⟩
  · rintro p fs d ev ev' ⟨w, r, h, hp, he⟩ ⟨w', r', h', hp', he'⟩
    rw [hun w r w' r' p h h' hp hp'] at he
    rw [he] at he'
    exact Option.some.inj he'

/-- **C108**, what the labels promise: a click on the button labelled "Plan" calls `plan`, on "Show
solution" `show_path`, on "Load scene" `load_scene`, on "Load paths" `load_paths`, and elsewhere
nothing; a text submitted in the box "Scene urdf" goes to `submit_file_name`, in "Paths file" to
`submit_path_file_name`, and there are no other text boxes. -/
theorem C108_labels : ∃ layout, createLayout = .ok layout ∧
    (∀ w r p fs d ev, (w, r) ∈ layout → r.Has p → (Fires layout fs d p ev ↔
      w.label = "Plan" ∧ ev = .plan d ∨ w.label = "Show solution" ∧ ev = .showPath ∨
      w.label = "Load scene" ∧ ev = .loadScene fs ∨ w.label = "Load paths" ∧ ev = .loadPaths fs)) ∧
    (∀ p fs d ev, (∀ w r, (w, r) ∈ layout → ¬ r.Has p) → ¬ Fires layout fs d p ev) ∧
    ∀ (w : Widget) name ev, onSubmit name w = some ev ↔
      w.label = "Scene urdf" ∧ ev = .submitFileName name ∨
      w.label = "Paths file" ∧ ev = .submitPathFileName name := by
  obtain ⟨layout, hl, h1, -⟩ := C108_layout
  refine ⟨layout, hl, fun w r p fs d ev hw hp => ?_, ?_, fun w name ev => ?_⟩
  · obtain ⟨r', -, -, -, -, hu, h⟩ := h1 w
    obtain rfl := hu r hw
    rw [(h p hp).2.2 fs d ev]
    cases w <;> simp [onClicked, Widget.label] <;> exact eq_comm
  · rintro p fs d ev h ⟨w, r, hw, hp, -⟩
    exact h w r hw hp
  · cases w <;> simp [onSubmit, Widget.label] <;> exact eq_comm

/-- **C108**, where things are: from the top in one column of equal boxes the file name of the scene,
its button, the file name of the paths, its button, the button "Plan" and the log, "Show solution"
to the right of "Plan". -/
theorem C108_places : ∃ (layout : List (Widget × Rect)) (a b c d e f g : Rect),
    createLayout = .ok layout ∧
    (.sceneFile, a) ∈ layout ∧ (.loadScene, b) ∈ layout ∧ (.pathsFile, c) ∈ layout ∧
    (.loadPaths, d) ∈ layout ∧ (.planBtn, e) ∈ layout ∧ (.showPath, f) ∈ layout ∧
    (.logText, g) ∈ layout ∧
    (∀ x ∈ [b, c, d, e, g], x.left = a.left) ∧
    (∀ x ∈ [b, c, d, e, f, g], x.width = a.width ∧ x.height = a.height) ∧
    b.bottom + b.height < a.bottom ∧ c.bottom + c.height < b.bottom ∧
    d.bottom + d.height < c.bottom ∧ e.bottom + e.height < d.bottom ∧
    g.bottom + g.height < e.bottom ∧ f.bottom = e.bottom ∧ e.left + e.width < f.left := by
  refine ⟨_, ⟨0.02, 0.92, 0.21, 0.06⟩, ⟨0.02, 0.82, 0.21, 0.06⟩, ⟨0.02, 0.72, 0.21, 0.06⟩,
    ⟨0.02, 0.62, 0.21, 0.06⟩, ⟨0.02, 0.32, 0.21, 0.06⟩, ⟨0.27, 0.32, 0.21, 0.06⟩,
    ⟨0.02, 0.22, 0.21, 0.06⟩, layout_eq, ?_⟩
  norm_num

/-! ## C109 -/

/-- The drawn curve, which has the times `k / 1000`, is that of the values shown by the sliders. -/
def Matches (g : Template) : Prop :=
  ∀ k : Nat, k < 1000 → g.curve (k / 1000) =
    g.samp.val * Real.sin (2 * Real.pi * g.sfreq.val * (k / 1000))

/-- **C109** as stated: the curve is always that of the sliders. -/
def C109_statement : Prop :=
  ∀ evs : List TemplateEvent, Matches (evs.foldl Template.step Template.shipped)

theorem Matches.update (g : Template) : Matches g.updatePlotLines := fun _ _ => rfl

theorem Matches.step {g : Template} (h : Matches g) (ev : TemplateEvent) : Matches (g.step ev) := by
  cases ev with
  | freq v => exact Matches.update _
  | amp v => exact Matches.update _
  | color l => exact h
  | reset =>
    have h1 : Matches g.resetFreq := by
      unfold Template.resetFreq
      split
      · exact Matches.update _
      · exact h
    show Matches g.resetFreq.resetAmp
    generalize g.resetFreq = g' at h1
    unfold Template.resetAmp
    split
    · exact Matches.update _
    · exact h1

theorem Matches.run {g : Template} (h : Matches g) (evs : List TemplateEvent) :
    Matches (evs.foldl Template.step g) := by
  induction evs generalizing g with
  | nil => exact h
  | cons ev evs ih => exact ih (h.step ev)

/-- The event moves a slider. -/
def Moves : TemplateEvent → Prop
  | .freq _ => True
  | .amp _ => True
  | _ => False

/-- **C109**, partial: from the first move of a slider on, the curve is that of the values shown,
whatever happens later, for all limits and steps.  Missing: the time before, for which the statement
is false. -/
theorem C109_partial (snapF snapA : ℝ → ℝ) (evs : List TemplateEvent) (h : ∃ ev ∈ evs, Moves ev) :
    Matches (evs.foldl Template.step (Template.new snapF snapA)) := by
  obtain ⟨ev, hev, hm⟩ := h
  obtain ⟨a, b, rfl⟩ := List.append_of_mem hev
  rw [List.foldl_append, List.foldl_cons]
  apply Matches.run
  cases ev with
  | freq v => exact Matches.update _
  | amp v => exact Matches.update _
  | color l => exact hm.elim
  | reset => exact hm.elim

/-- The values shown: the last ones set since the last reset, with limits and step, else the first
ones. -/
def shownFreq : List TemplateEvent → ℝ → ℝ
  | [], v => v
  | .freq v :: evs, _ => shownFreq evs v
  | .reset :: evs, _ => shownFreq evs 3
  | _ :: evs, v => shownFreq evs v

/-- The same for the amplitude. -/
def shownAmp : List TemplateEvent → ℝ → ℝ
  | [], v => v
  | .amp v :: evs, _ => shownAmp evs v
  | .reset :: evs, _ => shownAmp evs 5
  | _ :: evs, v => shownAmp evs v

/-- **C109**, what the sliders show: after any events, the last values set by the user or by a
reset, with limits and steps applied (which must not change a value a second time). -/
theorem C109_values {snapF snapA : ℝ → ℝ} (hF : ∀ v, snapF (snapF v) = snapF v)
    (hA : ∀ v, snapA (snapA v) = snapA v) (evs : List TemplateEvent) :
    (evs.foldl Template.step (Template.new snapF snapA)).sfreq.val = snapF (shownFreq evs 3) ∧
    (evs.foldl Template.step (Template.new snapF snapA)).samp.val = snapA (shownAmp evs 5) := by
  have key : ∀ (evs : List TemplateEvent) (g : Template) (f a : ℝ),
      g.sfreq = ⟨snapF f, snapF 3, snapF⟩ → g.samp = ⟨snapA a, snapA 5, snapA⟩ →
      (evs.foldl Template.step g).sfreq.val = snapF (shownFreq evs f) ∧
      (evs.foldl Template.step g).samp.val = snapA (shownAmp evs a) := by
    intro evs
    induction evs with
    | nil => intro g f a h1 h2; exact ⟨by rw [List.foldl_nil, h1]; rfl, by rw [List.foldl_nil, h2]; rfl⟩
    | cons ev evs ih =>
      intro g f a h1 h2
      rw [List.foldl_cons]
      cases ev with
      | freq v =>
        exact ih _ v a (by simp [Template.step, Template.setFreq, Template.updatePlotLines,
          Slider.setVal, h1]) (by simpa [Template.step, Template.setFreq,
          Template.updatePlotLines] using h2)
      | amp v =>
        exact ih _ f v (by simpa [Template.step, Template.setAmp, Template.updatePlotLines] using h1)
          (by simp [Template.step, Template.setAmp, Template.updatePlotLines, Slider.setVal, h2])
      | color l => exact ih _ f a h1 h2
      | reset =>
        have e1 : g.resetFreq.sfreq = ⟨snapF 3, snapF 3, snapF⟩ ∧ g.resetFreq.samp = g.samp := by
          unfold Template.resetFreq
          split
          · refine ⟨?_, rfl⟩
            simp [Template.setFreq, Template.updatePlotLines, Slider.setVal, h1, hF]
          · rename_i hne
            refine ⟨?_, rfl⟩
            rw [h1] at hne ⊢
            simp only [ne_eq, not_not] at hne
            rw [hne]
        obtain ⟨e1, e2⟩ := e1
        rw [h2] at e2
        refine ih g.resetFreq.resetAmp 3 5 ?_ ?_
        · generalize g.resetFreq = g' at e1
          unfold Template.resetAmp
          split
          · exact e1
          · exact e1
        · generalize g.resetFreq = g' at e2
          unfold Template.resetAmp
          split
          · simp [Template.setAmp, Template.updatePlotLines, Slider.setVal, e2, hA]
          · rename_i hne
            rw [e2] at hne ⊢
            simp only [ne_eq, not_not] at hne
            rw [hne]
  exact key evs _ 3 5 rfl rfl

/-- The colour chosen last. -/
def lastColor (evs : List TemplateEvent) : Option String :=
  (evs.filterMap fun ev => match ev with
    | .color l => some l
    | _ => none).getLast?

/-- **C109**, the colour: the curve has the colour chosen last and the button of this colour is on.
Before a choice the button "red" is on, but the curve has the first colour of the cycle. -/
theorem C109_color (snapF snapA : ℝ → ℝ) (evs : List TemplateEvent) :
    (evs.foldl Template.step (Template.new snapF snapA)).color = (lastColor evs).getD "C0" ∧
    (evs.foldl Template.step (Template.new snapF snapA)).active = (lastColor evs).getD "red" := by
  have hreset : ∀ g : Template, g.resetSliders.color = g.color ∧ g.resetSliders.active = g.active := by
    intro g
    have h1 : g.resetFreq.color = g.color ∧ g.resetFreq.active = g.active := by
      unfold Template.resetFreq
      split <;> exact ⟨rfl, rfl⟩
    have h2 : ∀ g : Template, g.resetAmp.color = g.color ∧ g.resetAmp.active = g.active := by
      intro g
      unfold Template.resetAmp
      split <;> exact ⟨rfl, rfl⟩
    exact ⟨(h2 _).1.trans h1.1, (h2 _).2.trans h1.2⟩
  induction evs using List.reverseRecOn with
  | nil => exact ⟨rfl, rfl⟩
  | append_singleton evs ev ih =>
    rw [List.foldl_append, List.foldl_cons, List.foldl_nil]
    generalize hg : evs.foldl Template.step (Template.new snapF snapA) = g at ih
    cases ev with
    | color l => simp [lastColor, Template.step, Template.colorfunc]
    | freq v => simpa [lastColor, Template.step, Template.setFreq, Template.updatePlotLines] using ih
    | amp v => simpa [lastColor, Template.step, Template.setAmp, Template.updatePlotLines] using ih
    | reset => simpa [lastColor, Template.step, hreset] using ih

/-- A choice before a reset stays. -/
example : ([.color "blue", .freq 7, .reset].foldl Template.step Template.shipped).color = "blue" :=
  (C109_color _ _ _).1

/-- The steps of the frequency start at 0.1, so that the slider shows 3.1. -/
theorem stepped_three : stepped 0.1 30 1 3 = 3.1 := by
  have : round (((3 : ℝ) - 0.1) / 1) = 3 := by
    rw [round_eq, Int.floor_eq_iff]
    norm_num
  unfold stepped
  rw [this]
  norm_num

theorem clipped_five : clipped 0.1 10 5 = 5 := by unfold clipped; norm_num

/-- **C109** is false: the first curve has frequency 3, the slider shows 3.1. -/
theorem C109_refuted : ¬ C109_statement := by
  intro h
  have h1 := h [] 1 (by norm_num)
  simp only [List.foldl_nil, Template.shipped, Template.new, Slider.new, stepped_three,
    clipped_five] at h1
  have h2 : Real.sin (2 * Real.pi * 3 * ((1 : Nat) / 1000)) =
      Real.sin (2 * Real.pi * 3.1 * ((1 : Nat) / 1000)) := by linarith
  have hpi := Real.pi_pos
  have h3 := Real.injOn_sin (by constructor <;> norm_num <;> linarith)
    (by constructor <;> norm_num <;> linarith) h2
  norm_num at h3

theorem clipped_idem (v : ℝ) : clipped 0.1 10 (clipped 0.1 10 v) = clipped 0.1 10 v := by
  unfold clipped
  have h1 : (0.1 : ℝ) ≤ max 0.1 (min 10 v) := le_max_left _ _
  have h2 : max 0.1 (min 10 v) ≤ (10 : ℝ) := max_le (by norm_num) (min_le_left _ _)
  rw [min_eq_right h2, max_eq_right h1]

theorem stepped_idem (v : ℝ) : stepped 0.1 30 1 (stepped 0.1 30 1 v) = stepped 0.1 30 1 v := by
  have key : ∀ n : ℤ, stepped 0.1 30 1 (max 0.1 (min 30 (0.1 + (n : ℝ) * 1))) =
      max 0.1 (min 30 (0.1 + (n : ℝ) * 1)) := by
    intro n
    rcases le_or_gt n 0 with h | h
    · have h' : (n : ℝ) ≤ 0 := by exact_mod_cast h
      rw [min_eq_right (by linarith), max_eq_left (by linarith)]
      unfold stepped
      rw [show round (((0.1 : ℝ) - 0.1) / 1) = 0 by norm_num]
      norm_num
    · have h1 : (1 : ℝ) ≤ n := by exact_mod_cast h
      rcases le_or_gt n 29 with h2 | h2
      · have h3 : (n : ℝ) ≤ 29 := by exact_mod_cast h2
        rw [min_eq_right (by linarith), max_eq_right (by linarith)]
        unfold stepped
        rw [show ((0.1 : ℝ) + n * 1 - 0.1) / 1 = n by ring, round_intCast, min_eq_right (by linarith),
          max_eq_right (by linarith)]
      · have h3 : (30 : ℝ) ≤ n := by exact_mod_cast h2
        rw [min_eq_left (by linarith), max_eq_right (by norm_num)]
        have : round (((30 : ℝ) - 0.1) / 1) = 30 := by
          rw [round_eq, Int.floor_eq_iff]
          norm_num
        unfold stepped
        rw [this]
        norm_num
  exact key _

/-- The shipped sliders: the user drags the frequency to 7.3, then the amplitude to 20. -/
example : ([.freq 7.3, .amp 20].foldl Template.step Template.shipped).sfreq.val =
    stepped 0.1 30 1 7.3 ∧
    ([.freq 7.3, .amp 20].foldl Template.step Template.shipped).samp.val = clipped 0.1 10 20 :=
  C109_values stepped_idem clipped_idem _

/-- After a move, a reset and another move the curve is that of the sliders. -/
example : Matches ([.color "red", .freq 7, .reset, .amp 2].foldl Template.step Template.shipped) :=
  C109_partial _ _ _ ⟨.amp 2, by simp, trivial⟩

end

end Verif.Props
