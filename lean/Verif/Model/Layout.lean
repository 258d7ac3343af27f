import Verif.Model.Gui

/-!
# Model of the layout of gui/task_editor.py and of gui/gui_template.py

The positions of the widgets and which callback a click on the figure or a submitted text calls.
matplotlib calls the observers of the widget whose axes contain the mouse; borders count.  Limits
and labels of the 3D axes are left out.
-/

namespace Verif.Gui

open Verif.Planning

noncomputable section

/-- The keys of the dictionary `widgets` (task_editor.py:62-82). -/
inductive Widget where
  | sceneFile
  | loadScene
  | pathsFile
  | loadPaths
  | planBtn
  | showPath
  | logText
  deriving DecidableEq

/-- `slots[row][col]` (task_editor.py:64-73) -/
def getSlot (slots : List (List Rect)) (row col : Nat) : Except PyErr Rect :=
  match slots[row]? with
  | none => .error .indexError
  | some r =>
    match r[col]? with
    | none => .error .indexError
    | some x => .ok x

/-- The texts on and beside the widgets (task_editor.py:64-71). -/
def Widget.label : Widget → String
  | .sceneFile => "Scene urdf"
  | .loadScene => "Load scene"
  | .pathsFile => "Paths file"
  | .loadPaths => "Load paths"
  | .planBtn => "Plan"
  | .showPath => "Show solution"
  | .logText => ""

/-- task_editor.py:53: the axes of the 3D view. -/
def viewRect : Rect := ⟨0.5, 0, 0.5, 1.0⟩

/-- task_editor.py:47-84 `create_layout`: the widgets with their rectangles.  `add_button` and
`add_textbox` (35-44) put a widget on new axes with the given rectangle. -/
def createLayout : Except PyErr (List (Widget × Rect)) := do
  let slots ← createLayoutSlots 10 4 0.02
  let a ← getSlot slots 9 0
  let b ← getSlot slots 8 0
  let c ← getSlot slots 7 0
  let d ← getSlot slots 6 0
  let e ← getSlot slots 3 0
  let f ← getSlot slots 3 1
  let g ← getSlot slots 2 0
  .ok [(.sceneFile, a), (.loadScene, b), (.pathsFile, c), (.loadPaths, d), (.planBtn, e),
    (.showPath, f), (.logText, g)]

/-- A point of the figure is in the axes of a widget. (task_editor.py:35-44) -/
def Rect.Has (r : Rect) (p : ℝ × ℝ) : Prop :=
  r.left ≤ p.1 ∧ p.1 ≤ r.left + r.width ∧ r.bottom ≤ p.2 ∧ p.2 ≤ r.bottom + r.height

/-- task_editor.py:146-160 `bind_callbacks`: `on_clicked`. -/
def onClicked (fs : Files) (draws : Nat → Draws) : Widget → Option Event
  | .planBtn => some (.plan draws)
  | .showPath => some .showPath
  | .loadScene => some (.loadScene fs)
  | .loadPaths => some (.loadPaths fs)
  | _ => none

/-- task_editor.py:146-160 `bind_callbacks`: `on_submit`. -/
def onSubmit (name : String) : Widget → Option Event
  | .sceneFile => some (.submitFileName name)
  | .pathsFile => some (.submitPathFileName name)
  | _ => none

/-- The callbacks that a click on a point of the figure calls. (task_editor.py:146-160) -/
def Fires (layout : List (Widget × Rect)) (fs : Files) (draws : Nat → Draws) (p : ℝ × ℝ)
    (ev : Event) : Prop :=
  ∃ w r, (w, r) ∈ layout ∧ r.Has p ∧ onClicked fs draws w = some ev

/-! ## gui_template.py -/

/-- A matplotlib slider: the value, the value `reset` goes back to, and what `set_val` makes of a
value (limits and step). (gui_template.py:56-59) -/
structure Slider where
  val : ℝ
  valinit : ℝ
  snap : ℝ → ℝ

/-- A new slider.  Limits and step are applied to the first value too (`_value_in_bounds`).
(gui_template.py:56-59) -/
def Slider.new (valinit : ℝ) (snap : ℝ → ℝ) : Slider := ⟨snap valinit, snap valinit, snap⟩

/-- `Slider.set_val` (gui_template.py:61-62) -/
def Slider.setVal (s : Slider) (v : ℝ) : Slider := { s with val := s.snap v }

/-- What matplotlib makes of a value with `valmin`, `valmax` and `valstep`.
(gui_template.py:56-58) -/
def stepped (valmin valmax valstep v : ℝ) : ℝ :=
  max valmin (min valmax (valmin + round ((v - valmin) / valstep) * valstep))

/-- Without `valstep`. (gui_template.py:59) -/
def clipped (valmin valmax v : ℝ) : ℝ := max valmin (min valmax v)

/-- The sliders, the curve as a function of time, its colour and the label of the radio button that
is on. (gui_template.py:11-24) -/
structure Template where
  sfreq : Slider
  samp : Slider
  curve : ℝ → ℝ
  color : String
  active : String

/-- gui_template.py:11-24 `__init__` with 33-36 `create_plot_lines` and 53-62 `add_sliders`
(`a0 = 5`, `f0 = 3`) and 71-74 `add_radio_boxes` (`active=0` puts on the first button without
calling the observer).  "C0" is the first colour of matplotlib's cycle. -/
def Template.new (snapF snapA : ℝ → ℝ) : Template where
  sfreq := Slider.new 3 snapF
  samp := Slider.new 5 snapA
  curve := fun t => 5 * Real.sin (2 * Real.pi * 3 * t)
  color := "C0"
  active := "red"

/-- gui_template.py:38-43 `update_plot_lines` -/
def Template.updatePlotLines (g : Template) : Template :=
  { g with curve := fun t => g.samp.val * Real.sin (2 * Real.pi * g.sfreq.val * t) }

/-- gui_template.py:56-59: the template with the limits of its two sliders. -/
def Template.shipped : Template := Template.new (stepped 0.1 30 1) (clipped 0.1 10)

/-- Moving the frequency slider calls the observer (gui_template.py:61). -/
def Template.setFreq (g : Template) (v : ℝ) : Template :=
  Template.updatePlotLines { g with sfreq := g.sfreq.setVal v }

/-- Moving the amplitude slider calls the observer (gui_template.py:62). -/
def Template.setAmp (g : Template) (v : ℝ) : Template :=
  Template.updatePlotLines { g with samp := g.samp.setVal v }

open Classical in
/-- `self.sfreq.reset()`: nothing happens if the value is the first one. (gui_template.py:46) -/
def Template.resetFreq (g : Template) : Template :=
  if g.sfreq.val ≠ g.sfreq.valinit then g.setFreq g.sfreq.valinit else g

open Classical in
/-- `self.samp.reset()` (gui_template.py:47) -/
def Template.resetAmp (g : Template) : Template :=
  if g.samp.val ≠ g.samp.valinit then g.setAmp g.samp.valinit else g

/-- gui_template.py:45-47 `reset_sliders` -/
def Template.resetSliders (g : Template) : Template := g.resetFreq.resetAmp

/-- gui_template.py:49-51 `colorfunc` -/
def Template.colorfunc (g : Template) (label : String) : Template := { g with color := label }

/-- What the user can do. (gui_template.py:61-62, 69, 74) -/
inductive TemplateEvent where
  | freq (v : ℝ)
  | amp (v : ℝ)
  | reset
  | color (label : String)

/-- The callbacks (gui_template.py:61-62, 69, 74).  matplotlib puts on the radio button that was
clicked before it calls the observer. -/
def Template.step (g : Template) : TemplateEvent → Template
  | .freq v => g.setFreq v
  | .amp v => g.setAmp v
  | .reset => g.resetSliders
  | .color l => Template.colorfunc { g with active := l } l

end

end Verif.Gui
