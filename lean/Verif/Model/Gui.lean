import Verif.Model.Plot
import Verif.Model.Planning

/-!
# Model of gui/task_editor.py

`create_layout_slots` and the class TaskEditor.  The widgets of matplotlib only call the callbacks;
where they are on the figure (35-84) is in Model/Layout.lean.

An event of the user is a call of one callback.  It returns its outcome and the state of the editor
afterwards, also when it raises: matplotlib reports the exception and goes on.  What `import_urdf` and
`import_paths` return for a file name (see Model/Urdf and Model/Io) is given with the event, as files
may change.  `draw_idle` and the colours are left out.
-/

namespace Verif.Gui

open Matrix Verif.Geometry Verif.Kin Verif.Plot Verif.Path Verif.Planning Verif.ShortestPath
  Verif.Search Verif.CppGraph

noncomputable section

/-- A rectangle `[left, bottom, width, height]`. (task_editor.py:31) -/
structure Rect where
  left : ℝ
  bottom : ℝ
  width : ℝ
  height : ℝ

/-- task_editor.py:27-31: the slots of one row. -/
def rowSlots (slotW slotH margin : ℝ) (cols row : Int) : List Rect :=
  (List.range cols.toNat).map fun (col : Nat) =>
    { left := (col : ℝ) * slotW + margin
      bottom := (row : ℝ) * slotH + margin
      width := slotW - 2 * margin
      height := slotH - 2 * margin }

/-- task_editor.py:21-32 `create_layout_slots` -/
def createLayoutSlots (rows cols : Int) (margin : ℝ) : Except PyErr (List (List Rect)) :=
  if rows = 0 then .error .zeroDivisionError
  else if cols = 0 then .error .zeroDivisionError
  else
    let slotH := 1 / (rows : ℝ)
    let slotW := 1 / (cols : ℝ)
    .ok ((List.range rows.toNat).map fun (row : Nat) => rowSlots slotW slotH margin cols row)

/-- Lines of the log window. (task_editor.py:116-119, 163, 171, 176, 186) -/
inductive Msg where
  | planning
  | counts (l : List Nat)
  | success (b : Bool)
  | noPath

/-- What is on the axes. (task_editor.py:136-144, 180-184) -/
inductive Drawing where
  | robot (segs : List Seg)
  | scene (segs : List Seg)
  | frame (segs : List Seg)
  | animation (path : List Config)

/-- The attributes of a TaskEditor (task_editor.py:95-114) that change, with the state of its robot
and what is on the axes.  `V` is what the robot keeps besides its link matrices. -/
structure Editor (V : Type) where
  scene : Option (Collection Shape)
  paths : List (List PathPt)
  path : List PathPt
  filename : String
  pathsFilename : String
  logText : List Msg
  currentSolution : Option (List Config)
  rob : RState × V
  drawn : List Drawing

variable {V : Type}

/-- task_editor.py:95-114 `__init__` -/
def Editor.new (rob : RState × V) : Editor V where
  scene := none
  paths := []
  path := []
  filename := "scenes/path_in_box.urdf"
  pathsFilename := "tasks/path_in_box.json"
  logText := []
  currentSolution := none
  rob := rob
  drawn := []

/-- A callback. (task_editor.py:146-160) -/
abbrev Callback (V : Type) := Editor V → Except Err Unit × Editor V

/-- task_editor.py:116-119 -/
def Editor.log (e : Editor V) (m : Msg) : Editor V := { e with logText := e.logText ++ [m] }

/-- `tp.p_nominal`: only TolEulerPt (path.py:48) and FreeOrientationPt (path.py:193) have it. -/
def pNominal (tp : PathPt) : Except PyErr (List ℝ) :=
  match tp with
  | .euler p => .ok p.pNominal
  | .free p => .ok p.pNominal
  | _ => .error .attributeError

/-- task_editor.py:142-143: what is drawn for one path point. -/
def pointFrame (tp : PathPt) : Except PyErr Drawing := do
  let p ← pNominal tp
  let tf ← pointToFrame p
  .ok (.frame (plotReferenceFrame (some tf)))

/-- task_editor.py:140-143: the loop over all points of all paths. -/
def framesLoop : List PathPt → List Drawing → Except PyErr Unit × List Drawing
  | [], d => (.ok (), d)
  | tp :: rest, d =>
    match pointFrame tp with
    | .error e => (.error e, d)
    | .ok f => framesLoop rest (d ++ [f])

/-- task_editor.py:137 -/
def q0 : Config := [0, 0, 1.5, 0, 0, 0, 0]

/-- task_editor.py:139-143 of `plot_setup`, after the robot. -/
def plotTask : Callback V := fun e =>
  match e.scene with
  | none => (.error (.py .attributeError), e)
  | some sc =>
    let r := framesLoop e.paths.flatten (e.drawn ++ [.scene (plotCollection sc none)])
    (liftPy r.1, { e with drawn := r.2 })

/-- task_editor.py:136-144 `plot_setup`; what `robot.plot` has drawn when it raises is left out. -/
def plotSetup (r : Robot Shape) : Callback V := fun e =>
  let x := plotRobot r e.rob.1 q0
  match x.1 with
  | .error err => (.error (.py err), { e with rob := (x.2, e.rob.2) })
  | .ok segs => plotTask { e with rob := (x.2, e.rob.2), drawn := e.drawn ++ [.robot segs] }

/-- What the two import functions return for the names of the files. (task_editor.py:128, 132) -/
structure Files where
  scenes : String → Except Err (Collection Shape)
  paths : String → Except Err (List (List PathPt))

/-- task_editor.py:121-122 -/
def submitFileName (name : String) : Callback V := fun e => (.ok (), { e with filename := name })

/-- task_editor.py:124-125 -/
def submitPathFileName (name : String) : Callback V := fun e =>
  (.ok (), { e with pathsFilename := name })

/-- task_editor.py:127-129 -/
def loadScene (r : Robot Shape) (wdir : String) (fs : Files) : Callback V := fun e =>
  match fs.scenes (wdir ++ "/" ++ e.filename) with
  | .error err => (.error err, e)
  | .ok sc => plotSetup r { e with scene := some sc }

/-- task_editor.py:131-134 -/
def loadPaths (r : Robot Shape) (wdir : String) (fs : Files) : Callback V := fun e =>
  match fs.paths (wdir ++ "/" ++ e.pathsFilename) with
  | .error err => (.error err, e)
  | .ok ps =>
    match ps with
    | [] => (.error (.py .indexError), { e with paths := [] })
    | p :: _ => plotSetup r { e with paths := ps, path := p }

/-- robot.py:189-215 with `None` as collection: the base, or the first link that is checked, looks up
`other.tf_s` (geometry.py:162).  Without base and links only the tool is left, and `tf_links[-1]`
fails for it. -/
def collideNone (r : Robot Shape) (q : Config) : Run (RState × V) Bool := fun st =>
  if r.geometryBase.isSome then (.error (.py .attributeError), st)
  else
    let x := r.fkAllLinks st.1 q
    match x.1 with
    | .error e => (.error (.py e), x.2, st.2)
    | .ok _ =>
      if r.links.length = 0 then
        (if r.tool.isSome then .error (.py .indexError) else .ok false, x.2, st.2)
      else (.error (.py .attributeError), x.2, st.2)

/-- The robot as `plan` uses it when no scene has been loaded; the scene that is handed over is not
looked at. (task_editor.py:99, 167-169) -/
def withoutScene (r : Robot Shape) (arm : Arm (RState × V) Shape) : Arm (RState × V) Shape :=
  { arm with isInCollision := fun q _ => collideNone r q }

/-- task_editor.py:166: `np.linspace(-0.5, 0.5, 10)`, one fixed joint value each. -/
def qfSamples : List Config :=
  (List.range 10).map fun (i : Nat) => [-(1 / 2 : ℝ) + i * ((1 / 2 - -(1 / 2)) / ((10 : ℝ) - 1))]

/-- task_editor.py:165-169: the joint solutions.  `ndof` is the number of links. -/
def planQ (r : Robot Shape) (arm : Arm (RState × V) Shape) (conv : ℝ → ℝ) (draws : Nat → Draws)
    (path : List PathPt) (scene : Option (Collection Shape)) : Run (RState × V) (List (PyCol ℝ)) :=
  let arm' := if scene.isNone then withoutScene r arm else arm
  let sc := scene.getD ⟨[], []⟩
  if r.links.length > 6 then cartToJointSimple arm' conv draws path sc qfSamples
  else cartToJointNoRedundancy arm' conv draws path sc

variable {C : Type} [CostArith C] [JointArith ℝ C]

/-- task_editor.py:162-178 `plan` -/
def plan (pq : PQ C Config) (r : Robot Shape) (arm : Arm (RState × V) Shape) (conv : ℝ → ℝ)
    (draws : Nat → Draws) : Callback V := fun e =>
  let e := e.log .planning
  let x := planQ r arm conv draws e.path e.scene e.rob
  let e := { e with rob := x.2 }
  match x.1 with
  | .error err => (.error err, e)
  | .ok Q =>
    let e := e.log (.counts (Q.map fun c => c.rows.length))
    match getShortestPath pq conv Q .dijkstra (some [1, 1, 1, 1, 1, 1, 1]) with
    | .error err => (.error err, e)
    | .ok res =>
      let e := e.log (.success res.success)
      match res.path with
      | none => (.error (.py .keyError), e)
      | some p => (.ok (), { e with currentSolution := some p })

/-- task_editor.py:180-186 `show_path` -/
def showPath (r : Robot Shape) : Callback V := fun e =>
  match e.currentSolution with
  | none => (.ok (), e.log .noPath)
  | some p =>
    let x := plotSetup r { e with drawn := [] }
    match x.1 with
    | .error err => (.error err, x.2)
    | .ok () => (.ok (), { x.2 with drawn := x.2.drawn ++ [.animation p] })

/-- What the user can do; files and random numbers are those at that time.
(task_editor.py:146-160) -/
inductive Event where
  | submitFileName (name : String)
  | submitPathFileName (name : String)
  | loadScene (fs : Files)
  | loadPaths (fs : Files)
  | plan (draws : Nat → Draws)
  | showPath

/-- task_editor.py:146-160 `bind_callbacks` -/
def callback (pq : PQ C Config) (r : Robot Shape) (arm : Arm (RState × V) Shape) (conv : ℝ → ℝ)
    (wdir : String) : Event → Callback V
  | .submitFileName n => submitFileName n
  | .submitPathFileName n => submitPathFileName n
  | .loadScene fs => loadScene r wdir fs
  | .loadPaths fs => loadPaths r wdir fs
  | .plan d => plan pq r arm conv d
  | .showPath => showPath r

/-- The editor after a sequence of events, whatever their outcomes. (task_editor.py:146-160) -/
def runEvents (pq : PQ C Config) (r : Robot Shape) (arm : Arm (RState × V) Shape) (conv : ℝ → ℝ)
    (wdir : String) (e : Editor V) (evs : List Event) : Editor V :=
  evs.foldl (fun e ev => (callback pq r arm conv wdir ev e).2) e

end

end Verif.Gui
