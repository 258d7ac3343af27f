import Verif.Model.Robot

/-!
# Model of the plotting functions

What is drawn on the axes is a list of line segments.  Colours, labels and axis limits are left out,
matplotlib draws what it is told to draw.

`Robot.plot` hands `tf_base` to `Collection.plot` as a positional argument (robot.py:219), which ends
up as an additional argument of `ax.plot` (geometry.py:118) and not as the transform `tf`.  The model
has the segments drawn for the base, without what matplotlib makes of the additional argument (it
draws the columns of the matrix as four additional curves).
-/

namespace Verif.Plot

open Matrix Verif.Geometry Verif.Kin

noncomputable section

/-- A straight line between two points. (geometry.py:123-128, robot.py:237, util.py:164-166) -/
abbrev Seg := V3 × V3

/-- geometry.py:120-129 `update_lines`, for the twelve lines of geometry.py:116-118. -/
def shapeLines (s : Shape) (tf : M4) : List Seg := List.ofFn (s.getEdges tf)

/-- geometry.py:103-114 `Shape.plot` -/
def plotShape (s : Shape) (tf : M4) : List Seg := shapeLines s tf

/-- geometry.py:141-148 `Collection.plot`, with or without the keyword `tf`. -/
def plotCollection (c : Collection Shape) (tf : Option M4) : List Seg :=
  match tf with
  | some T => (c.s.zip c.tfS).flatMap fun st => plotShape st.1 (T * st.2)
  | none => (c.s.zip c.tfS).flatMap fun st => plotShape st.1 st.2

/-- robot.py:222-223: the links, with their frames. -/
def plotLinks (links : List (Link Shape)) (frames : List M4) : List Seg :=
  (links.zip frames).flatMap fun lf => plotCollection lf.1.geometry (some lf.2)

/-- robot.py:225-226 -/
def plotTool (tool : Option (Tool Shape)) (frames : List M4) : Except PyErr (List Seg) :=
  match tool with
  | none => .ok []
  | some t => do
    let T ← pyLast frames
    .ok (plotCollection t.toCollection (some T))

/-- robot.py:218-219 -/
def plotBase (base : Option (Collection Shape)) : List Seg :=
  match base with
  | none => []
  | some b => plotCollection b none

/-- robot.py:217-226 `Robot.plot` -/
def plotRobot (r : Robot Shape) (st : RState) (q : List ℝ) : Except PyErr (List Seg) × RState :=
  let x := r.fkAllLinks st q
  (x.1.bind fun frames => do
    let tool ← plotTool r.tool frames
    .ok (plotBase r.geometryBase ++ plotLinks r.links frames ++ tool), x.2)

/-- util.py:137-166 `plot_reference_frame`: the columns of the 2-column arrays are the end points. -/
def plotReferenceFrame (tf : Option M4) (l : ℝ := 0.2) : List Seg :=
  let axes : List V3 := [![l, 0, 0], ![0, l, 0], ![0, 0, l]]
  match tf with
  | none => axes.map fun e => (0, e)
  | some T => axes.map fun e => (rotPart T *ᵥ 0 + posPart T, rotPart T *ᵥ e + posPart T)

/-- robot.py:228-244 `plot_kinematics`: the points joined by a line, and the segments of all reference
frames.  Without links `np.vstack` gets arrays that do not fit. -/
def plotKinematics (r : Robot Shape) (st : RState) (q : List ℝ) :
    Except PyErr (List V3 × List Seg) × RState :=
  let x := r.fkAllLinks st q
  (x.1.bind fun frames =>
    if frames = [] then .error .valueError
    else do
      let points := posPart r.tfBase :: frames.map posPart
      let tip ← match r.tool with
        | none => .ok []
        | some t => do
          let T ← pyLast frames
          .ok (plotReferenceFrame (some (T * t.tfTT)))
      .ok (points, plotReferenceFrame (some r.tfBase) ++
        frames.flatMap (fun f => plotReferenceFrame (some f)) ++ tip), x.2)

/-! ### animate_path -/

/-- robot.py:252-260: one group of twelve lines for every shape, nothing drawn yet. -/
def emptyLines (r : Robot Shape) : List (List Seg) :=
  (r.links.flatMap fun l => l.geometry.s.map fun _ => []) ++
    match r.tool with
    | none => []
    | some t => t.s.map fun _ => []

/-- robot.py:267-269 and 273-275: `lines[cnt] = s.update_lines(lines[cnt], T)` for a list of placed
shapes, from `cnt` on. -/
def setLines (lines : List (List Seg)) (cnt : Nat) : List (M4 × Shape) →
    Except PyErr (List (List Seg) × Nat)
  | [] => .ok (lines, cnt)
  | (T, s) :: rest => do
    let _ ← pyGet lines cnt
    setLines (lines.set cnt (shapeLines s T)) (cnt + 1) rest

/-- robot.py:265-267: the placed shapes of the links. -/
def linkShapes (links : List (Link Shape)) (frames : List M4) : List (M4 × Shape) :=
  (frames.zip links).flatMap fun fl =>
    (fl.2.geometry.tfS.zip fl.2.geometry.s).map fun ts => (fl.1 * ts.1, ts.2)

/-- robot.py:271-273: the placed shapes of the tool; `tfs[-1]` is only evaluated for a shape. -/
def toolShapes (tool : Option (Tool Shape)) (frames : List M4) : Except PyErr (List (M4 × Shape)) :=
  match tool with
  | none => .ok []
  | some t =>
    match t.tfS.zip t.s with
    | [] => .ok []
    | ts => do
      let T ← pyLast frames
      .ok (ts.map fun p => (T * p.1, p.2))

/-- robot.py:262-275 `update_lines` for frame number `frame`; the lines survive an exception
unchanged in the model (matplotlib stops the animation). -/
def updateFrame (r : Robot Shape) (qPath : List (List ℝ)) (frame : Nat)
    (w : List (List Seg) × RState) : Except PyErr Unit × (List (List Seg) × RState) :=
  match pyGet qPath frame with
  | .error e => (.error e, w)
  | .ok q =>
    let x := r.fkAllLinks w.2 q
    let res : Except PyErr (List (List Seg)) := x.1.bind fun frames => do
      let a ← setLines w.1 0 (linkShapes r.links frames)
      let ts ← toolShapes r.tool frames
      let b ← setLines a.1 a.2 ts
      .ok b.1
    match res with
    | .error e => (.error e, (w.1, x.2))
    | .ok lines => (.ok (), (lines, x.2))

/-- robot.py:251-281 `animate_path`: FuncAnimation calls `update_lines` with frame numbers of its
choice; here any list of numbers. -/
def runFrames (r : Robot Shape) (qPath : List (List ℝ)) : List Nat → List (List Seg) × RState →
    Except PyErr Unit × (List (List Seg) × RState)
  | [], w => (.ok (), w)
  | f :: fs, w =>
    match updateFrame r qPath f w with
    | (.error e, w') => (.error e, w')
    | (.ok (), w') => runFrames r qPath fs w'

end

end Verif.Plot
