import Verif.Model.Urdf
import Verif.Proofs.Rotation

/-! # C57, C58: urdfio.py -/

set_option linter.unusedSectionVars false

namespace Verif.Props

open Verif Verif.Geometry Verif.Urdf Verif.Util Matrix

noncomputable section

/-! ## The names -/

theorem toString_inj {i j : Nat} (h : toString i = toString j) : i = j := by
  have h1 : i.repr.toList = j.repr.toList := by
    have : i.repr = j.repr := h
    rw [this]
  rw [Nat.toList_repr, Nat.toList_repr] at h1
  rw [← Nat.ofDigitChars_ten_toDigits (n := i), h1, Nat.ofDigitChars_ten_toDigits]

theorem append_inj_left {p a b : String} (h : p ++ a = p ++ b) : a = b := by
  have := congrArg String.toList h
  rw [String.toList_append, String.toList_append] at this
  exact String.toList_inj.1 (List.append_cancel_left this)

theorem shapeName_inj {i j : Nat} (h : "shape_" ++ toString i = "shape_" ++ toString j) : i = j :=
  toString_inj (append_inj_left h)

theorem shapeName_ne (i : Nat) : "shape_" ++ toString i ≠ "world" := by
  intro h
  have := congrArg String.toList h
  rw [String.toList_append] at this
  have h2 := congrArg List.head? this
  simp at h2

theorem shapeNames_nodup (n : Nat) : (shapeNames n).Nodup :=
  List.Nodup.map (fun _ _ h => shapeName_inj h) List.nodup_range

/-! ## Export -/

/-- What the file holds for the boxes `bs`. -/
def content (bs : List BoxData) : List Elem := bs.flatMap fun b => [boxTemplate b, jointTemplate b]

theorem exportLoop_eq (name path : String) (bs : List BoxData) (c : List Elem) (files : Files) :
    exportLoop name path bs c files =
      if bs = [] then files
      else write files (fileName path name) (urdfTemplate name (c ++ content bs)) := by
  induction bs generalizing c files with
  | nil => rfl
  | cons b bs ih =>
    rw [exportLoop, ih]
    simp only [reduceCtorEq, if_false]
    by_cases h : bs = []
    · subst h; simp [content]
    · rw [if_neg h]
      funext g
      by_cases hg : g = fileName path name
      · simp [write, hg, content]
      · simp [write, hg]

/-- The boxes of a scene with their names. -/
def boxes (scene : Collection Shape) : List BoxData :=
  createUrdfData scene (shapeNames scene.s.length)

theorem boxes_eq (scene : Collection Shape) :
    boxes scene = ((scene.s.zip scene.tfS).zipIdx).map fun r =>
      ⟨"shape_" ++ toString r.2, ![r.1.1.dx, r.1.1.dy, r.1.1.dz], posPart r.1.2⟩ := by
  apply List.ext_getElem
  · simp [boxes, createUrdfData, shapeNames]
  · intro i h1 h2
    simp [boxes, createUrdfData, shapeNames]

theorem boxes_names (scene : Collection Shape) :
    ((boxes scene).map BoxData.name).Nodup ∧ ∀ b ∈ boxes scene, b.name ≠ "world" := by
  rw [boxes_eq]
  constructor
  · rw [List.map_map]
    have : ((scene.s.zip scene.tfS).zipIdx.map (BoxData.name ∘ fun r : (Shape × M4) × Nat =>
        (⟨"shape_" ++ toString r.2, ![r.1.1.dx, r.1.1.dy, r.1.1.dz], posPart r.1.2⟩ : BoxData))) =
        shapeNames (scene.s.zip scene.tfS).length := by
      rw [shapeNames, List.range_eq_range', ← List.zipIdx_map_snd 0 (scene.s.zip scene.tfS),
        List.map_map]
      rfl
    rw [this]
    exact shapeNames_nodup _
  · intro b hb
    obtain ⟨r, _, rfl⟩ := List.mem_map.1 hb
    exact shapeName_ne _

/-! ## Import -/

theorem links_content (bs : List BoxData) (name : String) :
    (urdfTemplate name (content bs)).links =
      ⟨"world", []⟩ :: bs.map fun b => ⟨b.name, [⟨1, some b.size⟩]⟩ := by
  rw [urdfTemplate, Doc.links]
  simp only [List.filterMap_cons]
  congr 1
  induction bs with
  | nil => rfl
  | cons b bs ih => simp only [content, List.flatMap_cons, List.cons_append, List.nil_append,
      boxTemplate, jointTemplate, List.filterMap_cons, List.map_cons] at ih ⊢; rw [ih]

theorem joints_content (bs : List BoxData) (name : String) :
    (urdfTemplate name (content bs)).joints =
      bs.map fun b => ⟨"world_to_" ++ b.name, "world", b.name, b.xyz, ![0, 0, 0]⟩ := by
  rw [urdfTemplate, Doc.joints]
  simp only [List.filterMap_cons]
  induction bs with
  | nil => rfl
  | cons b bs ih => simp only [content, List.flatMap_cons, List.cons_append, List.nil_append,
      boxTemplate, jointTemplate, List.filterMap_cons, List.map_cons] at ih ⊢; rw [ih]

theorem shapesLoop_boxes (bs : List BoxData) (f : String → Option Shape)
    (hn : (bs.map BoxData.name).Nodup) :
    ∃ g, shapesLoop (bs.map fun b => ⟨b.name, [⟨1, some b.size⟩]⟩) f = .ok g ∧
      (∀ b ∈ bs, g b.name = some ⟨b.size 0, b.size 1, b.size 2⟩) ∧
      ∀ n, n ∉ bs.map BoxData.name → g n = f n := by
  induction bs generalizing f with
  | nil => exact ⟨f, rfl, by simp, by simp⟩
  | cons b bs ih =>
    rw [List.map_cons, List.nodup_cons] at hn
    obtain ⟨g, h1, h2, h3⟩ := ih (fun n => if n = b.name then
      some ⟨b.size 0, b.size 1, b.size 2⟩ else f n) hn.2
    refine ⟨g, ?_, ?_, ?_⟩
    · rw [List.map_cons, shapesLoop, if_neg (by simp)]
      exact h1
    · intro c hc
      rcases List.mem_cons.1 hc with rfl | hc
      · rw [h3 _ hn.1, if_pos rfl]
      · exact h2 c hc
    · intro n hn'
      rw [List.map_cons, List.mem_cons, not_or] at hn'
      rw [h3 n hn'.2, if_neg hn'.1]

theorem jointsLoop_boxes (bs : List BoxData) {g : String → Option Shape}
    (hg : ∀ b ∈ bs, g b.name = some ⟨b.size 0, b.size 1, b.size 2⟩) (ts : List M4)
    (fs : List Shape) :
    jointsLoop "world" g
        (bs.map fun b => ⟨"world_to_" ++ b.name, "world", b.name, b.xyz, ![0, 0, 0]⟩) ts fs =
      .ok (ts ++ bs.map fun b => mkTf 1 b.xyz,
        fs ++ bs.map fun b => ⟨b.size 0, b.size 1, b.size 2⟩) := by
  induction bs generalizing ts fs with
  | nil => simp [jointsLoop]
  | cons b bs ih =>
    rw [List.map_cons, jointsLoop, if_pos rfl]
    simp only [hg b (by simp)]
    rw [ih fun c hc => hg c (List.mem_cons_of_mem _ hc)]
    have : Joint.origin ⟨"world_to_" ++ b.name, "world", b.name, b.xyz, ![0, 0, 0]⟩ =
        mkTf 1 b.xyz := by
      simp [Joint.origin, rotX_zero, rotY_zero, rotZ_zero]
    rw [this]
    simp

theorem import_boxes {bs : List BoxData} (hn : (bs.map BoxData.name).Nodup)
    (hw : ∀ b ∈ bs, b.name ≠ "world") {files : Files} {path name : String}
    (hf : files path = some (urdfTemplate name (content bs))) :
    importUrdf files path = .ok
      ⟨bs.map fun b => ⟨b.size 0, b.size 1, b.size 2⟩, bs.map fun b => mkTf 1 b.xyz⟩ := by
  have hl := links_content bs name
  have hj := joints_content bs name
  have hnames : (urdfTemplate name (content bs)).links.map Link.name =
      "world" :: bs.map BoxData.name := by
    rw [hl]; simp [Function.comp_def]
  have hbase : (urdfTemplate name (content bs)).baseLinks = ["world"] := by
    rw [Doc.baseLinks, hnames, hj, List.map_map]
    have h1 : (Joint.child ∘ fun b : BoxData =>
        (⟨"world_to_" ++ b.name, "world", b.name, b.xyz, ![0, 0, 0]⟩ : Joint)) = BoxData.name := rfl
    rw [h1, List.filter_cons_of_pos]
    · congr 1
      rw [List.filter_eq_nil_iff]
      intro n hn
      simpa using hn
    · simp only [decide_eq_true_eq, List.mem_map, not_exists, not_and]
      exact hw
  have hload : load files path = .ok (urdfTemplate name (content bs), "world") := by
    unfold load
    rw [hf]
    simp only []
    rw [if_pos, hbase]
    refine ⟨?_, ?_, ?_⟩
    · rw [hnames, List.nodup_cons]
      refine ⟨?_, hn⟩
      simp only [List.mem_map, not_exists, not_and]
      exact hw
    · rw [hj, List.map_map]
      have : (Joint.name ∘ fun b : BoxData =>
        (⟨"world_to_" ++ b.name, "world", b.name, b.xyz, ![0, 0, 0]⟩ : Joint)) =
          (fun n => "world_to_" ++ n) ∘ BoxData.name := rfl
      rw [this, ← List.map_map]
      exact hn.map fun _ _ h => append_inj_left h
    · intro j hjm
      rw [hj] at hjm
      obtain ⟨b, hb, rfl⟩ := List.mem_map.1 hjm
      rw [hnames]
      exact ⟨by simp, List.mem_cons_of_mem _ (List.mem_map_of_mem hb)⟩
  obtain ⟨g, h1, h2, _⟩ := shapesLoop_boxes bs (fun _ => none) hn
  have hs : shapesLoop (urdfTemplate name (content bs)).links (fun _ => none) = .ok g := by
    rw [hl, shapesLoop, if_pos (by rfl), h1]
  simp only [importUrdf, hload, bind, Except.bind, hs, hj, jointsLoop_boxes bs h2, List.nil_append]

/-! ## The properties -/

/-- A proper scene: one rigid transform per shape. -/
structure Proper (scene : Collection Shape) : Prop where
  length : scene.s.length = scene.tfS.length
  rigid : ∀ T ∈ scene.tfS, IsRigid T

/-- **C57**, exactly what the round trip gives for every non-empty proper scene, whatever was on the
disk: the same boxes in the same order at the same positions, but all of them unrotated. -/
theorem C57_round_trip {scene : Collection Shape} (h : scene.s.length = scene.tfS.length)
    (hne : scene.s ≠ []) (name path : String) (files : Files) :
    importUrdf (exportUrdf scene name path files) (path ++ "/" ++ name ++ ".urdf") =
      .ok ⟨scene.s, scene.tfS.map fun T => mkTf 1 (posPart T)⟩ := by
  obtain ⟨hn, hw⟩ := boxes_names scene
  have hb : boxes scene ≠ [] := by
    intro h0
    have := congrArg List.length h0
    rw [boxes_eq] at this
    simp only [List.length_map, List.length_zipIdx, List.length_zip, List.length_nil] at this
    have := List.length_pos_iff.2 hne
    omega
  have hf : exportUrdf scene name path files (path ++ "/" ++ name ++ ".urdf") =
      some (urdfTemplate name (content (boxes scene))) := by
    rw [exportUrdf, ← boxes, exportLoop_eq, if_neg hb]
    exact if_pos rfl
  rw [import_boxes hn hw hf, boxes_eq]
  congr 2
  · apply List.ext_getElem
    · simp [h]
    · intro i h1 h2; simp
  · apply List.ext_getElem
    · simp [h]
    · intro i h1 h2; simp

/-- The full property: importing the export of a proper scene gives back the scene. -/
def C57_statement : Prop := ∀ (scene : Collection Shape) (name path : String) (files : Files),
  Proper scene →
    importUrdf (exportUrdf scene name path files) (path ++ "/" ++ name ++ ".urdf") = .ok scene

/-- **C57**, exactly when the round trip is exact: for the non-empty scenes without rotated boxes. -/
theorem C57_iff {scene : Collection Shape} (h : Proper scene) (hne : scene.s ≠ [])
    (name path : String) (files : Files) :
    importUrdf (exportUrdf scene name path files) (path ++ "/" ++ name ++ ".urdf") = .ok scene ↔
      ∀ T ∈ scene.tfS, rotPart T = 1 := by
  rw [C57_round_trip h.length hne]
  constructor
  · intro he T hT
    have h1 : scene.tfS.map (fun T => mkTf 1 (posPart T)) = scene.tfS := by
      have := Except.ok.inj he
      exact congrArg Collection.tfS this
    obtain ⟨i, hi, rfl⟩ := List.mem_iff_getElem.1 hT
    have h2 : (scene.tfS.map (fun T => mkTf 1 (posPart T)))[i]'(by simpa using hi) =
        scene.tfS[i] := by simp only [h1]
    rw [List.getElem_map] at h2
    rw [← h2, rotPart_mkTf]
  · intro h1
    have : scene.tfS.map (fun T => mkTf 1 (posPart T)) = scene.tfS := by
      conv_rhs => rw [← List.map_id scene.tfS]
      refine List.map_congr_left fun T hT => ?_
      have := mkTf_parts (h.rigid T hT).2
      rw [h1 T hT] at this
      exact this
    rw [this]

/-- **C57**, what holds: the round trip is exact for non-empty scenes without rotated boxes.
Missing: rotated boxes, whose rotation the export drops, and the empty scene, which is not
written (C58). -/
theorem C57_partial {scene : Collection Shape} (h : Proper scene) (hne : scene.s ≠ [])
    (hr : ∀ T ∈ scene.tfS, rotPart T = 1) (name path : String) (files : Files) :
    importUrdf (exportUrdf scene name path files) (path ++ "/" ++ name ++ ".urdf") = .ok scene :=
  (C57_iff h hne name path files).2 hr

/-- A quarter turn about z. -/
def quarter : M4 := mkTf !![0, -1, 0; 1, 0, 0; 0, 0, 1] ![1, 2, 3]

theorem quarter_rigid : IsRigid quarter := by
  refine ⟨?_, rfl⟩
  rw [quarter, rotPart_mkTf]
  constructor
  · ext i j; fin_cases i <;> fin_cases j <;> simp [Matrix.mul_apply, Fin.sum_univ_succ]
  · simp [Matrix.det_fin_three]

/-- A scene with one turned box meets the hypotheses of the round trip theorem. -/
theorem proper_quarter : Proper ⟨[⟨1, 2, 3⟩], [quarter]⟩ :=
  ⟨rfl, by intro T hT; rw [List.mem_singleton.1 hT]; exact quarter_rigid⟩

/-- **C57** is false: a box turned by a quarter comes back unturned. -/
theorem C57_refuted : ¬ C57_statement := by
  intro h
  have h1 := h ⟨[⟨1, 2, 3⟩], [quarter]⟩ "n" "p" (fun _ => none) proper_quarter
  have h2 := (C57_iff proper_quarter (by simp) _ _ _).1 h1 quarter (by simp)
  rw [quarter, rotPart_mkTf] at h2
  have := congrFun (congrFun h2 0) 0
  simp at this

/-- An unrotated scene of two boxes meets the hypotheses of the partial theorem. -/
example : Proper ⟨[⟨1, 2, 3⟩, ⟨4, 5, 6⟩], [mkTf 1 ![1, 0, 0], mkTf 1 ![0, 7, 0]]⟩ ∧
    ∀ T ∈ [mkTf 1 ![1, 0, 0], mkTf 1 ![0, 7, 0]], rotPart T = 1 := by
  refine ⟨⟨rfl, ?_⟩, ?_⟩
  · intro T hT
    rcases List.mem_cons.1 hT with rfl | hT
    · exact ⟨by rw [rotPart_mkTf]; exact IsRot.one, rfl⟩
    · rw [List.mem_singleton.1 hT]
      exact ⟨by rw [rotPart_mkTf]; exact IsRot.one, rfl⟩
  · intro T hT
    rcases List.mem_cons.1 hT with rfl | hT
    · exact rotPart_mkTf _ _
    · rw [List.mem_singleton.1 hT]
      exact rotPart_mkTf _ _

/-- The full property: after the export there is a file of that name, with one link per box of the
scene besides the world. -/
def C58_statement : Prop := ∀ (scene : Collection Shape) (name path : String) (files : Files),
  Proper scene → ∃ d, exportUrdf scene name path files (path ++ "/" ++ name ++ ".urdf") = some d ∧
    d.links.length = scene.s.length + 1

/-- The empty scene writes nothing at all. -/
theorem C58_empty (name path : String) (files : Files) (tfs : List M4) :
    exportUrdf ⟨[], tfs⟩ name path files = files := rfl

/-- **C58** is false: exporting the empty scene to an empty disk writes no file. -/
theorem C58_refuted : ¬ C58_statement := by
  intro h
  obtain ⟨d, hd, _⟩ := h ⟨[], []⟩ "n" "p" (fun _ => none) ⟨rfl, by simp⟩
  cases hd

/-- Consequence: after exporting the empty scene over an older export, the import gives the older
scene. -/
theorem C58_stale {old : Collection Shape} (h : Proper old) (hne : old.s ≠ [])
    (hr : ∀ T ∈ old.tfS, rotPart T = 1) (name path : String) (files : Files) :
    importUrdf (exportUrdf ⟨[], []⟩ name path (exportUrdf old name path files))
      (path ++ "/" ++ name ++ ".urdf") = .ok old :=
  C57_partial h hne hr name path files

/-- **C58**, what holds: for every non-empty scene the file is written, with one link and one joint
per box in the order of the boxes, and no other file changes.  Missing: the empty scene. -/
theorem C58_partial {scene : Collection Shape} (h : scene.s.length = scene.tfS.length)
    (hne : scene.s ≠ []) (name path : String) (files : Files) :
    (∃ d, exportUrdf scene name path files (path ++ "/" ++ name ++ ".urdf") = some d ∧
      d.name = name ∧ d.links.length = scene.s.length + 1 ∧ d.joints.length = scene.s.length ∧
      d.joints.map Joint.xyz = scene.tfS.map posPart ∧
      (∀ j ∈ d.joints, j.parent = "world") ∧
      (d.links.map Link.name).Nodup) ∧
    ∀ g, g ≠ path ++ "/" ++ name ++ ".urdf" → exportUrdf scene name path files g = files g := by
  obtain ⟨hn, hw⟩ := boxes_names scene
  have hlen : (boxes scene).length = scene.s.length := by
    rw [boxes_eq]; simp [h]
  have hb : boxes scene ≠ [] := by
    intro h0
    rw [h0] at hlen
    exact hne (List.length_eq_zero_iff.1 hlen.symm)
  have he : exportUrdf scene name path files =
      write files (fileName path name) (urdfTemplate name (content (boxes scene))) := by
    rw [exportUrdf, ← boxes, exportLoop_eq, if_neg hb, List.nil_append]
  refine ⟨⟨_, by rw [he]; exact if_pos rfl, rfl, ?_, ?_, ?_, ?_, ?_⟩, ?_⟩
  · rw [links_content]; simp [hlen]
  · rw [joints_content]; simp [hlen]
  · rw [joints_content, List.map_map, boxes_eq]
    apply List.ext_getElem
    · simp [h]
    · intro i h1 h2; simp
  · intro j hj
    rw [joints_content] at hj
    obtain ⟨b, _, rfl⟩ := List.mem_map.1 hj
    rfl
  · rw [links_content, List.map_cons, List.map_map, List.nodup_cons]
    refine ⟨?_, hn⟩
    simp only [List.mem_map, not_exists, not_and]
    exact hw
  · intro g hg
    rw [he]
    exact if_neg hg

/-- C57, C58: the hypotheses of `C58_stale` and `C58_partial` are met by one unrotated box. -/
example (files : Files) : importUrdf (exportUrdf ⟨[], []⟩ "box" "." (exportUrdf
      ⟨[⟨1, 2, 3⟩], [mkTf 1 ![4, 5, 6]]⟩ "box" "." files)) ("." ++ "/" ++ "box" ++ ".urdf") =
    .ok ⟨[⟨1, 2, 3⟩], [mkTf 1 ![4, 5, 6]]⟩ :=
  C58_stale ⟨rfl, fun T hT => by
    simp only [List.mem_singleton] at hT
    subst hT
    exact isRigid_mkTf.2 IsRot.one⟩ (by simp) (by simp [rotPart_mkTf]) "box" "." files

example (files : Files) : ∃ d, exportUrdf ⟨[⟨1, 2, 3⟩], [mkTf 1 ![4, 5, 6]]⟩ "box" "." files
      ("." ++ "/" ++ "box" ++ ".urdf") = some d ∧ d.joints.map Joint.xyz = [![4, 5, 6]] := by
  obtain ⟨⟨d, h1, -, -, -, h2, -⟩, -⟩ := C58_partial
    (scene := ⟨[⟨1, 2, 3⟩], [mkTf 1 ![4, 5, 6]]⟩) rfl (by simp) "box" "." files
  exact ⟨d, h1, by rw [h2]; simp [posPart_mkTf]⟩

end

end Verif.Props
