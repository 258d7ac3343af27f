import Verif.Model.Passage
import Verif.Props.QuatSearch
import Verif.Props.Geometry
import Verif.Props.Torch
import Verif.Props.Util
import Verif.Props.Path

/-!
# C94: planning the orientation of the torch (`examples/small_passage.py`)
-/

set_option linter.unusedSectionVars false

namespace Verif.Props

open Verif Verif.QuatCost Verif.Spec Verif.Search Verif.Geometry Verif.Path Verif.Kin Verif.Util
  Verif.SampleSO3 Verif.Passage Matrix

variable {S : Type}

/-- No shape of the tool, whose frame is `A`, hits a shape of the scene. -/
def TouchFree (hit : Oracle S) (tool : Tool S) (scene : Collection S) (A : M4) : Prop :=
  ∀ (i j : Nat) (s s' : S) (t t' : M4), tool.s[i]? = some s → tool.tfS[i]? = some t →
    scene.s[j]? = some s' → scene.tfS[j]? = some t' →
    hit ⟨s, rotPart (A * t), posPart (A * t)⟩ ⟨s', rotPart t', posPart t'⟩ = false

/-- `q` is one of the orientations drawn for the point `p`, and a tool whose tip is there does not
touch the scene. -/
def FreeChoice (root : Nat → Nat) (fuel n : Nat) (hit : Oracle S) (tool : Tool S)
    (scene : Collection S) (p : V3) (rnd : Nat → ℝ × ℝ × ℝ) (q : Quat) : Prop :=
  (∃ l, sampleSO3 root fuel rnd n .quat .random = .ok (.quats l) ∧ q ∈ l) ∧
    ∃ A, A * tool.tfTT = mkTf q.rotationMatrix p ∧ TouchFree hit tool scene A

theorem touchFree_iff (hit : Oracle S) (tool : Tool S) (scene : Collection S) (A : M4) :
    TouchFree hit tool scene A ↔ tool.toCollection.isInCollision hit scene (some A) none = false := by
  rw [(C29_default hit tool.toCollection scene A).2.1, ← Bool.not_eq_true, C29_any_pair]
  constructor
  · rintro h ⟨i, j, s, s', t, t', h1, h2, h3, h4, h5⟩
    rw [one_mul, h i j s s' t t' h1 h2 h3 h4] at h5
    cases h5
  · intro h i j s s' t t' h1 h2 h3 h4
    rw [← Bool.not_eq_true]
    intro h5
    exact h ⟨i, j, s, s', t, t', h1, h2, h3, h4, by rwa [one_mul]⟩

theorem placement_eq (tool : Tool S) (p : V3) (q : Quat) :
    placement tool p q = mkTf q.rotationMatrix p * tfInverse tool.tfTT := by
  simp only [placement, addPos, Quat.transformationMatrix, posPart_mkTf, zero_add]
  rw [setPos_mkTf]

theorem freeChoice_iff {root : Nat → Nat} {fuel n : Nat} {hit : Oracle S} {tool : Tool S}
    {scene : Collection S} {p : V3} {rnd : Nat → ℝ × ℝ × ℝ} {q : Quat} (ht : IsRigid tool.tfTT)
    {l : List Quat} (hl : sampleSO3 root fuel rnd n .quat .random = .ok (.quats l)) :
    FreeChoice root fuel n hit tool scene p rnd q ↔ q ∈ l ∧
      tool.toCollection.isInCollision hit scene (some (placement tool p q)) none = false := by
  unfold FreeChoice
  constructor
  · rintro ⟨⟨l', h1, h2⟩, A, h3, h4⟩
    rw [hl] at h1
    cases h1
    refine ⟨h2, ?_⟩
    rw [← touchFree_iff, placement_eq, ← h3, mul_assoc, mul_tfInverse ht, mul_one]
    exact h4
  · rintro ⟨h1, h2⟩
    refine ⟨⟨l, hl, h1⟩, placement tool p q, ?_, (touchFree_iff _ _ _ _).2 h2⟩
    rw [placement_eq, mul_assoc, tfInverse_mul ht, mul_one]

/-- What the rows hold. -/
theorem rows_ok {root : Nat → Nat} {fuel n : Nat} {hit : Oracle S} {tool : Tool S}
    {scene : Collection S} (ht : IsRigid tool.tfTT) (path : List FreeOrientationPt)
    (rnds : List (Nat → ℝ × ℝ × ℝ)) (hlen : rnds.length = path.length)
    (hr : ∀ rnd ∈ rnds, ∀ i, InUnit (rnd i)) :
    ∃ data, rows root fuel hit tool scene n path rnds = .ok data ∧
      List.Forall₂ (fun (col : List Quat) (x : FreeOrientationPt × (Nat → ℝ × ℝ × ℝ)) =>
        ∀ q, q ∈ col ↔ FreeChoice root fuel n hit tool scene x.1.p x.2 q) data (path.zip rnds) ∧
      ∀ col ∈ data, ∀ q ∈ col, UnitQuat q := by
  induction path generalizing rnds with
  | nil => exact ⟨[], by unfold rows; rfl, by simp, by simp⟩
  | cons tp path ih =>
    match rnds, hlen with
    | rnd :: rnds, hlen =>
      obtain ⟨data, h1, h2, h3⟩ := ih rnds (by simpa using hlen)
        (fun r hr' => hr r (List.mem_cons_of_mem _ hr'))
      obtain ⟨o, h4, h5⟩ := C26_random root fuel rnd (hr rnd (by simp)) n .quat
      cases o with
      | transforms l => cases h5.1
      | rpys l => cases h5.1
      | none => cases h5
      | quats l =>
        have hs : samples root fuel n tp rnd = .ok l := by
          unfold samples FreeOrientationPt.getSamples
          simp only [Option.getD_some, Option.getD_none, h4]
          rfl
        have hmem : ∀ q, q ∈ Passage.row hit tool scene tp.p l ↔
            FreeChoice root fuel n hit tool scene tp.p rnd q := by
          intro q
          rw [freeChoice_iff ht h4]
          simp only [Passage.row, List.mem_map, List.mem_filter, Bool.not_eq_true']
          constructor
          · rintro ⟨q', ⟨h6, h7⟩, rfl⟩
            rw [normalise_unit (h5.2.2 q' h6)]
            exact ⟨h6, h7⟩
          · rintro ⟨h6, h7⟩
            exact ⟨q, ⟨h6, h7⟩, normalise_unit (h5.2.2 q h6)⟩
        refine ⟨Passage.row hit tool scene tp.p l :: data, ?_, ?_, ?_⟩
        · rw [rows, hs]
          simp only [Except.bind, h1]
        · rw [List.zip_cons_cons]
          exact List.Forall₂.cons hmem h2
        · intro col hcol q hq
          rcases List.mem_cons.1 hcol with rfl | hcol
          · obtain ⟨h6, _⟩ := (freeChoice_iff ht h4).1 ((hmem q).1 hq)
            exact h5.2.2 q h6
          · exact h3 col hcol q hq

theorem stageShapes_full (data : List (List Quat)) (h : ∀ col ∈ data, col ≠ []) :
    ∃ l, stageShapes data = .ok l ∧ l.all id = true := by
  induction data with
  | nil => exact ⟨[], rfl, rfl⟩
  | cons a rest ih =>
    cases rest with
    | nil => exact ⟨[], rfl, rfl⟩
    | cons b rest =>
      obtain ⟨l, h1, h2⟩ := ih (fun col hc => h col (List.mem_cons_of_mem _ hc))
      have ha : a.isEmpty = false := by simpa using h a (by simp)
      have hb : b.isEmpty = false := by simpa using h b (by simp)
      refine ⟨true :: l, ?_, by simpa using h2⟩
      rw [stageShapes]
      simp only [stageShape, ha, hb, Bool.and_self, Bool.or_self, Bool.false_eq_true, if_false,
        Except.bind, h1]

theorem stageShapes_none (data : List (List Quat)) (h : ∀ col ∈ data, col = []) :
    ∃ l, stageShapes data = .ok l ∧ (2 ≤ data.length → l.all id = false) := by
  induction data with
  | nil => exact ⟨[], rfl, by simp⟩
  | cons a rest ih =>
    cases rest with
    | nil => exact ⟨[], rfl, by simp⟩
    | cons b rest =>
      obtain ⟨l, h1, _⟩ := ih (fun col hc => h col (List.mem_cons_of_mem _ hc))
      refine ⟨false :: l, ?_, by simp⟩
      rw [stageShapes, h a (by simp), h b (by simp)]
      rw [h b (by simp)] at h1
      simp [stageShape, Except.bind, h1]

theorem stageShapes_mixed (data : List (List Quat)) (h1 : ∃ col ∈ data, col = [])
    (h2 : ∃ col ∈ data, col ≠ []) : stageShapes data = .error .valueError := by
  induction data with
  | nil => simp at h1
  | cons a rest ih =>
    cases rest with
    | nil =>
      simp only [List.mem_singleton, exists_eq_left] at h1 h2
      exact absurd h1 h2
    | cons b rest =>
      rw [stageShapes]
      by_cases ha : a = [] <;> by_cases hb : b = []
      · subst ha hb
        have := ih ⟨[], by simp, rfl⟩ (by
          obtain ⟨col, hc, hn⟩ := h2
          rcases List.mem_cons.1 hc with rfl | hc
          · exact absurd rfl hn
          · exact ⟨col, hc, hn⟩)
        simp [stageShape, Except.bind, this]
      · have hb' : b.isEmpty = false := by simpa using hb
        simp [stageShape, Except.bind, ha, hb']
      · have ha' : a.isEmpty = false := by simpa using ha
        simp [stageShape, Except.bind, hb, ha']
      · have ha' : a.isEmpty = false := by simpa using ha
        have hb' : b.isEmpty = false := by simpa using hb
        have := ih (by
          obtain ⟨col, hc, hn⟩ := h1
          rcases List.mem_cons.1 hc with rfl | hc
          · exact absurd hn ha
          · exact ⟨col, hc, hn⟩) ⟨b, by simp, hb⟩
        simp [stageShape, Except.bind, ha', hb', this]

/-- One free choice for every point of the path. -/
def FreePath (root : Nat → Nat) (fuel n : Nat) (hit : Oracle S) (tool : Tool S)
    (scene : Collection S) (path : List FreeOrientationPt) (rnds : List (Nat → ℝ × ℝ × ℝ))
    (qs : List Quat) : Prop :=
  qs.length = path.length ∧ ∀ (i : Nat) q tp rnd, qs[i]? = some q → path[i]? = some tp →
    rnds[i]? = some rnd → FreeChoice root fuel n hit tool scene tp.p rnd q

theorem freePath_iff {root : Nat → Nat} {fuel n : Nat} {hit : Oracle S} {tool : Tool S}
    {scene : Collection S} (path : List FreeOrientationPt)
    (rnds : List (Nat → ℝ × ℝ × ℝ)) (hlen : rnds.length = path.length) (data : List (List Quat))
    (hd : List.Forall₂ (fun (col : List Quat) (x : FreeOrientationPt × (Nat → ℝ × ℝ × ℝ)) =>
        ∀ q, q ∈ col ↔ FreeChoice root fuel n hit tool scene x.1.p x.2 q) data (path.zip rnds))
    (qs : List Quat) :
    IsSelection data qs ↔ FreePath root fuel n hit tool scene path rnds qs := by
  induction path generalizing rnds data qs with
  | nil =>
    simp only [List.zip_nil_left, List.forall₂_nil_right_iff] at hd
    subst hd
    simp only [IsSelection, FreePath, List.forall₂_nil_left_iff]
    constructor
    · rintro rfl
      simp
    · exact fun h => List.length_eq_zero_iff.1 h.1
  | cons tp path ih =>
    match rnds, hlen with
    | rnd :: rnds, hlen =>
      rw [List.zip_cons_cons, List.forall₂_cons_right_iff] at hd
      obtain ⟨col, data, h1, h2, rfl⟩ := hd
      cases qs with
      | nil => simp [IsSelection, FreePath]
      | cons q qs =>
        have := ih rnds (by simpa using hlen) data h2 qs
        unfold IsSelection at this ⊢
        rw [List.forall₂_cons, this, h1]
        unfold FreePath
        constructor
        · rintro ⟨h3, h4, h5⟩
          refine ⟨by simp [h4], fun i q' tp' rnd' e1 e2 e3 => ?_⟩
          cases i with
          | zero =>
            cases e1
            cases e2
            cases e3
            exact h3
          | succ i => exact h5 i q' tp' rnd' e1 e2 e3
        · rintro ⟨h3, h4⟩
          exact ⟨h4 0 q tp rnd rfl rfl rfl, by simpa using h3,
            fun i q' tp' rnd' e1 e2 e3 => h4 (i + 1) q' tp' rnd' e1 e2 e3⟩

theorem rows_get {root : Nat → Nat} {fuel n : Nat} {hit : Oracle S} {tool : Tool S}
    {scene : Collection S} {path : List FreeOrientationPt}
    {rnds : List (Nat → ℝ × ℝ × ℝ)} {data : List (List Quat)}
    (hd : List.Forall₂ (fun (col : List Quat) (x : FreeOrientationPt × (Nat → ℝ × ℝ × ℝ)) =>
        ∀ q, q ∈ col ↔ FreeChoice root fuel n hit tool scene x.1.p x.2 q) data (path.zip rnds))
    {col : List Quat} (hc : col ∈ data) :
    ∃ (i : Nat) (tp : FreeOrientationPt) (rnd : Nat → ℝ × ℝ × ℝ), path[i]? = some tp ∧
      rnds[i]? = some rnd ∧ ∀ q, q ∈ col ↔ FreeChoice root fuel n hit tool scene tp.p rnd q := by
  obtain ⟨i, hi⟩ := List.mem_iff_getElem?.1 hc
  rw [List.forall₂_iff_get] at hd
  obtain ⟨hi', rfl⟩ := List.getElem?_eq_some_iff.1 hi
  have hz : i < (path.zip rnds).length := hd.1 ▸ hi'
  have := hd.2 i hi' hz
  have hz' : (path.zip rnds)[i]? = some (path.zip rnds)[i] := List.getElem?_eq_getElem hz
  rw [List.getElem?_zip_eq_some] at hz'
  exact ⟨i, _, _, hz'.1, hz'.2, this⟩

theorem get_rows {root : Nat → Nat} {fuel n : Nat} {hit : Oracle S} {tool : Tool S}
    {scene : Collection S} {path : List FreeOrientationPt}
    {rnds : List (Nat → ℝ × ℝ × ℝ)} {data : List (List Quat)}
    (hd : List.Forall₂ (fun (col : List Quat) (x : FreeOrientationPt × (Nat → ℝ × ℝ × ℝ)) =>
        ∀ q, q ∈ col ↔ FreeChoice root fuel n hit tool scene x.1.p x.2 q) data (path.zip rnds))
    {i : Nat} {tp : FreeOrientationPt} {rnd : Nat → ℝ × ℝ × ℝ} (h1 : path[i]? = some tp)
    (h2 : rnds[i]? = some rnd) :
    ∃ col ∈ data, ∀ q, q ∈ col ↔ FreeChoice root fuel n hit tool scene tp.p rnd q := by
  have hz : (path.zip rnds)[i]? = some (tp, rnd) := List.getElem?_zip_eq_some.2 ⟨h1, h2⟩
  obtain ⟨hi, he⟩ := List.getElem?_eq_some_iff.1 hz
  rw [List.forall₂_iff_get] at hd
  have hi' : i < data.length := hd.1 ▸ hi
  have := hd.2 i hi' hi
  rw [List.get_eq_getElem, List.get_eq_getElem, he] at this
  exact ⟨data[i], List.getElem_mem hi', this⟩

/-- C94. If every point of the path (two points or more) has a drawn orientation at which the torch
does not touch the scene, the script ends with a frame for every point: the tip is at the point, its
orientation is one of those drawn, the torch drawn there does not touch the scene, and no other
choice of such orientations turns less in total. -/
theorem C94_plan (root : Nat → Nat) (fuel n : Nat) (hit : Oracle S) (torch : Tool S)
    (ht : IsRigid torch.tfTT) (scene : Collection S) (path : List FreeOrientationPt)
    (h2 : 2 ≤ path.length) (rnds : List (Nat → ℝ × ℝ × ℝ)) (hlen : rnds.length = path.length)
    (hr : ∀ rnd ∈ rnds, ∀ i, InUnit (rnd i))
    (hfree : ∀ (i : Nat) tp rnd, path[i]? = some tp → rnds[i]? = some rnd →
      ∃ q, FreeChoice root fuel n hit torch scene tp.p rnd q) :
    ∃ frames qs, plan root fuel hit torch scene n path rnds = .ok (frames, totalTurn qs / 2) ∧
      FreePath root fuel n hit torch scene path rnds qs ∧
      (∀ qs', FreePath root fuel n hit torch scene path rnds qs' → totalTurn qs ≤ totalTurn qs') ∧
      frames.length = path.length ∧
      ∀ (i : Nat) F, frames[i]? = some F → ∃ q tp, qs[i]? = some q ∧ path[i]? = some tp ∧
        F = mkTf q.rotationMatrix tp.p ∧ drawnAt torch F * torch.tfTT = F ∧
        TouchFree hit torch scene (drawnAt torch F) := by
  obtain ⟨data, h1, hd, hu⟩ := rows_ok (root := root) (fuel := fuel) (n := n) (hit := hit)
    (scene := scene) ht path rnds hlen hr
  have hne : ∀ col ∈ data, col ≠ [] := by
    rintro col hc rfl
    obtain ⟨i, tp, rnd, e1, e2, e3⟩ := rows_get hd hc
    obtain ⟨q, hq⟩ := hfree i tp rnd e1 e2
    exact absurd ((e3 q).2 hq) (by simp)
  have hdl : data.length = path.length := by
    rw [hd.length_eq, List.length_zip, hlen, min_self]
  obtain ⟨l, s1, s2⟩ := stageShapes_full data hne
  obtain ⟨qs, r1, r2, r3⟩ := C88_least_rotation_dp data (hdl ▸ h2) hne hu
  have hfp := (freePath_iff path rnds hlen data hd qs).1 r2
  refine ⟨solutionFrames qs path, qs, ?_, hfp, ?_, ?_, ?_⟩
  · simp only [plan, h1, Except.bind, search, s1, s2, if_true, r1]
  · exact fun qs' h' => r3 qs' ((freePath_iff path rnds hlen data hd qs').2 h')
  · simp [solutionFrames, hfp.1]
  · intro i F hF
    simp only [solutionFrames, List.getElem?_map, Option.map_eq_some_iff] at hF
    obtain ⟨⟨q, tp⟩, hz, rfl⟩ := hF
    rw [List.getElem?_zip_eq_some] at hz
    have hi : i < rnds.length := by
      rw [hlen]
      exact (List.getElem?_eq_some_iff.1 hz.2).1
    obtain ⟨_, A, hA, hA'⟩ := hfp.2 i q tp rnds[i] hz.1 hz.2 (List.getElem?_eq_getElem hi)
    have hF : setPos q.transformationMatrix tp.p = mkTf q.rotationMatrix tp.p := by
      rw [Quat.transformationMatrix, setPos_mkTf]
    refine ⟨q, tp, hz.1, hz.2, hF, ?_, ?_⟩
    · rw [drawnAt, mul_assoc, tfInverse_mul ht, mul_one]
    · rw [hF, drawnAt, ← hA, mul_assoc, mul_tfInverse ht, mul_one]
      exact hA'

/-- C94, otherwise: a path of fewer than two points is an IndexError; if no point has a free
orientation the script ends with an IndexError, if some have none and some have one with a
ValueError. -/
theorem C94_errors (root : Nat → Nat) (fuel n : Nat) (hit : Oracle S) (torch : Tool S)
    (ht : IsRigid torch.tfTT) (scene : Collection S) (path : List FreeOrientationPt)
    (rnds : List (Nat → ℝ × ℝ × ℝ)) (hlen : rnds.length = path.length)
    (hr : ∀ rnd ∈ rnds, ∀ i, InUnit (rnd i)) :
    (path.length < 2 → plan root fuel hit torch scene n path rnds = .error .indexError) ∧
    (2 ≤ path.length → (∃ (i : Nat) (tp : FreeOrientationPt) (rnd : Nat → ℝ × ℝ × ℝ),
        path[i]? = some tp ∧ rnds[i]? = some rnd ∧
        ∀ q, ¬ FreeChoice root fuel n hit torch scene tp.p rnd q) →
      plan root fuel hit torch scene n path rnds =
        .error (open Classical in
          if ∃ (i : Nat) (tp : FreeOrientationPt) (rnd : Nat → ℝ × ℝ × ℝ) (q : Quat),
            path[i]? = some tp ∧ rnds[i]? = some rnd ∧
            FreeChoice root fuel n hit torch scene tp.p rnd q then .valueError else .indexError)) := by
  obtain ⟨data, h1, hd, hu⟩ := rows_ok (root := root) (fuel := fuel) (n := n) (hit := hit)
    (scene := scene) ht path rnds hlen hr
  have hdl : data.length = path.length := by
    rw [hd.length_eq, List.length_zip, hlen, min_self]
  constructor
  · intro h
    rw [← hdl] at h
    match data, h with
    | [], _ =>
      simp only [plan, h1, Except.bind, search, stageShapes, List.all_nil, if_true]
      rfl
    | [_], _ =>
      simp only [plan, h1, Except.bind, search, stageShapes, List.all_nil, if_true]
      rfl
  · rintro h2 ⟨i, tp, rnd, e1, e2, e3⟩
    obtain ⟨col, hc, hc'⟩ := get_rows hd e1 e2
    have hempty : col = [] := by
      rw [List.eq_nil_iff_forall_not_mem]
      exact fun q hq => e3 q ((hc' q).1 hq)
    by_cases hx : ∃ (i : Nat) (tp : FreeOrientationPt) (rnd : Nat → ℝ × ℝ × ℝ) (q : Quat),
            path[i]? = some tp ∧ rnds[i]? = some rnd ∧
            FreeChoice root fuel n hit torch scene tp.p rnd q
    · rw [if_pos hx]
      obtain ⟨i', tp', rnd', q, f1, f2, f3⟩ := hx
      obtain ⟨col', hc2, hc3⟩ := get_rows hd f1 f2
      have := stageShapes_mixed data ⟨col, hc, hempty⟩
        ⟨col', hc2, List.ne_nil_of_mem ((hc3 q).2 f3)⟩
      simp only [plan, h1, Except.bind, search, this]
    · rw [if_neg hx]
      obtain ⟨l, s1, s2⟩ := stageShapes_none data (by
        intro col' hc2
        obtain ⟨i', tp', rnd', f1, f2, f3⟩ := rows_get hd hc2
        rw [List.eq_nil_iff_forall_not_mem]
        exact fun q hq => hx ⟨i', tp', rnd', q, f1, f2, (f3 q).1 hq⟩)
      simp only [plan, h1, Except.bind, search, s1, s2 (hdl ▸ h2), Bool.false_eq_true, if_false]

/-- The objective of `cost_function_2`: squared half angles of the steps, and half the squared half
angle to the reference of every orientation that has a successor. -/
noncomputable def goalCost (ref : Quat) : List Quat → ℝ
  | p :: q :: rest => (turnAngle p q / 2) ^ 2 + (turnAngle p ref / 2) ^ 2 / 2 + goalCost ref (q :: rest)
  | _ => 0

theorem costR_goal (ref : Quat) (hr : UnitQuat ref) (path : List Quat) (h : ∀ q ∈ path, UnitQuat q) :
    costR (fun p q => costFunction p q ^ 2 + 1 / 2 * costFunction p ref ^ 2) path
      = goalCost ref path := by
  induction path with
  | nil => simp [costR, goalCost]
  | cons p rest ih =>
    cases rest with
    | nil => simp [costR, goalCost]
    | cons q rest =>
      rw [costR, goalCost, turnAngle_eq (h p (by simp)) (h q (by simp)),
        turnAngle_eq (h p (by simp)) hr, ← ih (fun x hx => h x (List.mem_cons_of_mem _ hx))]
      ring

theorem costArray2_fits (ref : Quat) : Dp.Fits (costArray2 ref)
    (fun p q => costFunction p q ^ 2 + 1 / 2 * costFunction p ref ^ 2) := by
  intro a b
  refine ⟨rfl, rfl, ?_⟩
  intro i j x y hx hy
  simp [costArray2, hx, hy]

/-- C94, the alternative cost: searching with `cost_function_2` minimises `goalCost`. -/
theorem C94_goal_cost (ref : Quat) (hr : UnitQuat ref) (data : List (List Quat))
    (h2 : 2 ≤ data.length) (hne : ∀ col ∈ data, col ≠ []) (hu : ∀ col ∈ data, ∀ q ∈ col, UnitQuat q) :
    ∃ path, Dp.shortestPath data (costArray2 ref) = .ok ⟨true, path, goalCost ref path⟩ ∧
      IsSelection data path ∧ ∀ p, IsSelection data p → goalCost ref path ≤ goalCost ref p := by
  obtain ⟨path, len, h1, h3, h4, h5⟩ := C01_dp_optimal (costArray2 ref) _ (costArray2_fits ref) data
    h2 hne
  have e1 := costR_goal ref hr path (selection_units hu h3)
  refine ⟨path, by rw [h1, ← h4, ← e1], h3, fun p hp => ?_⟩
  have := h5 p hp
  rw [← h4, e1, costR_goal ref hr p (selection_units hu hp)] at this
  exact this

/-- C94 on the torch of the package, above an empty table, with five draws for each of two points. -/
example (root : Nat → Nat) (fuel : Nat) (hit : Oracle Shape) (rnd : Nat → ℝ × ℝ × ℝ)
    (hr : ∀ i, InUnit (rnd i)) :
    ∃ frames qs, plan root fuel hit Resources.torch ⟨[], []⟩ 5 [.new ![0, 0, 1], .new ![1, 0, 1]] [rnd, rnd]
      = .ok (frames, totalTurn qs / 2) ∧ frames.length = 2 := by
  have hR : IsRigid Resources.torch.tfTT :=
    (C91_torch Resources.torchAngle1 Resources.torchAngle2).2.2.2.2
  have hfree : ∀ p : V3, ∃ q, FreeChoice root fuel 5 hit Resources.torch ⟨[], []⟩ p rnd q := by
    intro p
    obtain ⟨o, h4, h5⟩ := C26_random root fuel rnd hr 5 .quat
    cases o with
    | transforms l => cases h5.1
    | rpys l => cases h5.1
    | none => cases h5
    | quats l =>
      match l, h5.2.1 with
      | q :: l, _ =>
        refine ⟨q, ⟨q :: l, h4, by simp⟩, placement Resources.torch p q, ?_, ?_⟩
        · rw [placement_eq, mul_assoc, tfInverse_mul hR, mul_one]
        · intro i j s s' t t' _ _ h
          simp at h
  obtain ⟨frames, qs, h1, _, _, h2, _⟩ := C94_plan root fuel 5 hit Resources.torch hR ⟨[], []⟩
    [.new ![0, 0, 1], .new ![1, 0, 1]] (by simp) [rnd, rnd] rfl (by simp [hr]) (by
      intro i tp rnd' _ h
      have : rnd' = rnd := by
        have := List.mem_of_getElem? h
        simpa using this
      rw [this]
      exact hfree tp.p)
  exact ⟨frames, qs, h1, h2⟩

/-- C94 when everything touches: IndexError. -/
example (root : Nat → Nat) (fuel : Nat) (rnd : Nat → ℝ × ℝ × ℝ) (hr : ∀ i, InUnit (rnd i)) :
    plan root fuel (fun _ _ => true) Resources.torch ⟨[⟨1, 1, 1⟩], [1]⟩ 5
      [.new ![0, 0, 1], .new ![1, 0, 1]] [rnd, rnd] = .error .indexError := by
  have hR := C91_torch Resources.torchAngle1 Resources.torchAngle2
  have hno : ∀ (p : V3) (rnd : Nat → ℝ × ℝ × ℝ) (q : Quat), ¬ FreeChoice root fuel 5 (fun _ _ => true)
      Resources.torch ⟨[(⟨1, 1, 1⟩ : Shape)], [1]⟩ p rnd q := by
    rintro p rnd q ⟨_, A, _, h⟩
    obtain ⟨e1, _⟩ := torch_eq Resources.torchAngle1 Resources.torchAngle2
    have := h 0 0 ⟨0.08, 0.08, 0.08⟩ ⟨1, 1, 1⟩ _ 1 rfl (by
      rw [show Resources.torch = Resources.torchOf Resources.torchAngle1 Resources.torchAngle2
        from rfl, e1]
      rfl) rfl rfl
    cases this
  rw [(C94_errors root fuel 5 (fun _ _ => true) Resources.torch hR.2.2.2.2 ⟨[⟨1, 1, 1⟩], [1]⟩
    [.new ![0, 0, 1], .new ![1, 0, 1]] [rnd, rnd] rfl (by simp [hr])).2 (by simp)
    ⟨0, _, _, rfl, rfl, hno _ _⟩, if_neg]
  rintro ⟨i, tp, rnd', q, _, _, h⟩
  exact hno _ _ _ h

end Verif.Props
