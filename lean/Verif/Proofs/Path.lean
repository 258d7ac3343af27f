import Verif.Model.Path
import Verif.Props.Grid
import Verif.Props.SampleSO3
import Verif.Proofs.Kuka
import Verif.Proofs.Util

/-! # Lemmas about path.py -/

set_option linter.unusedSectionVars false

namespace Verif.Path

open Verif.Util Verif.Grid Verif.SampleSO3

theorem mapM_ok {α β : Type} {f : α → Except PyErr β} {g : α → β} {l : List α}
    (h : ∀ x ∈ l, f x = .ok (g x)) : l.mapM f = .ok (l.map g) := by
  induction l with
  | nil => rfl
  | cons a l ih =>
    rw [List.mapM_cons, h a (by simp), ih fun x hx => h x (by simp [hx])]
    rfl

/-- A `mapM` that succeeds succeeds entry by entry. -/
theorem mapM_ok_inv {α β : Type} {f : α → Except PyErr β} {l : List α} {r : List β}
    (h : l.mapM f = .ok r) : List.Forall₂ (fun x y => f x = .ok y) l r := by
  induction l generalizing r with
  | nil => cases h; exact .nil
  | cons a l ih =>
    rw [List.mapM_cons] at h
    cases hf : f a with
    | error e => rw [hf] at h; cases h
    | ok b =>
      rw [hf] at h
      cases hl : l.mapM f with
      | error e => rw [hl] at h; cases h
      | ok bs =>
        rw [hl] at h
        cases h
        exact .cons hf (ih hl)

theorem mapM_error {α β : Type} {f : α → Except PyErr β} {l : List α} {a : α} {e : PyErr}
    (ha : a ∈ l) (h : ∀ x ∈ l, f x = .error e) : l.mapM f = .error e := by
  cases l with
  | nil => simp at ha
  | cons b l => rw [List.mapM_cons, h b (by simp)]; rfl

@[simp] theorem setRot_mkTf (R S : M3) (p : V3) : setRot (mkTf R p) S = mkTf S p := by
  ext i j; fin_cases i <;> fin_cases j <;> rfl

theorem setRot_one (S : M3) : setRot 1 S = mkTf S 0 := by rw [← mkTf_one, setRot_mkTf]

theorem setPos_one (p : V3) : setPos 1 p = mkTf 1 p := by
  rw [← mkTf_one]
  ext i j; fin_cases i <;> fin_cases j <;> rfl

/-- The values of an entry on the grid. -/
noncomputable def values : Entry → List ℝ
  | .num x => [x]
  | .tol t => (List.range t.numSamples.toNat).map fun (i : Nat) =>
      t.lower + i * ((t.upper - t.lower) / ((t.numSamples : ℝ) - 1))

/-- The entry can be discretised. -/
def Ok : Entry → Prop
  | .num _ => True
  | .tol t => 0 ≤ t.numSamples

def nominal : Entry → ℝ
  | .num x => x
  | .tol t => t.nominal

theorem axisOf_ok {e : Entry} (h : Ok e) : axisOf e.isTol e = .ok (values e) := by
  cases e with
  | num x => rfl
  | tol t =>
    have h : 0 ≤ t.numSamples := h
    simp [axisOf, Entry.isTol, TolNum.discretise, linspace, values, not_lt.2 h]

theorem nominalOf_ok (e : Entry) : nominalOf e.isTol e = .ok (nominal e) := by cases e <;> rfl

theorem check_ok (a b c : Entry) : checkForTolerance [a, b, c] =
    .ok ([a.isTol, b.isTol, c.isTol], [nominal a, nominal b, nominal c]) := by
  simp only [checkForTolerance, List.range_succ, List.range_zero, List.nil_append, List.cons_append,
    List.map_cons, List.map_nil, List.mapM_cons, List.mapM_nil, pyGet, List.getElem?_cons_zero,
    List.getElem?_cons_succ, bind, Except.bind, nominalOf_ok, pure, Except.pure]

theorem axes_ok {a b c : Entry} (ha : Ok a) (hb : Ok b) (hc : Ok c) :
    axesOf [a.isTol, b.isTol, c.isTol] [a, b, c] = .ok [values a, values b, values c] := by
  simp only [axesOf, List.range_succ, List.range_zero, List.nil_append, List.cons_append,
    List.mapM_cons, List.mapM_nil, pyGet, List.getElem?_cons_zero,
    List.getElem?_cons_succ, bind, Except.bind, axisOf_ok ha, axisOf_ok hb, axisOf_ok hc, pure,
    Except.pure]

/-- The point of six numbers as a transform. -/
noncomputable def frame (x a : V3) : M4 := mkTf (rotX (a 0) * (rotY (a 1) * rotZ (a 2))) x

theorem v3_eta (x : V3) : ![x 0, x 1, x 2] = x := by ext i; fin_cases i <;> rfl

theorem eulerSample_ok (x a : V3) :
    eulerSample [x 0, x 1, x 2, a 0, a 1, a 2] = .ok (frame x a) := by
  simp only [eulerSample, eulerOf, pyGet, List.getElem?_cons_zero, List.getElem?_cons_succ, bind,
    Except.bind, List.take_succ_cons, List.take_zero, assign3, setRot_one, Kin.setPos_mkTf,
    v3_eta, frame]

theorem positionSample_ok (q : Quat) (x : V3) :
    positionSample q [x 0, x 1, x 2] = .ok (mkTf q.rotationMatrix x) := by
  simp only [positionSample, assign3, bind, Except.bind, Quat.transformationMatrix,
    Kin.setPos_mkTf, v3_eta]

theorem pointToFrame_ok (x a : V3) :
    pointToFrame [x 0, x 1, x 2, a 0, a 1, a 2] = .ok (frame x a) := by
  simp only [pointToFrame, eulerOf, pyGet, List.getElem?_cons_zero, List.getElem?_cons_succ, bind,
    Except.bind, List.take_succ_cons, List.take_zero, assign3, setPos_one, setRot_mkTf,
    v3_eta, frame]

/-- A row of three numbers as a vector. -/
def vec (row : List ℝ) (k : Nat) : V3 := fun i => row[k + i.val]?.getD 0

theorem grid6 (A B C D E F : List ℝ) :
    ∃ cs : List (V3 × V3),
      createGrid [A, B, C, D, E, F] =
        cs.map (fun c => [c.1 0, c.1 1, c.1 2, c.2 0, c.2 1, c.2 2]) ∧
      cs.length = A.length * B.length * C.length * (D.length * E.length * F.length) ∧
      (∀ c, c ∈ cs ↔ (c.1 0 ∈ A ∧ c.1 1 ∈ B ∧ c.1 2 ∈ C) ∧ c.2 0 ∈ D ∧ c.2 1 ∈ E ∧ c.2 2 ∈ F) ∧
      (A.Nodup → B.Nodup → C.Nodup → D.Nodup → E.Nodup → F.Nodup → cs.Nodup) := by
  have hr : [A, B, C, D, E, F] ≠ [] := by simp
  obtain ⟨hm, hn⟩ := Props.C22_product hr
  have shape : ∀ row ∈ createGrid [A, B, C, D, E, F], ∃ a b c d e f, row = [a, b, c, d, e, f] := by
    intro row h
    have h' := (hm row).1 h
    obtain ⟨a, l1, _, k1, rfl⟩ := List.forall₂_cons_right_iff.1 h'
    obtain ⟨b, l2, _, k2, rfl⟩ := List.forall₂_cons_right_iff.1 k1
    obtain ⟨c, l3, _, k3, rfl⟩ := List.forall₂_cons_right_iff.1 k2
    obtain ⟨d, l4, _, k4, rfl⟩ := List.forall₂_cons_right_iff.1 k3
    obtain ⟨e, l5, _, k5, rfl⟩ := List.forall₂_cons_right_iff.1 k4
    obtain ⟨f, l6, _, k6, rfl⟩ := List.forall₂_cons_right_iff.1 k5
    rw [List.forall₂_nil_right_iff.1 k6]
    exact ⟨_, _, _, _, _, _, rfl⟩
  have back : ∀ row ∈ createGrid [A, B, C, D, E, F],
      [vec row 0 0, vec row 0 1, vec row 0 2, vec row 3 0, vec row 3 1, vec row 3 2] = row := by
    intro row h
    obtain ⟨a, b, c, d, e, f, rfl⟩ := shape row h
    rfl
  refine ⟨(createGrid [A, B, C, D, E, F]).map fun row => (vec row 0, vec row 3), ?_, ?_, ?_, ?_⟩
  · rw [List.map_map]
    conv_lhs => rw [← List.map_id (createGrid [A, B, C, D, E, F])]
    exact List.map_congr_left fun row h => (back row h).symm
  · rw [List.length_map, Props.C22_count hr]
    simp [mul_assoc]
  · intro c
    rw [List.mem_map]
    constructor
    · rintro ⟨row, h, rfl⟩
      have h' := (hm row).1 h
      rw [← back row h] at h'
      simp only [List.forall₂_cons, List.forall₂_nil_left_iff, and_true] at h'
      tauto
    · rintro ⟨⟨h0, h1, h2⟩, h3, h4, h5⟩
      refine ⟨[c.1 0, c.1 1, c.1 2, c.2 0, c.2 1, c.2 2], (hm _).2 ?_, ?_⟩
      · simp [h0, h1, h2, h3, h4, h5]
      · ext i <;> fin_cases i <;> rfl
  · intro h0 h1 h2 h3 h4 h5
    refine List.Nodup.map_on ?_ (hn ?_)
    · intro r1 hr1 r2 hr2 h
      rw [← back r1 hr1, ← back r2 hr2]
      rw [Prod.mk.injEq] at h
      rw [h.1, h.2]
    · simp [h0, h1, h2, h3, h4, h5]

theorem grid3 (A B C : List ℝ) :
    ∃ cs : List V3,
      createGrid [A, B, C] = cs.map (fun c => [c 0, c 1, c 2]) ∧
      cs.length = A.length * B.length * C.length ∧
      (∀ c, c ∈ cs ↔ c 0 ∈ A ∧ c 1 ∈ B ∧ c 2 ∈ C) ∧
      (A.Nodup → B.Nodup → C.Nodup → cs.Nodup) := by
  have hr : [A, B, C] ≠ [] := by simp
  obtain ⟨hm, hn⟩ := Props.C22_product hr
  have back : ∀ row ∈ createGrid [A, B, C], [vec row 0 0, vec row 0 1, vec row 0 2] = row := by
    intro row h
    have h' := (hm row).1 h
    obtain ⟨a, l1, _, k1, rfl⟩ := List.forall₂_cons_right_iff.1 h'
    obtain ⟨b, l2, _, k2, rfl⟩ := List.forall₂_cons_right_iff.1 k1
    obtain ⟨c, l3, _, k3, rfl⟩ := List.forall₂_cons_right_iff.1 k2
    rw [List.forall₂_nil_right_iff.1 k3]
    rfl
  refine ⟨(createGrid [A, B, C]).map fun row => vec row 0, ?_, ?_, ?_, ?_⟩
  · rw [List.map_map]
    conv_lhs => rw [← List.map_id (createGrid [A, B, C])]
    exact List.map_congr_left fun row h => (back row h).symm
  · rw [List.length_map, Props.C22_count hr]
    simp [mul_assoc]
  · intro c
    rw [List.mem_map]
    constructor
    · rintro ⟨row, h, rfl⟩
      have h' := (hm row).1 h
      rw [← back row h] at h'
      simp only [List.forall₂_cons, List.forall₂_nil_left_iff, and_true] at h'
      tauto
    · rintro ⟨h0, h1, h2⟩
      refine ⟨[c 0, c 1, c 2], (hm _).2 ?_, ?_⟩
      · simp [h0, h1, h2]
      · ext i; fin_cases i <;> rfl
  · intro h0 h1 h2
    refine List.Nodup.map_on ?_ (hn ?_)
    · intro r1 hr1 r2 hr2 h
      rw [← back r1 hr1, ← back r2 hr2, h]
    · simp [h0, h1, h2]

/-- The object that `TolEulerPt([..],[..])` creates. -/
def eulerPt (pos rpy : Fin 3 → Entry) : TolEulerPt where
  pos := [pos 0, pos 1, pos 2]
  posHasTol := [(pos 0).isTol, (pos 1).isTol, (pos 2).isTol]
  posNom := [nominal (pos 0), nominal (pos 1), nominal (pos 2)]
  rpy := [rpy 0, rpy 1, rpy 2]
  rpyHasTol := [(rpy 0).isTol, (rpy 1).isTol, (rpy 2).isTol]
  rpyNom := [nominal (rpy 0), nominal (rpy 1), nominal (rpy 2)]
  pNominal := [nominal (pos 0), nominal (pos 1), nominal (pos 2), nominal (rpy 0), nominal (rpy 1),
    nominal (rpy 2)]

theorem eulerPt_new (pos rpy : Fin 3 → Entry) :
    TolEulerPt.new [pos 0, pos 1, pos 2] [rpy 0, rpy 1, rpy 2] = .ok (eulerPt pos rpy) := by
  simp only [TolEulerPt.new, check_ok, bind, Except.bind]
  rfl

/-- The object that `TolPositionPt([..], q)` creates. -/
def positionPt (pos : Fin 3 → Entry) (q : Quat) : TolPositionPt where
  pos := [pos 0, pos 1, pos 2]
  posHasTol := [(pos 0).isTol, (pos 1).isTol, (pos 2).isTol]
  posNom := [nominal (pos 0), nominal (pos 1), nominal (pos 2)]
  quat := q

theorem positionPt_new (pos : Fin 3 → Entry) (q : Quat) :
    TolPositionPt.new [pos 0, pos 1, pos 2] q = .ok (positionPt pos q) := by
  simp only [TolPositionPt.new, check_ok, bind, Except.bind]
  rfl

end Verif.Path
