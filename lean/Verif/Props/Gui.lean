import Verif.Model.Gui
import Verif.Props.Plot
import Verif.Props.Aliasing

/-! # C71, C72, C83, C84: the task editor -/

set_option linter.unusedSectionVars false

namespace Verif.Props

open Verif Verif.Path Verif.Geometry Verif.Kin Verif.ShortestPath Verif.Task Verif.CppGraph
  Verif.Search Verif.Planning Verif.Spec Verif.Plot Verif.Gui

noncomputable section

/-! ## C71 -/

/-- The points of a rectangle, without its border. -/
def inside (r : Rect) : Set (ℝ × ℝ) :=
  {p | r.left < p.1 ∧ p.1 < r.left + r.width ∧ r.bottom < p.2 ∧ p.2 < r.bottom + r.height}

/-- The points of a rectangle, with its border. -/
def closedRect (r : Rect) : Set (ℝ × ℝ) :=
  {p | r.left ≤ p.1 ∧ p.1 ≤ r.left + r.width ∧ r.bottom ≤ p.2 ∧ p.2 ≤ r.bottom + r.height}

/-- The slot in row `i` (from below) and column `j` (from the left). -/
def slotAt (slots : List (List Rect)) (i j : Nat) : Option Rect := slots[i]?.bind fun row => row[j]?

theorem slots_get {rows cols : Int} (hr : rows ≠ 0) (hc : cols ≠ 0) (margin : ℝ) :
    ∃ slots, createLayoutSlots rows cols margin = .ok slots ∧ slots.length = rows.toNat ∧
      (∀ row ∈ slots, row.length = cols.toNat) ∧
      ∀ (i j : Nat) (r : Rect), slotAt slots i j = some r → (i : ℤ) < rows ∧ (j : ℤ) < cols ∧
        r.left = j * (1 / (cols : ℝ)) + margin ∧ r.bottom = i * (1 / (rows : ℝ)) + margin ∧
        r.width = 1 / (cols : ℝ) - 2 * margin ∧ r.height = 1 / (rows : ℝ) - 2 * margin := by
  refine ⟨_, by rw [createLayoutSlots, if_neg hr, if_neg hc], by simp, ?_, ?_⟩
  · intro row h
    obtain ⟨i, -, rfl⟩ := List.mem_map.1 h
    simp [rowSlots]
  · intro i j r h
    simp only [slotAt, Option.bind_eq_some_iff] at h
    obtain ⟨row, h1, h2⟩ := h
    rw [List.getElem?_map, Option.map_eq_some_iff] at h1
    obtain ⟨i', hi, rfl⟩ := h1
    rw [List.getElem?_eq_some_iff] at hi
    obtain ⟨hi1, hi2⟩ := hi
    rw [List.getElem_range] at hi2
    subst hi2
    rw [rowSlots, List.getElem?_map, Option.map_eq_some_iff] at h2
    obtain ⟨j', hj, rfl⟩ := h2
    rw [List.getElem?_eq_some_iff] at hj
    obtain ⟨hj1, hj2⟩ := hj
    rw [List.getElem_range] at hj2
    subst hj2
    rw [List.length_range] at hi1 hj1
    refine ⟨by omega, by omega, rfl, by simp, rfl, rfl⟩

/-- Cells of a grid with `n` cells over the unit interval. -/
theorem cell_bounds {n : Int} (hn : 0 < n) {m : ℝ} (h0 : 0 ≤ m) (i : Nat)
    (hi : (i : ℤ) < n) : 0 ≤ i * (1 / (n : ℝ)) + m ∧
    i * (1 / (n : ℝ)) + m + (1 / (n : ℝ) - 2 * m) ≤ 1 := by
  have hn' : (0 : ℝ) < n := by exact_mod_cast hn
  have hi' : (i : ℝ) + 1 ≤ n := by exact_mod_cast hi
  have hp : 0 < 1 / (n : ℝ) := by positivity
  refine ⟨by positivity, ?_⟩
  have : (i + 1) * (1 / (n : ℝ)) ≤ n * (1 / (n : ℝ)) := mul_le_mul_of_nonneg_right hi' hp.le
  rw [mul_one_div_cancel hn'.ne'] at this
  linarith

theorem cell_order {n : Int} (hn : 0 < n) {m : ℝ} {i i' : Nat} (hi : i < i') :
    i * (1 / (n : ℝ)) + m + (1 / (n : ℝ) - 2 * m) + 2 * m ≤ i' * (1 / (n : ℝ)) + m := by
  have hn' : (0 : ℝ) < n := by exact_mod_cast hn
  have hi' : (i : ℝ) + 1 ≤ i' := by exact_mod_cast hi
  have hp : 0 < 1 / (n : ℝ) := by positivity
  have : (i + 1) * (1 / (n : ℝ)) ≤ i' * (1 / (n : ℝ)) := mul_le_mul_of_nonneg_right hi' hp.le
  linarith

/-- **C71**: for positive numbers of rows and columns and a margin of less than half a cell there are
`rows × cols` proper rectangles inside the unit square; no two of them share an inner point, and with
a positive margin no point at all. -/
theorem C71_slots {rows cols : Int} (hr : 0 < rows) (hc : 0 < cols) {margin : ℝ} (h0 : 0 ≤ margin)
    (h1 : 2 * margin < 1 / (rows : ℝ)) (h2 : 2 * margin < 1 / (cols : ℝ)) :
    ∃ slots, createLayoutSlots rows cols margin = .ok slots ∧ (slots.length : ℤ) = rows ∧
      (∀ row ∈ slots, (row.length : ℤ) = cols) ∧
      (∀ (i j : Nat) (r : Rect), slotAt slots i j = some r → 0 < r.width ∧ 0 < r.height ∧
        closedRect r ⊆ Set.Icc 0 1 ×ˢ Set.Icc 0 1) ∧
      ∀ (i j i' j' : Nat) (r r' : Rect), slotAt slots i j = some r → slotAt slots i' j' = some r' →
        (i, j) ≠ (i', j') → Disjoint (inside r) (inside r') ∧
          (0 < margin → Disjoint (closedRect r) (closedRect r')) := by
  obtain ⟨slots, hs, hl, hrow, hget⟩ := slots_get hr.ne' hc.ne' margin
  refine ⟨slots, hs, by omega, fun row h => by rw [hrow row h]; omega, ?_, ?_⟩
  · intro i j r h
    obtain ⟨hi, hj, e1, e2, e3, e4⟩ := hget i j r h
    refine ⟨by linarith, by linarith, ?_⟩
    rintro ⟨x, y⟩ ⟨a, b, c, d⟩
    have hx := cell_bounds hc h0 j hj
    have hy := cell_bounds hr h0 i hi
    rw [e1] at a b
    rw [e2] at c d
    rw [e3] at b
    rw [e4] at d
    exact ⟨⟨by simp only at a; linarith, by simp only at b; linarith⟩,
      ⟨by simp only at c; linarith, by simp only at d; linarith⟩⟩
  · intro i j i' j' r r' h h' hne
    obtain ⟨hi, hj, e1, e2, e3, e4⟩ := hget i j r h
    obtain ⟨hi', hj', e1', e2', e3', e4'⟩ := hget i' j' r' h'
    have hcase : i < i' ∨ i' < i ∨ j < j' ∨ j' < j := by
      by_contra hcon
      push Not at hcon
      exact hne (by rw [show i = i' by omega, show j = j' by omega])
    constructor
    · rw [Set.disjoint_left]
      rintro ⟨x, y⟩ ⟨a, b, c, d⟩ ⟨a', b', c', d'⟩
      simp only [e1, e2, e3, e4, e1', e2', e3', e4'] at a b c d a' b' c' d'
      rcases hcase with hh | hh | hh | hh
      · have := cell_order hr (m := margin) hh; linarith
      · have := cell_order hr (m := margin) hh; linarith
      · have := cell_order hc (m := margin) hh; linarith
      · have := cell_order hc (m := margin) hh; linarith
    · intro hm
      rw [Set.disjoint_left]
      rintro ⟨x, y⟩ ⟨a, b, c, d⟩ ⟨a', b', c', d'⟩
      simp only [e1, e2, e3, e4, e1', e2', e3', e4'] at a b c d a' b' c' d'
      rcases hcase with hh | hh | hh | hh
      · have := cell_order hr (m := margin) hh; linarith
      · have := cell_order hr (m := margin) hh; linarith
      · have := cell_order hc (m := margin) hh; linarith
      · have := cell_order hc (m := margin) hh; linarith

/-- **C71**, where the slots are: the slot in row `i` and column `j` is that cell of the grid of
`rows × cols` equal cells, less the margin on each of its four sides. -/
theorem C71_margins {rows cols : Int} (hr : 0 < rows) (hc : 0 < cols) (margin : ℝ) :
    ∃ slots, createLayoutSlots rows cols margin = .ok slots ∧
      ∀ (i j : Nat) (r : Rect), slotAt slots i j = some r → closedRect r =
        Set.Icc ((j : ℝ) / cols + margin) ((j + 1 : ℝ) / cols - margin) ×ˢ
          Set.Icc ((i : ℝ) / rows + margin) ((i + 1 : ℝ) / rows - margin) := by
  obtain ⟨slots, hs, hl, hrow, hget⟩ := slots_get hr.ne' hc.ne' margin
  refine ⟨slots, hs, fun i j r h => ?_⟩
  obtain ⟨hi, hj, e1, e2, e3, e4⟩ := hget i j r h
  ext ⟨x, y⟩
  simp only [closedRect, Set.mem_setOf_eq, Set.mem_prod, Set.mem_Icc, e1, e2, e3, e4]
  have a1 : (j : ℝ) * (1 / (cols : ℝ)) + margin + (1 / (cols : ℝ) - 2 * margin) =
      (j + 1 : ℝ) / cols - margin := by ring
  have a2 : (i : ℝ) * (1 / (rows : ℝ)) + margin + (1 / (rows : ℝ) - 2 * margin) =
      (i + 1 : ℝ) / rows - margin := by ring
  rw [a1, a2, mul_one_div, mul_one_div]
  tauto

/-- **C71**: no rows or no columns raise, negative numbers give no slots. -/
theorem C71_other (rows cols : Int) (margin : ℝ) :
    (rows = 0 ∨ cols = 0 → createLayoutSlots rows cols margin = .error .zeroDivisionError) ∧
    (rows < 0 → cols ≠ 0 → createLayoutSlots rows cols margin = .ok []) := by
  constructor
  · rintro (rfl | rfl)
    · rw [createLayoutSlots, if_pos rfl]
    · rw [createLayoutSlots]
      split
      · rfl
      · rw [if_pos rfl]
  · intro h h'
    rw [createLayoutSlots, if_neg h.ne, if_neg h', show rows.toNat = 0 by omega]
    rfl

/-- The layout of the editor: ten rows, four columns, margin 0.02. -/
example : ∃ slots, createLayoutSlots 10 4 0.02 = .ok slots ∧ (slots.length : ℤ) = 10 ∧
    ∀ row ∈ slots, (row.length : ℤ) = 4 := by
  obtain ⟨slots, h1, h2, h3, -⟩ := C71_slots (rows := 10) (cols := 4) (margin := 0.02) (by norm_num)
    (by norm_num) (by norm_num) (by norm_num) (by norm_num)
  exact ⟨slots, h1, h2, h3⟩

/-! ## C72 -/

variable {V : Type} {C : Type} [CostArith C] [JointArith ℝ C]

/-- Robots the editor can draw at its joint values: known joint types, at most seven joints, and at
least one. -/
structure Drawable (r : Robot Shape) : Prop where
  known : KnownTypes r.links
  most : r.links.length ≤ 7
  least : 0 < r.links.length

/-- Calls on the robot leave its link matrices and priority list in order, also when they raise. -/
def Keeps {α : Type} (n : Nat) (x : Run (RState × V) α) : Prop := ∀ st, WF n st.1 → WF n (x st).2.1

/-- All calls the planners make do so. -/
structure ArmKeeps (n : Nat) (arm : Arm (RState × V) Shape) : Prop where
  ik : ∀ T, Keeps n (arm.ik T)
  ikFixed : ∀ T q, Keeps n (arm.ikFixed T q)
  col : ∀ q sc, Keeps n (arm.isInCollision q sc)

section keeps

variable {n : Nat} {arm : Arm (RState × V) Shape} {α β : Type}

theorem Keeps.pure (a : α) : Keeps n (Pure.pure a : Run (RState × V) α) := fun _ h => h

theorem Keeps.lift (x : Except Err α) : Keeps n (Run.lift x : Run (RState × V) α) := fun _ h => h

theorem Keeps.raise (e : PyErr) : Keeps n (Planning.raise e : Run (RState × V) α) := fun _ h => h

theorem Keeps.bind {x : Run (RState × V) α} {f : α → Run (RState × V) β} (hx : Keeps n x)
    (hf : ∀ a, Keeps n (f a)) : Keeps n (x >>= f) := by
  intro st h
  change WF n (Run.bind x f st).2.1
  unfold Run.bind
  have := hx st h
  cases hc : x st with
  | mk o st' =>
    rw [hc] at this
    cases o with
    | error e => exact this
    | ok a => exact hf a st' this

theorem keepFree_keeps (h : ArmKeeps n arm) (sc : Collection Shape) (qs acc : List Config) :
    Keeps n (keepFree arm sc qs acc) := by
  induction qs generalizing acc with
  | nil => exact Keeps.pure _
  | cons q qs ih =>
    refine Keeps.bind (h.col q sc) fun c => ?_
    cases c
    · exact ih _
    · exact ih _

theorem samplesLoop_keeps (h : ArmKeeps n arm) (sc : Collection Shape) (Ts : List M4)
    (acc : List Config) : Keeps n (samplesLoop arm sc Ts acc) := by
  induction Ts generalizing acc with
  | nil => exact Keeps.pure _
  | cons T Ts ih =>
    refine Keeps.bind (h.ik T) fun o => ?_
    cases o with
    | none => exact ih _
    | some sols => exact Keeps.bind (keepFree_keeps h sc sols acc) fun a => ih a

theorem noRedundancy_keeps (h : ArmKeeps n arm) (sc : Collection Shape) (conv : ℝ → ℝ)
    (draws : Nat → Draws) (k : Nat) (path : List PathPt) (i : Nat) (Q : List (PyCol ℝ)) :
    Keeps n (noRedundancyLoop arm sc conv draws k i path Q) := by
  induction path generalizing i Q with
  | nil => exact Keeps.pure _
  | cons tp path ih =>
    exact Keeps.bind (Keeps.lift _) fun s => Keeps.bind (samplesLoop_keeps h sc s []) fun q =>
      Keeps.bind (Keeps.lift _) fun c => ih _ _

theorem fixedLoop_keeps (h : ArmKeeps n arm) (sc : Collection Shape) (Ti : Disc)
    (qfs acc : List Config) : Keeps n (fixedLoop arm sc Ti qfs acc) := by
  induction qfs generalizing acc with
  | nil => exact Keeps.pure _
  | cons qf qfs ih =>
    cases Ti with
    | point p => exact Keeps.raise _
    | transform T =>
      refine Keeps.bind (h.ikFixed T qf) fun o => ?_
      cases o with
      | none => exact ih _
      | some sols => exact Keeps.bind (keepFree_keeps h sc sols acc) fun a => ih a

theorem simpleSamples_keeps (h : ArmKeeps n arm) (sc : Collection Shape) (qfs : List Config)
    (ds : List Disc) (o : Option (List Config)) : Keeps n (simpleSamples arm sc qfs ds o) := by
  induction ds generalizing o with
  | nil => exact Keeps.pure _
  | cons d ds ih => exact Keeps.bind (fixedLoop_keeps h sc d qfs []) fun a => ih _

theorem simpleLoop_keeps (h : ArmKeeps n arm) (sc : Collection Shape) (conv : ℝ → ℝ)
    (draws : Nat → Draws) (qfs : List Config) (path : List PathPt) (i : Nat)
    (o : Option (List Config)) (Q : List (PyCol ℝ)) :
    Keeps n (simpleLoop arm sc conv draws qfs i path o Q) := by
  induction path generalizing i o Q with
  | nil => exact Keeps.pure _
  | cons tp path ih =>
    refine Keeps.bind (Keeps.lift _) fun s => Keeps.bind (simpleSamples_keeps h sc qfs s o) fun q => ?_
    cases q with
    | none => exact Keeps.raise _
    | some q => exact Keeps.bind (Keeps.lift _) fun c => ih _ _ _

theorem collideNone_keeps (r : Robot Shape) (q : Config) :
    Keeps r.links.length (collideNone r q : Run (RState × V) Bool) := by
  intro st h
  unfold collideNone
  split
  · exact h
  · have := h.fkAllLinks (r := r) q
    simp only
    split
    · exact this
    · split <;> exact this

theorem withoutScene_keeps {r : Robot Shape} (h : ArmKeeps r.links.length arm) :
    ArmKeeps r.links.length (withoutScene r arm) :=
  ⟨h.ik, h.ikFixed, fun q _ => collideNone_keeps r q⟩

theorem planQ_keeps {r : Robot Shape} (h : ArmKeeps r.links.length arm) (conv : ℝ → ℝ)
    (draws : Nat → Draws) (path : List PathPt) (scene : Option (Collection Shape)) :
    Keeps r.links.length (planQ r arm conv draws path scene) := by
  unfold planQ
  have h' : ArmKeeps r.links.length (if scene.isNone then withoutScene r arm else arm) := by
    split
    · exact withoutScene_keeps h
    · exact h
  simp only
  split
  · exact simpleLoop_keeps h' _ _ _ _ _ _ _ _
  · exact noRedundancy_keeps h' _ _ _ _ _ _ _

end keeps

/-! ### Without a scene nothing can be planned -/

section noscene

variable {r : Robot Shape} {arm : Arm (RState × V) Shape}

theorem collideNone_raises (h : 0 < r.links.length) (q : Config) (P : Bool → Prop) :
    Yields (fun _ => True) (collideNone r q : Run (RState × V) Bool) P := by
  intro st _ a st' he
  unfold collideNone at he
  split at he
  · cases he
  · simp only at he
    split at he
    · cases he
    · rw [if_neg h.ne'] at he
      cases he

theorem keepFree_noscene (h : 0 < r.links.length) (sc : Collection Shape) (qs acc : List Config) :
    Yields (fun _ => True) (keepFree (withoutScene r arm) sc qs acc) (· = acc) := by
  cases qs with
  | nil => exact Yields.pure rfl
  | cons q qs =>
    exact Yields.bind (collideNone_raises h q fun _ => False) fun c hc => hc.elim

theorem samplesLoop_noscene (h : 0 < r.links.length) (sc : Collection Shape) (Ts : List M4)
    (acc : List Config) :
    Yields (fun _ => True) (samplesLoop (withoutScene r arm) sc Ts acc) (· = acc) := by
  induction Ts generalizing acc with
  | nil => exact Yields.pure rfl
  | cons T Ts ih =>
    refine Yields.bind (P := fun _ => True) (fun w hw a w' he => ⟨trivial, trivial⟩) fun o _ => ?_
    cases o with
    | none => exact ih _
    | some sols =>
      refine Yields.bind (keepFree_noscene h sc sols acc) fun a ha => ?_
      subst ha
      exact ih _

theorem column_nil (conv : ℝ → ℝ) : column conv [] = .ok .emptyList := rfl

theorem noRedundancy_noscene (h : 0 < r.links.length) (sc : Collection Shape) (conv : ℝ → ℝ)
    (draws : Nat → Draws) (k : Nat) (path : List PathPt) (i : Nat) (Q : List (PyCol ℝ))
    (hQ : ∀ c ∈ Q, c = .emptyList) :
    Yields (fun _ => True) (noRedundancyLoop (withoutScene r arm) sc conv draws k i path Q)
      fun Q' => ∀ c ∈ Q', c = .emptyList := by
  induction path generalizing i Q with
  | nil => exact Yields.pure hQ
  | cons tp path ih =>
    refine Yields.bind (P := fun _ => True) (Yields.lift fun _ _ => trivial) fun s _ => ?_
    refine Yields.bind (samplesLoop_noscene h sc s []) fun q hq => ?_
    subst hq
    rw [column_nil]
    refine Yields.bind (Yields.lift (P := (· = .emptyList)) fun a ha => by cases ha; rfl) fun c hc => ?_
    subst hc
    refine ih _ _ fun c hc => ?_
    rcases List.mem_append.1 hc with hc | hc
    · exact hQ c hc
    · exact List.mem_singleton.1 hc

theorem fixedLoop_noscene (h : 0 < r.links.length) (sc : Collection Shape) (Ti : Disc)
    (qfs acc : List Config) :
    Yields (fun _ => True) (fixedLoop (withoutScene r arm) sc Ti qfs acc) (· = acc) := by
  induction qfs generalizing acc with
  | nil => exact Yields.pure rfl
  | cons qf qfs ih =>
    cases Ti with
    | point p => exact Yields.raise _ _
    | transform T =>
      refine Yields.bind (P := fun _ => True) (fun w hw a w' he => ⟨trivial, trivial⟩) fun o _ => ?_
      cases o with
      | none => exact ih _
      | some sols =>
        refine Yields.bind (keepFree_noscene h sc sols acc) fun a ha => ?_
        subst ha
        exact ih _

theorem simpleSamples_noscene (h : 0 < r.links.length) (sc : Collection Shape) (qfs : List Config)
    (ds : List Disc) (o : Option (List Config)) (ho : o = none ∨ o = some []) :
    Yields (fun _ => True) (simpleSamples (withoutScene r arm) sc qfs ds o)
      fun o => o = none ∨ o = some [] := by
  induction ds generalizing o with
  | nil => exact Yields.pure ho
  | cons d ds ih =>
    refine Yields.bind (fixedLoop_noscene h sc d qfs []) fun a ha => ?_
    subst ha
    exact ih _ (.inr rfl)

theorem simpleLoop_noscene (h : 0 < r.links.length) (sc : Collection Shape) (conv : ℝ → ℝ)
    (draws : Nat → Draws) (qfs : List Config) (path : List PathPt) (i : Nat)
    (o : Option (List Config)) (ho : o = none ∨ o = some []) (Q : List (PyCol ℝ))
    (hQ : ∀ c ∈ Q, c = .emptyList) :
    Yields (fun _ => True) (simpleLoop (withoutScene r arm) sc conv draws qfs i path o Q)
      fun Q' => ∀ c ∈ Q', c = .emptyList := by
  induction path generalizing i o Q with
  | nil => exact Yields.pure hQ
  | cons tp path ih =>
    refine Yields.bind (P := fun _ => True) (Yields.lift fun _ _ => trivial) fun s _ => ?_
    refine Yields.bind (simpleSamples_noscene h sc qfs s o ho) fun q hq => ?_
    rcases hq with rfl | rfl
    · exact Yields.raise _ _
    · simp only
      rw [column_nil]
      refine Yields.bind (Yields.lift (P := (· = .emptyList)) fun a ha => by cases ha; rfl)
        fun c hc => ?_
      subst hc
      refine ih _ _ (.inr rfl) _ fun c hc => ?_
      rcases List.mem_append.1 hc with hc | hc
      · exact hQ c hc
      · exact List.mem_singleton.1 hc

theorem planQ_noscene (h : 0 < r.links.length) (conv : ℝ → ℝ) (draws : Nat → Draws)
    (path : List PathPt) :
    Yields (fun _ => True) (planQ r arm conv draws path none) fun Q => ∀ c ∈ Q, c = .emptyList := by
  unfold planQ
  simp only [Option.isNone_none, if_true]
  split
  · exact simpleLoop_noscene h _ _ _ _ _ _ _ (.inl rfl) _ (by simp)
  · exact noRedundancy_noscene h _ _ _ _ _ _ _ (by simp)

theorem getShortestPath_empties (pq : PQ C Config) (conv : ℝ → ℝ) {Q : List (PyCol ℝ)}
    (hQ : ∀ c ∈ Q, c = .emptyList) (m : ShortestPath.Method) (w : Option (List ℝ))
    (res : PlanRes ℝ C) : getShortestPath pq conv Q m w ≠ .ok res := by
  cases Q with
  | nil => intro h; cases h
  | cons c cs =>
    obtain rfl := hQ c List.mem_cons_self
    intro h; cases h

end noscene

/-! ### When callbacks raise -/

/-- The point has nominal values that give a frame: Euler points and points with free orientation. -/
def HasFrame : PathPt → Prop
  | .euler p => 6 ≤ p.pNominal.length
  | .free p => 6 ≤ p.pNominal.length
  | _ => False

theorem pointToFrame_iff (p : List ℝ) : (∃ T, pointToFrame p = .ok T) ↔ 6 ≤ p.length := by
  constructor
  · rintro ⟨T, h⟩
    unfold pointToFrame at h
    cases ha : assign3 (p.take 3) with
    | error e => simp [bind, Except.bind, ha] at h
    | ok v =>
      simp only [bind, Except.bind, ha] at h
      cases he : eulerOf p with
      | error e => simp [he] at h
      | ok R =>
        by_contra hlt
        have h5 : pyGet p 5 = .error .indexError := by
          simp only [pyGet]
          rw [List.getElem?_eq_none (by omega)]
        unfold eulerOf at he
        simp only [bind, Except.bind, h5] at he
        cases h3 : pyGet p 3 <;> simp only [h3] at he
        · cases he
        · cases h4 : pyGet p 4 <;> simp only [h4] at he <;> cases he
  · intro h
    match p, h with
    | a :: b :: c :: d :: e :: f :: rest, _ => exact ⟨_, rfl⟩

theorem pointFrame_iff (tp : PathPt) : (∃ d, pointFrame tp = .ok d) ↔ HasFrame tp := by
  have key : ∀ p : List ℝ, (∃ d : Drawing, (pointToFrame p).bind
      (fun tf => .ok (.frame (plotReferenceFrame (some tf)))) = .ok d) ↔ 6 ≤ p.length := by
    intro p
    rw [← pointToFrame_iff]
    cases pointToFrame p with
    | error e => simp [Except.bind]
    | ok T => simp [Except.bind]
  cases tp with
  | euler p => exact key _
  | free p => exact key _
  | position p => simp [pointFrame, pNominal, HasFrame, bind, Except.bind]
  | axisAngle p => simp [pointFrame, pNominal, HasFrame, bind, Except.bind]
  | orientation p => simp [pointFrame, pNominal, HasFrame, bind, Except.bind]

theorem framesLoop_iff (tps : List PathPt) (d : List Drawing) :
    (framesLoop tps d).1 = .ok () ↔ ∀ tp ∈ tps, HasFrame tp := by
  induction tps generalizing d with
  | nil => simp [framesLoop]
  | cons tp tps ih =>
    rw [List.forall_mem_cons, ← pointFrame_iff, framesLoop]
    cases h : pointFrame tp with
    | error e => simp
    | ok f => simp [ih]

/-- The frames of all points, in order. -/
theorem framesLoop_drawn (tps : List PathPt) (d : List Drawing) (h : ∀ tp ∈ tps, HasFrame tp) :
    ∃ fs, (framesLoop tps d).2 = d ++ fs ∧
      List.Forall₂ (fun tp f => pointFrame tp = .ok f) tps fs := by
  induction tps generalizing d with
  | nil => exact ⟨[], by simp [framesLoop], .nil⟩
  | cons tp tps ih =>
    rw [List.forall_mem_cons] at h
    obtain ⟨f, hf⟩ := (pointFrame_iff tp).2 h.1
    obtain ⟨fs, h1, h2⟩ := ih (d ++ [f]) h.2
    exact ⟨f :: fs, by rw [framesLoop, hf]; simp [h1], .cons hf h2⟩

/-- All points of all loaded paths. -/
def AllFrames (e : Editor V) : Prop := ∀ path ∈ e.paths, ∀ tp ∈ path, HasFrame tp

theorem plotSetup_rob (r : Robot Shape) (e : Editor V) (h : WF r.links.length e.rob.1) :
    WF r.links.length (plotSetup r e).2.rob.1 := by
  have := h.fkAllLinks (r := r) q0
  unfold plotSetup
  simp only [plotRobot]
  split
  · exact this
  · unfold plotTask
    split <;> exact this

theorem plotRobot_ok {r : Robot Shape} (hr : Drawable r) {st : RState} (h : WF r.links.length st) :
    ∃ segs, (plotRobot r st q0).1 = .ok segs := by
  have hq : r.links.length ≤ q0.length := by simpa [q0] using hr.most
  have hf := fkAllLinks_ok h hq hr.known.known
  simp only [plotRobot, hf, Except.bind, bind]
  cases ht : r.tool with
  | none => exact ⟨_, rfl⟩
  | some t => exact ⟨_, by simp only [plotTool, frames_last r hq hr.least, bind, Except.bind]; rfl⟩

theorem plotSetup_iff {r : Robot Shape} (hr : Drawable r) (e : Editor V) (h : WF r.links.length e.rob.1) :
    (plotSetup r e).1 = .ok () ↔ e.scene ≠ none ∧ AllFrames e := by
  obtain ⟨segs, hs⟩ := plotRobot_ok hr h
  unfold plotSetup
  simp only [hs]
  unfold plotTask
  cases hsc : e.scene with
  | none => simp
  | some sc =>
    have hl : ∀ x : Except PyErr Unit, liftPy x = .ok () ↔ x = .ok () := by
      intro x; cases x <;> simp [liftPy, Except.mapError]
    simp only [hl, framesLoop_iff, List.mem_flatten, AllFrames]
    constructor
    · intro hh
      exact ⟨by simp, fun path hp tp ht => hh tp ⟨path, hp, ht⟩⟩
    · rintro ⟨-, hh⟩ tp ⟨path, hp, ht⟩
      exact hh path hp tp ht

/-- A path search for the current path and scene ends with a path. -/
def Plans (pq : PQ C Config) (r : Robot Shape) (arm : Arm (RState × V) Shape) (conv : ℝ → ℝ)
    (draws : Nat → Draws) (e : Editor V) : Prop :=
  ∃ Q res p, (planQ r arm conv draws e.path e.scene e.rob).1 = .ok Q ∧
    getShortestPath pq conv Q .dijkstra (some [1, 1, 1, 1, 1, 1, 1]) = .ok res ∧ res.path = some p

/-- The condition under which a callback does not raise. -/
def Safe (pq : PQ C Config) (r : Robot Shape) (arm : Arm (RState × V) Shape) (conv : ℝ → ℝ) (wdir : String)
    (e : Editor V) : Event → Prop
  | .submitFileName _ => True
  | .submitPathFileName _ => True
  | .loadScene fs => (∃ sc, fs.scenes (wdir ++ "/" ++ e.filename) = .ok sc) ∧ AllFrames e
  | .loadPaths fs => e.scene ≠ none ∧ ∃ ps, fs.paths (wdir ++ "/" ++ e.pathsFilename) = .ok ps ∧
      ps ≠ [] ∧ ∀ path ∈ ps, ∀ tp ∈ path, HasFrame tp
  | .plan d => Plans pq r arm conv d e
  | .showPath => e.currentSolution = none ∨ AllFrames e

theorem plan_iff (pq : PQ C Config) (r : Robot Shape) (arm : Arm (RState × V) Shape) (conv : ℝ → ℝ)
    (d : Nat → Draws) (e : Editor V) : (plan pq r arm conv d e).1 = .ok () ↔ Plans pq r arm conv d e := by
  unfold plan Plans
  simp only [Editor.log]
  cases hx : (planQ r arm conv d e.path e.scene e.rob).1 with
  | error err => simp
  | ok Q =>
    simp only
    cases hg : getShortestPath pq conv Q .dijkstra (some [1, 1, 1, 1, 1, 1, 1]) with
    | error err => simp [hg]
    | ok res =>
      simp only
      cases hp : res.path with
      | none => simp [hg, hp]
      | some p => simp [hg, hp]

theorem plan_state (pq : PQ C Config) (r : Robot Shape) (arm : Arm (RState × V) Shape) (conv : ℝ → ℝ)
    (d : Nat → Draws) (e : Editor V) : (plan pq r arm conv d e).2.scene = e.scene ∧
      (plan pq r arm conv d e).2.path = e.path ∧ (plan pq r arm conv d e).2.paths = e.paths ∧
      (plan pq r arm conv d e).2.rob = (planQ r arm conv d e.path e.scene e.rob).2 ∧
      ((plan pq r arm conv d e).2.currentSolution = e.currentSolution ∨
        ∃ Q res p, (planQ r arm conv d e.path e.scene e.rob).1 = .ok Q ∧
          getShortestPath pq conv Q .dijkstra (some [1, 1, 1, 1, 1, 1, 1]) = .ok res ∧
          res.path = some p ∧ (plan pq r arm conv d e).2.currentSolution = some p ∧
          (plan pq r arm conv d e).1 = .ok ()) := by
  unfold plan
  simp only [Editor.log]
  cases hx : (planQ r arm conv d e.path e.scene e.rob).1 with
  | error err => simp
  | ok Q =>
    simp only
    cases hg : getShortestPath pq conv Q .dijkstra (some [1, 1, 1, 1, 1, 1, 1]) with
    | error err => simp
    | ok res =>
      simp only
      cases hp : res.path with
      | none => simp
      | some p => exact ⟨rfl, rfl, rfl, rfl, .inr ⟨Q, res, p, rfl, hg, hp, rfl, rfl⟩⟩

/-- What holds after every sequence of events. -/
structure EditorInv (r : Robot Shape) (e : Editor V) : Prop where
  wf : WF r.links.length e.rob.1
  scene : e.currentSolution ≠ none → e.scene ≠ none

theorem plotSetup_fields (r : Robot Shape) (e : Editor V) :
    (plotSetup r e).2.scene = e.scene ∧ (plotSetup r e).2.paths = e.paths ∧
      (plotSetup r e).2.path = e.path ∧
      (plotSetup r e).2.currentSolution = e.currentSolution := by
  unfold plotSetup
  simp only
  split
  · exact ⟨rfl, rfl, rfl, rfl⟩
  · unfold plotTask
    split
    · exact ⟨rfl, rfl, rfl, rfl⟩
    · exact ⟨rfl, rfl, rfl, rfl⟩

theorem showPath_fields (r : Robot Shape) (e : Editor V) :
    (showPath r e).2.scene = e.scene ∧ (showPath r e).2.paths = e.paths ∧
      (showPath r e).2.path = e.path ∧
      (showPath r e).2.currentSolution = e.currentSolution := by
  unfold showPath
  cases h : e.currentSolution with
  | none => simp [Editor.log, h]
  | some p =>
    have := plotSetup_fields r { e with drawn := [] }
    simp only [h] at this ⊢
    split <;> simp [this]

theorem showPath_rob (r : Robot Shape) (e : Editor V) (h : WF r.links.length e.rob.1) :
    WF r.links.length (showPath r e).2.rob.1 := by
  unfold showPath
  cases hs : e.currentSolution with
  | none => exact h
  | some p =>
    have := plotSetup_rob r { e with drawn := [] } h
    simp only [hs] at this ⊢
    split <;> exact this

theorem callback_inv (pq : PQ C Config) {r : Robot Shape} (hl : 0 < r.links.length)
    {arm : Arm (RState × V) Shape} (ha : ArmKeeps r.links.length arm) (conv : ℝ → ℝ) (wdir : String)
    (ev : Event) {e : Editor V} (h : EditorInv r e) :
    EditorInv r (callback pq r arm conv wdir ev e).2 := by
  cases ev with
  | submitFileName n => exact ⟨h.wf, h.scene⟩
  | submitPathFileName n => exact ⟨h.wf, h.scene⟩
  | loadScene fs =>
    simp only [callback, loadScene]
    split
    · exact h
    · have := plotSetup_fields r { e with scene := some ‹_› }
      exact ⟨plotSetup_rob r _ h.wf, fun _ => by rw [this.1]; simp⟩
  | loadPaths fs =>
    simp only [callback, loadPaths]
    split
    · exact h
    · split
      · exact ⟨h.wf, h.scene⟩
      · rename_i p ps _
        have := plotSetup_fields r { e with paths := p :: ps, path := p }
        exact ⟨plotSetup_rob r _ h.wf, fun hs => by rw [this.1]; exact h.scene (by rwa [this.2.2.2] at hs)⟩
  | plan d =>
    obtain ⟨h1, -, -, h4, h5⟩ := plan_state pq r arm conv d e
    refine ⟨?_, ?_⟩
    · simp only [callback]
      rw [h4]
      exact planQ_keeps ha conv d e.path e.scene _ h.wf
    · simp only [callback]
      rw [h1]
      intro hs
      rcases h5 with h5 | ⟨Q, res, p, hq, hg, hp, -, -⟩
      · exact h.scene (by rwa [h5] at hs)
      · intro hsc
        rw [hsc] at hq
        have := (planQ_noscene (arm := arm) hl conv d e.path e.rob trivial Q _ (Prod.ext hq rfl)).1
        exact getShortestPath_empties pq conv this _ _ _ hg
  | showPath =>
    have := showPath_fields r e
    exact ⟨showPath_rob r e h.wf, fun hs => by
      simp only [callback]
      rw [this.1]
      exact h.scene (by simp only [callback] at hs; rwa [this.2.2.2] at hs)⟩

theorem runEvents_inv (pq : PQ C Config) {r : Robot Shape} (hl : 0 < r.links.length)
    {arm : Arm (RState × V) Shape} (ha : ArmKeeps r.links.length arm) (conv : ℝ → ℝ) (wdir : String)
    (evs : List Event) {e : Editor V} (h : EditorInv r e) :
    EditorInv r (runEvents pq r arm conv wdir e evs) := by
  unfold runEvents
  induction evs generalizing e with
  | nil => exact h
  | cons ev evs ih => exact ih (callback_inv pq hl ha conv wdir ev h)

/-- The editor after any events (including ones that raised), on a robot with any history. -/
def reached (pq : PQ C Config) (hit : Oracle Shape) (r : Robot Shape) (arm : Arm (RState × V) Shape)
    (conv : ℝ → ℝ) (wdir : String) (v : V) (history : List (Call Shape)) (evs : List Event) : Editor V :=
  runEvents pq r arm conv wdir (Editor.new (after hit r.links history, v)) evs

theorem reached_inv (pq : PQ C Config) (hit : Oracle Shape) {r : Robot Shape}
    (hl : 0 < r.links.length) {arm : Arm (RState × V) Shape} (ha : ArmKeeps r.links.length arm)
    (conv : ℝ → ℝ) (wdir : String) (v : V) (history : List (Call Shape))
    (hh : ∀ c ∈ history, c.robot.links = r.links) (evs : List Event) :
    EditorInv r (reached pq hit r arm conv wdir v history evs) :=
  runEvents_inv pq hl ha conv wdir evs
    ⟨after_wf hit r.links history hh, fun h => absurd rfl h⟩

/-- **C72** as stated, for one robot: whatever has happened, no callback raises. -/
def C72_statement (pq : PQ C Config) (r : Robot Shape) (arm : Arm (RState × V) Shape) (conv : ℝ → ℝ)
    (wdir : String) : Prop :=
  ∀ (hit : Oracle Shape) (v : V) (history : List (Call Shape)) (evs : List Event) (ev : Event),
    (callback pq r arm conv wdir ev (reached pq hit r arm conv wdir v history evs)).1 = .ok ()

/-- **C72** is false for every robot: the first click on "Plan" raises IndexError. -/
theorem C72_plan_first (pq : PQ C Config) (r : Robot Shape) (arm : Arm (RState × V) Shape) (conv : ℝ → ℝ)
    (wdir : String) (rob : RState × V) (d : Nat → Draws) :
    (callback pq r arm conv wdir (.plan d) (Editor.new rob)).1 = .error (.py .indexError) := by
  have : (planQ r arm conv d [] none rob).1 = .ok [] := by
    unfold planQ
    by_cases h : 6 < r.links.length
    · simp only [gt_iff_lt, if_pos h]; rfl
    · simp only [gt_iff_lt, if_neg h]; rfl
  simp only [callback, plan, Editor.log, Editor.new, this]
  rfl

theorem C72_refuted (pq : PQ C Config) (r : Robot Shape) (arm : Arm (RState × V) Shape) (conv : ℝ → ℝ)
    (wdir : String) [Nonempty V] : ¬ C72_statement pq r arm conv wdir := by
  intro h
  have := h (fun _ _ => false) (Classical.arbitrary V) [] [] (.plan fun _ => ⟨fun n => n, 0, fun _ => (0, 0, 0), none⟩)
  rw [reached, runEvents, List.foldl_nil, C72_plan_first] at this
  cases this

/-- **C72**: loading paths before a scene raises, whatever the file. -/
theorem C72_paths_first (pq : PQ C Config) {r : Robot Shape} (hr : Drawable r)
    (arm : Arm (RState × V) Shape) (conv : ℝ → ℝ) (wdir : String) (fs : Files) {e : Editor V}
    (hw : WF r.links.length e.rob.1) (hs : e.scene = none) :
    (callback pq r arm conv wdir (.loadPaths fs) e).1 ≠ .ok () := by
  simp only [callback, loadPaths]
  split
  · simp
  · split
    · simp
    · rename_i p ps _
      rw [Ne, plotSetup_iff hr { e with paths := p :: ps, path := p } hw]
      simp [hs]

/-- **C72**, partial: exactly when each callback raises.  After any sequence of events, also ones that
raised, a callback succeeds if and only if `Safe` holds: entering names always; "Load scene" when the
file can be imported (and no path with points without nominal pose has been loaded); "Load paths" after
a scene and with a file of at least one path, all points having a nominal pose; "Plan" when the search
ends with a path; "Show solution" always, unless a solution is there and a path with points without
nominal pose has been loaded since.  Missing: the other cases, for which the statement is false. -/
theorem C72_partial (pq : PQ C Config) (hit : Oracle Shape) {r : Robot Shape} (hr : Drawable r)
    {arm : Arm (RState × V) Shape} (ha : ArmKeeps r.links.length arm) (conv : ℝ → ℝ) (wdir : String) (v : V)
    (history : List (Call Shape)) (hh : ∀ c ∈ history, c.robot.links = r.links) (evs : List Event)
    (ev : Event) :
    (callback pq r arm conv wdir ev (reached pq hit r arm conv wdir v history evs)).1 = .ok () ↔
      Safe pq r arm conv wdir (reached pq hit r arm conv wdir v history evs) ev := by
  have hi := reached_inv pq hit hr.least ha conv wdir v history hh evs
  generalize reached pq hit r arm conv wdir v history evs = e at *
  cases ev with
  | submitFileName n => simp [callback, submitFileName, Safe]
  | submitPathFileName n => simp [callback, submitPathFileName, Safe]
  | loadScene fs =>
    simp only [callback, loadScene, Safe]
    cases hf : fs.scenes (wdir ++ "/" ++ e.filename) with
    | error err => simp
    | ok sc =>
      simp only
      rw [plotSetup_iff hr { e with scene := some sc } hi.wf]
      simp [AllFrames]
  | loadPaths fs =>
    simp only [callback, loadPaths, Safe]
    cases hf : fs.paths (wdir ++ "/" ++ e.pathsFilename) with
    | error err => simp
    | ok ps =>
      simp only
      cases ps with
      | nil => simp
      | cons p ps =>
        simp only
        rw [plotSetup_iff hr { e with paths := p :: ps, path := p } hi.wf]
        simp [AllFrames]
  | plan d => exact plan_iff pq r arm conv d e
  | showPath =>
    simp only [callback, showPath, Safe]
    cases hs : e.currentSolution with
    | none => simp
    | some p =>
      have hsc := hi.scene (by rw [hs]; simp)
      have hiff := plotSetup_iff hr { e with drawn := [], currentSolution := some p } hi.wf
      simp only
      cases hx : (plotSetup r { e with drawn := [], currentSolution := some p }).1 with
      | error err =>
        rw [hx] at hiff
        have : ¬ AllFrames e := fun hA => by
          have := hiff.2 ⟨hsc, hA⟩
          cases this
        simp [this]
      | ok u =>
        rw [hx] at hiff
        have : AllFrames e := (hiff.1 rfl).2
        simp [this]

/-! ## C83 -/

/-- Six numbers, position and angles about x, y, z, as a frame. -/
def IsPose (l : List ℝ) (T : M4) : Prop :=
  ∃ (x a : V3) (rest : List ℝ), l = x 0 :: x 1 :: x 2 :: a 0 :: a 1 :: a 2 :: rest ∧
    T = mkTf (Rxyz a) x

/-- The nominal frame of a path point. -/
def NominalFrame : PathPt → M4 → Prop
  | .euler p, T => IsPose p.pNominal T
  | .free p, T => IsPose p.pNominal T
  | _, _ => False

/-- The lines of a drawing; the animation comes later. -/
def segsOf : Drawing → List Seg
  | .robot s => s
  | .scene s => s
  | .frame s => s
  | .animation _ => []

/-- The lines that belong to the current task: the robot at the joint values of the editor, the scene,
and the nominal frames of all path points. -/
def Belongs (r : Robot Shape) (e : Editor V) (seg : Seg) : Prop :=
  (∃ s T, RobotAt r [0, 0, 1.5, 0, 0, 0, 0] s T ∧ IsEdge s T seg) ∨
  (∃ sc, e.scene = some sc ∧ ∃ s T, At sc 1 s T ∧ IsEdge s T seg) ∨
  (∃ path ∈ e.paths, ∃ tp ∈ path, ∃ T, NominalFrame tp T ∧ seg ∈ triad T 0.2)

/-- Exactly these lines are drawn. -/
def Shows (r : Robot Shape) (e : Editor V) (ds : List Drawing) : Prop :=
  (∀ d ∈ ds, ∀ seg ∈ segsOf d, Belongs r e seg) ∧
  (∀ seg, Belongs r e seg → ∃ d ∈ ds, seg ∈ segsOf d ∨ seg.swap ∈ segsOf d)

theorem pointToFrame_pose {l : List ℝ} {T : M4} : pointToFrame l = .ok T ↔ IsPose l T := by
  have hpose : ∀ (x a : V3) rest, pointToFrame (x 0 :: x 1 :: x 2 :: a 0 :: a 1 :: a 2 :: rest) =
      .ok (mkTf (Rxyz a) x) := by
    intro x a rest
    have h : pointToFrame (x 0 :: x 1 :: x 2 :: a 0 :: a 1 :: a 2 :: rest) =
        pointToFrame [x 0, x 1, x 2, a 0, a 1, a 2] := rfl
    rw [h, pointToFrame_ok, frame_eq]
  constructor
  · intro h
    have hl := (pointToFrame_iff l).1 ⟨T, h⟩
    match l, hl with
    | a :: b :: c :: d :: e :: f :: rest, _ =>
      refine ⟨![a, b, c], ![d, e, f], rest, rfl, ?_⟩
      have := hpose ![a, b, c] ![d, e, f] rest
      rw [show (![a, b, c] 0 :: ![a, b, c] 1 :: ![a, b, c] 2 :: ![d, e, f] 0 :: ![d, e, f] 1 ::
        ![d, e, f] 2 :: rest) = a :: b :: c :: d :: e :: f :: rest from rfl, h] at this
      exact Except.ok.inj this
  · rintro ⟨x, a, rest, rfl, rfl⟩
    exact hpose x a rest

theorem pointFrame_nominal {tp : PathPt} {d : Drawing} : pointFrame tp = .ok d ↔
    ∃ T, NominalFrame tp T ∧ d = .frame (triad T 0.2) := by
  have key : ∀ p : List ℝ, ((pointToFrame p).bind
      (fun tf => .ok (.frame (plotReferenceFrame (some tf)))) = .ok d) ↔
      ∃ T, IsPose p T ∧ d = .frame (triad T 0.2) := by
    intro p
    cases h : pointToFrame p with
    | error e =>
      simp only [Except.bind, reduceCtorEq, false_iff, not_exists, not_and]
      intro T hT
      rw [← pointToFrame_pose, h] at hT
      cases hT
    | ok T =>
      simp only [Except.bind, Except.ok.injEq]
      constructor
      · rintro rfl
        exact ⟨T, pointToFrame_pose.1 h, by rw [C82_default]⟩
      · rintro ⟨T', hT', rfl⟩
        rw [← pointToFrame_pose, h] at hT'
        cases hT'
        rw [C82_default]
  cases tp with
  | euler p => exact key _
  | free p => exact key _
  | position p => simp [pointFrame, pNominal, NominalFrame, bind, Except.bind]
  | axisAngle p => simp [pointFrame, pNominal, NominalFrame, bind, Except.bind]
  | orientation p => simp [pointFrame, pNominal, NominalFrame, bind, Except.bind]

/-- What `plot_setup` adds to the picture. -/
theorem plotSetup_shows {r : Robot Shape} (hr : Drawable r)
    (hb : r.geometryBase = none ∨ r.tfBase = 1) {e : Editor V} (hw : WF r.links.length e.rob.1)
    (h : (plotSetup r e).1 = .ok ()) :
    ∃ new, (plotSetup r e).2.drawn = e.drawn ++ new ∧ Shows r (plotSetup r e).2 new := by
  obtain ⟨hs, hA⟩ := (plotSetup_iff hr e hw).1 h
  obtain ⟨sc, hsc⟩ := Option.ne_none_iff_exists'.1 hs
  obtain ⟨segs, h1, h2⟩ := plotRobot_drawn hr.known hw (q := q0)
    (by simpa [q0] using hr.most) (.inr hr.least)
  obtain ⟨fs, h3, h4⟩ := framesLoop_drawn e.paths.flatten
    ((e.drawn ++ [Drawing.robot segs]) ++ [.scene (plotCollection sc none)]) (by
      intro tp ht
      obtain ⟨path, hp, ht⟩ := List.mem_flatten.1 ht
      exact hA path hp tp ht)
  obtain ⟨f1, f2, -, -⟩ := plotSetup_fields r e
  have hdr : (plotSetup r e).2.drawn = e.drawn ++ (.robot segs :: .scene (plotCollection sc none) :: fs) := by
    unfold plotSetup
    simp only [h1]
    unfold plotTask
    simp only [hsc, h3]
    simp
  have hd2 : Depicts segs (RobotAt r q0) := by
    have : RobotAt r q0 = fun s T => (∃ base, r.geometryBase = some base ∧ At base 1 s T) ∨
        BodyAt r q0 s T := by
      funext s T
      rcases hb with hb | hb
      · simp [RobotAt, BaseAt, hb]
      · simp [RobotAt, BaseAt, hb]
    rw [this]
    exact h2
  have hd3 : Depicts (plotCollection sc none) (At sc 1) :=
    depicts_of_mem fun seg => by rw [plotCollection_none, mem_plotCollection]
  refine ⟨_, hdr, ?_, ?_⟩
  · intro d hd seg hseg
    rcases List.mem_cons.1 hd with rfl | hd
    · exact .inl (hd2.1 seg hseg)
    · rcases List.mem_cons.1 hd with rfl | hd
      · exact .inr (.inl ⟨sc, by rw [f1, hsc], hd3.1 seg hseg⟩)
      · obtain ⟨i, hi, rfl⟩ := List.getElem_of_mem hd
        rw [List.forall₂_iff_get] at h4
        have hi' : i < e.paths.flatten.length := by rw [h4.1]; exact hi
        obtain ⟨T, hT, hdT⟩ := pointFrame_nominal.1 (h4.2 i hi' hi)
        simp only [List.get_eq_getElem] at hdT
        rw [hdT] at hseg
        obtain ⟨path, hp, ht⟩ := List.mem_flatten.1 (List.getElem_mem hi')
        exact .inr (.inr ⟨path, by rw [f2]; exact hp, _, ht, T, hT, hseg⟩)
  · rintro seg (⟨s, T, hP, he⟩ | ⟨sc', hs', s, T, hP, he⟩ | ⟨path, hp, tp, ht, T, hT, hseg⟩)
    · exact ⟨_, List.mem_cons_self, hd2.2 s T hP seg he⟩
    · rw [f1, hsc] at hs'
      cases hs'
      exact ⟨_, List.mem_cons_of_mem _ List.mem_cons_self, hd3.2 s T hP seg he⟩
    · rw [f2] at hp
      obtain ⟨i, hi, rfl⟩ := List.getElem_of_mem (List.mem_flatten.2 ⟨path, hp, ht⟩)
      rw [List.forall₂_iff_get] at h4
      have hi' : i < fs.length := by rw [← h4.1]; exact hi
      have h5 := h4.2 i hi hi'
      simp only [List.get_eq_getElem] at h5
      obtain ⟨T', hT', hd⟩ := pointFrame_nominal.1 h5
      have h6 := (pointFrame_nominal (d := .frame (triad T 0.2))).2 ⟨T, hT, rfl⟩
      rw [h5] at h6
      have h6 := Except.ok.inj h6
      refine ⟨fs[i], List.mem_cons_of_mem _ (List.mem_cons_of_mem _ (List.getElem_mem hi')), .inl ?_⟩
      rw [h6]
      exact hseg

/-- **C83** as stated: after a scene or paths have been loaded, the axes show exactly the current
task. -/
def C83_statement : Prop :=
  ∀ (V C : Type) (_ : CostArith C) (_ : JointArith ℝ C) (pq : PQ C Config) (r : Robot Shape)
    (arm : Arm (RState × V) Shape) (conv : ℝ → ℝ) (wdir : String), Drawable r →
    (r.geometryBase = none ∨ r.tfBase = 1) → ArmKeeps r.links.length arm →
    ∀ (hit : Oracle Shape) (v : V) (evs : List Event) (ev : Event),
      ((∃ fs, ev = .loadScene fs) ∨ ∃ fs, ev = .loadPaths fs) →
      let x := callback pq r arm conv wdir ev (reached pq hit r arm conv wdir v [] evs)
      x.1 = .ok () → Shows r x.2 x.2.drawn

/-- A robot with one joint and no shapes. -/
def stick : Robot Shape := Robot.new [⟨⟨1, 0, 0, 0⟩, .r, ⟨[], []⟩⟩]

theorem stick_drawable : Drawable stick :=
  ⟨by simp [KnownTypes, stick, Robot.new], by simp [stick, Robot.new], by simp [stick, Robot.new]⟩

theorem stick_regular : Regular stick := ⟨stick_drawable.known, rfl, .inl rfl⟩

/-- Robots with a function as inverse kinematics meet the hypothesis on calls. -/
theorem pureArm_keeps (hit : Oracle Shape) (r : Robot Shape) (ik : M4 → Option (List Config)) :
    ArmKeeps r.links.length (pureArm hit r ik) :=
  ⟨fun _ _ h => h, fun _ _ _ h => h, fun q sc _ h => WF.isInCollision h q sc⟩

/-- **C83** is false: the box of a scene stays when an empty scene is loaded after it, because
`plot_setup` does not clear the axes. -/
theorem C83_refuted : ¬ C83_statement := by
  intro h
  let hit : Oracle Shape := fun _ _ => false
  let arm := pureArm hit stick fun _ => none
  let box : Collection Shape := ⟨[⟨1, 1, 1⟩], [1]⟩
  let fs (sc : Collection Shape) : Files := ⟨fun _ => .ok sc, fun _ => .ok []⟩
  let pq : PQ (WithTop ℝ) Config := stdHeap
  have h2 := h Unit (WithTop ℝ) realCost realJoint pq stick arm id "" stick_drawable
    (.inl rfl) (pureArm_keeps hit stick _) hit () [.loadScene (fs box)] (.loadScene (fs ⟨[], []⟩))
    (.inl ⟨_, rfl⟩)
  have hi0 : EditorInv stick (reached pq hit stick arm id "" () [] []) :=
    reached_inv pq hit stick_drawable.least (pureArm_keeps hit stick _) id "" () [] (by simp) []
  have hi1 : EditorInv stick (reached pq hit stick arm id "" () [] [.loadScene (fs box)]) :=
    reached_inv pq hit stick_drawable.least (pureArm_keeps hit stick _) id "" () [] (by simp) _
  set e0 : Editor Unit :=
    { reached pq hit stick arm id "" () [] [] with scene := some box } with he0
  have e1 : reached pq hit stick arm id "" () [] [.loadScene (fs box)] = (plotSetup stick e0).2 := rfl
  have ok1 : (plotSetup stick e0).1 = .ok () :=
    (plotSetup_iff stick_drawable e0 hi0.wf).2 ⟨by simp [he0], fun path hp => by cases hp⟩
  obtain ⟨n1, d1, s1⟩ := plotSetup_shows stick_drawable (.inl rfl) (e := e0) hi0.wf ok1
  set e := reached pq hit stick arm id "" () [] [.loadScene (fs box)] with he
  have hp : e.paths = [] := by rw [e1, (plotSetup_fields _ _).2.1]; rfl
  set e2 : Editor Unit := { e with scene := some ⟨[], []⟩ } with he2
  have hp2 : e2.paths = [] := hp
  have ok2 : (plotSetup stick e2).1 = .ok () :=
    (plotSetup_iff stick_drawable e2 hi1.wf).2 ⟨by simp [he2], fun path hp' => by
      rw [hp2] at hp'
      cases hp'⟩
  obtain ⟨n2, d2, -⟩ := plotSetup_shows stick_drawable (.inl rfl) (e := e2) hi1.wf ok2
  have h3 : Shows stick (plotSetup stick e2).2 (plotSetup stick e2).2.drawn := h2 ok2
  -- an edge of the box
  let seg : Seg := (act 1 (cornerPoint ⟨1, 1, 1⟩ fun _ => false),
    act 1 (cornerPoint ⟨1, 1, 1⟩ (Function.update (fun _ => false) 0 true)))
  have hedge : IsEdge ⟨1, 1, 1⟩ 1 seg := ⟨fun _ => false, 0, rfl⟩
  obtain ⟨d, hd, hdseg⟩ := s1.2 seg (.inr (.inl ⟨box, by rw [(plotSetup_fields _ _).1], _, 1,
    ⟨0, 1, rfl, rfl, by simp⟩, hedge⟩))
  have hmem : d ∈ (plotSetup stick e2).2.drawn := by
    rw [d2]
    refine List.mem_append_left _ ?_
    change d ∈ e.drawn
    rw [e1, d1]
    exact List.mem_append_right _ hd
  have hno : ∀ seg, ¬ Belongs stick (plotSetup stick e2).2 seg := by
    rintro seg (⟨s, T, hR, -⟩ | ⟨sc, hsc, s, T, ⟨i, t, h1, -⟩, -⟩ | ⟨path, hp', -⟩)
    · rcases hR with ⟨b, hb, -⟩ | ⟨k, l, hl, i, t, h1, -⟩ | ⟨t, ht, -⟩
      · cases hb
      · have : l ∈ stick.links := List.mem_of_getElem? hl
        simp only [stick, Robot.new, List.mem_singleton] at this
        subst this
        simp at h1
      · cases ht
    · rw [(plotSetup_fields _ _).1] at hsc
      cases hsc
      simp at h1
    · rw [(plotSetup_fields _ _).2.1, hp2] at hp'
      cases hp'
  rcases hdseg with hs | hs
  · exact hno _ (h3.1 d hmem _ hs)
  · exact hno _ (h3.1 d hmem _ hs)

/-- **C83**, partial: loading adds exactly the lines of the then current task to what is drawn, so
that the picture is right when nothing had been drawn; and "Show solution" clears the axes first, so
that its picture is right whatever happened before.  Missing: loading when something had been drawn,
for which the statement is false. -/
theorem C83_partial (pq : PQ C Config) (hit : Oracle Shape) {r : Robot Shape} (hr : Drawable r)
    (hb : r.geometryBase = none ∨ r.tfBase = 1) {arm : Arm (RState × V) Shape}
    (ha : ArmKeeps r.links.length arm) (conv : ℝ → ℝ) (wdir : String) (v : V)
    (history : List (Call Shape)) (hh : ∀ c ∈ history, c.robot.links = r.links) (evs : List Event)
    (e : Editor V) (he : e = reached pq hit r arm conv wdir v history evs) :
    (∀ ev, ((∃ fs, ev = .loadScene fs) ∨ ∃ fs, ev = .loadPaths fs) →
      (callback pq r arm conv wdir ev e).1 = .ok () →
      ∃ new, (callback pq r arm conv wdir ev e).2.drawn = e.drawn ++ new ∧
        Shows r (callback pq r arm conv wdir ev e).2 new ∧
        (e.drawn = [] → Shows r (callback pq r arm conv wdir ev e).2
          (callback pq r arm conv wdir ev e).2.drawn)) ∧
    (∀ p, e.currentSolution = some p → (callback pq r arm conv wdir .showPath e).1 = .ok () →
      ∃ new, (callback pq r arm conv wdir .showPath e).2.drawn = new ++ [.animation p] ∧
        Shows r (callback pq r arm conv wdir .showPath e).2 new) := by
  have hi := reached_inv pq hit hr.least ha conv wdir v history hh evs
  rw [← he] at hi
  have fin : ∀ e' : Editor V, WF r.links.length e'.rob.1 → e'.drawn = e.drawn →
      (plotSetup r e').1 = .ok () → ∃ new, (plotSetup r e').2.drawn = e.drawn ++ new ∧
        Shows r (plotSetup r e').2 new ∧
        (e.drawn = [] → Shows r (plotSetup r e').2 (plotSetup r e').2.drawn) := by
    intro e' hw hd hok
    obtain ⟨new, h1, h2⟩ := plotSetup_shows hr hb hw hok
    rw [hd] at h1
    exact ⟨new, h1, h2, fun h0 => by rw [h1, h0, List.nil_append]; exact h2⟩
  constructor
  · rintro ev (⟨fs, rfl⟩ | ⟨fs, rfl⟩) hok
    · simp only [callback, loadScene] at hok ⊢
      cases hf : fs.scenes (wdir ++ "/" ++ e.filename) with
      | error err => rw [hf] at hok; cases hok
      | ok sc =>
        simp only [hf] at hok ⊢
        exact fin { e with scene := some sc } hi.wf rfl hok
    · simp only [callback, loadPaths] at hok ⊢
      cases hf : fs.paths (wdir ++ "/" ++ e.pathsFilename) with
      | error err => rw [hf] at hok; cases hok
      | ok ps =>
        cases ps with
        | nil => rw [hf] at hok; cases hok
        | cons p ps =>
          simp only [hf] at hok ⊢
          exact fin { e with paths := p :: ps, path := p } hi.wf rfl hok
  · intro p hp hok
    simp only [callback, showPath, hp] at hok ⊢
    cases hx : (plotSetup r { e with drawn := [], currentSolution := some p }).1 with
    | error err => rw [hx] at hok; cases hok
    | ok u =>
      simp only
      obtain ⟨new, h1, h2⟩ := plotSetup_shows hr hb
        (e := { e with drawn := [], currentSolution := some p }) hi.wf hx
      rw [List.nil_append] at h1
      refine ⟨new, by rw [h1], ?_⟩
      exact h2

/-! ## C84 -/

/-- Whatever the robot: a planner call that succeeds gives one column of float32 values per point. -/
theorem column_float32 {conv : ℝ → ℝ} {rows : List Config} {c : PyCol ℝ} (h : column conv rows = .ok c) :
    Float32Col c := by
  unfold column at h
  split at h
  · unfold vstack at h
    split at h
    · cases h
    · split at h
      · cases h; trivial
      · cases h
  · cases h; trivial

theorem yields_true {W α : Type} (x : Run W α) : Yields (fun _ => True) x fun _ => True :=
  fun _ _ _ _ _ => ⟨trivial, trivial⟩

theorem noRedundancy_columns {W S : Type} (arm : Arm W S) (sc : Collection S) (conv : ℝ → ℝ)
    (draws : Nat → Draws) (k : Nat) (path : List PathPt) (i : Nat) (Q : List (PyCol ℝ))
    (hQ : ∀ c ∈ Q, Float32Col c) :
    Yields (fun _ => True) (noRedundancyLoop arm sc conv draws k i path Q)
      fun Q' => Q'.length = Q.length + path.length ∧ ∀ c ∈ Q', Float32Col c := by
  induction path generalizing i Q with
  | nil => exact Yields.pure ⟨by simp, hQ⟩
  | cons tp path ih =>
    refine Yields.bind (yields_true _) fun s _ => Yields.bind (yields_true _) fun q _ => ?_
    refine Yields.bind (P := Float32Col) (Yields.lift fun c hc => column_float32 hc) fun c hc => ?_
    refine (ih _ _ ?_).mono fun Q' h => ⟨by rw [h.1]; simp; omega, h.2⟩
    intro c' hc'
    rcases List.mem_append.1 hc' with hc' | hc'
    · exact hQ c' hc'
    · rw [List.mem_singleton.1 hc']; exact hc

theorem simpleLoop_columns {W S : Type} (arm : Arm W S) (sc : Collection S) (conv : ℝ → ℝ)
    (draws : Nat → Draws) (qfs : List Config) (path : List PathPt) (i : Nat)
    (o : Option (List Config)) (Q : List (PyCol ℝ)) (hQ : ∀ c ∈ Q, Float32Col c) :
    Yields (fun _ => True) (simpleLoop arm sc conv draws qfs i path o Q)
      fun Q' => Q'.length = Q.length + path.length ∧ ∀ c ∈ Q', Float32Col c := by
  induction path generalizing i o Q with
  | nil => exact Yields.pure ⟨by simp, hQ⟩
  | cons tp path ih =>
    refine Yields.bind (yields_true _) fun s _ => Yields.bind (yields_true _) fun q _ => ?_
    cases q with
    | none => exact Yields.raise _ _
    | some q =>
      refine Yields.bind (P := Float32Col) (Yields.lift fun c hc => column_float32 hc) fun c hc => ?_
      refine (ih _ _ _ ?_).mono fun Q' h => ⟨by rw [h.1]; simp; omega, h.2⟩
      intro c' hc'
      rcases List.mem_append.1 hc' with hc' | hc'
      · exact hQ c' hc'
      · rw [List.mem_singleton.1 hc']; exact hc

theorem planQ_columns (r : Robot Shape) (arm : Arm (RState × V) Shape) (conv : ℝ → ℝ)
    (draws : Nat → Draws) (path : List PathPt) (scene : Option (Collection Shape)) :
    Yields (fun _ => True) (planQ r arm conv draws path scene)
      fun Q => Q.length = path.length ∧ ∀ c ∈ Q, Float32Col c := by
  unfold planQ
  simp only
  split
  · exact (simpleLoop_columns _ _ _ _ _ _ _ _ _ (by simp)).mono fun Q h => ⟨by simpa using h.1, h.2⟩
  · exact (noRedundancy_columns _ _ _ _ _ _ _ _ (by simp)).mono fun Q h => ⟨by simpa using h.1, h.2⟩

/-- `result["path"]` is there only on success. -/
theorem getShortestPath_path {F : Type} {C : Type} [CostArith C] [JointArith F C]
    {pq : PQ C (List F)} {conv : F → F} {Q : List (PyCol F)}
    {m : ShortestPath.Method} {weights : Option (List F)} {res : PlanRes F C} {p : List (List F)}
    (h : getShortestPath pq conv Q m weights = .ok res) (hp : res.path = some p) :
    res.success = true := by
  unfold getShortestPath at h
  obtain ⟨_, _, h⟩ := bind_ok h
  obtain ⟨og, _, h⟩ := bind_ok h
  cases og with
  | none => cases h; cases hp
  | some g =>
    obtain ⟨g1, _, h⟩ := bind_ok h
    cases m
    case other => cases h
    all_goals
      obtain ⟨g2, _, h⟩ := bind_ok h
      obtain ⟨_, _, h⟩ := bind_ok h
      obtain ⟨opi, hpi, h⟩ := bind_ok h
      cases opi with
      | none => cases h
      | some pi =>
        obtain ⟨p0, _, h⟩ := bind_ok h
        split at h
        · cases h; cases hp
        · obtain ⟨res, hres, h⟩ := bind_ok h
          cases h
          rfl

/-- **C84** as stated: a solution that is there has one configuration per point of the current path. -/
def C84_statement : Prop :=
  ∀ (V C : Type) (_ : CostArith C) (_ : JointArith ℝ C) (pq : PQ C Config) (r : Robot Shape)
    (arm : Arm (RState × V) Shape) (conv : ℝ → ℝ) (wdir : String), Drawable r →
    ArmKeeps r.links.length arm →
    ∀ (hit : Oracle Shape) (v : V) (evs : List Event) (p : List Config),
      (reached pq hit r arm conv wdir v [] evs).currentSolution = some p →
      p.length = (reached pq hit r arm conv wdir v [] evs).path.length

/-- **C84**, any robot and any state: right after a successful "Plan" there is a solution, with one
configuration per point of the current path, and path and scene are unchanged. -/
theorem C84_length_partial (pq : PQ C Config) (r : Robot Shape) (arm : Arm (RState × V) Shape)
    (conv : ℝ → ℝ) (wdir : String) (d : Nat → Draws) (e : Editor V)
    (hok : (callback pq r arm conv wdir (.plan d) e).1 = .ok ()) :
    ∃ p, (callback pq r arm conv wdir (.plan d) e).2.currentSolution = some p ∧
      p.length = e.path.length ∧ (callback pq r arm conv wdir (.plan d) e).2.path = e.path ∧
      (callback pq r arm conv wdir (.plan d) e).2.scene = e.scene := by
  simp only [callback] at hok ⊢
  obtain ⟨Q, res, p, hQ, hg, hp⟩ := (plan_iff pq r arm conv d e).1 hok
  obtain ⟨f1, f2, -, -, f5⟩ := plan_state pq r arm conv d e
  have hcols := (planQ_columns r arm conv d e.path e.scene e.rob trivial Q _ (Prod.ext hQ rfl)).1
  obtain ⟨p', c, rfl, hsel⟩ := getShortestPath_selection hcols.2 hg (getShortestPath_path hg hp)
  cases hp
  refine ⟨p, ?_, ?_, f2, f1⟩
  · unfold plan
    simp only [Editor.log, hQ, hg]
  · rw [(selection_get hsel).1, List.length_map, hcols.1]

/-- **C84**, partial: for a robot with at most six joints, right after a successful "Plan" every
configuration of the solution is the float32 rounding of an inverse kinematics solution for a sample of
the point of the current path, free of collisions with the current scene.  Missing: later states, for
which the statement is false, and robots with a redundant joint (`C84_length_partial`). -/
theorem C84_partial {pq : PQ C Config} {r : Robot Shape} (h6 : r.links.length ≤ 6)
    {arm : Arm (RState × V) Shape} {sc : Collection Shape} {Inv : RState × V → Prop}
    {ikf : M4 → Option (List Config)} {hit : Config → Bool} {n : Nat}
    (h : Determined arm sc Inv ikf hit n) (conv : ℝ → ℝ) (wdir : String) (d : Nat → Draws)
    {e : Editor V} (he : e.scene = some sc) (hI : Inv e.rob)
    (hok : (callback pq r arm conv wdir (.plan d) e).1 = .ok ()) :
    ∃ p, (callback pq r arm conv wdir (.plan d) e).2.currentSolution = some p ∧
      p.length = e.path.length ∧
      ∀ (i : Nat) (q : Config), p[i]? = some q → ∃ tp Ts q', e.path[i]? = some tp ∧
        getSamples (d i) 1000 none tp = .ok Ts ∧ q = q'.map conv ∧ hit q' = false ∧
        ∃ T ∈ Ts, ∃ sols, ikf T = some sols ∧ q' ∈ sols := by
  simp only [callback] at hok ⊢
  obtain ⟨Q, res, p, hQ, hg, hp⟩ := (plan_iff pq r arm conv d e).1 hok
  have hcols := (planQ_columns r arm conv d e.path e.scene e.rob trivial Q _ (Prod.ext hQ rfl)).1
  obtain ⟨p', c, rfl, hsel⟩ := getShortestPath_selection hcols.2 hg (getShortestPath_path hg hp)
  cases hp
  have hq2 : (noRedundancyLoop arm sc conv d 1000 0 e.path [] e.rob).1 = .ok Q := by
    rw [← hQ, he]
    unfold planQ
    rw [if_neg (by omega)]
    rfl
  obtain ⟨samples, hsa, hQs⟩ := (noRedundancy_yields h conv d 1000 e.path 0 [] e.rob hI Q _
    (Prod.ext hq2 rfl)).1
  simp only [Nat.zero_add] at hsa
  rw [List.nil_append] at hQs
  subst hQs
  obtain ⟨hlen, hget⟩ := selection_get hsel
  refine ⟨p, ?_, by rw [hlen, List.length_map, hcols.1], fun i q hq => ?_⟩
  · unfold plan
    simp only [Editor.log, hQ, hg]
  · obtain ⟨col, hc, hm⟩ := hget i q hq
    rw [List.map_map, List.getElem?_map, Option.map_eq_some_iff] at hc
    obtain ⟨Ts, hTs, rfl⟩ := hc
    simp only [Function.comp, colOf_rows] at hm
    obtain ⟨q', hq', rfl⟩ := List.mem_map.1 hm
    obtain ⟨T, hT, sols, h1, h2, h3⟩ := mem_free.1 hq'
    have hi : i < e.path.length := by
      rw [← hsa.1]
      exact (List.getElem?_eq_some_iff.1 hTs).1
    exact ⟨_, Ts, q', List.getElem?_eq_getElem hi, hsa.2 i _ Ts (List.getElem?_eq_getElem hi) hTs,
      rfl, h3, T, hT, sols, h1, h2⟩

/-- "Plan" does succeed, for a robot with at most six joints, when a path has been loaded and every
point has a sample with a solution free of collisions. -/
theorem plan_succeeds {pq : PQ C Config} (hl : Lawful pq) (hno : PyGraph.NoOverflow C)
    (hfin : ∀ (w : List ℝ) (x y : Config), stepCost C w x y < ⊤)
    {r : Robot Shape} (h6 : r.links.length ≤ 6) {arm : Arm (RState × V) Shape}
    {sc : Collection Shape} {Inv : RState × V → Prop} {ikf : M4 → Option (List Config)}
    {hit : Config → Bool} {n : Nat} (h : Determined arm sc Inv ikf hit n) (conv : ℝ → ℝ)
    (d : Nat → Draws) {e : Editor V} (he : e.scene = some sc) (hI : Inv e.rob) (hne : e.path ≠ [])
    {samples : List (List M4)} (hs : SamplesOf d 1000 e.path samples)
    (hex : ∀ Ts ∈ samples, ∃ T ∈ Ts, ∃ sols, ikf T = some sols ∧ ∃ q ∈ sols, hit q = false) :
    Plans pq r arm conv d e := by
  set Q := samples.map fun Ts => colOf conv n (free ikf hit Ts) with hQ
  have hcol : ∀ c ∈ Q, ∃ rows, c = .arr true n rows ∧ rows ≠ [] ∧ ∀ x ∈ rows, x.length = n := by
    intro c hc
    obtain ⟨Ts, hTs, rfl⟩ := List.mem_map.1 hc
    obtain ⟨T, hT, sols, h1, q, h2, h3⟩ := hex Ts hTs
    have hf : free ikf hit Ts ≠ [] :=
      List.ne_nil_of_mem (mem_free.2 ⟨T, hT, sols, h1, h2, h3⟩)
    refine ⟨_, by rw [colOf, if_neg hf], by simpa using hf, fun x hx => ?_⟩
    obtain ⟨q', hq', rfl⟩ := List.mem_map.1 hx
    rw [List.length_map]
    exact free_dof h q' hq'
  have hin : InputOK n Q := by
    refine ⟨?_, fun c hc => ?_, fun _ c hc => ?_⟩
    · intro he
      have : samples = [] := by simpa [hQ] using he
      have h0 := hs.1
      rw [this] at h0
      exact hne (List.length_eq_zero_iff.1 h0.symm)
    · obtain ⟨rows, rfl, h1, h2⟩ := hcol c hc
      exact ⟨rfl, h1, h2⟩
    · obtain ⟨rows, rfl, h1, h2⟩ := hcol c hc
      rfl
  obtain ⟨p, c, h1, -, -⟩ := C11_dijkstra_sound hno pq hl conv n Q hin (some [1, 1, 1, 1, 1, 1, 1])
    _ rfl (fun x _ y _ => hfin _ x y)
  have hr := noRedundancyLoop_returns h conv d 1000 e.path samples 0 (by simpa using hs) []
  rw [List.nil_append] at hr
  obtain ⟨w, hw, -⟩ := hr e.rob hI
  refine ⟨Q, _, p, ?_, h1, rfl⟩
  rw [he]
  unfold planQ
  rw [if_neg (by omega)]
  exact (congrArg Prod.fst hw)

theorem touches_false (r : Robot Shape) (sc : Collection Shape) (q : Config) :
    touches (fun _ _ => false) r sc q = false := by
  simp only [touches, decide_eq_false_iff_not]
  have no : ∀ c d A B, ¬ Touch (fun _ _ => false) (c : Collection Shape) A d B := by
    rintro c d A B ⟨i, j, s, s', t, t', -, -, -, -, h⟩
    cases h
  rintro ((⟨_, -, h⟩ | ⟨_, _, -, h⟩ | ⟨_, -, h⟩) | ⟨-, ⟨_, _, _, _, -, -, -, h⟩ |
    ⟨_, _, _, -, -, -, h⟩⟩) <;> exact no _ _ _ _ h

/-- **C84** is false: a solution found for a path of one point is still there after a path of two
points has been loaded. -/
theorem C84_refuted : ¬ C84_statement := by
  intro h
  obtain ⟨pt, hnew, hpt⟩ := fixedPoint 0 0
  let hit : Oracle Shape := fun _ _ => false
  let ik : M4 → Option (List Config) := fun _ => some [[0]]
  let arm := pureArm hit stick ik
  let sc : Collection Shape := ⟨[], []⟩
  let pq : PQ (WithTop ℝ) Config := stdHeap
  let dr : Nat → Draws := fun _ => ⟨fun n => n, 0, fun _ => (0, 0, 0), none⟩
  let f1 : Files := ⟨fun _ => .ok sc, fun _ => .ok [[.euler pt]]⟩
  let f2 : Files := ⟨fun _ => .ok sc, fun _ => .ok [[.euler pt, .euler pt]]⟩
  let evs : List Event := [.loadScene f1, .loadPaths f1]
  have hk := pureArm_keeps hit stick ik
  have hi := reached_inv pq hit stick_drawable.least hk id "" () [] (by simp) evs
  set e := reached pq hit stick arm id "" () [] evs with he
  have hscene : e.scene = some sc := by
    rw [he, show reached pq hit stick arm id "" () [] evs = (plotSetup stick _).2 from rfl,
      (plotSetup_fields _ _).1]
    exact (plotSetup_fields stick { Editor.new (after hit stick.links [], ()) with scene := some sc }).1
  have hpath : e.path = [.euler pt] := by
    rw [he, show reached pq hit stick arm id "" () [] evs = (plotSetup stick _).2 from rfl,
      (plotSetup_fields _ _).2.2.1]
  have hplans : Plans pq stick arm id dr e :=
    plan_succeeds stdHeapLawful noOverflow_real stepCost_real (by simp [stick, Robot.new])
      (pureArm_determined hit stick_regular ik (fun T sols hs q hq => by
        cases hs
        rw [List.mem_singleton.1 hq]; rfl) sc) id dr hscene ⟨hi.wf, trivial⟩ (by simp [hpath])
      (samples := [[mkTf (Rxyz 0) 0]]) ⟨by simp [hpath], fun i tp Ts h1 h2 => by
        rw [hpath] at h1
        cases i with
        | zero => cases h1; cases h2; exact hpt _ _ _
        | succ i => simp at h1⟩ (fun Ts hTs => by
        rw [List.mem_singleton.1 hTs]
        refine ⟨_, List.mem_singleton.2 rfl, _, rfl, [0], List.mem_singleton.2 rfl, ?_⟩
        exact touches_false _ _ _)
  obtain ⟨p, hp, hlen, -, -⟩ := C84_length_partial pq stick arm id "" dr e
    ((plan_iff pq stick arm id dr e).2 hplans)
  have h2 := h Unit (WithTop ℝ) realCost realJoint pq stick arm id "" stick_drawable hk hit ()
    (evs ++ [.plan dr, .loadPaths f2]) p
  have e2 : reached pq hit stick arm id "" () [] (evs ++ [.plan dr, .loadPaths f2]) =
      (plotSetup stick { (callback pq stick arm id "" (.plan dr) e).2 with
        paths := [[.euler pt, .euler pt]], path := [.euler pt, .euler pt] }).2 := rfl
  rw [e2, (plotSetup_fields _ _).2.2.1, (plotSetup_fields _ _).2.2.2] at h2
  have h3 := h2 hp
  rw [hlen, hpath] at h3
  simp at h3

/-- The hypotheses of C72, C83 and C84 can be met together, and all callbacks can succeed: a scene with
a box, then a path, planning, and showing the solution. -/
example : ∃ (pt : TolEulerPt) (e : Editor Unit) (p : List Config) (new : List Drawing),
    let hit : Oracle Shape := fun _ _ => false
    let arm := pureArm hit stick fun _ => some [[0]]
    let pq : PQ (WithTop ℝ) Config := stdHeap
    let dr : Nat → Draws := fun _ => ⟨fun n => n, 0, fun _ => (0, 0, 0), none⟩
    let fs : Files := ⟨fun _ => .ok ⟨[⟨1, 1, 1⟩], [1]⟩, fun _ => .ok [[.euler pt]]⟩
    e = reached pq hit stick arm id "" () [] [.loadScene fs, .loadPaths fs, .plan dr] ∧
    (callback pq stick arm id "" .showPath e).1 = .ok () ∧
    (callback pq stick arm id "" .showPath e).2.drawn = new ++ [.animation p] ∧
    p.length = 1 ∧ Shows stick (callback pq stick arm id "" .showPath e).2 new := by
  obtain ⟨pt, hnew, hpt⟩ := fixedPoint 0 0
  let hit : Oracle Shape := fun _ _ => false
  let ik : M4 → Option (List Config) := fun _ => some [[0]]
  let arm := pureArm hit stick ik
  let sc : Collection Shape := ⟨[⟨1, 1, 1⟩], [1]⟩
  let pq : PQ (WithTop ℝ) Config := stdHeap
  let dr : Nat → Draws := fun _ => ⟨fun n => n, 0, fun _ => (0, 0, 0), none⟩
  let f1 : Files := ⟨fun _ => .ok sc, fun _ => .ok [[.euler pt]]⟩
  let evs : List Event := [.loadScene f1, .loadPaths f1]
  have hk := pureArm_keeps hit stick ik
  have hi := reached_inv pq hit stick_drawable.least hk id "" () [] (by simp) evs
  set e := reached pq hit stick arm id "" () [] evs with he
  have hscene : e.scene = some sc := by
    rw [he, show reached pq hit stick arm id "" () [] evs = (plotSetup stick _).2 from rfl,
      (plotSetup_fields _ _).1]
    exact (plotSetup_fields stick { Editor.new (after hit stick.links [], ()) with scene := some sc }).1
  have hpath : e.path = [.euler pt] := by
    rw [he, show reached pq hit stick arm id "" () [] evs = (plotSetup stick _).2 from rfl,
      (plotSetup_fields _ _).2.2.1]
  have hpaths : e.paths = [[.euler pt]] := by
    rw [he, show reached pq hit stick arm id "" () [] evs = (plotSetup stick _).2 from rfl,
      (plotSetup_fields _ _).2.1]
  have hplans : Plans pq stick arm id dr e :=
    plan_succeeds stdHeapLawful noOverflow_real stepCost_real (by simp [stick, Robot.new])
      (pureArm_determined hit stick_regular ik (fun T sols hs q hq => by
        cases hs
        rw [List.mem_singleton.1 hq]; rfl) sc) id dr hscene ⟨hi.wf, trivial⟩ (by simp [hpath])
      (samples := [[mkTf (Rxyz 0) 0]]) ⟨by simp [hpath], fun i tp Ts h1 h2 => by
        rw [hpath] at h1
        cases i with
        | zero => cases h1; cases h2; exact hpt _ _ _
        | succ i => simp at h1⟩ (fun Ts hTs => by
        rw [List.mem_singleton.1 hTs]
        refine ⟨_, List.mem_singleton.2 rfl, _, rfl, [0], List.mem_singleton.2 rfl, ?_⟩
        exact touches_false _ _ _)
  obtain ⟨p, hp, hlen, -, -⟩ := C84_length_partial pq stick arm id "" dr e
    ((plan_iff pq stick arm id dr e).2 hplans)
  have hlast : reached pq hit stick arm id "" () [] [.loadScene f1, .loadPaths f1, .plan dr] =
      (callback pq stick arm id "" (.plan dr) e).2 := rfl
  have hps : (callback pq stick arm id "" (.plan dr) e).2.paths = [[.euler pt]] := by
    rw [← hpaths]
    exact (plan_state pq stick arm id dr e).2.2.1
  have hok : (callback pq stick arm id "" .showPath (callback pq stick arm id "" (.plan dr) e).2).1 =
      .ok () := by
    rw [← hlast, C72_partial pq hit stick_drawable hk id "" () [] (by simp) _ .showPath, hlast]
    refine .inr fun path hp tp ht => ?_
    rw [hps, List.mem_singleton] at hp
    subst hp
    rw [List.mem_singleton] at ht
    subst ht
    cases hnew
    simp [HasFrame]
  obtain ⟨new, h1, h2⟩ := (C83_partial pq hit stick_drawable (.inl rfl) hk id "" () [] (by simp)
    [.loadScene f1, .loadPaths f1, .plan dr] _ hlast.symm).2 p hp hok
  exact ⟨pt, _, p, new, rfl, hok, h1, by rw [hlen, hpath]; rfl, h2⟩

end

end Verif.Props
