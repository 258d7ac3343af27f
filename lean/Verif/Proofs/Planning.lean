import Verif.Model.Planning
import Verif.Proofs.Path

/-! # Lemmas about the planners: calls with a determined answer -/

set_option linter.unusedSectionVars false

namespace Verif.Planning

open Verif.Path Verif.Geometry Verif.Kin Verif.ShortestPath Verif.Task Verif.CppGraph Verif.Search

noncomputable section

variable {W α β S : Type}

/-- From every state with `Inv` the call returns `a` and keeps `Inv`. -/
def Returns (Inv : W → Prop) (x : Run W α) (a : α) : Prop :=
  ∀ w, Inv w → ∃ w', x w = (.ok a, w') ∧ Inv w'

/-- From every state with `Inv` the call raises `e` (or hits the C++ fault `e`). -/
def Raises (Inv : W → Prop) (x : Run W α) (e : Err) : Prop :=
  ∀ w, Inv w → ∃ w', x w = (.error e, w')

variable {Inv : W → Prop}

theorem Returns.pure (a : α) : Returns Inv (Pure.pure a : Run W α) a :=
  fun w h => ⟨w, rfl, h⟩

theorem Returns.lift {x : Except Err α} {a : α} (h : x = .ok a) :
    Returns Inv (Run.lift x : Run W α) a := fun w hw => ⟨w, by rw [h]; rfl, hw⟩

theorem Returns.bind {x : Run W α} {f : α → Run W β} {a : α} {b : β} (hx : Returns Inv x a)
    (hf : Returns Inv (f a) b) : Returns Inv (x >>= f) b := by
  intro w hw
  obtain ⟨w1, h1, hw1⟩ := hx w hw
  obtain ⟨w2, h2, hw2⟩ := hf w1 hw1
  refine ⟨w2, ?_, hw2⟩
  show Run.bind x f w = _
  rw [Run.bind, h1]
  exact h2

theorem Raises.raise (e : PyErr) : Raises Inv (raise e : Run W α) (.py e) :=
  fun w _ => ⟨w, rfl⟩

theorem Raises.lift {x : Except Err α} {e : Err} (h : x = .error e) :
    Raises Inv (Run.lift x : Run W α) e := fun w _ => ⟨w, by rw [h]; rfl⟩

theorem Raises.bind {x : Run W α} {f : α → Run W β} {e : Err} (hx : Raises Inv x e) :
    Raises Inv (x >>= f) e := by
  intro w hw
  obtain ⟨w1, h1⟩ := hx w hw
  refine ⟨w1, ?_⟩
  show Run.bind x f w = _
  rw [Run.bind, h1]

theorem Returns.bind_raises {x : Run W α} {f : α → Run W β} {a : α} {e : Err}
    (hx : Returns Inv x a) (hf : Raises Inv (f a) e) : Raises Inv (x >>= f) e := by
  intro w hw
  obtain ⟨w1, h1, hw1⟩ := hx w hw
  obtain ⟨w2, h2⟩ := hf w1 hw1
  refine ⟨w2, ?_⟩
  show Run.bind x f w = _
  rw [Run.bind, h1]
  exact h2

theorem Returns.unique {x : Run W α} {a b : α} {w : W} (hw : Inv w) (h1 : Returns Inv x a)
    (h2 : Returns Inv x b) : a = b := by
  obtain ⟨w1, e1, _⟩ := h1 w hw
  obtain ⟨w2, e2, _⟩ := h2 w hw
  rw [e1] at e2
  exact Except.ok.inj (Prod.ext_iff.1 e2).1

theorem Returns.not_raises {x : Run W α} {a : α} {e : Err} {w : W} (hw : Inv w)
    (h1 : Returns Inv x a) (h2 : Raises Inv x e) : False := by
  obtain ⟨w1, e1, _⟩ := h1 w hw
  obtain ⟨w2, e2⟩ := h2 w hw
  rw [e1] at e2
  exact absurd (Prod.ext_iff.1 e2).1 (by simp)

/-- A robot whose answers do not depend on its state: `ikf` and `hit` are the answers of inverse
kinematics and of the collision check with `scene`, all configurations have `d` joints. -/
structure Determined (arm : Arm W S) (scene : Collection S) (Inv : W → Prop)
    (ikf : M4 → Option (List Config)) (hit : Config → Bool) (d : Nat) : Prop where
  ik : ∀ T, Returns Inv (arm.ik T) (ikf T)
  dof : ∀ T sols, ikf T = some sols → ∀ q ∈ sols, q.length = d
  col : ∀ q, q.length = d → Returns Inv (arm.isInCollision q scene) (hit q)

/-- The solutions of one pose that are not in collision, in order. -/
def freeAt (ikf : M4 → Option (List Config)) (hit : Config → Bool) (T : M4) : List Config :=
  ((ikf T).getD []).filter fun q => !hit q

/-- The solutions of a list of poses that are not in collision, in order. -/
def free (ikf : M4 → Option (List Config)) (hit : Config → Bool) (Ts : List M4) : List Config :=
  Ts.flatMap (freeAt ikf hit)

theorem mem_free {ikf : M4 → Option (List Config)} {hit : Config → Bool} {Ts : List M4}
    {q : Config} : q ∈ free ikf hit Ts ↔
      ∃ T ∈ Ts, ∃ sols, ikf T = some sols ∧ q ∈ sols ∧ hit q = false := by
  unfold free freeAt
  simp only [List.mem_flatMap, List.mem_filter, Bool.not_eq_true']
  constructor
  · rintro ⟨T, hT, hq, hh⟩
    cases h : ikf T with
    | none => rw [h] at hq; simp at hq
    | some sols => rw [h] at hq; exact ⟨T, hT, sols, h, hq, hh⟩
  · rintro ⟨T, hT, sols, h, hq, hh⟩
    exact ⟨T, hT, by rw [h]; exact hq, hh⟩

section

variable {arm : Arm W S} {scene : Collection S} {ikf : M4 → Option (List Config)}
  {hit : Config → Bool} {d : Nat}

theorem free_dof (h : Determined arm scene Inv ikf hit d) {Ts : List M4} :
    ∀ q ∈ free ikf hit Ts, q.length = d := by
  intro q hq
  obtain ⟨T, _, sols, h1, h2, _⟩ := mem_free.1 hq
  exact h.dof T sols h1 q h2

theorem keepFree_returns (hc : ∀ q, q.length = d → Returns Inv (arm.isInCollision q scene) (hit q))
    (qs : List Config) (hd : ∀ q ∈ qs, q.length = d) (acc : List Config) :
    Returns Inv (keepFree arm scene qs acc) (acc ++ qs.filter fun q => !hit q) := by
  induction qs generalizing acc with
  | nil => simpa [keepFree] using Returns.pure (Inv := Inv) acc
  | cons q qs ih =>
    unfold keepFree
    refine Returns.bind (hc q (hd q (by simp))) ?_
    have hd' : ∀ q ∈ qs, q.length = d := fun x hx => hd x (List.mem_cons_of_mem _ hx)
    cases hh : hit q with
    | true => simpa [hh] using ih hd' acc
    | false => simpa [hh, List.append_assoc] using ih hd' (acc ++ [q])

theorem samplesLoop_returns (h : Determined arm scene Inv ikf hit d) (Ts : List M4)
    (acc : List Config) :
    Returns Inv (samplesLoop arm scene Ts acc) (acc ++ free ikf hit Ts) := by
  induction Ts generalizing acc with
  | nil => simpa [samplesLoop, free] using Returns.pure (Inv := Inv) acc
  | cons T Ts ih =>
    unfold samplesLoop
    refine Returns.bind (h.ik T) ?_
    cases hT : ikf T with
    | none =>
      have : free ikf hit (T :: Ts) = free ikf hit Ts := by simp [free, freeAt, hT]
      rw [this]
      exact ih acc
    | some sols =>
      have : acc ++ free ikf hit (T :: Ts) =
          (acc ++ sols.filter fun q => !hit q) ++ free ikf hit Ts := by
        simp [free, freeAt, hT]
      rw [this]
      exact Returns.bind (keepFree_returns h.col sols (h.dof T sols hT) acc) (ih _)

theorem jointLoop_returns (h : Determined arm scene Inv ikf hit d) (Ts : List M4)
    (acc : List Config) :
    Returns Inv (jointLoop arm (some scene) Ts acc) (acc ++ free ikf hit Ts) := by
  induction Ts generalizing acc with
  | nil => simpa [jointLoop, free] using Returns.pure (Inv := Inv) acc
  | cons T Ts ih =>
    unfold jointLoop
    refine Returns.bind (h.ik T) ?_
    cases hT : ikf T with
    | none =>
      have : free ikf hit (T :: Ts) = free ikf hit Ts := by simp [free, freeAt, hT]
      rw [this]
      exact ih acc
    | some sols =>
      have : acc ++ free ikf hit (T :: Ts) =
          (acc ++ sols.filter fun q => !hit q) ++ free ikf hit Ts := by
        simp [free, freeAt, hT]
      rw [this]
      exact Returns.bind (keepFree_returns h.col sols (h.dof T sols hT) acc) (ih _)

end

/-- The entry of `Q` for a list of configurations. -/
def colOf (conv : ℝ → ℝ) (d : Nat) (rows : List Config) : PyCol ℝ :=
  if rows = [] then .emptyList else .arr true d (rows.map (List.map conv))

theorem vstack_ok (conv : ℝ → ℝ) {d : Nat} {rows : List Config} (hne : rows ≠ [])
    (hd : ∀ q ∈ rows, q.length = d) :
    vstack conv rows = .ok (.arr true d (rows.map (List.map conv))) := by
  cases rows with
  | nil => exact absurd rfl hne
  | cons r rs =>
    have hr := hd r (by simp)
    refine (if_pos ?_).trans ?_
    · intro x hx
      rw [hr]
      exact hd x (List.mem_cons_of_mem _ hx)
    · rw [hr]

theorem column_ok (conv : ℝ → ℝ) {d : Nat} {rows : List Config} (hd : ∀ q ∈ rows, q.length = d) :
    column conv rows = .ok (colOf conv d rows) := by
  unfold column colOf
  by_cases h : rows = []
  · subst h; rfl
  · rw [if_pos (List.length_pos_iff.2 h), if_neg h]
    exact vstack_ok conv h hd

theorem colOf_rows (conv : ℝ → ℝ) (d : Nat) (rows : List Config) :
    (colOf conv d rows).rows = rows.map (List.map conv) := by
  unfold colOf
  split
  · next h => subst h; rfl
  · rfl

theorem colOf_empty (conv : ℝ → ℝ) (d : Nat) (rows : List Config) :
    colOf conv d rows = .emptyList ↔ rows = [] := by
  unfold colOf
  split <;> simp_all

end

end Verif.Planning
