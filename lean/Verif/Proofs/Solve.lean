import Verif.Proofs.Planning
import Verif.Props.ShortestPath

/-! # Lemmas for the planners that end with the graph search -/

set_option linter.unusedSectionVars false

namespace Verif.Planning

open Verif.Path Verif.Geometry Verif.Kin Verif.ShortestPath Verif.Task Verif.CppGraph Verif.Search
  Verif.Spec

noncomputable section

variable {W α β S : Type}

/-- Whatever the call returns has `P` (and the robot keeps `Inv`); it may raise. -/
def Yields (Inv : W → Prop) (x : Run W α) (P : α → Prop) : Prop :=
  ∀ w, Inv w → ∀ a w', x w = (.ok a, w') → P a ∧ Inv w'

variable {Inv : W → Prop}

theorem Yields.pure {a : α} {P : α → Prop} (h : P a) : Yields Inv (Pure.pure a : Run W α) P := by
  intro w hw a' w' he
  have he : ((Except.ok a : Except Err α), w) = (.ok a', w') := he
  cases he
  exact ⟨h, hw⟩

theorem Yields.raise (e : PyErr) (P : α → Prop) : Yields Inv (raise e : Run W α) P := by
  intro w hw a' w' he
  have he : ((Except.error (.py e) : Except Err α), w) = (.ok a', w') := he
  cases he

theorem Yields.lift {x : Except Err α} {P : α → Prop} (h : ∀ a, x = .ok a → P a) :
    Yields Inv (Run.lift x : Run W α) P := by
  intro w hw a' w' he
  have he : (x, w) = (.ok a', w') := he
  have h1 := (Prod.ext_iff.1 he).1
  have h2 := (Prod.ext_iff.1 he).2
  subst h2
  exact ⟨h a' h1, hw⟩

theorem Yields.bind {x : Run W α} {f : α → Run W β} {P : α → Prop} {R : β → Prop}
    (hx : Yields Inv x P) (hf : ∀ a, P a → Yields Inv (f a) R) : Yields Inv (x >>= f) R := by
  intro w hw b w' he
  have he : Run.bind x f w = (.ok b, w') := he
  unfold Run.bind at he
  cases hc : x w with
  | mk o w1 =>
    rw [hc] at he
    cases o with
    | error e => cases he
    | ok a =>
      obtain ⟨hP, hI⟩ := hx w hw a w1 hc
      exact hf a hP w1 hI b w' he

theorem Yields.mono {x : Run W α} {P R : α → Prop} (hx : Yields Inv x P) (h : ∀ a, P a → R a) :
    Yields Inv x R := fun w hw a w' he => ⟨h a (hx w hw a w' he).1, (hx w hw a w' he).2⟩

theorem Returns.yields {x : Run W α} {a : α} (h : Returns Inv x a) : Yields Inv x (· = a) := by
  intro w hw b w' he
  obtain ⟨w1, h1, hI⟩ := h w hw
  rw [h1] at he
  cases he
  exact ⟨rfl, hI⟩

/-! ### What a successful search returns -/

theorem pyGetInt_mem {α : Type} {xs : List α} {i : Int} {x : α}
    (h : PyGraph.pyGetInt xs i = .ok x) : x ∈ xs := by
  have key : ∀ n, pyGet xs n = .ok x → x ∈ xs := by
    intro n hn
    unfold pyGet at hn
    split at hn
    · next y hy => cases hn; exact List.mem_of_getElem? hy
    · cases hn
  unfold PyGraph.pyGetInt at h
  split at h
  · exact key _ h
  · split at h
    · exact key _ h
    · cases h

theorem pathIndexFrom_sel {α : Type} {data : List (List α)} {is : List Int} {k : Nat} {p : List α}
    (h : PyGraph.pathIndexFrom data k is = .ok p) :
    p.length = is.length ∧ ∀ (j : Nat) (x : α), p[j]? = some x →
      ∃ col, data[k + j]? = some col ∧ x ∈ col := by
  induction is generalizing k p with
  | nil => cases h; simp
  | cons i is ih =>
    unfold PyGraph.pathIndexFrom at h
    cases h1 : pyGet data k with
    | error e => rw [h1] at h; cases h
    | ok col =>
      cases h2 : PyGraph.pyGetInt col i with
      | error e => rw [h1] at h; simp only [bind, Except.bind, h2] at h; cases h
      | ok x =>
        cases h3 : PyGraph.pathIndexFrom data (k + 1) is with
        | error e => rw [h1] at h; simp only [bind, Except.bind, h2, h3] at h; cases h
        | ok rest =>
          rw [h1] at h
          simp only [bind, Except.bind, h2, h3] at h
          cases h
          obtain ⟨hl, hr⟩ := ih h3
          refine ⟨by simp [hl], fun j y hj => ?_⟩
          cases j with
          | zero =>
            simp only [List.getElem?_cons_zero, Option.some.injEq] at hj
            subst hj
            refine ⟨col, ?_, pyGetInt_mem h2⟩
            unfold pyGet at h1
            split at h1
            · next z hz => cases h1; simpa using hz
            · cases h1
          | succ j =>
            obtain ⟨c, hc, hm⟩ := hr j y (by simpa using hj)
            exact ⟨c, by rwa [show k + (j + 1) = k + 1 + j by omega], hm⟩

variable {F C : Type} [CostArith C] [JointArith F C]

/-- The entry is `[]` or a float32 array. -/
def Float32Col : PyCol F → Prop
  | .arr false _ _ => False
  | _ => True

theorem liftCpp_ok {x : Except Fault α} {a : α} (h : liftCpp x = .ok a) : x = .ok a := by
  cases x with
  | error e => cases h
  | ok b => cases h; rfl

theorem liftPy_ok {x : Except PyErr α} {a : α} (h : liftPy x = .ok a) : x = .ok a := by
  cases x with
  | error e => cases h
  | ok b => cases h; rfl

theorem bind_ok {ε : Type} {x : Except ε α} {f : α → Except ε β} {b : β} (h : x >>= f = .ok b) :
    ∃ a, x = .ok a ∧ f a = .ok b := by
  cases x with
  | error e => cases h
  | ok a => exact ⟨a, rfl, h⟩

theorem getPath_length {g : CppGraph.Graph F C} {n : Nat} {pi : List Int}
    (h : g.getPath n = .ok (some pi)) : pi.length = n := by
  unfold Graph.getPath at h
  split at h
  · obtain ⟨path, _, h⟩ := bind_ok h
    split at h
    · cases h
    · next hn =>
      cases h
      rw [List.length_map]
      exact (not_not.1 hn).symm
  · cases h
    simp

/-- Whenever `get_shortest_path` reports success on float32 columns, with whatever method, weights
and queue, its path is a choice of one row per column. -/
theorem getShortestPath_selection {pq : PQ C (List F)} {conv : F → F} {Q : List (PyCol F)}
    {m : ShortestPath.Method} {weights : Option (List F)} {r : PlanRes F C}
    (hQ : ∀ c ∈ Q, Float32Col c) (h : getShortestPath pq conv Q m weights = .ok r)
    (hs : r.success = true) :
    ∃ p c, r = ⟨true, some p, some c⟩ ∧ IsSelection (Q.map PyCol.rows) p := by
  unfold getShortestPath at h
  have hcd : (checkDtype conv Q).2 = Q := by
    cases Q with
    | nil => rfl
    | cons c cs =>
      cases c with
      | emptyList => rfl
      | arr b n rows =>
        cases b with
        | true => rfl
        | false => exact absurd (hQ (.arr false n rows) (by simp)) id
  obtain ⟨_, _, h⟩ := bind_ok h
  simp only [hcd] at h
  obtain ⟨og, _, h⟩ := bind_ok h
  cases og with
  | none => cases h; cases hs
  | some g =>
    obtain ⟨g1, _, h⟩ := bind_ok h
    cases m
    case other => cases h
    all_goals
      obtain ⟨g2, _, h⟩ := bind_ok h
      obtain ⟨_, _, h⟩ := bind_ok h
      obtain ⟨opi, hpi, h⟩ := bind_ok h
      have hpi := liftCpp_ok hpi
      cases opi with
      | none => cases h
      | some pi =>
        obtain ⟨p0, _, h⟩ := bind_ok h
        split at h
        · cases h; cases hs
        · obtain ⟨res, hres, h⟩ := bind_ok h
          cases h
          refine ⟨res, _, rfl, ?_⟩
          obtain ⟨hl, hr⟩ := pathIndexFrom_sel (liftPy_ok hres)
          have hlen : res.length = Q.length := hl.trans (getPath_length hpi)
          unfold IsSelection
          rw [List.forall₂_iff_get]
          refine ⟨by simp [hlen], fun i h1 h2 => ?_⟩
          obtain ⟨col, hc, hm⟩ := hr i (res.get ⟨i, h2⟩) (by simp)
          rw [Nat.zero_add] at hc
          have : (Q.map PyCol.rows).get ⟨i, h1⟩ = col := by
            have h3 := List.getElem?_eq_getElem h1
            rw [h3] at hc
            simpa using hc
          rw [this]
          exact hm

end

end Verif.Planning
