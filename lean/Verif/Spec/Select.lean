import Mathlib.Data.List.Forall2

/-!
# Specification vocabulary for shortest paths through columns of samples

Nothing in this file mentions the algorithms.
-/

namespace Verif.Spec

variable {α C : Type}

/-- `p` picks one element of every column, in column order. -/
def IsSelection (cols : List (List α)) (p : List α) : Prop :=
  List.Forall₂ (fun col x => x ∈ col) cols p

/-- Cost of a path accumulated from the front, `((0 + c₀₁) + c₁₂) + …`. -/
def costFrom [Add C] (g : α → α → C) : C → List α → C
  | acc, [] => acc
  | acc, [_] => acc
  | acc, x :: y :: rest => costFrom g (acc + g x y) (y :: rest)

/-- Cost of a path accumulated from the front, starting at zero. -/
def costL [Add C] [Zero C] (g : α → α → C) (p : List α) : C := costFrom g 0 p

/-- Cost of a path accumulated from the back, `c₀₁ + (c₁₂ + (… + 0))`. -/
def costR [Add C] [Zero C] (g : α → α → C) : List α → C
  | [] => 0
  | [_] => 0
  | x :: y :: rest => g x y + costR g (y :: rest)

/-- Every step of the path costs less than the limit. -/
def StepsBelow [LT C] (g : α → α → C) (limit : C) (p : List α) : Prop :=
  List.IsChain (fun x y => g x y < limit) p

/-- `v` is the least cost of completing a path that stands in `x` and still has to visit
the columns `rest`. -/
def IsCostToGo [LE C] [Add C] [Zero C] (g : α → α → C) (v : C) (x : α)
    (rest : List (List α)) : Prop :=
  (∃ p, IsSelection rest p ∧ costR g (x :: p) = v) ∧
    ∀ p, IsSelection rest p → v ≤ costR g (x :: p)

end Verif.Spec
