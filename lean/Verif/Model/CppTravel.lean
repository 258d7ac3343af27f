import Mathlib.Data.Real.Basic
import Mathlib.Algebra.BigOperators.Group.List.Basic

/-!
# `cost_function` of acrobotics/cpp/src/graph.cpp

The searches call `cost_function_2` (Model/CppGraph); `cost_function` is there but nothing calls it.  Real
numbers instead of floats.
-/

namespace Verif.CppGraph

noncomputable section

/-- graph.cpp:168-176 `cost_function`, the loop from `i` on.  As in `costFrom2`, the loop stops where the
program would read past the end of a vector. -/
def costFrom1 : ℝ → List ℝ → List ℝ → List ℝ → ℝ
  | acc, w :: ws, a :: as, b :: bs => costFrom1 (acc + w * |a - b|) ws as bs
  | acc, _, _, _ => acc

/-- graph.cpp:168-176 `cost_function(n1, n2)` -/
def costFn1 (w n1 n2 : List ℝ) : ℝ := costFrom1 0 w n1 n2

/-- graph.cpp:256-264 `get_path_cost`, with `cost_function`: the costs of the steps, summed from the
front. -/
def pathCost1 (w : List ℝ) : ℝ → List (List ℝ) → ℝ
  | acc, x :: y :: rest => pathCost1 w (acc + costFn1 w y x) (y :: rest)
  | acc, _ => acc

end

end Verif.CppGraph
