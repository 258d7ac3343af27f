import Verif.Model.RotationTable
import Verif.Props.Robot
import Verif.Props.Util

/-!
# C96: planning with a rotating table (`examples/rotation_table.py`)
-/

set_option linter.unusedSectionVars false

namespace Verif.Props

open Verif Verif.Geometry Verif.Kin Verif.Util Verif.RotTable Matrix

/-- C96, the table: turning its joint by `θ` turns what stands on it about the x-axis by `θ`, in
every state of the table object. -/
theorem C96_table (hit : Oracle Shape) (history : List (Call Shape))
    (hh : ∀ c ∈ history, c.robot.links = table.links) (θ : ℝ) :
    (table.fk (after hit table.links history) [θ]).1 = .ok (poseX θ 0 0 0) := by
  rw [fk_ok (after_wf hit table.links history hh) (by simp [table, Robot.new])
    (by simp [table, Robot.new, Link.Known])]
  simp only [table, Robot.new, chain, List.zipWith_cons_cons, List.zipWith_nil_left, List.prod_cons,
    List.prod_nil, mul_one]
  congr 1
  ext i j
  have h1 : Real.cos (-Real.pi / 2) = 0 := by rw [neg_div, Real.cos_neg, Real.cos_pi_div_two]
  have h2 : Real.sin (-Real.pi / 2) = -1 := by rw [neg_div, Real.sin_neg, Real.sin_pi_div_two]
  fin_cases i <;> fin_cases j <;>
    simp [Link.tf, dhMat, poseY, poseX, Matrix.mul_apply, Fin.sum_univ_succ, h1, h2]

theorem mem_fixedLoop (ikf : M4 → ℝ → Option (List Config)) (hit : Config → Bool) (T : M4)
    (qFixed : List ℝ) (acc : List Config) (q : Config) :
    q ∈ fixedLoop ikf hit T qFixed acc ↔ q ∈ acc ∨
      ∃ qf ∈ qFixed, ∃ sols, ikf T qf = some sols ∧ q ∈ sols ∧ hit q = false := by
  induction qFixed generalizing acc with
  | nil => simp [fixedLoop]
  | cons qf rest ih =>
    unfold fixedLoop
    cases h : ikf T qf with
    | none => simp [ih, h]
    | some sols =>
      simp only [ih, List.mem_append, List.mem_filter, Bool.not_eq_true', List.mem_cons,
        exists_eq_or_imp, h, Option.some.injEq, exists_eq_left', or_assoc]

theorem mem_tableLoop (ikf : M4 → ℝ → Option (List Config)) (hit : Config → Bool)
    (tfk : List ℝ → M4) (qFixed : List ℝ) (qTable : List (List ℝ)) (T : M4) (acc : List Config)
    (q : Config) :
    q ∈ tableLoop ikf hit tfk qFixed qTable T acc ↔ q ∈ acc ∨
      ∃ k < qTable.length, ∃ qf ∈ qFixed, ∃ sols,
        ikf (((qTable.take (k + 1)).map tfk).reverse.prod * T) qf = some sols ∧ q ∈ sols ∧
        hit q = false := by
  induction qTable generalizing T acc with
  | nil => simp [tableLoop]
  | cons qt rest ih =>
    rw [tableLoop, ih, mem_fixedLoop, or_assoc]
    refine or_congr_right ?_
    constructor
    · rintro (h | ⟨k, hk, qf, hqf, sols, h1, h2⟩)
      · exact ⟨0, by simp, by simpa using h⟩
      · refine ⟨k + 1, by simpa using hk, qf, hqf, sols, ?_, h2⟩
        rw [← h1]
        simp [mul_assoc]
    · rintro ⟨k, hk, qf, hqf, sols, h1, h2⟩
      cases k with
      | zero => exact Or.inl ⟨qf, hqf, sols, by simpa using h1, h2⟩
      | succ k =>
        refine Or.inr ⟨k, by simpa using hk, qf, hqf, sols, ?_, h2⟩
        rw [← h1]
        simp [mul_assoc]

theorem samplesLoop_last (ikf : M4 → ℝ → Option (List Config)) (hit : Config → Bool)
    (tfk : List ℝ → M4) (qFixed : List ℝ) (qTable : List (List ℝ)) (Ts : List M4) (T : M4)
    (prev : Option (List Config)) :
    samplesLoop ikf hit tfk qFixed qTable (Ts ++ [T]) prev
      = some (tableLoop ikf hit tfk qFixed qTable T []) := by
  induction Ts generalizing prev with
  | nil => rfl
  | cons T' rest ih => rw [List.cons_append, samplesLoop, ih]

theorem pathLoop_ok (ikf : M4 → ℝ → Option (List Config)) (hit : Config → Bool)
    (tfk : List ℝ → M4) (qFixed : List ℝ) (qTable : List (List ℝ)) (path : List (List M4 × M4))
    (prev : Option (List Config)) (Q : List (List Config)) :
    pathLoop ikf hit tfk qFixed qTable (path.map fun x => x.1 ++ [x.2]) prev Q
      = .ok (Q ++ path.map fun x => tableLoop ikf hit tfk qFixed qTable x.2 []) := by
  induction path generalizing prev Q with
  | nil => simp [pathLoop]
  | cons x rest ih =>
    rw [List.map_cons, pathLoop, samplesLoop_last]
    simp only [ih, List.map_cons, List.append_assoc, List.cons_append, List.nil_append]

/-- What the function returns when every point has samples (the last one is `x.2`): the collision
free solutions for the last sample only, moved by the product of the table positions so far. -/
theorem C96_returns (ikf : M4 → ℝ → Option (List Config)) (hit : Config → Bool)
    (tfk : List ℝ → M4) (qFixed : List ℝ) (qTable : List (List ℝ)) (path : List (List M4 × M4)) :
    ∃ Q, cartToJointSimple ikf hit tfk (path.map fun x => x.1 ++ [x.2]) qFixed qTable = .ok Q ∧
      Q.length = path.length ∧
      ∀ (i : Nat) col x, Q[i]? = some col → path[i]? = some x → ∀ q, q ∈ col ↔
        ∃ k < qTable.length, ∃ qf ∈ qFixed, ∃ sols,
          ikf (((qTable.take (k + 1)).map tfk).reverse.prod * x.2) qf = some sols ∧ q ∈ sols ∧
          hit q = false := by
  refine ⟨_, pathLoop_ok ikf hit tfk qFixed qTable path none [], by simp, ?_⟩
  intro i col x h1 h2 q
  simp only [List.nil_append, List.getElem?_map, h2, Option.map_some, Option.some.injEq] at h1
  rw [← h1, mem_tableLoop]
  simp

/-- C96 in the case of one sample per point and one position of the table: exactly the collision
free solutions for the sample on the turned table. -/
theorem C96_single_partial (ikf : M4 → ℝ → Option (List Config)) (hit : Config → Bool)
    (tfk : List ℝ → M4) (qFixed : List ℝ) (qt : List ℝ) (path : List M4) :
    ∃ Q, cartToJointSimple ikf hit tfk (path.map fun T => [T]) qFixed [qt] = .ok Q ∧
      Q.length = path.length ∧
      ∀ (i : Nat) col T, Q[i]? = some col → path[i]? = some T → ∀ q, q ∈ col ↔
        ∃ qf ∈ qFixed, ∃ sols, ikf (tfk qt * T) qf = some sols ∧ q ∈ sols ∧ hit q = false := by
  obtain ⟨Q, h1, h2, h3⟩ := C96_returns ikf hit tfk qFixed [qt] (path.map fun T => ([], T))
  refine ⟨Q, ?_, by simpa using h2, ?_⟩
  · rw [← h1]
    congr 1
    simp
  · intro i col T e1 e2 q
    rw [h3 i col ([], T) e1 (by simp [e2]) q]
    simp

theorem rotX_ne {a b : ℝ} (h : Real.cos a ≠ Real.cos b) : poseX a 0 0 0 ≠ poseX b 0 0 0 := by
  intro e
  have := congrFun (congrFun e 1) 1
  simp [poseX] at this
  exact h this

/-- C96 is false of the code, wrong frames: with the table at `π/2` twice in the list, the
configuration returned for the second one reaches the frame turned by `π`. -/
theorem C96_refuted_wrong : ∃ (ikf : M4 → ℝ → Option (List Config)) (q : Config),
    cartToJointSimple ikf (fun _ => false) (fun qt => poseX (qt.headD 0) 0 0 0) [[1]]
      [0]       [[Real.pi / 2], [Real.pi / 2]] = .ok [[q]] ∧
    ikf (poseX (Real.pi / 2) 0 0 0 * 1) 0 = none := by
  classical
  have hne : poseX (Real.pi / 2) 0 0 0 ≠ poseX Real.pi 0 0 0 := rotX_ne (by simp)
  have h2 : poseX (Real.pi / 2) 0 0 0 * poseX (Real.pi / 2) 0 0 0 = poseX Real.pi 0 0 0 := by
    ext i j
    fin_cases i <;> fin_cases j <;> simp [poseX, Matrix.mul_apply, Fin.sum_univ_succ]
  refine ⟨fun T _ => if T = poseX Real.pi 0 0 0 then some [[7]] else none, [7], ?_, ?_⟩
  · simp [cartToJointSimple, pathLoop, samplesLoop, tableLoop, fixedLoop, hne, h2]
  · simp [hne]

/-- C96 is false of the code, lost solutions: a configuration that reaches the first of two samples
is not returned. -/
theorem C96_refuted_lost : ∃ (ikf : M4 → ℝ → Option (List Config)) (T T' : M4) (q : Config),
    cartToJointSimple ikf (fun _ => false) (fun qt => poseX (qt.headD 0) 0 0 0) [[T, T']] [0] [[1]]
      = .ok [[]] ∧ ikf (poseX 1 0 0 0 * T) 0 = some [q] := by
  classical
  have hne : poseX 1 0 0 0 * poseX 0 1 0 0 ≠ poseX 1 0 0 0 := by
    intro h
    have := congrFun (congrFun h 0) 3
    simp [poseX, Matrix.mul_apply, Fin.sum_univ_succ] at this
  refine ⟨fun T _ => if T = poseX 1 0 0 0 then some [[7]] else none, 1, poseX 0 1 0 0, [7], ?_, ?_⟩
  · simp [cartToJointSimple, pathLoop, samplesLoop, tableLoop, fixedLoop, hne]
  · simp

/-- C96, a point without samples: the solutions of the previous point are returned again. -/
theorem C96_stale (ikf : M4 → ℝ → Option (List Config)) (hit : Config → Bool) (tfk : List ℝ → M4)
    (qFixed : List ℝ) (qTable : List (List ℝ)) (T : M4) :
    cartToJointSimple ikf hit tfk [[]] qFixed qTable = .error .unboundLocalError ∧
    ∃ col, cartToJointSimple ikf hit tfk [[T], []] qFixed qTable = .ok [col, col] :=
  ⟨rfl, _, rfl⟩

/-- C96: a case of `C96_table`, after another call on the table object, and of `C96_single_partial`:
a robot that reaches only the frame turned by 1, with the table at 1, keeps its solution. -/
example (hit : Oracle Shape) :
    (table.fk (after hit table.links [.fk table [2]]) [1]).1 = .ok (poseX 1 0 0 0) ∧
    ∃ (ikf : M4 → ℝ → Option (List Config)) (Q : List (List Config)),
      cartToJointSimple ikf (fun _ => false) (fun qt => poseX (qt.headD 0) 0 0 0) [[1]] [0] [[1]] =
        .ok Q ∧ Q.length = 1 ∧ ∀ col, Q[0]? = some col → [7] ∈ col := by
  classical
  refine ⟨C96_table hit _ (by simp [Call.robot]) 1, fun T _ => if T = poseX 1 0 0 0 then some [[7]] else none, ?_⟩
  obtain ⟨Q, h1, h2, h3⟩ := C96_single_partial
    (fun T _ => if T = poseX 1 0 0 0 then some [[7]] else none) (fun _ => false)
    (fun qt => poseX (qt.headD 0) 0 0 0) [0] [1] [1]
  exact ⟨Q, h1, h2, fun col hc => (h3 0 col 1 hc rfl [7]).2 ⟨0, by simp, [[7]], by simp, by simp, rfl⟩⟩

end Verif.Props
