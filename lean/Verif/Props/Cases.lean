import Verif.Props.Certificate
import Verif.Props.CppQueries
import Verif.Props.CppPointers
import Verif.Props.MoreSamples
import Verif.Props.Solve
import Verif.Props.Reach
import Verif.Props.Scripts
import Verif.Props.Settings
import Verif.Props.Snapped
import Verif.Props.Plot
import Verif.Props.Cover
import Verif.Props.QuatCost
import Verif.Props.KukaStretched
import Verif.Props.RandomKuka
import Verif.Props.Rounding
import Verif.Props.Distinct

/-! # Further cases

Concrete inputs that meet the hypotheses of theorems whose own file has no example for them. -/

set_option linter.unusedSectionVars false

namespace Verif.Props

open Matrix Verif Verif.Path Verif.Geometry Verif.Kin Verif.Util Verif.ShortestPath Verif.Task
  Verif.CppGraph Verif.Plot Verif.Search Verif.Planning Verif.Resources Verif.Examples Verif.Spec

noncomputable section

/-- C68: a case of `C68_disjoint`, two unit cubes whose centres are three apart. -/
example : halfspaces (Matrix.of ((⟨1, 1, 1⟩ : Shape).getPolyhedron 1).A)
      ((⟨1, 1, 1⟩ : Shape).getPolyhedron 1).b ∩
    halfspaces (Matrix.of ((⟨1, 1, 1⟩ : Shape).getPolyhedron (mkTf 1 ![3, 0, 0])).A)
      ((⟨1, 1, 1⟩ : Shape).getPolyhedron (mkTf 1 ![3, 0, 0])).b = ∅ := by
  obtain ⟨lam, mu, h⟩ := cubes_certified
  exact C68_disjoint h

/-- C42: a case of `C42_error`. -/
example [Zeros] (hit : Oracle Shape) : ∃ sols,
    anthropomorphicIk (anthropomorphicArm 1 2) (mkTf 1 ![1, 0, 2]) = some sols ∧ sols ≠ [] ∧
    ∀ q ∈ sols, FkSatisfies hit (anthropomorphicArm 1 2) q fun F =>
      Real.sqrt (dist2 (posPart F) ![1, 0, 2]) ≤ 0.000004 := by
  have hT : FkSatisfies hit (anthropomorphicArm 1 2) [0, 0, Real.pi / 2]
      fun F => posPart F = posPart (mkTf 1 ![1, 0, 2]) := by
    rw [fkSatisfies_iff _ _ (anthropomorphic_known _ _) _ (le_refl _)]
    have : (anthropomorphicArm 1 2).tfBase * chain (anthropomorphicArm 1 2).links
        [0, 0, Real.pi / 2] * tip (anthropomorphicArm 1 2) =
        chain (anthropomorphicArm 1 2).links [0, 0, Real.pi / 2] := by
      simp [anthropomorphicArm, Robot.new, tip]
    rw [this, posPart_anthropomorphic, posPart_mkTf]
    ext i; fin_cases i <;> norm_num [armPos]
  obtain ⟨sols, h1, t1, t2, t3, h2, -⟩ := C42_complete hit (a2 := 1) (a3 := 2) (by norm_num) 0 0
    (Real.pi / 2) (mkTf 1 ![1, 0, 2]) hT (Or.inl (by change (1 : ℝ) ≠ 0; norm_num)) (by norm_num)
  refine ⟨sols, h1, List.ne_nil_of_mem h2, fun q hq history hh => ?_⟩
  obtain ⟨F, g1, -, g2⟩ := C42_error hit (by norm_num) _ h1 q hq history hh
  refine ⟨F, g1, ?_⟩
  rw [posPart_mkTf] at g2
  norm_num [abs_of_pos, abs_of_neg] at g2 ⊢
  linarith

/-- C65: a case of `C65_unknown`. -/
example (t : PlanningTask Shape) (draws : Nat → Nat → Draws) (time : Nat → ℝ) :
    Raises (fun _ => True) (PlanningTask.solve t easyArm (stdHeap : PQ (WithTop ℝ) Config) id draws time
      10 (fun _ _ _ _ => (pure () : Run Unit Unit)) (some "Grid")) (.py .exception) :=
  C65_unknown t easyArm _ id draws time 10 _ (by decide)

/-- C81: a case of `C81_no_links`. -/
example [Zeros] (st : RState) : (plotKinematics (Robot.new [] : Robot Shape) st [1, 2]).1 =
    .error .valueError :=
  C81_no_links _ rfl st _

/-- C82: a case of `C82_orthogonal`. -/
example : ∃ o x y z : V3, plotReferenceFrame (some (poseX 1 2 3 (Real.pi / 4))) 0.2 =
      [(o, o + x), (o, o + y), (o, o + z)] ∧ o = posPart (poseX 1 2 3 (Real.pi / 4)) ∧
      x ⬝ᵥ x = 0.2 ^ 2 ∧ x ⬝ᵥ y = 0 := by
  obtain ⟨o, x, y, z, h1, h2, h3, -, -, h4, -⟩ := C82_orthogonal
    (C20_pose 1 2 3 (Real.pi / 4)).1.1 0.2
  exact ⟨o, x, y, z, h1, h2, h3, h4⟩

/-- C114: a case of `C114_sound`, a scene in which nothing touches. -/
example [Zeros] (draws : Nat → Draws) (w : RState × RState × Mem) (hw : KukaOK 0 w) :
    ∃ (path : List Config) (w' : RState × RState × Mem),
      kingpin (kukaRef (fun _ _ => false) (weldingKuka 0)).toArm
        (stdHeap : PQ (WithTop ℝ) Config) id draws w = (.ok path, w') ∧ path.length = 10 ∧
      ∀ (i : Nat) (q : Config), path[i]? = some q → q.length = 6 := by
  obtain ⟨path, h1, -⟩ : ∃ path, Returns (KukaOK 0)
      (kingpin (kukaRef (fun _ _ => false) (weldingKuka 0)).toArm
        (stdHeap : PQ (WithTop ℝ) Config) id draws) path ∧ path.length = 10 := by
    refine C114_complete _ 0 stdHeapLawful noOverflow_real stepCost_real id draws fun i hi => ?_
    obtain ⟨q1, q2, q3, q4, q5, q6, h1, h2⟩ := C114_regular (fun _ _ => false) 0 i hi
    exact ⟨0, 0, by omega, by omega, q1, q2, q3, q4, q5, q6, h1, by simp [SceneTouch, Touch],
      by simp [SelfTouch, Touch], h2⟩
  obtain ⟨w', h2, -⟩ := h1 w hw
  obtain ⟨h3, h4⟩ := C114_sound _ 0 stdHeapLawful noOverflow_real stepCost_real id draws hw h2
  refine ⟨path, w', h2, h3, fun i q hq => ?_⟩
  obtain ⟨q1, q2, q3, q4, q5, q6, rfl, -⟩ := h4 i q hq
  rfl

/-- C99, C141: cases of `C99_grid` and `C141_succeeds`, the robot whose ik always has one free
solution. -/
example (draws : Nat → Nat → Draws) (time : Nat → ℝ) :
    ∃ (path : List Config) (c : WithTop ℝ), Returns (fun _ => True)
      (PlanningTask.solve (freeTask [0, ![1, 1, 1]] lineScene 70) easyArm
        (stdHeap : PQ (WithTop ℝ) Config) id draws time 10
        (fun _ _ _ _ => (pure () : Run Unit Unit)) (some "grid")) (.plan ⟨true, some path, some c⟩) := by
  have hdet : Determined easyArm lineScene (fun _ => True) (fun _ => some [[0]]) (fun _ => false) 1 :=
    ⟨easyArm_determined.ik, easyArm_determined.dof, fun q _ => Returns.pure _⟩
  obtain ⟨path, c, h⟩ := C66_succeeds hdet (pq := (stdHeap : PQ (WithTop ℝ) Config)) stdHeapLawful
    noOverflow_real (stepCost_real _) (freeTask [0, ![1, 1, 1]] lineScene 3) rfl
    (by simp [freeTask, PlanningTask.new]) id draws time 10
    (fun _ _ _ _ => (pure () : Run Unit Unit)) (freeFrames_samples (draws 0) _ _ 3) (by
      intro Ts hTs
      obtain ⟨pi, -, rfl⟩ := List.mem_map.1 hTs
      exact ⟨_, List.mem_map.2 ⟨0, by simp, rfl⟩, [[0]], rfl, [0], by simp, rfl⟩)
  obtain ⟨w', hw, -⟩ := h.1 () trivial
  exact C141_succeeds hdet stdHeapLawful noOverflow_real (stepCost_real _) id draws time 10 _ (by simp)
    (show 3 ≤ 70 by norm_num) (w := ()) trivial hw rfl

/-- C99: a case of `C99_grid`. -/
example (draws : Nat → Nat → Draws) (time : Nat → ℝ) : ∃ path : List Config,
    path.length = 2 ∧ ∀ q ∈ path, q = [0] := by
  have hdet : Determined easyArm lineScene (fun _ => True) (fun _ => some [[0]]) (fun _ => false) 1 :=
    ⟨easyArm_determined.ik, easyArm_determined.dof, fun q _ => Returns.pure _⟩
  obtain ⟨path, c, h⟩ := C99_grid_succeeds (ps := [0, ![1, 1, 1]]) hdet
    (pq := (stdHeap : PQ (WithTop ℝ) Config)) stdHeapLawful noOverflow_real
    (stepCost_real _) id draws time 10 (fun _ _ _ _ => (pure () : Run Unit Unit)) (by simp)
    (fun i p _ => ⟨0, _, [0], by norm_num, rfl, by simp, rfl⟩)
  obtain ⟨w, hw, -⟩ := h () trivial
  obtain ⟨pr, h1, h2⟩ := C99_grid hdet _ id draws time 10 _ [0, ![1, 1, 1]] (w := ()) trivial hw
  cases h1
  obtain ⟨path', h3, h4, h5⟩ := h2 rfl
  refine ⟨path', h4, fun q hq => ?_⟩
  obtain ⟨i, hi⟩ := List.getElem?_of_mem hq
  have hi2 : i < 2 := by
    have := (List.getElem?_eq_some_iff.1 hi).1
    rw [h4] at this
    simpa using this
  obtain ⟨j, sols, q', -, e1, e2, -, e3⟩ := h5 i q ([0, ![1, 1, 1]][i]) hi
    (List.getElem?_eq_getElem hi2)
  cases e1
  rw [e3, List.mem_singleton.1 e2]
  rfl

/-- C103: cases of `C103_rail_partial` and `C103_anthropomorphic_partial`. -/
example : skeletonFrom 1 (railRobot 0.18 0.6 0.62 0.115) [0.5, 1, 2, 0, 1, 0, 1] ⊆
      linkPoints (railRobot 0.18 0.6 0.62 0.115) [0.5, 1, 2, 0, 1, 0, 1] ∧
    skeletonFrom 0 (anthropomorphicArm 0.8 1) [1, 2, 3] ⊆ linkPoints (anthropomorphicArm 0.8 1) [1, 2, 3] :=
  ⟨C103_rail_partial (by norm_num) (by norm_num) (by norm_num) (by norm_num) _ rfl IsRigid.one (by simp),
    C103_anthropomorphic_partial (by norm_num) (by norm_num) _ rfl IsRigid.one (by simp)⟩

/-- C87: a case of `C87_cost_invariant`, a turn by 60 degrees about the x axis. -/
example (p q : Quat) : QuatCost.costFunction ((⟨Real.cos (Real.pi / 6), Real.sin (Real.pi / 6), 0, 0⟩ : Quat).mul p)
    ((⟨Real.cos (Real.pi / 6), Real.sin (Real.pi / 6), 0, 0⟩ : Quat).mul q) = QuatCost.costFunction p q := by
  refine (C87_cost_invariant _ p q ?_).1
  have := Real.sin_sq_add_cos_sq (Real.pi / 6)
  simp only [UnitQuat, Quat.norm2]
  linarith

/-- C39: a case of `C39_stretched`, a pose with a straight wrist. -/
example [Zeros] (hit : Oracle Shape) : ∃ (T : M4) (sols : List Nat),
    let k := setup (Kuka.new 0.18 0.6 0.62 0.115 0) 1 none
    let s := kukaAfter (Kuka.new 0.18 0.6 0.62 0.115 0) [[]] [⟨1, none, 1⟩]
    (k.ik s.1 s.2 T).1 = .ok (some sols) ∧ 0 < sols.length ∧ ∀ a ∈ sols, ∃ q1 q2 q3 q4 q5 q6,
      (k.ik s.1 s.2 T).2.2[a]? = some [[q1, q2, q3, q4, q5, q6]] ∧
      (Real.sin q5 = 0 → (q4 = 0 ∨ q4 = Real.pi ∨ q4 = -Real.pi) ∧
        (q6 = 0 ∨ q6 = Real.pi ∨ q6 = -Real.pi)) := by
  have hTex := (fkSatisfies_iff hit (setup (Kuka.new 0.18 0.6 0.62 0.115 0) 1 none).robot
    (setup_known _ _ _ _ _ _ _) [0, 1, 0, 0, 0, 1] (le_refl _) (· = _)).2 rfl
  have hTr : IsRigid ((1 : M4) * chain (kukaRobot 0.18 0.6 0.62 0.115).links
    [0, 1, 0, 0, 0, 1] * 1) := (IsRigid.one.mul (chain_rigid _ _)).mul IsRigid.one
  obtain ⟨sols, h1, h0, -⟩ := C40_kuka_complete hit (a1 := 0.18) (a2 := 0.6) (d4 := 0.62)
    (d6 := 0.115) (by norm_num) 0 [[]] (by simp) [⟨1, none, 1⟩] IsRigid.one none (by simp)
    _ _ _ _ _ _ hTex
  refine ⟨_, sols, h1, h0, fun a ha => ?_⟩
  obtain ⟨q1, q2, q3, q4, q5, q6, e1, e2, -⟩ := C39_stretched hit (by norm_num) 0 [[]] (by simp)
    [⟨1, none, 1⟩] IsRigid.one none (by simp) hTr sols h1 a ha
  exact ⟨q1, q2, q3, q4, q5, q6, e1, e2⟩

/-- C44: a case of `C44_kuka_partial`: the solutions of a call stay what they are when ik is called for
another target. -/
example [Zeros] (hit : Oracle Shape) : ∃ (T : M4) (sols : List Nat),
    let k := Kuka.new 0.18 0.6 0.62 0.115 0
    0 < sols.length ∧ ∀ a ∈ sols, (kukaAfter k [[]] [⟨1, none, T⟩, ⟨1, none, 1⟩]).2[a]? =
      (kukaAfter k [[]] [⟨1, none, T⟩]).2[a]? := by
  have hTex := (fkSatisfies_iff hit (setup (Kuka.new 0.18 0.6 0.62 0.115 0) 1 none).robot
    (setup_known _ _ _ _ _ _ _) [0, 1, 0, 0, 1, 1] (le_refl _) (· = _)).2 rfl
  obtain ⟨sols, h1, h0, -⟩ := C40_kuka_complete hit (a1 := 0.18) (a2 := 0.6) (d4 := 0.62)
    (d6 := 0.115) (by norm_num) 0 [[]] (by simp) [] IsRigid.one none (by simp)
    _ _ _ _ _ _ hTex
  exact ⟨_, sols, h0, fun a ha => (C44_kuka_partial 0 [[]] (by simp) [] [⟨1, none, 1⟩]
    ⟨1, none, _⟩ sols h1 a ha).1⟩

/-- C112: a case of `C112_links`, for the default Kuka. -/
example (hit : Oracle Shape) : ∃ fs fs' : List M4,
    ((kukaRobot 0.18 0.6 0.62 0.115).fkAllLinks
      (after hit (kukaRobot 0.18 0.6 0.62 0.115).links []) [0, 1, 0, 0, 1, 1]).1 = .ok fs ∧
    ((kukaRobot 0.18 0.6 0.62 0.115).fkAllLinks
      (after hit (kukaRobot 0.18 0.6 0.62 0.115).links []) [0.1, 1, 0, 0, 1, 1]).1 = .ok fs' ∧
    ∀ (k : Nat) (F F' : M4), fs[k]? = some F → fs'[k]? = some F' → ∀ v : V3,
      gap (act F v) (act F' v) ≤ movedBy ((kukaRobot 0.18 0.6 0.62 0.115).links.take (k + 1))
        [0, 1, 0, 0, 1, 1] [0.1, 1, 0, 0, 1, 1] (vlen v) := by
  obtain ⟨fs, fs', h1, h2, -, -, h3⟩ := C112_links hit (kukaRobot 0.18 0.6 0.62 0.115)
    (by
      intro l hl
      simp only [kukaRobot, Robot.new, List.mem_cons, List.not_mem_nil, or_false] at hl
      rcases hl with rfl | rfl | rfl | rfl | rfl | rfl <;> simp) IsRigid.one [] [] (by simp) (by simp)
    [0, 1, 0, 0, 1, 1] [0.1, 1, 0, 0, 1, 1] (le_refl _) (le_refl _)
  exact ⟨fs, fs', h1, h2, h3⟩

/-- C135: a case of `C135_anthropomorphic_twice`, a stretched arm. -/
example [Zeros] (hit : Oracle Shape) : ∃ sols,
    anthropomorphicIk (anthropomorphicArm 2 1) (mkTf 1 ![3, 0, 0]) = some sols ∧
    ∃ (i j : Nat) (q q' : List ℝ), i ≠ j ∧ sols[i]? = some q ∧ sols[j]? = some q' ∧ SameConfig q' q := by
  have hT : FkSatisfies hit (anthropomorphicArm 2 1) [0, 0, 0]
      fun F => posPart F = posPart (mkTf 1 ![3, 0, 0]) := by
    rw [fkSatisfies_iff _ _ (anthropomorphic_known _ _) _ (le_refl _)]
    have : (anthropomorphicArm 2 1).tfBase * chain (anthropomorphicArm 2 1).links
        [0, 0, 0] * tip (anthropomorphicArm 2 1) =
        chain (anthropomorphicArm 2 1).links [0, 0, 0] := by
      simp [anthropomorphicArm, Robot.new, tip]
    rw [this, posPart_anthropomorphic, posPart_mkTf]
    ext i; fin_cases i <;> norm_num [armPos]
  obtain ⟨sols, hs⟩ := C42_anthropomorphic_succeeds hit (a2 := 2) (a3 := 1) (by norm_num) 0 0 0
    (mkTf 1 ![3, 0, 0]) hT
  have hb := bothSides_straight (a1 := 0) (a2 := 2) (a3 := 1) (by norm_num)
    (T := mkTf 1 ![3, 0, 0]) (q1 := 0) (q2 := 0) (q3 := 0) (by
      rw [posPart_mkTf]; ext i; fin_cases i <;> norm_num [armPos]) (by norm_num [tol])
  rw [← aa_sides hs] at hb
  simp only [Bent, not_forall] at hb
  obtain ⟨q1, q2, q3, hm, h3⟩ := hb
  have h3 : Real.sin q3 = 0 := not_not.1 h3
  obtain ⟨i, hi⟩ := List.getElem?_of_mem hm
  obtain ⟨j, q, hj, h4, h5⟩ := C135_anthropomorphic_twice _ hs hi h3
    (by linarith [Real.neg_one_le_cos q3]) (by
      rw [posPart_mkTf]
      intro h0
      have := congrFun h0 0
      norm_num at this)
  exact ⟨sols, hs, i, j, _, q, hj.symm, hi, h4, h5⟩

/-- C112: a case of `C112_margin`: an arm of one link of length one, turned by 0.01, keeps away from a
cube whose centre is five away. -/
example : ∀ u ∈ boxPoints ⟨1, 1, 1⟩, ∀ v ∈ boxPoints ⟨1, 1, 1⟩,
    2.9 ≤ gap (act (frameOf (Robot.new [⟨⟨1, 0, 0, 0⟩, .r, ⟨[⟨1, 1, 1⟩], [1]⟩⟩] : Robot Shape) [0.01] 0 * 1) u)
      (act (mkTf 1 ![5, 0, 0]) v) := by
  intro u hu v hv
  have h := C112_margin (Robot.new [⟨⟨1, 0, 0, 0⟩, .r, ⟨[⟨1, 1, 1⟩], [1]⟩⟩] : Robot Shape) IsRigid.one
    [0.01] [0] (le_refl _) (le_refl _) (k := 0) (by simp [Robot.new]) (tf := 1) IsRigid.one ⟨1, 1, 1⟩
    ⟨1, 1, 1⟩ (mkTf 1 ![5, 0, 0]) 3 0.1 (fun u hu => ?_) (fun u hu v hv => ?_) u hu v hv
  · linarith
  · have hv : vlen (act 1 u) ≤ 1 := by
      rw [act_one]
      refine Real.sqrt_le_one.2 ?_
      obtain ⟨h0, h1, h2⟩ := hu
      have h0 := abs_le.1 h0
      have h1 := abs_le.1 h1
      have h2 := abs_le.1 h2
      simp only at h0 h1 h2
      simp only [dotProduct, Fin.sum_univ_three]
      nlinarith
    have h0 := Real.sqrt_nonneg (act 1 u ⬝ᵥ act 1 u)
    simp only [Robot.new, List.take, movedBy, reachOf, linkLength]
    rw [if_neg (by simp)]
    norm_num
    linarith
  · have e : frameOf (Robot.new [⟨⟨1, 0, 0, 0⟩, .r, ⟨[⟨1, 1, 1⟩], [1]⟩⟩] : Robot Shape) [0] 0 * 1 =
        mkTf 1 ![1, 0, 0] := by
      rw [frameOf, linkProduct_eq]
      simp only [Robot.new, chain, List.take, List.zipWith_cons_cons, List.zipWith_nil_left,
        List.prod_cons, List.prod_nil, one_mul, mul_one]
      change dhMat 1 0 0 0 = _
      rw [dhMat_eq]
      congr 1
      · ext i j; fin_cases i <;> fin_cases j <;>
          simp [rotZ, rotX, Matrix.mul_apply, Fin.sum_univ_three]
      · simp
    rw [e]
    refine Real.le_sqrt_of_sq_le ?_
    have h1 := abs_le.1 hu.1
    have h2 := abs_le.1 hv.1
    simp only at h1 h2
    simp only [act, rotPart_mkTf, posPart_mkTf, Matrix.one_mulVec, dist2, dotProduct,
      Fin.sum_univ_three, Pi.sub_apply, Pi.add_apply, Matrix.cons_val]
    nlinarith [sq_nonneg (u 1 - v 1), sq_nonneg (u 2 - v 2)]

/-- C135: a case of `C135_rail`: the gripper across the arm. -/
example [Zeros] (hit : Oracle Shape) (n : Nat) (mem : Mem) (hn : n < mem.length)
    (history : List RailCall) :
    let r := setupRail (Rail.new 0.18 0.6 0.62 0.115 n) 1 none
    let s := railAfter (Rail.new 0.18 0.6 0.62 0.115 n) mem history
    ∃ (T : M4) (sols : List Nat), (r.ik s.st0 s.st s.mem T 0.7).1 = .ok (some sols) ∧
      ∃! a, a ∈ sols ∧ ∃ q, (r.ik s.st0 s.st s.mem T 0.7).2.2.2[a]? = some [0.7 :: q] ∧
        SameConfig q [0, 0, 0, Real.pi / 2, Real.pi / 2, 0] := by
  intro r s
  obtain ⟨R, p, hR, hch⟩ := (chain_rigid (kukaRobot 0.18 0.6 0.62 0.115).links
    [0, 0, 0, Real.pi / 2, Real.pi / 2, 0]).exists_mk
  have hT : FkSatisfies hit r.robot [0.7, 0, 0, 0, Real.pi / 2, Real.pi / 2, 0]
      (· = 1 * (railLink 0.7 * mkTf R p) * tipOf none) := by
    rw [fkSatisfies_iff _ r.robot (rail_known _ _ _ _) _ (le_refl _), ← hch, ← chain_rail]
    rfl
  obtain ⟨sols, hs, -⟩ := C41_complete hit 0.18 0.6 0.62 0.115 n mem hn history IsRigid.one none
    (by simp) 0.7 0 0 0 (Real.pi / 2) (Real.pi / 2) 0 hT
  refine ⟨_, sols, hs, ?_⟩
  have hch' := hch
  rw [chain_kuka] at hch'
  obtain ⟨e1, e2⟩ := mkTf_inj hch'
  have hw0 : (p - R *ᵥ ![0, 0, 0.115]) 0 = 0.78 := by
    rw [← e2, ← e1, add_sub_cancel_right]
    norm_num [armPos]
  refine (C135_rail hit n mem hn history IsRigid.one none (by simp) 0.7
    (w := p - R *ᵥ ![0, 0, 0.115]) ⟨R, p, hR, ?_, fun i => ?_⟩ (.inl (by rw [hw0]; norm_num)) sols hs
    ?_ 0 0 0 (Real.pi / 2) (Real.pi / 2) 0).1 hT
  · rw [← carriage_eq, ← mul_assoc 1]
  · simp [Matrix.mulVec, dotProduct, Fin.sum_univ_three, mul_comm]
  · intro a ha q1 q2 q3 q4 q5 q6 hx
    obtain ⟨h0, hw, hlen⟩ := railAfter_inv (a1 := 0.18) (a2 := 0.6) (d4 := 0.62) (d6 := 0.115) mem hn
      history
    obtain ⟨qs, hq, hc⟩ := rail_from (r := r) (a1 := 0.18) (a2 := 0.6) (d4 := 0.62) (d6 := 0.115)
      rfl rfl h0 hw (lt_of_lt_of_le hn hlen)
      (railTarget_eq (r := r.robot) IsRigid.one (tipOf_rigid (tool := none) (by simp)) rfl) hs
    obtain ⟨q, hqm, q', hq'm, hcell⟩ := hc a ha
    have hx := hcell.symm.trans hx
    cases hx
    have hb : BentConfig [q1, q2, q3, q4, q5, q6] := by
      refine crosswise_bent hch ?_ ?_ ?_ hq q hqm _ hq'm <;> norm_num
    obtain ⟨_, _, _, _, _, _, e, h3, h5⟩ := hb
    cases e
    exact ⟨h3, h5⟩

end

/-- C09: a case of `C09_segments_total_partial`. -/
example : ∃ res, PyGraph.getShortestPathSegments natCost [[0], [1], [9], [9], [8]] 4 2 = .ok res := by
  refine C09_segments_total_partial noOverflow_nat natCost 4 _ (by simp) (fun i hi h => ?_) 2 (le_refl _)
  match i, hi, h with
  | 0, hi, _ =>
    exact absurd ⟨[0, 1], .cons (by simp) (.cons (by simp) .nil), by simp [StepsBelow, natCost]⟩
      (hi.2 1 (by omega) (by simp))
  | 1, _, _ =>
    exact Or.inr ⟨[9, 9, 8], .cons (by simp) (.cons (by simp) (.cons (by simp) .nil)), by
      simp [StepsBelow, natCost]⟩
  | i + 2, _, _ => exact Or.inl (by simp)

end Verif.Props
