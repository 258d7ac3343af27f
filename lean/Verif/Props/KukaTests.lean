import Verif.Props.SelfClear
import Verif.Props.Resources
import Mathlib.Analysis.Real.Pi.Bounds

/-!
# The collision tests of the Kuka, run on the model

tests/test_robot.py:210-236 and tests/test_collision_checking.py record what the authors observed for the
boxes of the Kuka.  With an exact collision library the model gives the same answers, after every history
of calls on the robot.  They are tests of the model, not proofs of properties.
-/

set_option linter.unusedSectionVars false

namespace Verif.Props

open Matrix Verif.Geometry Verif.Kin Verif.Util

/-- A link touches a scene if and only if it has a point in common with it. -/
theorem touch_scene (r : Robot Shape) (q : List ℝ) {k : Nat} {l : Link Shape}
    (hk : r.links[k]? = some l) (scene : Collection Shape) :
    Touch boxOracle l.geometry (frameOf r q k) scene 1 ↔
      ∃ x ∈ linkBody r q k, ∃ i, x ∈ wallPoints scene i := by
  constructor
  · rintro ⟨m, n, s, s', t, t', h1, h2, h3, h4, h⟩
    obtain ⟨u, hu, v, hv, he⟩ := (boxOracle_iff _ _).1 h
    refine ⟨act (frameOf r q k * t) u, ⟨m, l, s, t, hk, h1, h2, u, hu, rfl⟩, n, s', t', h3, h4, v, hv, ?_⟩
    refine Eq.trans ?_ he.symm
    show _ = act (1 * t') v
    rw [one_mul]
  · rintro ⟨x, ⟨m, l', s, t, g1, g2, g3, u, hu, rfl⟩, n, s', t', k1, k2, v, hv, he⟩
    rw [hk] at g1
    cases g1
    refine ⟨m, n, s, s', t, t', g2, g3, k1, k2, (boxOracle_iff _ _).2 ⟨u, hu, v, hv, ?_⟩⟩
    show _ = act (1 * t') v
    rw [one_mul]
    exact he.symm

/-- tests/test_robot.py:214, 226 `q0` -/
noncomputable def testQ0 : List ℝ := [0, Real.pi / 2, 0, 0, 0, 0]

theorem q0_frames :
    frameOf shippedKuka testQ0 0 = !![1, 0, 0, 0.18; 0, 0, -1, 0; 0, 1, 0, 0; 0, 0, 0, 1] ∧
    frameOf shippedKuka testQ0 1 = !![0, -1, 0, 0.18; 0, 0, -1, 0; 1, 0, 0, 0.6; 0, 0, 0, 1] ∧
    frameOf shippedKuka testQ0 2 = !![0, 0, 1, 0.18; 0, -1, 0, 0; 1, 0, 0, 0.6; 0, 0, 0, 1] ∧
    frameOf shippedKuka testQ0 3 = !![0, -1, 0, 0.8; 0, 0, -1, 0; 1, 0, 0, 0.6; 0, 0, 0, 1] ∧
    frameOf shippedKuka testQ0 4 = !![0, 0, 1, 0.8; 0, -1, 0, 0; 1, 0, 0, 0.6; 0, 0, 0, 1] ∧
    frameOf shippedKuka testQ0 5 = !![0, 0, 1, 0.915; 0, -1, 0, 0; 1, 0, 0, 0.6; 0, 0, 0, 1] := by
  have e1 : Real.sin (-Real.pi / 2) = -1 := by
    rw [neg_div, Real.sin_neg, Real.sin_pi_div_two]
  have e2 : Real.cos (-Real.pi / 2) = 0 := by
    rw [neg_div, Real.cos_neg, Real.cos_pi_div_two]
  have f0 : frameBefore shippedKuka testQ0 0 = 1 := by
    simp [frameBefore, shippedKuka, kukaRobot, Robot.new, linkProduct]
  have step : ∀ {k : Nat} {l : Link Shape} {x : ℝ} {A B : M4},
      frameBefore shippedKuka testQ0 k = A → shippedKuka.links[k]? = some l →
      testQ0[k]? = some x → A * l.tf x = B → frameBefore shippedKuka testQ0 (k + 1) = B :=
    fun hA hl hq hB => by rw [frameBefore_succ _ hl hq, hA, hB]
  have f1 := step (B := !![1, 0, 0, 0.18; 0, 0, -1, 0; 0, 1, 0, 0; 0, 0, 0, 1]) f0 rfl rfl (by
    ext i j; fin_cases i <;> fin_cases j <;> simp [Link.tf, dhMat])
  have f2 := step (B := !![0, -1, 0, 0.18; 0, 0, -1, 0; 1, 0, 0, 0.6; 0, 0, 0, 1]) f1 rfl rfl (by
    ext i j; fin_cases i <;> fin_cases j <;>
      simp [Link.tf, dhMat, Matrix.mul_apply, Fin.sum_univ_four])
  have f3 := step (B := !![0, 0, 1, 0.18; 0, -1, 0, 0; 1, 0, 0, 0.6; 0, 0, 0, 1]) f2 rfl rfl (by
    ext i j; fin_cases i <;> fin_cases j <;>
      simp [Link.tf, dhMat, Matrix.mul_apply, Fin.sum_univ_four])
  have f4 := step (B := !![0, -1, 0, 0.8; 0, 0, -1, 0; 1, 0, 0, 0.6; 0, 0, 0, 1]) f3 rfl rfl (by
    ext i j; fin_cases i <;> fin_cases j <;>
      simp [Link.tf, dhMat, Matrix.mul_apply, Fin.sum_univ_four, e1, e2] <;> norm_num)
  have f5 := step (B := !![0, 0, 1, 0.8; 0, -1, 0, 0; 1, 0, 0, 0.6; 0, 0, 0, 1]) f4 rfl rfl (by
    ext i j; fin_cases i <;> fin_cases j <;>
      simp [Link.tf, dhMat, Matrix.mul_apply, Fin.sum_univ_four])
  have f6 := step (B := !![0, 0, 1, 0.915; 0, -1, 0, 0; 1, 0, 0, 0.6; 0, 0, 0, 1]) f5 rfl rfl (by
    ext i j; fin_cases i <;> fin_cases j <;>
      simp [Link.tf, dhMat, Matrix.mul_apply, Fin.sum_univ_four] <;> norm_num)
  exact ⟨f1, f2, f3, f4, f5, f6⟩

theorem q0_far : 0.8 ≤ Real.sqrt (dist2 (posPart shippedKuka.tfBase)
    (posPart (frameOf shippedKuka testQ0 5))) := by
  change 0.8 ≤ gap _ _
  refine le_trans ?_ (coord_le_gap _ _ 0)
  rw [q0_frames.2.2.2.2.2]
  simp [posPart, shippedKuka, kukaRobot, Robot.new]
  norm_num

/-- At `q0` the whole arm is within 0.1 of the plane `y = 0`. -/
theorem q0_body (k : Nat) {x : V3} (hx : x ∈ linkBody shippedKuka testQ0 k) : |x 1| ≤ 0.1 := by
  obtain ⟨f0, f1, f2, f3, f4, f5⟩ := q0_frames
  obtain ⟨g0, g1, g2, g3, g4, g5, g6⟩ := C113_kuka _ _ _ _ shippedKuka rfl IsRigid.one testQ0
  have key : ∀ {j : Nat} {lo hi : V3} {M : M4}, Fills shippedKuka testQ0 j lo hi →
      frameOf shippedKuka testQ0 j = M → x ∈ linkBody shippedKuka testQ0 j →
      (∀ u : V3, (∀ i, lo i ≤ u i ∧ u i ≤ hi i) → |act M u 1| ≤ 0.1) → |x 1| ≤ 0.1 := by
    intro j lo hi M hg hf hm h
    obtain ⟨u, rfl, hu⟩ := hg.mem IsRigid.one hm
    rw [hf]
    exact h u hu
  rcases k with _ | _ | _ | _ | _ | _ | k
  · refine key g0 f0 hx fun u hu => ?_
    have := hu 2
    rw [act_coord]
    simp at this ⊢
    rw [abs_le]; constructor <;> linarith
  · refine key g1 f1 hx fun u hu => ?_
    have := hu 2
    rw [act_coord]
    simp at this ⊢
    rw [abs_le]; constructor <;> linarith
  · refine key g2 f2 hx fun u hu => ?_
    have := hu 1
    rw [act_coord]
    simp at this ⊢
    rw [abs_le]; constructor <;> linarith
  · refine key g3 f3 hx fun u hu => ?_
    have := hu 2
    rw [act_coord]
    simp at this ⊢
    rw [abs_le]; constructor <;> linarith
  · refine key g4 f4 hx fun u hu => ?_
    have := hu 1
    rw [act_coord]
    simp at this ⊢
    rw [abs_le]; constructor <;> linarith
  · refine key g5 f5 hx fun u hu => ?_
    have := hu 1
    rw [act_coord]
    simp at this ⊢
    rw [abs_le]; constructor <;> linarith
  · rw [g6 _ (by omega)] at hx
    exact hx.elim

/-- tests/test_robot.py:227-230 `obj1` -/
noncomputable def testObj1 : Collection Shape :=
  ⟨[⟨0.2, 0.3, 0.5⟩, ⟨0.1, 0.3, 0.1⟩], [poseX 0 0.75 0 0.5, poseX 0 0.75 0.5 0.5]⟩

/-- tests/test_robot.py:231-234 `obj2` -/
noncomputable def testObj2 : Collection Shape :=
  ⟨[⟨0.2, 0.3, 0.5⟩, ⟨0.1, 0.3, 0.1⟩], [poseX 0 0.3 (-0.7) 0.5, poseX 0 0.75 0.5 0.5]⟩

/-- tests/test_robot.py:213-218: no self collision at `q0`. -/
example (history : List (Call Shape)) (hh : ∀ c ∈ history, c.robot.links = shippedKuka.links) :
    (shippedKuka.isInSelfCollision boxOracle (after boxOracle shippedKuka.links history) testQ0).1 =
      .ok false := by
  obtain ⟨b, h1, h2⟩ := C34_self_collision boxOracle shippedKuka shipped_known rfl (.inl rfl) history hh
    testQ0 (le_refl _)
  rw [h1]
  cases b
  · rfl
  · exfalso
    rcases h2.1 rfl with ⟨i, j, li, lj, hij, hi, hj, h⟩ | ⟨tool, i, li, h, -⟩
    · have := (touch_bodies shippedKuka testQ0 hi hj).1 h
      rcases hij with hij | hij
      · rw [C128_bodies shippedKuka rfl IsRigid.one (le_refl _) q0_far i j hij] at this
        exact Set.not_nonempty_empty this
      · rw [Set.inter_comm, C128_bodies shippedKuka rfl IsRigid.one (le_refl _) q0_far j i hij] at this
        exact Set.not_nonempty_empty this
    · cases h

/-- tests/test_robot.py:235-238: the first objects are hit, the second ones are not. -/
theorem q0_objects (history : List (Call Shape)) (hh : ∀ c ∈ history, c.robot.links = shippedKuka.links) :
    (shippedKuka.isInCollision boxOracle (after boxOracle shippedKuka.links history) testQ0
      testObj1).1 = .ok true ∧
    (shippedKuka.isInCollision boxOracle (after boxOracle shippedKuka.links history) testQ0
      testObj2).1 = .ok false := by
  have c := fun scene => C128_check shippedKuka rfl IsRigid.one rfl rfl (le_refl _) q0_far scene history hh
  constructor
  · obtain ⟨b, h1, h2⟩ := c testObj1
    rw [h1, h2.2 (.inr ⟨3, _, rfl, (touch_scene shippedKuka testQ0 rfl testObj1).2 ?_⟩)]
    obtain ⟨-, -, -, g3, -⟩ := C113_kuka _ _ _ _ shippedKuka rfl IsRigid.one testQ0
    refine ⟨act (frameOf shippedKuka testQ0 3) ![0, 0.1, 0], (g3 _).2 ?_, 0, _, _, rfl, rfl,
      (mem_translated (act_poseX_zero _ _ _) _ _).2 ?_⟩
    · intro i
      fin_cases i <;> simp <;> norm_num
    · rw [q0_frames.2.2.2.1, act_coord, act_coord, act_coord]
      simp
      norm_num [abs_le]
  · obtain ⟨b, h1, h2⟩ := c testObj2
    rw [h1]
    cases b
    · rfl
    · exfalso
      rcases h2.1 rfl with ⟨base, h, -⟩ | ⟨k, l, hk, h⟩
      · cases h
      · obtain ⟨x, hx, i, s, T, hs, hT, hm⟩ := (touch_scene shippedKuka testQ0 hk testObj2).1 h
        have hy := abs_le.1 (q0_body k hx)
        rcases i with _ | _ | i
        · cases hs
          cases hT
          obtain ⟨-, h, -⟩ := (mem_translated (act_poseX_zero _ _ _) _ _).1 hm
          rw [abs_le] at h
          simp at h
          norm_num at h hy
          linarith [h.1, h.2, hy.1, hy.2]
        · cases hs
          cases hT
          obtain ⟨-, h, -⟩ := (mem_translated (act_poseX_zero _ _ _) _ _).1 hm
          rw [abs_le] at h
          simp at h
          norm_num at h hy
          linarith [h.1, h.2, hy.1, hy.2]
        · simp [testObj2] at hs

/-- tests/test_robot.py:215 `q_self_collision` -/
noncomputable def testQSelf : List ℝ := [0, 1.5, -1.3, 0, -1.5, 0]

/-- tests/test_robot.py:219-221: the hand runs into the upper arm. -/
example (history : List (Call Shape)) (hh : ∀ c ∈ history, c.robot.links = shippedKuka.links) :
    (shippedKuka.isInSelfCollision boxOracle (after boxOracle shippedKuka.links history)
      testQSelf).1 = .ok true := by
  obtain ⟨b, h1, h2⟩ := C34_self_collision boxOracle shippedKuka shipped_known rfl (.inl rfl) history hh
    testQSelf (le_refl _)
  obtain ⟨-, g1, -, -, -, g5, -⟩ := C113_kuka _ _ _ _ shippedKuka rfl IsRigid.one testQSelf
  have e1 : Real.sin (-Real.pi / 2) = -1 := by
    rw [neg_div, Real.sin_neg, Real.sin_pi_div_two]
  have e2 : Real.cos (-Real.pi / 2) = 0 := by
    rw [neg_div, Real.cos_neg, Real.cos_pi_div_two]
  have st : ∀ (k : Nat) (l : Link Shape) (x : ℝ), shippedKuka.links[k + 1]? =
      some l → testQSelf[k + 1]? = some x → ∀ u, act (frameOf shippedKuka testQSelf (k + 1)) u =
        act (frameOf shippedKuka testQSelf k) (act (l.tf x) u) := fun k l x hl hx u =>
    frame_step IsRigid.one hl hx u
  have hp1 := Real.pi_gt_d6
  have hp2 := Real.pi_lt_d6
  have c3 : Real.cos (-1.3) = Real.sin (Real.pi / 2 - 1.3) := by
    rw [Real.cos_neg, Real.sin_pi_div_two_sub]
  have s3 : Real.sin (-1.3) = -Real.cos (Real.pi / 2 - 1.3) := by
    rw [Real.sin_neg, Real.cos_pi_div_two_sub]
  have c5 : Real.cos (-1.5) = Real.sin (Real.pi / 2 - 1.5) := by
    rw [Real.cos_neg, Real.sin_pi_div_two_sub]
  have s5 : Real.sin (-1.5) = -Real.cos (Real.pi / 2 - 1.5) := by
    rw [Real.sin_neg, Real.cos_pi_div_two_sub]
  have small : ∀ {x y : ℝ}, 0 < x → x < y → y ≤ 1 → 0 < Real.sin x ∧ Real.sin x < y ∧
      x - y * y * y / 6 < Real.sin x ∧ 1 - y * y / 2 < Real.cos x ∧ Real.cos x ≤ 1 := by
    intro x y h0 hxy h1
    have a := Real.sin_gt_sub_cube h0
    have b := Real.one_sub_sq_div_two_le_cos (x := x)
    have hsq : x ^ 2 < y * y := by nlinarith
    have hcu : x ^ 3 < y * y * y := by
      calc x ^ 3 = x ^ 2 * x := by ring
        _ < y * y * y := by nlinarith
    exact ⟨Real.sin_pos_of_pos_of_lt_pi h0 (by linarith), (Real.sin_lt h0).trans hxy, by linarith,
      by linarith, Real.cos_le_one _⟩
  obtain ⟨-, a1, a2, a3, a4⟩ := small (x := Real.pi / 2 - 1.3) (y := 0.271) (by linarith) (by linarith)
    (by norm_num)
  obtain ⟨-, b1, b2, b3, b4⟩ := small (x := Real.pi / 2 - 1.5) (y := 0.071) (by linarith) (by linarith)
    (by norm_num)
  rw [h1, h2.2 (.inl ⟨1, 5, _, _, .inl (by norm_num), rfl, rfl,
    (touch_bodies shippedKuka testQSelf rfl rfl).2 ?_⟩)]
  refine ⟨act (frameOf shippedKuka testQSelf 5) ![-0.05, 0, 0], ?_, (g5 _).2 ?_⟩
  · rw [st 4 _ _ rfl rfl, st 3 _ _ rfl rfl, st 2 _ _ rfl rfl, st 1 _ _ rfl rfl, g1]
    simp only [Link.tf, act_dhMat_coord, Matrix.cons_val, e1, e2, c3, s3, c5, s5, Real.cos_pi_div_two,
      Real.sin_pi_div_two, Real.cos_zero, Real.sin_zero]
    generalize Real.sin (Real.pi / 2 - 1.3) = p at *
    generalize Real.cos (Real.pi / 2 - 1.3) = p' at *
    generalize Real.sin (Real.pi / 2 - 1.5) = w at *
    generalize Real.cos (Real.pi / 2 - 1.5) = w' at *
    norm_num at a1 a2 a3 a4 b1 b2 b3 b4
    have a2' : 0.265 < p := by linarith
    have b2' : 0.07 < w := by linarith
    intro i
    fin_cases i
    · simp
      norm_num
      constructor <;> nlinarith
    · simp
      norm_num
      constructor <;> nlinarith
    · simp
      norm_num
  · intro i
    fin_cases i <;> simp <;> norm_num

/-- tests/test_collision_checking.py:6 `q1` -/
noncomputable def testQ1 : List ℝ :=
  [-0.08307708, -0.61114407, 3.64637661, 0.77815741, -2.17606544, 2.35626125]

/-- tests/test_collision_checking.py:8-10 `scene1` -/
noncomputable def testScene1 : Collection Shape := ⟨[⟨0.5, 0.5, 0.1⟩], [poseX 0 0.8 0 0]⟩

/-- tests/test_collision_checking.py:14-17: the forearm runs into the table. -/
example (history : List (Call Shape)) (hh : ∀ c ∈ history, c.robot.links = shippedKuka.links) :
    (shippedKuka.isInCollision boxOracle (after boxOracle shippedKuka.links history) testQ1
      testScene1).1 = .ok true := by
  obtain ⟨b, h1, h2⟩ := C33_answer boxOracle shippedKuka shipped_known rfl (.inl rfl) history hh
    testQ1 (le_refl _) testScene1
  rw [h1, h2.2 (.inl (.inr (.inl ⟨2, _, rfl, (touch_scene shippedKuka testQ1 rfl testScene1).2 ?_⟩)))]
  obtain ⟨-, -, g2, -⟩ := C113_kuka _ _ _ _ shippedKuka rfl IsRigid.one testQ1
  have st : ∀ (k : Nat) (l : Link Shape) (x : ℝ), shippedKuka.links[k + 1]? =
      some l → testQ1[k + 1]? = some x → ∀ u, act (frameOf shippedKuka testQ1 (k + 1)) u =
        act (frameOf shippedKuka testQ1 k) (act (l.tf x) u) := fun k l x hl hx u =>
    frame_step IsRigid.one hl hx u
  have f0 : frameOf shippedKuka testQ1 0 = dhMat 0.18 (Real.pi / 2) 0 (-0.08307708) := by
    have := frameBefore_succ shippedKuka (q := testQ1) (k := 0) (x := -0.08307708) rfl rfl
    refine Eq.trans this ?_
    simp [frameBefore, linkProduct, Link.tf, shippedKuka, kukaRobot, Robot.new]
  have hp1 := Real.pi_gt_d4
  have hp2 := Real.pi_lt_d4
  refine ⟨act (frameOf shippedKuka testQ1 2) ![0, 0, 0.346], (g2 _).2 ?_, 0, _, _, rfl, rfl,
      (mem_translated (act_poseX_zero _ _ _) _ _).2 ?_⟩
  · intro i
    fin_cases i <;> simp <;> norm_num
  · have hS : Real.sin (-0.61114407) * Real.cos 3.64637661 + Real.cos (-0.61114407) *
        Real.sin 3.64637661 = Real.sin (Real.pi - 3.03523254) := by
      rw [Real.sin_pi_sub, ← Real.sin_add]
      norm_num
    have hC : Real.cos (-0.61114407) * Real.cos 3.64637661 - Real.sin (-0.61114407) *
        Real.sin 3.64637661 = -Real.cos (Real.pi - 3.03523254) := by
      rw [Real.cos_pi_sub, neg_neg, ← Real.cos_add]
      norm_num
    have a1 : 0 < Real.sin (Real.pi - 3.03523254) :=
      Real.sin_pos_of_pos_of_lt_pi (by linarith) (by linarith)
    have a2 : Real.sin (Real.pi - 3.03523254) < 0.11 :=
      (Real.sin_lt (by linarith)).trans (by linarith)
    have a3 := Real.one_sub_sq_div_two_le_cos (x := Real.pi - 3.03523254)
    have a4 := Real.cos_le_one (Real.pi - 3.03523254)
    have a5 : (Real.pi - 3.03523254) ^ 2 < 0.012 := by nlinarith
    have b1 := Real.one_sub_sq_div_two_le_cos (x := -0.61114407)
    have b2 := Real.cos_le_one (-0.61114407)
    have b3 := abs_le.1 (Real.sin_bound (x := 0.61114407) (by norm_num [abs_le]))
    have b4 : Real.sin (-0.61114407) = -Real.sin 0.61114407 := Real.sin_neg _
    have c1 := Real.one_sub_sq_div_two_le_cos (x := -0.08307708)
    have c2 := Real.cos_le_one (-0.08307708)
    have c3 : Real.sin (-0.08307708) = -Real.sin 0.08307708 := Real.sin_neg _
    have c4 : Real.sin 0.08307708 < 0.08307708 := Real.sin_lt (by norm_num)
    have c5 : 0 < Real.sin 0.08307708 := Real.sin_pos_of_pos_of_lt_pi (by norm_num) (by linarith)
    rw [st 1 _ _ rfl rfl, st 0 _ _ rfl rfl, f0]
    simp only [Link.tf, act_dhMat_coord, Matrix.cons_val, Real.cos_pi_div_two,
      Real.sin_pi_div_two, Real.cos_zero, Real.sin_zero]
    rw [b4] at hS hC ⊢
    rw [c3]
    generalize Real.sin (Real.pi - 3.03523254) = S at *
    generalize Real.cos (Real.pi - 3.03523254) = K at *
    generalize Real.cos (-0.61114407) = x2 at *
    generalize Real.sin 0.61114407 = y2 at *
    generalize Real.cos 3.64637661 = x3 at *
    generalize Real.sin 3.64637661 = y3 at *
    generalize Real.cos (-0.08307708) = x1 at *
    generalize Real.sin 0.08307708 = y1 at *
    norm_num [abs_le] at b1 b2 b3 c1 c2 c4 a3 a5 ⊢
    have hX : x2 * (y3 * (173 / 500)) - y2 * (x3 * (173 / 500)) + 3 / 5 * x2 =
        173 / 500 * S + 3 / 5 * x2 := by linear_combination 173 / 500 * hS
    rw [hX]
    refine ⟨⟨?_, ?_⟩, ⟨?_, ?_⟩, ?_, ?_⟩
    · nlinarith
    · nlinarith
    · nlinarith
    · nlinarith
    · linarith [b3.1, b3.2]
    · linarith [b3.1, b3.2]

end Verif.Props
