import Verif.Props.Bodies
import Verif.Props.Rounding

/-! # Where the Kuka cannot touch itself (C128)

The self-collision check of robot.py:190-210 tests the pairs of links whose index differs by at least
three.  With the flange 0.8 m or more from the origin of the base, none of these pairs of the Kuka of the
library has a common point. -/

set_option linter.unusedSectionVars false

namespace Verif.Props

open Matrix Verif.Geometry Verif.Kin Verif.Util

theorem coord_le_gap (x y : V3) (i : Fin 3) : |x i - y i| ≤ gap x y := by
  rw [gap]
  apply Real.abs_le_sqrt
  simp only [dist2, dotProduct, Fin.sum_univ_three, Pi.sub_apply]
  fin_cases i <;> simp only [Fin.zero_eta, Fin.mk_one, Fin.reduceFinMk] <;>
    nlinarith [sq_nonneg (x 0 - y 0), sq_nonneg (x 1 - y 1), sq_nonneg (x 2 - y 2)]

theorem gap_le {x y : V3} {d : ℝ} (hd : 0 ≤ d)
    (h : (x 0 - y 0) ^ 2 + (x 1 - y 1) ^ 2 + (x 2 - y 2) ^ 2 ≤ d ^ 2) : gap x y ≤ d := by
  rw [gap, Real.sqrt_le_left hd]
  refine le_trans (le_of_eq ?_) h
  simp only [dist2, dotProduct, Fin.sum_univ_three, Pi.sub_apply]
  ring

theorem sq_le_of_gap {x y : V3} {d : ℝ} (hd : 0 ≤ d) (h : d ≤ gap x y) :
    d ^ 2 ≤ (x 0 - y 0) ^ 2 + (x 1 - y 1) ^ 2 + (x 2 - y 2) ^ 2 := by
  have h0 : dist2 x y = (x 0 - y 0) ^ 2 + (x 1 - y 1) ^ 2 + (x 2 - y 2) ^ 2 := by
    simp only [dist2, dotProduct, Fin.sum_univ_three, Pi.sub_apply]
    ring
  rw [gap, h0, Real.le_sqrt hd (by positivity)] at h
  exact h

section

variable {r : Robot Shape} {q : List ℝ}

/-- A point of a frame seen from the frame before. -/
theorem frame_step (hb : IsRigid r.tfBase) {k : Nat} {l : Link Shape} {x : ℝ}
    (hl : r.links[k + 1]? = some l) (hq : q[k + 1]? = some x) (u : V3) :
    act (frameOf r q (k + 1)) u = act (frameOf r q k) (act (l.tf x) u) := by
  have := frameBefore_succ r hl hq
  change frameOf r q (k + 1) = frameOf r q k * l.tf x at this
  rw [this, act_mul (frame_rigid r hb q k).2]
  unfold Link.tf
  cases l.jointType <;> exact dhMat_last _ _ _ _

/-- The wrist centre and the shoulder of the Kuka. -/
structure KukaPoints (r : Robot Shape) (q : List ℝ) (S W : V3) : Prop where
  hand : ∀ u : V3, ∃ v : V3, act (frameOf r q 5) u = act (frameOf r q 4) v ∧
    v 0 ^ 2 + v 1 ^ 2 = u 0 ^ 2 + u 1 ^ 2 ∧ v 2 = u 2 + 0.115
  wrist4 : act (frameOf r q 4) 0 = W
  wrist3 : act (frameOf r q 3) 0 = W
  wrist2 : act (frameOf r q 2) ![0, 0, 0.62] = W
  wrist1 : ∃ c s : ℝ, c ^ 2 + s ^ 2 = 1 ∧ act (frameOf r q 1) ![0.62 * s, -(0.62 * c), 0] = W
  shoulder1 : act (frameOf r q 1) ![-0.6, 0, 0] = S
  shoulder0 : act (frameOf r q 0) 0 = S
  base : gap (posPart r.tfBase) S = 0.18

theorem kuka_points (hr : r.links = (kukaRobot 0.18 0.6 0.62 0.115).links) (hb : IsRigid r.tfBase)
    (hq : 6 ≤ q.length) : ∃ S W, KukaPoints r q S W := by
  obtain ⟨q1, q2, q3, q4, q5, q6, rest, rfl⟩ : ∃ q1 q2 q3 q4 q5 q6 rest,
      q = q1 :: q2 :: q3 :: q4 :: q5 :: q6 :: rest := by
    rcases q with _ | ⟨q1, _ | ⟨q2, _ | ⟨q3, _ | ⟨q4, _ | ⟨q5, _ | ⟨q6, rest⟩⟩⟩⟩⟩⟩
    all_goals first
      | (simp at hq; done)
      | (simp only [List.length_cons, List.length_nil] at hq; omega)
      | exact ⟨_, _, _, _, _, _, _, rfl⟩
  set Q := q1 :: q2 :: q3 :: q4 :: q5 :: q6 :: rest with hQ
  have st : ∀ (k : Nat) (l : Link Shape) (x : ℝ), (kukaRobot 0.18 0.6 0.62 0.115).links[k + 1]? =
      some l → Q[k + 1]? = some x → ∀ u, act (frameOf r Q (k + 1)) u =
        act (frameOf r Q k) (act (l.tf x) u) := fun k l x hl hx u =>
    frame_step hb (by rw [hr]; exact hl) hx u
  have s1 := st 0 _ q2 rfl rfl
  have s2 := st 1 _ q3 rfl rfl
  have s3 := st 2 _ q4 rfl rfl
  have s4 := st 3 _ q5 rfl rfl
  have s5 := st 4 _ q6 rfl rfl
  simp only [Link.tf, act_dhMat_coord] at s1 s2 s3 s4 s5
  have w4 : act (frameOf r Q 4) 0 = act (frameOf r Q 3) 0 := by
    rw [s4]; congr 1; ext i; fin_cases i <;> simp
  have w3 : act (frameOf r Q 3) 0 = act (frameOf r Q 2) ![0, 0, 0.62] := by
    rw [s3]; congr 1; ext i; fin_cases i <;> simp
  refine ⟨act (frameOf r Q 0) 0, act (frameOf r Q 2) ![0, 0, 0.62], ?_, w4.trans w3, w3, rfl, ?_,
    ?_, rfl, ?_⟩
  · intro u
    rw [s5]
    refine ⟨_, rfl, ?_, ?_⟩
    · simp only [Matrix.cons_val, Real.cos_zero, Real.sin_zero]
      linear_combination (u 0 ^ 2 + u 1 ^ 2) * Real.cos_sq_add_sin_sq q6
    · simp only [Matrix.cons_val, Real.cos_zero, Real.sin_zero]
      ring
  · refine ⟨Real.cos q3, Real.sin q3, Real.cos_sq_add_sin_sq q3, ?_⟩
    rw [s2]; congr 1; ext i; fin_cases i <;> simp [mul_comm]
  · rw [s1]
    congr 1
    ext i
    fin_cases i <;> simp <;> ring
  · have h0 : frameOf r Q 0 = r.tfBase * dhMat 0.18 (Real.pi / 2) 0 q1 := by
      have := frameBefore_succ r (q := Q) (k := 0) (x := q1) (by rw [hr]; rfl) rfl
      refine Eq.trans this ?_
      simp [frameBefore, linkProduct, Link.tf]
    have e : act (frameOf r Q 0) 0 = act r.tfBase ![0.18 * Real.cos q1, 0.18 * Real.sin q1, 0] := by
      rw [h0, act_mul hb.2 (dhMat_last _ _ _ _), act_dhMat_coord]
      congr 1
      ext i
      fin_cases i <;> simp
    have e0 : posPart r.tfBase = act r.tfBase 0 := by simp [act]
    rw [e, e0, gap_rigid hb, gap]
    rw [show dist2 (0 : V3) ![0.18 * Real.cos q1, 0.18 * Real.sin q1, 0] = 0.18 ^ 2 by
      simp only [dist2, dotProduct, Fin.sum_univ_three, Pi.sub_apply, Pi.zero_apply, Matrix.cons_val]
      linear_combination 0.18 ^ 2 * Real.cos_sq_add_sin_sq q1]
    exact Real.sqrt_sq (by norm_num)

end

/-- **C128**: with the flange 0.8 m or more from the origin of the base, no two links of the Kuka that
the self-collision check compares have a common point, in any configuration and for every rigid
base. -/
theorem C128_bodies (r : Robot Shape) (hr : r.links = (kukaRobot 0.18 0.6 0.62 0.115).links)
    (hb : IsRigid r.tfBase) {q : List ℝ} (hq : 6 ≤ q.length)
    (hfar : 0.8 ≤ Real.sqrt (dist2 (posPart r.tfBase) (posPart (frameOf r q 5)))) (i j : Nat)
    (hij : i + 3 ≤ j) : linkBody r q i ∩ linkBody r q j = ∅ := by
  obtain ⟨S, W, K⟩ := kuka_points hr hb hq
  obtain ⟨f0, f1, f2, f3, f4, f5, f6⟩ := C113_kuka 0.18 0.6 0.62 0.115 r hr hb q
  have hg := fun k => gap_rigid (frame_rigid r hb q k)
  change 0.8 ≤ gap _ _ at hfar
  have hP : posPart (frameOf r q 5) = act (frameOf r q 5) 0 := by simp [act]
  have hPW : gap (posPart (frameOf r q 5)) W ≤ 0.115 := by
    obtain ⟨v, hv, hv1, hv2⟩ := K.hand 0
    rw [hP, hv, ← K.wrist4, hg]
    refine gap_le (by norm_num) ?_
    simp only [Pi.zero_apply] at *
    rw [hv2]
    nlinarith
  have hSW : 0.505 ≤ gap S W := by
    have h1 := gap_triangle (posPart r.tfBase) S (posPart (frameOf r q 5))
    have h2 := gap_triangle S W (posPart (frameOf r q 5))
    rw [gap_comm W] at h2
    rw [K.base] at h1
    linarith
  -- the points of the hand and of the forearm's end are close to the wrist
  have near : ∀ j, 3 ≤ j → ∀ x ∈ linkBody r q j, gap x W ≤ 0.213 ∧ (4 ≤ j → gap x W ≤ 0.136) := by
    intro j hj x hx
    rcases Nat.lt_or_ge j 6 with h6 | h6
    · obtain rfl | rfl | rfl : j = 3 ∨ j = 4 ∨ j = 5 := by omega
      · obtain ⟨u, rfl, hu⟩ := f3.mem hb hx
        have a0 := hu 0
        have a1 := hu 1
        have a2 := hu 2
        simp only [Matrix.cons_val] at a0 a1 a2
        refine ⟨?_, fun h => by omega⟩
        rw [← K.wrist3, hg]
        refine gap_le (by norm_num) ?_
        simp only [Pi.zero_apply]
        nlinarith
      · obtain ⟨u, rfl, hu⟩ := f4.mem hb hx
        have a0 := hu 0
        have a1 := hu 1
        have a2 := hu 2
        simp only [Matrix.cons_val] at a0 a1 a2
        have : gap (act (frameOf r q 4) u) W ≤ 0.136 := by
          rw [← K.wrist4, hg]
          refine gap_le (by norm_num) ?_
          simp only [Pi.zero_apply]
          nlinarith
        exact ⟨this.trans (by norm_num), fun _ => this⟩
      · obtain ⟨u, rfl, hu⟩ := f5.mem hb hx
        have a0 := hu 0
        have a1 := hu 1
        have a2 := hu 2
        simp only [Matrix.cons_val] at a0 a1 a2
        have : gap (act (frameOf r q 5) u) W ≤ 0.136 := by
          obtain ⟨v, hv, hv1, hv2⟩ := K.hand u
          rw [hv, ← K.wrist4, hg]
          refine gap_le (by norm_num) ?_
          simp only [Pi.zero_apply, sub_zero]
          rw [hv1, hv2]
          nlinarith
        exact ⟨this.trans (by norm_num), fun _ => this⟩
    · rw [f6 j h6] at hx
      exact absurd hx (Set.notMem_empty x)
  refine Set.eq_empty_iff_forall_notMem.2 ?_
  rintro x ⟨hx, hx'⟩
  obtain ⟨n1, n2⟩ := near j (by omega) x hx'
  rcases Nat.lt_or_ge i 3 with h3 | h3
  · obtain rfl | rfl | rfl : i = 0 ∨ i = 1 ∨ i = 2 := by omega
    · obtain ⟨u, rfl, hu⟩ := f0.mem hb hx
      have a0 := hu 0
      have a1 := hu 1
      have a2 := hu 2
      simp only [Matrix.cons_val] at a0 a1 a2
      have : gap S (act (frameOf r q 0) u) ≤ 0.28 := by
        rw [← K.shoulder0, hg]
        refine gap_le (by norm_num) ?_
        simp only [Pi.zero_apply]
        nlinarith
      linarith [gap_triangle S (act (frameOf r q 0) u) W]
    · obtain ⟨u, rfl, hu⟩ := f1.mem hb hx
      have a0 := hu 0
      have a1 := hu 1
      simp only [Matrix.cons_val] at a0 a1
      obtain ⟨c, s, hcs, hW⟩ := K.wrist1
      have n2 := n2 (by omega)
      rw [← hW, hg] at n2
      have c0 := abs_le.1 ((coord_le_gap _ _ 0).trans n2)
      have c1 := abs_le.1 ((coord_le_gap _ _ 1).trans n2)
      simp only [Matrix.cons_val] at c0 c1
      have hlow : -0.66 ≤ s := by
        rw [← hW, ← K.shoulder1, hg] at hSW
        have := sq_le_of_gap (by norm_num) hSW
        simp only [Matrix.cons_val] at this
        nlinarith
      nlinarith
    · obtain ⟨u, rfl, hu⟩ := f2.mem hb hx
      have a2 := hu 2
      simp only [Matrix.cons_val] at a2
      have n2 := n2 (by omega)
      rw [← K.wrist2, hg] at n2
      have c2 := abs_le.1 ((coord_le_gap _ _ 2).trans n2)
      simp only [Matrix.cons_val] at c2
      linarith
  · rw [f6 j (by omega)] at hx'
    exact hx'

theorem far_not_self (r : Robot Shape) (hr : r.links = (kukaRobot 0.18 0.6 0.62 0.115).links)
    (hb : IsRigid r.tfBase) (ht : r.tool = none) {q : List ℝ} (hq : 6 ≤ q.length)
    (hfar : 0.8 ≤ Real.sqrt (dist2 (posPart r.tfBase) (posPart (frameOf r q 5)))) :
    ¬ SelfTouch boxOracle r q := by
  rintro (⟨i, j, li, lj, hij, hi, hj, h⟩ | ⟨tool, i, li, h, -⟩)
  · have := (touch_bodies r q hi hj).1 h
    rcases hij with hij | hij
    · rw [C128_bodies r hr hb hq hfar i j hij] at this
      exact Set.not_nonempty_empty this
    · rw [Set.inter_comm, C128_bodies r hr hb hq hfar j i hij] at this
      exact Set.not_nonempty_empty this
  · rw [ht] at h
    cases h

/-- C128: for such a configuration and without a tool, `is_in_collision` answers whether the base or a
link touches the scene, whether or not self-collisions are checked. -/
theorem C128_check (r : Robot Shape) (hr : r.links = (kukaRobot 0.18 0.6 0.62 0.115).links)
    (hb : IsRigid r.tfBase) (ht : r.tool = none) (hc : r.collisionMatrix = bandMatrix) {q : List ℝ}
    (hq : 6 ≤ q.length)
    (hfar : 0.8 ≤ Real.sqrt (dist2 (posPart r.tfBase) (posPart (frameOf r q 5))))
    (scene : Collection Shape) (history : List (Call Shape))
    (hh : ∀ c ∈ history, c.robot.links = r.links) :
    ∃ b, (r.isInCollision boxOracle (after boxOracle r.links history) q scene).1 = .ok b ∧
      (b = true ↔ (∃ base, r.geometryBase = some base ∧ Touch boxOracle base r.tfBase scene 1) ∨
        ∃ (k : Nat) (l : Link Shape), r.links[k]? = some l ∧
          Touch boxOracle l.geometry (frameOf r q k) scene 1) := by
  have hk : KnownTypes r.links := by rw [hr]; exact shipped_known
  obtain ⟨b, h1, h2⟩ := C33_answer boxOracle r hk hc (Or.inl ht) history hh q
    (by rw [hr]; exact hq) scene
  refine ⟨b, h1, h2.trans ?_⟩
  have hself := far_not_self r hr hb ht hq hfar
  unfold SceneTouch
  constructor
  · rintro ((h | h | ⟨tool, h, -⟩) | ⟨-, h⟩)
    · exact .inl h
    · exact .inr h
    · rw [ht] at h
      cases h
    · exact absurd h hself
  · rintro (h | h)
    · exact .inl (.inl h)
    · exact .inl (.inr (.inl h))

/-- C128: a case of both theorems: the stretched arm, on a base that is turned and moved. -/
example : linkBody { shippedKuka with tfBase := mkTf (rotZ 1) ![1, 2, 3] }
      [0, 0, Real.pi / 2, 0, 0, 0] 1 ∩
    linkBody { shippedKuka with tfBase := mkTf (rotZ 1) ![1, 2, 3] }
      [0, 0, Real.pi / 2, 0, 0, 0] 4 = ∅ := by
  have hb : IsRigid (mkTf (rotZ 1) ![1, 2, 3]) := isRigid_mkTf.2 (rotZ_isRot _)
  refine C128_bodies { shippedKuka with tfBase := mkTf (rotZ 1) ![1, 2, 3] } rfl hb (by simp) ?_ 1 4
    (by norm_num)
  have e : frameOf { shippedKuka with tfBase := mkTf (rotZ 1) ![1, 2, 3] }
      [0, 0, Real.pi / 2, 0, 0, 0] 5 = mkTf (rotZ 1) ![1, 2, 3] *
        chain (kukaRobot 0.18 0.6 0.62 0.115).links [0, 0, Real.pi / 2, 0, 0, 0] := by
    unfold frameOf
    rw [linkProduct_eq]
    rfl
  have e0 : ∀ T : M4, posPart T = act T 0 := fun T => by simp [act]
  change 0.8 ≤ gap _ _
  rw [e, e0, e0, act_mul hb.2 (chain_rigid _ _).2]
  change 0.8 ≤ gap (act (mkTf (rotZ 1) ![1, 2, 3]) 0) _
  rw [gap_rigid hb, chain_kuka]
  refine le_trans ?_ (coord_le_gap _ _ 0)
  simp [act, armPos, armRot, zyz_eq, Matrix.mulVec, dotProduct, Fin.sum_univ_three,
    Matrix.mul_apply]
  norm_num [Matrix.vecHead, Matrix.vecTail]
  have h2 : (![0, 0, 1] : Fin 3 → ℝ) 2 = 1 := rfl
  rw [abs_of_nonpos] <;> norm_num [h2]

end Verif.Props
