import Verif.Proofs.Kuka
import Verif.Props.Robot

/-! # C35 to C44: the shipped robots and their inverse kinematics -/

set_option linter.unusedSectionVars false

namespace Verif.Props

open Matrix Verif.Geometry Verif.Kin Verif.Util

/-- Whatever was called on the robot before, `fk(q)` does not raise and its result satisfies `P`. -/
def FkSatisfies (hit : Oracle Shape) (r : Robot Shape) (q : List ℝ) (P : M4 → Prop) : Prop :=
  ∀ history : List (Call Shape), (∀ c ∈ history, c.robot.links = r.links) →
    ∃ F, (r.fk (after hit r.links history) q).1 = .ok F ∧ P F

theorem fkSatisfies_iff (hit : Oracle Shape) (r : Robot Shape) (hk : ∀ l ∈ r.links, l.Known)
    (q : List ℝ) (hq : r.links.length ≤ q.length) (P : M4 → Prop) :
    FkSatisfies hit r q P ↔ P (r.tfBase * chain r.links q * tip r) := by
  have key : ∀ history : List (Call Shape), (∀ c ∈ history, c.robot.links = r.links) →
      (r.fk (after hit r.links history) q).1 = .ok (r.tfBase * chain r.links q * tip r) := by
    intro history hh
    rw [fk_ok (after_wf hit _ _ hh) hq hk]
    unfold tip
    cases r.tool <;> simp
  constructor
  · intro h
    obtain ⟨F, h1, h2⟩ := h [] (by simp)
    rw [key [] (by simp)] at h1
    cases h1
    exact h2
  · intro h history hh
    exact ⟨_, key history hh, h⟩

/-! ### C43 -/

theorem planar_known (a1 a2 a3 : ℝ) : ∀ l ∈ (planarArm a1 a2 a3).links, l.Known := by
  intro l hl
  simp only [planarArm, Robot.new, List.mem_cons, List.not_mem_nil, or_false] at hl
  rcases hl with rfl | rfl | rfl <;> simp [Link.Known]

theorem sphericalArm_known (d2 : ℝ) : ∀ l ∈ (sphericalArm d2).links, l.Known := by
  intro l hl
  simp only [sphericalArm, Robot.new, List.mem_cons, List.not_mem_nil, or_false] at hl
  rcases hl with rfl | rfl | rfl <;> simp [Link.Known]

theorem sphericalWrist_known (d3 : ℝ) : ∀ l ∈ (sphericalWrist d3).links, l.Known := by
  intro l hl
  simp only [sphericalWrist, Robot.new, List.mem_cons, List.not_mem_nil, or_false] at hl
  rcases hl with rfl | rfl | rfl <;> simp [Link.Known]

/-- **C43**, PlanarArm (tests/test_robot.py:43-54). -/
theorem C43_planar (hit : Oracle Shape) (a1 a2 a3 q1 q2 q3 : ℝ) :
    FkSatisfies hit (planarArm a1 a2 a3) [q1, q2, q3] (· =
      !![Real.cos (q1 + q2 + q3), -Real.sin (q1 + q2 + q3), 0,
          a1 * Real.cos q1 + a2 * Real.cos (q1 + q2) + a3 * Real.cos (q1 + q2 + q3);
         Real.sin (q1 + q2 + q3), Real.cos (q1 + q2 + q3), 0,
          a1 * Real.sin q1 + a2 * Real.sin (q1 + q2) + a3 * Real.sin (q1 + q2 + q3);
         0, 0, 1, 0;
         0, 0, 0, 1]) := by
  rw [fkSatisfies_iff _ _ (planar_known _ _ _) _ (le_refl _), chain_planar]
  simp [planarArm, Robot.new, tip]

/-- **C43**, SphericalArm (tests/test_robot.py:56-69). -/
theorem C43_spherical (hit : Oracle Shape) (d2 q1 q2 d3 : ℝ) :
    FkSatisfies hit (sphericalArm d2) [q1, q2, d3] (· =
      !![Real.cos q1 * Real.cos q2, -Real.sin q1, Real.cos q1 * Real.sin q2,
          Real.cos q1 * Real.sin q2 * d3 - Real.sin q1 * d2;
         Real.sin q1 * Real.cos q2, Real.cos q1, Real.sin q1 * Real.sin q2,
          Real.sin q1 * Real.sin q2 * d3 + Real.cos q1 * d2;
         -Real.sin q2, 0, Real.cos q2, Real.cos q2 * d3;
         0, 0, 0, 1]) := by
  rw [fkSatisfies_iff _ _ (sphericalArm_known _) _ (le_refl _), chain_sphericalArm]
  simp [sphericalArm, Robot.new, tip]

/-- **C43**, AnthropomorphicArm (tests/test_robot.py:71-86). -/
theorem C43_anthropomorphic (hit : Oracle Shape) (a2 a3 q1 q2 q3 : ℝ) :
    FkSatisfies hit (anthropomorphicArm a2 a3) [q1, q2, q3] (· =
      !![Real.cos q1 * Real.cos (q2 + q3), -Real.cos q1 * Real.sin (q2 + q3), Real.sin q1,
          Real.cos q1 * (a2 * Real.cos q2 + a3 * Real.cos (q2 + q3));
         Real.sin q1 * Real.cos (q2 + q3), -Real.sin q1 * Real.sin (q2 + q3), -Real.cos q1,
          Real.sin q1 * (a2 * Real.cos q2 + a3 * Real.cos (q2 + q3));
         Real.sin (q2 + q3), Real.cos (q2 + q3), 0,
          a2 * Real.sin q2 + a3 * Real.sin (q2 + q3);
         0, 0, 0, 1]) := by
  rw [fkSatisfies_iff _ _ (anthropomorphic_known _ _) _ (le_refl _), chain_anthropomorphic]
  simp [anthropomorphicArm, Robot.new, tip]

/-- **C43**, Arm2 (tests/test_robot.py:88-105). -/
theorem C43_arm2 (hit : Oracle Shape) (a1 a2 a3 q1 q2 q3 : ℝ) :
    FkSatisfies hit (arm2 a1 a2 a3) [q1, q2, q3] (· =
      !![Real.cos q1 * Real.cos (q2 + q3), Real.sin q1, Real.cos q1 * Real.sin (q2 + q3),
          Real.cos q1 * (a1 + a2 * Real.cos q2 + a3 * Real.cos (q2 + q3));
         Real.sin q1 * Real.cos (q2 + q3), -Real.cos q1, Real.sin q1 * Real.sin (q2 + q3),
          Real.sin q1 * (a1 + a2 * Real.cos q2 + a3 * Real.cos (q2 + q3));
         Real.sin (q2 + q3), 0, -Real.cos (q2 + q3),
          a2 * Real.sin q2 + a3 * Real.sin (q2 + q3);
         0, 0, 0, 1]) := by
  rw [fkSatisfies_iff _ _ (arm2_known _ _ _) _ (le_refl _), chain_arm2]
  simp only [arm2, Robot.new, tip, one_mul, Option.map_none, Option.getD_none, mul_one]
  ext i j
  fin_cases i <;> fin_cases j <;> rfl

/-- The matrix of tests/kuka_forward_kinematics.py:13-22, for all parameters. -/
noncomputable def kukaMatrix (a1 a2 d4 d6 q1 q2 q3 q4 q5 q6 : ℝ) : M4 :=
  let s1 := Real.sin q1
  let c1 := Real.cos q1
  let c2 := Real.cos q2
  let s2 := Real.sin q2
  let s4 := Real.sin q4
  let c4 := Real.cos q4
  let s5 := Real.sin q5
  let c5 := Real.cos q5
  let s6 := Real.sin q6
  let c6 := Real.cos q6
  let s23 := Real.sin (q2 + q3)
  let c23 := Real.cos (q2 + q3)
  !![((s1 * s4 + c1 * c4 * c23) * c5 - s5 * s23 * c1) * c6 + (s1 * c4 - s4 * c1 * c23) * s6,
     -((s1 * s4 + c1 * c4 * c23) * c5 - s5 * s23 * c1) * s6 + (s1 * c4 - s4 * c1 * c23) * c6,
     (s1 * s4 + c1 * c4 * c23) * s5 + s23 * c1 * c5,
     a1 * c1 + a2 * c1 * c2 + d4 * s23 * c1 + d6 * ((s1 * s4 + c1 * c4 * c23) * s5 + s23 * c1 * c5);
     ((s1 * c4 * c23 - s4 * c1) * c5 - s1 * s5 * s23) * c6 - (s1 * s4 * c23 + c1 * c4) * s6,
     -((s1 * c4 * c23 - s4 * c1) * c5 - s1 * s5 * s23) * s6 - (s1 * s4 * c23 + c1 * c4) * c6,
     (s1 * c4 * c23 - s4 * c1) * s5 + s1 * s23 * c5,
     a1 * s1 + a2 * s1 * c2 + d4 * s1 * s23 + d6 * ((s1 * c4 * c23 - s4 * c1) * s5 + s1 * s23 * c5);
     (s5 * c23 + s23 * c4 * c5) * c6 - s4 * s6 * s23,
     -(s5 * c23 + s23 * c4 * c5) * s6 - s4 * s23 * c6,
     s5 * s23 * c4 - c5 * c23,
     a2 * s2 - d4 * c23 + d6 * (s5 * s23 * c4 - c5 * c23);
     0, 0, 0, 1]

theorem chain_kuka_matrix (a1 a2 d4 d6 q1 q2 q3 q4 q5 q6 : ℝ) :
    chain (kukaRobot a1 a2 d4 d6).links [q1, q2, q3, q4, q5, q6] =
      kukaMatrix a1 a2 d4 d6 q1 q2 q3 q4 q5 q6 := by
  have e : q2 + (q3 - Real.pi / 2) = q2 + q3 - Real.pi / 2 := by ring
  rw [chain_kuka, zyz_eq]
  ext i j
  fin_cases i <;> fin_cases j <;>
    simp [mkTf, kukaMatrix, armRot, armPos, e, Real.cos_sub_pi_div_two, Real.sin_sub_pi_div_two,
      Matrix.mul_apply, Fin.sum_univ_succ, -mul_eq_mul_left_iff] <;> ring

/-- **C43**, Kuka. -/
theorem C43_kuka (hit : Oracle Shape) (a1 a2 d4 d6 q1 q2 q3 q4 q5 q6 : ℝ) :
    FkSatisfies hit (kukaRobot a1 a2 d4 d6) [q1, q2, q3, q4, q5, q6]
      (· = kukaMatrix a1 a2 d4 d6 q1 q2 q3 q4 q5 q6) := by
  rw [fkSatisfies_iff _ _ (kuka_known _ _ _ _) _ (le_refl _), chain_kuka_matrix]
  simp [kukaRobot, Robot.new, tip]

/-- **C43**, KukaOnRail: the Kuka, turned a quarter about x and moved along z. -/
theorem C43_rail (hit : Oracle Shape) (a1 a2 d4 d6 q0 q1 q2 q3 q4 q5 q6 : ℝ) :
    FkSatisfies hit (railRobot a1 a2 d4 d6) [q0, q1, q2, q3, q4, q5, q6]
      (· = mkTf (rotX (Real.pi / 2)) ![0, 0, q0] * kukaMatrix a1 a2 d4 d6 q1 q2 q3 q4 q5 q6) := by
  rw [fkSatisfies_iff _ _ (rail_known _ _ _ _) _ (le_refl _), chain_rail, chain_kuka_matrix,
    railLink, dhMat_eq, rotZ_zero]
  simp [railRobot, Robot.new, tip]

/-- At zero the Kuka points up and to the front, below its shoulder by `d4`. -/
example (hit : Oracle Shape) : FkSatisfies hit (kukaRobot 1 2 3 4) [0, 0, 0, 0, 0, 0]
    (· = !![1, 0, 0, 3; 0, -1, 0, 0; 0, 0, -1, -7; 0, 0, 0, 1]) := by
  have := C43_kuka hit 1 2 3 4 0 0 0 0 0 0
  have e : kukaMatrix 1 2 3 4 0 0 0 0 0 0 =
      !![1, 0, 0, 3; 0, -1, 0, 0; 0, 0, -1, -7; 0, 0, 0, 1] := by
    ext i j
    fin_cases i <;> fin_cases j <;> norm_num [kukaMatrix]
  rwa [e] at this

/-! ### C35 -/

/-- **C35**: every solution has three entries, `fk` puts the end exactly at the target when the elbow
is bent; when it is stretched or folded (the cosine was snapped, or is exactly plus or minus one) the
end is off by a squared distance of at most 2·|a2·a3|·1e-6, and so is its squared distance to the
shoulder. -/
theorem C35_arm2_sound [Zeros] (hit : Oracle Shape) {a1 a2 a3 : ℝ} (ha : a2 * a3 ≠ 0) (T : M4)
    {sols : List (List ℝ)} (h : arm2Ik (arm2 a1 a2 a3) T = some sols) :
    ∀ q ∈ sols, ∃ q1 q2 q3, q = [q1, q2, q3] ∧
      (Real.sin q3 ≠ 0 → FkSatisfies hit (arm2 a1 a2 a3) q fun F => posPart F = posPart T) ∧
      FkSatisfies hit (arm2 a1 a2 a3) q fun F =>
        dist2 (posPart F) (posPart T) ≤ 2 * |a2 * a3| * (1 / 10 ^ 6) ∧
        |dist2 (posPart F) ![a1 * Real.cos q1, a1 * Real.sin q1, 0] -
          dist2 (posPart T) ![a1 * Real.cos q1, a1 * Real.sin q1, 0]| ≤
            2 * |a2 * a3| * (1 / 10 ^ 6) := by
  intro q hq
  obtain ⟨q1, q2, q3, rfl, hb, hex, hsh⟩ := (arm2Ik_cand h hq).sound ha
  have hp : (![T 0 3, T 1 3, T 2 3] : V3) = posPart T := by ext i; fin_cases i <;> rfl
  rw [hp] at hb hex hsh
  have hF : (arm2 a1 a2 a3).tfBase * chain (arm2 a1 a2 a3).links [q1, q2, q3] * tip (arm2 a1 a2 a3) =
      mkTf (armRot q1 (q2 + q3)) (armPos a1 a2 a3 q1 q2 q3) := by
    rw [chain_arm2]; simp [arm2, Robot.new, tip]
  refine ⟨q1, q2, q3, rfl, fun h0 => ?_, ?_⟩
  · rw [fkSatisfies_iff _ _ (arm2_known _ _ _) _ (le_refl _), hF, posPart_mkTf]
    exact hex h0
  · rw [fkSatisfies_iff _ _ (arm2_known _ _ _) _ (le_refl _), hF, posPart_mkTf]
    exact ⟨hb, hsh⟩

/-! ### C36 -/

/-- The set of positions Arm2 can reach. -/
def Arm2Reaches (hit : Oracle Shape) (a1 a2 a3 q1 q2 q3 : ℝ) (T : M4) : Prop :=
  FkSatisfies hit (arm2 a1 a2 a3) [q1, q2, q3] fun F => posPart F = posPart T

theorem arm2Reaches_iff (hit : Oracle Shape) (a1 a2 a3 q1 q2 q3 : ℝ) (T : M4) :
    Arm2Reaches hit a1 a2 a3 q1 q2 q3 T ↔ posPart T = armPos a1 a2 a3 q1 q2 q3 := by
  unfold Arm2Reaches
  rw [fkSatisfies_iff _ _ (arm2_known _ _ _) _ (le_refl _), chain_arm2]
  simp only [arm2, Robot.new, tip, one_mul, Option.map_none, Option.getD_none, mul_one, posPart_mkTf]
  exact eq_comm

/-- **C36**: every position that some `q` reaches is solved, with one to four solutions. -/
theorem C36_arm2_succeeds [Zeros] (hit : Oracle Shape) {a1 a2 a3 : ℝ} (ha : a2 * a3 ≠ 0)
    (q1 q2 q3 : ℝ)
    (T : M4) (hT : Arm2Reaches hit a1 a2 a3 q1 q2 q3 T) :
    ∃ sols, arm2Ik (arm2 a1 a2 a3) T = some sols ∧ 0 < sols.length ∧ sols.length ≤ 4 := by
  rw [arm2Reaches_iff] at hT
  obtain ⟨sols, hs⟩ := arm2Ik_succeeds ha q1 q2 q3 hT
  exact ⟨sols, hs, arm2Ik_length hs⟩

/-- **C36**: `q` itself is among the solutions, up to full turns, unless the end is on the first axis
or the elbow within the tolerance of stretched or folded. -/
theorem C36_arm2_complete [Zeros] (hit : Oracle Shape) {a1 a2 a3 : ℝ} (ha : a2 * a3 ≠ 0)
    (q1 q2 q3 : ℝ)
    (T : M4) (hT : Arm2Reaches hit a1 a2 a3 q1 q2 q3 T)
    (haxis : T 0 3 ≠ 0 ∨ T 1 3 ≠ 0) (helbow : |Real.cos q3| ≤ 1 - 1 / 10 ^ 6) :
    ∃ sols, arm2Ik (arm2 a1 a2 a3) T = some sols ∧ ∃ t1 t2 t3, [t1, t2, t3] ∈ sols ∧
      SameAngle t1 q1 ∧ SameAngle t2 q2 ∧ SameAngle t3 q3 := by
  rw [arm2Reaches_iff] at hT
  obtain ⟨sols, hs⟩ := arm2Ik_succeeds ha q1 q2 q3 hT
  refine ⟨sols, hs, arm2Ik_complete ha q1 q2 q3 hT ?_ helbow hs⟩
  intro h0
  have hx : T 0 3 = _ := congrFun hT 0
  have hy : T 1 3 = _ := congrFun hT 1
  simp only [armPos, h0, Matrix.cons_val_zero, Matrix.cons_val_one, mul_zero] at hx hy
  rcases haxis with h | h
  · exact h hx
  · exact h hy

/-- A bent elbow, away from the axis, meets the hypotheses of C35 and C36. -/
example [Zeros] (hit : Oracle Shape) : ∃ T : M4, Arm2Reaches hit 1 1 1 0 0 (Real.pi / 2) T ∧
    (T 0 3 ≠ 0 ∨ T 1 3 ≠ 0) ∧ |Real.cos (Real.pi / 2)| ≤ 1 - 1 / 10 ^ 6 ∧
    ∃ sols, arm2Ik (arm2 1 1 1) T = some sols ∧ 0 < sols.length := by
  have hT : Arm2Reaches hit 1 1 1 0 0 (Real.pi / 2) (mkTf 1 ![2, 0, 1]) := by
    rw [arm2Reaches_iff, posPart_mkTf]
    ext i; fin_cases i <;> norm_num [armPos]
  refine ⟨_, hT, Or.inl (by change (2 : ℝ) ≠ 0; norm_num), by norm_num, ?_⟩
  obtain ⟨s, h1, h2, -⟩ := C36_arm2_succeeds hit (by norm_num) _ _ _ _ hT
  exact ⟨s, h1, h2⟩

/-- The code calls a cosine feasible up to a tolerance of 1e-6. -/
theorem snap_isSome_iff (c : ℝ) : (snap c).isSome ↔ |c| ≤ 1 + 1 / 10 ^ 6 := by
  unfold snap tol
  rw [abs_le]
  constructor
  · intro h
    by_cases hc : c > 1 + 1 / 10 ^ 6 ∨ c < -(1 + 1 / 10 ^ 6)
    · rw [if_pos hc] at h; simp at h
    · push Not at hc
      exact ⟨hc.2, hc.1⟩
  · intro h
    rw [if_neg (by push Not; exact ⟨h.2, h.1⟩)]
    split_ifs <;> rfl

/-- A quotient is within the tolerance iff the numerator is. -/
theorem abs_div_le_iff {n d t : ℝ} (hd : d ≠ 0) : |n / d| ≤ t ↔ |n| ≤ t * |d| := by
  rw [abs_div, div_le_iff₀ (abs_pos.mpr hd)]

/-- **C36**: exactly which targets are solved: those for which the triangle with the sides `a2` and
`a3` closes up to the tolerance, seen from the shoulder on the side of the target or from the one on
the opposite side. -/
theorem C36_arm2_iff [Zeros] {a1 a2 a3 : ℝ} (ha : a2 * a3 ≠ 0) (T : M4) :
    (arm2Ik (arm2 a1 a2 a3) T).isSome ↔
      |(Real.sqrt (T 0 3 ^ 2 + T 1 3 ^ 2) - a1) ^ 2 + T 2 3 ^ 2 - a2 ^ 2 - a3 ^ 2| ≤
          (1 + 1 / 10 ^ 6) * (2 * |a2 * a3|) ∨
      |(Real.sqrt (T 0 3 ^ 2 + T 1 3 ^ 2) + a1) ^ 2 + T 2 3 ^ 2 - a2 ^ 2 - a3 ^ 2| ≤
          (1 + 1 / 10 ^ 6) * (2 * |a2 * a3|) := by
  have hd : 2 * a2 * a3 ≠ 0 := by rw [mul_assoc]; exact mul_ne_zero two_ne_zero ha
  have hda : |2 * a2 * a3| = 2 * |a2 * a3| := by rw [mul_assoc, abs_mul]; simp
  obtain ⟨xp, yp⟩ := u_pos (Zeros.py T) (Zeros.px T) (T 0 3) (T 1 3)
  obtain ⟨xn, yn⟩ := u_neg (!Zeros.py T) (!Zeros.px T) (T 0 3) (T 1 3)
  have hp := snap_isSome_iff (arm2Cos a1 a2 a3 (T 0 3) (T 1 3) (T 2 3) (atan2 (Zeros.py T) (Zeros.px T) (T 1 3) (T 0 3)))
  have hn := snap_isSome_iff
    (arm2Cos a1 a2 a3 (T 0 3) (T 1 3) (T 2 3) (atan2 (!Zeros.py T) (!Zeros.px T) (-T 1 3) (-T 0 3)))
  rw [arm2Cos_eq xp yp, abs_div_le_iff hd, hda] at hp
  rw [arm2Cos_eq xn yn, abs_div_le_iff hd, hda] at hn
  have e : (-Real.sqrt (T 0 3 ^ 2 + T 1 3 ^ 2) - a1) ^ 2 =
      (Real.sqrt (T 0 3 ^ 2 + T 1 3 ^ 2) + a1) ^ 2 := by ring
  rw [e] at hn
  rw [← hp, ← hn]
  change (if ((snap (arm2Cos a1 a2 a3 (T 0 3) (T 1 3) (T 2 3)
      (atan2 (Zeros.py T) (Zeros.px T) (T 1 3) (T 0 3)))).map elbow).isSome ||
    ((snap (arm2Cos a1 a2 a3 (T 0 3) (T 1 3) (T 2 3)
      (atan2 (!Zeros.py T) (!Zeros.px T) (-T 1 3) (-T 0 3)))).map elbow).isSome then some _ else none).isSome ↔ _
  rw [arm2Cos_eq xp yp, arm2Cos_eq xn yn, Option.isSome_map, Option.isSome_map, e]
  split_ifs with h
  · simpa using h
  · simpa using h

/-- The tolerance makes the arm report success for a target it cannot reach: one ten-millionth too
far. -/
example [Zeros] : (arm2Ik (arm2 1 1 1) (mkTf 1 ![3 + 1 / 10 ^ 7, 0, 0])).isSome ∧
    ∀ (hit : Oracle Shape) (q1 q2 q3 : ℝ),
      ¬ Arm2Reaches hit 1 1 1 q1 q2 q3 (mkTf 1 ![3 + 1 / 10 ^ 7, 0, 0]) := by
  have e0 : (mkTf 1 ![3 + 1 / 10 ^ 7, 0, 0] : M4) 0 3 = 3 + 1 / 10 ^ 7 := rfl
  have e1 : (mkTf 1 ![3 + 1 / 10 ^ 7, 0, 0] : M4) 1 3 = 0 := rfl
  have e2 : (mkTf 1 ![3 + 1 / 10 ^ 7, 0, 0] : M4) 2 3 = 0 := rfl
  constructor
  · rw [C36_arm2_iff (by norm_num), e0, e1, e2]
    left
    rw [show (3 + 1 / 10 ^ 7 : ℝ) ^ 2 + 0 ^ 2 = (3 + 1 / 10 ^ 7) ^ 2 by ring,
      Real.sqrt_sq (by norm_num), abs_le]
    norm_num
  · intro hit q1 q2 q3 h
    rw [arm2Reaches_iff, posPart_mkTf] at h
    have hx := congrFun h 0
    simp only [armPos, Matrix.cons_val_zero] at hx
    nlinarith [Real.cos_le_one q1, Real.neg_one_le_cos q1, Real.cos_le_one q2,
      Real.neg_one_le_cos q2, Real.cos_le_one (q2 + q3), Real.neg_one_le_cos (q2 + q3)]

/-! ### C42 -/

/-- **C42**: as C35. -/
theorem C42_anthropomorphic_sound [Zeros] (hit : Oracle Shape) {a2 a3 : ℝ} (ha : a2 * a3 ≠ 0)
    (T : M4)
    {sols : List (List ℝ)} (h : anthropomorphicIk (anthropomorphicArm a2 a3) T = some sols) :
    sols.length = 4 ∧ ∀ q ∈ sols, ∃ q1 q2 q3, q = [q1, q2, q3] ∧
      (Real.sin q3 ≠ 0 → FkSatisfies hit (anthropomorphicArm a2 a3) q fun F =>
        posPart F = posPart T) ∧
      FkSatisfies hit (anthropomorphicArm a2 a3) q fun F =>
        dist2 (posPart F) (posPart T) ≤ 2 * |a2 * a3| * (1 / 10 ^ 6) := by
  refine ⟨anthropomorphicIk_length h, fun q hq => ?_⟩
  obtain ⟨q1, q2, q3, rfl, hb, hex, -⟩ := (anthropomorphicIk_cand h hq).sound ha
  have hp : (![T 0 3, T 1 3, T 2 3] : V3) = posPart T := by ext i; fin_cases i <;> rfl
  rw [hp] at hb hex
  have hF : (anthropomorphicArm a2 a3).tfBase * chain (anthropomorphicArm a2 a3).links [q1, q2, q3] *
      tip (anthropomorphicArm a2 a3) = chain (anthropomorphicArm a2 a3).links [q1, q2, q3] := by
    simp [anthropomorphicArm, Robot.new, tip]
  refine ⟨q1, q2, q3, rfl, fun h0 => ?_, ?_⟩
  · rw [fkSatisfies_iff _ _ (anthropomorphic_known _ _) _ (le_refl _), hF, posPart_anthropomorphic]
    exact hex h0
  · rw [fkSatisfies_iff _ _ (anthropomorphic_known _ _) _ (le_refl _), hF, posPart_anthropomorphic]
    exact hb

/-- **C42**: every position that some `q` reaches is solved. -/
theorem C42_anthropomorphic_succeeds [Zeros] (hit : Oracle Shape) {a2 a3 : ℝ} (ha : a2 * a3 ≠ 0)
    (q1 q2 q3 : ℝ) (T : M4)
    (hT : FkSatisfies hit (anthropomorphicArm a2 a3) [q1, q2, q3] fun F => posPart F = posPart T) :
    ∃ sols, anthropomorphicIk (anthropomorphicArm a2 a3) T = some sols := by
  rw [fkSatisfies_iff _ _ (anthropomorphic_known _ _) _ (le_refl _)] at hT
  refine anthropomorphicIk_succeeds ha q1 q2 q3 ?_
  rw [← hT, ← posPart_anthropomorphic]
  simp [anthropomorphicArm, Robot.new, tip]

/-- **C42**: exactly which targets are solved. -/
theorem C42_anthropomorphic_iff [Zeros] {a2 a3 : ℝ} (ha : a2 * a3 ≠ 0) (T : M4) :
    (anthropomorphicIk (anthropomorphicArm a2 a3) T).isSome ↔
      |T 0 3 ^ 2 + T 1 3 ^ 2 + T 2 3 ^ 2 - a2 ^ 2 - a3 ^ 2| ≤
        (1 + 1 / 10 ^ 6) * (2 * |a2 * a3|) := by
  have hd : 2 * a2 * a3 ≠ 0 := by rw [mul_assoc]; exact mul_ne_zero two_ne_zero ha
  have hda : |2 * a2 * a3| = 2 * |a2 * a3| := by rw [mul_assoc, abs_mul]; simp
  have hp := snap_isSome_iff
    ((T 0 3 ^ 2 + T 1 3 ^ 2 + T 2 3 ^ 2 - a2 ^ 2 - a3 ^ 2) / (2 * a2 * a3))
  rw [abs_div_le_iff hd, hda] at hp
  rw [← hp]
  exact Eq.to_iff (congrArg (· = true) (Option.isSome_map))

example [Zeros] (hit : Oracle Shape) : ∃ T : M4, ∃ sols, anthropomorphicIk
    (anthropomorphicArm 1 1) T =
    some sols ∧ posPart T = ![1, 0, 1] ∧ sols.length = 4 := by
  obtain ⟨sols, hs⟩ := C42_anthropomorphic_succeeds hit (a2 := 1) (a3 := 1) (by norm_num) 0 0
    (Real.pi / 2) (mkTf 1 ![1, 0, 1]) (by
      rw [fkSatisfies_iff _ _ (anthropomorphic_known _ _) _ (le_refl _)]
      have : (anthropomorphicArm 1 1).tfBase * chain (anthropomorphicArm 1 1).links
          [0, 0, Real.pi / 2] * tip (anthropomorphicArm 1 1) =
          chain (anthropomorphicArm 1 1).links [0, 0, Real.pi / 2] := by
        simp [anthropomorphicArm, Robot.new, tip]
      rw [this, posPart_anthropomorphic, posPart_mkTf]
      ext i; fin_cases i <;> norm_num [armPos])
  exact ⟨_, sols, hs, posPart_mkTf _ _, (C42_anthropomorphic_sound hit (by norm_num) _ hs).1⟩

/-! ### C37 and C38 -/

/-- A SphericalWrist with some base. -/
noncomputable def wristOn (d3 : ℝ) (base : M4) : Robot Shape :=
  { sphericalWrist d3 with tfBase := base }

theorem wristOn_fk (hit : Oracle Shape) (d3 : ℝ) {base : M4} (_hb : IsRigid base) (q1 q2 q3 : ℝ)
    (P : M4 → Prop) : FkSatisfies hit (wristOn d3 base) [q1, q2, q3] P ↔
      P (base * mkTf (zyz q1 q2 q3) (zyz q1 q2 q3 *ᵥ ![0, 0, d3])) := by
  rw [fkSatisfies_iff _ (wristOn d3 base) (sphericalWrist_known d3) _ (le_refl _)]
  have : (wristOn d3 base).tfBase * chain (wristOn d3 base).links [q1, q2, q3] *
      tip (wristOn d3 base) = base * chain (sphericalWrist d3).links [q1, q2, q3] := by
    simp [wristOn, sphericalWrist, Robot.new, tip]
  rw [this, chain_wrist]

theorem rot_of_rel {base T : M4} (hb : IsRigid base) (d3 q1 q2 q3 : ℝ)
    (h : zyz q1 q2 q3 = relRot base T) :
    rotPart (base * mkTf (zyz q1 q2 q3) (zyz q1 q2 q3 *ᵥ ![0, 0, d3])) = rotPart T := by
  rw [rotPart_mul hb.2 (mkTf_last _ _), rotPart_mkTf, h, relRot, ← Matrix.mul_assoc,
    hb.1.mul_transpose, one_mul]

/-- **C37**, partial: both solutions give the orientation of the target if the approach axis of the
target is not parallel to the z axis of the base; the approach axis itself is right in all cases.
Missing: the singular targets, for which the claim fails (`C37_refuted`, `C37_singular`). -/
theorem C37_wrist_sound_partial [Zeros] (hit : Oracle Shape) (d3 : ℝ) {base T : M4}
    (hb : IsRigid base)
    (hT : IsRigid T) (n : Nat) (mem : Mem) (hn : n < mem.length) :
    ∃ r1 r2, (wristIk n base mem T).2[(wristIk n base mem T).1]? = some [r1, r2] ∧
      ∀ q, q = r1 ∨ q = r2 →
        (FkSatisfies hit (wristOn d3 base) q fun F => ∀ i, rotPart F i 2 = rotPart T i 2) ∧
        ((∀ s : ℝ, ∃ i, rotPart T i 2 ≠ s * rotPart base i 2) →
          FkSatisfies hit (wristOn d3 base) q fun F => rotPart F = rotPart T) := by
  refine ⟨_, _, by simp [wristIk, hn, wristRows_eq]; exact ⟨rfl, rfl⟩, fun q hq => ?_⟩
  have hrel : IsRot (relRot base T) := hb.1.transpose.mul hT.1
  have hmem : q ∈ wristRows base T := by
    rw [wristRows_eq]
    rcases hq with rfl | rfl
    · exact List.mem_cons_self
    · exact List.mem_cons_of_mem _ List.mem_cons_self
  obtain ⟨t1, t2, t3, rfl⟩ : ∃ t1 t2 t3, q = [t1, t2, t3] := by
    rcases hq with rfl | rfl <;> exact ⟨_, _, _, rfl⟩
  obtain ⟨hax, hfull, -⟩ := wristRows_axis hrel hmem
  constructor
  · rw [wristOn_fk _ _ hb]
    intro i
    rw [rotPart_mul hb.2 (mkTf_last _ _), rotPart_mkTf]
    have e : (rotPart base * zyz t1 t2 t3) *ᵥ ![0, 0, 1] = rotPart T *ᵥ ![0, 0, 1] := by
      rw [← Matrix.mulVec_mulVec, hax, Matrix.mulVec_mulVec, relRot, ← Matrix.mul_assoc,
        hb.1.mul_transpose, one_mul]
    have := congrFun e i
    simpa [Matrix.mulVec, dotProduct, Fin.sum_univ_succ] using this
  · intro hns
    rw [wristOn_fk _ _ hb]
    refine rot_of_rel hb d3 _ _ _ ?_
    have hns' : relRot base T 0 2 ≠ 0 ∨ relRot base T 1 2 ≠ 0 := by
      by_contra hc
      push Not at hc
      obtain ⟨i, hi⟩ := hns (relRot base T 2 2)
      apply hi
      have e : rotPart T = rotPart base * relRot base T := by
        rw [relRot, ← Matrix.mul_assoc, hb.1.mul_transpose, one_mul]
      rw [e, Matrix.mul_apply]
      simp [Fin.sum_univ_succ, hc.1, hc.2]
      ring
    obtain ⟨_, _, _, he, hz⟩ := wristRows_sound hrel hns' _ hmem
    cases he
    exact hz

/-- The turn about the z axis that both solutions have for a singular target: half a turn, or none if
the zeros `Ree_rel[0, 2]` and `Ree_rel[2, 0]` have different signs. -/
noncomputable def zeroTurn [Zeros] (base T : M4) : M3 :=
  if Zeros.rel base T 0 2 = Zeros.rel base T 2 0 then rotZ Real.pi else 1

/-- **C37**, singular targets: both solutions then give one of two orientations relative to the base,
whatever the target: a half turn about the z axis or no turn, after that possibly half a turn about the
y axis. -/
theorem C37_singular [Zeros] (hit : Oracle Shape) (d3 : ℝ) {base T : M4} (hb : IsRigid base)
    (hT : IsRigid T)
    (h0 : ((rotPart base)ᵀ * rotPart T) 0 2 = 0) (h1 : ((rotPart base)ᵀ * rotPart T) 1 2 = 0) :
    ∀ q ∈ wristRows base T, FkSatisfies hit (wristOn d3 base) q fun F =>
      rotPart F = rotPart base * zeroTurn base T ∨
        rotPart F = rotPart base * (zeroTurn base T * rotY Real.pi) := by
  intro q hq
  have hrel : IsRot (relRot base T) := hb.1.transpose.mul hT.1
  obtain ⟨t1, t2, t3, rfl, hz⟩ := wristRows_singular hrel h0 h1 q hq
  rw [wristOn_fk _ _ hb, rotPart_mul hb.2 (mkTf_last _ _), rotPart_mkTf, hz]
  obtain ⟨r1, r2, -⟩ := hrel.relations
  have h0' : relRot base T 0 2 = 0 := h0
  have h1' : relRot base T 1 2 = 0 := h1
  rw [h0', h1'] at r1
  have r1' : relRot base T 2 2 ^ 2 = 1 := by linarith
  have hsq : relRot base T 2 2 = 1 ∨ relRot base T 2 2 = -1 := by
    simpa using r1'
  unfold zeroTurn halfTurn
  generalize Zeros.rel base T 0 2 = c1
  generalize Zeros.rel base T 2 0 = c3
  rcases hsq with h | h
  · left
    rw [h]
    congr 1
    cases c1 <;> cases c3 <;> ext i j <;> fin_cases i <;> fin_cases j <;>
      simp [stretchedRot, rotZ]
  · right
    rw [h]
    congr 1
    cases c1 <;> cases c3 <;> ext i j <;> fin_cases i <;> fin_cases j <;>
      simp [stretchedRot, rotZ, rotY, Matrix.mul_apply, Fin.sum_univ_three]

/-- **C37** is false even for the target with the orientation of the base: if its two zeros have the
same sign, as they have for the identity matrices that numpy makes, both solutions are half a turn
about the z axis away from it. -/
theorem C37_at_base [Zeros] (hit : Oracle Shape) (d3 : ℝ) {base T : M4} (hb : IsRigid base)
    (hT : IsRigid T) (hTb : rotPart T = rotPart base)
    (hsign : Zeros.rel base T 0 2 = Zeros.rel base T 2 0) :
    ∀ q ∈ wristRows base T, (FkSatisfies hit (wristOn d3 base) q fun F =>
      rotPart F = rotPart base * rotZ Real.pi) ∧
      ¬ FkSatisfies hit (wristOn d3 base) q fun F => rotPart F = rotPart T := by
  intro q hq
  have hrel : relRot base T = 1 := by rw [relRot, hTb, hb.1.1]
  obtain ⟨t1, t2, t3, rfl, hz⟩ := wristRows_singular (hb.1.transpose.mul hT.1)
    (show relRot base T 0 2 = 0 by rw [hrel]; simp) (show relRot base T 1 2 = 0 by rw [hrel]; simp)
    q hq
  have hz' : zyz t1 t2 t3 = rotZ Real.pi := by
    rw [hz, hrel, halfTurn, hsign, beq_self_eq_true, stretchedRot, if_pos rfl]
    ext i j; fin_cases i <;> fin_cases j <;> simp [rotZ]
  rw [wristOn_fk _ _ hb, wristOn_fk _ _ hb, rotPart_mul hb.2 (mkTf_last _ _), rotPart_mkTf, hz']
  refine ⟨rfl, fun h => ?_⟩
  rw [hTb] at h
  have h2 : rotZ Real.pi = 1 := by
    have := congrArg (fun M => (rotPart base)ᵀ * M) h
    simp only [← Matrix.mul_assoc, hb.1.1, one_mul] at this
    exact this
  have := congrFun (congrFun h2 0) 0
  simp [rotZ] at this
  norm_num at this

/-- A case: base and target the identity, all zeros positive. -/
example (hit : Oracle Shape) (d3 : ℝ) : ∀ q ∈ @wristRows posZeros 1 1,
    ¬ FkSatisfies hit (wristOn d3 1) q fun F => rotPart F = rotPart (1 : M4) := fun q hq =>
  (@C37_at_base posZeros hit d3 1 1 IsRigid.one IsRigid.one rfl rfl q hq).2

/-- **C37** is false: a target turned about the z axis of the base; no solution is right. -/
theorem C37_refuted [Zeros] : ∃ T : M4, IsRigid T ∧ ∀ (hit : Oracle Shape) (d3 : ℝ),
    ∀ q ∈ wristRows 1 T, ¬ FkSatisfies hit (wristOn d3 1) q fun F => rotPart F = rotPart T := by
  refine ⟨mkTf (rotZ (Real.pi / 2)) 0, isRigid_mkTf.2 (rotZ_isRot _), fun hit d3 q hq hF => ?_⟩
  have hone : rotPart (1 : M4) = 1 := by rw [← mkTf_one, rotPart_mkTf]
  have hrel : relRot 1 (mkTf (rotZ (Real.pi / 2)) 0) = rotZ (Real.pi / 2) := by
    rw [relRot, hone, rotPart_mkTf, Matrix.transpose_one, one_mul]
  have hs := C37_singular hit d3 IsRigid.one (isRigid_mkTf.2 (rotZ_isRot (Real.pi / 2)))
    (by rw [hone, rotPart_mkTf, Matrix.transpose_one, one_mul]; simp [rotZ])
    (by rw [hone, rotPart_mkTf, Matrix.transpose_one, one_mul]; simp [rotZ]) q hq
  obtain ⟨F, h1, h2⟩ := hs [] (by simp)
  obtain ⟨F', h1', h2'⟩ := hF [] (by simp)
  rw [h1] at h1'
  cases h1'
  rw [h2', rotPart_mkTf, hone, one_mul, one_mul] at h2
  unfold zeroTurn at h2
  split at h2
  · rcases h2 with h | h
    · have := congrFun (congrFun h 1) 0
      simp [rotZ] at this
    · have := congrFun (congrFun h 1) 0
      simp [rotZ, rotY, Matrix.mul_apply, Fin.sum_univ_three] at this
  · rcases h2 with h | h
    · have := congrFun (congrFun h 1) 0
      simp [rotZ] at this
    · have := congrFun (congrFun h 1) 0
      simp [rotZ, rotY] at this

/-- **C38**: if the wrist is not stretched, one of the two solutions is `q` up to full turns. -/
theorem C38_wrist_complete [Zeros] (hit : Oracle Shape) (d3 : ℝ) {base T : M4} (hb : IsRigid base)
    (q1 q2 q3 : ℝ) (hT : FkSatisfies hit (wristOn d3 base) [q1, q2, q3] fun F => F = T)
    (hs : Real.sin q2 ≠ 0) (n : Nat) (mem : Mem) (hn : n < mem.length) :
    ∃ rows, (wristIk n base mem T).2[(wristIk n base mem T).1]? = some rows ∧ rows.length = 2 ∧
      ∃ t1 t2 t3, [t1, t2, t3] ∈ rows ∧ SameAngle t1 q1 ∧ SameAngle t2 q2 ∧ SameAngle t3 q3 := by
  rw [wristOn_fk _ _ hb] at hT
  refine ⟨wristRows base T, by simp [wristIk, hn], by simp [wristRows_eq], ?_⟩
  have hrel : relRot base T = zyz q1 q2 q3 := by
    rw [← hT, relRot, rotPart_mul hb.2 (mkTf_last _ _), rotPart_mkTf, ← Matrix.mul_assoc, hb.1.1,
      one_mul]
  exact wristRows_complete hrel hs

/-- The wrist at (1, 1, 1) on a turned base. -/
example [Zeros] (hit : Oracle Shape) : ∃ T rows,
    (wristIk 0 (mkTf (rotZ 1) 0) [[]] T).2[0]? = some rows ∧
    ∃ t1 t2 t3, [t1, t2, t3] ∈ rows ∧ SameAngle t1 1 ∧ SameAngle t2 1 ∧ SameAngle t3 1 := by
  have hb : IsRigid (mkTf (rotZ 1) 0) := isRigid_mkTf.2 (rotZ_isRot _)
  obtain ⟨rows, h1, -, h2⟩ := C38_wrist_complete hit 0 hb 1 1 1 (by rw [wristOn_fk _ _ hb])
    (Real.sin_pos_of_pos_of_lt_pi one_pos (by linarith [Real.two_le_pi])).ne' 0 [[]] (by simp)
  exact ⟨_, rows, h1, h2⟩

/-- C42: a case of `C42_anthropomorphic_iff`.  With links of length one, a target at distance two is
solved, and one at distance three is not. -/
example [Zeros] : (anthropomorphicIk (anthropomorphicArm 1 1) (mkTf 1 ![2, 0, 0])).isSome ∧
    ¬ (anthropomorphicIk (anthropomorphicArm 1 1) (mkTf 1 ![3, 0, 0])).isSome := by
  have e : ∀ x : ℝ, (mkTf 1 ![x, 0, 0] : M4) 0 3 = x ∧ (mkTf 1 ![x, 0, 0] : M4) 1 3 = 0 ∧
      (mkTf 1 ![x, 0, 0] : M4) 2 3 = 0 := fun x => ⟨rfl, rfl, rfl⟩
  rw [C42_anthropomorphic_iff (by norm_num), C42_anthropomorphic_iff (by norm_num), (e 2).1,
    (e 2).2.1, (e 2).2.2, (e 3).1, (e 3).2.1, (e 3).2.2]
  norm_num

end Verif.Props
