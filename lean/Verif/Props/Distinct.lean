import Verif.Props.Workspace
import Verif.Props.Snapped
import Mathlib.Data.List.Duplicate

/-! # Every configuration that reaches the target is returned exactly once (C135)

robots.py:65-351.  C35, C37, C39 and C42 say that the solutions are right, C36, C38, C40 and C42 that
none is missing.  Here both are put together with the question whether a solution is returned twice:
away from the singular positions it is not; a stretched or folded arm is returned twice, and the two
solutions for a stretched wrist differ by half a turn of the joints around it. -/

set_option linter.unusedSectionVars false

namespace Verif.Props

open Matrix Verif.Geometry Verif.Kin Verif.Util

/-- The same configuration, up to full turns of the joints. -/
def SameConfig (q q' : List ℝ) : Prop := List.Forall₂ SameAngle q q'

theorem sameAngle_symm {x y : ℝ} (h : SameAngle x y) : SameAngle y x := by
  obtain ⟨k, rfl⟩ := h
  exact ⟨-k, by push_cast; ring⟩

theorem sameAngle_trans {x y z : ℝ} (h : SameAngle x y) (h' : SameAngle y z) : SameAngle x z := by
  obtain ⟨k, rfl⟩ := h
  obtain ⟨k', rfl⟩ := h'
  exact ⟨k + k', by push_cast; ring⟩

theorem SameConfig.symm {q q' : List ℝ} (h : SameConfig q q') : SameConfig q' q := by
  unfold SameConfig at h ⊢
  induction h with
  | nil => exact .nil
  | cons h _ ih => exact .cons (sameAngle_symm h) ih

theorem SameConfig.trans {q q' q'' : List ℝ} (h : SameConfig q q') (h' : SameConfig q' q'') :
    SameConfig q q'' := by
  unfold SameConfig at h h' ⊢
  induction h generalizing q'' with
  | nil => exact h'
  | cons h _ ih =>
    cases h' with
    | cons g gs => exact .cons (sameAngle_trans h g) (ih gs)

theorem sameConfig3 {a b c a' b' c' : ℝ} : SameConfig [a, b, c] [a', b', c'] ↔
    SameAngle a a' ∧ SameAngle b b' ∧ SameAngle c c' := by
  simp [SameConfig]

theorem sameConfig6 {a b c d e f a' b' c' d' e' f' : ℝ} :
    SameConfig [a, b, c, d, e, f] [a', b', c', d', e', f'] ↔
    SameAngle a a' ∧ SameAngle b b' ∧ SameAngle c c' ∧ SameAngle d d' ∧ SameAngle e e' ∧
      SameAngle f f' := by
  simp [SameConfig]

/-- In a list without equal configurations, a configuration has one place. -/
theorem unique_place {L : List (List ℝ)} (hp : L.Pairwise fun q q' => ¬ SameConfig q q')
    {q : List ℝ} {i j : Nat} {x y : List ℝ} (hi : L[i]? = some x) (hj : L[j]? = some y)
    (hx : SameConfig x q) (hy : SameConfig y q) : i = j := by
  obtain ⟨hi', rfl⟩ := List.getElem?_eq_some_iff.1 hi
  obtain ⟨hj', rfl⟩ := List.getElem?_eq_some_iff.1 hj
  rw [List.pairwise_iff_getElem] at hp
  rcases lt_trichotomy i j with h | h | h
  · exact absurd (hx.trans hy.symm) (hp i j hi' hj' h)
  · exact h
  · exact absurd (hy.trans hx.symm) (hp j i hj' hi' h)

/-! ### Angles -/

/-- Opposite directions have different angles. -/
theorem opposite_angles {b d b' d' : Bool} {x y : ℝ} (h : x ≠ 0 ∨ y ≠ 0) :
    ¬ SameAngle (atan2 b d y x) (atan2 b' d' (-y) (-x)) := by
  intro hs
  obtain ⟨xp, yp⟩ := u_pos b d x y
  obtain ⟨xn, yn⟩ := u_neg b' d' x y
  rw [hs.cs.1] at xp
  rw [hs.cs.2] at yp
  have hx : x = 0 := by linarith
  have hy : y = 0 := by linarith
  rcases h with h | h
  · exact h hx
  · exact h hy

/-- The two angles of a bent elbow are different. -/
theorem elbow_angles {b d b' d' : Bool} {c : ℝ} (h1 : -1 ≤ c) (h2 : c ≤ 1)
    (hs : Real.sin (atan2 b d (Real.sqrt (1 - c ^ 2)) c) ≠ 0) :
    ¬ SameAngle (atan2 b d (Real.sqrt (1 - c ^ 2)) c)
      (atan2 b' d' (-Real.sqrt (1 - c ^ 2)) c) := by
  intro h
  have e1 := (cs_elbow b d h1 h2 (Or.inl rfl)).2
  have e2 := (cs_elbow b' d' h1 h2 (Or.inr rfl)).2
  rw [one_mul] at e1
  rw [neg_one_mul] at e2
  have := h.cs.2
  rw [e1, e2] at this
  rw [e1] at hs
  exact hs (by linarith)

theorem armPos_congr {a1 a2 a3 q1 q2 q3 t1 t2 t3 : ℝ} (s1 : SameAngle t1 q1) (s2 : SameAngle t2 q2)
    (s3 : SameAngle t3 q3) : armPos a1 a2 a3 t1 t2 t3 = armPos a1 a2 a3 q1 q2 q3 := by
  simp only [armPos, s1.cs, s2.cs, (s2.add2 s3).cs]

theorem zyz_congr {q1 q2 q3 t1 t2 t3 : ℝ} (s1 : SameAngle t1 q1) (s2 : SameAngle t2 q2)
    (s3 : SameAngle t3 q3) : zyz t1 t2 t3 = zyz q1 q2 q3 := by
  simp only [zyz_eq, s1.cs, s2.cs, s3.cs]

theorem zyz_axis (t1 t2 t3 : ℝ) : zyz t1 t2 t3 0 2 = Real.cos t1 * Real.sin t2 ∧
    zyz t1 t2 t3 1 2 = Real.sin t1 * Real.sin t2 := by
  rw [zyz_eq]
  constructor <;> simp

/-! ### The two sides of the arms -/

/-- The sign of a zero does not matter for the angle, unless both numbers are zero. -/
theorem atan2_same {b d b' d' : Bool} {x y : ℝ} (h : x ≠ 0 ∨ y ≠ 0) :
    SameAngle (atan2 b d y x) (atan2 b' d' y x) :=
  angle_eq ((atan2_cs b d h).1.trans (atan2_cs b' d' h).1.symm)
    ((atan2_cs b d h).2.trans (atan2_cs b' d' h).2.symm)

/-- A solution of the arms: `u` is the signed horizontal distance, `sg` the side of the elbow; `b`,
`d` and `e` are signs of zeros. -/
noncomputable def cand (b d e : Bool) (a1 a2 a3 z u q1 c sg : ℝ) : List ℝ :=
  [q1, atan2 b d (z * (a2 + a3 * c) - (u - a1) * (a3 * (sg * Real.sqrt (1 - c ^ 2))))
      ((u - a1) * (a2 + a3 * c) + z * (a3 * (sg * Real.sqrt (1 - c ^ 2)))),
    atan2 e false (sg * Real.sqrt (1 - c ^ 2)) c]

/-- The solutions of one side; `bd` are signs of zeros. -/
noncomputable def sideOf (bd : Bool × Bool × Bool × Bool) (a1 a2 a3 z u q1 : ℝ) : List (List ℝ) :=
  ((snap (((u - a1) ^ 2 + z ^ 2 - a2 ^ 2 - a3 ^ 2) / (2 * a2 * a3))).map fun c =>
    [cand bd.1 bd.2.1 false a1 a2 a3 z u q1 c 1,
      cand bd.2.2.1 bd.2.2.2 true a1 a2 a3 z u q1 c (-1)]).getD []

/-- The signs of the arguments for the solutions `i` and `j`. -/
def q2Signs [Zeros] (T : M4) (i j : Nat) : Bool × Bool × Bool × Bool :=
  (Zeros.q2y T i, Zeros.q2x T i, Zeros.q2y T j, Zeros.q2x T j)

/-- The solutions of both sides. -/
noncomputable def bothSides [Zeros] (a1 a2 a3 : ℝ) (T : M4) : List (List ℝ) :=
  sideOf (q2Signs T 0 1) a1 a2 a3 (T 2 3) (Real.sqrt (T 0 3 ^ 2 + T 1 3 ^ 2))
    (atan2 (Zeros.py T) (Zeros.px T) (T 1 3) (T 0 3)) ++
  sideOf (q2Signs T 2 3) a1 a2 a3 (T 2 3) (-Real.sqrt (T 0 3 ^ 2 + T 1 3 ^ 2))
    (atan2 (!Zeros.py T) (!Zeros.px T) (-T 1 3) (-T 0 3))

theorem pair_eq {a b b' c c' d e : ℝ} (hb : b = b') (hc : c = c') :
    [[a, b, d], [a, c, e]] = [[a, b', d], [a, c', e]] := by rw [hb, hc]

theorem arm2_sides [Zeros] {a1 a2 a3 : ℝ} {T : M4} {sols : List (List ℝ)}
    (h : arm2Ik (arm2 a1 a2 a3) T = some sols) : sols = bothSides a1 a2 a3 T := by
  unfold bothSides
  set x := T 0 3
  set y := T 1 3
  set z := T 2 3
  have hdh : (dhOfLink (arm2 a1 a2 a3) 0).a = a1 ∧ (dhOfLink (arm2 a1 a2 a3) 1).a = a2 ∧
    (dhOfLink (arm2 a1 a2 a3) 2).a = a3 := ⟨rfl, rfl, rfl⟩
  obtain ⟨xp, yp⟩ := u_pos (Zeros.py T) (Zeros.px T) x y
  obtain ⟨xn, yn⟩ := u_neg (!Zeros.py T) (!Zeros.px T) x y
  set L := Real.sqrt (x ^ 2 + y ^ 2) with hL
  have hsols : sols = (((snap (arm2Cos a1 a2 a3 x y z (atan2 (Zeros.py T) (Zeros.px T) y x))).map elbow).map
        (arm2Pos T a1 a2 a3 L z (atan2 (Zeros.py T) (Zeros.px T) y x))).getD [] ++
      (((snap (arm2Cos a1 a2 a3 x y z (atan2 (!Zeros.py T) (!Zeros.px T) (-y) (-x)))).map elbow).map
        (arm2Neg T a1 a2 a3 L z (atan2 (!Zeros.py T) (!Zeros.px T) (-y) (-x)))).getD [] := by
    unfold arm2Ik at h
    simp only [hdh] at h
    split at h
    · cases h; rfl
    · cases h
  rw [arm2Cos_eq xp yp, arm2Cos_eq xn yn] at hsols
  rw [hsols]
  unfold sideOf
  congr 1
  · cases hs : snap (((L - a1) ^ 2 + z ^ 2 - a2 ^ 2 - a3 ^ 2) / (2 * a2 * a3)) with
    | none => rfl
    | some c' =>
      obtain ⟨b1, b2, -⟩ := snap_some hs
      obtain ⟨e1, e2⟩ := cs_elbow false false b1 b2 (Or.inl rfl)
      obtain ⟨e3, e4⟩ := cs_elbow true false b1 b2 (Or.inr rfl)
      rw [one_mul] at e1 e2
      rw [neg_one_mul] at e3 e4
      simp only [Option.map_some, Option.getD_some, arm2Pos, elbow, e2, e3, cand, one_mul,
        neg_one_mul]
      exact pair_eq (congrArg₂ (atan2 _ _) (by ring) (by ring)) (congrArg₂ (atan2 _ _) (by ring) (by ring))
  · cases hs : snap (((-L - a1) ^ 2 + z ^ 2 - a2 ^ 2 - a3 ^ 2) / (2 * a2 * a3)) with
    | none => rfl
    | some c' =>
      obtain ⟨b1, b2, -⟩ := snap_some hs
      obtain ⟨e1, e2⟩ := cs_elbow false false b1 b2 (Or.inl rfl)
      obtain ⟨e3, e4⟩ := cs_elbow true false b1 b2 (Or.inr rfl)
      rw [one_mul] at e1 e2
      rw [neg_one_mul] at e3 e4
      simp only [Option.map_some, Option.getD_some, arm2Neg, elbow, e2, e3, cand, one_mul,
        neg_one_mul]
      exact pair_eq (congrArg₂ (atan2 _ _) (by ring) (by ring)) (congrArg₂ (atan2 _ _) (by ring) (by ring))

theorem aa_sides [Zeros] {a2 a3 : ℝ} {T : M4} {sols : List (List ℝ)}
    (h : anthropomorphicIk (anthropomorphicArm a2 a3) T = some sols) :
    sols = bothSides 0 a2 a3 T := by
  unfold bothSides
  set x := T 0 3 with hx
  set y := T 1 3 with hy
  set z := T 2 3 with hz
  set L := Real.sqrt (x ^ 2 + y ^ 2) with hL
  have hL2 : L ^ 2 = x ^ 2 + y ^ 2 := Real.sq_sqrt (by positivity)
  unfold anthropomorphicIk at h
  simp only at h
  rw [← hx, ← hy, ← hz, show (dhOfLink (anthropomorphicArm a2 a3) 1).a = a2 from rfl,
    show (dhOfLink (anthropomorphicArm a2 a3) 2).a = a3 from rfl] at h
  cases hs : snap ((x ^ 2 + y ^ 2 + z ^ 2 - a2 ^ 2 - a3 ^ 2) / (2 * a2 * a3)) with
  | none => rw [hs] at h; cases h
  | some c' =>
    rw [hs, Option.map_some, Option.some.injEq] at h
    subst h
    have hp : snap (((L - 0) ^ 2 + z ^ 2 - a2 ^ 2 - a3 ^ 2) / (2 * a2 * a3)) = some c' := by
      rw [sub_zero, hL2]; exact hs
    have hn : snap (((-L - 0) ^ 2 + z ^ 2 - a2 ^ 2 - a3 ^ 2) / (2 * a2 * a3)) = some c' := by
      rw [sub_zero, neg_sq, hL2]; exact hs
    simp only [sideOf, hp, hn, Option.map_some, Option.getD_some, cand, one_mul, neg_one_mul]
    exact congrArg₂ (· ++ ·)
      (pair_eq (congrArg₂ (atan2 _ _) (by ring) (by ring)) (congrArg₂ (atan2 _ _) (by ring) (by ring)))
      (pair_eq (congrArg₂ (atan2 _ _) (by ring) (by ring)) (congrArg₂ (atan2 _ _) (by ring) (by ring)))

theorem side_cases (bd : Bool × Bool × Bool × Bool) (a1 a2 a3 z u q1 : ℝ) : sideOf bd a1 a2 a3 z u q1 = [] ∨
    ∃ c, -1 ≤ c ∧ c ≤ 1 ∧
      sideOf bd a1 a2 a3 z u q1 = [cand bd.1 bd.2.1 false a1 a2 a3 z u q1 c 1,
        cand bd.2.2.1 bd.2.2.2 true a1 a2 a3 z u q1 c (-1)] := by
  unfold sideOf
  cases hs : snap (((u - a1) ^ 2 + z ^ 2 - a2 ^ 2 - a3 ^ 2) / (2 * a2 * a3)) with
  | none => exact .inl rfl
  | some c =>
    obtain ⟨b1, b2, -⟩ := snap_some hs
    exact .inr ⟨c, b1, b2, rfl⟩

/-- The third joint is bent in a list of arm solutions. -/
def Bent (L : List (List ℝ)) : Prop := ∀ q1 q2 q3 : ℝ, [q1, q2, q3] ∈ L → Real.sin q3 ≠ 0

theorem side_pairwise {bd : Bool × Bool × Bool × Bool} {a1 a2 a3 z u q1 : ℝ} (hb : Bent (sideOf bd a1 a2 a3 z u q1)) :
    (sideOf bd a1 a2 a3 z u q1).Pairwise fun q q' => ¬ SameConfig q q' := by
  rcases side_cases bd a1 a2 a3 z u q1 with h | ⟨c, c1, c2, h⟩
  · rw [h]; exact List.Pairwise.nil
  · rw [h] at hb ⊢
    have hs := hb _ _ _ List.mem_cons_self
    rw [one_mul] at hs
    simp only [List.pairwise_cons, List.mem_singleton, forall_eq, List.not_mem_nil,
      IsEmpty.forall_iff, implies_true, List.Pairwise.nil, and_true]
    unfold cand
    rw [sameConfig3, one_mul, neg_one_mul]
    rintro ⟨-, -, h3⟩
    exact elbow_angles c1 c2 hs h3

theorem side_first {bd : Bool × Bool × Bool × Bool} {a1 a2 a3 z u q1 : ℝ} {q : List ℝ} (h : q ∈ sideOf bd a1 a2 a3 z u q1) :
    ∃ q2 q3, q = [q1, q2, q3] := by
  rcases side_cases bd a1 a2 a3 z u q1 with e | ⟨c, -, -, e⟩
  · rw [e] at h; simp at h
  · rw [e] at h
    simp only [List.mem_cons, List.not_mem_nil, or_false] at h
    rcases h with rfl | rfl <;> exact ⟨_, _, rfl⟩

/-- Away from the first axis and with bent elbows, all solutions are different. -/
theorem bothSides_pairwise [Zeros] {a1 a2 a3 : ℝ} {T : M4} (h : T 0 3 ≠ 0 ∨ T 1 3 ≠ 0)
    (hb : Bent (bothSides a1 a2 a3 T)) :
    (bothSides a1 a2 a3 T).Pairwise fun q q' => ¬ SameConfig q q' := by
  unfold bothSides at hb ⊢
  rw [List.pairwise_append]
  refine ⟨side_pairwise fun _ _ _ hm => hb _ _ _ (List.mem_append_left _ hm),
    side_pairwise fun _ _ _ hm => hb _ _ _ (List.mem_append_right _ hm), fun q hq q' hq' => ?_⟩
  obtain ⟨q2, q3, rfl⟩ := side_first hq
  obtain ⟨q2', q3', rfl⟩ := side_first hq'
  rw [sameConfig3]
  rintro ⟨h1, -⟩
  exact opposite_angles h h1

/-- A solution with a straight elbow is there twice, up to full turns. -/
theorem bothSides_double [Zeros] {a1 a2 a3 : ℝ} {T : M4} {q1 q2 q3 : ℝ} {i : Nat}
    (hi : (bothSides a1 a2 a3 T)[i]? = some [q1, q2, q3]) (hs : Real.sin q3 = 0)
    (hA : a2 + a3 * Real.cos q3 ≠ 0)
    (hfar : T 0 3 ≠ a1 * Real.cos q1 ∨ T 1 3 ≠ a1 * Real.sin q1 ∨ T 2 3 ≠ 0) :
    ∃ j t2 t3, j ≠ i ∧ (bothSides a1 a2 a3 T)[j]? = some [q1, t2, t3] ∧ SameAngle t2 q2 ∧
      SameAngle t3 q3 := by
  have key : ∀ {bd : Bool × Bool × Bool × Bool} {u p1 : ℝ}, T 0 3 = Real.cos p1 * u →
      T 1 3 = Real.sin p1 * u → ∀ {i : Nat},
      (sideOf bd a1 a2 a3 (T 2 3) u p1)[i]? = some [q1, q2, q3] →
      ∃ j t2 t3, j ≠ i ∧ (sideOf bd a1 a2 a3 (T 2 3) u p1)[j]? = some [q1, t2, t3] ∧
        SameAngle t2 q2 ∧ SameAngle t3 q3 := by
    intro bd u p1 hx hy i hi
    rcases side_cases bd a1 a2 a3 (T 2 3) u p1 with e | ⟨c, c1, c2, e⟩
    · rw [e] at hi; simp at hi
    · have hmem : [q1, q2, q3] ∈ sideOf bd a1 a2 a3 (T 2 3) u p1 := List.mem_of_getElem? hi
      rw [e] at hi hmem ⊢
      have e1 := cs_elbow false false c1 c2 (Or.inl rfl)
      have e2 := cs_elbow true false c1 c2 (Or.inr rfl)
      have h0 : Real.sqrt (1 - c ^ 2) = 0 ∧ Real.cos q3 = c ∧ q1 = p1 := by
        simp only [List.mem_cons, List.not_mem_nil, or_false, cand, List.cons.injEq, and_true] at hmem
        rcases hmem with ⟨hp, -, rfl⟩ | ⟨hp, -, rfl⟩
        · rw [hs] at e1; exact ⟨by linarith [e1.2], e1.1, hp⟩
        · rw [hs] at e2; exact ⟨by linarith [e2.2], e2.1, hp⟩
      obtain ⟨h0, hc, rfl⟩ := h0
      have hr : u - a1 ≠ 0 ∨ T 2 3 ≠ 0 := by
        by_contra hn
        push Not at hn
        have hu : u = a1 := by linarith [hn.1]
        rcases hfar with h | h | h
        · exact h (by rw [hx, hu]; ring)
        · exact h (by rw [hy, hu]; ring)
        · exact h hn.2
      have h2 : ∀ b d b' d', SameAngle
          (atan2 b d (T 2 3 * (a2 + a3 * c)) ((u - a1) * (a2 + a3 * c)))
          (atan2 b' d' (T 2 3 * (a2 + a3 * c)) ((u - a1) * (a2 + a3 * c))) := by
        intro b d b' d'
        refine atan2_same (hr.imp (fun h => mul_ne_zero h ?_) fun h => mul_ne_zero h ?_) <;>
          rwa [← hc]
      have h3 : ∀ b d b' d', SameAngle (atan2 b d 0 c) (atan2 b' d' 0 c) := by
        intro b d b' d'
        refine atan2_same (Or.inl ?_)
        rintro rfl
        norm_num at h0
      simp only [cand, h0, mul_zero, sub_zero, add_zero] at hi ⊢
      rcases i with _ | _ | i
      · simp only [List.getElem?_cons_zero, Option.some.injEq, List.cons.injEq, and_true] at hi
        obtain ⟨-, rfl, rfl⟩ := hi
        exact ⟨1, _, _, by omega, rfl, h2 _ _ _ _, h3 _ _ _ _⟩
      · simp only [List.getElem?_cons_succ, List.getElem?_cons_zero, Option.some.injEq,
          List.cons.injEq, and_true] at hi
        obtain ⟨-, rfl, rfl⟩ := hi
        exact ⟨0, _, _, by omega, rfl, h2 _ _ _ _, h3 _ _ _ _⟩
      · simp at hi
  unfold bothSides at hi ⊢
  set L := sideOf (q2Signs T 0 1) a1 a2 a3 (T 2 3) (Real.sqrt (T 0 3 ^ 2 + T 1 3 ^ 2))
    (atan2 (Zeros.py T) (Zeros.px T) (T 1 3) (T 0 3)) with hL
  obtain ⟨xp, yp⟩ := u_pos (Zeros.py T) (Zeros.px T) (T 0 3) (T 1 3)
  obtain ⟨xn, yn⟩ := u_neg (!Zeros.py T) (!Zeros.px T) (T 0 3) (T 1 3)
  by_cases hlt : i < L.length
  · rw [List.getElem?_append_left hlt] at hi
    obtain ⟨j, t2, t3, hj, he, h⟩ := key xp yp hi
    refine ⟨j, t2, t3, hj, ?_, h⟩
    rw [List.getElem?_append_left (List.getElem?_eq_some_iff.1 he).1]
    exact he
  · rw [List.getElem?_append_right (by omega)] at hi
    obtain ⟨j, t2, t3, hj, he, h⟩ := key xn yn hi
    refine ⟨L.length + j, t2, t3, by omega, ?_, h⟩
    rw [List.getElem?_append_right (by omega), Nat.add_sub_cancel_left]
    exact he

theorem snap_near {c c' : ℝ} (h : snap c = some c') (hc : 1 - tol < |c|) : c' ^ 2 = 1 := by
  have ht : (0 : ℝ) < tol ∧ tol < 1 := by constructor <;> norm_num [tol]
  by_cases hne : c' = c
  · unfold snap at h
    split at h
    · cases h
    · rw [if_pos (by rcases lt_abs.1 hc with h1 | h1; exacts [.inl h1, .inr (by linarith)])] at h
      cases h
      rcases lt_abs.1 hc with h1 | h1
      · rw [sign_pos (by linarith)]; norm_num
      · rw [sign_neg (by linarith)]; norm_num
  · exact (snap_some h).2.2.2.1 hne

/-- If the arm reaches the target with an elbow within the tolerance of straight, a solution with a
straight elbow is returned. -/
theorem bothSides_straight [Zeros] {a1 a2 a3 : ℝ} (ha : a2 * a3 ≠ 0) {T : M4} {q1 q2 q3 : ℝ}
    (hT : posPart T = armPos a1 a2 a3 q1 q2 q3) (h : ¬ |Real.cos q3| ≤ 1 - tol) :
    ¬ Bent (bothSides a1 a2 a3 T) := by
  intro hb
  set w := a1 + a2 * Real.cos q2 + a3 * Real.cos (q2 + q3) with hw
  have hx : T 0 3 = Real.cos q1 * w := congrFun hT 0
  have hy : T 1 3 = Real.sin q1 * w := congrFun hT 1
  have hz : T 2 3 = a2 * Real.sin q2 + a3 * Real.sin (q2 + q3) := congrFun hT 2
  have hcos := elbow_cos (a1 := a1) ha hw hz
  obtain ⟨c, hc⟩ := snap_isSome (Real.neg_one_le_cos q3) (Real.cos_le_one q3)
  have hu := arm_u q1 w
  rw [← hx, ← hy] at hu
  have hc2 : 1 - c ^ 2 = 0 := by
    have := snap_near hc (lt_of_not_ge h)
    linarith
  have key : ∀ bd p1, ∃ t1 t2 t3, [t1, t2, t3] ∈ sideOf bd a1 a2 a3 (T 2 3) w p1 ∧
      Real.sin t3 = 0 := by
    intro bd p1
    refine ⟨_, _, _, (?_ : cand bd.1 bd.2.1 false a1 a2 a3 (T 2 3) w p1 c 1 ∈ _), ?_⟩
    · simp [sideOf, hcos, hc]
    · rw [(cs_elbow false false (snap_some hc).1 (snap_some hc).2.1 (Or.inl rfl)).2, hc2, Real.sqrt_zero,
        mul_zero]
  unfold bothSides at hb
  rcases le_total 0 w with h0 | h0
  · rw [hu.1 h0] at hb
    obtain ⟨t1, t2, t3, hm, hs⟩ := key _ (atan2 (Zeros.py T) (Zeros.px T) (T 1 3) (T 0 3))
    exact hb _ _ _ (List.mem_append_left _ hm) hs
  · rw [hu.2 h0, neg_neg] at hb
    obtain ⟨t1, t2, t3, hm, hs⟩ := key _ (atan2 (!Zeros.py T) (!Zeros.px T) (-T 1 3) (-T 0 3))
    exact hb _ _ _ (List.mem_append_right _ hm) hs

/-- Reaching, for a list of solutions with the properties of the two arms. -/
theorem sides_unique [Zeros] {a1 a2 a3 : ℝ} (ha : a2 * a3 ≠ 0) {T : M4} {L : List (List ℝ)}
    (hL : L = bothSides a1 a2 a3 T) (hoff : T 0 3 ≠ 0 ∨ T 1 3 ≠ 0) (hb : Bent L)
    (hsound : ∀ q ∈ L, IsCand a1 a2 a3 (T 0 3) (T 1 3) (T 2 3) q)
    (hcomplete : ∀ q1 q2 q3, posPart T = armPos a1 a2 a3 q1 q2 q3 → |Real.cos q3| ≤ 1 - tol →
      ∃ t1 t2 t3, [t1, t2, t3] ∈ L ∧ SameAngle t1 q1 ∧ SameAngle t2 q2 ∧ SameAngle t3 q3)
    (q1 q2 q3 : ℝ) :
    posPart T = armPos a1 a2 a3 q1 q2 q3 ↔
      ∃! i : Nat, ∃ q, L[i]? = some q ∧ SameConfig q [q1, q2, q3] := by
  constructor
  · intro h
    have h3 : |Real.cos q3| ≤ 1 - tol := by
      by_contra h3
      exact bothSides_straight ha h h3 (hL ▸ hb)
    obtain ⟨t1, t2, t3, hm, s1, s2, s3⟩ := hcomplete q1 q2 q3 h h3
    obtain ⟨i, hi⟩ := List.mem_iff_getElem?.1 hm
    refine ⟨i, ⟨_, hi, sameConfig3.2 ⟨s1, s2, s3⟩⟩, ?_⟩
    rintro j ⟨x, hx, hsame⟩
    exact unique_place (hL ▸ bothSides_pairwise hoff (hL ▸ hb)) hx hi hsame
      (sameConfig3.2 ⟨s1, s2, s3⟩)
  · rintro ⟨i, ⟨q, hq, hsame⟩, -⟩
    have hm := List.mem_of_getElem? hq
    obtain ⟨t1, t2, t3, rfl, -, hex, -⟩ := (hsound q hm).sound ha
    obtain ⟨s1, s2, s3⟩ := sameConfig3.1 hsame
    have hp : (![T 0 3, T 1 3, T 2 3] : V3) = posPart T := by ext i; fin_cases i <;> rfl
    rw [← hp, ← hex (hb _ _ _ hm)]
    exact armPos_congr s1 s2 s3

/-! ### C135 for the arms -/

theorem ne_shoulder {T : M4} {x y : ℝ} (h : posPart T ≠ ![x, y, 0]) :
    T 0 3 ≠ x ∨ T 1 3 ≠ y ∨ T 2 3 ≠ 0 := by
  by_contra hn
  push Not at hn
  apply h
  ext i
  fin_cases i
  · exact hn.1
  · exact hn.2.1
  · exact hn.2.2

/-- **C135** for Arm2: away from the first axis and if no returned solution is stretched or folded,
the configurations that reach the position are exactly the returned ones, up to full turns, and each
of them is returned once. -/
theorem C135_arm2 [Zeros] (hit : Oracle Shape) {a1 a2 a3 : ℝ} (ha : a2 * a3 ≠ 0) (T : M4)
    (haxis : T 0 3 ≠ 0 ∨ T 1 3 ≠ 0) {sols : List (List ℝ)}
    (h : arm2Ik (arm2 a1 a2 a3) T = some sols)
    (hbent : ∀ q1 q2 q3 : ℝ, [q1, q2, q3] ∈ sols → Real.sin q3 ≠ 0) (q1 q2 q3 : ℝ) :
    (FkSatisfies hit (arm2 a1 a2 a3) [q1, q2, q3] fun F => posPart F = posPart T) ↔
      ∃! i : Nat, ∃ q, sols[i]? = some q ∧ SameConfig q [q1, q2, q3] := by
  have hr := arm2Reaches_iff hit a1 a2 a3 q1 q2 q3 T
  unfold Arm2Reaches at hr
  rw [hr]
  refine sides_unique ha (arm2_sides h) haxis hbent (fun q hq => arm2Ik_cand h hq) ?_ q1 q2 q3
  intro q1 q2 q3 hT h3
  refine arm2Ik_complete ha q1 q2 q3 hT ?_ h3 h
  intro h0
  have hx : T 0 3 = Real.cos q1 * (a1 + a2 * Real.cos q2 + a3 * Real.cos (q2 + q3)) := congrFun hT 0
  have hy : T 1 3 = Real.sin q1 * (a1 + a2 * Real.cos q2 + a3 * Real.cos (q2 + q3)) := congrFun hT 1
  rw [h0, mul_zero] at hx hy
  exact haxis.elim (· hx) (· hy)

/-- **C135** for Arm2: a stretched or folded solution is returned twice, up to full turns, unless the
folded links are of the same length or the target is the shoulder. -/
theorem C135_arm2_twice [Zeros] {a1 a2 a3 : ℝ} (T : M4) {sols : List (List ℝ)}
    (h : arm2Ik (arm2 a1 a2 a3) T = some sols) {i : Nat} {q1 q2 q3 : ℝ}
    (hi : sols[i]? = some [q1, q2, q3]) (hs : Real.sin q3 = 0) (hA : a2 + a3 * Real.cos q3 ≠ 0)
    (hfar : posPart T ≠ ![a1 * Real.cos q1, a1 * Real.sin q1, 0]) :
    ∃ j q, j ≠ i ∧ sols[j]? = some q ∧ SameConfig q [q1, q2, q3] := by
  rw [arm2_sides h] at hi ⊢
  obtain ⟨j, t2, t3, hj, he, s2, s3⟩ := bothSides_double hi hs hA (ne_shoulder hfar)
  exact ⟨j, _, hj, he, sameConfig3.2 ⟨⟨0, by simp⟩, s2, s3⟩⟩

/-- **C135** for AnthropomorphicArm. -/
theorem C135_anthropomorphic [Zeros] (hit : Oracle Shape) {a2 a3 : ℝ} (ha : a2 * a3 ≠ 0) (T : M4)
    (haxis : T 0 3 ≠ 0 ∨ T 1 3 ≠ 0) {sols : List (List ℝ)}
    (h : anthropomorphicIk (anthropomorphicArm a2 a3) T = some sols)
    (hbent : ∀ q1 q2 q3 : ℝ, [q1, q2, q3] ∈ sols → Real.sin q3 ≠ 0) (q1 q2 q3 : ℝ) :
    (FkSatisfies hit (anthropomorphicArm a2 a3) [q1, q2, q3] fun F => posPart F = posPart T) ↔
      ∃! i : Nat, ∃ q, sols[i]? = some q ∧ SameConfig q [q1, q2, q3] := by
  have hr : ∀ q1 q2 q3, (FkSatisfies hit (anthropomorphicArm a2 a3) [q1, q2, q3]
      fun F => posPart F = posPart T) ↔ posPart T = armPos 0 a2 a3 q1 q2 q3 := by
    intro q1 q2 q3
    rw [fkSatisfies_iff _ _ (anthropomorphic_known _ _) _ (le_refl _), ← posPart_anthropomorphic]
    simp only [anthropomorphicArm, Robot.new, tip, one_mul, Option.map_none, Option.getD_none,
      mul_one]
    exact eq_comm
  rw [hr]
  refine sides_unique ha (aa_sides h) haxis hbent (fun q hq => anthropomorphicIk_cand h hq) ?_
    q1 q2 q3
  intro q1 q2 q3 hT h3
  obtain ⟨sols', h', hc⟩ := C42_complete hit ha q1 q2 q3 T ((hr _ _ _).2 hT) haxis h3
  rw [h] at h'
  cases h'
  exact hc

/-- **C135** for AnthropomorphicArm: a stretched or folded solution is returned twice, up to full
turns, unless the folded links are of the same length or the target is the shoulder. -/
theorem C135_anthropomorphic_twice [Zeros] {a2 a3 : ℝ} (T : M4) {sols : List (List ℝ)}
    (h : anthropomorphicIk (anthropomorphicArm a2 a3) T = some sols) {i : Nat} {q1 q2 q3 : ℝ}
    (hi : sols[i]? = some [q1, q2, q3]) (hs : Real.sin q3 = 0) (hA : a2 + a3 * Real.cos q3 ≠ 0)
    (hfar : posPart T ≠ 0) :
    ∃ j q, j ≠ i ∧ sols[j]? = some q ∧ SameConfig q [q1, q2, q3] := by
  rw [aa_sides h] at hi ⊢
  obtain ⟨j, t2, t3, hj, he, s2, s3⟩ := bothSides_double hi hs hA (ne_shoulder (by
    intro h0
    apply hfar
    rw [h0]
    ext i; fin_cases i <;> simp))
  exact ⟨j, _, hj, he, sameConfig3.2 ⟨⟨0, by simp⟩, s2, s3⟩⟩

/-! ### The wrist -/

/-- The second joint of the wrist is bent. -/
def WristBent (L : List (List ℝ)) : Prop := ∀ q1 q2 q3 : ℝ, [q1, q2, q3] ∈ L → Real.sin q2 ≠ 0

theorem rel_axis [Zeros] {tfBase T : M4} (h : IsRot (relRot tfBase T)) {t1 t2 t3 : ℝ}
    (hq : [t1, t2, t3] ∈ wristRows tfBase T) :
    relRot tfBase T 0 2 = Real.cos t1 * Real.sin t2 ∧
      relRot tfBase T 1 2 = Real.sin t1 * Real.sin t2 := by
  have h1 := (wristRows_axis h hq).1 1
  have e0 := congrFun h1 0
  have e1 := congrFun h1 1
  rw [zyz_eq] at e0 e1
  simp [Matrix.mulVec, dotProduct, Fin.sum_univ_three] at e0 e1
  exact ⟨e0.symm, e1.symm⟩

theorem no_axis {a s : ℝ} (hs : Real.sin s ≠ 0) (e0 : 0 = Real.cos a * Real.sin s)
    (e1 : 0 = Real.sin a * Real.sin s) : False := by
  have h1 := (mul_eq_zero.1 e0.symm).resolve_right hs
  have h2 := (mul_eq_zero.1 e1.symm).resolve_right hs
  have := Real.cos_sq_add_sin_sq a
  rw [h1, h2] at this
  norm_num at this

theorem wrist_pairwise [Zeros] {tfBase T : M4} (h : IsRot (relRot tfBase T))
    (hb : WristBent (wristRows tfBase T)) :
    (wristRows tfBase T).Pairwise fun q q' => ¬ SameConfig q q' := by
  obtain ⟨t1, t2, t3, hm⟩ : ∃ t1 t2 t3, [t1, t2, t3] ∈ wristRows tfBase T := by
    rw [wristRows_eq]; exact ⟨_, _, _, List.mem_cons_self⟩
  have hs := hb _ _ _ hm
  obtain ⟨e0, e1⟩ := rel_axis h hm
  rw [wristRows_eq]
  simp only [List.pairwise_cons, List.mem_singleton, forall_eq, List.not_mem_nil,
    IsEmpty.forall_iff, implies_true, List.Pairwise.nil, and_true]
  rw [sameConfig3]
  rintro ⟨h1, -⟩
  refine opposite_angles ?_ h1
  by_contra hn
  push Not at hn
  rw [hn.1] at e0
  rw [hn.2] at e1
  exact no_axis hs e0 e1

theorem half_turn_zero (b c : Bool) : SameAngle (atan2 (!b) (!c) 0 0) (atan2 b c 0 0 + Real.pi) := by
  rw [atan2_zero, atan2_zero]
  cases b <;> cases c
  · exact ⟨-1, by simp; ring⟩
  · exact ⟨-1, by simp; ring⟩
  · exact ⟨0, by simp⟩
  · exact ⟨0, by simp⟩

/-- The rows of a stretched wrist. -/
theorem wrist_double [Zeros] {tfBase T : M4} (h : IsRot (relRot tfBase T)) {t1 t2 t3 : ℝ} {i : Nat}
    (hi : (wristRows tfBase T)[i]? = some [t1, t2, t3]) (hs : Real.sin t2 = 0) :
    ∃ j s1 s2 s3, j ≠ i ∧ (wristRows tfBase T)[j]? = some [s1, s2, s3] ∧
      SameAngle s1 (t1 + Real.pi) ∧ SameAngle s2 (-t2) ∧ SameAngle s3 (t3 + Real.pi) := by
  obtain ⟨e0, e1⟩ := rel_axis h (List.mem_of_getElem? hi)
  rw [hs, mul_zero] at e0 e1
  obtain ⟨r1, r2, -⟩ := h.relations
  rw [e0, e1] at r1
  have h20 : relRot tfBase T 2 0 = 0 := by nlinarith [sq_nonneg (relRot tfBase T 2 1)]
  have h21 : relRot tfBase T 2 1 = 0 := by nlinarith [sq_nonneg (relRot tfBase T 2 0)]
  rw [wristRows_eq, e0, e1, h20, h21] at hi ⊢
  simp only [neg_zero, ne_eq, OfNat.ofNat_ne_zero, not_false_eq_true, zero_pow, add_zero,
    Real.sqrt_zero] at hi ⊢
  have hneg : ∀ b d, SameAngle (atan2 (!b) d 0 (relRot tfBase T 2 2))
      (-atan2 b d 0 (relRot tfBase T 2 2)) := by
    intro b d
    have hne : relRot tfBase T 2 2 ≠ 0 := by
      intro h0
      rw [h0] at r1
      norm_num at r1
    have hz : ∀ b, Real.sin (atan2 b d 0 (relRot tfBase T 2 2)) = 0 := by
      intro b
      rw [(atan2_cs b d (Or.inl hne)).2, sin_arctan2, zero_div]
    refine angle_eq ?_ ?_
    · rw [Real.cos_neg, (atan2_cs _ d (Or.inl hne)).1, (atan2_cs _ d (Or.inl hne)).1]
    · rw [Real.sin_neg, hz, hz, neg_zero]
  rcases i with _ | _ | i
  · simp only [List.getElem?_cons_zero, Option.some.injEq, List.cons.injEq, and_true] at hi
    obtain ⟨rfl, rfl, rfl⟩ := hi
    refine ⟨1, _, _, _, by omega, rfl, half_turn_zero _ _, hneg false _, ?_⟩
    have := half_turn_zero (Zeros.rel tfBase T 2 1) (!Zeros.rel tfBase T 2 0)
    rwa [Bool.not_not] at this
  · simp only [List.getElem?_cons_succ, List.getElem?_cons_zero, Option.some.injEq,
      List.cons.injEq, and_true] at hi
    obtain ⟨rfl, rfl, rfl⟩ := hi
    refine ⟨0, _, _, _, by omega, rfl, ?_, hneg true _, ?_⟩
    · have := half_turn_zero (!Zeros.rel tfBase T 1 2) (!Zeros.rel tfBase T 0 2)
      rwa [Bool.not_not, Bool.not_not] at this
    · have := half_turn_zero (!Zeros.rel tfBase T 2 1) (Zeros.rel tfBase T 2 0)
      rwa [Bool.not_not] at this
  · simp at hi

/-- **C135** for SphericalWrist: if the returned solutions are not stretched, the configurations that
reach the orientation are exactly the returned ones, and each of them is returned once.  If a solution
is stretched, the other one is the same but for half a turn of the joints around it. -/
theorem C135_wrist [Zeros] (hit : Oracle Shape) (d3 : ℝ) {base T : M4} (hb : IsRigid base)
    (hT : IsRigid T)
    (n : Nat) (mem : Mem) (hn : n < mem.length) :
    ∃ rows, (wristIk n base mem T).2[(wristIk n base mem T).1]? = some rows ∧
      ((∀ q1 q2 q3 : ℝ, [q1, q2, q3] ∈ rows → Real.sin q2 ≠ 0) → ∀ q1 q2 q3 : ℝ,
        (FkSatisfies hit (wristOn d3 base) [q1, q2, q3] fun F => rotPart F = rotPart T) ↔
          ∃! i : Nat, ∃ q, rows[i]? = some q ∧ SameConfig q [q1, q2, q3]) ∧
      ∀ (i : Nat) (q1 q2 q3 : ℝ), rows[i]? = some [q1, q2, q3] → Real.sin q2 = 0 →
        ∃ j q, j ≠ i ∧ rows[j]? = some q ∧ SameConfig q [q1 + Real.pi, -q2, q3 + Real.pi] := by
  have hrel : IsRot (relRot base T) := hb.1.transpose.mul hT.1
  have hr : ∀ q1 q2 q3, (FkSatisfies hit (wristOn d3 base) [q1, q2, q3]
      fun F => rotPart F = rotPart T) ↔ relRot base T = zyz q1 q2 q3 := by
    intro q1 q2 q3
    rw [wristOn_fk _ _ hb, rotPart_mul hb.2 (mkTf_last _ _), rotPart_mkTf, relRot]
    constructor
    · intro h
      rw [← h, ← Matrix.mul_assoc, hb.1.1, one_mul]
    · intro h
      rw [← h, ← Matrix.mul_assoc, hb.1.mul_transpose, one_mul]
  refine ⟨wristRows base T, by simp [wristIk, hn], fun hbent q1 q2 q3 => ?_,
    fun i q1 q2 q3 hi hs => ?_⟩
  · rw [hr]
    constructor
    · intro h
      have h2 : Real.sin q2 ≠ 0 := by
        intro h0
        obtain ⟨t1, t2, t3, hm⟩ : ∃ t1 t2 t3, [t1, t2, t3] ∈ wristRows base T := by
          rw [wristRows_eq]; exact ⟨_, _, _, List.mem_cons_self⟩
        obtain ⟨e0, e1⟩ := rel_axis hrel hm
        rw [h] at e0 e1
        rw [(zyz_axis _ _ _).1, h0, mul_zero] at e0
        rw [(zyz_axis _ _ _).2, h0, mul_zero] at e1
        have hs := hbent _ _ _ hm
        exact no_axis hs e0 e1
      obtain ⟨t1, t2, t3, hm, s1, s2, s3⟩ := wristRows_complete h h2
      obtain ⟨i, hi⟩ := List.mem_iff_getElem?.1 hm
      refine ⟨i, ⟨_, hi, sameConfig3.2 ⟨s1, s2, s3⟩⟩, ?_⟩
      rintro j ⟨x, hx, hsame⟩
      exact unique_place (wrist_pairwise hrel hbent) hx hi hsame (sameConfig3.2 ⟨s1, s2, s3⟩)
    · rintro ⟨i, ⟨q, hq, hsame⟩, -⟩
      have hm := List.mem_of_getElem? hq
      obtain ⟨t1, t2, t3, rfl⟩ : ∃ t1 t2 t3, q = [t1, t2, t3] := by
        rw [wristRows_eq] at hm
        simp only [List.mem_cons, List.not_mem_nil, or_false] at hm
        rcases hm with rfl | rfl <;> exact ⟨_, _, _, rfl⟩
      obtain ⟨s1, s2, s3⟩ := sameConfig3.1 hsame
      rw [← (wristRows_axis hrel hm).2.1 (hbent _ _ _ hm)]
      exact zyz_congr s1 s2 s3
  · obtain ⟨j, s1, s2, s3, hj, he, h1, h2, h3⟩ := wrist_double hrel hi hs
    exact ⟨j, _, hj, he, sameConfig3.2 ⟨h1, h2, h3⟩⟩

/-! ### The Kuka -/

theorem kuka_chain_congr {a1 a2 d4 d6 q1 q2 q3 q4 q5 q6 t1 t2 t3 t4 t5 t6 : ℝ}
    (h : SameConfig [t1, t2, t3, t4, t5, t6] [q1, q2, q3, q4, q5, q6]) :
    chain (kukaRobot a1 a2 d4 d6).links [t1, t2, t3, t4, t5, t6] =
      chain (kukaRobot a1 a2 d4 d6).links [q1, q2, q3, q4, q5, q6] := by
  obtain ⟨s1, s2, s3, s4, s5, s6⟩ := sameConfig6.1 h
  rw [chain_kuka, chain_kuka, armRot_congr s1 (s2.add2 s3), zyz_congr s4 s5 s6,
    armPos_congr s1 s2 (by have := s3.add (-(Real.pi / 2)); simpa only [← sub_eq_add_neg] using this)]

/-- The address list of `Kuka.ik` and the solutions behind it. -/
theorem kuka_cells [Zeros] {a1 a2 d4 : ℝ} (k : Kuka) (hk : k.arm = arm2 a1 a2 d4) {st : RState}
    {mem : Mem}
    {T : M4} (hw : WF 3 st) (hm : k.qsol < mem.length) {qs : List (List ℝ)}
    (hs : arm2Ik (arm2 a1 a2 d4) (kukaTarget k.robot T) = some qs) {sols : List Nat}
    (h : (k.ik st mem T).1 = .ok (some sols)) (a : Nat) (q : List ℝ) :
    (a ∈ sols ∧ (k.ik st mem T).2.2[a]? = some [q]) ↔
      ∃ i : Nat, a = mem.length + i ∧
        (qs.flatMap (kSols a1 a2 d4 (kukaTarget k.robot T)))[i]? = some q := by
  obtain ⟨st', X, e, hwf⟩ := kukaIk_some k hk hw hm hs
  have hlen : (qs.flatMap (kSols a1 a2 d4 (kukaTarget k.robot T))).length = 2 * qs.length := by
    rw [List.length_flatMap]
    simp [kSols_length, mul_comm]
  rw [e] at h ⊢
  cases h
  have hcell : ∀ i : Nat, (mem.set k.qsol X ++
      (qs.flatMap (kSols a1 a2 d4 (kukaTarget k.robot T))).map fun q => [q])[mem.length + i]? =
      ((qs.flatMap (kSols a1 a2 d4 (kukaTarget k.robot T)))[i]?).map fun q => [q] := by
    intro i
    rw [List.getElem?_append_right (by simp), List.length_set, Nat.add_sub_cancel_left,
      List.getElem?_map]
  constructor
  · rintro ⟨ha, hc⟩
    rw [List.mem_range'_1] at ha
    obtain ⟨i, rfl⟩ := Nat.exists_eq_add_of_le ha.1
    refine ⟨i, rfl, ?_⟩
    simp only [hcell, Option.map_eq_some_iff] at hc
    obtain ⟨q', hq', he⟩ := hc
    cases he
    exact hq'
  · rintro ⟨i, rfl, hi⟩
    have hlt := (List.getElem?_eq_some_iff.1 hi).1
    refine ⟨by rw [List.mem_range'_1]; omega, ?_⟩
    simp only [hcell, hi, Option.map_some]

/-- The solutions of the Kuka are different if those of the arm and of the wrist are. -/
theorem kuka_pairwise [Zeros] {a1 a2 d4 : ℝ} {R : M3} (hR : IsRot R) {w : V3}
    (hoff : w 0 ≠ 0 ∨ w 1 ≠ 0)
    {qs : List (List ℝ)} (hs : arm2Ik (arm2 a1 a2 d4) (mkTf R w) = some qs)
    (hbent : ∀ q1 q2 q3 q4 q5 q6 : ℝ,
      [q1, q2, q3, q4, q5, q6] ∈ qs.flatMap (kSols a1 a2 d4 (mkTf R w)) →
        Real.cos q3 ≠ 0 ∧ Real.sin q5 ≠ 0) :
    (qs.flatMap (kSols a1 a2 d4 (mkTf R w))).Pairwise fun q q' => ¬ SameConfig q q' := by
  have hcand : ∀ q ∈ qs, IsCand a1 a2 d4 (w 0) (w 1) (w 2) q := fun q hq => arm2Ik_cand hs hq
  have hb : Bent qs := by
    intro q1 q2 q3 hq h0
    obtain ⟨q', hq'⟩ : ∃ q', q' ∈ kSols a1 a2 d4 (mkTf R w) [q1, q2, q3] :=
      List.exists_mem_of_length_pos (by rw [kSols_length]; norm_num)
    obtain ⟨p1, p2, p3, t1, t2, t3, he, rfl, -, -⟩ := kSols_mem (hcand _ hq) hq'
    cases he
    have := (hbent _ _ _ _ _ _ (List.mem_flatMap.2 ⟨_, hq, hq'⟩)).1
    rw [Real.cos_add_pi_div_two, h0, neg_zero] at this
    exact this rfl
  rw [List.pairwise_flatMap]
  constructor
  · intro q hq
    have hpos : ∃ q1 q2 q3, q = [q1, q2, q3] := by
      obtain ⟨u, q1, c, sg, _, _, _, _, -, -, -, -, rfl⟩ := hcand q hq
      exact ⟨_, _, _, rfl⟩
    obtain ⟨q1, q2, q3, rfl⟩ := hpos
    unfold kSols
    have hmod : [q1, q2, q3].modify 2 (· + Real.pi / 2) = [q1, q2, q3 + Real.pi / 2] := rfl
    rw [hmod, chain_arm2, rotPart_mkTf, List.pairwise_map]
    set B := wristBase (armRot q1 (q2 + (q3 + Real.pi / 2))) (mkTf R w) with hB
    have hrel : IsRot (relRot B (mkTf R w)) := by
      rw [relRot, hB, rotPart_wristBase, rotPart_mkTf]
      exact (armRot_isRot _ _).transpose.mul hR
    have hwb : WristBent (wristRows B (mkTf R w)) := by
      intro t1 t2 t3 ht
      refine (hbent q1 q2 (q3 + Real.pi / 2) t1 t2 t3 (List.mem_flatMap.2 ⟨_, hq, ?_⟩)).2
      unfold kSols
      rw [hmod, chain_arm2, rotPart_mkTf]
      exact List.mem_map.2 ⟨_, ht, rfl⟩
    refine (wrist_pairwise hrel hwb).imp_of_mem ?_
    intro r r' hr hr' hne hsame
    apply hne
    simp only [SameConfig, List.cons_append, List.nil_append, List.forall₂_cons] at hsame ⊢
    exact hsame.2.2.2
  · rw [arm2_sides hs] at hb ⊢
    have hbs := bothSides_pairwise (a1 := a1) (a2 := a2) (a3 := d4) (T := mkTf R w) hoff hb
    rw [← arm2_sides hs] at hbs ⊢
    refine hbs.imp_of_mem ?_
    intro q q' hq hq' hne x hx y hy hsame
    obtain ⟨p1, p2, p3, t1, t2, t3, rfl, rfl, -, -⟩ := kSols_mem (hcand _ hq) hx
    obtain ⟨p1', p2', p3', t1', t2', t3', rfl, rfl, -, -⟩ := kSols_mem (hcand _ hq') hy
    obtain ⟨s1, s2, s3, -⟩ := sameConfig6.1 hsame
    refine hne (sameConfig3.2 ⟨s1, s2, ?_⟩)
    have := s3.add (-(Real.pi / 2))
    simpa only [add_neg_cancel_right] using this

/-- The solutions of the Kuka, stored behind the address `N`, are exactly the configurations that
reach the pose, once each. -/
theorem kuka_unique [Zeros] {a1 a2 d4 d6 : ℝ} (ha : a2 * d4 ≠ 0) {R : M3} (hR : IsRot R) {p w : V3}
    (hwe : w = p - R *ᵥ ![0, 0, d6]) (haxis : w 0 ≠ 0 ∨ w 1 ≠ 0) {qs : List (List ℝ)}
    (hq : arm2Ik (arm2 a1 a2 d4) (mkTf R w) = some qs) {Cell : Nat → List ℝ → Prop} {N : Nat}
    (hcells : ∀ a q, Cell a q ↔ ∃ i : Nat, a = N + i ∧
      (qs.flatMap (kSols a1 a2 d4 (mkTf R w)))[i]? = some q)
    (hbent : ∀ a (q1 q2 q3 q4 q5 q6 : ℝ), Cell a [q1, q2, q3, q4, q5, q6] →
      Real.cos q3 ≠ 0 ∧ Real.sin q5 ≠ 0) (q1 q2 q3 q4 q5 q6 : ℝ) :
    chain (kukaRobot a1 a2 d4 d6).links [q1, q2, q3, q4, q5, q6] = mkTf R p ↔
      ∃! a, ∃ q, Cell a q ∧ SameConfig q [q1, q2, q3, q4, q5, q6] := by
  have hbent' : ∀ q1 q2 q3 q4 q5 q6 : ℝ,
      [q1, q2, q3, q4, q5, q6] ∈ qs.flatMap (kSols a1 a2 d4 (mkTf R w)) →
        Real.cos q3 ≠ 0 ∧ Real.sin q5 ≠ 0 := by
    intro q1 q2 q3 q4 q5 q6 h
    obtain ⟨i, hi⟩ := List.mem_iff_getElem?.1 h
    exact hbent _ _ _ _ _ _ _ ((hcells _ _).2 ⟨i, rfl, hi⟩)
  have hpair := kuka_pairwise hR haxis hq hbent'
  constructor
  · intro hch
    have hw1 : posPart (mkTf R w) = armPos a1 a2 d4 q1 q2 (q3 - Real.pi / 2) := by
      have hch' := hch
      rw [chain_kuka] at hch'
      obtain ⟨h1, h2⟩ := mkTf_inj hch'
      rw [posPart_mkTf, hwe, ← h2, ← h1, add_sub_cancel_right]
    have hbq : Bent qs := by
      intro p1 p2 p3 hp h0
      obtain ⟨q', hq'⟩ : ∃ q', q' ∈ kSols a1 a2 d4 (mkTf R w) [p1, p2, p3] :=
        List.exists_mem_of_length_pos (by rw [kSols_length]; norm_num)
      obtain ⟨_, _, _, t1, t2, t3, he, rfl, -, -⟩ := kSols_mem
        (show IsCand a1 a2 d4 (w 0) (w 1) (w 2) _ from arm2Ik_cand hq hp) hq'
      cases he
      have := (hbent' _ _ _ _ _ _ (List.mem_flatMap.2 ⟨_, hp, hq'⟩)).1
      rw [Real.cos_add_pi_div_two, h0, neg_zero] at this
      exact this rfl
    have h3 : |Real.sin q3| ≤ 1 - tol := by
      by_contra h3
      rw [← Real.cos_sub_pi_div_two] at h3
      exact bothSides_straight ha hw1 h3 (arm2_sides hq ▸ hbq)
    have h0 : a1 + a2 * Real.cos q2 + d4 * Real.sin (q2 + q3) ≠ 0 := by
      intro h0
      have hb' : Real.cos (q2 + (q3 - Real.pi / 2)) = Real.sin (q2 + q3) := by
        rw [← add_sub_assoc, Real.cos_sub_pi_div_two]
      have hx : w 0 = Real.cos q1 *
        (a1 + a2 * Real.cos q2 + d4 * Real.cos (q2 + (q3 - Real.pi / 2))) := congrFun hw1 0
      have hy : w 1 = Real.sin q1 *
        (a1 + a2 * Real.cos q2 + d4 * Real.cos (q2 + (q3 - Real.pi / 2))) := congrFun hw1 1
      rw [hb', h0, mul_zero] at hx hy
      exact haxis.elim (· hx) (· hy)
    obtain ⟨t1, t2, t3, hmem, s1, s2, s3, hwr⟩ := kuka_complete ha hch (hwe ▸ hq) h0 h3
    rw [← hwe] at hwr
    have h5 : Real.sin q5 ≠ 0 := by
      intro h5
      obtain ⟨q', hq'⟩ : ∃ q', q' ∈ kSols a1 a2 d4 (mkTf R w) [t1, t2, t3 - Real.pi / 2] :=
        List.exists_mem_of_length_pos (by rw [kSols_length]; norm_num)
      obtain ⟨_, _, _, u1, u2, u3, he, rfl, hrow, hrel⟩ := kSols_mem
        (show IsCand a1 a2 d4 (w 0) (w 1) (w 2) _ from arm2Ik_cand hq hmem) hq'
      cases he
      rw [sub_add_cancel] at hrow hrel
      have hb5 := (hbent' _ _ _ _ _ _ (List.mem_flatMap.2 ⟨_, hmem, hq'⟩)).2
      have hAr := armRot_isRot t1 (t2 + t3)
      have hz : (armRot t1 (t2 + t3))ᵀ * R = zyz q4 q5 q6 := by
        rw [chain_kuka] at hch
        rw [armRot_congr s1 (s2.add2 s3), ← (mkTf_inj hch).1, ← Matrix.mul_assoc,
          (armRot_isRot q1 (q2 + q3)).1, one_mul]
      obtain ⟨e0, e1⟩ := rel_axis (by rw [hrel]; exact hAr.transpose.mul hR) hrow
      rw [hrel, hz] at e0 e1
      rw [(zyz_axis _ _ _).1, h5, mul_zero] at e0
      rw [(zyz_axis _ _ _).2, h5, mul_zero] at e1
      exact no_axis hb5 e0 e1
    obtain ⟨t4, t5, t6, hk6, s4, s5, s6⟩ := hwr h5
    have hsame := sameConfig6.2 ⟨s1, s2, s3, s4, s5, s6⟩
    obtain ⟨i, hi⟩ := List.mem_iff_getElem?.1 (List.mem_flatMap.2 ⟨_, hmem, hk6⟩)
    have c1 := (hcells _ _).2 ⟨i, rfl, hi⟩
    refine ⟨_, ⟨_, c1, hsame⟩, ?_⟩
    rintro b ⟨q', hb1, hsame'⟩
    obtain ⟨j, rfl, hj⟩ := (hcells _ _).1 hb1
    rw [unique_place hpair hj hi hsame' hsame]
  · rintro ⟨a, ⟨q', hcell, hsame⟩, -⟩
    obtain ⟨i, rfl, hi⟩ := (hcells _ _).1 hcell
    obtain ⟨q, hqm, hq'm⟩ := List.mem_flatMap.1 (List.mem_of_getElem? hi)
    obtain ⟨t1, t2, t3, t4, t5, t6, rfl, -, -, hpos, hrot⟩ :=
      kuka_solution ha hR (hwe ▸ hq) hqm (hwe ▸ hq'm)
    obtain ⟨h3, h5⟩ := hbent' _ _ _ _ _ _ (List.mem_of_getElem? hi)
    have hC := chain_rigid (kukaRobot a1 a2 d4 d6).links [t1, t2, t3, t4, t5, t6]
    rw [← kuka_chain_congr hsame, ← mkTf_parts hC.2, hrot h5, hpos h3]

/-- **C135** for the Kuka: if the wrist centre is not on the first axis and no returned solution has
a stretched arm or wrist, the configurations that reach the pose are exactly the returned ones, up to
full turns, and each of them is returned once. -/
theorem C135_kuka [Zeros] (hit : Oracle Shape) {a1 a2 d4 d6 : ℝ} (ha : a2 * d4 ≠ 0) (n : Nat)
    (mem : Mem) (hn : n < mem.length) (history : List IkCall) {base T : M4} (hb : IsRigid base)
    (tool : Option (Tool Shape)) (ht : ∀ t, tool = some t → IsRigid t.tfTT) {w : V3}
    (hw : WristCentre d6 base tool T w) (haxis : w 0 ≠ 0 ∨ w 1 ≠ 0) :
    let k := setup (Kuka.new a1 a2 d4 d6 n) base tool
    let s := kukaAfter (Kuka.new a1 a2 d4 d6 n) mem history
    ∀ sols, (k.ik s.1 s.2 T).1 = .ok (some sols) →
      (∀ a ∈ sols, ∀ q1 q2 q3 q4 q5 q6 : ℝ,
        (k.ik s.1 s.2 T).2.2[a]? = some [[q1, q2, q3, q4, q5, q6]] →
          Real.cos q3 ≠ 0 ∧ Real.sin q5 ≠ 0) →
      ∀ q1 q2 q3 q4 q5 q6 : ℝ, FkSatisfies hit k.robot [q1, q2, q3, q4, q5, q6] (· = T) ↔
        ∃! a, a ∈ sols ∧ ∃ q, (k.ik s.1 s.2 T).2.2[a]? = some [q] ∧
          SameConfig q [q1, q2, q3, q4, q5, q6] := by
  intro k s sols hsols hbent q1 q2 q3 q4 q5 q6
  obtain ⟨hwf, hlen⟩ := kukaAfter_inv (a1 := a1) (a2 := a2) (d4 := d4) (d6 := d6) mem hn history
  have hm : k.qsol < s.2.length := lt_of_lt_of_le hn hlen
  have htip := tipOf_rigid ht
  obtain ⟨R, p, hR, hTe, hwp⟩ := hw
  have htgt : kukaTarget k.robot T = mkTf R w := kukaTarget_at hb ht hTe hwp n
  have hwe : w = p - R *ᵥ ![0, 0, d6] := by
    ext i
    rw [hwp]
    simp [Matrix.mulVec, dotProduct, Fin.sum_univ_three, mul_comm]
  cases hq : arm2Ik (arm2 a1 a2 d4) (mkTf R w) with
  | none =>
    rw [kukaIk_none k (a1 := a1) (a2 := a2) (d4 := d4) rfl s.1 s.2 (htgt ▸ hq)] at hsols
    simp at hsols
  | some qs =>
    have hcells := kuka_cells k (a1 := a1) (a2 := a2) (d4 := d4) rfl hwf hm (htgt ▸ hq) hsols
    rw [htgt] at hcells
    have hk : ∀ q1 q2 q3 q4 q5 q6, FkSatisfies hit k.robot [q1, q2, q3, q4, q5, q6] (· = T) ↔
        chain (kukaRobot a1 a2 d4 d6).links [q1, q2, q3, q4, q5, q6] = mkTf R p := by
      intro q1 q2 q3 q4 q5 q6
      rw [fkSatisfies_iff _ _ (setup_known a1 a2 d4 d6 n base tool) _ (le_refl _)]
      change base * chain (kukaRobot a1 a2 d4 d6).links [q1, q2, q3, q4, q5, q6] * tipOf tool = T ↔ _
      constructor
      · intro h
        rw [hTe] at h
        have := congrArg (fun X => tfInverse base * (X * tfInverse (tipOf tool))) h
        simpa only [mul_assoc, mul_tfInverse htip, mul_one, ← mul_assoc (tfInverse base),
          tfInverse_mul hb, one_mul] using this
      · intro h
        rw [h, hTe]
    rw [hk, kuka_unique ha hR hwe haxis hq hcells
      (fun a q1 q2 q3 q4 q5 q6 h => hbent a h.1 _ _ _ _ _ _ h.2)]
    exact existsUnique_congr fun a =>
      ⟨fun ⟨q, ⟨h1, h2⟩, h3⟩ => ⟨h1, q, h2, h3⟩, fun ⟨h1, q, h2, h3⟩ => ⟨q, ⟨h1, h2⟩, h3⟩⟩

/-- A place in a list of pairs. -/
theorem pairs_place {α β : Type} {f : α → List β} (hf : ∀ x, (f x).length = 2) {L : List α}
    {i : Nat} {y : β} : (L.flatMap f)[i]? = some y ↔
      ∃ (k r : Nat) (x : α), i = 2 * k + r ∧ r < 2 ∧ L[k]? = some x ∧ (f x)[r]? = some y := by
  induction L generalizing i with
  | nil => simp
  | cons x L ih =>
    rw [List.flatMap_cons]
    rcases Nat.lt_or_ge i 2 with h | h
    · rw [List.getElem?_append_left (by rw [hf]; exact h)]
      constructor
      · intro hy
        exact ⟨0, i, x, by omega, h, by simp, hy⟩
      · rintro ⟨k, r, x', rfl, -, hx, hy⟩
        obtain rfl : k = 0 := by omega
        rw [List.getElem?_cons_zero, Option.some.injEq] at hx
        subst hx
        simpa using hy
    · rw [List.getElem?_append_right (by rw [hf]; exact h), hf, ih]
      constructor
      · rintro ⟨k, r, x', hi, hr, hx, hy⟩
        exact ⟨k + 1, r, x', by omega, hr, by simpa using hx, hy⟩
      · rintro ⟨k, r, x', rfl, hr, hx, hy⟩
        rcases k with _ | k
        · omega
        · exact ⟨k, r, x', by omega, hr, by simpa using hx, hy⟩

/-- The rows of the wrist behind two equal positions of the arm are the same. -/
theorem kSols_congr [Zeros] {a1 a2 d4 : ℝ} {R : M3} {w : V3} {q1 q2 q3 t2 t3 : ℝ}
    (s2 : SameAngle t2 q2) (s3 : SameAngle t3 q3) {r : Nat} {q : List ℝ}
    (h : (kSols a1 a2 d4 (mkTf R w) [q1, q2, q3])[r]? = some q) :
    ∃ q', (kSols a1 a2 d4 (mkTf R w) [q1, t2, t3])[r]? = some q' ∧ SameConfig q' q := by
  unfold kSols at h ⊢
  have hmod : ∀ a b c : ℝ, [a, b, c].modify 2 (· + Real.pi / 2) = [a, b, c + Real.pi / 2] :=
    fun _ _ _ => rfl
  have s3' : SameAngle (t3 + Real.pi / 2) (q3 + Real.pi / 2) := s3.add _
  simp only [hmod, chain_arm2, rotPart_mkTf] at h ⊢
  rw [armRot_congr (SameAngle.rfl' _) (s2.add2 s3')]
  rw [List.getElem?_map, Option.map_eq_some_iff] at h
  obtain ⟨row, hrow, rfl⟩ := h
  refine ⟨_, by rw [List.getElem?_map, hrow]; rfl, ?_⟩
  simp only [SameConfig, List.cons_append, List.nil_append, List.forall₂_cons]
  refine ⟨(SameAngle.rfl' _), s2, s3', ?_⟩
  exact List.forall₂_same.2 fun x _ => (SameAngle.rfl' _)

/-- As `kuka_unique`, for a stretched or folded arm. -/
theorem kuka_double [Zeros] {a1 a2 d4 : ℝ} {R : M3} {w : V3} {qs : List (List ℝ)}
    (hq : arm2Ik (arm2 a1 a2 d4) (mkTf R w) = some qs) {Cell : Nat → List ℝ → Prop} {N : Nat}
    (hcells : ∀ a q, Cell a q ↔ ∃ i : Nat, a = N + i ∧
      (qs.flatMap (kSols a1 a2 d4 (mkTf R w)))[i]? = some q) {a : Nat} {q1 q2 q3 q4 q5 q6 : ℝ}
    (hcell : Cell a [q1, q2, q3, q4, q5, q6]) (h3 : Real.cos q3 = 0) (hA : a2 + d4 * Real.sin q3 ≠ 0)
    (hfar : w ≠ ![a1 * Real.cos q1, a1 * Real.sin q1, 0]) :
    ∃ b, b ≠ a ∧ ∃ q, Cell b q ∧ SameConfig q [q1, q2, q3, q4, q5, q6] := by
  obtain ⟨i, rfl, hi⟩ := (hcells _ _).1 hcell
  obtain ⟨c, r, x, rfl, hr, hx, hy⟩ := (pairs_place (kSols_length a1 a2 d4 (mkTf R w))).1 hi
  have hxm := List.mem_of_getElem? hx
  obtain ⟨p1, p2, p3, t1, t2, t3, rfl, he, -, -⟩ := kSols_mem
    (show IsCand a1 a2 d4 (w 0) (w 1) (w 2) _ from arm2Ik_cand hq hxm) (List.mem_of_getElem? hy)
  cases he
  rw [Real.cos_add_pi_div_two, neg_eq_zero] at h3
  rw [Real.sin_add_pi_div_two] at hA
  have hx' := hx
  rw [arm2_sides hq] at hx'
  obtain ⟨j, u2, u3, hj, hjx, s2, s3⟩ := bothSides_double hx' h3 hA
    (ne_shoulder (by rw [posPart_mkTf]; exact hfar))
  rw [← arm2_sides hq] at hjx
  obtain ⟨q', hq', hsame⟩ := kSols_congr s2 s3 hy
  have c1 := (hcells _ _).2
    ⟨2 * j + r, rfl, (pairs_place (kSols_length a1 a2 d4 (mkTf R w))).2 ⟨j, r, _, rfl, hr, hjx, hq'⟩⟩
  exact ⟨_, by omega, q', c1, hsame⟩

/-- **C135** for the Kuka: a solution with a stretched or folded arm, away from the shoulder, is
returned twice. -/
theorem C135_kuka_twice [Zeros] {a1 a2 d4 d6 : ℝ} (n : Nat)
    (mem : Mem) (hn : n < mem.length) (history : List IkCall) {base T : M4} (hb : IsRigid base)
    (tool : Option (Tool Shape)) (ht : ∀ t, tool = some t → IsRigid t.tfTT) {w : V3}
    (hw : WristCentre d6 base tool T w) :
    let k := setup (Kuka.new a1 a2 d4 d6 n) base tool
    let s := kukaAfter (Kuka.new a1 a2 d4 d6 n) mem history
    ∀ sols, (k.ik s.1 s.2 T).1 = .ok (some sols) → ∀ a ∈ sols, ∀ q1 q2 q3 q4 q5 q6 : ℝ,
      (k.ik s.1 s.2 T).2.2[a]? = some [[q1, q2, q3, q4, q5, q6]] →
      Real.cos q3 = 0 → Real.sin q5 ≠ 0 → a2 + d4 * Real.sin q3 ≠ 0 →
      w ≠ ![a1 * Real.cos q1, a1 * Real.sin q1, 0] →
      ∃ b ∈ sols, b ≠ a ∧ ∃ q, (k.ik s.1 s.2 T).2.2[b]? = some [q] ∧
        SameConfig q [q1, q2, q3, q4, q5, q6] := by
  intro k s sols hsols a hmem q1 q2 q3 q4 q5 q6 hcell h3 _ hA hfar
  obtain ⟨hwf, hlen⟩ := kukaAfter_inv (a1 := a1) (a2 := a2) (d4 := d4) (d6 := d6) mem hn history
  have hm : k.qsol < s.2.length := lt_of_lt_of_le hn hlen
  obtain ⟨R, p, hR, hTe, hwp⟩ := hw
  have htgt : kukaTarget k.robot T = mkTf R w := kukaTarget_at hb ht hTe hwp n
  cases hq : arm2Ik (arm2 a1 a2 d4) (mkTf R w) with
  | none =>
    rw [kukaIk_none k (a1 := a1) (a2 := a2) (d4 := d4) rfl s.1 s.2 (htgt ▸ hq)] at hsols
    simp at hsols
  | some qs =>
    have hcells := kuka_cells k (a1 := a1) (a2 := a2) (d4 := d4) rfl hwf hm (htgt ▸ hq) hsols
    rw [htgt] at hcells
    obtain ⟨b, hne, q, hc, hsame⟩ := kuka_double hq hcells ⟨hmem, hcell⟩ h3 hA hfar
    exact ⟨b, hc.1, hne, q, hc.2, hsame⟩

/-! ### KukaOnRail -/

/-- The frame of the carriage of KukaOnRail in the frame of the rail. -/
noncomputable def carriage (x : ℝ) : M4 := mkTf (rotX (Real.pi / 2)) ![0, 0, x]

theorem carriage_eq (x : ℝ) : railLink x = carriage x := by
  unfold railLink carriage
  rw [dhMat_eq]
  congr 1
  · rw [show rotZ 0 = 1 by ext i j; fin_cases i <;> fin_cases j <;> simp [rotZ], one_mul]
  · simp

theorem carriage_rigid (x : ℝ) : IsRigid (carriage x) := carriage_eq x ▸ dhMat_rigid _ _ _ _

/-- The address list of `KukaOnRail.ik` and the solutions behind it. -/
theorem rail_cells [Zeros] {a1 a2 d4 d6 : ℝ} {r : Rail} {n : Nat}
    (hr : r.robot.links = (railRobot a1 a2 d4 d6).links)
    (hk : r.kuka = Kuka.new 0.18 0.6 0.62 0.115 n) {st0 : M4} (h0 : Intact st0) {st : RState}
    {mem : Mem} (hw : WF 3 st) (hm : n < mem.length) {T : M4} {qf : ℝ} {R : M3} {p w : V3}
    (hX : railTarget r.robot T = railLink qf * mkTf R p) (hwe : w = p - R *ᵥ ![0, 0, 0.115])
    {sols : List Nat} (hs : (r.ik st0 st mem T qf).1 = .ok (some sols)) :
    ∃ qs, ∃ N : Nat, arm2Ik (arm2 0.18 0.6 0.62) (mkTf R w) = some qs ∧ ∀ a q,
      (a ∈ sols ∧ (r.ik st0 st mem T qf).2.2.2[a]? = some [qf :: q]) ↔
        ∃ i : Nat, a = N + i ∧ (qs.flatMap (kSols 0.18 0.6 0.62 (mkTf R w)))[i]? = some q := by
  obtain ⟨st0', h0', e⟩ := railIk_eq hr hk h0 st mem T qf
  have htgt : kukaTarget (innerKuka n qf).robot (railTarget r.robot T) = mkTf R w := by
    rw [hwe]
    exact kukaTarget_eq (r := (innerKuka n qf).robot) (dhMat_rigid _ _ _ _) IsRigid.one (by
      rw [hX]
      change _ = railLink qf * mkTf R p * 1
      rw [mul_one]) rfl
  cases hq : arm2Ik (arm2 0.18 0.6 0.62) (mkTf R w) with
  | none =>
    have := kukaIk_none (innerKuka n qf) (a1 := 0.18) (a2 := 0.6) (d4 := 0.62) rfl st mem (htgt ▸ hq)
    rw [this] at e
    rw [e] at hs
    simp at hs
  | some qs =>
    obtain ⟨st', X, ek, -⟩ := kukaIk_some (innerKuka n qf) (a1 := 0.18) (a2 := 0.6) (d4 := 0.62) rfl hw
      hm (htgt ▸ hq)
    rw [htgt] at ek
    rw [ek] at e
    have hlen : (qs.flatMap (kSols 0.18 0.6 0.62 (mkTf R w))).length = 2 * qs.length := by
      rw [List.length_flatMap]
      simp [kSols_length, mul_comm]
    set mem' := mem.set (innerKuka n qf).qsol X ++
      (qs.flatMap (kSols 0.18 0.6 0.62 (mkTf R w))).map fun q => [q] with hmem'
    have hl' : mem'.length = mem.length + 2 * qs.length := by simp [hmem', hlen]
    have hlt : ∀ a ∈ List.range' mem.length (2 * qs.length), a < mem'.length := by
      intro a ha
      rw [List.mem_range'_1] at ha
      omega
    simp only [railRows_eq qf _ mem' [] hlt, List.nil_append, List.length_range'] at e
    rw [e] at hs ⊢
    cases hs
    have hin : ∀ i : Nat, i < 2 * qs.length → mem'[mem.length + i]? =
        ((qs.flatMap (kSols 0.18 0.6 0.62 (mkTf R w)))[i]?).map fun q => [q] := by
      intro i _
      rw [hmem', List.getElem?_append_right (by simp), List.length_set, Nat.add_sub_cancel_left,
        List.getElem?_map]
    have hout : ∀ i : Nat, i < 2 * qs.length → ∀ q,
        (mem' ++ (List.range' mem.length (2 * qs.length)).map fun a =>
          [qf :: (((mem'[a]?).getD [])[0]?).getD []])[mem'.length + i]? = some [qf :: q] ↔
        (qs.flatMap (kSols 0.18 0.6 0.62 (mkTf R w)))[i]? = some q := by
      intro i hi q
      rw [List.getElem?_append_right (by omega), Nat.add_sub_cancel_left, List.getElem?_map,
        List.getElem?_range' (by omega)]
      simp only [Option.map_some, one_mul, hin i hi, Option.some.injEq, List.cons.injEq, true_and,
        and_true]
      obtain ⟨y, hy⟩ : ∃ y, (qs.flatMap (kSols 0.18 0.6 0.62 (mkTf R w)))[i]? = some y :=
        ⟨_, List.getElem?_eq_getElem (by rw [hlen]; exact hi)⟩
      rw [hy]
      simp
    refine ⟨qs, mem'.length, rfl, fun a q => ?_⟩
    constructor
    · rintro ⟨ha, hc⟩
      rw [List.mem_range'_1] at ha
      obtain ⟨i, rfl⟩ := Nat.exists_eq_add_of_le ha.1
      exact ⟨i, rfl, (hout i (by omega) q).1 hc⟩
    · rintro ⟨i, rfl, hi⟩
      have hlt := (List.getElem?_eq_some_iff.1 hi).1
      exact ⟨by rw [List.mem_range'_1]; omega, (hout i (by omega) q).2 hi⟩

/-- **C135** for KukaOnRail with the default lengths: as for the Kuka, for the given position on the
rail. -/
theorem C135_rail [Zeros] (hit : Oracle Shape) (n : Nat) (mem : Mem) (hn : n < mem.length)
    (history : List RailCall) {base T : M4} (hb : IsRigid base) (tool : Option (Tool Shape))
    (ht : ∀ t, tool = some t → IsRigid t.tfTT) (x : ℝ) {w : V3}
    (hw : WristCentre 0.115 (base * carriage x) tool T w) (haxis : w 0 ≠ 0 ∨ w 1 ≠ 0) :
    let r := setupRail (Rail.new 0.18 0.6 0.62 0.115 n) base tool
    let s := railAfter (Rail.new 0.18 0.6 0.62 0.115 n) mem history
    ∀ sols, (r.ik s.st0 s.st s.mem T x).1 = .ok (some sols) →
      (∀ a ∈ sols, ∀ q1 q2 q3 q4 q5 q6 : ℝ,
        (r.ik s.st0 s.st s.mem T x).2.2.2[a]? = some [[x, q1, q2, q3, q4, q5, q6]] →
          Real.cos q3 ≠ 0 ∧ Real.sin q5 ≠ 0) →
      ∀ q1 q2 q3 q4 q5 q6 : ℝ, FkSatisfies hit r.robot [x, q1, q2, q3, q4, q5, q6] (· = T) ↔
        ∃! a, a ∈ sols ∧ ∃ q, (r.ik s.st0 s.st s.mem T x).2.2.2[a]? = some [x :: q] ∧
          SameConfig q [q1, q2, q3, q4, q5, q6] := by
  intro r s sols hsols hbent q1 q2 q3 q4 q5 q6
  obtain ⟨h0, hwf, hlen⟩ := railAfter_inv (a1 := 0.18) (a2 := 0.6) (d4 := 0.62) (d6 := 0.115) mem hn
    history
  have htip := tipOf_rigid ht
  obtain ⟨R, p, hR, hTe, hwp⟩ := hw
  rw [← carriage_eq, mul_assoc base] at hTe
  have hwe : w = p - R *ᵥ ![0, 0, 0.115] := by
    ext i
    rw [hwp]
    simp [Matrix.mulVec, dotProduct, Fin.sum_univ_three, mul_comm]
  obtain ⟨qs, N, hq, hcells⟩ := rail_cells (r := r) (a1 := 0.18) (a2 := 0.6) (d4 := 0.62) (d6 := 0.115)
    rfl rfl h0 hwf (lt_of_lt_of_le hn hlen) (railTarget_eq (r := r.robot) hb htip hTe) hwe hsols
  have hk : FkSatisfies hit r.robot [x, q1, q2, q3, q4, q5, q6] (· = T) ↔
      chain (kukaRobot 0.18 0.6 0.62 0.115).links [q1, q2, q3, q4, q5, q6] = mkTf R p := by
    rw [fkSatisfies_iff _ r.robot (rail_known _ _ _ _) _ (le_refl _)]
    change base * chain (railRobot 0.18 0.6 0.62 0.115).links [x, q1, q2, q3, q4, q5, q6] *
      tipOf tool = T ↔ _
    have hB : IsRigid (base * railLink x) := hb.mul (dhMat_rigid _ _ _ _)
    rw [chain_rail, hTe, ← mul_assoc base, ← mul_assoc base]
    generalize base * railLink x = B at hB
    constructor
    · intro h
      have := congrArg (fun X => tfInverse B * (X * tfInverse (tipOf tool))) h
      simpa only [mul_assoc, mul_tfInverse htip, mul_one, ← mul_assoc (tfInverse B),
        tfInverse_mul hB, one_mul] using this
    · intro h
      rw [h]
  rw [hk, kuka_unique (by norm_num) hR hwe haxis hq hcells
    (fun a q1 q2 q3 q4 q5 q6 h => hbent a h.1 _ _ _ _ _ _ h.2)]
  exact existsUnique_congr fun a =>
    ⟨fun ⟨q, ⟨h1, h2⟩, h3⟩ => ⟨h1, q, h2, h3⟩, fun ⟨h1, q, h2, h3⟩ => ⟨q, ⟨h1, h2⟩, h3⟩⟩

/-- **C135** for KukaOnRail: a solution with a stretched or folded arm, away from the shoulder, is
returned twice. -/
theorem C135_rail_twice [Zeros] (n : Nat) (mem : Mem) (hn : n < mem.length)
    (history : List RailCall) {base T : M4} (hb : IsRigid base) (tool : Option (Tool Shape))
    (ht : ∀ t, tool = some t → IsRigid t.tfTT) (x : ℝ) {w : V3}
    (hw : WristCentre 0.115 (base * carriage x) tool T w) :
    let r := setupRail (Rail.new 0.18 0.6 0.62 0.115 n) base tool
    let s := railAfter (Rail.new 0.18 0.6 0.62 0.115 n) mem history
    ∀ sols, (r.ik s.st0 s.st s.mem T x).1 = .ok (some sols) → ∀ a ∈ sols, ∀ q1 q2 q3 q4 q5 q6 : ℝ,
      (r.ik s.st0 s.st s.mem T x).2.2.2[a]? = some [[x, q1, q2, q3, q4, q5, q6]] →
      Real.cos q3 = 0 → Real.sin q5 ≠ 0 → w ≠ ![0.18 * Real.cos q1, 0.18 * Real.sin q1, 0] →
      ∃ b ∈ sols, b ≠ a ∧ ∃ q, (r.ik s.st0 s.st s.mem T x).2.2.2[b]? = some [x :: q] ∧
        SameConfig q [q1, q2, q3, q4, q5, q6] := by
  intro r s sols hsols a hmem q1 q2 q3 q4 q5 q6 hcell h3 _ hfar
  obtain ⟨h0, hwf, hlen⟩ := railAfter_inv (a1 := 0.18) (a2 := 0.6) (d4 := 0.62) (d6 := 0.115) mem hn
    history
  obtain ⟨R, p, hR, hTe, hwp⟩ := hw
  rw [← carriage_eq, mul_assoc base] at hTe
  have hwe : w = p - R *ᵥ ![0, 0, 0.115] := by
    ext i
    rw [hwp]
    simp [Matrix.mulVec, dotProduct, Fin.sum_univ_three, mul_comm]
  obtain ⟨qs, N, hq, hcells⟩ := rail_cells (r := r) (a1 := 0.18) (a2 := 0.6) (d4 := 0.62) (d6 := 0.115)
    rfl rfl h0 hwf (lt_of_lt_of_le hn hlen) (railTarget_eq (r := r.robot) hb (tipOf_rigid ht) hTe) hwe
    hsols
  obtain ⟨b, hne, q, hc, hsame⟩ := kuka_double hq hcells ⟨hmem, hcell⟩ h3 (by
    have := Real.sin_sq_add_cos_sq q3
    rw [h3] at this
    intro h
    have h' : Real.sin q3 = -0.6 / 0.62 := by linarith
    rw [h'] at this
    norm_num at this) hfar
  exact ⟨b, hc.1, hne, q, hc.2, hsame⟩

/-! ### Cases -/

theorem sin_elbow_zero (b d : Bool) (sg : ℝ) (h : sg = 1 ∨ sg = -1) :
    Real.sin (atan2 b d (sg * Real.sqrt (1 - 0 ^ 2)) 0) ≠ 0 := by
  rw [(cs_elbow b d (by norm_num) (by norm_num) h).2]
  rcases h with rfl | rfl <;> norm_num

theorem side_right {bd : Bool × Bool × Bool × Bool} {a1 a2 a3 z u q1 : ℝ}
    (h : ((u - a1) ^ 2 + z ^ 2 - a2 ^ 2 - a3 ^ 2) / (2 * a2 * a3) = 0) :
    sideOf bd a1 a2 a3 z u q1 = [cand bd.1 bd.2.1 false a1 a2 a3 z u q1 0 1,
      cand bd.2.2.1 bd.2.2.2 true a1 a2 a3 z u q1 0 (-1)] := by
  have : snap 0 = some 0 := by norm_num [snap, tol]
  simp [sideOf, h, this]

/-- An elbow at a right angle is bent. -/
theorem side_right_bent {bd : Bool × Bool × Bool × Bool} {a1 a2 a3 z u q1 : ℝ}
    (h : ((u - a1) ^ 2 + z ^ 2 - a2 ^ 2 - a3 ^ 2) / (2 * a2 * a3) = 0) :
    Bent (sideOf bd a1 a2 a3 z u q1) := by
  intro p1 p2 p3 hm
  rw [side_right h] at hm
  simp only [List.mem_cons, List.not_mem_nil, or_false, cand, List.cons.injEq, and_true] at hm
  rcases hm with ⟨-, -, rfl⟩ | ⟨-, -, rfl⟩
  · exact sin_elbow_zero _ _ 1 (.inl rfl)
  · exact sin_elbow_zero _ _ (-1) (.inr rfl)

theorem side_far {bd : Bool × Bool × Bool × Bool} {a1 a2 a3 z u q1 : ℝ}
    (h : 2 ≤ ((u - a1) ^ 2 + z ^ 2 - a2 ^ 2 - a3 ^ 2) / (2 * a2 * a3)) :
    sideOf bd a1 a2 a3 z u q1 = [] := by
  have : snap (((u - a1) ^ 2 + z ^ 2 - a2 ^ 2 - a3 ^ 2) / (2 * a2 * a3)) = none := by
    unfold snap
    have : tol < 1 := by norm_num [tol]
    rw [if_pos (.inl (by linarith))]
  simp [sideOf, this]

/-- The target (2, 0, 1) of an arm with links of length one: it is reached with an elbow at a right
angle, facing the target only. -/
theorem case_arm2 [Zeros] {T : M4} (h0 : T 0 3 = 2) (h1 : T 1 3 = 0) (h2 : T 2 3 = 1) :
    Bent (bothSides 1 1 1 T) ∧ ∀ q1 q2 q3, [q1, q2, q3] ∈ bothSides 1 1 1 T → q1 = 0 := by
  have hu : Real.sqrt (T 0 3 ^ 2 + T 1 3 ^ 2) = 2 := by
    rw [h0, h1, show (2 : ℝ) ^ 2 + 0 ^ 2 = 2 ^ 2 by norm_num]
    exact Real.sqrt_sq (by norm_num)
  have e : bothSides 1 1 1 T = sideOf (q2Signs T 0 1) 1 1 1 1 2
      (atan2 (Zeros.py T) (Zeros.px T) 0 2) := by
    unfold bothSides
    rw [hu, h0, h1, h2, side_far (u := -2) (by norm_num), List.append_nil]
  rw [e]
  refine ⟨side_right_bent (by norm_num), fun q1 q2 q3 hm => ?_⟩
  obtain ⟨_, _, he⟩ := side_first hm
  cases he
  simp [atan2]

/-- `C135_arm2` for that target. -/
example [Zeros] (hit : Oracle Shape) : ∃ sols,
    arm2Ik (arm2 1 1 1) (mkTf 1 ![2, 0, 1]) = some sols ∧
    ∃! i : Nat, ∃ q, sols[i]? = some q ∧ SameConfig q [0, 0, Real.pi / 2] := by
  obtain ⟨sols, h⟩ := arm2Ik_succeeds (a1 := 1) (a2 := 1) (a3 := 1) (by norm_num) 0 0 (Real.pi / 2)
    (T := mkTf 1 ![2, 0, 1]) (by rw [posPart_mkTf]; ext i; fin_cases i <;> norm_num [armPos])
  have hc := case_arm2 (T := mkTf 1 ![2, 0, 1]) rfl rfl rfl
  rw [← arm2_sides h] at hc
  refine ⟨sols, h, ?_⟩
  rw [← C135_arm2 hit (by norm_num) (mkTf 1 ![2, 0, 1])
    (.inl (by change (2 : ℝ) ≠ 0; norm_num)) h hc.1]
  refine (arm2Reaches_iff hit 1 1 1 0 0 (Real.pi / 2) (mkTf 1 ![2, 0, 1])).2 ?_
  rw [posPart_mkTf]; ext i; fin_cases i <;> norm_num [armPos]

/-- The same pose for the Kuka, with a wrist at right angles: all four solutions are regular, and the
configuration that was asked for is one of them, once. -/
example [Zeros] (hit : Oracle Shape) : ∃ (T : M4) (sols : List Nat),
    let k := setup (Kuka.new 1 1 1 (1 / 2) 0) 1 none
    let s := kukaAfter (Kuka.new 1 1 1 (1 / 2) 0) [[]] [⟨1, none, 1⟩]
    (k.ik s.1 s.2 T).1 = .ok (some sols) ∧
    ∃! a, a ∈ sols ∧ ∃ q, (k.ik s.1 s.2 T).2.2[a]? = some [q] ∧
      SameConfig q [0, 0, Real.pi, Real.pi / 2, Real.pi / 2, 0] := by
  set R : M3 := armRot 0 (0 + Real.pi) * zyz (Real.pi / 2) (Real.pi / 2) 0 with hRdef
  have hR : IsRot R := (armRot_isRot _ _).mul (zyz_isRot _ _ _)
  have hz : R 0 2 = 0 ∧ R 2 2 = 0 := by
    rw [hRdef, zyz_eq]
    constructor <;> simp [armRot, Matrix.mul_apply, Fin.sum_univ_three]
  set w : V3 := ![2, 0, 1] with hw
  have harm : armPos 1 1 1 0 0 (Real.pi - Real.pi / 2) = w := by
    rw [sub_half]
    ext i; fin_cases i <;> norm_num [armPos, hw]
  have hch : chain (kukaRobot 1 1 1 (1 / 2)).links [0, 0, Real.pi, Real.pi / 2, Real.pi / 2, 0] =
      mkTf R (w + R *ᵥ ![0, 0, 1 / 2]) := by rw [chain_kuka, harm]
  have hT : FkSatisfies hit (setup (Kuka.new 1 1 1 (1 / 2) 0) 1 none).robot
      [0, 0, Real.pi, Real.pi / 2, Real.pi / 2, 0] (· = mkTf R (w + R *ᵥ ![0, 0, 1 / 2])) := by
    rw [fkSatisfies_iff _ _ (setup_known _ _ _ _ _ _ _) _ (le_refl _)]
    change 1 * chain (kukaRobot 1 1 1 (1 / 2)).links _ * 1 = _
    rw [hch, one_mul, mul_one]
  obtain ⟨sols, h1, -⟩ := C40_kuka_complete hit (a1 := 1) (a2 := 1) (d4 := 1) (d6 := 1 / 2)
    (by norm_num) 0 [[]] (by simp) [⟨1, none, 1⟩] IsRigid.one none (by simp) _ _ _ _ _ _ hT
  refine ⟨_, sols, h1, ?_⟩
  have hTe : mkTf R (w + R *ᵥ ![0, 0, 1 / 2]) =
      1 * mkTf R (w + R *ᵥ ![0, 0, 1 / 2]) * tipOf none := by
    change _ = 1 * _ * 1
    rw [one_mul, mul_one]
  have hwp : ∀ i, w i = (w + R *ᵥ ![0, 0, 1 / 2]) i - 1 / 2 * R i 2 := by
    intro i
    simp [Matrix.mulVec, dotProduct, Fin.sum_univ_three, mul_comm]
  refine (C135_kuka hit (by norm_num) 0 [[]] (by simp) [⟨1, none, 1⟩] IsRigid.one none (by simp)
    ⟨R, _, hR, hTe, hwp⟩ (.inl (by rw [hw]; norm_num)) sols h1 ?_ _ _ _ _ _ _).1 hT
  intro a hmem q1 q2 q3 q4 q5 q6 hcell
  obtain ⟨hwf, hlen⟩ := kukaAfter_inv (a1 := 1) (a2 := 1) (d4 := 1) (d6 := 1 / 2) (n := 0) [[]]
    (Nat.zero_lt_succ 0) [⟨1, none, 1⟩]
  have htgt := kukaTarget_at (a1 := 1) (a2 := 1) (d4 := 1) IsRigid.one (by simp) hTe hwp 0
  cases hq : arm2Ik (arm2 1 1 1) (mkTf R w) with
  | none =>
    rw [kukaIk_none _ (a1 := 1) (a2 := 1) (d4 := 1) rfl _ _ (htgt ▸ hq)] at h1
    simp at h1
  | some qs =>
    obtain ⟨-, hc, -⟩ := kukaIk_content _ (a1 := 1) (a2 := 1) (d4 := 1) rfl hwf
      (lt_of_lt_of_le (Nat.zero_lt_succ 0) hlen) (htgt ▸ hq) h1
    obtain ⟨q, hqm, q', hq'm, hcell'⟩ := hc a hmem
    rw [hcell] at hcell'
    simp only [Option.some.injEq, List.cons.injEq, and_true] at hcell'
    subst hcell'
    rw [htgt] at hq'm
    obtain ⟨p1, p2, p3, t1, t2, t3, rfl, he, hrow, hrel⟩ := kSols_mem
      (show IsCand 1 1 1 (w 0) (w 1) (w 2) _ from arm2Ik_cand hq hqm) hq'm
    obtain ⟨hb, h0⟩ := case_arm2 (T := mkTf R w) rfl rfl rfl
    rw [← arm2_sides hq] at hb h0
    have hp1 := h0 _ _ _ hqm
    subst hp1
    cases he
    refine ⟨by rw [Real.cos_add_pi_div_two, neg_ne_zero]; exact hb _ _ _ hqm, fun hs => ?_⟩
    have hrot : IsRot ((armRot 0 (q2 + (p3 + Real.pi / 2)))ᵀ * R) :=
      (armRot_isRot _ _).transpose.mul hR
    obtain ⟨e0, e1⟩ := rel_axis (by rw [hrel]; exact hrot) hrow
    rw [hs, mul_zero, hrel] at e0 e1
    obtain ⟨r1, -⟩ := hrot.relations
    have e2 : ((armRot 0 (q2 + (p3 + Real.pi / 2)))ᵀ * R) 2 2 = 0 := by
      rw [Matrix.mul_apply, Fin.sum_univ_three, hz.1, hz.2]
      simp [armRot]
    rw [e0, e1, e2] at r1
    norm_num at r1

/-- The target (1, 0, 1) of an AnthropomorphicArm with links of length one has four solutions, with
the elbow at a right angle. -/
example [Zeros] (hit : Oracle Shape) : ∃ sols,
    anthropomorphicIk (anthropomorphicArm 1 1) (mkTf 1 ![1, 0, 1]) = some sols ∧
    ∃! i : Nat, ∃ q, sols[i]? = some q ∧ SameConfig q [0, 0, Real.pi / 2] := by
  have hT : FkSatisfies hit (anthropomorphicArm 1 1) [0, 0, Real.pi / 2]
      fun F => posPart F = posPart (mkTf 1 ![1, 0, 1]) := by
    rw [fkSatisfies_iff _ _ (anthropomorphic_known _ _) _ (le_refl _)]
    change posPart (1 * _ * 1) = _
    rw [one_mul, mul_one, posPart_mkTf]
    change posPart (chain (anthropomorphicArm 1 1).links [0, 0, Real.pi / 2]) = _
    rw [posPart_anthropomorphic]
    ext i; fin_cases i <;> norm_num [armPos]
  obtain ⟨sols, h⟩ := C42_anthropomorphic_succeeds hit (by norm_num) _ _ _ _ hT
  refine ⟨sols, h, (C135_anthropomorphic hit (by norm_num) _
    (.inl (by change (1 : ℝ) ≠ 0; norm_num)) h ?_ _ _ _).1 hT⟩
  have hu : Real.sqrt ((mkTf 1 ![1, 0, 1] : M4) 0 3 ^ 2 + (mkTf 1 ![1, 0, 1] : M4) 1 3 ^ 2) = 1 := by
    change Real.sqrt ((1 : ℝ) ^ 2 + 0 ^ 2) = 1
    norm_num
  have hz : (mkTf 1 ![1, 0, 1] : M4) 2 3 = 1 := rfl
  rw [aa_sides h]
  unfold bothSides
  rw [hu, hz]
  intro q1 q2 q3 hm
  rcases List.mem_append.1 hm with hm | hm
  · exact side_right_bent (by norm_num) _ _ _ hm
  · exact side_right_bent (by norm_num) _ _ _ hm

/-- The target (4, 0, 0) of an arm with links of length one, two and one: the arm is stretched, and
the solution is returned twice. -/
example [Zeros] : ∃ sols, arm2Ik (arm2 1 2 1) (mkTf 1 ![4, 0, 0]) = some sols ∧
    ∃ (i j : Nat) (q q' : List ℝ), i ≠ j ∧ sols[i]? = some q ∧ sols[j]? = some q' ∧
      SameConfig q q' := by
  have hT : posPart (mkTf 1 ![4, 0, 0]) = armPos 1 2 1 0 0 0 := by
    rw [posPart_mkTf]; ext i; fin_cases i <;> norm_num [armPos]
  obtain ⟨sols, h⟩ := arm2Ik_succeeds (by norm_num) 0 0 0 hT
  have hst := bothSides_straight (by norm_num) hT (by norm_num [tol])
  rw [← arm2_sides h] at hst
  unfold Bent at hst
  push Not at hst
  obtain ⟨q1, q2, q3, hm, hs⟩ := hst
  obtain ⟨i, hi⟩ := List.mem_iff_getElem?.1 hm
  obtain ⟨j, q, hne, hj, hsame⟩ := C135_arm2_twice _ h hi hs
    (by have := Real.neg_one_le_cos q3; intro h0; linarith)
    (by
      rw [posPart_mkTf]
      intro h0
      have h1 : (4 : ℝ) = 1 * Real.cos q1 := congrFun h0 0
      have := Real.cos_le_one q1
      linarith)
  exact ⟨sols, h, j, i, _, _, hne, hj, hi, hsame⟩

/-- The wrist on an unturned base, straight ahead: its two solutions differ by half turns of the
first and the third joint. -/
example [Zeros] (hit : Oracle Shape) : ∃ rows,
    (wristIk 0 1 [[]] 1).2[(wristIk 0 1 [[]] 1).1]? = some rows ∧
    ∃ (i j : Nat) (q1 q2 q3 : ℝ) (q : List ℝ), i ≠ j ∧ rows[i]? = some [q1, q2, q3] ∧
      rows[j]? = some q ∧ SameConfig q [q1 + Real.pi, -q2, q3 + Real.pi] := by
  obtain ⟨rows, h, -, h2⟩ := C135_wrist hit 0 IsRigid.one IsRigid.one 0 [[]] (by simp)
  have hr : rows = wristRows 1 1 := by
    have : (wristIk 0 1 [[]] 1).2[(wristIk 0 1 [[]] 1).1]? = some (wristRows 1 1) := by
      simp [wristIk]
    rw [h] at this
    exact Option.some.inj this
  have hone : rotPart (1 : M4) = 1 := by rw [← mkTf_one, rotPart_mkTf]
  have hrel : relRot 1 (1 : M4) = 1 := by rw [relRot, hone, Matrix.transpose_one, one_mul]
  obtain ⟨t1, t2, t3, hm⟩ : ∃ t1 t2 t3, [t1, t2, t3] ∈ wristRows 1 1 := by
    rw [wristRows_eq]; exact ⟨_, _, _, List.mem_cons_self⟩
  obtain ⟨i, hi⟩ := List.mem_iff_getElem?.1 (hr ▸ hm)
  obtain ⟨e0, e1⟩ := rel_axis (by rw [hrel]; exact IsRot.one) hm
  have hs : Real.sin t2 = 0 := by
    by_contra hs
    rw [hrel] at e0 e1
    exact no_axis hs (by simpa using e0) (by simpa using e1)
  obtain ⟨j, q, hne, hj, hsame⟩ := h2 i _ _ _ hi hs
  exact ⟨rows, h, i, j, _, _, _, q, hne.symm, hi, hj, hsame⟩

end Verif.Props
