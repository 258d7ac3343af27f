import Verif.Model.Resources
import Verif.Props.Path
import Verif.Props.Geometry

/-!
# C89 – C92: the data in `acrobotics/resources`

C89 `create_weld_line`, C90 the workpiece and its weld paths, C91 the welding torch, C92 the paths
over the table.
-/

set_option linter.unusedSectionVars false

namespace Verif.Props

open Matrix Verif.Util Verif.Geometry Verif.Kin Verif.Path Verif.Resources

/-! ## C89: weld lines -/

/-- The point at fraction `k / (n - 1)` of the line from `a` to `b`. -/
noncomputable def onLine (a b : V3) (n k : Nat) : V3 := fun i =>
  a i + (k : ℝ) / ((n : ℝ) - 1) * (b i - a i)

theorem linspace_unit (n : Nat) : linspace 0 1 (n : Int) =
    .ok ((List.range n).map fun (i : Nat) => (i : ℝ) / ((n : ℝ) - 1)) := by
  unfold linspace
  rw [if_neg (by omega)]
  simp only [Int.toNat_natCast, Int.cast_natCast, sub_zero, zero_add, mul_one_div]

/-- C89. For every start, goal, orientation and offset, `create_weld_line` with `n ≥ 0` returns `n`
points.  The nominal pose of point `k` is at fraction `k / (n - 1)` of the line, moved by the
offset, with orientation `Rx Ry Rz` of the given angles.  Each point has exactly 30 samples, all
rigid and exactly at that position; their first angle differs by at most a half from the given one,
the second is the given one, the third differs by at most `π`. -/
theorem C89_weld_line (pStart pGoal rpy pOffset : V3) (n : Nat) :
    ∃ path, createWeldLine pStart pGoal rpy pOffset n = .ok path ∧ path.length = n ∧
      ∀ (k : Nat) (pt : TolEulerPt), path[k]? = some pt →
        pt.nominalTransform =
          .ok (mkTf (rotX (rpy 0) * rotY (rpy 1) * rotZ (rpy 2)) (onLine pStart pGoal n k + pOffset)) ∧
        ∃ Ts, pt.getSamples = .ok Ts ∧ Ts.length = 30 ∧
          ∀ T ∈ Ts, IsRigid T ∧ posPart T = onLine pStart pGoal n k + pOffset ∧
            ∃ a : V3, |a 0 - rpy 0| ≤ 1 / 2 ∧ a 1 = rpy 1 ∧ |a 2 - rpy 2| ≤ Real.pi ∧
              rotPart T = rotX (a 0) * rotY (a 1) * rotZ (a 2) := by
  have hpi := Real.pi_pos
  set tx : TolNum := ⟨rpy 0 - 0.5, rpy 0 + 0.5,
    rpy 0 - 0.5 + (rpy 0 + 0.5 - (rpy 0 - 0.5)) / 2, 3⟩ with htx
  set tz : TolNum := ⟨rpy 2 - Real.pi, rpy 2 + Real.pi,
    rpy 2 - Real.pi + (rpy 2 + Real.pi - (rpy 2 - Real.pi)) / 2, 10⟩ with htz
  set P : ℝ → Fin 3 → Entry := fun s i =>
    .num (((1 - s) • pStart + s • pGoal + pOffset) i) with hP
  set A : Fin 3 → Entry := ![.tol tx, .num (rpy 1), .tol tz] with hA
  have hnew : ∀ s, weldPoint pStart pGoal rpy pOffset tx tz s = .ok (eulerPt (P s) A) :=
    fun s => eulerPt_new (P s) A
  have hrun : createWeldLine pStart pGoal rpy pOffset n = .ok
      (((List.range n).map fun (i : Nat) => (i : ℝ) / ((n : ℝ) - 1)).map
        fun s => eulerPt (P s) A) := by
    unfold createWeldLine
    simp only [TolNum.new, bind, Except.bind, linspace_unit]
    exact mapM_ok fun s _ => hnew s
  refine ⟨_, hrun, by simp, ?_⟩
  intro k pt hk
  simp only [List.map_map, List.getElem?_map, Option.map_eq_some_iff] at hk
  obtain ⟨k', hk', rfl⟩ := hk
  obtain ⟨hlt, he⟩ := List.getElem?_eq_some_iff.1 hk'
  rw [List.getElem_range] at he
  subst he
  simp only [Function.comp]
  set s : ℝ := (k : ℝ) / ((n : ℝ) - 1) with hs
  have hpos : (1 - s) • pStart + s • pGoal + pOffset = onLine pStart pGoal n k + pOffset := by
    ext i
    simp only [onLine, Pi.add_apply, Pi.smul_apply, smul_eq_mul, ← hs]
    ring
  have hsP : ∀ i, Sound (P s i) := fun i => trivial
  have hsA : ∀ i, Sound (A i) := by
    intro i
    fin_cases i
    · exact ⟨by norm_num [htx]; linarith, by norm_num [htx]⟩
    · trivial
    · exact ⟨by simp only [htz]; linarith, by norm_num [htz]⟩
  constructor
  · obtain ⟨pt, h1, h2⟩ := C47_nominal (P s) A
    rw [eulerPt_new] at h1
    cases h1
    have := h2 ((1 - s) • pStart + s • pGoal + pOffset) rpy (fun i => .inl rfl) (by
      intro i
      fin_cases i
      · exact .inr ⟨tx, rfl, by simp only [htx]; norm_num⟩
      · exact .inl rfl
      · refine .inr ⟨tz, rfl, ?_⟩
        show rpy 2 = rpy 2 - Real.pi + (rpy 2 + Real.pi - (rpy 2 - Real.pi)) / 2
        ring)
    rw [this, hpos]
    rfl
  · obtain ⟨pt, cs, h1, h2, h3, h4, _⟩ := C47_samples hsP hsA
    rw [eulerPt_new] at h1
    cases h1
    refine ⟨_, h2, ?_, ?_⟩
    · rw [List.length_map, h3]
      simp [Fin.prod_univ_three, hP, hA, gridCount, htx, htz]
    · intro T hT
      obtain ⟨g1, g2, a, g3, g4⟩ := C47_within hsP hsA (eulerPt_new _ _) h2 hT
      refine ⟨g1, ?_, a, ?_, g3 1, ?_, g4⟩
      · rw [← hpos]
        ext i
        exact g2 i
      · have h := g3 0
        have h' : rpy 0 - 0.5 ≤ a 0 ∧ a 0 ≤ rpy 0 + 0.5 := h
        rw [abs_le]
        constructor <;> norm_num at h' ⊢ <;> linarith [h'.1, h'.2]
      · have h' : rpy 2 - Real.pi ≤ a 2 ∧ a 2 ≤ rpy 2 + Real.pi := g3 2
        rw [abs_le]
        constructor <;> linarith [h'.1, h'.2]

/-- C89, the samples exactly: three first angles half a radian apart, the given second angle, and
ten third angles over a full turn.  As the turn is closed, its two ends give the same frame: at
most 27 of the 30 samples differ. -/
theorem C89_samples (pStart pGoal rpy pOffset : V3) (n : Nat) {path : List TolEulerPt}
    (h : createWeldLine pStart pGoal rpy pOffset n = .ok path) {k : Nat} {pt : TolEulerPt}
    (hk : path[k]? = some pt) : ∃ Ts, pt.getSamples = .ok Ts ∧ Ts.length = 30 ∧
      (∀ T, T ∈ Ts ↔ ∃ i j : Nat, i < 3 ∧ j < 10 ∧ T = mkTf
        (rotX (rpy 0 + ((i : ℝ) - 1) / 2) * rotY (rpy 1) *
          rotZ (rpy 2 - Real.pi + 2 * Real.pi * (j : ℝ) / 9))
        (onLine pStart pGoal n k + pOffset)) ∧
      ∃ l : List M4, l.length = 27 ∧ ∀ T ∈ Ts, T ∈ l := by
  have hpi := Real.pi_pos
  set tx : TolNum := ⟨rpy 0 - 0.5, rpy 0 + 0.5,
    rpy 0 - 0.5 + (rpy 0 + 0.5 - (rpy 0 - 0.5)) / 2, 3⟩ with htx
  set tz : TolNum := ⟨rpy 2 - Real.pi, rpy 2 + Real.pi,
    rpy 2 - Real.pi + (rpy 2 + Real.pi - (rpy 2 - Real.pi)) / 2, 10⟩ with htz
  set P : ℝ → Fin 3 → Entry := fun s i =>
    .num (((1 - s) • pStart + s • pGoal + pOffset) i) with hP
  set A : Fin 3 → Entry := ![.tol tx, .num (rpy 1), .tol tz] with hA
  have hnew : ∀ s, weldPoint pStart pGoal rpy pOffset tx tz s = .ok (eulerPt (P s) A) :=
    fun s => eulerPt_new (P s) A
  have hrun : createWeldLine pStart pGoal rpy pOffset n = .ok
      (((List.range n).map fun (i : Nat) => (i : ℝ) / ((n : ℝ) - 1)).map
        fun s => eulerPt (P s) A) := by
    unfold createWeldLine
    simp only [TolNum.new, bind, Except.bind, linspace_unit]
    exact mapM_ok fun s _ => hnew s
  rw [hrun, Except.ok.injEq] at h
  subst h
  simp only [List.map_map, List.getElem?_map, Option.map_eq_some_iff] at hk
  obtain ⟨k', hk', rfl⟩ := hk
  obtain ⟨hlt, he⟩ := List.getElem?_eq_some_iff.1 hk'
  rw [List.getElem_range] at he
  subst he
  simp only [Function.comp]
  set s : ℝ := (k : ℝ) / ((n : ℝ) - 1) with hs
  have hpos : (1 - s) • pStart + s • pGoal + pOffset = onLine pStart pGoal n k + pOffset := by
    ext i
    simp only [onLine, Pi.add_apply, Pi.smul_apply, smul_eq_mul, ← hs]
    ring
  have hsP : ∀ i, Sound (P s i) := fun i => trivial
  have hsA : ∀ i, Sound (A i) := by
    intro i
    fin_cases i
    · exact ⟨by norm_num [htx]; linarith, by norm_num [htx]⟩
    · trivial
    · exact ⟨by simp only [htz]; linarith, by norm_num [htz]⟩
  obtain ⟨pt, cs, h1, h2, h3, h4, _⟩ := C47_samples hsP hsA
  rw [eulerPt_new] at h1
  cases h1
  have hmem : ∀ T, T ∈ cs.map (fun c => mkTf (Rxyz c.2) c.1) ↔ ∃ i j : Nat, i < 3 ∧ j < 10 ∧ T = mkTf
        (rotX (rpy 0 + ((i : ℝ) - 1) / 2) * rotY (rpy 1) *
          rotZ (rpy 2 - Real.pi + 2 * Real.pi * (j : ℝ) / 9))
        (onLine pStart pGoal n k + pOffset) := by
    intro T
    rw [← hpos]
    constructor
    · intro hT
      obtain ⟨⟨x, a⟩, hc, rfl⟩ := List.mem_map.1 hT
      obtain ⟨hx, ha⟩ := (h4 x a).1 hc
      have hx' : x = (1 - s) • pStart + s • pGoal + pOffset := funext hx
      obtain ⟨i, hi, e0⟩ := ha 0
      have e1 : a 1 = rpy 1 := ha 1
      obtain ⟨j, hj, e2⟩ := ha 2
      have hi' : (i : Int) < 3 := hi
      have hj' : (j : Int) < 10 := hj
      refine ⟨i, j, by omega, by omega, ?_⟩
      have e0' : a 0 = rpy 0 + ((i : ℝ) - 1) / 2 := by
        rw [e0]; simp only [htx]; push_cast; ring
      have e2' : a 2 = rpy 2 - Real.pi + 2 * Real.pi * (j : ℝ) / 9 := by
        rw [e2]; simp only [htz]; push_cast; ring
      simp only [Rxyz, hx', e0', e1, e2']
    · rintro ⟨i, j, hi, hj, rfl⟩
      have hi' : (i : Int) < 3 := by omega
      have hj' : (j : Int) < 10 := by omega
      refine List.mem_map.2 ⟨((1 - s) • pStart + s • pGoal + pOffset,
        ![rpy 0 + ((i : ℝ) - 1) / 2, rpy 1, rpy 2 - Real.pi + 2 * Real.pi * (j : ℝ) / 9]),
        (h4 _ _).2 ⟨fun i => rfl, ?_⟩, rfl⟩
      intro m
      fin_cases m
      · refine ⟨i, hi', ?_⟩
        simp only [htx]; push_cast; simp; ring
      · rfl
      · refine ⟨j, hj', ?_⟩
        simp only [htz]; push_cast; simp; ring
  refine ⟨_, h2, ?_, hmem, ?_⟩
  · rw [List.length_map, h3]
    simp [Fin.prod_univ_three, hP, hA, gridCount, htx, htz]
  · refine ⟨(List.range 3).flatMap fun (i : Nat) => (List.range 9).map fun (j : Nat) => mkTf
        (rotX (rpy 0 + ((i : ℝ) - 1) / 2) * rotY (rpy 1) *
          rotZ (rpy 2 - Real.pi + 2 * Real.pi * (j : ℝ) / 9))
        (onLine pStart pGoal n k + pOffset), by simp, ?_⟩
    intro T hT
    obtain ⟨i, j, hi, hj, rfl⟩ := (hmem T).1 hT
    refine List.mem_flatMap.2 ⟨i, List.mem_range.2 hi, List.mem_map.2 ?_⟩
    rcases Nat.lt_or_ge j 9 with h9 | h9
    · exact ⟨j, List.mem_range.2 h9, rfl⟩
    · obtain rfl : j = 9 := by omega
      refine ⟨0, List.mem_range.2 (by omega), ?_⟩
      have e1 : rpy 2 - Real.pi + 2 * Real.pi * ((0 : Nat) : ℝ) / 9 = rpy 2 - Real.pi := by
        push_cast; ring
      have e2 : rpy 2 - Real.pi + 2 * Real.pi * ((9 : Nat) : ℝ) / 9 =
          (rpy 2 - Real.pi) + 2 * Real.pi := by push_cast; ring
      have e3 : rotZ ((rpy 2 - Real.pi) + 2 * Real.pi) = rotZ (rpy 2 - Real.pi) := by
        simp only [rotZ, Real.sin_add_two_pi, Real.cos_add_two_pi]
      rw [e1, e2, e3]

/-- C89, the ends: with at least two points the first is at the start and the last at the goal, and
all points lie between the two. -/
theorem C89_ends (a b : V3) (n : Nat) (h2 : 2 ≤ n) :
    onLine a b n 0 = a ∧ onLine a b n (n - 1) = b ∧
      ∀ k < n, ∀ i, min (a i) (b i) ≤ onLine a b n k i ∧ onLine a b n k i ≤ max (a i) (b i) := by
  have hn : (0 : ℝ) < (n : ℝ) - 1 := by
    have : (2 : ℝ) ≤ n := by exact_mod_cast h2
    linarith
  refine ⟨?_, ?_, ?_⟩
  · ext i; simp [onLine]
  · ext i
    simp only [onLine]
    rw [Nat.cast_sub (by omega), Nat.cast_one, div_self hn.ne']
    ring
  · intro k hk i
    have hk' : (k : ℝ) ≤ (n : ℝ) - 1 := by
      have : (k : ℝ) + 1 ≤ n := by exact_mod_cast hk
      linarith
    have h0 : 0 ≤ (k : ℝ) / ((n : ℝ) - 1) := by positivity
    have h1 : (k : ℝ) / ((n : ℝ) - 1) ≤ 1 := by rw [div_le_one hn]; exact hk'
    simp only [onLine]
    rcases le_total (a i) (b i) with h | h
    · rw [min_eq_left h, max_eq_right h]
      constructor <;> nlinarith
    · rw [min_eq_right h, max_eq_left h]
      constructor <;> nlinarith

/-- C89: a negative number of points raises ValueError. -/
theorem C89_negative (pStart pGoal rpy pOffset : V3) (n : Int) (hn : n < 0) :
    createWeldLine pStart pGoal rpy pOffset n = .error .valueError := by
  unfold createWeldLine
  simp only [TolNum.new, bind, Except.bind, linspace, if_pos hn]

/-! ## C90: the workpiece -/

/-- The points of shape `i` of a collection. -/
def wallPoints (c : Collection Shape) (i : Nat) : Set V3 :=
  {x | ∃ s T, c.s[i]? = some s ∧ c.tfS[i]? = some T ∧ x ∈ act T '' boxPoints s}

theorem mem_translated {T : M4} {p : V3} (hT : ∀ u, act T u = u + p) (s : Shape) (x : V3) :
    x ∈ act T '' boxPoints s ↔
      |x 0 - p 0| ≤ s.dx / 2 ∧ |x 1 - p 1| ≤ s.dy / 2 ∧ |x 2 - p 2| ≤ s.dz / 2 := by
  constructor
  · rintro ⟨u, hu, rfl⟩
    rw [hT]
    simpa [boxPoints] using hu
  · intro h
    refine ⟨x - p, ?_, by rw [hT]; simp⟩
    simpa [boxPoints] using h

theorem act_poseX_zero (x y z : ℝ) (u : V3) : act (poseX 0 x y z) u = u + ![x, y, z] := by
  ext i
  fin_cases i <;>
    simp [act, poseX, rotPart, posPart, Matrix.mulVec, dotProduct, Fin.sum_univ_succ]

/-- C90. For all dimensions (inner height `h`, width `w`, length `l`, thickness `t`, walls not
overlapping) the walls fill exactly the outer box without the cavity, which is open towards
negative y. -/
theorem C90_walls (h w l t : ℝ) (ht : 0 < t) (hh : 0 < h) (hw : t < w) (hl : 2 * t < l) (x : V3) :
    (∃ i, x ∈ wallPoints (workpieceOf h w l t) i) ↔
      (|x 0| ≤ l / 2 ∧ |x 1| ≤ w / 2 ∧ 0 ≤ x 2 ∧ x 2 ≤ h + 2 * t) ∧
      ¬ (|x 0| < l / 2 - t ∧ x 1 < w / 2 - t ∧ t < x 2 ∧ x 2 < t + h) := by
  constructor
  · rintro ⟨i, s, T, hs, hT, hx⟩
    rcases i with _ | _ | _ | _ | _ | i
    all_goals simp only [workpieceOf, List.getElem?_cons_zero, List.getElem?_cons_succ,
      Option.some.injEq, List.getElem?_nil, reduceCtorEq] at hs hT
    all_goals
      subst hs hT
      rw [mem_translated (act_poseX_zero _ _ _)] at hx
      simp only [abs_le, cons_val_zero, cons_val_one, cons_val] at hx
      obtain ⟨⟨a1, a2⟩, ⟨b1, b2⟩, c1, c2⟩ := hx
      refine ⟨⟨abs_le.2 ⟨by linarith, by linarith⟩, abs_le.2 ⟨by linarith, by linarith⟩,
        by linarith, by linarith⟩, ?_⟩
      rintro ⟨d1, d2, d3, d4⟩
      rw [abs_lt] at d1
      linarith [d1.1, d1.2]
  · rintro ⟨⟨h1, h2, h3, h4⟩, hc⟩
    rw [abs_le] at h1 h2
    by_cases hz : x 2 ≤ t
    · refine ⟨0, _, _, rfl, rfl, ?_⟩
      rw [mem_translated (act_poseX_zero _ _ _)]
      simp only [abs_le, cons_val_zero, cons_val_one, cons_val]
      refine ⟨⟨?_, ?_⟩, ⟨?_, ?_⟩, ?_, ?_⟩ <;> linarith
    by_cases hz' : t + h ≤ x 2
    · refine ⟨1, _, _, rfl, rfl, ?_⟩
      rw [mem_translated (act_poseX_zero _ _ _)]
      simp only [abs_le, cons_val_zero, cons_val_one, cons_val]
      refine ⟨⟨?_, ?_⟩, ⟨?_, ?_⟩, ?_, ?_⟩ <;> linarith
    push Not at hz hz'
    by_cases hx : l / 2 - t ≤ x 0
    · refine ⟨3, _, _, rfl, rfl, ?_⟩
      rw [mem_translated (act_poseX_zero _ _ _)]
      simp only [abs_le, cons_val_zero, cons_val_one, cons_val]
      refine ⟨⟨?_, ?_⟩, ⟨?_, ?_⟩, ?_, ?_⟩ <;> linarith
    by_cases hx' : x 0 ≤ -(l / 2 - t)
    · refine ⟨4, _, _, rfl, rfl, ?_⟩
      rw [mem_translated (act_poseX_zero _ _ _)]
      simp only [abs_le, cons_val_zero, cons_val_one, cons_val]
      refine ⟨⟨?_, ?_⟩, ⟨?_, ?_⟩, ?_, ?_⟩ <;> linarith
    push Not at hx hx'
    have hy : w / 2 - t ≤ x 1 := by
      by_contra hy
      push Not at hy
      exact hc ⟨abs_lt.2 ⟨by linarith, hx⟩, hy, hz, hz'⟩
    refine ⟨2, _, _, rfl, rfl, ?_⟩
    rw [mem_translated (act_poseX_zero _ _ _)]
    simp only [abs_le, cons_val_zero, cons_val_one, cons_val]
    refine ⟨⟨?_, ?_⟩, ⟨?_, ?_⟩, ?_, ?_⟩ <;> linarith

/-- The points strictly inside a placed shape. -/
def wallInterior (c : Collection Shape) (i : Nat) : Set V3 :=
  {x | ∃ s T u, c.s[i]? = some s ∧ c.tfS[i]? = some T ∧ x = act T u ∧
    |u 0| < s.dx / 2 ∧ |u 1| < s.dy / 2 ∧ |u 2| < s.dz / 2}

/-- C90: no two walls overlap: a point strictly inside one wall is not strictly inside another. -/
theorem C90_walls_disjoint (h w l t : ℝ) (hh : 0 < h) (hl : 2 * t < l) (i j : Nat) (hij : i ≠ j) :
    wallInterior (workpieceOf h w l t) i ∩ wallInterior (workpieceOf h w l t) j = ∅ := by
  ext x
  simp only [Set.mem_inter_iff, Set.mem_empty_iff_false, iff_false, not_and]
  rintro ⟨s, T, u, hs, hT, rfl, hu⟩ ⟨s', T', u', hs', hT', hx, hu'⟩
  have g0 := congrFun hx 0
  have g1 := congrFun hx 1
  have g2 := congrFun hx 2
  simp only [abs_lt] at hu hu'
  obtain ⟨⟨a1, a2⟩, ⟨b1, b2⟩, c1, c2⟩ := hu
  obtain ⟨⟨a1', a2'⟩, ⟨b1', b2'⟩, c1', c2'⟩ := hu'
  rcases i with _ | _ | _ | _ | _ | i
  all_goals simp only [workpieceOf, List.getElem?_cons_zero, List.getElem?_cons_succ,
      Option.some.injEq, List.getElem?_nil, reduceCtorEq] at hs hT
  all_goals
    rcases j with _ | _ | _ | _ | _ | j
    all_goals simp only [workpieceOf, List.getElem?_cons_zero, List.getElem?_cons_succ,
      Option.some.injEq, List.getElem?_nil, reduceCtorEq] at hs' hT'
    all_goals
      first
        | exact absurd rfl hij
        | (subst hs hT hs' hT'
           rw [act_poseX_zero, act_poseX_zero] at g0 g1 g2
           simp at g0 g1 g2
           simp only at a1 a2 b1 b2 c1 c2 a1' a2' b1' b2' c1' c2'
           linarith)

/-- Every point within 4 cm of `p` (in each coordinate) is outside all walls. -/
def Clear (c : Collection Shape) (p : V3) : Prop :=
  ∀ v : V3, (∀ i, |v i| < 0.04) → ∀ i, p + v ∉ wallPoints c i

/-- The ray from the frame along its z-axis meets the point `p` after 4 cm times the root of
two. -/
def AimsAt (T : M4) (p : V3) : Prop := act T ![0, 0, 0.04 * Real.sqrt 2] = p

theorem cos_three_quarter : Real.cos (3 * Real.pi / 4) = -(Real.sqrt 2 / 2) := by
  rw [show 3 * Real.pi / 4 = Real.pi - Real.pi / 4 by ring, Real.cos_pi_sub, Real.cos_pi_div_four]

theorem sin_three_quarter : Real.sin (3 * Real.pi / 4) = Real.sqrt 2 / 2 := by
  rw [show 3 * Real.pi / 4 = Real.pi - Real.pi / 4 by ring, Real.sin_pi_sub, Real.sin_pi_div_four]

theorem clear_of_cavity {p : V3} (h0 : |p 0| ≤ 0.75) (h1 : p 1 ≤ 0.35) (h2 : 0.05 ≤ p 2)
    (h3 : p 2 ≤ 0.9) : Clear workpiece p := by
  intro v hv i hi
  have hw := (C90_walls 1.0 0.8 1.6 0.01 (by norm_num) (by norm_num) (by norm_num) (by norm_num)
    (p + v)).1 ⟨i, hi⟩
  refine hw.2 ?_
  have v0 := abs_lt.1 (hv 0)
  have v1 := abs_lt.1 (hv 1)
  have v2 := abs_lt.1 (hv 2)
  rw [abs_le] at h0
  simp only [Pi.add_apply, abs_lt]
  norm_num at *
  refine ⟨⟨?_, ?_⟩, ?_, ?_, ?_⟩ <;> linarith

theorem sqrt_two_sq : Real.sqrt 2 * Real.sqrt 2 = 2 := Real.mul_self_sqrt (by norm_num)

theorem aims_back (x c : ℝ) :
    AimsAt (mkTf (rotX (-3 * Real.pi / 4) * rotY 0 * rotZ c) (![x, 0.39, 0.01] + ![0, -0.04, 0.04]))
      ![x, 0.39, 0.01] := by
  have hsq := sqrt_two_sq
  have hneg : -3 * Real.pi / 4 = -(3 * Real.pi / 4) := by ring
  unfold AimsAt act
  rw [rotPart_mkTf, posPart_mkTf, hneg]
  ext i
  fin_cases i <;>
    simp [rotX, rotY, rotZ, sin_three_quarter, cos_three_quarter]
  · norm_num; linarith
  · norm_num; linarith

theorem aims_left (y c : ℝ) :
    AimsAt (mkTf (rotX 0 * rotY (-3 * Real.pi / 4) * rotZ c) (![-0.79, y, 0.01] + ![0.04, 0, 0.04]))
      ![-0.79, y, 0.01] := by
  have hsq := sqrt_two_sq
  have hneg : -3 * Real.pi / 4 = -(3 * Real.pi / 4) := by ring
  unfold AimsAt act
  rw [rotPart_mkTf, posPart_mkTf, hneg]
  ext i
  fin_cases i <;>
    simp [rotX, rotY, rotZ, sin_three_quarter, cos_three_quarter]
  · norm_num; linarith
  · norm_num; linarith

theorem aims_right (y c : ℝ) :
    AimsAt (mkTf (rotX 0 * rotY (3 * Real.pi / 4) * rotZ c) (![0.79, y, 0.01] + ![-0.04, 0, 0.04]))
      ![0.79, y, 0.01] := by
  have hsq := sqrt_two_sq
  unfold AimsAt act
  rw [rotPart_mkTf, posPart_mkTf]
  ext i
  fin_cases i <;>
    simp [rotX, rotY, rotZ, sin_three_quarter, cos_three_quarter]
  · norm_num; linarith
  · norm_num; linarith

/-- C90. For every number of points, the three weld paths of the module exist; every point of them
keeps 4 cm distance from all walls, and its nominal z-axis points exactly at the seam: the edge of
the bottom with the back, the left or the right wall. -/
theorem C90_paths (n : Nat) (h2 : 2 ≤ n) :
    ∃ path path2 path3, weldPath1 0.8 1.6 0.01 0.1 n = .ok path ∧
      weldPath2 0.8 1.6 0.01 0.1 n = .ok path2 ∧ weldPath3 0.8 1.6 0.01 0.1 n = .ok path3 ∧
      path.length = n ∧ path2.length = n ∧ path3.length = n ∧
      (∀ pt ∈ path, ∃ T, pt.nominalTransform = .ok T ∧ Clear workpiece (posPart T) ∧
        ∃ x, |x| ≤ 0.69 ∧ AimsAt T ![x, 0.39, 0.01]) ∧
      (∀ pt ∈ path2, ∃ T, pt.nominalTransform = .ok T ∧ Clear workpiece (posPart T) ∧
        ∃ y, |y| ≤ 0.3 ∧ AimsAt T ![-0.79, y, 0.01]) ∧
      (∀ pt ∈ path3, ∃ T, pt.nominalTransform = .ok T ∧ Clear workpiece (posPart T) ∧
        ∃ y, |y| ≤ 0.3 ∧ AimsAt T ![0.79, y, 0.01]) := by
  obtain ⟨p1, e1, l1, g1⟩ := C89_weld_line ![-1.6 / 2 + 0.01 + 0.1, 0.8 / 2 - 0.01, 0.01]
    ![1.6 / 2 - 0.01 - 0.1, 0.8 / 2 - 0.01, 0.01] ![-3 * Real.pi / 4, 0, Real.pi]
    ![0, -0.04, 0.04] n
  obtain ⟨p2, e2, l2, g2⟩ := C89_weld_line ![-1.6 / 2 + 0.01, -0.8 / 2 + 0.1, 0.01]
    ![-1.6 / 2 + 0.01, 0.8 / 2 - 0.01 - 0.1, 0.01] ![0, -3 * Real.pi / 4, Real.pi / 2]
    ![0.04, 0, 0.04] n
  obtain ⟨p3, e3, l3, g3⟩ := C89_weld_line ![1.6 / 2 - 0.01, -0.8 / 2 + 0.1, 0.01]
    ![1.6 / 2 - 0.01, 0.8 / 2 - 0.01 - 0.1 - 0.4, 0.01] ![0, 3 * Real.pi / 4, Real.pi / 2]
    ![-0.04, 0, 0.04] n
  refine ⟨p1, p2, p3, e1, e2, e3, l1, l2, l3, ?_, ?_, ?_⟩
  · intro pt hpt
    obtain ⟨k, hk⟩ := List.mem_iff_getElem?.1 hpt
    have hkn : k < n := by rw [← l1]; exact (List.getElem?_eq_some_iff.1 hk).1
    obtain ⟨-, -, hin⟩ := C89_ends ![-1.6 / 2 + 0.01 + 0.1, 0.8 / 2 - 0.01, 0.01]
      ![1.6 / 2 - 0.01 - 0.1, 0.8 / 2 - 0.01, 0.01] n h2
    have gk := (g1 k pt hk).1
    have i0 := hin k hkn 0
    have i1 := hin k hkn 1
    have i2 := hin k hkn 2
    generalize onLine ![-1.6 / 2 + 0.01 + 0.1, 0.8 / 2 - 0.01, 0.01]
      ![1.6 / 2 - 0.01 - 0.1, 0.8 / 2 - 0.01, 0.01] n k = L at gk i0 i1 i2
    simp only [Matrix.cons_val] at i0 i1 i2
    norm_num at i0 i1 i2
    obtain ⟨i0, i0'⟩ := i0
    obtain ⟨i1, i1'⟩ := i1
    obtain ⟨i2, i2'⟩ := i2
    have j1 : L 1 = 0.39 := by norm_num; linarith
    have j2 : L 2 = 0.01 := by norm_num; linarith
    have hL : L = ![L 0, 0.39, 0.01] := by
      ext i; fin_cases i <;> simp [*]
    rw [hL] at gk
    refine ⟨_, gk, ?_, L 0, ?_, aims_back _ _⟩
    · rw [posPart_mkTf]
      refine clear_of_cavity ?_ ?_ ?_ ?_ <;>
        simp only [Pi.add_apply, Matrix.cons_val] <;> norm_num [abs_le]
      constructor <;> linarith
    · norm_num [abs_le]
      constructor <;> linarith
  · intro pt hpt
    obtain ⟨k, hk⟩ := List.mem_iff_getElem?.1 hpt
    have hkn : k < n := by rw [← l2]; exact (List.getElem?_eq_some_iff.1 hk).1
    obtain ⟨-, -, hin⟩ := C89_ends ![-1.6 / 2 + 0.01, -0.8 / 2 + 0.1, 0.01]
      ![-1.6 / 2 + 0.01, 0.8 / 2 - 0.01 - 0.1, 0.01] n h2
    have gk := (g2 k pt hk).1
    have i0 := hin k hkn 0
    have i1 := hin k hkn 1
    have i2 := hin k hkn 2
    generalize onLine ![-1.6 / 2 + 0.01, -0.8 / 2 + 0.1, 0.01]
      ![-1.6 / 2 + 0.01, 0.8 / 2 - 0.01 - 0.1, 0.01] n k = L at gk i0 i1 i2
    simp only [Matrix.cons_val] at i0 i1 i2
    norm_num at i0 i1 i2
    obtain ⟨i0, i0'⟩ := i0
    obtain ⟨i1, i1'⟩ := i1
    obtain ⟨i2, i2'⟩ := i2
    have j0 : L 0 = -0.79 := by norm_num; linarith
    have j2 : L 2 = 0.01 := by norm_num; linarith
    have hL : L = ![-0.79, L 1, 0.01] := by
      ext i; fin_cases i <;> simp [*]
    rw [hL] at gk
    refine ⟨_, gk, ?_, L 1, ?_, aims_left _ _⟩
    · rw [posPart_mkTf]
      refine clear_of_cavity ?_ ?_ ?_ ?_ <;>
        simp only [Pi.add_apply, Matrix.cons_val] <;> norm_num [abs_le]
      linarith
    · norm_num [abs_le]
      constructor <;> linarith
  · intro pt hpt
    obtain ⟨k, hk⟩ := List.mem_iff_getElem?.1 hpt
    have hkn : k < n := by rw [← l3]; exact (List.getElem?_eq_some_iff.1 hk).1
    obtain ⟨-, -, hin⟩ := C89_ends ![1.6 / 2 - 0.01, -0.8 / 2 + 0.1, 0.01]
      ![1.6 / 2 - 0.01, 0.8 / 2 - 0.01 - 0.1 - 0.4, 0.01] n h2
    have gk := (g3 k pt hk).1
    have i0 := hin k hkn 0
    have i1 := hin k hkn 1
    have i2 := hin k hkn 2
    generalize onLine ![1.6 / 2 - 0.01, -0.8 / 2 + 0.1, 0.01]
      ![1.6 / 2 - 0.01, 0.8 / 2 - 0.01 - 0.1 - 0.4, 0.01] n k = L at gk i0 i1 i2
    simp only [Matrix.cons_val] at i0 i1 i2
    norm_num at i0 i1 i2
    obtain ⟨i0, i0'⟩ := i0
    obtain ⟨i1, i1'⟩ := i1
    obtain ⟨i2, i2'⟩ := i2
    have j0 : L 0 = 0.79 := by norm_num; linarith
    have j2 : L 2 = 0.01 := by norm_num; linarith
    have hL : L = ![0.79, L 1, 0.01] := by
      ext i; fin_cases i <;> simp [*]
    rw [hL] at gk
    refine ⟨_, gk, ?_, L 1, ?_, aims_right _ _⟩
    · rw [posPart_mkTf]
      refine clear_of_cavity ?_ ?_ ?_ ?_ <;>
        simp only [Pi.add_apply, Matrix.cons_val] <;> norm_num [abs_le]
      linarith
    · norm_num [abs_le]
      constructor <;> linarith

theorem onLine_add (a b c : V3) (n k : Nat) :
    onLine a b n k + c = onLine (a + c) (b + c) n k := by
  ext i
  simp only [onLine, Pi.add_apply]
  ring

/-- C90: where exactly the three paths run: along the back seam from 10 cm after the left wall to
10 cm before the right wall; along the left seam from 10 cm after the opening to 10 cm before the
back wall; along the right seam only the first 19 cm of that. -/
theorem C90_positions (n : Nat) {path path2 path3 : List TolEulerPt}
    (h1 : weldPath1 0.8 1.6 0.01 0.1 n = .ok path) (h2 : weldPath2 0.8 1.6 0.01 0.1 n = .ok path2)
    (h3 : weldPath3 0.8 1.6 0.01 0.1 n = .ok path3) :
    path.length = n ∧ path2.length = n ∧ path3.length = n ∧
    (∀ (k : Nat) pt, path[k]? = some pt → ∃ T, pt.nominalTransform = .ok T ∧
      posPart T = onLine ![-0.69, 0.35, 0.05] ![0.69, 0.35, 0.05] n k) ∧
    (∀ (k : Nat) pt, path2[k]? = some pt → ∃ T, pt.nominalTransform = .ok T ∧
      posPart T = onLine ![-0.75, -0.3, 0.05] ![-0.75, 0.29, 0.05] n k) ∧
    (∀ (k : Nat) pt, path3[k]? = some pt → ∃ T, pt.nominalTransform = .ok T ∧
      posPart T = onLine ![0.75, -0.3, 0.05] ![0.75, -0.11, 0.05] n k) := by
  obtain ⟨p1, e1, l1, g1⟩ := C89_weld_line ![-1.6 / 2 + 0.01 + 0.1, 0.8 / 2 - 0.01, 0.01]
    ![1.6 / 2 - 0.01 - 0.1, 0.8 / 2 - 0.01, 0.01] ![-3 * Real.pi / 4, 0, Real.pi]
    ![0, -0.04, 0.04] n
  obtain ⟨p2, e2, l2, g2⟩ := C89_weld_line ![-1.6 / 2 + 0.01, -0.8 / 2 + 0.1, 0.01]
    ![-1.6 / 2 + 0.01, 0.8 / 2 - 0.01 - 0.1, 0.01] ![0, -3 * Real.pi / 4, Real.pi / 2]
    ![0.04, 0, 0.04] n
  obtain ⟨p3, e3, l3, g3⟩ := C89_weld_line ![1.6 / 2 - 0.01, -0.8 / 2 + 0.1, 0.01]
    ![1.6 / 2 - 0.01, 0.8 / 2 - 0.01 - 0.1 - 0.4, 0.01] ![0, 3 * Real.pi / 4, Real.pi / 2]
    ![-0.04, 0, 0.04] n
  cases h1.symm.trans e1
  cases h2.symm.trans e2
  cases h3.symm.trans e3
  refine ⟨l1, l2, l3, ?_, ?_, ?_⟩
  · intro k pt hk
    refine ⟨_, (g1 k pt hk).1, ?_⟩
    rw [posPart_mkTf, onLine_add]
    congr 1 <;> (ext i; fin_cases i <;> norm_num)
  · intro k pt hk
    refine ⟨_, (g2 k pt hk).1, ?_⟩
    rw [posPart_mkTf, onLine_add]
    congr 1 <;> (ext i; fin_cases i <;> norm_num)
  · intro k pt hk
    refine ⟨_, (g3 k pt hk).1, ?_⟩
    rw [posPart_mkTf, onLine_add]
    congr 1 <;> (ext i; fin_cases i <;> norm_num)

/-- C90: the shipped workpiece is 1.6 by 0.8 by 1.02, with walls of 1 cm. -/
theorem C90_workpiece (x : V3) : (∃ i, x ∈ wallPoints workpiece i) ↔
    (|x 0| ≤ 0.8 ∧ |x 1| ≤ 0.4 ∧ 0 ≤ x 2 ∧ x 2 ≤ 1.02) ∧
      ¬ (|x 0| < 0.79 ∧ x 1 < 0.39 ∧ 0.01 < x 2 ∧ x 2 < 1.01) := by
  have h := C90_walls 1.0 0.8 1.6 0.01 (by norm_num) (by norm_num) (by norm_num) (by norm_num) x
  unfold workpiece
  norm_num at h ⊢
  exact h

/-- C90: the module itself builds paths of 10, 6 and 6 points. -/
theorem C90_shipped : ∃ path path2 path3, workpiecePaths = .ok (path, path2, path3) ∧
    path.length = 10 ∧ path2.length = 6 ∧ path3.length = 6 := by
  obtain ⟨p1, _, _, e1, _, _, l1, _⟩ := C90_paths 10 (by norm_num)
  obtain ⟨_, p2, p3, _, e2, e3, _, l2, l3, _⟩ := C90_paths 6 (by norm_num)
  refine ⟨p1, p2, p3, ?_, l1, l2, l3⟩
  unfold workpiecePaths
  have e1' : weldPath1 0.8 1.6 0.01 0.1 10 = .ok p1 := e1
  have e2' : weldPath2 0.8 1.6 0.01 0.1 6 = .ok p2 := e2
  have e3' : weldPath3 0.8 1.6 0.01 0.1 6 = .ok p3 := e3
  rw [e1', e2', e3']
  rfl

/-- C89, C90: a line of two points has one sample turned by `-1/2` about x at its start; walls of a
workpiece of 1 m; the shipped paths of 6 points have positions. -/
example : (∃ path pt Ts, createWeldLine 0 ![1, 0, 0] 0 0 2 = .ok path ∧ path[0]? = some pt ∧
      pt.getSamples = .ok Ts ∧
      mkTf (rotX (-1 / 2) * rotY 0 * rotZ (-Real.pi)) 0 ∈ Ts) ∧
    createWeldLine 0 ![1, 0, 0] 0 0 (-1) = .error .valueError ∧
    wallInterior (workpieceOf 1 1 1 0.1) 0 ∩ wallInterior (workpieceOf 1 1 1 0.1) 1 = ∅ ∧
    ∃ path pt T, weldPath3 0.8 1.6 0.01 0.1 6 = .ok path ∧ path[5]? = some pt ∧
      pt.nominalTransform = .ok T ∧ posPart T = ![0.75, -0.11, 0.05] := by
  refine ⟨?_, C89_negative _ _ _ _ _ (by norm_num),
    C90_walls_disjoint 1 1 1 0.1 one_pos (by norm_num) 0 1 (by norm_num), ?_⟩
  · obtain ⟨path, h1, h2, -⟩ := C89_weld_line 0 ![1, 0, 0] 0 0 2
    have hk : path[0]? = some (path[0]'(by omega)) := List.getElem?_eq_getElem _
    obtain ⟨Ts, h3, -, h4, -⟩ := C89_samples _ _ _ _ _ h1 hk
    refine ⟨path, _, Ts, h1, hk, h3, (h4 _).2 ⟨0, 0, by norm_num, by norm_num, ?_⟩⟩
    congr 1
    · norm_num
    · ext i; simp [onLine]
  · obtain ⟨p1, p2, p3, e1, e2, e3, -⟩ := C90_paths 6 (by norm_num)
    obtain ⟨-, -, l3, -, -, h⟩ := C90_positions 6 e1 e2 e3
    have hk : p3[5]? = some (p3[5]'(by omega)) := List.getElem?_eq_getElem _
    obtain ⟨T, h1, h2⟩ := h 5 _ hk
    refine ⟨p3, _, T, e3, hk, h1, ?_⟩
    rw [h2]
    ext i; fin_cases i <;> simp [onLine] <;> norm_num

end Verif.Props
