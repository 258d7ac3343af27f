import Verif.Props.TablePath
import Mathlib.Analysis.Real.Pi.Irrational
import Mathlib.Analysis.SpecialFunctions.Trigonometric.Angle

/-!
# C130: is the nominal value among the samples?

A TolerancedNumber has a nominal value (by default the middle of its range) and is sampled by
`np.linspace` (path.py:20-34); a TolEulerPt has a nominal frame and is sampled on the grid of these
values (path.py:41-103).  The nominal value is not always one of the samples: with the default
arguments of the constructor (middle of the range, ten samples) it never is.
-/

set_option linter.unusedSectionVars false

namespace Verif.Props

open Matrix Verif.Path Verif.Util Verif.SampleSO3 Verif.Resources

/-- **C130**, numbers: without a nominal value the middle of a range of positive length is sampled
exactly if the number of samples is odd and at least three. -/
theorem C130_number {lower upper : ℝ} (hlu : lower < upper) {n : Int} {t : TolNum}
    (ht : TolNum.new lower upper none n = .ok t) {xs : List ℝ} (hx : t.discretise = .ok xs) :
    t.nominal ∈ xs ↔ n % 2 = 1 ∧ 3 ≤ n := by
  cases ht
  have hn : 0 ≤ n := by
    by_contra h
    rw [C46_negative (by simpa using h)] at hx
    cases hx
  rw [discretise_ok (by simpa using hn)] at hx
  cases hx
  simp only [List.mem_map, List.mem_range]
  have hd : upper - lower ≠ 0 := by linarith
  constructor
  · rintro ⟨i, hi, h⟩
    have h1 : (i : ℝ) * ((upper - lower) / ((n : ℝ) - 1)) = (upper - lower) / 2 := by linarith
    have hn1 : (n : ℝ) - 1 ≠ 0 := by
      intro h0
      rw [h0, div_zero, mul_zero] at h1
      exact hd (by linarith)
    have h2 : (2 : ℝ) * i = n - 1 := by
      field_simp at h1
      linarith
    have h3 : (2 : Int) * i = n - 1 := by exact_mod_cast h2
    have h4 : n ≠ 1 := fun h => hn1 (by rw [h]; norm_num)
    omega
  · rintro ⟨ho, h3⟩
    refine ⟨((n - 1) / 2).toNat, by omega, ?_⟩
    have h4 : (2 : Int) * (((n - 1) / 2).toNat : Int) = n - 1 := by omega
    have h5 : (2 : ℝ) * ((((n - 1) / 2).toNat : Nat) : ℝ) = n - 1 := by exact_mod_cast h4
    have h6 : ((n : ℝ) - 1) ≠ 0 := by
      have : (3 : ℝ) ≤ n := by exact_mod_cast h3
      linarith
    have h7 : ((((n - 1) / 2).toNat : Nat) : ℝ) = (n - 1) / 2 := by linarith
    rw [h7]
    field_simp

/-- **C130**, a given nominal value is sampled exactly if it is one of the equally spaced values. -/
theorem C130_given {lower upper m : ℝ} {n : Int} {t : TolNum}
    (ht : TolNum.new lower upper (some m) n = .ok t) {xs : List ℝ} (hx : t.discretise = .ok xs) :
    t.nominal ∈ xs ↔ ∃ k : Nat, (k : Int) < n ∧ m = lower + k / ((n : ℝ) - 1) * (upper - lower) := by
  have hm : lower ≤ m ∧ m ≤ upper := (C45_accepts (some m) n).1 ⟨t, ht⟩ m rfl
  obtain ⟨h1, h2, h3, -⟩ := C45_within (hm.1.trans hm.2) ht
  have h4 := (C45_nominal ht).1 m rfl
  have hn : 0 ≤ t.numSamples := by
    by_contra h
    rw [C46_negative (by omega)] at hx
    cases hx
  rw [discretise_ok hn] at hx
  cases hx
  have := mem_values (e := .tol t) (x := t.nominal)
  simp only [values, GridValue, h1, h2, h3, h4] at this
  simpa only [h1, h2, h3, h4] using this

/-- **C130** as first stated is false: with the default arguments no range of positive length has
its nominal value among its samples. -/
theorem C130_refuted {lower upper : ℝ} (hlu : lower < upper) :
    ∃ t xs, TolNum.new lower upper = .ok t ∧ t.discretise = .ok xs ∧ xs.length = 10 ∧
      t.nominal ∉ xs := by
  obtain ⟨xs, h, hl, -⟩ := C46 (t := ⟨lower, upper, lower + (upper - lower) / 2, 10⟩) (n := 10) rfl
    hlu.le
  refine ⟨_, xs, rfl, h, hl, fun hm => ?_⟩
  exact absurd ((C130_number hlu rfl h).1 hm).1 (by decide)

/-- The nominal value of an entry: the number itself or the nominal value of the range. -/
def IsNominal (x : ℝ) (e : Entry) : Prop := e = .num x ∨ ∃ t, e = .tol t ∧ x = t.nominal

/-- **C130**, points: the nominal frame is one of the samples if the nominal value of each entry is
one of its grid values; and if it is one of the samples then this holds for each position entry. -/
theorem C130_point {pos rpy : Fin 3 → Entry} (hp : ∀ i, Sound (pos i)) (hr : ∀ i, Sound (rpy i))
    {pt : TolEulerPt} (hpt : TolEulerPt.new [pos 0, pos 1, pos 2] [rpy 0, rpy 1, rpy 2] = .ok pt)
    {x a : V3} (hx : ∀ i, IsNominal (x i) (pos i)) (ha : ∀ i, IsNominal (a i) (rpy i)) :
    ∃ T Ts, pt.nominalTransform = .ok T ∧ pt.getSamples = .ok Ts ∧
      ((∀ i, GridValue (x i) (pos i)) → (∀ i, GridValue (a i) (rpy i)) → T ∈ Ts) ∧
      (T ∈ Ts → ∀ i, GridValue (x i) (pos i)) := by
  obtain ⟨pt', cs, h1, h2, _, h4, _⟩ := C47_samples hp hr
  rw [hpt] at h1
  cases h1
  obtain ⟨pt', h1', h5⟩ := C47_nominal pos rpy
  rw [hpt] at h1'
  cases h1'
  refine ⟨_, _, h5 x a hx ha, h2, fun g1 g2 => ?_, fun hT => ?_⟩
  · exact List.mem_map.2 ⟨(x, a), (h4 x a).2 ⟨g1, g2⟩, rfl⟩
  · obtain ⟨⟨x', a'⟩, hc, he⟩ := List.mem_map.1 hT
    have : x' = x := by
      have := congrArg posPart he
      simpa only [posPart_mkTf] using this
    exact this ▸ ((h4 x' a').1 hc).1

/-- **C130**, points with plain angles: the nominal frame is one of the samples exactly if the
nominal value of each position entry is one of its grid values. -/
theorem C130_position {pos : Fin 3 → Entry} (hp : ∀ i, Sound (pos i)) (a : V3)
    {pt : TolEulerPt}
    (hpt : TolEulerPt.new [pos 0, pos 1, pos 2] [.num (a 0), .num (a 1), .num (a 2)] = .ok pt)
    {x : V3} (hx : ∀ i, IsNominal (x i) (pos i)) :
    ∃ T Ts, pt.nominalTransform = .ok T ∧ pt.getSamples = .ok Ts ∧
      (T ∈ Ts ↔ ∀ i, GridValue (x i) (pos i)) := by
  obtain ⟨T, Ts, h1, h2, h3, h4⟩ := C130_point (rpy := fun i => .num (a i)) hp (fun _ => trivial) hpt
    hx (a := a) (fun _ => .inl rfl)
  exact ⟨T, Ts, h1, h2, h4, fun h => h3 h fun _ => rfl⟩

/-- Angles with the same cosine and sine differ by whole turns. -/
theorem turns_of_cos_sin {x y : ℝ} (hc : Real.cos x = Real.cos y) (hs : Real.sin x = Real.sin y) :
    ∃ m : Int, x - y = 2 * Real.pi * m :=
  Real.Angle.angle_eq_iff_two_pi_dvd_sub.1 (Real.Angle.cos_sin_inj hc hs)

/-- Two `Rx Ry Rz` with the same second angle agree only if the third angles differ by whole turns,
or the sum or the difference of the first and third angles does. -/
theorem turns_of_Rxyz {a b c a' c' : ℝ}
    (h : rotX a * rotY b * rotZ c = rotX a' * rotY b * rotZ c') :
    ∃ m : Int, c' - c = 2 * Real.pi * m ∨ (a' + c') - (a + c) = 2 * Real.pi * m ∨
      (c' - a') - (c - a) = 2 * Real.pi * m := by
  have e00 := congrFun (congrFun h 0) 0
  have e01 := congrFun (congrFun h 0) 1
  have e10 := congrFun (congrFun h 1) 0
  have e11 := congrFun (congrFun h 1) 1
  simp [rotX, rotY, rotZ, Matrix.mul_apply, Fin.sum_univ_three] at e00 e01 e10 e11
  by_cases hb : Real.cos b = 0
  · have hs : Real.sin b * Real.sin b = 1 := by
      have := Real.sin_sq_add_cos_sq b
      rw [hb] at this
      linarith [this, pow_two (Real.sin b)]
    rcases mul_self_eq_one_iff.1 hs with h1 | h1
    · rw [h1] at e10 e11
      obtain ⟨m, hm⟩ := turns_of_cos_sin (x := a' + c') (y := a + c)
        (by rw [Real.cos_add, Real.cos_add]; linarith) (by rw [Real.sin_add, Real.sin_add]; linarith)
      exact ⟨m, .inr (.inl hm)⟩
    · rw [h1] at e10 e11
      obtain ⟨m, hm⟩ := turns_of_cos_sin (x := c' - a') (y := c - a)
        (by rw [Real.cos_sub, Real.cos_sub]; linarith) (by rw [Real.sin_sub, Real.sin_sub]; linarith)
      exact ⟨m, .inr (.inr hm)⟩
  · obtain ⟨m, hm⟩ := turns_of_cos_sin (x := c') (y := c)
      (by rcases e00 with h | h
          · exact h.symm
          · exact absurd h hb)
      (by rcases e01 with h | h
          · exact h.symm
          · exact absurd h hb)
    exact ⟨m, .inl hm⟩

/-- No combination of a half angle and an odd ninth of `π` makes whole turns. -/
theorem ninths {i j : Nat} {m : Int} (s : ℝ) (hs : s = 1 ∨ s = -1 ∨ s = 0)
    (h : s * (((i : ℝ) - 1) / 2) + (-Real.pi + 2 * Real.pi * (j : ℝ) / 9) = 2 * Real.pi * m) :
    False := by
  have hodd : (2 : Int) * j - 9 - 18 * m ≠ 0 := by omega
  have hodd' : (2 : ℝ) * j - 9 - 18 * m ≠ 0 := by exact_mod_cast hodd
  have hlin : Real.pi * ((2 : ℝ) * j - 9 - 18 * m) = -(s * (9 * ((i : ℝ) - 1) / 2)) := by
    linarith
  have hpi : Real.pi = -(s * (9 * ((i : ℝ) - 1) / 2)) / ((2 : ℝ) * j - 9 - 18 * m) := by
    rw [eq_div_iff hodd']
    exact hlin
  obtain ⟨r, hr⟩ : ∃ r : ℚ, s = r := by
    rcases hs with h | h | h
    · exact ⟨1, by rw [h]; norm_num⟩
    · exact ⟨-1, by rw [h]; norm_num⟩
    · exact ⟨0, by rw [h]; norm_num⟩
  refine irrational_pi ⟨-(r * (9 * ((i : ℚ) - 1) / 2)) / ((2 : ℚ) * j - 9 - 18 * m), ?_⟩
  rw [hpi, hr]
  push_cast
  ring

/-- **C130**, weld lines: no point of a path built by `create_weld_line` has its nominal frame among
its samples, whatever the angles. -/
theorem C130_weld (pStart pGoal rpy pOffset : V3) (n : Nat) {path : List TolEulerPt}
    (h : createWeldLine pStart pGoal rpy pOffset n = .ok path) {pt : TolEulerPt} (hpt : pt ∈ path) :
    ∃ T Ts, pt.nominalTransform = .ok T ∧ pt.getSamples = .ok Ts ∧ T ∉ Ts := by
  obtain ⟨k, hk⟩ := List.mem_iff_getElem?.1 hpt
  obtain ⟨path', h', -, hw⟩ := C89_weld_line pStart pGoal rpy pOffset n
  rw [h] at h'
  cases h'
  obtain ⟨Ts, hTs, -, hmem, -⟩ := C89_samples pStart pGoal rpy pOffset n h hk
  refine ⟨_, Ts, (hw k pt hk).1, hTs, fun hT => ?_⟩
  obtain ⟨i, j, -, -, he⟩ := (hmem _).1 hT
  have hR := congrArg rotPart he
  simp only [rotPart_mkTf] at hR
  obtain ⟨m, hm | hm | hm⟩ := turns_of_Rxyz hR
  · exact ninths (i := i) (j := j) (m := m) 0 (.inr (.inr rfl)) (by linarith)
  · exact ninths (i := i) (j := j) (m := m) 1 (.inl rfl) (by linarith)
  · exact ninths (i := i) (j := j) (m := m) (-1) (.inr (.inl rfl)) (by linarith)

/-- **C130**, path_on_table.py: no point of `path_pos_tol` has its nominal position among the
positions of its samples. -/
theorem C130_table (n : Nat) {path : List TolPositionPt} (h : pathPosTol n = .ok path)
    {pt : TolPositionPt} (hpt : pt ∈ path) :
    ∃ x Ts, pt.posNom = [x 0, x 1, x 2] ∧ pt.getSamples = .ok Ts ∧ Ts.length = 10 ∧
      ∀ T ∈ Ts, posPart T ≠ x := by
  set X : ℝ → ℝ := fun s => 0.8 + 0.1 * Real.sin (2 * Real.pi * s) with hX
  set P : ℝ → Fin 3 → Entry := fun s => ![.tol ⟨X s - 0.05, X s + 0.05,
    X s - 0.05 + (X s + 0.05 - (X s - 0.05)) / 2, 10⟩, .num (s * 0.2 + (1 - s) * (-0.2)),
    .num 0.2] with hP
  have hq : (⟨0, 0, 1, 0⟩ : Quat).norm2 = 1 := by simp [Quat.norm2]
  have hsound : ∀ s i, Sound (P s i) := by
    intro s i
    fin_cases i <;> simp [P, Sound]
    linarith
  have hrun : pathPosTol n = .ok (((List.range n).map fun (i : Nat) => (i : ℝ) / ((n : ℝ) - 1)).map
      fun s => positionPt (P s) ⟨0, 0, 1, 0⟩) := by
    unfold pathPosTol
    rw [down_quat]
    simp only [bind, Except.bind, linspace_unit]
    exact mapM_ok fun s _ => positionPt_new (P s) _
  rw [hrun] at h
  cases h
  obtain ⟨s, -, rfl⟩ := List.mem_map.1 hpt
  obtain ⟨pt, cs, h1, h2, h3, h4, h5, h6⟩ := C48 (hsound s) hq
  rw [positionPt_new] at h1
  obtain rfl := Except.ok.inj h1
  refine ⟨![X s - 0.05 + (X s + 0.05 - (X s - 0.05)) / 2, s * 0.2 + (1 - s) * (-0.2), 0.2], _, rfl,
    h2, ?_, ?_⟩
  · rw [List.length_map, h3]
    simp [P, Fin.prod_univ_succ, gridCount]
  · intro T hT he
    obtain ⟨x, hx, rfl⟩ := List.mem_map.1 hT
    rw [posPart_mkTf] at he
    have hg := (h4 x).1 hx 0
    rw [he] at hg
    obtain ⟨i, -, hi⟩ := hg
    have hi' : X s - 0.05 + (X s + 0.05 - (X s - 0.05)) / 2 = X s - 0.05 +
      (i : ℝ) / (((10 : Int) : ℝ) - 1) * (X s + 0.05 - (X s - 0.05)) := hi
    norm_num at hi'
    have h9 : (2 : ℝ) * i = 9 := by linarith
    have h9' : (2 : Int) * i = 9 := by exact_mod_cast h9
    omega

/-- **C130**, the attributes of a point: with at least three entries in both lists the constructor
stores the entries, which of them are toleranced, and the nominal values of the first three. -/
theorem C130_attributes {p0 p1 p2 r0 r1 r2 : Entry} (ps rs : List Entry) {x a : V3}
    (hx : IsNominal (x 0) p0 ∧ IsNominal (x 1) p1 ∧ IsNominal (x 2) p2)
    (ha : IsNominal (a 0) r0 ∧ IsNominal (a 1) r1 ∧ IsNominal (a 2) r2) :
    TolEulerPt.new (p0 :: p1 :: p2 :: ps) (r0 :: r1 :: r2 :: rs) = .ok
      { pos := p0 :: p1 :: p2 :: ps
        posHasTol := (p0 :: p1 :: p2 :: ps).map Entry.isTol
        posNom := [x 0, x 1, x 2]
        rpy := r0 :: r1 :: r2 :: rs
        rpyHasTol := (r0 :: r1 :: r2 :: rs).map Entry.isTol
        rpyNom := [a 0, a 1, a 2]
        pNominal := [x 0, x 1, x 2, a 0, a 1, a 2] } := by
  have key : ∀ (e0 e1 e2 : Entry) (es : List Entry) (y : V3), IsNominal (y 0) e0 →
      IsNominal (y 1) e1 → IsNominal (y 2) e2 → checkForTolerance (e0 :: e1 :: e2 :: es) =
        .ok ((e0 :: e1 :: e2 :: es).map Entry.isTol, [y 0, y 1, y 2]) := by
    intro e0 e1 e2 es y h0 h1 h2
    have hv : ∀ {e : Entry} {z : ℝ}, IsNominal z e → nominalOf e.isTol e = .ok z := by
      rintro e z (h | ⟨t, h, h'⟩)
      · rw [h]; rfl
      · rw [h, h']; rfl
    have g0 := hv h0
    have g1 := hv h1
    have g2 := hv h2
    have hr3 : List.range 3 = [0, 1, 2] := rfl
    simp only [checkForTolerance, hr3, List.mapM_cons, List.mapM_nil, List.map_cons, pyGet, bind,
      Except.bind, pure, Except.pure, List.getElem?_cons_zero, List.getElem?_cons_succ, g0, g1, g2]
  simp only [TolEulerPt.new, key p0 p1 p2 ps x hx.1 hx.2.1 hx.2.2,
    key r0 r1 r2 rs a ha.1 ha.2.1 ha.2.2, bind, Except.bind, List.cons_append, List.nil_append]

/-- The weld paths of the workpiece exist, and no nominal frame of the first one (ten points) is a
sample. -/
example : ∃ path, weldPath1 0.8 1.6 0.01 0.1 (10 : Nat) = .ok path ∧ path.length = 10 ∧
    ∀ pt ∈ path, ∃ T Ts, pt.nominalTransform = .ok T ∧ pt.getSamples = .ok Ts ∧ T ∉ Ts := by
  obtain ⟨path, _, _, h, _, _, hl, _⟩ := C90_paths 10 (by norm_num)
  exact ⟨path, h, hl, fun pt hpt => C130_weld _ _ _ _ 10 h hpt⟩

/-- The path over the table with three points. -/
example : ∃ path pt, pathPosTol (3 : Nat) = .ok path ∧ path[1]? = some pt ∧
    ∃ x Ts, pt.posNom = [x 0, x 1, x 2] ∧ pt.getSamples = .ok Ts ∧ ∀ T ∈ Ts, posPart T ≠ x := by
  obtain ⟨path, h, hl, -⟩ := C92_path_pos_tol 3
  have h1 : path[1]? = some path[1] := List.getElem?_eq_getElem (by omega)
  obtain ⟨x, Ts, g1, g2, -, g3⟩ := C130_table 3 h (List.mem_of_getElem? h1)
  exact ⟨path, _, h, h1, x, Ts, g1, g2, g3⟩

/-- A point with four position entries, one of them toleranced. -/
example : TolEulerPt.new [.num 1, .tol ⟨0, 1, 0.3, 4⟩, .num 3, .num 4] [.num 5, .num 6, .num 7] =
    .ok ⟨[.num 1, .tol ⟨0, 1, 0.3, 4⟩, .num 3, .num 4], [false, true, false, false], [1, 0.3, 3],
      [.num 5, .num 6, .num 7], [false, false, false], [5, 6, 7], [1, 0.3, 3, 5, 6, 7]⟩ :=
  C130_attributes (x := ![1, 0.3, 3]) (a := ![5, 6, 7]) [.num 4] []
    ⟨.inl rfl, .inr ⟨_, rfl, rfl⟩, .inl rfl⟩ ⟨.inl rfl, .inl rfl, .inl rfl⟩

/-- The value 0.3 is not one of four samples of 0…1; 1/3 is. -/
example : (∃ t xs, TolNum.new 0 1 (some (3 / 10)) 4 = .ok t ∧ t.discretise = .ok xs ∧
      t.nominal ∉ xs) ∧
    ∃ t xs, TolNum.new 0 1 (some (1 / 3)) 4 = .ok t ∧ t.discretise = .ok xs ∧ t.nominal ∈ xs := by
  have key : ∀ m : ℝ, 0 ≤ m → m ≤ 1 → ∃ t xs, TolNum.new 0 1 (some m) 4 = .ok t ∧
      t.discretise = .ok xs := by
    intro m h0 h1
    obtain ⟨xs, h, -⟩ := C46 (t := ⟨0, 1, m, 4⟩) (n := 4) rfl (by norm_num)
    refine ⟨_, xs, ?_, h⟩
    simp only [TolNum.new]
    rw [if_neg (by rintro (h | h) <;> linarith)]
  constructor
  · obtain ⟨t, xs, h1, h2⟩ := key (3 / 10) (by norm_num) (by norm_num)
    refine ⟨t, xs, h1, h2, fun h => ?_⟩
    obtain ⟨k, -, hk⟩ := (C130_given h1 h2).1 h
    norm_num at hk
    have h9 : (10 : ℝ) * k = 9 := by linarith
    have h9' : (10 : Int) * k = 9 := by exact_mod_cast h9
    omega
  · obtain ⟨t, xs, h1, h2⟩ := key (1 / 3) (by norm_num) (by norm_num)
    exact ⟨t, xs, h1, h2, (C130_given h1 h2).2 ⟨1, by norm_num, by norm_num⟩⟩

/-- A point with a range of five samples for its height: the nominal frame is a sample. -/
example : ∃ pt T Ts, TolEulerPt.new [.num 1, .num 0, .tol ⟨-1, 1, 0, 5⟩] [.num 0, .num 0, .num 0]
      = .ok pt ∧ pt.nominalTransform = .ok T ∧ pt.getSamples = .ok Ts ∧ T ∈ Ts := by
  obtain ⟨pt, hpt, -⟩ := C47_nominal ![.num 1, .num 0, .tol ⟨-1, 1, 0, 5⟩] fun _ => .num 0
  obtain ⟨T, Ts, h1, h2, h3⟩ := C130_position (pos := ![.num 1, .num 0, .tol ⟨-1, 1, 0, 5⟩])
    (x := ![1, 0, 0]) (fun i => by
      fin_cases i
      · trivial
      · trivial
      · exact ⟨by norm_num, by norm_num⟩) ![0, 0, 0] hpt (fun i => by
      fin_cases i
      · exact .inl rfl
      · exact .inl rfl
      · exact .inr ⟨_, rfl, rfl⟩)
  refine ⟨pt, T, Ts, hpt, h1, h2, h3.2 fun i => ?_⟩
  fin_cases i
  · rfl
  · rfl
  · exact ⟨2, by norm_num, by
      change (0 : ℝ) = -1 + ((2 : Nat) : ℝ) / (((5 : Int) : ℝ) - 1) * (1 - -1)
      norm_num⟩

/-- Five samples of -1…1 contain its middle. -/
example : ∃ t xs, TolNum.new (-1) 1 none 5 = .ok t ∧ t.discretise = .ok xs ∧ t.nominal ∈ xs := by
  obtain ⟨xs, h, -⟩ := C46 (t := ⟨-1, 1, -1 + (1 - -1) / 2, 5⟩) (n := 5) rfl (by norm_num)
  exact ⟨_, xs, rfl, h, (C130_number (by norm_num) rfl h).2 (by decide)⟩

end Verif.Props
