import Verif.Proofs.Path
import Mathlib.LinearAlgebra.CrossProduct
import Mathlib.LinearAlgebra.Matrix.DotProduct

/-! # C45-C51 (first part) and C74: path.py -/

set_option linter.unusedSectionVars false

namespace Verif.Props

open Matrix Verif.Path Verif.Util Verif.SampleSO3

/-! ## C45: TolerancedNumber -/

/-- **C45**, rejection: a nominal value outside the bounds raises ValueError. -/
theorem C45_rejects {lower upper m : ℝ} (samples : Int) (h : m < lower ∨ upper < m) :
    TolNum.new lower upper (some m) samples = .error .valueError := by
  have h : m < lower ∨ m > upper := h
  simp only [TolNum.new]
  rw [if_pos h]

/-- **C45**, acceptance: the constructor succeeds exactly without a nominal value or with one
inside the bounds. -/
theorem C45_accepts {lower upper : ℝ} (nom : Option ℝ) (samples : Int) :
    (∃ t, TolNum.new lower upper nom samples = .ok t) ↔
      ∀ m, nom = some m → lower ≤ m ∧ m ≤ upper := by
  cases nom with
  | none => simp [TolNum.new]
  | some m =>
    simp only [TolNum.new, Option.some.injEq]
    by_cases h : m < lower ∨ m > upper
    · rw [if_pos h]
      constructor
      · rintro ⟨t, ht⟩; cases ht
      · intro hm
        have := hm m rfl
        rcases h with h | h <;> linarith [this.1, this.2]
    · rw [if_neg h]
      push Not at h
      refine ⟨fun _ m' hm => hm ▸ ⟨h.1, h.2⟩, fun _ => ⟨_, rfl⟩⟩

/-- **C45**, invariant: with `lower ≤ upper` every constructed number has its nominal value inside
the bounds, which are stored as given. -/
theorem C45_within {lower upper : ℝ} {nom : Option ℝ} {samples : Int} {t : TolNum}
    (hlu : lower ≤ upper) (h : TolNum.new lower upper nom samples = .ok t) :
    t.lower = lower ∧ t.upper = upper ∧ t.numSamples = samples ∧
      lower ≤ t.nominal ∧ t.nominal ≤ upper := by
  cases nom with
  | none =>
    cases h
    exact ⟨rfl, rfl, rfl, by dsimp only; linarith, by dsimp only; linarith⟩
  | some m =>
    simp only [TolNum.new] at h
    by_cases hc : m < lower ∨ m > upper
    · rw [if_pos hc] at h; cases h
    · rw [if_neg hc] at h
      push Not at hc
      cases h
      exact ⟨rfl, rfl, rfl, hc.1, hc.2⟩

/-- **C45**, the nominal value is the given one, or the midpoint by default. -/
theorem C45_nominal {lower upper : ℝ} {nom : Option ℝ} {samples : Int} {t : TolNum}
    (h : TolNum.new lower upper nom samples = .ok t) :
    (∀ m, nom = some m → t.nominal = m) ∧ (nom = none → t.nominal = (lower + upper) / 2) := by
  cases nom with
  | none => cases h; exact ⟨by simp, fun _ => by dsimp only; ring⟩
  | some m =>
    simp only [TolNum.new] at h
    by_cases hc : m < lower ∨ m > upper
    · rw [if_pos hc] at h; cases h
    · rw [if_neg hc] at h; cases h; simp

/-- The hypothesis `lower ≤ upper` of `C45_within` is not checked by the code: without a nominal
value an inverted range is accepted. -/
theorem C45_inverted_accepted : ∃ t, TolNum.new 1 0 none 10 = .ok t ∧ t.upper < t.lower :=
  ⟨_, rfl, by norm_num⟩

example : ∃ t, TolNum.new (-1) 1 (some (1 / 2)) 3 = .ok t ∧ t.nominal = 1 / 2 :=
  ⟨⟨-1, 1, 1 / 2, 3⟩, by simp only [TolNum.new]; rw [if_neg (by norm_num)], rfl⟩

/-! ## C46: discretise -/

theorem discretise_ok {t : TolNum} (h : 0 ≤ t.numSamples) :
    t.discretise = .ok ((List.range t.numSamples.toNat).map fun (i : Nat) =>
      t.lower + i * ((t.upper - t.lower) / ((t.numSamples : ℝ) - 1))) := by
  simp only [TolNum.discretise, linspace, if_neg (not_lt.2 h)]

/-- **C46**: `num_samples` values, starting at `lower`, with equal gaps
`(upper - lower)/(num_samples - 1)`, ending at `upper`; all in the range and non-decreasing. -/
theorem C46 {t : TolNum} {n : Nat} (hn : t.numSamples = n) (hlu : t.lower ≤ t.upper) :
    ∃ xs, t.discretise = .ok xs ∧ xs.length = n ∧
      (1 ≤ n → xs.head? = some t.lower) ∧
      (2 ≤ n → xs.getLast? = some t.upper) ∧
      (∀ (i : Nat) (x y : ℝ), xs[i]? = some x → xs[i + 1]? = some y →
        y - x = (t.upper - t.lower) / ((n : ℝ) - 1)) ∧
      (∀ x ∈ xs, t.lower ≤ x ∧ x ≤ t.upper) ∧ xs.Pairwise (· ≤ ·) := by
  refine ⟨_, discretise_ok (by omega), ?_, ?_, ?_, ?_, ?_, ?_⟩
  · simp [hn]
  · intro h1
    obtain ⟨m, rfl⟩ : ∃ m, n = m + 1 := ⟨n - 1, by omega⟩
    simp [hn, List.range_succ_eq_map]
  · intro h2
    obtain ⟨m, rfl⟩ : ∃ m, n = m + 1 := ⟨n - 1, by omega⟩
    have hm : (m : ℝ) ≠ 0 := by
      have : m ≠ 0 := by omega
      exact_mod_cast this
    have e1 : t.numSamples.toNat = m + 1 := by omega
    have e2 : (t.numSamples : ℝ) - 1 = m := by rw [hn]; push_cast; ring
    rw [e1, e2, List.range_succ, List.map_append, List.map_cons, List.map_nil,
      List.getLast?_concat, mul_div_cancel₀ _ hm]
    congr 1
    ring
  · intro i x y hx hy
    simp only [hn, Int.toNat_natCast, List.getElem?_map, Option.map_eq_some_iff] at hx hy
    obtain ⟨a, ha, rfl⟩ := hx
    obtain ⟨b, hb, rfl⟩ := hy
    obtain ⟨_, rfl⟩ := List.getElem?_eq_some_iff.1 ha
    obtain ⟨_, rfl⟩ := List.getElem?_eq_some_iff.1 hb
    simp only [List.getElem_range, Nat.cast_add, Nat.cast_one, Int.cast_natCast]
    ring
  · intro x hx
    simp only [hn, Int.toNat_natCast, List.mem_map, List.mem_range, Int.cast_natCast] at hx
    obtain ⟨i, hi, rfl⟩ := hx
    rcases Nat.lt_or_ge n 2 with h2 | h2
    · obtain rfl : i = 0 := by omega
      simp [hlu]
    · have hd : (0 : ℝ) < n - 1 := by
        have : (2 : ℝ) ≤ n := by exact_mod_cast h2
        linarith
      have hin : (i : ℝ) ≤ n - 1 := by
        have : (i : ℝ) + 1 ≤ n := by exact_mod_cast hi
        linarith
      have hg : 0 ≤ t.upper - t.lower := by linarith
      have h0 : 0 ≤ (i : ℝ) * ((t.upper - t.lower) / (n - 1)) := by positivity
      have h1 : (i : ℝ) * ((t.upper - t.lower) / (n - 1)) ≤ t.upper - t.lower := by
        rw [← mul_div_assoc, div_le_iff₀ hd]
        nlinarith
      constructor <;> linarith
  · rw [List.pairwise_map]
    refine (List.pairwise_lt_range).imp_of_mem fun {a b} ha hb hab => ?_
    simp only [hn, Int.toNat_natCast, List.mem_range, Int.cast_natCast] at ha hb ⊢
    have hd : (0 : ℝ) ≤ n - 1 := by
      have : (1 : ℝ) ≤ n := by exact_mod_cast (by omega : 1 ≤ n)
      linarith
    have hg : 0 ≤ t.upper - t.lower := by linarith
    have hab' : (a : ℝ) ≤ b := by exact_mod_cast hab.le
    have := mul_le_mul_of_nonneg_right hab' (div_nonneg hg hd)
    linarith

/-- **C46**, a negative number of samples raises ValueError. -/
theorem C46_negative {t : TolNum} (h : t.numSamples < 0) :
    t.discretise = .error .valueError := by
  simp only [TolNum.discretise, linspace, if_pos h]

/-- The range -1…1 with three samples meets the hypotheses. -/
example : ∃ t, TolNum.new (-1) 1 none 3 = .ok t ∧ t.numSamples = (3 : Nat) ∧ t.lower ≤ t.upper :=
  ⟨_, rfl, rfl, by norm_num⟩

/-! ## C47: TolEulerPt -/

/-- `x` is one of the grid values of the entry: the number itself, or
`lower + i/(n-1) (upper - lower)` for some `i < n`. -/
def GridValue (x : ℝ) : Entry → Prop
  | .num y => x = y
  | .tol t => ∃ i : Nat, (i : Int) < t.numSamples ∧
      x = t.lower + i / ((t.numSamples : ℝ) - 1) * (t.upper - t.lower)

/-- `x` is allowed by the entry: equal to the number, or between the bounds. -/
def Allowed (x : ℝ) : Entry → Prop
  | .num y => x = y
  | .tol t => t.lower ≤ x ∧ x ≤ t.upper

/-- The number of grid values of an entry. -/
def gridCount : Entry → Nat
  | .num _ => 1
  | .tol t => t.numSamples.toNat

/-- A well-formed entry: bounds in order, a non-negative number of samples. -/
def Sound : Entry → Prop
  | .num _ => True
  | .tol t => t.lower ≤ t.upper ∧ 0 ≤ t.numSamples

/-- An entry whose grid values differ from each other: a number, or a range of positive length, or
one with at most one sample. -/
def Spread : Entry → Prop
  | .num _ => True
  | .tol t => t.lower < t.upper ∨ t.numSamples ≤ 1

theorem Sound.ok {e : Entry} (h : Sound e) : Ok e := by
  cases e with
  | num _ => trivial
  | tol t => exact h.2

theorem length_values (e : Entry) : (values e).length = gridCount e := by
  cases e <;> simp [values, gridCount]

theorem mem_values {e : Entry} {x : ℝ} : x ∈ values e ↔ GridValue x e := by
  cases e with
  | num y => simp [values, GridValue]
  | tol t =>
    simp only [values, GridValue, List.mem_map, List.mem_range]
    constructor
    · rintro ⟨i, hi, rfl⟩
      exact ⟨i, by omega, by ring⟩
    · rintro ⟨i, hi, rfl⟩
      exact ⟨i, by omega, by ring⟩

theorem GridValue.allowed {e : Entry} {x : ℝ} (hs : Sound e) (h : GridValue x e) : Allowed x e := by
  cases e with
  | num y => exact h
  | tol t =>
    have hn : t.numSamples = (t.numSamples.toNat : Nat) := (Int.toNat_of_nonneg hs.2).symm
    obtain ⟨xs, hx, _, _, _, _, hr, _⟩ := C46 hn hs.1
    rw [discretise_ok hs.2] at hx
    cases hx
    exact hr x (mem_values (e := .tol t).2 h)

theorem values_nodup {e : Entry} (h : Spread e) : (values e).Nodup := by
  cases e with
  | num y => simp [values]
  | tol t =>
    simp only [values]
    rcases le_or_gt t.numSamples 1 with h1 | h1
    · have h2 : t.numSamples.toNat ≤ 1 := by omega
      have h3 : t.numSamples.toNat = 0 ∨ t.numSamples.toNat = 1 := by omega
      rcases h3 with h3 | h3 <;> simp [h3]
    · have hlt : t.lower < t.upper := by
        rcases h with h | h
        · exact h
        · omega
      refine List.Nodup.map_on (fun i _ j _ hij => ?_) List.nodup_range
      have hd : (0 : ℝ) < (t.numSamples : ℝ) - 1 := by
        have : (1 : ℝ) < t.numSamples := by exact_mod_cast h1
        linarith
      have hg : (t.upper - t.lower) / ((t.numSamples : ℝ) - 1) ≠ 0 :=
        (div_pos (by linarith) hd).ne'
      have := mul_right_cancel₀ hg (add_left_cancel hij)
      exact_mod_cast this

/-- `Rx Ry Rz` of three angles. -/
noncomputable def Rxyz (a : V3) : M3 := rotX (a 0) * rotY (a 1) * rotZ (a 2)

theorem Rxyz_isRot (a : V3) : IsRot (Rxyz a) :=
  ((rotX_isRot _).mul (rotY_isRot _)).mul (rotZ_isRot _)

theorem frame_eq (x a : V3) : frame x a = mkTf (Rxyz a) x := by
  rw [frame, Rxyz, Matrix.mul_assoc]

/-- **C47**: for all position and angle entries (plain or toleranced) the constructor and
`get_samples` succeed, and the samples are in one-to-one correspondence with the combinations of
the grid values: `combos` lists every combination (each once if the ranges are not degenerate), its
length is the product of the axis counts, and sample `k` is `Rx Ry Rz` of the angles at the
position of combination `k`. -/
theorem C47_samples {pos rpy : Fin 3 → Entry} (hp : ∀ i, Sound (pos i)) (hr : ∀ i, Sound (rpy i)) :
    ∃ (pt : TolEulerPt) (combos : List (V3 × V3)),
      TolEulerPt.new [pos 0, pos 1, pos 2] [rpy 0, rpy 1, rpy 2] = .ok pt ∧
      pt.getSamples = .ok (combos.map fun c => mkTf (Rxyz c.2) c.1) ∧
      combos.length = (∏ i, gridCount (pos i)) * ∏ i, gridCount (rpy i) ∧
      (∀ x a, (x, a) ∈ combos ↔
        (∀ i, GridValue (x i) (pos i)) ∧ ∀ i, GridValue (a i) (rpy i)) ∧
      ((∀ i, Spread (pos i)) → (∀ i, Spread (rpy i)) → combos.Nodup) := by
  obtain ⟨cs, h1, h2, h3, h4⟩ := grid6 (values (pos 0)) (values (pos 1)) (values (pos 2))
    (values (rpy 0)) (values (rpy 1)) (values (rpy 2))
  refine ⟨eulerPt pos rpy, cs, eulerPt_new pos rpy, ?_, ?_, ?_, ?_⟩
  · simp only [TolEulerPt.getSamples, eulerPt, axes_ok (hp 0).ok (hp 1).ok (hp 2).ok,
      axes_ok (hr 0).ok (hr 1).ok (hr 2).ok, bind, Except.bind, List.cons_append, List.nil_append,
      h1, List.mapM_map]
    exact mapM_ok fun c _ => by rw [Function.comp, eulerSample_ok, frame_eq]
  · simp only [h2, length_values, Fin.prod_univ_three]
  · intro x a
    simp only [h3, mem_values, Fin.forall_fin_succ, Fin.isValue, IsEmpty.forall_iff, and_true]
    rfl
  · intro hp' hr'
    exact h4 (values_nodup (hp' 0)) (values_nodup (hp' 1)) (values_nodup (hp' 2))
      (values_nodup (hr' 0)) (values_nodup (hr' 1)) (values_nodup (hr' 2))

/-- **C47**, every sample is a rigid transform whose position is allowed by the position entries
and whose rotation is `Rx Ry Rz` of angles allowed by the angle entries. -/
theorem C47_within {pos rpy : Fin 3 → Entry} (hp : ∀ i, Sound (pos i)) (hr : ∀ i, Sound (rpy i))
    {pt : TolEulerPt} (hpt : TolEulerPt.new [pos 0, pos 1, pos 2] [rpy 0, rpy 1, rpy 2] = .ok pt)
    {Ts : List M4} (hTs : pt.getSamples = .ok Ts) {T : M4} (hT : T ∈ Ts) :
    IsRigid T ∧ (∀ i, Allowed (posPart T i) (pos i)) ∧
      ∃ a : V3, (∀ i, Allowed (a i) (rpy i)) ∧
        rotPart T = rotX (a 0) * rotY (a 1) * rotZ (a 2) := by
  obtain ⟨pt', cs, h1, h2, _, h4, _⟩ := C47_samples hp hr
  rw [hpt] at h1
  cases h1
  rw [h2] at hTs
  cases hTs
  obtain ⟨⟨x, a⟩, hc, rfl⟩ := List.mem_map.1 hT
  obtain ⟨hx, ha⟩ := (h4 x a).1 hc
  refine ⟨isRigid_mkTf.2 (Rxyz_isRot a), fun i => ?_, a, fun i => (ha i).allowed (hr i), ?_⟩
  · rw [posPart_mkTf]; exact (hx i).allowed (hp i)
  · rw [rotPart_mkTf]; rfl

/-- **C47**, the nominal transform: `Rx Ry Rz` of the nominal angles at the nominal position, for
all entries. -/
theorem C47_nominal (pos rpy : Fin 3 → Entry) :
    ∃ pt, TolEulerPt.new [pos 0, pos 1, pos 2] [rpy 0, rpy 1, rpy 2] = .ok pt ∧
      ∀ x a : V3, (∀ i, pos i = .num (x i) ∨ ∃ t, pos i = .tol t ∧ x i = t.nominal) →
        (∀ i, rpy i = .num (a i) ∨ ∃ t, rpy i = .tol t ∧ a i = t.nominal) →
        pt.nominalTransform = .ok (mkTf (Rxyz a) x) := by
  refine ⟨_, eulerPt_new pos rpy, ?_⟩
  · intro x a hx ha
    have ex : ∀ i, nominal (pos i) = x i := by
      intro i
      rcases hx i with h | ⟨t, h, h'⟩
      · rw [h]; rfl
      · rw [h, h']; rfl
    have ea : ∀ i, nominal (rpy i) = a i := by
      intro i
      rcases ha i with h | ⟨t, h, h'⟩
      · rw [h]; rfl
      · rw [h, h']; rfl
    have := pointToFrame_ok x a
    rw [frame_eq] at this
    rw [← this]
    simp only [TolEulerPt.nominalTransform, eulerPt, ex, ea]
    rfl

/-- **C47**, without tolerances the only sample is the nominal transform. -/
theorem C47_no_tolerance (x a : V3) :
    ∃ pt T, TolEulerPt.new [.num (x 0), .num (x 1), .num (x 2)] [.num (a 0), .num (a 1), .num (a 2)]
        = .ok pt ∧ pt.nominalTransform = .ok T ∧ pt.getSamples = .ok [T] ∧
      T = mkTf (rotX (a 0) * rotY (a 1) * rotZ (a 2)) x := by
  obtain ⟨pt, cs, h1, h2, h3, h4, _⟩ := C47_samples (pos := fun i => .num (x i))
    (rpy := fun i => .num (a i)) (fun _ => trivial) (fun _ => trivial)
  obtain ⟨pt', h1', h5⟩ := C47_nominal (fun i => .num (x i)) (fun i => .num (a i))
  rw [h1] at h1'
  cases h1'
  refine ⟨pt, _, h1, h5 x a (fun _ => .inl rfl) (fun _ => .inl rfl), ?_, rfl⟩
  simp only [gridCount, Finset.prod_const_one, mul_one] at h3
  obtain ⟨⟨x', a'⟩, rfl⟩ := List.length_eq_one_iff.1 h3
  obtain ⟨hx, ha⟩ := (h4 x' a').1 (by simp)
  have e1 : x' = x := funext hx
  have e2 : a' = a := funext ha
  rw [h2, e1, e2]
  rfl

/-- **C47**, lists with fewer than three entries are refused with IndexError. -/
theorem C47_short {pos rpy : List Entry} (h : pos.length < 3 ∨ rpy.length < 3) :
    TolEulerPt.new pos rpy = .error .indexError := by
  have key : ∀ l : List Entry, l.length < 3 → checkForTolerance l = .error .indexError := by
    intro l hl
    match l with
    | [] => rfl
    | [a] => cases a <;> rfl
    | [a, b] => cases a <;> cases b <;> rfl
    | a :: b :: c :: _ => simp at hl; omega
  have key2 : ∀ l : List Entry, 3 ≤ l.length → ∃ r, checkForTolerance l = .ok r := by
    intro l hl
    match l with
    | a :: b :: c :: l => cases a <;> cases b <;> cases c <;> exact ⟨_, rfl⟩
    | [] | [_] | [_, _] => simp at hl
  rcases Nat.lt_or_ge pos.length 3 with hp | hp
  · simp [TolEulerPt.new, key pos hp, bind, Except.bind]
  · obtain ⟨r, hr⟩ := key2 pos hp
    simp [TolEulerPt.new, hr, key rpy (by omega), bind, Except.bind]

/-- A point with a toleranced x position and a toleranced yaw meets the hypotheses. -/
example : (∀ i, Sound ((![.tol ⟨-1, 1, 0, 5⟩, .num 2, .num 3] : Fin 3 → Entry) i)) ∧
    ∀ i, Spread ((![.tol ⟨-1, 1, 0, 5⟩, .num 2, .num 3] : Fin 3 → Entry) i) := by
  constructor <;> intro i <;> fin_cases i <;> simp [Sound, Spread]

/-! ## C48: TolPositionPt -/

/-- **C48**: for a unit quaternion the samples are rigid transforms, all with the orientation of
the quaternion, one per combination of grid values, each at an allowed position. -/
theorem C48 {pos : Fin 3 → Entry} (hp : ∀ i, Sound (pos i)) {q : Quat} (hq : q.norm2 = 1) :
    ∃ (pt : TolPositionPt) (combos : List V3),
      TolPositionPt.new [pos 0, pos 1, pos 2] q = .ok pt ∧
      pt.getSamples = .ok (combos.map fun x => mkTf q.rotationMatrix x) ∧
      combos.length = ∏ i, gridCount (pos i) ∧
      (∀ x, x ∈ combos ↔ ∀ i, GridValue (x i) (pos i)) ∧
      ((∀ i, Spread (pos i)) → combos.Nodup) ∧
      ∀ x ∈ combos, IsRigid (mkTf q.rotationMatrix x) ∧ ∀ i, Allowed (x i) (pos i) := by
  obtain ⟨cs, h1, h2, h3, h4⟩ := grid3 (values (pos 0)) (values (pos 1)) (values (pos 2))
  have hmem : ∀ x, x ∈ cs ↔ ∀ i, GridValue (x i) (pos i) := by
    intro x
    simp only [h3, mem_values, Fin.forall_fin_succ, Fin.isValue, IsEmpty.forall_iff, and_true]
    rfl
  refine ⟨positionPt pos q, cs, positionPt_new pos q, ?_, ?_, hmem, ?_, ?_⟩
  · simp only [TolPositionPt.getSamples, positionPt, axes_ok (hp 0).ok (hp 1).ok (hp 2).ok,
      bind, Except.bind, h1, List.mapM_map]
    exact mapM_ok fun c _ => by rw [Function.comp, positionSample_ok]
  · simp only [h2, length_values, Fin.prod_univ_three]
  · intro hp'
    exact h4 (values_nodup (hp' 0)) (values_nodup (hp' 1)) (values_nodup (hp' 2))
  · intro x hx
    exact ⟨isRigid_mkTf.2 (Quat.rotationMatrix_isRot hq),
      fun i => ((hmem x).1 hx i).allowed (hp i)⟩

/-! ## C49: AxisAnglePt -/

/-- The rotation with angle `θ` about the unit vector `u`, applied to `v` (Rodrigues). -/
noncomputable def rotateAbout (u : V3) (θ : ℝ) (v : V3) : V3 :=
  Real.cos θ • v + Real.sin θ • (u ⨯₃ v) + ((1 - Real.cos θ) * (u ⬝ᵥ v)) • u

theorem rotateAbout_apply (u : V3) (θ : ℝ) (v : V3) :
    rotateAbout u θ v 0 = Real.cos θ * v 0 + Real.sin θ * (u 1 * v 2 - u 2 * v 1) +
      (1 - Real.cos θ) * (u 0 * v 0 + u 1 * v 1 + u 2 * v 2) * u 0 ∧
    rotateAbout u θ v 1 = Real.cos θ * v 1 + Real.sin θ * (u 2 * v 0 - u 0 * v 2) +
      (1 - Real.cos θ) * (u 0 * v 0 + u 1 * v 1 + u 2 * v 2) * u 1 ∧
    rotateAbout u θ v 2 = Real.cos θ * v 2 + Real.sin θ * (u 0 * v 1 - u 1 * v 0) +
      (1 - Real.cos θ) * (u 0 * v 0 + u 1 * v 1 + u 2 * v 2) * u 2 := by
  simp only [rotateAbout, cross_apply, Pi.add_apply, Pi.smul_apply, smul_eq_mul, dotProduct,
    Fin.sum_univ_three]
  exact ⟨rfl, rfl, rfl⟩

theorem axisAngle_rot {u : V3} (hu : u ⬝ᵥ u = 1) (θ : ℝ) (v : V3) :
    (⟨Real.cos (θ / 2), u 0 * Real.sin (θ / 2), u 1 * Real.sin (θ / 2), u 2 * Real.sin (θ / 2)⟩ :
      Quat).norm2 = 1 ∧
    (⟨Real.cos (θ / 2), u 0 * Real.sin (θ / 2), u 1 * Real.sin (θ / 2), u 2 * Real.sin (θ / 2)⟩ :
      Quat).rotationMatrix *ᵥ v = rotateAbout u θ v := by
  have hu' : u 0 ^ 2 + u 1 ^ 2 + u 2 ^ 2 = 1 := by
    rw [← hu]; simp [dotProduct, Fin.sum_univ_three]; ring
  have hs := Real.sin_sq_add_cos_sq (θ / 2)
  have hn : (⟨Real.cos (θ / 2), u 0 * Real.sin (θ / 2), u 1 * Real.sin (θ / 2),
      u 2 * Real.sin (θ / 2)⟩ : Quat).norm2 = 1 := by
    simp only [Quat.norm2]
    linear_combination (Real.sin (θ / 2)) ^ 2 * hu' + hs
  refine ⟨hn, ?_⟩
  have hc2 : Real.cos θ = 2 * Real.cos (θ / 2) ^ 2 - 1 := by
    rw [← Real.cos_two_mul]; ring_nf
  have hs2 : Real.sin θ = 2 * Real.sin (θ / 2) * Real.cos (θ / 2) := by
    rw [← Real.sin_two_mul]; ring_nf
  obtain ⟨r0, r1, r2⟩ := rotateAbout_apply u θ v
  rw [hc2, hs2] at r0 r1 r2
  simp only [Quat.rotationMatrix, Quat.normalise_of_unit hn]
  generalize Real.cos (θ / 2) = c at *
  generalize Real.sin (θ / 2) = s at *
  ext i
  fin_cases i
  · refine Eq.trans ?_ r0.symm
    simp [Matrix.mulVec, dotProduct, Fin.sum_univ_three]
    linear_combination (-(s ^ 2) * v 0) * hu' +
      (2 * u 0 * (u 0 * v 0 + u 1 * v 1 + u 2 * v 2) - v 0) * hs
  · refine Eq.trans ?_ r1.symm
    simp [Matrix.mulVec, dotProduct, Fin.sum_univ_three]
    linear_combination (-(s ^ 2) * v 1) * hu' +
      (2 * u 1 * (u 0 * v 0 + u 1 * v 1 + u 2 * v 2) - v 1) * hs
  · refine Eq.trans ?_ r2.symm
    simp [Matrix.mulVec, dotProduct, Fin.sum_univ_three]
    linear_combination (-(s ^ 2) * v 2) * hu' +
      (2 * u 2 * (u 0 * v 0 + u 1 * v 1 + u 2 * v 2) - v 2) * hs

/-- The vector `a` scaled to length one. -/
noncomputable def unitOf (a : V3) : V3 := (1 / Real.sqrt (a ⬝ᵥ a)) • a

theorem unitOf_unit {a : V3} (h : a ≠ 0) : unitOf a ⬝ᵥ unitOf a = 1 := by
  have hp : 0 < a ⬝ᵥ a := by
    have h0 : a ⬝ᵥ a ≠ 0 := fun h' => h (dotProduct_self_eq_zero.1 h')
    have : 0 ≤ a ⬝ᵥ a := by
      simp only [dotProduct]
      exact Finset.sum_nonneg fun i _ => mul_self_nonneg _
    exact lt_of_le_of_ne this h0.symm
  have hs := Real.mul_self_sqrt hp.le
  have hs0 : Real.sqrt (a ⬝ᵥ a) ≠ 0 := (Real.sqrt_pos.2 hp).ne'
  rw [unitOf, smul_dotProduct, dotProduct_smul, smul_eq_mul, smul_eq_mul]
  field_simp
  nlinarith [hs]

theorem unitOf_of_unit {a : V3} (h : a ⬝ᵥ a = 1) : unitOf a = a := by
  simp [unitOf, h]

/-- The axes for which pyquaternion uses exactly the unit vector: length one, or outside the band
in which it does not bother to scale. -/
def GoodAxis (a : V3) : Prop := a ⬝ᵥ a = 1 ∨ (a ≠ 0 ∧ 1 / 10 ^ 12 < |1 - a ⬝ᵥ a|)

theorem GoodAxis.ne {a : V3} (h : GoodAxis a) : a ≠ 0 := by
  rcases h with h | h
  · rintro rfl; simp at h
  · exact h.1

theorem ofAxisAngle_ok {a : V3} (h : GoodAxis a) (θ : ℝ) :
    Quat.ofAxisAngle a θ = .ok ⟨Real.cos (θ / 2), unitOf a 0 * Real.sin (θ / 2),
      unitOf a 1 * Real.sin (θ / 2), unitOf a 2 * Real.sin (θ / 2)⟩ := by
  have h0 : a ⬝ᵥ a ≠ 0 := fun h' => h.ne (dotProduct_self_eq_zero.1 h')
  have e : (if 1 / 10 ^ 12 < |1 - a ⬝ᵥ a| then (1 / Real.sqrt (a ⬝ᵥ a)) • a else a) = unitOf a := by
    rcases h with h | h
    · rw [if_neg (by rw [h]; norm_num), unitOf_of_unit h]
    · rw [if_pos h.2]; rfl
  simp only [Quat.ofAxisAngle]
  rw [if_neg h0, e]

/-- **C49**: for every axis (see `GoodAxis`), unit quaternion and range there is one sample per
angle `lower + k/(n-1) (upper - lower)`.  It is a rigid transform at the fixed position whose
rotation is the nominal one followed by the rotation with that angle about the axis. -/
theorem C49 {pt : AxisAnglePt} {n : Nat} (hn : pt.angle.numSamples = n) (ha : GoodAxis pt.axis)
    (hq : pt.quat.norm2 = 1) :
    ∃ Ts, pt.getSamples = .ok Ts ∧ Ts.length = n ∧
      ∀ (k : Nat) (T : M4), Ts[k]? = some T →
        IsRigid T ∧ posPart T = pt.pos ∧
        ∀ v, rotPart T *ᵥ v = rotateAbout (unitOf pt.axis)
          (pt.angle.lower + k / ((n : ℝ) - 1) * (pt.angle.upper - pt.angle.lower))
          (pt.quat.rotationMatrix *ᵥ v) := by
  have hs : ∀ θ, pt.sample θ = .ok (mkTf
      ((⟨Real.cos (θ / 2), unitOf pt.axis 0 * Real.sin (θ / 2),
        unitOf pt.axis 1 * Real.sin (θ / 2), unitOf pt.axis 2 * Real.sin (θ / 2)⟩ : Quat).mul
          pt.quat).rotationMatrix pt.pos) := by
    intro θ
    simp only [AxisAnglePt.sample, ofAxisAngle_ok ha, bind, Except.bind,
      Quat.transformationMatrix, Kin.setPos_mkTf]
  have hu := unitOf_unit ha.ne
  have hg : pt.getSamples = ((List.range pt.angle.numSamples.toNat).map fun (i : Nat) =>
      pt.angle.lower + i * ((pt.angle.upper - pt.angle.lower) /
        ((pt.angle.numSamples : ℝ) - 1))).mapM pt.sample := by
    simp only [AxisAnglePt.getSamples, discretise_ok (t := pt.angle) (by omega), bind, Except.bind]
  refine ⟨_, hg.trans (mapM_ok fun θ _ => hs θ), ?_, ?_⟩
  · simp [hn]
  · intro k T hT
    simp only [List.map_map, List.getElem?_map, Option.map_eq_some_iff, hn, Int.toNat_natCast] at hT
    obtain ⟨k', hk', rfl⟩ := hT
    obtain ⟨_, rfl⟩ := List.getElem?_eq_some_iff.1 hk'
    simp only [List.getElem_range, Function.comp, Int.cast_natCast]
    have hθ : pt.angle.lower + (k : ℝ) * ((pt.angle.upper - pt.angle.lower) / ((n : ℝ) - 1)) =
        pt.angle.lower + k / ((n : ℝ) - 1) * (pt.angle.upper - pt.angle.lower) := by ring
    rw [hθ]
    obtain ⟨hn1, _⟩ := axisAngle_rot hu
      (pt.angle.lower + k / ((n : ℝ) - 1) * (pt.angle.upper - pt.angle.lower)) 0
    refine ⟨isRigid_mkTf.2 (Quat.rotationMatrix_isRot (by rw [Quat.norm2_mul, hn1, hq, one_mul])),
      posPart_mkTf _ _, fun v => ?_⟩
    rw [rotPart_mkTf, Quat.rotationMatrix_mul hn1 hq, ← Matrix.mulVec_mulVec, (axisAngle_rot hu _ _).2]

/-- **C49**, the rotation with angle zero leaves the nominal orientation alone. -/
theorem C49_zero (u v : V3) : rotateAbout u 0 v = v := by simp [rotateAbout]

/-- The specification of the rotation about an axis is what it should be: it fixes the axis, is
linear, keeps inner products, and composing two of them adds the angles. -/
theorem rotateAbout_spec {u : V3} (hu : u ⬝ᵥ u = 1) :
    (∀ θ, rotateAbout u θ u = u) ∧
    (∀ θ v w, rotateAbout u θ v ⬝ᵥ rotateAbout u θ w = v ⬝ᵥ w) ∧
    (∀ θ φ v, rotateAbout u θ (rotateAbout u φ v) = rotateAbout u (θ + φ) v) := by
  have hu' : u 0 ^ 2 + u 1 ^ 2 + u 2 ^ 2 = 1 := by
    rw [← hu]; simp [dotProduct, Fin.sum_univ_three]; ring
  refine ⟨fun θ => ?_, fun θ v w => ?_, fun θ φ v => ?_⟩
  · simp only [rotateAbout, cross_self, hu, smul_zero, add_zero, mul_one, ← add_smul]
    rw [add_sub_cancel, one_smul]
  · rw [← (axisAngle_rot hu θ v).2, ← (axisAngle_rot hu θ w).2]
    exact (Quat.rotationMatrix_isRot (axisAngle_rot hu θ v).1).dot v w
  · obtain ⟨r0, r1, r2⟩ := rotateAbout_apply u φ v
    obtain ⟨s0, s1, s2⟩ := rotateAbout_apply u θ (rotateAbout u φ v)
    obtain ⟨t0, t1, t2⟩ := rotateAbout_apply u (θ + φ) v
    rw [r0, r1, r2] at s0 s1 s2
    rw [Real.cos_add, Real.sin_add] at t0 t1 t2
    ext i
    fin_cases i
    · refine s0.trans (Eq.trans ?_ t0.symm)
      linear_combination (-(Real.sin θ * Real.sin φ) * v 0 + (1 - Real.cos θ) * (1 - Real.cos φ) *
        (u 0 * v 0 + u 1 * v 1 + u 2 * v 2) * u 0) * hu'
    · refine s1.trans (Eq.trans ?_ t1.symm)
      linear_combination (-(Real.sin θ * Real.sin φ) * v 1 + (1 - Real.cos θ) * (1 - Real.cos φ) *
        (u 0 * v 0 + u 1 * v 1 + u 2 * v 2) * u 1) * hu'
    · refine s2.trans (Eq.trans ?_ t2.symm)
      linear_combination (-(Real.sin θ * Real.sin φ) * v 2 + (1 - Real.cos θ) * (1 - Real.cos φ) *
        (u 0 * v 0 + u 1 * v 1 + u 2 * v 2) * u 2) * hu'

/-- **C49**, an axis of length zero raises ZeroDivisionError as soon as there is a sample. -/
theorem C49_zero_axis {pt : AxisAnglePt} (ha : pt.axis = 0) (hn : 0 < pt.angle.numSamples) :
    pt.getSamples = .error .zeroDivisionError := by
  simp only [AxisAnglePt.getSamples, discretise_ok hn.le, bind, Except.bind]
  refine mapM_error (a := pt.angle.lower) ?_ ?_
  · obtain ⟨m, hm⟩ : ∃ m, pt.angle.numSamples.toNat = m + 1 :=
      ⟨pt.angle.numSamples.toNat - 1, by omega⟩
    rw [hm, List.range_succ_eq_map]
    simp
  · intro θ _
    simp [AxisAnglePt.sample, Quat.ofAxisAngle, ha, bind, Except.bind]

/-- The vertical axis and the axis (1,1,1) meet the hypothesis. -/
example : GoodAxis ![0, 0, 1] ∧ GoodAxis ![1, 1, 1] := by
  constructor
  · left; simp [dotProduct, Fin.sum_univ_three]
  · right
    refine ⟨fun h => by simpa using congrFun h 0, ?_⟩
    have e : (![1, 1, 1] : V3) ⬝ᵥ ![1, 1, 1] = 3 := by
      simp [dotProduct, Fin.sum_univ_three]; norm_num
    rw [e]; norm_num

/-! ## C50: FreeOrientationPt and TolOrientationPt -/

/-- What is asked of a list of transforms: `n` rigid motions located at `p`. -/
def LocatedAt (p : V3) (n : Nat) (Ts : List M4) : Prop :=
  Ts.length = n ∧ ∀ T ∈ Ts, IsRigid T ∧ posPart T = p

theorem located_of_good {n : Nat} {o : Out} (h : GoodSamples n .transform o) (p : V3) :
    ∃ Ts, movedTransforms p o = .ok (.transforms Ts) ∧ LocatedAt p n Ts := by
  cases o with
  | quats l => exact absurd h.1 (by decide)
  | rpys l => exact absurd h.1 (by decide)
  | none => exact absurd (show Rep.transform = .other from h) (by decide)
  | transforms l =>
    obtain ⟨_, hl, hT⟩ := h
    refine ⟨_, rfl, by simp [hl], ?_⟩
    intro T hT'
    obtain ⟨S, hS, rfl⟩ := List.mem_map.1 hT'
    obtain ⟨R, q, hR, rfl⟩ := (hT S hS).1.exists_mk
    rw [Kin.setPos_mkTf]
    exact ⟨isRigid_mkTf.2 hR, posPart_mkTf _ _⟩

/-- **C50**, random sampling (the default): for all draws in `[0,1]`, all positions and counts,
`rep="transform"` gives `n` rigid transforms at the path point. -/
theorem C50_random (root : Nat → Nat) (fuel : Nat) {rnd : Nat → ℝ × ℝ × ℝ}
    (hr : ∀ i, InUnit (rnd i)) (p : V3) (n : Nat) {m : Option Method}
    (hm : m = none ∨ m = some .random) :
    ∃ Ts, (FreeOrientationPt.new p).getSamples root fuel rnd n (some .transform) m
        = .ok (.transforms Ts) ∧ LocatedAt p n Ts := by
  obtain ⟨o, ho, hg⟩ := C26_random root fuel rnd hr n .transform
  have e : m.getD .random = .random := by rcases hm with rfl | rfl <;> rfl
  obtain ⟨Ts, h1, h2⟩ := located_of_good hg p
  refine ⟨Ts, ?_, h2⟩
  simp only [FreeOrientationPt.getSamples, FreeOrientationPt.new, Option.getD_some, e, ho, bind,
    Except.bind, h1]

/-- **C50**, Halton sampling. -/
theorem C50_halton {root : Nat → Nat}
    (hroot : ∀ n, 3 ≤ n → n < (root n + 1) ^ 2 ∧ root n < n) (rnd : Nat → ℝ × ℝ × ℝ) (p : V3)
    (n : Nat) :
    ∃ fuel₀, ∀ fuel ≥ fuel₀,
      ∃ Ts, (FreeOrientationPt.new p).getSamples root fuel rnd n (some .transform) (some .halton)
        = .ok (.transforms Ts) ∧ LocatedAt p n Ts := by
  obtain ⟨f, hf⟩ := C26_halton hroot rnd n .transform
  refine ⟨f, fun fuel hfuel => ?_⟩
  obtain ⟨o, ho, hg⟩ := hf fuel hfuel
  obtain ⟨Ts, h1, h2⟩ := located_of_good hg p
  refine ⟨Ts, ?_, h2⟩
  simp only [FreeOrientationPt.getSamples, FreeOrientationPt.new, Option.getD_some, ho, bind,
    Except.bind, h1]

/-- **C50**, the rotations are the sampled ones: sample `i` is the rotation of the `i`-th random
quaternion, moved to the path point. -/
theorem C50_rotation (root : Nat → Nat) (fuel : Nat) (rnd : Nat → ℝ × ℝ × ℝ) (p : V3) (n : Nat) :
    (FreeOrientationPt.new p).getSamples root fuel rnd n (some .transform) none =
      .ok (.transforms ((List.range n).map fun i =>
        mkTf (quatOf (rnd i).1 (rnd i).2.1 (rnd i).2.2).rotationMatrix p)) := by
  simp only [FreeOrientationPt.getSamples, FreeOrientationPt.new, Option.getD_some, Option.getD_none,
    sampleSO3, draws, bind, Except.bind, movedTransforms, List.map_map]
  congr 2
  refine List.map_congr_left fun i _ => ?_
  simp only [Function.comp, Quat.transformationMatrix, Kin.setPos_mkTf]

/-- **C50**, an unknown representation raises ValueError, whatever else is given. -/
theorem C50_unknown_rep (root : Nat → Nat) (fuel : Nat) (rnd : Nat → ℝ × ℝ × ℝ)
    (pt : FreeOrientationPt) (n : Nat) (m : Option Method) :
    pt.getSamples root fuel rnd n (some .other) m = .error .valueError := rfl

/-- **C50**, the default representation: `n` rows with the position and three angles; with no
sample at all the call raises ValueError. -/
theorem C50_rpy (root : Nat → Nat) (fuel : Nat) (rnd : Nat → ℝ × ℝ × ℝ) (p : V3) (n : Nat) :
    (0 < n → ∃ as : List V3, sampleSO3 root fuel rnd n .rpy .random = .ok (.rpys as) ∧
      as.length = n ∧
      (FreeOrientationPt.new p).getSamples root fuel rnd n =
        .ok (.points (as.map fun a => [p 0, p 1, p 2, a 0, a 1, a 2]))) ∧
    (FreeOrientationPt.new p).getSamples root fuel rnd 0 = .error .valueError := by
  refine ⟨fun hn => ⟨_, rfl, by simp, ?_⟩, rfl⟩
  simp only [FreeOrientationPt.getSamples, FreeOrientationPt.new, Option.getD_none,
    sampleSO3, draws, bind, Except.bind, hstackPoints]
  rw [if_neg (by simp; omega)]

/-- **C50**, TolOrientationPt: if the quaternion library has `random_near` and it yields unit
quaternions, `get_samples` gives `n` rigid transforms at the path point with the drawn rotations. -/
theorem C50_tolOrientation {f : Quat → ℝ → Nat → Quat} {pt : TolOrientationPt} (dist : ℝ)
    (hf : ∀ i, (f pt.o dist i).norm2 = 1) (n : Nat) :
    ∃ Ts, pt.getSamples (some f) n dist = .ok Ts ∧ LocatedAt pt.p n Ts ∧
      ∀ (i : Nat) (T : M4), Ts[i]? = some T → rotPart T = (f pt.o dist i).rotationMatrix := by
  have hg : pt.getSamples (some f) n dist =
      .ok (((List.range n).map fun i => (f pt.o dist i).transformationMatrix).map
        fun Ti => setPos Ti pt.p) := by
    simp only [TolOrientationPt.getSamples]
    rw [mapM_ok (g := fun i => (f pt.o dist i).transformationMatrix) fun x _ => rfl]
    rfl
  refine ⟨_, hg, ⟨by simp, ?_⟩, ?_⟩
  · intro T hT
    simp only [List.map_map, List.mem_map, List.mem_range, Function.comp] at hT
    obtain ⟨i, _, rfl⟩ := hT
    rw [Quat.transformationMatrix, Kin.setPos_mkTf]
    exact ⟨isRigid_mkTf.2 (Quat.rotationMatrix_isRot (hf i)), posPart_mkTf _ _⟩
  · intro i T hT
    simp only [List.map_map, List.getElem?_map, Option.map_eq_some_iff, Function.comp] at hT
    obtain ⟨k, hk, rfl⟩ := hT
    obtain ⟨_, rfl⟩ := List.getElem?_eq_some_iff.1 hk
    rw [Quat.transformationMatrix, Kin.setPos_mkTf, rotPart_mkTf, List.getElem_range]

/-- With the published pyquaternion, which has no `random_near`, TolOrientationPt yields no sample:
AttributeError for every positive count. -/
theorem C50_tolOrientation_stock (pt : TolOrientationPt) {n : Nat} (hn : 0 < n) (dist : ℝ) :
    pt.getSamples none n dist = .error .attributeError := by
  simp only [TolOrientationPt.getSamples]
  rw [mapM_error (a := 0) (e := .attributeError) (List.mem_range.2 hn) fun x _ => rfl]
  rfl

/-! ## C51, first part -/

/-- **C51**, `point_to_frame` and a TolEulerPt without tolerances describe the same rigid
transform (`create_transform` is added in Props/Io). -/
theorem C51_path (x a : V3) :
    ∃ T pt, pointToFrame [x 0, x 1, x 2, a 0, a 1, a 2] = .ok T ∧
      TolEulerPt.new [.num (x 0), .num (x 1), .num (x 2)] [.num (a 0), .num (a 1), .num (a 2)]
        = .ok pt ∧ pt.nominalTransform = .ok T ∧ pt.getSamples = .ok [T] ∧ IsRigid T ∧
      posPart T = x ∧ rotPart T = rotX (a 0) * rotY (a 1) * rotZ (a 2) := by
  obtain ⟨pt, T, h1, h2, h3, rfl⟩ := C47_no_tolerance x a
  refine ⟨_, pt, ?_, h1, h2, h3, isRigid_mkTf.2 (Rxyz_isRot a), posPart_mkTf _ _, rotPart_mkTf _ _⟩
  rw [pointToFrame_ok, frame_eq]; rfl

/-- **C51**, shorter lists raise: no number or two numbers ValueError, otherwise IndexError. -/
theorem C51_short {p : List ℝ} (h : p.length < 6) :
    pointToFrame p =
      .error (if p.length = 0 ∨ p.length = 2 then .valueError else .indexError) := by
  match p with
  | [] => rfl
  | [_] => rfl
  | [_, _] => rfl
  | [_, _, _] => rfl
  | [_, _, _, _] => rfl
  | [_, _, _, _, _] => rfl
  | _ :: _ :: _ :: _ :: _ :: _ :: _ => simp at h; omega

/-! ## C74: the angles of a free-orientation sample are not those of point_to_frame -/

/-- The full property: `point_to_frame` of a sample in the default representation is the transform
of the same draw. -/
def C74_statement : Prop :=
  ∀ (root : Nat → Nat) (fuel : Nat) (rnd : Nat → ℝ × ℝ × ℝ), (∀ i, InUnit (rnd i)) →
    ∀ (p : V3) (n : Nat) (pts : List (List ℝ)) (Ts : List M4),
      (FreeOrientationPt.new p).getSamples root fuel rnd n = .ok (.points pts) →
      (FreeOrientationPt.new p).getSamples root fuel rnd n (some .transform) = .ok (.transforms Ts) →
      ∀ (i : Nat) (pt : List ℝ) (T : M4), pts[i]? = some pt → Ts[i]? = some T →
        pointToFrame pt = .ok T

/-- **C74** is false: the quarter turn about z comes back as a quarter turn about x, because
`sample_SO3` gives yaw, pitch, roll and `point_to_frame` expects the angles about x, y, z. -/
theorem C74_refuted : ¬ C74_statement := by
  intro h
  have hd : ∀ _i : Nat, InUnit ((1 / 2, 1 / 4, 0) : ℝ × ℝ × ℝ) := fun _ => by
    simp only [InUnit]; norm_num
  have hs : Real.sqrt (1 / 2) * Real.sqrt (1 / 2) = 1 / 2 := Real.mul_self_sqrt (by norm_num)
  have hq : quatOf (1 / 2) (1 / 4) 0 = ⟨Real.sqrt (1 / 2), 0, 0, Real.sqrt (1 / 2)⟩ := by
    have e : 2 * Real.pi * (1 / 4) = Real.pi / 2 := by ring
    simp only [quatOf, e, Real.sin_pi_div_two, Real.cos_pi_div_two, mul_zero, Real.sin_zero,
      Real.cos_zero, mul_one]
    norm_num
  set c := Real.sqrt (1 / 2) with hc
  have hn : (⟨c, 0, 0, c⟩ : Quat).norm2 = 1 := by simp only [Quat.norm2]; nlinarith
  have h2 := h id 0 _ hd 0 1 _ _ rfl rfl 0 _ _ rfl rfl
  have h3 := pointToFrame_ok 0 (Quat.yawPitchRoll ⟨c, 0, 0, c⟩)
  have h4 := (h3.symm.trans ((congrArg (fun q => pointToFrame [(0 : V3) 0, (0 : V3) 1, (0 : V3) 2,
    Quat.yawPitchRoll q 0, Quat.yawPitchRoll q 1, Quat.yawPitchRoll q 2]) hq).symm.trans h2))
  have h5 := congrFun (congrFun (Except.ok.inj h4) 2) 2
  have hy : Quat.yawPitchRoll ⟨c, 0, 0, c⟩ 0 = arctan2 1 0 := by
    simp only [Quat.yawPitchRoll, Quat.normalise_of_unit hn]
    have e1 : 2 * (c * c - 0 * 0) = 1 := by linarith
    have e2 : 1 - 2 * ((0 : ℝ) ^ 2 + c ^ 2) = 0 := by nlinarith
    rw [e1, e2]
    rfl
  have hcos : Real.cos (arctan2 1 0) = 0 := by
    rw [cos_arctan2 (.inr one_ne_zero)]; simp
  have l : frame 0 (Quat.yawPitchRoll ⟨c, 0, 0, c⟩) 2 2 = 0 := by
    simp [frame, mkTf, Matrix.mul_apply, Fin.sum_univ_succ, rotX, rotY, rotZ, hy, hcos]
  rw [l] at h5
  have r : setPos (Quat.transformationMatrix (quatOf (1 / 2) (1 / 4) 0)) 0 2 2 = 1 := by
    rw [hq, Quat.transformationMatrix, Kin.setPos_mkTf]
    simp only [mkTf, Quat.rotationMatrix, Quat.normalise_of_unit hn]
    simp
    nlinarith
  exact zero_ne_one (h5.trans r)

/-- **C74**, what holds: every sample of the default representation gives a rigid transform at the
path point, and with the three angles in reverse order (roll, pitch, yaw) `point_to_frame` gives the
transform of the same draw, unless the pitch is a right angle.  Missing: the order the code uses. -/
theorem C74_partial (root : Nat → Nat) (fuel : Nat) {rnd : Nat → ℝ × ℝ × ℝ}
    (hr : ∀ i, InUnit (rnd i)) (p : V3) {n : Nat} (hn : 0 < n) :
    ∃ (as : List V3) (Ts : List M4), as.length = n ∧ Ts.length = n ∧
      (FreeOrientationPt.new p).getSamples root fuel rnd n =
        .ok (.points (as.map fun a => [p 0, p 1, p 2, a 0, a 1, a 2])) ∧
      (FreeOrientationPt.new p).getSamples root fuel rnd n (some .transform) = .ok (.transforms Ts) ∧
      ∀ (i : Nat) (a : V3) (T : M4), as[i]? = some a → Ts[i]? = some T →
        (∃ S, pointToFrame [p 0, p 1, p 2, a 0, a 1, a 2] = .ok S ∧ IsRigid S ∧ posPart S = p) ∧
        (|T 0 2| < 1 → pointToFrame [p 0, p 1, p 2, a 2, a 1, a 0] = .ok T) := by
  obtain ⟨qs, Rs, as, h1, h2, h3, l1, l2, l3, hrep⟩ :=
    C26_representations (root := root) (fuel := fuel) hr n
  obtain ⟨as', g1, _, g2⟩ := (C50_rpy root fuel rnd p n).1 hn
  rw [h3] at g1
  cases g1
  refine ⟨as, Rs.map fun T => setPos T p, l3, by simp [l2], g2, ?_, ?_⟩
  · simp only [FreeOrientationPt.getSamples, Option.getD_some, Option.getD_none, h2, bind,
      Except.bind, movedTransforms, FreeOrientationPt.new]
  · intro i a T ha hT
    simp only [List.getElem?_map, Option.map_eq_some_iff] at hT
    obtain ⟨S, hS, rfl⟩ := hT
    have hi : i < qs.length := by
      rw [l1, ← l2]; exact (List.getElem?_eq_some_iff.1 hS).1
    obtain ⟨e1, e2⟩ := hrep i qs[i] S a (List.getElem?_eq_getElem hi) hS ha
    refine ⟨⟨_, pointToFrame_ok p a, ?_, ?_⟩, fun hg => ?_⟩
    · rw [frame_eq]; exact isRigid_mkTf.2 (Rxyz_isRot a)
    · rw [frame_eq]; exact posPart_mkTf _ _
    · have := pointToFrame_ok p ![a 2, a 1, a 0]
      simp only [Matrix.cons_val_zero, Matrix.cons_val_one, Matrix.cons_val] at this
      rw [this, frame]
      simp only [Matrix.cons_val_zero, Matrix.cons_val_one, Matrix.cons_val]
      rw [e1] at hg e2 ⊢
      rw [Kin.setPos_mkTf] at hg ⊢
      rw [rotPart_mkTf] at e2
      rw [e2 (by simpa [mkTf] using hg)]

/-- C45, C46, C47, C51: cases of the refusals. -/
example : TolNum.new 1 2 (some 3) 5 = .error .valueError := C45_rejects 5 (.inr (by norm_num))

example : (⟨0, 1, 1 / 2, -3⟩ : TolNum).discretise = .error .valueError := C46_negative (by norm_num)

example : TolEulerPt.new [.num 1, .num 2] [.num 0, .num 0, .num 0] = .error .indexError :=
  C47_short (.inl (by simp))

example : pointToFrame [1, 2] = .error .valueError ∧ pointToFrame [1, 2, 3] = .error .indexError :=
  ⟨by simpa using C51_short (p := [1, 2]) (by simp), by simpa using C51_short (p := [1, 2, 3]) (by simp)⟩

/-- C49: a case of `C49_zero_axis`. -/
example (q : Quat) : (⟨0, 0, ⟨0, 1, 1 / 2, 2⟩, q⟩ : AxisAnglePt).getSamples =
    .error .zeroDivisionError := C49_zero_axis rfl (by norm_num)

/-- C50: the integer square root is one of the functions `C50_halton` allows. -/
example (rnd : Nat → ℝ × ℝ × ℝ) (p : V3) : ∃ fuel₀, ∀ fuel ≥ fuel₀,
    ∃ Ts, (FreeOrientationPt.new p).getSamples Nat.sqrt fuel rnd 4 (some .transform) (some .halton)
      = .ok (.transforms Ts) ∧ LocatedAt p 4 Ts :=
  C50_halton (fun n hn => ⟨by simpa [sq] using Nat.lt_succ_sqrt n, Nat.sqrt_lt_self (by omega)⟩) rnd p 4

/-- C74: the hypotheses of `C74_partial` are met. -/
example (p : V3) : ∃ (as : List V3) (Ts : List M4), as.length = 3 ∧ Ts.length = 3 ∧
    (FreeOrientationPt.new p).getSamples (fun n => n) 0 (fun _ => (1 / 2, 1 / 4, 0)) 3 =
      .ok (.points (as.map fun a => [p 0, p 1, p 2, a 0, a 1, a 2])) := by
  obtain ⟨as, Ts, h1, h2, h3, -⟩ := C74_partial (fun n => n) 0 (rnd := fun _ => (1 / 2, 1 / 4, 0))
    (fun _ => by simp only [InUnit]; norm_num) p (n := 3) (by norm_num)
  exact ⟨as, Ts, h1, h2, h3⟩

end Verif.Props
