import Verif.Model.Io
import Verif.Proofs.Rotation
import Verif.Props.Path
import Mathlib.Analysis.Real.Pi.Bounds

/-! # C51-C56 and C75: io.py -/

set_option linter.unusedSectionVars false

namespace Verif.Props

open Matrix Verif.Io Verif.Path Verif.Util Verif.Geometry Verif.Task

/-! ## C51: create_transform -/

theorem rpyMatrix_ok (a : V3) : rpyMatrix [a 0, a 1, a 2] = .ok (Rxyz a) := rfl

theorem createTransform_ok (x a : V3) :
    createTransform [x 0, x 1, x 2] [a 0, a 1, a 2] = .ok (mkTf (Rxyz a) x) := by
  simp only [createTransform, assign3, rpyMatrix_ok, bind, Except.bind, setPos_one, setRot_mkTf,
    v3_eta]

/-- **C51**: `point_to_frame`, `create_transform` and a TolEulerPt without tolerances describe the
same rigid transform, with the given position and the rotation `Rx Ry Rz`. -/
theorem C51 (x a : V3) :
    ∃ T pt, pointToFrame [x 0, x 1, x 2, a 0, a 1, a 2] = .ok T ∧
      createTransform [x 0, x 1, x 2] [a 0, a 1, a 2] = .ok T ∧
      TolEulerPt.new [.num (x 0), .num (x 1), .num (x 2)] [.num (a 0), .num (a 1), .num (a 2)]
        = .ok pt ∧ pt.nominalTransform = .ok T ∧ pt.getSamples = .ok [T] ∧ IsRigid T ∧
      posPart T = x ∧ rotPart T = rotX (a 0) * rotY (a 1) * rotZ (a 2) := by
  obtain ⟨T, pt, h1, h2, h3, h4, h5, h6, h7⟩ := C51_path x a
  refine ⟨T, pt, h1, ?_, h2, h3, h4, h5, h6, h7⟩
  rw [createTransform_ok, ← mkTf_parts h5.2, h6, h7]
  rfl

/-- **C51**, lists of other lengths: `create_transform` takes a position of three numbers, or of one
number, which it writes into all three coordinates; any other length is a ValueError.  Of the
angles it reads the first three; with fewer it ends with an IndexError. -/
theorem C51_lengths (xyz rpy : List ℝ) :
    (xyz.length ≠ 1 → xyz.length ≠ 3 → createTransform xyz rpy = .error .valueError) ∧
    (xyz.length = 1 ∨ xyz.length = 3 → rpy.length < 3 →
      createTransform xyz rpy = .error .indexError) ∧
    ∀ (a : V3) (more : List ℝ), rpy = a 0 :: a 1 :: a 2 :: more →
      (∀ c, xyz = [c] → createTransform xyz rpy = .ok (mkTf (Rxyz a) fun _ => c)) ∧
      ∀ x : V3, xyz = [x 0, x 1, x 2] → createTransform xyz rpy = .ok (mkTf (Rxyz a) x) := by
  refine ⟨fun h1 h3 => ?_, fun hx hr => ?_, ?_⟩
  · have : assign3 xyz = .error .valueError := by
      rcases xyz with _ | ⟨a, _ | ⟨b, _ | ⟨c, _ | ⟨d, l⟩⟩⟩⟩ <;> simp at h1 h3 <;> rfl
    simp only [createTransform, this, bind, Except.bind]
  · obtain ⟨v, hv⟩ : ∃ v, assign3 xyz = .ok v := by
      rcases xyz with _ | ⟨a, _ | ⟨b, _ | ⟨c, _ | ⟨d, l⟩⟩⟩⟩ <;> simp at hx <;> exact ⟨_, rfl⟩
    have : rpyMatrix rpy = .error .indexError := by
      rcases rpy with _ | ⟨a, _ | ⟨b, _ | ⟨c, l⟩⟩⟩
      · rfl
      · rfl
      · rfl
      · simp at hr; omega
    simp only [createTransform, hv, this, bind, Except.bind]
  · rintro a more rfl
    have hR : rpyMatrix (a 0 :: a 1 :: a 2 :: more) = .ok (Rxyz a) := rfl
    refine ⟨?_, ?_⟩
    · rintro c rfl
      have hv : ![c, c, c] = fun _ : Fin 3 => c := by funext i; fin_cases i <;> rfl
      simp only [createTransform, assign3, hR, bind, Except.bind, setPos_one, setRot_mkTf, hv]
    · rintro x rfl
      simp only [createTransform, assign3, hR, bind, Except.bind, setPos_one, setRot_mkTf, v3_eta]

/-! ## C52: create_line -/

theorem linspaceV_ok (a b : V3) (n : Nat) :
    linspaceV a b n = .ok ((List.range n).map fun (i : Nat) =>
      a + ((i : ℝ) / ((n : ℝ) - 1)) • (b - a)) := by
  rw [linspaceV, if_neg (by omega)]
  congr 1
  simp only [Int.toNat_natCast, Int.cast_natCast]
  refine List.map_congr_left fun i _ => ?_
  rw [smul_smul, mul_one_div]

/-- **C52**: `n` positions, the `i`-th being `start + i/(n-1) (end - start)`, so the first is the
start, the last the end point, and all lie on the segment. -/
theorem C52 {startPose : Pose} {s : V3} (hs : startPose.xyz = some s) (e : V3) (n : Nat) :
    ∃ ps, createLine startPose e n = .ok ps ∧ ps.length = n ∧
      (∀ (i : Nat) (p : V3), ps[i]? = some p → p = s + ((i : ℝ) / ((n : ℝ) - 1)) • (e - s)) ∧
      (1 ≤ n → ps.head? = some s) ∧ (2 ≤ n → ps.getLast? = some e) ∧
      ∀ p ∈ ps, ∃ t : ℝ, 0 ≤ t ∧ t ≤ 1 ∧ p = (1 - t) • s + t • e := by
  refine ⟨(List.range n).map fun (i : Nat) => s + ((i : ℝ) / ((n : ℝ) - 1)) • (e - s),
    ?_, ?_, ?_, ?_, ?_, ?_⟩
  · simp only [createLine, hs, key, bind, Except.bind, linspaceV_ok]
  · simp
  · intro i p hp
    simp only [List.getElem?_map, Option.map_eq_some_iff] at hp
    obtain ⟨k, hk, rfl⟩ := hp
    obtain ⟨_, rfl⟩ := List.getElem?_eq_some_iff.1 hk
    rw [List.getElem_range]
  · intro h1
    obtain ⟨m, rfl⟩ : ∃ m, n = m + 1 := ⟨n - 1, by omega⟩
    simp [List.range_succ_eq_map]
  · intro h2
    obtain ⟨m, rfl⟩ : ∃ m, n = m + 1 := ⟨n - 1, by omega⟩
    have hm : (m : ℝ) ≠ 0 := by
      have : m ≠ 0 := by omega
      exact_mod_cast this
    have e2 : ((m + 1 : Nat) : ℝ) - 1 = m := by push_cast; ring
    rw [e2, List.range_succ, List.map_append, List.map_cons, List.map_nil, List.getLast?_concat,
      div_self hm, one_smul, add_sub_cancel]
  · intro p hp
    simp only [List.mem_map, List.mem_range] at hp
    obtain ⟨i, hi, rfl⟩ := hp
    rcases Nat.lt_or_ge n 2 with h2 | h2
    · obtain rfl : i = 0 := by omega
      exact ⟨0, le_refl _, zero_le_one, by simp⟩
    · have hd : (0 : ℝ) < n - 1 := by
        have : (2 : ℝ) ≤ n := by exact_mod_cast h2
        linarith
      have hin : (i : ℝ) ≤ n - 1 := by
        have : (i : ℝ) + 1 ≤ n := by exact_mod_cast hi
        linarith
      refine ⟨i / (n - 1), by positivity, (div_le_one hd).2 hin, ?_⟩
      rw [smul_sub, sub_smul, one_smul]
      abel

/-- **C52**, a negative count raises ValueError, a start pose without position KeyError. -/
theorem C52_raises (startPose : Pose) (e : V3) {n : Int} (hn : n < 0) :
    (∀ s, startPose.xyz = some s → createLine startPose e n = .error .valueError) ∧
    (startPose.xyz = none → ∀ m, createLine startPose e m = .error .keyError) := by
  constructor
  · intro s hs
    simp only [createLine, hs, key, bind, Except.bind, linspaceV, if_pos hn]
  · intro h m
    simp only [createLine, h, key, bind, Except.bind]

/-! ## C53: create_circle -/

theorem circlePoint_eq {axis : V3} (c v : V3) (a : ℝ) :
    circlePoint ((1 / Io.norm axis) • axis) c v a = c + rotateAbout (unitOf axis) a v := rfl

/-- **C53**, the points: the `k`-th is the start turned about the axis through `mid` by the
angle `2π k/(n-1)`. -/
theorem C53_points (mid start axis : V3) (n : Nat) :
    ∃ ps, createCircle mid start axis n = .ok ps ∧ ps.length = n ∧
      ∀ (k : Nat) (p : V3), ps[k]? = some p →
        p = mid + rotateAbout (unitOf axis) (2 * Real.pi * (k / ((n : ℝ) - 1))) (start - mid) := by
  have h : createCircle mid start axis n =
      .ok (((List.range n).map fun (i : Nat) => 0 + (i : ℝ) * ((2 * Real.pi - 0) / ((n : ℝ) - 1))).map
        fun a => circlePoint ((1 / Io.norm axis) • axis) mid (start - mid) a) := by
    simp only [createCircle, linspace, bind, Except.bind, if_neg (show ¬ (n : Int) < 0 by omega),
      Int.toNat_natCast, Int.cast_natCast]
  refine ⟨_, h, by simp, ?_⟩
  intro k p hp
  simp only [List.map_map, List.getElem?_map, Option.map_eq_some_iff, Function.comp] at hp
  obtain ⟨j, hj, rfl⟩ := hp
  obtain ⟨_, rfl⟩ := List.getElem?_eq_some_iff.1 hj
  rw [List.getElem_range, circlePoint_eq]
  congr 2
  ring

/-- Turning about an axis keeps the component along the axis. -/
theorem rotateAbout_axis {u : V3} (hu : u ⬝ᵥ u = 1) (θ : ℝ) (v : V3) :
    u ⬝ᵥ rotateAbout u θ v = u ⬝ᵥ v := by
  obtain ⟨h1, h2, _⟩ := rotateAbout_spec hu
  have := h2 θ u v
  rwa [h1 θ] at this

/-- **C53**: for every non-zero axis all points have the distance of the start point from `mid` and
lie in the plane through the start orthogonal to the axis; the first and (for at least two points)
the last are the start point. -/
theorem C53 {axis : V3} (ha : axis ≠ 0) (mid start : V3) (n : Nat) :
    ∃ ps, createCircle mid start axis n = .ok ps ∧ ps.length = n ∧
      (∀ p ∈ ps, dist2 p mid = dist2 start mid ∧ axis ⬝ᵥ (p - start) = 0) ∧
      (1 ≤ n → ps.head? = some start) ∧ (2 ≤ n → ps.getLast? = some start) := by
  obtain ⟨ps, h, hl, hp⟩ := C53_points mid start axis n
  have hu := unitOf_unit ha
  have hs0 : Real.sqrt (axis ⬝ᵥ axis) ≠ 0 := by
    intro h0
    rw [unitOf, h0] at hu
    simp at hu
  have hax : axis = Real.sqrt (axis ⬝ᵥ axis) • unitOf axis := by
    rw [unitOf, smul_smul, mul_one_div_cancel hs0, one_smul]
  refine ⟨ps, h, hl, ?_, ?_, ?_⟩
  · intro p hmem
    obtain ⟨k, hk⟩ := List.getElem?_of_mem hmem
    rw [hp k p hk]
    constructor
    · rw [dist2, add_sub_cancel_left, (rotateAbout_spec hu).2.1, dist2]
    · have h0 : ∀ w, unitOf axis ⬝ᵥ w = 0 → axis ⬝ᵥ w = 0 := by
        intro w hw
        rw [hax, smul_dotProduct, hw, smul_zero]
      apply h0
      rw [dotProduct_sub, dotProduct_add, rotateAbout_axis hu, dotProduct_sub]
      ring
  · intro h1
    have h0 : 0 < ps.length := by omega
    rw [List.head?_eq_getElem?, List.getElem?_eq_getElem h0,
      hp 0 _ (List.getElem?_eq_getElem h0)]
    simp [C49_zero]
  · intro h2
    have h0 : ps.length - 1 < ps.length := by omega
    rw [List.getLast?_eq_getElem?, List.getElem?_eq_getElem h0,
      hp _ _ (List.getElem?_eq_getElem h0), hl]
    have hc : ((n - 1 : Nat) : ℝ) = (n : ℝ) - 1 := by push_cast [show 1 ≤ n by omega]; ring
    have hd : (n : ℝ) - 1 ≠ 0 := by
      have : (2 : ℝ) ≤ n := by exact_mod_cast h2
      intro h0; linarith
    rw [hc, div_self hd, mul_one]
    simp [rotateAbout]

/-- The unit circle about the z-axis meets the hypothesis, and its points differ. -/
example : (![0, 0, 1] : V3) ≠ 0 := fun h => by simpa using congrFun h 2

/-! ## C54: symmetric tolerances -/

/-- The entry that belongs to a nominal value `x` and a tolerance `tol`: a range of half-width
`tol` around `x` with ten samples if the tolerance is positive, otherwise the plain number. -/
def Centred (x tol : ℝ) (e : Entry) : Prop :=
  (0 < tol → ∃ t, e = .tol t ∧ t.lower = x - tol ∧ t.upper = x + tol ∧ t.nominal = x ∧
    t.numSamples = 10) ∧
  (tol ≤ 0 → e = .num x)

theorem symmetricEntry_ok (x tol : ℝ) :
    ∃ e, symmetricEntry x tol = .ok e ∧ Centred x tol e ∧ nominal e = x := by
  by_cases h : tol > 0
  · refine ⟨.tol ⟨x - tol, x + tol, x, 10⟩, ?_, ⟨fun _ => ⟨_, rfl, rfl, rfl, rfl, rfl⟩, fun h' => ?_⟩,
      rfl⟩
    · simp only [symmetricEntry]
      rw [if_pos h]
      simp only [TolNum.new, Except.map]
      congr 3
      ring
    · linarith
  · refine ⟨.num x, by rw [symmetricEntry, if_neg h], ⟨fun h' => absurd h' h, fun _ => rfl⟩, rfl⟩

theorem symmetric3 (x tol : V3) :
    ∃ es : Fin 3 → Entry,
      ([x 0, x 1, x 2].zip [tol 0, tol 1, tol 2]).mapM (fun pt => symmetricEntry pt.1 pt.2) =
        .ok [es 0, es 1, es 2] ∧
      (∀ i, Centred (x i) (tol i) (es i)) ∧ ∀ i, nominal (es i) = x i := by
  have := fun i => symmetricEntry_ok (x i) (tol i)
  choose es h1 h2 h3 using this
  refine ⟨es, ?_, h2, h3⟩
  simp only [List.zip_cons_cons, List.zip_nil_right, List.mapM_cons, List.mapM_nil, h1, bind,
    Except.bind, pure, Except.pure]

/-- **C54**, positions: one TolPositionPt per position, in order; its entries are centred on the
position with the given half-widths, its nominal position is the position, its orientation
`Rx Ry Rz` of the angles, given by a unit quaternion. -/
theorem C54_position (pos : List V3) (rpy tol : V3) :
    ∃ pts, createSymmetricPositionTolerance pos [rpy 0, rpy 1, rpy 2] [tol 0, tol 1, tol 2]
        = .ok pts ∧
      List.Forall₂ (fun (p : V3) (pt : PathPt) => ∃ t : TolPositionPt, pt = .position t ∧
        (∃ es : Fin 3 → Entry, t.pos = [es 0, es 1, es 2] ∧ ∀ i, Centred (p i) (tol i) (es i)) ∧
        t.posNom = [p 0, p 1, p 2] ∧ t.quat.norm2 = 1 ∧
        t.quat.rotationMatrix = rotX (rpy 0) * rotY (rpy 1) * rotZ (rpy 2)) pos pts := by
  obtain ⟨q, hq, hn, hR⟩ := Quat.ofRotation_spec (Rxyz_isRot rpy)
  have hs := fun p => symmetric3 p tol
  choose es h1 h2 h3 using hs
  refine ⟨pos.map fun p => .position (positionPt (es p) q), ?_, ?_⟩
  · simp only [createSymmetricPositionTolerance, rpyToQuaternion, rpyMatrix_ok, hq, bind,
      Except.bind]
    refine mapM_ok fun p _ => ?_
    simp only [coords, h1, positionPt_new]
  · rw [List.forall₂_map_right_iff]
    refine List.forall₂_same.2 fun p _ => ?_
    refine ⟨_, rfl, ⟨es p, rfl, h2 p⟩, ?_, hn, hR⟩
    simp [positionPt, h3]

/-- How a number given as an angle is understood: above ten it is in degrees, otherwise in
radians. -/
def Understood (v r : ℝ) : Prop := (10 < v → r = v * Real.pi / 180) ∧ (v ≤ 10 → r = v)

theorem guess_understood (v : ℝ) : Understood v (guessAngleUnit v) := by
  constructor
  · intro h; rw [guessAngleUnit, if_pos h]; ring
  · intro h; rw [guessAngleUnit, if_neg (not_lt.2 h)]

theorem Understood.unique {v r : ℝ} (h : Understood v r) : guessAngleUnit v = r := by
  rcases lt_or_ge 10 v with hv | hv
  · rw [(guess_understood v).1 hv, h.1 hv]
  · rw [(guess_understood v).2 hv, h.2 hv]

/-- **C54**, angles: one TolEulerPt per position, in order, with the position as plain numbers and
the angle entries centred on the angles with the given half-widths, where every angle and half-width
is understood as in `Understood`. -/
theorem C54_euler (pos : List V3) {rpy tol r t : V3} (hr : ∀ i, Understood (rpy i) (r i))
    (ht : ∀ i, Understood (tol i) (t i)) :
    ∃ pts, createSymmetricEulerTolerance pos [rpy 0, rpy 1, rpy 2] [tol 0, tol 1, tol 2]
        = .ok pts ∧
      List.Forall₂ (fun (p : V3) (pt : PathPt) => ∃ e : TolEulerPt, pt = .euler e ∧
        e.pos = [.num (p 0), .num (p 1), .num (p 2)] ∧
        (∃ es : Fin 3 → Entry, e.rpy = [es 0, es 1, es 2] ∧ ∀ i, Centred (r i) (t i) (es i)) ∧
        e.pNominal = [p 0, p 1, p 2, r 0, r 1, r 2]) pos pts := by
  obtain ⟨es, h1, h2, h3⟩ := symmetric3 r t
  have er : ∀ i, guessAngleUnit (rpy i) = r i := fun i => (hr i).unique
  have et : ∀ i, guessAngleUnit (tol i) = t i := fun i => (ht i).unique
  refine ⟨pos.map fun p => .euler (eulerPt (fun i => .num (p i)) es), ?_, ?_⟩
  · simp only [createSymmetricEulerTolerance, bind, Except.bind, List.map_cons, List.map_nil, er,
      et, h1]
    refine mapM_ok fun p _ => ?_
    have := eulerPt_new (fun i => .num (p i)) es
    simp only [coords, List.map_cons, List.map_nil, this]
  · rw [List.forall₂_map_right_iff]
    refine List.forall₂_same.2 fun p _ => ?_
    refine ⟨_, rfl, rfl, ⟨es, rfl, h2⟩, ?_⟩
    simp only [eulerPt, h3]
    rfl

/-- **C54**, in radians: when no angle or tolerance exceeds ten the numbers are used as given. -/
theorem C54_euler_radians (pos : List V3) {rpy tol : V3} (hr : ∀ i, rpy i ≤ 10)
    (ht : ∀ i, tol i ≤ 10) :
    ∃ pts, createSymmetricEulerTolerance pos [rpy 0, rpy 1, rpy 2] [tol 0, tol 1, tol 2]
        = .ok pts ∧ pts.length = pos.length ∧
      ∀ (k : Nat) (p : V3) (pt : PathPt), pos[k]? = some p → pts[k]? = some pt →
        ∃ e : TolEulerPt, pt = .euler e ∧ e.pNominal = [p 0, p 1, p 2, rpy 0, rpy 1, rpy 2] ∧
          ∃ es : Fin 3 → Entry, e.rpy = [es 0, es 1, es 2] ∧
            ∀ i, Centred (rpy i) (tol i) (es i) := by
  obtain ⟨pts, h1, h2⟩ := C54_euler pos (rpy := rpy) (tol := tol) (r := rpy) (t := tol)
    (fun i => ⟨fun h => absurd (hr i) (not_le.2 h), fun _ => rfl⟩)
    (fun i => ⟨fun h => absurd (ht i) (not_le.2 h), fun _ => rfl⟩)
  refine ⟨pts, h1, h2.length_eq.symm, ?_⟩
  intro k p pt hp hpt
  obtain ⟨hk, rfl⟩ := List.getElem?_eq_some_iff.1 hp
  obtain ⟨hk', rfl⟩ := List.getElem?_eq_some_iff.1 hpt
  obtain ⟨e, he, _, hes, hnom⟩ := (List.forall₂_iff_get.1 h2).2 k hk hk'
  exact ⟨e, he, hnom, hes⟩

/-! ## C55: guess_angle_unit -/

/-- The full property: every angle given in degrees with `|v| > 10` is converted to radians. -/
def C55_statement : Prop := ∀ v : ℝ, 10 < |v| → guessAngleUnit v = v * Real.pi / 180

/-- **C55** is false: minus ninety degrees is taken for minus ninety radians. -/
theorem C55_refuted : ¬ C55_statement := by
  intro h
  have h1 := h (-90) (by rw [abs_neg]; norm_num)
  rw [(guess_understood (-90)).2 (by norm_num)] at h1
  have := Real.two_le_pi
  have h2 := Real.pi_le_four
  linarith

/-- **C55**, what holds: positive angles above ten are converted.  Missing: negative angles. -/
theorem C55_partial {v : ℝ} (h : 10 < v) : guessAngleUnit v = v * Real.pi / 180 :=
  (guess_understood v).1 h

/-- **C55**, exactly when: the result is the conversion from degrees iff `v > 10` or `v = 0`. -/
theorem C55_iff (v : ℝ) : guessAngleUnit v = v * Real.pi / 180 ↔ 10 < v ∨ v = 0 := by
  constructor
  · intro h
    rcases lt_or_ge 10 v with hv | hv
    · exact .inl hv
    · right
      rw [(guess_understood v).2 hv] at h
      have h2 := Real.pi_le_four
      have : v * (1 - Real.pi / 180) = 0 := by linear_combination h
      rcases mul_eq_zero.1 this with h0 | h0
      · exact h0
      · linarith
  · rintro (h | rfl)
    · exact C55_partial h
    · simp [(guess_understood 0).2]

/-! ## C75: the meaning of start_pose.rpy depends on the tolerance type -/

/-- The full property: for the same positions and `rpy`, the nominal orientation of a path with
position tolerance is that of a path with euler tolerance. -/
def C75_statement : Prop :=
  ∀ (p rpy tol tol' : V3) (t : TolPositionPt) (e : TolEulerPt) (T : M4),
    createSymmetricPositionTolerance [p] [rpy 0, rpy 1, rpy 2] [tol 0, tol 1, tol 2]
      = .ok [.position t] →
    createSymmetricEulerTolerance [p] [rpy 0, rpy 1, rpy 2] [tol' 0, tol' 1, tol' 2]
      = .ok [.euler e] →
    e.nominalTransform = .ok T → t.quat.rotationMatrix = rotPart T

theorem position_one (p rpy tol : V3) :
    ∃ t : TolPositionPt,
      createSymmetricPositionTolerance [p] [rpy 0, rpy 1, rpy 2] [tol 0, tol 1, tol 2]
        = .ok [.position t] ∧ t.quat.rotationMatrix = Rxyz rpy := by
  obtain ⟨pts, h1, h2⟩ := C54_position [p] rpy tol
  obtain ⟨pt, l, ⟨t, rfl, _, _, _, hR⟩, hl, rfl⟩ := List.forall₂_cons_left_iff.1 h2
  rw [List.forall₂_nil_left_iff.1 hl] at h1
  exact ⟨t, h1, hR⟩

theorem euler_one (p : V3) {rpy r : V3} (tol : V3) (hr : ∀ i, Understood (rpy i) (r i)) :
    ∃ e : TolEulerPt,
      createSymmetricEulerTolerance [p] [rpy 0, rpy 1, rpy 2] [tol 0, tol 1, tol 2]
        = .ok [.euler e] ∧ e.nominalTransform = .ok (mkTf (Rxyz r) p) := by
  obtain ⟨pts, h1, h2⟩ := C54_euler [p] (rpy := rpy) (tol := tol) hr (fun i => guess_understood _)
  obtain ⟨pt, l, ⟨e, rfl, _, _, hn⟩, hl, rfl⟩ := List.forall₂_cons_left_iff.1 h2
  rw [List.forall₂_nil_left_iff.1 hl] at h1
  refine ⟨e, h1, ?_⟩
  have := pointToFrame_ok p r
  rw [frame_eq] at this
  rw [← this]
  simp only [TolEulerPt.nominalTransform, hn]
  rfl

/-- **C75** is false: `rpy = [0, 0, 180]` is half a turn about z with euler tolerance, but 180
radians with position tolerance. -/
theorem C75_refuted : ¬ C75_statement := by
  intro h
  obtain ⟨t, h1, h2⟩ := position_one 0 ![0, 0, 180] 0
  obtain ⟨e, h3, h4⟩ := euler_one 0 (rpy := ![0, 0, 180]) (r := ![0, 0, Real.pi]) 0 (by
    intro i
    fin_cases i
    · exact ⟨fun h => absurd h (by norm_num), fun _ => rfl⟩
    · exact ⟨fun h => absurd h (by norm_num), fun _ => rfl⟩
    · refine ⟨fun _ => ?_, fun h => absurd h (by norm_num)⟩
      simp)
  have h5 := h 0 ![0, 0, 180] 0 0 t e _ h1 h3 h4
  rw [h2, rotPart_mkTf] at h5
  have h6 := congrFun (congrFun h5 0) 0
  simp [Rxyz, rotX, rotY, rotZ, Matrix.mul_apply, Fin.sum_univ_succ] at h6
  obtain ⟨k, hk⟩ := Real.cos_eq_neg_one_iff.1 h6
  have p1 := Real.pi_gt_d2
  have p2 := Real.pi_lt_d2
  rcases le_or_gt k 28 with h28 | h28
  · have : (k : ℝ) ≤ 28 := by exact_mod_cast h28
    nlinarith
  · have : (29 : ℝ) ≤ k := by exact_mod_cast h28
    nlinarith

/-- **C75**, what holds: the two agree when no angle exceeds ten (radians).  Missing: angles in
degrees. -/
theorem C75_partial {p rpy tol tol' : V3} (hr : ∀ i, rpy i ≤ 10) {t : TolPositionPt}
    {e : TolEulerPt} {T : M4}
    (h1 : createSymmetricPositionTolerance [p] [rpy 0, rpy 1, rpy 2] [tol 0, tol 1, tol 2]
      = .ok [.position t])
    (h2 : createSymmetricEulerTolerance [p] [rpy 0, rpy 1, rpy 2] [tol' 0, tol' 1, tol' 2]
      = .ok [.euler e])
    (h3 : e.nominalTransform = .ok T) : t.quat.rotationMatrix = rotPart T := by
  obtain ⟨t', g1, g2⟩ := position_one p rpy tol
  obtain ⟨e', g3, g4⟩ := euler_one p (rpy := rpy) (r := rpy) tol'
    (fun i => ⟨fun h => absurd (hr i) (not_le.2 h), fun _ => rfl⟩)
  rw [h1] at g1
  rw [h2] at g3
  cases g1
  cases g3
  rw [h3] at g4
  cases g4
  rw [g2, rotPart_mkTf]

/-! ## C56: parsing -/

/-- The positions of a path description: its type is one of the two known ones and the keys of that
type are there, with a non-negative number of points. -/
def Positions (pd : PathDict) (n : Nat) (ps : List V3) : Prop :=
  (∃ sp s e, pd.type = some "LINE" ∧ pd.startPose = some sp ∧ sp.xyz = some s ∧
    pd.endPoint = some e ∧ pd.numPoints = some (n : Int) ∧ createLine sp e n = .ok ps) ∨
  (∃ mid start axis, pd.type = some "CIRC" ∧ pd.mid = some mid ∧ pd.start = some start ∧
    pd.axis = some axis ∧ pd.numPoints = some (n : Int) ∧ createCircle mid start axis n = .ok ps)

theorem parsePositions_ok {pd : PathDict} {n : Nat} {ps : List V3} (h : Positions pd n ps) :
    parsePositions pd = .ok ps ∧ ps.length = n := by
  rcases h with ⟨sp, s, e, h1, h2, h3, h4, h5, h6⟩ | ⟨mid, start, axis, h1, h2, h3, h4, h5, h6⟩
  · obtain ⟨ps', g1, g2, _⟩ := C52 h3 e n
    rw [g1] at h6
    cases h6
    refine ⟨?_, g2⟩
    simp only [parsePositions, h1, h2, h4, h5, key, bind, Except.bind, if_true]
    exact g1
  · obtain ⟨ps', g1, g2, _⟩ := C53_points mid start axis n
    rw [g1] at h6
    cases h6
    refine ⟨?_, g2⟩
    simp only [parsePositions, h1, h2, h3, h4, h5, key, bind, Except.bind,
      if_neg (show ¬ "CIRC" = "LINE" by decide), if_true]
    exact g1

/-- Every description with the keys of its type has positions. -/
theorem positions_exist {pd : PathDict} {n : Nat} (hn : pd.numPoints = some (n : Int)) :
    ((∃ sp s e, pd.type = some "LINE" ∧ pd.startPose = some sp ∧ sp.xyz = some s ∧
      pd.endPoint = some e) ∨
     (∃ mid start axis, pd.type = some "CIRC" ∧ pd.mid = some mid ∧ pd.start = some start ∧
      pd.axis = some axis)) → ∃ ps, Positions pd n ps := by
  rintro (⟨sp, s, e, h1, h2, h3, h4⟩ | ⟨mid, start, axis, h1, h2, h3, h4⟩)
  · obtain ⟨ps, g, _⟩ := C52 h3 e n
    exact ⟨ps, .inl ⟨sp, s, e, h1, h2, h3, h4, hn, g⟩⟩
  · obtain ⟨ps, g, _⟩ := C53_points mid start axis n
    exact ⟨ps, .inr ⟨mid, start, axis, h1, h2, h3, h4, hn, g⟩⟩

theorem parseTolerance_eq {pd : PathDict} {tol : String} (h : pd.tolerance = some tol)
    (ps : List V3) : parseTolerance pd ps =
      if tol = "orientation_free" then .ok (createOrientationFreePath ps)
      else if tol = "position_tolerance" then (key pd.startPose).bind fun sp =>
        (key sp.rpy).bind fun rpy => (key pd.xyzTol).bind fun t =>
          createSymmetricPositionTolerance ps rpy t
      else if tol = "euler_tolerance" then (key pd.startPose).bind fun sp =>
        (key sp.rpy).bind fun rpy => (key pd.rpyTol).bind fun t =>
          createSymmetricEulerTolerance ps rpy t
      else .error .exception := by
  unfold parseTolerance
  rw [h]
  rfl

theorem parseTolerance_free {pd : PathDict} (h : pd.tolerance = some "orientation_free")
    (ps : List V3) : parseTolerance pd ps = .ok (createOrientationFreePath ps) := by
  rw [parseTolerance_eq h, if_pos rfl]

theorem parseTolerance_position {pd : PathDict} {sp : Pose} {rpy tol : List ℝ}
    (h : pd.tolerance = some "position_tolerance") (hs : pd.startPose = some sp)
    (hr : sp.rpy = some rpy) (ht : pd.xyzTol = some tol) (ps : List V3) :
    parseTolerance pd ps = createSymmetricPositionTolerance ps rpy tol := by
  rw [parseTolerance_eq h, if_neg (by simp), if_pos rfl, hs, ht]
  simp only [key, hr, Except.bind]

theorem parseTolerance_euler {pd : PathDict} {sp : Pose} {rpy tol : List ℝ}
    (h : pd.tolerance = some "euler_tolerance") (hs : pd.startPose = some sp)
    (hr : sp.rpy = some rpy) (ht : pd.rpyTol = some tol) (ps : List V3) :
    parseTolerance pd ps = createSymmetricEulerTolerance ps rpy tol := by
  rw [parseTolerance_eq h, if_neg (by simp), if_neg (by simp), if_pos rfl, hs, ht]
  simp only [key, hr, Except.bind]

/-- **C56**, paths: for every valid description the result has `num_points` points, all of the
class that belongs to the declared tolerance and built from the positions, in order. -/
theorem C56_path {d : TaskDict} {pd : PathDict} {n : Nat} {ps : List V3} (hd : d.path = some pd)
    (hp : Positions pd n ps) :
    (pd.tolerance = some "orientation_free" →
      ∃ pts, parsePath d = .ok pts ∧ pts.length = n ∧
        List.Forall₂ (fun p pt => pt = .free (FreeOrientationPt.new p)) ps pts) ∧
    (∀ (sp : Pose) (rpy tol : V3), pd.tolerance = some "position_tolerance" →
      pd.startPose = some sp → sp.rpy = some [rpy 0, rpy 1, rpy 2] →
      pd.xyzTol = some [tol 0, tol 1, tol 2] →
      ∃ pts, parsePath d = .ok pts ∧ pts.length = n ∧
        List.Forall₂ (fun (p : V3) pt => ∃ t : TolPositionPt, pt = .position t ∧
          t.posNom = [p 0, p 1, p 2]) ps pts) ∧
    (∀ (sp : Pose) (rpy tol : V3), pd.tolerance = some "euler_tolerance" →
      pd.startPose = some sp → sp.rpy = some [rpy 0, rpy 1, rpy 2] →
      pd.rpyTol = some [tol 0, tol 1, tol 2] →
      ∃ pts, parsePath d = .ok pts ∧ pts.length = n ∧
        List.Forall₂ (fun (p : V3) pt => ∃ t : TolEulerPt, pt = .euler t ∧
          t.pos = [.num (p 0), .num (p 1), .num (p 2)]) ps pts) := by
  obtain ⟨h1, h2⟩ := parsePositions_ok hp
  have e0 : parsePath d = parseTolerance pd ps := by
    simp only [parsePath, hd, h1, key, bind, Except.bind]
  refine ⟨?_, ?_, ?_⟩
  · intro ht
    refine ⟨createOrientationFreePath ps, e0.trans (parseTolerance_free ht ps),
      by simp [createOrientationFreePath, h2], ?_⟩
    rw [createOrientationFreePath, List.forall₂_map_right_iff]
    exact List.forall₂_same.2 fun _ _ => rfl
  · intro sp rpy tol ht hs hr hx
    obtain ⟨pts, g1, g2⟩ := C54_position ps rpy tol
    exact ⟨pts, (e0.trans (parseTolerance_position ht hs hr hx ps)).trans g1,
      by rw [← g2.length_eq, h2], g2.imp fun p pt ⟨t, a, _, c, _⟩ => ⟨t, a, c⟩⟩
  · intro sp rpy tol ht hs hr hx
    obtain ⟨pts, g1, g2⟩ := C54_euler ps (rpy := rpy) (tol := tol) (fun i => guess_understood _)
      (fun i => guess_understood _)
    exact ⟨pts, (e0.trans (parseTolerance_euler ht hs hr hx ps)).trans g1,
      by rw [← g2.length_eq, h2], g2.imp fun p pt ⟨t, a, b, _⟩ => ⟨t, a, b⟩⟩

/-- **C56**, the points in full: the tolerances of the description, around the pose at the start, turned
to radians as `guess_angle_unit` understands them for the angles and taken as radians for the
orientation of position-toleranced points. -/
theorem C56_tolerances {d : TaskDict} {pd : PathDict} {n : Nat} {ps : List V3} (hd : d.path = some pd)
    (hp : Positions pd n ps) {sp : Pose} (hs : pd.startPose = some sp) {rpy : V3}
    (hr : sp.rpy = some [rpy 0, rpy 1, rpy 2]) (tol : V3) :
    (pd.tolerance = some "position_tolerance" → pd.xyzTol = some [tol 0, tol 1, tol 2] →
      ∃ pts, parsePath d = .ok pts ∧
        List.Forall₂ (fun (p : V3) pt => ∃ t : TolPositionPt, pt = .position t ∧
          (∃ es : Fin 3 → Entry, t.pos = [es 0, es 1, es 2] ∧ ∀ i, Centred (p i) (tol i) (es i)) ∧
          t.quat.rotationMatrix = rotX (rpy 0) * rotY (rpy 1) * rotZ (rpy 2)) ps pts) ∧
    (pd.tolerance = some "euler_tolerance" → pd.rpyTol = some [tol 0, tol 1, tol 2] →
      ∀ r t : V3, (∀ i, Understood (rpy i) (r i)) → (∀ i, Understood (tol i) (t i)) →
      ∃ pts, parsePath d = .ok pts ∧
        List.Forall₂ (fun (p : V3) pt => ∃ e : TolEulerPt, pt = .euler e ∧
          e.pos = [.num (p 0), .num (p 1), .num (p 2)] ∧
          ∃ es : Fin 3 → Entry, e.rpy = [es 0, es 1, es 2] ∧ ∀ i, Centred (r i) (t i) (es i)) ps pts) := by
  have e0 : parsePath d = parseTolerance pd ps := by
    simp only [parsePath, hd, (parsePositions_ok hp).1, key, bind, Except.bind]
  refine ⟨fun ht hx => ?_, fun ht hx r t h1 h2 => ?_⟩
  · obtain ⟨pts, g1, g2⟩ := C54_position ps rpy tol
    exact ⟨pts, (e0.trans (parseTolerance_position ht hs hr hx ps)).trans g1,
      g2.imp fun p pt ⟨t, a, b, _, _, c⟩ => ⟨t, a, b, c⟩⟩
  · obtain ⟨pts, g1, g2⟩ := C54_euler ps h1 h2
    exact ⟨pts, (e0.trans (parseTolerance_euler ht hs hr hx ps)).trans g1,
      g2.imp fun p pt ⟨t, a, b, c, _⟩ => ⟨t, a, b, c⟩⟩

/-- **C56**, an unknown path type raises, whatever else the description holds. -/
theorem C56_unknown_path {d : TaskDict} {pd : PathDict} {ty : String} (hd : d.path = some pd)
    (ht : pd.type = some ty) (h1 : ty ≠ "LINE") (h2 : ty ≠ "CIRC") :
    parsePath d = .error .exception := by
  simp only [parsePath, parsePositions, hd, ht, key, bind, Except.bind, if_neg h1, if_neg h2]

/-- **C56**, an unknown tolerance type raises for every valid path. -/
theorem C56_unknown_tolerance {d : TaskDict} {pd : PathDict} {n : Nat} {ps : List V3} {tol : String}
    (hd : d.path = some pd) (hp : Positions pd n ps) (ht : pd.tolerance = some tol)
    (h1 : tol ≠ "orientation_free") (h2 : tol ≠ "position_tolerance")
    (h3 : tol ≠ "euler_tolerance") : parsePath d = .error .exception := by
  simp only [parsePath, parseTolerance, hd, (parsePositions_ok hp).1, ht, key, bind, Except.bind,
    if_neg h1, if_neg h2, if_neg h3]

/-- **C56**, whenever `parse_path` returns, the declared types are known ones. -/
theorem C56_known {d : TaskDict} {pts : List PathPt} (h : parsePath d = .ok pts) :
    ∃ pd, d.path = some pd ∧ (pd.type = some "LINE" ∨ pd.type = some "CIRC") ∧
      (pd.tolerance = some "orientation_free" ∨ pd.tolerance = some "position_tolerance" ∨
        pd.tolerance = some "euler_tolerance") := by
  unfold parsePath at h
  cases hd : d.path with
  | none => rw [hd] at h; cases h
  | some pd =>
    rw [hd] at h
    refine ⟨pd, rfl, ?_, ?_⟩
    · cases ht : pd.type with
      | none => simp [parsePositions, ht, key, bind, Except.bind] at h
      | some ty =>
        by_cases h1 : ty = "LINE"
        · exact .inl (by rw [h1])
        · by_cases h2 : ty = "CIRC"
          · exact .inr (by rw [h2])
          · simp [parsePositions, ht, key, bind, Except.bind, h1, h2] at h
    · cases hp : parsePositions pd with
      | error e => simp [hp, key, bind, Except.bind] at h
      | ok ps =>
        simp only [hp, key, bind, Except.bind] at h
        cases ht : pd.tolerance with
        | none => simp [parseTolerance, ht, key, bind, Except.bind] at h
        | some tol =>
          by_cases h1 : tol = "orientation_free"
          · exact .inl (by rw [h1])
          · by_cases h2 : tol = "position_tolerance"
            · exact .inr (.inl (by rw [h2]))
            · by_cases h3 : tol = "euler_tolerance"
              · exact .inr (.inr (by rw [h3]))
              · simp [parseTolerance, ht, key, bind, Except.bind, h1, h2, h3] at h

theorem obstacleLoop_eq (ds : List ShapeDict) (ss : List Shape) (ts : List M4) :
    obstacleLoop ds ss ts =
      (ds.mapM parseShape).map fun r => (ss ++ r.map Prod.fst, ts ++ r.map Prod.snd) := by
  induction ds generalizing ss ts with
  | nil => simp [obstacleLoop, Except.map, pure, Except.pure]
  | cons d ds ih =>
    rw [List.mapM_cons]
    unfold obstacleLoop
    cases h : parseShape d with
    | error e => rfl
    | ok r =>
      simp only [bind, Except.bind, ih]
      cases ds.mapM parseShape with
      | error e => rfl
      | ok rs => simp [Except.map, pure, Except.pure]

/-- A valid box description: the declared type is box and the three keys hold three numbers each. -/
structure BoxDict (d : ShapeDict) (size xyz rpy : V3) : Prop where
  type : d.type = some "box"
  size : d.size = some [size 0, size 1, size 2]
  xyz : d.xyz = some [xyz 0, xyz 1, xyz 2]
  rpy : d.rpy = some [rpy 0, rpy 1, rpy 2]

/-- **C56**, obstacles: one placed box per entry, in order, of the given size, at the given
position, with the rotation `Rx Ry Rz`. -/
theorem C56_obstacles {d : TaskDict} {l : List (ShapeDict × V3 × V3 × V3)}
    (hd : d.obstacles = some (l.map Prod.fst)) (hl : ∀ b ∈ l, BoxDict b.1 b.2.1 b.2.2.1 b.2.2.2) :
    parseObstacles d = .ok
      { s := l.map fun b => ⟨b.2.1 0, b.2.1 1, b.2.1 2⟩
        tfS := l.map fun b => mkTf (rotX (b.2.2.2 0) * rotY (b.2.2.2 1) * rotZ (b.2.2.2 2)) b.2.2.1 } := by
  have h : (l.map Prod.fst).mapM parseShape = .ok (l.map fun b =>
      ((⟨b.2.1 0, b.2.1 1, b.2.1 2⟩ : Shape), mkTf (Rxyz b.2.2.2) b.2.2.1)) := by
    rw [List.mapM_map]
    refine mapM_ok fun b hb => ?_
    have := hl b hb
    simp only [Function.comp, parseShape, createBox, this.type, this.size, this.xyz, this.rpy, key,
      shapeOf, createTransform_ok, bind, Except.bind, if_true]
  simp only [parseObstacles, hd, key, bind, Except.bind, obstacleLoop_eq, h, Except.map,
    List.map_map, List.nil_append]
  rfl

/-- **C56**, another shape type raises: the call fails whenever some entry declares a type other
than box, with the package's own exception if the entries before it are valid. -/
theorem C56_unknown_shape {d : TaskDict} {pre post : List ShapeDict} {b : ShapeDict} {ty : String}
    (hd : d.obstacles = some (pre ++ b :: post)) (hb : b.type = some ty) (hty : ty ≠ "box") :
    (∃ e, parseObstacles d = .error e) ∧
    ((∀ c ∈ pre, ∃ size xyz rpy, BoxDict c size xyz rpy) →
      parseObstacles d = .error .exception) := by
  have hbad : parseShape b = .error .exception := by
    simp only [parseShape, hb, key, bind, Except.bind, if_neg hty]
  have hm : ∀ r, pre.mapM parseShape = .ok r →
      (pre ++ b :: post).mapM parseShape = .error .exception := by
    intro r hr
    rw [List.mapM_append, hr, List.mapM_cons, hbad]
    rfl
  constructor
  · cases hp : pre.mapM parseShape with
    | ok r =>
      exact ⟨_, by simp only [parseObstacles, hd, key, bind, Except.bind, obstacleLoop_eq, hm r hp,
        Except.map]; rfl⟩
    | error e =>
      have : (pre ++ b :: post).mapM parseShape = .error e := by
        rw [List.mapM_append, hp]; rfl
      exact ⟨e, by simp only [parseObstacles, hd, key, bind, Except.bind, obstacleLoop_eq, this,
        Except.map]⟩
  · intro hv
    have : ∃ r, pre.mapM parseShape = .ok r := by
      choose! size xyz rpy h using hv
      refine ⟨_, mapM_ok (g := fun c => ((⟨size c 0, size c 1, size c 2⟩ : Shape),
        mkTf (Rxyz (rpy c)) (xyz c))) fun c hc => ?_⟩
      have := h c hc
      simp only [parseShape, createBox, this.type, this.size, this.xyz, this.rpy, key,
        shapeOf, createTransform_ok, bind, Except.bind, if_true]
    obtain ⟨r, hr⟩ := this
    simp only [parseObstacles, hd, key, bind, Except.bind, obstacleLoop_eq, hm r hr, Except.map]

/-- **C56**, a task is the path and the scene of its file, with the default settings. -/
theorem C56_task {d : TaskDict} {task : PlanningTask Shape} (h : parseTaskData d = .ok task) :
    ∃ scene, parsePath d = .ok task.path ∧ parseObstacles d = .ok scene ∧
      task.scene = some scene ∧ task.hasObstacles = true ∧ task.method = "grid" ∧
      task.qpInit.length = task.path.length ∧ ∀ q ∈ task.qpInit, q = [0, 0, 0, 0, 0, 0] := by
  unfold parseTaskData at h
  cases hp : parsePath d with
  | error e => rw [hp] at h; cases h
  | ok path =>
    cases ho : parseObstacles d with
    | error e => rw [hp, ho] at h; cases h
    | ok scene =>
      rw [hp, ho] at h
      cases h
      refine ⟨scene, rfl, rfl, rfl, rfl, rfl, by simp [PlanningTask.new], ?_⟩
      intro q hq
      exact List.eq_of_mem_replicate hq

theorem importLoop_eq (ps : List PathDict) (acc : List (List PathPt)) :
    importLoop ps acc =
      (ps.mapM fun p => parsePath { path := some p }).map fun r => acc ++ r := by
  induction ps generalizing acc with
  | nil => simp [importLoop, Except.map, pure, Except.pure]
  | cons p ps ih =>
    rw [List.mapM_cons]
    unfold importLoop
    cases h : parsePath { path := some p } with
    | error e => rfl
    | ok r =>
      simp only [bind, Except.bind, ih]
      cases ps.mapM fun p => parsePath { path := some p } with
      | error e => rfl
      | ok rs => simp [Except.map, pure, Except.pure]

/-- **C56**, `import_paths` parses every path of the file, in order: it returns `r` exactly when
every entry parses to the corresponding entry of `r`. -/
theorem C56_import (ps : List PathDict) (r : List (List PathPt)) :
    importPaths (some ps) = .ok r ↔
      List.Forall₂ (fun p pts => parsePath { path := some p } = .ok pts) ps r := by
  have e : importPaths (some ps) = ps.mapM fun p => parsePath { path := some p } := by
    simp only [importPaths, key, bind, Except.bind, importLoop_eq, List.nil_append]
    cases ps.mapM fun p => parsePath { path := some p } <;> rfl
  rw [e]
  clear e
  constructor
  · exact mapM_ok_inv
  · intro h
    induction h with
    | nil => rfl
    | cons h _ ih => rw [List.mapM_cons, h, ih]; rfl

/-- A line description and a circle description that meet the hypotheses. -/
example : ∃ ps, Positions { type := some "LINE", startPose := some ⟨some 0, some [0, 0, 0]⟩
                            endPoint := some ![1, 0, 0], numPoints := some 5
                            tolerance := some "orientation_free" } 5 ps :=
  positions_exist rfl (.inl ⟨_, _, _, rfl, rfl, rfl, rfl⟩)

example : BoxDict { type := some "box", size := some [1, 2, 3], xyz := some [4, 5, 6]
                    rpy := some [0, 0, 1] } ![1, 2, 3] ![4, 5, 6] ![0, 0, 1] :=
  ⟨rfl, rfl, rfl, rfl⟩

/-- C52: a case of `C52_raises`. -/
example : createLine ⟨some ![0, 0, 0], none⟩ ![1, 0, 0] (-3) = .error .valueError ∧
    createLine ⟨none, none⟩ ![1, 0, 0] 3 = .error .keyError :=
  ⟨(C52_raises _ _ (by norm_num)).1 _ rfl, (C52_raises ⟨none, none⟩ _ (n := -1) (by norm_num)).2 rfl 3⟩

/-- C54: a case of `C54_euler_radians`. -/
example := C54_euler_radians [![1, 2, 3], ![4, 5, 6]] (rpy := ![1, -20, 3]) (tol := ![0, 0.1, 0])
  (by intro i; fin_cases i <;> norm_num) (by intro i; fin_cases i <;> norm_num)

/-- C56: cases of `C56_unknown_path`, `C56_unknown_tolerance` and `C56_unknown_shape`. -/
example : parsePath ⟨some { type := some "SPLINE" }, none⟩ = .error .exception ∧
    parsePath ⟨some { type := some "LINE", startPose := some ⟨some 0, some [0, 0, 0]⟩,
                      endPoint := some ![1, 0, 0], numPoints := some 5,
                      tolerance := some "none" }, none⟩ = .error .exception ∧
    parseObstacles ⟨none, some ([{ type := some "box", size := some [1, 2, 3], xyz := some [4, 5, 6],
                                   rpy := some [0, 0, 1] }] ++
      { type := some "sphere" } :: [])⟩ = .error .exception := by
  obtain ⟨ps, hp⟩ := positions_exist (pd := ⟨some "LINE", some ⟨some 0, some [0, 0, 0]⟩, some ![1, 0, 0],
      some 5, none, none, none, some "none", none, none⟩) rfl (.inl ⟨_, _, _, rfl, rfl, rfl, rfl⟩)
  refine ⟨C56_unknown_path rfl rfl (by decide) (by decide),
    C56_unknown_tolerance rfl hp rfl (by decide) (by decide) (by decide),
    (C56_unknown_shape rfl rfl (by decide)).2 ?_⟩
  intro c hc
  rw [List.mem_singleton.1 hc]
  exact ⟨![1, 2, 3], ![4, 5, 6], ![0, 0, 1], rfl, rfl, rfl, rfl⟩

/-- A line of five points with a tolerance of ninety degrees about the third axis. -/
example : ∃ pts e, parsePath ⟨some ⟨some "LINE", some ⟨some 0, some [0, 0, 0]⟩, some ![1, 0, 0], some 5,
      none, none, none, some "euler_tolerance", none, some [0, 0, 90]⟩, none⟩ = .ok pts ∧
    pts[0]? = some (.euler e) ∧
    ∃ es : Fin 3 → Entry, e.rpy = [es 0, es 1, es 2] ∧ Centred 0 0 (es 0) ∧
      Centred 0 (Real.pi / 2) (es 2) := by
  obtain ⟨ps, hp⟩ := positions_exist (n := 5) (pd := ⟨some "LINE", some ⟨some 0, some [0, 0, 0]⟩,
      some ![1, 0, 0], some 5, none, none, none, some "euler_tolerance", none, some [0, 0, 90]⟩) rfl
    (.inl ⟨_, _, _, rfl, rfl, rfl, rfl⟩)
  obtain ⟨pts, h1, h2⟩ := (C56_tolerances (d := ⟨some _, none⟩) rfl hp rfl (rpy := 0) rfl
    ![0, 0, 90]).2 rfl rfl 0 ![0, 0, Real.pi / 2] (fun i => by simp [Understood])
    (fun i => by fin_cases i <;> simp [Understood] <;> ring_nf <;> norm_num)
  have hl := (parsePositions_ok hp).2
  match ps, pts, hl, h2 with
  | p :: _, pt :: _, _, .cons ⟨e, he, _, es, h3, h4⟩ _ =>
    exact ⟨_, e, h1, by rw [he]; rfl, es, h3, h4 0, h4 2⟩

end Verif.Props
