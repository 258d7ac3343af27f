import Verif.Model.Optimization
import Verif.Props.Geometry
import Mathlib.Topology.Order.Compact
import Mathlib.Topology.Algebra.Module.Basic
import Mathlib.Topology.Instances.Matrix
import Mathlib.Topology.MetricSpace.ProperSpace.Real
import Mathlib.Algebra.Order.BigOperators.Ring.Finset
import Mathlib.Analysis.Convex.Basic
import Mathlib.Analysis.Real.Sqrt
import Mathlib.Tactic.Positivity

/-! # C68: the multipliers of create_collision_constraints certify a distance -/

namespace Verif.Props

open Matrix Verif.Geometry Verif.Optimization

/-- The points that satisfy `A x ≤ b`, for any number of inequalities. -/
def halfspaces {m : Nat} (A : Matrix (Fin m) (Fin 3) ℝ) (b : Fin m → ℝ) : Set V3 :=
  {x | ∀ i, A i ⬝ᵥ x ≤ b i}

theorem dot_sq_le (x y : V3) : (x ⬝ᵥ y) ^ 2 ≤ (x ⬝ᵥ x) * (y ⬝ᵥ y) := by
  simp only [dotProduct, Fin.sum_univ_three]
  nlinarith [sq_nonneg (x 0 * y 1 - x 1 * y 0), sq_nonneg (x 0 * y 2 - x 2 * y 0),
    sq_nonneg (x 1 * y 2 - x 2 * y 1)]

theorem dot_self_nonneg (x : V3) : 0 ≤ x ⬝ᵥ x := by
  simp only [dotProduct, Fin.sum_univ_three]
  nlinarith [sq_nonneg (x 0), sq_nonneg (x 1), sq_nonneg (x 2)]

theorem weighted_le {m : Nat} {A : Matrix (Fin m) (Fin 3) ℝ} {b lam : Fin m → ℝ} {x : V3}
    (hx : x ∈ halfspaces A b) (hl : ∀ i, lam i ≥ 0) : (Aᵀ *ᵥ lam) ⬝ᵥ x ≤ b ⬝ᵥ lam := by
  have e : (Aᵀ *ᵥ lam) ⬝ᵥ x = lam ⬝ᵥ (A *ᵥ x) := by
    rw [Matrix.mulVec_transpose, ← Matrix.dotProduct_mulVec]
  rw [e, dotProduct_comm b lam]
  exact Finset.sum_le_sum fun i _ => mul_le_mul_of_nonneg_left (hx i) (hl i)

/-- **C68**: multipliers that satisfy the constraints certify that every point of the one polyhedron
is at distance at least `eps` of every point of the other. -/
theorem C68 {m n : Nat} {lam : Fin m → ℝ} {mu : Fin n → ℝ} {Ar : Matrix (Fin m) (Fin 3) ℝ}
    {Ao : Matrix (Fin n) (Fin 3) ℝ} {br : Fin m → ℝ} {bo : Fin n → ℝ} {eps : ℝ}
    (h : ∀ c ∈ collisionConstraints lam mu Ar Ao br bo eps, c) {x y : V3}
    (hx : x ∈ halfspaces Ar br) (hy : y ∈ halfspaces Ao bo) : eps ≤ Real.sqrt (dist2 x y) := by
  simp only [collisionConstraints, List.forall_mem_cons, List.not_mem_nil, false_imp_iff,
    implies_true, and_true] at h
  obtain ⟨h1, h2, h3, h4, h5⟩ := h
  have a := weighted_le hx h4
  have b := weighted_le hy h5
  have hmu : Aoᵀ *ᵥ mu = -(Arᵀ *ᵥ lam) := eq_neg_of_add_eq_zero_right h2
  rw [hmu, neg_dotProduct] at b
  set w := Arᵀ *ᵥ lam
  have key : eps ≤ -(w ⬝ᵥ (x - y)) := by
    rw [dotProduct_sub]
    linarith
  refine le_trans key (Real.le_sqrt_of_sq_le ?_)
  rw [neg_sq]
  calc (w ⬝ᵥ (x - y)) ^ 2 ≤ (w ⬝ᵥ w) * ((x - y) ⬝ᵥ (x - y)) := dot_sq_le _ _
    _ ≤ 1 * ((x - y) ⬝ᵥ (x - y)) := mul_le_mul_of_nonneg_right h3 (dot_self_nonneg _)
    _ = dist2 x y := by rw [one_mul, dist2]

/-- **C68**: with a positive margin, as in the code, the polyhedra are disjoint. -/
theorem C68_disjoint {m n : Nat} {lam : Fin m → ℝ} {mu : Fin n → ℝ} {Ar : Matrix (Fin m) (Fin 3) ℝ}
    {Ao : Matrix (Fin n) (Fin 3) ℝ} {br : Fin m → ℝ} {bo : Fin n → ℝ}
    (h : ∀ c ∈ collisionConstraints lam mu Ar Ao br bo, c) :
    halfspaces Ar br ∩ halfspaces Ao bo = ∅ := by
  rw [Set.eq_empty_iff_forall_notMem]
  rintro x ⟨hx, hy⟩
  have := C68 h hx hy
  simp [dist2] at this
  norm_num at this

/-! ### The certificate exists whenever the boxes are that far apart -/

/-- The largest value of a linear function on a box, with multipliers that show it. -/
theorem box_support (s : Shape) (hs : ∀ i, 0 ≤ s.half i) {T : M4} (hT : IsRigid T) (w : V3) :
    ∃ lam : Fin 6 → ℝ, ∃ x ∈ polyPoints (s.getPolyhedron T), (∀ i, lam i ≥ 0) ∧
      (Matrix.of (s.getPolyhedron T).A)ᵀ *ᵥ lam = w ∧ (s.getPolyhedron T).b ⬝ᵥ lam = w ⬝ᵥ x := by
  set g : V3 := (rotPart T)ᵀ *ᵥ w with hg
  have hw : w = rotPart T *ᵥ g := by
    rw [hg, Matrix.mulVec_mulVec, hT.1.mul_transpose, Matrix.one_mulVec]
  let c : V3 := fun i => if 0 ≤ g i then s.half i else -s.half i
  have hc : ∀ i, |c i| ≤ s.half i := by
    intro i
    by_cases h : 0 ≤ g i
    · simp [c, h, abs_of_nonneg (hs i)]
    · simp [c, h, abs_of_nonneg (hs i)]
  have hgc : ∀ i, g i * c i = s.half i * |g i| := by
    intro i
    by_cases h : 0 ≤ g i
    · simp [c, h, abs_of_nonneg h, mul_comm]
    · simp [c, h, abs_of_neg (not_le.1 h)]; ring
  refine ⟨![max (g 0) 0, max (-g 0) 0, max (g 1) 0, max (-g 1) 0, max (g 2) 0, max (-g 2) 0],
    act T c, (polyhedron_act s hT c).2 hc, ?_, ?_, ?_⟩
  · intro i
    fin_cases i <;> simp
  · have hmax : ∀ t : ℝ, max t 0 - max (-t) 0 = t := by
      intro t
      rcases le_total 0 t with h | h
      · rw [max_eq_left h, max_eq_right (by linarith)]; ring
      · rw [max_eq_right h, max_eq_left (by linarith)]; ring
    have e : ∀ p0 n0 p1 n1 p2 n2 : ℝ, (Matrix.of (s.getPolyhedron T).A)ᵀ *ᵥ
        ![p0, n0, p1, n1, p2, n2] = rotPart T *ᵥ ![p0 - n0, p1 - n1, p2 - n2] := by
      intro p0 n0 p1 n1 p2 n2
      ext k
      simp [Shape.getPolyhedron, getNormals, Matrix.mulVec, dotProduct, Fin.sum_univ_succ]
      ring
    rw [e, hmax, hmax, hmax]
    conv_rhs => rw [hw]
    congr 1
    ext i; fin_cases i <;> rfl
  · have habs : ∀ t : ℝ, max t 0 + max (-t) 0 = |t| := by
      intro t
      rcases le_total 0 t with h | h
      · rw [max_eq_left h, max_eq_right (by linarith), abs_of_nonneg h, add_zero]
      · rw [max_eq_right h, max_eq_left (by linarith), abs_of_nonpos h, zero_add]
    have hmax : ∀ t : ℝ, max t 0 - max (-t) 0 = t := by
      intro t
      rcases le_total 0 t with h | h
      · rw [max_eq_left h, max_eq_right (by linarith)]; ring
      · rw [max_eq_right h, max_eq_left (by linarith)]; ring
    have e : w ⬝ᵥ act T c = g ⬝ᵥ c + w ⬝ᵥ posPart T := by
      rw [act, dotProduct_add]
      congr 1
      rw [hw, hT.1.dot]
    rw [e, hw]
    have e0 := hgc 0
    have e1 := hgc 1
    have e2 := hgc 2
    rw [← habs] at e0 e1 e2
    have m0 := hmax (g 0)
    have m1 := hmax (g 1)
    have m2 := hmax (g 2)
    generalize hp0 : max (g 0) 0 = p0 at *
    generalize hp1 : max (g 1) 0 = p1 at *
    generalize hp2 : max (g 2) 0 = p2 at *
    generalize hn0 : max (-g 0) 0 = n0 at *
    generalize hn1 : max (-g 1) 0 = n1 at *
    generalize hn2 : max (-g 2) 0 = n2 at *
    simp [Shape.half] at e0 e1 e2
    simp [Shape.getPolyhedron, getNormals, Matrix.mulVec, dotProduct, Fin.sum_univ_succ]
    rw [e0, e1, e2, ← m0, ← m1, ← m2]
    ring

theorem isCompact_box (s : Shape) : IsCompact (boxPoints s) := by
  have : boxPoints s = Set.pi Set.univ fun i => Set.Icc (-s.half i) (s.half i) := by
    ext u
    rw [boxPoints_half]
    simp only [Set.mem_pi, Set.mem_univ, true_imp_iff, Set.mem_Icc, abs_le]
  rw [this]
  exact isCompact_univ_pi fun i => isCompact_Icc

theorem continuous_act (T : M4) : Continuous (act T) := by
  unfold act
  exact (Continuous.matrix_mulVec continuous_const continuous_id).add continuous_const

/-- Two non-empty compact convex sets have a pair of points whose difference `k` satisfies
`k · k ≤ k · (x - y)` for all `x`, `y`: the closest points. -/
theorem exists_closest {P O : Set V3} (hP : IsCompact P) (hO : IsCompact O) (cP : Convex ℝ P)
    (cO : Convex ℝ O) (nP : P.Nonempty) (nO : O.Nonempty) :
    ∃ x₀ ∈ P, ∃ y₀ ∈ O, ∀ x ∈ P, ∀ y ∈ O,
      (x₀ - y₀) ⬝ᵥ (x₀ - y₀) ≤ (x₀ - y₀) ⬝ᵥ (x - y) := by
  have hcont : Continuous fun z : V3 × V3 => (z.1 - z.2) ⬝ᵥ (z.1 - z.2) :=
    Continuous.dotProduct (continuous_fst.sub continuous_snd) (continuous_fst.sub continuous_snd)
  obtain ⟨⟨x₀, y₀⟩, ⟨hx₀, hy₀⟩, hmin⟩ :=
    (hP.prod hO).exists_isMinOn (nP.prod nO) hcont.continuousOn
  refine ⟨x₀, hx₀, y₀, hy₀, fun x hx y hy => ?_⟩
  set k := x₀ - y₀ with hk
  set z := x - y with hz
  have hq : ∀ t : ℝ, 0 ≤ t → t ≤ 1 → 0 ≤ 2 * t * (k ⬝ᵥ (z - k)) + t ^ 2 * ((z - k) ⬝ᵥ (z - k)) := by
    intro t h0 h1
    have hx' : (1 - t) • x₀ + t • x ∈ P := cP hx₀ hx (by linarith) h0 (by ring)
    have hy' : (1 - t) • y₀ + t • y ∈ O := cO hy₀ hy (by linarith) h0 (by ring)
    have hm := hmin (show ((1 - t) • x₀ + t • x, (1 - t) • y₀ + t • y) ∈ P ×ˢ O from ⟨hx', hy'⟩)
    have hm : k ⬝ᵥ k ≤ ((1 - t) • x₀ + t • x - ((1 - t) • y₀ + t • y)) ⬝ᵥ
        ((1 - t) • x₀ + t • x - ((1 - t) • y₀ + t • y)) := hm
    have e : (1 - t) • x₀ + t • x - ((1 - t) • y₀ + t • y) = k + t • (z - k) := by
      rw [hk, hz]
      ext i
      simp only [Pi.sub_apply, Pi.add_apply, Pi.smul_apply, smul_eq_mul]
      ring
    rw [e] at hm
    simp only [add_dotProduct, dotProduct_add, smul_dotProduct, dotProduct_smul, smul_eq_mul] at hm
    rw [dotProduct_comm (z - k) k] at hm
    linarith
  have hd : 0 ≤ k ⬝ᵥ (z - k) := by
    by_contra hneg
    rw [not_le] at hneg
    set a := k ⬝ᵥ (z - k)
    set b := (z - k) ⬝ᵥ (z - k) with hb
    have hb0 : 0 ≤ b := dot_self_nonneg _
    have h1 := hq 1 (by norm_num) le_rfl
    have hbpos : 0 < b := by nlinarith
    have ht0 : 0 ≤ -a / b := div_nonneg (by linarith) hb0
    rcases le_total (-a / b) 1 with ht1 | ht1
    · have h2 := hq (-a / b) ht0 ht1
      have e : 2 * (-a / b) * a + (-a / b) ^ 2 * b = -(a ^ 2 / b) := by
        field_simp
        ring
      rw [e] at h2
      have : 0 < a ^ 2 / b := div_pos (sq_pos_of_neg hneg) hbpos
      linarith
    · rw [le_div_iff₀ hbpos] at ht1
      linarith
  rw [dotProduct_sub] at hd
  linarith

theorem half_neg_cases (s : Shape) : (∀ i, 0 ≤ s.half i) ∨ ∃ i, s.half i < 0 := by
  by_cases h : ∀ i, 0 ≤ s.half i
  · exact Or.inl h
  · push Not at h
    exact Or.inr h

/-- An empty box (one with a negative side): multipliers for any margin, with zero combination. -/
theorem empty_support (s : Shape) {i : Fin 3} (hs : s.half i < 0) (T : M4) (eps : ℝ) :
    ∃ lam : Fin 6 → ℝ, (∀ i, lam i ≥ 0) ∧ (Matrix.of (s.getPolyhedron T).A)ᵀ *ᵥ lam = 0 ∧
      -((s.getPolyhedron T).b ⬝ᵥ lam) ≥ eps := by
  have pos : ∀ h : ℝ, h < 0 → ∃ t : ℝ, 0 ≤ t ∧ -(h * t) ≥ eps := by
    intro h hh
    refine ⟨max (eps / -h) 0, le_max_right _ _, ?_⟩
    have := mul_le_mul_of_nonneg_left (le_max_left (eps / -h) 0) (show 0 ≤ -h by linarith)
    rw [mul_div_cancel₀ _ (by linarith : (-h) ≠ 0)] at this
    linarith
  obtain ⟨t, ht, he⟩ := pos (2 * s.half i) (by linarith)
  fin_cases i
  · refine ⟨![t, t, 0, 0, 0, 0], ?_, ?_, ?_⟩
    · intro j; fin_cases j <;> simp [ht]
    · ext k
      simp [Shape.getPolyhedron, getNormals, Matrix.mulVec, dotProduct, Fin.sum_univ_succ]
    · refine le_of_le_of_eq he ?_
      simp [Shape.half, Shape.getPolyhedron, getNormals, Matrix.mulVec, dotProduct,
        Fin.sum_univ_succ]
      ring
  · refine ⟨![0, 0, t, t, 0, 0], ?_, ?_, ?_⟩
    · intro j; fin_cases j <;> simp [ht]
    · ext k
      simp [Shape.getPolyhedron, getNormals, Matrix.mulVec, dotProduct, Fin.sum_univ_succ]
    · refine le_of_le_of_eq he ?_
      simp [Shape.half, Shape.getPolyhedron, getNormals, Matrix.mulVec, dotProduct,
        Fin.sum_univ_succ]
      ring
  · refine ⟨![0, 0, 0, 0, t, t], ?_, ?_, ?_⟩
    · intro j; fin_cases j <;> simp [ht]
    · ext k
      simp [Shape.getPolyhedron, getNormals, Matrix.mulVec, dotProduct, Fin.sum_univ_succ]
    · refine le_of_le_of_eq he ?_
      simp [Shape.half, Shape.getPolyhedron, getNormals, Matrix.mulVec, dotProduct,
        Fin.sum_univ_succ]
      ring

/-- The multipliers exist: nothing is lost by the constraints.  For any two boxes placed with rigid
motions whose points are at distance at least `eps` from each other, some multipliers satisfy all
constraints. -/
theorem C68_complete (s o : Shape) {T U : M4} (hT : IsRigid T) (hU : IsRigid U) (eps : ℝ)
    (hd : ∀ x ∈ polyPoints (s.getPolyhedron T), ∀ y ∈ polyPoints (o.getPolyhedron U),
      eps ≤ Real.sqrt (dist2 x y)) :
    ∃ lam mu : Fin 6 → ℝ, ∀ c ∈ collisionConstraints lam mu (Matrix.of (s.getPolyhedron T).A)
      (Matrix.of (o.getPolyhedron U).A) (s.getPolyhedron T).b (o.getPolyhedron U).b eps, c := by
  have build : ∀ lam mu : Fin 6 → ℝ,
      (-((s.getPolyhedron T).b ⬝ᵥ lam) - (o.getPolyhedron U).b ⬝ᵥ mu ≥ eps) →
      (Matrix.of (s.getPolyhedron T).A)ᵀ *ᵥ lam + (Matrix.of (o.getPolyhedron U).A)ᵀ *ᵥ mu = 0 →
      ((Matrix.of (s.getPolyhedron T).A)ᵀ *ᵥ lam) ⬝ᵥ ((Matrix.of (s.getPolyhedron T).A)ᵀ *ᵥ lam) ≤ 1 →
      (∀ i, lam i ≥ 0) → (∀ i, mu i ≥ 0) →
      ∀ c ∈ collisionConstraints lam mu (Matrix.of (s.getPolyhedron T).A)
        (Matrix.of (o.getPolyhedron U).A) (s.getPolyhedron T).b (o.getPolyhedron U).b eps, c := by
    intro lam mu h1 h2 h3 h4 h5
    simp only [collisionConstraints, List.forall_mem_cons, List.not_mem_nil, false_imp_iff,
      implies_true, and_true]
    exact ⟨h1, h2, h3, h4, h5⟩
  rcases half_neg_cases s with hs | ⟨i, hi⟩
  · rcases half_neg_cases o with ho | ⟨i, hi⟩
    · rcases le_or_gt eps 0 with he | he
      · exact ⟨0, 0, build 0 0 (by simpa using he) (by simp) (by simp) (by simp) (by simp)⟩
      · have hc : ∀ (b : Shape), (∀ i, 0 ≤ b.half i) → ∀ {V : M4}, IsRigid V →
            IsCompact (polyPoints (b.getPolyhedron V)) ∧ (polyPoints (b.getPolyhedron V)).Nonempty := by
          intro b hb V hV
          rw [C27_polyhedron b hV]
          exact ⟨(isCompact_box b).image (continuous_act V), ⟨_, 0, (boxPoints_half b 0).2 fun i => by
            simpa using hb i, rfl⟩⟩
        obtain ⟨x₀, hx₀, y₀, hy₀, hmin⟩ := exists_closest (hc s hs hT).1 (hc o ho hU).1
          (convex_polyhedron _) (convex_polyhedron _) (hc s hs hT).2 (hc o ho hU).2
        set k := x₀ - y₀ with hk
        set r := Real.sqrt (k ⬝ᵥ k) with hr
        have hrk : eps ≤ r := hd x₀ hx₀ y₀ hy₀
        have hr0 : 0 < r := lt_of_lt_of_le he hrk
        have hrr : r * r = k ⬝ᵥ k := Real.mul_self_sqrt (dot_self_nonneg k)
        obtain ⟨lam, x, hx, l1, l2, l3⟩ := box_support s hs hT (-(r⁻¹ • k))
        obtain ⟨mu, y, hy, m1, m2, m3⟩ := box_support o ho hU (r⁻¹ • k)
        refine ⟨lam, mu, build lam mu ?_ ?_ ?_ l1 m1⟩
        · rw [l3, m3]
          have h1 := hmin x hx y hy
          have e : -(-(r⁻¹ • k) ⬝ᵥ x) - r⁻¹ • k ⬝ᵥ y = r⁻¹ * (k ⬝ᵥ (x - y)) := by
            rw [neg_dotProduct, neg_neg, smul_dotProduct, smul_dotProduct, dotProduct_sub, smul_eq_mul,
              smul_eq_mul]
            ring
          rw [e]
          calc eps ≤ r := hrk
            _ = r⁻¹ * (r * r) := by field_simp
            _ ≤ r⁻¹ * (k ⬝ᵥ (x - y)) := by
              rw [hrr]
              exact mul_le_mul_of_nonneg_left h1 (inv_nonneg.2 hr0.le)
        · rw [l2, m2, neg_add_cancel]
        · rw [l2, neg_dotProduct, dotProduct_neg, neg_neg, smul_dotProduct, dotProduct_smul, smul_eq_mul,
            smul_eq_mul, ← hrr]
          field_simp
          exact le_rfl
    · obtain ⟨mu, h1, h2, h3⟩ := empty_support o hi U eps
      exact ⟨0, mu, build 0 mu (by simpa using h3) (by simpa using h2) (by simp) (by simp) h1⟩
  · obtain ⟨lam, h1, h2, h3⟩ := empty_support s hi T eps
    exact ⟨lam, 0, build lam 0 (by simpa using h3) (by simpa using h2) (by rw [h2]; simp) h1
      (by simp)⟩

/-- **C68** for boxes: the constraints can be met exactly when the boxes keep the margin. -/
theorem C68_iff (s o : Shape) {T U : M4} (hT : IsRigid T) (hU : IsRigid U) (eps : ℝ) :
    (∃ lam mu : Fin 6 → ℝ, ∀ c ∈ collisionConstraints lam mu (Matrix.of (s.getPolyhedron T).A)
      (Matrix.of (o.getPolyhedron U).A) (s.getPolyhedron T).b (o.getPolyhedron U).b eps, c) ↔
    ∀ u ∈ boxPoints s, ∀ v ∈ boxPoints o, eps ≤ Real.sqrt (dist2 (act T u) (act U v)) := by
  constructor
  · rintro ⟨lam, mu, h⟩ u hu v hv
    refine C68 h ?_ ?_
    · exact (polyhedron_act s hT u).2 ((boxPoints_half s u).1 hu)
    · exact (polyhedron_act o hU v).2 ((boxPoints_half o v).1 hv)
  · intro h
    refine C68_complete s o hT hU eps fun x hx y hy => ?_
    rw [C27_polyhedron s hT] at hx
    rw [C27_polyhedron o hU] at hy
    obtain ⟨u, hu, rfl⟩ := hx
    obtain ⟨v, hv, rfl⟩ := hy
    exact h u hu v hv

/-- Two unit boxes whose centres are three apart keep the margin of the code. -/
theorem cubes_certified : ∃ lam mu : Fin 6 → ℝ, ∀ c ∈ collisionConstraints lam mu
    (Matrix.of ((⟨1, 1, 1⟩ : Shape).getPolyhedron 1).A)
    (Matrix.of ((⟨1, 1, 1⟩ : Shape).getPolyhedron (mkTf 1 ![3, 0, 0])).A)
    ((⟨1, 1, 1⟩ : Shape).getPolyhedron 1).b
    ((⟨1, 1, 1⟩ : Shape).getPolyhedron (mkTf 1 ![3, 0, 0])).b, c := by
  rw [C68_iff _ _ IsRigid.one (isRigid_mkTf.2 IsRot.one)]
  intro u hu v hv
  refine Real.le_sqrt_of_sq_le ?_
  have h1 := abs_le.1 hu.1
  have h2 := abs_le.1 hv.1
  simp only at h1 h2
  have e : dist2 (act 1 u) (act (mkTf 1 ![3, 0, 0]) v) =
      (u 0 - (v 0 + 3)) ^ 2 + (u 1 - v 1) ^ 2 + (u 2 - v 2) ^ 2 := by
    rw [act_one]
    simp only [act, rotPart_mkTf, posPart_mkTf, Matrix.one_mulVec, dist2, dotProduct,
      Fin.sum_univ_three, Pi.sub_apply, Pi.add_apply, Matrix.cons_val]
    ring
  rw [e]
  nlinarith [sq_nonneg (u 1 - v 1), sq_nonneg (u 2 - v 2)]

end Verif.Props
