import Verif.Model.Geometry
import Mathlib.Analysis.Convex.Hull
import Mathlib.Tactic.Linarith
import Mathlib.Tactic.NormNum
import Mathlib.Tactic.FieldSimp
import Mathlib.Tactic.LinearCombination

/-! # Lemmas on boxes and collections -/

namespace Verif.Geometry

open Matrix

theorem tfApply_eq (tf : M4) (v : V3) : tfApply tf v = act tf v := rfl

/-- Half sides. -/
noncomputable def Shape.half (s : Shape) : V3 := ![s.dx / 2, s.dy / 2, s.dz / 2]

theorem act_injective {T : M4} (hT : IsRigid T) : Function.Injective (act T) := by
  intro x y h
  have : rotPart T *ᵥ x = rotPart T *ᵥ y := add_right_cancel h
  have := congrArg ((rotPart T)ᵀ *ᵥ ·) this
  simpa [Matrix.mulVec_mulVec, hT.1.1] using this

theorem act_surjective {T : M4} (hT : IsRigid T) (x : V3) :
    ∃ u, act T u = x := by
  refine ⟨(rotPart T)ᵀ *ᵥ (x - posPart T), ?_⟩
  simp [act, Matrix.mulVec_mulVec, hT.1.mul_transpose]

/-- The six inequalities in box coordinates. -/
theorem polyhedron_act (s : Shape) {T : M4} (hT : IsRigid T) (u : V3) :
    (∀ i, (s.getPolyhedron T).A i ⬝ᵥ act T u ≤ (s.getPolyhedron T).b i) ↔ ∀ i, |u i| ≤ s.half i := by
  have key : ∀ n : V3, (rotPart T *ᵥ n) ⬝ᵥ act T u = n ⬝ᵥ u + (rotPart T *ᵥ n) ⬝ᵥ posPart T := by
    intro n
    rw [act, dotProduct_add, hT.1.dot]
  constructor
  · intro h
    have e : ∀ i, getNormals T i ⬝ᵥ act T u ≤
        ((0.5 : ℝ) • ![s.dx, s.dx, s.dy, s.dy, s.dz, s.dz]) i + getNormals T i ⬝ᵥ posPart T := h
    have h0 := e 0
    have h1 := e 1
    have h2 := e 2
    have h3 := e 3
    have h4 := e 4
    have h5 := e 5
    simp only [getNormals, Matrix.cons_val, key] at h0 h1 h2 h3 h4 h5
    simp [dotProduct, Fin.sum_univ_succ] at h0 h1 h2 h3 h4 h5
    intro i
    rw [abs_le]
    fin_cases i <;> simp [Shape.half] <;> constructor <;> linarith
  · intro h i
    have h0 := abs_le.1 (h 0)
    have h1 := abs_le.1 (h 1)
    have h2 := abs_le.1 (h 2)
    simp [Shape.half] at h0 h1 h2
    show getNormals T i ⬝ᵥ act T u ≤
        ((0.5 : ℝ) • ![s.dx, s.dx, s.dy, s.dy, s.dz, s.dz]) i + getNormals T i ⬝ᵥ posPart T
    fin_cases i <;> simp only [getNormals, Fin.mk_one, Fin.zero_eta, Fin.reduceFinMk,
      Matrix.cons_val, key] <;> simp [dotProduct, Fin.sum_univ_succ] <;> linarith

/-- The corner of the box with the given signs (`true`: positive half side). -/
noncomputable def Shape.corner (s : Shape) (g : Fin 3 → Bool) : V3 :=
  fun i => if g i then s.half i else -s.half i

/-- The signs of vertex `k`. -/
def signs : Fin 8 → Fin 3 → Bool :=
  ![![false, true, true], ![false, true, false], ![false, false, true], ![false, false, false],
    ![true, true, true], ![true, true, false], ![true, false, true], ![true, false, false]]

theorem vertices_eq (s : Shape) (T : M4) (k : Fin 8) :
    s.getVertices T k = act T (s.corner (signs k)) := by
  have : ∀ x y z : ℝ, ∀ u : V3, u 0 = x → u 1 = y → u 2 = z → ![x, y, z] = u := by
    intro x y z u h0 h1 h2
    ext i; fin_cases i <;> simp [h0, h1, h2]
  fin_cases k <;> simp only [Shape.getVertices, Fin.mk_one, Fin.zero_eta, Fin.reduceFinMk,
    Matrix.cons_val, tfApply_eq] <;> congr 1 <;> apply this <;>
    simp [Shape.corner, Shape.half, signs]

theorem signs_surj (g : Fin 3 → Bool) : ∃ k, signs k = g := by
  revert g; decide

theorem act_combo (T : M4) (x y : V3) (t : ℝ) :
    act T ((1 - t) • x + t • y) = (1 - t) • act T x + t • act T y := by
  simp only [act, Matrix.mulVec_add, Matrix.mulVec_smul, smul_add]
  ext i
  simp only [Pi.add_apply, Pi.smul_apply, smul_eq_mul]
  ring

theorem exists_mix {c z : ℝ} (h : |z| ≤ c) : ∃ t : ℝ, 0 ≤ t ∧ t ≤ 1 ∧ z = (1 - t) * -c + t * c := by
  obtain ⟨h1, h2⟩ := abs_le.1 h
  rcases eq_or_lt_of_le (show 0 ≤ c by linarith) with rfl | hc
  · exact ⟨0, le_rfl, zero_le_one, by linarith⟩
  · refine ⟨(z + c) / (2 * c), div_nonneg (by linarith) (by linarith), ?_, by field_simp; ring⟩
    rw [div_le_one (by linarith)]; linarith

end Verif.Geometry

namespace Verif.Geometry

open Matrix

theorem step_axis {T : M4} {K : Set V3} (hK : Convex ℝ K) {u : V3} {h : ℝ} (i : Fin 3)
    (hu : |u i| ≤ h) (h1 : act T (Function.update u i (-h)) ∈ K)
    (h2 : act T (Function.update u i h) ∈ K) : act T u ∈ K := by
  obtain ⟨t, t0, t1, ht⟩ := exists_mix hu
  have : u = (1 - t) • Function.update u i (-h) + t • Function.update u i h := by
    ext j
    by_cases hj : j = i
    · subst hj; simpa using ht
    · simp [Function.update_of_ne hj]; ring
  rw [this, act_combo]
  exact hK h1 h2 (by linarith) t0 (by ring)

theorem box_subset_hull (s : Shape) (T : M4) {u : V3} (hu : ∀ i, |u i| ≤ s.half i) :
    act T u ∈ convexHull ℝ (Set.range (s.getVertices T)) := by
  have hK := convex_convexHull ℝ (Set.range (s.getVertices T))
  have hcorner : ∀ g, act T (s.corner g) ∈ convexHull ℝ (Set.range (s.getVertices T)) := by
    intro g
    obtain ⟨k, rfl⟩ := signs_surj g
    exact subset_convexHull ℝ _ ⟨k, vertices_eq s T k⟩
  have hcorner' : ∀ a b c : Bool, act T (Function.update (Function.update (Function.update u 0
      (if a then s.half 0 else -s.half 0)) 1 (if b then s.half 1 else -s.half 1)) 2
      (if c then s.half 2 else -s.half 2)) ∈ convexHull ℝ (Set.range (s.getVertices T)) := by
    intro a b c
    have : Function.update (Function.update (Function.update u 0
      (if a then s.half 0 else -s.half 0)) 1 (if b then s.half 1 else -s.half 1)) 2
      (if c then s.half 2 else -s.half 2) = s.corner ![a, b, c] := by
      ext i; cases a <;> cases b <;> cases c <;> fin_cases i <;> simp [Shape.corner, Function.update]
    rw [this]; exact hcorner _
  have s2 : ∀ a b : Bool, act T (Function.update (Function.update u 0
      (if a then s.half 0 else -s.half 0)) 1 (if b then s.half 1 else -s.half 1)) ∈
      convexHull ℝ (Set.range (s.getVertices T)) := by
    intro a b
    refine step_axis hK 2 (h := s.half 2) (by simpa [Function.update] using hu 2) ?_ ?_
    · simpa using hcorner' a b false
    · simpa using hcorner' a b true
  have s1 : ∀ a : Bool, act T (Function.update u 0 (if a then s.half 0 else -s.half 0)) ∈
      convexHull ℝ (Set.range (s.getVertices T)) := by
    intro a
    refine step_axis hK 1 (h := s.half 1) (by simpa [Function.update] using hu 1) ?_ ?_
    · simpa using s2 a false
    · simpa using s2 a true
  refine step_axis hK 0 (h := s.half 0) (hu 0) ?_ ?_
  · simpa using s1 false
  · simpa using s1 true

theorem convex_polyhedron (P : Polyhedron) : Convex ℝ {x : V3 | ∀ i, P.A i ⬝ᵥ x ≤ P.b i} := by
  intro x hx y hy a b ha hb hab i
  have h1 := mul_le_mul_of_nonneg_left (hx i) ha
  have h2 := mul_le_mul_of_nonneg_left (hy i) hb
  rw [dotProduct_add, dotProduct_smul, dotProduct_smul, smul_eq_mul, smul_eq_mul]
  have : a * P.b i + b * P.b i = P.b i := by rw [← add_mul, hab, one_mul]
  linarith

theorem corner_mem (s : Shape) (hs : ∀ i, 0 ≤ s.half i) (g : Fin 3 → Bool) (i : Fin 3) :
    |s.corner g i| ≤ s.half i := by
  unfold Shape.corner
  split
  · rw [abs_of_nonneg (hs i)]
  · rw [abs_neg, abs_of_nonneg (hs i)]

/-! ### Edges -/

/-- Vertex numbers of edge `k`. -/
def edgeIdx : Fin 12 → Fin 8 × Fin 8 :=
  ![(0, 1), (1, 3), (3, 2), (2, 0), (0, 4), (1, 5), (3, 7), (2, 6), (4, 5), (5, 7), (7, 6), (6, 4)]

theorem edges_eq (s : Shape) (T : M4) (k : Fin 12) :
    s.getEdges T k = (s.getVertices T (edgeIdx k).1, s.getVertices T (edgeIdx k).2) := by
  fin_cases k <;> rfl

theorem corner_injective {s : Shape} (hs : ∀ i, 0 < s.half i) : Function.Injective s.corner := by
  intro g h heq
  ext i
  have := congrFun heq i
  have hp := hs i
  unfold Shape.corner at this
  cases hg : g i <;> cases hh : h i <;> simp [hg, hh] at this ⊢ <;> linarith

theorem signs_injective : Function.Injective signs := by decide

theorem vertices_injective {s : Shape} (hs : ∀ i, 0 < s.half i) {T : M4} (hT : IsRigid T) :
    Function.Injective (s.getVertices T) := by
  intro i j h
  rw [vertices_eq, vertices_eq] at h
  exact signs_injective (corner_injective hs (act_injective hT h))

/-! ### Collections -/

variable {S : Type}

theorem innerLoop_iff (hit : Oracle S) (tf1 : M4) (s1 : S) (l : List (M4 × S)) :
    innerLoop hit tf1 s1 l = true ↔ ∃ p ∈ l, hit (place s1 tf1) (place p.2 p.1) = true := by
  induction l with
  | nil => simp [innerLoop]
  | cons p l ih =>
    obtain ⟨t, s⟩ := p
    simp only [innerLoop, List.mem_cons, exists_eq_or_imp]
    have e : shapeInCollision hit s1 tf1 s t = hit (place s1 tf1) (place s t) := rfl
    by_cases h : hit (place s1 tf1) (place s t) = true
    · rw [if_pos (e.trans h)]
      exact ⟨fun _ => .inl h, fun _ => rfl⟩
    · rw [if_neg (e ▸ h), ih]
      constructor
      · exact .inr
      · rintro (h' | h')
        · exact absurd h' h
        · exact h'

theorem outerLoop_iff (hit : Oracle S) (l m : List (M4 × S)) :
    outerLoop hit l m = true ↔
      ∃ p ∈ l, ∃ q ∈ m, hit (place p.2 p.1) (place q.2 q.1) = true := by
  induction l with
  | nil => simp [outerLoop]
  | cons p l ih =>
    obtain ⟨t, s⟩ := p
    simp only [outerLoop, List.mem_cons, exists_eq_or_imp]
    by_cases h : innerLoop hit t s m = true
    · rw [if_pos h]
      exact ⟨fun _ => .inl ((innerLoop_iff hit t s m).1 h), fun _ => rfl⟩
    · rw [if_neg h, ih]
      rw [innerLoop_iff] at h
      exact ⟨.inr, fun h' => h'.resolve_left h⟩

/-- The shapes of a collection with their places after a motion. -/
def Collection.placedAt (c : Collection S) (T : M4) : List (M4 × S) :=
  (c.tfS.zip c.s).map fun p => (T * p.1, p.2)

theorem moved_zip (c : Collection S) (tf : Option M4) :
    (moved tf c.tfS).zip c.s = c.placedAt (tf.getD 1) := by
  cases tf with
  | none => simp [moved, Collection.placedAt]
  | some T =>
    simp only [moved, Collection.placedAt, Option.getD_some]
    rw [List.zip_map_left]
    rfl

theorem isInCollision_iff (hit : Oracle S) (c d : Collection S) (t u : Option M4) :
    c.isInCollision hit d t u = true ↔ ∃ p ∈ c.placedAt (t.getD 1), ∃ q ∈ d.placedAt (u.getD 1),
      hit (place p.2 p.1) (place q.2 q.1) = true := by
  unfold Collection.isInCollision
  simp only [moved_zip]
  exact outerLoop_iff _ _ _

end Verif.Geometry
