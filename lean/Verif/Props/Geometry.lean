import Verif.Proofs.Geometry
import Verif.Props.Util
import Mathlib.Data.Fintype.Card
import Mathlib.Data.Sym.Sym2

/-! # C27, C28, C29: boxes and collections -/

namespace Verif.Props

open Matrix Verif.Geometry

/-- The points of the box in its own frame. -/
def boxPoints (s : Shape) : Set V3 := {u | |u 0| ≤ s.dx / 2 ∧ |u 1| ≤ s.dy / 2 ∧ |u 2| ≤ s.dz / 2}

/-- The points that satisfy `A x ≤ b`. -/
def polyPoints (P : Polyhedron) : Set V3 := {x | ∀ i, P.A i ⬝ᵥ x ≤ P.b i}

theorem boxPoints_half (s : Shape) (u : V3) : u ∈ boxPoints s ↔ ∀ i, |u i| ≤ s.half i := by
  simp [boxPoints, Shape.half, Fin.forall_fin_succ]

/-- **C27**: the polyhedron of a box placed with a rigid motion is exactly the image of the box. -/
theorem C27_polyhedron (s : Shape) {T : M4} (hT : IsRigid T) :
    polyPoints (s.getPolyhedron T) = act T '' boxPoints s := by
  ext x
  constructor
  · intro hx
    obtain ⟨u, rfl⟩ := act_surjective hT x
    exact ⟨u, (boxPoints_half s u).2 ((polyhedron_act s hT u).1 hx), rfl⟩
  · rintro ⟨u, hu, rfl⟩
    exact (polyhedron_act s hT u).2 ((boxPoints_half s u).1 hu)

/-- **C27**: for non-negative sides it is also the convex hull of the eight vertices. -/
theorem C27_convex_hull (s : Shape) (hx : 0 ≤ s.dx) (hy : 0 ≤ s.dy) (hz : 0 ≤ s.dz) {T : M4}
    (hT : IsRigid T) :
    polyPoints (s.getPolyhedron T) = convexHull ℝ (Set.range (s.getVertices T)) := by
  apply Set.Subset.antisymm
  · rw [C27_polyhedron s hT]
    rintro _ ⟨u, hu, rfl⟩
    exact box_subset_hull s T ((boxPoints_half s u).1 hu)
  · refine convexHull_min ?_ (convex_polyhedron _)
    rintro _ ⟨k, rfl⟩
    rw [vertices_eq]
    refine (polyhedron_act s hT _).2 (corner_mem s ?_ _)
    intro i
    fin_cases i <;> simp [Shape.half] <;> linarith

/-- Negative sides: the polyhedron is empty although there are vertices, so the hypothesis of the
theorem above is needed (PlanarArm builds such shapes for positive link lengths). -/
theorem C27_negative_side (s : Shape) (hx : s.dx < 0) {T : M4} (hT : IsRigid T) :
    polyPoints (s.getPolyhedron T) = ∅ := by
  rw [C27_polyhedron s hT, Set.image_eq_empty]
  ext u
  simp only [boxPoints, Set.mem_ofPred_eq, Set.mem_empty_iff_false, iff_false, not_and]
  intro h
  have := abs_nonneg (u 0)
  linarith

/-- A box of sides 1, 2, 3, half a turn about z and moved: its centre is inside. -/
example : (![1, 2, 3] : V3) ∈ polyPoints ((⟨1, 2, 3⟩ : Shape).getPolyhedron
    (Util.poseZ Real.pi 1 2 3)) := by
  rw [C27_polyhedron _ (C20_pose Real.pi 1 2 3).2.2.1.1]
  refine ⟨0, by simp [boxPoints]; norm_num, ?_⟩
  rw [((C20_pose Real.pi 1 2 3).2.2.1.2)]; simp

/-- The corner of the box on the sides given by the signs. -/
noncomputable def cornerPoint (s : Shape) (g : Fin 3 → Bool) : V3 :=
  ![if g 0 then s.dx / 2 else -(s.dx / 2), if g 1 then s.dy / 2 else -(s.dy / 2),
    if g 2 then s.dz / 2 else -(s.dz / 2)]

theorem cornerPoint_eq (s : Shape) (g : Fin 3 → Bool) : cornerPoint s g = s.corner g := by
  ext i; fin_cases i <;> simp [cornerPoint, Shape.corner, Shape.half]

/-- The sides as a vector. -/
def sides (s : Shape) : V3 := ![s.dx, s.dy, s.dz]

/-- **C28**, every edge joins two corners that differ in exactly one coordinate, and its length is
the side in that direction; each direction occurs four times. -/
theorem C28_edges (s : Shape) :
    ∃ axis : Fin 12 → Fin 3, (∀ a, (Finset.univ.filter fun k => axis k = a).card = 4) ∧
      ∀ (T : M4) (k : Fin 12),
        (∃ g : Fin 3 → Bool,
          (s.getEdges T k).1 = act T (cornerPoint s g) ∧
          (s.getEdges T k).2 = act T (cornerPoint s (Function.update g (axis k) (!g (axis k))))) ∧
        (IsRigid T → dist2 (s.getEdges T k).1 (s.getEdges T k).2 = sides s (axis k) ^ 2) := by
  let axis : Fin 12 → Fin 3 := ![2, 1, 2, 1, 0, 0, 0, 0, 2, 1, 2, 1]
  have hidx : ∀ k, signs (edgeIdx k).2 =
      Function.update (signs (edgeIdx k).1) (axis k) (!signs (edgeIdx k).1 (axis k)) := by decide
  refine ⟨axis, by decide, fun T k => ⟨⟨signs (edgeIdx k).1, ?_, ?_⟩, fun hT => ?_⟩⟩
  · rw [edges_eq, cornerPoint_eq, vertices_eq]
  · rw [edges_eq, cornerPoint_eq]
    simp only
    rw [vertices_eq, hidx]
  · rw [edges_eq]
    simp only
    rw [vertices_eq, vertices_eq, hT.dist2, hidx]
    generalize signs (edgeIdx k).1 = g
    generalize axis k = a
    simp only [dist2, dotProduct, Pi.sub_apply, Fin.sum_univ_succ, Shape.corner]
    fin_cases a <;> cases h0 : g 0 <;> cases h1 : g 1 <;> cases h2 : g 2 <;>
      simp [Function.update, h0, h1, h2, Shape.half, sides] <;> ring

/-- **C28**, completeness: for a box with positive sides, any two corners that differ in exactly one
coordinate are joined by exactly one of the twelve edges.  So the edges are twelve different ones. -/
theorem C28_wireframe (s : Shape) (hx : 0 < s.dx) (hy : 0 < s.dy) (hz : 0 < s.dz) {T : M4}
    (hT : IsRigid T) (g : Fin 3 → Bool) (a : Fin 3) :
    ∃! k : Fin 12, s((s.getEdges T k).1, (s.getEdges T k).2) =
      s(act T (cornerPoint s g), act T (cornerPoint s (Function.update g a (!g a)))) := by
  have hs : ∀ i, 0 < s.half i := by
    intro i; fin_cases i <;> simp [Shape.half] <;> linarith
  have hinj := vertices_injective hs hT
  have table : ∀ (i : Fin 8) (a : Fin 3), ∃ k : Fin 12, (∃ j : Fin 8,
      signs j = Function.update (signs i) a (!signs i a) ∧
      s((edgeIdx k).1, (edgeIdx k).2) = s(i, j)) ∧ ∀ k' : Fin 12, (∃ j : Fin 8,
      signs j = Function.update (signs i) a (!signs i a) ∧
      s((edgeIdx k').1, (edgeIdx k').2) = s(i, j)) → k' = k := by decide +kernel
  obtain ⟨i, rfl⟩ := signs_surj g
  obtain ⟨j, hj⟩ := signs_surj (Function.update (signs i) a (!signs i a))
  have hmap : ∀ k, (s((s.getEdges T k).1, (s.getEdges T k).2) =
      s(act T (cornerPoint s (signs i)),
        act T (cornerPoint s (Function.update (signs i) a (!signs i a))))) ↔
      s((edgeIdx k).1, (edgeIdx k).2) = s(i, j) := by
    intro k
    rw [edges_eq, cornerPoint_eq, cornerPoint_eq, ← hj, ← vertices_eq, ← vertices_eq]
    simp only
    rw [← Sym2.map_mk, ← Sym2.map_mk]
    exact (Sym2.map.injective hinj).eq_iff
  obtain ⟨k, ⟨j', hj', hk⟩, huniq⟩ := table i a
  obtain rfl : j' = j := signs_injective (hj'.trans hj.symm)
  exact ⟨k, (hmap k).2 hk, fun k' hk' => huniq k' ⟨_, hj', (hmap k').1 hk'⟩⟩

open Classical in
/-- **C28**, degree: every vertex of a box with positive sides is an end of exactly three edges. -/
theorem C28_degree (s : Shape) (hx : 0 < s.dx) (hy : 0 < s.dy) (hz : 0 < s.dz) {T : M4}
    (hT : IsRigid T) (i : Fin 8) :
    (Finset.univ.filter fun k : Fin 12 => s.getVertices T i = (s.getEdges T k).1 ∨
      s.getVertices T i = (s.getEdges T k).2).card = 3 := by
  have hs : ∀ i, 0 < s.half i := by
    intro i; fin_cases i <;> simp [Shape.half] <;> linarith
  have hinj := vertices_injective hs hT
  have table : ∀ i : Fin 8, (Finset.univ.filter fun k : Fin 12 =>
      i = (edgeIdx k).1 ∨ i = (edgeIdx k).2).card = 3 := by decide
  refine Eq.trans ?_ (table i)
  congr 1
  ext k
  simp only [Finset.mem_filter, Finset.mem_univ, true_and, edges_eq, hinj.eq_iff]

/-! ### Collections -/

variable {S : Type}

/-- A symmetric oracle. -/
def OracleSymm (hit : Oracle S) : Prop := ∀ p q, hit p q = hit q p

/-- An oracle that does not change its answer when both shapes are moved rigidly. -/
def OracleInvariant (hit : Oracle S) : Prop := ∀ (Q : M3) (c : V3) (p q : Placed S), IsRot Q →
  hit ⟨p.shape, Q * p.rot, Q *ᵥ p.pos + c⟩ ⟨q.shape, Q * q.rot, Q *ᵥ q.pos + c⟩ = hit p q

/-- **C29**, any pair: the answer is True iff some shape of the one collection, placed at
`tf_self * tf_shape`, hits some shape of the other, placed at `tf_other * tf_shape`. -/
theorem C29_any_pair (hit : Oracle S) (c d : Collection S) (A B : M4) :
    c.isInCollision hit d (some A) (some B) = true ↔
      ∃ (i j : Nat) (s s' : S) (t t' : M4), c.s[i]? = some s ∧ c.tfS[i]? = some t ∧
        d.s[j]? = some s' ∧ d.tfS[j]? = some t' ∧
        hit ⟨s, rotPart (A * t), posPart (A * t)⟩ ⟨s', rotPart (B * t'), posPart (B * t')⟩ = true := by
  rw [isInCollision_iff]
  have hmem : ∀ (c : Collection S) (A : M4) (p : M4 × S), p ∈ c.placedAt A ↔
      ∃ (i : Nat) (s : S) (t : M4), c.s[i]? = some s ∧ c.tfS[i]? = some t ∧ p = (A * t, s) := by
    intro c A p
    simp only [Collection.placedAt, List.mem_map]
    constructor
    · rintro ⟨⟨t, s⟩, hz, rfl⟩
      obtain ⟨i, hi⟩ := List.mem_iff_getElem?.1 hz
      rw [List.getElem?_zip_eq_some] at hi
      exact ⟨i, s, t, hi.2, hi.1, rfl⟩
    · rintro ⟨i, s, t, h1, h2, rfl⟩
      exact ⟨(t, s), List.mem_of_getElem? (List.getElem?_zip_eq_some.2 ⟨h2, h1⟩), rfl⟩
  simp only [hmem, Option.getD_some]
  constructor
  · rintro ⟨p, ⟨i, s, t, h1, h2, rfl⟩, q, ⟨j, s', t', h3, h4, rfl⟩, h⟩
    exact ⟨i, j, s, s', t, t', h1, h2, h3, h4, h⟩
  · rintro ⟨i, j, s, s', t, t', h1, h2, h3, h4, h⟩
    exact ⟨_, ⟨i, s, t, h1, h2, rfl⟩, _, ⟨j, s', t', h3, h4, rfl⟩, h⟩

/-- **C29**, no transform means the identity. -/
theorem C29_default (hit : Oracle S) (c d : Collection S) (A : M4) :
    c.isInCollision hit d none none = c.isInCollision hit d (some 1) (some 1) ∧
    c.isInCollision hit d (some A) none = c.isInCollision hit d (some A) (some 1) ∧
    c.isInCollision hit d none (some A) = c.isInCollision hit d (some 1) (some A) := by
  refine ⟨?_, ?_, ?_⟩ <;> rw [Bool.eq_iff_iff, isInCollision_iff, isInCollision_iff] <;> rfl

/-- **C29**, symmetric for a symmetric oracle. -/
theorem C29_symmetric {hit : Oracle S} (hs : OracleSymm hit) (c d : Collection S)
    (t u : Option M4) : c.isInCollision hit d t u = d.isInCollision hit c u t := by
  rw [Bool.eq_iff_iff, isInCollision_iff, isInCollision_iff]
  constructor <;>
  · rintro ⟨p, hp, q, hq, h⟩
    exact ⟨q, hq, p, hp, by rw [hs]; exact h⟩

/-- **C29**, adding shapes (each with its transform) can only add collisions. -/
theorem C29_monotone (hit : Oracle S) {c c' d d' : Collection S}
    (hc : ∀ p ∈ c.tfS.zip c.s, p ∈ c'.tfS.zip c'.s) (hd : ∀ p ∈ d.tfS.zip d.s, p ∈ d'.tfS.zip d'.s)
    (t u : Option M4) (h : c.isInCollision hit d t u = true) :
    c'.isInCollision hit d' t u = true := by
  rw [isInCollision_iff] at h ⊢
  obtain ⟨p, hp, q, hq, hh⟩ := h
  simp only [Collection.placedAt, List.mem_map] at hp hq ⊢
  obtain ⟨p', hp', rfl⟩ := hp
  obtain ⟨q', hq', rfl⟩ := hq
  exact ⟨_, ⟨p', hc _ hp', rfl⟩, _, ⟨q', hd _ hq', rfl⟩, hh⟩

/-- **C29**, a collection without shapes hits nothing. -/
theorem C29_empty (hit : Oracle S) (tfs : List M4) (d : Collection S) (t u : Option M4) :
    (⟨[], tfs⟩ : Collection S).isInCollision hit d t u = false ∧
      d.isInCollision hit ⟨[], tfs⟩ t u = false := by
  constructor <;> rw [← Bool.not_eq_true, isInCollision_iff] <;>
    simp [Collection.placedAt]

/-- **C29**, moving both collections by one rigid motion changes nothing, for an invariant
oracle. -/
theorem C29_invariant {hit : Oracle S} (hi : OracleInvariant hit) {c d : Collection S}
    (hc : ∀ t ∈ c.tfS, IsRigid t) (hd : ∀ t ∈ d.tfS, IsRigid t) {M A B : M4} (hM : IsRigid M)
    (hA : IsRigid A) (hB : IsRigid B) :
    c.isInCollision hit d (some (M * A)) (some (M * B)) =
      c.isInCollision hit d (some A) (some B) := by
  have key : ∀ {t t' : M4} (s s' : S), IsRigid t → IsRigid t' →
      hit (place s (M * A * t)) (place s' (M * B * t')) = hit (place s (A * t)) (place s' (B * t')) := by
    intro t t' s s' ht ht'
    rw [← hi (rotPart M) (posPart M) (place s (A * t)) (place s' (B * t')) hM.1]
    simp only [place]
    rw [mul_assoc, mul_assoc, rotPart_mul hM.2 (hA.mul ht).2, posPart_mul hM.2 (hA.mul ht).2,
      rotPart_mul hM.2 (hB.mul ht').2, posPart_mul hM.2 (hB.mul ht').2]
    rfl
  rw [Bool.eq_iff_iff, isInCollision_iff, isInCollision_iff]
  simp only [Collection.placedAt, Option.getD_some, List.mem_map]
  constructor
  · rintro ⟨_, ⟨p, hp, rfl⟩, _, ⟨q, hq, rfl⟩, h⟩
    refine ⟨_, ⟨p, hp, rfl⟩, _, ⟨q, hq, rfl⟩, ?_⟩
    rwa [key _ _ (hc _ (List.of_mem_zip hp).1) (hd _ (List.of_mem_zip hq).1)] at h
  · rintro ⟨_, ⟨p, hp, rfl⟩, _, ⟨q, hq, rfl⟩, h⟩
    refine ⟨_, ⟨p, hp, rfl⟩, _, ⟨q, hq, rfl⟩, ?_⟩
    rwa [key _ _ (hc _ (List.of_mem_zip hp).1) (hd _ (List.of_mem_zip hq).1)]

open Classical in
/-- The exact oracle for boxes: the two placed boxes have a point in common. -/
noncomputable def boxOracle : Oracle Shape := fun p q =>
  decide (∃ u ∈ boxPoints p.shape, ∃ v ∈ boxPoints q.shape,
    p.rot *ᵥ u + p.pos = q.rot *ᵥ v + q.pos)

theorem boxOracle_iff (p q : Placed Shape) : boxOracle p q = true ↔
    ∃ u ∈ boxPoints p.shape, ∃ v ∈ boxPoints q.shape,
      p.rot *ᵥ u + p.pos = q.rot *ᵥ v + q.pos := by
  classical
  simp [boxOracle]

/-- The exact oracle meets both hypotheses. -/
theorem boxOracle_ok : OracleSymm boxOracle ∧ OracleInvariant boxOracle := by
  constructor
  · intro p q
    simp only [boxOracle, decide_eq_decide]
    constructor <;>
    · rintro ⟨u, hu, v, hv, h⟩
      exact ⟨v, hv, u, hu, h.symm⟩
  · intro Q c p q hQ
    simp only [boxOracle, decide_eq_decide]
    have e : ∀ (R : M3) (x u : V3), (Q * R) *ᵥ u + (Q *ᵥ x + c) = Q *ᵥ (R *ᵥ u + x) + c := by
      intro R x u
      rw [Matrix.mulVec_add, Matrix.mulVec_mulVec, add_assoc]
    simp only [e]
    have inj : ∀ x y : V3, Q *ᵥ x + c = Q *ᵥ y + c ↔ x = y := by
      intro x y
      constructor
      · intro h
        have := congrArg (Qᵀ *ᵥ ·) (add_right_cancel h)
        simpa [Matrix.mulVec_mulVec, hQ.1] using this
      · rintro rfl; rfl
    simp only [inj]

/-- **C29** with the exact oracle: collections of boxes are reported as colliding iff the polyhedra
of `get_polyhedrons`, i.e. the boxes themselves, have a common point. -/
theorem C29_geometric {c d : Collection Shape} (hc : ∀ t ∈ c.tfS, IsRigid t)
    (hd : ∀ t ∈ d.tfS, IsRigid t) :
    c.isInCollision boxOracle d = true ↔
      ∃ P ∈ c.getPolyhedrons, ∃ Q ∈ d.getPolyhedrons, (polyPoints P ∩ polyPoints Q).Nonempty := by
  rw [isInCollision_iff]
  have hz : ∀ (c : Collection Shape) (p : M4 × Shape), p ∈ c.placedAt 1 ↔ (p.2, p.1) ∈ c.s.zip c.tfS := by
    intro c p
    simp only [Collection.placedAt, one_mul]
    rw [show (fun p : M4 × Shape => (p.1, p.2)) = id from rfl, List.map_id, ← List.zip_swap,
      List.mem_map]
    constructor
    · rintro ⟨a, ha, rfl⟩; exact ha
    · intro h; exact ⟨_, h, rfl⟩
  simp only [Collection.getPolyhedrons, List.mem_map, Option.getD_none, hz]
  constructor
  · rintro ⟨p, hp, q, hq, h⟩
    refine ⟨_, ⟨_, hp, rfl⟩, _, ⟨_, hq, rfl⟩, ?_⟩
    rw [boxOracle_iff] at h
    obtain ⟨u, hu, v, hv, e⟩ := h
    refine ⟨act p.1 u, ?_, ?_⟩
    · rw [C27_polyhedron _ (hc _ (List.of_mem_zip hp).2)]; exact ⟨u, hu, rfl⟩
    · rw [C27_polyhedron _ (hd _ (List.of_mem_zip hq).2)]; exact ⟨v, hv, e.symm⟩
  · rintro ⟨_, ⟨p, hp, rfl⟩, _, ⟨q, hq, rfl⟩, x, hx1, hx2⟩
    rw [C27_polyhedron _ (hc _ (List.of_mem_zip hp).2)] at hx1
    rw [C27_polyhedron _ (hd _ (List.of_mem_zip hq).2)] at hx2
    obtain ⟨u, hu, rfl⟩ := hx1
    obtain ⟨v, hv, e⟩ := hx2
    refine ⟨(p.2, p.1), hp, (q.2, q.1), hq, ?_⟩
    rw [boxOracle_iff]
    exact ⟨u, hu, v, hv, e.symm⟩

/-- Two unit boxes one half apart collide. -/
example : (⟨[⟨1, 1, 1⟩], [1]⟩ : Collection Shape).isInCollision boxOracle
    ⟨[⟨1, 1, 1⟩], [Util.translation (1 / 2) 0 0]⟩ = true := by
  have ht := (C20_pose 0 (1 / 2) 0 0).2.2.2.1
  rw [C29_geometric (by intro t h; rw [List.mem_singleton.1 h]; exact IsRigid.one)
    (by intro t h; rw [List.mem_singleton.1 h]; exact ht)]
  refine ⟨_, List.mem_singleton.2 rfl, _, List.mem_singleton.2 rfl, ![1 / 2, 0, 0], ?_, ?_⟩
  · rw [C27_polyhedron _ IsRigid.one]
    exact ⟨![1 / 2, 0, 0], by simp [boxPoints], act_one _⟩
  · rw [C27_polyhedron _ (C20_pose 0 (1 / 2) 0 0).2.2.2.1]
    refine ⟨0, by simp [boxPoints], ?_⟩
    rw [(C20_pose 0 (1 / 2) 0 0).2.2.2.2]; simp

/-- C27: cases of `C27_convex_hull` and `C27_negative_side`, half a turn about z and moved. -/
example : polyPoints ((⟨1, 2, 0⟩ : Shape).getPolyhedron (Util.poseZ Real.pi 1 2 3)) =
      convexHull ℝ (Set.range ((⟨1, 2, 0⟩ : Shape).getVertices (Util.poseZ Real.pi 1 2 3))) ∧
    polyPoints ((⟨-1, 2, 3⟩ : Shape).getPolyhedron (Util.poseZ Real.pi 1 2 3)) = ∅ := by
  have h := (C20_pose Real.pi 1 2 3).2.2.1.1
  exact ⟨C27_convex_hull _ (by norm_num) (by norm_num) le_rfl h, C27_negative_side _ (by norm_num) h⟩

/-- C28: cases of `C28_wireframe` and `C28_degree`, for the box of sides 1, 2, 3. -/
example (i : Fin 8) : (∃! k : Fin 12,
      s(((⟨1, 2, 3⟩ : Shape).getEdges (Util.poseZ Real.pi 1 2 3) k).1,
        ((⟨1, 2, 3⟩ : Shape).getEdges (Util.poseZ Real.pi 1 2 3) k).2) =
      s(act (Util.poseZ Real.pi 1 2 3) (cornerPoint ⟨1, 2, 3⟩ fun _ => false),
        act (Util.poseZ Real.pi 1 2 3) (cornerPoint ⟨1, 2, 3⟩
          (Function.update (fun _ => false) 1 true)))) ∧
    (Finset.univ.filter fun k : Fin 12 =>
      (⟨1, 2, 3⟩ : Shape).getVertices (Util.poseZ Real.pi 1 2 3) i =
        ((⟨1, 2, 3⟩ : Shape).getEdges (Util.poseZ Real.pi 1 2 3) k).1 ∨
      (⟨1, 2, 3⟩ : Shape).getVertices (Util.poseZ Real.pi 1 2 3) i =
        ((⟨1, 2, 3⟩ : Shape).getEdges (Util.poseZ Real.pi 1 2 3) k).2).card = 3 := by
  have h := (C20_pose Real.pi 1 2 3).2.2.1.1
  exact ⟨C28_wireframe _ (by norm_num) (by norm_num) (by norm_num) h (fun _ => false) 1,
    C28_degree _ (by norm_num) (by norm_num) (by norm_num) h i⟩

/-- C29: cases of `C29_symmetric`, `C29_monotone` and `C29_invariant` with the exact oracle. -/
example (d : Collection Shape) (hd : ∀ t ∈ d.tfS, IsRigid t) (s : Shape) :
    (⟨[s], [1]⟩ : Collection Shape).isInCollision boxOracle d =
      d.isInCollision boxOracle ⟨[s], [1]⟩ ∧
    ((⟨[s], [1]⟩ : Collection Shape).isInCollision boxOracle d = true →
      (⟨[⟨1, 2, 3⟩, s], [Util.translation 4 5 6, 1]⟩ : Collection Shape).isInCollision boxOracle d =
        true) ∧
    (⟨[s], [1]⟩ : Collection Shape).isInCollision boxOracle d
        (some (Util.poseZ Real.pi 1 2 3 * 1)) (some (Util.poseZ Real.pi 1 2 3 * 1)) =
      (⟨[s], [1]⟩ : Collection Shape).isInCollision boxOracle d (some 1) (some 1) :=
  ⟨C29_symmetric boxOracle_ok.1 _ _ none none,
    C29_monotone boxOracle (by simp) (fun _ h => h) none none,
    C29_invariant boxOracle_ok.2 (by intro t h; rw [List.mem_singleton.1 h]; exact IsRigid.one) hd
      (C20_pose Real.pi 1 2 3).2.2.1.1 IsRigid.one IsRigid.one⟩

end Verif.Props
