import Verif.Props.Cover

/-!
# C113: the bodies of the links and the self-collision check

The exact space every link of the shipped robots takes, seen from its own frame, and what the band
of the collision matrix (robot.py:115-118, "do not check link neighbours") means for it: neighbours
always touch, so that leaving them out is necessary; but the band also leaves out the links next to
the neighbours, and the Kuka has configurations in which two of these run through each other.
-/

set_option linter.unusedSectionVars false

namespace Verif.Props

open Matrix Verif.Geometry Verif.Kin Verif.Util

/-- The points inside the shapes of link `k`. -/
def linkBody (r : Robot Shape) (q : List ℝ) (k : Nat) : Set V3 :=
  {x | ∃ (i : Nat) (l : Link Shape) (s : Shape) (t : M4), r.links[k]? = some l ∧
    l.geometry.s[i]? = some s ∧ l.geometry.tfS[i]? = some t ∧
    x ∈ act (frameOf r q k * t) '' boxPoints s}

/-- Seen from its own frame, link `k` is the box from corner `lo` to corner `hi`. -/
def Fills (r : Robot Shape) (q : List ℝ) (k : Nat) (lo hi : V3) : Prop :=
  ∀ u, act (frameOf r q k) u ∈ linkBody r q k ↔ ∀ i, lo i ≤ u i ∧ u i ≤ hi i

theorem frame_rigid (r : Robot Shape) (hb : IsRigid r.tfBase) (q : List ℝ) (k : Nat) :
    IsRigid (frameOf r q k) := by
  unfold frameOf
  rw [linkProduct_eq]
  exact hb.mul (chain_rigid _ _)

theorem fills_of (r : Robot Shape) (hb : IsRigid r.tfBase) (q : List ℝ) {k : Nat} {l : Link Shape}
    {s : Shape} {c lo hi : V3} (hl : r.links[k]? = some l) (hg : l.geometry = ⟨[s], [mkTf 1 c]⟩)
    (hlo : lo = ![c 0 - s.dx / 2, c 1 - s.dy / 2, c 2 - s.dz / 2])
    (hhi : hi = ![c 0 + s.dx / 2, c 1 + s.dy / 2, c 2 + s.dz / 2]) : Fills r q k lo hi := by
  have hF := frame_rigid r hb q k
  have hr : (mkTf 1 c) 3 = ![0, 0, 0, 1] := by
    ext j; fin_cases j <;> simp [mkTf]
  have hact : ∀ u, act (frameOf r q k * mkTf 1 c) u = act (frameOf r q k) (u + c) := by
    intro u
    rw [act_mul hF.2 hr]
    congr 1
    simp [act]
  intro u
  subst hlo hhi
  constructor
  · rintro ⟨i, l', s', t, hl', hs, ht, v, hv, he⟩
    rw [hl] at hl'
    cases hl'
    rw [hg] at hs ht
    have hi : i = 0 := by
      have := (List.getElem?_eq_some_iff.1 hs).1
      simpa using this
    subst hi
    cases hs
    cases ht
    rw [hact] at he
    have hu := act_injective hF he
    subst hu
    obtain ⟨h0, h1, h2⟩ := hv
    rw [abs_le] at h0 h1 h2
    intro i
    fin_cases i
    · show c 0 - s.dx / 2 ≤ v 0 + c 0 ∧ v 0 + c 0 ≤ c 0 + s.dx / 2
      constructor <;> linarith [h0.1, h0.2]
    · show c 1 - s.dy / 2 ≤ v 1 + c 1 ∧ v 1 + c 1 ≤ c 1 + s.dy / 2
      constructor <;> linarith [h1.1, h1.2]
    · show c 2 - s.dz / 2 ≤ v 2 + c 2 ∧ v 2 + c 2 ≤ c 2 + s.dz / 2
      constructor <;> linarith [h2.1, h2.2]
  · intro h
    have h0 : c 0 - s.dx / 2 ≤ u 0 ∧ u 0 ≤ c 0 + s.dx / 2 := h 0
    have h1 : c 1 - s.dy / 2 ≤ u 1 ∧ u 1 ≤ c 1 + s.dy / 2 := h 1
    have h2 : c 2 - s.dz / 2 ≤ u 2 ∧ u 2 ≤ c 2 + s.dz / 2 := h 2
    refine ⟨0, l, s, mkTf 1 c, hl, by rw [hg]; rfl, by rw [hg]; rfl, u - c, ⟨?_, ?_, ?_⟩, ?_⟩
    · rw [Pi.sub_apply, abs_le]; constructor <;> linarith [h0.1, h0.2]
    · rw [Pi.sub_apply, abs_le]; constructor <;> linarith [h1.1, h1.2]
    · rw [Pi.sub_apply, abs_le]; constructor <;> linarith [h2.1, h2.2]
    · rw [hact, sub_add_cancel]

theorem translation_eq (x y z : ℝ) : translation x y z = mkTf 1 ![x, y, z] := by
  ext i j; fin_cases i <;> fin_cases j <;> simp [translation, mkTf]

/-- One box, moved. -/
def moved (dx dy dz x y z : ℝ) : Collection Shape := ⟨[⟨dx, dy, dz⟩], [mkTf 1 ![x, y, z]]⟩

theorem fills_box (r : Robot Shape) (hb : IsRigid r.tfBase) (q : List ℝ) {k : Nat} {l : Link Shape}
    {dx dy dz x y z : ℝ} (hl : r.links[k]? = some l) (hg : l.geometry = moved dx dy dz x y z)
    {a b c a' b' c' : ℝ} (h : a = x - dx / 2 ∧ b = y - dy / 2 ∧ c = z - dz / 2 ∧
      a' = x + dx / 2 ∧ b' = y + dy / 2 ∧ c' = z + dz / 2) :
    Fills r q k ![a, b, c] ![a', b', c'] := by
  obtain ⟨rfl, rfl, rfl, rfl, rfl, rfl⟩ := h
  exact fills_of r hb q hl hg rfl rfl

theorem moved_poseX (dx dy dz x y z : ℝ) :
    (⟨[⟨dx, dy, dz⟩], [poseX 0 x y z]⟩ : Collection Shape) = moved dx dy dz x y z := by
  rw [poseX_zero]; rfl

theorem moved_translation (dx dy dz x y z : ℝ) :
    (⟨[⟨dx, dy, dz⟩], [translation x y z]⟩ : Collection Shape) = moved dx dy dz x y z := by
  rw [translation_eq]; rfl

theorem moved_one (dx dy dz : ℝ) :
    (⟨[⟨dx, dy, dz⟩], [1]⟩ : Collection Shape) = moved dx dy dz 0 0 0 := by
  have h0 : (![0, 0, 0] : V3) = 0 := by ext i; fin_cases i <;> rfl
  unfold moved
  rw [h0, mkTf_one]

theorem no_body (r : Robot Shape) (q : List ℝ) {k : Nat} (hk : r.links.length ≤ k) :
    linkBody r q k = ∅ := by
  ext x
  simp only [Set.mem_empty_iff_false, iff_false]
  rintro ⟨i, l, s, t, hl, -⟩
  rw [List.getElem?_eq_none hk] at hl
  cases hl

/-- C113: the six links of the Kuka, for all lengths and configurations and every rigid base. -/
theorem C113_kuka (a1 a2 d4 d6 : ℝ) (r : Robot Shape)
    (hr : r.links = (kukaRobot a1 a2 d4 d6).links) (hb : IsRigid r.tfBase) (q : List ℝ) :
    Fills r q 0 ![-0.24, -0.1, 0] ![0.06, 0.1, 0.1] ∧
    Fills r q 1 ![-0.7, -0.1, -0.1] ![0.1, 0.1, 0] ∧
    Fills r q 2 ![-0.1, 0, -0.08] ![0.1, 0.1, 0.42] ∧
    Fills r q 3 ![-0.05, 0, -0.05] ![0.05, 0.2, 0.05] ∧
    Fills r q 4 ![-0.05, -0.05, 0] ![0.05, 0.05, 0.085] ∧
    Fills r q 5 ![-0.05, -0.05, -0.03] ![0.05, 0.05, 0] ∧ ∀ k, 6 ≤ k → linkBody r q k = ∅ := by
  refine ⟨?_, ?_, ?_, ?_, ?_, ?_, fun k hk => no_body r q (by rw [hr]; exact hk)⟩ <;>
  · refine fills_box r hb q (by rw [hr]; rfl) (moved_poseX _ _ _ _ _ _) ?_
    norm_num

/-- C113: the carriage and the six links of KukaOnRail. -/
theorem C113_rail (a1 a2 d4 d6 : ℝ) (r : Robot Shape)
    (hr : r.links = (railRobot a1 a2 d4 d6).links) (hb : IsRigid r.tfBase) (q : List ℝ) :
    Fills r q 0 ![-0.1, -0.1, -0.2] ![0.1, 0.1, -0.1] ∧
    Fills r q 1 ![-0.24, -0.1, 0] ![0.06, 0.1, 0.1] ∧
    Fills r q 2 ![-0.7, -0.1, -0.1] ![0.1, 0.1, 0] ∧
    Fills r q 3 ![-0.1, 0, -0.08] ![0.1, 0.1, 0.42] ∧
    Fills r q 4 ![-0.05, 0, -0.05] ![0.05, 0.2, 0.05] ∧
    Fills r q 5 ![-0.05, -0.05, 0] ![0.05, 0.05, 0.085] ∧
    Fills r q 6 ![-0.05, -0.05, -0.03] ![0.05, 0.05, 0] ∧ ∀ k, 7 ≤ k → linkBody r q k = ∅ := by
  refine ⟨?_, ?_, ?_, ?_, ?_, ?_, ?_, fun k hk => no_body r q (by rw [hr]; exact hk)⟩ <;>
  · refine fills_box r hb q (by rw [hr]; rfl) (moved_poseX _ _ _ _ _ _) ?_
    norm_num

/-- C113: the links of AnthropomorphicArm reach from the frame before to their own. -/
theorem C113_anthropomorphic (a2 a3 : ℝ) (r : Robot Shape)
    (hr : r.links = (anthropomorphicArm a2 a3).links) (hb : IsRigid r.tfBase) (q : List ℝ) :
    Fills r q 0 ![-0.1, -0.15, -0.15] ![0, 0.15, 0.15] ∧
    Fills r q 1 ![-a2, -0.05, -0.05] ![0, 0.05, 0.05] ∧
    Fills r q 2 ![-a3, -0.05, -0.05] ![0, 0.05, 0.05] ∧ ∀ k, 3 ≤ k → linkBody r q k = ∅ := by
  refine ⟨?_, ?_, ?_, fun k hk => no_body r q (by rw [hr]; exact hk)⟩ <;>
  · refine fills_box r hb q (by rw [hr]; rfl) (moved_translation _ _ _ _ _ _) ?_
    norm_num <;> ring_nf <;> simp

/-- C113: the shapes of Arm2 are centred at the frames of their links: one half sticks out beyond the
joint, the other covers only half of the link. -/
theorem C113_arm2 (a1 a2 a3 : ℝ) (r : Robot Shape)
    (hr : r.links = (arm2 a1 a2 a3).links) (hb : IsRigid r.tfBase) (q : List ℝ) :
    Fills r q 0 ![-a1 / 2, -0.05, -0.05] ![a1 / 2, 0.05, 0.05] ∧
    Fills r q 1 ![-a2 / 2, -0.05, -0.05] ![a2 / 2, 0.05, 0.05] ∧
    Fills r q 2 ![-a3 / 2, -0.05, -0.05] ![a3 / 2, 0.05, 0.05] ∧
    ∀ k, 3 ≤ k → linkBody r q k = ∅ := by
  refine ⟨?_, ?_, ?_, fun k hk => no_body r q (by rw [hr]; exact hk)⟩ <;>
  · refine fills_box r hb q (by rw [hr]; rfl) (moved_one _ _ _) ?_
    norm_num
    ring

/-- C113: every link of SphericalArm and of SphericalWrist has the same shape, whatever its
length. -/
theorem C113_spherical (d : ℝ) (r : Robot Shape)
    (hr : r.links = (sphericalArm d).links ∨ r.links = (sphericalWrist d).links)
    (hb : IsRigid r.tfBase) (q : List ℝ) :
    (∀ k < 3, Fills r q k ![-0.5, -0.05, -0.05] ![0.5, 0.05, 0.05]) ∧
    ∀ k, 3 ≤ k → linkBody r q k = ∅ := by
  constructor
  · intro k hk
    rcases hr with hr | hr <;> rcases k with _ | _ | _ | k
    all_goals first
      | omega
      | (refine fills_box r hb q (by rw [hr]; rfl) (moved_one _ _ _) ?_
         norm_num)
  · intro k hk
    exact no_body r q (by rcases hr with hr | hr <;> rw [hr] <;> exact hk)

/-- A point of a link, seen from the frame of the link. -/
theorem Fills.mem {r : Robot Shape} (hb : IsRigid r.tfBase) {q : List ℝ} {k : Nat} {lo hi : V3}
    (h : Fills r q k lo hi) {x : V3} (hx : x ∈ linkBody r q k) :
    ∃ u, act (frameOf r q k) u = x ∧ ∀ i, lo i ≤ u i ∧ u i ≤ hi i := by
  obtain ⟨u, rfl⟩ := act_surjective (frame_rigid r hb q k) x
  exact ⟨u, rfl, (h u).1 hx⟩

/-- Two links touch, for a collision library that reports exactly the boxes with a common point, if
and only if their bodies have a common point. -/
theorem touch_bodies (r : Robot Shape) (q : List ℝ) {i j : Nat} {li lj : Link Shape}
    (hi : r.links[i]? = some li) (hj : r.links[j]? = some lj) :
    Touch boxOracle li.geometry (frameOf r q i) lj.geometry (frameOf r q j) ↔
      (linkBody r q i ∩ linkBody r q j).Nonempty := by
  constructor
  · rintro ⟨m, n, s, s', t, t', h1, h2, h3, h4, h⟩
    obtain ⟨u, hu, v, hv, he⟩ := (boxOracle_iff _ _).1 h
    exact ⟨act (frameOf r q i * t) u, ⟨m, li, s, t, hi, h1, h2, u, hu, rfl⟩,
      ⟨n, lj, s', t', hj, h3, h4, v, hv, he.symm⟩⟩
  · rintro ⟨x, ⟨m, l, s, t, g1, g2, g3, u, hu, rfl⟩, ⟨n, l', s', t', k1, k2, k3, v, hv, he⟩⟩
    rw [hi] at g1
    rw [hj] at k1
    cases g1
    cases k1
    exact ⟨m, n, s, s', t, t', g2, g3, k2, k3, (boxOracle_iff _ _).2 ⟨u, hu, v, hv, he.symm⟩⟩

/-- The Kuka of the package. -/
noncomputable def shippedKuka : Robot Shape := kukaRobot 0.18 0.6 0.62 0.115

/-- The full property, as the comment in the source says ("do not check link neighbours"): any two
links of the Kuka that are not neighbours and have a common point are reported, with a collision
library that is exact, in an empty scene. -/
def C113_statement : Prop := ∀ (q : List ℝ) (i j : Nat), q.length = 6 → i + 2 ≤ j → j < 6 →
  (linkBody shippedKuka q i ∩ linkBody shippedKuka q j).Nonempty →
  (shippedKuka.isInCollision boxOracle (after boxOracle shippedKuka.links []) q ⟨[], []⟩).1 = .ok true

theorem shipped_known : KnownTypes shippedKuka.links := by
  intro l hl
  simp only [shippedKuka, kukaRobot, Robot.new, List.mem_cons, List.not_mem_nil, or_false] at hl
  rcases hl with rfl | rfl | rfl | rfl | rfl | rfl <;> exact Or.inl rfl

/-- **C113**, partial: links with an index difference of at least three are reported.  Missing: those
with a difference of two. -/
theorem C113_partial (q : List ℝ) (i j : Nat) (hq : q.length = 6) (hij : i + 3 ≤ j) (hj : j < 6)
    (h : (linkBody shippedKuka q i ∩ linkBody shippedKuka q j).Nonempty) (scene : Collection Shape)
    (history : List (Call Shape)) (hh : ∀ c ∈ history, c.robot.links = shippedKuka.links) :
    (shippedKuka.isInCollision boxOracle (after boxOracle shippedKuka.links history) q scene).1 =
      .ok true := by
  obtain ⟨b, h1, h2⟩ := C33_answer boxOracle shippedKuka shipped_known rfl (Or.inl rfl) history hh q
    hq.ge scene
  have hlen : shippedKuka.links.length = 6 := rfl
  have gi : shippedKuka.links[i]? = some (shippedKuka.links[i]'(by omega)) :=
    List.getElem?_eq_getElem _
  have gj : shippedKuka.links[j]? = some (shippedKuka.links[j]'(by omega)) :=
    List.getElem?_eq_getElem _
  rw [h1, h2.2 (Or.inr ⟨rfl, Or.inl ⟨i, j, _, _, Or.inl hij, gi, gj, (touch_bodies _ _ gi gj).2 h⟩⟩)]

theorem touch_next (r : Robot Shape) (hb : IsRigid r.tfBase) {q : List ℝ} {k : Nat}
    {l : Link Shape} {x : ℝ} (hl : r.links[k + 1]? = some l) (hq : q[k + 1]? = some x)
    {lo hi lo' hi' : V3} (h : Fills r q k lo hi) (h' : Fills r q (k + 1) lo' hi') (u : V3)
    (hu : ∀ i, lo' i ≤ u i ∧ u i ≤ hi' i)
    (hu' : ∀ i, lo i ≤ act (l.tf x) u i ∧ act (l.tf x) u i ≤ hi i) :
    (linkBody r q k ∩ linkBody r q (k + 1)).Nonempty := by
  have hf : frameOf r q (k + 1) = frameOf r q k * l.tf x := frameBefore_succ r hl hq
  have ht : (l.tf x) 3 = ![0, 0, 0, 1] := by
    rcases l with ⟨dh, jt, g⟩
    cases jt <;> exact (dhMat_rigid _ _ _ _).2
  refine ⟨act (frameOf r q (k + 1)) u, ?_, (h' u).2 hu⟩
  rw [hf, act_mul (frame_rigid r hb q k).2 ht]
  exact (h _).2 hu'

theorem act_dhMat_coord (a alpha d theta : ℝ) (u : V3) : act (dhMat a alpha d theta) u =
    ![Real.cos theta * u 0 - Real.sin theta * Real.cos alpha * u 1 +
        Real.sin theta * Real.sin alpha * u 2 + a * Real.cos theta,
      Real.sin theta * u 0 + Real.cos theta * Real.cos alpha * u 1 -
        Real.cos theta * Real.sin alpha * u 2 + a * Real.sin theta,
      Real.sin alpha * u 1 + Real.cos alpha * u 2 + d] := by
  ext i
  fin_cases i <;>
    simp [act, rotPart, posPart, dhMat, Matrix.mulVec, dotProduct, Fin.sum_univ_three] <;> ring

theorem neighbours_from (r : Robot Shape) (m : Nat)
    (hr : ∀ i < 6, r.links[m + i]? = shippedKuka.links[i]?) (hb : IsRigid r.tfBase) {q : List ℝ}
    (hq : m + 6 ≤ q.length)
    (hF : Fills r q m ![-0.24, -0.1, 0] ![0.06, 0.1, 0.1] ∧
      Fills r q (m + 1) ![-0.7, -0.1, -0.1] ![0.1, 0.1, 0] ∧
      Fills r q (m + 2) ![-0.1, 0, -0.08] ![0.1, 0.1, 0.42] ∧
      Fills r q (m + 3) ![-0.05, 0, -0.05] ![0.05, 0.2, 0.05] ∧
      Fills r q (m + 4) ![-0.05, -0.05, 0] ![0.05, 0.05, 0.085] ∧
      Fills r q (m + 5) ![-0.05, -0.05, -0.03] ![0.05, 0.05, 0]) (i : Nat) (hi : i < 5) :
    (linkBody r q (m + i) ∩ linkBody r q (m + i + 1)).Nonempty := by
  have e1 : Real.sin (-Real.pi / 2) = -1 := by
    rw [neg_div, Real.sin_neg, Real.sin_pi_div_two]
  have e2 : Real.cos (-Real.pi / 2) = 0 := by
    rw [neg_div, Real.cos_neg, Real.cos_pi_div_two]
  obtain ⟨g0, g1, g2, g3, g4, g5⟩ := hF
  have hqi : ∀ i < 6, q[m + i]? = some (q[m + i]!) := fun i hi => by
    rw [List.getElem?_eq_getElem (by omega), getElem!_pos q (m + i) (by omega)]
  rcases i with _ | _ | _ | _ | _ | i
  · refine touch_next r hb (hr 1 (by norm_num)) (hqi 1 (by norm_num)) g0 g1 ![-0.6, 0, 0] ?_ ?_
    · intro i; fin_cases i <;> simp <;> norm_num
    · intro i
      simp only [Link.tf, act_dhMat_coord]
      fin_cases i <;> simp <;> norm_num <;> constructor <;> linarith
  · refine touch_next r hb (hr 2 (by norm_num)) (hqi 2 (by norm_num)) g1 g2 0 ?_ ?_
    · intro i; fin_cases i <;> simp <;> norm_num
    · intro i
      simp only [Link.tf, act_dhMat_coord]
      fin_cases i <;> simp <;> norm_num
  · refine touch_next r hb (hr 3 (by norm_num)) (hqi 3 (by norm_num)) g2 g3 ![0, 0.2, 0] ?_ ?_
    · intro i; fin_cases i <;> simp <;> norm_num
    · intro i
      simp only [Link.tf, act_dhMat_coord]
      fin_cases i <;> simp [e1, e2] <;> norm_num
  · refine touch_next r hb (hr 4 (by norm_num)) (hqi 4 (by norm_num)) g3 g4 0 ?_ ?_
    · intro i; fin_cases i <;> simp <;> norm_num
    · intro i
      simp only [Link.tf, act_dhMat_coord]
      fin_cases i <;> simp <;> norm_num
  · refine touch_next r hb (hr 5 (by norm_num)) (hqi 5 (by norm_num)) g4 g5 ![0, 0, -0.03] ?_ ?_
    · intro i; fin_cases i <;> simp <;> norm_num
    · intro i
      simp only [Link.tf, act_dhMat_coord]
      fin_cases i <;> simp <;> norm_num
  · omega

/-- **C113**: why neighbours have to be left out: in every configuration of the Kuka and of
KukaOnRail, on every rigid base, any two neighbouring links touch. -/
theorem C113_neighbours (r : Robot Shape) (hb : IsRigid r.tfBase) (q : List ℝ) :
    (r.links = shippedKuka.links → 6 ≤ q.length → ∀ k < 5,
      (linkBody r q k ∩ linkBody r q (k + 1)).Nonempty) ∧
    (r.links = (railRobot 0.18 0.6 0.62 0.115).links → 7 ≤ q.length → ∀ k < 6,
      (linkBody r q k ∩ linkBody r q (k + 1)).Nonempty) := by
  constructor
  · intro hr hq k hk
    obtain ⟨g0, g1, g2, g3, g4, g5, -⟩ := C113_kuka _ _ _ _ r hr hb q
    have := neighbours_from r 0 (fun i _ => by rw [hr, Nat.zero_add]) hb (q := q) (by omega)
      ⟨g0, g1, g2, g3, g4, g5⟩ k hk
    rwa [Nat.zero_add] at this
  · intro hr hq k hk
    obtain ⟨g0, g1, g2, g3, g4, g5, g6, -⟩ := C113_rail _ _ _ _ r hr hb q
    rcases k with _ | k
    · refine touch_next r hb (k := 0) (l := ⟨⟨0.18, Real.pi / 2, 0, 0⟩, .r,
        ⟨[⟨0.3, 0.2, 0.1⟩], [poseX 0 (-0.09) 0 0.05]⟩⟩) (x := q[1]!) (by rw [hr]; rfl)
        (by rw [List.getElem?_eq_getElem (by omega), getElem!_pos q 1 (by omega)]) g0 g1
        ![-0.18, -0.1, 0] ?_ ?_
      · intro i; fin_cases i <;> simp <;> norm_num
      · intro i
        simp only [Link.tf, act_dhMat_coord]
        fin_cases i <;> simp <;> norm_num <;> constructor <;> linarith
    · have := neighbours_from r 1 (fun i hi => by
        rw [hr]
        rcases i with _ | _ | _ | _ | _ | _ | i
        all_goals first | rfl | omega) hb (q := q) (by omega)
        ⟨g1, g2, g3, g4, g5, g6⟩ k (by omega)
      rwa [show 1 + k = k + 1 by omega] at this

/-- The upper arm points backwards and the forearm comes back over it. -/
noncomputable def foldedBack : List ℝ :=
  [0, Real.pi, Real.arcsin (5 / 13) - Real.pi / 2, 0, 0, 0]

theorem foldedBack_frames :
    frameOf shippedKuka foldedBack 0 = !![1, 0, 0, 0.18; 0, 0, -1, 0; 0, 1, 0, 0; 0, 0, 0, 1] ∧
    frameOf shippedKuka foldedBack 1 = !![-1, 0, 0, -0.42; 0, 0, -1, 0; 0, -1, 0, 0; 0, 0, 0, 1] ∧
    frameOf shippedKuka foldedBack 2 =
      !![-5/13, 0, 12/13, -0.42; 0, -1, 0, 0; 12/13, 0, 5/13, 0; 0, 0, 0, 1] ∧
    frameOf shippedKuka foldedBack 3 =
      !![-5/13, -12/13, 0, -0.42 + 0.62 * (12/13); 0, 0, -1, 0; 12/13, -5/13, 0, 0.62 * (5/13);
        0, 0, 0, 1] ∧
    frameOf shippedKuka foldedBack 4 =
      !![-5/13, 0, 12/13, -0.42 + 0.62 * (12/13); 0, -1, 0, 0; 12/13, 0, 5/13, 0.62 * (5/13);
        0, 0, 0, 1] ∧
    frameOf shippedKuka foldedBack 5 =
      !![-5/13, 0, 12/13, -0.42 + 0.735 * (12/13); 0, -1, 0, 0; 12/13, 0, 5/13, 0.735 * (5/13);
        0, 0, 0, 1] := by
  have e1 : Real.sin (-Real.pi / 2) = -1 := by
    rw [neg_div, Real.sin_neg, Real.sin_pi_div_two]
  have e2 : Real.cos (-Real.pi / 2) = 0 := by
    rw [neg_div, Real.cos_neg, Real.cos_pi_div_two]
  have e3 : Real.cos (Real.arcsin (5 / 13) - Real.pi / 2) = 5 / 13 := by
    rw [Real.cos_sub_pi_div_two, Real.sin_arcsin (by norm_num) (by norm_num)]
  have e4 : Real.sin (Real.arcsin (5 / 13) - Real.pi / 2) = -(12 / 13) := by
    rw [Real.sin_sub_pi_div_two, Real.cos_arcsin,
      show (1 - (5 / 13) ^ 2 : ℝ) = (12 / 13) ^ 2 by norm_num, Real.sqrt_sq (by norm_num)]
  have f0 : frameBefore shippedKuka foldedBack 0 = 1 := by
    simp [frameBefore, shippedKuka, kukaRobot, Robot.new, linkProduct]
  have step : ∀ {k : Nat} {l : Link Shape} {x : ℝ} {A B : M4},
      frameBefore shippedKuka foldedBack k = A → shippedKuka.links[k]? = some l →
      foldedBack[k]? = some x → A * l.tf x = B →
      frameBefore shippedKuka foldedBack (k + 1) = B :=
    fun hA hl hq hB => by rw [frameBefore_succ _ hl hq, hA, hB]
  have f1 : frameBefore shippedKuka foldedBack 1 =
      !![1, 0, 0, 0.18; 0, 0, -1, 0; 0, 1, 0, 0; 0, 0, 0, 1] := by
    refine step f0 rfl rfl ?_
    ext i j; fin_cases i <;> fin_cases j <;> simp [Link.tf, dhMat]
  have f2 : frameBefore shippedKuka foldedBack 2 =
      !![-1, 0, 0, -0.42; 0, 0, -1, 0; 0, -1, 0, 0; 0, 0, 0, 1] := by
    refine step f1 rfl rfl ?_
    ext i j; fin_cases i <;> fin_cases j <;>
      simp [Link.tf, dhMat, Matrix.mul_apply, Fin.sum_univ_four] <;> norm_num
  have f3 : frameBefore shippedKuka foldedBack 3 =
      !![-5/13, 0, 12/13, -0.42; 0, -1, 0, 0; 12/13, 0, 5/13, 0; 0, 0, 0, 1] := by
    refine step f2 rfl rfl ?_
    ext i j; fin_cases i <;> fin_cases j <;>
      simp [Link.tf, dhMat, Matrix.mul_apply, Fin.sum_univ_four, e3, e4] <;> norm_num
  have f4 : frameBefore shippedKuka foldedBack 4 =
      !![-5/13, -12/13, 0, -0.42 + 0.62 * (12/13); 0, 0, -1, 0; 12/13, -5/13, 0, 0.62 * (5/13);
        0, 0, 0, 1] := by
    refine step f3 rfl rfl ?_
    ext i j; fin_cases i <;> fin_cases j <;>
      simp [Link.tf, dhMat, Matrix.mul_apply, Fin.sum_univ_four, e1, e2] <;> norm_num
  have f5 : frameBefore shippedKuka foldedBack 5 =
      !![-5/13, 0, 12/13, -0.42 + 0.62 * (12/13); 0, -1, 0, 0; 12/13, 0, 5/13, 0.62 * (5/13);
        0, 0, 0, 1] := by
    refine step f4 rfl rfl ?_
    ext i j; fin_cases i <;> fin_cases j <;>
      simp [Link.tf, dhMat, Matrix.mul_apply, Fin.sum_univ_four] <;> norm_num
  have f6 : frameBefore shippedKuka foldedBack 6 =
      !![-5/13, 0, 12/13, -0.42 + 0.735 * (12/13); 0, -1, 0, 0; 12/13, 0, 5/13, 0.735 * (5/13);
        0, 0, 0, 1] := by
    refine step f5 rfl rfl ?_
    ext i j; fin_cases i <;> fin_cases j <;>
      simp [Link.tf, dhMat, Matrix.mul_apply, Fin.sum_univ_four] <;> norm_num
  exact ⟨f1, f2, f3, f4, f5, f6⟩

theorem act_coord (M : M4) (u : V3) (i : Fin 3) :
    act M u i = M i.castSucc 0 * u 0 + M i.castSucc 1 * u 1 + M i.castSucc 2 * u 2 +
      M i.castSucc 3 := by
  simp [act, rotPart, posPart, Matrix.mulVec, dotProduct, Fin.sum_univ_three]

/-- **C113**: a configuration of the Kuka in which the third link runs through the first, with a cube
of 2 cm inside both, and which `is_in_collision` reports as free. -/
theorem C113_missed : ∃ q : List ℝ, q.length = 6 ∧
    (∃ x : V3, ∀ v : V3, (∀ i, |v i| ≤ 0.01) →
      x + v ∈ linkBody shippedKuka q 0 ∩ linkBody shippedKuka q 2) ∧
    (shippedKuka.isInCollision boxOracle (after boxOracle shippedKuka.links []) q ⟨[], []⟩).1 =
      .ok false := by
  obtain ⟨f0, f1, f2, f3, f4, f5⟩ := foldedBack_frames
  have hb : IsRigid shippedKuka.tfBase := IsRigid.one
  obtain ⟨g0, g1, g2, g3, g4, g5, g6⟩ := C113_kuka _ _ _ _ shippedKuka rfl hb foldedBack
  refine ⟨foldedBack, rfl, ⟨![-0.02, -0.05, 0.08], fun v hv => ?_⟩, ?_⟩
  · have v0 := abs_le.1 (hv 0)
    have v1 := abs_le.1 (hv 1)
    have v2 := abs_le.1 (hv 2)
    norm_num at v0 v1 v2
    constructor
    · have e : (![-0.02, -0.05, 0.08] : V3) + v =
          act (frameOf shippedKuka foldedBack 0) ![-0.2 + v 0, 0.08 + v 2, 0.05 - v 1] := by
        ext i
        rw [act_coord, f0]
        fin_cases i <;> simp <;> norm_num <;> ring
      rw [e, g0]
      intro i
      fin_cases i <;> simp <;> norm_num <;> constructor <;> linarith
    · have e : (![-0.02, -0.05, 0.08] : V3) + v =
          act (frameOf shippedKuka foldedBack 2)
            ![-0.08 + (12 * v 2 - 5 * v 0) / 13, 0.05 - v 1, 0.4 + (12 * v 0 + 5 * v 2) / 13] := by
        ext i
        rw [act_coord, f2]
        fin_cases i <;> simp <;> norm_num <;> ring
      rw [e, g2]
      intro i
      fin_cases i <;> simp <;> norm_num <;> constructor <;> linarith
  · obtain ⟨b, h1, h2⟩ := C33_answer boxOracle shippedKuka shipped_known rfl (Or.inl rfl) []
      (by simp) foldedBack (le_refl _) ⟨[], []⟩
    rw [h1]
    congr 1
    rw [← Bool.not_eq_true, h2]
    -- heights of the links and positions along the forearm
    have z01 : ∀ x, x ∈ linkBody shippedKuka foldedBack 0 ∨ x ∈ linkBody shippedKuka foldedBack 1 →
        x 2 ≤ 0.1 := by
      rintro x (hx | hx)
      · obtain ⟨u, rfl, hu⟩ := g0.mem hb hx
        rw [act_coord, f0]
        have := hu 1
        simp at this ⊢
        linarith [this.2]
      · obtain ⟨u, rfl, hu⟩ := g1.mem hb hx
        rw [act_coord, f1]
        have := hu 1
        simp at this ⊢
        linarith [this.1]
    have z345 : ∀ k x, 3 ≤ k → x ∈ linkBody shippedKuka foldedBack k → 0.1 < x 2 := by
      intro k x hk hx
      rcases k with _ | _ | _ | _ | _ | _ | k
      iterate 3 omega
      · obtain ⟨u, rfl, hu⟩ := g3.mem hb hx
        rw [act_coord, f3]
        have a := hu 0
        have b := hu 1
        simp at a b ⊢
        norm_num at a b ⊢
        linarith [a.1, b.2]
      · obtain ⟨u, rfl, hu⟩ := g4.mem hb hx
        rw [act_coord, f4]
        have a := hu 0
        have b := hu 2
        simp only [Matrix.cons_val] at a b
        simp
        norm_num at a b ⊢
        linarith [a.1, b.1]
      · obtain ⟨u, rfl, hu⟩ := g5.mem hb hx
        rw [act_coord, f5]
        have a := hu 0
        have b := hu 2
        simp only [Matrix.cons_val] at a b
        simp
        norm_num at a b ⊢
        linarith [a.1, b.1]
      · rw [g6 _ (by omega)] at hx
        exact hx.elim
    have w2 : ∀ x, x ∈ linkBody shippedKuka foldedBack 2 → 12 * x 0 + 5 * x 2 < 4 := by
      intro x hx
      obtain ⟨u, rfl, hu⟩ := g2.mem hb hx
      rw [act_coord, act_coord, f2]
      have b := hu 2
      simp only [Matrix.cons_val] at b
      simp
      norm_num at b ⊢
      linarith [b.2]
    have w5 : ∀ x, x ∈ linkBody shippedKuka foldedBack 5 → 4 < 12 * x 0 + 5 * x 2 := by
      intro x hx
      obtain ⟨u, rfl, hu⟩ := g5.mem hb hx
      rw [act_coord, act_coord, f5]
      have b := hu 2
      simp only [Matrix.cons_val] at b
      simp
      norm_num at b ⊢
      linarith [b.1]
    have apart : ∀ i j : Nat, i + 3 ≤ j → ∀ x, x ∈ linkBody shippedKuka foldedBack i →
        x ∈ linkBody shippedKuka foldedBack j → False := by
      intro i j hij x hi hj
      have hj3 := z345 j x (by omega) hj
      rcases i with _ | _ | _ | i
      · linarith [z01 x (.inl hi)]
      · linarith [z01 x (.inr hi)]
      · rcases Nat.lt_or_ge j 6 with h6 | h6
        · obtain rfl : j = 5 := by omega
          linarith [w2 x hi, w5 x hj]
        · rw [g6 j h6] at hj
          exact hj.elim
      · rw [g6 j (by omega)] at hj
        exact hj.elim
    rintro (h | ⟨-, h | h⟩)
    · rcases h with ⟨base, h, -⟩ | ⟨i, li, -, m, n, s, s', t, t', -, -, h, -⟩ | ⟨tool, h, -⟩
      · cases h
      · simp at h
      · cases h
    · obtain ⟨i, j, li, lj, hij, hi, hj, ht⟩ := h
      obtain ⟨x, hx, hx'⟩ := (touch_bodies _ _ hi hj).1 ht
      rcases hij with hij | hij
      · exact apart i j hij x hx hx'
      · exact apart j i hij x hx' hx
    · obtain ⟨tool, i, li, h, -⟩ := h
      cases h

/-- **C103** is false for Arm2 as well: its shapes leave the first half of the first link free. -/
theorem C103_arm2 {a1 a2 a3 : ℝ} (h1 : 0 < a1) (h2 : 0 < a2) (h3 : 0 < a3) {x : V3}
    (hx : x 0 < a1 / 2) : x ∉ linkPoints (arm2 a1 a2 a3) [0, 0, 0] := by
  set r := arm2 a1 a2 a3 with hr
  have hb : IsRigid r.tfBase := IsRigid.one
  obtain ⟨g0, g1, g2, g3⟩ := C113_arm2 a1 a2 a3 r rfl hb [0, 0, 0]
  have f0 : frameBefore r [0, 0, 0] 0 = 1 := by
    simp [frameBefore, hr, arm2, Robot.new, linkProduct]
  have step : ∀ {k : Nat} {l : Link Shape} {A B : M4}, frameBefore r [0, 0, 0] k = A →
      r.links[k]? = some l → ([0, 0, 0] : List ℝ)[k]? = some 0 → A * l.tf 0 = B →
      frameBefore r [0, 0, 0] (k + 1) = B :=
    fun hA hl hq hB => by rw [frameBefore_succ r hl hq, hA, hB]
  have f1 : frameOf r [0, 0, 0] 0 = !![1, 0, 0, a1; 0, 0, -1, 0; 0, 1, 0, 0; 0, 0, 0, 1] := by
    refine step f0 rfl rfl ?_
    ext i j; fin_cases i <;> fin_cases j <;> simp [Link.tf, dhMat]
  have f2 : frameOf r [0, 0, 0] 1 = !![1, 0, 0, a1 + a2; 0, 0, -1, 0; 0, 1, 0, 0; 0, 0, 0, 1] := by
    refine step f1 rfl rfl ?_
    ext i j; fin_cases i <;> fin_cases j <;>
      simp [Link.tf, dhMat, Matrix.mul_apply, Fin.sum_univ_four, add_comm]
  have f3 : frameOf r [0, 0, 0] 2 =
      !![1, 0, 0, a1 + a2 + a3; 0, -1, 0, 0; 0, 0, -1, 0; 0, 0, 0, 1] := by
    refine step f2 rfl rfl ?_
    ext i j; fin_cases i <;> fin_cases j <;>
      simp [Link.tf, dhMat, Matrix.mul_apply, Fin.sum_univ_four] <;> ring
  rintro ⟨k, i, l, s, t, hl, hs, ht, he⟩
  have hm : x ∈ linkBody r [0, 0, 0] k := ⟨i, l, s, t, hl, hs, ht, he⟩
  rcases k with _ | _ | _ | k
  · obtain ⟨u, rfl, hu⟩ := g0.mem hb hm
    rw [act_coord, f1] at hx
    have := (hu 0).1
    simp at this hx
    linarith
  · obtain ⟨u, rfl, hu⟩ := g1.mem hb hm
    rw [act_coord, f2] at hx
    have := (hu 0).1
    simp at this hx
    linarith
  · obtain ⟨u, rfl, hu⟩ := g2.mem hb hm
    rw [act_coord, f3] at hx
    have := (hu 0).1
    simp at this hx
    linarith
  · rw [g3 _ (by omega)] at hm
    exact hm

/-- **C113** is false. -/
theorem C113_refuted : ¬ C113_statement := by
  intro h
  obtain ⟨q, hq, ⟨x, hx⟩, hf⟩ := C113_missed
  have := h q 0 2 hq (le_refl _) (by norm_num)
    ⟨x, by simpa using hx 0 (fun i => by norm_num)⟩
  rw [hf] at this
  cases this

/-- C113: a case of `C113_partial`.  With the upper arm pointing backwards and the forearm folded
flat onto it, the fourth link runs through the first, and this is reported. -/
example : (linkBody shippedKuka [0, Real.pi, -(Real.pi / 2), 0, 0, 0] 0 ∩
      linkBody shippedKuka [0, Real.pi, -(Real.pi / 2), 0, 0, 0] 3).Nonempty ∧
    (shippedKuka.isInCollision boxOracle (after boxOracle shippedKuka.links
      [.fk shippedKuka [0, 0, 0, 0, 0, 0]]) [0, Real.pi, -(Real.pi / 2), 0, 0, 0] ⟨[], []⟩).1 =
      .ok true := by
  set q : List ℝ := [0, Real.pi, -(Real.pi / 2), 0, 0, 0] with hq
  have e1 : Real.sin (-Real.pi / 2) = -1 := by
    rw [neg_div, Real.sin_neg, Real.sin_pi_div_two]
  have e2 : Real.cos (-Real.pi / 2) = 0 := by
    rw [neg_div, Real.cos_neg, Real.cos_pi_div_two]
  have f0 : frameBefore shippedKuka q 0 = 1 := by
    simp [frameBefore, shippedKuka, kukaRobot, Robot.new, linkProduct]
  have step : ∀ {k : Nat} {l : Link Shape} {x : ℝ} {A B : M4},
      frameBefore shippedKuka q k = A → shippedKuka.links[k]? = some l →
      q[k]? = some x → A * l.tf x = B → frameBefore shippedKuka q (k + 1) = B :=
    fun hA hl hq hB => by rw [frameBefore_succ _ hl hq, hA, hB]
  have f1 : frameBefore shippedKuka q 1 =
      !![1, 0, 0, 0.18; 0, 0, -1, 0; 0, 1, 0, 0; 0, 0, 0, 1] := by
    refine step f0 rfl rfl ?_
    ext i j; fin_cases i <;> fin_cases j <;> simp [Link.tf, dhMat]
  have f2 : frameBefore shippedKuka q 2 =
      !![-1, 0, 0, -0.42; 0, 0, -1, 0; 0, -1, 0, 0; 0, 0, 0, 1] := by
    refine step f1 rfl rfl ?_
    ext i j; fin_cases i <;> fin_cases j <;>
      simp [Link.tf, dhMat, Matrix.mul_apply, Fin.sum_univ_four] <;> norm_num
  have f3 : frameBefore shippedKuka q 3 =
      !![0, 0, 1, -0.42; 0, -1, 0, 0; 1, 0, 0, 0; 0, 0, 0, 1] := by
    refine step f2 rfl rfl ?_
    ext i j; fin_cases i <;> fin_cases j <;>
      simp [Link.tf, dhMat, Matrix.mul_apply, Fin.sum_univ_four]
  have f4 : frameBefore shippedKuka q 4 =
      !![0, -1, 0, 0.2; 0, 0, -1, 0; 1, 0, 0, 0; 0, 0, 0, 1] := by
    refine step f3 rfl rfl ?_
    ext i j; fin_cases i <;> fin_cases j <;>
      simp [Link.tf, dhMat, Matrix.mul_apply, Fin.sum_univ_four, e1, e2] <;> norm_num
  obtain ⟨g0, -, -, g3, -⟩ := C113_kuka _ _ _ _ shippedKuka rfl IsRigid.one q
  have hne : (linkBody shippedKuka q 0 ∩ linkBody shippedKuka q 3).Nonempty := by
    refine ⟨![0.1, 0, 0.05], ?_, ?_⟩
    · have e : (![0.1, 0, 0.05] : V3) = act (frameOf shippedKuka q 0) ![-0.08, 0.05, 0] := by
        ext i
        rw [act_coord, show frameOf shippedKuka q 0 = _ from f1]
        fin_cases i <;> simp <;> norm_num
      rw [e, g0]
      intro i
      fin_cases i <;> simp <;> norm_num
    · have e : (![0.1, 0, 0.05] : V3) = act (frameOf shippedKuka q 3) ![0.05, 0.1, 0] := by
        ext i
        rw [act_coord, show frameOf shippedKuka q 3 = _ from f4]
        fin_cases i <;> simp <;> norm_num
      rw [e, g3]
      intro i
      fin_cases i <;> simp <;> norm_num
  exact ⟨hne, C113_partial q 0 3 rfl (by norm_num) (by norm_num) hne _ _ (by simp [Call.robot])⟩

/-- C113: a case of `C113_neighbours`: the Kuka on a turned base 1 m above the floor; upper arm and
forearm touch. -/
example : (linkBody { shippedKuka with tfBase := mkTf (rotZ 1) ![0, 0, 1] } [1, 2, 3, 4, 5, 6] 1 ∩
    linkBody { shippedKuka with tfBase := mkTf (rotZ 1) ![0, 0, 1] } [1, 2, 3, 4, 5, 6] 2).Nonempty :=
  (C113_neighbours { shippedKuka with tfBase := mkTf (rotZ 1) ![0, 0, 1] }
    (isRigid_mkTf.2 (rotZ_isRot _)) _).1 rfl (by simp) 1 (by norm_num)

/-- C113: a case of `C113_anthropomorphic` and of `C113_spherical`: the origin of the frame is a point
of the link. -/
example : act (frameOf (anthropomorphicArm 2 3) [1, 2, 3] 1) ![-1, 0, 0] ∈
      linkBody (anthropomorphicArm 2 3) [1, 2, 3] 1 ∧
    act (frameOf (sphericalArm 2) [1, 2, 3] 2) ![0.4, 0, 0] ∈
      linkBody (sphericalArm 2) [1, 2, 3] 2 := by
  constructor
  · rw [(C113_anthropomorphic 2 3 _ rfl IsRigid.one _).2.1]
    intro i; fin_cases i <;> norm_num
  · rw [(C113_spherical 2 _ (.inl rfl) IsRigid.one _).1 2 (by norm_num)]
    intro i; fin_cases i <;> norm_num

/-- C103: a case of `C103_arm2`: the base of an Arm2 with links of 1 m lies outside its shapes. -/
example : (![0, 0, 0] : V3) ∉ linkPoints (arm2 1 1 1) [0, 0, 0] :=
  C103_arm2 one_pos one_pos one_pos (by norm_num)

end Verif.Props
