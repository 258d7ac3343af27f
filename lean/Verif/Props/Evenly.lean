import Verif.Proofs.Equidistribution
import Verif.Props.Uniform
import Verif.Props.Sampling

/-!
# C139: the Halton samples fill the cube, and the rotations, evenly

`HaltonSampler` (util.py:211-230) and the method `"halton"` of `sample_SO3` (util.py:242-244) are
used instead of random numbers because their points leave no gaps.
-/

set_option linter.unusedSectionVars false

namespace Verif.Props

open MeasureTheory Set Matrix Filter Verif Verif.SampleSO3 Verif.Path Verif.Sampling

/-- Is the row in the box number `i j` of the `b j ^ k j` parts of `[0, 1)`, in every dimension
`j`? -/
abbrev InBox {d : Nat} (b k i : Fin d → Nat) (row : List ℚ) : Prop :=
  ∀ j : Fin d, (i j : ℚ) / b j ^ k j ≤ row[j.1]?.getD 0 ∧
    row[j.1]?.getD 0 < ((i j : ℚ) + 1) / b j ^ k j

/-- The points of a sampler: `b` are its bases. -/
theorem halton_points {root : Nat → Nat}
    (hroot : ∀ n, 3 ≤ n → n < (root n + 1) ^ 2 ∧ root n < n) (d : Nat) (hd : 1 ≤ d) :
    ∃ (s : Halton) (b : Fin d → Nat), s.primes = List.ofFn b ∧ (∀ j, 2 ≤ b j) ∧
      (Pairwise fun i j => (b i).Coprime (b j)) ∧
      ∀ hist : List Nat, ∃ fuel₀, ∀ fuel ≥ fuel₀, Halton.new root fuel d = .ok s ∧
        s.requests fuel hist = .ok ((List.range hist.sum).map fun t =>
          List.ofFn fun j => radInv (b j) (t + 1), { s with cnt := 1 + hist.sum }) := by
  obtain ⟨s, ⟨f, hf⟩, _, _, h3, h4, h5⟩ := C25_bases hroot d
  subst h3
  refine ⟨s, s.primes.get, (List.ofFn_get _).symm, fun j => (h5 _ (List.get_mem _ _)).1.two_le, ?_, ?_⟩
  · intro i j hij
    refine (Nat.coprime_primes (h5 _ (List.get_mem _ _)).1 (h5 _ (List.get_mem _ _)).1).2 ?_
    exact fun h => hij (List.nodup_iff_injective_get.1 h4 h)
  · intro hist
    obtain ⟨s', rows, ⟨f', hf'⟩, hlen, _, hrow, _⟩ := C25_histories hroot s.primes.length hd hist
    have hs : s' = s := by
      have h1 := hf (max f f') (le_max_left _ _)
      have h2 := (hf' (max f f') (le_max_right _ _)).1
      rw [h1] at h2
      cases h2; rfl
    subst hs
    have hrows : rows = (List.range hist.sum).map fun t =>
        List.ofFn fun j => radInv (s'.primes.get j) (t + 1) := by
      apply List.ext_getElem
      · simp [hlen]
      · intro n h1 h2
        rw [hrow n h1, List.getElem_map, List.getElem_range]
        apply List.ext_getElem
        · simp
        · intro m h3 h4
          simp only [List.getElem_map, List.getElem_ofFn]
          rfl
    refine ⟨f', fun fuel hfuel => ?_⟩
    obtain ⟨h1, h2, _⟩ := hf' fuel hfuel
    rw [← hrows]
    exact ⟨h1, h2⟩

theorem countP_window {α : Type} (f : Nat → α) (p : α → Prop) [DecidablePred p] {a N S : Nat}
    (h : a + N ≤ S) :
    ((((List.range S).map f).drop a).take N).countP p =
      ((Finset.Ico a (a + N)).filter fun n => p (f n)).card := by
  have e : (((List.range S).map f).drop a).take N = (List.range' a N).map f := by
    apply List.ext_getElem
    · simp; omega
    · intro n h1 h2; simp
  rw [e, List.countP_map]
  have e2 : (Finset.Ico a (a + N)).val = ((List.range' a N : List Nat) : Multiset Nat) := by
    show ((List.range' a (a + N - a) : List Nat) : Multiset Nat) = _
    rw [Nat.add_sub_cancel_left]
  rw [Finset.card_def, Finset.filter_val, e2, Multiset.filter_coe, Multiset.coe_card,
    List.countP_eq_length_filter]
  rfl

/-- **C139**: cut the cube into `∏ b_j ^ k_j` equal boxes, the `b_j` being the bases of the sampler.
After any history of requests, that many consecutive rows have exactly one point in each box, and
any number of consecutive rows has, up to less than one, the share of points in each box that
belongs to its size. -/
theorem C139_boxes {root : Nat → Nat}
    (hroot : ∀ n, 3 ≤ n → n < (root n + 1) ^ 2 ∧ root n < n) (d : Nat) (hd : 1 ≤ d) :
    ∃ (s : Halton) (b : Fin d → Nat), s.primes = List.ofFn b ∧ ∀ hist : List Nat,
      ∃ (rows : List (List ℚ)) (fuel₀ : Nat), rows.length = hist.sum ∧
        (∀ fuel ≥ fuel₀, Halton.new root fuel d = .ok s ∧
          (s.requests fuel hist).map Prod.fst = .ok rows) ∧
        ∀ k i : Fin d → Nat, (∀ j, i j < b j ^ k j) → ∀ a N : Nat, a + N ≤ hist.sum →
          |((((rows.drop a).take N).countP (InBox b k i) : Nat) : ℚ) -
            N / ((∏ j, b j ^ k j : Nat) : ℚ)| < 1 ∧
          (N = ∏ j, b j ^ k j → ((rows.drop a).take N).countP (InBox b k i) = 1) := by
  obtain ⟨s, b, hs, hb, hco, hreq⟩ := halton_points hroot d hd
  refine ⟨s, b, hs, fun hist => ?_⟩
  obtain ⟨f, hf⟩ := hreq hist
  refine ⟨(List.range hist.sum).map fun t => List.ofFn fun j => radInv (b j) (t + 1), f, by simp,
    fun fuel h => ⟨(hf fuel h).1, by rw [(hf fuel h).2]; rfl⟩, ?_⟩
  intro k i hi a N haN
  obtain ⟨r, hr⟩ := box_cell hb hco k i hi
  have hpos : 0 < ∏ j, b j ^ k j := Finset.prod_pos fun j _ => Nat.pow_pos (by have := hb j; omega)
  rw [countP_window (fun t => List.ofFn fun j => radInv (b j) (t + 1)) (InBox b k i) haN]
  have hiff : ∀ n, InBox b k i (List.ofFn fun j => radInv (b j) (n + 1)) ↔
      n + 1 ≡ r [MOD ∏ j, b j ^ k j] := by
    intro n
    rw [← hr (n + 1)]
    refine forall_congr' fun j => ?_
    simp
  have hcard : ((Finset.Ico a (a + N)).filter fun n =>
      InBox b k i (List.ofFn fun j => radInv (b j) (n + 1))).card =
      ((Finset.Ico (a + 1) (a + 1 + N)).filter (· ≡ r [MOD ∏ j, b j ^ k j])).card := by
    refine Finset.card_bij (fun n _ => n + 1) ?_ ?_ ?_
    · intro n hn
      rw [Finset.mem_filter, Finset.mem_Ico] at hn ⊢
      exact ⟨by omega, (hiff n).1 hn.2⟩
    · intro n _ m _ h; omega
    · intro m hm
      rw [Finset.mem_filter, Finset.mem_Ico] at hm
      refine ⟨m - 1, ?_, by omega⟩
      rw [Finset.mem_filter, Finset.mem_Ico, hiff, Nat.sub_add_cancel (by omega)]
      exact ⟨by omega, hm.2⟩
  rw [hcard]
  exact card_window hpos (a + 1) N r

theorem unitCube_ae {d : Nat} (f : (Fin d → ℝ) → ℝ) :
    ∫ y in unitCube d, f y = ∫ y in Icc (0 : Fin d → ℝ) 1, f y :=
  setIntegral_congr_set (Measure.univ_pi_Ico_ae_eq_Icc (f := fun _ => (0 : ℝ)) (g := fun _ => 1))

theorem averages_of {d : Nat} {b : Fin d → Nat} (hb : ∀ j, 2 ≤ b j)
    (hco : Pairwise fun i j => (b i).Coprime (b j)) {f : (Fin d → ℝ) → ℝ}
    (hf : ContinuousOn f (Icc 0 1)) :
    Tendsto (fun N : Nat => (∑ t ∈ Finset.range N, f fun j => ((radInv (b j) (t + 1) : ℚ) : ℝ)) / N)
      atTop (nhds (∫ y in Icc (0 : Fin d → ℝ) 1, f y)) := by
  rw [← unitCube_ae]
  refine average_tendsto hb (x := fun t j => ((radInv (b j) (t + 1) : ℚ) : ℝ)) ?_ ?_ hf
  · intro n j _
    have := radInv_bounds (hb j) (n + 1)
    have h1 : (0 : ℝ) ≤ ((radInv (b j) (n + 1) : ℚ) : ℝ) := by exact_mod_cast this.1
    have h2 : ((radInv (b j) (n + 1) : ℚ) : ℝ) < 1 := by exact_mod_cast this.2
    exact ⟨h1, h2⟩
  · intro k i N _
    obtain ⟨r, hr⟩ := box_cell hb hco (fun _ => k) (fun j => i j) (fun j => (i j).2)
    have hpos : 0 < ∏ j, b j ^ k := Finset.prod_pos fun j _ => Nat.pow_pos (by have := hb j; omega)
    have hiff : ∀ n, ((fun j => ((radInv (b j) (n + 1) : ℚ) : ℝ)) ∈ cellOf b k i) ↔
        n + 1 ≡ r [MOD ∏ j, b j ^ k] := by
      intro n
      rw [← hr (n + 1)]
      simp only [cellOf, Set.mem_pi, mem_univ, true_implies, mem_Ico]
      refine forall_congr' fun j => ?_
      have e1 : ((i j : ℕ) : ℝ) / (b j : ℝ) ^ k = (((i j : ℕ) : ℚ) / (b j : ℚ) ^ k : ℚ) := by
        push_cast; rfl
      have e2 : (((i j : ℕ) : ℝ) + 1) / (b j : ℝ) ^ k =
          ((((i j : ℕ) : ℚ) + 1) / (b j : ℚ) ^ k : ℚ) := by
        push_cast; rfl
      rw [e1, e2, Rat.cast_le, Rat.cast_lt]
    have hcard : ((Finset.range N).filter fun n =>
        ((fun j => ((radInv (b j) (n + 1) : ℚ) : ℝ)) ∈ cellOf b k i)).card =
        ((Finset.Ico 1 (1 + N)).filter (· ≡ r [MOD ∏ j, b j ^ k])).card := by
      refine Finset.card_bij (fun n _ => n + 1) ?_ ?_ ?_
      · intro n hn
        rw [Finset.mem_filter, Finset.mem_range] at hn
        rw [Finset.mem_filter, Finset.mem_Ico]
        exact ⟨by omega, (hiff n).1 hn.2⟩
      · intro n _ m _ h; omega
      · intro m hm
        rw [Finset.mem_filter, Finset.mem_Ico] at hm
        refine ⟨m - 1, ?_, by omega⟩
        rw [Finset.mem_filter, Finset.mem_range, hiff, Nat.sub_add_cancel (by omega)]
        exact ⟨by omega, hm.2⟩
    have h := (card_window hpos 1 N r).1
    rw [← hcard] at h
    have h' := (Rat.cast_lt (K := ℝ)).2 h
    push_cast at h'
    exact h'.le

/-- **C139**: the rows of a sampler are the first points of one sequence, and the averages of any
continuous function over this sequence tend to its integral over the cube. -/
theorem C139_averages {root : Nat → Nat}
    (hroot : ∀ n, 3 ≤ n → n < (root n + 1) ^ 2 ∧ root n < n) (d : Nat) (hd : 1 ≤ d) :
    ∃ (s : Halton) (x : Nat → Fin d → ℚ),
      (∀ hist : List Nat, ∃ fuel₀, ∀ fuel ≥ fuel₀, Halton.new root fuel d = .ok s ∧
        (s.requests fuel hist).map Prod.fst =
          .ok ((List.range hist.sum).map fun t => List.ofFn (x t))) ∧
      ∀ f : (Fin d → ℝ) → ℝ, ContinuousOn f (Icc 0 1) →
        Tendsto (fun N : Nat => (∑ t ∈ Finset.range N, f fun j => (x t j : ℝ)) / N) atTop
          (nhds (∫ y in Icc (0 : Fin d → ℝ) 1, f y)) := by
  obtain ⟨s, b, hs, hb, hco, hreq⟩ := halton_points hroot d hd
  refine ⟨s, fun t j => radInv (b j) (t + 1), fun hist => ?_, fun f hf => averages_of hb hco hf⟩
  obtain ⟨f, hf⟩ := hreq hist
  exact ⟨f, fun fuel h => ⟨(hf fuel h).1, by rw [(hf fuel h).2]; rfl⟩⟩

theorem continuous_rot : Continuous fun u => rotEntries (Uniform.spherePt u) := by
  refine continuous_pi fun i => continuous_pi fun j => ?_
  fin_cases i <;> fin_cases j <;>
    simp [rotEntries, polyRot, toQuat_spherePt, quatOf] <;> fun_prop

/-- Three numbers as a triple. -/
def triple (y : Fin 3 → ℝ) : ℝ × ℝ × ℝ := (y 0, y 1, y 2)

theorem triple_preserving : MeasurePreserving triple ∧ MeasurableEmbedding triple := by
  let e := (MeasurableEquiv.piFinSuccAbove (fun _ : Fin 3 => ℝ) 0).trans
    ((MeasurableEquiv.refl ℝ).prodCongr (MeasurableEquiv.finTwoArrow (α := ℝ)))
  have he : (e : (Fin 3 → ℝ) → ℝ × ℝ × ℝ) = triple := by
    funext y
    rfl
  rw [← he]
  refine ⟨?_, e.measurableEmbedding⟩
  exact ((MeasurePreserving.id volume).prod (volume_preserving_finTwoArrow ℝ)).comp
    (volume_preserving_piFinSuccAbove (fun _ : Fin 3 => ℝ) 0)

theorem integral_rotLaw {f : Entries → ℝ} (hf : Continuous f) :
    ∫ y in Icc (0 : Fin 3 → ℝ) 1, f (rotEntries (Uniform.spherePt (triple y))) =
      ∫ E, f E ∂rotLaw := by
  rw [← unitCube_ae, rotLaw, integral_map measurable_rot.aemeasurable
    hf.aestronglyMeasurable, drawLaw]
  have hpre : unitCube 3 = triple ⁻¹' DrawBox := by
    ext y
    simp [unitCube, DrawBox, triple, Fin.forall_fin_succ]
  rw [hpre]
  exact triple_preserving.1.setIntegral_preimage_emb triple_preserving.2
    (fun u => f (rotEntries (Uniform.spherePt u))) DrawBox

/-- **C139**, the orientations: the Halton samples of `sample_SO3` are the first members of one
sequence of rotations, and the averages of any continuous function over this sequence tend to its
average over all rotations. -/
theorem C139_orientations {root : Nat → Nat}
    (hroot : ∀ n, 3 ≤ n → n < (root n + 1) ^ 2 ∧ root n < n) :
    ∃ R : Nat → M3, (∀ t, IsRot (R t)) ∧
      (∀ n : Nat, ∃ fuel₀, ∀ fuel ≥ fuel₀, ∀ rnd,
        sampleSO3 root fuel rnd n .transform .halton =
          .ok (.transforms ((List.range n).map fun t => mkTf (R t) 0))) ∧
      ∀ μ : Measure Entries, UniformOnRotations μ → ∀ f : Entries → ℝ, Continuous f →
        Tendsto (fun N : Nat => (∑ t ∈ Finset.range N, f (R t)) / N) atTop (nhds (∫ E, f E ∂μ)) := by
  obtain ⟨s, b, hs, hb, hco, hreq⟩ := halton_points hroot 3 (by omega)
  let x : Nat → Fin 3 → ℝ := fun t j => ((radInv (b j) (t + 1) : ℚ) : ℝ)
  have hx : ∀ t, triple (x t) ∈ DrawBox := by
    intro t
    have h : ∀ j, 0 ≤ x t j ∧ x t j < 1 := fun j => by
      have := radInv_bounds (hb j) (t + 1)
      exact ⟨by simp only [x]; exact_mod_cast this.1, by simp only [x]; exact_mod_cast this.2⟩
    exact ⟨h 0, h 1, h 2⟩
  have hR : ∀ t, (quatOf (x t 0) (x t 1) (x t 2)).rotationMatrix =
      Matrix.of (rotEntries (Uniform.spherePt (triple (x t)))) := by
    intro t
    rw [of_rotEntries, toQuat_spherePt, polyRot_eq (unit_of_mem (hx t))]
    rfl
  refine ⟨fun t => (quatOf (x t 0) (x t 1) (x t 2)).rotationMatrix, fun t => ?_, fun n => ?_, ?_⟩
  · exact Quat.rotationMatrix_isRot (unit_of_mem (hx t))
  · obtain ⟨f, hf⟩ := hreq [n]
    refine ⟨f, fun fuel hfuel rnd => ?_⟩
    obtain ⟨h1, h2⟩ := hf fuel hfuel
    have hg : s.getSamples fuel n = .ok ((List.range n).map fun t =>
        List.ofFn fun j => radInv (b j) (t + 1), { s with cnt := 1 + n }) := by
      unfold Halton.requests at h2
      cases hgs : s.getSamples fuel n with
      | error e => rw [hgs] at h2; simp [Bind.bind, Except.bind] at h2
      | ok r =>
        rw [hgs] at h2
        simp only [Bind.bind, Except.bind, Halton.requests, List.append_nil, List.sum_cons, List.sum_nil,
          add_zero] at h2
        exact h2
    simp only [sampleSO3, draws, haltonDraws, h1, hg, Bind.bind, Except.bind, List.map_map]
    congr 2
  · intro μ hμ f hf
    rw [C138_unique hμ uniform_rotLaw, ← integral_rotLaw hf]
    have h := averages_of hb hco (f := fun y => f (rotEntries (Uniform.spherePt (triple y))))
      (Continuous.continuousOn (hf.comp (continuous_rot.comp (by unfold triple; fun_prop))))
    refine h.congr fun N => ?_
    congr 1
    refine Finset.sum_congr rfl fun t _ => ?_
    show f _ = f (quatOf (x t 0) (x t 1) (x t 2)).rotationMatrix
    rw [hR t]
    rfl

/-- A uniform distribution gives every neighbourhood of a rotation a positive share. -/
theorem uniform_pos {μ : Measure Entries} (hμ : UniformOnRotations μ) {R : M3} (hR : IsRot R)
    {U : Set Entries} (hU : IsOpen U) (hmem : (fun i j => R i j) ∈ U) : μ U ≠ 0 := by
  intro h0
  have hnull : μ {E | IsRot (Matrix.of E)} = 0 := by
    refine measure_null_of_locally_null _ fun E hE => ?_
    let T : M3 := R * (Matrix.of E)ᵀ
    have hT : IsRot T := hR.mul hE.transpose
    refine ⟨{F | (fun i j => (T * Matrix.of F) i j) ∈ U}, ?_, ?_⟩
    · refine mem_nhdsWithin_of_mem_nhds (IsOpen.mem_nhds ?_ ?_)
      · refine hU.preimage (f := fun F : Entries => (fun i j => (T * Matrix.of F) i j : Entries)) ?_
        refine continuous_pi fun i => continuous_pi fun j => ?_
        simp only [Matrix.mul_apply, Matrix.of_apply]
        fun_prop
      · have : T * Matrix.of E = R := by
          simp only [T, Matrix.mul_assoc]
          rw [hE.1, Matrix.mul_one]
        simp only [mem_setOf_eq, this]
        exact hmem
    · rw [hμ.left T hT U hU.measurableSet]
      exact h0
  have h1 : μ univ = 0 := by
    refine measure_mono_null (t := {E | IsRot (Matrix.of E)} ∪ {E | ¬ IsRot (Matrix.of E)}) ?_
      (measure_union_null hnull hμ.rotations)
    intro E _
    exact em _
  rw [hμ.total] at h1
  exact one_ne_zero h1

/-- **C139**: no rotation is missed: for every rotation and every tolerance there is a number from
which on the Halton samples contain a rotation that agrees with it within the tolerance. -/
theorem C139_no_gaps {root : Nat → Nat}
    (hroot : ∀ n, 3 ≤ n → n < (root n + 1) ^ 2 ∧ root n < n) {R : M3} (hR : IsRot R)
    {ε : ℝ} (hε : 0 < ε) :
    ∃ n₀, ∀ n ≥ n₀, ∃ fuel₀, ∀ fuel ≥ fuel₀, ∀ rnd, ∃ l : List M4,
      sampleSO3 root fuel rnd n .transform .halton = .ok (.transforms l) ∧
      ∃ S : M3, mkTf S 0 ∈ l ∧ IsRot S ∧ ∀ i j, |S i j - R i j| < ε := by
  obtain ⟨S, hS, hout, havg⟩ := C139_orientations hroot
  let U : Set Entries := {E | ∀ i j, |E i j - R i j| < ε}
  have hU : IsOpen U := by
    have : U = ⋂ i, ⋂ j, {E : Entries | |E i j - R i j| < ε} := by ext E; simp [U]
    rw [this]
    refine isOpen_iInter_of_finite fun i => isOpen_iInter_of_finite fun j => ?_
    exact isOpen_lt (by fun_prop) continuous_const
  have hcl : IsClosed Uᶜ := hU.isClosed_compl
  have hne : (Uᶜ).Nonempty := by
    refine ⟨fun i j => R i j + ε, ?_⟩
    intro h
    have := h 0 0
    simp [abs_of_pos hε] at this
  let f : Entries → ℝ := fun E => min 1 (Metric.infDist E Uᶜ)
  have hf : Continuous f := continuous_const.min (Metric.continuous_infDist_pt _)
  have hf0 : ∀ E, 0 ≤ f E := fun E => le_min zero_le_one Metric.infDist_nonneg
  have hpos : ∀ E, 0 < f E ↔ E ∈ U := by
    intro E
    rw [lt_min_iff, ← hcl.notMem_iff_infDist_pos hne, notMem_compl_iff]
    simp
  have hint : 0 < ∫ E, f E ∂rotLaw := by
    haveI : IsProbabilityMeasure rotLaw := ⟨uniform_rotLaw.total⟩
    have hi : Integrable f rotLaw :=
      Integrable.mono' (integrable_const (1 : ℝ)) hf.aestronglyMeasurable
        (Filter.Eventually.of_forall fun E => by
          rw [Real.norm_of_nonneg (hf0 E)]; exact min_le_left _ _)
    rw [integral_pos_iff_support_of_nonneg hf0 hi]
    have hsup : Function.support f = U := by
      ext E
      rw [Function.mem_support, ← hpos E]
      exact ⟨fun h => lt_of_le_of_ne (hf0 E) (Ne.symm h), fun h => h.ne'⟩
    rw [hsup]
    exact pos_iff_ne_zero.2 (uniform_pos uniform_rotLaw hR hU (by intro i j; simpa using hε))
  have hev := (havg rotLaw uniform_rotLaw f hf).eventually (lt_mem_nhds hint)
  obtain ⟨n₀, hn₀⟩ := eventually_atTop.1 hev
  refine ⟨n₀, fun n hn => ?_⟩
  obtain ⟨f₀, hf₀⟩ := hout n
  refine ⟨f₀, fun fuel hfuel rnd => ⟨_, hf₀ fuel hfuel rnd, ?_⟩⟩
  have hsum := hn₀ n hn
  obtain ⟨t, ht, hft⟩ : ∃ t ∈ Finset.range n, 0 < f (S t) := by
    by_contra hno
    have hz : ∑ t ∈ Finset.range n, f (S t) ≤ 0 := Finset.sum_nonpos fun t ht => by
      by_contra hlt
      exact hno ⟨t, ht, not_le.1 hlt⟩
    have := div_nonpos_of_nonpos_of_nonneg hz (Nat.cast_nonneg (α := ℝ) n)
    exact absurd hsum (not_lt.2 this)
  refine ⟨S t, List.mem_map.2 ⟨t, List.mem_range.2 (Finset.mem_range.1 ht), rfl⟩, hS t, ?_⟩
  exact (hpos _).1 hft

/-- The exact square root, three dimensions, and the identity as the rotation to be met. -/
example : ∃ n₀, ∀ n ≥ n₀, ∃ fuel₀, ∀ fuel ≥ fuel₀, ∀ rnd, ∃ l : List M4,
    sampleSO3 Nat.sqrt fuel rnd n .transform .halton = .ok (.transforms l) ∧
    ∃ S : M3, mkTf S 0 ∈ l ∧ IsRot S ∧ ∀ i j, |S i j - (1 : M3) i j| < 1 / 100 :=
  C139_no_gaps rootOK_sqrt (R := 1) ⟨by simp, by simp⟩ (by norm_num)

/-- Nine consecutive rows of a one-dimensional sampler (base 3): one in each ninth. -/
example : ∃ (s : Halton) (b : Fin 1 → Nat), s.primes = List.ofFn b ∧ ∃ (rows : List (List ℚ))
    (fuel₀ : Nat), (∀ fuel ≥ fuel₀, (s.requests fuel [4, 20]).map Prod.fst = .ok rows) ∧
    (b 0 = 3 → ((rows.drop 7).take 9).countP (InBox b (fun _ => 2) (fun _ => 5)) = 1) := by
  obtain ⟨s, b, hs, h⟩ := C139_boxes rootOK_sqrt 1 le_rfl
  obtain ⟨rows, f, _, h1, h2⟩ := h [4, 20]
  refine ⟨s, b, hs, rows, f, fun fuel hf => (h1 fuel hf).2, fun hb => ?_⟩
  exact (h2 (fun _ => 2) (fun _ => 5) (fun j => by rw [Subsingleton.elim j 0, hb]; norm_num) 7 9
    (by simp)).2 (by simp [hb])

end Verif.Props
