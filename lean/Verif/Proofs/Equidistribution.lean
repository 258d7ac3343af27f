import Verif.Proofs.Sampling
import Mathlib.Data.Int.CardIntervalMod
import Mathlib.Data.Nat.ChineseRemainder
import Mathlib.MeasureTheory.Measure.Lebesgue.Basic
import Mathlib.MeasureTheory.Integral.Bochner.Set
import Mathlib.Topology.UniformSpace.HeineCantor

/-!
# The points of the Halton sequence fill the cube evenly
-/

set_option linter.unusedSectionVars false

namespace Verif.Sampling

open Set MeasureTheory

/-- The digit reversal of a number whose last `k` digits are those of `r`. -/
theorem radInv_split {b : Nat} (hb : 2 ≤ b) : ∀ (k m r : Nat), r < b ^ k →
    ∃ c : Nat, c < b ^ k ∧ radInv b r = (c : ℚ) / b ^ k ∧
      radInv b (m * b ^ k + r) = ((c : ℚ) + radInv b m) / b ^ k := by
  have hb0 : (0 : ℚ) < b := by exact_mod_cast (by omega : 0 < b)
  have hbn : 0 < b := by omega
  intro k
  induction k with
  | zero =>
    intro m r hr
    have : r = 0 := by simpa using hr
    subst this
    exact ⟨0, by simp, by simp [radInv_zero], by simp⟩
  | succ k ih =>
    intro m r hr
    have hr' : r / b < b ^ k := by
      rw [Nat.div_lt_iff_lt_mul hbn, ← pow_succ]; exact hr
    obtain ⟨c, hc, h1, h2⟩ := ih m (r / b) hr'
    refine ⟨(r % b) * b ^ k + c, ?_, ?_, ?_⟩
    · have : r % b + 1 ≤ b := Nat.mod_lt _ hbn
      calc (r % b) * b ^ k + c < (r % b) * b ^ k + b ^ k := by omega
        _ = (r % b + 1) * b ^ k := by ring
        _ ≤ b * b ^ k := Nat.mul_le_mul_right _ this
        _ = b ^ (k + 1) := by ring
    · rw [radInv_step hb, h1]
      push_cast
      field_simp
      ring
    · have e1 : (m * b ^ (k + 1) + r) % b = r % b := by
        rw [pow_succ, ← mul_assoc, Nat.add_comm, Nat.add_mul_mod_self_right]
      have e2 : (m * b ^ (k + 1) + r) / b = m * b ^ k + r / b := by
        rw [pow_succ, ← mul_assoc, Nat.add_comm, Nat.add_mul_div_right _ _ hbn, Nat.add_comm]
      rw [radInv_step hb, e1, e2, h2]
      push_cast
      field_simp
      ring

/-- Which of the `b ^ k` parts of the interval a point falls in is decided by the index modulo
`b ^ k`, and every part belongs to one remainder. -/
theorem radInv_cell {b : Nat} (hb : 2 ≤ b) (k : Nat) {i : Nat} (hi : i < b ^ k) :
    ∃ r, ∀ n, ((i : ℚ) / b ^ k ≤ radInv b n ∧ radInv b n < ((i : ℚ) + 1) / b ^ k) ↔
      n ≡ r [MOD b ^ k] := by
  have hb0 : (0 : ℚ) < b := by exact_mod_cast (by omega : 0 < b)
  have hbk : (0 : ℚ) < (b : ℚ) ^ k := by positivity
  have hpos : 0 < b ^ k := Nat.pos_of_ne_zero (by positivity)
  -- the part of a point
  have hcell : ∀ n, ∃ c : Nat, radInv b (n % b ^ k) = (c : ℚ) / b ^ k ∧
      ∀ i : Nat, ((i : ℚ) / b ^ k ≤ radInv b n ∧ radInv b n < ((i : ℚ) + 1) / b ^ k) ↔ c = i := by
    intro n
    obtain ⟨c, _, h1, h2⟩ := radInv_split hb k (n / b ^ k) (n % b ^ k) (Nat.mod_lt _ hpos)
    refine ⟨c, h1, fun i => ?_⟩
    have e : n / b ^ k * b ^ k + n % b ^ k = n := Nat.div_add_mod' n (b ^ k)
    rw [e] at h2
    obtain ⟨hx0, hx1⟩ := radInv_bounds hb (n / b ^ k)
    rw [h2, div_le_div_iff_of_pos_right hbk, div_lt_div_iff_of_pos_right hbk]
    constructor
    · rintro ⟨p1, p2⟩
      have q1 : (i : ℚ) < c + 1 := by linarith
      have q2 : (c : ℚ) < i + 1 := by linarith
      have q1' : i < c + 1 := by exact_mod_cast q1
      have q2' : c < i + 1 := by exact_mod_cast q2
      omega
    · rintro rfl
      exact ⟨by linarith, by linarith⟩
  obtain ⟨r, ⟨⟨_, hr⟩, hri⟩, _⟩ := radInv_strat hb k 0 i hi
  rw [Nat.zero_add, Nat.one_mul] at hr
  refine ⟨r, fun n => ?_⟩
  obtain ⟨c, h1, h2⟩ := hcell n
  obtain ⟨c', h1', h2'⟩ := hcell r
  have hc' : c' = i := (h2' i).1 hri
  rw [h2 i]
  constructor
  · intro hc
    rw [hc, ← hc', ← h1'] at h1
    exact radInv_inj hb h1
  · intro h
    have : radInv b (n % b ^ k) = radInv b (r % b ^ k) := by rw [h]
    rw [h1, h1', div_left_inj' hbk.ne'] at this
    rw [← hc']
    exact_mod_cast this

/-- The same for several coprime bases at once. -/
theorem box_cell {ι : Type} [Fintype ι] {b : ι → Nat} (hb : ∀ j, 2 ≤ b j)
    (hco : Pairwise fun i j => (b i).Coprime (b j)) (k i : ι → Nat) (hi : ∀ j, i j < b j ^ k j) :
    ∃ r, ∀ n, (∀ j, (i j : ℚ) / b j ^ k j ≤ radInv (b j) n ∧
      radInv (b j) n < ((i j : ℚ) + 1) / b j ^ k j) ↔ n ≡ r [MOD ∏ j, b j ^ k j] := by
  classical
  choose r hr using fun j => radInv_cell (hb j) (k j) (hi j)
  have hco' : Set.Pairwise (Finset.univ : Finset ι) (Function.onFun Nat.Coprime fun j => b j ^ k j) :=
    fun x _ y _ hxy => Nat.Coprime.pow _ _ (hco hxy)
  have hne : ∀ j ∈ (Finset.univ : Finset ι), b j ^ k j ≠ 0 := fun j _ =>
    (Nat.pow_pos (by have := hb j; omega)).ne'
  obtain ⟨x, hx⟩ := Nat.chineseRemainderOfFinset r (fun j => b j ^ k j) Finset.univ hne hco'
  refine ⟨x, fun n => ?_⟩
  have hprod : n ≡ x [MOD ∏ j, b j ^ k j] ↔ ∀ j, n ≡ x [MOD b j ^ k j] := by
    have := Nat.modEq_list_map_prod_iff (a := n) (b := x) (s := fun j => b j ^ k j)
      (l := (Finset.univ : Finset ι).toList)
      (List.Nodup.pairwise_of_forall_ne (Finset.nodup_toList _) fun x _ y _ hxy =>
        Nat.Coprime.pow _ _ (hco hxy))
    rw [Finset.prod_map_toList] at this
    simpa using this
  rw [hprod]
  refine forall_congr' fun j => ?_
  rw [hr j n]
  exact ⟨fun h => h.trans (hx j (Finset.mem_univ j)).symm, fun h => h.trans (hx j (Finset.mem_univ j))⟩

/-- How often a remainder occurs among consecutive numbers. -/
theorem card_window {B : Nat} (hB : 0 < B) (a N v : Nat) :
    |(((Finset.Ico a (a + N)).filter (· ≡ v [MOD B])).card : ℚ) - (N : ℚ) / B| < 1 ∧
      (N = B → ((Finset.Ico a (a + N)).filter (· ≡ v [MOD B])).card = 1) := by
  have hB' : (0 : ℚ) < B := by exact_mod_cast hB
  have h := Nat.Ico_filter_modEq_card a (a + N) hB v
  set c := ((Finset.Ico a (a + N)).filter (· ≡ v [MOD B])).card with hc
  have e : ((a + N : Nat) - (v : ℚ)) / B = ((a : ℚ) - v) / B + N / B := by push_cast; ring
  rw [e] at h
  set x := ((a : ℚ) - v) / B with hx
  have hN0 : (0 : ℚ) ≤ N / B := by positivity
  have hle : ⌈x⌉ ≤ ⌈x + N / B⌉ := Int.ceil_le_ceil (by linarith)
  rw [max_eq_left (by omega)] at h
  have hq : (c : ℚ) = (⌈x + N / B⌉ : ℚ) - ⌈x⌉ := by exact_mod_cast h
  constructor
  · have h1 := Int.le_ceil x
    have h2 := Int.ceil_lt_add_one x
    have h3 := Int.le_ceil (x + N / B)
    have h4 := Int.ceil_lt_add_one (x + N / B)
    rw [hq, abs_lt]
    constructor <;> linarith
  · rintro rfl
    have e1 : x + (N : ℚ) / N = x + 1 := by rw [div_self hB'.ne']
    rw [e1, Int.ceil_add_one] at h
    omega

/-! ## Averages over a sequence that fills the cells evenly -/

/-- The cell with the given indices. -/
def cellOf {d : Nat} (b : Fin d → Nat) (k : Nat) (i : (j : Fin d) → Fin (b j ^ k)) : Set (Fin d → ℝ) :=
  pi univ fun j => Ico ((i j : ℝ) / (b j : ℝ) ^ k) (((i j : ℝ) + 1) / (b j : ℝ) ^ k)

/-- The cube `[0, 1)` to the power `d`. -/
def unitCube (d : Nat) : Set (Fin d → ℝ) := pi univ fun _ => Ico 0 1

theorem mem_cellOf_iff {d : Nat} {b : Fin d → Nat} (hb : ∀ j, 2 ≤ b j) {k : Nat} {x : Fin d → ℝ}
    (hx : x ∈ unitCube d) (i : (j : Fin d) → Fin (b j ^ k)) :
    x ∈ cellOf b k i ↔ ∀ j, ⌊x j * (b j : ℝ) ^ k⌋₊ = i j := by
  have hpos : ∀ j, (0 : ℝ) < (b j : ℝ) ^ k := fun j => by
    have : 0 < b j := by have := hb j; omega
    positivity
  simp only [cellOf, mem_pi, mem_univ, true_implies, mem_Ico]
  refine forall_congr' fun j => ?_
  rw [Nat.floor_eq_iff (mul_nonneg (hx j trivial).1 (hpos j).le), div_le_iff₀ (hpos j),
    lt_div_iff₀ (hpos j)]

theorem exists_cell {d : Nat} {b : Fin d → Nat} (hb : ∀ j, 2 ≤ b j) (k : Nat) {x : Fin d → ℝ}
    (hx : x ∈ unitCube d) : ∃ i, x ∈ cellOf b k i := by
  have hpos : ∀ j, (0 : ℝ) < (b j : ℝ) ^ k := fun j => by
    have : 0 < b j := by have := hb j; omega
    positivity
  refine ⟨fun j => ⟨⌊x j * (b j : ℝ) ^ k⌋₊, ?_⟩, (mem_cellOf_iff hb hx _).2 fun j => rfl⟩
  rw [Nat.floor_lt (mul_nonneg (hx j trivial).1 (hpos j).le)]
  push_cast
  have := (hx j trivial).2
  nlinarith [hpos j]

theorem cellOf_subset {d : Nat} {b : Fin d → Nat} (hb : ∀ j, 2 ≤ b j) (k : Nat)
    (i : (j : Fin d) → Fin (b j ^ k)) : cellOf b k i ⊆ unitCube d := by
  intro x hx j _
  have hpos : (0 : ℝ) < (b j : ℝ) ^ k := by
    have : 0 < b j := by have := hb j; omega
    positivity
  have h := hx j trivial
  refine ⟨le_trans (by positivity) h.1, lt_of_lt_of_le h.2 ?_⟩
  rw [div_le_one hpos]
  exact_mod_cast (i j).2

/-- Averages over a sequence of points that visits every cell as often as its volume asks for, up
to one visit, tend to the integral. -/
theorem average_tendsto {d : Nat} {b : Fin d → Nat} (hb : ∀ j, 2 ≤ b j) {x : Nat → Fin d → ℝ}
    (hx : ∀ n, x n ∈ unitCube d)
    (hcount : ∀ (k : Nat) (i : (j : Fin d) → Fin (b j ^ k)) (N : Nat) [DecidablePred (x · ∈ cellOf b k i)],
      |(((Finset.range N).filter (x · ∈ cellOf b k i)).card : ℝ) - N / ∏ j, (b j : ℝ) ^ k| ≤ 1)
    {f : (Fin d → ℝ) → ℝ} (hf : ContinuousOn f (Icc 0 1)) :
    Filter.Tendsto (fun N : Nat => (∑ n ∈ Finset.range N, f (x n)) / N) Filter.atTop
      (nhds (∫ y in unitCube d, f y)) := by
  classical
  have hbpos : ∀ j, (0 : ℝ) < b j := fun j => by
    have : 0 < b j := by have := hb j; omega
    exact_mod_cast this
  have hsub : unitCube d ⊆ Icc 0 1 := fun y hy =>
    ⟨fun j => (hy j trivial).1, fun j => (hy j trivial).2.le⟩
  have hmeas : MeasurableSet (unitCube d) := MeasurableSet.univ_pi fun _ => measurableSet_Ico
  have hint : IntegrableOn f (unitCube d) :=
    (hf.integrableOn_compact isCompact_Icc).mono_set hsub
  rw [Metric.tendsto_atTop]
  intro ε hε
  obtain ⟨δ, hδ, hcl⟩ := Metric.uniformContinuousOn_iff.1
    (isCompact_Icc.uniformContinuousOn_of_continuous hf) (ε / 4) (by positivity)
  obtain ⟨k, hk⟩ := exists_pow_lt_of_lt_one hδ (by norm_num : (1 / 2 : ℝ) < 1)
  have hkb : ∀ j, 1 / (b j : ℝ) ^ k < δ := by
    intro j
    refine lt_of_le_of_lt ?_ hk
    rw [one_div_pow]
    have : (2 : ℝ) ≤ b j := by exact_mod_cast hb j
    gcongr
  let B : ℝ := ∏ j, (b j : ℝ) ^ k
  have hB : 0 < B := Finset.prod_pos fun j _ => pow_pos (hbpos j) k
  let c : ((j : Fin d) → Fin (b j ^ k)) → Fin d → ℝ := fun i j => (i j : ℝ) / (b j : ℝ) ^ k
  have hcmem : ∀ i, c i ∈ cellOf b k i := by
    intro i j _
    refine ⟨le_rfl, ?_⟩
    have := pow_pos (hbpos j) k
    simp only [c]
    gcongr
    linarith
  have hnear : ∀ i, ∀ y ∈ cellOf b k i, |f y - f (c i)| < ε / 4 := by
    intro i y hy
    rw [← Real.dist_eq]
    refine hcl y (hsub (cellOf_subset hb k i hy)) (c i) (hsub (cellOf_subset hb k i (hcmem i))) ?_
    rw [dist_pi_lt_iff hδ]
    intro j
    have h := hy j trivial
    refine lt_of_le_of_lt ?_ (hkb j)
    rw [Real.dist_eq, abs_le]
    have e : ((i j : ℝ) + 1) / (b j : ℝ) ^ k = (i j : ℝ) / (b j : ℝ) ^ k + 1 / (b j : ℝ) ^ k := by ring
    have h1 : (i j : ℝ) / (b j : ℝ) ^ k ≤ y j := h.1
    have h2 : y j < ((i j : ℝ) + 1) / (b j : ℝ) ^ k := h.2
    rw [e] at h2
    simp only [c]
    have : (0 : ℝ) < 1 / (b j : ℝ) ^ k := by have := pow_pos (hbpos j) k; positivity
    constructor <;> linarith
  -- the integral against the sum over the corners
  let S : ℝ := (∑ i, f (c i)) / B
  have hvol : ∀ i, (volume (cellOf b k i)).toReal = 1 / B := by
    intro i
    rw [cellOf, Real.volume_pi_Ico, ENNReal.toReal_prod]
    simp only [B, one_div, ← Finset.prod_inv_distrib]
    refine Finset.prod_congr rfl fun j _ => ?_
    have := pow_pos (hbpos j) k
    rw [ENNReal.toReal_ofReal]
    · field_simp; ring
    · rw [sub_nonneg]; gcongr; linarith
  have hfin : ∀ i, volume (cellOf b k i) ≠ ⊤ := by
    intro i
    rw [cellOf, Real.volume_pi_Ico]
    exact ENNReal.prod_ne_top fun j _ => ENNReal.ofReal_ne_top
  have hcm : ∀ i, MeasurableSet (cellOf b k i) := fun i =>
    MeasurableSet.univ_pi fun _ => measurableSet_Ico
  have hunion : unitCube d = ⋃ i, cellOf b k i := by
    ext y
    rw [mem_iUnion]
    exact ⟨fun hy => exists_cell hb k hy, fun ⟨i, hi⟩ => cellOf_subset hb k i hi⟩
  have hdisj : Pairwise (Function.onFun Disjoint (cellOf b k)) := by
    intro i i' hne
    rw [Function.onFun, Set.disjoint_left]
    intro y hy hy'
    apply hne
    have hyc := cellOf_subset hb k i hy
    funext j
    have h1 := (mem_cellOf_iff hb hyc i).1 hy j
    have h2 := (mem_cellOf_iff hb hyc i').1 hy' j
    exact Fin.ext (h1.symm.trans h2)
  have hcard : (Fintype.card ((j : Fin d) → Fin (b j ^ k)) : ℝ) = B := by
    rw [Fintype.card_pi]
    push_cast
    simp [B]
  have hI : |(∫ y in unitCube d, f y) - S| ≤ ε / 4 := by
    have e1 : ∫ y in unitCube d, f y = ∑ i, ∫ y in cellOf b k i, f y := by
      rw [hunion, integral_iUnion_fintype hcm hdisj fun i => hint.mono_set (cellOf_subset hb k i)]
    have e2 : ∀ i, |(∫ y in cellOf b k i, f y) - f (c i) / B| ≤ ε / 4 / B := by
      intro i
      have hconst : f (c i) / B = ∫ _ in cellOf b k i, f (c i) := by
        rw [setIntegral_const, measureReal_def, hvol, smul_eq_mul]; ring
      rw [hconst, ← integral_sub (hint.mono_set (cellOf_subset hb k i))
        (integrableOn_const (hfin i))]
      have := norm_setIntegral_le_of_norm_le_const (μ := volume) (s := cellOf b k i)
        (f := fun y => f y - f (c i)) (C := ε / 4) (lt_top_iff_ne_top.2 (hfin i))
        fun y hy => (hnear i y hy).le
      rw [Real.norm_eq_abs, measureReal_def, hvol] at this
      refine this.trans (le_of_eq ?_)
      ring
    rw [e1]
    have e3 : S = ∑ i, f (c i) / B := by rw [← Finset.sum_div]
    rw [e3, ← Finset.sum_sub_distrib]
    refine (Finset.abs_sum_le_sum_abs _ _).trans ((Finset.sum_le_sum fun i _ => e2 i).trans ?_)
    rw [Finset.sum_const, Finset.card_univ, nsmul_eq_mul, hcard]
    rw [mul_div_cancel₀ _ hB.ne']
  -- the average against the same sum
  choose idx hidx using fun n => exists_cell hb k (hx n)
  have hidx_iff : ∀ n i, x n ∈ cellOf b k i ↔ idx n = i := by
    intro n i
    constructor
    · intro h
      by_contra hne
      exact Set.disjoint_left.1 (hdisj hne) (hidx n) h
    · rintro rfl; exact hidx n
  let M : ℝ := ∑ i, |f (c i)|
  have hM : 0 ≤ M := Finset.sum_nonneg fun i _ => abs_nonneg _
  have hA : ∀ N : Nat, 0 < N → |(∑ n ∈ Finset.range N, f (x n)) / N - S| ≤ ε / 4 + M / N := by
    intro N hN
    have hN' : (0 : ℝ) < N := by exact_mod_cast hN
    have h1 : |∑ n ∈ Finset.range N, f (x n) - ∑ n ∈ Finset.range N, f (c (idx n))| ≤ N * (ε / 4) := by
      rw [← Finset.sum_sub_distrib]
      refine (Finset.abs_sum_le_sum_abs _ _).trans
        ((Finset.sum_le_sum fun n _ => (hnear (idx n) (x n) (hidx n)).le).trans ?_)
      simp
    have h2 : ∑ n ∈ Finset.range N, f (c (idx n)) =
        ∑ i, (((Finset.range N).filter (x · ∈ cellOf b k i)).card : ℝ) * f (c i) := by
      rw [← Finset.sum_fiberwise (Finset.range N) idx]
      refine Finset.sum_congr rfl fun i _ => ?_
      have e : (Finset.range N).filter (idx · = i) = (Finset.range N).filter (x · ∈ cellOf b k i) :=
        Finset.filter_congr fun n _ => (hidx_iff n i).symm
      rw [Finset.sum_congr rfl (g := fun _ => f (c i)) fun n hn => by
        rw [(Finset.mem_filter.1 hn).2], Finset.sum_const, nsmul_eq_mul, e]
    have h3 : |∑ n ∈ Finset.range N, f (c (idx n)) - N * S| ≤ M := by
      have e : N * S = ∑ i, (N / B) * f (c i) := by rw [← Finset.mul_sum]; simp only [S]; ring
      rw [h2, e, ← Finset.sum_sub_distrib]
      refine (Finset.abs_sum_le_sum_abs _ _).trans (Finset.sum_le_sum fun i _ => ?_)
      rw [← sub_mul, abs_mul]
      exact mul_le_of_le_one_left (abs_nonneg _) (hcount k i N)
    have h4 : |∑ n ∈ Finset.range N, f (x n) - N * S| ≤ N * (ε / 4) + M := by
      have := abs_add_le (∑ n ∈ Finset.range N, f (x n) - ∑ n ∈ Finset.range N, f (c (idx n)))
        (∑ n ∈ Finset.range N, f (c (idx n)) - N * S)
      rw [sub_add_sub_cancel] at this
      linarith
    have e5 : (∑ n ∈ Finset.range N, f (x n)) / N - S = (∑ n ∈ Finset.range N, f (x n) - N * S) / N := by
      field_simp
    rw [e5, abs_div, abs_of_pos hN', div_le_iff₀ hN']
    have e6 : (ε / 4 + M / N) * N = N * (ε / 4) + M := by field_simp
    rw [e6]
    exact h4
  obtain ⟨N₀, hN₀⟩ := exists_nat_gt (M / (ε / 4))
  refine ⟨N₀ + 1, fun N hN => ?_⟩
  have hNpos : 0 < N := by omega
  have hN' : (0 : ℝ) < N := by exact_mod_cast hNpos
  have hlt : M / N < ε / 4 := by
    rw [div_lt_iff₀ hN']
    rw [div_lt_iff₀ (by positivity)] at hN₀
    have : (N₀ : ℝ) ≤ N := by exact_mod_cast (by omega : N₀ ≤ N)
    nlinarith
  rw [Real.dist_eq]
  have h1 := hA N hNpos
  have h2 := abs_sub_comm (∫ y in unitCube d, f y) S
  have h3 := abs_add_le ((∑ n ∈ Finset.range N, f (x n)) / N - S) (S - ∫ y in unitCube d, f y)
  rw [sub_add_sub_cancel] at h3
  rw [h2] at hI
  linarith

end Verif.Sampling
