import Verif.Proofs.Sampling
import Mathlib.Tactic.NormNum.Prime

/-! # C23, C24, C25: van der Corput numbers, primes, Halton points -/

namespace Verif.Props

open Verif.Sampling

/-- The digits of `n`, least significant first, read behind the point in base `b`. -/
def digitReversal (b n : Nat) : ℚ :=
  ((Nat.digits b n).mapIdx fun (i d : Nat) => (d : ℚ) / (b : ℚ) ^ (i + 1)).sum

/-- **C23**, value: `vdc(n, base)` terminates for `base ≥ 2`, with the digit reversal of `n`, a
number in `[0, 1)`. -/
theorem C23_value {b : Nat} (hb : 2 ≤ b) (n : Nat) :
    (∃ fuel₀, ∀ fuel ≥ fuel₀, vdc fuel n b = .ok (digitReversal b n)) ∧
    0 ≤ digitReversal b n ∧ digitReversal b n < 1 :=
  ⟨⟨n, fun _ h => vdc_spec hb h⟩, radInv_bounds hb n⟩

/-- **C23**, distinct: whenever two calls return the same number the indices were the same. -/
theorem C23_injective {b : Nat} (hb : 2 ≤ b) {m n f g : Nat} {x : ℚ}
    (hm : vdc f m b = .ok x) (hn : vdc g n b = .ok x) : m = n := by
  have mono : ∀ (f : Nat) (k : Nat) (v : ℚ) (d : Int) (x : ℚ), vdcLoop b f k v d = .ok x →
      ∀ f' ≥ f, vdcLoop b f' k v d = .ok x := by
    intro f
    induction f with
    | zero =>
      intro k v d x h f' _
      unfold vdcLoop at h ⊢
      by_cases hk : (k : Int) = 0
      · rw [if_pos hk] at h ⊢; exact h
      · rw [if_neg hk] at h; simp at h
    | succ f ih =>
      intro k v d x h f' hf'
      obtain ⟨f'', rfl⟩ : ∃ f'', f' = f'' + 1 := ⟨f' - 1, by omega⟩
      unfold vdcLoop at h ⊢
      by_cases hk : (k : Int) = 0
      · rw [if_pos hk] at h ⊢; exact h
      · rw [if_neg hk] at h ⊢
        simp only at h ⊢
        rw [if_neg (by exact_mod_cast (by omega : b ≠ 0))] at h ⊢
        have e1 : (k : Int).fdiv b = ((k / b : Nat) : Int) := by
          rw [Int.fdiv_eq_ediv_of_nonneg _ (by positivity)]; simp
        rw [e1] at h ⊢
        exact ih _ _ _ _ h _ (by omega)
  have h1 := mono f m 0 1 x hm (max f m) (le_max_left _ _)
  have h2 := mono g n 0 1 x hn (max g n) (le_max_left _ _)
  have h3 : vdc (max f m) m b = .ok (radInv b m) := vdc_spec hb (le_max_right _ _)
  have h4 : vdc (max g n) n b = .ok (radInv b n) := vdc_spec hb (le_max_right _ _)
  rw [vdc, h1] at h3
  rw [vdc, h2] at h4
  simp only [Except.ok.injEq] at h3 h4
  exact radInv_inj hb (h3.symm.trans h4)

/-- **C23**, stratification: of the `b^k` indices of an aligned block, exactly one falls into each
interval `[i/b^k, (i+1)/b^k)`. -/
theorem C23_stratified {b : Nat} (hb : 2 ≤ b) (k m i : Nat) (hi : i < b ^ k) :
    ∃! n : Nat, (m * b ^ k ≤ n ∧ n < (m + 1) * b ^ k) ∧
      (i : ℚ) / b ^ k ≤ digitReversal b n ∧ digitReversal b n < ((i : ℚ) + 1) / b ^ k :=
  radInv_strat hb k m i hi

/-- **C23**, outside the domain: with `base = 1` and a positive index, or with a negative index and
a base of at least two, the loop never ends; `base = 0` divides by zero. -/
theorem C23_domain (n : Nat) (hn : 0 < n) (b : Nat) (hb : 2 ≤ b) (fuel : Nat) :
    vdc fuel n 1 = .error .outOfFuel ∧ vdc fuel (-n) b = .error .outOfFuel ∧
      vdc (fuel + 1) n 0 = .error .zeroDivisionError := by
  refine ⟨?_, ?_, ?_⟩
  · have : ∀ (fuel : Nat) (v : ℚ) (d : Int), vdcLoop 1 fuel n v d = .error .outOfFuel := by
      intro fuel
      induction fuel with
      | zero =>
        intro v d; unfold vdcLoop; rw [if_neg (by exact_mod_cast hn.ne')]
      | succ fuel ih =>
        intro v d; unfold vdcLoop; rw [if_neg (by exact_mod_cast hn.ne')]
        simp only [one_ne_zero, if_false, Int.fdiv_one]
        exact ih _ _
    exact this fuel 0 1
  · have : ∀ (fuel : Nat) (k : Int) (v : ℚ) (d : Int), k < 0 →
        vdcLoop b fuel k v d = .error .outOfFuel := by
      intro fuel
      induction fuel with
      | zero => intro k v d hk; unfold vdcLoop; rw [if_neg hk.ne]
      | succ fuel ih =>
        intro k v d hk; unfold vdcLoop; rw [if_neg hk.ne]
        simp only
        rw [if_neg (by exact_mod_cast (by omega : b ≠ 0))]
        apply ih
        rw [Int.fdiv_eq_ediv_of_nonneg _ (by positivity)]
        exact Int.ediv_neg_of_neg_of_pos hk (by omega)
    exact this fuel (-n) 0 1 (by omega)
  · unfold vdc vdcLoop
    rw [if_neg (by exact_mod_cast hn.ne')]
    simp

/-- **C24**.  For any computed square root that is neither too small nor as large as the number
(`Nat.sqrt` is one), the first `k` values of `next_prime` are the first `k` odd primes in
increasing order, for every `k`. -/
theorem C24_odd_primes {root : Nat → Nat}
    (hroot : ∀ n, 3 ≤ n → n < (root n + 1) ^ 2 ∧ root n < n) (k : Nat) :
    ∃ ps : List Nat, (∃ fuel₀, ∀ fuel ≥ fuel₀, takePrimes root fuel k 3 = .ok ps) ∧
      ps.length = k ∧ ps.Pairwise (· < ·) ∧ (∀ p ∈ ps, p.Prime ∧ p ≠ 2) ∧
      (∀ q : Nat, q.Prime → q ≠ 2 → q ∉ ps → ∀ p ∈ ps, p < q) := by
  classical
  have odd_iff : ∀ p : Nat, OddPrime p ↔ p.Prime ∧ p ≠ 2 := by
    intro p
    constructor
    · rintro ⟨h1, h2⟩; exact ⟨h1, by omega⟩
    · rintro ⟨h1, h2⟩; exact ⟨h1, h1.eq_two_or_odd.resolve_left h2⟩
  refine ⟨(List.range k).map (Nat.nth OddPrime),
    ⟨Nat.nth OddPrime k + 1, fun fuel h => takePrimes_start hroot (by omega)⟩, by simp, ?_, ?_, ?_⟩
  · rw [List.pairwise_map]
    exact List.pairwise_lt_range.imp fun h => Nat.nth_strictMono oddPrime_infinite h
  · intro p hp
    simp only [List.mem_map] at hp
    obtain ⟨j, _, rfl⟩ := hp
    exact (odd_iff _).1 (oddPrime_nth j)
  · intro q hq h2 hnot p hp
    simp only [List.mem_map, List.mem_range] at hp hnot
    obtain ⟨j, hj, rfl⟩ := hp
    have hcount := Nat.nth_count ((odd_iff q).2 ⟨hq, h2⟩)
    have hlt : k ≤ Nat.count OddPrime q := by
      by_contra hcon
      exact hnot ⟨_, by omega, hcount⟩
    rw [← hcount]
    exact Nat.nth_strictMono oddPrime_infinite (by omega)

/-- The exact integer square root meets the hypothesis of `C24_odd_primes`. -/
example : ∀ n, 3 ≤ n → n < (Nat.sqrt n + 1) ^ 2 ∧ Nat.sqrt n < n := rootOK_sqrt

/-- The bases of a new sampler of dimension `d`: pairwise different primes, never 2. -/
theorem C25_bases {root : Nat → Nat}
    (hroot : ∀ n, 3 ≤ n → n < (root n + 1) ^ 2 ∧ root n < n) (d : Nat) :
    ∃ s : Halton, (∃ fuel₀, ∀ fuel ≥ fuel₀, Halton.new root fuel d = .ok s) ∧ s.dim = d ∧
      s.cnt = 1 ∧ s.primes.length = d ∧ s.primes.Nodup ∧ (∀ p ∈ s.primes, p.Prime ∧ p ≠ 2) := by
  obtain ⟨ps, ⟨f, hf⟩, hl, hp, hpr, _⟩ := C24_odd_primes hroot d
  refine ⟨⟨d, ps, 1⟩, ⟨f, fun fuel h => by simp [Halton.new, hf fuel h, bind, Except.bind]⟩, rfl,
    rfl, hl, ?_, hpr⟩
  exact hp.imp fun h => h.ne

/-- **C25**.  After any history of requests `hist`, the rows handed out by a new sampler of
dimension `d ≥ 1` are the first `Σ hist` points of one fixed sequence: all different, one number in
`[0,1)` per dimension, namely the digit reversal of the running index in that dimension's base. So
the way the requests are split does not matter. -/
theorem C25_histories {root : Nat → Nat}
    (hroot : ∀ n, 3 ≤ n → n < (root n + 1) ^ 2 ∧ root n < n) (d : Nat) (hd : 1 ≤ d)
    (hist : List Nat) :
    ∃ (s : Halton) (rows : List (List ℚ)),
      (∃ fuel₀, ∀ fuel ≥ fuel₀, Halton.new root fuel d = .ok s ∧
        s.requests fuel hist = .ok (rows, { s with cnt := 1 + hist.sum }) ∧
        s.requests fuel [hist.sum] = .ok (rows, { s with cnt := 1 + hist.sum })) ∧
      rows.length = hist.sum ∧ rows.Nodup ∧
      (∀ (i : Nat) (h : i < rows.length), rows[i] = s.primes.map fun b => digitReversal b (i + 1)) ∧
      (∀ r ∈ rows, r.length = d ∧ ∀ x ∈ r, 0 ≤ x ∧ x < 1) := by
  obtain ⟨s, ⟨f, hf⟩, h1, h2, h3, _, h5⟩ := C25_bases hroot d
  have hb : ∀ b ∈ s.primes, 2 ≤ b := fun b hb => (h5 b hb).1.two_le
  have hne : s.primes ≠ [] := by intro h0; rw [h0] at h3; simp at h3; omega
  refine ⟨s, (List.range' 1 hist.sum).map (haltonPoint s.primes),
    ⟨f + 1 + hist.sum, fun fuel h => ⟨hf fuel (by omega), ?_, ?_⟩⟩, by simp, ?_, ?_, ?_⟩
  · have := requests_spec (fuel := fuel) hist s (h3.trans h1.symm) (by omega) hb (by omega)
    rw [h2] at this; exact this
  · have := requests_spec (fuel := fuel) [hist.sum] s (h3.trans h1.symm) (by omega) hb
      (by simp; omega)
    rw [h2] at this; simpa using this
  · exact (List.nodup_range').map_on fun i _ j _ hij => haltonPoint_inj hne hb hij
  · intro i h
    simp only [List.getElem_map, List.getElem_range', haltonPoint, one_mul, add_comm 1 i]
    rfl
  · intro r hr
    simp only [List.mem_map] at hr
    obtain ⟨i, _, rfl⟩ := hr
    refine ⟨by simp [haltonPoint, h3], ?_⟩
    intro x hx
    simp only [haltonPoint, List.mem_map] at hx
    obtain ⟨b, hb', rfl⟩ := hx
    exact radInv_bounds (hb b hb') i

/-- Dimension zero: there are no rows, whatever is asked for. -/
theorem C25_dim_zero (root : Nat → Nat) (fuel n : Nat) :
    Halton.new root fuel 0 = .ok ⟨0, [], 1⟩ ∧
      Halton.getSamples fuel ⟨0, [], 1⟩ n = .ok ([], ⟨0, [], 1 + n⟩) :=
  ⟨rfl, rfl⟩

/-- Three requests to a two-dimensional sampler, computed: bases 3 and 5. -/
example : ((Halton.new Nat.sqrt 10 2).toOption.bind fun s =>
    (s.requests 10 [1, 0, 2]).toOption.map Prod.fst) =
      some [[1/3, 1/5], [2/3, 2/5], [1/9, 3/5]] := by decide +kernel

/-- C23: a case of `C23_value`.  In base 3, eleven is 102, so it gets 0.201. -/
example : (∃ fuel₀, ∀ fuel ≥ fuel₀, vdc fuel 11 3 = .ok (digitReversal 3 11)) ∧
    digitReversal 3 11 = 19 / 27 :=
  ⟨(C23_value (by norm_num) 11).1, by norm_num [digitReversal, List.mapIdx, List.mapIdx.go]⟩

/-- C23: a case of `C23_injective`. -/
example (n : Nat) (h : vdc 20 n 3 = .ok (19 / 27)) : n = 11 :=
  C23_injective (by norm_num) h (show vdc 20 (11 : Nat) 3 = .ok (19 / 27) by decide +kernel)

/-- C23: a case of `C23_stratified`.  Of 8, …, 15 exactly one falls into [3/8, 4/8) in base 2. -/
example : ∃! n : Nat, (1 * 2 ^ 3 ≤ n ∧ n < (1 + 1) * 2 ^ 3) ∧
    ((3 : Nat) : ℚ) / ((2 : Nat) : ℚ) ^ 3 ≤ digitReversal 2 n ∧
      digitReversal 2 n < (((3 : Nat) : ℚ) + 1) / ((2 : Nat) : ℚ) ^ 3 :=
  C23_stratified (by norm_num) 3 1 3 (by norm_num)

/-- C23: a case of `C23_domain`.  Base 1 never ends, base 0 divides by zero. -/
example : (∀ fuel, vdc fuel (5 : Nat) 1 = .error .outOfFuel) ∧
    vdc 1 (5 : Nat) 0 = .error .zeroDivisionError :=
  ⟨fun fuel => (C23_domain 5 (by norm_num) 2 le_rfl fuel).1,
    (C23_domain 5 (by norm_num) 2 le_rfl 0).2.2⟩

end Verif.Props
