import Verif.Model.Sampling
import Mathlib.Data.Nat.Prime.Infinite
import Mathlib.Data.Nat.Nth
import Mathlib.Data.Nat.Digits.Defs
import Mathlib.Data.Nat.PrimeFin
import Mathlib.Algebra.Order.Field.Basic
import Mathlib.Data.Rat.Cast.Order
import Mathlib.Tactic.FieldSimp
import Mathlib.Tactic.Linarith
import Mathlib.Tactic.Positivity
import Mathlib.Data.List.Nodup

/-! # Lemmas on the sampling sequences -/

namespace Verif.Sampling

/-- Base-`b` digit reversal behind the point: digit `i` of `n` counts `b ^ -(i+1)`. -/
def radInv (b n : Nat) : ℚ :=
  ((Nat.digits b n).mapIdx fun (i d : Nat) => (d : ℚ) / (b : ℚ) ^ (i + 1)).sum

theorem mapIdx_sum_shift (b : Nat) (l : List Nat) :
    (l.mapIdx fun (i d : Nat) => (d : ℚ) / (b : ℚ) ^ (i + 1 + 1)).sum
      = (l.mapIdx fun (i d : Nat) => (d : ℚ) / (b : ℚ) ^ (i + 1)).sum / b := by
  have : ∀ (l : List Nat) (k : Nat),
      (l.mapIdx fun (i d : Nat) => (d : ℚ) / (b : ℚ) ^ (i + k + 1)).sum
        = (l.mapIdx fun (i d : Nat) => (d : ℚ) / (b : ℚ) ^ (i + k)).sum / b := by
    intro l
    induction l with
    | nil => simp
    | cons x xs ih =>
      intro k
      simp only [List.mapIdx_cons, List.sum_cons, add_div]
      congr 1
      · rw [pow_succ, div_div]
      · have := ih (k + 1)
        simp only [show ∀ i, i + (k + 1) = i + 1 + k by omega] at this
        simpa using this
  simpa using this l 1

theorem radInv_zero (b : Nat) : radInv b 0 = 0 := by simp [radInv]

theorem radInv_step {b : Nat} (hb : 2 ≤ b) (n : Nat) :
    radInv b n = ((n % b : Nat) + radInv b (n / b)) / b := by
  rcases Nat.eq_zero_or_pos n with rfl | hn
  · simp [radInv_zero]
  · unfold radInv
    rw [Nat.digits_eq_cons_digits_div (by omega) (by omega)]
    simp only [List.mapIdx_cons, List.sum_cons, zero_add, pow_one, add_div]
    rw [mapIdx_sum_shift]

theorem radInv_bounds {b : Nat} (hb : 2 ≤ b) (n : Nat) : 0 ≤ radInv b n ∧ radInv b n < 1 := by
  induction n using Nat.strong_induction_on with
  | _ n ih =>
    rcases Nat.eq_zero_or_pos n with rfl | hn
    · simp [radInv_zero]
    · have hb0 : (0 : ℚ) < b := by exact_mod_cast (by omega : 0 < b)
      obtain ⟨h0, h1⟩ := ih (n / b) (Nat.div_lt_self hn (by omega))
      have hr : ((n % b : Nat) : ℚ) ≤ b - 1 := by
        have : n % b + 1 ≤ b := Nat.mod_lt _ (by omega)
        have : ((n % b : Nat) : ℚ) + 1 ≤ b := by exact_mod_cast this
        linarith
      rw [radInv_step hb]
      refine ⟨by positivity, ?_⟩
      rw [div_lt_one hb0]; linarith

/-- Integer part and fractional part determine each other. -/
theorem split_unique {a c : Nat} {x y : ℚ} (hx0 : 0 ≤ x) (hx1 : x < 1) (hy0 : 0 ≤ y) (hy1 : y < 1)
    (h : (a : ℚ) + x = c + y) : a = c ∧ x = y := by
  have h1 : a = c := by
    rcases Nat.lt_trichotomy a c with hlt | heq | hlt
    · exfalso
      have : (a : ℚ) + 1 ≤ c := by exact_mod_cast hlt
      linarith
    · exact heq
    · exfalso
      have : (c : ℚ) + 1 ≤ a := by exact_mod_cast hlt
      linarith
  subst h1
  exact ⟨rfl, by linarith⟩

theorem radInv_inj {b : Nat} (hb : 2 ≤ b) : ∀ {m n : Nat}, radInv b m = radInv b n → m = n := by
  have hb0 : (0 : ℚ) < b := by exact_mod_cast (by omega : 0 < b)
  intro m
  induction m using Nat.strong_induction_on with
  | _ m ih =>
    intro n h
    rw [radInv_step hb m, radInv_step hb n, div_left_inj' hb0.ne'] at h
    obtain ⟨hm0, hm1⟩ := radInv_bounds hb (m / b)
    obtain ⟨hn0, hn1⟩ := radInv_bounds hb (n / b)
    obtain ⟨hd, hq⟩ := split_unique hm0 hm1 hn0 hn1 h
    rcases Nat.eq_zero_or_pos m with rfl | hm
    · -- everything to the right is zero
      have : ∀ k : Nat, radInv b k = 0 → k = 0 := by
        intro k
        induction k using Nat.strong_induction_on with
        | _ k ihk =>
          intro hk
          rcases Nat.eq_zero_or_pos k with hk0 | hk0
          · exact hk0
          · rw [radInv_step hb, div_eq_zero_iff] at hk
            rcases hk with hk | hk
            · have h0 := (radInv_bounds hb (k / b)).1
              have h1 : (0 : ℚ) ≤ (k % b : Nat) := by positivity
              have h2 : radInv b (k / b) = 0 := by linarith
              have h3 : ((k % b : Nat) : ℚ) = 0 := by linarith
              have h4 := ihk _ (Nat.div_lt_self hk0 (by omega)) h2
              have h5 : k % b = 0 := by exact_mod_cast h3
              have := Nat.div_add_mod k b
              rw [h4, h5] at this; omega
            · exact absurd hk hb0.ne'
      have hz : radInv b (n / b) = 0 := by rw [← hq]; simp [radInv_zero]
      have h4 := this _ hz
      have h5 : n % b = 0 := by rw [← hd]; simp
      have := Nat.div_add_mod n b
      rw [h4, h5] at this; omega
    · have := ih _ (Nat.div_lt_self hm (by omega)) hq
      rw [← Nat.div_add_mod m b, ← Nat.div_add_mod n b, this, hd]

/-- One index of each residue block in each elementary interval. -/
theorem radInv_strat {b : Nat} (hb : 2 ≤ b) : ∀ (k m i : Nat), i < b ^ k →
    ∃! n : Nat, (m * b ^ k ≤ n ∧ n < (m + 1) * b ^ k) ∧
      ((i : ℚ) / b ^ k ≤ radInv b n ∧ radInv b n < ((i : ℚ) + 1) / b ^ k) := by
  have hb0 : (0 : ℚ) < b := by exact_mod_cast (by omega : 0 < b)
  intro k
  induction k with
  | zero =>
    intro m i hi
    have : i = 0 := by simpa using hi
    subst this
    refine ⟨m, ⟨by simp, by simpa using radInv_bounds hb m⟩, ?_⟩
    rintro n ⟨⟨h1, h2⟩, _⟩
    simp at h1 h2; omega
  | succ k ih =>
    intro m i hi
    have hpk : 0 < b ^ k := Nat.pow_pos (by omega)
    have hpkq : (0 : ℚ) < (b : ℚ) ^ k := by positivity
    set d := i / b ^ k with hd
    set i' := i % b ^ k with hi'
    have hi'lt : i' < b ^ k := Nat.mod_lt _ hpk
    have hdlt : d < b := by
      rw [hd]; exact Nat.div_lt_of_lt_mul (by rw [← pow_succ]; exact hi)
    have hsplit : i = b ^ k * d + i' := (Nat.div_add_mod i (b ^ k)).symm
    have hsplitq : (i : ℚ) = b ^ k * d + i' := by exact_mod_cast hsplit
    -- translation of the condition on `n` to the condition on `n / b`
    have key : ∀ n : Nat,
        (((m * b ^ (k + 1) ≤ n ∧ n < (m + 1) * b ^ (k + 1)) ∧
          ((i : ℚ) / b ^ (k + 1) ≤ radInv b n ∧ radInv b n < ((i : ℚ) + 1) / b ^ (k + 1))) ↔
        (n % b = d ∧ (m * b ^ k ≤ n / b ∧ n / b < (m + 1) * b ^ k) ∧
          ((i' : ℚ) / b ^ k ≤ radInv b (n / b) ∧
            radInv b (n / b) < ((i' : ℚ) + 1) / b ^ k))) := by
      intro n
      have e1 : (m * b ^ (k + 1) ≤ n) ↔ (m * b ^ k ≤ n / b) := by
        rw [Nat.le_div_iff_mul_le (by omega), pow_succ, mul_assoc]
      have e2 : (n < (m + 1) * b ^ (k + 1)) ↔ (n / b < (m + 1) * b ^ k) := by
        rw [Nat.div_lt_iff_lt_mul (by omega), pow_succ, mul_assoc]
      have e3 : ((i : ℚ) / b ^ (k + 1) ≤ radInv b n) ↔
          ((d : ℚ) + i' / b ^ k ≤ (n % b : Nat) + radInv b (n / b)) := by
        rw [radInv_step hb n, hsplitq, pow_succ, ← div_div,
          div_le_div_iff_of_pos_right hb0, add_div, mul_div_cancel_left₀ _ hpkq.ne']
      have e4 : (radInv b n < ((i : ℚ) + 1) / b ^ (k + 1)) ↔
          ((n % b : Nat) + radInv b (n / b) < (d : ℚ) + (i' + 1) / b ^ k) := by
        rw [radInv_step hb n, hsplitq, pow_succ, ← div_div,
          div_lt_div_iff_of_pos_right hb0, add_assoc, add_div,
          mul_div_cancel_left₀ _ hpkq.ne']
      rw [e1, e2, e3, e4]
      obtain ⟨h0, h1⟩ := radInv_bounds hb (n / b)
      have hu : ((i' : ℚ) + 1) / b ^ k ≤ 1 := by
        rw [div_le_one hpkq]; exact_mod_cast hi'lt
      have hl : (0 : ℚ) ≤ (i' : ℚ) / b ^ k := by positivity
      constructor
      · rintro ⟨hr, ha, hb'⟩
        have hdig : n % b = d := by
          rcases Nat.lt_trichotomy (n % b) d with hlt | heq | hlt
          · exfalso
            have : ((n % b : Nat) : ℚ) + 1 ≤ d := by exact_mod_cast hlt
            linarith
          · exact heq
          · exfalso
            have : (d : ℚ) + 1 ≤ (n % b : Nat) := by exact_mod_cast hlt
            linarith
        rw [hdig] at ha hb'
        exact ⟨hdig, hr, by linarith, by linarith⟩
      · rintro ⟨hdig, hr, ha, hb'⟩
        rw [hdig]
        exact ⟨hr, by linarith, by linarith⟩
    obtain ⟨q, hq, huniq⟩ := ih m i' hi'lt
    have hqd : (q * b + d) / b = q := by
      rw [mul_comm, Nat.mul_add_div (by omega), Nat.div_eq_of_lt hdlt, add_zero]
    have hqm : (q * b + d) % b = d := by
      rw [mul_comm, Nat.mul_add_mod, Nat.mod_eq_of_lt hdlt]
    refine ⟨q * b + d, (key _).2 ⟨hqm, by rw [hqd]; exact hq⟩, ?_⟩
    intro n hn
    obtain ⟨hdig, hrest⟩ := (key n).1 hn
    have := huniq _ hrest
    rw [← Nat.div_add_mod n b, this, hdig, mul_comm]

/-! ### The loop computes it -/

theorem vdcLoop_spec {b : Nat} (hb : 2 ≤ b) : ∀ (fuel n : Nat) (v : ℚ) (denom : Nat), 0 < denom →
    n ≤ fuel → vdcLoop b fuel n v denom = .ok (v + radInv b n / denom) := by
  have hb0 : (b : ℚ) ≠ 0 := by exact_mod_cast (by omega : b ≠ 0)
  intro fuel
  induction fuel with
  | zero =>
    intro n v denom hd h
    obtain rfl : n = 0 := by omega
    unfold vdcLoop; simp [radInv_zero]
  | succ fuel ih =>
    intro n v denom hd h
    have hd0 : (denom : ℚ) ≠ 0 := by exact_mod_cast hd.ne'
    unfold vdcLoop
    by_cases hn : n = 0
    · subst hn; simp [radInv_zero]
    · rw [if_neg (by exact_mod_cast hn)]
      simp only
      rw [if_neg (by exact_mod_cast (by omega : b ≠ 0))]
      have hlt : n / b < n := Nat.div_lt_self (by omega) (by omega)
      have e1 : (n : Int).fdiv b = ((n / b : Nat) : Int) := by
        rw [Int.fdiv_eq_ediv_of_nonneg _ (by positivity)]; simp
      have e2 : (n : Int).fmod b = ((n % b : Nat) : Int) := by
        rw [Int.fmod_eq_emod_of_nonneg _ (by positivity)]; simp
      rw [e1, e2, ← Int.natCast_mul, ih _ _ _ (Nat.mul_pos hd (by omega)) (by omega),
        radInv_step hb n]
      congr 1
      rw [Int.cast_natCast, Int.cast_natCast, Nat.cast_mul]
      field_simp
      ring

theorem vdc_spec {b : Nat} (hb : 2 ≤ b) {fuel n : Nat} (h : n ≤ fuel) :
    vdc fuel n b = .ok (radInv b n) := by
  have := vdcLoop_spec hb fuel n 0 1 one_pos h
  simpa [vdc] using this

/-! ### Primes -/

/-- What is needed of the computed square root: not too small, and below the number. -/
def RootOK (root : Nat → Nat) : Prop :=
  ∀ n, 3 ≤ n → n < (root n + 1) ^ 2 ∧ root n < n

theorem rootOK_sqrt : RootOK Nat.sqrt := fun n hn =>
  ⟨by have := Nat.lt_succ_sqrt n; rw [pow_two]; exact this, Nat.sqrt_lt_self (by omega)⟩

theorem isPrime_iff {root : Nat → Nat} (hr : RootOK root) {n : Nat} (hn : 3 ≤ n) :
    isPrime root n = true ↔ n.Prime := by
  obtain ⟨h1, h2⟩ := hr n hn
  simp only [isPrime, List.all_eq_true, List.mem_range'_1, decide_eq_true_eq]
  constructor
  · intro h
    by_contra hp
    have h3 : n.minFac ^ 2 ≤ n := Nat.minFac_sq_le_self (by omega) hp
    have h4 : n.minFac < root n + 1 := by
      by_contra hcon
      have : (root n + 1) ^ 2 ≤ n.minFac ^ 2 := Nat.pow_le_pow_left (by omega) 2
      omega
    have h5 : 2 ≤ n.minFac := (Nat.minFac_prime (by omega)).two_le
    exact h n.minFac ⟨h5, by omega⟩ (Nat.mod_eq_zero_of_dvd n.minFac_dvd)
  · intro hp i hi h
    have := (Nat.dvd_prime hp).1 (Nat.dvd_of_mod_eq_zero h)
    omega

/-- The odd primes. -/
def OddPrime (p : Nat) : Prop := p.Prime ∧ p % 2 = 1

theorem nextPrime_spec {root : Nat → Nat} (hr : RootOK root) {q : Nat} (hq : OddPrime q) :
    ∀ (fuel c : Nat), 3 ≤ c → c % 2 = 1 → c ≤ q → q < c + 2 * fuel →
      (∀ p, OddPrime p → c ≤ p → q ≤ p) → nextPrime root fuel c = .ok (q, q + 2) := by
  intro fuel
  induction fuel with
  | zero => intro c h1 h2 h3 h4; omega
  | succ fuel ih =>
    intro c h1 h2 h3 h4 h5
    unfold nextPrime
    by_cases hc : c.Prime
    · rw [if_pos ((isPrime_iff hr h1).2 hc)]
      obtain rfl : c = q := le_antisymm h3 (h5 c ⟨hc, h2⟩ le_rfl)
      rfl
    · rw [if_neg (by rw [isPrime_iff hr h1]; exact hc)]
      have hne : c ≠ q := fun h => hc (h ▸ hq.1)
      have hq2 := hq.2
      exact ih (c + 2) (by omega) (by omega) (by omega) (by omega)
        (fun p hp hcp => h5 p hp (by omega))

theorem oddPrime_infinite : {p | OddPrime p}.Infinite := by
  rw [Set.infinite_iff_exists_gt]
  intro a
  obtain ⟨p, hp, hpp⟩ := Nat.exists_infinite_primes (a + 3)
  exact ⟨p, ⟨hpp, (hpp.eq_two_or_odd).resolve_left (by omega)⟩, by omega⟩

theorem oddPrime_nth (k : Nat) : OddPrime (Nat.nth OddPrime k) :=
  Nat.nth_mem_of_infinite oddPrime_infinite k

theorem takePrimes_spec {root : Nat → Nat} (hr : RootOK root) : ∀ (dim k c fuel : Nat),
    3 ≤ c → c % 2 = 1 → c ≤ Nat.nth OddPrime k → (∀ p, OddPrime p → c ≤ p → Nat.nth OddPrime k ≤ p) →
    Nat.nth OddPrime (k + dim) < fuel →
    takePrimes root fuel dim c = .ok ((List.range dim).map fun j => Nat.nth OddPrime (k + j)) := by
  classical
  intro dim
  induction dim with
  | zero => intros; rfl
  | succ dim ih =>
    intro k c fuel h1 h2 h3 h4 h5
    have hk := oddPrime_nth k
    have hmono : Nat.nth OddPrime k ≤ Nat.nth OddPrime (k + (dim + 1)) :=
      Nat.nth_monotone oddPrime_infinite (by omega)
    have hs := nextPrime_spec hr hk fuel c h1 h2 h3 (by omega) h4
    have h2k := hk.2
    have hstep : Nat.nth OddPrime k < Nat.nth OddPrime (k + 1) :=
      Nat.nth_strictMono oddPrime_infinite (by omega)
    have h2k1 := (oddPrime_nth (k + 1)).2
    have := ih (k + 1) (Nat.nth OddPrime k + 2) fuel (by omega) (by omega) (by omega)
      (by
        intro p hp hle
        obtain ⟨j, rfl⟩ : ∃ j, Nat.nth OddPrime j = p :=
          ⟨Nat.count OddPrime p, Nat.nth_count hp⟩
        apply Nat.nth_monotone oddPrime_infinite
        by_contra hcon
        have : Nat.nth OddPrime j ≤ Nat.nth OddPrime k :=
          Nat.nth_monotone oddPrime_infinite (by omega)
        omega)
      (by rw [show k + 1 + dim = k + (dim + 1) by omega]; exact h5)
    unfold takePrimes
    simp only [hs, this, bind, Except.bind, List.range_succ_eq_map, List.map_cons, List.map_map,
      add_zero]
    congr 3
    funext j
    simp only [Function.comp, show k + 1 + j = k + (j + 1) by omega]

theorem nth_oddPrime_zero : Nat.nth OddPrime 0 = 3 := by
  classical
  apply le_antisymm
  · rw [Nat.nth_zero]; exact Nat.sInf_le ⟨Nat.prime_three, rfl⟩
  · have := oddPrime_nth 0
    have h2 := this.1.two_le
    have := this.2
    omega

theorem takePrimes_start {root : Nat → Nat} (hr : RootOK root) {dim fuel : Nat}
    (hf : Nat.nth OddPrime dim < fuel) :
    takePrimes root fuel dim 3 = .ok ((List.range dim).map (Nat.nth OddPrime)) := by
  have := takePrimes_spec hr dim 0 3 fuel le_rfl rfl (by rw [nth_oddPrime_zero])
    (fun p hp h => by rw [nth_oddPrime_zero]; exact h) (by simpa using hf)
  simpa using this

/-! ### Halton -/

/-- The `i`-th point of the sequence with the given bases. -/
def haltonPoint (bases : List Nat) (i : Nat) : List ℚ := bases.map fun b => radInv b i

theorem mapM_except_ok {α β : Type} {f : α → Except PyErr β} {g : α → β} {l : List α}
    (h : ∀ a ∈ l, f a = .ok (g a)) : l.mapM f = .ok (l.map g) := by
  induction l with
  | nil => rfl
  | cons a l ih =>
    rw [List.mapM_cons, h a (by simp), ih fun b hb => h b (by simp [hb])]
    rfl

theorem npTranspose_map {α : Type} {bases : List α} (hne : bases ≠ []) (f : α → Nat → ℚ)
    (l : List Nat) :
    npTranspose (bases.map fun b => l.map (f b)) = l.map fun i => bases.map fun b => f b i := by
  obtain ⟨b0, bs, rfl⟩ := List.exists_cons_of_ne_nil hne
  have : npTranspose ((b0 :: bs).map fun b => l.map (f b)) =
      (List.range l.length).map fun i => ((b0 :: bs).map fun b => l.map (f b)).filterMap
        fun l => l[i]? := by
    simp [npTranspose]
  rw [this]
  apply List.ext_getElem
  · simp
  · intro i h1 h2
    have hi : i < l.length := by simpa using h2
    simp only [List.getElem_map, List.getElem_range, List.filterMap_map]
    rw [← List.filterMap_eq_map]
    congr 1
    funext b
    simp [hi]

theorem getSamples_spec {s : Halton} (hlen : s.primes.length = s.dim) (hd : s.dim ≠ 0)
    (hb : ∀ b ∈ s.primes, 2 ≤ b) {fuel n : Nat} (hf : s.cnt + n ≤ fuel) :
    s.getSamples fuel n = .ok ((List.range' s.cnt n).map (haltonPoint s.primes),
      { s with cnt := s.cnt + n }) := by
  have h : ((List.range s.dim).mapM fun d => do
      let base ← pyGet s.primes d
      (List.range' s.cnt n).mapM fun (i : Nat) => vdc fuel i base)
      = .ok (s.primes.map fun b => (List.range' s.cnt n).map (radInv b)) := by
    have e : s.primes.map (fun b => (List.range' s.cnt n).map (radInv b)) =
        (List.range s.dim).map fun d =>
          (fun b => (List.range' s.cnt n).map (radInv b)) (s.primes[d]?.getD 0) := by
      apply List.ext_getElem
      · simp [hlen]
      · intro i h1 h2
        have : i < s.primes.length := by simpa using h1
        simp [this]
    rw [e]
    apply mapM_except_ok
    intro d hdd
    have hd' : d < s.primes.length := by rw [hlen]; simpa using hdd
    have hg : pyGet s.primes d = .ok s.primes[d] := by simp [pyGet, hd']
    simp only [hg, bind, Except.bind]
    rw [mapM_except_ok (g := radInv s.primes[d])]
    · simp [hd']
    · intro i hi
      rw [List.mem_range'_1] at hi
      exact vdc_spec (hb _ (List.getElem_mem _)) (by omega)
  have hne : s.primes ≠ [] := by
    intro h0; rw [h0] at hlen; simp at hlen; omega
  unfold Halton.getSamples
  rw [h]
  simp only [bind, Except.bind]
  rw [npTranspose_map hne]
  rfl

theorem requests_spec {fuel : Nat} : ∀ (ns : List Nat) (s : Halton), s.primes.length = s.dim →
    s.dim ≠ 0 → (∀ b ∈ s.primes, 2 ≤ b) → s.cnt + ns.sum ≤ fuel →
    s.requests fuel ns = .ok ((List.range' s.cnt ns.sum).map (haltonPoint s.primes),
      { s with cnt := s.cnt + ns.sum }) := by
  intro ns
  induction ns with
  | nil => intros; simp [Halton.requests]
  | cons n ns ih =>
    intro s h1 h2 h3 h4
    simp only [List.sum_cons] at h4
    unfold Halton.requests
    rw [getSamples_spec h1 h2 h3 (by omega)]
    simp only [bind, Except.bind]
    rw [ih { s with cnt := s.cnt + n } h1 h2 h3 (by simp only; omega)]
    simp only [List.sum_cons, ← List.map_append]
    congr 2
    · rw [← List.range'_append_1]
    · simp [add_assoc]

theorem haltonPoint_inj {bases : List Nat} (hne : bases ≠ []) (hb : ∀ b ∈ bases, 2 ≤ b) {i j : Nat}
    (h : haltonPoint bases i = haltonPoint bases j) : i = j := by
  obtain ⟨b0, bs, rfl⟩ := List.exists_cons_of_ne_nil hne
  simp only [haltonPoint, List.map_cons, List.cons.injEq] at h
  exact radInv_inj (hb b0 (by simp)) h.1

end Verif.Sampling
