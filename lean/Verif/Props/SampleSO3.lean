import Verif.Model.SampleSO3
import Verif.Proofs.Quat
import Verif.Props.Sampling
import Mathlib.Data.Rat.Cast.Order

/-! # C26: sample_SO3 -/

namespace Verif.Props

open Verif.SampleSO3 Verif.Sampling

theorem quatOf_unit {r1 : ℝ} (h0 : 0 ≤ r1) (h1 : r1 ≤ 1) (r2 r3 : ℝ) :
    (quatOf r1 r2 r3).norm2 = 1 := by
  have a := Real.sq_sqrt h0
  have b := Real.sq_sqrt (sub_nonneg.2 h1)
  have c := Real.sin_sq_add_cos_sq (2 * Real.pi * r2)
  have d := Real.sin_sq_add_cos_sq (2 * Real.pi * r3)
  simp only [Quat.norm2, quatOf, mul_pow, a, b]
  linear_combination (1 - r1) * c + r1 * d

/-- What is true of every answer: `n` unit quaternions, or `n` rigid transforms without
translation, or `n` angle triples in their ranges. -/
def GoodSamples (n : Nat) (rep : Rep) : Out → Prop
  | .quats l => rep = .quat ∧ l.length = n ∧ ∀ q ∈ l, q.norm2 = 1
  | .transforms l => rep = .transform ∧ l.length = n ∧ ∀ T ∈ l, IsRigid T ∧ posPart T = 0
  | .rpys l => rep = .rpy ∧ l.length = n ∧ ∀ a ∈ l,
      |a 0| ≤ Real.pi ∧ |a 1| ≤ Real.pi / 2 ∧ |a 2| ≤ Real.pi
  | .none => rep = .other

/-- All numbers of the triple lie in `[0,1]`. -/
def InUnit (r : ℝ × ℝ × ℝ) : Prop :=
  (0 ≤ r.1 ∧ r.1 ≤ 1) ∧ (0 ≤ r.2.1 ∧ r.2.1 ≤ 1) ∧ (0 ≤ r.2.2 ∧ r.2.2 ≤ 1)

theorem good_of_draws {root : Nat → Nat} {fuel : Nat} {rnd : Nat → ℝ × ℝ × ℝ} {n : Nat} {rep : Rep}
    {method : Method} {rs : List (ℝ × ℝ × ℝ)} (h : draws root fuel rnd n method = .ok rs)
    (hl : rs.length = n) (hu : ∀ r ∈ rs, InUnit r) :
    ∃ o, sampleSO3 root fuel rnd n rep method = .ok o ∧ GoodSamples n rep o := by
  unfold sampleSO3
  rw [h]
  have hq : ∀ r ∈ rs, (quatOf r.1 r.2.1 r.2.2).norm2 = 1 := fun r hr =>
    quatOf_unit (hu r hr).1.1 (hu r hr).1.2 _ _
  cases rep
  · refine ⟨_, rfl, rfl, by simp [hl], ?_⟩
    intro q hq'
    simp only [List.mem_map] at hq'
    obtain ⟨r, hr, rfl⟩ := hq'
    exact hq r hr
  · refine ⟨_, rfl, rfl, by simp [hl], ?_⟩
    intro T hT
    simp only [List.mem_map] at hT
    obtain ⟨_, ⟨r, hr, rfl⟩, rfl⟩ := hT
    exact ⟨Quat.transformationMatrix_rigid (hq r hr), by simp [Quat.transformationMatrix]⟩
  · refine ⟨_, rfl, rfl, by simp [hl], ?_⟩
    intro a ha
    simp only [List.mem_map] at ha
    obtain ⟨_, ⟨r, hr, rfl⟩, rfl⟩ := ha
    have hm : ∀ y x, |arctan2 y x| ≤ Real.pi := fun y x =>
      abs_le.2 ⟨(arctan2_mem y x).1.le, (arctan2_mem y x).2⟩
    exact ⟨hm _ _, abs_le.2 ⟨Real.neg_pi_div_two_le_arcsin _, Real.arcsin_le_pi_div_two _⟩, hm _ _⟩
  · exact ⟨_, rfl, rfl⟩

/-- **C26**, random sampling: for all draws in `[0,1]`, all `n` and all representations. -/
theorem C26_random (root : Nat → Nat) (fuel : Nat) (rnd : Nat → ℝ × ℝ × ℝ)
    (hr : ∀ i, InUnit (rnd i)) (n : Nat) (rep : Rep) :
    ∃ o, sampleSO3 root fuel rnd n rep .random = .ok o ∧ GoodSamples n rep o :=
  good_of_draws rfl (by simp) (by simp [hr])

/-- **C26**, Halton sampling: it terminates with good samples, whatever the random generator
holds. -/
theorem C26_halton {root : Nat → Nat}
    (hroot : ∀ n, 3 ≤ n → n < (root n + 1) ^ 2 ∧ root n < n) (rnd : Nat → ℝ × ℝ × ℝ) (n : Nat)
    (rep : Rep) :
    ∃ fuel₀, ∀ fuel ≥ fuel₀,
      ∃ o, sampleSO3 root fuel rnd n rep .halton = .ok o ∧ GoodSamples n rep o := by
  obtain ⟨s, rows, ⟨f, hf⟩, hlen, _, _, hrow⟩ := C25_histories hroot 3 (by omega) [n]
  refine ⟨f, fun fuel hfuel => ?_⟩
  obtain ⟨h1, h2, _⟩ := hf fuel hfuel
  have hg : s.getSamples fuel n = .ok (rows, { s with cnt := 1 + n }) := by
    unfold Halton.requests at h2
    cases hgs : s.getSamples fuel n with
    | error e => rw [hgs] at h2; simp [bind, Except.bind] at h2
    | ok r =>
      rw [hgs] at h2
      simp only [bind, Except.bind, Halton.requests, List.append_nil, List.sum_cons, List.sum_nil,
        add_zero] at h2
      exact h2
  have hd : draws root fuel rnd n .halton = .ok (rows.map fun row =>
      (((row[0]?.getD 0 : ℚ) : ℝ), ((row[1]?.getD 0 : ℚ) : ℝ), ((row[2]?.getD 0 : ℚ) : ℝ))) := by
    simp only [draws, haltonDraws, h1, hg, bind, Except.bind]
  refine good_of_draws hd (by simpa using hlen) ?_
  intro r hr
  simp only [List.mem_map] at hr
  obtain ⟨row, hmem, rfl⟩ := hr
  obtain ⟨hl, hx⟩ := hrow row hmem
  have key : ∀ k : Nat, k < 3 → 0 ≤ ((row[k]?.getD 0 : ℚ) : ℝ) ∧ ((row[k]?.getD 0 : ℚ) : ℝ) ≤ 1 := by
    intro k hk
    have hk' : k < row.length := by omega
    obtain ⟨a, b⟩ := hx row[k] (List.getElem_mem _)
    rw [List.getElem?_eq_getElem hk', Option.getD_some]
    exact ⟨by exact_mod_cast a, by exact_mod_cast b.le⟩
  exact ⟨key 0 (by omega), key 1 (by omega), key 2 (by omega)⟩

/-- **C26**, an unknown sampling method raises ValueError, whatever the representation. -/
theorem C26_unknown_method (root : Nat → Nat) (fuel : Nat) (rnd : Nat → ℝ × ℝ × ℝ) (n : Nat)
    (rep : Rep) : sampleSO3 root fuel rnd n rep .other = .error .valueError := rfl

/-- **C26**, the three representations describe the same samples: the transform is built from the
quaternion, and the yaw, pitch and roll angles give its rotation back as
`Rx(roll) Ry(pitch) Rz(yaw)` unless the pitch is a right angle. -/
theorem C26_representations {root : Nat → Nat} {fuel : Nat} {rnd : Nat → ℝ × ℝ × ℝ}
    (hr : ∀ i, InUnit (rnd i)) (n : Nat) :
    ∃ qs Ts as, sampleSO3 root fuel rnd n .quat .random = .ok (.quats qs) ∧
      sampleSO3 root fuel rnd n .transform .random = .ok (.transforms Ts) ∧
      sampleSO3 root fuel rnd n .rpy .random = .ok (.rpys as) ∧
      qs.length = n ∧ Ts.length = n ∧ as.length = n ∧
      ∀ (i : Nat) (q : Quat) (T : M4) (a : V3), qs[i]? = some q → Ts[i]? = some T →
        as[i]? = some a → T = mkTf q.rotationMatrix 0 ∧
          (|rotPart T 0 2| < 1 →
            Util.rotX (a 2) * (Util.rotY (a 1) * Util.rotZ (a 0)) = rotPart T) := by
  refine ⟨_, _, _, rfl, rfl, rfl, by simp, by simp, by simp, ?_⟩
  intro i q T a hq hT ha
  simp only [List.map_map, List.getElem?_map, Option.map_eq_some_iff] at hq hT ha
  obtain ⟨k, hk, rfl⟩ := hq
  obtain ⟨k', hk', rfl⟩ := hT
  obtain ⟨k'', hk'', rfl⟩ := ha
  obtain rfl : k = k' := by rw [hk] at hk'; exact Option.some.inj hk'
  obtain rfl : k = k'' := by rw [hk] at hk''; exact Option.some.inj hk''
  refine ⟨rfl, fun hg => ?_⟩
  have hu := quatOf_unit (hr k).1.1 (hr k).1.2 (rnd k).2.1 (rnd k).2.2
  simp only [Function.comp, Quat.transformationMatrix, rotPart_mkTf] at hg ⊢
  apply Quat.yawPitchRoll_spec hu
  simp only [Quat.rotationMatrix, Quat.normalise_of_unit hu] at hg
  have e : ∀ q : Quat, 2 * (q.w * q.y + q.z * q.x) = 2 * (q.x * q.z + q.w * q.y) := fun q => by ring
  rw [e]
  simpa using hg

/-- Draws meeting the hypotheses: the constant draw `(1/2, 0, 0)`. -/
example : ∀ _i : Nat, InUnit ((1 / 2, 0, 0) : ℝ × ℝ × ℝ) := fun _ => by
  simp only [InUnit]; norm_num

end Verif.Props
