import Verif.Props.Scripts
import Verif.Props.FewerObstacles

/-! # C155: `cart_to_joint_incremental` after obstacles are taken away -/

set_option linter.unusedSectionVars false

namespace Verif.Props

open Matrix Verif Verif.Path Verif.Geometry Verif.Kin Verif.ShortestPath Verif.CppGraph Verif.Planning Verif.Spec

noncomputable section

variable {W S : Type} {Inv : W → Prop} {arm : Arm W S} {scene scene' : Collection S}
  {ikf : M4 → Option (List Config)} {hit hit' : Config → Bool} {d : Nat}

theorem foundBy_fewer (hle : ∀ q, hit' q = true → hit q = true) (T : Nat → M4) (k : Nat) :
    (foundBy ikf hit T k).length ≤ (foundBy ikf hit' T k).length := by
  induction k with
  | zero => simp [foundBy]
  | succ k ih =>
    rw [foundBy_succ, foundBy_succ, List.length_append, List.length_append]
    refine Nat.add_le_add ih ?_
    have := (foundBy_succ (ikf := ikf) (hit := hit) (fun _ => T k) 0).symm
    have h2 := (foundBy_succ (ikf := ikf) (hit := hit') (fun _ => T k) 0).symm
    simp only [foundBy, List.range_zero, List.flatMap_nil, List.nil_append, Nat.zero_add, List.range_one,
      List.flatMap_singleton] at this h2
    rw [this, h2, ← List.countP_eq_length_filter, ← List.countP_eq_length_filter]
    refine List.countP_mono_left fun q _ hq => ?_
    simp only [decide_eq_true_eq] at hq ⊢
    cases hh : hit' q with
    | false => rfl
    | true => rw [hle q hh] at hq; cases hq

/-- **C155**, the incremental sampler: when it ends within some number of rounds per point, it ends within
that number after obstacles are taken away, with the same draws for every round of every point. -/
theorem C155_incremental (h : Determined arm scene Inv ikf hit d) (h' : Determined arm scene' Inv ikf hit' d)
    (hle : ∀ q, hit' q = true → hit q = true) (conv : ℝ → ℝ) {draws : Nat → Nat → Draws}
    {path : List PathPt} {T : Nat → Nat → M4} {minSamples maxTries : Int} (hmax : 0 < maxTries)
    (hT : ∀ i tp, path[i]? = some tp → FirstSample (draws i) tp (T i)) {fuel : Nat} {w w1 : W} (hw : Inv w)
    {Q : List (PyCol ℝ)}
    (hr : cartToJointIncremental arm conv draws fuel path scene minSamples maxTries w = (.ok Q, w1)) :
    ∃ Q', Q'.length = path.length ∧
      Returns Inv (cartToJointIncremental arm conv draws fuel path scene' minSamples maxTries) Q' := by
  have hen : ∀ i < path.length, ∃ k, 1 ≤ k ∧ k ≤ fuel ∧
      Enough minSamples maxTries (foundBy ikf hit (T i) k).length := by
    intro i hi
    by_contra hc
    push Not at hc
    obtain ⟨w2, h2⟩ := incrementalPath_diverges h conv hmax fuel path 0 (by simpa using hT)
      (minSamples := minSamples) ⟨i, hi, fun k h1 h2 => by rw [Nat.zero_add]; exact hc k h1 h2⟩ [] w hw
    unfold cartToJointIncremental at hr
    rw [hr] at h2
    cases h2
  have hen' : ∀ i < path.length, ∃ k, 1 ≤ k ∧ k ≤ fuel ∧
      Enough minSamples maxTries (foundBy ikf hit' (T i) k).length := by
    intro i hi
    obtain ⟨k, h1, h2, h3⟩ := hen i hi
    have := foundBy_fewer (ikf := ikf) hle (T i) k
    refine ⟨k, h1, h2, h3.imp (fun a => ?_) (fun a => ?_)⟩ <;> omega
  classical
  have : ∀ i, ∃ K, i < path.length → 1 ≤ K ∧ K ≤ fuel ∧
      Enough minSamples maxTries (foundBy ikf hit' (T i) K).length ∧
      ∀ k, 1 ≤ k → k < K → ¬ Enough minSamples maxTries (foundBy ikf hit' (T i) k).length := by
    intro i
    by_cases hi : i < path.length
    · obtain ⟨a, b, c⟩ := Nat.find_spec (hen' i hi)
      exact ⟨Nat.find (hen' i hi), fun _ => ⟨a, b, c, fun k h1 h2 h3 =>
        Nat.find_min (hen' i hi) h2 ⟨h1, by omega, h3⟩⟩⟩
    · exact ⟨0, fun h => absurd h hi⟩
  choose K hK using this
  have hret := incrementalPath_returns h' conv hmax (minSamples := minSamples) (fuel := fuel) K path 0
    (by simpa using hT) (fun j hj => by
      rw [Nat.zero_add]
      exact hK j hj) []
  exact ⟨_, by simp, hret⟩

/-- `C155_incremental` for the arm with one joint at one point: two solutions take two rounds beside the
box, and two rounds are enough without it. -/
example (draws : Nat → Nat → Draws) : ∃ Q', Q'.length = 1 ∧ Returns (fun _ => True)
    (cartToJointIncremental pickArm id draws 2 [.free (.new ![1, 0, 0])] noBox 2 1000) Q' := by
  have hT : ∀ i tp, ([PathPt.free (.new ![1, 0, 0])] : List PathPt)[i]? = some tp →
      FirstSample (draws i) tp (fun k => freeFrame ((draws i k).rnd 0) ![1, 0, 0]) := by
    intro i tp h
    obtain rfl : tp = .free (.new ![1, 0, 0]) := by
      cases i with
      | zero => simpa using h.symm
      | succ i => simp at h
    exact fun k => ⟨[], free_samples _ _ _ _⟩
  have hk : ∀ k, freeAt (fun T => some (pickIk T)) (pickHit oneBox)
      (freeFrame ((draws 0 k).rnd 0) ![1, 0, 0]) = [[1]] := by
    intro k
    have : freeFrame ((draws 0 k).rnd 0) ![1, 0, 0] 0 3 = 1 := by simp [freeFrame, mkTf]
    simp [freeAt, pickIk, this, pickHit, oneBox]
    norm_num
  have hr := incrementalPath_returns (pickArm_determined oneBox) id (minSamples := 2) (maxTries := 1000)
    (by norm_num) (fuel := 2) (fun _ => 2) [.free (.new ![1, 0, 0])] 0 (by simpa using hT) (fun j hj => by
      obtain rfl : j = 0 := by simpa using hj
      refine ⟨by norm_num, le_refl _, ?_, fun k h1 h2 => ?_⟩
      · rw [foundBy_succ, foundBy_succ, hk, hk]
        simp [Enough, foundBy]
      · obtain rfl : k = 1 := by omega
        rw [foundBy_succ, hk]
        simp [Enough, foundBy]) []
  obtain ⟨w1, h1, -⟩ := hr () trivial
  exact C155_incremental (pickArm_determined oneBox) (pickArm_determined noBox)
    (fun q hq => by rw [pickHit_none] at hq; cases hq) id (by norm_num) hT trivial h1

end

end Verif.Props
