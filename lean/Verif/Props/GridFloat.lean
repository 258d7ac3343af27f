import Verif.Props.FkFloat
import Verif.Props.Examples

/-! # C136 for iterative_grid_refining.py -/

set_option linter.unusedSectionVars false

namespace Verif.Props

open Matrix Verif Verif.Path Verif.Geometry Verif.Kin Verif.ShortestPath Verif.Task Verif.CppGraph
  Verif.Search Verif.Planning Verif.Spec Verif.Util Verif.Resources Verif.Examples Verif.Plot
  Verif.Gui

noncomputable section

variable {W C : Type} [CostArith C] [JointArith ℝ C] {Inv : W → Prop}
  {ikf : M4 → Option (List Config)} {hit : Config → Bool} {d : Nat}

/-- C116 whatever the arithmetic of `fk`: with the published pyquaternion the script raises KeyError when
some point has no collision-free solution for the orientations drawn for it; otherwise it raises
ValueError in its first round or AttributeError in its second. -/
theorem C136_script {arm : Arm W Shape} {fkf : Config → M4} (h : Determined arm scene1 Inv ikf hit d)
    (hfk : ∀ q, q.length = d → Returns Inv (arm.fk q) (fkf q))
    {pq : PQ C Config} (hl : Lawful pq) (hno : PyGraph.NoOverflow C)
    (hfin : ∀ x y : Config, stepCost C (effWeights C d []) x y < ⊤) (conv : ℝ → ℝ)
    {draws : Nat → Nat → Draws} (hdr : ∀ k i, (draws k i).near = none) (time : Nat → ℝ) :
    ((∃ i < 15, ∀ q, ¬ TableAt ikf hit draws i q) →
      Raises Inv (iterativeGridRefining arm pq conv draws time) (.py .keyError)) ∧
    ((∀ i < 15, ∃ q, TableAt ikf hit draws i q) →
      Raises Inv (iterativeGridRefining arm pq conv draws time) (.py .valueError) ∨
      Raises Inv (iterativeGridRefining arm pq conv draws time) (.py .attributeError)) := by
  obtain ⟨path, hp, hlen, hpt⟩ := C92_path_ori_free 15
  rw [Nat.cast_ofNat] at hp
  set samples := (List.range 15).map fun (i : Nat) => (List.range 500).map fun (j : Nat) =>
    freeFrame ((draws 0 i).rnd j) (tablePoint i) with hsamples
  have hget : ∀ (i : Nat) (Ts : List M4), samples[i]? = some Ts → i < 15 ∧
      Ts = (List.range 500).map fun (j : Nat) => freeFrame ((draws 0 i).rnd j) (tablePoint i) := by
    intro i Ts hi
    rw [hsamples, List.getElem?_map, Option.map_eq_some_iff] at hi
    obtain ⟨i', hi', rfl⟩ := hi
    obtain ⟨hlt, he⟩ := List.getElem?_eq_some_iff.1 hi'
    rw [List.getElem_range] at he
    rw [List.length_range] at hlt
    subst he
    exact ⟨hlt, rfl⟩
  have hl15 : samples.length = 15 := by simp [hsamples]
  clear_value samples
  have hreach : ∀ (i : Nat) (hi : i < 15), Reachable ikf hit (samples[i]'(by omega)) ↔
      ∃ q, TableAt ikf hit draws i q := by
    intro i hi
    have hi' : i < samples.length := by omega
    have e := (hget i _ (List.getElem?_eq_getElem hi')).2
    constructor
    · rintro ⟨T, hT, sols, h1, q, h2, h3⟩
      rw [e] at hT
      obtain ⟨j, hj, rfl⟩ := List.mem_map.1 hT
      exact ⟨q, j, List.mem_range.1 hj, sols, h1, h2, h3⟩
    · rintro ⟨q, j, hj, sols, h1, h2, h3⟩
      refine ⟨_, ?_, sols, h1, q, h2, h3⟩
      rw [e]
      exact List.mem_map.2 ⟨j, List.mem_range.2 hj, rfl⟩
  have hsam : ∀ (i : Nat) p Ts, path[i]? = some p → samples[i]? = some Ts →
      getSamples (draws 0 i) 500 (some (Real.pi / 4)) (.free p) = .ok Ts := by
    intro i p Ts hi hTs
    rw [free_samples, (hget i Ts hTs).2, (hpt i p hi).1]
    rfl
  constructor
  · rintro ⟨i, hi, hno⟩
    unfold iterativeGridRefining
    refine Returns.bind_raises (Returns.lift (a := path) (by rw [hp]; rfl)) ?_
    refine Returns.bind_raises (C64_fails_first h pq conv (by norm_num) time (by rw [hl15, hlen]) hsam
      ⟨samples[i]'(by omega), List.getElem_mem _, ?_⟩) ?_
    · intro T hT sols hs q hq
      by_contra hc
      obtain ⟨q', hq'⟩ := (hreach i hi).1 ⟨T, hT, sols, hs, q, hq, by simpa using hc⟩
      exact hno q' hq'
    · intro w hw
      exact ⟨w, rfl⟩
  · intro hall
    have := C136_stock h hfk hl hno hfin conv hdr (n := 500) (by norm_num) (ps := path)
      (by rintro rfl; simp at hlen) time (maxIters := 5) (by norm_num) (samples := samples)
      (by rw [hl15, hlen]) hsam (fun Ts hTs => by
        obtain ⟨i, hi, rfl⟩ := List.getElem_of_mem hTs
        exact (hreach i (by omega)).2 (hall i (by omega)))
    unfold iterativeGridRefining
    refine this.imp (fun hr => ?_) (fun hr => ?_) <;>
    · refine Returns.bind_raises (Returns.lift (a := path) (by rw [hp]; rfl)) ?_
      exact Raises.bind hr

/-- For the robot of the script, with any functions for the cosines and sines in `fk`. -/
theorem C136_script_kuka [Zeros] (t : Trig) (hit : Oracle Shape) (n : Nat) {pq : PQ C Config}
    (hl : Lawful pq) (hno : PyGraph.NoOverflow C)
    (hfin : ∀ (w : List ℝ) (x y : Config), stepCost C w x y < ⊤) (conv : ℝ → ℝ)
    {draws : Nat → Nat → Draws} (hdr : ∀ k i, (draws k i).near = none) (time : Nat → ℝ) :
    ∃ e ∈ [PyErr.keyError, .valueError, .attributeError], Raises (KukaOK n) (iterativeGridRefining
        (kukaBy t hit (Kuka.new 0.18 0.6 0.62 0.115 n)) pq conv draws time) (.py e) := by
  have hdet : Determined (kukaBy t hit (Kuka.new 0.18 0.6 0.62 0.115 n)) scene1 (KukaOK n)
      (kukaSols 0.18 0.6 0.62 (setup (Kuka.new 0.18 0.6 0.62 0.115 n) 1 none).robot)
      (touches hit (setup (Kuka.new 0.18 0.6 0.62 0.115 n) 1 none).robot scene1) 6 :=
    let h := kuka_determined hit 0.18 0.6 0.62 0.115 n 1 none scene1
    ⟨h.ik, h.dof, h.col⟩
  obtain ⟨h1, h2⟩ := C136_script hdet (fun q hq => kukaBy_fk t hit 0.18 0.6 0.62 0.115 n hq) hl hno
    (fun x y => hfin _ x y) conv hdr time
  by_cases hall : ∀ i < 15, ∃ q, TableAt (kukaSols 0.18 0.6 0.62
      (setup (Kuka.new 0.18 0.6 0.62 0.115 n) 1 none).robot)
      (touches hit (setup (Kuka.new 0.18 0.6 0.62 0.115 n) 1 none).robot scene1) draws i q
  · rcases h2 hall with h | h
    · exact ⟨_, by simp, h⟩
    · exact ⟨_, by simp, h⟩
  · push Not at hall
    exact ⟨_, by simp, h1 hall⟩

/-- The hypotheses can be met. -/
example [Zeros] {t : Trig} (_ : Rounds32 t) (hit : Oracle Shape) :
    ∃ e ∈ [PyErr.keyError, .valueError, .attributeError], Raises (KukaOK 0) (iterativeGridRefining
      (C := WithTop ℝ) (kukaBy t hit (Kuka.new 0.18 0.6 0.62 0.115 0)) stdHeap id
      (fun _ _ => ⟨fun n => n, 0, fun _ => (0, 0, 0), none⟩) (fun _ => 0)) (.py e) :=
  C136_script_kuka t hit 0 stdHeapLawful noOverflow_real (fun w => stepCost_real w) id
    (fun _ _ => rfl) _

end

end Verif.Props
