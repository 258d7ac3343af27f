import Verif.Props.OptimalPath
import Verif.Props.Aliasing
import Mathlib.Topology.Instances.Matrix

/-!
# A free configuration has free neighbours

Boxes are closed and bounded: if two of them have no common point, then they have none after a small
motion either.
-/

set_option linter.unusedSectionVars false

namespace Verif.Props

open Matrix Verif Verif.Path Verif.Geometry Verif.Kin Verif.Spec Verif.Util Filter Topology

noncomputable section

variable {X : Type} {l : Filter X}

theorem continuous_moved (t : M4) {Y : Type} [TopologicalSpace Y] {f : Y → M4} {g : Y → V3}
    (hf : Continuous f) (hg : Continuous g) : Continuous fun y => act (f y * t) (g y) := by
  have h1 : ∀ i j, Continuous fun y => f y i j := fun i j => hf.matrix_elem i j
  have h2 : ∀ i, Continuous fun y => g y i := fun i => (continuous_apply i).comp hg
  refine continuous_pi fun i => ?_
  simp only [act, rotPart, posPart, mulVec, dotProduct, Matrix.mul_apply, Pi.add_apply,
    Matrix.of_apply]
  fun_prop

/-- Two boxes without a common point have none after a small motion. -/
theorem boxes_apart {s s' : Shape} {t t' : M4} {P₀ : M4 × M4}
    (h : ∀ u ∈ boxPoints s, ∀ v ∈ boxPoints s', act (P₀.1 * t) u ≠ act (P₀.2 * t') v) :
    ∀ᶠ P in 𝓝 P₀, ∀ u ∈ boxPoints s, ∀ v ∈ boxPoints s', act (P.1 * t) u ≠ act (P.2 * t') v := by
  have hK : IsCompact (boxPoints s ×ˢ boxPoints s') := 
    (isCompact_box s).prod (isCompact_box s')
  have key : ∀ᶠ P in 𝓝 P₀, ∀ z ∈ boxPoints s ×ˢ boxPoints s', act (P.1 * t) z.1 - act (P.2 * t') z.2 ≠ 0 := by
    refine hK.eventually_forall_of_forall_eventually fun z hz => ?_
    have hF : Continuous fun y : (M4 × M4) × (V3 × V3) => act (y.1.1 * t) y.2.1 - act (y.1.2 * t') y.2.2 :=
      (continuous_moved t (continuous_fst.comp continuous_fst) (continuous_fst.comp continuous_snd)).sub
        (continuous_moved t' (continuous_snd.comp continuous_fst) (continuous_snd.comp continuous_snd))
    have h0 : act (P₀.1 * t) z.1 - act (P₀.2 * t') z.2 ≠ 0 := sub_ne_zero.2 (h z.1 hz.1 z.2 hz.2)
    have ho : IsOpen {y : (M4 × M4) × (V3 × V3) |
        act (y.1.1 * t) y.2.1 - act (y.1.2 * t') y.2.2 ≠ 0} :=
      isOpen_compl_singleton.preimage hF
    exact ho.mem_nhds h0
  filter_upwards [key] with P hP u hu v hv
  exact sub_ne_zero.1 (hP (u, v) ⟨hu, hv⟩)

/-- Two collections that do not touch do not touch after a small motion. -/
theorem no_touch_nearby {c d : Collection Shape} {A B : X → M4} {A₀ B₀ : M4}
    (h : ¬ Touch boxOracle c A₀ d B₀) (hA : Tendsto A l (𝓝 A₀)) (hB : Tendsto B l (𝓝 B₀)) :
    ∀ᶠ x in l, ¬ Touch boxOracle c (A x) d (B x) := by
  have key : ∀ᶠ P : M4 × M4 in 𝓝 (A₀, B₀), ∀ i ∈ Finset.range c.s.length, ∀ j ∈ Finset.range d.s.length,
      ∀ (s s' : Shape) (t t' : M4), c.s[i]? = some s → c.tfS[i]? = some t →
        d.s[j]? = some s' → d.tfS[j]? = some t' → ∀ u ∈ boxPoints s, ∀ v ∈ boxPoints s',
          act (P.1 * t) u ≠ act (P.2 * t') v := by
    rw [Filter.eventually_all_finset]
    intro i hi
    rw [Filter.eventually_all_finset]
    intro j hj
    cases h1 : c.s[i]? with
    | none => exact .of_forall fun P s s' t t' e => by cases e
    | some s =>
      cases h2 : c.tfS[i]? with
      | none => exact .of_forall fun P s s' t t' _ e => by cases e
      | some t =>
        cases h3 : d.s[j]? with
        | none => exact .of_forall fun P s s' t t' _ _ e => by cases e
        | some s' =>
          cases h4 : d.tfS[j]? with
          | none => exact .of_forall fun P s s' t t' _ _ _ e => by cases e
          | some t' =>
            filter_upwards [boxes_apart (P₀ := (A₀, B₀)) (s := s) (s' := s') (t := t) (t' := t')
              fun u hu v hv e => h (touch_boxes.2
                ⟨i, j, s, s', t, t', h1, h2, h3, h4, u, hu, v, hv, e⟩)] with P hP s₁ s₁' t₁ t₁' g1 g2 g3 g4
            cases g1
            cases g2
            cases g3
            cases g4
            exact hP
  have := (hA.prodMk_nhds hB).eventually key
  filter_upwards [this] with x hx
  rw [touch_boxes]
  rintro ⟨i, j, s, s', t, t', h1, h2, h3, h4, u, hu, v, hv, e⟩
  exact hx i (Finset.mem_range.2 (List.getElem?_eq_some_iff.1 h1).1) j
    (Finset.mem_range.2 (List.getElem?_eq_some_iff.1 h3).1) s s' t t' h1 h2 h3 h4 u hu v hv e

theorem continuous_tf (k : Link Shape) : Continuous k.tf := by
  unfold Link.tf
  refine continuous_matrix fun i j => ?_
  cases k.jointType <;> fin_cases i <;> fin_cases j <;> simp [dhMat] <;> fun_prop

/-- The product of the link transforms follows the joint values. -/
theorem tendsto_linkProduct (ls : List (Link Shape)) {qs : List (X → ℝ)} {q : List ℝ}
    (h : List.Forall₂ (fun f a => Tendsto f l (𝓝 a)) qs q) :
    Tendsto (fun x => linkProduct ls (qs.map fun f => f x)) l (𝓝 (linkProduct ls q)) := by
  induction ls generalizing qs q with
  | nil => simp only [linkProduct, List.zipWith_nil_left]; exact tendsto_const_nhds
  | cons k ls ih =>
    cases h with
    | nil => simp only [linkProduct, List.map_nil, List.zipWith_nil_right]; exact tendsto_const_nhds
    | @cons f a fs as h1 h2 =>
      have e := ((continuous_tf k).tendsto a).comp h1
      have := e.mul (ih h2)
      unfold linkProduct at this ⊢
      simp only [List.map_cons, List.zipWith_cons_cons, List.prod_cons, dhOf_eq] at this ⊢
      exact this

theorem tendsto_frameOf (r : Robot Shape) {qs : List (X → ℝ)} {q : List ℝ}
    (h : List.Forall₂ (fun f a => Tendsto f l (𝓝 a)) qs q) (k : Nat) :
    Tendsto (fun x => frameOf r (qs.map fun f => f x) k) l (𝓝 (frameOf r q k)) := by
  have := tendsto_linkProduct (l := l) (r.links.take (k + 1)) (List.forall₂_take (k + 1) h)
  unfold frameOf
  simp only [← List.map_take]
  exact this.const_mul r.tfBase

/-- A configuration that touches neither the scene nor the robot itself has neighbours like that. -/
theorem free_nearby (r : Robot Shape) (scene : Collection Shape) {qs : List (X → ℝ)} {q : List ℝ}
    (h : List.Forall₂ (fun f a => Tendsto f l (𝓝 a)) qs q)
    (h1 : ¬ SceneTouch boxOracle r q scene) (h2 : ¬ SelfTouch boxOracle r q) :
    ∀ᶠ x in l, ¬ SceneTouch boxOracle r (qs.map fun f => f x) scene ∧
      ¬ SelfTouch boxOracle r (qs.map fun f => f x) := by
  have hf := fun k => tendsto_frameOf r h k
  have a1 : ∀ᶠ x in l, ∀ i ∈ Finset.range r.links.length, ∀ li, r.links[i]? = some li →
      ¬ Touch boxOracle li.geometry (frameOf r (qs.map fun f => f x) i) scene 1 := by
    rw [Filter.eventually_all_finset]
    intro i hi
    have hi := List.getElem?_eq_getElem (Finset.mem_range.1 hi)
    rw [hi]
    filter_upwards [no_touch_nearby (l := l) (B := fun _ => 1)
      (fun t => h1 (.inr (.inl ⟨i, _, hi, t⟩))) (hf i) tendsto_const_nhds] with x hx li e
    cases e
    exact hx
  have a2 : ∀ᶠ x in l, ∀ tool, r.tool = some tool →
      ¬ Touch boxOracle tool.toCollection (frameOf r (qs.map fun f => f x) (r.links.length - 1)) scene 1 := by
    cases ht : r.tool with
    | none => exact .of_forall fun x tool e => by cases e
    | some tool =>
      filter_upwards [no_touch_nearby (l := l) (B := fun _ => 1)
        (fun t => h1 (.inr (.inr ⟨tool, ht, t⟩))) (hf _) tendsto_const_nhds] with x hx tool' e
      cases e
      exact hx
  have a3 : ∀ᶠ x in l, ∀ i ∈ Finset.range r.links.length, ∀ j ∈ Finset.range r.links.length,
      ∀ li lj, (i + 3 ≤ j ∨ j + 3 ≤ i) → r.links[i]? = some li → r.links[j]? = some lj →
      ¬ Touch boxOracle li.geometry (frameOf r (qs.map fun f => f x) i) lj.geometry
        (frameOf r (qs.map fun f => f x) j) := by
    rw [Filter.eventually_all_finset]
    intro i hi
    rw [Filter.eventually_all_finset]
    intro j hj
    have hi := List.getElem?_eq_getElem (Finset.mem_range.1 hi)
    have hj := List.getElem?_eq_getElem (Finset.mem_range.1 hj)
    rw [hi, hj]
    by_cases hij : i + 3 ≤ j ∨ j + 3 ≤ i
    · filter_upwards [no_touch_nearby (l := l)
        (fun t => h2 (.inl ⟨i, j, _, _, hij, hi, hj, t⟩)) (hf i) (hf j)] with x hx li lj _ e e'
      cases e
      cases e'
      exact hx
    · exact .of_forall fun x li lj hij' => absurd hij' hij
  have a4 : ∀ᶠ x in l, ∀ i ∈ Finset.range r.links.length, ∀ tool li, r.tool = some tool →
      i + 1 < r.links.length → r.links[i]? = some li →
      ¬ Touch boxOracle li.geometry (frameOf r (qs.map fun f => f x) i) tool.toCollection
        (frameOf r (qs.map fun f => f x) (r.links.length - 1)) := by
    rw [Filter.eventually_all_finset]
    intro i hi
    have hi := List.getElem?_eq_getElem (Finset.mem_range.1 hi)
    rw [hi]
    cases ht : r.tool with
    | none => exact .of_forall fun x tool li e => by cases e
    | some tool =>
      by_cases hn : i + 1 < r.links.length
      · filter_upwards [no_touch_nearby (l := l)
          (fun t => h2 (.inr ⟨tool, i, _, ht, hn, hi, t⟩)) (hf i) (hf _)] with x hx tool' li e _ e'
        cases e
        cases e'
        exact hx
      · exact .of_forall fun x tool li _ h => absurd h hn
  filter_upwards [a1, a2, a3, a4] with x b1 b2 b3 b4
  have hlt : ∀ {i : Nat} {li : Link Shape}, r.links[i]? = some li → i ∈ Finset.range r.links.length :=
    fun e => Finset.mem_range.2 (List.getElem?_eq_some_iff.1 e).1
  constructor
  · rintro (⟨base, e, t⟩ | ⟨i, li, e, t⟩ | ⟨tool, e, t⟩)
    · exact h1 (.inl ⟨base, e, t⟩)
    · exact b1 i (hlt e) li e t
    · exact b2 tool e t
  · rintro (⟨i, j, li, lj, hij, e, e', t⟩ | ⟨tool, i, li, e, hn, e', t⟩)
    · exact b3 i (hlt e) j (hlt e') li lj hij e e' t
    · exact b4 i (hlt e') tool li e hn e' t

end

end Verif.Props
