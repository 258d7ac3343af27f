import Verif.Model.Robot
import Verif.Proofs.Util
import Verif.Proofs.Geometry
import Mathlib.Data.List.Perm.Basic
import Mathlib.Algebra.BigOperators.Group.List.Basic

/-! # Lemmas on the robot model -/

namespace Verif.Kin

open Matrix Verif.Geometry Verif.Util

variable {S : Type}

/-- The entries that `get_link_relative_transform` never writes have their initial values. -/
def Intact (T : M4) : Prop := T 2 0 = 0 ∧ T 3 = ![0, 0, 0, 1]

/-- The Denavit-Hartenberg matrix. -/
noncomputable def dhMat (a alpha d theta : ℝ) : M4 :=
  !![Real.cos theta, -Real.sin theta * Real.cos alpha, Real.sin theta * Real.sin alpha,
      a * Real.cos theta;
     Real.sin theta, Real.cos theta * Real.cos alpha, -Real.cos theta * Real.sin alpha,
      a * Real.sin theta;
     0, Real.sin alpha, Real.cos alpha, d;
     0, 0, 0, 1]

theorem intact_one : Intact 1 := by
  constructor
  · simp
  · ext j; fin_cases j <;> simp [Matrix.one_apply]

theorem intact_dhMat (a alpha d theta : ℝ) : Intact (dhMat a alpha d theta) := ⟨rfl, rfl⟩

theorem writeDH_eq {T : M4} (hT : Intact T) (a alpha d theta : ℝ) :
    writeDH T a alpha d theta = dhMat a alpha d theta := by
  have h3 : ∀ j, T 3 j = ![0, 0, 0, 1] j := fun j => congrFun hT.2 j
  ext i j
  fin_cases i <;> fin_cases j <;> simp [writeDH, setEntry, dhMat, hT.1, h3]

theorem dhMat_eq (a alpha d theta : ℝ) :
    dhMat a alpha d theta = mkTf (rotZ theta * rotX alpha)
      ![a * Real.cos theta, a * Real.sin theta, d] := by
  ext i j
  fin_cases i <;> fin_cases j <;>
    simp [dhMat, mkTf, rotZ, rotX, Matrix.mul_apply, Fin.sum_univ_succ]

theorem dhMat_rigid (a alpha d theta : ℝ) : IsRigid (dhMat a alpha d theta) := by
  rw [dhMat_eq]; exact isRigid_mkTf.2 ((rotZ_isRot _).mul (rotX_isRot _))

/-- The transform of a link, as a function of the joint value only. -/
noncomputable def Link.tf (l : Link S) (q : ℝ) : M4 :=
  match l.jointType with
  | .p => dhMat l.dh.a l.dh.alpha q l.dh.theta
  | _ => dhMat l.dh.a l.dh.alpha l.dh.d q

theorem relTf_spec (l : Link S) {T : M4} (hT : Intact T) (q : ℝ) :
    Intact (l.relTf T q).2 ∧
      (l.jointType ≠ .other → l.relTf T q = (.ok (l.tf q), l.tf q)) ∧
      (l.jointType = .other → (l.relTf T q).1 = .error .unboundLocalError) := by
  unfold Link.relTf Link.tf
  cases l.jointType <;> simp [writeDH_eq hT, intact_dhMat, hT]

theorem Link.tf_rigid (l : Link S) (q : ℝ) : IsRigid (l.tf q) := by
  unfold Link.tf
  cases l.jointType <;> exact dhMat_rigid _ _ _ _

/-- A link whose joint type is one of the two documented ones. -/
def Link.Known (l : Link S) : Prop := l.jointType ≠ .other

/-- All prefixes of the product of the link transforms. -/
noncomputable def frames : List (Link S) → List ℝ → M4 → List M4
  | l :: ls, q :: qs, T => T * l.tf q :: frames ls qs (T * l.tf q)
  | _, _, _ => []

theorem frames_length {ls : List (Link S)} {qs : List ℝ} (h : ls.length ≤ qs.length) (T : M4) :
    (frames ls qs T).length = ls.length := by
  induction ls generalizing qs T with
  | nil => simp [frames]
  | cons l ls ih =>
    cases qs with
    | nil => simp at h
    | cons q qs => simp [frames, ih (by simpa using h)]

theorem fkLoop_mats : ∀ (ls : List (Link S)) (ms : List M4) (qs : List ℝ) (T : M4),
    (∀ m ∈ ms, Intact m) →
    (fkLoop ls ms qs T).2.length = ms.length ∧ ∀ m ∈ (fkLoop ls ms qs T).2, Intact m := by
  intro ls
  induction ls with
  | nil => intro ms qs T h; exact ⟨rfl, h⟩
  | cons l ls ih =>
    intro ms qs T h
    cases qs with
    | nil => simpa [fkLoop] using h
    | cons q qs =>
      cases ms with
      | nil => simp [fkLoop]
      | cons m ms =>
        have hm : Intact m := h m (by simp)
        have hms : ∀ m ∈ ms, Intact m := fun x hx => h x (by simp [hx])
        have h1 := (relTf_spec l hm q).1
        unfold fkLoop
        rcases hr : l.relTf m q with ⟨r, m'⟩
        rw [hr] at h1
        cases r with
        | error e =>
          refine ⟨by simp, ?_⟩
          intro x hx
          simp only [List.mem_cons] at hx
          rcases hx with rfl | hx
          · exact h1
          · exact hms x hx
        | ok Ti =>
          obtain ⟨h2, h3⟩ := ih ms qs (T * Ti) hms
          refine ⟨by simp [h2], ?_⟩
          intro x hx
          simp only [List.mem_cons] at hx
          rcases hx with rfl | hx
          · exact h1
          · exact h3 x hx

theorem fkLoop_ok : ∀ (ls : List (Link S)) (ms : List M4) (qs : List ℝ) (T : M4),
    (∀ m ∈ ms, Intact m) → ms.length = ls.length → ls.length ≤ qs.length →
    (∀ l ∈ ls, l.Known) → (fkLoop ls ms qs T).1 = .ok (frames ls qs T) := by
  intro ls
  induction ls with
  | nil => intro ms qs T _ _ _ _; simp [fkLoop, frames]
  | cons l ls ih =>
    intro ms qs T h hl hq hk
    cases qs with
    | nil => simp at hq
    | cons q qs =>
      cases ms with
      | nil => simp at hl
      | cons m ms =>
        have hm : Intact m := h m (by simp)
        have h1 := (relTf_spec l hm q).2.1 (hk l (by simp))
        have h2 := ih ms qs (T * l.tf q) (fun x hx => h x (by simp [hx])) (by simpa using hl)
          (by simpa using hq) (fun x hx => hk x (by simp [hx]))
        unfold fkLoop
        rw [h1]
        simp only [h2, frames, Except.map]

/-- The outcome of the loop does not depend on which intact matrices it starts from. -/
theorem fkLoop_indep : ∀ (ls : List (Link S)) (ms ms' : List M4) (qs : List ℝ) (T : M4),
    (∀ m ∈ ms, Intact m) → (∀ m ∈ ms', Intact m) → ms.length = ls.length →
    ms'.length = ls.length → (fkLoop ls ms qs T).1 = (fkLoop ls ms' qs T).1 := by
  intro ls
  induction ls with
  | nil => intros; rfl
  | cons l ls ih =>
    intro ms ms' qs T h h' hl hl'
    cases qs with
    | nil => rfl
    | cons q qs =>
      cases ms with
      | nil => simp at hl
      | cons m ms =>
        cases ms' with
        | nil => simp at hl'
        | cons m' ms' =>
          have hm := relTf_spec l (h m (by simp)) q
          have hm' := relTf_spec l (h' m' (by simp)) q
          unfold fkLoop
          by_cases hk : l.jointType = .other
          · have e := hm.2.2 hk
            have e' := hm'.2.2 hk
            rcases hr : l.relTf m q with ⟨r, x⟩
            rcases hr' : l.relTf m' q with ⟨r', x'⟩
            rw [hr] at e
            rw [hr'] at e'
            simp only at e e'
            subst e; subst e'; rfl
          · rw [hm.2.1 hk, hm'.2.1 hk]
            simp only
            rw [ih ms ms' qs _ (fun x hx => h x (by simp [hx])) (fun x hx => h' x (by simp [hx]))
              (by simpa using hl) (by simpa using hl')]

/-- States reachable by calling methods. -/
def WF (n : Nat) (st : RState) : Prop :=
  st.mats.length = n ∧ (∀ m ∈ st.mats, Intact m) ∧ st.priority.Perm (List.range n)

theorem WF.new (n : Nat) : WF n (RState.new n) :=
  ⟨by simp [RState.new], by intro m hm; simp [RState.new] at hm; rw [hm.2]; exact intact_one,
    by simp [RState.new]⟩

theorem WF.mats {n : Nat} {st : RState} (h : WF n st) {ms : List M4} (h1 : ms.length = st.mats.length)
    (h2 : ∀ m ∈ ms, Intact m) : WF n { st with mats := ms } :=
  ⟨h1.trans h.1, h2, h.2.2⟩

theorem WF.fkAllLinks {r : Robot S} {st : RState} {n : Nat} (h : WF n st) (q : List ℝ) :
    WF n (r.fkAllLinks st q).2 := by
  obtain ⟨h1, h2⟩ := fkLoop_mats r.links st.mats q r.tfBase h.2.1
  exact h.mats h1 h2

theorem fkAllLinks_priority (r : Robot S) (st : RState) (q : List ℝ) :
    (r.fkAllLinks st q).2.priority = st.priority := rfl

/-! ### Self collision -/

theorem selfInner_iff (hit : Oracle S) (mat : Nat → Nat → Bool) (i : Nat) (ti : M4)
    (gi : Collection S) : ∀ (k : Nat) (l : List (M4 × Collection S)),
    selfInner hit mat i ti gi k l = true ↔ ∃ (j : Nat) (p : M4 × Collection S), l[j]? = some p ∧
      mat i (k + j) = true ∧ gi.isInCollision hit p.2 (some ti) (some p.1) = true := by
  intro k l
  induction l generalizing k with
  | nil => simp [selfInner]
  | cons p l ih =>
    obtain ⟨tj, gj⟩ := p
    have split : (∃ (j : Nat) (p : M4 × Collection S), ((tj, gj) :: l)[j]? = some p ∧
        mat i (k + j) = true ∧ gi.isInCollision hit p.2 (some ti) (some p.1) = true) ↔
        (mat i k = true ∧ gi.isInCollision hit gj (some ti) (some tj) = true) ∨
        ∃ (j : Nat) (p : M4 × Collection S), l[j]? = some p ∧
        mat i (k + 1 + j) = true ∧ gi.isInCollision hit p.2 (some ti) (some p.1) = true := by
      constructor
      · rintro ⟨j, p, hj, hm, hc⟩
        cases j with
        | zero =>
          simp only [List.getElem?_cons_zero, Option.some.injEq] at hj
          subst hj; exact .inl ⟨hm, hc⟩
        | succ j => exact .inr ⟨j, p, by simpa using hj, by rw [show k + 1 + j = k + (j + 1) by omega]; exact hm, hc⟩
      · rintro (⟨hm, hc⟩ | ⟨j, p, hj, hm, hc⟩)
        · exact ⟨0, (tj, gj), rfl, hm, hc⟩
        · exact ⟨j + 1, p, by simpa using hj, by rw [show k + (j + 1) = k + 1 + j by omega]; exact hm, hc⟩
    rw [split]
    unfold selfInner
    by_cases h1 : mat i k = true
    · rw [if_pos h1]
      by_cases h2 : gi.isInCollision hit gj (some ti) (some tj) = true
      · rw [if_pos h2]; exact ⟨fun _ => .inl ⟨h1, h2⟩, fun _ => rfl⟩
      · rw [if_neg h2, ih]
        exact ⟨.inr, fun h => h.resolve_left fun h' => h2 h'.2⟩
    · rw [if_neg h1, ih]
      exact ⟨.inr, fun h => h.resolve_left fun h' => h1 h'.1⟩

theorem selfOuter_iff (hit : Oracle S) (mat : Nat → Nat → Bool) (all : List (M4 × Collection S)) :
    ∀ (k : Nat) (l : List (M4 × Collection S)), selfOuter hit mat all k l = true ↔
      ∃ (i : Nat) (p : M4 × Collection S), l[i]? = some p ∧
        selfInner hit mat (k + i) p.1 p.2 0 all = true := by
  intro k l
  induction l generalizing k with
  | nil => simp [selfOuter]
  | cons p l ih =>
    obtain ⟨ti, gi⟩ := p
    unfold selfOuter
    by_cases h : selfInner hit mat k ti gi 0 all = true
    · rw [if_pos h]; exact ⟨fun _ => ⟨0, (ti, gi), rfl, h⟩, fun _ => rfl⟩
    · rw [if_neg h, ih]
      constructor
      · rintro ⟨i, p, hi, hc⟩
        exact ⟨i + 1, p, by simpa using hi, by rw [show k + (i + 1) = k + 1 + i by omega]; exact hc⟩
      · rintro ⟨i, p, hi, hc⟩
        cases i with
        | zero =>
          simp only [List.getElem?_cons_zero, Option.some.injEq] at hi
          subst hi; exact absurd hc h
        | succ i =>
          exact ⟨i, p, by simpa using hi, by rw [show k + 1 + i = k + (i + 1) by omega]; exact hc⟩

theorem toolLoop_iff (hit : Oracle S) (tool : Collection S) (t : M4)
    (l : List (M4 × Collection S)) : toolLoop hit tool t l = true ↔
      ∃ p ∈ l, p.2.isInCollision hit tool (some p.1) (some t) = true := by
  induction l with
  | nil => simp [toolLoop]
  | cons p l ih =>
    obtain ⟨ti, gi⟩ := p
    unfold toolLoop
    by_cases h : gi.isInCollision hit tool (some ti) (some t) = true
    · rw [if_pos h]; exact ⟨fun _ => ⟨(ti, gi), by simp, h⟩, fun _ => rfl⟩
    · rw [if_neg h, ih]
      constructor
      · rintro ⟨p, hp, hc⟩; exact ⟨p, by simp [hp], hc⟩
      · rintro ⟨p, hp, hc⟩
        rcases List.mem_cons.1 hp with rfl | hp
        · exact absurd hc h
        · exact ⟨p, hp, hc⟩

/-! ### Priority loop -/

theorem priorityLoop_spec (hit : Oracle S) (scene : Collection S) {tfs : List M4}
    {gs : List (Collection S)} (hl : tfs.length = gs.length) :
    ∀ (pl : List Nat), (∀ i ∈ pl, i < gs.length) →
    (∃ i ∈ pl, priorityLoop hit scene tfs gs pl = .ok (some i) ∧
        ∃ g t, gs[i]? = some g ∧ tfs[i]? = some t ∧
          g.isInCollision hit scene (some t) none = true) ∨
    (priorityLoop hit scene tfs gs pl = .ok none ∧
      ∀ i ∈ pl, ∀ g t, gs[i]? = some g → tfs[i]? = some t →
          g.isInCollision hit scene (some t) none = false) := by
  intro pl
  induction pl with
  | nil => intro _; right; simp [priorityLoop]
  | cons i pl ih =>
    intro hb
    have hi := hb i (by simp)
    have hi' : i < tfs.length := by omega
    have e1 : pyGet gs i = .ok gs[i] := by simp [pyGet, hi]
    have e2 : pyGet tfs i = .ok tfs[i] := by simp [pyGet, hi']
    have e : priorityLoop hit scene tfs gs (i :: pl) =
        if gs[i].isInCollision hit scene (some tfs[i]) none then .ok (some i)
        else priorityLoop hit scene tfs gs pl := by
      conv_lhs => unfold priorityLoop
      simp only [e1, e2, bind, Except.bind]
    rw [e]
    by_cases hc : gs[i].isInCollision hit scene (some tfs[i]) none = true
    · left
      rw [if_pos hc]
      exact ⟨i, by simp, rfl, gs[i], tfs[i], by simp [hi], by simp [hi'], hc⟩
    · rw [if_neg hc]
      rcases ih fun j hj => hb j (by simp [hj]) with ⟨j, hj, h1, h2⟩ | ⟨h1, h2⟩
      · left; exact ⟨j, by simp [hj], h1, h2⟩
      · right
        refine ⟨h1, ?_⟩
        intro j hj g t hg ht
        rcases List.mem_cons.1 hj with rfl | hj
        · rw [List.getElem?_eq_getElem hi] at hg
          rw [List.getElem?_eq_getElem hi'] at ht
          cases hg; cases ht
          simpa using hc
        · exact h2 j hj g t hg ht

/-! ### Frames as products -/

/-- Product of the link transforms. -/
noncomputable def chain (ls : List (Link S)) (qs : List ℝ) : M4 :=
  (List.zipWith (fun l q => l.tf q) ls qs).prod

theorem frames_getElem {ls : List (Link S)} {qs : List ℝ} (h : ls.length ≤ qs.length) (T : M4)
    (k : Nat) (hk : k < ls.length) :
    (frames ls qs T)[k]? = some (T * chain (ls.take (k + 1)) (qs.take (k + 1))) := by
  induction ls generalizing qs T k with
  | nil => simp at hk
  | cons l ls ih =>
    cases qs with
    | nil => simp at h
    | cons q qs =>
      cases k with
      | zero => simp [frames, chain]
      | succ k =>
        simp only [frames, List.getElem?_cons_succ]
        rw [ih (by simpa using h) _ k (by simpa using hk)]
        simp [chain, mul_assoc]

theorem frames_getLast {ls : List (Link S)} {qs : List ℝ} (h : ls.length ≤ qs.length) (T : M4) :
    (frames ls qs T).getLast?.getD T = T * chain ls qs := by
  rcases Nat.eq_zero_or_pos ls.length with h0 | h0
  · have : ls = [] := List.length_eq_zero_iff.1 h0
    subst this; simp [frames, chain]
  · have hl := frames_length h T
    rw [List.getLast?_eq_getElem?, hl, frames_getElem h T _ (by omega)]
    simp only [Option.getD_some]
    rw [show ls.length - 1 + 1 = ls.length by omega, List.take_length]
    congr 1
    have : ∀ (ls : List (Link S)) (qs : List ℝ), chain ls (qs.take ls.length) = chain ls qs := by
      intro ls
      induction ls with
      | nil => intro qs; simp [chain]
      | cons l ls ih =>
        intro qs
        cases qs with
        | nil => simp
        | cons q qs => simpa [chain] using congrArg (l.tf q * ·) (ih qs)
    exact this ls qs

theorem chain_rigid (ls : List (Link S)) (qs : List ℝ) : IsRigid (chain ls qs) := by
  unfold chain
  induction ls generalizing qs with
  | nil => simp [IsRigid.one]
  | cons l ls ih =>
    cases qs with
    | nil => simp [IsRigid.one]
    | cons q qs =>
      rw [List.zipWith_cons_cons, List.prod_cons]
      exact (l.tf_rigid q).mul (ih qs)

/-- `fk` in closed form. -/
theorem fk_ok {r : Robot S} {st : RState} (h : WF r.links.length st) {q : List ℝ}
    (hq : r.links.length ≤ q.length) (hk : ∀ l ∈ r.links, l.Known) :
    (r.fk st q).1 = .ok (match r.tool with
      | some tool => r.tfBase * chain r.links q * tool.tfTT
      | none => r.tfBase * chain r.links q) := by
  have := fkLoop_ok r.links st.mats q r.tfBase h.2.1 h.1 hq hk
  simp only [Robot.fk, this, Except.map, frames_getLast hq]
  cases r.tool <;> rfl

theorem fkAllLinks_ok {r : Robot S} {st : RState} (h : WF r.links.length st) {q : List ℝ}
    (hq : r.links.length ≤ q.length) (hk : ∀ l ∈ r.links, l.Known) :
    (r.fkAllLinks st q).1 = .ok (frames r.links q r.tfBase) :=
  fkLoop_ok r.links st.mats q r.tfBase h.2.1 h.1 hq hk

theorem fkLoop_length : ∀ (ls : List (Link S)) (ms : List M4) (qs : List ℝ) (T : M4)
    (fs : List M4), (fkLoop ls ms qs T).1 = .ok fs → fs.length = ls.length := by
  intro ls
  induction ls with
  | nil => intro ms qs T fs h; simp [fkLoop] at h; rw [h]; rfl
  | cons l ls ih =>
    intro ms qs T fs h
    cases qs with
    | nil => simp [fkLoop] at h
    | cons q qs =>
      cases ms with
      | nil => simp [fkLoop] at h
      | cons m ms =>
        unfold fkLoop at h
        rcases hr : l.relTf m q with ⟨r, m'⟩
        rw [hr] at h
        cases r with
        | error e => simp at h
        | ok Ti =>
          simp only at h
          cases hrec : (fkLoop ls ms qs (T * Ti)).1 with
          | error e => rw [hrec] at h; simp [Except.map] at h
          | ok fs' =>
            rw [hrec] at h
            simp only [Except.map, Except.ok.injEq] at h
            rw [← h, List.length_cons, ih _ _ _ _ hrec, List.length_cons]

theorem perm_move {l : List Nat} {i : Nat} (h : i ∈ l) : (i :: l.erase i).Perm l :=
  (List.perm_cons_erase h).symm

/-- One query keeps the state well formed. -/
theorem WF.isInCollision {hit : Oracle S} {r : Robot S} {st : RState} (h : WF r.links.length st)
    (q : List ℝ) (scene : Collection S) :
    WF r.links.length (r.isInCollision hit st q scene).2 := by
  have hc : WF r.links.length (r.checkLinks hit st q scene).2 := by
    have hx := h.fkAllLinks (r := r) q
    unfold Robot.checkLinks
    simp only
    rcases hfk : r.fkAllLinks st q with ⟨o, st'⟩
    rw [hfk] at hx
    cases o with
    | error e => exact hx
    | ok tfs =>
      have hl : tfs.length = (r.links.map Link.geometry).length := by
        rw [List.length_map]
        exact fkLoop_length r.links st.mats q r.tfBase tfs (by
          have := congrArg Prod.fst hfk; exact this)
      simp only
      have hb : ∀ i ∈ st'.priority, i < (r.links.map Link.geometry).length := by
        intro i hi
        have := (hx.2.2.mem_iff).1 hi
        simpa using this
      rcases priorityLoop_spec hit scene hl st'.priority hb with ⟨i, hi, e, _⟩ | ⟨e, _⟩
      · rw [e]
        exact ⟨hx.1, hx.2.1, (perm_move hi).trans hx.2.2⟩
      · rw [e]; exact hx
  unfold Robot.isInCollision
  cases r.geometryBase with
  | none => exact hc
  | some base =>
    simp only
    split
    · exact h
    · exact hc

/-- The answer is the same in all well-formed states. -/
theorem isInCollision_indep {hit : Oracle S} {r : Robot S} {st st' : RState}
    (h : WF r.links.length st) (h' : WF r.links.length st') (q : List ℝ) (scene : Collection S) :
    (r.isInCollision hit st q scene).1 = (r.isInCollision hit st' q scene).1 := by
  have hc : (r.checkLinks hit st q scene).1 = (r.checkLinks hit st' q scene).1 := by
    have hfk : (r.fkAllLinks st q).1 = (r.fkAllLinks st' q).1 :=
      fkLoop_indep r.links st.mats st'.mats q r.tfBase h.2.1 h'.2.1 h.1 h'.1
    have hw := h.fkAllLinks (r := r) q
    have hw' := h'.fkAllLinks (r := r) q
    unfold Robot.checkLinks
    simp only
    rcases hx : r.fkAllLinks st q with ⟨o, s1⟩
    rcases hx' : r.fkAllLinks st' q with ⟨o', s1'⟩
    rw [hx] at hw hfk
    rw [hx'] at hw' hfk
    simp only at hfk
    subst hfk
    cases o with
    | error e => rfl
    | ok tfs =>
      have hl : tfs.length = (r.links.map Link.geometry).length := by
        rw [List.length_map]
        exact fkLoop_length r.links st.mats q r.tfBase tfs (by
          have := congrArg Prod.fst hx; exact this)
      simp only
      have hb : ∀ i ∈ s1.priority, i < (r.links.map Link.geometry).length := by
        intro i hi
        simpa using (hw.2.2.mem_iff).1 hi
      have hb' : ∀ i ∈ s1'.priority, i < (r.links.map Link.geometry).length := by
        intro i hi
        simpa using (hw'.2.2.mem_iff).1 hi
      have hmem : ∀ i, i ∈ s1.priority ↔ i ∈ s1'.priority := fun i => by
        rw [hw.2.2.mem_iff, hw'.2.2.mem_iff]
      rcases priorityLoop_spec hit scene hl s1.priority hb with
        ⟨i, hi, e, g, t, hg, ht, hcol⟩ | ⟨e, hnone⟩ <;>
      rcases priorityLoop_spec hit scene hl s1'.priority hb' with
        ⟨i', hi', e', g', t', hg', ht', hcol'⟩ | ⟨e', hnone'⟩
      · rw [e, e']
      · have := hnone' i ((hmem i).1 hi) g t hg ht
        rw [this] at hcol; cases hcol
      · have := hnone i' ((hmem i').2 hi') g' t' hg' ht'
        rw [this] at hcol'; cases hcol'
      · rw [e, e']
  unfold Robot.isInCollision
  cases r.geometryBase with
  | none => exact hc
  | some base =>
    simp only
    split
    · rfl
    · exact hc

end Verif.Kin
