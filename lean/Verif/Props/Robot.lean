import Verif.Proofs.Robot
import Verif.Props.Geometry

/-! # C30 to C34: kinematics and collision checks of a robot -/

set_option linter.unusedSectionVars false

namespace Verif.Props

open Matrix Verif.Geometry Verif.Kin Verif.Util

variable {S : Type}

/-! ### C30 -/

/-- Rotation about z, translation along z, translation along x, rotation about x. -/
noncomputable def dhProduct (theta d a alpha : ℝ) : M4 :=
  mkTf (rotZ theta) 0 * mkTf 1 ![0, 0, d] * mkTf 1 ![a, 0, 0] * mkTf (rotX alpha) 0

/-- The transform the documentation promises for a joint value: the joint value replaces `theta` of a
revolute joint and `d` of a prismatic one. -/
noncomputable def dhOf (l : Link S) (q : ℝ) : M4 :=
  if l.jointType = .p then dhProduct l.dh.theta q l.dh.a l.dh.alpha
  else dhProduct q l.dh.d l.dh.a l.dh.alpha

theorem dhProduct_eq (theta d a alpha : ℝ) : dhProduct theta d a alpha = dhMat a alpha d theta := by
  rw [dhMat_eq]
  simp only [dhProduct, mkTf_mul]
  congr 1
  · simp
  · ext i; fin_cases i <;> simp [rotZ]

theorem dhOf_eq (l : Link S) (q : ℝ) : dhOf l q = l.tf q := by
  unfold dhOf Link.tf
  cases l.jointType <;> simp [dhProduct_eq]

/-- The matrix object of a link after a history of calls. -/
noncomputable def linkHistory (l : Link S) (qs : List ℝ) : M4 :=
  qs.foldl (fun T q => (l.relTf T q).2) 1

theorem linkHistory_intact (l : Link S) (qs : List ℝ) : Intact (linkHistory l qs) := by
  unfold linkHistory
  have : ∀ T, Intact T → Intact (qs.foldl (fun T q => (l.relTf T q).2) T) := by
    induction qs with
    | nil => intro T h; exact h
    | cons q qs ih => intro T h; exact ih _ (relTf_spec l h q).1
  exact this 1 intact_one

/-- **C30**: after every history of calls, the transform of a joint value is the product of the
four elementary motions; it is rigid. -/
theorem C30_dh (l : Link S) (hk : l.jointType = .r ∨ l.jointType = .p) (history : List ℝ) (q : ℝ) :
    (l.relTf (linkHistory l history) q).1 = .ok (dhOf l q) ∧ IsRigid (dhOf l q) := by
  have hk' : l.jointType ≠ .other := by rcases hk with h | h <;> rw [h] <;> simp
  have := (relTf_spec l (linkHistory_intact l history) q).2.1 hk'
  rw [this, dhOf_eq]
  exact ⟨rfl, l.tf_rigid q⟩

/-- **C30**: what is returned is the matrix object itself.  So a result that was kept shows the
transform of the latest call, whatever that call was. -/
theorem C30_shared (l : Link S) (hk : l.jointType = .r ∨ l.jointType = .p) (history : List ℝ)
    (q : ℝ) : linkHistory l (history ++ [q]) = dhOf l q := by
  have hk' : l.jointType ≠ .other := by rcases hk with h | h <;> rw [h] <;> simp
  have := (relTf_spec l (linkHistory_intact l history) q).2.1 hk'
  unfold linkHistory at *
  rw [List.foldl_append, List.foldl_cons, List.foldl_nil, this, dhOf_eq]

/-- **C30**: another joint type raises, also after any history. -/
theorem C30_unknown_type (l : Link S) (hk : l.jointType = .other) (history : List ℝ) (q : ℝ) :
    (l.relTf (linkHistory l history) q).1 = .error .unboundLocalError :=
  (relTf_spec l (linkHistory_intact l history) q).2.2 hk

/-- A prismatic link after two calls; the transform really depends on the joint value. -/
example : dhOf (⟨⟨1, 0, 0, 0⟩, .p, ⟨[], []⟩⟩ : Link Shape) 5 2 3 = 5 ∧
    ((⟨⟨1, 0, 0, 0⟩, .p, ⟨[], []⟩⟩ : Link Shape).relTf
      (linkHistory (⟨⟨1, 0, 0, 0⟩, .p, ⟨[], []⟩⟩ : Link Shape) [1, 2]) 5).1 =
      .ok (dhOf (⟨⟨1, 0, 0, 0⟩, .p, ⟨[], []⟩⟩ : Link Shape) 5) := by
  refine ⟨?_, (C30_dh _ (Or.inr rfl) _ _).1⟩
  simp [dhOf, dhProduct_eq, dhMat]

/-! ### C31 -/

/-- A call of one of the methods of a robot, with arbitrary arguments.  The robot may have been
reconfigured since (another tool, base, scene, ...): only the links are fixed. -/
inductive Call (S : Type) where
  | fk (r : Robot S) (q : List ℝ)
  | fkAllLinks (r : Robot S) (q : List ℝ)
  | isInSelfCollision (r : Robot S) (q : List ℝ)
  | isInCollision (r : Robot S) (q : List ℝ) (scene : Collection S)

/-- The robot a call is made on. -/
def Call.robot : Call S → Robot S
  | .fk r _ => r
  | .fkAllLinks r _ => r
  | .isInSelfCollision r _ => r
  | .isInCollision r _ _ => r

/-- The state after a call. -/
noncomputable def Call.run (hit : Oracle S) (st : RState) : Call S → RState
  | .fk r q => (r.fk st q).2
  | .fkAllLinks r q => (r.fkAllLinks st q).2
  | .isInSelfCollision r q => (r.isInSelfCollision hit st q).2
  | .isInCollision r q scene => (r.isInCollision hit st q scene).2

/-- The state of a robot with the given links after a history of calls (some may have raised). -/
noncomputable def after (hit : Oracle S) (links : List (Link S)) (history : List (Call S)) : RState :=
  history.foldl (fun st c => c.run hit st) (RState.new links.length)

theorem after_wf (hit : Oracle S) (links : List (Link S)) (history : List (Call S))
    (hh : ∀ c ∈ history, c.robot.links = links) : WF links.length (after hit links history) := by
  unfold after
  have : ∀ st, WF links.length st →
      WF links.length (history.foldl (fun st c => c.run hit st) st) := by
    induction history with
    | nil => intro st h; exact h
    | cons c cs ih =>
      intro st h
      refine ih (fun c' hc' => hh c' (List.mem_cons_of_mem _ hc')) _ ?_
      have hr := hh c List.mem_cons_self
      cases c with
      | fk r q => exact h.fkAllLinks (r := r) q
      | fkAllLinks r q => exact h.fkAllLinks (r := r) q
      | isInSelfCollision r q => exact h.fkAllLinks (r := r) q
      | isInCollision r q scene =>
        have hr : r.links = links := hr
        rw [← hr] at h ⊢
        exact h.isInCollision q scene
  exact this _ (WF.new _)

/-- The product of the link transforms. -/
noncomputable def linkProduct (ls : List (Link S)) (q : List ℝ) : M4 :=
  (List.zipWith dhOf ls q).prod

theorem linkProduct_eq (ls : List (Link S)) (q : List ℝ) : linkProduct ls q = chain ls q := by
  unfold linkProduct chain
  congr 1
  congr 1
  funext l q
  exact dhOf_eq l q

/-- The links of a robot have one of the two documented joint types. -/
def KnownTypes (ls : List (Link S)) : Prop := ∀ l ∈ ls, l.jointType = .r ∨ l.jointType = .p

theorem KnownTypes.known {ls : List (Link S)} (h : KnownTypes ls) : ∀ l ∈ ls, l.Known := by
  intro l hl
  rcases h l hl with h | h <;> simp [Link.Known, h]

/-- **C31**: after every history, `fk` is the base times the link transforms times the tool tip. -/
theorem C31_fk (hit : Oracle S) (r : Robot S) (hk : KnownTypes r.links) (history : List (Call S))
    (hh : ∀ c ∈ history, c.robot.links = r.links) (q : List ℝ) (hq : r.links.length ≤ q.length) :
    (r.fk (after hit r.links history) q).1 =
      .ok (r.tfBase * linkProduct r.links q * (r.tool.map Tool.tfTT).getD 1) := by
  rw [fk_ok (after_wf hit _ _ hh) hq hk.known, linkProduct_eq]
  cases r.tool <;> simp

/-- **C31**: rigid when base and tool tip are. -/
theorem C31_rigid (r : Robot S) (q : List ℝ) (hb : IsRigid r.tfBase)
    (ht : ∀ tool, r.tool = some tool → IsRigid tool.tfTT) :
    IsRigid (r.tfBase * linkProduct r.links q * (r.tool.map Tool.tfTT).getD 1) := by
  rw [linkProduct_eq]
  refine (hb.mul (chain_rigid _ _)).mul ?_
  cases h : r.tool with
  | none => exact IsRigid.one
  | some tool => exact ht tool h

/-- **C31**: `fk_all_links` lists the products of the first 1, 2, ... link transforms. -/
theorem C31_all_links (hit : Oracle S) (r : Robot S) (hk : KnownTypes r.links)
    (history : List (Call S)) (hh : ∀ c ∈ history, c.robot.links = r.links) (q : List ℝ)
    (hq : r.links.length ≤ q.length) :
    ∃ fs : List M4, (r.fkAllLinks (after hit r.links history) q).1 = .ok fs ∧
      fs.length = r.links.length ∧
      (∀ k : Nat, k < r.links.length →
        fs[k]? = some (r.tfBase * linkProduct (r.links.take (k + 1)) (q.take (k + 1)))) ∧
      (r.fk (after hit r.links history) q).1 =
        .ok (fs.getLast?.getD r.tfBase * (r.tool.map Tool.tfTT).getD 1) := by
  refine ⟨_, fkAllLinks_ok (after_wf hit _ _ hh) hq hk.known, frames_length hq _, ?_, ?_⟩
  · intro k hk'
    rw [linkProduct_eq, frames_getElem hq _ k hk']
  · rw [C31_fk hit r hk history hh q hq, frames_getLast hq, linkProduct_eq]

/-- **C31**: moving the base moves the result. -/
theorem C31_move_base (hit : Oracle S) (r : Robot S) (M : M4) (history : List (Call S))
    (hh : ∀ c ∈ history, c.robot.links = r.links) (hk : KnownTypes r.links) (q : List ℝ)
    (hq : r.links.length ≤ q.length) :
    (({ r with tfBase := M * r.tfBase } : Robot S).fk (after hit r.links history) q).1 =
      (r.fk (after hit r.links history) q).1.map (M * ·) := by
  rw [C31_fk hit r hk history hh q hq,
    C31_fk hit { r with tfBase := M * r.tfBase } hk history hh q hq]
  simp [Except.map, mul_assoc]

theorem fkLoop_short : ∀ (ls : List (Link S)) (ms : List M4) (qs : List ℝ) (T : M4),
    (∀ m ∈ ms, Intact m) → ms.length = ls.length → qs.length < ls.length →
    (∀ l ∈ ls, l.Known) → (fkLoop ls ms qs T).1 = .error .indexError := by
  intro ls
  induction ls with
  | nil => intro ms qs T _ _ h; simp at h
  | cons l ls ih =>
    intro ms qs T hm hl h hkn
    cases qs with
    | nil => simp [fkLoop]
    | cons q qs =>
      cases ms with
      | nil => simp at hl
      | cons m ms =>
        have := (relTf_spec l (hm m List.mem_cons_self) q).2.1 (hkn l List.mem_cons_self)
        unfold fkLoop
        rw [this]
        simp only
        rw [ih ms qs _ (fun m hm' => hm m (List.mem_cons_of_mem _ hm')) (by simpa using hl)
          (by simpa using h) (fun l hl' => hkn l (List.mem_cons_of_mem _ hl'))]
        rfl

/-- With fewer joint values than links `fk_all_links` raises IndexError, like `fk`. -/
theorem fkAllLinks_short {r : Robot S} {st : RState} {q : List ℝ} (hk : KnownTypes r.links)
    (hw : WF r.links.length st) (hq : q.length < r.links.length) :
    (r.fkAllLinks st q).1 = .error .indexError :=
  fkLoop_short r.links _ q r.tfBase hw.2.1 hw.1 hq hk.known

/-- **C31**: too few joint values raise. -/
theorem C31_too_few (hit : Oracle S) (r : Robot S) (hk : KnownTypes r.links)
    (history : List (Call S)) (hh : ∀ c ∈ history, c.robot.links = r.links) (q : List ℝ)
    (hq : q.length < r.links.length) :
    (r.fk (after hit r.links history) q).1 = .error .indexError := by
  have hw := after_wf hit _ _ hh
  simp only [Robot.fk]
  rw [fkLoop_short r.links _ q r.tfBase hw.2.1 hw.1 hq hk.known]
  rfl

/-- A planar arm of two links with a tool, one joint of each type, after two earlier calls. -/
example : ∃ r : Robot Shape, KnownTypes r.links ∧ r.links.length = 2 ∧
    (r.fk (after boxOracle r.links [.fk r [1, 1], .isInCollision r [3] ⟨[], []⟩]) [0, 4]).1 =
      .ok (mkTf 1 ![1, 0, 7]) := by
  let r : Robot Shape :=
    { Robot.new [⟨⟨1, 0, 0, 0⟩, .r, ⟨[], []⟩⟩, ⟨⟨0, 0, 0, 0⟩, .p, ⟨[], []⟩⟩] with
      tool := some ⟨⟨[], []⟩, mkTf 1 ![0, 0, 3]⟩ }
  have hk : KnownTypes r.links := by
    intro l hl
    simp only [r, Robot.new, List.mem_cons, List.not_mem_nil, or_false] at hl
    rcases hl with rfl | rfl
    · exact Or.inl rfl
    · exact Or.inr rfl
  refine ⟨r, hk, rfl, ?_⟩
  rw [C31_fk boxOracle r hk _ (by simp [Call.robot]) [0, 4] (by simp [r, Robot.new])]
  simp only [r, Robot.new, linkProduct, List.zipWith_cons_cons, List.zipWith_nil_left, List.prod_cons,
    List.prod_nil, dhOf, Option.map_some, Option.getD_some, mul_one, one_mul, if_true, if_false,
    dhProduct, reduceCtorEq, rotX_zero, rotZ_zero, mkTf_mul]
  congr 2
  ext i; fin_cases i <;> simp; norm_num

/-! ### C32 -/

/-- **C32**: robots whose joints are all revolute: the two versions agree on every input (also those
that raise), after every history. -/
theorem C32_casadi_partial (hit : Oracle S) (r : Robot S) (hk : ∀ l ∈ r.links, l.jointType = .r)
    (history : List (Call S)) (hh : ∀ c ∈ history, c.robot.links = r.links) (q : List ℝ) :
    r.fkCasadi q = (r.fk (after hit r.links history) q).1 ∧
    r.fkAllLinksCasadi q = (r.fkAllLinks (after hit r.links history) q).1 := by
  have hw := after_wf hit _ _ hh
  have key : ∀ (ls : List (Link S)) (ms : List M4) (qs : List ℝ) (T : M4),
      (∀ m ∈ ms, Intact m) → ms.length = ls.length → (∀ l ∈ ls, l.jointType = .r) →
      fkLoopCasadi ls qs T = (fkLoop ls ms qs T).1 := by
    intro ls
    induction ls with
    | nil => intro ms qs T _ _ _; simp [fkLoopCasadi, fkLoop]
    | cons l ls ih =>
      intro ms qs T hm hl hr
      cases qs with
      | nil => simp [fkLoop, fkLoopCasadi]
      | cons q qs =>
        cases ms with
        | nil => simp at hl
        | cons m ms =>
          have hr0 := hr l List.mem_cons_self
          have e := (relTf_spec l (hm m List.mem_cons_self) q).2.1 (by simp [hr0])
          have ec : l.relTfCasadi q = l.tf q := by simp [Link.relTfCasadi, Link.tf, hr0, dhMat]
          unfold fkLoop fkLoopCasadi
          rw [e]
          simp only [ec]
          rw [ih ms qs _ (fun m hm' => hm m (List.mem_cons_of_mem _ hm')) (by simpa using hl)
            (fun l hl' => hr l (List.mem_cons_of_mem _ hl'))]
          cases (fkLoop ls ms qs (T * l.tf q)).1 <;> rfl
  have := key r.links _ q r.tfBase hw.2.1 hw.1 hk
  refine ⟨?_, this⟩
  unfold Robot.fkCasadi Robot.fk
  rw [this]
  simp only
  cases (fkLoop r.links (after hit r.links history).mats q r.tfBase).1 with
  | error e => rfl
  | ok fs => cases r.tool <;> rfl

/-- **C32** fails with a prismatic joint: at joint value 1 the symbolic version reports a turn where
the numeric one reports a displacement. -/
theorem C32_refuted : ∃ (r : Robot Shape) (q : List ℝ) (A B : M4), KnownTypes r.links ∧
    r.fkCasadi q = .ok A ∧ (r.fk (RState.new r.links.length) q).1 = .ok B ∧
    posPart A ≠ posPart B := by
  let r : Robot Shape := Robot.new [⟨⟨0, 0, 0, 0⟩, .p, ⟨[], []⟩⟩]
  have hk : KnownTypes r.links := by
    intro l hl
    simp only [r, Robot.new, List.mem_singleton] at hl
    exact Or.inr (by rw [hl])
  have h2 := C31_fk boxOracle r hk [] (by simp) [1] (by simp [r, Robot.new])
  refine ⟨r, [1], _, _, hk, rfl, h2, ?_⟩
  intro h
  have := congrFun h 2
  simp [r, Robot.new, Link.relTfCasadi, posPart, linkProduct, dhOf, dhProduct_eq, dhMat] at this

/-- Three revolute joints meet the hypothesis, with a history. -/
example : ∃ r : Robot Shape, r.links.length = 3 ∧ (∀ l ∈ r.links, l.jointType = .r) ∧
    r.fkCasadi [1, 2, 3] = (r.fk (after boxOracle r.links [.fk r [0, 0, 0]]) [1, 2, 3]).1 := by
  let r : Robot Shape := Robot.new (List.replicate 3 ⟨⟨1, 2, 3, 4⟩, .r, ⟨[], []⟩⟩)
  have hr : ∀ l ∈ r.links, l.jointType = .r := by
    intro l hl
    rw [List.eq_of_mem_replicate hl]
  exact ⟨r, rfl, hr, (C32_casadi_partial boxOracle r hr _ (by simp [Call.robot]) _).1⟩

/-! ### C33, C34 -/

/-- Two collections of shapes touch: some shape of the one hits some shape of the other. -/
def Touch (hit : Oracle S) (c : Collection S) (A : M4) (d : Collection S) (B : M4) : Prop :=
  ∃ (i j : Nat) (s s' : S) (t t' : M4), c.s[i]? = some s ∧ c.tfS[i]? = some t ∧
    d.s[j]? = some s' ∧ d.tfS[j]? = some t' ∧
    hit ⟨s, rotPart (A * t), posPart (A * t)⟩ ⟨s', rotPart (B * t'), posPart (B * t')⟩ = true

/-- The frame of link `k`. -/
noncomputable def frameOf (r : Robot S) (q : List ℝ) (k : Nat) : M4 :=
  r.tfBase * linkProduct (r.links.take (k + 1)) (q.take (k + 1))

/-- Two links with a difference of index of at least three touch, or the tool (which moves with the
last link) touches a link other than the last. -/
def SelfTouch (hit : Oracle S) (r : Robot S) (q : List ℝ) : Prop :=
  (∃ (i j : Nat) (li lj : Link S), (i + 3 ≤ j ∨ j + 3 ≤ i) ∧ r.links[i]? = some li ∧
    r.links[j]? = some lj ∧ Touch hit li.geometry (frameOf r q i) lj.geometry (frameOf r q j)) ∨
  (∃ (tool : Tool S) (i : Nat) (li : Link S), r.tool = some tool ∧ i + 1 < r.links.length ∧
    r.links[i]? = some li ∧ Touch hit li.geometry (frameOf r q i) tool.toCollection
      (frameOf r q (r.links.length - 1)))

/-- Two links touch whose pair is marked in the collision matrix (robot.py:170), or the tool touches a
link other than the last. -/
def MarkedTouch (hit : Oracle S) (r : Robot S) (q : List ℝ) : Prop :=
  (∃ (i j : Nat) (li lj : Link S), r.collisionMatrix i j = true ∧ r.links[i]? = some li ∧
    r.links[j]? = some lj ∧ Touch hit li.geometry (frameOf r q i) lj.geometry (frameOf r q j)) ∨
  (∃ (tool : Tool S) (i : Nat) (li : Link S), r.tool = some tool ∧ i + 1 < r.links.length ∧
    r.links[i]? = some li ∧ Touch hit li.geometry (frameOf r q i) tool.toCollection
      (frameOf r q (r.links.length - 1)))

/-- With the matrix of the constructor the marked pairs are those at least three apart. -/
theorem markedTouch_band (hit : Oracle S) (r : Robot S) (hc : r.collisionMatrix = bandMatrix)
    (q : List ℝ) : MarkedTouch hit r q ↔ SelfTouch hit r q := by
  have hm : ∀ i j, r.collisionMatrix i j = true ↔ (i + 3 ≤ j ∨ j + 3 ≤ i) := fun i j => by
    simp only [hc, bandMatrix, Bool.or_eq_true, decide_eq_true_eq]
    exact or_comm
  unfold MarkedTouch SelfTouch
  simp only [hm]

/-- The base, a link or the tool touches the scene. -/
def SceneTouch (hit : Oracle S) (r : Robot S) (q : List ℝ) (scene : Collection S) : Prop :=
  (∃ base, r.geometryBase = some base ∧ Touch hit base r.tfBase scene 1) ∨
  (∃ (i : Nat) (li : Link S), r.links[i]? = some li ∧
    Touch hit li.geometry (frameOf r q i) scene 1) ∨
  (∃ tool, r.tool = some tool ∧
    Touch hit tool.toCollection (frameOf r q (r.links.length - 1)) scene 1)

theorem touch_iff (hit : Oracle S) (c d : Collection S) (A B : M4) :
    c.isInCollision hit d (some A) (some B) = true ↔ Touch hit c A d B := C29_any_pair hit c d A B

theorem touch_iff_none (hit : Oracle S) (c d : Collection S) (A : M4) :
    c.isInCollision hit d (some A) none = true ↔ Touch hit c A d 1 := by
  rw [(C29_default hit c d A).2.1, touch_iff]

/-- The frames as the model computes them. -/
theorem frames_get (r : Robot S) {q : List ℝ} (hq : r.links.length ≤ q.length) {k : Nat} {T : M4} :
    (frames r.links q r.tfBase)[k]? = some T ↔ k < r.links.length ∧ T = frameOf r q k := by
  constructor
  · intro h
    obtain ⟨hk, -⟩ := List.getElem?_eq_some_iff.1 h
    rw [frames_length hq] at hk
    rw [frames_getElem hq _ k hk, ← linkProduct_eq] at h
    exact ⟨hk, (Option.some.inj h).symm⟩
  · rintro ⟨hk, rfl⟩
    rw [frames_getElem hq _ k hk, ← linkProduct_eq]; rfl

theorem frames_last (r : Robot S) {q : List ℝ} (hq : r.links.length ≤ q.length)
    (h0 : 0 < r.links.length) :
    pyLast (frames r.links q r.tfBase) = .ok (frameOf r q (r.links.length - 1)) := by
  have := (frames_get r hq (k := r.links.length - 1)
    (T := frameOf r q (r.links.length - 1))).2 ⟨by omega, rfl⟩
  simp only [pyLast]
  rw [List.getLast?_eq_getElem?, frames_length hq, this]

theorem zip_get (r : Robot S) {q : List ℝ} (hq : r.links.length ≤ q.length) {i : Nat}
    {p : M4 × Collection S} :
    ((frames r.links q r.tfBase).zip (r.links.map Link.geometry))[i]? = some p ↔
      ∃ li, r.links[i]? = some li ∧ p = (frameOf r q i, li.geometry) := by
  obtain ⟨T, g⟩ := p
  rw [List.getElem?_zip_eq_some, frames_get r hq]
  simp only [List.getElem?_map, Option.map_eq_some_iff, Prod.mk.injEq]
  constructor
  · rintro ⟨⟨-, h⟩, l, hl, h'⟩; exact ⟨l, hl, h, h'.symm⟩
  · rintro ⟨l, hl, h, h'⟩
    exact ⟨⟨(List.getElem?_eq_some_iff.1 hl).1, h⟩, l, hl, h'.symm⟩

theorem selfCheck_iff (hit : Oracle S) (r : Robot S)
    {q : List ℝ} (hq : r.links.length ≤ q.length) (h0 : r.tool = none ∨ 0 < r.links.length) :
    ∃ b, r.checkSelfCollision hit (frames r.links q r.tfBase) (r.links.map Link.geometry) = .ok b ∧
      (b = true ↔ MarkedTouch hit r q) := by
  have hlinks : selfOuter hit r.collisionMatrix
      ((frames r.links q r.tfBase).zip (r.links.map Link.geometry)) 0
      ((frames r.links q r.tfBase).zip (r.links.map Link.geometry)) = true ↔
      ∃ (i j : Nat) (li lj : Link S), r.collisionMatrix i j = true ∧ r.links[i]? = some li ∧
        r.links[j]? = some lj ∧
        Touch hit li.geometry (frameOf r q i) lj.geometry (frameOf r q j) := by
    rw [selfOuter_iff]
    simp only [selfInner_iff, zip_get r hq, Nat.zero_add]
    constructor
    · rintro ⟨i, p, ⟨li, hli, rfl⟩, j, p', ⟨lj, hlj, rfl⟩, hb, ht⟩
      exact ⟨i, j, li, lj, hb, hli, hlj, (touch_iff ..).1 ht⟩
    · rintro ⟨i, j, li, lj, hb, hli, hlj, ht⟩
      exact ⟨i, _, ⟨li, hli, rfl⟩, j, _, ⟨lj, hlj, rfl⟩, hb, (touch_iff ..).2 ht⟩
  unfold Robot.checkSelfCollision
  by_cases hl : selfOuter hit r.collisionMatrix
      ((frames r.links q r.tfBase).zip (r.links.map Link.geometry)) 0
      ((frames r.links q r.tfBase).zip (r.links.map Link.geometry)) = true
  · rw [if_pos hl]
    exact ⟨true, rfl, by simp only [true_iff]; exact Or.inl (hlinks.1 hl)⟩
  · rw [if_neg hl]
    cases ht : r.tool with
    | none =>
      refine ⟨false, rfl, ?_⟩
      simp only [Bool.false_eq_true, false_iff]
      rintro (h | ⟨tool, _, _, h, _⟩)
      · exact hl (hlinks.2 h)
      · rw [ht] at h; cases h
    | some tool =>
      have h0 : 0 < r.links.length := by
        rcases h0 with h | h
        · rw [ht] at h; cases h
        · exact h
      simp only [frames_last r hq h0]
      refine ⟨_, rfl, ?_⟩
      rw [toolLoop_iff]
      have hz : ((frames r.links q r.tfBase).dropLast.zip (r.links.map Link.geometry).dropLast) =
          ((frames r.links q r.tfBase).zip (r.links.map Link.geometry)).take (r.links.length - 1) := by
        rw [List.dropLast_eq_take, List.dropLast_eq_take, frames_length hq, List.length_map]
        simp only [List.zip, List.take_zipWith]
      rw [hz]
      constructor
      · rintro ⟨p, hp, h⟩
        obtain ⟨i, hi⟩ := List.mem_iff_getElem?.1 hp
        rw [List.getElem?_take] at hi
        split at hi
        · obtain ⟨li, hli, rfl⟩ := (zip_get r hq).1 hi
          exact Or.inr ⟨tool, i, li, ht, by omega, hli, (touch_iff ..).1 h⟩
        · cases hi
      · rintro (h | ⟨tool', i, li, ht', hi, hli, h⟩)
        · exact absurd (hlinks.2 h) hl
        · rw [ht] at ht'; cases ht'
          refine ⟨(frameOf r q i, li.geometry), List.mem_iff_getElem?.2 ⟨i, ?_⟩, (touch_iff ..).2 h⟩
          rw [List.getElem?_take, if_pos (by omega)]
          exact (zip_get r hq).2 ⟨li, hli, rfl⟩

/-- **C34**, for any collision matrix: after every history of calls, the robot is reported in self
collision iff two links touch whose pair is marked in the matrix or the tool touches a link other than
the last one. -/
theorem C34_any_matrix (hit : Oracle S) (r : Robot S) (hk : KnownTypes r.links)
    (h0 : r.tool = none ∨ 0 < r.links.length)
    (history : List (Call S)) (hh : ∀ c ∈ history, c.robot.links = r.links) (q : List ℝ)
    (hq : r.links.length ≤ q.length) :
    ∃ b, (r.isInSelfCollision hit (after hit r.links history) q).1 = .ok b ∧
      (b = true ↔ MarkedTouch hit r q) := by
  obtain ⟨b, hb, h⟩ := selfCheck_iff hit r hq h0
  refine ⟨b, ?_, h⟩
  simp only [Robot.isInSelfCollision, fkAllLinks_ok (after_wf hit _ _ hh) hq hk.known]
  exact hb

/-- **C34**: after every history of calls, the robot is reported in self collision iff two links at
least three apart touch or the tool touches a link other than the last one. -/
theorem C34_self_collision (hit : Oracle S) (r : Robot S) (hk : KnownTypes r.links)
    (hc : r.collisionMatrix = bandMatrix) (h0 : r.tool = none ∨ 0 < r.links.length)
    (history : List (Call S)) (hh : ∀ c ∈ history, c.robot.links = r.links) (q : List ℝ)
    (hq : r.links.length ≤ q.length) :
    ∃ b, (r.isInSelfCollision hit (after hit r.links history) q).1 = .ok b ∧
      (b = true ↔ SelfTouch hit r q) := by
  rw [← markedTouch_band hit r hc]
  exact C34_any_matrix hit r hk h0 history hh q hq

/-- **C34**: a new robot has the collision matrix of the theorem. -/
theorem C34_matrix (links : List (Link S)) (i j : Nat) :
    (Robot.new links).collisionMatrix i j = true ↔ 3 ≤ (i : ℤ) - j ∨ 3 ≤ (j : ℤ) - i := by
  simp only [Robot.new, bandMatrix, Bool.or_eq_true, decide_eq_true_eq]
  omega

/-- **C33**, the answer for any collision matrix: base, link or tool against the scene, or a marked
pair of links or the tool against a link, if enabled. -/
theorem C33_any_matrix (hit : Oracle S) (r : Robot S) (hk : KnownTypes r.links)
    (h0 : r.tool = none ∨ 0 < r.links.length)
    (history : List (Call S)) (hh : ∀ c ∈ history, c.robot.links = r.links) (q : List ℝ)
    (hq : r.links.length ≤ q.length) (scene : Collection S) :
    ∃ b, (r.isInCollision hit (after hit r.links history) q scene).1 = .ok b ∧
      (b = true ↔ SceneTouch hit r q scene ∨ (r.doCheckSelfCollision = true ∧ MarkedTouch hit r q)) := by
  have hw := after_wf hit _ _ hh
  generalize after hit r.links history = st at hw
  -- the part after the base
  have hpart : ∃ b, (r.checkLinks hit st q scene).1 = .ok b ∧
      (b = true ↔ (∃ (i : Nat) (li : Link S), r.links[i]? = some li ∧
          Touch hit li.geometry (frameOf r q i) scene 1) ∨
        (∃ tool, r.tool = some tool ∧
          Touch hit tool.toCollection (frameOf r q (r.links.length - 1)) scene 1) ∨
        (r.doCheckSelfCollision = true ∧ MarkedTouch hit r q)) := by
    have hfk := fkAllLinks_ok hw hq hk.known
    have hpr := fkAllLinks_priority r st q
    unfold Robot.checkLinks
    simp only
    rcases hx : r.fkAllLinks st q with ⟨o, s1⟩
    rw [hx] at hfk hpr
    simp only at hfk hpr
    subst hfk
    simp only [hpr]
    have hl : (frames r.links q r.tfBase).length = (r.links.map Link.geometry).length := by
      rw [frames_length hq, List.length_map]
    rcases priorityLoop_spec hit scene hl st.priority (by
        intro i hi; simpa using (hw.2.2.mem_iff).1 hi) with
      ⟨i, hi, e, g, t, hg, ht, hcol⟩ | ⟨e, hnone⟩
    · rw [e]
      refine ⟨true, rfl, ?_⟩
      simp only [true_iff]
      refine Or.inl ?_
      obtain ⟨li, hli, hp⟩ := (zip_get r hq (p := (t, g))).1
        (List.getElem?_zip_eq_some.2 ⟨ht, hg⟩)
      cases hp
      exact ⟨i, li, hli, (touch_iff_none ..).1 hcol⟩
    · rw [e]
      have hnolink : ¬ ∃ (i : Nat) (li : Link S), r.links[i]? = some li ∧
          Touch hit li.geometry (frameOf r q i) scene 1 := by
        rintro ⟨i, li, hli, ht⟩
        have hi := (List.getElem?_eq_some_iff.1 hli).1
        have := hnone i ((hw.2.2.mem_iff).2 (by simpa using hi)) li.geometry (frameOf r q i)
          (by simp [hli]) ((frames_get r hq).2 ⟨hi, rfl⟩)
        rw [(touch_iff_none ..).2 ht] at this
        cases this
      simp only [hnolink, false_or]
      obtain ⟨b, hb, hself⟩ := selfCheck_iff hit r hq h0
      have hrest : ∀ (P : Prop), ¬ P → ∃ c, (if r.doCheckSelfCollision = true then (do
            if ← r.checkSelfCollision hit (frames r.links q r.tfBase)
              (r.links.map Link.geometry) then .ok true else .ok false) else .ok false :
            Except PyErr Bool) = .ok c ∧
          (c = true ↔ P ∨ r.doCheckSelfCollision = true ∧ MarkedTouch hit r q) := by
        intro P hP
        by_cases hd : r.doCheckSelfCollision = true
        · rw [if_pos hd, hb]
          refine ⟨b, ?_, by rw [hself]; simp [hP, hd]⟩
          cases b <;> rfl
        · rw [if_neg hd]
          exact ⟨false, rfl, by simp [hP, hd]⟩
      unfold Robot.afterLinks
      cases ht : r.tool with
      | none =>
        have := hrest (∃ tool, (none : Option (Tool S)) = some tool ∧
          Touch hit tool.toCollection (frameOf r q (r.links.length - 1)) scene 1) (by simp)
        exact this
      | some tool =>
        have h0 : 0 < r.links.length := by
          rcases h0 with h | h
          · rw [ht] at h; cases h
          · exact h
        simp only [frames_last r hq h0]
        by_cases hcol : tool.toCollection.isInCollision hit scene
            (some (frameOf r q (r.links.length - 1))) none = true
        · refine ⟨true, ?_, ?_⟩
          · change (if tool.toCollection.isInCollision hit scene
              (some (frameOf r q (r.links.length - 1))) none = true then Except.ok true else _) = _
            rw [if_pos hcol]
          · simp only [true_iff]
            exact Or.inl ⟨tool, rfl, (touch_iff_none ..).1 hcol⟩
        · have := hrest (∃ tool', some tool = some tool' ∧
            Touch hit tool'.toCollection (frameOf r q (r.links.length - 1)) scene 1) (by
              rintro ⟨tool', h, h'⟩
              cases h
              exact hcol ((touch_iff_none ..).2 h'))
          obtain ⟨c, h1, h2⟩ := this
          refine ⟨c, ?_, h2⟩
          rw [← h1]
          change (if tool.toCollection.isInCollision hit scene
            (some (frameOf r q (r.links.length - 1))) none = true then Except.ok true else _) = _
          rw [if_neg hcol]
  unfold Robot.isInCollision
  unfold SceneTouch
  cases hg : r.geometryBase with
  | none =>
    obtain ⟨b, h1, h2⟩ := hpart
    refine ⟨b, h1, ?_⟩
    rw [h2]
    simp [or_assoc]
  | some base =>
    simp only
    by_cases hb : base.isInCollision hit scene (some r.tfBase) none = true
    · rw [if_pos hb]
      refine ⟨true, rfl, ?_⟩
      simp only [true_iff]
      exact Or.inl (Or.inl ⟨base, rfl, (touch_iff_none ..).1 hb⟩)
    · rw [if_neg hb]
      obtain ⟨b, h1, h2⟩ := hpart
      refine ⟨b, h1, ?_⟩
      rw [h2]
      have : ¬ ∃ base', some base = some base' ∧ Touch hit base' r.tfBase scene 1 := by
        rintro ⟨_, h, h'⟩
        cases h
        exact hb ((touch_iff_none ..).2 h')
      simp only [this, false_or, or_assoc]

/-- **C33**, the answer: base, link or tool against the scene, or self collision if enabled. -/
theorem C33_answer (hit : Oracle S) (r : Robot S) (hk : KnownTypes r.links)
    (hc : r.collisionMatrix = bandMatrix) (h0 : r.tool = none ∨ 0 < r.links.length)
    (history : List (Call S)) (hh : ∀ c ∈ history, c.robot.links = r.links) (q : List ℝ)
    (hq : r.links.length ≤ q.length) (scene : Collection S) :
    ∃ b, (r.isInCollision hit (after hit r.links history) q scene).1 = .ok b ∧
      (b = true ↔ SceneTouch hit r q scene ∨ (r.doCheckSelfCollision = true ∧ SelfTouch hit r q)) := by
  rw [← markedTouch_band hit r hc]
  exact C33_any_matrix hit r hk h0 history hh q hq scene

/-- **C33**, a robot as its constructor leaves it: in the origin, without base geometry and tool, and
with the self collision check switched on. -/
theorem C33_new (hit : Oracle S) (links : List (Link S)) (hk : KnownTypes links)
    (history : List (Call S)) (hh : ∀ c ∈ history, c.robot.links = links) (q : List ℝ)
    (hq : links.length ≤ q.length) (scene : Collection S) :
    ∃ b, ((Robot.new links).isInCollision hit (after hit links history) q scene).1 = .ok b ∧
      (b = true ↔
        (∃ (i : Nat) (li : Link S), links[i]? = some li ∧
          Touch hit li.geometry (linkProduct (links.take (i + 1)) (q.take (i + 1))) scene 1) ∨
        ∃ (i j : Nat) (li lj : Link S), (i + 3 ≤ j ∨ j + 3 ≤ i) ∧ links[i]? = some li ∧
          links[j]? = some lj ∧
          Touch hit li.geometry (linkProduct (links.take (i + 1)) (q.take (i + 1)))
            lj.geometry (linkProduct (links.take (j + 1)) (q.take (j + 1)))) := by
  obtain ⟨b, h1, h2⟩ := C33_answer hit (Robot.new links) hk rfl (.inl rfl) history hh q hq scene
  refine ⟨b, h1, ?_⟩
  rw [h2]
  simp [SceneTouch, SelfTouch, frameOf, Robot.new]

/-- **C33**, history: the outcome (also an exception) is that of a new robot, whatever was asked
before, with whatever settings. -/
theorem C33_history (hit : Oracle S) (r : Robot S) (history : List (Call S))
    (hh : ∀ c ∈ history, c.robot.links = r.links) (q : List ℝ) (scene : Collection S) :
    (r.isInCollision hit (after hit r.links history) q scene).1 =
      (r.isInCollision hit (RState.new r.links.length) q scene).1 :=
  isInCollision_indep (after_wf hit _ _ hh) (WF.new _) q scene

/-- **C33**, the priority list always holds every link exactly once. -/
theorem C33_priority (hit : Oracle S) (links : List (Link S)) (history : List (Call S))
    (hh : ∀ c ∈ history, c.robot.links = links) :
    (after hit links history).priority.Perm (List.range links.length) :=
  (after_wf hit links history hh).2.2

/-- **C33**, the list is really reordered: after a query that finds link `i` in collision, `i` is
first, and the rest keeps its order. -/
theorem C33_reordered (hit : Oracle S) (r : Robot S) (st : RState) (q : List ℝ)
    (scene : Collection S) :
    (r.isInCollision hit st q scene).2.priority = st.priority ∨
    ∃ i ∈ st.priority, (r.isInCollision hit st q scene).1 = .ok true ∧
      (r.isInCollision hit st q scene).2.priority = i :: st.priority.erase i := by
  have hmem : ∀ (tfs : List M4) (gs : List (Collection S)) (pl : List Nat) (i : Nat),
      priorityLoop hit scene tfs gs pl = .ok (some i) → i ∈ pl := by
    intro tfs gs pl i
    induction pl with
    | nil => simp [priorityLoop]
    | cons j pl ih =>
      unfold priorityLoop
      cases pyGet gs j with
      | error e => intro h; cases h
      | ok g =>
        cases pyGet tfs j with
        | error e => intro h; cases h
        | ok t =>
          simp only [bind, Except.bind]
          split
          · intro h; cases h; exact List.mem_cons_self
          · intro h; exact List.mem_cons_of_mem _ (ih h)
  have hc : (r.checkLinks hit st q scene).2.priority = st.priority ∨
      ∃ i ∈ st.priority, (r.checkLinks hit st q scene).1 = .ok true ∧
        (r.checkLinks hit st q scene).2.priority = i :: st.priority.erase i := by
    have hpr := fkAllLinks_priority r st q
    unfold Robot.checkLinks
    simp only
    split
    · exact Or.inl hpr
    · rename_i tfs _
      split
      · exact Or.inl hpr
      · rename_i i he
        rw [hpr] at he ⊢
        exact Or.inr ⟨i, hmem _ _ _ _ he, rfl, rfl⟩
      · exact Or.inl hpr
  unfold Robot.isInCollision
  split
  · exact hc
  · split
    · exact Or.inl rfl
    · exact hc

/-- Four links with unit boxes, all in the same place; the scene is far away.  Links 0 and 3 touch,
so self collision is reported, and also a query with that robot; without the self check it is not.
The history contains a query that raises. -/
example : ∃ r : Robot Shape, KnownTypes r.links ∧ r.links.length = 4 ∧
    SelfTouch boxOracle r [0, 0, 0, 0] ∧
    (r.isInCollision boxOracle (after boxOracle r.links [.isInCollision r [] ⟨[], []⟩])
      [0, 0, 0, 0] ⟨[], []⟩).1 = .ok true ∧
    (({ r with doCheckSelfCollision := false } : Robot Shape).isInCollision boxOracle
      (after boxOracle r.links [.isInCollision r [] ⟨[], []⟩]) [0, 0, 0, 0] ⟨[], []⟩).1 =
        .ok false := by
  let r : Robot Shape := Robot.new (List.replicate 4 ⟨⟨0, 0, 0, 0⟩, .r, ⟨[⟨1, 1, 1⟩], [1]⟩⟩)
  have hk : KnownTypes r.links := by
    intro l hl
    rw [List.eq_of_mem_replicate hl]
    exact Or.inl rfl
  have hself : SelfTouch boxOracle r [0, 0, 0, 0] := by
    refine Or.inl ⟨0, 3, _, _, Or.inl (le_refl _), rfl, rfl, 0, 0, _, _, _, _, rfl, rfl, rfl, rfl, ?_⟩
    rw [boxOracle_iff]
    have e : dhProduct 0 0 0 0 = 1 := by
      simp only [dhProduct, rotX_zero, rotZ_zero, mkTf_mul, ← mkTf_one]
      congr 1
      · simp
      · ext i; fin_cases i <;> simp
    refine ⟨0, by simp [boxPoints], 0, by simp [boxPoints], ?_⟩
    simp [frameOf, r, Robot.new, linkProduct, dhOf, e, List.replicate]
  have hno : ∀ r' : Robot Shape, ¬ SceneTouch boxOracle r' [0, 0, 0, 0] ⟨[], []⟩ := by
    intro r'
    rintro (⟨_, _, i, j, s, s', t, t', _, _, h, _⟩ | ⟨_, _, _, i, j, s, s', t, t', _, _, h, _⟩ |
      ⟨_, _, i, j, s, s', t, t', _, _, h, _⟩) <;> simp at h
  refine ⟨r, hk, rfl, hself, ?_, ?_⟩
  · obtain ⟨b, h1, h2⟩ := C33_answer boxOracle r hk rfl (Or.inl rfl)
      [.isInCollision r [] ⟨[], []⟩] (by simp [Call.robot]) [0, 0, 0, 0] (le_refl _) ⟨[], []⟩
    rw [h1, h2.2 (Or.inr ⟨rfl, hself⟩)]
  · obtain ⟨b, h1, h2⟩ := C33_answer boxOracle { r with doCheckSelfCollision := false } hk rfl
      (Or.inl rfl) [.isInCollision r [] ⟨[], []⟩] (by simp [Call.robot]) [0, 0, 0, 0] (le_refl _)
      ⟨[], []⟩
    have hb : b = false := by
      rw [← Bool.not_eq_true, h2]
      rintro (h | h)
      · exact hno _ h
      · exact absurd h.1 (by simp)
    rw [hb] at h1
    exact h1

/-- C30: cases of `C30_shared` and `C30_unknown_type`. -/
example (g : Collection S) : linkHistory (⟨⟨1, 2, 3, 4⟩, .r, g⟩ : Link S) [5, 6, 7] =
      dhOf ⟨⟨1, 2, 3, 4⟩, .r, g⟩ 7 ∧
    ((⟨⟨1, 2, 3, 4⟩, .other, g⟩ : Link S).relTf (linkHistory ⟨⟨1, 2, 3, 4⟩, .other, g⟩ [5, 6]) 7).1 =
      .error .unboundLocalError :=
  ⟨C30_shared _ (.inl rfl) [5, 6] 7, C30_unknown_type _ rfl [5, 6] 7⟩

/-- Four revolute links with unit boxes. -/
def fourLinks : Robot Shape := Robot.new (List.replicate 4 ⟨⟨0, 0, 0, 0⟩, .r, ⟨[⟨1, 1, 1⟩], [1]⟩⟩)

theorem fourLinks_known : KnownTypes fourLinks.links := by
  intro l hl
  rw [List.eq_of_mem_replicate hl]
  exact Or.inl rfl

/-- C34: with an empty matrix the same four links are not reported in self collision. -/
example : (({ fourLinks with collisionMatrix := fun _ _ => false } : Robot Shape).isInSelfCollision
    boxOracle (after boxOracle fourLinks.links []) [0, 0, 0, 0]).1 = .ok false := by
  obtain ⟨b, h1, h2⟩ := C34_any_matrix boxOracle
    { fourLinks with collisionMatrix := fun _ _ => false } fourLinks_known (.inl rfl) [] (by simp)
    [0, 0, 0, 0] (by simp [fourLinks, Robot.new])
  have hb : b = false := by
    rw [← Bool.not_eq_true, h2]
    rintro (⟨_, _, _, _, h, _⟩ | ⟨_, _, _, h, _⟩)
    · cases h
    · cases h
  rw [hb] at h1
  exact h1

/-- C31: cases of `C31_rigid`, `C31_move_base` and `C31_too_few`. -/
example : IsRigid (fourLinks.tfBase * linkProduct fourLinks.links [1, 2, 3, 4] *
      (fourLinks.tool.map Tool.tfTT).getD 1) ∧
    (fourLinks.fk (after boxOracle fourLinks.links [.fk fourLinks [1, 2, 3, 4]]) [1, 2, 3]).1 =
      .error .indexError :=
  ⟨C31_rigid fourLinks [1, 2, 3, 4] IsRigid.one (by simp [fourLinks, Robot.new]),
    C31_too_few boxOracle fourLinks fourLinks_known _ (by simp [Call.robot]) _ (by
      simp [fourLinks, Robot.new])⟩

example := C31_move_base boxOracle fourLinks (Util.poseZ Real.pi 1 2 3) [.fk fourLinks [1, 2, 3, 4]]
  (by simp [Call.robot]) fourLinks_known [1, 2, 3, 4] (by simp [fourLinks, Robot.new])

/-- C33, C34: cases of `C33_new`, `C33_history`, `C33_priority` and `C34_self_collision`. -/
example (scene : Collection Shape) :
    (∃ b, (fourLinks.isInCollision boxOracle
      (after boxOracle fourLinks.links [.isInCollision fourLinks [1, 2, 3, 4] scene]) [5, 6, 7, 8]
        scene).1 = .ok b) ∧
    (fourLinks.isInCollision boxOracle
      (after boxOracle fourLinks.links [.isInCollision fourLinks [1, 2, 3, 4] scene]) [5, 6, 7, 8]
        scene).1 = (fourLinks.isInCollision boxOracle (RState.new 4) [5, 6, 7, 8] scene).1 ∧
    (after boxOracle fourLinks.links
      [.isInCollision fourLinks [1, 2, 3, 4] scene]).priority.Perm [0, 1, 2, 3] ∧
    ∃ b, (fourLinks.isInSelfCollision boxOracle
      (after boxOracle fourLinks.links [.isInCollision fourLinks [1, 2, 3, 4] scene])
        [5, 6, 7, 8]).1 = .ok b ∧ (b = true ↔ SelfTouch boxOracle fourLinks [5, 6, 7, 8]) := by
  have hh : ∀ c ∈ [Call.isInCollision fourLinks [1, 2, 3, 4] scene],
      c.robot.links = fourLinks.links := by simp [Call.robot]
  obtain ⟨b, h, -⟩ := C33_new boxOracle fourLinks.links fourLinks_known _ hh [5, 6, 7, 8]
    (le_refl _) scene
  exact ⟨⟨b, h⟩, C33_history boxOracle fourLinks _ hh _ scene,
    C33_priority boxOracle fourLinks.links _ hh,
    C34_self_collision boxOracle fourLinks fourLinks_known rfl (.inl rfl) _ hh _ (le_refl _)⟩

end Verif.Props
