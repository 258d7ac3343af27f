import Verif.Props.Layout
import Verif.Props.Urdf
import Verif.Model.Quat

/-! # C57, C108, C136: the buttons everywhere, the origins of joints, matrices refused as rotations -/

set_option linter.unusedSectionVars false

namespace Verif.Props

open Matrix Verif Verif.Geometry Verif.Gui Verif.Urdf Verif.Util

noncomputable section

/-- **C108**, edges included: a click anywhere between the sides of the rectangle of a widget calls the
callback of that widget. -/
theorem C108_everywhere : ∃ layout, createLayout = .ok layout ∧ ∀ w r, (w, r) ∈ layout → ∀ x y : ℝ,
    r.left ≤ x → x ≤ r.left + r.width → r.bottom ≤ y → y ≤ r.bottom + r.height →
    ∀ fs d ev, Fires layout fs d (x, y) ev ↔ onClicked fs d w = some ev := by
  obtain ⟨layout, hl, h1, -⟩ := C108_layout
  refine ⟨layout, hl, fun w r hw x y a b c d => ?_⟩
  obtain ⟨r', -, -, -, -, hu, h⟩ := h1 w
  obtain rfl := hu r hw
  exact (h (x, y) ⟨a, b, c, d⟩).2.2

/-- C108: the middle of the button "Plan". -/
example : ∃ layout r, createLayout = .ok layout ∧ (Widget.planBtn, r) ∈ layout ∧
    r.left ≤ 0.125 ∧ 0.125 ≤ r.left + r.width ∧ r.bottom ≤ 0.35 ∧ 0.35 ≤ r.bottom + r.height :=
  ⟨_, ⟨0.02, 0.32, 0.21, 0.06⟩, layout_eq, by simp, by norm_num, by norm_num, by norm_num, by norm_num⟩

/-- **C57**, the origin of a joint: roll, pitch and yaw turn about the fixed axes, the roll first.  The
x axis goes where yaw and pitch send it, the last row of the rotation has pitch and roll only. -/
theorem C57_origin (j : Joint) :
    (∀ i, rotPart j.origin i 0 = ![Real.cos (j.rpy 2) * Real.cos (j.rpy 1),
      Real.sin (j.rpy 2) * Real.cos (j.rpy 1), -Real.sin (j.rpy 1)] i) ∧
    (∀ i, rotPart j.origin 2 i = ![-Real.sin (j.rpy 1), Real.cos (j.rpy 1) * Real.sin (j.rpy 0),
      Real.cos (j.rpy 1) * Real.cos (j.rpy 0)] i) ∧
    posPart j.origin = j.xyz := by
  refine ⟨fun i => ?_, fun i => ?_, ?_⟩
  · fin_cases i <;> simp [Joint.origin, rotX, rotY, rotZ, Matrix.mul_apply, Fin.sum_univ_three]
  · fin_cases i <;> simp [Joint.origin, rotX, rotY, rotZ, Matrix.mul_apply, Fin.sum_univ_three]
  · simp [Joint.origin]

/-- **C136**, what is refused: a matrix whose determinant is further than 1.001e-5 from one, and a matrix
with a row whose length is too far from one. -/
theorem C136_not_rotation (R : M3) (h : 1 / 10 ^ 8 + 1 / 10 ^ 5 < |R.det - 1| ∨
    ∃ i, 1 / 10 ^ 8 + 1 / 10 ^ 5 < |R i 0 ^ 2 + R i 1 ^ 2 + R i 2 ^ 2 - 1|) :
    Quat.ofRotation R = .error .valueError := by
  unfold Quat.ofRotation
  refine if_neg fun hl => ?_
  obtain ⟨h1, h2⟩ := hl
  rcases h with h | ⟨i, h⟩
  · rw [abs_one, mul_one] at h2
    linarith
  · have := h1 i i
    rw [Matrix.one_apply_eq, abs_one, mul_one, Matrix.mul_apply, Fin.sum_univ_three] at this
    simp only [Matrix.transpose_apply, ← pow_two] at this
    linarith

/-- C136: a matrix with orthogonal rows of nearly the right length, refused for its determinant. -/
example : Quat.ofRotation !![1 + 5 / 10 ^ 6, 0, 0; 0, 1 + 5 / 10 ^ 6, 0; 0, 0, 1 + 5 / 10 ^ 6] =
    .error .valueError := by
  refine C136_not_rotation _ (Or.inl ?_)
  rw [Matrix.det_fin_three]
  refine lt_of_lt_of_le ?_ (le_abs_self _)
  simp
  norm_num

end

end Verif.Props
