import Verif.Track.Heading

/-!
# A track of constant curvature (C64)
-/

namespace Lumos.Track

/-- On a track of constant curvature the curvature and the half width are everywhere the given ones, the heading at the start
is the given one, and between two places the heading turns by the curvature times their distance. It has no distances to the
left and right boundary. -/
theorem C64_constant_values (k θ w s s' : ℝ) :
    let t : ConstCurvTrack := ⟨k, θ, w⟩
    t.curvatureAt s = k ∧ t.halfWidthAt s = w ∧ t.headingAt 0 = θ ∧ t.headingAt s' - t.headingAt s = k * (s' - s) ∧
      t.leftDistanceAt s = none ∧ t.rightDistanceAt s = none := by
  refine ⟨rfl, rfl, ?_, ?_, rfl, rfl⟩
  · simp [ConstCurvTrack.headingAt]
  · simp only [ConstCurvTrack.headingAt]; ring

/-- After one turn of a circle of radius 100 m to the left the heading has grown by a full turn. -/
example : (⟨1 / 100, 0, 2⟩ : ConstCurvTrack).headingAt (200 * Real.pi) = 2 * Real.pi := by
  have := (C64_constant_values (1 / 100) 0 2 0 (200 * Real.pi)).2.2.2.1
  have h0 := (C64_constant_values (1 / 100) 0 2 0 (200 * Real.pi)).2.2.1
  rw [h0] at this
  linarith

end Lumos.Track
