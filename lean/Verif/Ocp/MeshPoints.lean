import Verif.Ocp.Mesh
/-!
# Where the stages lie on the mesh (C23)
-/

namespace Lumos.Ocp

open Lumos

theorem block_get {β : Type} (f : Nat → List β) (m : Nat) (hm : ∀ i, (f i).length = m) (n i j : Nat) (hi : i < n) (hj : j < m) :
    ((List.range n).flatMap f)[i * m + j]? = (f i)[j]? := by
  induction n with
  | zero => omega
  | succ n ih =>
    have hl : ((List.range n).flatMap f).length = n * m := by simp [List.length_flatMap, hm]
    rw [List.range_succ, List.flatMap_append]
    rcases Nat.lt_or_ge i n with h | h
    · rw [List.getElem?_append_left, ih h]
      rw [hl]
      calc i * m + j < (i + 1) * m := by rw [Nat.add_mul]; omega
        _ ≤ n * m := Nat.mul_le_mul_right m h
    · have : i = n := by omega
      subst this
      rw [List.getElem?_append_right (by rw [hl]; omega), hl, Nat.add_sub_cancel_left]
      simp

/-- **C23 (stages).** Stage `j` of interval `i` lies at the scheme's relative point `j` between the interval's two end points; the last stage
of an interval and the first of the next are one point. -/
theorem C23_stages {interp : Option (List ℝ)} (hr : GoodRel (relPoints interp)) {n : Nat} (hn : 1 ≤ n)
    {pts : Option (List ℝ)} {mesh : List (List ℝ)} (h : setMesh interp n pts = .ok mesh) :
    ∃ flat, flatMesh mesh = .ok flat ∧ ∀ i j, i < n → j < (relPoints interp).length →
      flat[i * ((relPoints interp).length - 1) + j]? = some ((pointsOf n pts).getD i 0
        + (relPoints interp).getD j 0 * ((pointsOf n pts).getD (i + 1) 0 - (pointsOf n pts).getD i 0)) := by
  obtain ⟨hmesh, hlen, hinc⟩ := setMesh_points hn h
  have hmesh' : mesh = (List.range n).map fun (i : Nat) =>
        (relPoints interp).map fun t => (pointsOf n pts).getD i 0 + t * ((pointsOf n pts).getD (i + 1) 0 - (pointsOf n pts).getD i 0) := by
    rw [hmesh]
    exact List.map_congr_left fun i _ => intervalMesh_eq interp _ i
  have hflat := flat_eq hr hn (pointsOf n pts)
  rw [← hmesh'] at hflat
  refine ⟨_, hflat, ?_⟩
  generalize pointsOf n pts = p
  have h2 := hr.two
  have hlast := hr.last
  have hfirst := hr.first
  generalize relPoints interp = taus at *
  set f : Nat → List ℝ := fun i => taus.tail.map fun t => p.getD i 0 + t * (p.getD (i + 1) 0 - p.getD i 0) with hf
  have hm : ∀ i, (f i).length = taus.length - 1 := by intro i; simp [hf]
  have key : ∀ i j, i < n → j < taus.length - 1 → (p.getD 0 0 :: (List.range n).flatMap f)[i * (taus.length - 1) + (j + 1)]?
      = some (p.getD i 0 + taus.getD (j + 1) 0 * (p.getD (i + 1) 0 - p.getD i 0)) := by
    intro i j hi hj
    rw [← Nat.add_assoc, List.getElem?_cons_succ, block_get f _ hm n i j hi hj]
    have : j + 1 < taus.length := by omega
    simp [hf, this]
  intro i j hi hj
  rcases j with _ | j
  · have h0 : taus.getD 0 0 = 0 := by simp [hfirst]
    rw [h0, zero_mul, add_zero, add_zero]
    rcases i with _ | i
    · simp
    · have e : (i + 1) * (taus.length - 1) = i * (taus.length - 1) + (taus.length - 2 + 1) := by rw [Nat.add_mul]; omega
      rw [e, key i _ (by omega) (by omega)]
      have h1 : taus.getD (taus.length - 2 + 1) 0 = 1 := by
        rw [show taus.length - 2 + 1 = taus.length - 1 by omega]; simp [hlast]
      rw [h1]
      congr 1
      ring
  · exact key i j hi (by omega)

/-- On the default mesh of two intervals with three stages each at 0, 1/2, 1. -/
example : ∃ mesh flat, setMesh (some [0, 1 / 2, 1]) 2 none = .ok mesh ∧ flatMesh mesh = .ok flat ∧ flat[3]? = some (3 / 4) := by
  obtain ⟨flat, h1, h2⟩ := C23_stages (interp := some [0, 1 / 2, 1]) ⟨by simp [relPoints], by simp [relPoints], by simp [relPoints], by
    simp [relPoints]; norm_num⟩ (n := 2) (by norm_num) (pts := none) rfl
  refine ⟨_, flat, rfl, h1, ?_⟩
  have := h2 1 1 (by norm_num) (by simp [relPoints])
  simp [relPoints, pointsOf, linspace01, List.range_succ] at this
  rw [this]
  norm_num

end Lumos.Ocp
