import Verif.Sym.Core
/-!
# Roads that are turned, shifted, mirrored and widened
-/

namespace Lumos.Sym

open Lumos DecVar DecVar.Layout NLP Bounds Ocp OCP Track LapSim Lts Io Io.Mdl Lumos.Trans Veh

/-- The tracks are alike: the same length, curvature and heading up to the sign `σ` and the angle `c`, the sides exchanged if `σ = -1`. -/
structure Alike (σ c : ℝ) (tr tr' : RaceTrack) : Prop where
  length : tr'.totalDistance = tr.totalDistance
  curvature : ∀ d κ, tr.curvatureAt d = .ok κ ↔ tr'.curvatureAt d = .ok (σ * κ)
  heading : ∀ d θ, tr.headingAt d = .ok θ ↔ tr'.headingAt d = .ok (σ * θ + c)
  left : ∀ d a, tr.leftDistanceAt d = .ok a ↔ (if σ = 1 then tr'.leftDistanceAt d else tr'.rightDistanceAt d) = .ok a
  right : ∀ d a, tr.rightDistanceAt d = .ok a ↔ (if σ = 1 then tr'.rightDistanceAt d else tr'.leftDistanceAt d) = .ok a

theorem iff_of_total {f g : ℝ → Py ℝ} {k : ℝ → ℝ} (hk : Function.Injective k) (ht : ∀ d, ∃ a, f d = .ok a)
    (h : ∀ d a, f d = .ok a → g d = .ok (k a)) (d a : ℝ) : f d = .ok a ↔ g d = .ok (k a) := by
  refine ⟨h d a, fun h' => ?_⟩
  obtain ⟨b, hb⟩ := ht d
  have := h d b hb
  rw [h', Except.ok.injEq] at this
  rw [hb, hk this]

theorem totals {rows : List Row} {tr : RaceTrack} (hf : fromTumCsv (.ok rows) = .ok tr) :
    (∀ d, ∃ a, tr.curvatureAt d = .ok a) ∧ (∀ d, ∃ a, tr.headingAt d = .ok a) ∧ (∀ d, ∃ a, tr.leftDistanceAt d = .ok a) ∧
      ∀ d, ∃ a, tr.rightDistanceAt d = .ok a := by
  obtain ⟨rows', hr, hl, hc⟩ := fromTumCsv_inv hf
  cases hr
  obtain ⟨h1, h2, h3⟩ := cartesian_inv hc
  obtain ⟨h4, rfl⟩ := mk_inv h3
  rw [length_arr] at h4
  simp only [List.length_map] at h4
  refine ⟨fun d => interp_total ?_ ?_ d, fun d => interp_total ?_ ?_ d, fun d => interp_total ?_ ?_ d, fun d => interp_total ?_ ?_ d⟩ <;>
    simp [length_arr] <;> omega

theorem Road.distinctOf {rows : List Row} (h : Road rows) : Distinct (rows.map Row.x) (rows.map Row.y) := by
  intro i h1 h2
  have := h.distinct i (by simpa using h1)
  simpa using this

theorem csv_ok {rows : List Row} {tr : RaceTrack} (h : RaceTrack.fromCartesian (rows.map Row.x) (rows.map Row.y) (some (rows.map Row.left))
    (some (rows.map Row.right)) = .ok tr) : fromTumCsv (.ok rows) = .ok tr := by
  unfold fromTumCsv
  simp only [bind, Except.bind]
  exact h

theorem Road.turned {rows : List Row} (h : Road rows) (φ a b : ℝ) : Road (rows.map (Row.turned φ a b)) where
  two := by simpa using h.two
  distinct := fun i hi => by
    have hi' : i + 1 < rows.length := by simpa using hi
    have hd := h.distinct i hi'
    simp only [List.getElem_map, Row.turned]
    by_contra hc
    push Not at hc
    obtain ⟨e1, e2⟩ := hc
    have hsc := Real.sin_sq_add_cos_sq φ
    set p := rows[i]'(by omega) with hp
    set q := rows[i + 1] with hq
    have f1 : Real.cos φ * (p.x - q.x) = Real.sin φ * (p.y - q.y) := by linarith
    have f2 : Real.sin φ * (p.x - q.x) = -(Real.cos φ * (p.y - q.y)) := by linarith
    have f3 : p.x - q.x = 0 := by
      have : (Real.sin φ ^ 2 + Real.cos φ ^ 2) * (p.x - q.x) = 0 := by
        linear_combination Real.cos φ * f1 + Real.sin φ * f2
      rwa [hsc, one_mul] at this
    have f4 : p.y - q.y = 0 := by
      have : (Real.sin φ ^ 2 + Real.cos φ ^ 2) * (p.y - q.y) = 0 := by
        linear_combination -Real.sin φ * f1 + Real.cos φ * f2
      rwa [hsc, one_mul] at this
    rcases hd with hd | hd
    · exact hd (by linarith)
    · exact hd (by linarith)
  left := fun r hr => by
    obtain ⟨q, hq, rfl⟩ := List.mem_map.mp hr
    exact h.left q hq
  right := fun r hr => by
    obtain ⟨q, hq, rfl⟩ := List.mem_map.mp hr
    exact h.right q hq

theorem Road.mirrored {rows : List Row} (h : Road rows) : Road (rows.map Row.mirrored) where
  two := by simpa using h.two
  distinct := fun i hi => by
    have hd := h.distinct i (by simpa using hi)
    simp only [List.getElem_map, Row.mirrored, ne_eq, neg_inj]
    exact hd
  left := fun r hr => by
    obtain ⟨q, hq, rfl⟩ := List.mem_map.mp hr
    exact h.right q hq
  right := fun r hr => by
    obtain ⟨q, hq, rfl⟩ := List.mem_map.mp hr
    exact h.left q hq

theorem Road.wider {rows rows' : List Row} (h : Road rows) (hw : List.Forall₂ Row.NotWider rows rows') : Road rows' := by
  have hl := hw.length_eq
  have e := fun (i : ℕ) (hi : i < rows.length) (hi' : i < rows'.length) => List.forall₂_iff_get.mp hw |>.2 i hi hi'
  simp only [List.get_eq_getElem] at e
  refine ⟨by rw [← hl]; exact h.two, fun i hi => ?_, fun r hr => ?_, fun r hr => ?_⟩
  · have hd := h.distinct i (by omega)
    rw [(e i (by omega) (by omega)).1, (e i (by omega) (by omega)).2.1, (e (i + 1) (by omega) hi).1, (e (i + 1) (by omega) hi).2.1]
    exact hd
  · obtain ⟨i, hi, rfl⟩ := List.getElem_of_mem hr
    exact (h.left _ (List.getElem_mem (by omega : i < rows.length))).trans (e i (by omega) hi).2.2.1
  · obtain ⟨i, hi, rfl⟩ := List.getElem_of_mem hr
    exact (h.right _ (List.getElem_mem (by omega : i < rows.length))).trans (e i (by omega) hi).2.2.2

theorem zip_maps (f : ℝ → ℝ → ℝ) (rows : List Row) : List.zipWith f (rows.map Row.x) (rows.map Row.y) = rows.map fun r => f r.x r.y := by
  induction rows with
  | nil => rfl
  | cons r rows ih => simp [ih]

/-- A road turned and shifted. -/
theorem turned_alike {rows : List Row} (h : Road rows) (φ a b : ℝ) : ∃ turns : ℤ, ∀ tr tr', fromTumCsv (.ok rows) = .ok tr →
    fromTumCsv (.ok (rows.map (Row.turned φ a b))) = .ok tr' → Alike 1 (φ + 2 * Real.pi * turns) tr tr' := by
  obtain ⟨tr, hf, -⟩ := road_loads h
  obtain ⟨_, hr, -, hc⟩ := fromTumCsv_inv hf
  cases hr
  obtain ⟨t', g1, g2, g3, ⟨turns, g4⟩, g5, g6⟩ := C65_similarity (ρ := 1) (σ := 1) (φ := φ) (b1 := a) (b2 := b) hc (Road.distinctOf h) one_pos (Or.inl rfl)
  have hf' : fromTumCsv (.ok (rows.map (Row.turned φ a b))) = .ok t' := by
    apply csv_ok
    rw [← g1]
    unfold mapX mapY
    rw [zip_maps, zip_maps]
    simp only [List.map_map]
    congr 2
    · funext r
      simp [Row.turned]
    · funext r
      simp [Row.turned]
  refine ⟨turns, fun tr1 tr2 h1 h2 => ?_⟩
  rw [hf, Except.ok.injEq] at h1
  rw [hf', Except.ok.injEq] at h2
  subst h1 h2
  simp only [one_mul, div_one] at g2 g3 g4 g5 g6
  obtain ⟨k1, k2, k3, k4⟩ := totals hf
  refine ⟨g2, ?_, ?_, ?_, ?_⟩
  · exact iff_of_total (k := fun κ => 1 * κ) (mul_right_injective₀ one_ne_zero) k1 (by simpa using g3)
  · refine iff_of_total (k := fun θ => 1 * θ + (φ + 2 * Real.pi * turns)) (fun x y => by simp) k2 fun d θ hd => ?_
    rw [g4 d θ hd]
    congr 1
    ring
  · intro d a; rw [if_pos rfl]; exact iff_of_total (k := fun x => x) Function.injective_id k3 g5 d a
  · intro d a; rw [if_pos rfl]; exact iff_of_total (k := fun x => x) Function.injective_id k4 g6 d a

theorem cartesian_swap {x y l r : List ℝ} {t : RaceTrack} (h : RaceTrack.fromCartesian x y (some l) (some r) = .ok t) :
    RaceTrack.fromCartesian x y (some r) (some l) = .ok { t with left_distance := t.right_distance, right_distance := t.left_distance } := by
  obtain ⟨h1, h2, h3⟩ := cartesian_inv h
  rw [cartesian_mk h1 h2]
  obtain ⟨h4, e⟩ := mk_inv h3
  subst e
  unfold RaceTrack.mk' at h3 ⊢
  dsimp only [Option.getD_some] at h3 ⊢
  split_ifs at h3 with g1 g2 g3
  rw [if_neg (not_not.mpr g2), if_neg (not_not.mpr g1), if_neg g3]

theorem mirrored_alike {rows : List Row} (h : Road rows) : ∃ turns : ℤ, ∀ tr tr', fromTumCsv (.ok rows) = .ok tr →
    fromTumCsv (.ok (rows.map Row.mirrored)) = .ok tr' → Alike (-1) (2 * Real.pi * turns) tr tr' := by
  obtain ⟨tr, hf, -⟩ := road_loads h
  obtain ⟨_, hr, -, hc⟩ := fromTumCsv_inv hf
  cases hr
  obtain ⟨t', g1, g2, g3, ⟨turns, g4⟩, g5, g6⟩ := C65_similarity (ρ := 1) (σ := -1) (φ := 0) (b1 := 0) (b2 := 0) hc (Road.distinctOf h) one_pos (Or.inr rfl)
  have hf' : fromTumCsv (.ok (rows.map Row.mirrored)) = .ok { t' with left_distance := t'.right_distance, right_distance := t'.left_distance } := by
    apply csv_ok
    rw [← cartesian_swap g1]
    unfold mapX mapY
    rw [zip_maps, zip_maps]
    simp only [List.map_map]
    congr 2
    · funext r
      simp [Row.mirrored]
    · funext r
      simp [Row.mirrored]
  refine ⟨turns, fun tr1 tr2 h1 h2 => ?_⟩
  rw [hf, Except.ok.injEq] at h1
  rw [hf', Except.ok.injEq] at h2
  subst h1 h2
  simp only [one_mul, div_one, add_zero] at g2 g3 g4 g5 g6
  obtain ⟨k1, k2, k3, k4⟩ := totals hf
  have hne : ¬ ((-1 : ℝ) = 1) := by norm_num
  refine ⟨g2, ?_, ?_, ?_, ?_⟩
  · exact iff_of_total (k := fun κ => -1 * κ) (mul_right_injective₀ (by norm_num)) k1 g3
  · exact iff_of_total (k := fun θ => -1 * θ + 2 * Real.pi * turns) (fun x y => by simp) k2 g4
  · intro d a; rw [if_neg hne]; exact iff_of_total (k := fun x => x) Function.injective_id k3 g5 d a
  · intro d a; rw [if_neg hne]; exact iff_of_total (k := fun x => x) Function.injective_id k4 g6 d a

/-- Interpolation is monotone in the data. -/
theorem interp_mono {xp fp fp' : List ℝ} (hx : Inc xp) (hl : xp.length = fp.length) (hl' : xp.length = fp'.length) (h0 : 0 < xp.length)
    (hle : ∀ i, i < xp.length → at_ fp i ≤ at_ fp' i) (d a a' : ℝ) (h : interp xp fp d = .ok a) (h' : interp xp fp' d = .ok a') : a ≤ a' := by
  rcases place h0 d with hp | ⟨j, hj, h1, h2⟩ | hp
  · rw [interp_left hx hl h0 hp, Except.ok.injEq] at h
    rw [interp_left hx hl' h0 hp, Except.ok.injEq] at h'
    rw [← h, ← h']
    exact hle 0 h0
  · rw [interp_seg hx hl hj h1 h2, Except.ok.injEq] at h
    rw [interp_seg hx hl' hj h1 h2, Except.ok.injEq] at h'
    rw [← h, ← h']
    have e1 := hle j (by omega)
    have e2 := hle (j + 1) hj
    have hpos : 0 < at_ xp (j + 1) - at_ xp j := sub_pos.mpr (hx.lt (Nat.lt_succ_self j) hj)
    set w := (d - at_ xp j) / (at_ xp (j + 1) - at_ xp j) with hw
    have w0 : 0 ≤ w := div_nonneg (by linarith) hpos.le
    have w1 : w ≤ 1 := by rw [hw, div_le_one hpos]; linarith
    have f (p q : ℝ) : (p - q) / (at_ xp (j + 1) - at_ xp j) * (d - at_ xp j) + q = (1 - w) * q + w * p := by
      rw [hw]; field_simp; ring
    rw [f, f]
    nlinarith
  · rw [interp_right hx hl h0 hp, Except.ok.injEq] at h
    rw [interp_right hx hl' h0 hp, Except.ok.injEq] at h'
    rw [← h, ← h']
    exact hle _ (by omega)

/-- A road with the same centre line that is not narrower. -/
theorem wider_track {rows rows' : List Row} (h : Road rows) (hw : List.Forall₂ Row.NotWider rows rows') {tr tr' : RaceTrack}
    (hf : fromTumCsv (.ok rows) = .ok tr) (hf' : fromTumCsv (.ok rows') = .ok tr') :
    tr'.totalDistance = tr.totalDistance ∧ tr'.curvatureAt = tr.curvatureAt ∧ tr'.headingAt = tr.headingAt ∧
      (∀ d a a', tr.leftDistanceAt d = .ok a → tr'.leftDistanceAt d = .ok a' → a ≤ a') ∧
      ∀ d a a', tr.rightDistanceAt d = .ok a → tr'.rightDistanceAt d = .ok a' → a ≤ a' := by
  obtain ⟨_, hr, -, hc⟩ := fromTumCsv_inv hf
  cases hr
  obtain ⟨_, hr, -, hc'⟩ := fromTumCsv_inv hf'
  cases hr
  have hl := hw.length_eq
  have e := fun (i : ℕ) (hi : i < rows.length) (hi' : i < rows'.length) => List.forall₂_iff_get.mp hw |>.2 i hi hi'
  simp only [List.get_eq_getElem] at e
  have ex : rows'.map Row.x = rows.map Row.x := by
    apply List.ext_getElem (by simp [hl])
    intro i h1 h2
    simp only [List.length_map] at h1 h2
    simp only [List.getElem_map]
    exact (e i h2 h1).1
  have ey : rows'.map Row.y = rows.map Row.y := by
    apply List.ext_getElem (by simp [hl])
    intro i h1 h2
    simp only [List.length_map] at h1 h2
    simp only [List.getElem_map]
    exact (e i h2 h1).2.1
  rw [ex, ey] at hc'
  obtain ⟨a1, a2, a3⟩ := cartesian_inv hc
  obtain ⟨b1, b2, b3⟩ := cartesian_inv hc'
  have inc := arcLength_inc a1 (Road.distinctOf h)
  obtain ⟨h4, rfl⟩ := mk_inv a3
  obtain ⟨h5, rfl⟩ := mk_inv b3
  have inc' : Inc ((arr (rows.map Row.x).length (arcLength (at_ (rows.map Row.x)) (at_ (rows.map Row.y)))).map
      fun v => v - at_ (arr (rows.map Row.x).length (arcLength (at_ (rows.map Row.x)) (at_ (rows.map Row.y)))) 0) := by
    unfold Inc at inc ⊢
    rw [List.pairwise_map]
    exact inc.imp fun h => by linarith
  rw [length_arr] at h4
  simp only [List.length_map] at h4
  refine ⟨rfl, rfl, rfl, fun d a a' k k' => ?_, fun d a a' k k' => ?_⟩
  · refine interp_mono inc' (by simp [length_arr]) (by simp [length_arr, hl]) (by simp [length_arr]; omega) (fun i hi => ?_) d a a' k k'
    simp only [List.length_map, length_arr] at hi
    dsimp only [Option.getD_some]
    rw [at_eq (by simpa using hi), at_eq (by simp; omega)]
    simp only [List.getElem_map]
    exact (e i hi (by omega)).2.2.1
  · refine interp_mono inc' (by simp [length_arr]) (by simp [length_arr, hl]) (by simp [length_arr]; omega) (fun i hi => ?_) d a a' k k'
    simp only [List.length_map, length_arr] at hi
    dsimp only [Option.getD_some]
    rw [at_eq (by simpa using hi), at_eq (by simp; omega)]
    simp only [List.getElem_map]
    exact (e i hi (by omega)).2.2.2

end Lumos.Sym
