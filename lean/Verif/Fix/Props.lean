import Verif.Fix.Straight
import Verif.Lts.Auto
/-!
# C106: times, speeds, heights and existence of the slides over the distance
-/

namespace Lumos.Fix

open Lumos DecVar DecVar.Layout Bounds Ocp Lumos.Trans NLP Sim Io

/-- The points of the mesh: their lengths add up. -/
theorem sum_len (p : List ℝ) (dx : ℝ) (i : Nat) : ∑ j ∈ Finset.range i, (p.getD (j + 1) 0 - p.getD j 0) * dx = (p.getD i 0 - p.getD 0 0) * dx := by
  rw [← Finset.sum_mul, Finset.sum_range_sub (fun j => p.getD j 0)]

section
variable {g : ℝ} {u : UnitProblem} {A : List ℝ → ℝ → Prop} {name : String} {kwargs : List (String × Int)} {n : Nat} {pts : Option (List ℝ)} {dx dy : ℝ}
  {S : Setup} {b : Built} {x : List ℝ}

/-- What a feasible point is. -/
theorem dist_slide (hu : Fits (distanceModel g) u) (hj : OCP.UnitJac u A) (hh : OCP.UnitHess u Upper A) (hn : 1 ≤ n)
    (h : distSetup g u name kwargs n pts dx dy = .ok S) (hb : S.build = .ok b) (hx : x.length = S.c.o.L.numDec)
    (hf : b.Feasible (vdiv x b.prob.scales)) (hw : Within b.bounds.lb b.bounds.ub x) :
    ∃ t, makeTranscription name kwargs = .ok t ∧ S.c.o.L.numStages = n * (t.stages - 1) + 1 ∧ 0 < dx ∧
      (∀ i, i < n → 0 < ((pointsOf n pts).getD (i + 1) 0 - (pointsOf n pts).getD i 0) * dx) ∧
      Descent g dy t n (fun i => ((pointsOf n pts).getD (i + 1) 0 - (pointsOf n pts).getD i 0) * dx) (fun grp m s => readAt S.c.o.L x grp m s) ∧
      b.prob.objective (vdiv x b.prob.scales) = .ok (readAt S.c.o.L x "states" "time" (n * (t.stages - 1))) := by
  obtain ⟨t, b', ht, hb', hN, hd, k⟩ := C106_problem hu hj hh hn h
  obtain rfl : b' = b := by rw [hb] at hb'; exact (Except.ok.inj hb').symm
  obtain ⟨t', ht', hm, -⟩ := dist_made hn h
  refine ⟨t, ht, hN, hd, fun i hi => mul_pos ?_ hd, ((k x hx).1).mp ⟨hf, hw⟩, (k x hx).2 hw⟩
  rw [← hm.len i hi]
  have hi' : i < S.c.o.normLen.length := by rw [hm.lens]; exact hi
  rw [List.getD_eq_getElem?_getD, List.getElem?_eq_getElem hi']
  exact hm.pos _ (List.getElem_mem hi')

/-- **C106** (time, speed and reach). For every transcription and mesh, the objective at a feasible point is the time at the last stage. It is at least the
distance over 100 m/s and at most the distance over the least forward speed that the bounds allow. At the end of every interval the speed has changed by no
more than gravity times the time, and the bead is no steeper than the steepest allowed slope from its start; so a target steeper than that has no slide. -/
theorem C106_time (hu : Fits (distanceModel g) u) (hj : OCP.UnitJac u A) (hh : OCP.UnitHess u Upper A) (hn : 1 ≤ n) (hg : 0 ≤ g)
    (h : distSetup g u name kwargs n pts dx dy = .ok S) (hb : S.build = .ok b) (hx : x.length = S.c.o.L.numDec)
    (hf : b.Feasible (vdiv x b.prob.scales)) (hw : Within b.bounds.lb b.bounds.ub x) :
    ∃ k X T, 1 ≤ k ∧ S.c.o.L.numStages = n * k + 1 ∧ X = ((pointsOf n pts).getD n 0 - (pointsOf n pts).getD 0 0) * dx ∧ 0 < X ∧
      b.prob.objective (vdiv x b.prob.scales) = .ok T ∧ T = readAt S.c.o.L x "states" "time" (n * k) ∧
      X / (100 + 1e-9) ≤ T ∧ T ≤ X / (1e-3 * Real.cos (Real.pi / 2.01) + 1e-9) ∧ |dy| ≤ Real.tan (Real.pi / 2.01) * X ∧
      ∀ i, i ≤ n →
        |readAt S.c.o.L x "states" "v" (i * k) - 1e-3| ≤ g * readAt S.c.o.L x "states" "time" (i * k) ∧
        |readAt S.c.o.L x "states" "y" (i * k)| ≤ Real.tan (Real.pi / 2.01) * (((pointsOf n pts).getD i 0 - (pointsOf n pts).getD 0 0) * dx) := by
  obtain ⟨t, ht, hN, hd, hl, f, ho⟩ := dist_slide hu hj hh hn h hb hx hf hw
  have up := f.upto ht hg (fun i hi => (hl i hi).le)
  simp only [sum_len] at up
  have hX : 0 < ((pointsOf n pts).getD n 0 - (pointsOf n pts).getD 0 0) * dx := by
    rw [← sum_len]
    exact Finset.sum_pos (fun i hi => hl i (Finset.mem_range.mp hi)) ⟨0, Finset.mem_range.mpr (by omega)⟩
  have hk : 2 ≤ t.stages := (C38_shapes ht).1
  refine ⟨t.stages - 1, _, _, by omega, hN, rfl, hX, ho, rfl, (up n le_rfl).1.1, (up n le_rfl).1.2, ?_, fun i hi => (up i hi).2⟩
  have := (up n le_rfl).2.2
  rwa [f.finish] at this

/-- **C106** (too steep). A target steeper than the bounds allow has no feasible point. -/
theorem C106_too_steep (hu : Fits (distanceModel g) u) (hj : OCP.UnitJac u A) (hh : OCP.UnitHess u Upper A) (hn : 1 ≤ n) (hg : 0 ≤ g)
    (h : distSetup g u name kwargs n pts dx dy = .ok S) (hb : S.build = .ok b)
    (hy : Real.tan (Real.pi / 2.01) * (((pointsOf n pts).getD n 0 - (pointsOf n pts).getD 0 0) * dx) < |dy|) (hx : x.length = S.c.o.L.numDec) :
    ¬ (b.Feasible (vdiv x b.prob.scales) ∧ Within b.bounds.lb b.bounds.ub x) := by
  rintro ⟨hf, hw⟩
  obtain ⟨k, X, T, -, -, rfl, -, -, -, -, -, h1, -⟩ := C106_time hu hj hh hn hg h hb hx hf hw
  linarith

/-- **C106** (energy). With any LGR method and any mesh, the energy at the ends of the intervals never exceeds that at the start by more than
`g · 10⁻⁹ · tan(π/2.01)` per unit of time (and not at all on a slide that never rises), so the bead cannot climb: a target above the start by more than
`10⁻⁹ · tan(π/2.01)` per unit of time has no slide. -/
theorem C106_energy (hu : Fits (distanceModel g) u) (hj : OCP.UnitJac u A) (hh : OCP.UnitHess u Upper A) (hn : 1 ≤ n) (hg : 0 < g)
    (h : distSetup g u "LGR" kwargs n pts dx dy = .ok S) (hb : S.build = .ok b) (hx : x.length = S.c.o.L.numDec)
    (hf : b.Feasible (vdiv x b.prob.scales)) (hw : Within b.bounds.lb b.bounds.ub x) :
    ∃ k T, 1 ≤ k ∧ S.c.o.L.numStages = n * k + 1 ∧ b.prob.objective (vdiv x b.prob.scales) = .ok T ∧
      (∀ i, i ≤ n → readAt S.c.o.L x "states" "v" (i * k) ^ 2 / 2 + g * readAt S.c.o.L x "states" "y" (i * k)
        ≤ (1e-3) ^ 2 / 2 + g * 1e-9 * Real.tan (Real.pi / 2.01) * readAt S.c.o.L x "states" "time" (i * k)) ∧
      ((∀ s, s < S.c.o.L.numStages → readAt S.c.o.L x "inputs" "theta" s ≤ 0) → ∀ i, i ≤ n →
        readAt S.c.o.L x "states" "v" (i * k) ^ 2 / 2 + g * readAt S.c.o.L x "states" "y" (i * k) ≤ (1e-3) ^ 2 / 2) ∧
      dy ≤ 1e-9 * Real.tan (Real.pi / 2.01) * T := by
  obtain ⟨t, ht, hN, hd, hl, f, ho⟩ := dist_slide hu hj hh hn h hb hx hf hw
  have hk : 2 ≤ t.stages := (C38_shapes ht).1
  have en := f.energy ht hg.le (fun i hi => (hl i hi).le) (τ := Real.tan (Real.pi / 2.01)) fun s hs => (le_abs_self _).trans (tan_le (f.angle s hs))
  refine ⟨t.stages - 1, _, by omega, hN, ho, en, fun hθ i hi => ?_, ?_⟩
  · have := f.energy ht hg.le (fun i hi => (hl i hi).le) (τ := 0) (fun s hs => by
      have h1 := hθ s (by omega)
      have h2 := (abs_le.mp (f.angle s hs)).1
      exact Real.tan_nonpos_of_nonpos_of_neg_pi_div_two_le h1 (by linarith [steep_lt])) i hi
    simpa using this
  · have h1 := en n le_rfl
    rw [f.finish] at h1
    have h2 := (f.speed (n * (t.stages - 1)) le_rfl).1
    have h3 : (1e-3 : ℝ) ^ 2 ≤ readAt S.c.o.L x "states" "v" (n * (t.stages - 1)) ^ 2 := by
      exact pow_le_pow_left₀ (by norm_num) h2 2
    have h4 : g * dy ≤ g * (1e-9 * Real.tan (Real.pi / 2.01) * readAt S.c.o.L x "states" "time" (n * (t.stages - 1))) := by
      linarith
    exact le_of_mul_le_mul_left h4 hg

/-- The default LGR method. -/
theorem lgr_default {t : Transcription} (ht : makeTranscription "LGR" [] = .ok t) : ∃ c, mkColloc 3 = .ok c ∧ t = .lgr c := by
  have h : mkLGR 3 = .ok t := by simpa [makeTranscription, callNumStages] using ht
  unfold mkLGR at h
  cases hc : mkColloc 3 with
  | error e => rw [hc] at h; exact absurd h (by simp [bind, Except.bind])
  | ok c => rw [hc] at h; exact ⟨c, rfl, (Except.ok.inj h).symm⟩

/-- Slides with the same values. -/
theorem Descent.congr {t : Transcription} (ht : 2 ≤ t.stages) {len : Nat → ℝ} {v w : String → String → Nat → ℝ}
    (st : ∀ s m, s ≤ n * (t.stages - 1) → m ∈ ["time", "v", "y"] → w "states" m s = v "states" m s)
    (dt : ∀ s m, s ≤ n * (t.stages - 1) → m ∈ ["time", "v", "y"] → w "states_dot" m s = v "states_dot" m s)
    (ip : ∀ s, s ≤ n * (t.stages - 1) → w "inputs" "theta" s = v "inputs" "theta" s)
    (h : Descent g dy t n len v) : Descent g dy t n len w := by
  have inside : ∀ i j, i < n → j < t.stages → i * (t.stages - 1) + j ≤ n * (t.stages - 1) := by
    intro i j hi hj
    calc i * (t.stages - 1) + j ≤ i * (t.stages - 1) + (t.stages - 1) := by omega
      _ = (i + 1) * (t.stages - 1) := by ring
      _ ≤ n * (t.stages - 1) := Nat.mul_le_mul_right _ hi
  refine ⟨?_, ?_, ?_, ?_, ?_, ?_, ?_, ?_, ?_⟩
  · intro s hs; rw [dt s _ hs (by simp), ip s hs, st s _ hs (by simp)]; exact h.clock s hs
  · intro s hs; rw [dt s _ hs (by simp), ip s hs, st s _ hs (by simp)]; exact h.accel s hs
  · intro s hs; rw [dt s _ hs (by simp), ip s hs]; exact h.slope s hs
  · intro i hi m hm
    exact Steps.congr (fun j hj => (st _ _ (inside i j hi hj) hm).symm) (fun j hj => (dt _ _ (inside i j hi hj) hm).symm) (h.steps i hi m hm)
  · intro s hs; rw [st s _ hs (by simp)]; exact h.speed s hs
  · intro s hs; rw [st s _ hs.le (by simp)]; exact h.height s hs
  · intro s hs; rw [ip s hs]; exact h.angle s hs
  · rw [st 0 _ (Nat.zero_le _) (by simp), st 0 _ (Nat.zero_le _) (by simp), st 0 _ (Nat.zero_le _) (by simp)]; exact h.start
  · rw [st _ _ le_rfl (by simp)]; exact h.finish

/-- **C106** (the straight slide). On every mesh the default method has a feasible point for every target that is below the start by at most 5, not too steep
and not so deep that the bead exceeds 100 m/s: the straight line, whose time is at most that of the exact slide down the line. So the least time is no more. -/
theorem C106_straight (hu : Fits (distanceModel g) u) (hj : OCP.UnitJac u A) (hh : OCP.UnitHess u Upper A) (hn : 1 ≤ n) (hg : 0 < g)
    (h : distSetup g u "LGR" [] n pts dx dy = .ok S) (hb : S.build = .ok b) {X : ℝ}
    (hX : X = ((pointsOf n pts).getD n 0 - (pointsOf n pts).getD 0 0) * dx) (hy : dy < 0) (h5 : -5 ≤ dy)
    (hfast : (1e-3) ^ 2 + 2 * g * |dy| ≤ 100 ^ 2) (hsteep : |dy| ≤ Real.tan (Real.pi / 2.01) * X) :
    ∃ x T, x.length = S.c.o.L.numDec ∧ b.Feasible (vdiv x b.prob.scales) ∧ Within b.bounds.lb b.bounds.ub x ∧
      b.prob.objective (vdiv x b.prob.scales) = .ok T ∧
      T ≤ (√((1e-3) ^ 2 + 2 * g * |dy|) - 1e-3) * √(X ^ 2 + dy ^ 2) / (g * |dy|) ∧
      ∀ s, s < S.c.o.L.numStages → readAt S.c.o.L x "inputs" "theta" s = Real.arctan (dy / X) := by
  obtain ⟨t, b', ht, hb', hN, hd, k⟩ := C106_problem hu hj hh hn h
  obtain rfl : b' = b := by rw [hb] at hb'; exact (Except.ok.inj hb').symm
  obtain ⟨t', ht', hm, -⟩ := dist_made hn h
  obtain rfl : t' = t := by rw [ht] at ht'; exact (Except.ok.inj ht').symm
  obtain ⟨c, hc, rfl⟩ := lgr_default ht
  have hst : (Transcription.lgr c).stages - 1 = 2 := by
    show c.numStages - 1 = 2
    rw [(points_three hc).1]
  have h2 : 2 ≤ (Transcription.lgr c).stages := (C38_shapes ht).1
  have hl : ∀ i, i < n → 0 < ((pointsOf n pts).getD (i + 1) 0 - (pointsOf n pts).getD i 0) * dx := by
    intro i hi
    refine mul_pos ?_ hd
    rw [← hm.len i hi]
    have hi' : i < S.c.o.normLen.length := by rw [hm.lens]; exact hi
    rw [List.getD_eq_getElem?_getD, List.getElem?_eq_getElem hi']
    exact hm.pos _ (List.getElem_mem hi')
  rw [← sum_len] at hX
  subst hX
  obtain ⟨v, hv, hθ, hT⟩ := straight_exists hc hg hn hl hy h5 hfast hsteep
  have hL : S.c.o.L.Made := by rw [hm.layout]; exact Lts.layoutOf_made (distanceModel_good g) n (by omega)
  obtain ⟨x, hx, val⟩ := Lts.exists_point hL v
  have isV : ∀ s grp m, s < S.c.o.L.numStages → ((grp = "states" ∧ m ∈ (distanceModel g).states) ∨ (grp = "inputs" ∧ m ∈ (distanceModel g).inputs) ∨
      (grp = "states_dot" ∧ m ∈ (distanceModel g).states) ∨ (grp = "con_outputs" ∧ m ∈ (distanceModel g).conOutputs)) →
      readAt S.c.o.L x grp m s = v grp m s := by
    intro s grp m hs hmem
    refine val s grp m ?_
    rw [hm.layout, isVar_iff, ← hm.layout]
    exact ⟨hs, hmem⟩
  have st : ∀ s m, s ≤ n * ((Transcription.lgr c).stages - 1) → m ∈ ["time", "v", "y"] → readAt S.c.o.L x "states" m s = v "states" m s :=
    fun s m hs hmem => isV s _ m (by omega) (Or.inl ⟨rfl, hmem⟩)
  have f : Descent g dy (.lgr c) n (fun i => ((pointsOf n pts).getD (i + 1) 0 - (pointsOf n pts).getD i 0) * dx)
      (fun grp m s => readAt S.c.o.L x grp m s) :=
    hv.congr h2 st (fun s m hs hmem => isV s _ m (by omega) (Or.inr (Or.inr (Or.inl ⟨rfl, hmem⟩))))
      (fun s hs => isV s _ _ (by omega) (Or.inr (Or.inl ⟨rfl, by simp [distanceModel]⟩)))
  obtain ⟨hf, hw⟩ := ((k x hx).1).mpr f
  refine ⟨x, _, hx, hf, hw, (k x hx).2 hw, ?_, fun s hs => ?_⟩
  · rw [st _ _ le_rfl (by simp), hst]
    exact hT
  · rw [isV s _ _ hs (Or.inr (Or.inl ⟨rfl, by simp [distanceModel]⟩))]
    exact hθ s (by rw [hst] at hN; omega)

/-- **C106** (the last height). The condition on the last height replaces its bounds: a target below -5 is not refused, only the heights before it are held
above -5. -/
theorem C106_last_height (hu : Fits (distanceModel g) u) (hj : OCP.UnitJac u A) (hh : OCP.UnitHess u Upper A) (hn : 1 ≤ n)
    (h : distSetup g u name kwargs n pts dx dy = .ok S) (hb : S.build = .ok b) (hx : x.length = S.c.o.L.numDec)
    (hf : b.Feasible (vdiv x b.prob.scales)) (hw : Within b.bounds.lb b.bounds.ub x) :
    readAt S.c.o.L x "states" "y" (S.c.o.L.numStages - 1) = dy ∧
    ∀ s, s + 1 < S.c.o.L.numStages → -5 ≤ readAt S.c.o.L x "states" "y" s ∧ readAt S.c.o.L x "states" "y" s ≤ 0 := by
  obtain ⟨t, ht, hN, hd, hl, f, ho⟩ := dist_slide hu hj hh hn h hb hx hf hw
  exact ⟨by rw [hN]; exact f.finish, fun s hs => f.height s (by omega)⟩

/-- Not vacuous: the example's own problem (dx = 5, dy = -5, 49 intervals) has a feasible point, for the derivatives of the model as the backend. -/
example : ∃ S b x T, solveDistance (distanceModel 9.81).autoUnit 5 (-5) = .ok S ∧ S.build = .ok b ∧ x.length = S.c.o.L.numDec ∧
    b.Feasible (vdiv x b.prob.scales) ∧ Within b.bounds.lb b.bounds.ub x ∧ b.prob.objective (vdiv x b.prob.scales) = .ok T ∧ 0.04 ≤ T ∧ T ≤ 1.5 := by
  obtain ⟨⟨t, ht, -⟩, _⟩ := C38_lgr "LGR" (by simp)
  have hG := distanceModel_good 9.81
  obtain ⟨S, hS⟩ := dist_exists (n := 49) (pts := none) ht (by omega) (mesh := _) rfl (by norm_num : (0 : ℝ) < 5) 9.81 (-5) (distanceModel 9.81).autoUnit
  have hu : Fits (distanceModel 9.81) (distanceModel 9.81).autoUnit := fits_unitOf _ _ _
  have hj := ExplicitModel.autoUnit_jac hG
  have hh := ExplicitModel.autoUnit_hess hG
  obtain ⟨_, b, _, hb, -⟩ := C106_problem hu hj hh (by omega) hS
  have hX : (5 : ℝ) = ((pointsOf 49 none).getD 49 0 - (pointsOf 49 none).getD 0 0) * 5 := by
    simp only [pointsOf, Option.getD_none]
    rw [getD_linspace01 _ _ le_rfl, getD_linspace01 _ _ (by omega)]
    norm_num
  have hsteep : |(-5 : ℝ)| ≤ Real.tan (Real.pi / 2.01) * 5 := by
    have h1 : Real.tan (Real.pi / 4) ≤ Real.tan (Real.pi / 2.01) :=
      (Real.strictMonoOn_tan.monotoneOn ⟨by linarith [Real.pi_pos], by linarith [Real.pi_pos]⟩
        ⟨by linarith [steep_pos, Real.pi_pos], steep_lt⟩ (by have := Real.pi_pos; rw [div_le_div_iff_of_pos_left this (by norm_num) (by norm_num)]; norm_num))
    rw [Real.tan_pi_div_four] at h1
    rw [abs_of_neg (by norm_num)]
    linarith
  obtain ⟨x, T, hx, hf, hw, ho, hT, -⟩ := C106_straight hu hj hh (by omega) (by norm_num) hS hb hX (by norm_num) le_rfl
    (by rw [abs_of_neg (by norm_num)]; norm_num) hsteep
  refine ⟨S, b, x, T, hS, hb, hx, hf, hw, ho, ?_, hT.trans ?_⟩
  · obtain ⟨k, X, T', -, -, e, -, ho', -, h1, -⟩ := C106_time hu hj hh (by omega) (by norm_num) hS hb hx hf hw
    rw [← hX] at e
    rw [ho] at ho'
    rw [Except.ok.inj ho']
    refine le_trans ?_ h1
    rw [e]
    norm_num
  · rw [abs_of_neg (by norm_num), div_le_iff₀ (by norm_num)]
    have h1 : √((1e-3) ^ 2 + 2 * 9.81 * -(-5 : ℝ)) ≤ 10 := Real.sqrt_le_iff.mpr ⟨by norm_num, by norm_num⟩
    have h2 : √((5 : ℝ) ^ 2 + (-5) ^ 2) ≤ 7.1 := Real.sqrt_le_iff.mpr ⟨by norm_num, by norm_num⟩
    have h3 := Real.sqrt_nonneg ((5 : ℝ) ^ 2 + (-5) ^ 2)
    have h4 := mul_le_mul_of_nonneg_right (show √((1e-3) ^ 2 + 2 * 9.81 * -(-5 : ℝ)) - 1e-3 ≤ 10 by linarith) h3
    linarith

end

end Lumos.Fix
