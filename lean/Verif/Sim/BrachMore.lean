import Verif.Sim.BrachProps
/-!
# C78: bounds on the duration, energy, a bead that climbs, the driver
-/

namespace Lumos.Sim

open Lumos DecVar DecVar.Layout Bounds Ocp Lumos.Trans NLP Io

/-! ## The models and energy -/

/-- **C78** (energy of the models). The time model moves the bead along the path at its speed and conserves `v²/2 + g y`; the distance
model does not: with its regularisation the energy per unit of `x` changes at the rate `g tan θ · 1e-9 / (v cos θ + 1e-9)`, a loss whenever
the bead goes down (and forward). -/
theorem C78_model_energy (g v p q θ : ℝ) :
    (∃ r a b c, (Mdl.node (timeCls g) []).eval ⟨some [("v", v), ("x", p), ("y", q)], some [("theta", θ)], none⟩ = .ok r ∧
      r.statesDot.lookup "v" = some a ∧ r.statesDot.lookup "x" = some b ∧ r.statesDot.lookup "y" = some c ∧
      v * a + g * c = 0 ∧ b ^ 2 + c ^ 2 = v ^ 2) ∧
    (∃ r a c, (Mdl.node (distanceCls g) []).eval ⟨some [("time", p), ("v", v), ("y", q)], some [("theta", θ)], none⟩ = .ok r ∧
      r.statesDot.lookup "v" = some a ∧ r.statesDot.lookup "y" = some c ∧
      (Real.cos θ ≠ 0 → v * Real.cos θ + 1e-9 ≠ 0 → v * a + g * c = g * Real.tan θ * 1e-9 / (v * Real.cos θ + 1e-9)) ∧
      (0 < g → 0 < v → -(Real.pi / 2) < θ → θ < 0 → v * a + g * c < 0)) := by
  have dist : Real.cos θ ≠ 0 → v * Real.cos θ + 1e-9 ≠ 0 →
      v * (-g * Real.sin θ / (v * Real.cos θ + 1e-9)) + g * Real.tan θ = g * Real.tan θ * 1e-9 / (v * Real.cos θ + 1e-9) := by
    intro hc hd
    rw [Real.tan_eq_sin_div_cos]
    field_simp
    ring
  refine ⟨⟨_, _, _, _, rfl, rfl, rfl, rfl, by ring, ?_⟩, ⟨_, _, _, rfl, rfl, rfl, dist, ?_⟩⟩
  · have := Real.sin_sq_add_cos_sq θ
    linear_combination v ^ 2 * this
  · intro hg hv h1 h2
    have hc : 0 < Real.cos θ := Real.cos_pos_of_mem_Ioo ⟨h1, by linarith [Real.pi_pos]⟩
    have hd : 0 < v * Real.cos θ + 1e-9 := by positivity
    rw [dist hc.ne' hd.ne', Real.tan_eq_sin_div_cos]
    have hs : Real.sin θ < 0 := Real.sin_neg_of_neg_of_neg_pi_lt h2 (by linarith [Real.pi_pos])
    have : Real.sin θ / Real.cos θ < 0 := div_neg_of_neg_of_pos hs hc
    refine div_neg_of_neg_of_pos ?_ hd
    have : g * (Real.sin θ / Real.cos θ) < 0 := mul_neg_of_pos_of_neg hg this
    linarith

/-! ## The trapezoidal rule -/

section
variable {g dx dy T : ℝ} {n : Nat} {p : List ℝ} {v : String → String → Nat → ℝ}

theorem slide_step (h : Slide g dx dy .trapezoidal n p v T) {i : Nat} (hi : i < n) {m : String} (hm : m ∈ ["v", "x", "y"]) :
    v "states" m (i + 1) - v "states" m i = (p.getD (i + 1) 0 - p.getD i 0) * T * (0.5 * (v "states_dot" m i + v "states_dot" m (i + 1))) := by
  have := h.steps i hi m hm
  rw [show Transcription.trapezoidal.stages - 1 = 1 from rfl, steps_trapezoidal] at this
  simpa using this

theorem slide_at (h : Slide g dx dy .trapezoidal n p v T) {s : Nat} (hs : s ≤ n) :
    v "states_dot" "v" s = -g * Real.sin (v "inputs" "theta" s) ∧
    v "states_dot" "x" s = Real.cos (v "inputs" "theta" s) * v "states" "v" s ∧
    v "states_dot" "y" s = Real.sin (v "inputs" "theta" s) * v "states" "v" s := by
  have hs' : s ≤ n * (Transcription.trapezoidal.stages - 1) := by
    rw [show Transcription.trapezoidal.stages - 1 = 1 from rfl, mul_one]; exact hs
  exact ⟨h.accel s hs', h.velX s hs', h.velY s hs'⟩

theorem slide_last (h : Slide g dx dy .trapezoidal n p v T) : v "states" "x" n = dx ∧ v "states" "y" n = dy := by
  have h1 := h.finishX
  have h2 := h.finishY
  rw [show Transcription.trapezoidal.stages - 1 = 1 from rfl, mul_one] at h1 h2
  exact ⟨h1, h2⟩

/-- The speed at a stage is at most that of free fall. -/
theorem slide_speed (h : Slide g dx dy .trapezoidal n p v T) (hg : 0 ≤ g) (hp : ∀ i, i < n → p.getD i 0 ≤ p.getD (i + 1) 0) :
    ∀ s, s ≤ n → |v "states" "v" s| ≤ g * (T * (p.getD s 0 - p.getD 0 0)) := by
  have hT : 0 ≤ T := by have := h.duration.1; linarith
  intro s
  induction s with
  | zero => intro _; rw [h.start "v" (by simp)]; simp
  | succ i ih =>
    intro hi
    have hs := slide_step h (show i < n by omega) (m := "v") (by simp)
    rw [(slide_at h (show i ≤ n by omega)).1, (slide_at h hi).1] at hs
    have h1 := Real.abs_sin_le_one (v "inputs" "theta" i)
    have h2 := Real.abs_sin_le_one (v "inputs" "theta" (i + 1))
    have hd : 0 ≤ (p.getD (i + 1) 0 - p.getD i 0) * T := mul_nonneg (by linarith [hp i (by omega)]) hT
    have e : v "states" "v" (i + 1) = v "states" "v" i + (p.getD (i + 1) 0 - p.getD i 0) * T *
        (0.5 * (-g * Real.sin (v "inputs" "theta" i) + -g * Real.sin (v "inputs" "theta" (i + 1)))) := by linarith
    have b : |0.5 * (-g * Real.sin (v "inputs" "theta" i) + -g * Real.sin (v "inputs" "theta" (i + 1)))| ≤ g := by
      rw [abs_le] at h1 h2 ⊢
      constructor <;> nlinarith
    rw [e]
    refine (abs_add_le _ _).trans ?_
    rw [abs_mul, abs_of_nonneg hd]
    have := ih (by omega)
    nlinarith

/-- In any direction the bead gets no further than in free fall. -/
theorem slide_reach (h : Slide g dx dy .trapezoidal n p v T) (hg : 0 ≤ g) (hp : ∀ i, i < n → p.getD i 0 ≤ p.getD (i + 1) 0)
    {a b : ℝ} (hab : a ^ 2 + b ^ 2 = 1) :
    ∀ s, s ≤ n → a * v "states" "x" s + b * v "states" "y" s ≤ g / 2 * (T * (p.getD s 0 - p.getD 0 0)) ^ 2 := by
  have hT : 0 ≤ T := by have := h.duration.1; linarith
  have dir : ∀ s, s ≤ n → a * v "states_dot" "x" s + b * v "states_dot" "y" s ≤ g * (T * (p.getD s 0 - p.getD 0 0)) := by
    intro s hs
    rw [(slide_at h hs).2.1, (slide_at h hs).2.2]
    have hk : |a * Real.cos (v "inputs" "theta" s) + b * Real.sin (v "inputs" "theta" s)| ≤ 1 := by
      rw [← sq_le_one_iff_abs_le_one]
      have := Real.sin_sq_add_cos_sq (v "inputs" "theta" s)
      nlinarith [sq_nonneg (a * Real.sin (v "inputs" "theta" s) - b * Real.cos (v "inputs" "theta" s))]
    have hv := slide_speed h hg hp s hs
    calc a * (Real.cos (v "inputs" "theta" s) * v "states" "v" s) + b * (Real.sin (v "inputs" "theta" s) * v "states" "v" s)
        = (a * Real.cos (v "inputs" "theta" s) + b * Real.sin (v "inputs" "theta" s)) * v "states" "v" s := by ring
      _ ≤ |(a * Real.cos (v "inputs" "theta" s) + b * Real.sin (v "inputs" "theta" s)) * v "states" "v" s| := le_abs_self _
      _ = |a * Real.cos (v "inputs" "theta" s) + b * Real.sin (v "inputs" "theta" s)| * |v "states" "v" s| := abs_mul _ _
      _ ≤ 1 * |v "states" "v" s| := mul_le_mul_of_nonneg_right hk (abs_nonneg _)
      _ ≤ _ := by rw [one_mul]; exact hv
  intro s
  induction s with
  | zero => intro _; rw [h.start "x" (by simp), h.start "y" (by simp)]; simp
  | succ i ih =>
    intro hi
    have hx := slide_step h (show i < n by omega) (m := "x") (by simp)
    have hy := slide_step h (show i < n by omega) (m := "y") (by simp)
    have d0 := dir i (by omega)
    have d1 := dir (i + 1) hi
    have hd : 0 ≤ (p.getD (i + 1) 0 - p.getD i 0) * T := mul_nonneg (by linarith [hp i (by omega)]) hT
    have ih := ih (by omega)
    have e : a * v "states" "x" (i + 1) + b * v "states" "y" (i + 1) = a * v "states" "x" i + b * v "states" "y" i +
        (p.getD (i + 1) 0 - p.getD i 0) * T * (0.5 * ((a * v "states_dot" "x" i + b * v "states_dot" "y" i)
          + (a * v "states_dot" "x" (i + 1) + b * v "states_dot" "y" (i + 1)))) := by linear_combination a * hx + b * hy
    have hm := mul_le_mul_of_nonneg_left (add_le_add d0 d1) hd
    rw [e]
    nlinarith

/-- On equal intervals the energy of the discretised slide is known at every stage. -/
theorem slide_energy (h : Slide g dx dy .trapezoidal n (pointsOf n none) v T) (hn : 1 ≤ n) : ∀ s, s ≤ n →
    v "states" "v" s ^ 2 / 2 + g * v "states" "y" s
      = g ^ 2 * (T / n) ^ 2 / 8 * (Real.sin (v "inputs" "theta" 0) ^ 2 - Real.sin (v "inputs" "theta" s) ^ 2) := by
  have hlen : ∀ i, i < n → ((pointsOf n none).getD (i + 1) 0 - (pointsOf n none).getD i 0) * T = T / n := by
    intro i hi
    have : (pointsOf n none) = linspace01 n := rfl
    have hn0 : (n : ℝ) ≠ 0 := by positivity
    rw [this, getD_linspace01 n (i + 1) hi, getD_linspace01 n i hi.le]
    push_cast
    field_simp
    ring
  intro s
  induction s with
  | zero => intro _; rw [h.start "v" (by simp), h.start "y" (by simp)]; simp
  | succ i ih =>
    intro hi
    have hv := slide_step h (show i < n by omega) (m := "v") (by simp)
    have hy := slide_step h (show i < n by omega) (m := "y") (by simp)
    rw [(slide_at h (show i ≤ n by omega)).1, (slide_at h hi).1, hlen i (by omega)] at hv
    rw [(slide_at h (show i ≤ n by omega)).2.2, (slide_at h hi).2.2, hlen i (by omega)] at hy
    have ih := ih (by omega)
    generalize v "states" "v" (i + 1) = v1 at *
    generalize v "states" "v" i = v0 at *
    generalize v "states" "y" (i + 1) = y1 at *
    generalize v "states" "y" i = y0 at *
    generalize Real.sin (v "inputs" "theta" (i + 1)) = s1 at *
    generalize Real.sin (v "inputs" "theta" i) = s0 at *
    have e1 : v1 = v0 + T / n * (0.5 * (-g * s0 + -g * s1)) := by linarith
    have e2 : y1 = y0 + T / n * (0.5 * (s0 * v0 + s1 * v1)) := by linarith
    rw [e2, e1]
    linear_combination ih

end

/-! ## Bounds on the duration -/

section
variable {g : ℝ} {c : Bool} {D : List ℝ → ℝ → Nat → Nat → ℝ} {D2 : List ℝ → List ℝ → ℝ → Nat → Nat → ℝ} {backend : String}
  {n : Nat} {pts : Option (List ℝ)} {dx dy : ℝ} {S : Setup}

theorem brach_slide (hD : (timeModel g).DenseJac D) (hD2 : (timeModel g).DenseHess D2) (hn : 1 ≤ n)
    (h : brachSetup g c D D2 backend "Trapezoidal" [] n pts dx dy = .ok S) {b : Built} (hb : S.build = .ok b) {x : List ℝ}
    (hx : x.length = S.c.o.L.numDec) (hf : b.Feasible (vdiv x b.prob.scales)) (hw : Within b.bounds.lb b.bounds.ub x) :
    (∃ u, Made (timeModel g) u .trapezoidal n pts S) ∧ b.prob.objective (vdiv x b.prob.scales) = .ok (readScale S.c.o x) ∧
    Slide g dx dy .trapezoidal n (pointsOf n pts) (fun grp m s => readAt S.c.o.L x grp m s) (readScale S.c.o x) := by
  obtain ⟨t, b', ht, hb', hp⟩ := C78_problem hD hD2 hn h
  rw [hb, Except.ok.injEq] at hb'
  subst hb'
  rw [C38_low_order.2.2.1, Except.ok.injEq] at ht
  subst ht
  obtain ⟨u, t', _, ht', hm, _⟩ := brach_made hn h
  rw [C38_low_order.2.2.1, Except.ok.injEq] at ht'
  subst ht'
  exact ⟨⟨u, hm⟩, (hp x hx).2, (hp x hx).1.mp ⟨hf, hw⟩⟩

/-- **C78** (least duration). With the trapezoidal rule, on any mesh from `p` to `q`, no feasible point is faster than a fall in a straight
line to the target: the distance is at most `g (T (q - p))² / 2`. -/
theorem C78_least_duration (hD : (timeModel g).DenseJac D) (hD2 : (timeModel g).DenseHess D2) (hg : 0 ≤ g) (hn : 1 ≤ n)
    (h : brachSetup g c D D2 backend "Trapezoidal" [] n pts dx dy = .ok S) {b : Built} (hb : S.build = .ok b) {x : List ℝ}
    (hx : x.length = S.c.o.L.numDec) (hf : b.Feasible (vdiv x b.prob.scales)) (hw : Within b.bounds.lb b.bounds.ub x) :
    ∃ T, b.prob.objective (vdiv x b.prob.scales) = .ok T ∧
      √(dx ^ 2 + dy ^ 2) ≤ g / 2 * (T * ((pointsOf n pts).getD n 0 - (pointsOf n pts).getD 0 0)) ^ 2 ∧
      (pts = none → √(dx ^ 2 + dy ^ 2) ≤ g / 2 * T ^ 2) := by
  obtain ⟨⟨u, hm⟩, ho, sl⟩ := brach_slide hD hD2 hn h hb hx hf hw
  have inc : ∀ i, i < n → (pointsOf n pts).getD i 0 ≤ (pointsOf n pts).getD (i + 1) 0 := by
    intro i hi
    have h1 := hm.len i hi
    have h2 := hm.pos (S.c.o.normLen.getD i 0) (by
      rw [List.getD_eq_getElem?_getD, List.getElem?_eq_getElem (by rw [hm.lens]; exact hi)]
      exact List.getElem_mem _)
    linarith
  have main : √(dx ^ 2 + dy ^ 2) ≤ g / 2 * (readScale S.c.o x * ((pointsOf n pts).getD n 0 - (pointsOf n pts).getD 0 0)) ^ 2 := by
    by_cases h0 : dx ^ 2 + dy ^ 2 = 0
    · rw [h0, Real.sqrt_zero]; positivity
    · have hpos : 0 < √(dx ^ 2 + dy ^ 2) := Real.sqrt_pos.mpr (lt_of_le_of_ne (by positivity) (Ne.symm h0))
      have hsq : √(dx ^ 2 + dy ^ 2) ^ 2 = dx ^ 2 + dy ^ 2 := Real.sq_sqrt (by positivity)
      have hr := slide_reach sl hg inc (a := dx / √(dx ^ 2 + dy ^ 2)) (b := dy / √(dx ^ 2 + dy ^ 2)) (by
        field_simp; linarith) n (le_refl _)
      rw [(slide_last sl).1, (slide_last sl).2] at hr
      have e : dx / √(dx ^ 2 + dy ^ 2) * dx + dy / √(dx ^ 2 + dy ^ 2) * dy = √(dx ^ 2 + dy ^ 2) := by
        field_simp; linarith
      rwa [e] at hr
  refine ⟨_, ho, main, ?_⟩
  rintro rfl
  have : (pointsOf n none) = linspace01 n := rfl
  have hn0 : (n : ℝ) ≠ 0 := by positivity
  rw [this, getD_linspace01 n n (le_refl _), getD_linspace01 n 0 (Nat.zero_le _), div_self hn0] at main
  simpa using main

/-- **C78** (energy). With the trapezoidal rule on equal intervals of length `d = T / n`, at every stage of every feasible point the energy
is `g² d² / 8` times the difference of the squared sines of the slopes at the start and there: conserved up to the square of the step. So
the bead is nowhere more than `g d² / 8` above its start, and a target higher than that is infeasible. -/
theorem C78_energy (hD : (timeModel g).DenseJac D) (hD2 : (timeModel g).DenseHess D2) (hn : 1 ≤ n)
    (h : brachSetup g c D D2 backend "Trapezoidal" [] n none dx dy = .ok S) {b : Built} (hb : S.build = .ok b) {x : List ℝ}
    (hx : x.length = S.c.o.L.numDec) (hf : b.Feasible (vdiv x b.prob.scales)) (hw : Within b.bounds.lb b.bounds.ub x) :
    ∃ T, b.prob.objective (vdiv x b.prob.scales) = .ok T ∧ (∀ s, s ≤ n →
      readAt S.c.o.L x "states" "v" s ^ 2 / 2 + g * readAt S.c.o.L x "states" "y" s
        = g ^ 2 * (T / n) ^ 2 / 8 * (Real.sin (readAt S.c.o.L x "inputs" "theta" 0) ^ 2 - Real.sin (readAt S.c.o.L x "inputs" "theta" s) ^ 2)) ∧
      (0 < g → (∀ s, s ≤ n → readAt S.c.o.L x "states" "y" s ≤ g * (T / n) ^ 2 / 8) ∧ dy ≤ g * (T / n) ^ 2 / 8) := by
  obtain ⟨_, ho, sl⟩ := brach_slide hD hD2 hn h hb hx hf hw
  have en := slide_energy sl hn
  refine ⟨_, ho, en, fun hg => ?_⟩
  have up : ∀ s, s ≤ n → readAt S.c.o.L x "states" "y" s ≤ g * (readScale S.c.o x / n) ^ 2 / 8 := by
    intro s hs
    have e := en s hs
    have h1 : Real.sin (readAt S.c.o.L x "inputs" "theta" 0) ^ 2 ≤ 1 := Real.sin_sq_le_one _
    have h2 := sq_nonneg (Real.sin (readAt S.c.o.L x "inputs" "theta" s))
    have h3 : g ^ 2 * (readScale S.c.o x / n) ^ 2 / 8 * (Real.sin (readAt S.c.o.L x "inputs" "theta" 0) ^ 2 -
        Real.sin (readAt S.c.o.L x "inputs" "theta" s) ^ 2) ≤ g ^ 2 * (readScale S.c.o x / n) ^ 2 / 8 * 1 :=
      mul_le_mul_of_nonneg_left (by linarith) (by positivity)
    have h4 := sq_nonneg (readAt S.c.o.L x "states" "v" s)
    have h5 : g * readAt S.c.o.L x "states" "y" s ≤ g * (g * (readScale S.c.o x / n) ^ 2 / 8) := by
      calc g * readAt S.c.o.L x "states" "y" s ≤ g ^ 2 * (readScale S.c.o x / n) ^ 2 / 8 * 1 := by linarith
        _ = _ := by ring
    exact le_of_mul_le_mul_left h5 hg
  refine ⟨up, ?_⟩
  have := up n (le_refl _)
  rwa [(slide_last sl).2] at this

/-! ## Feasible points -/

theorem Slide.congr {t : Transcription} (ht : 2 ≤ t.stages) {p : List ℝ} {v w : String → String → Nat → ℝ} {T : ℝ}
    (e : ∀ s grp m, s ≤ n * (t.stages - 1) → ((grp = "states" ∧ m ∈ (timeModel g).states) ∨ (grp = "inputs" ∧ m ∈ (timeModel g).inputs) ∨
      (grp = "states_dot" ∧ m ∈ (timeModel g).states) ∨ (grp = "con_outputs" ∧ m ∈ (timeModel g).conOutputs)) → w grp m s = v grp m s)
    (h : Slide g dx dy t n p v T) : Slide g dx dy t n p w T := by
  have st : ∀ s m, s ≤ n * (t.stages - 1) → m ∈ ["v", "x", "y"] → w "states" m s = v "states" m s :=
    fun s m hs hm => e s "states" m hs (Or.inl ⟨rfl, hm⟩)
  have dt : ∀ s m, s ≤ n * (t.stages - 1) → m ∈ ["v", "x", "y"] → w "states_dot" m s = v "states_dot" m s :=
    fun s m hs hm => e s "states_dot" m hs (Or.inr (Or.inr (Or.inl ⟨rfl, hm⟩)))
  have ip : ∀ s, s ≤ n * (t.stages - 1) → w "inputs" "theta" s = v "inputs" "theta" s :=
    fun s hs => e s "inputs" "theta" hs (Or.inr (Or.inl ⟨rfl, by simp [timeModel]⟩))
  have inside : ∀ i j, i < n → j < t.stages → i * (t.stages - 1) + j ≤ n * (t.stages - 1) := by
    intro i j hi hj
    calc i * (t.stages - 1) + j ≤ i * (t.stages - 1) + (t.stages - 1) := by omega
      _ = (i + 1) * (t.stages - 1) := by ring
      _ ≤ n * (t.stages - 1) := Nat.mul_le_mul_right _ hi
  refine ⟨?_, ?_, ?_, ?_, ?_, ?_, ?_, ?_, h.duration⟩
  · intro s hs; rw [dt s _ hs (by simp), ip s hs]; exact h.accel s hs
  · intro s hs; rw [dt s _ hs (by simp), ip s hs, st s _ hs (by simp)]; exact h.velX s hs
  · intro s hs; rw [dt s _ hs (by simp), ip s hs, st s _ hs (by simp)]; exact h.velY s hs
  · intro i hi m hm
    exact Steps.congr (fun j hj => (st _ _ (inside i j hi hj) hm).symm) (fun j hj => (dt _ _ (inside i j hi hj) hm).symm) (h.steps i hi m hm)
  · intro s hs; rw [ip s hs]; exact h.angle s hs
  · intro m hm; rw [st 0 m (Nat.zero_le _) hm]; exact h.start m hm
  · rw [st _ _ (le_refl _) (by simp)]; exact h.finishX
  · rw [st _ _ (le_refl _) (by simp)]; exact h.finishY

/-- A discretised slide gives a feasible point of the problem. -/
theorem brach_point (hD : (timeModel g).DenseJac D) (hD2 : (timeModel g).DenseHess D2) (hn : 1 ≤ n)
    (hb : backend = "jax" ∨ backend = "custom" ∧ c = true) {v : String → String → Nat → ℝ} {T : ℝ}
    (h : Slide g dx dy .trapezoidal n (pointsOf n none) v T) :
    ∃ S b x, brachSetup g c D D2 backend "Trapezoidal" [] n none dx dy = .ok S ∧ S.build = .ok b ∧ x.length = S.c.o.L.numDec ∧
      b.Feasible (vdiv x b.prob.scales) ∧ Within b.bounds.lb b.bounds.ub x ∧ b.prob.objective (vdiv x b.prob.scales) = .ok T ∧
      ∀ s, s ≤ n → (∀ m ∈ ["v", "x", "y"], readAt S.c.o.L x "states" m s = v "states" m s) ∧
        readAt S.c.o.L x "inputs" "theta" s = v "inputs" "theta" s := by
  obtain ⟨u, hu⟩ : ∃ u, timeUnit g c D D2 backend = .ok u := by
    rcases hb with rfl | ⟨rfl, rfl⟩
    · exact ⟨_, timeUnit_jax g c D D2⟩
    · exact ⟨_, timeUnit_custom g D D2⟩
  obtain ⟨S, hS, _⟩ := front_ok (u := u) (bounds := brachBounds) (bcs := brachBCs dx dy) (scales := [])
    (timeModel_good g) C38_low_order.2.2.1 hn (pts := none) (mesh := _) rfl
  have hS : brachSetup g c D D2 backend "Trapezoidal" [] n none dx dy = .ok S := by
    unfold brachSetup
    rw [hu]
    exact hS
  obtain ⟨t, b, ht, hb, hp⟩ := C78_problem hD hD2 hn hS
  rw [C38_low_order.2.2.1, Except.ok.injEq] at ht
  subst ht
  obtain ⟨u', t', _, ht', hm, _⟩ := brach_made hn hS
  rw [C38_low_order.2.2.1, Except.ok.injEq] at ht'
  subst ht'
  obtain ⟨x, h1, h2, h3⟩ := hm.point (brach_good hD hD2 hn hS).cond v T
  have hst : Transcription.trapezoidal.stages - 1 = 1 := rfl
  have hN := hm.stages
  rw [hst, mul_one] at hN
  have val : ∀ s grp m, s ≤ n * (Transcription.trapezoidal.stages - 1) → ((grp = "states" ∧ m ∈ (timeModel g).states) ∨
      (grp = "inputs" ∧ m ∈ (timeModel g).inputs) ∨ (grp = "states_dot" ∧ m ∈ (timeModel g).states) ∨
      (grp = "con_outputs" ∧ m ∈ (timeModel g).conOutputs)) → readAt S.c.o.L x grp m s = v grp m s := by
    intro s grp m hs hv
    refine h3 s grp m ?_
    rw [hm.layout, isVar_iff, ← hm.layout]
    refine ⟨?_, hv⟩
    rw [hst, mul_one] at hs
    omega
  have fl := h.congr (by decide) (w := fun grp m s => readAt S.c.o.L x grp m s) val
  rw [← h2] at fl
  obtain ⟨f1, f2⟩ := (hp x h1).1.mpr fl
  refine ⟨S, b, x, hS, hb, h1, f1, f2, by rw [(hp x h1).2, h2], ?_⟩
  intro s hs
  rw [← mul_one n, ← hst] at hs
  exact ⟨fun m hmem => val s _ _ hs (Or.inl ⟨rfl, hmem⟩), val s _ _ hs (Or.inr (Or.inl ⟨rfl, by simp [timeModel]⟩))⟩

/-- The straight slide. -/
noncomputable def straightValue (g θ T : ℝ) (n : Nat) (grp m : String) (s : Nat) : ℝ :=
  let w := -g * Real.sin θ * (T * (s / n))
  if grp = "inputs" then θ
  else if grp = "states" then
    if m = "v" then w else (if m = "x" then Real.cos θ else Real.sin θ) * (-g * Real.sin θ * (T * (s / n)) ^ 2 / 2)
  else if m = "v" then -g * Real.sin θ else if m = "x" then Real.cos θ * w else Real.sin θ * w

/-- **C78** (the straight slide). For a target below the start and not behind it, the problem admits, on any number of equal intervals, the
slide along the straight line, whose duration is `√(2 (dx² + dy²) / (g |dy|))`; so the least duration is at most that. -/
theorem C78_straight_slide (hD : (timeModel g).DenseJac D) (hD2 : (timeModel g).DenseHess D2) (hn : 1 ≤ n)
    (hb : backend = "jax" ∨ backend = "custom" ∧ c = true) (hg : 0 < g) (hx : 0 ≤ dx) (hy : dy < 0) {T : ℝ} (hT : 0.01 ≤ T ∧ T ≤ 10)
    (hTT : T ^ 2 = 2 * (dx ^ 2 + dy ^ 2) / (g * |dy|)) :
    ∃ S b x, brachSetup g c D D2 backend "Trapezoidal" [] n none dx dy = .ok S ∧ S.build = .ok b ∧ x.length = S.c.o.L.numDec ∧
      b.Feasible (vdiv x b.prob.scales) ∧ Within b.bounds.lb b.bounds.ub x ∧ b.prob.objective (vdiv x b.prob.scales) = .ok T ∧
      ∀ s, s ≤ n → dx * readAt S.c.o.L x "states" "y" s = dy * readAt S.c.o.L x "states" "x" s := by
  obtain ⟨r, hr⟩ : ∃ r, r = √(dx ^ 2 + dy ^ 2) := ⟨_, rfl⟩
  have hpos : 0 < dx ^ 2 + dy ^ 2 := by have : 0 < dy ^ 2 := by nlinarith
                                        positivity
  have hr0 : 0 < r := by rw [hr]; exact Real.sqrt_pos.mpr hpos
  have hr2 : r ^ 2 = dx ^ 2 + dy ^ 2 := by rw [hr]; exact Real.sq_sqrt hpos.le
  have hq : (dy / r) ^ 2 ≤ 1 := by rw [div_pow, hr2, div_le_one hpos]; nlinarith [sq_nonneg dx]
  have hq' := abs_le.mp (sq_le_one_iff_abs_le_one _ |>.mp hq)
  have hsin : Real.sin (Real.arcsin (dy / r)) = dy / r := Real.sin_arcsin hq'.1 hq'.2
  have hcos : Real.cos (Real.arcsin (dy / r)) = dx / r := by
    rw [Real.cos_arcsin]
    have : 1 - (dy / r) ^ 2 = (dx / r) ^ 2 := by field_simp; linarith
    rw [this, Real.sqrt_sq (by positivity)]
  have hn0 : (n : ℝ) ≠ 0 := by positivity
  rw [abs_of_neg hy] at hTT
  have hTT' : g * (-dy) * T ^ 2 = 2 * r ^ 2 := by
    have : dy ≠ 0 := hy.ne
    rw [hTT, hr2]; field_simp
  have hst : Transcription.trapezoidal.stages - 1 = 1 := rfl
  have hlen : ∀ i, i < n → ((pointsOf n none).getD (i + 1) 0 - (pointsOf n none).getD i 0) * T = T / n := by
    intro i hi
    have : (pointsOf n none) = linspace01 n := rfl
    rw [this, getD_linspace01 n (i + 1) hi, getD_linspace01 n i hi.le]
    push_cast
    field_simp
    ring
  have sl : Slide g dx dy .trapezoidal n (pointsOf n none) (straightValue g (Real.arcsin (dy / r)) T n) T := by
    refine ⟨fun s _ => by simp [straightValue], fun s _ => by simp [straightValue], fun s _ => by simp [straightValue], ?_, ?_, ?_, ?_, ?_, hT⟩
    · intro i hi m hm
      rw [hst, hlen i hi, steps_trapezoidal]
      simp only [List.mem_cons, List.not_mem_nil, or_false] at hm
      rcases hm with rfl | rfl | rfl <;> simp [straightValue] <;> ring
    · intro s _
      have := Real.arcsin_mem_Icc (dy / r)
      simpa [straightValue, abs_le] using this
    · intro m hm
      simp only [List.mem_cons, List.not_mem_nil, or_false] at hm
      rcases hm with rfl | rfl | rfl <;> simp [straightValue]
    · rw [hst, mul_one]
      simp only [straightValue, if_neg (show ¬ "states" = "inputs" by decide), if_true, if_neg (show ¬ "x" = "v" by decide), hsin, hcos, div_self hn0]
      field_simp
      linear_combination dx * hTT'
    · rw [hst, mul_one]
      simp only [straightValue, if_neg (show ¬ "states" = "inputs" by decide), if_true, if_neg (show ¬ "y" = "v" by decide),
        if_neg (show ¬ "y" = "x" by decide), hsin, div_self hn0]
      field_simp
      linear_combination dy * hTT'
  obtain ⟨S, b, x, h1, h2, h3, h4, h5, h6, h7⟩ := brach_point (c := c) hD hD2 hn hb sl
  refine ⟨S, b, x, h1, h2, h3, h4, h5, h6, ?_⟩
  intro s hs
  rw [(h7 s hs).1 "y" (by simp), (h7 s hs).1 "x" (by simp)]
  simp only [straightValue, if_neg (show ¬ "states" = "inputs" by decide), if_true, if_neg (show ¬ "x" = "v" by decide),
    if_neg (show ¬ "y" = "v" by decide), if_neg (show ¬ "y" = "x" by decide), hsin, hcos]
  ring

/-- The values of the slide of `C78_climb`, for intervals of length `d`. -/
noncomputable def climbValue (g d : ℝ) (grp m : String) (s : Nat) : ℝ :=
  if grp = "inputs" then if s = 0 then -(Real.pi / 2) else if s = 1 then Real.pi / 6 else 0
  else if grp = "states" then
    if m = "v" then if s = 1 then g * d / 4 else 0
    else if s = 0 then 0 else (if m = "x" then √3 else 1) * (g * d ^ 2) / (if s = 1 then 16 else 8)
  else if m = "v" then if s = 0 then g else if s = 1 then -(g / 2) else 0
  else if s = 1 then (if m = "x" then √3 else 1) * (g * d) / 8 else 0

/-- **C78** (finding). Because energy is conserved only up to the step, the discretised problem lets a bead climb: on two or more equal
intervals of length `d` there is a feasible point whose bead starts at rest and ends at rest `g d² / 8` above its start, the most that
`C78_energy` allows. -/
theorem C78_climb (hD : (timeModel g).DenseJac D) (hD2 : (timeModel g).DenseHess D2) (hn : 2 ≤ n)
    (hb : backend = "jax" ∨ backend = "custom" ∧ c = true) {d : ℝ} (hd : 0.01 ≤ n * d ∧ n * d ≤ 10) :
    ∃ S b x, brachSetup g c D D2 backend "Trapezoidal" [] n none (√3 * (g * d ^ 2) / 8) (g * d ^ 2 / 8) = .ok S ∧ S.build = .ok b ∧
      x.length = S.c.o.L.numDec ∧ b.Feasible (vdiv x b.prob.scales) ∧ Within b.bounds.lb b.bounds.ub x ∧
      b.prob.objective (vdiv x b.prob.scales) = .ok (n * d) ∧
      readAt S.c.o.L x "states" "v" 0 = 0 ∧ readAt S.c.o.L x "states" "y" 0 = 0 ∧
      readAt S.c.o.L x "states" "v" n = 0 ∧ readAt S.c.o.L x "states" "y" n = g * d ^ 2 / 8 := by
  have hn0 : (n : ℝ) ≠ 0 := by positivity
  have hst : Transcription.trapezoidal.stages - 1 = 1 := rfl
  have pi := Real.pi_pos
  have hlen : ∀ i, i < n → ((pointsOf n none).getD (i + 1) 0 - (pointsOf n none).getD i 0) * (n * d) = d := by
    intro i hi
    have : (pointsOf n none) = linspace01 n := rfl
    rw [this, getD_linspace01 n (i + 1) hi, getD_linspace01 n i hi.le]
    push_cast
    field_simp
    ring
  have n0 : n ≠ 0 := by omega
  have n1 : n ≠ 1 := by omega
  have sl : Slide g (√3 * (g * d ^ 2) / 8) (g * d ^ 2 / 8) .trapezoidal n (pointsOf n none) (climbValue g d) (n * d) := by
    refine ⟨?_, ?_, ?_, ?_, ?_, ?_, ?_, ?_, hd⟩
    · intro s _
      match s with
      | 0 => simp [climbValue]
      | 1 => simp [climbValue, Real.sin_pi_div_six]; ring
      | s + 2 => simp [climbValue]
    · intro s _
      match s with
      | 0 => simp [climbValue]
      | 1 => simp [climbValue, Real.cos_pi_div_six]; ring
      | s + 2 => simp [climbValue]
    · intro s _
      match s with
      | 0 => simp [climbValue]
      | 1 => simp [climbValue, Real.sin_pi_div_six]; ring
      | s + 2 => simp [climbValue]
    · intro i hi m hm
      rw [hst, hlen i hi, steps_trapezoidal]
      simp only [List.mem_cons, List.not_mem_nil, or_false] at hm
      match i with
      | 0 => rcases hm with rfl | rfl | rfl <;> simp [climbValue] <;> ring
      | 1 => rcases hm with rfl | rfl | rfl <;> simp [climbValue] <;> ring
      | i + 2 => rcases hm with rfl | rfl | rfl <;> simp [climbValue]
    · intro s _
      match s with
      | 0 =>
        have : |Real.pi / 2| ≤ Real.pi / 2 := by rw [abs_of_pos (by positivity)]
        simpa [climbValue] using this
      | 1 =>
        have : |Real.pi / 6| ≤ Real.pi / 2 := by rw [abs_of_pos (by positivity)]; linarith
        simpa [climbValue] using this
      | s + 2 => simp [climbValue]; positivity
    · intro m hm
      simp only [List.mem_cons, List.not_mem_nil, or_false] at hm
      rcases hm with rfl | rfl | rfl <;> simp [climbValue]
    · rw [hst, mul_one]; simp [climbValue, n0, n1]
    · rw [hst, mul_one]; simp [climbValue, n0, n1]
  obtain ⟨S, b, x, h1, h2, h3, h4, h5, h6, h7⟩ := brach_point (c := c) hD hD2 (by omega) hb sl
  refine ⟨S, b, x, h1, h2, h3, h4, h5, h6, ?_, ?_, ?_, ?_⟩
  · rw [(h7 0 (by omega)).1 "v" (by simp)]; simp [climbValue]
  · rw [(h7 0 (by omega)).1 "y" (by simp)]; simp [climbValue]
  · rw [(h7 n (le_refl _)).1 "v" (by simp)]; simp [climbValue, n1]
  · rw [(h7 n (le_refl _)).1 "y" (by simp)]; simp [climbValue, n0, n1]

/-- The hypotheses of the theorems above are met: both backends with true derivatives, and the target of the example. -/
example : ∃ T S b x, brachSetup 10 true (fun v _ => timeJac 10 v) (fun v lam _ => timeHess 10 v lam) "custom" "Trapezoidal" [] 49 none 3 (-4) = .ok S ∧
    S.build = .ok b ∧ x.length = S.c.o.L.numDec ∧ b.Feasible (vdiv x b.prob.scales) ∧ Within b.bounds.lb b.bounds.ub x ∧
    b.prob.objective (vdiv x b.prob.scales) = .ok T := by
  have h1 : (1 : ℝ) ≤ √(5 / 4) := by rw [show (1 : ℝ) = √1 by simp]; exact Real.sqrt_le_sqrt (by norm_num)
  have h2 : √(5 / 4) ≤ (10 : ℝ) := by rw [Real.sqrt_le_left (by norm_num)]; norm_num
  obtain ⟨S, b, x, h⟩ := C78_straight_slide (g := 10) (c := true) (backend := "custom") (n := 49) (dx := 3) (dy := -4) (T := √(5 / 4))
    (time_DenseJac 10) (time_DenseHess 10) (by norm_num) (Or.inr ⟨rfl, rfl⟩) (by norm_num) (by norm_num) (by norm_num)
    ⟨by linarith, h2⟩ (by rw [Real.sq_sqrt (by norm_num)]; norm_num)
  exact ⟨_, S, b, x, h.1, h.2.1, h.2.2.1, h.2.2.2.1, h.2.2.2.2.1, h.2.2.2.2.2.1⟩

/-! ## The driver -/

/-- **C78** (finding). `solve_brachistochrone` builds the same lifted problem with the default backend whatever `backend` and
`is_condensed` it is given: the 15 entries per stage of the default Jacobian are in it, the 8 hand-written ones never are. -/
theorem C78_driver_ignores_backend (dx dy : ℝ) (backend : String) (isCondensed : Bool) :
    ∃ S, solveSetup D D2 dx dy backend isCondensed = .ok S ∧ S.isCondensed = false ∧ S.c.u = (timeModel 9.81).unitOf D D2 ∧
      S.c.u.jacStruct.1.length = 15 ∧ S.c.u ≠ customUnit 9.81 := by
  obtain ⟨S, hS, hm, _⟩ := front_ok (u := (timeModel 9.81).unitOf D D2) (bounds := brachBounds) (bcs := brachBCs dx dy) (scales := [])
    (timeModel_good 9.81) C38_low_order.2.2.1 (n := 49) (by norm_num) (pts := none) (mesh := _) rfl
  have hl : ((timeModel 9.81).unitOf D D2).jacStruct.1.length = 15 := rfl
  refine ⟨S, ?_, hm.plain.2.2.2, hm.unit, by rw [hm.unit]; exact hl, ?_⟩
  · unfold solveSetup brachSetup
    rw [timeUnit_jax]
    exact hS
  · rw [hm.unit]
    intro e
    have := congrArg (fun u : UnitProblem => u.jacStruct.1.length) e
    rw [hl] at this
    exact absurd this (by decide)

/-- **C78** (the guess). The vector of zeros that the example starts from satisfies every constraint for every target, with duration 0; it
is never within the bounds. -/
theorem C78_zero_guess (hD : (timeModel g).DenseJac D) (hD2 : (timeModel g).DenseHess D2) (hn : 1 ≤ n) {name : String}
    {kwargs : List (String × Int)} (h : brachSetup g c D D2 backend name kwargs n pts dx dy = .ok S) {b : Built} (hb : S.build = .ok b) :
    b.Feasible (vdiv (List.replicate S.c.o.L.numDec 0) b.prob.scales) ∧
    b.prob.objective (vdiv (List.replicate S.c.o.L.numDec 0) b.prob.scales) = .ok 0 ∧
    ¬ Within b.bounds.lb b.bounds.ub (List.replicate S.c.o.L.numDec 0) := by
  obtain ⟨t, b', ht, hb', hp⟩ := C78_problem hD hD2 hn h
  rw [hb, Except.ok.injEq] at hb'
  subst hb'
  obtain ⟨u, t', hu, ht', hm, hbd, hbc, _⟩ := brach_made hn h
  have hS := brach_good hD hD2 hn h
  have hx : (List.replicate S.c.o.L.numDec (0 : ℝ)).length = S.c.o.L.numDec := by simp
  have hz : ∀ i : Nat, (List.replicate S.c.o.L.numDec (0 : ℝ)).getD i 0 = 0 := by
    intro i
    rw [List.getD_eq_getElem?_getD]
    by_cases hi : i < S.c.o.L.numDec <;> simp [hi]
  have hL := hS.cond.ocp.made
  have eG : S.c.o.L.globals = ["mesh_scale"] := by rw [hm.layout]; rfl
  have r0 : ∀ s grp m, S.c.o.L.IsVar (.stage s grp m) → readAt S.c.o.L (List.replicate S.c.o.L.numDec (0 : ℝ)) grp m s = 0 := by
    intro s grp m hv
    obtain ⟨i, hq, hi⟩ := C01_index_in_range hL hv
    rw [read_query hx hi hq, hz]
  have rs : readScale S.c.o (List.replicate S.c.o.L.numDec (0 : ℝ)) = 0 := by
    have hv : S.c.o.L.IsVar (.glob "mesh_scale") := by
      show "mesh_scale" ∈ S.c.o.L.globals
      rw [eG]; simp
    obtain ⟨i, hq, hi⟩ := C01_index_in_range hL hv
    rw [read_scale hm.free hx hi hq, hz]
  have isS : ∀ s m, s < S.c.o.L.numStages → m ∈ ["v", "x", "y"] → S.c.o.L.IsVar (.stage s "states" m) ∧ S.c.o.L.IsVar (.stage s "states_dot" m) := by
    intro s m hs hmem
    rw [hm.layout, isVar_iff, isVar_iff]; rw [hm.layout] at hs
    exact ⟨⟨hs, Or.inl ⟨rfl, hmem⟩⟩, ⟨hs, Or.inr (Or.inr (Or.inl ⟨rfl, hmem⟩))⟩⟩
  have isI : ∀ s, s < S.c.o.L.numStages → S.c.o.L.IsVar (.stage s "inputs" "theta") := by
    intro s hs
    rw [hm.layout, isVar_iff]; rw [hm.layout] at hs
    exact ⟨hs, Or.inr (Or.inl ⟨rfl, by simp [timeModel]⟩)⟩
  have h2 := (C38_shapes ht').1
  refine ⟨?_, by rw [(hp _ hx).2, rs], ?_⟩
  · rw [brach_feasible hm hS hb hx]
    constructor
    · intro i hi m hmem l hl
      have inside : ∀ j, j < t'.stages → i * (t'.stages - 1) + j < S.c.o.L.numStages := by
        intro j hj
        rw [hm.stages]
        have : i * (t'.stages - 1) + (t'.stages - 1) ≤ n * (t'.stages - 1) := by
          rw [← Nat.succ_mul]; exact Nat.mul_le_mul_right _ hi
        omega
      rw [rs, mul_zero, zero_mul]
      refine Finset.sum_eq_zero fun j hj => ?_
      dsimp only
      rw [r0 _ _ _ (isS _ m (inside j (Finset.mem_range.mp hj)) hmem).1, mul_zero]
    · intro s hs
      rw [r0 _ _ _ (isS s "v" hs (by simp)).1, r0 _ _ _ (isS s "v" hs (by simp)).2, r0 _ _ _ (isS s "x" hs (by simp)).2,
        r0 _ _ _ (isS s "y" hs (by simp)).2, r0 _ _ _ (isI s hs)]
      simp
  · intro hw
    rw [within_iff hS hm.plain.2.2.2 hm.free eG hb hx, hbd, hbc, hm.layout, brach_limits_scale, inside_coe, ← hm.layout, rs] at hw
    have := hw.2.1
    norm_num at this

end

end Lumos.Sim
