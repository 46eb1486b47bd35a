import Verif.Sim.Brach
/-!
# C78: the problem that `solve_brachistochrone` poses
-/

namespace Lumos.Sim

open Lumos DecVar DecVar.Layout Bounds Ocp Lumos.Trans NLP

/-! ## Specification -/

/-- A slide of a bead from rest at the origin to `(dx, dy)`, discretised by a transcription with `k` stages per interval on the interval
points `p`, for the values `v group name stage` and the duration `T`: at every stage the speed changes by the component of gravity along
the path and the bead moves along the path, which never turns back; in every interval the transcription's equations hold for every
state. -/
structure Slide (g dx dy : ℝ) (t : Transcription) (n : Nat) (p : List ℝ) (v : String → String → Nat → ℝ) (T : ℝ) : Prop where
  accel : ∀ s, s ≤ n * (t.stages - 1) → v "states_dot" "v" s = -g * Real.sin (v "inputs" "theta" s)
  velX : ∀ s, s ≤ n * (t.stages - 1) → v "states_dot" "x" s = Real.cos (v "inputs" "theta" s) * v "states" "v" s
  velY : ∀ s, s ≤ n * (t.stages - 1) → v "states_dot" "y" s = Real.sin (v "inputs" "theta" s) * v "states" "v" s
  steps : ∀ i, i < n → ∀ m ∈ ["v", "x", "y"], Steps t (fun j => v "states" m (i * (t.stages - 1) + j))
    (fun j => v "states_dot" m (i * (t.stages - 1) + j)) ((p.getD (i + 1) 0 - p.getD i 0) * T)
  angle : ∀ s, s ≤ n * (t.stages - 1) → |v "inputs" "theta" s| ≤ Real.pi / 2
  start : ∀ m ∈ ["v", "x", "y"], v "states" m 0 = 0
  finishX : v "states" "x" (n * (t.stages - 1)) = dx
  finishY : v "states" "y" (n * (t.stages - 1)) = dy
  duration : 0.01 ≤ T ∧ T ≤ 10

/-! ## The bounds -/

section
variable {M : ExplicitModel} {n k : Nat} {dx dy : ℝ}

theorem brach_limits_first {m : String} (hm : m ∈ ["v", "x", "y"]) (h1 : 2 ≤ (layoutOf M n k).numStages) :
    limits (layoutOf M n k) brachBounds (brachBCs dx dy) (.stage 0 "states" m) = (some ((0 : ℝ) : EReal), some ((0 : ℝ) : EReal)) := by
  have e3 : ¬ (1 : Int) = ((layoutOf M n k).numStages : Int) := by omega
  simp only [List.mem_cons, List.not_mem_nil, or_false] at hm
  rcases hm with rfl | rfl | rfl <;>
    simp [limits, lastMention, brachBCs, BC.req, LapSim.fixAt, Req.Mentions, fullName, e3, BArg.lb, BArg.ub, BVal.at]

theorem brach_limits_last {s : Nat} {m : String} (hm : m ∈ ["x", "y"]) (h1 : s + 1 = (layoutOf M n k).numStages) :
    limits (layoutOf M n k) brachBounds (brachBCs dx dy) (.stage s "states" m)
      = if m = "x" then (some (dx : EReal), some (dx : EReal)) else (some (dy : EReal), some (dy : EReal)) := by
  have e3 : (-1 : Int) = (s : Int) - ((layoutOf M n k).numStages : Int) := by omega
  simp only [List.mem_cons, List.not_mem_nil, or_false] at hm
  rcases hm with rfl | rfl <;>
    simp [limits, lastMention, brachBCs, BC.req, LapSim.fixAt, Req.Mentions, fullName, ← e3, BArg.lb, BArg.ub, BVal.at]

theorem brach_limits_mid {s : Nat} {m : String} (hm : m ∈ ["v", "x", "y"]) (h0 : s ≠ 0)
    (hs : s < (layoutOf M n k).numStages) (h1 : m = "v" ∨ s + 1 < (layoutOf M n k).numStages) :
    limits (layoutOf M n k) brachBounds (brachBCs dx dy) (.stage s "states" m) = (some ⊥, some ⊤) := by
  have e0 : ¬ (0 : Int) = (s : Int) := by omega
  have e2 : ¬ (-1 : Int) = (s : Int) := by omega
  have e1 : ¬ (0 : Int) = (s : Int) - ((layoutOf M n k).numStages : Int) := by omega
  have e3 : m ≠ "v" → ¬ (-1 : Int) = (s : Int) - ((layoutOf M n k).numStages : Int) := by
    intro hne
    rcases h1 with h1 | h1
    · exact absurd h1 hne
    · omega
  simp only [List.mem_cons, List.not_mem_nil, or_false] at hm
  rcases hm with rfl | rfl | rfl
  · simp [limits, lastMention, brachBCs, brachBounds, BC.req, BoundConfig.req, LapSim.fixAt, LapSim.bound, Req.Mentions, fullName, e0, e1]
  · have e3 := e3 (by decide)
    simp [limits, lastMention, brachBCs, brachBounds, BC.req, BoundConfig.req, LapSim.fixAt, LapSim.bound, Req.Mentions, fullName, e0, e1, e2, e3]
  · have e3 := e3 (by decide)
    simp [limits, lastMention, brachBCs, brachBounds, BC.req, BoundConfig.req, LapSim.fixAt, LapSim.bound, Req.Mentions, fullName, e0, e1, e2, e3]

theorem brach_limits_angle {s : Nat} :
    limits (layoutOf M n k) brachBounds (brachBCs dx dy) (.stage s "inputs" "theta")
      = (some ((-Real.pi / 2 : ℝ) : EReal), some ((Real.pi / 2 : ℝ) : EReal)) := by
  simp [limits, lastMention, brachBCs, brachBounds, BC.req, BoundConfig.req, LapSim.fixAt, LapSim.bound, Req.Mentions,
    fullName, BArg.lb, BArg.ub, BVal.at]

theorem brach_limits_dots {s : Nat} {m : String} (hm : m ∈ ["v", "x", "y"]) :
    limits (layoutOf M n k) brachBounds (brachBCs dx dy) (.stage s "states_dot" m) = (some ⊥, some ⊤) := by
  simp only [List.mem_cons, List.not_mem_nil, or_false] at hm
  rcases hm with rfl | rfl | rfl <;> simp [limits, lastMention, brachBCs, brachBounds, BC.req, BoundConfig.req, LapSim.fixAt, LapSim.bound, Req.Mentions,
    fullName]

theorem brach_limits_scale :
    limits (layoutOf M n k) brachBounds (brachBCs dx dy) (.glob "mesh_scale") = (some ((0.01 : ℝ) : EReal), some ((10 : ℝ) : EReal)) := by
  simp [limits, lastMention, brachBCs, brachBounds, BC.req, BoundConfig.req, LapSim.fixAt, LapSim.bound, Req.Mentions,
    BArg.lb, BArg.ub, BVal.at]

end

/-- The bounds and boundary conditions are accepted on every mesh. -/
theorem brach_bounds_accepted (g dx dy : ℝ) (n : Nat) {k : Nat} (hk : 1 ≤ k) :
    ∃ s t, Bounds.updateBounds (layoutOf (timeModel g) n k) (Bounds.fresh (layoutOf (timeModel g) n k)) brachBounds = (s, none) ∧
      Bounds.updateBCs (layoutOf (timeModel g) n k) s (brachBCs dx dy) = (t, none) := by
  have hL := layoutOf_made (timeModel_good g) n hk
  have N := numStages_pos (layoutOf (timeModel g) n k)
  have vs : ∀ m ∈ ["v", "x", "y"], (layoutOf (timeModel g) n k).IsVar (.stage 0 "states" m) :=
    fun m hm => isVar_stage _ n k (by simp) hm N
  have vi : ∀ m ∈ ["theta"], (layoutOf (timeModel g) n k).IsVar (.stage 0 "inputs" m) :=
    fun m hm => isVar_stage _ n k (by simp) hm N
  have pi := Real.pi_pos
  refine accepted_of (LapSim.setAll_none ?_) (LapSim.setAll_none ?_)
  · intro r hr s
    obtain ⟨c, hcm, rfl⟩ := List.mem_map.mp hr
    simp only [brachBounds, List.mem_cons, List.not_mem_nil, or_false] at hcm
    rcases hcm with rfl | rfl
    · exact setVarBounds_global (by simp [layoutOf, LapSim.bound, BoundConfig.req]) s (EReal.coe_le_coe_iff.mpr (by norm_num))
    · exact LapSim.setVarBounds_scalar hL (vi _ (by simp [LapSim.bound, BoundConfig.req])) s (EReal.coe_le_coe_iff.mpr (by linarith))
  · intro r hr s
    obtain ⟨c, hcm, rfl⟩ := List.mem_map.mp hr
    simp only [brachBCs, List.mem_cons, List.not_mem_nil, or_false] at hcm
    rcases hcm with rfl | rfl | rfl | rfl | rfl
    iterate 3 exact LapSim.setVarBounds_first hL (vs _ (by simp [LapSim.fixAt, BC.req])) s _
    iterate 2 exact setVarBounds_last hL (vs _ (by simp [LapSim.fixAt, BC.req])) s _

/-! ## The problem -/

section
variable {g : ℝ} {c : Bool} {D : List ℝ → ℝ → Nat → Nat → ℝ} {D2 : List ℝ → List ℝ → ℝ → Nat → Nat → ℝ} {backend name : String}
  {kwargs : List (String × Int)} {n : Nat} {pts : Option (List ℝ)} {dx dy : ℝ} {S : Setup}

/-- Whatever the backend, the unit problem is right. -/
theorem timeUnit_right {u : UnitProblem} (hD : (timeModel g).DenseJac D) (hD2 : (timeModel g).DenseHess D2)
    (h : timeUnit g c D D2 backend = .ok u) : Fits (timeModel g) u ∧ OCP.UnitJac u ∧ OCP.UnitHess u Upper := by
  by_cases h1 : backend = "jax"
  · subst h1
    rw [timeUnit_jax, Except.ok.injEq] at h
    subst h
    exact ⟨fits_unitOf _ _ _, ExplicitModel.unitOf_jac (timeModel_good g) hD _, unitOf_upper (timeModel_good g) hD hD2⟩
  · by_cases h2 : backend = "custom"
    · subst h2
      cases c with
      | false => cases h
      | true =>
        rw [timeUnit_custom, Except.ok.injEq] at h
        subst h
        refine ⟨⟨rfl, rfl, rfl⟩, customUnit_jac g, fun μ => ?_⟩
        have := customUnit_hess g μ
        exact ⟨this.1, fun y lam hy hl => ⟨(this.2 y lam hy hl).1, fun _ => IsHessianAt.weaken ((this.2 y lam hy hl).2 trivial) fun _ _ _ => trivial⟩⟩
    · unfold timeUnit at h
      rw [if_neg h1, if_neg h2] at h
      cases h

theorem brach_made (hn : 1 ≤ n) (h : brachSetup g c D D2 backend name kwargs n pts dx dy = .ok S) :
    ∃ u t, timeUnit g c D D2 backend = .ok u ∧ makeTranscription name kwargs = .ok t ∧ Made (timeModel g) u t n pts S ∧
      S.bounds = brachBounds ∧ S.bcs = brachBCs dx dy ∧ S.scales = [] := by
  unfold brachSetup at h
  obtain ⟨u, hu, h⟩ := Config.bind_ok h
  obtain ⟨t, h1, h2, h3⟩ := front_inv (timeModel_good g) hn h
  exact ⟨u, t, hu, h1, h2, h3⟩

theorem brach_good (hD : (timeModel g).DenseJac D) (hD2 : (timeModel g).DenseHess D2) (hn : 1 ≤ n)
    (h : brachSetup g c D D2 backend name kwargs n pts dx dy = .ok S) : S.Good := by
  obtain ⟨u, t, hu, ht, hm, hb, hbc, hs⟩ := brach_made hn h
  obtain ⟨r1, r2, r3⟩ := timeUnit_right hD hD2 hu
  refine hm.good r1 (timeModel_good g) ht hn r2 r3 (fun _ _ _ _ => rfl) (fun _ _ _ _ => rfl) (fun _ _ _ _ => rfl)
    (by rw [hs]; simp) (by rw [hs]; simp) ?_
  rw [hb, hbc, hm.layout]
  exact brach_bounds_accepted g dx dy n (by have := (C38_shapes ht).1; omega)

theorem brach_feasible {u : UnitProblem} {t : Transcription} {A : List ℝ → ℝ → Prop} (hm : Made (timeModel g) u t n pts S) (hS : S.Good A) {b : Built}
    (hb : S.build = .ok b) {x : List ℝ} (hx : x.length = S.c.o.L.numDec) :
    b.Feasible (vdiv x b.prob.scales) ↔
      (∀ i, i < n → ∀ m ∈ (timeModel g).states, Steps t (fun j => readAt S.c.o.L x "states" m (i * (t.stages - 1) + j))
        (fun j => readAt S.c.o.L x "states_dot" m (i * (t.stages - 1) + j))
        (((pointsOf n pts).getD (i + 1) 0 - (pointsOf n pts).getD i 0) * readScale S.c.o x)) ∧
      ∀ s, s < S.c.o.L.numStages → readAt S.c.o.L x "states_dot" "v" s = -g * Real.sin (readAt S.c.o.L x "inputs" "theta" s) ∧
        readAt S.c.o.L x "states_dot" "x" s = Real.cos (readAt S.c.o.L x "inputs" "theta" s) * readAt S.c.o.L x "states" "v" s ∧
        readAt S.c.o.L x "states_dot" "y" s = Real.sin (readAt S.c.o.L x "inputs" "theta" s) * readAt S.c.o.L x "states" "v" s := by
  have hcd := hm.plain.2.2.2
  have eS : S.c.o.L.namesOf "states" = ["v", "x", "y"] := by rw [hm.layout]; rfl
  have eI : S.c.o.L.namesOf "inputs" = ["theta"] := by rw [hm.layout]; rfl
  have eD : S.c.o.L.namesOf "states_dot" = ["v", "x", "y"] := by rw [hm.layout]; rfl
  have eY : S.c.o.L.namesOf "con_outputs" = [] := by rw [hm.layout]; rfl
  have eM : S.c.M = timeModel g := hm.model
  have dyn : ∀ s μ, S.c.M.f (readGroup S.c.o.L x "states" s) (readGroup S.c.o.L x "inputs" s) μ = readGroup S.c.o.L x "states_dot" s ↔
      (-g * Real.sin (readAt S.c.o.L x "inputs" "theta" s) = readAt S.c.o.L x "states_dot" "v" s ∧
      Real.cos (readAt S.c.o.L x "inputs" "theta" s) * readAt S.c.o.L x "states" "v" s = readAt S.c.o.L x "states_dot" "x" s ∧
      Real.sin (readAt S.c.o.L x "inputs" "theta" s) * readAt S.c.o.L x "states" "v" s = readAt S.c.o.L x "states_dot" "y" s) := by
    intro s μ
    simp [readGroup, eS, eI, eD, eM, timeModel]
  have out : ∀ s μ, S.c.M.h (readGroup S.c.o.L x "states" s) (readGroup S.c.o.L x "inputs" s) μ = readGroup S.c.o.L x "con_outputs" s := by
    intro s μ
    simp [readGroup, eY, eM, timeModel]
  rw [C47_lifted hS hcd hb hx]
  constructor
  · rintro ⟨d1, d2, d3, _, _⟩
    refine ⟨(hm.defects x).mp d1, fun s hs => ?_⟩
    obtain ⟨a1, a2, a3⟩ := (dyn s _).mp (d2 s hs)
    exact ⟨a1.symm, a2.symm, a3.symm⟩
  · rintro ⟨d1, d2⟩
    refine ⟨(hm.defects x).mpr d1, ?_, ?_, ?_, ?_⟩
    · intro s hs
      obtain ⟨a1, a2, a3⟩ := d2 s hs
      exact (dyn s _).mpr ⟨a1.symm, a2.symm, a3.symm⟩
    · intro s hs
      exact out s _
    · intro s _ v hv
      rw [eM] at hv
      simp [timeModel] at hv
    · rw [hm.plain.2.2.1]; simp

/-- **C78** (the problem). Whatever the backend ("jax" with true derivatives, or "custom"), transcription and mesh, the problem is built;
its feasible points within the bounds are exactly the discretised slides from rest at the origin to `(dx, dy)`, and its objective is the
duration. -/
theorem C78_problem (hD : (timeModel g).DenseJac D) (hD2 : (timeModel g).DenseHess D2) (hn : 1 ≤ n)
    (h : brachSetup g c D D2 backend name kwargs n pts dx dy = .ok S) : ∃ t b, makeTranscription name kwargs = .ok t ∧ S.build = .ok b ∧
      ∀ x : List ℝ, x.length = S.c.o.L.numDec →
        ((b.Feasible (vdiv x b.prob.scales) ∧ Within b.bounds.lb b.bounds.ub x) ↔
          Slide g dx dy t n (pointsOf n pts) (fun grp m s => readAt S.c.o.L x grp m s) (readScale S.c.o x)) ∧
        b.prob.objective (vdiv x b.prob.scales) = .ok (readScale S.c.o x) := by
  obtain ⟨u, t, hu, ht, hm, hbd, hbc, hsc⟩ := brach_made hn h
  have hS := brach_good hD hD2 hn h
  obtain ⟨h2, _⟩ := C38_shapes ht
  obtain ⟨b, hb, _⟩ := C47_build hS
  refine ⟨t, b, ht, hb, ?_⟩
  intro x hx
  have hcd := hm.plain.2.2.2
  have eG : S.c.o.L.globals = ["mesh_scale"] := by rw [hm.layout]; rfl
  have hNs := hm.stages
  have hN2 : 2 ≤ S.c.o.L.numStages := by
    rw [hNs]
    have : 1 ≤ n * (t.stages - 1) := Nat.mul_pos hn (by omega)
    omega
  have hle : ∀ s, s ≤ n * (t.stages - 1) ↔ s < S.c.o.L.numStages := by intro s; rw [hNs]; omega
  have k1 := brach_feasible hm hS hb hx
  have k2 : Within b.bounds.lb b.bounds.ub x ↔
      (∀ m ∈ ["v", "x", "y"], readAt S.c.o.L x "states" m 0 = 0) ∧
      readAt S.c.o.L x "states" "x" (S.c.o.L.numStages - 1) = dx ∧ readAt S.c.o.L x "states" "y" (S.c.o.L.numStages - 1) = dy ∧
      (∀ s < S.c.o.L.numStages, |readAt S.c.o.L x "inputs" "theta" s| ≤ Real.pi / 2) ∧ 0.01 ≤ readScale S.c.o x ∧ readScale S.c.o x ≤ 10 := by
    rw [within_iff hS hcd hm.free eG hb hx, hbd, hbc]
    have hL := hm.layout
    have e10 : (-Real.pi / 2 : ℝ) = -(Real.pi / 2) := by ring
    have isS : ∀ s m, s < S.c.o.L.numStages → m ∈ ["v", "x", "y"] → S.c.o.L.IsVar (.stage s "states" m) := by
      intro s m hs hmem
      rw [hL, isVar_iff]; rw [hL] at hs; exact ⟨hs, Or.inl ⟨rfl, hmem⟩⟩
    constructor
    · rintro ⟨w1, w2⟩
      refine ⟨?_, ?_, ?_, ?_, ?_⟩
      · intro m hmem
        have w := w1 0 "states" m (isS 0 m (by omega) hmem)
        rw [hL] at w
        rw [brach_limits_first hmem (by rw [← hL]; exact hN2), inside_fix] at w
        rw [hL]; exact w
      · have w := w1 (S.c.o.L.numStages - 1) "states" "x" (isS _ _ (by omega) (by simp))
        have e : S.c.o.L.numStages - 1 + 1 = S.c.o.L.numStages := by omega
        rw [hL] at w e ⊢
        rw [brach_limits_last (by simp) e, if_pos rfl, inside_fix] at w
        exact w
      · have w := w1 (S.c.o.L.numStages - 1) "states" "y" (isS _ _ (by omega) (by simp))
        have e : S.c.o.L.numStages - 1 + 1 = S.c.o.L.numStages := by omega
        rw [hL] at w e ⊢
        rw [brach_limits_last (by simp) e, if_neg (by decide), inside_fix] at w
        exact w
      · intro s hs
        have w := w1 s "inputs" "theta" (by rw [hL, isVar_iff]; rw [hL] at hs; exact ⟨hs, Or.inr (Or.inl ⟨rfl, by simp [timeModel]⟩)⟩)
        rw [hL] at w ⊢
        rw [brach_limits_angle, e10] at w
        exact abs_inside.mp w
      · rw [hL, brach_limits_scale] at w2
        exact inside_coe.mp w2
    · rintro ⟨w0, wx, wy, wa, wT⟩
      constructor
      · intro s gr m hv
        rw [hL, isVar_iff, ← hL] at hv
        obtain ⟨hs, (⟨rfl, hmem⟩ | ⟨rfl, hmem⟩ | ⟨rfl, hmem⟩ | ⟨rfl, hmem⟩)⟩ := hv
        · have hmem : m ∈ ["v", "x", "y"] := hmem
          by_cases h0 : s = 0
          · subst h0
            rw [hL, brach_limits_first hmem (by rw [← hL]; exact hN2), inside_fix, ← hL]
            exact w0 m hmem
          · by_cases h1 : m = "v" ∨ s + 1 < S.c.o.L.numStages
            · rw [hL, brach_limits_mid hmem h0 (by rw [← hL]; exact hs) (by rw [← hL]; exact h1), inside_free]; trivial
            · push Not at h1
              have e : s = S.c.o.L.numStages - 1 := by omega
              have e' : s + 1 = S.c.o.L.numStages := by omega
              have hxy : m = "x" ∨ m = "y" := by
                simp only [List.mem_cons, List.not_mem_nil, or_false] at hmem
                tauto
              rcases hxy with rfl | rfl
              · rw [hL, brach_limits_last (by simp) (by rw [← hL]; exact e'), if_pos rfl, inside_fix, ← hL, e]; exact wx
              · rw [hL, brach_limits_last (by simp) (by rw [← hL]; exact e'), if_neg (by decide), inside_fix, ← hL, e]; exact wy
        · have hmem : m ∈ ["theta"] := hmem
          rw [List.mem_singleton] at hmem
          subst hmem
          rw [hL, brach_limits_angle, e10, abs_inside, ← hL]
          exact wa s hs
        · rw [hL, brach_limits_dots hmem, inside_free]; trivial
        · exact absurd hmem (by simp [timeModel])
      · rw [hL, brach_limits_scale]
        exact inside_coe.mpr wT
  have e1 : S.c.o.L.numStages - 1 = n * (t.stages - 1) := by omega
  refine ⟨?_, ?_⟩
  · rw [k1, k2, e1]
    constructor
    · rintro ⟨⟨c1, c2⟩, w0, wx, wy, wa, wT⟩
      exact ⟨fun s hs => (c2 s ((hle s).mp hs)).1, fun s hs => (c2 s ((hle s).mp hs)).2.1, fun s hs => (c2 s ((hle s).mp hs)).2.2, c1,
        fun s hs => wa s ((hle s).mp hs), w0, wx, wy, wT⟩
    · intro f
      exact ⟨⟨f.steps, fun s hs => ⟨f.accel s ((hle s).mpr hs), f.velX s ((hle s).mpr hs), f.velY s ((hle s).mpr hs)⟩⟩, f.start, f.finishX,
        f.finishY, fun s hs => f.angle s ((hle s).mpr hs), f.duration⟩
  · rw [C47_objective hS hb hx, hm.free, hm.plain.2.1]
    simp

end

end Lumos.Sim
