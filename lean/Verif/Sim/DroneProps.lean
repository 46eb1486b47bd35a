import Verif.Sim.Read
import Verif.Sim.Drone
/-!
# C77: the problem that `DroneSimulation` poses
-/

namespace Lumos.Sim

open Lumos DecVar DecVar.Layout Bounds Ocp Lumos.Trans NLP

/-! ## Specification -/

/-- A flight of the drone in the plane, discretised by a transcription with `k` stages per interval on the interval points `p`, for the
values `v group name stage` and the duration `T`: the equations of motion at every stage, the transcription's equations for every state
in every interval, and the default bounds and boundary conditions. -/
structure Flight (g : ℝ) (t : Transcription) (n : Nat) (p : List ℝ) (v : String → String → Nat → ℝ) (T : ℝ) : Prop where
  velX : ∀ s, s ≤ n * (t.stages - 1) → v "states_dot" "x" s = v "states" "x_dot" s
  accX : ∀ s, s ≤ n * (t.stages - 1) → v "states_dot" "x_dot" s = v "inputs" "f" s * Real.sin (v "states" "theta" s)
  velZ : ∀ s, s ≤ n * (t.stages - 1) → v "states_dot" "z" s = v "states" "z_dot" s
  accZ : ∀ s, s ≤ n * (t.stages - 1) → v "states_dot" "z_dot" s = v "inputs" "f" s * Real.cos (v "states" "theta" s) - g
  turn : ∀ s, s ≤ n * (t.stages - 1) → v "states_dot" "theta" s = v "inputs" "omega" s
  output : ∀ s, s ≤ n * (t.stages - 1) → v "con_outputs" "sin_theta" s = Real.sin (v "states" "theta" s)
  steps : ∀ i, i < n → ∀ m ∈ ["x", "x_dot", "z", "z_dot", "theta"], Steps t (fun j => v "states" m (i * (t.stages - 1) + j))
    (fun j => v "states_dot" m (i * (t.stages - 1) + j)) ((p.getD (i + 1) 0 - p.getD i 0) * T)
  box : ∀ s, s ≤ n * (t.stages - 1) → ∀ m ∈ ["x", "x_dot", "z", "z_dot"], |v "states" m s| ≤ 50
  angle : ∀ s, s ≤ n * (t.stages - 1) → |v "states" "theta" s| ≤ 10 * Real.pi
  thrust : ∀ s, s ≤ n * (t.stages - 1) → 1 ≤ v "inputs" "f" s ∧ v "inputs" "f" s ≤ 20
  rate : ∀ s, s ≤ n * (t.stages - 1) → |v "inputs" "omega" s| ≤ 10
  start : ∀ m ∈ ["x", "x_dot", "z", "z_dot", "theta"], v "states" m 0 = 0
  finish : ∀ m ∈ ["x", "x_dot", "z_dot"], v "states" m (n * (t.stages - 1)) = 0
  height : v "states" "z" (n * (t.stages - 1)) = 5
  flip : v "states" "theta" (n * (t.stages - 1)) = 2 * Real.pi
  duration : 0.1 ≤ T ∧ T ≤ 50

/-! ## The bounds -/

section
variable {M : ExplicitModel} {n k : Nat}

theorem drone_limits_mid {s : Nat} {m : String} (hm : m ∈ ["x", "x_dot", "z", "z_dot", "theta"]) (h0 : s ≠ 0)
    (h1 : s + 1 < (layoutOf M n k).numStages) :
    limits (layoutOf M n k) Config.droneBounds droneBCs (.stage s "states" m)
      = if m = "theta" then (some (((-10 * Real.pi : ℝ)) : EReal), some ((10 * Real.pi : ℝ) : EReal))
        else (some ((-50 : ℝ) : EReal), some ((50 : ℝ) : EReal)) := by
  have e0 : ¬ (0 : Int) = (s : Int) := by omega
  have e1 : ¬ (0 : Int) = (s : Int) - ((layoutOf M n k).numStages : Int) := by omega
  have e2 : ¬ (-1 : Int) = (s : Int) := by omega
  have e3 : ¬ (-1 : Int) = (s : Int) - ((layoutOf M n k).numStages : Int) := by omega
  simp only [List.mem_cons, List.not_mem_nil, or_false] at hm
  rcases hm with rfl | rfl | rfl | rfl | rfl <;>
    simp [limits, lastMention, droneBCs, Config.droneBounds, BC.req, BoundConfig.req, LapSim.fixAt, LapSim.bound, Req.Mentions,
      fullName, e0, e1, e2, e3, BArg.lb, BArg.ub, BVal.at]

theorem drone_limits_first {m : String} (hm : m ∈ ["x", "x_dot", "z", "z_dot", "theta"]) (h1 : 2 ≤ (layoutOf M n k).numStages) :
    limits (layoutOf M n k) Config.droneBounds droneBCs (.stage 0 "states" m) = (some ((0 : ℝ) : EReal), some ((0 : ℝ) : EReal)) := by
  have e3 : ¬ (1 : Int) = ((layoutOf M n k).numStages : Int) := by omega
  simp only [List.mem_cons, List.not_mem_nil, or_false] at hm
  rcases hm with rfl | rfl | rfl | rfl | rfl <;>
    simp [limits, lastMention, droneBCs, BC.req, LapSim.fixAt, Req.Mentions,
      fullName, e3, BArg.lb, BArg.ub, BVal.at]

theorem drone_limits_last {s : Nat} {m : String} (hm : m ∈ ["x", "x_dot", "z", "z_dot", "theta"])
    (h1 : s + 1 = (layoutOf M n k).numStages) :
    limits (layoutOf M n k) Config.droneBounds droneBCs (.stage s "states" m)
      = if m = "theta" then (some ((2 * Real.pi : ℝ) : EReal), some ((2 * Real.pi : ℝ) : EReal))
        else if m = "z" then (some ((5 : ℝ) : EReal), some ((5 : ℝ) : EReal)) else (some ((0 : ℝ) : EReal), some ((0 : ℝ) : EReal)) := by
  have e3 : (-1 : Int) = (s : Int) - ((layoutOf M n k).numStages : Int) := by omega
  simp only [List.mem_cons, List.not_mem_nil, or_false] at hm
  rcases hm with rfl | rfl | rfl | rfl | rfl <;>
    simp [limits, lastMention, droneBCs, BC.req, LapSim.fixAt, Req.Mentions,
      fullName, ← e3, BArg.lb, BArg.ub, BVal.at]

theorem drone_limits_inputs {s : Nat} {m : String} (hm : m ∈ ["f", "omega"]) :
    limits (layoutOf M n k) Config.droneBounds droneBCs (.stage s "inputs" m)
      = if m = "f" then (some ((1 : ℝ) : EReal), some ((20 : ℝ) : EReal)) else (some ((-10 : ℝ) : EReal), some ((10 : ℝ) : EReal)) := by
  simp only [List.mem_cons, List.not_mem_nil, or_false] at hm
  rcases hm with rfl | rfl <;>
    simp [limits, lastMention, droneBCs, Config.droneBounds, BC.req, BoundConfig.req, LapSim.fixAt, LapSim.bound, Req.Mentions,
      fullName, BArg.lb, BArg.ub, BVal.at]

theorem drone_limits_dots {s : Nat} {m : String} (hm : m ∈ ["x", "x_dot", "z", "z_dot", "theta"]) :
    limits (layoutOf M n k) Config.droneBounds droneBCs (.stage s "states_dot" m) = (some ⊥, some ⊤) := by
  simp only [List.mem_cons, List.not_mem_nil, or_false] at hm
  rcases hm with rfl | rfl | rfl | rfl | rfl <;>
    simp [limits, lastMention, droneBCs, Config.droneBounds, BC.req, BoundConfig.req, LapSim.fixAt, LapSim.bound, Req.Mentions,
      fullName]

theorem drone_limits_output {s : Nat} :
    limits (layoutOf M n k) Config.droneBounds droneBCs (.stage s "con_outputs" "sin_theta") = (some ⊥, some ⊤) := by
  simp [limits, lastMention, droneBCs, Config.droneBounds, BC.req, BoundConfig.req, LapSim.fixAt, LapSim.bound, Req.Mentions,
    fullName]

theorem drone_limits_scale :
    limits (layoutOf M n k) Config.droneBounds droneBCs (.glob "mesh_scale") = (some ((0.1 : ℝ) : EReal), some ((50 : ℝ) : EReal)) := by
  simp [limits, lastMention, droneBCs, Config.droneBounds, BC.req, BoundConfig.req, LapSim.fixAt, LapSim.bound, Req.Mentions,
    BArg.lb, BArg.ub, BVal.at]

end

/-! ## The problem -/

theorem within_drone {N : Nat} {v : String → String → Nat → ℝ} (hN : 2 ≤ N) :
    (∀ s < N, ∀ m ∈ ["x", "x_dot", "z", "z_dot", "theta"], (s = 0 → v "states" m s = 0) ∧
      (s + 1 = N → v "states" m s = if m = "theta" then 2 * Real.pi else if m = "z" then 5 else 0) ∧
      (s ≠ 0 → s + 1 < N → |v "states" m s| ≤ if m = "theta" then 10 * Real.pi else 50)) ↔
    (∀ s < N, ∀ m ∈ ["x", "x_dot", "z", "z_dot"], |v "states" m s| ≤ 50) ∧ (∀ s < N, |v "states" "theta" s| ≤ 10 * Real.pi) ∧
    (∀ m ∈ ["x", "x_dot", "z", "z_dot", "theta"], v "states" m 0 = 0) ∧
    (∀ m ∈ ["x", "x_dot", "z_dot"], v "states" m (N - 1) = 0) ∧ v "states" "z" (N - 1) = 5 ∧ v "states" "theta" (N - 1) = 2 * Real.pi := by
  have pi := Real.pi_pos
  constructor
  · intro h
    have first : ∀ m ∈ ["x", "x_dot", "z", "z_dot", "theta"], v "states" m 0 = 0 := fun m hm => (h 0 (by omega) m hm).1 rfl
    have last : ∀ m ∈ ["x", "x_dot", "z", "z_dot", "theta"], v "states" m (N - 1) = if m = "theta" then 2 * Real.pi else if m = "z" then 5 else 0 :=
      fun m hm => (h (N - 1) (by omega) m hm).2.1 (by omega)
    have all : ∀ s < N, ∀ m ∈ ["x", "x_dot", "z", "z_dot", "theta"], |v "states" m s| ≤ if m = "theta" then 10 * Real.pi else 50 := by
      intro s hs m hm
      have hpos : (0 : ℝ) ≤ if m = "theta" then 10 * Real.pi else 50 := by split <;> positivity
      by_cases h0 : s = 0
      · rw [h0, first m hm, abs_zero]; exact hpos
      · by_cases h1 : s + 1 = N
        · have : s = N - 1 := by omega
          rw [this, last m hm]
          split
          · rw [abs_of_pos (by positivity)]; linarith
          · split
            · rw [abs_of_pos (by norm_num)]; norm_num
            · simp
        · exact (h s hs m hm).2.2 h0 (by omega)
    refine ⟨?_, ?_, first, ?_, ?_, ?_⟩
    · intro s hs m hm
      have hm' : m ∈ ["x", "x_dot", "z", "z_dot", "theta"] := by simp at hm ⊢; tauto
      have hne : m ≠ "theta" := by rintro rfl; simp at hm
      have := all s hs m hm'
      rwa [if_neg hne] at this
    · intro s hs
      have := all s hs "theta" (by simp)
      rwa [if_pos rfl] at this
    · intro m hm
      have hm' : m ∈ ["x", "x_dot", "z", "z_dot", "theta"] := by simp at hm ⊢; tauto
      have h1 : m ≠ "theta" := by rintro rfl; simp at hm
      have h2 : m ≠ "z" := by rintro rfl; simp at hm
      rw [last m hm', if_neg h1, if_neg h2]
    · simpa using last "z" (by simp)
    · simpa using last "theta" (by simp)
  · rintro ⟨h1, h2, h3, h4, h5, h6⟩ s hs m hm
    refine ⟨?_, ?_, ?_⟩
    · rintro rfl; exact h3 m hm
    · intro e
      have e' : s = N - 1 := by omega
      subst e'
      split
      · next e => subst e; exact h6
      · split
        · next e => subst e; exact h5
        · exact h4 m (by simp_all)
    · intro _ _
      split
      · next e => subst e; exact h2 s hs
      · exact h1 s hs m (by simp_all)


/-- **C77** (the problem). Whatever the transcription and mesh, `DroneSimulation` builds a problem whose feasible points within the
bounds are exactly the discretised flights that start at rest at the origin, do a flip and end at rest 5 m higher, and whose objective,
like `get_total_time`, is the duration. -/
theorem C77_problem {g : ℝ} {name : String} {kwargs : List (String × Int)} {n : Nat} (hn : 1 ≤ n) {pts : Option (List ℝ)} {S : Setup}
    (h : droneSetup g name kwargs n pts = .ok S) : ∃ t b, makeTranscription name kwargs = .ok t ∧ S.build = .ok b ∧
      ∀ x : List ℝ, x.length = S.c.o.L.numDec →
        ((b.Feasible (vdiv x b.prob.scales) ∧ Within b.bounds.lb b.bounds.ub x) ↔
          Flight g t n (pointsOf n pts) (fun grp m s => readAt S.c.o.L x grp m s) (readScale S.c.o x)) ∧
        b.prob.objective (vdiv x b.prob.scales) = .ok (readScale S.c.o x) ∧ droneTime S x = .ok (readScale S.c.o x) := by
  obtain ⟨t, ht, hm, hbd, hbc, hsc⟩ := drone_made hn h
  have hS := drone_good hn h
  obtain ⟨h2, _⟩ := C38_shapes ht
  obtain ⟨b, hb, _⟩ := C47_build hS
  refine ⟨t, b, ht, hb, ?_⟩
  intro x hx
  have hcd := hm.plain.2.2.2
  have eG : S.c.o.L.globals = ["mesh_scale"] := by rw [hm.layout]; rfl
  have hNs := hm.stages
  have hN2 : 2 ≤ S.c.o.L.numStages := by
    rw [hNs]
    have : 1 ≤ n * (t.stages - 1) := Nat.mul_pos hn (by omega)
    omega
  have hle : ∀ s, s ≤ n * (t.stages - 1) ↔ s < S.c.o.L.numStages := by intro s; rw [hNs]; omega
  have eS : S.c.o.L.namesOf "states" = ["x", "x_dot", "z", "z_dot", "theta"] := by rw [hm.layout]; rfl
  have eI : S.c.o.L.namesOf "inputs" = ["f", "omega"] := by rw [hm.layout]; rfl
  have eD : S.c.o.L.namesOf "states_dot" = ["x", "x_dot", "z", "z_dot", "theta"] := by rw [hm.layout]; rfl
  have eY : S.c.o.L.namesOf "con_outputs" = ["sin_theta"] := by rw [hm.layout]; rfl
  have eM : S.c.M = droneModel g := hm.model
  -- the constraints
  have k1 : b.Feasible (vdiv x b.prob.scales) ↔
      (∀ i, i < n → ∀ m ∈ (droneModel g).states, Steps t (fun j => readAt S.c.o.L x "states" m (i * (t.stages - 1) + j))
        (fun j => readAt S.c.o.L x "states_dot" m (i * (t.stages - 1) + j))
        (((pointsOf n pts).getD (i + 1) 0 - (pointsOf n pts).getD i 0) * readScale S.c.o x)) ∧
      ∀ s, s < S.c.o.L.numStages → readAt S.c.o.L x "states_dot" "x" s = readAt S.c.o.L x "states" "x_dot" s ∧
        readAt S.c.o.L x "states_dot" "x_dot" s = readAt S.c.o.L x "inputs" "f" s * Real.sin (readAt S.c.o.L x "states" "theta" s) ∧
        readAt S.c.o.L x "states_dot" "z" s = readAt S.c.o.L x "states" "z_dot" s ∧
        readAt S.c.o.L x "states_dot" "z_dot" s = readAt S.c.o.L x "inputs" "f" s * Real.cos (readAt S.c.o.L x "states" "theta" s) - g ∧
        readAt S.c.o.L x "states_dot" "theta" s = readAt S.c.o.L x "inputs" "omega" s ∧
        readAt S.c.o.L x "con_outputs" "sin_theta" s = Real.sin (readAt S.c.o.L x "states" "theta" s) := by
    have dyn : ∀ s μ, S.c.M.f (readGroup S.c.o.L x "states" s) (readGroup S.c.o.L x "inputs" s) μ = readGroup S.c.o.L x "states_dot" s ↔
        (readAt S.c.o.L x "states" "x_dot" s = readAt S.c.o.L x "states_dot" "x" s ∧
        readAt S.c.o.L x "inputs" "f" s * Real.sin (readAt S.c.o.L x "states" "theta" s) = readAt S.c.o.L x "states_dot" "x_dot" s ∧
        readAt S.c.o.L x "states" "z_dot" s = readAt S.c.o.L x "states_dot" "z" s ∧
        readAt S.c.o.L x "inputs" "f" s * Real.cos (readAt S.c.o.L x "states" "theta" s) - g = readAt S.c.o.L x "states_dot" "z_dot" s ∧
        readAt S.c.o.L x "inputs" "omega" s = readAt S.c.o.L x "states_dot" "theta" s) := by
      intro s μ
      simp [readGroup, eS, eI, eD, eM, droneModel]
    have out : ∀ s μ, S.c.M.h (readGroup S.c.o.L x "states" s) (readGroup S.c.o.L x "inputs" s) μ = readGroup S.c.o.L x "con_outputs" s ↔
        Real.sin (readAt S.c.o.L x "states" "theta" s) = readAt S.c.o.L x "con_outputs" "sin_theta" s := by
      intro s μ
      simp [readGroup, eS, eI, eY, eM, droneModel]
    rw [C47_lifted hS hcd hb hx]
    constructor
    · rintro ⟨d1, d2, d3, _, _⟩
      refine ⟨(hm.defects x).mp d1, fun s hs => ?_⟩
      obtain ⟨a1, a2, a3, a4, a5⟩ := (dyn s _).mp (d2 s hs)
      exact ⟨a1.symm, a2.symm, a3.symm, a4.symm, a5.symm, ((out s _).mp (d3 s hs)).symm⟩
    · rintro ⟨d1, d2⟩
      refine ⟨(hm.defects x).mpr d1, ?_, ?_, ?_, ?_⟩
      · intro s hs
        obtain ⟨a1, a2, a3, a4, a5, _⟩ := d2 s hs
        exact (dyn s _).mpr ⟨a1.symm, a2.symm, a3.symm, a4.symm, a5.symm⟩
      · intro s hs
        exact (out s _).mpr (d2 s hs).2.2.2.2.2.symm
      · intro s _ v hv
        rw [eM] at hv
        simp [droneModel] at hv
      · rw [hm.plain.2.2.1]; simp
  -- the bounds
  have k2 : Within b.bounds.lb b.bounds.ub x ↔
      (∀ s < S.c.o.L.numStages, ∀ m ∈ ["x", "x_dot", "z", "z_dot", "theta"], (s = 0 → readAt S.c.o.L x "states" m s = 0) ∧
        (s + 1 = S.c.o.L.numStages → readAt S.c.o.L x "states" m s = if m = "theta" then 2 * Real.pi else if m = "z" then 5 else 0) ∧
        (s ≠ 0 → s + 1 < S.c.o.L.numStages → |readAt S.c.o.L x "states" m s| ≤ if m = "theta" then 10 * Real.pi else 50)) ∧
      (∀ s < S.c.o.L.numStages, (1 ≤ readAt S.c.o.L x "inputs" "f" s ∧ readAt S.c.o.L x "inputs" "f" s ≤ 20) ∧
        |readAt S.c.o.L x "inputs" "omega" s| ≤ 10) ∧ 0.1 ≤ readScale S.c.o x ∧ readScale S.c.o x ≤ 50 := by
    rw [within_iff hS hcd hm.free eG hb hx, hbd, hbc]
    have hL := hm.layout
    have e10 : (-10 * Real.pi : ℝ) = -(10 * Real.pi) := by ring
    constructor
    · rintro ⟨w1, w2⟩
      refine ⟨?_, ?_, ?_⟩
      · intro s hs m hmem
        have w := w1 s "states" m (by rw [hL, isVar_iff]; rw [hL] at hs; exact ⟨hs, Or.inl ⟨rfl, hmem⟩⟩)
        refine ⟨?_, ?_, ?_⟩
        · rintro rfl
          rw [hL] at w
          rw [drone_limits_first hmem (by rw [← hL]; exact hN2), inside_fix] at w
          rw [hL]; exact w
        · intro e
          rw [hL] at w e
          rw [drone_limits_last hmem e] at w
          rw [hL]
          split_ifs at w ⊢ <;> exact inside_fix.mp w
        · intro e0 e1
          rw [hL] at w e1
          rw [drone_limits_mid hmem e0 e1] at w
          rw [hL]
          split_ifs at w ⊢
          · rw [e10] at w; exact abs_inside.mp w
          · exact abs_inside.mp w
      · intro s hs
        have wf := w1 s "inputs" "f" (by rw [hL, isVar_iff]; rw [hL] at hs; exact ⟨hs, Or.inr (Or.inl ⟨rfl, by simp [droneModel]⟩)⟩)
        have wo := w1 s "inputs" "omega" (by rw [hL, isVar_iff]; rw [hL] at hs; exact ⟨hs, Or.inr (Or.inl ⟨rfl, by simp [droneModel]⟩)⟩)
        rw [hL] at wf wo ⊢
        rw [drone_limits_inputs (by simp)] at wf wo
        simp only [if_true, if_neg (show ¬ "omega" = "f" by decide)] at wf wo
        exact ⟨inside_coe.mp wf, abs_inside.mp wo⟩
      · rw [hL, drone_limits_scale] at w2
        exact inside_coe.mp w2
    · rintro ⟨w1, w2, w3⟩
      constructor
      · intro s gr m hv
        rw [hL, isVar_iff, ← hL] at hv
        obtain ⟨hs, (⟨rfl, hmem⟩ | ⟨rfl, hmem⟩ | ⟨rfl, hmem⟩ | ⟨rfl, hmem⟩)⟩ := hv
        · have hmem : m ∈ ["x", "x_dot", "z", "z_dot", "theta"] := hmem
          obtain ⟨a1, a2, a3⟩ := w1 s hs m hmem
          by_cases h0 : s = 0
          · subst h0
            rw [hL, drone_limits_first hmem (by rw [← hL]; exact hN2), inside_fix, ← hL]
            exact a1 rfl
          · by_cases h1 : s + 1 = S.c.o.L.numStages
            · have := a2 h1
              rw [hL, drone_limits_last hmem (by rw [← hL]; exact h1), ← hL]
              split_ifs at this ⊢ <;> exact inside_fix.mpr this
            · have h1' : s + 1 < S.c.o.L.numStages := by omega
              have := a3 h0 h1'
              rw [hL, drone_limits_mid hmem h0 (by rw [← hL]; exact h1'), ← hL]
              split_ifs at this ⊢
              · rw [e10]; exact abs_inside.mpr this
              · exact abs_inside.mpr this
        · have hmem : m ∈ ["f", "omega"] := hmem
          obtain ⟨a1, a2⟩ := w2 s hs
          rw [hL, drone_limits_inputs hmem, ← hL]
          simp only [List.mem_cons, List.not_mem_nil, or_false] at hmem
          rcases hmem with rfl | rfl
          · rw [if_pos rfl]; exact inside_coe.mpr a1
          · rw [if_neg (by decide)]; exact abs_inside.mpr a2
        · rw [hL, drone_limits_dots hmem, inside_free]; trivial
        · have hmem : m ∈ ["sin_theta"] := hmem
          rw [List.mem_singleton] at hmem
          subst hmem
          rw [hL, drone_limits_output, inside_free]; trivial
      · rw [hL, drone_limits_scale]
        exact inside_coe.mpr w3
  refine ⟨?_, ?_, ?_⟩
  · rw [k1, k2, within_drone (v := fun grp m s => readAt S.c.o.L x grp m s) hN2]
    have eN : S.c.o.L.numStages - 1 = n * (t.stages - 1) := by omega
    rw [eN]
    constructor
    · rintro ⟨⟨a, c⟩, ⟨d1, d2, d3, d4, d5, d6⟩, e, f⟩
      exact ⟨fun s hs => (c s ((hle s).mp hs)).1, fun s hs => (c s ((hle s).mp hs)).2.1, fun s hs => (c s ((hle s).mp hs)).2.2.1,
        fun s hs => (c s ((hle s).mp hs)).2.2.2.1, fun s hs => (c s ((hle s).mp hs)).2.2.2.2.1, fun s hs => (c s ((hle s).mp hs)).2.2.2.2.2,
        a, fun s hs => d1 s ((hle s).mp hs), fun s hs => d2 s ((hle s).mp hs), fun s hs => (e s ((hle s).mp hs)).1,
        fun s hs => (e s ((hle s).mp hs)).2, d3, d4, d5, d6, f⟩
    · rintro ⟨c1, c2, c3, c4, c5, c6, a, d1, d2, e1, e2, d3, d4, d5, d6, f⟩
      refine ⟨⟨a, fun s hs => ?_⟩, ⟨fun s hs => d1 s ((hle s).mpr hs), fun s hs => d2 s ((hle s).mpr hs), d3, d4, d5, d6⟩, fun s hs => ?_, f⟩
      · have := (hle s).mpr hs
        exact ⟨c1 s this, c2 s this, c3 s this, c4 s this, c5 s this, c6 s this⟩
      · exact ⟨e1 s ((hle s).mpr hs), e2 s ((hle s).mpr hs)⟩
  · rw [C47_objective hS hb hx, hm.free, hm.plain.2.1]
    simp
  · obtain ⟨f, hf, _⟩ := OCP.C27_scaled_time_objective hS.cond.ocp hm.free
    obtain ⟨h1, h2⟩ := hf x hx
    show S.c.o.timeObjective x = _
    rw [h1]
    unfold readScale
    rw [hm.free, h2]

end Lumos.Sim
