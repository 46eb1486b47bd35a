import Verif.Fix.Front
/-!
# C106: the brachistochrone example in the distance domain (examples/brachistochrone.py:217-259, 295-312)
-/

namespace Lumos.Fix

open Lumos DecVar DecVar.Layout Bounds Ocp Lumos.Trans NLP Sim Io

/-! ## Model -/

/-- `DistanceModel` as the flat functions the problem uses (brachistochrone.py:236-255); `C106_model` shows that these are the values of
`DistanceModel.forward`. -/
noncomputable def distanceModel (g : ℝ) : ExplicitModel :=
  { states := ["time", "v", "y"], inputs := ["theta"], conOutputs := [], residuals := []
    f := fun x u _ => [1 / (x.getD 1 0 * Real.cos (u.getD 0 0) + 1e-9), -g * Real.sin (u.getD 0 0) / (x.getD 1 0 * Real.cos (u.getD 0 0) + 1e-9),
      Real.tan (u.getD 0 0)]
    h := fun _ _ _ => []
    r := fun _ _ _ => [] }

/-- The boundary conditions of `solve_brachistochrone` in the distance domain (brachistochrone.py:298-303). -/
noncomputable def distBCs (dy : ℝ) : List (BC EReal) :=
  [LapSim.fixAt 0 "states" "time" 0, LapSim.fixAt 0 "states" "v" 1e-3, LapSim.fixAt 0 "states" "y" 0, LapSim.fixAt (-1) "states" "y" dy]

/-- The bounds of `solve_brachistochrone` in the distance domain (brachistochrone.py:304-308). -/
noncomputable def distBounds : List (BoundConfig EReal) :=
  [LapSim.bound "states" "v" 1e-3 100, LapSim.bound "states" "y" (-5) 0, LapSim.bound "inputs" "theta" (-Real.pi / 2.01) (Real.pi / 2.01)]

/-- The problem of `solve_brachistochrone` in the distance domain (brachistochrone.py:295-315) for any transcription and mesh; `u` is what the backend
makes of the model. -/
noncomputable def distSetup (g : ℝ) (u : UnitProblem) (transcription : String) (kwargs : List (String × Int)) (numIntervals : Nat)
    (intervalPoints : Option (List ℝ)) (dx dy : ℝ) : Py Setup :=
  front (distanceModel g) u transcription kwargs numIntervals intervalPoints distBounds (distBCs dy) [] dx

/-- `solve_brachistochrone(dx, dy, time_domain=False)` up to the problem (brachistochrone.py:295-315). -/
noncomputable def solveDistance (u : UnitProblem) (dx dy : ℝ) : Py Setup := distSetup 9.81 u "LGR" [] 49 none dx dy

/-! ## Specification -/

/-- A slide of a bead over the distance from the origin to height `dy`, discretised by a transcription on intervals of the lengths `len i`, for the values
`v group name stage`. The state derivatives are with respect to the distance. -/
structure Descent (g dy : ℝ) (t : Transcription) (n : Nat) (len : Nat → ℝ) (v : String → String → Nat → ℝ) : Prop where
  clock : ∀ s, s ≤ n * (t.stages - 1) → v "states_dot" "time" s = 1 / (v "states" "v" s * Real.cos (v "inputs" "theta" s) + 1e-9)
  accel : ∀ s, s ≤ n * (t.stages - 1) → v "states_dot" "v" s
    = -g * Real.sin (v "inputs" "theta" s) / (v "states" "v" s * Real.cos (v "inputs" "theta" s) + 1e-9)
  slope : ∀ s, s ≤ n * (t.stages - 1) → v "states_dot" "y" s = Real.tan (v "inputs" "theta" s)
  steps : ∀ i, i < n → ∀ m ∈ ["time", "v", "y"], Steps t (fun j => v "states" m (i * (t.stages - 1) + j))
    (fun j => v "states_dot" m (i * (t.stages - 1) + j)) (len i)
  speed : ∀ s, s ≤ n * (t.stages - 1) → 1e-3 ≤ v "states" "v" s ∧ v "states" "v" s ≤ 100
  height : ∀ s, s < n * (t.stages - 1) → -5 ≤ v "states" "y" s ∧ v "states" "y" s ≤ 0
  angle : ∀ s, s ≤ n * (t.stages - 1) → |v "inputs" "theta" s| ≤ Real.pi / 2.01
  start : v "states" "time" 0 = 0 ∧ v "states" "v" 0 = 1e-3 ∧ v "states" "y" 0 = 0
  finish : v "states" "y" (n * (t.stages - 1)) = dy

/-! ## The model -/

/-- **C106** (the model). The flat functions are the state derivatives of `DistanceModel.forward`: those of `TimeModel` divided by the horizontal velocity,
but for 1e-9 added to it. -/
theorem C106_model (g T a b θ μ : ℝ) : ∃ r,
    (Mdl.node (distanceCls g) []).eval ⟨some [("time", T), ("v", a), ("y", b)], some [("theta", θ)], some μ⟩ = .ok r ∧
      r.statesDot.map Prod.snd = (distanceModel g).f [T, a, b] [θ] μ ∧ r.statesDot.map Prod.fst = (distanceModel g).states ∧
      ∀ p, ∃ r' v' x' y', (Mdl.node (timeCls g) []).eval ⟨some [("v", a), ("x", p), ("y", b)], some [("theta", θ)], some μ⟩ = .ok r' ∧
        r'.statesDot = [("v", v'), ("x", x'), ("y", y')] ∧
        r.statesDot.lookup "time" = some (1 / (x' + 1e-9)) ∧ r.statesDot.lookup "v" = some (v' / (x' + 1e-9)) ∧
        (x' ≠ 0 → r.statesDot.lookup "y" = some (y' / x')) := by
  refine ⟨_, rfl, rfl, rfl, fun p => ⟨_, _, _, _, rfl, rfl, ?_, ?_, fun hx => ?_⟩⟩
  · rw [mul_comm (Real.cos θ)]; rfl
  · rw [mul_comm (Real.cos θ)]; rfl
  · have ha : a ≠ 0 := fun h => hx (by rw [h]; simp)
    rw [mul_div_mul_right _ _ ha, ← Real.tan_eq_sin_div_cos]
    rfl

theorem distanceModel_good (g : ℝ) : (distanceModel g).Good :=
  ⟨by simp [distanceModel, ExplicitModel.nx], by simp [distanceModel], by simp [distanceModel], by simp [distanceModel], fun _ _ _ _ _ => rfl,
    fun _ _ _ _ _ => rfl, fun _ _ _ _ _ => rfl⟩

/-! ## The bounds -/

section
variable {M : ExplicitModel} {n k : Nat} {dy : ℝ}

theorem dist_first (h1 : 2 ≤ (Lts.layoutOf M n k).numStages) :
    limits (Lts.layoutOf M n k) distBounds (distBCs dy) (.stage 0 "states" "time") = (some ((0 : ℝ) : EReal), some ((0 : ℝ) : EReal)) ∧
    limits (Lts.layoutOf M n k) distBounds (distBCs dy) (.stage 0 "states" "v") = (some ((1e-3 : ℝ) : EReal), some ((1e-3 : ℝ) : EReal)) ∧
    limits (Lts.layoutOf M n k) distBounds (distBCs dy) (.stage 0 "states" "y") = (some ((0 : ℝ) : EReal), some ((0 : ℝ) : EReal)) := by
  have e3 : ¬ (1 : Int) = ((Lts.layoutOf M n k).numStages : Int) := by omega
  refine ⟨?_, ?_, ?_⟩ <;>
    simp [limits, lastMention, distBCs, BC.req, LapSim.fixAt, Req.Mentions, fullName, e3, BArg.lb, BArg.ub, BVal.at]

theorem dist_last {s : Nat} (h1 : s + 1 = (Lts.layoutOf M n k).numStages) :
    limits (Lts.layoutOf M n k) distBounds (distBCs dy) (.stage s "states" "y") = (some (dy : EReal), some (dy : EReal)) := by
  have e3 : (-1 : Int) = (s : Int) - ((Lts.layoutOf M n k).numStages : Int) := by omega
  simp [limits, lastMention, distBCs, BC.req, LapSim.fixAt, Req.Mentions, fullName, ← e3, BArg.lb, BArg.ub, BVal.at]

theorem dist_time {s : Nat} (h0 : s ≠ 0) (hs : s < (Lts.layoutOf M n k).numStages) :
    limits (Lts.layoutOf M n k) distBounds (distBCs dy) (.stage s "states" "time") = (some ⊥, some ⊤) := by
  have e0 : ¬ (0 : Int) = (s : Int) := by omega
  have e1 : ¬ (0 : Int) = (s : Int) - ((Lts.layoutOf M n k).numStages : Int) := by omega
  simp [limits, lastMention, distBCs, distBounds, BC.req, BoundConfig.req, LapSim.fixAt, LapSim.bound, Req.Mentions, fullName, e0, e1]

theorem dist_speed {s : Nat} (h0 : s ≠ 0) (hs : s < (Lts.layoutOf M n k).numStages) :
    limits (Lts.layoutOf M n k) distBounds (distBCs dy) (.stage s "states" "v") = (some ((1e-3 : ℝ) : EReal), some ((100 : ℝ) : EReal)) := by
  have e0 : ¬ (0 : Int) = (s : Int) := by omega
  have e1 : ¬ (0 : Int) = (s : Int) - ((Lts.layoutOf M n k).numStages : Int) := by omega
  simp [limits, lastMention, distBCs, distBounds, BC.req, BoundConfig.req, LapSim.fixAt, LapSim.bound, Req.Mentions, fullName, e0, e1,
    BArg.lb, BArg.ub, BVal.at]

theorem dist_height {s : Nat} (h0 : s ≠ 0) (hs : s + 1 < (Lts.layoutOf M n k).numStages) :
    limits (Lts.layoutOf M n k) distBounds (distBCs dy) (.stage s "states" "y") = (some ((-5 : ℝ) : EReal), some ((0 : ℝ) : EReal)) := by
  have e0 : ¬ (0 : Int) = (s : Int) := by omega
  have e1 : ¬ (0 : Int) = (s : Int) - ((Lts.layoutOf M n k).numStages : Int) := by omega
  have e2 : ¬ (-1 : Int) = (s : Int) := by omega
  have e3 : ¬ (-1 : Int) = (s : Int) - ((Lts.layoutOf M n k).numStages : Int) := by omega
  simp [limits, lastMention, distBCs, distBounds, BC.req, BoundConfig.req, LapSim.fixAt, LapSim.bound, Req.Mentions, fullName, e0, e1, e2, e3,
    BArg.lb, BArg.ub, BVal.at]

theorem dist_angle {s : Nat} :
    limits (Lts.layoutOf M n k) distBounds (distBCs dy) (.stage s "inputs" "theta")
      = (some ((-Real.pi / 2.01 : ℝ) : EReal), some ((Real.pi / 2.01 : ℝ) : EReal)) := by
  simp [limits, lastMention, distBCs, distBounds, BC.req, BoundConfig.req, LapSim.fixAt, LapSim.bound, Req.Mentions,
    fullName, BArg.lb, BArg.ub, BVal.at]

theorem dist_dots {s : Nat} {m : String} (hm : m ∈ ["time", "v", "y"]) :
    limits (Lts.layoutOf M n k) distBounds (distBCs dy) (.stage s "states_dot" m) = (some ⊥, some ⊤) := by
  simp only [List.mem_cons, List.not_mem_nil, or_false] at hm
  rcases hm with rfl | rfl | rfl <;> simp [limits, lastMention, distBCs, distBounds, BC.req, BoundConfig.req, LapSim.fixAt, LapSim.bound, Req.Mentions,
    fullName]

end

/-- The bounds and boundary conditions are accepted on every mesh. -/
theorem dist_accepted (g dy : ℝ) (n : Nat) {k : Nat} (hk : 1 ≤ k) :
    ∃ s t, Bounds.updateBounds (Lts.layoutOf (distanceModel g) n k) (Bounds.fresh (Lts.layoutOf (distanceModel g) n k)) distBounds = (s, none) ∧
      Bounds.updateBCs (Lts.layoutOf (distanceModel g) n k) s (distBCs dy) = (t, none) := by
  have hL := Lts.layoutOf_made (distanceModel_good g) n hk
  have N := numStages_pos (Lts.layoutOf (distanceModel g) n k)
  have vs : ∀ m ∈ ["time", "v", "y"], (Lts.layoutOf (distanceModel g) n k).IsVar (.stage 0 "states" m) :=
    fun m hm => (isVar_iff _ n k _ _ _).mpr ⟨N, Or.inl ⟨rfl, hm⟩⟩
  have vi : ∀ m ∈ ["theta"], (Lts.layoutOf (distanceModel g) n k).IsVar (.stage 0 "inputs" m) :=
    fun m hm => (isVar_iff _ n k _ _ _).mpr ⟨N, Or.inr (Or.inl ⟨rfl, hm⟩)⟩
  have pi := Real.pi_pos
  refine accepted_of (LapSim.setAll_none ?_) (LapSim.setAll_none ?_)
  · intro r hr s
    obtain ⟨c, hcm, rfl⟩ := List.mem_map.mp hr
    simp only [distBounds, List.mem_cons, List.not_mem_nil, or_false] at hcm
    rcases hcm with rfl | rfl | rfl
    · exact LapSim.setVarBounds_scalar hL (vs _ (by simp [LapSim.bound, BoundConfig.req])) s (EReal.coe_le_coe_iff.mpr (by norm_num))
    · exact LapSim.setVarBounds_scalar hL (vs _ (by simp [LapSim.bound, BoundConfig.req])) s (EReal.coe_le_coe_iff.mpr (by norm_num))
    · exact LapSim.setVarBounds_scalar hL (vi _ (by simp [LapSim.bound, BoundConfig.req])) s
        (EReal.coe_le_coe_iff.mpr (by rw [div_le_div_iff_of_pos_right (by norm_num)]; linarith))
  · intro r hr s
    obtain ⟨c, hcm, rfl⟩ := List.mem_map.mp hr
    simp only [distBCs, List.mem_cons, List.not_mem_nil, or_false] at hcm
    rcases hcm with rfl | rfl | rfl | rfl
    iterate 3 exact LapSim.setVarBounds_first hL (vs _ (by simp [LapSim.fixAt, BC.req])) s _
    exact setVarBounds_last hL (vs _ (by simp [LapSim.fixAt, BC.req])) s _

/-! ## The problem -/

section
variable {g : ℝ} {u : UnitProblem} {A : List ℝ → ℝ → Prop} {name : String} {kwargs : List (String × Int)} {n : Nat} {pts : Option (List ℝ)} {dx dy : ℝ}
  {S : Setup}

theorem dist_made (hn : 1 ≤ n) (h : distSetup g u name kwargs n pts dx dy = .ok S) :
    ∃ t, makeTranscription name kwargs = .ok t ∧ Made (distanceModel g) u t n pts dx S ∧
      S.bounds = distBounds ∧ S.bcs = distBCs dy ∧ S.scales = [] := front_inv (distanceModel_good g) hn h

theorem dist_good (hu : Fits (distanceModel g) u) (hj : OCP.UnitJac u A) (hh : OCP.UnitHess u Upper A) (hn : 1 ≤ n)
    (h : distSetup g u name kwargs n pts dx dy = .ok S) : S.Good A := by
  obtain ⟨t, ht, hm, hb, hbc, hs⟩ := dist_made hn h
  refine hm.good hu (distanceModel_good g) ht hn hj hh (by simp [distanceModel]) (by rw [hs]; simp) (by rw [hs]; simp) ?_
  rw [hb, hbc, hm.layout]
  exact dist_accepted g dy n (by have := (C38_shapes ht).1; omega)

theorem dist_feasible {t : Transcription} (hm : Made (distanceModel g) u t n pts dx S) (hS : S.Good A) {b : Built}
    (hb : S.build = .ok b) {x : List ℝ} (hx : x.length = S.c.o.L.numDec) :
    b.Feasible (vdiv x b.prob.scales) ↔
      (∀ i, i < n → ∀ m ∈ (distanceModel g).states, Steps t (fun j => readAt S.c.o.L x "states" m (i * (t.stages - 1) + j))
        (fun j => readAt S.c.o.L x "states_dot" m (i * (t.stages - 1) + j))
        (((pointsOf n pts).getD (i + 1) 0 - (pointsOf n pts).getD i 0) * dx)) ∧
      ∀ s, s < S.c.o.L.numStages →
        readAt S.c.o.L x "states_dot" "time" s = 1 / (readAt S.c.o.L x "states" "v" s * Real.cos (readAt S.c.o.L x "inputs" "theta" s) + 1e-9) ∧
        readAt S.c.o.L x "states_dot" "v" s = -g * Real.sin (readAt S.c.o.L x "inputs" "theta" s) /
          (readAt S.c.o.L x "states" "v" s * Real.cos (readAt S.c.o.L x "inputs" "theta" s) + 1e-9) ∧
        readAt S.c.o.L x "states_dot" "y" s = Real.tan (readAt S.c.o.L x "inputs" "theta" s) := by
  have hcd := hm.plain.2.2.2
  have eS : S.c.o.L.namesOf "states" = ["time", "v", "y"] := by rw [hm.layout]; rfl
  have eI : S.c.o.L.namesOf "inputs" = ["theta"] := by rw [hm.layout]; rfl
  have eD : S.c.o.L.namesOf "states_dot" = ["time", "v", "y"] := by rw [hm.layout]; rfl
  have eY : S.c.o.L.namesOf "con_outputs" = [] := by rw [hm.layout]; rfl
  have eM : S.c.M = distanceModel g := hm.model
  have dyn : ∀ s μ, S.c.M.f (readGroup S.c.o.L x "states" s) (readGroup S.c.o.L x "inputs" s) μ = readGroup S.c.o.L x "states_dot" s ↔
      (1 / (readAt S.c.o.L x "states" "v" s * Real.cos (readAt S.c.o.L x "inputs" "theta" s) + 1e-9) = readAt S.c.o.L x "states_dot" "time" s ∧
      -g * Real.sin (readAt S.c.o.L x "inputs" "theta" s) / (readAt S.c.o.L x "states" "v" s * Real.cos (readAt S.c.o.L x "inputs" "theta" s) + 1e-9)
        = readAt S.c.o.L x "states_dot" "v" s ∧
      Real.tan (readAt S.c.o.L x "inputs" "theta" s) = readAt S.c.o.L x "states_dot" "y" s) := by
    intro s μ
    simp [readGroup, eS, eI, eD, eM, distanceModel]
  have out : ∀ s μ, S.c.M.h (readGroup S.c.o.L x "states" s) (readGroup S.c.o.L x "inputs" s) μ = readGroup S.c.o.L x "con_outputs" s := by
    intro s μ
    simp [readGroup, eY, eM, distanceModel]
  rw [C47_lifted hS hcd hb hx]
  constructor
  · rintro ⟨d1, d2, d3, _, _⟩
    refine ⟨(hm.defects x).mp d1, fun s hs => ?_⟩
    obtain ⟨a1, a2, a3⟩ := (dyn s _).mp (d2 s hs)
    exact ⟨a1.symm, a2.symm, a3.symm⟩
  · rintro ⟨d1, d2⟩
    refine ⟨(hm.defects x).mpr d1, ?_, ?_, ?_, ?_⟩
    · intro s hs
      obtain ⟨a1, a2, a3⟩ := d2 s hs
      exact (dyn s _).mpr ⟨a1.symm, a2.symm, a3.symm⟩
    · intro s hs
      exact out s _
    · intro s _ v hv
      rw [eM] at hv
      simp [distanceModel] at hv
    · rw [hm.plain.2.2.1]; simp

/-- **C106** (the problem). Whatever the transcription and mesh, the problem is built; its feasible points within the bounds are exactly the discretised
slides over the distance `dx`, and its objective is the time at the end. -/
theorem C106_problem (hu : Fits (distanceModel g) u) (hj : OCP.UnitJac u A) (hh : OCP.UnitHess u Upper A) (hn : 1 ≤ n)
    (h : distSetup g u name kwargs n pts dx dy = .ok S) : ∃ t b, makeTranscription name kwargs = .ok t ∧ S.build = .ok b ∧
      S.c.o.L.numStages = n * (t.stages - 1) + 1 ∧ 0 < dx ∧ ∀ x : List ℝ, x.length = S.c.o.L.numDec →
        ((b.Feasible (vdiv x b.prob.scales) ∧ Within b.bounds.lb b.bounds.ub x) ↔
          Descent g dy t n (fun i => ((pointsOf n pts).getD (i + 1) 0 - (pointsOf n pts).getD i 0) * dx) (fun grp m s => readAt S.c.o.L x grp m s)) ∧
        (Within b.bounds.lb b.bounds.ub x →
          b.prob.objective (vdiv x b.prob.scales) = .ok (readAt S.c.o.L x "states" "time" (n * (t.stages - 1)))) := by
  obtain ⟨t, ht, hm, hbd, hbc, hsc⟩ := dist_made hn h
  have hS := dist_good hu hj hh hn h
  obtain ⟨h2, _⟩ := C38_shapes ht
  obtain ⟨b, hb, _⟩ := C47_build hS
  refine ⟨t, b, ht, hb, hm.stages, hm.positive, ?_⟩
  intro x hx
  have hcd := hm.plain.2.2.2
  have eG : S.c.o.L.globals = [] := by rw [hm.layout]; rfl
  have hNs := hm.stages
  have hn1 : 1 ≤ n * (t.stages - 1) := Nat.mul_pos hn (by omega)
  have hN2 : 2 ≤ S.c.o.L.numStages := by omega
  have hle : ∀ s, s ≤ n * (t.stages - 1) ↔ s < S.c.o.L.numStages := by intro s; rw [hNs]; omega
  have k1 := dist_feasible hm hS hb hx
  have k2 : Within b.bounds.lb b.bounds.ub x ↔
      (readAt S.c.o.L x "states" "time" 0 = 0 ∧ readAt S.c.o.L x "states" "v" 0 = 1e-3 ∧ readAt S.c.o.L x "states" "y" 0 = 0) ∧
      readAt S.c.o.L x "states" "y" (S.c.o.L.numStages - 1) = dy ∧
      (∀ s, s ≠ 0 → s < S.c.o.L.numStages → 1e-3 ≤ readAt S.c.o.L x "states" "v" s ∧ readAt S.c.o.L x "states" "v" s ≤ 100) ∧
      (∀ s, s ≠ 0 → s + 1 < S.c.o.L.numStages → -5 ≤ readAt S.c.o.L x "states" "y" s ∧ readAt S.c.o.L x "states" "y" s ≤ 0) ∧
      (∀ s < S.c.o.L.numStages, |readAt S.c.o.L x "inputs" "theta" s| ≤ Real.pi / 2.01) := by
    rw [within_iff hS hcd eG hb hx, hbd, hbc]
    have hL := hm.layout
    have e10 : (-Real.pi / 2.01 : ℝ) = -(Real.pi / 2.01) := by ring
    have isS : ∀ s m, s < S.c.o.L.numStages → m ∈ ["time", "v", "y"] → S.c.o.L.IsVar (.stage s "states" m) := by
      intro s m hs hmem
      rw [hL, isVar_iff]; rw [hL] at hs; exact ⟨hs, Or.inl ⟨rfl, hmem⟩⟩
    rw [hL] at hN2 hle isS ⊢
    obtain ⟨f1, f2, f3⟩ := dist_first (dy := dy) hN2
    constructor
    · intro w1
      refine ⟨⟨?_, ?_, ?_⟩, ?_, ?_, ?_, ?_⟩
      · have w := w1 0 "states" "time" (isS 0 _ (by omega) (by simp))
        rwa [f1, inside_fix] at w
      · have w := w1 0 "states" "v" (isS 0 _ (by omega) (by simp))
        rwa [f2, inside_fix] at w
      · have w := w1 0 "states" "y" (isS 0 _ (by omega) (by simp))
        rwa [f3, inside_fix] at w
      · have w := w1 _ "states" "y" (isS ((Lts.layoutOf (distanceModel g) n t.stages).numStages - 1) _ (by omega) (by simp))
        rwa [dist_last (by omega), inside_fix] at w
      · intro s h0 hs
        have w := w1 s "states" "v" (isS s _ hs (by simp))
        rwa [dist_speed h0 hs, inside_coe] at w
      · intro s h0 hs
        have w := w1 s "states" "y" (isS s _ (by omega) (by simp))
        rwa [dist_height h0 hs, inside_coe] at w
      · intro s hs
        have w := w1 s "inputs" "theta" ((isVar_iff _ _ _ _ _ _).mpr ⟨hs, Or.inr (Or.inl ⟨rfl, by simp [distanceModel]⟩)⟩)
        rwa [dist_angle, e10, abs_inside] at w
    · rintro ⟨⟨w1, w2, w3⟩, wy, wv, wh, wa⟩
      intro s gr m hv
      rw [isVar_iff] at hv
      obtain ⟨hs, (⟨rfl, hmem⟩ | ⟨rfl, hmem⟩ | ⟨rfl, hmem⟩ | ⟨rfl, hmem⟩)⟩ := hv
      · have hmem : m ∈ ["time", "v", "y"] := hmem
        simp only [List.mem_cons, List.not_mem_nil, or_false] at hmem
        by_cases h0 : s = 0
        · subst h0
          rcases hmem with rfl | rfl | rfl
          · rwa [f1, inside_fix]
          · rwa [f2, inside_fix]
          · rwa [f3, inside_fix]
        · rcases hmem with rfl | rfl | rfl
          · rw [dist_time h0 hs, inside_free]; trivial
          · rw [dist_speed h0 hs, inside_coe]; exact wv s h0 hs
          · by_cases h1 : s + 1 < (Lts.layoutOf (distanceModel g) n t.stages).numStages
            · rw [dist_height h0 h1, inside_coe]; exact wh s h0 h1
            · rw [dist_last (by omega), inside_fix]
              rwa [show (Lts.layoutOf (distanceModel g) n t.stages).numStages - 1 = s by omega] at wy
      · have hmem : m ∈ ["theta"] := hmem
        rw [List.mem_singleton] at hmem
        subst hmem
        rw [dist_angle, e10, abs_inside]
        exact wa s hs
      · rw [dist_dots hmem, inside_free]; trivial
      · exact absurd hmem (by simp [distanceModel])
  have e1 : S.c.o.L.numStages - 1 = n * (t.stages - 1) := by omega
  refine ⟨?_, ?_⟩
  · rw [k1, k2, e1]
    constructor
    · rintro ⟨⟨c1, c2⟩, w0, wy, wv, wh, wa⟩
      refine ⟨fun s hs => (c2 s ((hle s).mp hs)).1, fun s hs => (c2 s ((hle s).mp hs)).2.1, fun s hs => (c2 s ((hle s).mp hs)).2.2, c1, ?_, ?_,
        fun s hs => wa s ((hle s).mp hs), w0, wy⟩
      · intro s hs
        by_cases h0 : s = 0
        · subst h0; rw [w0.2.1]; norm_num
        · exact wv s h0 ((hle s).mp hs)
      · intro s hs
        by_cases h0 : s = 0
        · subst h0; rw [w0.2.2]; norm_num
        · exact wh s h0 (by omega)
    · intro f
      exact ⟨⟨f.steps, fun s hs => ⟨f.clock s ((hle s).mpr hs), f.accel s ((hle s).mpr hs), f.slope s ((hle s).mpr hs)⟩⟩, f.start, f.finish,
        fun s _ hs => f.speed s ((hle s).mpr hs), fun s _ hs => f.height s (by omega), fun s hs => f.angle s ((hle s).mpr hs)⟩
  · intro hw
    have h0 := (k2.mp hw).1.1
    rw [C47_objective hS hb hx, hm.scale, hm.plain.2.1, ← e1]
    simp [h0]

/-- **C106** (no such distance). A target that is not ahead of the start is refused. -/
theorem C106_behind (h : ¬ 0 < dx) : distSetup g u name kwargs n pts dx dy = .error .assertionError := front_scale h

/-- The problem is made for every target ahead of the start from a transcription and a mesh that exist. -/
theorem dist_exists {t : Transcription} (ht : makeTranscription name kwargs = .ok t) (hn : 1 ≤ n) {mesh : List (List ℝ)}
    (hm : setMesh t.interp n pts = .ok mesh) (hd : 0 < dx) (g dy : ℝ) (u : UnitProblem) :
    ∃ S, distSetup g u name kwargs n pts dx dy = .ok S := by
  obtain ⟨S, h, _⟩ := front_ok (u := u) (distanceModel_good g) ht hn hm hd (bounds := distBounds) (bcs := distBCs dy) (scales := [])
  exact ⟨S, h⟩

end

end Lumos.Fix
