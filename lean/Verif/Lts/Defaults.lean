import Verif.Lts.Bounds
/-!
# The default bounds of a lap time simulation, written out
-/

namespace Lumos.Lts

open Lumos DecVar DecVar.Layout Bounds Ocp Lumos.Trans NLP Io Io.Mdl LapSim Track Veh

section
variable {tn : String} {kw : List (String × Int)} {n : Nat} {pts : Option (List ℝ)} {cyc : Bool} {nc : List String} {closed : Bool}
  {L : Layout} {tr : RaceTrack} {d a : ℝ} {s : Nat}

theorem inside_top {a c : ℝ} : Sim.Inside (some (a : EReal), some ⊤) c ↔ a ≤ c := by
  simp [Sim.Inside, Prod.ext_iff, and_assoc]

/-- After the first stage the boundary conditions say nothing. -/
theorem no_bc (hs : s < L.numStages) (h0 : s ≠ 0) (g m : String) : lastMention L ((defaultBCs closed).map BC.req) (.stage s g m) = none := by
  have e0 : ¬ (0 : Int) = (s : Int) := by omega
  have e1 : ¬ (0 : Int) = (s : Int) - (L.numStages : Int) := by omega
  cases closed <;> simp [lastMention, defaultBCs, BC.req, fixAt, Req.Mentions, e0, e1]

/-- Nor about inputs, derivatives and outputs. -/
theorem no_bc_group {g : String} (m : String) (hg : Dotless g) (hne : g ≠ "states") :
    lastMention L ((defaultBCs closed).map BC.req) (.stage s g m) = none := by
  unfold lastMention
  rw [List.find?_eq_none]
  intro r hr
  rw [List.mem_reverse] at hr
  intro h
  rw [decide_eq_true_eq] at h
  have : r.group = "states" := by
    cases closed <;> simp [defaultBCs, fixAt, BC.req] at hr
    · rcases hr with rfl | rfl | rfl | rfl | rfl | rfl <;> rfl
    · rw [hr]
  obtain ⟨-, h2, -⟩ := h
  rw [this] at h2
  exact hne (fullName_cancel (by unfold Dotless; decide) hg h2).1.symm

/-- What the default bounds say. -/
theorem default_limits (g m : String) (hg : Dotless g) : Sim.limits L defaultBounds [] (.stage s g m) =
    if g = "states" then
      if m = "time" then (some ((0 : ℝ) : EReal), some ⊤) else if m = "eta" then (some ((-Real.pi / 4 : ℝ) : EReal), some ((Real.pi / 4 : ℝ) : EReal))
      else if m = "vx" then (some ((5 : ℝ) : EReal), some ((100 : ℝ) : EReal)) else if m = "vy" then (some ((-10 : ℝ) : EReal), some ((10 : ℝ) : EReal))
      else if m = "yaw_rate" then (some ((-Real.pi * 2 : ℝ) : EReal), some ((Real.pi * 2 : ℝ) : EReal))
      else if m ∈ ["wheel_speed_fl", "wheel_speed_fr", "wheel_speed_rl", "wheel_speed_rr"] then (some ((0.1 : ℝ) : EReal), some ((300 : ℝ) : EReal))
      else (some ⊥, some ⊤)
    else if g = "inputs" then
      if m = "throttle" ∨ m = "brake" then (some ((0 : ℝ) : EReal), some ((1 : ℝ) : EReal)) else if m = "steer" then (some ((-1 : ℝ) : EReal), some ((1 : ℝ) : EReal))
      else (some ⊥, some ⊤)
    else if g = "con_outputs" then
      if m ∈ ["vehicle.slip_ratio_fl", "vehicle.slip_ratio_fr", "vehicle.slip_ratio_rl", "vehicle.slip_ratio_rr"] then
        (some ((-0.05 : ℝ) : EReal), some ((0.05 : ℝ) : EReal))
      else if m ∈ ["vehicle.slip_angle_fl", "vehicle.slip_angle_fr", "vehicle.slip_angle_rl", "vehicle.slip_angle_rr"] then
        (some ((-(5 * (Real.pi / 180)) : ℝ) : EReal), some ((5 * (Real.pi / 180) : ℝ) : EReal))
      else (some ⊥, some ⊤)
    else (some ⊥, some ⊤) := by
  have hM : ∀ (c : BoundConfig EReal), Dotless c.group → c.group ≠ "global" → (c.req.Mentions L (.stage s g m) ↔ c.group = g ∧ c.name = m) := by
    intro c hc hgl
    constructor
    · rintro ⟨-, h, -⟩
      exact fullName_cancel hc hg h
    · rintro ⟨rfl, rfl⟩
      exact ⟨hgl, rfl, Or.inl rfl⟩
  have e : lastMention L (defaultBounds.map BoundConfig.req) (.stage s g m)
      = (defaultBounds.reverse.find? fun c => decide (c.group = g ∧ c.name = m)).map BoundConfig.req := by
    unfold lastMention
    rw [← List.map_reverse, List.find?_map]
    congr 1
    refine List.find?_congr fun c hc => ?_
    have hc' : Dotless c.group ∧ c.group ≠ "global" := by
      rw [List.mem_reverse] at hc
      unfold Dotless
      simp [defaultBounds, LapSim.corners, bound] at hc
      rcases hc with rfl | rfl | rfl | rfl | rfl | rfl | rfl | rfl | rfl | rfl | rfl | rfl | rfl | rfl | rfl | rfl | rfl | rfl | rfl | rfl <;> decide
    simp only [Function.comp, hM c hc'.1 hc'.2]
  unfold Sim.limits
  rw [e]
  simp only [List.map_nil, lastMention, List.reverse_nil, List.find?_nil]
  by_cases h1 : g = "states"
  · subst h1
    by_cases hm : m ∈ ["time", "eta", "vx", "vy", "yaw_rate", "wheel_speed_fl", "wheel_speed_fr", "wheel_speed_rl", "wheel_speed_rr"]
    · simp only [List.mem_cons, List.not_mem_nil, or_false] at hm
      rcases hm with rfl | rfl | rfl | rfl | rfl | rfl | rfl | rfl | rfl <;>
        simp [defaultBounds, LapSim.corners, bound, BoundConfig.req, BArg.lb, BArg.ub, BVal.at]
    · simp only [List.mem_cons, List.not_mem_nil, or_false, not_or] at hm
      obtain ⟨a1, a2, a3, a4, a5, a6, a7, a8, a9⟩ := hm
      simp [defaultBounds, LapSim.corners, bound, a1, a2, a3, a4, a5, a6, a7, a8, a9, Ne.symm a1, Ne.symm a2, Ne.symm a3, Ne.symm a4, Ne.symm a5,
        Ne.symm a6, Ne.symm a7, Ne.symm a8, Ne.symm a9]
  · by_cases h2 : g = "inputs"
    · subst h2
      by_cases hm : m ∈ ["throttle", "brake", "steer"]
      · simp only [List.mem_cons, List.not_mem_nil, or_false] at hm
        rcases hm with rfl | rfl | rfl <;> simp [defaultBounds, LapSim.corners, bound, BoundConfig.req, BArg.lb, BArg.ub, BVal.at]
      · simp only [List.mem_cons, List.not_mem_nil, or_false, not_or] at hm
        obtain ⟨a1, a2, a3⟩ := hm
        simp [defaultBounds, LapSim.corners, bound, a1, a2, a3, Ne.symm a1, Ne.symm a2, Ne.symm a3]
    · by_cases h3 : g = "con_outputs"
      · subst h3
        by_cases hm : m ∈ defaultConOutputs
        · simp only [defaultConOutputs, List.mem_cons, List.not_mem_nil, or_false] at hm
          rcases hm with rfl | rfl | rfl | rfl | rfl | rfl | rfl | rfl <;>
            simp [defaultBounds, LapSim.corners, bound, BoundConfig.req, BArg.lb, BArg.ub, BVal.at]
        · simp only [defaultConOutputs, List.mem_cons, List.not_mem_nil, or_false, not_or] at hm
          obtain ⟨a1, a2, a3, a4, a5, a6, a7, a8⟩ := hm
          simp [defaultBounds, LapSim.corners, bound, a1, a2, a3, a4, a5, a6, a7, a8, Ne.symm a1, Ne.symm a2, Ne.symm a3, Ne.symm a4, Ne.symm a5,
            Ne.symm a6, Ne.symm a7, Ne.symm a8]
      · have h1' := Ne.symm h1
        have h2' := Ne.symm h2
        have h3' := Ne.symm h3
        simp [defaultBounds, LapSim.corners, bound, h1, h2, h3, h1', h2', h3']

/-- The bounds of the default configuration, at the first stage and after it. -/
theorem allowed_default (hs : s < L.numStages) (g m : String) (hg : Dotless g)
    (hm : s = 0 → g = "states" → m ∈ ["time", "n", "eta", "vx", "vy", "yaw_rate"] → m = "time" ∨ closed = false → False) :
    Allowed L (defaults tn kw n pts cyc nc closed) tr d s g m a ↔
      if g = "inputs" ∧ m = "track_curvature" then tr.curvatureAt d = .ok a
      else if g = "inputs" ∧ m = "track_heading" then tr.headingAt d = .ok a
      else if g = "states" ∧ m = "n" then ∃ left right, tr.leftDistanceAt d = .ok left ∧ tr.rightDistanceAt d = .ok right ∧ -right ≤ a ∧ a ≤ left
      else Sim.Inside (Sim.limits L defaultBounds [] (.stage s g m)) a := by
  have hl : lastMention L ((defaultBCs closed).map BC.req) (.stage s g m) = none := by
    by_cases h0 : s = 0
    · by_cases hgs : g = "states"
      · subst hgs h0
        have hm := hm rfl rfl
        by_cases ht : m = "time"
        · subst ht; exact absurd (hm (by simp) (Or.inl rfl)) id
        cases closed with
        | true =>
          have ht' := Ne.symm ht
          unfold lastMention
          rw [List.find?_eq_none]
          intro r hr
          simp [defaultBCs, fixAt, BC.req] at hr
          subst hr
          intro h
          rw [decide_eq_true_eq] at h
          exact ht' (fullName_cancel (by unfold Dotless; decide) hg h.2.1).2
        | false =>
          have hm : m ∉ ["time", "n", "eta", "vx", "vy", "yaw_rate"] := fun h => hm h (Or.inr rfl)
          unfold lastMention
          rw [List.find?_eq_none]
          intro r hr
          rw [List.mem_reverse] at hr
          intro h
          rw [decide_eq_true_eq] at h
          have : r.group = "states" ∧ r.name ∈ ["time", "n", "eta", "vx", "vy", "yaw_rate"] := by
            simp [defaultBCs, fixAt, BC.req] at hr
            rcases hr with rfl | rfl | rfl | rfl | rfl | rfl <;> simp
          obtain ⟨-, h2, -⟩ := h
          rw [this.1] at h2
          exact hm ((fullName_cancel (by unfold Dotless; decide) hg h2).2 ▸ this.2)
      · exact no_bc_group m hg hgs
    · exact no_bc hs h0 g m
  unfold Allowed
  show (match lastMention L ((defaultBCs closed).map BC.req) (.stage s g m) with
    | some r => _
    | none => _) ↔ _
  rw [hl]
  rfl

/-- The boundary conditions of the default configuration. -/
theorem allowed_first {m : String} (hm : m = "time" ∨ (closed = false ∧ m ∈ ["n", "eta", "vx", "vy", "yaw_rate"])) :
    Allowed L (defaults tn kw n pts cyc nc closed) tr d 0 "states" m a ↔ a = if m = "vx" then 50 else 0 := by
  have hl : ∃ r, lastMention L ((defaultBCs closed).map BC.req) (.stage 0 "states" m) = some r ∧
      (r.arg.lb.at (r.slot (.stage 0 "states" m)), r.arg.ub.at (r.slot (.stage 0 "states" m)))
        = (some (((if m = "vx" then 50 else 0 : ℝ)) : EReal), some (((if m = "vx" then 50 else 0 : ℝ)) : EReal)) := by
    rcases hm with rfl | ⟨rfl, hm⟩
    · cases closed <;> simp [lastMention, defaultBCs, BC.req, fixAt, Req.Mentions, fullName, BArg.lb, BArg.ub, BVal.at]
    · simp only [List.mem_cons, List.not_mem_nil, or_false] at hm
      rcases hm with rfl | rfl | rfl | rfl | rfl <;>
        simp [lastMention, defaultBCs, BC.req, fixAt, Req.Mentions, fullName, BArg.lb, BArg.ub, BVal.at]
  obtain ⟨r, h1, h2⟩ := hl
  unfold Allowed
  show (match lastMention L ((defaultBCs closed).map BC.req) (.stage 0 "states" m) with
    | some r => _
    | none => _) ↔ _
  rw [h1]
  dsimp only
  rw [h2, Sim.inside_fix]

theorem isVar_iff (M : ExplicitModel) (n k s : Nat) (g m : String) : (layoutOf M n k).IsVar (.stage s g m) ↔
    s < (layoutOf M n k).numStages ∧ ((g = "states" ∧ m ∈ M.states) ∨ (g = "inputs" ∧ m ∈ M.inputs) ∨ (g = "states_dot" ∧ m ∈ M.states) ∨
      (g = "con_outputs" ∧ m ∈ M.conOutputs)) := by
  constructor
  · rintro ⟨h1, h2, ns, h3, h4⟩
    refine ⟨h1, ?_⟩
    simp only [layoutOf, List.mem_cons, List.not_mem_nil, or_false] at h2
    rcases h2 with rfl | rfl | rfl | rfl <;> simp [layoutOf, Sim.groupsOf, List.lookup] at h3 <;> subst h3 <;> simp [h4]
  · rintro ⟨h1, (⟨rfl, h⟩ | ⟨rfl, h⟩ | ⟨rfl, h⟩ | ⟨rfl, h⟩)⟩
    · exact isVar_of (by simp [layoutOf]) h h1
    · exact isVar_of (by simp [layoutOf]) h h1
    · exact isVar_of (by simp [layoutOf]) h h1
    · exact isVar_of (by simp [layoutOf]) h h1

theorem allowed_all {M : ExplicitModel} {k : Nat} (hS : M.states = onTrackNames.states) (hI : M.inputs = onTrackNames.inputs)
    (hY : M.conOutputs = defaultConOutputs) (dist : Nat → ℝ) (X : String → String → Nat → ℝ) :
    (∀ s g m, (layoutOf M n k).IsVar (.stage s g m) →
      Allowed (layoutOf M n k) (defaults tn kw n pts cyc nc closed) tr (dist s) s g m (X g m s)) ↔
    InDefaults closed tr (layoutOf M n k).numStages dist X := by
  have hN : 0 < (layoutOf M n k).numStages := numStages_pos _
  have e1 : -Real.pi / 4 = -(Real.pi / 4) := by ring
  have e2 : -Real.pi * 2 = -(Real.pi * 2) := by ring
  have e3 : (-0.05 : ℝ) = -0.05 := rfl
  have dS : Dotless "states" := by unfold Dotless; decide
  have dI : Dotless "inputs" := by unfold Dotless; decide
  have dD : Dotless "states_dot" := by unfold Dotless; decide
  have dC : Dotless "con_outputs" := by unfold Dotless; decide
  have hpi := Real.pi_pos
  constructor
  · intro H
    have st : ∀ s, s < (layoutOf M n k).numStages → ∀ m ∈ onTrackNames.states,
        Allowed (layoutOf M n k) (defaults tn kw n pts cyc nc closed) tr (dist s) s "states" m (X "states" m s) :=
      fun s hs m hm => H s "states" m ((isVar_iff ..).mpr ⟨hs, Or.inl ⟨rfl, by rw [hS]; exact hm⟩⟩)
    have it : ∀ s, s < (layoutOf M n k).numStages → ∀ m ∈ onTrackNames.inputs,
        Allowed (layoutOf M n k) (defaults tn kw n pts cyc nc closed) tr (dist s) s "inputs" m (X "inputs" m s) :=
      fun s hs m hm => H s "inputs" m ((isVar_iff ..).mpr ⟨hs, Or.inr (Or.inl ⟨rfl, by rw [hI]; exact hm⟩)⟩)
    have ct : ∀ s, s < (layoutOf M n k).numStages → ∀ m ∈ defaultConOutputs,
        Allowed (layoutOf M n k) (defaults tn kw n pts cyc nc closed) tr (dist s) s "con_outputs" m (X "con_outputs" m s) :=
      fun s hs m hm => H s "con_outputs" m ((isVar_iff ..).mpr ⟨hs, Or.inr (Or.inr (Or.inr ⟨rfl, by rw [hY]; exact hm⟩))⟩)
    have first : ∀ m, (m = "time" ∨ (closed = false ∧ m ∈ ["n", "eta", "vx", "vy", "yaw_rate"])) → m ∈ onTrackNames.states →
        X "states" m 0 = if m = "vx" then 50 else 0 := fun m hm hms => (allowed_first hm).mp (st 0 hN m hms)
    have sv : ∀ s, s < (layoutOf M n k).numStages → ∀ m ∈ onTrackNames.states, m ≠ "n" →
        (s = 0 ∧ (m = "time" ∨ (closed = false ∧ m ∈ ["n", "eta", "vx", "vy", "yaw_rate"]))) ∨
        Sim.Inside (Sim.limits (layoutOf M n k) defaultBounds [] (.stage s "states" m)) (X "states" m s) := by
      intro s hs m hm hne
      by_cases hc : s = 0 ∧ (m = "time" ∨ (closed = false ∧ m ∈ ["n", "eta", "vx", "vy", "yaw_rate"]))
      · exact Or.inl hc
      · right
        have := (allowed_default hs "states" m dS (by
          intro h0 _ hm' hh
          refine hc ⟨h0, ?_⟩
          rcases hh with rfl | hh
          · exact Or.inl rfl
          · rcases List.mem_cons.mp hm' with h | h
            · exact Or.inl h
            · exact Or.inr ⟨hh, h⟩)).mp (st s hs m hm)
        rw [if_neg (by simp), if_neg (by simp), if_neg (by simp [hne])] at this
        exact this
    have iv : ∀ s, s < (layoutOf M n k).numStages → ∀ m ∈ ["throttle", "brake", "steer"],
        Sim.Inside (Sim.limits (layoutOf M n k) defaultBounds [] (.stage s "inputs" m)) (X "inputs" m s) := by
      intro s hs m hm
      have hm' : m ∈ onTrackNames.inputs ∧ m ≠ "track_curvature" ∧ m ≠ "track_heading" := by
        simp only [List.mem_cons, List.not_mem_nil, or_false] at hm
        rcases hm with rfl | rfl | rfl <;> decide
      have := (allowed_default hs "inputs" m dI (by intro _ h; simp at h)).mp (it s hs m hm'.1)
      rw [if_neg (by simp [hm'.2.1]), if_neg (by simp [hm'.2.2]), if_neg (by simp)] at this
      exact this
    have cv : ∀ s, s < (layoutOf M n k).numStages → ∀ m ∈ defaultConOutputs,
        Sim.Inside (Sim.limits (layoutOf M n k) defaultBounds [] (.stage s "con_outputs" m)) (X "con_outputs" m s) := by
      intro s hs m hm
      have := (allowed_default hs "con_outputs" m dC (by intro _ h; simp at h)).mp (ct s hs m hm)
      rw [if_neg (by simp), if_neg (by simp), if_neg (by simp)] at this
      exact this
    refine ⟨?_, ?_, ?_, ?_, ?_, ?_, ?_, ?_, ?_, ?_, ?_, ?_, ?_, ?_, ?_, ?_⟩
    · intro s hs
      rcases sv s hs "time" (by decide) (by decide) with ⟨rfl, h⟩ | h
      · rw [first _ h (by decide), if_neg (by decide)]
      · rw [default_limits _ _ dS] at h
        simp only [if_true] at h
        exact inside_top.mp h
    · intro s hs
      rcases sv s hs "eta" (by decide) (by decide) with ⟨rfl, h⟩ | h
      · rw [first _ h (by decide), if_neg (by decide), abs_zero]; positivity
      · rw [default_limits _ _ dS] at h
        simp only [if_true, String.reduceEq, if_false, e1] at h
        exact Sim.abs_inside.mp h
    · intro s hs
      rcases sv s hs "vx" (by decide) (by decide) with ⟨rfl, h⟩ | h
      · rw [first _ h (by decide)]; norm_num
      · rw [default_limits _ _ dS] at h
        simp only [if_true, String.reduceEq, if_false] at h
        exact Sim.inside_coe.mp h
    · intro s hs
      rcases sv s hs "vy" (by decide) (by decide) with ⟨rfl, h⟩ | h
      · rw [first _ h (by decide), if_neg (by decide)]; norm_num
      · rw [default_limits _ _ dS] at h
        simp only [if_true, String.reduceEq, if_false] at h
        exact Sim.abs_inside.mp h
    · intro s hs
      rcases sv s hs "yaw_rate" (by decide) (by decide) with ⟨rfl, h⟩ | h
      · rw [first _ h (by decide), if_neg (by decide), abs_zero]; positivity
      · rw [default_limits _ _ dS] at h
        simp only [if_true, String.reduceEq, if_false, e2] at h
        exact Sim.abs_inside.mp h
    · intro s hs c hc
      have hm : "wheel_speed_" ++ c ∈ ["wheel_speed_fl", "wheel_speed_fr", "wheel_speed_rl", "wheel_speed_rr"] := by
        simp only [LapSim.corners, List.mem_cons, List.not_mem_nil, or_false] at hc
        rcases hc with rfl | rfl | rfl | rfl <;> decide
      have hm1 : "wheel_speed_" ++ c ∈ onTrackNames.states ∧ "wheel_speed_" ++ c ∉ ["time", "n", "eta", "vx", "vy", "yaw_rate"] := by
        simp only [LapSim.corners, List.mem_cons, List.not_mem_nil, or_false] at hc
        rcases hc with rfl | rfl | rfl | rfl <;> decide
      obtain ⟨hm1, hm2⟩ := hm1
      rcases sv s hs _ hm1 (fun h => hm2 (by rw [h]; simp)) with ⟨rfl, h⟩ | h
      · exfalso
        rcases h with h | ⟨-, h⟩
        · exact hm2 (by rw [h]; simp)
        · exact hm2 (List.mem_cons_of_mem _ h)
      · rw [default_limits _ _ dS] at h
        simp only [List.mem_cons, List.not_mem_nil, or_false, not_or] at hm2
        obtain ⟨a1, a2, a3, a4, a5, a6⟩ := hm2
        simp only [if_true] at h
        rw [if_neg a1, if_neg a3, if_neg a4, if_neg a5, if_neg a6, if_pos hm] at h
        exact Sim.inside_coe.mp h
    · intro s hs
      have h := iv s hs "throttle" (by simp)
      rw [default_limits _ _ dI] at h
      simp only [String.reduceEq, if_false, if_true, true_or] at h
      exact Sim.inside_coe.mp h
    · intro s hs
      have h := iv s hs "brake" (by simp)
      rw [default_limits _ _ dI] at h
      simp only [String.reduceEq, if_false, if_true, or_true] at h
      exact Sim.inside_coe.mp h
    · intro s hs
      have h := iv s hs "steer" (by simp)
      rw [default_limits _ _ dI] at h
      simp only [String.reduceEq, if_false, if_true, or_self] at h
      exact Sim.abs_inside.mp h
    · intro s hs c hc
      have hm : "vehicle.slip_ratio_" ++ c ∈ ["vehicle.slip_ratio_fl", "vehicle.slip_ratio_fr", "vehicle.slip_ratio_rl", "vehicle.slip_ratio_rr"] := by
        simp only [LapSim.corners, List.mem_cons, List.not_mem_nil, or_false] at hc
        rcases hc with rfl | rfl | rfl | rfl <;> decide
      have h := cv s hs _ (show _ ∈ defaultConOutputs from List.mem_append_left
        ["vehicle.slip_angle_fl", "vehicle.slip_angle_fr", "vehicle.slip_angle_rl", "vehicle.slip_angle_rr"] hm)
      rw [default_limits _ _ dC, if_neg (by decide), if_neg (by decide), if_pos rfl, if_pos hm] at h
      exact Sim.abs_inside.mp h
    · intro s hs c hc
      have hm : "vehicle.slip_angle_" ++ c ∈ ["vehicle.slip_angle_fl", "vehicle.slip_angle_fr", "vehicle.slip_angle_rl", "vehicle.slip_angle_rr"] ∧
          "vehicle.slip_angle_" ++ c ∉ ["vehicle.slip_ratio_fl", "vehicle.slip_ratio_fr", "vehicle.slip_ratio_rl", "vehicle.slip_ratio_rr"] := by
        simp only [LapSim.corners, List.mem_cons, List.not_mem_nil, or_false] at hc
        rcases hc with rfl | rfl | rfl | rfl <;> decide
      have h := cv s hs _ (show _ ∈ defaultConOutputs from List.mem_append_right
        ["vehicle.slip_ratio_fl", "vehicle.slip_ratio_fr", "vehicle.slip_ratio_rl", "vehicle.slip_ratio_rr"] hm.1)
      rw [default_limits _ _ dC, if_neg (by decide), if_neg (by decide), if_pos rfl, if_neg hm.2, if_pos hm.1] at h
      exact Sim.abs_inside.mp h
    · intro s hs
      have := (allowed_default hs "inputs" "track_curvature" dI (by intro _ h; simp at h)).mp (it s hs _ (by decide))
      rw [if_pos ⟨rfl, rfl⟩] at this
      exact this
    · intro s hs
      have := (allowed_default hs "inputs" "track_heading" dI (by intro _ h; simp at h)).mp (it s hs _ (by decide))
      rw [if_neg (by decide), if_pos ⟨rfl, rfl⟩] at this
      exact this
    · intro s hs h0
      have := (allowed_default hs "states" "n" dS (by
        rintro rfl _ _ (h | h)
        · simp at h
        · exact h0 h rfl)).mp (st s hs "n" (by decide))
      rw [if_neg (by decide), if_neg (by decide), if_pos ⟨rfl, rfl⟩] at this
      exact this
    · exact first "time" (Or.inl rfl) (by decide)
    · intro hcl
      exact ⟨first "n" (Or.inr ⟨hcl, by simp⟩) (by decide), first "eta" (Or.inr ⟨hcl, by simp⟩) (by decide),
        first "vx" (Or.inr ⟨hcl, by simp⟩) (by decide), first "vy" (Or.inr ⟨hcl, by simp⟩) (by decide),
        first "yaw_rate" (Or.inr ⟨hcl, by simp⟩) (by decide)⟩
  · intro H s g m hvar
    rw [isVar_iff, hS, hI, hY] at hvar
    obtain ⟨hs, hvar⟩ := hvar
    rcases hvar with ⟨rfl, hm⟩ | ⟨rfl, hm⟩ | ⟨rfl, hm⟩ | ⟨rfl, hm⟩
    · by_cases hc : s = 0 ∧ (m = "time" ∨ (closed = false ∧ m ∈ ["n", "eta", "vx", "vy", "yaw_rate"]))
      · obtain ⟨rfl, hc⟩ := hc
        rw [allowed_first hc]
        rcases hc with rfl | ⟨hcl, hm'⟩
        · exact H.start
        · obtain ⟨r1, r2, r3, r4, r5⟩ := H.rest hcl
          simp only [List.mem_cons, List.not_mem_nil, or_false] at hm'
          rcases hm' with rfl | rfl | rfl | rfl | rfl
          · exact r1
          · exact r2
          · exact r3
          · exact r4
          · exact r5
      · rw [allowed_default hs "states" m dS (by
          intro h0 _ hm' hh
          refine hc ⟨h0, ?_⟩
          rcases hh with rfl | hh
          · exact Or.inl rfl
          · rcases List.mem_cons.mp hm' with h | h
            · exact Or.inl h
            · exact Or.inr ⟨hh, h⟩)]
        rw [if_neg (by simp), if_neg (by simp)]
        have hm : m ∈ ["time", "n", "eta", "vx", "vy", "yaw_rate", "wheel_speed_fl", "wheel_speed_fr", "wheel_speed_rl", "wheel_speed_rr"] := hm
        simp only [List.mem_cons, List.not_mem_nil, or_false] at hm
        by_cases hn : m = "n"
        · subst hn
          rw [if_pos ⟨rfl, rfl⟩]
          exact H.lateral s hs fun hcl h0 => hc ⟨h0, Or.inr ⟨hcl, by simp⟩⟩
        rw [if_neg (by simp [hn]), default_limits _ _ dS, if_pos rfl]
        rcases hm with rfl | rfl | rfl | rfl | rfl | rfl | rfl | rfl | rfl | rfl
        · exact inside_top.mpr (H.time s hs)
        · exact absurd rfl hn
        · simp only [if_true, String.reduceEq, if_false, e1]; exact Sim.abs_inside.mpr (H.eta s hs)
        · simp only [if_true, String.reduceEq, if_false]; exact Sim.inside_coe.mpr (H.vx s hs)
        · simp only [if_true, String.reduceEq, if_false]; exact Sim.abs_inside.mpr (H.vy s hs)
        · simp only [if_true, String.reduceEq, if_false, e2]; exact Sim.abs_inside.mpr (H.yaw s hs)
        · exact Sim.inside_coe.mpr (H.wheels s hs "fl" (by simp [LapSim.corners]))
        · exact Sim.inside_coe.mpr (H.wheels s hs "fr" (by simp [LapSim.corners]))
        · exact Sim.inside_coe.mpr (H.wheels s hs "rl" (by simp [LapSim.corners]))
        · exact Sim.inside_coe.mpr (H.wheels s hs "rr" (by simp [LapSim.corners]))
    · rw [allowed_default hs "inputs" m dI (by intro _ h; simp at h)]
      by_cases h1 : m = "track_curvature"
      · subst h1
        rw [if_pos ⟨rfl, rfl⟩]
        exact H.curvature s hs
      by_cases h2 : m = "track_heading"
      · subst h2
        rw [if_neg (by decide), if_pos ⟨rfl, rfl⟩]
        exact H.heading s hs
      rw [if_neg (by simp [h1]), if_neg (by simp [h2]), if_neg (by simp), default_limits _ _ dI, if_neg (by decide), if_pos rfl]
      have hm : m ∈ ["throttle", "brake", "steer", "ax", "ay", "track_curvature", "track_heading"] := hm
      simp only [List.mem_cons, List.not_mem_nil, or_false] at hm
      rcases hm with rfl | rfl | rfl | rfl | rfl | rfl | rfl
      · exact Sim.inside_coe.mpr (H.throttle s hs)
      · exact Sim.inside_coe.mpr (H.brake s hs)
      · exact Sim.abs_inside.mpr (H.steer s hs)
      · exact Sim.inside_free.mpr trivial
      · exact Sim.inside_free.mpr trivial
      · exact absurd rfl h1
      · exact absurd rfl h2
    · rw [allowed_default hs "states_dot" m dD (by intro _ h; simp at h)]
      rw [if_neg (by simp), if_neg (by simp), if_neg (by simp), default_limits _ _ dD, if_neg (by decide), if_neg (by decide), if_neg (by decide)]
      exact Sim.inside_free.mpr trivial
    · rw [allowed_default hs "con_outputs" m dC (by intro _ h; simp at h)]
      rw [if_neg (by simp), if_neg (by simp), if_neg (by simp), default_limits _ _ dC, if_neg (by decide), if_neg (by decide), if_pos rfl]
      simp only [defaultConOutputs, List.mem_cons, List.not_mem_nil, or_false] at hm
      rcases hm with rfl | rfl | rfl | rfl | rfl | rfl | rfl | rfl
      · exact Sim.abs_inside.mpr (H.slipRatio s hs "fl" (by simp [LapSim.corners]))
      · exact Sim.abs_inside.mpr (H.slipRatio s hs "fr" (by simp [LapSim.corners]))
      · exact Sim.abs_inside.mpr (H.slipRatio s hs "rl" (by simp [LapSim.corners]))
      · exact Sim.abs_inside.mpr (H.slipRatio s hs "rr" (by simp [LapSim.corners]))
      · exact Sim.abs_inside.mpr (H.slipAngle s hs "fl" (by simp [LapSim.corners]))
      · exact Sim.abs_inside.mpr (H.slipAngle s hs "fr" (by simp [LapSim.corners]))
      · exact Sim.abs_inside.mpr (H.slipAngle s hs "rl" (by simp [LapSim.corners]))
      · exact Sim.abs_inside.mpr (H.slipAngle s hs "rr" (by simp [LapSim.corners]))

/-- The default configuration suits every vehicle that has the eight slips among its outputs. -/
theorem defaults_usable {v : Mdl ℝ} (hcon : ∀ n ∈ defaultConOutputs, n ∈ (vehicleOnTrack v).names.outputs) (hv : Car v) (hn : 1 ≤ n) (hnd : nc.Nodup)
    (hnc : ∀ w ∈ nc, (∃ n ∈ onTrackNames.states, w = "states." ++ n) ∨ ∃ n ∈ onTrackNames.inputs, w = "inputs." ++ n)
    (hst : cyc = true → "inputs.steer" ∉ nc) : Usable v (defaults tn kw n pts cyc nc closed) where
  intervals := hn
  distinct := hnd
  known := hnc
  steer := hst
  outputs := ⟨by show defaultConOutputs.Nodup; decide, hcon⟩
  scales := by
    intro c hc
    have hc : c ∈ defaultScales := hc
    refine ⟨?_, fun k _ => Or.inl ?_⟩
    · simp only [defaultScales, List.mem_cons, List.not_mem_nil, or_false] at hc
      rcases hc with rfl | rfl | rfl | rfl | rfl | rfl | rfl | rfl | rfl | rfl <;> norm_num
    · have e1 : (layoutOf ((vehicleOnTrack v).explicit (defaults tn kw n pts cyc nc closed).conOutputs) (defaults tn kw n pts cyc nc closed).numIntervals k).namesOf "states" = onTrackNames.states := by
        show (vehicleOnTrack v).names.states = _
        rw [onTrack_names]
      have e3 : (layoutOf ((vehicleOnTrack v).explicit (defaults tn kw n pts cyc nc closed).conOutputs) (defaults tn kw n pts cyc nc closed).numIntervals k).namesOf "states_dot" = onTrackNames.states := by
        show (vehicleOnTrack v).names.states = _
        rw [onTrack_names]
      have eg : (layoutOf ((vehicleOnTrack v).explicit (defaults tn kw n pts cyc nc closed).conOutputs) (defaults tn kw n pts cyc nc closed).numIntervals k).groups = ["states", "inputs", "states_dot", "con_outputs"] := rfl
      simp only [defaultScales, List.mem_cons, List.not_mem_nil, or_false] at hc
      rw [eg]
      rcases hc with rfl | rfl | rfl | rfl | rfl | rfl | rfl | rfl | rfl | rfl
      all_goals first
        | exact ⟨by decide, by rw [e1]; decide⟩
        | exact ⟨by decide, by rw [e3]; decide⟩
  bounds := by
    intro k hk
    have e1 : (vehicleOnTrack v).names.states = onTrackNames.states := by rw [onTrack_names]
    have e2 : (vehicleOnTrack v).names.inputs = onTrackNames.inputs := by rw [onTrack_names]
    have hd := onTrack_delivers hv (con := defaultConOutputs) (by decide) hcon
    refine C70_defaults_accepted (layoutOf_made (explicit_good hd) _ (by omega)) (by simp [layoutOf]) (by simp [layoutOf]) (by simp [layoutOf]) ?_ ?_ ?_ closed
    · show ∀ m ∈ _, m ∈ (vehicleOnTrack v).names.states
      rw [e1]; decide
    · show ∀ m ∈ _, m ∈ (vehicleOnTrack v).names.inputs
      rw [e2]; decide
    · exact fun m hm => hm

/-- The bounds of a simulation with the default configuration, written out. -/
theorem C95_default_bounds {v : Mdl ℝ} {u : UnitProblem} {D : List ℝ → ℝ → Prop} (hv : Car v) (hc : Usable v (defaults tn kw n pts cyc nc closed))
    (hu : Backed v (defaults tn kw n pts cyc nc closed) u D) {file : Py (List Row)} {l : Lap}
    (hl : laptime v u (defaults tn kw n pts cyc nc closed) file = .ok l) :
    ∃ tr, l.track = some tr ∧ ∀ x : List ℝ, x.length = l.S.c.o.L.numDec →
      (Within l.st.lb l.st.ub x ↔ InDefaults closed tr l.S.c.o.L.numStages (fun s => l.S.c.mesh.getD s 0 * tr.totalDistance)
        fun g m s => readAt l.S.c.o.L x g m s) := by
  obtain ⟨tr, h1, h2⟩ := C95_bounds hv hc hu hl
  obtain ⟨t, S, b, tr', ht, hm, hg, hb, hrd, hs, f1, f2, f3⟩ := laptime_inv hv hc hu hl
  refine ⟨tr, h1, fun x hx => ?_⟩
  rw [h2 x hx]
  have eL : l.S.c.o.L = layoutOf ((vehicleOnTrack v).explicit defaultConOutputs) n t.stages := by rw [f3]; exact hm.layout
  rw [eL]
  refine allowed_all ?_ ?_ rfl (fun s => l.S.c.mesh.getD s 0 * tr.totalDistance) fun g m s => readAt _ x g m s
  · show (vehicleOnTrack v).names.states = _
    rw [onTrack_names]
  · show (vehicleOnTrack v).names.inputs = _
    rw [onTrack_names]

end

end Lumos.Lts
