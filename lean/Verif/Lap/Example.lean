import Verif.Lap.Accept
import Verif.Ocp.BuildExample
/-!
# C69, C70: a lap time simulation that meets the hypotheses
-/

namespace Lumos.Ocp.ExplicitModel

open Lumos NLP

/-- A model whose derivatives and outputs are constants. -/
noncomputable def steady (xs us ys : List String) (a b : List ℝ) : ExplicitModel :=
  { states := xs, inputs := us, conOutputs := ys, residuals := [], f := fun _ _ _ => a, h := fun _ _ _ => b, r := fun _ _ _ => [] }

section
variable {xs us ys : List String} {a b : List ℝ}

theorem steady_good (hp : 0 < xs.length) (hx : xs.Nodup) (hu : us.Nodup) (hy : ys.Nodup) (ha : a.length = xs.length) (hb : b.length = ys.length) :
    (steady xs us ys a b).Good :=
  ⟨hp, hx, hu, hy, fun _ _ _ _ _ => ha, fun _ _ _ _ _ => hb, fun _ _ _ _ _ => rfl⟩

theorem steady_entry (h : (steady xs us ys a b).Good) {v : List ℝ} (hv : v.length = (steady xs us ys a b).numVar) (μ : ℝ) {r : Nat}
    (hr : r < (steady xs us ys a b).numRes) :
    ((steady xs us ys a b).flatImplicit v μ).getD r 0 = (a ++ b).getD r 0 - v.getD (xs.length + us.length + r) 0 := by
  have h1 := length_flatImplicit h hv μ
  rw [flatImplicit_eq h hv] at h1 ⊢
  have e : (steady xs us ys a b).r ((steady xs us ys a b).xOf v) ((steady xs us ys a b).uOf v) μ = [] := rfl
  rw [e, List.append_nil] at h1 ⊢
  have e2 : (steady xs us ys a b).rhs v μ = a ++ b := rfl
  have e3 : (steady xs us ys a b).wOf v = v.drop (xs.length + us.length) := rfl
  rw [e2, e3] at h1 ⊢
  rw [List.length_zipWith] at h1
  have l1 : r < (a ++ b).length := by omega
  have l2 : r < (v.drop (xs.length + us.length)).length := by omega
  have l3 : xs.length + us.length + r < v.length := by rw [List.length_drop] at l2; omega
  simp only [List.getD_eq_getElem?_getD, List.getElem?_zipWith, List.getElem?_drop, List.getElem?_eq_getElem l1, List.getElem?_eq_getElem l3,
    Option.getD_some]

theorem steady_jac (h : (steady xs us ys a b).Good) :
    (steady xs us ys a b).DenseJac fun _ _ r j => if j = xs.length + us.length + r then -1 else 0 := by
  intro v μ hv _ r hr j hj
  have e : (fun t => ((steady xs us ys a b).flatImplicit (v.set j t) μ).getD r 0) = fun t : ℝ =>
      (a ++ b).getD r 0 - (v.set j t).getD (xs.length + us.length + r) 0 := by
    funext t
    exact steady_entry h (by rw [List.length_set]; exact hv) μ hr
  show HasDerivAt (fun t => ((steady xs us ys a b).flatImplicit (v.set j t) μ).getD r 0) _ _
  rw [e]
  dsimp only
  by_cases hk : j = xs.length + us.length + r
  · rw [if_pos hk, ← hk]
    have : (fun t : ℝ => (a ++ b).getD r 0 - (v.set j t).getD j 0) = fun t : ℝ => (a ++ b).getD r 0 - t := by
      funext t
      rw [List.getD_eq_getElem?_getD (l := v.set j t), List.getElem?_set_self (by omega)]
      rfl
    rw [this]
    simpa using (hasDerivAt_id (v.getD j 0)).const_sub ((a ++ b).getD r 0)
  · rw [if_neg hk]
    have : (fun t : ℝ => (a ++ b).getD r 0 - (v.set j t).getD (xs.length + us.length + r) 0)
        = fun _ : ℝ => (a ++ b).getD r 0 - v.getD (xs.length + us.length + r) 0 := by
      funext t
      rw [List.getD_eq_getElem?_getD (l := v.set j t), List.getElem?_set_ne hk, ← List.getD_eq_getElem?_getD]
    rw [this]
    exact hasDerivAt_const _ _

theorem steady_hess (h : (steady xs us ys a b).Good) : (steady xs us ys a b).DenseHess fun _ _ _ _ _ => 0 := by
  intro v lam μ hv hlam _
  refine IsHessianAt.of_global hv ⟨fun _ j => ∑ r ∈ Finset.range lam.length, lam.getD r 0 * (if j = xs.length + us.length + r then -1 else 0), ?_, ?_⟩
  · intro y hy j hj
    have e : (fun t => dot lam ((steady xs us ys a b).flatImplicit (y.set j t) μ)) = fun t : ℝ =>
        ∑ r ∈ Finset.range lam.length, lam.getD r 0 * ((steady xs us ys a b).flatImplicit (y.set j t) μ).getD r 0 := by
      funext t
      exact dot_eq_sum rfl (by rw [length_flatImplicit h (by rw [List.length_set]; exact hy), hlam])
    show HasDerivAt (fun t => dot lam ((steady xs us ys a b).flatImplicit (y.set j t) μ)) _ _
    rw [e]
    refine HasDerivAt.fun_sum fun r hr => ?_
    exact (steady_jac h y μ hy trivial r (by rw [← hlam]; exact Finset.mem_range.mp hr) j hj).const_mul _
  · intro i j _ _ _
    exact hasDerivAt_const _ _

end

end Lumos.Ocp.ExplicitModel

namespace Lumos.LapSim

open Lumos DecVar DecVar.Layout Bounds Ocp Track Io NLP

/-- The states, inputs and constrained outputs of the vehicle on a track. -/
def carStates : List String :=
  ["time", "n", "eta", "vx", "vy", "yaw_rate", "wheel_speed_fl", "wheel_speed_fr", "wheel_speed_rl", "wheel_speed_rr"]
def carInputs : List String := ["throttle", "brake", "steer", "track_curvature", "track_heading"]

/-- Driving straight on at 50 m/s. -/
noncomputable def carModel : ExplicitModel :=
  ExplicitModel.steady carStates carInputs defaultConOutputs [1 / 50, 0, 0, 0, 0, 0, 0, 0, 0, 0] (List.replicate 8 0)

theorem carModel_good : carModel.Good :=
  ExplicitModel.steady_good (by decide) (by decide) (by decide) (by decide) rfl rfl

/-- Four intervals of two stages. -/
def carLayout : Layout :=
  ⟨[("states", carStates), ("inputs", carInputs), ("states_dot", carStates), ("con_outputs", defaultConOutputs)],
    ["states", "inputs", "states_dot", "con_outputs"], [], 4, 2⟩

/-- The problem on four intervals with the implicit Euler method. -/
noncomputable def carCond : CondOCP :=
  { o := { L := carLayout, A := fun _ j => if j = 0 then -1 else 1, B := fun _ j => if j = 0 then 0 else 1
           normLen := [1 / 4, 1 / 4, 1 / 4, 1 / 4], fixedScale := some 1 }
    M := carModel
    u := carModel.unitOf (fun _ _ r j => if j = carStates.length + carInputs.length + r then -1 else 0) (fun _ _ _ _ _ => 0)
    mesh := [0, 1 / 4, 1 / 2, 3 / 4, 1] }

theorem carCond_good : carCond.Good where
  stage :=
    { made := ⟨by show Layout.make carLayout.names carLayout.groups carLayout.globals carLayout.numIntervals carLayout.nspi = .ok carLayout
                  decide +kernel, by decide, by decide⟩
      fields := ⟨by show (carLayout.groups ++ carLayout.globals).Nodup; decide, by show 0 < carLayout.numVarStage; decide +kernel⟩
      stages := (by decide)
      intervals := (by decide)
      states := (by decide)
      statesDot := (by decide)
      same := (by show carLayout.size "states_dot" = carLayout.size "states"; decide +kernel)
      pos := (by show 0 < carLayout.size "states"; decide +kernel)
      lens := rfl
      mesh := (by simp [carCond, carLayout])
      width := rfl
      points := rfl }
  model := carModel_good
  con := rfl
  numIn := rfl
  numCon := rfl
  groups := rfl
  sizeX := (by show carLayout.size "states" = 10; decide +kernel)
  sizeU := (by show carLayout.size "inputs" = 5; decide +kernel)
  sizeY := (by show carLayout.size "con_outputs" = 8; decide +kernel)

/-- A lap time simulation, cyclic or not, with the default bounds, boundary conditions and scales; if it is cyclic the time and the
track heading are excluded (laptime_simulation.py:120-137). -/
noncomputable def carSetup (cyc : Bool) : Setup :=
  { c := carCond, builtScale := some 1, laptime := true, isCyclic := cyc
    nonCyclic := if cyc then ["states.time", "inputs.track_heading"] else [], isCondensed := false, sample := []
    bounds := defaultBounds, bcs := defaultBCs cyc, scales := defaultScales }

theorem carSetup_good (cyc : Bool) : (start (carSetup cyc)).Good where
  cond := carCond_good
  jac := ExplicitModel.unitOf_jac carModel_good (ExplicitModel.steady_jac carModel_good) _
  hess := unitOf_upper carModel_good (ExplicitModel.steady_jac carModel_good) (ExplicitModel.steady_hess carModel_good)
  meshFree := Or.inl (by simp [start, rescale])
  built := (by simp [start, rescale])
  lap := fun _ => ⟨by simp [start, rescale], by show "steer" ∈ carLayout.namesOf "inputs"; decide +kernel⟩
  last := (by simp [start, rescale])
  time := fun _ => (by show "time" ∈ carLayout.namesOf "states"; decide +kernel)
  dotless := fun _ => (by
    show (∀ n ∈ carLayout.namesOf "states", Dotless n) ∧ ∀ n ∈ carLayout.namesOf "inputs", Dotless n
    unfold Dotless
    decide +kernel)
  excluded := fun h => (by
    have h : cyc = true := h
    subst h
    refine ⟨by simp [start, rescale, carSetup], ?_⟩
    intro v hv
    simp only [start, rescale, carSetup, if_true, List.mem_cons, List.not_mem_nil, or_false] at hv
    rcases hv with rfl | rfl
    · exact Or.inl ⟨"time", by show "time" ∈ carLayout.namesOf "states"; decide +kernel, by decide +kernel⟩
    · exact Or.inr ⟨"track_heading", by show "track_heading" ∈ carLayout.namesOf "inputs"; decide +kernel, by decide +kernel⟩)
  someCyclic := fun _ => Or.inr ⟨"steer", by show "steer" ∈ carLayout.namesOf "inputs"; decide +kernel, by
    cases cyc <;> simp [start, rescale, carSetup]⟩
  sample := (by simp [start, rescale, carSetup])
  known := (by
    intro c hc
    have key : ∀ g n, g ∈ carLayout.groups ∧ n ∈ carLayout.namesOf g → ScaleConfig.Known (start (carSetup cyc)).c.o.L ⟨g, n, c.value⟩ :=
      fun g n h => Or.inl h
    have hc : c ∈ defaultScales := hc
    simp only [defaultScales, List.mem_cons, List.not_mem_nil, or_false] at hc
    rcases hc with rfl | rfl | rfl | rfl | rfl | rfl | rfl | rfl | rfl | rfl <;> exact key _ _ (by decide +kernel))
  nonzero := (by
    intro c hc
    have hc : c ∈ defaultScales := hc
    simp only [defaultScales, List.mem_cons, List.not_mem_nil, or_false] at hc
    rcases hc with rfl | rfl | rfl | rfl | rfl | rfl | rfl | rfl | rfl | rfl <;> norm_num)
  bounds := (by
    have := C70_defaults_accepted (L := carLayout) carCond_good.ocp.made (by decide) (by decide) (by decide) (by decide +kernel) (by decide +kernel)
      (by decide +kernel) cyc
    obtain ⟨s, t, h1, h2⟩ := this
    refine ⟨s, t, ?_, h2⟩
    have e : (start (carSetup cyc)).allBounds ((start (carSetup cyc)).c.o.L.namesOf "states_dot") = defaultBounds := by
      simp [start, rescale, carSetup, Setup.allBounds]
    rw [e]
    exact h1)

/-- Every road makes a simulation of this car; its guess exists and is within the bounds (the hypotheses of C69 and C70 can be met). -/
theorem car_on_road (cyc : Bool) {rows : List Row} (hr : Road rows) :
    ∃ l t, Lap.make (carSetup cyc) (.ok rows) = .ok l ∧ fromTumCsv (.ok rows) = .ok t ∧ l.track = some t ∧ Guessable l t ∧
      ∃ b, (start (carSetup cyc)).build = .ok b ∧ Ready ⟨start (carSetup cyc), b.bounds, none⟩ ∧
        Lap.setTrack ⟨start (carSetup cyc), b.bounds, none⟩ (.ok rows) = (l, none) := by
  obtain ⟨b, hb, hready, hc⟩ := C69_construct (carSetup_good cyc) (by show "track_curvature" ∈ carLayout.namesOf "inputs"; decide +kernel)
    (by show "track_heading" ∈ carLayout.namesOf "inputs"; decide +kernel) (by show "n" ∈ carLayout.namesOf "states"; decide +kernel) (.ok rows)
  have hok := C69_road_accepted hready hr
  rcases hs : Lap.setTrack ⟨start (carSetup cyc), b.bounds, none⟩ (.ok rows) with ⟨l, o⟩
  rw [hs] at hok
  dsimp only at hok
  subst hok
  obtain ⟨t, h1, h2, h3⟩ := setTrack_inv hs
  obtain ⟨t', h4, h5, _⟩ := road_loads hr
  rw [h1, Except.ok.injEq] at h4
  subst h4
  have h3 : l.S = rescale (start (carSetup cyc)) t.totalDistance := h3
  refine ⟨l, t, (hc l none hs).1 rfl, h1, h2, ?_, b, hb, hready, hs⟩
  have eL : l.S.c.o.L = carLayout := by rw [h3]; rfl
  have eM : l.S.c.M = carModel := by rw [h3]; rfl
  have g := carSetup_good cyc
  refine ⟨?_, ?_, ?_, ?_, ?_, ?_, ?_, ?_, ?_, h2, h5⟩
  · rw [h3]
    exact (Good.rescale g (by simp [start, rescale]) rfl _).cond
  · rw [eL, eM]; show carLayout.namesOf "states" = carStates; decide +kernel
  · rw [eL, eM]; show carLayout.namesOf "inputs" = carInputs; decide +kernel
  · rw [eL]; rfl
  · rw [eM]; show "time" ∈ carStates; decide
  · rw [eM]; show ∀ n ∈ carStates, n ∈ Lap.constStates.keys
    simp [carStates, Lap.constStates, Dict.keys]
  · rw [eM]; show "track_curvature" ∈ carInputs; decide
  · rw [eM]; show "track_heading" ∈ carInputs; decide
  · rw [eM]; show ∀ n ∈ carInputs, n ∈ Lap.constInputs.keys
    simp [carInputs, Lap.constInputs, Dict.keys]

/-- The lap of the rectangle with corners (0,0), (2,0), (2,1), (0,1), with a point every metre. -/
noncomputable def rectangle : List Row :=
  [⟨0, 0, 1, 1⟩, ⟨1, 0, 1, 1⟩, ⟨2, 0, 1, 1⟩, ⟨2, 1, 1, 1⟩, ⟨1, 1, 1, 1⟩, ⟨0, 1, 1, 1⟩, ⟨0, 0, 1, 1⟩]

theorem rectangle_road : Road rectangle where
  two := by decide
  distinct := by
    intro i h
    have : i + 1 < 7 := h
    have : i < 6 := by omega
    unfold rectangle
    interval_cases i <;> norm_num
  left := by intro r hr; simp [rectangle] at hr; rcases hr with rfl | rfl | rfl | rfl | rfl | rfl | rfl <;> norm_num
  right := by intro r hr; simp [rectangle] at hr; rcases hr with rfl | rfl | rfl | rfl | rfl | rfl | rfl <;> norm_num

/-- The guess for the car on the rectangle is within the bounds. -/
example : ∃ l x, Lap.make (carSetup true) (.ok rectangle) = .ok l ∧ l.initGuess = .ok x ∧
    ∀ s i g n, carLayout.IsVar (.stage s g n) → g = "states" ∨ g = "inputs" → carLayout.query (.stage s g n) = .ok (.scalar i) →
    ∃ lo hi, l.st.lb[i]? = some lo ∧ l.st.ub[i]? = some hi ∧ lo ≤ ((readAt carLayout x g n s : ℝ) : EReal) ∧
      ((readAt carLayout x g n s : ℝ) : EReal) ≤ hi := by
  obtain ⟨l, t, h1, h2, _, h4, _⟩ := car_on_road true rectangle_road
  obtain ⟨t', h5, _, _, h6⟩ := road_loads rectangle_road
  rw [h2, Except.ok.injEq] at h5
  subst h5
  obtain ⟨x, hx, _⟩ := C70_guess h4
  refine ⟨l, x, h1, hx, fun s i g n hv hg hq => ?_⟩
  refine C70_within (carSetup_good true) rfl rfl (cyc := true) rfl h1 h4 (by show "n" ∈ carStates; decide) ?_ ?_ hx hv hg hq
  · intro s hs
    have : s < 5 := hs
    show [(0 : ℝ), 1 / 4, 1 / 2, 3 / 4, 1].getD 0 0 ≤ [(0 : ℝ), 1 / 4, 1 / 2, 3 / 4, 1].getD s 0
    interval_cases s <;> norm_num
  · intro d _
    exact h6 _

/-- The curvature of the rectangle is 0 at the start and 1/2 at the end, the same point. -/
theorem rectangle_curvature {t : RaceTrack} (h : fromTumCsv (.ok rectangle) = .ok t) :
    t.curvatureAt 0 = .ok 0 ∧ t.curvatureAt t.totalDistance = .ok (1 / 2) := by
  obtain ⟨rows, hrows, _, hc⟩ := fromTumCsv_inv h
  simp only [Except.ok.injEq] at hrows
  subst hrows
  obtain ⟨e1, e2, e3⟩ := cartesian_inv hc
  have hd : Distinct (rectangle.map Row.x) (rectangle.map Row.y) := by
    intro i h1 h2
    have := rectangle_road.distinct i (by simpa using h1)
    simpa using this
  obtain ⟨k, _, _, _, _, _, h0, ktot⟩ := C63_lookup e3 (arcLength_inc e1 hd) (by rw [length_arr, length_arr]) (by rw [length_arr, length_arr])
  have hx : rectangle.map Row.x = [0, 1, 2, 2, 1, 0, 0] := rfl
  have hy : rectangle.map Row.y = [0, 0, 0, 1, 1, 1, 0] := rfl
  have hn : (rectangle.map Row.x).length = 7 := rfl
  have hs : ∀ i, i < 7 → arcLength (at_ (rectangle.map Row.x)) (at_ (rectangle.map Row.y)) i = i := by
    intro i hi
    rw [hx, hy]
    unfold arcLength cumsum0 diff at_
    interval_cases i <;> simp [Finset.sum_range_succ] <;> norm_num
  have hk0 : curvatureOf 7 (at_ (rectangle.map Row.x)) (at_ (rectangle.map Row.y))
      (arcLength (at_ (rectangle.map Row.x)) (at_ (rectangle.map Row.y))) 0 = 0 := by
    unfold curvatureOf gradient
    simp only [hs 0 (by norm_num), hs 1 (by norm_num), hs 2 (by norm_num)]
    rw [hx, hy]
    norm_num [at_]
  have hk6 : curvatureOf 7 (at_ (rectangle.map Row.x)) (at_ (rectangle.map Row.y))
      (arcLength (at_ (rectangle.map Row.x)) (at_ (rectangle.map Row.y))) 6 = 1 / 2 := by
    unfold curvatureOf gradient
    simp only [hs 0 (by norm_num), hs 4 (by norm_num), hs 5 (by norm_num), hs 6 (by norm_num)]
    generalize arcLength (at_ (rectangle.map Row.x)) (at_ (rectangle.map Row.y)) = s at hs
    rw [hx, hy]
    norm_num [hs, at_]
  have n0 := k.nodes 0 (by rw [length_arr]; decide) (by rw [length_arr]; decide)
  have n6 := k.nodes 6 (by rw [length_arr]; decide) (by rw [length_arr]; decide)
  simp only [getElem_arr, hn] at n0 n6
  rw [hk0, sub_self] at n0
  rw [hk6] at n6
  refine ⟨n0, ?_⟩
  rw [ktot]
  simp only [getElem_arr]
  rw [length_arr]
  exact n6

/-- **C69, finding**: a closed lap on which the cyclic problem has no feasible point. -/
theorem C69_closed_lap_infeasible : ∃ l b, Lap.make (carSetup true) (.ok rectangle) = .ok l ∧ l.problem = .ok b ∧
    ¬ ∃ x : List ℝ, x.length = l.S.c.o.L.numDec ∧ Within b.bounds.lb b.bounds.ub x ∧ b.Feasible (vdiv x b.prob.scales) := by
  obtain ⟨l, t, h1, h2, h3, h4, b0, h5, h6, h7⟩ := car_on_road true rectangle_road
  obtain ⟨t', b, g1, g2, g3, _, g5⟩ := C69_problem (carSetup_good true) rfl rfl h6 h7
  refine ⟨l, b, h1, g2, ?_⟩
  rintro ⟨x, x1, x2, x3⟩
  rw [g3] at x2
  rw [(g5 x x1).1] at x3
  obtain ⟨c0, c1⟩ := rectangle_curvature h2
  have hS : l.S = rescale (start (carSetup true)) t.totalDistance := by
    obtain ⟨t', e1, e2, e3⟩ := setTrack_inv h7
    rw [h2, Except.ok.injEq] at e1
    subst e1
    exact e3
  have hbcs : b0.bounds.bcs = defaultBCs true := by
    obtain ⟨b', o, s', g1, _, _, _, _, _, _, _, g2, g3, _⟩ := build_ok (carSetup_good true)
    rw [h5, Except.ok.injEq] at g1
    subst g1
    have := run_bcs (start (carSetup true)).c.o.L s' (.updateBCs (start (carSetup true)).bcs)
    simp only [Call.run, g3, givenBCs, List.append_nil] at this
    have hs' : s'.bcs = [] := by
      have := updateBounds_bcs (start (carSetup true)).c.o.L (Bounds.fresh (start (carSetup true)).c.o.L)
        ((start (carSetup true)).allBounds ((start (carSetup true)).c.o.L.namesOf "states_dot"))
      rw [g2] at this
      exact this
    rw [this, hs']
    rfl
  refine C69_cyclic_infeasible h6 h7 h3 ?_ rfl (by show "inputs.track_curvature" ∉ ["states.time", "inputs.track_heading"]; decide) (d0 := 0) (d1 := 1) rfl rfl ?_ ⟨x, ?_, x2, x3⟩
  · intro c hc
    have hc : c ∈ b0.bounds.bcs := hc
    rw [hbcs] at hc
    simp only [defaultBCs, if_true, List.mem_singleton] at hc
    subst hc
    simp only [fixAt]
    decide +kernel
  · rw [zero_mul, one_mul, c0, c1]
    norm_num
  · rw [x1, hS]; rfl

end Lumos.LapSim
