import Verif.Drive.Sweep
/-!
# C98: the vehicles of lumos, swept; and a length set by hand
-/

namespace Lumos.Drive

open Lumos DecVar DecVar.Layout NLP Bounds Ocp OCP Track LapSim Lts Io Io.Mdl Use Lumos.Trans Veh

/-- The standard vehicle with the default configuration: the parameters of the vehicle, those of its tyres, and the three aerodynamic
coefficients may all be changed. The derivatives are the right ones wherever the model is smooth. -/
noncomputable def standardEntry (cf : Conf) (jax exact : Bool) : Entry (Params × Four TireParams × ℝ × ℝ × ℝ) where
  car := fun p => standardVehicle p.1 p.2.1 p.2.2.1 p.2.2.2.1 p.2.2.2.2
  unit := fun p => ((vehicleOnTrack (standardVehicle p.1 p.2.1 p.2.2.1 p.2.2.2.1 p.2.2.2.2)).explicit cf.conOutputs).autoUnit
  conf := cf
  jax := jax
  exact := exact

theorem standardEntry_good {tn : String} {kw : List (String × Int)} {n : Nat} (hn : 1 ≤ n) {pts : Option (List ℝ)} {cyc closed : Bool}
    {nc : List String} (hnd : nc.Nodup)
    (hnc : ∀ w ∈ nc, (∃ n ∈ onTrackNames.states, w = "states." ++ n) ∨ ∃ n ∈ onTrackNames.inputs, w = "inputs." ++ n)
    (hst : cyc = true → "inputs.steer" ∉ nc) (jax exact : Bool) :
    (standardEntry (defaults tn kw n pts cyc nc closed) jax exact).Good (fun _ => True)
      (fun p => ((vehicleOnTrack (standardVehicle p.1 p.2.1 p.2.2.1 p.2.2.2.1 p.2.2.2.2)).explicit defaultConOutputs).Smooth) := by
  have hcar : ∀ p : Params × Four TireParams × ℝ × ℝ × ℝ, Car (standardVehicle p.1 p.2.1 p.2.2.1 p.2.2.2.1 p.2.2.2.2) := fun p => standard_car ..
  have hus : ∀ p : Params × Four TireParams × ℝ × ℝ × ℝ, Usable (standardVehicle p.1 p.2.1 p.2.2.1 p.2.2.2.1 p.2.2.2.2) (defaults tn kw n pts cyc nc closed) :=
    fun p => defaults_usable (standard_con _ _ _ _ _) (hcar p) hn hnd hnc hst
  refine ⟨fun p _ => hcar p, fun p _ => hus p, fun p _ => backed_auto (hcar p) (hus p), fun p q _ _ => ?_⟩
  unfold standardEntry standardVehicle vehicle vehicleSubs
  simp only [Mdl.names, Mdl.namesL]
  rfl

/-- **C98 (the vehicles of lumos).** The standard vehicle with the default configuration, any transcription and mesh, any parameters
and any road: the constructor accepts them, and after any sweep over parameters, scales and tracks that ends on a road the object is
as the constructor makes it from what was set last. -/
theorem C98_standard {tn : String} {kw : List (String × Int)} {t : Transcription} (ht : makeTranscription tn kw = .ok t) {n : Nat} (hn : 1 ≤ n)
    {pts : Option (List ℝ)} {mesh : List (List ℝ)} (hm : setMesh t.interp n pts = .ok mesh) (cyc closed jax exact : Bool) {nc : List String}
    (hnd : nc.Nodup) (hnc : ∀ w ∈ nc, (∃ n ∈ onTrackNames.states, w = "states." ++ n) ∨ ∃ n ∈ onTrackNames.inputs, w = "inputs." ++ n)
    (hst : cyc = true → "inputs.steer" ∉ nc) (p : Params × Four TireParams × ℝ × ℝ × ℝ) {rows : List Row} (hr : Road rows) :
    ∃ s S, front (vehicleOnTrack ((standardEntry (defaults tn kw n pts cyc nc closed) jax exact).car p))
        ((standardEntry (defaults tn kw n pts cyc nc closed) jax exact).unit p) (defaults tn kw n pts cyc nc closed) = .ok S ∧
      simulate (standardEntry (defaults tn kw n pts cyc nc closed) jax exact) p (.ok rows) = .ok s ∧
      ∀ ops : List (Op (Params × Four TireParams × ℝ × ℝ × ℝ)), (∀ o ∈ ops, Sweep S.c.o.L (fun _ => True) o) → ∀ rows', Road rows' →
        ∃ m, simulate ((standardEntry (defaults tn kw n pts cyc nc closed) jax exact).scaled (lastScales defaultScales ops)) (lastParams p ops) (.ok rows') = .ok m ∧
          m.track = (s.run (ops ++ [.setTrack (.ok rows')])).track ∧ m.use.bounds = (s.run (ops ++ [.setTrack (.ok rows')])).use.bounds ∧
          m.use.now.scales = (s.run (ops ++ [.setTrack (.ok rows')])).use.now.scales ∧
          m.initGuess = (s.run (ops ++ [.setTrack (.ok rows')])).initGuess ∧ ∀ x : List ℝ, x.length = S.c.o.L.numDec →
            ((s.run (ops ++ [.setTrack (.ok rows')])).use.Feasible (vdiv x m.use.now.scales) ↔ m.use.Feasible (vdiv x m.use.now.scales)) ∧
            (s.run (ops ++ [.setTrack (.ok rows')])).use.now.objective (vdiv x m.use.now.scales) = m.use.now.objective (vdiv x m.use.now.scales) := by
  have hE := standardEntry_good (tn := tn) (kw := kw) (pts := pts) (closed := closed) hn hnd hnc hst jax exact
  obtain ⟨s, S, hS, hs⟩ := C98_construct hE (p := p) trivial ht hm hr
  refine ⟨s, S, hS, hs, fun ops hops rows' hr' => ?_⟩
  obtain ⟨_, _, m, h1, h2, _, h3, h4, h5, h6⟩ := C98_sweep (rest := []) hE trivial hS hs hr' hops (by simp)
  have e1 : ∀ (ops : List (Op (Params × Four TireParams × ℝ × ℝ × ℝ))) p, lastParams p (ops ++ [.setTrack (.ok rows')]) = lastParams p ops := by
    intro ops
    induction ops with
    | nil => exact fun _ => rfl
    | cons o ops ih => intro p; rw [List.cons_append, lastParams_cons, lastParams_cons p o ops, ih]
  have e2 : ∀ (ops : List (Op (Params × Four TireParams × ℝ × ℝ × ℝ))) c, lastScales c (ops ++ [.setTrack (.ok rows')]) = lastScales c ops := by
    intro ops
    induction ops with
    | nil => exact fun _ => rfl
    | cons o ops ih => intro p; rw [List.cons_append, lastScales_cons, lastScales_cons p o ops, ih]
  rw [e1, e2] at h1
  exact ⟨m, h1, h2, h3, h4, h5, h6⟩

variable {P : Type} {E : Entry P} {V : P → Prop} {D : P → List ℝ → ℝ → Prop} {p : P} {S : Setup} {file file' : Py (List Row)} {s s' : Sim P}
  {ops rest : List (Op P)} {t : Transcription}

/-- **C98 (a length set by hand).** `set_mesh_scale` changes the length over which the equations are integrated, but neither the road
nor the bounds nor the initial guess, which stay those of the road. -/
theorem C98_by_hand (hE : E.Good V D) (hp : V p) (hS : front (vehicleOnTrack (E.car p)) (E.unit p) E.conf = .ok S)
    (hs : simulate E p file = .ok s) (hops : GoodOps (E.kind S) V (diary (E.kind S) p file []) ops) (ms : ℝ) :
    ((s.run ops).step (.call (.setMeshScale ms))).2 = none ∧ ((s.run ops).step (.call (.setMeshScale ms))).1.use.scale = some ms ∧
      ((s.run ops).step (.call (.setMeshScale ms))).1.track = (s.run ops).track ∧
      ((s.run ops).step (.call (.setMeshScale ms))).1.use.bounds = (s.run ops).use.bounds ∧
      ((s.run ops).step (.call (.setMeshScale ms))).1.initGuess = (s.run ops).initGuess := by
  obtain ⟨t, u, tr, _, ht, hm, hu, hF, hr, hms, hq, hok⟩ := driven hE hp hS hs hops
  obtain ⟨eL, eM, eJ, hb⟩ := lap_eq hE hp ht hm hu hF
  have e : (s.run ops).step (.call (.setMeshScale ms)) = (⟨{ (s.run ops).use with scale := some ms }, (s.run ops).track⟩, none) := by
    simp only [Sim.step, Use.step, if_neg hb]
  rw [e]
  exact ⟨rfl, rfl, rfl, rfl, rfl⟩

theorem layout_same (v w : Mdl ℝ) (con : List String) (n k : Nat) :
    layoutOf ((vehicleOnTrack v).explicit con) n k = layoutOf ((vehicleOnTrack w).explicit con) n k := by
  unfold layoutOf Lumos.Sim.groupsOf Io.Mdl.explicit
  rw [onTrack_names, onTrack_names]
  rfl

theorem lap_layout (hE : E.Good V D) (hp : V p) (hs : simulate E p file = .ok s) (ht : makeTranscription E.conf.transcription E.conf.kwargs = .ok t) :
    s.lap.S.c.o.L = layoutOf ((vehicleOnTrack (E.car p)).explicit E.conf.conOutputs) E.conf.numIntervals t.stages := by
  obtain ⟨t', S', u, tr1, ht', hS1, hm, hu, hf1, hst1, hF, _⟩ := simulate_inv hE hp hs
  rw [ht, Except.ok.injEq] at ht'
  subst ht'
  obtain ⟨eL, -⟩ := lap_eq hE hp ht hm hu hF
  rw [eL, hm.layout]

set_option maxHeartbeats 1000000 in
/-- The hypotheses can be met: a sweep of the standard vehicle over parameters and roads, with solves, and a file that cannot be read.
At its end, on a straight road of 1000 m, there is a lap of 20 s among the feasible points of the used object within its bounds. -/
example (p q r : Params × Four TireParams × ℝ × ℝ × ℝ) (a : SolveArgs) (hr : r.2.2.1 = 0) (h33 : r.1.rolling_radius = 0.33) :
    ∃ s n x, simulate (standardEntry (defaults "LGR" [("num_stages", 3)] 10 none false [] false) true true) p (.ok rectangle) = .ok s ∧
      n = s.run ([.call (.setParams q), .call (.solve a), .setTrack (.error .fileNotFoundError), .call (.setParams r), .call (.solve a),
        .setTrack (.ok rectangle)] ++ [.setTrack (.ok [⟨0, 0, 5, 5⟩, ⟨500, 0, 5, 5⟩, ⟨1000, 0, 5, 5⟩])]) ∧
      n.use.Feasible (vdiv x n.use.now.scales) ∧ Within n.use.bounds.lb n.use.bounds.ub x ∧
      n.use.now.objective (vdiv x n.use.now.scales) = .ok 20 := by
  obtain ⟨t, ht, -⟩ := (C38_lgr "LGR" (by simp)).2.1 3 (by norm_num)
  have hstr : StraightRoad [⟨0, 0, 5, 5⟩, ⟨500, 0, 5, 5⟩, ⟨1000, 0, 5, 5⟩] [0, 500, 1000] 0 0 0 :=
    ⟨by unfold Inc; norm_num, by decide, by simp, by simp, by simp, by simp⟩
  have hE := standardEntry_good (tn := "LGR") (kw := [("num_stages", 3)]) (n := 10) (pts := none) (cyc := false) (closed := false) (nc := [])
    (by norm_num) (by simp) (by simp) (by simp) true true
  obtain ⟨s, S, hS, hs, h⟩ := C98_standard ht (n := 10) (by norm_num) (pts := none) rfl false false true true (nc := []) (by simp) (by simp)
    (by simp) p rectangle_road
  have hops : ∀ o ∈ ([.call (.setParams q), .call (.solve a), .setTrack (.error .fileNotFoundError), .call (.setParams r), .call (.solve a),
      .setTrack (.ok rectangle)] : List (Op (Params × Four TireParams × ℝ × ℝ × ℝ))), Sweep S.c.o.L (fun _ => True) o := by
    intro o ho
    simp only [List.mem_cons, List.not_mem_nil, or_false] at ho
    rcases ho with rfl | rfl | rfl | rfl | rfl | rfl <;> trivial
  obtain ⟨m, h1, h2, h3, h4, h5, h6⟩ := h _ hops _ hstr.road
  have h1' : simulate (standardEntry (defaults "LGR" [("num_stages", 3)] 10 none false [] false) true true) r
      (.ok [⟨0, 0, 5, 5⟩, ⟨500, 0, 5, 5⟩, ⟨1000, 0, 5, 5⟩]) = .ok m := h1
  obtain ⟨k1, _, b, k2, k3, k4, k5, k6⟩ := C98_new hE trivial h1'
  obtain ⟨tr, g1, g2, g3, g4⟩ := hstr.loads
  obtain ⟨_, _, _, tr', _, _, _, _, htr, _, hFm, hroad⟩ := simulate_inv hE trivial h1'
  rw [g1, Except.ok.injEq] at htr
  subst htr
  have htrack : m.lap.track = some tr := hFm.road.trans hroad
  have hL : m.lap.S.c.o.L = S.c.o.L := by
    rw [lap_layout hE trivial h1' ht]
    obtain ⟨t', S', u, tr1, ht', hS1, hm, _⟩ := simulate_inv hE trivial hs
    have e1 : S = S' := Except.ok.inj (hS.symm.trans hS1)
    subst e1
    have e2 : t = t' := Except.ok.inj (ht.symm.trans ht')
    subst e2
    rw [hm.layout]
    exact layout_same ..
  obtain ⟨r1, r2, cx, cy, cz⟩ := r
  dsimp only at hr h33
  subst hr
  have hU : Usable (standardVehicle r1 r2 0 cy cz) (defaults "LGR" [("num_stages", 3)] 10 none false [] false) := hE.usable (r1, r2, 0, cy, cz) trivial
  obtain ⟨x, x1, x2, x3, x4, x5⟩ := C95_coast hU (hE.backed (r1, r2, 0, cy, cz) trivial) (by rw [h33]; norm_num) (by rw [h33]; norm_num) k1 htrack
    (fun d _ => g4 _) g3.le k2
  rw [hL] at x1
  obtain ⟨y1, y2⟩ := h6 x x1
  refine ⟨s, _, x, hs, rfl, ?_, ?_, ?_⟩
  · rw [← h4]
    refine y1.mpr ?_
    obtain ⟨g, e1, e2, e3⟩ := x2
    exact ⟨g, by rw [← k3]; exact e1, k5 ▸ e2, k6 ▸ e3⟩
  · rw [← h3, ← k4]
    exact x3
  · rw [← h4, y2, ← k3, x5, x4, g2]
    simp [Track.at_, pointsOf, linspace01]
    norm_num

end Lumos.Drive
