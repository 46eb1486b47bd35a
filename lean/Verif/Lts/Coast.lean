import Verif.Lts.Time
import Verif.Order.Props
import Verif.Track.Curvilinear
/-!
# A lap that is known: a car without drag coasts at 50 m/s along a straight road
-/

namespace Lumos.Lts

open Lumos DecVar DecVar.Layout Bounds Ocp Lumos.Trans NLP Io Io.Mdl LapSim Track Veh

/-- Straight ahead at speed `V` with rolling wheels. -/
noncomputable def rolling (V R : ℝ) (n : String) : ℝ :=
  if n = "n" ∨ n = "eta" ∨ n = "vy" ∨ n = "yaw_rate" then 0 else if n = "vx" then V else V / R

/-- Without drag, straight ahead, with rolling wheels and no inputs, nothing accelerates and nothing slips. -/
theorem coast_vehicle (p : Params) (q : Four TireParams) (cy cz : ℝ) (hR : p.rolling_radius ≠ 0) {V : ℝ} (hV : V ≠ 0) :
    ∃ rv, (standardVehicle p q 0 cy cz).eval ⟨some (vehicleNames.states.map fun n => (n, rolling V p.rolling_radius n)),
        some (vehicleNames.inputs.map fun n => (n, (0 : ℝ))), none⟩ = .ok rv ∧
      (∀ n ∈ vehicleNames.states, val rv.statesDot n = 0) ∧
      (∀ n ∈ ["slip_ratio_fl", "slip_ratio_fr", "slip_ratio_rl", "slip_ratio_rr", "slip_angle_fl", "slip_angle_fr", "slip_angle_rl", "slip_angle_rr",
        "res_ax", "res_ay"], rv.outputs.lookup n = some 0) := by
  obtain ⟨rv, ev, -⟩ := standard_outs p q 0 cy cz (rolling V p.rolling_radius) (fun _ => 0) none
  refine ⟨rv, ev, ?_⟩
  obtain ⟨m, hg, hc, hd, sub, ho⟩ := vehicle_nums ev
  have m1 : m.vx = V := by have := hg.vx; exact (Option.some.inj this).symm.trans (by simp [rolling])
  have m2 : m.vy = 0 := by have := hg.vy; exact (Option.some.inj this).symm.trans (by simp [rolling])
  have m3 : m.yaw_rate = 0 := by have := hg.yaw_rate; exact (Option.some.inj this).symm.trans (by simp [rolling])
  have m4 : m.w.fl = V / p.rolling_radius := by have := hg.w_fl; exact (Option.some.inj this).symm.trans (by simp [rolling])
  have m5 : m.w.fr = V / p.rolling_radius := by have := hg.w_fr; exact (Option.some.inj this).symm.trans (by simp [rolling])
  have m6 : m.w.rl = V / p.rolling_radius := by have := hg.w_rl; exact (Option.some.inj this).symm.trans (by simp [rolling])
  have m7 : m.w.rr = V / p.rolling_radius := by have := hg.w_rr; exact (Option.some.inj this).symm.trans (by simp [rolling])
  have m8 : m.throttle = 0 := (Option.some.inj hg.throttle).symm
  have m9 : m.brake = 0 := (Option.some.inj hg.brake).symm
  have m10 : m.steer = 0 := (Option.some.inj hg.steer).symm
  have m12 : m.ax_in = 0 := (Option.some.inj hg.ax).symm
  have m13 : m.ay_in = 0 := (Option.some.inj hg.ay).symm
  have m11 : m.cx = 0 := by
    obtain ⟨ra, e, ha⟩ := hc.aero
    have e' : Except.ok ({ outputs := [("Cx", (0 : ℝ)), ("Cy", cy), ("Cz", cz)] } : Ret ℝ) = (Except.ok ra : Py (Ret ℝ)) := e
    cases e'
    exact (Option.some.inj (ha "Cx" _ (.head _))).symm
  have kz : m.kappa p (V / p.rolling_radius) = 0 := by unfold Nums.kappa; rw [m1]; field_simp; norm_num
  have v1 : (m.vel p).fl.y = 0 := by simp [Nums.vel, rotateZ, Nums.angle, m10, m2, m3, V3.cross]
  have v2 : (m.vel p).fr.y = 0 := by simp [Nums.vel, rotateZ, Nums.angle, m10, m2, m3, V3.cross]
  have v3 : (m.vel p).rl.y = 0 := by simp [Nums.vel, rotateZ, m2, m3, V3.cross]
  have v4 : (m.vel p).rr.y = 0 := by simp [Nums.vel, rotateZ, m2, m3, V3.cross]
  have f1 := no_slip hc.fl (by rw [m4]; exact kz) v1
  have f2 := no_slip hc.fr (by rw [m5]; exact kz) v2
  have f3 := no_slip hc.rl (by rw [m6]; exact kz) v3
  have f4 := no_slip hc.rr (by rw [m7]; exact kz) v4
  have D := dots_of p m
  rw [← hd] at D
  have F : ∀ c : V3 → ℝ, (∀ z : ℝ, c ⟨0, 0, z⟩ = 0) → c (m.force p).fl = 0 ∧ c (m.force p).fr = 0 ∧ c (m.force p).rl = 0 ∧ c (m.force p).rr = 0 := by
    intro c hc
    simp only [Nums.force, rotateZ, f1.1, f1.2, f2.1, f2.2, f3.1, f3.2, f4.1, f4.2, mul_zero, zero_mul, add_zero]
    exact ⟨hc _, hc _, hc _, hc _⟩
  obtain ⟨x1, x2, x3, x4⟩ := F V3.x fun _ => rfl
  obtain ⟨y1, y2, y3, y4⟩ := F V3.y fun _ => rfl
  have ax : m.ax p = 0 := by simp [Nums.ax, Nums.totalForce, x1, x2, x3, x4, Nums.drag, m11]
  have ay : m.ay p = 0 := by simp [Nums.ay, Nums.totalForce, y1, y2, y3, y4, Nums.drag]
  constructor
  · intro n hn
    simp only [vehicleNames, List.mem_cons, List.not_mem_nil, or_false] at hn
    rcases hn with rfl | rfl | rfl | rfl | rfl | rfl | rfl
    · rw [D.vx, ax, m3]; simp
    · rw [D.vy, ay, m3]; simp
    · rw [D.yaw]
      simp [Nums.totalMoment, V3.cross, x1, x2, x3, x4, y1, y2, y3, y4]
    · rw [D.fl]; simp [Nums.brakeF, m9, f1.1]
    · rw [D.fr]; simp [Nums.brakeF, m9, f2.1]
    · rw [D.rl]; simp [Nums.brakeR, m9, f3.1, Nums.torqueL, Nums.deltaTorque, m8, m6, m7]
    · rw [D.rr]; simp [Nums.brakeR, m9, f4.1, Nums.torqueR, Nums.torqueL, Nums.deltaTorque, m8, m6, m7]
  · have A : ∀ v : V3, v.y = 0 → Nums.alpha v = 0 := fun v hv => by unfold Nums.alpha; rw [hv]; simp
    have look : ∀ n a, (m.outs p).lookup n = some a → a = 0 → rv.outputs.lookup n = some 0 := fun n a h e => by
      rw [ho]; rw [e] at h; exact lookup_append_left h
    intro n hn
    simp only [List.mem_cons, List.not_mem_nil, or_false] at hn
    rcases hn with rfl | rfl | rfl | rfl | rfl | rfl | rfl | rfl | rfl | rfl
    · exact look _ (m.kappa p m.w.fl) rfl (by rw [m4]; exact kz)
    · exact look _ (m.kappa p m.w.fr) rfl (by rw [m5]; exact kz)
    · exact look _ (m.kappa p m.w.rl) rfl (by rw [m6]; exact kz)
    · exact look _ (m.kappa p m.w.rr) rfl (by rw [m7]; exact kz)
    · exact look _ (Nums.alpha (m.vel p).fl) rfl (A _ v1)
    · exact look _ (Nums.alpha (m.vel p).fr) rfl (A _ v2)
    · exact look _ (Nums.alpha (m.vel p).rl) rfl (A _ v3)
    · exact look _ (Nums.alpha (m.vel p).rr) rfl (A _ v4)
    · exact look _ (m.ax p - m.ax_in) rfl (by rw [ax, m12, sub_zero])
    · exact look _ (m.ay p - m.ay_in) rfl (by rw [ay, m13, sub_zero])

/-- A decision vector with given values for the variables. -/
theorem exists_point {L : Layout} (hL : L.Made) (v : String → String → Nat → ℝ) :
    ∃ x : List ℝ, x.length = L.numDec ∧ ∀ s g n, L.IsVar (.stage s g n) → readAt L x g n s = v g n s := by
  classical
  have hb : ∀ i, ∃ w, i < L.numDec → L.IsVar w ∧ L.query w = .ok (.scalar i) := fun i => by
    by_cases h : i < L.numDec
    · obtain ⟨w, hw⟩ := C01_index_surjective hL i h
      exact ⟨w, fun _ => hw⟩
    · exact ⟨.glob "", fun h' => absurd h' h⟩
  choose w hw using hb
  let val : DecVar.Var → ℝ := fun w => match w with
    | .stage s g n => v g n s
    | .glob _ => 0
  refine ⟨(List.range L.numDec).map fun i => val (w i), by simp, fun s g n hv => ?_⟩
  obtain ⟨i, hq, hi⟩ := C01_index_in_range hL hv
  have hq' : L.indexInDec g n (some (s : Int)) = .ok (.scalar i) := hq
  have e : w i = .stage s g n := C01_index_injective hL (hw i hi).1 hv ((hw i hi).2.trans hq.symm)
  have e2 : val (w i) = v g n s := by rw [e]
  unfold readAt
  simp only [getVar, hq', bind, Except.bind, getIdx, getAt]
  simp [hi, pure, Except.pure, e2]

/-- Every scheme reproduces a straight line. -/
theorem line_steps {name : String} {kwargs : List (String × Int)} {t : Transcription} (ht : makeTranscription name kwargs = .ok t) (a r h : ℝ) :
    Steps t (fun j => a + r * (h * t.tau j)) (fun _ => r) h := by
  intro l hl
  have hex := exact_all ht 1 (fun _ => Polynomial.C a + Polynomial.C r * Polynomial.X) (fun _ _ => (by
    refine le_trans ?_ (Order.one_le_degree ht)
    compute_degree)) 0 h
  unfold Transcription.sample at hex
  rw [con_eq ht] at hex
  have hz := grid_inj (Except.ok.inj hex) (j := l) (k := 0) hl (by omega)
  simp at hz
  linarith

theorem steps_congr {t : Transcription} {X X' Xd Xd' : Nat → ℝ} {h : ℝ} (e : ∀ j, j < t.stages → X' j = X j) (e' : ∀ j, j < t.stages → Xd' j = Xd j)
    (H : Steps t X Xd h) : Steps t X' Xd' h := by
  intro l hl
  rw [Finset.sum_congr rfl fun j hj => by rw [e j (Finset.mem_range.mp hj)], H l hl,
    Finset.sum_congr rfl fun j hj => by rw [← e' j (Finset.mem_range.mp hj)]]

/-- The values of the coasting lap. -/
noncomputable def coastValues (R : ℝ) (time heading : Nat → ℝ) (g m : String) (s : Nat) : ℝ :=
  if g = "states" then if m = "time" then time s else rolling 50 R m
  else if g = "inputs" then if m = "track_heading" then heading s else 0
  else if g = "states_dot" then if m = "time" then 1 / 50 else 0
  else 0

section
variable {p : Params} {q : Four TireParams} {cy cz : ℝ} {tn : String} {kw : List (String × Int)} {n : Nat} {pts : Option (List ℝ)} {cyc : Bool}
  {nc : List String} {closed : Bool} {u : UnitProblem} {D : List ℝ → ℝ → Prop}

/-- The default configuration with other bounds. -/
noncomputable def bounded (B : List (BoundConfig EReal)) (tn : String) (kw : List (String × Int)) (n : Nat) (pts : Option (List ℝ)) (cyc : Bool)
    (nc : List String) (closed : Bool) : Conf := { defaults tn kw n pts cyc nc closed with bounds := B }

set_option maxHeartbeats 1000000 in
/-- The coasting lap, whatever the bounds. -/
theorem coast_point {B : List (BoundConfig EReal)} (hc : Usable (standardVehicle p q 0 cy cz) (bounded B tn kw n pts cyc nc closed))
    (hu : Backed (standardVehicle p q 0 cy cz) (bounded B tn kw n pts cyc nc closed) u D) (hR : p.rolling_radius ≠ 0)
    {file : Py (List Row)} {l : Lap} (hl : laptime (standardVehicle p q 0 cy cz) u (bounded B tn kw n pts cyc nc closed) file = .ok l)
    {tr : RaceTrack} (htr : l.track = some tr) (straight : ∀ d ∈ l.S.c.mesh, ∃ θ, tr.headingAt (d * tr.totalDistance) = .ok θ)
    (htot : 0 ≤ tr.totalDistance) {b : Built} (hb : l.problem = .ok b) :
    ∃ (x : List ℝ) (time heading : Nat → ℝ), x.length = l.S.c.o.L.numDec ∧ b.Feasible (vdiv x b.prob.scales) ∧
      lapTime l x = tr.totalDistance * ((pointsOf n pts).getD n 0 - (pointsOf n pts).getD 0 0) / 50 ∧
      b.prob.objective (vdiv x b.prob.scales) = .ok (lapTime l x) ∧
      (∀ s, s < l.S.c.o.L.numStages → 0 ≤ time s ∧ time s ≤ lapTime l x) ∧ time 0 = 0 ∧
      (∀ s, s < l.S.c.o.L.numStages → tr.headingAt (l.S.c.mesh.getD s 0 * tr.totalDistance) = .ok (heading s)) ∧
      (∀ s, s < l.S.c.o.L.numStages → ∀ m ∈ onTrackNames.states, readAt l.S.c.o.L x "states" m s = if m = "time" then time s else rolling 50 p.rolling_radius m) ∧
      (∀ s, s < l.S.c.o.L.numStages → ∀ m ∈ onTrackNames.inputs, readAt l.S.c.o.L x "inputs" m s = if m = "track_heading" then heading s else 0) ∧
      ∀ s, s < l.S.c.o.L.numStages → ∀ m ∈ defaultConOutputs, readAt l.S.c.o.L x "con_outputs" m s = 0 := by
  have hv := standard_car p q 0 cy cz
  obtain ⟨t, S, b0, tr', ht, hm, hg, hb0, hrd, hs, f1, f2, f3⟩ := laptime_inv hv hc hu hl
  rw [htr, Option.some.injEq] at f2
  subst f2
  obtain ⟨t', tr2, b2, ht', k0, k1, k2, k3, k4, k5⟩ := C95_feasible hv hc hu hl
  rw [hb, Except.ok.injEq] at k2
  subst k2
  rw [htr, Option.some.injEq] at k1
  subst k1
  rw [ht, Except.ok.injEq] at ht'
  subst ht'
  have eM : l.S.c.mesh = S.c.mesh := by rw [f3]; rfl
  have eL : l.S.c.o.L = S.c.o.L := by rw [f3]; rfl
  have hlenM : l.S.c.mesh.length = l.S.c.o.L.numStages := by rw [eM, eL]; exact hm.points
  have hN := numStages_pos l.S.c.o.L
  have h2 := (C38_shapes ht).1
  have hn1 : 1 ≤ n := hc.intervals
  have hmem : ∀ s, s < l.S.c.o.L.numStages → l.S.c.mesh.getD s 0 ∈ l.S.c.mesh := by
    intro s hs
    have h : s < l.S.c.mesh.length := by omega
    rw [List.getD_eq_getElem?_getD, List.getElem?_eq_getElem h]
    exact List.getElem_mem h
  obtain ⟨heading, hhead⟩ : ∃ heading : Nat → ℝ, ∀ s, s < l.S.c.o.L.numStages →
      tr.headingAt (l.S.c.mesh.getD s 0 * tr.totalDistance) = .ok (heading s) := by
    have : ∀ s, ∃ θ, s < l.S.c.o.L.numStages → tr.headingAt (l.S.c.mesh.getD s 0 * tr.totalDistance) = .ok θ := by
      intro s
      by_cases h : s < l.S.c.o.L.numStages
      · obtain ⟨θ, h'⟩ := straight _ (hmem s h)
        exact ⟨θ, fun _ => h'⟩
      · exact ⟨0, fun h' => absurd h' h⟩
    exact ⟨fun s => (this s).choose, fun s => (this s).choose_spec⟩
  set time : Nat → ℝ := fun s => (l.S.c.mesh.getD s 0 - l.S.c.mesh.getD 0 0) * tr.totalDistance / 50 with htime
  have hLm : l.S.c.o.L.Made := by rw [eL]; exact hg.cond.ocp.made
  obtain ⟨x, hx, hval⟩ := exists_point hLm (coastValues p.rolling_radius time heading)
  obtain ⟨n1, n2, n3, n4⟩ := hm.names
  have isv : ∀ s, s < l.S.c.o.L.numStages → ∀ g m, ((g = "states" ∨ g = "states_dot") ∧ m ∈ onTrackNames.states ∨ g = "inputs" ∧ m ∈ onTrackNames.inputs ∨
      g = "con_outputs" ∧ m ∈ defaultConOutputs) → readAt l.S.c.o.L x g m s = coastValues p.rolling_radius time heading g m s := by
    intro s hs g m hgm
    refine hval s g m ?_
    rw [eL] at hs ⊢
    rw [hm.layout] at hs ⊢
    rw [isVar_iff]
    refine ⟨hs, ?_⟩
    rcases hgm with ⟨rfl | rfl, h⟩ | ⟨rfl, h⟩ | ⟨rfl, h⟩
    · exact Or.inl ⟨rfl, h⟩
    · exact Or.inr (Or.inr (Or.inl ⟨rfl, h⟩))
    · exact Or.inr (Or.inl ⟨rfl, h⟩)
    · exact Or.inr (Or.inr (Or.inr ⟨rfl, h⟩))
  have rS : ∀ s, s < l.S.c.o.L.numStages → ∀ m ∈ onTrackNames.states, readAt l.S.c.o.L x "states" m s = if m = "time" then time s else rolling 50 p.rolling_radius m :=
    fun s hs m h => by rw [isv s hs _ _ (Or.inl ⟨Or.inl rfl, h⟩)]; simp [coastValues]
  have rD : ∀ s, s < l.S.c.o.L.numStages → ∀ m ∈ onTrackNames.states, readAt l.S.c.o.L x "states_dot" m s = if m = "time" then 1 / 50 else 0 :=
    fun s hs m h => by rw [isv s hs _ _ (Or.inl ⟨Or.inr rfl, h⟩)]; simp [coastValues]
  have rI : ∀ s, s < l.S.c.o.L.numStages → ∀ m ∈ onTrackNames.inputs, readAt l.S.c.o.L x "inputs" m s = if m = "track_heading" then heading s else 0 :=
    fun s hs m h => by rw [isv s hs _ _ (Or.inr (Or.inl ⟨rfl, h⟩))]; simp [coastValues]
  have rY : ∀ s, s < l.S.c.o.L.numStages → ∀ m ∈ defaultConOutputs, readAt l.S.c.o.L x "con_outputs" m s = 0 :=
    fun s hs m h => by rw [isv s hs _ _ (Or.inr (Or.inr ⟨rfl, h⟩))]; simp [coastValues]
  have speed : ∀ s, s < l.S.c.o.L.numStages → sdot (readAt l.S.c.o.L x "states" · s) (readAt l.S.c.o.L x "inputs" · s) = 50 := by
    intro s hs
    unfold sdot
    dsimp only
    rw [rS s hs "vx" (by decide), rS s hs "vy" (by decide), rS s hs "eta" (by decide), rS s hs "n" (by decide)]
    simp [rolling]
  have hmono : ∀ i j, i ≤ j → j < l.S.c.o.L.numStages → l.S.c.mesh.getD i 0 ≤ l.S.c.mesh.getD j 0 := fun i j hij hj =>
    getD_le_of_pairwise (by rw [eM]; exact hm.sorted) hij (by omega)
  have hlast : l.S.c.o.L.numStages - 1 = (n - 1) * (t.stages - 1) + (t.stages - 1) := by
    rw [k4]
    show n * (t.stages - 1) + 1 - 1 = _
    obtain ⟨k, rfl⟩ : ∃ k, n = k + 1 := ⟨n - 1, by omega⟩
    rw [Nat.add_sub_cancel, Nat.add_mul, one_mul, Nat.add_sub_cancel]
  have tau0 : t.tau 0 = 0 := by
    have := (C38_shapes ht).2.2.2.2.2.first
    unfold Transcription.tau pt
    simp [this]
  have tau1 : t.tau (t.stages - 1) = 1 := by
    have := (C38_shapes ht).2.2.2.2.2.last
    rw [(C38_shapes ht).2.2.2.2.1] at this
    unfold Transcription.tau pt
    simp [this]
  have hstage : ∀ i j, i < n → j < t.stages → l.S.c.mesh.getD (i * (t.stages - 1) + j) 0 = (pointsOf n pts).getD i 0
      + t.tau j * ((pointsOf n pts).getD (i + 1) 0 - (pointsOf n pts).getD i 0) := by
    intro i j hi hj
    rw [List.getD_eq_getElem?_getD, eM, hm.stage i j hi hj]
    rfl
  have hin : ∀ i j, i < n → j < t.stages → i * (t.stages - 1) + j < l.S.c.o.L.numStages := by
    intro i j hi hj
    rw [k4]
    show _ < n * (t.stages - 1) + 1
    have : (i + 1) * (t.stages - 1) ≤ n * (t.stages - 1) := Nat.mul_le_mul_right _ hi
    rw [Nat.add_mul] at this
    omega
  have feas : b.Feasible (vdiv x b.prob.scales) := by
    refine (k5 x hx).1.mpr ⟨fun s hs => ?_, fun i hi m hm' => ?_, fun _ => ⟨fun m hm' hne _ => ?_, fun m hm' hne _ => ?_⟩⟩
    · obtain ⟨rv, ev, hz, ho⟩ := coast_vehicle p q cy cz hR (V := 50) (by norm_num)
      have hsp := speed s hs
      refine ⟨rv, ?_, ?_, ?_, ?_, ?_, ?_, ?_, ?_, ?_⟩
      · have e1 : (vehicleNames.states.map fun n => (n, readAt l.S.c.o.L x "states" n s)) = vehicleNames.states.map fun n => (n, rolling 50 p.rolling_radius n) := by
          refine List.map_congr_left fun m hm' => ?_
          rw [rS s hs m (List.mem_append_right _ hm'), if_neg]
          rintro rfl
          revert hm'; decide
        have e2 : (vehicleNames.inputs.map fun n => (n, readAt l.S.c.o.L x "inputs" n s)) = vehicleNames.inputs.map fun n => (n, (0 : ℝ)) := by
          refine List.map_congr_left fun m hm' => ?_
          rw [rI s hs m (List.mem_append_left _ hm'), if_neg]
          rintro rfl
          revert hm'; decide
        rw [e1, e2]
        exact ev
      · rw [hsp, rD s hs "time" (by decide), if_pos rfl]
      · rw [rD s hs "n" (by decide), rS s hs "vx" (by decide), rS s hs "vy" (by decide), rS s hs "eta" (by decide)]
        simp [rolling]
      · rw [rD s hs "eta" (by decide), rS s hs "yaw_rate" (by decide), rI s hs "track_curvature" (by decide)]
        simp [rolling]
      · intro m hm'
        rw [rD s hs m (List.mem_append_right _ hm'), if_neg, hz m hm', zero_div]
        rintro rfl
        revert hm'; decide
      · intro k hk
        change ("vehicle" ++ "." ++ k) ∈ defaultConOutputs at hk
        rw [rY s hs _ hk]
        refine ho k ?_
        have hh : ("vehicle" ++ "." ++ k) ∈ ["slip_ratio_fl", "slip_ratio_fr", "slip_ratio_rl", "slip_ratio_rr", "slip_angle_fl", "slip_angle_fr",
          "slip_angle_rl", "slip_angle_rr"].map ("vehicle" ++ "." ++ ·) := by
          rw [← (by decide : defaultConOutputs = ["slip_ratio_fl", "slip_ratio_fr", "slip_ratio_rl", "slip_ratio_rr", "slip_angle_fl", "slip_angle_fr",
            "slip_angle_rl", "slip_angle_rr"].map ("vehicle" ++ "." ++ ·))]
          exact hk
        obtain ⟨k', hk', e⟩ := List.mem_map.mp hh
        rw [← (String.append_right_inj _).mp e]
        exact List.mem_append_left ["res_ax", "res_ay"] hk'
      · intro h
        change "kinematics.yaw_angle" ∈ defaultConOutputs at h
        exact absurd h (by decide)
      · intro h
        change "kinematics.curvature" ∈ defaultConOutputs at h
        exact absurd h (by decide)
      · intro m hm'
        refine ho m ?_
        have hm' : m ∈ ["res_ax", "res_ay"] := hm'
        exact List.mem_append_right ["slip_ratio_fl", "slip_ratio_fr", "slip_ratio_rl", "slip_ratio_rr", "slip_angle_fl", "slip_angle_fr",
          "slip_angle_rl", "slip_angle_rr"] hm'
    · change i < n at hi
      have L1 := line_steps ht (((pointsOf n pts).getD i 0 - l.S.c.mesh.getD 0 0) * tr.totalDistance / 50) (1 / 50)
        (((pointsOf n pts).getD (i + 1) 0 - (pointsOf n pts).getD i 0) * tr.totalDistance)
      have L2 := line_steps ht (rolling 50 p.rolling_radius m) 0 (((pointsOf n pts).getD (i + 1) 0 - (pointsOf n pts).getD i 0) * tr.totalDistance)
      by_cases hmt : m = "time"
      · subst hmt
        refine steps_congr (fun j hj => ?_) (fun j hj => ?_) L1
        · rw [rS _ (hin i j hi hj) _ hm', if_pos rfl, htime]
          dsimp only
          rw [hstage i j hi hj]
          ring
        · rw [rD _ (hin i j hi hj) _ hm', if_pos rfl]
      · refine steps_congr (fun j hj => ?_) (fun j hj => ?_) L2
        · rw [rS _ (hin i j hi hj) _ hm', if_neg hmt]
          ring
        · rw [rD _ (hin i j hi hj) _ hm', if_neg hmt]
    · rw [rS 0 hN m hm', rS _ (by omega) m hm', if_neg hne, if_neg hne]
    · rw [rI 0 hN m hm', rI _ (by omega) m hm', if_neg hne, if_neg hne]
  have hlt : lapTime l x = tr.totalDistance * ((pointsOf n pts).getD n 0 - (pointsOf n pts).getD 0 0) / 50 := by
    unfold lapTime
    rw [rS 0 hN _ (by decide), rS _ (by omega) _ (by decide), if_pos rfl, if_pos rfl, htime]
    dsimp only
    have e0 := hstage 0 0 (by omega) (by omega)
    rw [tau0] at e0
    rw [hlast, hstage (n - 1) (t.stages - 1) (by omega) (by omega), tau1, show n - 1 + 1 = n by omega]
    simp only [Nat.zero_mul, Nat.add_zero] at e0
    rw [e0]
    ring
  have hb0 : ∀ s, s < l.S.c.o.L.numStages → 0 ≤ time s ∧ time s ≤ lapTime l x := by
    intro s hs
    constructor
    · rw [htime]
      dsimp only
      have := hmono 0 s (by omega) hs
      exact div_nonneg (mul_nonneg (by linarith) htot) (by norm_num)
    · unfold lapTime
      rw [rS 0 hN _ (by decide), rS _ (by omega) _ (by decide), if_pos rfl, if_pos rfl, htime]
      dsimp only
      have := hmono s (l.S.c.o.L.numStages - 1) (by omega) (by omega)
      rw [sub_self, zero_mul, zero_div, sub_zero]
      exact div_le_div_of_nonneg_right (mul_le_mul_of_nonneg_right (by linarith) htot) (by norm_num)
  refine ⟨x, time, heading, hx, feas, hlt, ?_, hb0, by rw [htime]; simp, hhead, rS, rI, rY⟩
  · rw [(k5 x hx).2]
    congr 1
    have : ∀ s ∈ Finset.range l.S.c.o.L.numStages, readAt l.S.c.o.L x "inputs" "steer" s ^ 2 = 0 := by
      intro s hs
      rw [rI s (Finset.mem_range.mp hs) _ (by decide)]
      simp
    rw [Finset.sum_eq_zero this, zero_div, add_zero]
    rfl

set_option maxHeartbeats 1000000 in
/-- **C95 (a lap that is known).** On a straight road, for every scheme, mesh and tyre, a car without drag can coast at 50 m/s: the
problem has a feasible point within the default bounds whose lap time is the distance over 50. -/
theorem C95_coast (hc : Usable (standardVehicle p q 0 cy cz) (defaults tn kw n pts cyc nc closed))
    (hu : Backed (standardVehicle p q 0 cy cz) (defaults tn kw n pts cyc nc closed) u D)
    (hR1 : 0.1 ≤ 50 / p.rolling_radius) (hR2 : 50 / p.rolling_radius ≤ 300)
    {file : Py (List Row)} {l : Lap} (hl : laptime (standardVehicle p q 0 cy cz) u (defaults tn kw n pts cyc nc closed) file = .ok l)
    {tr : RaceTrack} (htr : l.track = some tr)
    (straight : ∀ d ∈ l.S.c.mesh, tr.curvatureAt (d * tr.totalDistance) = .ok 0 ∧ (∃ θ, tr.headingAt (d * tr.totalDistance) = .ok θ) ∧
      ∃ left right, tr.leftDistanceAt (d * tr.totalDistance) = .ok left ∧ tr.rightDistanceAt (d * tr.totalDistance) = .ok right ∧ 0 ≤ left ∧ 0 ≤ right)
    (htot : 0 ≤ tr.totalDistance) {b : Built} (hb : l.problem = .ok b) :
    ∃ x : List ℝ, x.length = l.S.c.o.L.numDec ∧ b.Feasible (vdiv x b.prob.scales) ∧ Within b.bounds.lb b.bounds.ub x ∧
      lapTime l x = tr.totalDistance * ((pointsOf n pts).getD n 0 - (pointsOf n pts).getD 0 0) / 50 ∧
      b.prob.objective (vdiv x b.prob.scales) = .ok (lapTime l x) := by
  have hR : p.rolling_radius ≠ 0 := by rintro h; rw [h] at hR1; norm_num at hR1
  have hv := standard_car p q 0 cy cz
  obtain ⟨t, S, b0, tr', ht, hm, hg, hb0, hrd, hs, f1, f2, f3⟩ := laptime_inv hv hc hu hl
  obtain ⟨_, _, b2, _, _, _, k2, k3, _⟩ := C95_feasible hv hc hu hl
  rw [hb, Except.ok.injEq] at k2
  subst k2
  obtain ⟨tr3, g1, g2⟩ := C95_default_bounds hv hc hu hl
  rw [htr, Option.some.injEq] at g1
  subst g1
  have eM : l.S.c.mesh = S.c.mesh := by rw [f3]; rfl
  have eL : l.S.c.o.L = S.c.o.L := by rw [f3]; rfl
  have hlenM : l.S.c.mesh.length = l.S.c.o.L.numStages := by rw [eM, eL]; exact hm.points
  have hN := numStages_pos l.S.c.o.L
  have hmem : ∀ s, s < l.S.c.o.L.numStages → l.S.c.mesh.getD s 0 ∈ l.S.c.mesh := by
    intro s hs
    have h : s < l.S.c.mesh.length := by omega
    rw [List.getD_eq_getElem?_getD, List.getElem?_eq_getElem h]
    exact List.getElem_mem h
  obtain ⟨x, time, heading, hx, feas, hlt, hobj, hb, ht0, hhead, rS, rI, rY⟩ := coast_point (B := defaultBounds) hc hu hR hl htr (fun d hd => (straight d hd).2.1) htot hb
  refine ⟨x, hx, feas, ?_, hlt, hobj⟩
  · rw [k3]
    refine (g2 x hx).mpr ⟨?_, ?_, ?_, ?_, ?_, ?_, ?_, ?_, ?_, ?_, ?_, ?_, ?_, ?_, ?_, ?_⟩
    · intro s hs
      show 0 ≤ readAt l.S.c.o.L x "states" "time" s
      rw [rS s hs _ (by decide), if_pos rfl]
      exact (hb s hs).1
    · intro s hs
      show |readAt l.S.c.o.L x "states" "eta" s| ≤ _
      rw [rS s hs _ (by decide)]
      have := Real.pi_pos
      simp [rolling]
      positivity
    · intro s hs
      show 5 ≤ readAt l.S.c.o.L x "states" "vx" s ∧ readAt l.S.c.o.L x "states" "vx" s ≤ 100
      rw [rS s hs _ (by decide)]
      simp [rolling]
      norm_num
    · intro s hs
      show |readAt l.S.c.o.L x "states" "vy" s| ≤ _
      rw [rS s hs _ (by decide)]
      simp [rolling]
    · intro s hs
      show |readAt l.S.c.o.L x "states" "yaw_rate" s| ≤ _
      rw [rS s hs _ (by decide)]
      have := Real.pi_pos
      simp [rolling]
      positivity
    · intro s hs c hcn
      show 0.1 ≤ readAt l.S.c.o.L x "states" ("wheel_speed_" ++ c) s ∧ readAt l.S.c.o.L x "states" ("wheel_speed_" ++ c) s ≤ 300
      have hw : ("wheel_speed_" ++ c) ∈ onTrackNames.states ∧ rolling 50 p.rolling_radius ("wheel_speed_" ++ c) = 50 / p.rolling_radius ∧
          "wheel_speed_" ++ c ≠ "time" := by
        simp only [LapSim.corners, List.mem_cons, List.not_mem_nil, or_false] at hcn
        rcases hcn with rfl | rfl | rfl | rfl <;> exact ⟨by decide, by unfold rolling; rw [if_neg (by decide), if_neg (by decide)], by decide⟩
      rw [rS s hs _ hw.1, if_neg hw.2.2, hw.2.1]
      exact ⟨hR1, hR2⟩
    · intro s hs
      show 0 ≤ readAt l.S.c.o.L x "inputs" "throttle" s ∧ readAt l.S.c.o.L x "inputs" "throttle" s ≤ 1
      rw [rI s hs _ (by decide)]
      simp
    · intro s hs
      show 0 ≤ readAt l.S.c.o.L x "inputs" "brake" s ∧ readAt l.S.c.o.L x "inputs" "brake" s ≤ 1
      rw [rI s hs _ (by decide)]
      simp
    · intro s hs
      show |readAt l.S.c.o.L x "inputs" "steer" s| ≤ 1
      rw [rI s hs _ (by decide)]
      simp
    · intro s hs c hcn
      show |readAt l.S.c.o.L x "con_outputs" ("vehicle.slip_ratio_" ++ c) s| ≤ 0.05
      rw [rY s hs _ (by
        simp only [LapSim.corners, List.mem_cons, List.not_mem_nil, or_false] at hcn
        rcases hcn with rfl | rfl | rfl | rfl <;> decide)]
      norm_num
    · intro s hs c hcn
      show |readAt l.S.c.o.L x "con_outputs" ("vehicle.slip_angle_" ++ c) s| ≤ _
      rw [rY s hs _ (by
        simp only [LapSim.corners, List.mem_cons, List.not_mem_nil, or_false] at hcn
        rcases hcn with rfl | rfl | rfl | rfl <;> decide)]
      have := Real.pi_pos
      simp
      positivity
    · intro s hs
      show _ = Except.ok (readAt l.S.c.o.L x "inputs" "track_curvature" s)
      rw [rI s hs _ (by decide)]
      exact (straight _ (hmem s hs)).1
    · intro s hs
      show _ = Except.ok (readAt l.S.c.o.L x "inputs" "track_heading" s)
      rw [rI s hs _ (by decide)]
      exact hhead s hs
    · intro s hs _
      obtain ⟨-, -, a, b', q1, q2, q3, q4⟩ := straight _ (hmem s hs)
      refine ⟨a, b', q1, q2, ?_⟩
      show _ ≤ readAt l.S.c.o.L x "states" "n" s ∧ readAt l.S.c.o.L x "states" "n" s ≤ _
      rw [rS s hs _ (by decide)]
      simp [rolling, q3, q4]
    · show readAt l.S.c.o.L x "states" "time" 0 = 0
      rw [rS 0 hN _ (by decide), if_pos rfl, ht0]
    · intro _
      refine ⟨?_, ?_, ?_, ?_, ?_⟩ <;> · show readAt l.S.c.o.L x "states" _ 0 = _; rw [rS 0 hN _ (by decide)]; simp [rolling]
end

end Lumos.Lts
