import Verif.Sym.Wider
import Verif.Lts.Straight
/-!
# C99-C101 for the vehicle of the library, and cases that meet the hypotheses
-/

namespace Lumos.Sym

open Lumos DecVar DecVar.Layout NLP Bounds Ocp OCP Track LapSim Lts Io Io.Mdl Lumos.Trans Veh

variable {tn : String} {kw : List (String × Int)} {n : Nat} {pts : Option (List ℝ)} {cyc closed : Bool} {nc : List String}

/-- The default configuration does not mention the heading. -/
theorem defaults_noHeading : NoHeading (defaults tn kw n pts cyc nc closed) := by
  constructor
  · intro b hb
    have : b.group = "states" := by
      change b ∈ defaultBCs closed at hb
      cases closed <;> simp [defaultBCs, fixAt] at hb
      · rcases hb with rfl | rfl | rfl | rfl | rfl | rfl <;> rfl
      · rw [hb]
    constructor <;>
    · intro h
      rw [this] at h
      have := congrArg (fun s => s.toList.take 2) h
      simp [fullName] at this
  · intro b hb h
    have key : (defaultBounds.map fun b => fullName b.group b.name) = ["states.time", "states.eta", "states.vx", "states.vy", "states.yaw_rate",
        "inputs.throttle", "inputs.brake", "inputs.steer", "states.wheel_speed_fl", "states.wheel_speed_fr", "states.wheel_speed_rl", "states.wheel_speed_rr"] ++
        defaultConOutputs.map (fullName "con_outputs") := rfl
    have : fullName b.group b.name ∈ defaultBounds.map fun b => fullName b.group b.name := List.mem_map.mpr ⟨b, hb, rfl⟩
    rw [key, h] at this
    exact absurd this (by decide)

/-- The aero model with constant coefficients is that of a symmetric body. -/
theorem const_mirror (cx cy cz : ℝ) : AeroMirror (.node (constAero cx cy cz) []) := by
  intro a b c r r' h h'
  have e : ∀ d, Mdl.eval (.node (constAero cx cy cz) []) ⟨none, some d, none⟩ = Mdl.eval (.node (constAero cx cy cz) []) ⟨none, some [], none⟩ := fun d => rfl
  rw [e] at h h'
  rw [h, Except.ok.injEq] at h'
  rw [h']
  exact ⟨rfl, rfl⟩

/-- The tyres of the other side. -/
def swapped (q : Four TireParams) : Four TireParams := ⟨q.fr, q.fl, q.rr, q.rl⟩

/-- For the vehicle of the library, every tyre, scheme and accepted mesh, and every road: the lap time simulation exists on the road turned and
shifted, and its laps are the same but for the heading, at the same cost. -/
theorem C99_standard (p : Params) (q : Four TireParams) (cx cy cz : ℝ) (hc : Usable (standardVehicle p q cx cy cz) (defaults tn kw n pts cyc nc closed))
    {rows : List Row} (hr : Road rows) {l : Lap}
    (hl : laptime (standardVehicle p q cx cy cz) ((vehicleOnTrack (standardVehicle p q cx cy cz)).explicit defaultConOutputs).autoUnit
      (defaults tn kw n pts cyc nc closed) (.ok rows) = .ok l) (φ a b : ℝ) :
    ∃ (turns : ℤ) (l' : Lap), laptime (standardVehicle p q cx cy cz) ((vehicleOnTrack (standardVehicle p q cx cy cz)).explicit defaultConOutputs).autoUnit
      (defaults tn kw n pts cyc nc closed) (.ok (rows.map (Row.turned φ a b))) = .ok l' ∧ l'.S.c.o.L = l.S.c.o.L ∧
      Same l l' (TurnedBy (φ + 2 * Real.pi * turns) l.S.c.o.L) :=
  C99_frame (standard_car p q cx cy cz) hc (backed_auto (standard_car p q cx cy cz) hc) defaults_noHeading hr hl φ a b

/-- The same for the mirror, with the tyres of the other side. -/
theorem C100_standard (p : Params) (q : Four TireParams) (cx cy cz : ℝ) (hn : 1 ≤ n) (hnd : nc.Nodup)
    (hnc : ∀ w ∈ nc, (∃ n ∈ onTrackNames.states, w = "states." ++ n) ∨ ∃ n ∈ onTrackNames.inputs, w = "inputs." ++ n)
    (hst : cyc = true → "inputs.steer" ∉ nc) (hb : BothSides nc) {rows : List Row} (hr : Road rows) {l : Lap}
    (hl : laptime (standardVehicle p q cx cy cz) ((vehicleOnTrack (standardVehicle p q cx cy cz)).explicit defaultConOutputs).autoUnit
      (defaults tn kw n pts cyc nc closed) (.ok rows) = .ok l) :
    ∃ (turns : ℤ) (l' : Lap), laptime (standardVehicle p (swapped q) cx cy cz)
      ((vehicleOnTrack (standardVehicle p (swapped q) cx cy cz)).explicit defaultConOutputs).autoUnit
      (defaults tn kw n pts cyc nc closed) (.ok (rows.map Row.mirrored)) = .ok l' ∧ l'.S.c.o.L = l.S.c.o.L ∧
      Same l l' (MirrorOf (2 * Real.pi * turns) l.S.c.o.L) :=
  have hv := standard_car p q cx cy cz
  have hv' := standard_car p (swapped q) cx cy cz
  have hc : Usable (standardVehicle p q cx cy cz) (defaults tn kw n pts cyc nc closed) := defaults_usable (standard_con p q cx cy cz) hv hn hnd hnc hst
  have hc' : Usable (standardVehicle p (swapped q) cx cy cz) (defaults tn kw n pts cyc nc closed) :=
    defaults_usable (standard_con p (swapped q) cx cy cz) hv' hn hnd hnc hst
  C100_mirror (t4 := ⟨tire q.fl, tire q.fr, tire q.rl, tire q.rr⟩) (aero := .node (constAero cx cy cz) []) hv hv' (const_mirror cx cy cz)
    (standard_residuals p q cx cy cz) (standard_residuals p (swapped q) cx cy cz) hc hc' (backed_auto hv hc) (backed_auto hv' hc') hb hr hl

/-- A car that is the same on both sides is as fast on the road in the mirror. -/
theorem C100_symmetric (p : Params) (q : Four TireParams) (cx cy cz : ℝ) (hf : q.fl = q.fr) (hre : q.rl = q.rr) (hn : 1 ≤ n) (hnd : nc.Nodup)
    (hnc : ∀ w ∈ nc, (∃ n ∈ onTrackNames.states, w = "states." ++ n) ∨ ∃ n ∈ onTrackNames.inputs, w = "inputs." ++ n)
    (hst : cyc = true → "inputs.steer" ∉ nc) (hb : BothSides nc) {rows : List Row} (hr : Road rows) {l : Lap}
    (hl : laptime (standardVehicle p q cx cy cz) ((vehicleOnTrack (standardVehicle p q cx cy cz)).explicit defaultConOutputs).autoUnit
      (defaults tn kw n pts cyc nc closed) (.ok rows) = .ok l) :
    ∃ l', laptime (standardVehicle p q cx cy cz) ((vehicleOnTrack (standardVehicle p q cx cy cz)).explicit defaultConOutputs).autoUnit
      (defaults tn kw n pts cyc nc closed) (.ok (rows.map Row.mirrored)) = .ok l' ∧ costs l' = costs l := by
  have e : swapped q = q := by
    obtain ⟨a, b, c, d⟩ := q
    simp only at hf hre
    subst hf hre
    rfl
  obtain ⟨turns, l', h1, h2, h3⟩ := C100_standard p q cx cy cz hn hnd hnc hst hb hr hl
  rw [e] at h1
  exact ⟨l', h1, h3.costs.symm⟩

/-- The laps and their costs depend neither on the scales nor on the backend that evaluates the model. -/
theorem C101_scales {v : Mdl ℝ} {cf : Conf} {u u' : UnitProblem} {D D' : List ℝ → ℝ → Prop} (hv : Car v) (hc : Usable v cf) (hu : Backed v cf u D)
    (scales : List ScaleConfig) (hc' : Usable v { cf with scales := scales }) (hu' : Backed v { cf with scales := scales } u' D') {rows : List Row} (hr : Road rows)
    {l l' : Lap} (hl : laptime v u cf (.ok rows) = .ok l) (hl' : laptime v u' { cf with scales := scales } (.ok rows) = .ok l') :
    (∀ x, IsLap l x ↔ IsLap l' x) ∧ ∀ x T, x.length = l.S.c.o.L.numDec → (Costs l x T ↔ Costs l' x T) := by
  have hw : List.Forall₂ Row.NotWider rows rows := List.forall₂_same.mpr fun _ _ => ⟨rfl, rfl, le_rfl, le_rfl⟩
  have r1 := Looser.refl cf
  have h1 : Looser cf { cf with scales := scales } := ⟨rfl, rfl, rfl, rfl, rfl, rfl, id, fun _ h => h, r1.bounds⟩
  have h2 : Looser { cf with scales := scales } cf := ⟨rfl, rfl, rfl, rfl, rfl, rfl, id, fun _ h => h, r1.bounds⟩
  obtain ⟨l1, a1, a2, a3, a4, -⟩ := C101_more_room hv hc hu hc' hu' h1 hr hw hl
  rw [hl', Except.ok.injEq] at a1
  subst a1
  obtain ⟨l2, b1, b2, b3, b4, -⟩ := C101_more_room hv hc' hu' hc hu h2 hr hw hl'
  rw [hl, Except.ok.injEq] at b1
  subst b1
  exact ⟨fun x => ⟨a3 x, b3 x⟩, a4⟩

/-! ## The hypotheses can be met -/

/-- A straight road of 1000 m. -/
def road1000 : List Row := [⟨0, 0, 5, 5⟩, ⟨500, 0, 5, 5⟩, ⟨1000, 0, 5, 5⟩]

/-- The same road, wider on the left at the end. -/
def road1000w : List Row := [⟨0, 0, 5, 5⟩, ⟨500, 0, 5, 5⟩, ⟨1000, 0, 7, 5⟩]

/-- The car without drag has a lap of 20 s on a straight road of 1000 m, so also on the same road turned by any angle and shifted, on its mirror image
with the tyres exchanged, and on a wider one. -/
example (p : Params) (q : Four TireParams) (cy cz : ℝ) (h33 : p.rolling_radius = 0.33) (φ a b : ℝ) :
    ∃ l l1 l2 l3, laptime (standardVehicle p q 0 cy cz) ((vehicleOnTrack (standardVehicle p q 0 cy cz)).explicit defaultConOutputs).autoUnit
        (defaults "LGR" [("num_stages", 3)] 10 none false [] false) (.ok road1000) = .ok l ∧ (20 : ℝ) ∈ costs l ∧
      laptime (standardVehicle p q 0 cy cz) ((vehicleOnTrack (standardVehicle p q 0 cy cz)).explicit defaultConOutputs).autoUnit
        (defaults "LGR" [("num_stages", 3)] 10 none false [] false) (.ok (road1000.map (Row.turned φ a b))) = .ok l1 ∧ (20 : ℝ) ∈ costs l1 ∧
      laptime (standardVehicle p (swapped q) 0 cy cz) ((vehicleOnTrack (standardVehicle p (swapped q) 0 cy cz)).explicit defaultConOutputs).autoUnit
        (defaults "LGR" [("num_stages", 3)] 10 none false [] false) (.ok (road1000.map Row.mirrored)) = .ok l2 ∧ (20 : ℝ) ∈ costs l2 ∧
      laptime (standardVehicle p q 0 cy cz) ((vehicleOnTrack (standardVehicle p q 0 cy cz)).explicit defaultConOutputs).autoUnit
        (defaults "LGR" [("num_stages", 3)] 10 none false [] false) (.ok road1000w) = .ok l3 ∧ (20 : ℝ) ∈ costs l3 := by
  obtain ⟨t, ht, -⟩ := (C38_lgr "LGR" (by simp)).2.1 3 (by norm_num)
  have hstr : StraightRoad road1000 [0, 500, 1000] 0 0 0 :=
    ⟨by unfold Inc; norm_num, by decide, by simp [road1000], by simp [road1000], by simp [road1000], by simp [road1000]⟩
  have hv := standard_car p q 0 cy cz
  have hc : Usable (standardVehicle p q 0 cy cz) (defaults "LGR" [("num_stages", 3)] 10 none false [] false) :=
    defaults_usable (standard_con p q 0 cy cz) hv (by norm_num) (by simp) (by simp) (by simp)
  have hu := backed_auto hv hc
  obtain ⟨l, tr, h1, h2, h3, h4⟩ := C95_construct hv hc hu ht (mesh := _) rfl hstr.road
  obtain ⟨_, _, bb, _, _, _, hb, _⟩ := C95_feasible hv hc hu h1
  obtain ⟨tr', g1, g2, g3, g4⟩ := hstr.loads
  rw [h2, Except.ok.injEq] at g1
  subst g1
  obtain ⟨x, x1, x2, x3, x4, x5⟩ := C95_coast hc hu (by rw [h33]; norm_num) (by rw [h33]; norm_num) h1 h3 (fun d _ => g4 _) g3.le hb
  have h20 : (20 : ℝ) ∈ costs l := by
    refine ⟨x, ⟨x1, bb, hb, x2, x3⟩, bb, hb, ?_⟩
    rw [x5, x4, g2]
    simp [Track.at_, pointsOf, linspace01]
    norm_num
  obtain ⟨_, l1, a1, -, a2⟩ := C99_standard p q 0 cy cz hc hstr.road h1 φ a b
  obtain ⟨_, l2, b1, -, b2⟩ := C100_standard p q 0 cy cz (by norm_num) (by simp) (by simp) (by simp) (by simp [BothSides]) hstr.road h1
  obtain ⟨l3, c1, -, -, -, c2, -⟩ := C101_more_room hv hc hu hc hu (Looser.refl _) hstr.road (rows' := road1000w)
    (by unfold road1000 road1000w; simp [Row.NotWider]; norm_num) h1
  exact ⟨l, l1, l2, l3, h1, h20, a1, a2.costs ▸ h20, b1, b2.costs ▸ h20, c1, c2 h20⟩

end Lumos.Sym
