import Verif.Sym.Mirror
/-!
# C100: the lap in a mirror: the theorems
-/

namespace Lumos.Sym

open Lumos DecVar DecVar.Layout NLP Bounds Ocp OCP Track LapSim Lts Io Io.Mdl Lumos.Trans Veh

variable {p : Params} {t4 : Four (Mdl ℝ)} {aero : Mdl ℝ} {tn : String} {kw : List (String × Int)} {n : Nat} {pts : Option (List ℝ)} {cyc closed : Bool}
  {nc : List String}

/-- The steps of an interval in a mirror. -/
theorem steps_scale {t : Transcription} {X X' Xd Xd' : Nat → ℝ} {h : ℝ} (σ : ℝ) (e : ∀ j, j < t.stages → X' j = σ * X j)
    (e' : ∀ j, j < t.stages → Xd' j = σ * Xd j) (H : Steps t X Xd h) : Steps t X' Xd' h := by
  intro l hl
  have e1 : ∑ j ∈ Finset.range t.stages, entry t.A l j * X' j = σ * ∑ j ∈ Finset.range t.stages, entry t.A l j * X j := by
    rw [Finset.mul_sum]
    exact Finset.sum_congr rfl fun j hj => by rw [e j (Finset.mem_range.mp hj)]; ring
  have e2 : ∑ j ∈ Finset.range t.stages, entry t.B l j * Xd' j = σ * ∑ j ∈ Finset.range t.stages, entry t.B l j * Xd j := by
    rw [Finset.mul_sum]
    exact Finset.sum_congr rfl fun j hj => by rw [e' j (Finset.mem_range.mp hj)]; ring
  rw [e1, e2, H l hl]
  ring

/-- A variable and that of the other side may both differ between start and end, or neither. -/
def BothSides (nc : List String) : Prop := ∀ m ∈ onTrackNames.states, ("states." ++ otherSide m) ∈ nc → ("states." ++ m) ∈ nc

theorem runs_mirror (hv' : Car (vehicle p t4.fr t4.fl t4.rr t4.rl aero)) (ha : AeroMirror aero)
    (hcon : ∀ m ∈ defaultConOutputs, m ∈ (vehicleOnTrack (vehicle p t4.fr t4.fl t4.rr t4.rl aero)).names.outputs)
    (hres : (vehicle p t4.fl t4.fr t4.rl t4.rr aero).names.residuals = ["res_ax", "res_ay"])
    (hres' : (vehicle p t4.fr t4.fl t4.rr t4.rl aero).names.residuals = ["res_ax", "res_ay"]) (hb : BothSides nc)
    {t : Transcription} (hk : 2 ≤ t.stages) {len c : ℝ} {X Y : String → String → Nat → ℝ}
    (h : ∀ s g m, s < n * (t.stages - 1) + 1 → Named defaultConOutputs g m → Y g m s = mirror c X g m s)
    (hw : ∀ s, s < n * (t.stages - 1) + 1 → X "states" "wheel_speed_rl" s + X "states" "wheel_speed_rr" s ≠ 0)
    (H : Runs (vehicle p t4.fl t4.fr t4.rl t4.rr aero) (defaults tn kw n pts cyc nc closed) t (n * (t.stages - 1) + 1) len X) :
    Runs (vehicle p t4.fr t4.fl t4.rr t4.rl aero) (defaults tn kw n pts cyc nc closed) t (n * (t.stages - 1) + 1) len Y := by
  have hs : ∀ s, s < n * (t.stages - 1) + 1 → ∀ m ∈ onTrackNames.states, Y "states" m s = (if Odd m then -1 else 1) * X "states" (otherSide m) s :=
    fun s hs m hm => by rw [h s "states" m hs (Or.inl ⟨rfl, hm⟩)]; simp [mirror]
  have hd : ∀ s, s < n * (t.stages - 1) + 1 → ∀ m ∈ onTrackNames.states, Y "states_dot" m s = (if Odd m then -1 else 1) * X "states_dot" (otherSide m) s :=
    fun s hs m hm => by rw [h s "states_dot" m hs (Or.inr (Or.inr (Or.inl ⟨rfl, hm⟩)))]; simp [mirror]
  have hi : ∀ s, s < n * (t.stages - 1) + 1 → ∀ m ∈ onTrackNames.inputs, m ≠ "track_heading" →
      Y "inputs" m s = (if Odd m then -1 else 1) * X "inputs" (otherSide m) s :=
    fun s hs m hm hne => by rw [h s "inputs" m hs (Or.inr (Or.inl ⟨rfl, hm⟩))]; simp [mirror, hne]
  refine ⟨fun s hsN => stage_mirror hv' ha (fun g m hm => h s g m hsN hm) (hw s hsN) hcon hres hres' (H.stages s hsN), fun i hi' m hm => ?_, fun hc => ?_⟩
  · have bound : ∀ j, j < t.stages → i * (t.stages - 1) + j < n * (t.stages - 1) + 1 := fun j hj => by
      have : (i + 1) * (t.stages - 1) ≤ n * (t.stages - 1) := Nat.mul_le_mul_right _ hi'
      rw [Nat.add_mul, Nat.one_mul] at this
      omega
    have e1 : ∀ m ∈ onTrackNames.states, otherSide m ∈ onTrackNames.states := by decide
    exact steps_scale _ (fun j hj => hs _ (bound j hj) m hm) (fun j hj => hd _ (bound j hj) m hm) (H.steps i hi' _ (e1 m hm))
  · obtain ⟨c1, c2⟩ := H.closes hc
    refine ⟨fun m hm h1 h2 => ?_, fun m hm h1 h2 => ?_⟩
    · have e1 : ∀ m ∈ onTrackNames.states, otherSide m ∈ onTrackNames.states := by decide
      have e2 : ∀ m ∈ onTrackNames.states, m ≠ "time" → otherSide m ≠ "time" := by decide
      rw [hs _ (by omega) m hm, hs _ (by omega) m hm, c1 _ (e1 m hm) (e2 m hm h1) fun hin => h2 (hb m hm hin)]
    · have e1 : ∀ m ∈ onTrackNames.inputs, otherSide m = m := by decide
      rw [hi _ (by omega) m hm h1, hi _ (by omega) m hm h1, e1 m hm, c2 m hm h1 h2]

theorem bounds_mirror {tr tr' : RaceTrack} {N : Nat} {d : Nat → ℝ} {c : ℝ} (hN : 0 < N) (ha : Alike (-1) c tr tr') {X Y : String → String → Nat → ℝ}
    (h : ∀ s g m, s < N → Named defaultConOutputs g m → Y g m s = mirror c X g m s) (H : InDefaults closed tr N d X) : InDefaults closed tr' N d Y := by
  have hs : ∀ s, s < N → ∀ m ∈ onTrackNames.states, Y "states" m s = (if Odd m then -1 else 1) * X "states" (otherSide m) s :=
    fun s hs m hm => by rw [h s "states" m hs (Or.inl ⟨rfl, hm⟩)]; simp [mirror]
  have hi : ∀ s, s < N → ∀ m ∈ onTrackNames.inputs, m ≠ "track_heading" → Y "inputs" m s = (if Odd m then -1 else 1) * X "inputs" (otherSide m) s :=
    fun s hs m hm hne => by rw [h s "inputs" m hs (Or.inr (Or.inl ⟨rfl, hm⟩))]; simp [mirror, hne]
  have ho : ∀ s, s < N → ∀ m ∈ defaultConOutputs, Y "con_outputs" m s = (if Odd m then -1 else 1) * X "con_outputs" (otherSide m) s :=
    fun s hs m hm => by rw [h s "con_outputs" m hs (Or.inr (Or.inr (Or.inr ⟨rfl, hm⟩)))]; simp [mirror]
  have even : ∀ s, s < N → ∀ m ∈ ["time", "vx"], Y "states" m s = X "states" m s := fun s hsN m hm => by
    have a1 : ∀ m ∈ ["time", "vx"], m ∈ onTrackNames.states ∧ ¬Odd m ∧ otherSide m = m := by decide
    obtain ⟨b1, b2, b3⟩ := a1 m hm
    rw [hs s hsN m b1, if_neg b2, b3, one_mul]
  have odd : ∀ s, s < N → ∀ m ∈ ["n", "eta", "vy", "yaw_rate"], Y "states" m s = -X "states" m s := fun s hsN m hm => by
    have a1 : ∀ m ∈ ["n", "eta", "vy", "yaw_rate"], m ∈ onTrackNames.states ∧ Odd m ∧ otherSide m = m := by decide
    obtain ⟨b1, b2, b3⟩ := a1 m hm
    rw [hs s hsN m b1, if_pos b2, b3, neg_one_mul]
  have corner : ∀ c ∈ LapSim.corners, ∃ c' ∈ LapSim.corners, ("wheel_speed_" ++ c) ∈ onTrackNames.states ∧ ¬Odd ("wheel_speed_" ++ c) ∧
      otherSide ("wheel_speed_" ++ c) = "wheel_speed_" ++ c' ∧ ("vehicle.slip_ratio_" ++ c) ∈ defaultConOutputs ∧ ¬Odd ("vehicle.slip_ratio_" ++ c) ∧
      otherSide ("vehicle.slip_ratio_" ++ c) = "vehicle.slip_ratio_" ++ c' ∧ ("vehicle.slip_angle_" ++ c) ∈ defaultConOutputs ∧ Odd ("vehicle.slip_angle_" ++ c) ∧
      otherSide ("vehicle.slip_angle_" ++ c) = "vehicle.slip_angle_" ++ c' := by decide
  have lat : ∀ s, s < N → Y "states" "n" s = -X "states" "n" s := fun s hsN => odd s hsN "n" (by decide)
  refine ⟨fun s h => ?_, fun s h => ?_, fun s h => ?_, fun s h => ?_, fun s h => ?_, fun s h k hk => ?_, fun s h => ?_, fun s h => ?_, fun s h => ?_,
    fun s h k hk => ?_, fun s h k hk => ?_, fun s h => ?_, fun s hsN => ?_, fun s h h0 => ?_, ?_, fun h0 => ?_⟩
  · rw [even s h _ (by decide)]; exact H.time s h
  · rw [odd s h _ (by decide), abs_neg]; exact H.eta s h
  · rw [even s h _ (by decide)]; exact H.vx s h
  · rw [odd s h _ (by decide), abs_neg]; exact H.vy s h
  · rw [odd s h _ (by decide), abs_neg]; exact H.yaw s h
  · obtain ⟨k', hk', b1, b2, b3, -⟩ := corner k hk
    rw [hs s h _ b1, if_neg b2, b3, one_mul]
    exact H.wheels s h k' hk'
  · rw [hi s h "throttle" (by decide) (by decide), if_neg (by decide), one_mul]; exact H.throttle s h
  · rw [hi s h "brake" (by decide) (by decide), if_neg (by decide), one_mul]; exact H.brake s h
  · rw [hi s h "steer" (by decide) (by decide), if_pos (by decide), neg_one_mul, abs_neg]; exact H.steer s h
  · obtain ⟨k', hk', -, -, -, b1, b2, b3, -⟩ := corner k hk
    rw [ho s h _ b1, if_neg b2, b3, one_mul]
    exact H.slipRatio s h k' hk'
  · obtain ⟨k', hk', -, -, -, -, -, -, b1, b2, b3⟩ := corner k hk
    rw [ho s h _ b1, if_pos b2, b3, neg_one_mul, abs_neg]
    exact H.slipAngle s h k' hk'
  · rw [hi s h "track_curvature" (by decide) (by decide), if_pos (by decide)]
    exact (ha.curvature _ _).mp (H.curvature s h)
  · rw [h s "inputs" "track_heading" hsN (Or.inr (Or.inl ⟨rfl, by decide⟩))]
    have := (ha.heading _ _).mp (H.heading s hsN)
    unfold mirror
    rw [if_pos (by decide), if_pos ⟨rfl, rfl⟩]
    exact this
  · obtain ⟨a, b, k1, k2, k3, k4⟩ := H.lateral s h h0
    have hne : ¬ ((-1 : ℝ) = 1) := by norm_num
    have k1 := (ha.left _ _).mp k1
    have k2 := (ha.right _ _).mp k2
    rw [if_neg hne] at k1 k2
    exact ⟨b, a, k2, k1, by rw [lat s h]; linarith, by rw [lat s h]; linarith⟩
  · rw [even 0 hN _ (by decide)]; exact H.start
  · obtain ⟨r1, r2, r3, r4, r5⟩ := H.rest h0
    refine ⟨?_, ?_, ?_, ?_, ?_⟩
    · rw [odd 0 hN _ (by decide), r1, neg_zero]
    · rw [odd 0 hN _ (by decide), r2, neg_zero]
    · rw [even 0 hN _ (by decide), r3]
    · rw [odd 0 hN _ (by decide), r4, neg_zero]
    · rw [odd 0 hN _ (by decide), r5, neg_zero]

theorem wheels_turn {tr : RaceTrack} {N : Nat} {d : Nat → ℝ} {X : String → String → Nat → ℝ} (H : InDefaults closed tr N d X) (s : Nat) (hs : s < N) :
    X "states" "wheel_speed_rl" s + X "states" "wheel_speed_rr" s ≠ 0 := by
  have h1 := (H.wheels s hs "rl" (by decide)).1
  have h2 := (H.wheels s hs "rr" (by decide)).1
  have e1 : "wheel_speed_" ++ "rl" = "wheel_speed_rl" := by decide
  have e2 : "wheel_speed_" ++ "rr" = "wheel_speed_rr" := by decide
  rw [e1] at h1
  rw [e2] at h2
  intro h
  norm_num at h1 h2
  linarith

theorem Alike.symm_neg {c : ℝ} {tr tr' : RaceTrack} (h : Alike (-1) c tr tr') : Alike (-1) c tr' tr where
  length := h.length.symm
  curvature := fun d κ => by rw [h.curvature d (-1 * κ)]; simp
  heading := fun d θ => by rw [h.heading d _]; simp
  left := fun d a => by
    have := h.right d a
    have hne : ¬ ((-1 : ℝ) = 1) := by norm_num
    rw [if_neg hne] at this ⊢; exact this.symm
  right := fun d a => by
    have := h.left d a
    have hne : ¬ ((-1 : ℝ) = 1) := by norm_num
    rw [if_neg hne] at this ⊢; exact this.symm

/-- The laps of a car on a road and of the car with the tyres of the other side on the road in the mirror are mirror images of each other, and
cost the same. -/
theorem C100_mirror {u u' : UnitProblem} {D D' : List ℝ → ℝ → Prop} (hv : Car (vehicle p t4.fl t4.fr t4.rl t4.rr aero))
    (hv' : Car (vehicle p t4.fr t4.fl t4.rr t4.rl aero)) (ha : AeroMirror aero)
    (hres : (vehicle p t4.fl t4.fr t4.rl t4.rr aero).names.residuals = ["res_ax", "res_ay"])
    (hres' : (vehicle p t4.fr t4.fl t4.rr t4.rl aero).names.residuals = ["res_ax", "res_ay"])
    (hc : Usable (vehicle p t4.fl t4.fr t4.rl t4.rr aero) (defaults tn kw n pts cyc nc closed))
    (hc' : Usable (vehicle p t4.fr t4.fl t4.rr t4.rl aero) (defaults tn kw n pts cyc nc closed))
    (hu : Backed (vehicle p t4.fl t4.fr t4.rl t4.rr aero) (defaults tn kw n pts cyc nc closed) u D)
    (hu' : Backed (vehicle p t4.fr t4.fl t4.rr t4.rl aero) (defaults tn kw n pts cyc nc closed) u' D')
    (hb : BothSides nc) {rows : List Row} (hr : Road rows) {l : Lap}
    (hl : laptime (vehicle p t4.fl t4.fr t4.rl t4.rr aero) u (defaults tn kw n pts cyc nc closed) (.ok rows) = .ok l) :
    ∃ (turns : ℤ) (l' : Lap), laptime (vehicle p t4.fr t4.fl t4.rr t4.rl aero) u' (defaults tn kw n pts cyc nc closed) (.ok (rows.map Row.mirrored)) = .ok l' ∧
      l'.S.c.o.L = l.S.c.o.L ∧ Same l l' (MirrorOf (2 * Real.pi * turns) l.S.c.o.L) := by
  obtain ⟨l', hl'⟩ : ∃ l', laptime (vehicle p t4.fr t4.fl t4.rr t4.rl aero) u' (defaults tn kw n pts cyc nc closed) (.ok (rows.map Row.mirrored)) = .ok l' := by
    obtain ⟨t, mesh, ht, hm⟩ := mesh_of hl
    obtain ⟨l', tr, h, -⟩ := C95_construct hv' hc' hu' ht hm (Road.mirrored hr)
    exact ⟨l', h⟩
  obtain ⟨t, S, tr, hm, f⟩ := facts_made hv hc hu hl
  obtain ⟨t', S', tr', hm', f'⟩ := facts_made hv' hc' hu' hl'
  have et : t' = t := by
    have := f'.transcription
    rw [f.transcription, Except.ok.injEq] at this
    exact this.symm
  subst et
  obtain ⟨turns, hal⟩ := mirrored_alike hr
  have hal := hal tr tr' f.file f'.file
  set c := 2 * Real.pi * turns with hcdef
  have names (w : Mdl ℝ) : ((vehicleOnTrack w).explicit defaultConOutputs).states = onTrackNames.states ∧
      ((vehicleOnTrack w).explicit defaultConOutputs).inputs = onTrackNames.inputs ∧ ((vehicleOnTrack w).explicit defaultConOutputs).conOutputs = defaultConOutputs := by
    refine ⟨?_, ?_, rfl⟩
    · unfold Io.Mdl.explicit; dsimp only; rw [onTrack_names]; rfl
    · unfold Io.Mdl.explicit; dsimp only; rw [onTrack_names]; rfl
  have eLay (w w' : Mdl ℝ) : layoutOf ((vehicleOnTrack w).explicit defaultConOutputs) n t'.stages = layoutOf ((vehicleOnTrack w').explicit defaultConOutputs) n t'.stages := by
    obtain ⟨a1, a2, a3⟩ := names w
    obtain ⟨b1, b2, b3⟩ := names w'
    unfold layoutOf Sim.groupsOf
    rw [a1, a2, a3, b1, b2, b3]
  have eL : l'.S.c.o.L = l.S.c.o.L := by rw [f'.layout, f.layout]; exact eLay _ _
  have eM : S'.c.mesh = S.c.mesh := mesh_unique f.transcription hm hm' rfl rfl hc.intervals
  have hk := (C38_shapes f.transcription).1
  have hN : ∀ s g m, l.S.c.o.L.IsVar (.stage s g m) ↔ s < n * (t'.stages - 1) + 1 ∧ Named defaultConOutputs g m := fun s g m => by
    rw [f.isVar, f.stages]; rfl
  have bnd (w : Mdl ℝ) (hw : l.S.c.o.L = layoutOf ((vehicleOnTrack w).explicit defaultConOutputs) n t'.stages) (r : RaceTrack) (d : Nat → ℝ) (X : String → String → Nat → ℝ) :
      (∀ s g m, l.S.c.o.L.IsVar (.stage s g m) → Allowed l.S.c.o.L (defaults tn kw n pts cyc nc closed) r (d s) s g m (X g m s)) ↔
        InDefaults closed r l.S.c.o.L.numStages d X := by
    rw [hw]
    exact allowed_all (names w).1 (names w).2.1 (names w).2.2 d X
  have stg : l.S.c.o.L.numStages = n * (t'.stages - 1) + 1 := f.stages
  have hpos : 0 < l.S.c.o.L.numStages := by rw [f.stages]; omega
  refine ⟨turns, l', hl', eL, same_of f f' eL (mirror c) (mirror c) (mirror_mirror c) ?_ ?_ ?_⟩
  · intro X Y g m s h hv
    unfold mirror
    rw [h g (otherSide m) ((hN s _ _).mpr ⟨((hN s g m).mp hv).1, named_other ((hN s g m).mp hv).2⟩)]
  · intro x x' hx hx' h
    have h' : ∀ s g m, l.S.c.o.L.IsVar (.stage s g m) → readAt l.S.c.o.L x g m s = mirror c (readAt l.S.c.o.L x') g m s := fun s g m hv => by
      rw [← mirror_mirror c (readAt l.S.c.o.L x) g m s]
      conv_rhs => unfold mirror
      rw [h s g (otherSide m) ((hN s _ _).mpr ⟨((hN s g m).mp hv).1, named_other ((hN s g m).mp hv).2⟩)]
      rfl
    rw [f.lap x, f'.lap x', eL, hal.length, eM, bnd _ f.layout tr (fun s => S.c.mesh.getD s 0 * tr.totalDistance) (readAt l.S.c.o.L x),
      bnd _ f.layout tr' (fun s => S.c.mesh.getD s 0 * tr.totalDistance) (readAt l.S.c.o.L x'), stg]
    constructor
    · rintro ⟨-, h2, h3⟩
      refine ⟨hx', ?_, ?_⟩
      · exact runs_mirror hv' ha hc'.outputs.2 hres hres' hb hk (fun s g m hs hm => h s g m ((hN s g m).mpr ⟨hs, hm⟩)) (fun s hs => wheels_turn h3 s hs) h2
      · exact bounds_mirror (by omega) hal (fun s g m hs hm => h s g m ((hN s g m).mpr ⟨hs, hm⟩)) h3
    · rintro ⟨-, h2, h3⟩
      refine ⟨hx, ?_, ?_⟩
      · exact runs_mirror (t4 := ⟨t4.fr, t4.fl, t4.rr, t4.rl⟩) hv ha hc.outputs.2 hres' hres hb hk (fun s g m hs hm => h' s g m ((hN s g m).mpr ⟨hs, hm⟩))
          (fun s hs => wheels_turn h3 s hs) h2
      · exact bounds_mirror (by omega) hal.symm_neg (fun s g m hs hm => h' s g m ((hN s g m).mpr ⟨hs, hm⟩)) h3
  · intro x x' h
    refine cost_congr hpos (fun s hs => ?_) fun s hs => ?_
    · rw [h s "states" "time" ((f.isVar s _ _).mpr ⟨hs, Or.inl ⟨rfl, by decide⟩⟩)]
      unfold mirror
      rw [if_neg (by decide), one_mul, if_neg (by decide), add_zero]
      rfl
    · rw [h s "inputs" "steer" ((f.isVar s _ _).mpr ⟨hs, Or.inr (Or.inl ⟨rfl, by decide⟩)⟩)]
      unfold mirror
      rw [if_pos (by decide), if_neg (by decide), add_zero, neg_one_mul, neg_sq]
      rfl

end Lumos.Sym
