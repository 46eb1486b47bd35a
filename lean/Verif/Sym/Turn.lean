import Verif.Sym.Road
/-!
# C99: a lap does not depend on where the road lies and where north is
-/

namespace Lumos.Sym

open Lumos DecVar DecVar.Layout NLP Bounds Ocp OCP Track LapSim Lts Io Io.Mdl Lumos.Trans Veh

variable {v : Mdl ℝ} {cf : Conf} {u : UnitProblem} {D : List ℝ → ℝ → Prop}

/-- No boundary condition is about the heading of the track, and no bound or boundary condition is about the yaw angle. -/
def NoHeading (cf : Conf) : Prop :=
  (∀ b ∈ cf.bcs, fullName b.group b.name ≠ "inputs.track_heading" ∧ fullName b.group b.name ≠ "con_outputs.kinematics.yaw_angle") ∧
  ∀ b ∈ cf.bounds, fullName b.group b.name ≠ "con_outputs.kinematics.yaw_angle"

/-- The names of the variables of a stage. -/
def Named (con : List String) (g n : String) : Prop :=
  (g = "states" ∧ n ∈ onTrackNames.states) ∨ (g = "inputs" ∧ n ∈ onTrackNames.inputs) ∨ (g = "states_dot" ∧ n ∈ onTrackNames.states) ∨
    (g = "con_outputs" ∧ n ∈ con)

/-- The values read, turned. -/
noncomputable def turn (c : ℝ) (X : String → String → Nat → ℝ) (g n : String) (s : Nat) : ℝ :=
  X g n s + if (g = "inputs" ∧ n = "track_heading") ∨ (g = "con_outputs" ∧ n = "kinematics.yaw_angle") then c else 0

theorem vehicle_state {n : String} (h : n ∈ vehicleNames.states) : n ∈ onTrackNames.states := List.mem_append_right _ h

theorem vehicle_input {n : String} (h : n ∈ vehicleNames.inputs) : n ∈ onTrackNames.inputs := List.mem_append_left _ h

theorem vehicle_names (k : String) : ("vehicle" ++ "." ++ k) ≠ "kinematics.yaw_angle" := by
  intro h
  have := congrArg (fun s => s.toList.take 1) h
  simp at this

theorem stage_turned {con : List String} {c : ℝ} {X Y : String → String → Nat → ℝ} {s : Nat}
    (h : ∀ g n, Named con g n → Y g n s = turn c X g n s) (H : StageOf v con X s) : StageOf v con Y s := by
  have hs : ∀ n ∈ onTrackNames.states, Y "states" n s = X "states" n s := fun n hn => by
    rw [h "states" n (Or.inl ⟨rfl, hn⟩)]; simp [turn]
  have hd : ∀ n ∈ onTrackNames.states, Y "states_dot" n s = X "states_dot" n s := fun n hn => by
    rw [h "states_dot" n (Or.inr (Or.inr (Or.inl ⟨rfl, hn⟩)))]; simp [turn]
  have hi : ∀ n ∈ onTrackNames.inputs, n ≠ "track_heading" → Y "inputs" n s = X "inputs" n s := fun n hn hne => by
    rw [h "inputs" n (Or.inr (Or.inl ⟨rfl, hn⟩))]; simp [turn, hne]
  have hh : Y "inputs" "track_heading" s = X "inputs" "track_heading" s + c := by
    rw [h "inputs" "track_heading" (Or.inr (Or.inl ⟨rfl, by decide⟩))]; simp [turn]
  have ho : ∀ n ∈ con, n ≠ "kinematics.yaw_angle" → Y "con_outputs" n s = X "con_outputs" n s := fun n hn hne => by
    rw [h "con_outputs" n (Or.inr (Or.inr (Or.inr ⟨rfl, hn⟩)))]; simp [turn, hne]
  have hy : "kinematics.yaw_angle" ∈ con → Y "con_outputs" "kinematics.yaw_angle" s = X "con_outputs" "kinematics.yaw_angle" s + c := fun hn => by
    rw [h "con_outputs" _ (Or.inr (Or.inr (Or.inr ⟨rfl, hn⟩)))]; simp [turn]
  have hsd : sdot (Y "states" · s) (Y "inputs" · s) = sdot (X "states" · s) (X "inputs" · s) := by
    unfold sdot
    dsimp only
    rw [hs "vx" (by decide), hs "vy" (by decide), hs "eta" (by decide), hs "n" (by decide), hi "track_curvature" (by decide) (by decide)]
  obtain ⟨rv, h1, h2, h3, h4, h5, h6, h7, h8, h9⟩ := H
  have e1 : (vehicleNames.states.map fun n => (n, Y "states" n s)) = vehicleNames.states.map fun n => (n, X "states" n s) :=
    List.map_congr_left fun n hn => by rw [hs n (vehicle_state hn)]
  have e2 : (vehicleNames.inputs.map fun n => (n, Y "inputs" n s)) = vehicleNames.inputs.map fun n => (n, X "inputs" n s) :=
    List.map_congr_left fun n hn => by rw [hi n (vehicle_input hn) (by rintro rfl; exact absurd hn (by decide))]
  refine ⟨rv, ?_, ?_, ?_, ?_, ?_, ?_, ?_, ?_, h9⟩
  · rw [← h1, e1, e2]
  · rw [hsd, hd "time" (by decide), h2]
  · rw [hsd, hd "n" (by decide), hs "vx" (by decide), hs "vy" (by decide), hs "eta" (by decide), h3]
  · rw [hsd, hd "eta" (by decide), hs "yaw_rate" (by decide), hi "track_curvature" (by decide) (by decide), h4]
  · intro n hn
    rw [hsd, hd n (vehicle_state hn), h5 n hn]
  · intro k hk
    rw [h6 k hk, ho _ hk (vehicle_names k)]
  · intro hk
    rw [hy hk, h7 hk, hs "eta" (by decide), hh]
    ring
  · intro hk
    rw [ho _ hk (by decide), h8 hk, hi "track_curvature" (by decide) (by decide)]

theorem runs_turned {t : Transcription} (hk : 2 ≤ t.stages) {len c : ℝ} {X Y : String → String → Nat → ℝ}
    (h : ∀ s g n, s < cf.numIntervals * (t.stages - 1) + 1 → Named cf.conOutputs g n → Y g n s = turn c X g n s)
    (H : Runs v cf t (cf.numIntervals * (t.stages - 1) + 1) len X) : Runs v cf t (cf.numIntervals * (t.stages - 1) + 1) len Y := by
  have hs : ∀ s, s < cf.numIntervals * (t.stages - 1) + 1 → ∀ n ∈ onTrackNames.states, Y "states" n s = X "states" n s := fun s hs n hn => by
    rw [h s "states" n hs (Or.inl ⟨rfl, hn⟩)]; simp [turn]
  have hd : ∀ s, s < cf.numIntervals * (t.stages - 1) + 1 → ∀ n ∈ onTrackNames.states, Y "states_dot" n s = X "states_dot" n s := fun s hs n hn => by
    rw [h s "states_dot" n hs (Or.inr (Or.inr (Or.inl ⟨rfl, hn⟩)))]; simp [turn]
  have hi : ∀ s, s < cf.numIntervals * (t.stages - 1) + 1 → ∀ n ∈ onTrackNames.inputs, n ≠ "track_heading" → Y "inputs" n s = X "inputs" n s :=
    fun s hs n hn hne => by
      rw [h s "inputs" n hs (Or.inr (Or.inl ⟨rfl, hn⟩))]; simp [turn, hne]
  refine ⟨fun s hsN => stage_turned (fun g n hn => h s g n hsN hn) (H.stages s hsN), fun i hi' n hn => ?_, fun hc => ?_⟩
  · have bound : ∀ j, j < t.stages → i * (t.stages - 1) + j < cf.numIntervals * (t.stages - 1) + 1 := fun j hj => by
      have : (i + 1) * (t.stages - 1) ≤ cf.numIntervals * (t.stages - 1) := Nat.mul_le_mul_right _ hi'
      rw [Nat.add_mul, Nat.one_mul] at this
      omega
    exact steps_congr (fun j hj => hs _ (bound j hj) n hn) (fun j hj => hd _ (bound j hj) n hn) (H.steps i hi' n hn)
  · obtain ⟨c1, c2⟩ := H.closes hc
    refine ⟨fun n hn h1 h2 => ?_, fun n hn h1 h2 => ?_⟩
    · rw [hs _ (by omega) n hn, hs _ (by omega) n hn, c1 n hn h1 h2]
    · rw [hi _ (by omega) n hn h1, hi _ (by omega) n hn h1, c2 n hn h1 h2]

/-- The cost is that of another point with the same times and steering. -/
theorem cost_congr {N : Nat} (hN : 0 < N) {X Y : String → String → Nat → ℝ} (ht : ∀ s, s < N → Y "states" "time" s = X "states" "time" s)
    (hst : ∀ s, s < N → Y "inputs" "steer" s ^ 2 = X "inputs" "steer" s ^ 2) : costOf N Y = costOf N X := by
  unfold costOf
  rw [ht _ (by omega), ht 0 hN]
  congr 2
  exact Finset.sum_congr rfl fun s hs => hst s (Finset.mem_range.mp hs)

theorem lastMention_none {L : Layout} {rs : List (Req EReal)} {s : Nat} {g n : String} (h : ∀ r ∈ rs, fullName r.group r.name ≠ fullName g n) :
    lastMention L rs (.stage s g n) = none := by
  unfold lastMention
  rw [List.find?_eq_none]
  intro r hr hm
  rw [decide_eq_true_eq] at hm
  exact h r (List.mem_reverse.mp hr) hm.2.1

/-- What can be asked of a value when the track is alike. -/
theorem allowed_turned {L : Layout} (hn : NoHeading cf) {c d : ℝ} {tr tr' : RaceTrack} (ha : Alike 1 c tr tr') {s : Nat} {g n : String}
    {X : String → String → Nat → ℝ} (H : Allowed L cf tr d s g n (X g n s)) : Allowed L cf tr' d s g n (turn c X g n s) := by
  unfold Allowed at H ⊢
  by_cases h1 : g = "inputs" ∧ n = "track_heading"
  · obtain ⟨rfl, rfl⟩ := h1
    rw [lastMention_none] at H ⊢
    · simp only [turn] at H ⊢
      simp at H ⊢
      have := (ha.heading d _).mp H
      rwa [one_mul] at this
    · intro r hr
      obtain ⟨b, hb, rfl⟩ := List.mem_map.mp hr
      exact (hn.1 b hb).1
    · intro r hr
      obtain ⟨b, hb, rfl⟩ := List.mem_map.mp hr
      exact (hn.1 b hb).1
  · by_cases h2 : g = "con_outputs" ∧ n = "kinematics.yaw_angle"
    · obtain ⟨rfl, rfl⟩ := h2
      rw [lastMention_none]
      · simp only [String.reduceEq, false_and, if_false]
        have e : Sim.limits L cf.bounds [] (.stage s "con_outputs" "kinematics.yaw_angle") = (some ⊥, some ⊤) := by
          unfold Sim.limits
          rw [lastMention_none (by intro r hr; cases hr), lastMention_none]
          intro r hr
          obtain ⟨b, hb, rfl⟩ := List.mem_map.mp hr
          exact hn.2 b hb
        rw [e]
        exact ⟨⊥, ⊤, rfl, bot_le, le_top⟩
      · intro r hr
        obtain ⟨b, hb, rfl⟩ := List.mem_map.mp hr
        exact (hn.1 b hb).2
    · have e : turn c X g n s = X g n s := by
        unfold turn
        rw [if_neg (by tauto), add_zero]
      rw [e]
      cases hm : lastMention L (cf.bcs.map BC.req) (.stage s g n) with
      | some r => rw [hm] at H; exact H
      | none =>
        rw [hm] at H
        dsimp only at H ⊢
        by_cases h3 : g = "inputs" ∧ n = "track_curvature"
        · rw [if_pos h3] at H ⊢
          have := (ha.curvature d _).mp H
          rwa [one_mul] at this
        · rw [if_neg h3, if_neg h1] at H ⊢
          by_cases h4 : g = "states" ∧ n = "n"
          · rw [if_pos h4] at H ⊢
            obtain ⟨a, b, k1, k2, k3⟩ := H
            have k1 := (ha.left d _).mp k1
            have k2 := (ha.right d _).mp k2
            rw [if_pos rfl] at k1 k2
            exact ⟨a, b, k1, k2, k3⟩
          · rw [if_neg h4] at H ⊢
            exact H

theorem Alike.symm_one {c : ℝ} {tr tr' : RaceTrack} (h : Alike 1 c tr tr') : Alike 1 (-c) tr' tr where
  length := h.length.symm
  curvature := fun d κ => by rw [h.curvature d (1 * κ), one_mul, one_mul]
  heading := fun d θ => by rw [h.heading d _]; simp
  left := fun d a => by have := h.left d a; rw [if_pos rfl] at this ⊢; exact this.symm
  right := fun d a => by have := h.right d a; rw [if_pos rfl] at this ⊢; exact this.symm

end Lumos.Sym
