import Verif.Sym.Frame
/-!
# C100: the lap in a mirror
-/

namespace Lumos.Sym

open Lumos DecVar DecVar.Layout NLP Bounds Ocp OCP Track LapSim Lts Io Io.Mdl Lumos.Trans Veh

/-- The values read, in a mirror. -/
noncomputable def mirror (c : ℝ) (X : String → String → Nat → ℝ) (g n : String) (s : Nat) : ℝ :=
  (if Odd n then -1 else 1) * X g (otherSide n) s + if g = "inputs" ∧ n = "track_heading" then c else 0

/-- The quantities of one side. -/
def sided : List String := ["wheel_speed_fl", "wheel_speed_fr", "wheel_speed_rl", "wheel_speed_rr", "vehicle.slip_ratio_fl", "vehicle.slip_ratio_fr",
    "vehicle.slip_ratio_rl", "vehicle.slip_ratio_rr", "vehicle.slip_angle_fl", "vehicle.slip_angle_fr", "vehicle.slip_angle_rl", "vehicle.slip_angle_rr"]

theorem other_of_not {n : String} (h : n ∉ sided) : otherSide n = n := by
  simp only [sided, List.mem_cons, List.not_mem_nil, or_false, not_or] at h
  obtain ⟨h1, h2, h3, h4, h5, h6, h7, h8, h9, h10, h11, h12⟩ := h
  unfold otherSide
  rw [if_neg h1, if_neg h2, if_neg h3, if_neg h4, if_neg h5, if_neg h6, if_neg h7, if_neg h8, if_neg h9, if_neg h10, if_neg h11, if_neg h12]

theorem other_other (n : String) : otherSide (otherSide n) = n := by
  by_cases h : n ∈ sided
  · have : ∀ n ∈ sided, otherSide (otherSide n) = n := by decide
    exact this n h
  · rw [other_of_not h, other_of_not h]

theorem odd_other (n : String) : Odd (otherSide n) ↔ Odd n := by
  by_cases h : n ∈ sided
  · have : ∀ n ∈ sided, Odd (otherSide n) ↔ Odd n := by decide
    exact this n h
  · rw [other_of_not h]

theorem other_heading (n : String) : otherSide n = "track_heading" ↔ n = "track_heading" := by
  constructor
  · intro h
    have := congrArg otherSide h
    rw [other_other] at this
    rw [this]
    decide
  · rintro rfl
    decide

theorem mirror_mirror (c : ℝ) (X : String → String → Nat → ℝ) (g n : String) (s : Nat) : mirror c (mirror c X) g n s = X g n s := by
  unfold mirror
  rw [other_other]
  simp only [odd_other, other_heading]
  by_cases h : g = "inputs" ∧ n = "track_heading"
  · obtain ⟨rfl, rfl⟩ := h
    have : Odd "track_heading" := by decide
    have : otherSide "track_heading" = "track_heading" := by decide
    simp [*]
  · rw [if_neg h]
    split_ifs <;> ring

theorem named_other {g n : String} (h : Named defaultConOutputs g n) : Named defaultConOutputs g (otherSide n) := by
  have e1 : ∀ n ∈ onTrackNames.states, otherSide n ∈ onTrackNames.states := by decide
  have e2 : ∀ n ∈ onTrackNames.inputs, otherSide n ∈ onTrackNames.inputs := by decide
  have e3 : ∀ n ∈ defaultConOutputs, otherSide n ∈ defaultConOutputs := by decide
  rcases h with ⟨rfl, h⟩ | ⟨rfl, h⟩ | ⟨rfl, h⟩ | ⟨rfl, h⟩
  · exact Or.inl ⟨rfl, e1 n h⟩
  · exact Or.inr (Or.inl ⟨rfl, e2 n h⟩)
  · exact Or.inr (Or.inr (Or.inl ⟨rfl, e1 n h⟩))
  · exact Or.inr (Or.inr (Or.inr ⟨rfl, e3 n h⟩))

section
variable {p : Params} {t : Four (Mdl ℝ)} {aero : Mdl ℝ}

theorem lookup_val {d : Dict ℝ} {k : String} (h : k ∈ d.keys) : d.lookup k = some (val d k) := by
  unfold val
  cases hk : d.lookup k with
  | some a => rfl
  | none =>
    rw [List.lookup_eq_none_iff] at hk
    unfold Dict.keys at h
    obtain ⟨q, hq, rfl⟩ := List.mem_map.mp h
    have := hk q hq
    simp at this

theorem append_inj_right {a k k' : String} (h : a ++ "." ++ k = a ++ "." ++ k') : k = k' := by
  have := congrArg String.toList h
  simp only [String.toList_append, List.append_assoc, List.append_cancel_left_eq] at this
  exact String.toList_injective this

set_option maxHeartbeats 1000000 in
theorem stage_mirror (hv' : Car (vehicle p t.fr t.fl t.rr t.rl aero)) (ha : AeroMirror aero)
    {c : ℝ} {X Y : String → String → Nat → ℝ} {s : Nat} (h : ∀ g n, Named defaultConOutputs g n → Y g n s = mirror c X g n s)
    (hw : X "states" "wheel_speed_rl" s + X "states" "wheel_speed_rr" s ≠ 0) (hcon : ∀ n ∈ defaultConOutputs, n ∈ (vehicleOnTrack (vehicle p t.fr t.fl t.rr t.rl aero)).names.outputs)
    (hres : (vehicle p t.fl t.fr t.rl t.rr aero).names.residuals = ["res_ax", "res_ay"])
    (hres' : (vehicle p t.fr t.fl t.rr t.rl aero).names.residuals = ["res_ax", "res_ay"])
    (H : StageOf (vehicle p t.fl t.fr t.rl t.rr aero) defaultConOutputs X s) :
    StageOf (vehicle p t.fr t.fl t.rr t.rl aero) defaultConOutputs Y s := by
  have hs : ∀ n ∈ onTrackNames.states, Y "states" n s = (if Odd n then -1 else 1) * X "states" (otherSide n) s := fun n hn => by
    rw [h "states" n (Or.inl ⟨rfl, hn⟩)]; simp [mirror]
  have hd : ∀ n ∈ onTrackNames.states, Y "states_dot" n s = (if Odd n then -1 else 1) * X "states_dot" (otherSide n) s := fun n hn => by
    rw [h "states_dot" n (Or.inr (Or.inr (Or.inl ⟨rfl, hn⟩)))]; simp [mirror]
  have hi : ∀ n ∈ onTrackNames.inputs, n ≠ "track_heading" → Y "inputs" n s = (if Odd n then -1 else 1) * X "inputs" (otherSide n) s := fun n hn hne => by
    rw [h "inputs" n (Or.inr (Or.inl ⟨rfl, hn⟩))]; simp [mirror, hne]
  have ho : ∀ n ∈ defaultConOutputs, Y "con_outputs" n s = (if Odd n then -1 else 1) * X "con_outputs" (otherSide n) s := fun n hn => by
    rw [h "con_outputs" n (Or.inr (Or.inr (Or.inr ⟨rfl, hn⟩)))]; simp [mirror]
  have svx : Y "states" "vx" s = X "states" "vx" s := by rw [hs "vx" (by decide), if_neg (by decide), one_mul]; rfl
  have svy : Y "states" "vy" s = -X "states" "vy" s := by rw [hs "vy" (by decide), if_pos (by decide), neg_one_mul]; rfl
  have sn : Y "states" "n" s = -X "states" "n" s := by rw [hs "n" (by decide), if_pos (by decide), neg_one_mul]; rfl
  have seta : Y "states" "eta" s = -X "states" "eta" s := by rw [hs "eta" (by decide), if_pos (by decide), neg_one_mul]; rfl
  have syaw : Y "states" "yaw_rate" s = -X "states" "yaw_rate" s := by rw [hs "yaw_rate" (by decide), if_pos (by decide), neg_one_mul]; rfl
  have sfl : Y "states" "wheel_speed_fl" s = X "states" "wheel_speed_fr" s := by rw [hs _ (by decide), if_neg (by decide), one_mul]; rfl
  have sfr : Y "states" "wheel_speed_fr" s = X "states" "wheel_speed_fl" s := by rw [hs _ (by decide), if_neg (by decide), one_mul]; rfl
  have srl : Y "states" "wheel_speed_rl" s = X "states" "wheel_speed_rr" s := by rw [hs _ (by decide), if_neg (by decide), one_mul]; rfl
  have srr : Y "states" "wheel_speed_rr" s = X "states" "wheel_speed_rl" s := by rw [hs _ (by decide), if_neg (by decide), one_mul]; rfl
  have ith : Y "inputs" "throttle" s = X "inputs" "throttle" s := by rw [hi _ (by decide) (by decide), if_neg (by decide), one_mul]; rfl
  have ibr : Y "inputs" "brake" s = X "inputs" "brake" s := by rw [hi _ (by decide) (by decide), if_neg (by decide), one_mul]; rfl
  have iax : Y "inputs" "ax" s = X "inputs" "ax" s := by rw [hi _ (by decide) (by decide), if_neg (by decide), one_mul]; rfl
  have ist : Y "inputs" "steer" s = -X "inputs" "steer" s := by rw [hi _ (by decide) (by decide), if_pos (by decide), neg_one_mul]; rfl
  have iay : Y "inputs" "ay" s = -X "inputs" "ay" s := by rw [hi _ (by decide) (by decide), if_pos (by decide), neg_one_mul]; rfl
  have icu : Y "inputs" "track_curvature" s = -X "inputs" "track_curvature" s := by
    rw [hi _ (by decide) (by decide), if_pos (by decide), neg_one_mul]; rfl
  have hsd : sdot (Y "states" · s) (Y "inputs" · s) = sdot (X "states" · s) (X "inputs" · s) := by
    unfold sdot
    dsimp only
    rw [svx, svy, sn, seta, icu, Real.cos_neg, Real.sin_neg, neg_mul_neg, neg_mul_neg]
  obtain ⟨rv, h1, h2, h3, h4, h5, h6, h7, h8, h9⟩ := H
  obtain ⟨rv', k1, k2, k3⟩ := hv'.returns (Y "states" · s) (Y "inputs" · s)
  have hkey : ∀ n ∈ (vehicle p t.fr t.fl t.rr t.rl aero).names.outputs, rv'.outputs.lookup n = some (val rv'.outputs n) := fun n hn => lookup_val (k3 n hn)
  have houts : ∀ k, "vehicle" ++ "." ++ k ∈ defaultConOutputs → k ∈ (vehicle p t.fr t.fl t.rr t.rl aero).names.outputs := by
    intro k hk
    have := hcon _ hk
    rw [onTrack_names] at this
    rcases List.mem_append.mp this with hm | hm
    · obtain ⟨k', hk', e⟩ := List.mem_map.mp hm
      rw [← append_inj_right e]
      exact hk'
    · exfalso
      have hne := vehicle_names k
      have : ("vehicle" ++ "." ++ k) ≠ "kinematics.curvature" := by
        intro h
        have := congrArg (fun s => s.toList.take 1) h
        simp at this
      simp only [List.mem_cons, List.not_mem_nil, or_false] at hm
      exact hm.elim hne this
  obtain ⟨m1, m2⟩ := C60_mirror h1 k1
    ⟨by simpa [val, vehicleNames, List.lookup] using svx, by simpa [val, vehicleNames, List.lookup] using svy, by simpa [val, vehicleNames, List.lookup] using syaw,
      by simpa [val, vehicleNames, List.lookup] using sfl, by simpa [val, vehicleNames, List.lookup] using sfr, by simpa [val, vehicleNames, List.lookup] using srl,
      by simpa [val, vehicleNames, List.lookup] using srr⟩
    ⟨by simpa [val, vehicleNames, List.lookup] using ith, by simpa [val, vehicleNames, List.lookup] using ibr, by simpa [val, vehicleNames, List.lookup] using iax,
      by simpa [val, vehicleNames, List.lookup] using ist, by simpa [val, vehicleNames, List.lookup] using iay⟩ ha
    (by simpa [val, vehicleNames, List.lookup] using hw)
  refine ⟨rv', k1, ?_, ?_, ?_, ?_, ?_, ?_, ?_, ?_⟩
  · rw [hsd, hd "time" (by decide), if_neg (by decide), one_mul, ← h2]; rfl
  · rw [hsd, hd "n" (by decide), if_pos (by decide), svx, svy, seta, Real.sin_neg, Real.cos_neg]
    have : otherSide "n" = "n" := by decide
    rw [this, h3]
    ring
  · rw [hsd, hd "eta" (by decide), if_pos (by decide), syaw, icu]
    have : otherSide "eta" = "eta" := by decide
    rw [this, h4]
    ring
  · intro n hn
    rw [hsd, hd n (vehicle_state hn)]
    have hn' : otherSide n ∈ vehicleNames.states := by revert n; decide
    rw [h5 _ hn']
    have key : val rv'.statesDot n = (if Odd n then -1 else 1) * val rv.statesDot (otherSide n) := by
      simp only [vehicleNames, List.mem_cons, List.not_mem_nil, or_false] at hn
      rcases hn with rfl | rfl | rfl | rfl | rfl | rfl | rfl
      · rw [m1.vx, if_neg (by decide), one_mul]; rfl
      · rw [m1.vy, if_pos (by decide), neg_one_mul]; rfl
      · rw [m1.yaw_rate, if_pos (by decide), neg_one_mul]; rfl
      · rw [m1.fl, if_neg (by decide), one_mul]; rfl
      · rw [m1.fr, if_neg (by decide), one_mul]; rfl
      · rw [m1.rl, if_neg (by decide), one_mul]; rfl
      · rw [m1.rr, if_neg (by decide), one_mul]; rfl
    rw [key]
    ring
  · intro k hk
    have hmem : ∀ n ∈ defaultConOutputs, ∃ a b, (a, b) ∈ [("slip_ratio_fl", "slip_ratio_fr"), ("slip_ratio_fr", "slip_ratio_fl"), ("slip_ratio_rl", "slip_ratio_rr"),
        ("slip_ratio_rr", "slip_ratio_rl"), ("slip_angle_fl", "slip_angle_fr"), ("slip_angle_fr", "slip_angle_fl"), ("slip_angle_rl", "slip_angle_rr"),
        ("slip_angle_rr", "slip_angle_rl")] ∧ n = "vehicle" ++ "." ++ a ∧ otherSide n = "vehicle" ++ "." ++ b := by
      intro n hn
      simp only [defaultConOutputs, List.mem_cons, List.not_mem_nil, or_false] at hn
      rcases hn with rfl | rfl | rfl | rfl | rfl | rfl | rfl | rfl
      · exact ⟨"slip_ratio_fl", "slip_ratio_fr", by decide, by decide, by decide⟩
      · exact ⟨"slip_ratio_fr", "slip_ratio_fl", by decide, by decide, by decide⟩
      · exact ⟨"slip_ratio_rl", "slip_ratio_rr", by decide, by decide, by decide⟩
      · exact ⟨"slip_ratio_rr", "slip_ratio_rl", by decide, by decide, by decide⟩
      · exact ⟨"slip_angle_fl", "slip_angle_fr", by decide, by decide, by decide⟩
      · exact ⟨"slip_angle_fr", "slip_angle_fl", by decide, by decide, by decide⟩
      · exact ⟨"slip_angle_rl", "slip_angle_rr", by decide, by decide, by decide⟩
      · exact ⟨"slip_angle_rr", "slip_angle_rl", by decide, by decide, by decide⟩
    obtain ⟨a, b, hab, e1, e2⟩ := hmem _ hk
    have eak : k = a := append_inj_right e1
    subst eak
    have hb : "vehicle" ++ "." ++ b ∈ defaultConOutputs := by
      rw [← e2]
      have e3 : ∀ n ∈ defaultConOutputs, otherSide n ∈ defaultConOutputs := by decide
      exact e3 _ hk
    have hX := val_of (h6 b hb)
    rw [hkey k (houts k hk), ho _ hk, e2, ← hX]
    simp only [List.mem_cons, Prod.mk.injEq, List.not_mem_nil, or_false] at hab
    congr 1
    rcases hab with ⟨rfl, rfl⟩ | ⟨rfl, rfl⟩ | ⟨rfl, rfl⟩ | ⟨rfl, rfl⟩ | ⟨rfl, rfl⟩ | ⟨rfl, rfl⟩ | ⟨rfl, rfl⟩ | ⟨rfl, rfl⟩
    · rw [if_neg (by decide), one_mul]; exact m2.slip_ratio .fl
    · rw [if_neg (by decide), one_mul]; exact m2.slip_ratio .fr
    · rw [if_neg (by decide), one_mul]; exact m2.slip_ratio .rl
    · rw [if_neg (by decide), one_mul]; exact m2.slip_ratio .rr
    · rw [if_pos (by decide), neg_one_mul]; exact m2.slip_angle .fl
    · rw [if_pos (by decide), neg_one_mul]; exact m2.slip_angle .fr
    · rw [if_pos (by decide), neg_one_mul]; exact m2.slip_angle .rl
    · rw [if_pos (by decide), neg_one_mul]; exact m2.slip_angle .rr
  · intro hk; exact absurd hk (by decide)
  · intro hk; exact absurd hk (by decide)
  · intro n hn
    rw [hkey n (hv'.residuals n hn)]
    rw [hres'] at hn
    have h9 := val_of (h9 n (by rw [hres]; exact hn))
    have hn : n = "res_ax" ∨ n = "res_ay" := by simpa using hn
    rcases hn with rfl | rfl
    · rw [m2.res_ax, h9]
    · rw [m2.res_ay, h9, neg_zero]
end

end Lumos.Sym
