import Verif.Veh.Model
import Mathlib.Analysis.SpecialFunctions.Trigonometric.Deriv
import Mathlib.Analysis.Calculus.Deriv.Inverse
/-!
# C53: motion along a track
-/

namespace Lumos.Veh

open Lumos Io Io.Mdl

/-! ## The value of a statement -/

theorem bind_apply {α β : Type} (m : Stmt α) (f : α → Stmt β) (k : β → Prog ℝ) : (m >>= f) k = m fun a => f a k := rfl

theorem pure_apply {α : Type} (a : α) (k : α → Prog ℝ) : (pure a : Stmt α) k = k a := rfl

theorem get_some {d : Dict ℝ} {n : String} {v : ℝ} (h : d.lookup n = some v) (k : ℝ → Prog ℝ) : get d n k = k v := by
  simp [get, h]

theorem arg_some (d : Dict ℝ) (k : Dict ℝ → Prog ℝ) : arg (some d) k = k d := rfl

theorem lift_ok {α : Type} (a : α) (k : α → Prog ℝ) : lift (.ok a) k = k a := rfl

/-- What `TrackPosition2D` returns. -/
theorem track_eval {states inputs : Dict ℝ} {mesh : Option ℝ} {n eta vx vy r κ θ : ℝ} (hn : states.lookup "n" = some n)
    (he : states.lookup "eta" = some eta) (hx : inputs.lookup "vx" = some vx) (hy : inputs.lookup "vy" = some vy)
    (hr : inputs.lookup "yaw_rate" = some r) (hκ : inputs.lookup "track_curvature" = some κ)
    (hθ : inputs.lookup "track_heading" = some θ) :
    (Mdl.node trackPosition2D []).eval { states := some states, inputs := some inputs, mesh := mesh } = .ok
      { statesDot := [("time", 1 / ((vx * Real.cos eta - vy * Real.sin eta) / (1 - n * κ))),
          ("n", (vx * Real.sin eta + vy * Real.cos eta) / ((vx * Real.cos eta - vy * Real.sin eta) / (1 - n * κ))),
          ("eta", (r - κ * ((vx * Real.cos eta - vy * Real.sin eta) / (1 - n * κ))) /
            ((vx * Real.cos eta - vy * Real.sin eta) / (1 - n * κ)))],
        outputs := [("yaw_angle", eta + θ), ("curvature", κ)] } := by
  simp only [eval, trackPosition2D, body, bind_apply, pure_apply, arg_some, get_some hn, get_some he, get_some hx,
    get_some hy, get_some hr, get_some hκ, get_some hθ]
  rfl

/-! ## Specification -/

/-- The dictionary of the values of some signals at a point. -/
def at_ (ns : List String) (x : String → ℝ → ℝ) (s : ℝ) : Dict ℝ := ns.map fun n => (n, x n s)

/-- The signals `x` (states) and `u` (inputs), functions of the mesh variable, satisfy the differential equation of the model at
`s`: `forward` returns there, and each state has the derivative it returns. This is the equation an OCP transcribes. -/
def Solves (m : Mdl ℝ) (x u : String → ℝ → ℝ) (s : ℝ) : Prop :=
  ∃ r : Ret ℝ, m.eval { states := some (at_ m.names.states x s), inputs := some (at_ m.names.inputs u s), mesh := some s } = .ok r ∧
    ∀ n ∈ m.names.states, ∃ d, r.statesDot.lookup n = some d ∧ HasDerivAt (x n) d s

/-- `(cx, cy)` is a curve with unit speed, heading `θ` and curvature `κ` at `s`. -/
structure Centreline (cx cy θ : ℝ → ℝ) (κ s : ℝ) : Prop where
  x : HasDerivAt cx (Real.cos (θ s)) s
  y : HasDerivAt cy (Real.sin (θ s)) s
  heading : HasDerivAt θ κ s

/-! ## C53 -/

/-- The motion described by the states of `TrackPosition2D` is the motion of a body with velocity `(vx, vy)` in its own axes and
yaw rate `yaw_rate`: the body is at distance `n` to the left of the centreline, with yaw angle `eta + track_heading`. Positions and
angles are differentiated along the track; `T` is the derivative of the state `time`. -/
theorem C53_motion {x u : String → ℝ → ℝ} {s : ℝ} (h : Solves (.node trackPosition2D []) x u s) {cx cy : ℝ → ℝ}
    (hc : Centreline cx cy (u "track_heading") (u "track_curvature" s) s)
    (hn : 1 - x "n" s * u "track_curvature" s ≠ 0)
    (hv : u "vx" s * Real.cos (x "eta" s) - u "vy" s * Real.sin (x "eta" s) ≠ 0) :
    ∃ T, HasDerivAt (x "time") T s ∧
      T * (u "vx" s * Real.cos (x "eta" s) - u "vy" s * Real.sin (x "eta" s)) = 1 - x "n" s * u "track_curvature" s ∧
      HasDerivAt (fun s => cx s - x "n" s * Real.sin (u "track_heading" s))
        ((u "vx" s * Real.cos (x "eta" s + u "track_heading" s) - u "vy" s * Real.sin (x "eta" s + u "track_heading" s)) * T) s ∧
      HasDerivAt (fun s => cy s + x "n" s * Real.cos (u "track_heading" s))
        ((u "vx" s * Real.sin (x "eta" s + u "track_heading" s) + u "vy" s * Real.cos (x "eta" s + u "track_heading" s)) * T) s ∧
      HasDerivAt (fun s => x "eta" s + u "track_heading" s) (u "yaw_rate" s * T) s := by
  obtain ⟨r, he, hd⟩ := h
  have hnm : (Mdl.node trackPosition2D []).names = trackNames := rfl
  rw [hnm] at he hd
  have e := track_eval (mesh := some s) (states := at_ trackNames.states x s) (inputs := at_ trackNames.inputs u s)
    (n := x "n" s) (eta := x "eta" s) (vx := u "vx" s) (vy := u "vy" s) (r := u "yaw_rate" s) (κ := u "track_curvature" s)
    (θ := u "track_heading" s) rfl rfl rfl rfl rfl rfl rfl
  rw [e] at he
  injection he with he
  subst he
  obtain ⟨dt, ht, ht'⟩ := hd "time" (by simp [trackNames])
  obtain ⟨dn, hn1, hn'⟩ := hd "n" (by simp [trackNames])
  obtain ⟨de, he1, he'⟩ := hd "eta" (by simp [trackNames])
  have ht2 : 1 / ((u "vx" s * Real.cos (x "eta" s) - u "vy" s * Real.sin (x "eta" s)) / (1 - x "n" s * u "track_curvature" s)) = dt :=
    Option.some.inj ht
  have hn2 : (u "vx" s * Real.sin (x "eta" s) + u "vy" s * Real.cos (x "eta" s)) /
      ((u "vx" s * Real.cos (x "eta" s) - u "vy" s * Real.sin (x "eta" s)) / (1 - x "n" s * u "track_curvature" s)) = dn :=
    Option.some.inj hn1
  have he2 : (u "yaw_rate" s - u "track_curvature" s *
      ((u "vx" s * Real.cos (x "eta" s) - u "vy" s * Real.sin (x "eta" s)) / (1 - x "n" s * u "track_curvature" s))) /
      ((u "vx" s * Real.cos (x "eta" s) - u "vy" s * Real.sin (x "eta" s)) / (1 - x "n" s * u "track_curvature" s)) = de :=
    Option.some.inj he1
  set w := u "vx" s * Real.cos (x "eta" s) - u "vy" s * Real.sin (x "eta" s) with hw
  set q := 1 - x "n" s * u "track_curvature" s with hq
  have hdt : dt = q / w := by rw [← ht2]; field_simp
  have hdn : dn = (u "vx" s * Real.sin (x "eta" s) + u "vy" s * Real.cos (x "eta" s)) * dt := by rw [← hn2, hdt]; field_simp
  have hde : de = u "yaw_rate" s * dt - u "track_curvature" s := by rw [← he2, hdt]; field_simp
  have hTw : dt * w = q := by rw [hdt]; field_simp
  have hsin := hc.heading.sin
  have hcos := hc.heading.cos
  refine ⟨dt, ht', hTw, ?_, ?_, ?_⟩
  · refine (hc.x.fun_sub (hn'.fun_mul hsin)).congr_deriv ?_
    rw [Real.cos_add, Real.sin_add, hdn]
    have : Real.cos (u "track_heading" s) * (dt * w) =
      Real.cos (u "track_heading" s) * q := by rw [hTw]
    rw [hw, hq] at this
    linarith
  · refine (hc.y.fun_add (hn'.fun_mul hcos)).congr_deriv ?_
    rw [Real.cos_add, Real.sin_add, hdn]
    have : Real.sin (u "track_heading" s) * (dt * w) =
      Real.sin (u "track_heading" s) * q := by rw [hTw]
    rw [hw, hq] at this
    linarith
  · refine (he'.fun_add hc.heading).congr_deriv ?_
    rw [hde]; ring

/-- The same in terms of time: `σ t` is the distance along the track at time `t`. The body moves with velocity `(vx, vy)` in its own
axes, turned by its yaw angle, and turns with `yaw_rate`. -/
theorem C53_in_time {x u : String → ℝ → ℝ} {σ : ℝ → ℝ} {t : ℝ} (hσ : ContinuousAt σ t) (hinv : ∀ᶠ τ in nhds t, x "time" (σ τ) = τ)
    (h : Solves (.node trackPosition2D []) x u (σ t)) {cx cy : ℝ → ℝ}
    (hc : Centreline cx cy (u "track_heading") (u "track_curvature" (σ t)) (σ t))
    (hn : 1 - x "n" (σ t) * u "track_curvature" (σ t) ≠ 0)
    (hv : u "vx" (σ t) * Real.cos (x "eta" (σ t)) - u "vy" (σ t) * Real.sin (x "eta" (σ t)) ≠ 0) :
    HasDerivAt (fun τ => cx (σ τ) - x "n" (σ τ) * Real.sin (u "track_heading" (σ τ)))
      (u "vx" (σ t) * Real.cos (x "eta" (σ t) + u "track_heading" (σ t))
        - u "vy" (σ t) * Real.sin (x "eta" (σ t) + u "track_heading" (σ t))) t ∧
    HasDerivAt (fun τ => cy (σ τ) + x "n" (σ τ) * Real.cos (u "track_heading" (σ τ)))
      (u "vx" (σ t) * Real.sin (x "eta" (σ t) + u "track_heading" (σ t))
        + u "vy" (σ t) * Real.cos (x "eta" (σ t) + u "track_heading" (σ t))) t ∧
    HasDerivAt (fun τ => x "eta" (σ τ) + u "track_heading" (σ τ)) (u "yaw_rate" (σ t)) t := by
  obtain ⟨T, hT, hTw, hX, hY, hψ⟩ := C53_motion h hc hn hv
  have hT0 : T ≠ 0 := by
    rintro rfl
    rw [zero_mul] at hTw
    exact hn hTw.symm
  have hσ' : HasDerivAt σ T⁻¹ t := HasDerivAt.of_local_left_inverse hσ hT hT0 hinv
  refine ⟨(hX.comp t hσ').congr_deriv ?_, (hY.comp t hσ').congr_deriv ?_, (hψ.comp t hσ').congr_deriv ?_⟩ <;> field_simp

/-- The outputs are the yaw angle of the body and the curvature of the track. -/
theorem C53_outputs {x u : String → ℝ → ℝ} {s : ℝ} :
    ∃ r, (Mdl.node trackPosition2D []).eval ⟨some (at_ trackNames.states x s), some (at_ trackNames.inputs u s), some s⟩ = .ok r ∧
      r.outputs = [("yaw_angle", x "eta" s + u "track_heading" s), ("curvature", u "track_curvature" s)] :=
  ⟨_, track_eval (n := x "n" s) (eta := x "eta" s) (vx := u "vx" s) (vy := u "vy" s) (r := u "yaw_rate" s)
    (κ := u "track_curvature" s) (θ := u "track_heading" s) rfl rfl rfl rfl rfl rfl rfl, rfl⟩

/-! ## Example: driving 9 m/s on a circle of radius 90, ten to the left of a centreline of radius 100 -/

noncomputable def circleStates (n : String) (s : ℝ) : ℝ := if n = "time" then s / 10 else if n = "n" then 10 else 0

noncomputable def circleInputs (n : String) (s : ℝ) : ℝ :=
  if n = "vx" then 9 else if n = "yaw_rate" then 1 / 10 else if n = "track_curvature" then 1 / 100
  else if n = "track_heading" then s / 100 else 0

theorem circle_solves (s : ℝ) : Solves (.node trackPosition2D []) circleStates circleInputs s := by
  refine ⟨_, track_eval (n := 10) (eta := 0) (vx := 9) (vy := 0) (r := 1 / 10) (κ := 1 / 100) (θ := s / 100) ?_ ?_ ?_ ?_ ?_ ?_ ?_, ?_⟩
  · exact congrArg some (by simp [circleStates])
  · exact congrArg some (by simp [circleStates])
  · exact congrArg some (by simp [circleInputs])
  · exact congrArg some (by simp [circleInputs])
  · exact congrArg some (by simp [circleInputs])
  · exact congrArg some (by simp [circleInputs])
  · exact congrArg some (by simp [circleInputs])
  · intro n hn
    have hn' : n = "time" ∨ n = "n" ∨ n = "eta" := by simpa [names, trackPosition2D, trackNames] using hn
    rcases hn' with rfl | rfl | rfl
    · refine ⟨_, rfl, ?_⟩
      have : circleStates "time" = fun s => s / 10 := by funext s; simp [circleStates]
      rw [this]
      refine ((hasDerivAt_id s).div_const 10).congr_deriv ?_
      norm_num
    · refine ⟨_, rfl, ?_⟩
      have : circleStates "n" = fun _ => 10 := by funext s; simp [circleStates]
      rw [this]
      refine (hasDerivAt_const s (10 : ℝ)).congr_deriv ?_
      norm_num
    · refine ⟨_, rfl, ?_⟩
      have : circleStates "eta" = fun _ => 0 := by funext s; simp [circleStates]
      rw [this]
      refine (hasDerivAt_const s (0 : ℝ)).congr_deriv ?_
      norm_num

theorem circle_centreline (s : ℝ) :
    Centreline (fun s => 100 * Real.sin (s / 100)) (fun s => -100 * Real.cos (s / 100)) (circleInputs "track_heading")
      (circleInputs "track_curvature" s) s := by
  have h0 : circleInputs "track_heading" = fun s => s / 100 := by funext s; simp [circleInputs]
  have h1 : HasDerivAt (fun s : ℝ => s / 100) (1 / 100) s := (hasDerivAt_id s).div_const 100
  rw [h0]
  refine ⟨?_, ?_, ?_⟩
  · refine (h1.sin.const_mul 100).congr_deriv ?_
    ring
  · refine (h1.cos.const_mul (-100)).congr_deriv ?_
    ring
  · refine h1.congr_deriv ?_
    simp [circleInputs]

/-- The hypotheses of `C53_in_time` hold for it at every time, with ten metres of centreline per second. -/
example (t : ℝ) : HasDerivAt (fun τ => circleStates "eta" (10 * τ) + circleInputs "track_heading" (10 * τ)) (1 / 10) t := by
  have h := (C53_in_time (σ := fun τ => 10 * τ) (t := t) (by fun_prop) (Filter.Eventually.of_forall fun τ => by simp [circleStates])
    (circle_solves _) (circle_centreline _) (by simp [circleStates, circleInputs]; norm_num)
    (by simp [circleStates, circleInputs])).2.2
  refine h.congr_deriv ?_
  simp [circleInputs]

end Lumos.Veh
