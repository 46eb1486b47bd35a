import Verif.Veh.Energy
import Mathlib.Analysis.SpecialFunctions.Pow.Real
/-!
# Model of the Perantoni tire (lumos/models/tires/perantoni.py)
-/

namespace Lumos.Veh

open Lumos Io Io.Mdl

/-- The parameters that `PerantoniTire.forward` reads (perantoni.py:53-68). -/
structure TireParams where
  Fz1 : ℝ
  Fz2 : ℝ
  mux1 : ℝ
  mux2 : ℝ
  muy1 : ℝ
  muy2 : ℝ
  kappa1 : ℝ
  kappa2 : ℝ
  alpha1 : ℝ
  alpha2 : ℝ
  Qx : ℝ
  Qy : ℝ

/-- The decorator of `PerantoniTire` (perantoni.py:13-28). -/
def tireNames : Names where
  stateSpace := false
  states := []
  inputs := ["Fz", "kappa", "alpha", "vx", "gamma"]
  outputs := ["Fx", "Fy", "Mx", "My", "Mz"]
  conOutputs := []
  residuals := []

/-- `PerantoniTire.forward` (perantoni.py:46-96). -/
noncomputable def perantoni (q : TireParams) : Cls ℝ where
  direct := tireNames
  forward kw := body do
    let inputs ← arg kw.inputs
    let kappa ← get inputs "kappa"
    let alpha ← get inputs "alpha"
    let Fz ← get inputs "Fz"
    let interp_val := (Fz - q.Fz1) / (q.Fz2 - q.Fz1)
    let mux_max := interp_val * (q.mux2 - q.mux1) + q.mux1
    let muy_max := interp_val * (q.muy2 - q.muy1) + q.muy1
    let kappa_max := interp_val * (q.kappa2 - q.kappa1) + q.kappa1
    let alpha_max := interp_val * (q.alpha2 - q.alpha1) + q.alpha1
    let kappa_n := kappa / kappa_max
    let alpha_n := alpha / alpha_max
    let jitter := 1 / 10 ^ 6
    let rho := Real.sqrt (alpha_n ^ 2 + kappa_n ^ 2 + jitter)
    let Sx := Real.pi / 2 / Real.arctan q.Qx
    let Sy := Real.pi / 2 / Real.arctan q.Qy
    let mux := mux_max * Real.sin (q.Qx * Real.arctan (Sx * rho))
    let muy := muy_max * Real.sin (q.Qy * Real.arctan (Sy * rho))
    let Fx := mux * Fz * kappa_n / rho
    let Fy := -muy * Fz * alpha_n / rho
    return { outputs := [("Fx", Fx), ("Fy", Fy), ("Mx", 0), ("My", 0), ("Mz", 0)] }

/-- `PerantoniTire.get_default_params` (perantoni.py:98-117). -/
noncomputable def defaultTire : TireParams where
  Fz1 := 2000
  Fz2 := 6000
  mux1 := 175 / 100
  mux2 := 14 / 10
  muy1 := 18 / 10
  muy2 := 145 / 100
  kappa1 := 11 / 100
  kappa2 := 1 / 10
  alpha1 := 9 * Real.pi / 180
  alpha2 := 8 * Real.pi / 180
  Qx := 19 / 10
  Qy := 19 / 10

/-- A tire object. -/
noncomputable def tire (q : TireParams) : Mdl ℝ := .node (perantoni q) []

/-- A vehicle with `PerantoniTire` tires, as in the examples (e.g. examples/laptime_simulation.py), and `ConstAero`. -/
noncomputable def standardVehicle (p : Params) (q : Four TireParams) (cx cy cz : ℝ) : Mdl ℝ :=
  vehicle p (tire q.fl) (tire q.fr) (tire q.rl) (tire q.rr) (.node (constAero cx cy cz) [])

/-! ## A vehicle that runs -/

/-- The keys alone. -/
def blank (d : Dict ℝ) : Dict Unit := d.map fun q => (q.1, ())

theorem blank_set (d : Dict ℝ) (k : String) (v : ℝ) : blank (Dict.set d k v) = Dict.set (blank d) k () := by
  induction d with
  | nil => rfl
  | cons q d ih =>
    obtain ⟨k', v'⟩ := q
    unfold Dict.set
    by_cases h : k' = k
    · subst h; simp [blank]
    · simp only [if_neg h]
      show (k', ()) :: blank (Dict.set d k v) = _
      rw [ih]
      show _ = Dict.set ((k', ()) :: blank d) k ()
      conv_rhs => unfold Dict.set
      rw [if_neg h]

theorem blank_update (d e : Dict ℝ) : blank (d.update e) = (blank d).update (blank e) := by
  unfold Dict.update
  induction e generalizing d with
  | nil => rfl
  | cons q e ih => exact (ih _).trans (by rw [blank_set]; rfl)

/-- One round of the loop in `collected`. -/
def addSub {V : Type} (called : Dict (Ret V)) (acc : Dict V) (n : String) : Dict V :=
  ((called.lookup n).map fun r => acc.update (r.outputs.map fun kv => (n ++ "." ++ kv.1, kv.2))).getD acc

theorem collected_eq {V : Type} (ns : List String) (called : Dict (Ret V)) : collected ns called = ns.foldl (addSub called) [] := by
  unfold collected
  congr 1
  funext acc n
  unfold addSub
  cases called.lookup n <;> rfl

theorem blank_collected (ns : List String) (called : Dict (Ret ℝ)) :
    blank (collected ns called) = collected ns (called.map fun q => (q.1, ({ outputs := blank q.2.outputs } : Ret Unit))) := by
  rw [collected_eq, collected_eq]
  have : ∀ acc : Dict ℝ, blank (ns.foldl (addSub called) acc)
      = ns.foldl (addSub (called.map fun q => (q.1, ({ outputs := blank q.2.outputs } : Ret Unit)))) (blank acc) := by
    induction ns with
    | nil => intro acc; rfl
    | cons n ns ih =>
      intro acc
      rw [List.foldl_cons, List.foldl_cons, ih]
      congr 1
      have : List.lookup n (called.map fun q => (q.1, ({ outputs := blank q.2.outputs } : Ret Unit)))
          = (called.lookup n).map fun r => { outputs := blank r.outputs } := by
        clear ih
        induction called with
        | nil => rfl
        | cons q c ih =>
          rw [List.map_cons, List.lookup_cons, List.lookup_cons, ih]
          split <;> rfl
      unfold addSub
      rw [this]
      cases called.lookup n with
      | none => rfl
      | some r =>
        simp only [Option.map_some, Option.getD_some]
        rw [blank_update]
        congr 1
        unfold blank
        rw [List.map_map, List.map_map]
        rfl
  exact this []

theorem keys_of_blank {d : Dict ℝ} {K : List String} (h : blank d = K.map fun k => (k, ())) : d.keys = K := by
  have := congrArg (List.map Prod.fst) h
  unfold blank at this
  rw [List.map_map, List.map_map] at this
  unfold Dict.keys
  rw [show (Prod.fst : String × ℝ → String) = Prod.fst ∘ fun q : String × ℝ => (q.1, ()) from rfl, this]
  exact List.map_id K

section
variable {nm : Names} {ns : List String} {look : String → Option (Names × (Kw ℝ → Py (Ret ℝ)))} {called : Dict (Ret ℝ)}

theorem ev_outputs {kw sub : Dict ℝ} {k : Dict ℝ → Prog ℝ} {K K' C : List String} (h1 : kw.keys = K) (h2 : called.keys = C)
    (h3 : collected ns called = sub) (h4 : sub.keys = K') (a1 : ∀ n ∈ ns, n ∈ C) (a2 : ∀ k ∈ K, k ∉ K')
    (a3 : "self" ∉ K ∧ "group" ∉ K ∧ "self" ∉ K' ∧ "group" ∉ K') (a4 : ∀ n ∈ nm.outputs, n ∈ K ∨ n ∈ K') :
    evalProg nm ns look called (makeOutputs kw k) = evalProg nm ns look [] (k (kw ++ sub)) := by
  have e1 : "self" ∉ kw.keys := by rw [h1]; exact a3.1
  have e2 : ¬ ∃ n ∈ ns, n ∉ called.keys := by rw [h2]; push Not; exact a1
  have e3 : mergeOutputs nm kw sub = .ok (kw ++ sub) := by
    have k1 : ∀ n, n ∈ Dict.keys (kw ++ sub) ↔ n ∈ K ∨ n ∈ K' := fun n => by
      rw [← h1, ← h4]; simp [Dict.keys]
    have f1 : ¬ ∃ k ∈ kw.keys, k ∈ sub.keys := by rw [h1, h4]; push Not; exact a2
    have f2 : ¬ ∃ k ∈ ["self", "group"], k ∈ Dict.keys (kw ++ sub) := by
      push Not
      intro n hn
      rw [k1]
      simp only [List.mem_cons, List.not_mem_nil, or_false] at hn
      rcases hn with rfl | rfl
      · exact fun h => h.elim a3.1 a3.2.2.1
      · exact fun h => h.elim a3.2.1 a3.2.2.2
    have f3 : ∀ n ∈ nm.outputs, n ∈ Dict.keys (kw ++ sub) := fun n hn => (k1 n).mpr (a4 n hn)
    simp only [mergeOutputs, if_neg f1, Names.makeDict, Names.starArgs, if_neg f2, Names.checkKeys, Names.group, bind, Except.bind,
      pure, Except.pure]
    simp only [String.reduceEq, if_false, if_true]
    rw [if_pos f3]
  unfold makeOutputs
  simp only [evalProg, if_neg e1, if_neg e2, h3, e3]

theorem ev_call {n : String} {kw : Kw ℝ} {k : Ret ℝ → Prog ℝ} {snm : Names} {f : Kw ℝ → Py (Ret ℝ)} {ret : Ret ℝ}
    (h1 : look n = some (snm, f)) (h2 : n ∉ called.keys) (h3 : checkCall snm kw = .ok ()) (h4 : f kw = .ok ret) :
    evalProg nm ns look called (call n kw k) = evalProg nm ns look (called ++ [(n, ret)]) (k ret) := by
  unfold call
  simp only [evalProg, h1, if_neg h2, h3, h4]

end

/-- The outputs of the vehicle itself, in the order in which `forward` gives them, and those of its submodels. -/
def vehicleOuts : List String :=
  ["ax", "ay", "drive_torque_rl", "drive_torque_rr", "Fx_tire_fl", "Fy_tire_fl", "Fz_tire_fl", "Fx_tire_fr", "Fy_tire_fr",
   "Fz_tire_fr", "Fx_tire_rl", "Fy_tire_rl", "Fz_tire_rl", "Fx_tire_rr", "Fy_tire_rr", "Fz_tire_rr", "res_ax", "res_ay",
   "slip_ratio_fl", "slip_angle_fl", "slip_ratio_fr", "slip_angle_fr", "slip_ratio_rl", "slip_angle_rl", "slip_ratio_rr",
   "slip_angle_rr"]

def subOuts : List String :=
  ["tire_fl.Fx", "tire_fl.Fy", "tire_fl.Mx", "tire_fl.My", "tire_fl.Mz", "tire_fr.Fx", "tire_fr.Fy", "tire_fr.Mx", "tire_fr.My",
   "tire_fr.Mz", "tire_rl.Fx", "tire_rl.Fy", "tire_rl.Mx", "tire_rl.My", "tire_rl.Mz", "tire_rr.Fx", "tire_rr.Fy", "tire_rr.Mx",
   "tire_rr.My", "tire_rr.Mz", "aero.Cx", "aero.Cy", "aero.Cz"]

/-- What the aero model and a tire return. -/
def coeffs : Ret Unit := { outputs := [("Cx", ()), ("Cy", ()), ("Cz", ())] }
def forces : Ret Unit := { outputs := [("Fx", ()), ("Fy", ()), ("Mx", ()), ("My", ()), ("Mz", ())] }

/-- What a Perantoni tire returns. -/
theorem tire_eval (q : TireParams) (Fz kappa alpha vx gamma : ℝ) :
    ∃ fx fy, (tire q).eval { inputs := some [("Fz", Fz), ("kappa", kappa), ("alpha", alpha), ("vx", vx), ("gamma", gamma)] } = .ok
      { outputs := [("Fx", fx), ("Fy", fy), ("Mx", 0), ("My", 0), ("Mz", 0)] } := ⟨_, _, rfl⟩

theorem standard_outs (p : Params) (q : Four TireParams) (cx cy cz : ℝ) (x u : String → ℝ) (mesh : Option ℝ) :
    ∃ r, (standardVehicle p q cx cy cz).eval ⟨some (vehicleNames.states.map fun n => (n, x n)),
      some (vehicleNames.inputs.map fun n => (n, u n)), mesh⟩ = .ok r ∧
      blank r.outputs = (vehicleOuts ++ subOuts).map fun k => (k, ()) := by
  unfold standardVehicle vehicle
  simp only [eval, simpleVehicle, body, bind_apply, pure_apply, tireRow, arg_some]
  rw [get_some (v := u "throttle") rfl, get_some (v := u "brake") rfl, get_some (v := u "steer") rfl, get_some (v := u "ax") rfl,
    get_some (v := u "ay") rfl, get_some (v := x "vx") rfl, get_some (v := x "vy") rfl, get_some (v := x "yaw_rate") rfl,
    get_some (v := x "wheel_speed_fl") rfl, get_some (v := x "wheel_speed_fr") rfl, get_some (v := x "wheel_speed_rl") rfl,
    get_some (v := x "wheel_speed_rr") rfl]
  rw [ev_call (snm := (constAero cx cy cz).direct) (f := (Mdl.node (constAero cx cy cz) []).eval) rfl (by decide) rfl rfl,
    get_some (v := cz) rfl]
  have hc : ∀ Fz kappa alpha vx gamma : ℝ, checkCall tireNames { inputs := some [("Fz", Fz), ("kappa", kappa), ("alpha", alpha), ("vx", vx), ("gamma", gamma)] } = .ok () :=
    fun _ _ _ _ _ => rfl
  obtain ⟨fx1, fy1, e1⟩ := tire_eval q.fl _ _ _ _ _
  rw [ev_call (n := "tire_" ++ "fl") (snm := tireNames) (f := (tire q.fl).eval) rfl
    (by exact (show "tire_fl" ∉ ["aero"] by decide)) (hc _ _ _ _ _) e1, get_some (v := fx1) rfl, get_some (v := fy1) rfl]
  obtain ⟨fx2, fy2, e2⟩ := tire_eval q.fr _ _ _ _ _
  rw [ev_call (n := "tire_" ++ "fr") (snm := tireNames) (f := (tire q.fr).eval) rfl
    (by exact (show "tire_fr" ∉ ["aero", "tire_fl"] by decide)) (hc _ _ _ _ _) e2, get_some (v := fx2) rfl, get_some (v := fy2) rfl]
  obtain ⟨fx3, fy3, e3⟩ := tire_eval q.rl _ _ _ _ _
  rw [ev_call (n := "tire_" ++ "rl") (snm := tireNames) (f := (tire q.rl).eval) rfl
    (by exact (show "tire_rl" ∉ ["aero", "tire_fl", "tire_fr"] by decide)) (hc _ _ _ _ _) e3, get_some (v := fx3) rfl, get_some (v := fy3) rfl]
  obtain ⟨fx4, fy4, e4⟩ := tire_eval q.rr _ _ _ _ _
  rw [ev_call (n := "tire_" ++ "rr") (snm := tireNames) (f := (tire q.rr).eval) rfl
    (by exact (show "tire_rr" ∉ ["aero", "tire_fl", "tire_fr", "tire_rl"] by decide)) (hc _ _ _ _ _) e4, get_some (v := fx4) rfl, get_some (v := fy4) rfl,
    get_some (v := cx) rfl]
  rw [show ∀ a b c d e f g : ℝ, vehicleNames.makeDict "states_dot" [("vx", a), ("vy", b), ("yaw_rate", c), ("wheel_speed_fl", d),
    ("wheel_speed_fr", e), ("wheel_speed_rl", f), ("wheel_speed_rr", g)] = .ok [("vx", a), ("vy", b), ("yaw_rate", c),
    ("wheel_speed_fl", d), ("wheel_speed_fr", e), ("wheel_speed_rl", f), ("wheel_speed_rr", g)] from fun _ _ _ _ _ _ _ => rfl, lift_ok]
  have B : blank (collected ["tire_fl", "tire_fr", "tire_rl", "tire_rr", "aero"]
      [("aero", { outputs := [("Cx", cx), ("Cy", cy), ("Cz", cz)] }),
       ("tire_fl", { outputs := [("Fx", fx1), ("Fy", fy1), ("Mx", 0), ("My", 0), ("Mz", 0)] }),
       ("tire_fr", { outputs := [("Fx", fx2), ("Fy", fy2), ("Mx", 0), ("My", 0), ("Mz", 0)] }),
       ("tire_rl", { outputs := [("Fx", fx3), ("Fy", fy3), ("Mx", 0), ("My", 0), ("Mz", 0)] }),
       ("tire_rr", { outputs := [("Fx", fx4), ("Fy", fy4), ("Mx", 0), ("My", 0), ("Mz", 0)] })]) = subOuts.map fun k => (k, ()) := by
    rw [blank_collected]
    exact (show collected ["tire_fl", "tire_fr", "tire_rl", "tire_rr", "aero"] [("aero", coeffs), ("tire_fl", forces),
      ("tire_fr", forces), ("tire_rl", forces), ("tire_rr", forces)] = _ by decide +kernel)
  rw [ev_outputs (K := vehicleOuts) (K' := subOuts) (C := ["aero", "tire_fl", "tire_fr", "tire_rl", "tire_rr"]) rfl rfl rfl
    (keys_of_blank (by exact B))
    (by exact (show ∀ n ∈ ["tire_fl", "tire_fr", "tire_rl", "tire_rr", "aero"], _ by decide))
    (by decide +kernel) (by decide +kernel)
    (by exact (show ∀ n ∈ vehicleNames.outputs ++ subOuts, n ∈ vehicleOuts ∨ n ∈ subOuts by decide +kernel))]
  refine ⟨_, rfl, ?_⟩
  unfold blank at B ⊢
  rw [List.map_append, List.map_append, ← B]
  rfl

/-- A vehicle with these submodels returns, whatever the parameters, states and inputs: with denominators zero too, since the model's
division is total. -/
theorem standard_runs (p : Params) (q : Four TireParams) (cx cy cz : ℝ) (x u : String → ℝ) (mesh : Option ℝ) :
    ∃ r, (standardVehicle p q cx cy cz).eval ⟨some (vehicleNames.states.map fun n => (n, x n)),
      some (vehicleNames.inputs.map fun n => (n, u n)), mesh⟩ = .ok r := by
  obtain ⟨r, h, -⟩ := standard_outs p q cx cy cz x u mesh
  exact ⟨r, h⟩

end Lumos.Veh
