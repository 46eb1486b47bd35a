import Verif.Tyre.Car
import Verif.Lts.Vehicle
import Verif.Veh.Smooth
/-!
# The default car: MF5.2 tyres (simple_vehicle.py:100-108), where numbers may fail to be finite

The tyre of `Tyre/Model.lean` stops where the code goes on with a NaN or an infinity. A lap time problem is made from functions that are asked everywhere;
here the tyre goes on, with numbers about which nothing is said.
-/

namespace Lumos.Lts

open Lumos Io Io.Mdl Veh LapSim Tyre

/-- `MF52.forward` (pacejka.py:221-270) with `opt_mode=True`, its default (pacejka.py:26), which is the one that `ModelMaker` makes: where all numbers are
finite, what the code returns; elsewhere (in the code: NaN or infinity), `junk`, which is arbitrary. -/
noncomputable def mf52Or (d : Dict ℝ) (junk : In → Out) : Cls ℝ where
  direct := mf52Names
  forward kw := body do
    let inputs ← arg kw.inputs
    let gamma ← Veh.get inputs "gamma"
    let vx ← Veh.get inputs "vx"
    let Fz ← Veh.get inputs "Fz"
    let kappa ← Veh.get inputs "kappa"
    let alpha ← Veh.get inputs "alpha"
    let _ ← lift (if ∀ k ∈ forceKeys, (d.lookup k).isSome then .ok () else .error .keyError)
    let o := match forces (fun k => (d.lookup k).getD 0) true ⟨Fz, kappa, alpha, vx, gamma⟩ with
      | .ok o => o
      | .error _ => junk ⟨Fz, kappa, alpha, vx, gamma⟩
    return { outputs := [("Fx", o.Fx), ("Fy", o.Fy), ("Mx", o.Mx), ("My", o.My), ("Mz", o.Mz), ("Kxk", o.Kxk), ("Gxa", o.Gxa),
      ("Kya", o.Kya), ("Gyk", o.Gyk), ("GSum", o.GSum)] }

/-- The car with MF5.2 tyres and constant aerodynamic coefficients, `SimpleVehicle.get_default_submodel_config` (simple_vehicle.py:100-108). -/
noncomputable def defaultCar (p : Params) (d : Four (Dict ℝ)) (junk : In → Out) (cx cy cz : ℝ) : Mdl ℝ :=
  vehicle p (.node (mf52Or d.fl junk) []) (.node (mf52Or d.fr junk) []) (.node (mf52Or d.rl junk) []) (.node (mf52Or d.rr junk) []) (.node (constAero cx cy cz) [])

/-! ## What it returns -/

/-- The outputs of a tyre as they are returned. -/
def listed52 (o : Out) : Ret ℝ := { outputs := [("Fx", o.Fx), ("Fy", o.Fy), ("Mx", o.Mx), ("My", o.My), ("Mz", o.Mz), ("Kxk", o.Kxk), ("Gxa", o.Gxa),
      ("Kya", o.Kya), ("Gyk", o.Gyk), ("GSum", o.GSum)] }

/-- The numbers of a tyre. -/
noncomputable def outs52 (d : Dict ℝ) (junk : In → Out) (i : In) : Out :=
  match forces (par d) true i with
  | .ok o => o
  | .error _ => junk i

theorem tyre_value52 {d : Dict ℝ} (hd : HasKeys d true) (junk : In → Out) (Fz kappa alpha vx gamma : ℝ) :
    (Mdl.node (mf52Or d junk) []).eval { inputs := some [("Fz", Fz), ("kappa", kappa), ("alpha", alpha), ("vx", vx), ("gamma", gamma)] } =
      .ok (listed52 (outs52 d junk ⟨Fz, kappa, alpha, vx, gamma⟩)) := by
  have hd' : ∀ k ∈ forceKeys, (d.lookup k).isSome := fun k hk => hd k (List.mem_append_left _ hk)
  have e : (Mdl.node (mf52Or d junk) []).eval
      { inputs := some [("Fz", Fz), ("kappa", kappa), ("alpha", alpha), ("vx", vx), ("gamma", gamma)] } =
      Mdl.evalProg (Mdl.names (Mdl.node (mf52Or d junk) [])) [] (Mdl.evalL []) []
        ((lift (if ∀ k ∈ forceKeys, (d.lookup k).isSome then .ok () else .error .keyError) : Stmt Unit) fun _ =>
          .done (listed52 (outs52 d junk ⟨Fz, kappa, alpha, vx, gamma⟩))) := rfl
  rw [e, if_pos hd', lift_ok]
  rfl

/-- All numbers of the car. -/
noncomputable def nums52 (p : Params) (d : Four (Dict ℝ)) (junk : In → Out) (cx cz : ℝ) (x u : String → ℝ) : Nums :=
  let m := rawNums cx cz x u
  let o : Four Out := {
    fl := outs52 d.fl junk ⟨(m.load p).fl, m.kappa p m.w.fl, Nums.alpha (m.vel p).fl * 1, (m.vel p).fl.x, 0 * 1⟩
    fr := outs52 d.fr junk ⟨(m.load p).fr, m.kappa p m.w.fr, Nums.alpha (m.vel p).fr * -1, (m.vel p).fr.x, 0 * -1⟩
    rl := outs52 d.rl junk ⟨(m.load p).rl, m.kappa p m.w.rl, Nums.alpha (m.vel p).rl * 1, (m.vel p).rl.x, 0 * 1⟩
    rr := outs52 d.rr junk ⟨(m.load p).rr, m.kappa p m.w.rr, Nums.alpha (m.vel p).rr * -1, (m.vel p).rr.x, 0 * -1⟩ }
  { m with fx := ⟨o.fl.Fx, o.fr.Fx, o.rl.Fx, o.rr.Fx⟩, fy := ⟨o.fl.Fy, o.fr.Fy, o.rl.Fy, o.rr.Fy⟩ }

theorem subs52 (cx cy cz : ℝ) (a b c d : Out) : (collected ["tire_fl", "tire_fr", "tire_rl", "tire_rr", "aero"]
    [("aero", { outputs := [("Cx", cx), ("Cy", cy), ("Cz", cz)] }),
     ("tire_fl", listed52 a), ("tire_fr", listed52 b), ("tire_rl", listed52 c), ("tire_rr", listed52 d)]).keys = carSubs := by
  refine keys_of_blank ?_
  rw [blank_collected]
  exact (show collected ["tire_fl", "tire_fr", "tire_rl", "tire_rr", "aero"] [("aero", coeffs), ("tire_fl", blankTyre),
    ("tire_fr", blankTyre), ("tire_rl", blankTyre), ("tire_rr", blankTyre)] = _ by decide +kernel)

/-- The default car returns everywhere. -/
theorem default_eval (p : Params) {d : Four (Dict ℝ)} (h1 : HasKeys d.fl true) (h2 : HasKeys d.fr true) (h3 : HasKeys d.rl true) (h4 : HasKeys d.rr true)
    (junk : In → Out) (cx cy cz : ℝ) (x u : String → ℝ) (mesh : Option ℝ) :
    ∃ subs : Dict ℝ, subs.keys = carSubs ∧
    (defaultCar p d junk cx cy cz).eval ⟨some (vehicleNames.states.map fun n => (n, x n)), some (vehicleNames.inputs.map fun n => (n, u n)), mesh⟩
      = .ok { statesDot := (nums52 p d junk cx cz x u).dots p, outputs := (nums52 p d junk cx cz x u).outs p ++ subs } := by
  refine ⟨_, subs52 cx cy cz (outs52 d.fl junk ⟨((rawNums cx cz x u).load p).fl, (rawNums cx cz x u).kappa p (rawNums cx cz x u).w.fl, Nums.alpha ((rawNums cx cz x u).vel p).fl * 1, ((rawNums cx cz x u).vel p).fl.x, 0 * 1⟩)
    (outs52 d.fr junk ⟨((rawNums cx cz x u).load p).fr, (rawNums cx cz x u).kappa p (rawNums cx cz x u).w.fr, Nums.alpha ((rawNums cx cz x u).vel p).fr * -1, ((rawNums cx cz x u).vel p).fr.x, 0 * -1⟩)
    (outs52 d.rl junk ⟨((rawNums cx cz x u).load p).rl, (rawNums cx cz x u).kappa p (rawNums cx cz x u).w.rl, Nums.alpha ((rawNums cx cz x u).vel p).rl * 1, ((rawNums cx cz x u).vel p).rl.x, 0 * 1⟩)
    (outs52 d.rr junk ⟨((rawNums cx cz x u).load p).rr, (rawNums cx cz x u).kappa p (rawNums cx cz x u).w.rr, Nums.alpha ((rawNums cx cz x u).vel p).rr * -1, ((rawNums cx cz x u).vel p).rr.x, 0 * -1⟩), ?_⟩
  have hc : ∀ Fz kappa alpha vx gamma : ℝ, checkCall mf52Names { inputs := some [("Fz", Fz), ("kappa", kappa), ("alpha", alpha), ("vx", vx), ("gamma", gamma)] } = .ok () :=
    fun _ _ _ _ _ => rfl
  unfold defaultCar vehicle
  simp only [eval, simpleVehicle, body, bind_apply, pure_apply, tireRow, arg_some]
  rw [get_some (v := u "throttle") rfl, get_some (v := u "brake") rfl, get_some (v := u "steer") rfl, get_some (v := u "ax") rfl,
    get_some (v := u "ay") rfl, get_some (v := x "vx") rfl, get_some (v := x "vy") rfl, get_some (v := x "yaw_rate") rfl,
    get_some (v := x "wheel_speed_fl") rfl, get_some (v := x "wheel_speed_fr") rfl, get_some (v := x "wheel_speed_rl") rfl,
    get_some (v := x "wheel_speed_rr") rfl]
  rw [ev_call (snm := (constAero cx cy cz).direct) (f := (Mdl.node (constAero cx cy cz) []).eval) rfl (by decide) rfl rfl,
    get_some (v := cz) rfl]
  rw [ev_call (n := "tire_" ++ "fl") (snm := mf52Names) (f := (Mdl.node (mf52Or d.fl junk) []).eval) rfl
    (by exact (show "tire_fl" ∉ ["aero"] by decide)) (hc _ _ _ _ _) (tyre_value52 h1 junk _ _ _ _ _), get_some rfl, get_some rfl]
  rw [ev_call (n := "tire_" ++ "fr") (snm := mf52Names) (f := (Mdl.node (mf52Or d.fr junk) []).eval) rfl
    (by exact (show "tire_fr" ∉ ["aero", "tire_fl"] by decide)) (hc _ _ _ _ _) (tyre_value52 h2 junk _ _ _ _ _), get_some rfl, get_some rfl]
  rw [ev_call (n := "tire_" ++ "rl") (snm := mf52Names) (f := (Mdl.node (mf52Or d.rl junk) []).eval) rfl
    (by exact (show "tire_rl" ∉ ["aero", "tire_fl", "tire_fr"] by decide)) (hc _ _ _ _ _) (tyre_value52 h3 junk _ _ _ _ _), get_some rfl, get_some rfl]
  rw [ev_call (n := "tire_" ++ "rr") (snm := mf52Names) (f := (Mdl.node (mf52Or d.rr junk) []).eval) rfl
    (by exact (show "tire_rr" ∉ ["aero", "tire_fl", "tire_fr", "tire_rl"] by decide)) (hc _ _ _ _ _) (tyre_value52 h4 junk _ _ _ _ _), get_some rfl, get_some rfl,
    get_some (v := cx) rfl]
  rw [show ∀ a b c d e f g : ℝ, vehicleNames.makeDict "states_dot" [("vx", a), ("vy", b), ("yaw_rate", c), ("wheel_speed_fl", d),
    ("wheel_speed_fr", e), ("wheel_speed_rl", f), ("wheel_speed_rr", g)] = .ok [("vx", a), ("vy", b), ("yaw_rate", c),
    ("wheel_speed_fl", d), ("wheel_speed_fr", e), ("wheel_speed_rl", f), ("wheel_speed_rr", g)] from fun _ _ _ _ _ _ _ => rfl, lift_ok]
  rw [ev_outputs (K := vehicleOuts) (K' := carSubs) (C := ["aero", "tire_fl", "tire_fr", "tire_rl", "tire_rr"]) rfl rfl rfl
    (by exact subs52 cx cy cz _ _ _ _)
    (by exact (show ∀ n ∈ ["tire_fl", "tire_fr", "tire_rl", "tire_rr", "aero"], _ by decide))
    (by decide +kernel) (by decide +kernel)
    (by exact (show ∀ n ∈ vehicleNames.outputs ++ carSubs, n ∈ vehicleOuts ∨ n ∈ carSubs by decide +kernel))]
  rfl

theorem tyre52_orderly (d : Dict ℝ) (junk : In → Out) : Orderly (.node (mf52Or d junk) []) := by
  refine .node (by decide) (fun kw => ?_) (fun p hp => absurd hp List.not_mem_nil)
  simp only [mf52Or, body, bind_apply, pure_apply]
  collects

theorem default_car (p : Params) {d : Four (Dict ℝ)} (h1 : HasKeys d.fl true) (h2 : HasKeys d.fr true) (h3 : HasKeys d.rl true) (h4 : HasKeys d.rr true)
    (junk : In → Out) (cx cy cz : ℝ) : Car (defaultCar p d junk cx cy cz) where
  isVehicle := simple_isVehicle ..
  orderly := vehicle_orderly p (tyre52_orderly _ _) (tyre52_orderly _ _) (tyre52_orderly _ _) (tyre52_orderly _ _) (aero_orderly ..)
  returns := by
    intro x u
    obtain ⟨subs, hs, h⟩ := default_eval p h1 h2 h3 h4 junk cx cy cz x u none
    have hk : Dict.keys ((nums52 p d junk cx cz x u).outs p ++ subs) = vehicleOuts ++ carSubs := by
      unfold Dict.keys at hs ⊢
      rw [List.map_append, hs]
      rfl
    refine ⟨_, h, by dsimp only; rw [hk]; decide +kernel, ?_⟩
    dsimp only
    rw [hk]
    show ∀ n ∈ vehicleNames.outputs ++ carSubs, n ∈ vehicleOuts ++ carSubs
    decide +kernel
  residuals := by
    show ∀ n ∈ ["res_ax", "res_ay"], n ∈ vehicleNames.outputs ++ carSubs
    decide +kernel

theorem default_con (p : Params) (d : Four (Dict ℝ)) (junk : In → Out) (cx cy cz : ℝ) :
    ∀ n ∈ defaultConOutputs, n ∈ (vehicleOnTrack (defaultCar p d junk cx cy cz)).names.outputs := by
  rw [onTrack_names]
  show ∀ n ∈ defaultConOutputs, n ∈ addPrefix "vehicle" (vehicleNames.outputs ++ carSubs) ++ ["kinematics.yaw_angle", "kinematics.curvature"]
  decide +kernel

end Lumos.Lts
