import Verif.Veh.Model
import Mathlib.Data.Real.Sign
import Mathlib.Analysis.SpecialFunctions.Trigonometric.Inverse
import Mathlib.Analysis.SpecialFunctions.Exp
/-!
# Model of the MF5.2 tyre (lumos/models/tires/pacejka.py)

Simplifications: floating point is the reals; parameters are numbers. Where the code divides by zero or takes the arc cosine of a number
outside [-1, 1], a number that is not finite appears (numpy, jax and casadi go on with a NaN or an infinity, plain Python floats raise); the
model stops with `zeroDivisionError` or `valueError` instead. The products with the constants `zeta*` = 1 are kept where the code has them.
-/

namespace Lumos.Tyre

open Lumos Io Veh

/-- `a / b`. -/
noncomputable def div (a b : ℝ) : Py ℝ := if b = 0 then .error .zeroDivisionError else .ok (a / b)

/-- `lnp.arccos`. -/
noncomputable def arccos (x : ℝ) : Py ℝ := if -1 ≤ x ∧ x ≤ 1 then .ok (Real.arccos x) else .error .valueError

/-- `lnp.sqrt`. -/
noncomputable def sqrt (x : ℝ) : Py ℝ := if 0 ≤ x then .ok (Real.sqrt x) else .error .valueError

/-- The values `self._params[key]`. -/
abbrev Pars := String → ℝ

/-- `starVar`, `primeVar` and `incrVar` (pacejka.py:425-443). -/
structure Basic where
  alpha_star : ℝ
  gamma_star : ℝ
  LMUX_star : ℝ
  LMUY_star : ℝ
  Fz0_prime : ℝ
  alpha_prime : ℝ
  LMUX_prime : ℝ
  LMUY_prime : ℝ
  dfz : ℝ

/-- `_calculate_basic` (pacejka.py:359-445). -/
noncomputable def calculateBasic (p : Pars) (alpha Vcx gamma Fz : ℝ) : Py Basic := do
  let Fz0 := p "FNOMIN"
  let Vsy := Real.tan alpha * Vcx
  let Vcy := Vsy
  let Vc ← sqrt (Vcx ^ 2 + Vcy ^ 2)
  let Fz0_prime := p "LFZO" * Fz0
  let dfz ← div (Fz - Fz0_prime) Fz0_prime
  let Vc_prime := Vc + p "epsilonv"
  let cosine ← div Vcx Vc_prime
  let alpha_prime ← arccos cosine
  let LMUX_star := p "LMUX"
  let LMUY_star := p "LMUY"
  let Amu : ℝ := 1
  let LMUX_prime ← div (Amu * LMUX_star) (1 + (Amu - 1) * LMUX_star)
  let LMUY_prime ← div (Amu * LMUY_star) (1 + (Amu - 1) * LMUY_star)
  return { alpha_star := alpha, gamma_star := gamma, LMUX_star := LMUX_star, LMUY_star := LMUY_star, Fz0_prime := Fz0_prime
           alpha_prime := alpha_prime, LMUX_prime := LMUX_prime, LMUY_prime := LMUY_prime, dfz := dfz }

/-- `_calculate_Fx0` (pacejka.py:447-532): `(Fx0, Kxk)`; `mux` is returned by the code but not used. -/
noncomputable def calculateFx0 (p : Pars) (kappa gamma Fz : ℝ) (b : Basic) : Py (ℝ × ℝ) := do
  let zeta1 : ℝ := 1
  let Cx := p "PCX1" * p "LCX"
  let mux := (p "PDX1" + p "PDX2" * b.dfz) * (1 - p "PDX3" * gamma ^ 2) * b.LMUX_star
  let Dx := mux * Fz * zeta1
  let Kxk := Fz * (p "PKX1" + p "PKX2" * b.dfz) * Real.exp (p "PKX3" * b.dfz) * p "LKX"
  let Bx ← div Kxk (Cx * Dx + p "epsilonx" * Real.sign Dx)
  let SHx := (p "PHX1" + p "PHX2" * b.dfz) * p "LHX"
  let SVx := Fz * (p "PVX1" + p "PVX2" * b.dfz) * p "LVX" * b.LMUX_prime * zeta1
  let kappax := kappa + SHx
  let Ex := (p "PEX1" + p "PEX2" * b.dfz + p "PEX3" * b.dfz ^ 2) * (1 - p "PEX4" * Real.sign kappax) * p "LEX"
  let Ex := min Ex 1
  let Bx_kappax := Bx * kappax
  let Fx0 := Dx * Real.sin (Cx * Real.arctan (Bx_kappax - Ex * (Bx_kappax - Real.arctan Bx_kappax))) + SVx
  return (Fx0, Kxk)

/-- `_calculate_Fx` (pacejka.py:534-590): `(Fx, Gxa)`. -/
noncomputable def calculateFx (p : Pars) (kappa : ℝ) (b : Basic) (Fx0 : ℝ) : Py (ℝ × ℝ) := do
  let Cxa := p "RCX1"
  let Exa := p "REX1" + p "REX2" * b.dfz
  let Exa := min Exa 1
  let SHxa := p "RHX1"
  let Bxa := p "RBX1" * Real.cos (Real.arctan (p "RBX2" * kappa)) * p "LXAL"
  let alphas := b.alpha_star + SHxa
  let Bxa_SHxa := Bxa * SHxa
  let Gxa0 := Real.cos (Cxa * Real.arctan (Bxa_SHxa - Exa * (Bxa_SHxa - Real.arctan Bxa_SHxa)))
  let Bxa_alphas := Bxa * alphas
  let Gxa ← div (Real.cos (Cxa * Real.arctan (Bxa_alphas - Exa * (Bxa_alphas - Real.arctan Bxa_alphas)))) Gxa0
  let Fx := Gxa * Fx0
  return (Fx, Gxa)

/-- What `_calculate_Fy0` returns (pacejka.py:702). -/
structure Lat where
  Fy0 : ℝ
  muy : ℝ
  Kya : ℝ
  SHy : ℝ
  SVy : ℝ
  By : ℝ
  Cy : ℝ

/-- `_calculate_Fy0` (pacejka.py:592-702). -/
noncomputable def calculateFy0 (p : Pars) (Fz : ℝ) (b : Basic) : Py Lat := do
  let zeta2 : ℝ := 1
  let zeta3 : ℝ := 1
  let abs_gamma_star := |b.gamma_star|
  let q ← div Fz b.Fz0_prime
  let q ← div q (p "PKY2")
  let Kya := p "PKY1" * b.Fz0_prime * (1 - p "PKY3" * abs_gamma_star) * Real.sin (2 * Real.arctan q) * zeta3 * p "LKY"
  let SVyg := Fz * (p "PVY3" + p "PVY4" * b.dfz) * b.gamma_star * b.LMUY_prime * zeta2
  let SHy := (p "PHY1" + p "PHY2" * b.dfz) * p "LHY" + p "PHY3" * b.gamma_star
  let SVy := Fz * (p "PVY1" + p "PVY2" * b.dfz) * p "LVY" * b.LMUY_prime * zeta2 + SVyg
  let alphay := b.alpha_star + SHy
  let Cy := p "PCY1" * p "LCY"
  let muy := (p "PDY1" + p "PDY2" * b.dfz) * (1 - p "PDY3" * b.gamma_star ^ 2) * b.LMUY_star
  let Dy := muy * Fz * zeta2
  let sign_alphay := Real.sign alphay
  let Ey := (p "PEY1" + p "PEY2" * b.dfz) * (1 - (p "PEY3" + p "PEY4" * b.gamma_star) * sign_alphay) * p "LEY"
  let Ey := min Ey 1
  let signDy := Real.sign Dy
  let By ← div Kya (Cy * Dy + p "epsilony" * signDy)
  let Fy0 := Dy * Real.sin (Cy * Real.arctan (By * alphay - Ey * (By * alphay - Real.arctan (By * alphay)))) + SVy
  return { Fy0 := Fy0, muy := muy, Kya := Kya, SHy := SHy, SVy := SVy, By := By, Cy := Cy }

/-- `calcluate_Fy` (pacejka.py:704-775): `(Fy, Gyk, SVyk)`. -/
noncomputable def calculateFy (p : Pars) (Fz kappa Fy0 muy : ℝ) (b : Basic) : Py (ℝ × ℝ × ℝ) := do
  let zeta2 : ℝ := 1
  let DVyk := muy * Fz * (p "RVY1" + p "RVY2" * b.dfz + p "RVY3" * b.gamma_star) * Real.cos (Real.arctan (p "RVY4" * b.alpha_star)) * zeta2
  let SVyk := DVyk * Real.sin (p "RVY5" * Real.arctan (p "RVY6" * kappa)) * p "LVYKA"
  let SHyk := p "RHY1" + p "RHY2" * b.dfz
  let Eyk := p "REY1" + p "REY2" * b.dfz
  let Eyk := min Eyk 1
  let Cyk := p "RCY1"
  let Byk := p "RBY1" * Real.cos (Real.arctan (p "RBY2" * (b.alpha_star - p "RBY3"))) * p "LYKA"
  let kappas := kappa + SHyk
  let Byk_SHyk := Byk * SHyk
  let Gyk0 := Real.cos (Cyk * Real.arctan (Byk_SHyk - Eyk * (Byk_SHyk - Real.arctan Byk_SHyk)))
  let Byk_kappas := Byk * kappas
  let Gyk ← div (Real.cos (Cyk * Real.arctan (Byk_kappas - Eyk * (Byk_kappas - Real.arctan Byk_kappas)))) Gyk0
  let Fy := Gyk * Fy0 + SVyk
  return (Fy, Gyk, SVyk)

/-- `_calculate_Mz` (pacejka.py:777-1003). -/
noncomputable def calculateMz (p : Pars) (kappa alpha gamma Fz vx Fx Kxk Fy SVyk : ℝ) (l : Lat) (b : Basic) : Py ℝ := do
  let dfz := b.dfz
  let R0 := p "UNLOADED_RADIUS"
  let SHt := p "QHZ1" + p "QHZ2" * dfz + (p "QHZ3" + p "QHZ4" * dfz) * gamma
  let sign_Kya := Real.sign l.Kya
  let Kya_prime := l.Kya + p "epsilonk" * sign_Kya
  let sv ← div l.SVy Kya_prime
  let SHf := l.SHy + sv
  let alphar := alpha + SHf
  let alphat := alpha + SHt
  let r ← div R0 b.Fz0_prime
  let Dt := (p "QDZ1" + p "QDZ2" * dfz) * (1 + p "QDZ3" * gamma + p "QDZ4" * gamma ^ 2) * Fz * r * p "LTR"
  let abs_gamma := |gamma|
  let Bt ← div ((p "QBZ1" + p "QBZ2" * dfz + p "QBZ3" * dfz ^ 2) * (1 + p "QBZ4" * gamma + p "QBZ5" * abs_gamma) * p "LKY") b.LMUY_star
  let Ct := p "QCZ1"
  let Et := (p "QEZ1" + p "QEZ2" * dfz + p "QEZ3" * dfz ^ 2)
    * (1 + (p "QEZ4" + p "QEZ5" * gamma) * (2 / Real.pi) * Real.arctan (Bt * Ct * alphat))
  let zeta0 : ℝ := 1
  let zeta2 : ℝ := 1
  let zeta6 : ℝ := 1
  let zeta7 : ℝ := 1
  let zeta8 : ℝ := 1
  let sign_Vcx := Real.sign vx
  let Dr := Fz * R0 * ((p "QDZ6" + p "QDZ7" * dfz) * p "LRES" * zeta2 + (p "QDZ8" + p "QDZ9" * dfz) * gamma * zeta0) * b.LMUY_star
    * sign_Vcx * Real.cos alpha + zeta8 - 1
  let br ← div (p "QBZ9" * p "LKY") b.LMUY_star
  let Br := (br + p "QBZ10" * l.By * l.Cy) * zeta6
  let Cr := zeta7
  let sign_alphar := Real.sign alphar
  let sign_alphat := Real.sign alphat
  let ratio ← div Kxk Kya_prime
  let rr ← sqrt (Real.tan alphar ^ 2 + ratio ^ 2 * kappa ^ 2)
  let alphar_eq := Real.arctan rr * sign_alphar
  let rt ← sqrt (Real.tan alphat ^ 2 + ratio ^ 2 * kappa ^ 2)
  let alphat_eq := Real.arctan rt * sign_alphat
  let fyn ← div Fy (p "FNOMIN")
  let s := R0 * (p "SSZ1" + p "SSZ2" * fyn + (p "SSZ3" + p "SSZ4" * dfz) * gamma) * p "LS"
  let Mzr := Dr * Real.cos (Cr * Real.arctan (Br * alphar_eq))
  let t := Dt * Real.cos (Ct * Real.arctan (Bt * alphat_eq - Et * (Bt * alphat_eq - Real.arctan (Bt * alphat_eq)))) * Real.cos b.alpha_prime
  let t := p "LFZO" * t
  return -t * (Fy - SVyk) + Mzr + s * Fx

/-- `_calculate_My` (pacejka.py:1005-1041). -/
noncomputable def calculateMy (p : Pars) (Fz vx Fx : ℝ) : Py ℝ := do
  let fxn ← div Fx (p "FNOMIN")
  let vn ← div vx (p "LONGVL")
  return -p "UNLOADED_RADIUS" * Fz * p "LMY" * (p "QSY1" + p "QSY2" * fxn + p "QSY3" * vn + p "QSY4" * vn ^ 4)

/-- `_calculate_Mx` (pacejka.py:1043-1068). -/
noncomputable def calculateMx (p : Pars) (gamma Fz Fy : ℝ) : Py ℝ := do
  let fyn ← div Fy (p "FNOMIN")
  return p "UNLOADED_RADIUS" * Fz * p "LMX" * (p "QSX1" * p "LVMX" - p "QSX2" * gamma + p "QSX3" * fyn)

/-- The inputs of a tyre (pacejka.py:11-19). -/
structure In where
  Fz : ℝ
  kappa : ℝ
  alpha : ℝ
  vx : ℝ
  gamma : ℝ

/-- The outputs of the tyre (pacejka.py:20). -/
structure Out where
  Fx : ℝ
  Fy : ℝ
  Mx : ℝ
  My : ℝ
  Mz : ℝ
  Kxk : ℝ
  Gxa : ℝ
  Kya : ℝ
  Gyk : ℝ
  GSum : ℝ

/-- `_do_force_and_moments` (pacejka.py:272-357) and the end of `forward` (pacejka.py:248-270). -/
noncomputable def forces (p : Pars) (opt_mode : Bool) (i : In) : Py Out := do
  let b ← calculateBasic p i.alpha i.vx i.gamma i.Fz
  let (Fx0, Kxk) ← calculateFx0 p i.kappa i.gamma i.Fz b
  let (Fx, Gxa) ← calculateFx p i.kappa b Fx0
  let l ← calculateFy0 p i.Fz b
  let (Fy, Gyk, SVyk) ← calculateFy p i.Fz i.kappa l.Fy0 l.muy b
  let (Mx, My, Mz) ← if opt_mode then pure (0, 0, 0)
    else do
      let Mx ← calculateMx p i.gamma i.Fz Fy
      let My ← calculateMy p i.Fz i.vx Fx
      let Mz ← calculateMz p i.kappa i.alpha i.gamma i.Fz i.vx Fx Kxk Fy SVyk l b
      pure (Mx, My, Mz)
  let GSum ← sqrt (Gyk ^ 2 + Gxa ^ 2)
  return { Fx := Fx, Fy := Fy, Mx := Mx, My := My, Mz := Mz, Kxk := Kxk, Gxa := Gxa, Kya := l.Kya, Gyk := Gyk, GSum := GSum }

/-- The keys that are read for the forces (pacejka.py:380-385, 453-476, 546-556, 598-639, 710-737). -/
def forceKeys : List String :=
  ["FNOMIN", "LFZO", "LMUX", "LMUY", "epsilonv", "LCX", "LEX", "LKX", "LHX", "LVX", "PCX1", "PDX1", "PDX2", "PDX3", "PEX1", "PEX2",
   "PEX3", "PEX4", "PKX1", "PKX2", "PKX3", "PHX1", "PHX2", "PVX1", "PVX2", "epsilonx", "LXAL", "RBX1", "RBX2", "RCX1", "REX1", "REX2",
   "RHX1", "LCY", "LEY", "LKY", "LHY", "LVY", "PCY1", "PDY1", "PDY2", "PDY3", "PEY1", "PEY2", "PEY3", "PEY4", "PKY1", "PKY2", "PKY3",
   "PHY1", "PHY2", "PHY3", "PVY1", "PVY2", "PVY3", "PVY4", "epsilony", "LYKA", "LVYKA", "RBY1", "RBY2", "RBY3", "RCY1", "REY1", "REY2",
   "RHY1", "RHY2", "RVY1", "RVY2", "RVY3", "RVY4", "RVY5", "RVY6"]

/-- The keys that are read for the moments (pacejka.py:799-869, 1014-1030, 1050-1062). -/
def momentKeys : List String :=
  ["FNOMIN", "UNLOADED_RADIUS", "LVMX", "LMX", "QSX1", "QSX2", "QSX3", "LONGVL", "LMY", "QSY1", "QSY2", "QSY3", "QSY4", "epsilonk",
   "LKY", "LTR", "LRES", "LS", "LFZO", "QBZ1", "QBZ2", "QBZ3", "QBZ4", "QBZ5", "QBZ9", "QBZ10", "QCZ1", "QDZ1", "QDZ2", "QDZ3", "QDZ4",
   "QDZ6", "QDZ7", "QDZ8", "QDZ9", "QEZ1", "QEZ2", "QEZ3", "QEZ4", "QEZ5", "QHZ1", "QHZ2", "QHZ3", "QHZ4", "SSZ1", "SSZ2", "SSZ3", "SSZ4"]

/-- The decorator of `MF52` (pacejka.py:11-21). -/
def mf52Names : Names where
  stateSpace := false
  states := []
  inputs := ["Fz", "kappa", "alpha", "vx", "gamma"]
  outputs := ["Fx", "Fy", "Mx", "My", "Mz", "Kxk", "Gxa", "Kya", "Gyk", "GSum"]
  conOutputs := []
  residuals := []

/-- `MF52.forward` (pacejka.py:221-270) of a model with the parameters `d`: KeyError when a parameter that is read is missing
(simplification: also when an error of arithmetic would come first). -/
noncomputable def mf52 (d : Dict ℝ) (opt_mode : Bool) : Cls ℝ where
  direct := mf52Names
  forward kw := body do
    let inputs ← arg kw.inputs
    let gamma ← get inputs "gamma"
    let vx ← get inputs "vx"
    let Fz ← get inputs "Fz"
    let kappa ← get inputs "kappa"
    let alpha ← get inputs "alpha"
    let _ ← lift (if ∀ k ∈ forceKeys ++ (if opt_mode then [] else momentKeys), (d.lookup k).isSome then .ok () else .error .keyError)
    let o ← lift (forces (fun k => (d.lookup k).getD 0) opt_mode ⟨Fz, kappa, alpha, vx, gamma⟩)
    return { outputs := [("Fx", o.Fx), ("Fy", o.Fy), ("Mx", o.Mx), ("My", o.My), ("Mz", o.Mz), ("Kxk", o.Kxk), ("Gxa", o.Gxa),
      ("Kya", o.Kya), ("Gyk", o.Gyk), ("GSum", o.GSum)] }

/-- `MF52.get_default_params` (pacejka.py:62-219). -/
noncomputable def defaults : Dict ℝ :=
  [("FILE_VERSION", 3), ("VXLOW", 1), ("LONGVL", 15), ("UNLOADED_RADIUS", 2 / 5), ("WIDTH", 47 / 200), ("RIM_RADIUS", 127 / 625),
   ("RIM_WIDTH", 889 / 5000), ("VERTICAL_STIFFNESS", 463000), ("VERTICAL_DAMPING", 500), ("BREFF", 42 / 5), ("DREFF", 27 / 100),
   ("FREFF", 7 / 100), ("FNOMIN", 47083 / 5), ("KPUMIN", -(3 / 2)), ("KPUMAX", 3 / 2), ("ALPMIN", -(3 / 2)), ("ALPMAX", 3 / 2),
   ("CAMMIN", -(1317 / 5000)), ("CAMMAX", 5279 / 20000), ("FZMIN", 100), ("FZMAX", 102349 / 5), ("LFZO", 1), ("LCX", 1), ("LMUX", 1),
   ("LEX", 1), ("LKX", 1), ("LHX", 1), ("LVX", 1), ("LGAX", 1), ("LCY", 1), ("LMUY", 1), ("LEY", 1), ("LKY", 1), ("LHY", 1), ("LVY", 1),
   ("LGAY", 1), ("LTR", 1), ("LRES", 1), ("LGAZ", 1), ("LXAL", 1), ("LYKA", 1), ("LVYKA", 1), ("LS", 1), ("LSGKP", 1), ("LSGAL", 1),
   ("LGYR", 1), ("LMX", 1), ("LVMX", 1), ("LMY", 1), ("PCX1", 2721 / 2000), ("PDX1", 177 / 200), ("PDX2", -(5653 / 100000)),
   ("PDX3", -(1096 / 125)), ("PEX1", -(2631 / 20000)), ("PEX2", -(19 / 40)), ("PEX3", -(6563 / 5000)), ("PEX4", -(337 / 200)),
   ("PKX1", 667 / 40), ("PKX2", -(569 / 12500)), ("PKX3", 841 / 2000), ("PHX1", 8731 / 100000000), ("PHX2", -(11733 / 10000000)),
   ("PVX1", 1913 / 100000), ("PVX2", 1327 / 50000), ("RBX1", 9509 / 1000), ("RBX2", -(951 / 100)), ("RCX1", 10061 / 10000),
   ("REX1", -(3963 / 2000)), ("REX2", -(569 / 125)), ("RHX1", 10039 / 1000000), ("PTX1", 5949 / 5000), ("PTX2", -(1537 / 2500000)),
   ("PTX3", -(3717 / 10000)), ("QSX1", -(3093 / 1000000)), ("QSX2", 3019 / 5000), ("QSX3", 5081 / 200000), ("PCY1", 1889 / 1000),
   ("PDY1", 8271 / 10000), ("PDY2", -(1153 / 5000)), ("PDY3", -(886 / 125)), ("PEY1", 917 / 2000), ("PEY2", -(21823 / 100000)),
   ("PEY3", -(242 / 625)), ("PEY4", 99 / 25), ("PKY1", -(291 / 10)), ("PKY2", 947 / 125), ("PKY3", 118 / 125), ("PHY1", 1119 / 250000),
   ("PHY2", 6499 / 2500000), ("PHY3", 6973 / 1000000), ("PVY1", 2989 / 500000), ("PVY2", 4073 / 500000), ("PVY3", -(2033 / 5000)),
   ("PVY4", -(4417 / 10000)), ("RBY1", 2521 / 500), ("RBY2", 2429 / 500), ("RBY3", 1529 / 25000), ("RCY1", 5321 / 5000),
   ("REY1", -(9207 / 10000)), ("REY2", -(2167 / 5000)), ("RHY1", -(4773 / 5000000)), ("RHY2", 1753 / 50000000),
   ("RVY1", -(2541 / 100000)), ("RVY2", 2259 / 100000), ("RVY3", -(4661 / 5000)), ("RVY4", 529 / 25), ("RVY5", 19 / 10),
   ("RVY6", -(1944 / 125)), ("PTY1", 3249 / 2000), ("PTY2", 14253 / 5000), ("QSY1", 1 / 100), ("QSY2", 0), ("QSY3", 0), ("QSY4", 0),
   ("QBZ1", 1207 / 200), ("QBZ2", -(4451 / 5000)), ("QBZ3", 5929 / 5000), ("QBZ4", 887 / 10000), ("QBZ5", -(1299 / 5000)),
   ("QBZ9", 183 / 25), ("QBZ10", 0), ("QCZ1", 16637 / 10000), ("QDZ1", 3809 / 50000), ("QDZ2", -(1363 / 50000)), ("QDZ3", 2553 / 5000),
   ("QDZ4", 55 / 2), ("QDZ6", -(6181 / 5000000)), ("QDZ7", -(697 / 200000)), ("QDZ8", -(2709 / 25000)), ("QDZ9", -(249 / 6250)),
   ("QEZ1", -(2109 / 50000)), ("QEZ2", 83 / 31250), ("QEZ3", 0), ("QEZ4", 853 / 625), ("QEZ5", -(993 / 10)), ("QHZ1", 4849 / 250000),
   ("QHZ2", -(17907 / 10000000)), ("QHZ3", 9319 / 100000), ("QHZ4", -(469 / 12500)), ("SSZ1", 9003 / 1000000),
   ("SSZ2", -(11339 / 1000000)), ("SSZ3", 6903 / 10000), ("SSZ4", -(3523 / 5000)), ("QTZ1", 0), ("MBELT", 0), ("epsilonv", 1 / 1000000),
   ("epsilonx", 1 / 1000), ("epsilonk", 1 / 1000000), ("epsilony", 1 / 1000)]

end Lumos.Tyre
