import Verif.Tyre.Forces
/-!
# C84: the mirrored MF5.2 tyre
-/

namespace Lumos.Tyre

open Lumos Io Veh

/-! ## Specification -/

/-- The parameters that make a tyre differ from its mirror image. -/
def handed : List String :=
  ["PHY1", "PHY2", "PVY1", "PVY2", "PEY3", "RHX1", "RBY3", "RVY1", "RVY2", "QSX1", "QHZ1", "QHZ2", "QBZ4", "QDZ3", "QDZ6", "QDZ7", "QEZ4", "SSZ1"]

/-- The parameters of the mirror image. -/
noncomputable def mirrored (d : Dict ℝ) : Dict ℝ := d.map fun kv => (kv.1, if kv.1 ∈ handed then -kv.2 else kv.2)

/-- The mirrored inputs: slip angle and camber to the other side. -/
def In.mirrored (i : In) : In := { i with alpha := -i.alpha, gamma := -i.gamma }

/-- The mirrored outputs: side force, overturning moment and aligning moment to the other side. -/
def Out.mirrored (o : Out) : Out := { o with Fy := -o.Fy, Mx := -o.Mx, Mz := -o.Mz }

/-! ## Helpers -/

noncomputable def mirror (p : Pars) : Pars := fun k => if k ∈ handed then -p k else p k

theorem m_FNOMIN (p : Pars) : mirror p "FNOMIN" = p "FNOMIN" := if_neg (by decide)
theorem m_LFZO (p : Pars) : mirror p "LFZO" = p "LFZO" := if_neg (by decide)
theorem m_LMUX (p : Pars) : mirror p "LMUX" = p "LMUX" := if_neg (by decide)
theorem m_LMUY (p : Pars) : mirror p "LMUY" = p "LMUY" := if_neg (by decide)
theorem m_epsilonv (p : Pars) : mirror p "epsilonv" = p "epsilonv" := if_neg (by decide)
theorem m_LCX (p : Pars) : mirror p "LCX" = p "LCX" := if_neg (by decide)
theorem m_LEX (p : Pars) : mirror p "LEX" = p "LEX" := if_neg (by decide)
theorem m_LKX (p : Pars) : mirror p "LKX" = p "LKX" := if_neg (by decide)
theorem m_LHX (p : Pars) : mirror p "LHX" = p "LHX" := if_neg (by decide)
theorem m_LVX (p : Pars) : mirror p "LVX" = p "LVX" := if_neg (by decide)
theorem m_PCX1 (p : Pars) : mirror p "PCX1" = p "PCX1" := if_neg (by decide)
theorem m_PDX1 (p : Pars) : mirror p "PDX1" = p "PDX1" := if_neg (by decide)
theorem m_PDX2 (p : Pars) : mirror p "PDX2" = p "PDX2" := if_neg (by decide)
theorem m_PDX3 (p : Pars) : mirror p "PDX3" = p "PDX3" := if_neg (by decide)
theorem m_PEX1 (p : Pars) : mirror p "PEX1" = p "PEX1" := if_neg (by decide)
theorem m_PEX2 (p : Pars) : mirror p "PEX2" = p "PEX2" := if_neg (by decide)
theorem m_PEX3 (p : Pars) : mirror p "PEX3" = p "PEX3" := if_neg (by decide)
theorem m_PEX4 (p : Pars) : mirror p "PEX4" = p "PEX4" := if_neg (by decide)
theorem m_PKX1 (p : Pars) : mirror p "PKX1" = p "PKX1" := if_neg (by decide)
theorem m_PKX2 (p : Pars) : mirror p "PKX2" = p "PKX2" := if_neg (by decide)
theorem m_PKX3 (p : Pars) : mirror p "PKX3" = p "PKX3" := if_neg (by decide)
theorem m_PHX1 (p : Pars) : mirror p "PHX1" = p "PHX1" := if_neg (by decide)
theorem m_PHX2 (p : Pars) : mirror p "PHX2" = p "PHX2" := if_neg (by decide)
theorem m_PVX1 (p : Pars) : mirror p "PVX1" = p "PVX1" := if_neg (by decide)
theorem m_PVX2 (p : Pars) : mirror p "PVX2" = p "PVX2" := if_neg (by decide)
theorem m_epsilonx (p : Pars) : mirror p "epsilonx" = p "epsilonx" := if_neg (by decide)
theorem m_LXAL (p : Pars) : mirror p "LXAL" = p "LXAL" := if_neg (by decide)
theorem m_RBX1 (p : Pars) : mirror p "RBX1" = p "RBX1" := if_neg (by decide)
theorem m_RBX2 (p : Pars) : mirror p "RBX2" = p "RBX2" := if_neg (by decide)
theorem m_RCX1 (p : Pars) : mirror p "RCX1" = p "RCX1" := if_neg (by decide)
theorem m_REX1 (p : Pars) : mirror p "REX1" = p "REX1" := if_neg (by decide)
theorem m_REX2 (p : Pars) : mirror p "REX2" = p "REX2" := if_neg (by decide)
theorem m_RHX1 (p : Pars) : mirror p "RHX1" = -p "RHX1" := if_pos (by decide)
theorem m_LCY (p : Pars) : mirror p "LCY" = p "LCY" := if_neg (by decide)
theorem m_LEY (p : Pars) : mirror p "LEY" = p "LEY" := if_neg (by decide)
theorem m_LKY (p : Pars) : mirror p "LKY" = p "LKY" := if_neg (by decide)
theorem m_LHY (p : Pars) : mirror p "LHY" = p "LHY" := if_neg (by decide)
theorem m_LVY (p : Pars) : mirror p "LVY" = p "LVY" := if_neg (by decide)
theorem m_PCY1 (p : Pars) : mirror p "PCY1" = p "PCY1" := if_neg (by decide)
theorem m_PDY1 (p : Pars) : mirror p "PDY1" = p "PDY1" := if_neg (by decide)
theorem m_PDY2 (p : Pars) : mirror p "PDY2" = p "PDY2" := if_neg (by decide)
theorem m_PDY3 (p : Pars) : mirror p "PDY3" = p "PDY3" := if_neg (by decide)
theorem m_PEY1 (p : Pars) : mirror p "PEY1" = p "PEY1" := if_neg (by decide)
theorem m_PEY2 (p : Pars) : mirror p "PEY2" = p "PEY2" := if_neg (by decide)
theorem m_PEY3 (p : Pars) : mirror p "PEY3" = -p "PEY3" := if_pos (by decide)
theorem m_PEY4 (p : Pars) : mirror p "PEY4" = p "PEY4" := if_neg (by decide)
theorem m_PKY1 (p : Pars) : mirror p "PKY1" = p "PKY1" := if_neg (by decide)
theorem m_PKY2 (p : Pars) : mirror p "PKY2" = p "PKY2" := if_neg (by decide)
theorem m_PKY3 (p : Pars) : mirror p "PKY3" = p "PKY3" := if_neg (by decide)
theorem m_PHY1 (p : Pars) : mirror p "PHY1" = -p "PHY1" := if_pos (by decide)
theorem m_PHY2 (p : Pars) : mirror p "PHY2" = -p "PHY2" := if_pos (by decide)
theorem m_PHY3 (p : Pars) : mirror p "PHY3" = p "PHY3" := if_neg (by decide)
theorem m_PVY1 (p : Pars) : mirror p "PVY1" = -p "PVY1" := if_pos (by decide)
theorem m_PVY2 (p : Pars) : mirror p "PVY2" = -p "PVY2" := if_pos (by decide)
theorem m_PVY3 (p : Pars) : mirror p "PVY3" = p "PVY3" := if_neg (by decide)
theorem m_PVY4 (p : Pars) : mirror p "PVY4" = p "PVY4" := if_neg (by decide)
theorem m_epsilony (p : Pars) : mirror p "epsilony" = p "epsilony" := if_neg (by decide)
theorem m_LYKA (p : Pars) : mirror p "LYKA" = p "LYKA" := if_neg (by decide)
theorem m_LVYKA (p : Pars) : mirror p "LVYKA" = p "LVYKA" := if_neg (by decide)
theorem m_RBY1 (p : Pars) : mirror p "RBY1" = p "RBY1" := if_neg (by decide)
theorem m_RBY2 (p : Pars) : mirror p "RBY2" = p "RBY2" := if_neg (by decide)
theorem m_RBY3 (p : Pars) : mirror p "RBY3" = -p "RBY3" := if_pos (by decide)
theorem m_RCY1 (p : Pars) : mirror p "RCY1" = p "RCY1" := if_neg (by decide)
theorem m_REY1 (p : Pars) : mirror p "REY1" = p "REY1" := if_neg (by decide)
theorem m_REY2 (p : Pars) : mirror p "REY2" = p "REY2" := if_neg (by decide)
theorem m_RHY1 (p : Pars) : mirror p "RHY1" = p "RHY1" := if_neg (by decide)
theorem m_RHY2 (p : Pars) : mirror p "RHY2" = p "RHY2" := if_neg (by decide)
theorem m_RVY1 (p : Pars) : mirror p "RVY1" = -p "RVY1" := if_pos (by decide)
theorem m_RVY2 (p : Pars) : mirror p "RVY2" = -p "RVY2" := if_pos (by decide)
theorem m_RVY3 (p : Pars) : mirror p "RVY3" = p "RVY3" := if_neg (by decide)
theorem m_RVY4 (p : Pars) : mirror p "RVY4" = p "RVY4" := if_neg (by decide)
theorem m_RVY5 (p : Pars) : mirror p "RVY5" = p "RVY5" := if_neg (by decide)
theorem m_RVY6 (p : Pars) : mirror p "RVY6" = p "RVY6" := if_neg (by decide)
theorem m_UNLOADED_RADIUS (p : Pars) : mirror p "UNLOADED_RADIUS" = p "UNLOADED_RADIUS" := if_neg (by decide)
theorem m_LVMX (p : Pars) : mirror p "LVMX" = p "LVMX" := if_neg (by decide)
theorem m_LMX (p : Pars) : mirror p "LMX" = p "LMX" := if_neg (by decide)
theorem m_QSX1 (p : Pars) : mirror p "QSX1" = -p "QSX1" := if_pos (by decide)
theorem m_QSX2 (p : Pars) : mirror p "QSX2" = p "QSX2" := if_neg (by decide)
theorem m_QSX3 (p : Pars) : mirror p "QSX3" = p "QSX3" := if_neg (by decide)
theorem m_LONGVL (p : Pars) : mirror p "LONGVL" = p "LONGVL" := if_neg (by decide)
theorem m_LMY (p : Pars) : mirror p "LMY" = p "LMY" := if_neg (by decide)
theorem m_QSY1 (p : Pars) : mirror p "QSY1" = p "QSY1" := if_neg (by decide)
theorem m_QSY2 (p : Pars) : mirror p "QSY2" = p "QSY2" := if_neg (by decide)
theorem m_QSY3 (p : Pars) : mirror p "QSY3" = p "QSY3" := if_neg (by decide)
theorem m_QSY4 (p : Pars) : mirror p "QSY4" = p "QSY4" := if_neg (by decide)
theorem m_epsilonk (p : Pars) : mirror p "epsilonk" = p "epsilonk" := if_neg (by decide)
theorem m_LTR (p : Pars) : mirror p "LTR" = p "LTR" := if_neg (by decide)
theorem m_LRES (p : Pars) : mirror p "LRES" = p "LRES" := if_neg (by decide)
theorem m_LS (p : Pars) : mirror p "LS" = p "LS" := if_neg (by decide)
theorem m_QBZ1 (p : Pars) : mirror p "QBZ1" = p "QBZ1" := if_neg (by decide)
theorem m_QBZ2 (p : Pars) : mirror p "QBZ2" = p "QBZ2" := if_neg (by decide)
theorem m_QBZ3 (p : Pars) : mirror p "QBZ3" = p "QBZ3" := if_neg (by decide)
theorem m_QBZ4 (p : Pars) : mirror p "QBZ4" = -p "QBZ4" := if_pos (by decide)
theorem m_QBZ5 (p : Pars) : mirror p "QBZ5" = p "QBZ5" := if_neg (by decide)
theorem m_QBZ9 (p : Pars) : mirror p "QBZ9" = p "QBZ9" := if_neg (by decide)
theorem m_QBZ10 (p : Pars) : mirror p "QBZ10" = p "QBZ10" := if_neg (by decide)
theorem m_QCZ1 (p : Pars) : mirror p "QCZ1" = p "QCZ1" := if_neg (by decide)
theorem m_QDZ1 (p : Pars) : mirror p "QDZ1" = p "QDZ1" := if_neg (by decide)
theorem m_QDZ2 (p : Pars) : mirror p "QDZ2" = p "QDZ2" := if_neg (by decide)
theorem m_QDZ3 (p : Pars) : mirror p "QDZ3" = -p "QDZ3" := if_pos (by decide)
theorem m_QDZ4 (p : Pars) : mirror p "QDZ4" = p "QDZ4" := if_neg (by decide)
theorem m_QDZ6 (p : Pars) : mirror p "QDZ6" = -p "QDZ6" := if_pos (by decide)
theorem m_QDZ7 (p : Pars) : mirror p "QDZ7" = -p "QDZ7" := if_pos (by decide)
theorem m_QDZ8 (p : Pars) : mirror p "QDZ8" = p "QDZ8" := if_neg (by decide)
theorem m_QDZ9 (p : Pars) : mirror p "QDZ9" = p "QDZ9" := if_neg (by decide)
theorem m_QEZ1 (p : Pars) : mirror p "QEZ1" = p "QEZ1" := if_neg (by decide)
theorem m_QEZ2 (p : Pars) : mirror p "QEZ2" = p "QEZ2" := if_neg (by decide)
theorem m_QEZ3 (p : Pars) : mirror p "QEZ3" = p "QEZ3" := if_neg (by decide)
theorem m_QEZ4 (p : Pars) : mirror p "QEZ4" = -p "QEZ4" := if_pos (by decide)
theorem m_QEZ5 (p : Pars) : mirror p "QEZ5" = p "QEZ5" := if_neg (by decide)
theorem m_QHZ1 (p : Pars) : mirror p "QHZ1" = -p "QHZ1" := if_pos (by decide)
theorem m_QHZ2 (p : Pars) : mirror p "QHZ2" = -p "QHZ2" := if_pos (by decide)
theorem m_QHZ3 (p : Pars) : mirror p "QHZ3" = p "QHZ3" := if_neg (by decide)
theorem m_QHZ4 (p : Pars) : mirror p "QHZ4" = p "QHZ4" := if_neg (by decide)
theorem m_SSZ1 (p : Pars) : mirror p "SSZ1" = -p "SSZ1" := if_pos (by decide)
theorem m_SSZ2 (p : Pars) : mirror p "SSZ2" = p "SSZ2" := if_neg (by decide)
theorem m_SSZ3 (p : Pars) : mirror p "SSZ3" = p "SSZ3" := if_neg (by decide)
theorem m_SSZ4 (p : Pars) : mirror p "SSZ4" = p "SSZ4" := if_neg (by decide)

theorem curve_odd (B E x : ℝ) : curve B E (-x) = -curve B E x := by
  unfold curve
  rw [← Real.arctan_neg]
  congr 1
  rw [mul_neg, Real.arctan_neg]
  ring

theorem mdfz (p : Pars) (Fz : ℝ) : dfz (mirror p) Fz = dfz p Fz := by simp only [dfz, m_LFZO, m_FNOMIN]

theorem mmux (p : Pars) (Fz g : ℝ) : mux (mirror p) Fz (-g) = mux p Fz g := by
  simp only [mux, mdfz, m_PDX1, m_PDX2, m_PDX3, m_LMUX, even_two, Even.neg_pow]

theorem mCx (p : Pars) : Cx (mirror p) = Cx p := by simp only [Cx, m_PCX1, m_LCX]

theorem mDx (p : Pars) (Fz g : ℝ) : Dx (mirror p) Fz (-g) = Dx p Fz g := by simp only [Dx, mmux]

theorem mKx (p : Pars) (Fz : ℝ) : Kx (mirror p) Fz = Kx p Fz := by simp only [Kx, mdfz, m_PKX1, m_PKX2, m_PKX3, m_LKX]

theorem mdenX (p : Pars) (Fz g : ℝ) : denX (mirror p) Fz (-g) = denX p Fz g := by simp only [denX, mCx, mDx, m_epsilonx]

theorem mBx (p : Pars) (Fz g : ℝ) : Bx (mirror p) Fz (-g) = Bx p Fz g := by simp only [Bx, mKx, mdenX]

theorem mHx (p : Pars) (Fz : ℝ) : Hx (mirror p) Fz = Hx p Fz := by simp only [Hx, mdfz, m_PHX1, m_PHX2, m_LHX]

theorem mVx (p : Pars) (Fz : ℝ) : Vx (mirror p) Fz = Vx p Fz := by simp only [Vx, mdfz, m_PVX1, m_PVX2, m_LVX, m_LMUX]

theorem mEx (p : Pars) (Fz x : ℝ) : Ex (mirror p) Fz x = Ex p Fz x := by
  simp only [Ex, mdfz, m_PEX1, m_PEX2, m_PEX3, m_PEX4, m_LEX]

theorem mpureX (p : Pars) (Fz g k : ℝ) : pureX (mirror p) Fz (-g) k = pureX p Fz g k := by
  simp only [pureX, mDx, mCx, mBx, mEx, mHx, mVx]

theorem mcosX (p : Pars) (Fz k a : ℝ) : cosX (mirror p) Fz k (-a) = cosX p Fz k a := by
  have h1 : slopeX (mirror p) k = slopeX p k := by simp only [slopeX, m_RBX1, m_RBX2, m_LXAL]
  have h2 : bendX (mirror p) Fz = bendX p Fz := by simp only [bendX, mdfz, m_REX1, m_REX2]
  simp only [cosX, h1, h2, curve_odd, m_RCX1, mul_neg, Real.cos_neg]

theorem mweightX (p : Pars) (Fz k a : ℝ) : weightX (mirror p) Fz k (-a) = weightX p Fz k a := by
  unfold weightX
  rw [m_RHX1, ← neg_add, mcosX, mcosX]

theorem mmuy (p : Pars) (Fz g : ℝ) : muy (mirror p) Fz (-g) = muy p Fz g := by
  simp only [muy, mdfz, m_PDY1, m_PDY2, m_PDY3, m_LMUY, even_two, Even.neg_pow]

theorem mCy (p : Pars) : Cy (mirror p) = Cy p := by simp only [Cy, m_PCY1, m_LCY]

theorem mDy (p : Pars) (Fz g : ℝ) : Dy (mirror p) Fz (-g) = Dy p Fz g := by simp only [Dy, mmuy]

theorem mKy (p : Pars) (Fz g : ℝ) : Ky (mirror p) Fz (-g) = Ky p Fz g := by
  simp only [Ky, m_PKY1, m_PKY2, m_PKY3, m_LKY, m_LFZO, m_FNOMIN, abs_neg]

theorem mdenY (p : Pars) (Fz g : ℝ) : denY (mirror p) Fz (-g) = denY p Fz g := by simp only [denY, mCy, mDy, m_epsilony]

theorem mBy (p : Pars) (Fz g : ℝ) : By (mirror p) Fz (-g) = By p Fz g := by simp only [By, mKy, mdenY]

theorem mHy (p : Pars) (Fz g : ℝ) : Hy (mirror p) Fz (-g) = -Hy p Fz g := by
  simp only [Hy, mdfz, m_PHY1, m_PHY2, m_PHY3, m_LHY]
  ring

theorem mVy (p : Pars) (Fz g : ℝ) : Vy (mirror p) Fz (-g) = -Vy p Fz g := by
  simp only [Vy, mdfz, m_PVY1, m_PVY2, m_PVY3, m_PVY4, m_LVY, m_LMUY]
  ring

theorem mEy (p : Pars) (Fz g x : ℝ) : Ey (mirror p) Fz (-g) (-x) = Ey p Fz g x := by
  simp only [Ey, mdfz, m_PEY1, m_PEY2, m_PEY3, m_PEY4, m_LEY, Real.sign_neg]
  congr 1
  ring

theorem mpureY (p : Pars) (Fz g a : ℝ) : pureY (mirror p) Fz (-g) (-a) = -pureY p Fz g a := by
  unfold pureY
  rw [mHy, ← neg_add, mEy, mBy, mDy, mCy, mVy, curve_odd, mul_neg, Real.sin_neg]
  ring

theorem mcosY (p : Pars) (Fz a k : ℝ) : cosY (mirror p) Fz (-a) k = cosY p Fz a k := by
  have h1 : slopeY (mirror p) (-a) = slopeY p a := by
    simp only [slopeY, m_RBY1, m_RBY2, m_RBY3, m_LYKA]
    rw [show p "RBY2" * (-a - -p "RBY3") = -(p "RBY2" * (a - p "RBY3")) by ring, Real.arctan_neg, Real.cos_neg]
  have h2 : bendY (mirror p) Fz = bendY p Fz := by simp only [bendY, mdfz, m_REY1, m_REY2]
  simp only [cosY, h1, h2, m_RCY1]

theorem mshiftY (p : Pars) (Fz : ℝ) : shiftY (mirror p) Fz = shiftY p Fz := by simp only [shiftY, mdfz, m_RHY1, m_RHY2]

theorem mweightY (p : Pars) (Fz a k : ℝ) : weightY (mirror p) Fz (-a) k = weightY p Fz a k := by
  unfold weightY
  rw [mshiftY, mcosY, mcosY]

theorem minduced (p : Pars) (Fz g a k : ℝ) : induced (mirror p) Fz (-g) (-a) k = -induced p Fz g a k := by
  simp only [induced, inducedPeak, mmuy, mdfz, m_RVY1, m_RVY2, m_RVY3, m_RVY4, m_RVY5, m_RVY6, m_LVYKA, mul_neg, Real.arctan_neg, Real.cos_neg]
  ring

theorem mspeed (p : Pars) (v a : ℝ) : speed (mirror p) v (-a) = speed p v a := by
  simp only [speed, m_epsilonv, Real.tan_neg, neg_mul, even_two, Even.neg_pow]

theorem mforceX (p : Pars) (i : In) : forceX (mirror p) i.mirrored = forceX p i := by
  simp only [forceX, In.mirrored, mweightX, mpureX]

theorem mforceY (p : Pars) (i : In) : forceY (mirror p) i.mirrored = -forceY p i := by
  simp only [forceY, In.mirrored, mweightY, mpureY, minduced]
  ring

theorem mKyp (p : Pars) (Fz g : ℝ) : Kyp (mirror p) Fz (-g) = Kyp p Fz g := by simp only [Kyp, mKy, m_epsilonk]

theorem mangleT (p : Pars) (i : In) : angleT (mirror p) i.mirrored = -angleT p i := by
  simp only [angleT, In.mirrored, mdfz, m_QHZ1, m_QHZ2, m_QHZ3, m_QHZ4]
  ring

theorem mangleR (p : Pars) (i : In) : angleR (mirror p) i.mirrored = -angleR p i := by
  simp only [angleR, In.mirrored, mHy, mVy, mKyp]
  ring

theorem mequivalent (p : Pars) (i : In) (a : ℝ) : equivalent (mirror p) i.mirrored (-a) = -equivalent p i a := by
  simp only [equivalent, In.mirrored, mKx, mKyp, Real.tan_neg, even_two, Even.neg_pow, Real.sign_neg, mul_neg]

theorem mtrailD (p : Pars) (Fz g : ℝ) : trailD (mirror p) Fz (-g) = trailD p Fz g := by
  simp only [trailD, mdfz, m_QDZ1, m_QDZ2, m_QDZ3, m_QDZ4, m_UNLOADED_RADIUS, m_LFZO, m_FNOMIN, m_LTR, even_two, Even.neg_pow, neg_mul_neg]

theorem mtrailB (p : Pars) (Fz g : ℝ) : trailB (mirror p) Fz (-g) = trailB p Fz g := by
  simp only [trailB, mdfz, m_QBZ1, m_QBZ2, m_QBZ3, m_QBZ4, m_QBZ5, m_LKY, m_LMUY, abs_neg, neg_mul_neg]

theorem mtrailE (p : Pars) (i : In) : trailE (mirror p) i.mirrored = trailE p i := by
  unfold trailE
  rw [mangleT]
  simp only [In.mirrored, mtrailB, mdfz, m_QEZ1, m_QEZ2, m_QEZ3, m_QEZ4, m_QEZ5, m_QCZ1, mul_neg, Real.arctan_neg]
  ring

theorem mtrail (p : Pars) (i : In) : trail (mirror p) i.mirrored = trail p i := by
  unfold trail
  rw [mangleT, mequivalent, mtrailE]
  simp only [In.mirrored, mtrailB, mtrailD, mspeed, curve_odd, m_LFZO, m_QCZ1, mul_neg, Real.cos_neg]

theorem mresidual (p : Pars) (i : In) : residual (mirror p) i.mirrored = -residual p i := by
  unfold residual
  rw [mangleR, mequivalent]
  simp only [In.mirrored, mdfz, mBy, mCy, m_QDZ6, m_QDZ7, m_QDZ8, m_QDZ9, m_UNLOADED_RADIUS, m_LRES, m_LMUY, m_LKY, m_QBZ9, m_QBZ10, mul_neg,
    Real.arctan_neg, Real.cos_neg]
  ring

theorem marm (p : Pars) (i : In) : arm (mirror p) i.mirrored = -arm p i := by
  unfold arm
  rw [mforceY]
  simp only [In.mirrored, mdfz, m_UNLOADED_RADIUS, m_SSZ1, m_SSZ2, m_SSZ3, m_SSZ4, m_FNOMIN, m_LS]
  ring

theorem maligning (p : Pars) (i : In) : aligning (mirror p) i.mirrored = -aligning p i := by
  unfold aligning
  rw [mtrail, mforceY, mresidual, marm, mforceX]
  simp only [In.mirrored, minduced]
  ring

theorem moverturning (p : Pars) (g Fz F : ℝ) : overturning (mirror p) (-g) Fz (-F) = -overturning p g Fz F := by
  simp only [overturning, m_UNLOADED_RADIUS, m_LMX, m_QSX1, m_LVMX, m_QSX2, m_QSX3, m_FNOMIN]
  ring

theorem mrolling (p : Pars) (Fz v F : ℝ) : rolling (mirror p) Fz v F = rolling p Fz v F := by
  simp only [rolling, m_UNLOADED_RADIUS, m_LMY, m_QSY1, m_QSY2, m_QSY3, m_QSY4, m_FNOMIN, m_LONGVL]

theorem mfinite {p : Pars} {i : In} (h : Finite p i) : Finite (mirror p) i.mirrored := by
  refine ⟨?_, ?_, ?_, ?_, ?_, ?_, ?_, ?_⟩
  · rw [m_LFZO, m_FNOMIN]
    exact h.nominal
  · rw [m_PKY2]
    exact h.stiff
  · simp only [In.mirrored, mspeed]
    exact h.moving
  · simp only [In.mirrored, mspeed]
    exact h.cosine
  · simp only [In.mirrored, mdenX]
    exact h.lon
  · simp only [In.mirrored, mdenY]
    exact h.lat
  · rw [m_RHX1]
    simp only [In.mirrored, mcosX]
    exact h.weightX
  · simp only [In.mirrored, mshiftY, mcosY]
    exact h.weightY

theorem mfiniteMoments {p : Pars} {i : In} (h : FiniteMoments p i) : FiniteMoments (mirror p) i.mirrored := by
  refine ⟨?_, ?_, ?_⟩
  · rw [m_LONGVL]
    exact h.speed
  · rw [m_LMUY]
    exact h.friction
  · simp only [In.mirrored, mKyp]
    exact h.stiffness

theorem lookup_mirrored (d : Dict ℝ) (k : String) :
    (mirrored d).lookup k = (d.lookup k).map fun v => if k ∈ handed then -v else v := by
  unfold mirrored
  induction d with
  | nil => rfl
  | cons kv d ih =>
    obtain ⟨k', v⟩ := kv
    simp only [List.map_cons, List.lookup_cons]
    by_cases h : k = k'
    · subst h
      simp
    · rw [beq_eq_false_iff_ne.mpr h]
      exact ih

theorem par_mirrored (d : Dict ℝ) : par (mirrored d) = mirror (par d) := by
  funext k
  unfold par mirror
  simp only [lookup_mirrored]
  rcases d.lookup k with _ | v
  · simp
  · rfl

theorem hasKeys_mirrored {d : Dict ℝ} {opt : Bool} (h : HasKeys d opt) : HasKeys (mirrored d) opt := by
  intro k hk
  rw [lookup_mirrored, Option.isSome_map]
  exact h k hk

/-! ## C84 -/

/-- **C84** (mirror image). Turn the slip angle, the camber and the sign of the handed parameters around: the longitudinal force, the rolling
resistance moment, the stiffnesses and the weights stay as they are, the side force, the overturning moment and the aligning moment turn around. -/
theorem C84_mirror {d : Dict ℝ} {opt : Bool} {i : In} {o : Out} (h : Gives d opt i o) : Gives (mirrored d) opt i.mirrored o.mirrored := by
  have hk := hasKeys_of h
  obtain ⟨h1, h2, rfl⟩ := (forces_iff _ _ _ _).mp ((gives_iff d opt i o hk).mp h)
  refine (gives_iff _ _ _ _ (hasKeys_mirrored hk)).mpr ((forces_iff _ _ _ _).mpr ?_)
  rw [par_mirrored]
  refine ⟨mfinite h1, fun e => mfiniteMoments (h2 e), ?_⟩
  have e1 : overturning (mirror (par d)) i.mirrored.gamma i.mirrored.Fz (forceY (mirror (par d)) i.mirrored) =
      -overturning (par d) i.gamma i.Fz (forceY (par d) i) := by
    rw [mforceY]
    exact moverturning _ _ _ _
  have e2 : rolling (mirror (par d)) i.mirrored.Fz i.mirrored.vx (forceX (mirror (par d)) i.mirrored) =
      rolling (par d) i.Fz i.vx (forceX (par d) i) := by
    rw [mforceX]
    exact mrolling _ _ _ _
  rw [e1, e2, maligning]
  unfold outOf
  rw [mforceX, mforceY]
  simp only [In.mirrored, mKx, mweightX, mKy, mweightY, Out.mirrored]
  cases opt <;> simp

theorem In.mirrored_mirrored (i : In) : i.mirrored.mirrored = i := by simp [In.mirrored]

theorem Out.mirrored_mirrored (o : Out) : o.mirrored.mirrored = o := by simp [Out.mirrored]

theorem mirrored_mirrored (d : Dict ℝ) : mirrored (mirrored d) = d := by
  unfold mirrored
  rw [List.map_map]
  conv_rhs => rw [← List.map_id d]
  apply List.map_congr_left
  rintro ⟨k, v⟩ -
  by_cases h : k ∈ handed <;> simp [h]

/-- **C84** (exactly). The mirrored tyre gives exactly the mirrored outputs for the mirrored inputs. -/
theorem C84_mirror_iff (d : Dict ℝ) (opt : Bool) (i : In) (o : Out) : Gives (mirrored d) opt i o ↔ Gives d opt i.mirrored o.mirrored := by
  constructor
  · intro h
    have := C84_mirror h
    rwa [mirrored_mirrored] at this
  · intro h
    have := C84_mirror h
    rwa [In.mirrored_mirrored, Out.mirrored_mirrored] at this

/-- **C84** (a symmetric tyre). When the handed parameters are zero, the tyre is its own mirror image: an upright tyre without slip angle gives
no side force, no overturning moment and no aligning moment, whatever the load, the slip ratio and the speed. -/
theorem C84_symmetric {d : Dict ℝ} {opt : Bool} {i : In} {o : Out} (hd : ∀ kv ∈ d, kv.1 ∈ handed → kv.2 = 0) (h : Gives d opt i o)
    (ha : i.alpha = 0) (hg : i.gamma = 0) : o.Fy = 0 ∧ o.Mx = 0 ∧ o.Mz = 0 := by
  have e : mirrored d = d := by
    unfold mirrored
    conv_rhs => rw [← List.map_id d]
    apply List.map_congr_left
    rintro ⟨k, v⟩ hm
    by_cases hk : k ∈ handed
    · have : v = 0 := hd _ hm hk
      simp [this]
    · simp [hk]
  have ei : i.mirrored = i := by
    cases i
    simp only at ha hg
    simp [In.mirrored, ha, hg]
  have h' := C84_mirror h
  rw [e, ei] at h'
  obtain ⟨r, h1, h2⟩ := h
  obtain ⟨r', h1', h2'⟩ := h'
  rw [h1] at h1'
  cases h1'
  rw [h2] at h2'
  simp only [Out.mirrored, List.cons.injEq, Prod.mk.injEq, true_and, and_true] at h2'
  obtain ⟨a, b, c⟩ := h2'
  exact ⟨by linarith, by linarith, by linarith⟩

end Lumos.Tyre
