import Verif.Kkt.Lemmas
import Mathlib.Algebra.BigOperators.Field
/-!
# C94: optimality in the units of the solver is optimality in the units of the user
-/

namespace Lumos.Kkt

open Lumos Lumos.NLP

variable {n : Nat} {p : Prob} {A : List ℝ → Prop}

theorem abs_div_pos {a s : ℝ} (hs : 0 < s) (b : ℝ) : |a / s| ≤ b / s ↔ |a| ≤ b := by
  rw [abs_div, abs_of_pos hs, div_le_div_iff_of_pos_right hs]

theorem scaled_bound_eq {l : EReal} {a b : ℝ} (ha : 0 < a) : l / (a : EReal) = ((b : ℝ) : EReal) ↔ l = ((b * a : ℝ) : EReal) := by
  induction l with
  | bot =>
    rw [EReal.bot_div_of_pos_ne_top (by exact_mod_cast ha) (EReal.coe_ne_top a)]
    exact ⟨fun h => absurd h (EReal.bot_ne_coe b), fun h => absurd h (EReal.bot_ne_coe _)⟩
  | top =>
    rw [EReal.top_div_of_pos_ne_top (by exact_mod_cast ha) (EReal.coe_ne_top a)]
    exact ⟨fun h => absurd h (EReal.top_ne_coe b), fun h => absurd h (EReal.top_ne_coe _)⟩
  | coe v =>
    rw [← EReal.coe_div, EReal.coe_eq_coe_iff, EReal.coe_eq_coe_iff, div_eq_iff ha.ne']

/-- The conditions in the two systems of units. -/
theorem kkt_scale {m : Nat} {s k : List ℝ} (hs : s.length = n) (hpos : ∀ a ∈ s, 0 < a) (hk : k.length = m ∧ ∀ a ∈ k, a ≠ 0)
    {lb ub : List EReal} (hlb : lb.length = n) (hub : ub.length = n) {z : List ℝ} (hz : z.length = n) {w : Mult}
    (h1 : w.lam.length = m) (h2 : w.zl.length = n) (h3 : w.zu.length = n) {dual prim comp : Nat → ℝ} {g g' : Nat → ℝ} {c c' : List ℝ}
    (hcl : c'.length = m) {J J' : Nat → Nat → ℝ} (hc : c = vdiv c' k) (hg : ∀ j, j < n → g' j = g j / s.getD j 0)
    (hJ : ∀ r j, r < m → j < n → J' r j = J r j * k.getD r 0 / s.getD j 0) :
    KKT n m dual prim comp g c J (scaleBounds lb s) (scaleBounds ub s) z w ↔
    KKT n m (fun j => dual j / s.getD j 0) (fun r => prim r * |k.getD r 0|) comp g' c' J' lb ub (vmul z s)
      ⟨vdiv w.lam k, vdiv w.zl s, vdiv w.zu s⟩ := by
  have pos : ∀ {j}, j < n → 0 < s.getD j 0 := fun hj => getD_pos hpos (by omega)
  have kne : ∀ {r}, r < m → k.getD r 0 ≠ 0 := fun hr => getD_ne hk hr
  have el : ∀ j, (vdiv w.zl s).getD j 0 = w.zl.getD j 0 / s.getD j 0 := getD_vdiv (by omega)
  have eu : ∀ j, (vdiv w.zu s).getD j 0 = w.zu.getD j 0 / s.getD j 0 := getD_vdiv (by omega)
  have em : ∀ r, (vdiv w.lam k).getD r 0 = w.lam.getD r 0 / k.getD r 0 := getD_vdiv (by omega)
  have ex : ∀ j, (vmul z s).getD j 0 = z.getD j 0 * s.getD j 0 := getD_vmul (by omega)
  have ec : ∀ r, c.getD r 0 = c'.getD r 0 / k.getD r 0 := by
    intro r
    rw [hc]
    exact getD_vdiv (by omega) r
  have hcm : c.length = m := by rw [hc]; exact len_vdiv hcl hk.1
  have feas : ∀ r, r < m → (|c.getD r 0| ≤ prim r ↔ |c'.getD r 0| ≤ prim r * |k.getD r 0|) := by
    intro r hr
    rw [ec, abs_div, div_le_iff₀ (abs_pos.mpr (kne hr))]
  have hstat : ∀ j, j < n →
      (|g j + ∑ r ∈ Finset.range m, w.lam.getD r 0 * J r j - w.zl.getD j 0 + w.zu.getD j 0| ≤ dual j ↔
      |g' j + ∑ r ∈ Finset.range m, (vdiv w.lam k).getD r 0 * J' r j - (vdiv w.zl s).getD j 0 + (vdiv w.zu s).getD j 0|
        ≤ dual j / s.getD j 0) := by
    intro j hj
    have e : ∑ r ∈ Finset.range m, (vdiv w.lam k).getD r 0 * J' r j
        = (∑ r ∈ Finset.range m, w.lam.getD r 0 * J r j) / s.getD j 0 := by
      rw [Finset.sum_div]
      apply Finset.sum_congr rfl
      intro r hr
      have hr' := Finset.mem_range.mp hr
      rw [em, hJ r j hr' hj]
      have := kne hr'
      field_simp
    rw [e, hg j hj, el, eu, ← abs_div_pos (pos hj)]
    have : g j / s.getD j 0 + (∑ r ∈ Finset.range m, w.lam.getD r 0 * J r j) / s.getD j 0 - w.zl.getD j 0 / s.getD j 0
        + w.zu.getD j 0 / s.getD j 0
        = (g j + ∑ r ∈ Finset.range m, w.lam.getD r 0 * J r j - w.zl.getD j 0 + w.zu.getD j 0) / s.getD j 0 := by ring
    rw [this]
  have hlow : ∀ j, j < n → ((w.zl.getD j 0 = 0 ∨ ∃ l : ℝ, (scaleBounds lb s).getD j 0 = (l : EReal) ∧
      (z.getD j 0 - l) * w.zl.getD j 0 ≤ comp j) ↔ ((vdiv w.zl s).getD j 0 = 0 ∨ ∃ l : ℝ, lb.getD j 0 = (l : EReal) ∧
      ((vmul z s).getD j 0 - l) * (vdiv w.zl s).getD j 0 ≤ comp j)) := by
    intro j hj
    have ps := pos hj
    rw [el, ex, getD_scaleBounds (by omega) (by omega), div_eq_zero_iff, or_iff_left (b := s.getD j 0 = 0) ps.ne']
    refine or_congr Iff.rfl ⟨?_, ?_⟩
    · rintro ⟨l, a1, a2⟩
      refine ⟨l * s.getD j 0, (scaled_bound_eq ps).mp a1, le_of_eq_of_le ?_ a2⟩
      field_simp
    · rintro ⟨l, a1, a2⟩
      refine ⟨l / s.getD j 0, (scaled_bound_eq ps).mpr (by rw [a1, div_mul_cancel₀ _ ps.ne']), le_of_eq_of_le ?_ a2⟩
      field_simp
  have hup : ∀ j, j < n → ((w.zu.getD j 0 = 0 ∨ ∃ l : ℝ, (scaleBounds ub s).getD j 0 = (l : EReal) ∧
      (l - z.getD j 0) * w.zu.getD j 0 ≤ comp j) ↔ ((vdiv w.zu s).getD j 0 = 0 ∨ ∃ l : ℝ, ub.getD j 0 = (l : EReal) ∧
      (l - (vmul z s).getD j 0) * (vdiv w.zu s).getD j 0 ≤ comp j)) := by
    intro j hj
    have ps := pos hj
    rw [eu, ex, getD_scaleBounds (by omega) (by omega), div_eq_zero_iff, or_iff_left (b := s.getD j 0 = 0) ps.ne']
    refine or_congr Iff.rfl ⟨?_, ?_⟩
    · rintro ⟨l, a1, a2⟩
      refine ⟨l * s.getD j 0, (scaled_bound_eq ps).mp a1, le_of_eq_of_le ?_ a2⟩
      field_simp
    · rintro ⟨l, a1, a2⟩
      refine ⟨l / s.getD j 0, (scaled_bound_eq ps).mpr (by rw [a1, div_mul_cancel₀ _ ps.ne']), le_of_eq_of_le ?_ a2⟩
      field_simp
  have hsign : ∀ j, j < n → ((0 ≤ w.zl.getD j 0 ∧ 0 ≤ w.zu.getD j 0) ↔
      (0 ≤ (vdiv w.zl s).getD j 0 ∧ 0 ≤ (vdiv w.zu s).getD j 0)) := by
    intro j hj
    rw [el, eu, le_div_iff₀ (pos hj), le_div_iff₀ (pos hj), zero_mul]
  have hwith := C17_bounds hpos (hlb.trans hs.symm) (hub.trans hs.symm) (hz.trans hs.symm)
  constructor
  · intro h
    exact ⟨⟨len_vmul hz hs, len_vdiv h1 hk.1, len_vdiv h2 hs, len_vdiv h3 hs⟩,
      ⟨hcl, fun r hr => (feas r hr).mp (h.feasible.2 r hr)⟩, hwith.mp h.within, fun j hj => (hsign j hj).mp (h.sign j hj),
      fun j hj => (hstat j hj).mp (h.stationary j hj), fun j hj => (hlow j hj).mp (h.lower j hj),
      fun j hj => (hup j hj).mp (h.upper j hj)⟩
  · intro h
    exact ⟨⟨hz, h1, h2, h3⟩, ⟨hcm, fun r hr => (feas r hr).mpr (h.feasible.2 r hr)⟩, hwith.mpr h.within,
      fun j hj => (hsign j hj).mpr (h.sign j hj), fun j hj => (hstat j hj).mpr (h.stationary j hj),
      fun j hj => (hlow j hj).mpr (h.lower j hj), fun j hj => (hup j hj).mpr (h.upper j hj)⟩

theorem KKT.congr {m : Nat} {dual prim comp g g' : Nat → ℝ} {c : List ℝ} {J J' : Nat → Nat → ℝ} {lb ub : List EReal} {x : List ℝ}
    {w : Mult} (h : KKT n m dual prim comp g c J lb ub x w) (hg : ∀ j, j < n → g j = g' j)
    (hJ : ∀ r j, r < m → j < n → J r j = J' r j) : KKT n m dual prim comp g' c J' lb ub x w := by
  refine { h with stationary := fun j hj => ?_ }
  rw [← hg j hj, Finset.sum_congr rfl fun r hr => by rw [← hJ r j (Finset.mem_range.mp hr) hj]]
  exact h.stationary j hj

/-- **C94** (first order). The solver's point and multipliers pass IPOPT's test, made with the values of the callbacks
and the scaled bounds, if and only if the unscaled point satisfies the optimality conditions of the user's problem,
with the multipliers in the user's units and the tolerances divided or multiplied by the scales. -/
theorem C94_first_order (hp : Reachable n p A) (hpos : ∀ a ∈ p.scales, 0 < a) (hc : p.cons ≠ []) (ho : p.objs ≠ [])
    {lb ub : List EReal} (hlb : lb.length = n) (hub : ub.length = n) {z : List ℝ} (hz : z.length = n)
    (hA : A (vmul z p.scales)) {w : Mult}
    (h1 : w.lam.length = p.numCon) (h2 : w.zl.length = n) (h3 : w.zu.length = n) (dual prim comp : Nat → ℝ) :
    Accepted p dual prim comp (scaleBounds lb p.scales) (scaleBounds ub p.scales) z w ↔
    Stationary n p.numCon (fun j => dual j / p.scales.getD j 0) (fun r => prim r * |(conScale p).getD r 0|) comp
      (cost p) (residual p) lb ub (vmul z p.scales) (inUnits p w) := by
  obtain ⟨g, vals, rows, cols, e1, e2, e3, hg, hJ⟩ := callbacks hp hc ho hz hA
  have e4 := constraints_eq hp hc hz
  have hx := len_vmul hz hp.inv.scales.1
  have key := fun (g' : Nat → ℝ) (J' : Nat → Nat → ℝ) (hg' : ∀ j, j < n → g' j = g.getD j 0 / p.scales.getD j 0)
      (hJ' : ∀ r j, r < p.numCon → j < n → J' r j = assemble rows cols vals r j * (conScale p).getD r 0 / p.scales.getD j 0) =>
    kkt_scale (dual := dual) (prim := prim) (comp := comp) (J' := J') (J := assemble rows cols vals) (g := fun j => g.getD j 0)
      (g' := g') (c' := residual p (vmul z p.scales)) hp.inv.scales.1 hpos (conScale_good hp) hlb hub hz h1 h2 h3
      (residual_len hp hx) rfl hg' hJ'
  constructor
  · rintro ⟨g0, c0, v0, r0, k0, a1, a2, a3, a4, a5⟩
    rw [a1] at e1; rw [a2] at e4; rw [a3] at e2; rw [a4] at e3
    cases e1; cases e2; cases e3; cases e4
    rw [hp.inv.dec] at a5
    exact ⟨_, _, hg, hJ, (key _ _ (fun _ _ => rfl) (fun _ _ _ _ => rfl)).mp a5⟩
  · rintro ⟨g', J', a1, a2, a3⟩
    refine ⟨g, _, vals, rows, cols, e1, e4, e2, e3, ?_⟩
    rw [hp.inv.dec]
    exact (key g' J' (fun j hj => grad_unique a1 hg hj) (fun r j hr hj => jac_unique a2 hJ hr hj)).mpr a3

end Lumos.Kkt
