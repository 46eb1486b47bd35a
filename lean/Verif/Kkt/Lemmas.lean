import Verif.Kkt.Model
/-!
# Changing the units of a function
-/

namespace Lumos.Kkt

open Lumos Lumos.NLP

theorem getD_ne {s : List ℝ} {n : Nat} (hs : s.length = n ∧ ∀ a ∈ s, a ≠ 0) {j : Nat} (hj : j < n) : s.getD j 0 ≠ 0 :=
  getD_mem_ne hs.2 (by omega)

theorem getD_pos {s : List ℝ} (hs : ∀ a ∈ s, 0 < a) {j : Nat} (hj : j < s.length) : 0 < s.getD j 0 := by
  have := hs _ (List.getElem_mem hj)
  simpa [hj] using this

theorem vmul_set_div {z s : List ℝ} {n : Nat} (hz : z.length = n) (hs : s.length = n ∧ ∀ a ∈ s, a ≠ 0) {j : Nat} (hj : j < n)
    (t : ℝ) : (vmul z s).set j t = vmul (z.set j (t / s.getD j 0)) s := by
  rw [vmul_set (by rw [hz, hs.1]), div_mul_cancel₀ _ (getD_ne hs hj)]

theorem len_vmul {z s : List ℝ} {n : Nat} (hz : z.length = n) (hs : s.length = n) : (vmul z s).length = n := by
  simp [hz, hs]

theorem len_vdiv {z s : List ℝ} {n : Nat} (hz : z.length = n) (hs : s.length = n) : (vdiv z s).length = n := by
  simp [hz, hs]

/-- Composition with division by a positive number. -/
theorem deriv_div {φ : ℝ → ℝ} {a u s : ℝ} (hs : s ≠ 0) (h : HasDerivAt φ a u) :
    HasDerivAt (fun t => φ (t / s)) (a / s) (u * s) := by
  have h1 : HasDerivAt (fun t : ℝ => t / s) (1 / s) (u * s) := (hasDerivAt_id (u * s)).div_const s
  have h2 : HasDerivAt φ a ((u * s) / s) := by rwa [mul_div_cancel_right₀ _ hs]
  have := HasDerivAt.comp (u * s) h2 h1
  simpa [div_eq_mul_inv, Function.comp_def] using this

theorem grad_unscale {n : Nat} {f fh : List ℝ → ℝ} {z s : List ℝ} (hz : z.length = n) (hs : s.length = n ∧ ∀ a ∈ s, a ≠ 0)
    (hf : ∀ y : List ℝ, y.length = n → fh y = f (vmul y s)) {g : Nat → ℝ} (h : IsGradientAt n fh z g) :
    IsGradientAt n f (vmul z s) (fun j => g j / s.getD j 0) := by
  intro j hj
  have h1 := h j hj
  rw [getD_vmul (by rw [hz, hs.1])]
  refine (deriv_div (getD_ne hs hj) h1).congr_of_eventuallyEq (Filter.Eventually.of_forall fun t => ?_)
  dsimp only
  rw [vmul_set_div hz hs hj, hf _ (by simpa using hz)]

theorem jac_unscale {n m : Nat} {F Fh : List ℝ → List ℝ} {z s k : List ℝ} (hz : z.length = n)
    (hs : s.length = n ∧ ∀ a ∈ s, a ≠ 0) (hk : k.length = m ∧ ∀ a ∈ k, a ≠ 0)
    (hlen : ∀ y : List ℝ, y.length = n → (F y).length = m)
    (hf : ∀ y : List ℝ, y.length = n → Fh y = vdiv (F (vmul y s)) k) {J : Nat → Nat → ℝ} (h : IsJacobianAt n m Fh z J) :
    IsJacobianAt n m F (vmul z s) (fun r j => J r j * k.getD r 0 / s.getD j 0) := by
  intro r hr j hj
  have h1 := (h r hr j hj).mul_const (k.getD r 0)
  rw [getD_vmul (by rw [hz, hs.1])]
  refine (deriv_div (getD_ne hs hj) h1).congr_of_eventuallyEq (Filter.Eventually.of_forall fun t => ?_)
  dsimp only
  have hl : (z.set j (t / s.getD j 0)).length = n := by simpa using hz
  rw [vmul_set_div hz hs hj, hf _ hl, getD_vdiv (by rw [hlen _ (len_vmul hl hs.1), hk.1]),
    div_mul_cancel₀ _ (getD_ne hk hr)]

theorem hess_unscale {n : Nat} {f fh : List ℝ → ℝ} {z s : List ℝ} {P : Nat → Nat → Prop} (hz : z.length = n)
    (hs : s.length = n ∧ ∀ a ∈ s, a ≠ 0)
    (hf : ∀ y : List ℝ, y.length = n → fh y = f (vmul y s)) {H : Nat → Nat → ℝ} (h : IsHessianAt n fh z P H) :
    IsHessianAt n f (vmul z s) P (fun i j => H i j / (s.getD i 0 * s.getD j 0)) := by
  obtain ⟨g, hg, hH⟩ := h
  refine ⟨fun y i => g (vdiv y s) i / s.getD i 0, ?_, ?_⟩
  · intro j hj
    rw [getD_vmul (by rw [hz, hs.1])]
    have hc : Filter.Tendsto (fun t : ℝ => t / s.getD j 0) (nhds (z.getD j 0 * s.getD j 0)) (nhds (z.getD j 0)) := by
      have h1 := (continuous_id.div_const (s.getD j 0)).tendsto (z.getD j 0 * s.getD j 0)
      simpa only [id_eq, mul_div_cancel_right₀ _ (getD_ne hs hj)] using h1
    filter_upwards [hc.eventually (hg j hj)] with t ht
    have hl : (z.set j (t / s.getD j 0)).length = n := by simp [hz]
    rw [vmul_set_div hz hs hj, vdiv_vmul_cancel (by simp [hz, hs.1]) hs.2]
    exact grad_unscale hl hs hf ht
  · intro i j hi hj hp
    have h1 := (hH i j hi hj hp).div_const (s.getD i 0)
    dsimp only
    rw [getD_vmul (by rw [hz, hs.1]), ← div_div]
    refine (deriv_div (getD_ne hs hj) h1).congr_of_eventuallyEq (Filter.Eventually.of_forall fun t => ?_)
    dsimp only
    rw [vmul_set_div hz hs hj, vdiv_vmul_cancel (by simp [hz, hs.1]) hs.2]

theorem grad_unique {n : Nat} {f : List ℝ → ℝ} {x : List ℝ} {g g' : Nat → ℝ} (h : IsGradientAt n f x g)
    (h' : IsGradientAt n f x g') {j : Nat} (hj : j < n) : g j = g' j := (h j hj).unique (h' j hj)

theorem jac_unique {n m : Nat} {F : List ℝ → List ℝ} {x : List ℝ} {J J' : Nat → Nat → ℝ} (h : IsJacobianAt n m F x J)
    (h' : IsJacobianAt n m F x J') {r j : Nat} (hr : r < m) (hj : j < n) : J r j = J' r j := (h r hr j hj).unique (h' r hr j hj)

theorem hess_unique {n : Nat} {f : List ℝ → ℝ} {x : List ℝ} {P : Nat → Nat → Prop} {H H' : Nat → Nat → ℝ}
    (h : IsHessianAt n f x P H) (h' : IsHessianAt n f x P H') {i j : Nat} (hi : i < n) (hj : j < n) (hp : P i j) :
    H i j = H' i j := by
  obtain ⟨g, hg, hH⟩ := h
  obtain ⟨g', hg', hH'⟩ := h'
  refine (hH i j hi hj hp).unique ((hH' i j hi hj hp).congr_of_eventuallyEq ?_)
  filter_upwards [hg j hj, hg' j hj] with t ht ht'
  exact grad_unique ht ht' hi

/-! ## The functions of a reachable problem -/

theorem vdiv_append {a a' b b' : List ℝ} (h : a.length = b.length) : vdiv (a ++ a') (b ++ b') = vdiv a b ++ vdiv a' b' := by
  simp [vdiv, List.zipWith_append h]

theorem flatten_vdiv {α : Type} (cs : List α) (a b : α → List ℝ) (h : ∀ c ∈ cs, (a c).length = (b c).length) :
    (cs.map fun c => vdiv (a c) (b c)).flatten = vdiv (cs.map a).flatten (cs.map b).flatten := by
  induction cs with
  | nil => simp [vdiv]
  | cons c cs ih =>
    simp only [List.map_cons, List.flatten_cons]
    rw [vdiv_append (h c (by simp)), ih (fun c' hc' => h c' (by simp [hc']))]

variable {n : Nat} {p : Prob} {A : List ℝ → Prop}

theorem con_len (hp : Reachable n p A) {c : String × Cons} (hc : c ∈ p.cons) {y : List ℝ} (hy : y.length = n) :
    (c.2.con y).length = c.2.numCon ∧ (c.2.conScales.length = c.2.numCon ∧ ∀ a ∈ c.2.conScales, a ≠ 0) := by
  obtain ⟨con, jac, hess, js, hs, k, e, hj, _, _, hk⟩ := hp.inv.cons c hc
  generalize hm : c.2.numCon = m at *
  rw [e]
  exact ⟨(hj.2 y hy).1, hk⟩

theorem length_flatten_eq {α : Type} (cs : List α) (a : α → List ℝ) (m : α → Nat) (h : ∀ c ∈ cs, (a c).length = m c) :
    (cs.map a).flatten.length = (cs.map m).sum := by
  induction cs with
  | nil => rfl
  | cons c cs ih =>
    simp only [List.map_cons, List.flatten_cons, List.length_append, List.sum_cons]
    rw [h c (by simp), ih (fun c' hc' => h c' (by simp [hc']))]

theorem residual_len (hp : Reachable n p A) {y : List ℝ} (hy : y.length = n) : (residual p y).length = p.numCon :=
  length_flatten_eq _ _ _ fun _ hc => (con_len hp hc hy).1

theorem conScale_good (hp : Reachable n p A) : (conScale p).length = p.numCon ∧ ∀ a ∈ conScale p, a ≠ 0 := by
  have hy : (List.replicate n (0 : ℝ)).length = n := by simp
  refine ⟨length_flatten_eq _ _ _ fun c hc => (con_len hp hc hy).2.1, ?_⟩
  intro a ha
  unfold conScale at ha
  obtain ⟨l, hl, hal⟩ := List.mem_flatten.mp ha
  obtain ⟨c, hc, rfl⟩ := List.mem_map.mp hl
  exact (con_len hp hc hy).2.2 a hal

theorem constraints_eq (hp : Reachable n p A) (hc : p.cons ≠ []) {z : List ℝ} (hz : z.length = n) :
    p.constraints z = .ok (vdiv (residual p (vmul z p.scales)) (conScale p)) := by
  have hemp : p.cons.isEmpty = false := by simpa using hc
  unfold Prob.constraints
  rw [hemp]
  simp only [Bool.false_eq_true, if_false]
  congr 1
  unfold residual conScale
  rw [← flatten_vdiv _ _ _ (fun _ hc => by
    rw [(con_len hp hc (len_vmul hz hp.inv.scales.1)).1, (con_len hp hc hz).2.1])]
  congr 1
  apply List.map_congr_left
  intro c hc
  unfold Cons.constraints
  rw [(hp.inv.cons c hc).facts.2.1]

theorem objective_eq (hp : Reachable n p A) (ho : p.objs ≠ []) (z : List ℝ) :
    p.objective z = .ok (cost p (vmul z p.scales)) := by
  have hemp : p.objs.isEmpty = false := by simpa using ho
  unfold Prob.objective cost
  rw [hemp]
  simp only [Bool.false_eq_true, if_false]
  congr 2
  apply List.map_congr_left
  intro o hoo
  unfold Obj.objective
  rw [(hp.inv.objs o hoo).facts.2.1]

theorem dot_vdiv (lam F k : List ℝ) (h1 : lam.length = k.length) (h2 : F.length = k.length) :
    dot lam (vdiv F k) = dot (vdiv lam k) F := by
  unfold dot vdiv
  congr 1
  apply List.ext_getElem
  · simp [h1, h2]
  · intro i a b
    simp only [List.getElem_zipWith]
    ring

/-- The derivatives in the user's units, and how the values of the callbacks are related to them. -/
theorem callbacks (hp : Reachable n p A) (hc : p.cons ≠ []) (ho : p.objs ≠ []) {z : List ℝ} (hz : z.length = n)
    (hA : A (vmul z p.scales)) :
    ∃ (g vals : List ℝ) (rows cols : List Nat), p.gradient z = .ok g ∧ p.jacobianstructure = .ok (rows, cols) ∧
      p.jacobian z = .ok vals ∧
      IsGradientAt n (cost p) (vmul z p.scales) (fun j => g.getD j 0 / p.scales.getD j 0) ∧
      IsJacobianAt n p.numCon (residual p) (vmul z p.scales)
        (fun r j => assemble rows cols vals r j * (conScale p).getD r 0 / p.scales.getD j 0) := by
  obtain ⟨f, g, hf, _, hg, _, _, hgr⟩ := C15_objective_and_gradient hp ho z hz
  obtain ⟨F, rows, cols, vals, hF, hst, hv, _, _, _, _, hJ⟩ := C13_jacobian hp hc z hz
  refine ⟨g, vals, rows, cols, hg, hst, hv, ?_, ?_⟩
  · refine grad_unscale hz hp.inv.scales (fun y _ => ?_) (hgr hA)
    have := hf y
    rw [objective_eq hp ho] at this
    exact (Except.ok.inj this).symm
  · refine jac_unscale hz hp.inv.scales (conScale_good hp) (fun y hy => residual_len hp hy) (fun y hy => ?_) (hJ hA)
    have := hF y
    rw [constraints_eq hp hc hy] at this
    exact (Except.ok.inj this).symm

end Lumos.Kkt
