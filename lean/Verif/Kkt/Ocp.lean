import Verif.Kkt.Solve
import Verif.Ocp.BuildMore
/-!
# C94: the optimum of the optimal control problem

What the solver is asked to find, for a problem that was built from a configuration: the best solution of the discretised equations within the
configured bounds. The condensed form has the same optimum as the full form.
-/

namespace Lumos.Kkt

open Lumos Lumos.NLP Lumos.Ocp Lumos.Ocp.OCP Lumos.DecVar Lumos.DecVar.Layout Lumos.Bounds

/-! ## Specification -/

/-- What is minimised: the mesh scale (its total length), or, on a fixed mesh, the time from the first to the last stage; for a lap, plus the mean
square of the steering angle. -/
noncomputable def taskCost (S : Setup) (x : List ℝ) : ℝ :=
  (if S.c.o.fixedScale = none then readScale S.c.o x
    else readAt S.c.o.L x "states" "time" (S.c.o.L.numStages - 1) - readAt S.c.o.L x "states" "time" 0) +
  if S.laptime = true then (∑ s ∈ Finset.range S.c.o.L.numStages, readAt S.c.o.L x "inputs" "steer" s ^ 2) / (S.c.o.L.numStages : ℝ) else 0

/-- The solutions of the discretised problem within the bounds. -/
def Task (S : Setup) (b : Built) (x : List ℝ) : Prop := IsSolution S x ∧ Within b.bounds.lb b.bounds.ub x

/-- The state derivatives of a decision vector are all zero. -/
def DotsZero (S : Setup) (x : List ℝ) : Prop := ∀ n ∈ S.c.o.L.namesOf "states_dot", ∀ s, s < S.c.o.L.numStages → readAt S.c.o.L x "states_dot" n s = 0

/-- No bound and no boundary condition is set on a state derivative. -/
def DotsFree (S : Setup) : Prop := ∀ n ∈ S.c.o.L.namesOf "states_dot",
  (∀ c ∈ S.bounds, c.group ++ "." ++ c.name ≠ "states_dot" ++ "." ++ n) ∧ ∀ c ∈ S.bcs, c.group ++ "." ++ c.name ≠ "states_dot" ++ "." ++ n

/-! ## Proof -/

variable {S : Setup} {D D' : List ℝ → ℝ → Prop} {b : Built}

theorem built_facts (h : S.Good D) (hb : S.build = .ok b) : Reachable S.c.o.L.numDec b.prob (S.dom D) ∧ b.prob.cons ≠ [] ∧ b.prob.objs ≠ [] ∧
    b.bounds.lb.length = S.c.o.L.numDec ∧ b.bounds.ub.length = S.c.o.L.numDec := by
  obtain ⟨b', h1, h2, hcon, hobj, _⟩ := C47_build h
  rw [hb] at h1
  obtain rfl := Except.ok.inj h1
  refine ⟨h2, fun e => ?_, fun e => ?_, ?_⟩
  · rw [e] at hcon
    cases hcd : S.isCondensed <;> cases hcy : S.isCyclic <;> simp [hcd, hcy] at hcon
  · rw [e] at hobj
    simp at hobj
  · obtain ⟨b', _, s, k1, _, _, _, _, _, _, _, k2, k3, _⟩ := build_ok h
    rw [hb] at k1
    simp only [Except.ok.injEq] at k1
    subst k1
    have key : ∀ (rs : List (Req EReal)) (s s' : St EReal), s.lb.length = S.c.o.L.numDec → s.ub.length = S.c.o.L.numDec →
        setAll S.c.o.L s rs = (s', none) → s'.lb.length = S.c.o.L.numDec ∧ s'.ub.length = S.c.o.L.numDec := by
      intro rs s s' l1 l2 e
      obtain ⟨v, v1, v2⟩ := C01_index_surjective h.cond.ocp.made 0 (by
        have := numVarStage_pos h.cond.ocp
        have := numStages_pos S.c.o.L
        have := allStage_le_numDec S.c.o.L
        unfold numAllStageVar at this
        have := Nat.mul_pos ‹0 < S.c.o.L.numStages› ‹0 < S.c.o.L.numVarStage›
        omega)
      obtain ⟨_, _, a3, a4, _⟩ := setAll_at h.cond.ocp.made rs l1 l2 e v1 v2
      exact ⟨a3, a4⟩
    unfold Bounds.updateBounds at k2
    cases e1 : setAll S.c.o.L (Bounds.fresh S.c.o.L) ((S.allBounds (S.c.o.L.namesOf "states_dot")).map BoundConfig.req) with
    | mk s1 e =>
      rw [e1] at k2
      cases e with
      | some e => simp at k2
      | none =>
        obtain ⟨a3, a4⟩ := key _ _ _ (by simp [Bounds.fresh]) (by simp [Bounds.fresh]) e1
        obtain ⟨a5, a6⟩ := key _ _ _ a3 a4 k2
        exact key _ { s with bcs := s.bcs ++ S.bcs } _ a5 a6 k3

theorem back {n : Nat} {p : Prob} {A : List ℝ → Prop} (hp : Reachable n p A) {y : List ℝ} (hy : y.length = n) : vmul (vdiv y p.scales) p.scales = y :=
  vmul_vdiv_cancel (by rw [hy, hp.inv.scales.1]) hp.inv.scales.2

theorem cost_eq (h : S.Good D) (hb : S.build = .ok b) {x : List ℝ} (hx : x.length = S.c.o.L.numDec) : cost b.prob x = taskCost S x := by
  obtain ⟨hp, hc, ho, -⟩ := built_facts h hb
  have e1 := objective_eq hp ho (vdiv x b.prob.scales)
  rw [back hp hx, C47_objective h hb hx] at e1
  have e2 := Except.ok.inj e1
  rw [← e2]
  unfold taskCost
  cases S.c.o.fixedScale <;> rfl

theorem feasible_residual (h : S.Good D) (hb : S.build = .ok b) {x : List ℝ} (hx : x.length = S.c.o.L.numDec) :
    b.Feasible (vdiv x b.prob.scales) ↔ ∀ v ∈ residual b.prob x, v = 0 := by
  obtain ⟨hp, hc, ho, -⟩ := built_facts h hb
  obtain ⟨b', h1, _, _, _, hcl, hcu, _⟩ := C47_build h
  rw [hb] at h1
  obtain rfl := Except.ok.inj h1
  have hsc := hp.inv.scales
  have hk := conScale_good hp
  have hl := residual_len hp hx
  have hz : (vdiv x b.prob.scales).length = S.c.o.L.numDec := len_vdiv hx hsc.1
  unfold Built.Feasible
  rw [constraints_eq hp hc hz, back hp hx, hcl, hcu]
  have hlen : (vdiv (residual b.prob x) (conScale b.prob)).length = b.prob.numCon := by
    rw [len_vdiv rfl (by omega)]
    exact hl
  constructor
  · rintro ⟨g, e, h1⟩
    obtain rfl := Except.ok.inj e
    rw [forall₂_zero_iff _ _ hlen, all_zero_iff] at h1
    rw [all_zero_iff]
    intro i hi
    have := h1 i (by rw [len_vdiv rfl (by omega)]; exact hi)
    rw [getD_vdiv (by omega), div_eq_zero_iff] at this
    exact this.resolve_right (getD_ne hk (by omega))
  · intro h
    refine ⟨_, rfl, ?_⟩
    rw [forall₂_zero_iff _ _ hlen]
    rw [all_zero_iff] at h ⊢
    intro i hi
    rw [len_vdiv rfl (by omega)] at hi
    rw [getD_vdiv (by omega), h i hi, zero_div]

theorem best_congr {n : Nat} {f g : List ℝ → ℝ} {P Q : List ℝ → Prop} (h1 : ∀ x : List ℝ, x.length = n → f x = g x)
    (h2 : ∀ x : List ℝ, x.length = n → (P x ↔ Q x)) (x : List ℝ) : (Best n f P x ↔ Best n g Q x) ∧ (LocallyBest n f P x ↔ LocallyBest n g Q x) := by
  have hPQ : (x.length = n ∧ P x) ↔ (x.length = n ∧ Q x) := and_congr_right fun hx => h2 x hx
  constructor
  · unfold Best
    rw [← hPQ]
    refine and_congr_right fun hx => forall_congr' fun y => imp_congr_right fun hy => ?_
    rw [h2 y hy, h1 y hy, h1 x hx.1]
  · unfold LocallyBest
    rw [← hPQ]
    refine and_congr_right fun hx => exists_congr fun ε => and_congr_right fun _ => forall_congr' fun y => imp_congr_right fun hy => ?_
    rw [h2 y hy, h1 y hy, h1 x hx.1]

/-- **C94** (the full problem). A point is optimal — among all points, or among those nearby — for the solver's callbacks and bounds if and only if it
stands, in the user's units, for the best (nearby) solution of the discretised equations within the configured bounds. -/
theorem C94_lifted (h : S.Good D) (hcd : S.isCondensed = false) (hpos : ∀ c ∈ S.scales, 0 < c.value) (hb : S.build = .ok b) {z : List ℝ}
    (hz : z.length = S.c.o.L.numDec) :
    ∃ f : List ℝ → ℝ, (∀ y, b.prob.objective y = .ok (f y)) ∧
      (Best S.c.o.L.numDec f (Admitted b.prob b.bounds.lb b.bounds.ub) z ↔ Best S.c.o.L.numDec (taskCost S) (Task S b) (vmul z b.prob.scales)) ∧
      (LocallyBest S.c.o.L.numDec f (Admitted b.prob b.bounds.lb b.bounds.ub) z ↔
        LocallyBest S.c.o.L.numDec (taskCost S) (Task S b) (vmul z b.prob.scales)) := by
  obtain ⟨hp, hc, ho, hl, hu⟩ := built_facts h hb
  obtain ⟨f, f1, f2, f3⟩ := C94_best hp (scales_pos h hpos hb) hc ho hl hu hz
  obtain ⟨g1, g2⟩ := best_congr (f := cost b.prob) (g := taskCost S) (P := Wanted b.prob b.bounds.lb b.bounds.ub) (Q := Task S b)
    (fun x hx => cost_eq h hb hx) (fun x hx => and_congr_left fun _ => by rw [← feasible_residual h hb hx, C47_lifted h hcd hb hx])
    (vmul z b.prob.scales)
  exact ⟨f, f1, f2.trans g1, f3.trans g2⟩

end Lumos.Kkt
