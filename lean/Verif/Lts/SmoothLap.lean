import Verif.Lts.Smooth
import Verif.Ocp.DomExample
/-!
# C112: the derivatives of a lap time problem
-/

namespace Lumos.Lts

open Lumos DecVar DecVar.Layout NLP Bounds Ocp OCP Track LapSim Io Io.Mdl Lumos.Trans Veh

/-- The car on the road does not depend on where along the road it is, but through its inputs. -/
theorem flat_mesh {v : Mdl ℝ} (hv : Car v) {con : List String} (hnd : con.Nodup) (hcon : ∀ n ∈ con, n ∈ (vehicleOnTrack v).names.outputs) {w : List ℝ}
    (hw : w.length = ((vehicleOnTrack v).explicit con).numVar) (μ μ' : ℝ) :
    ((vehicleOnTrack v).explicit con).flatImplicit w μ = ((vehicleOnTrack v).explicit con).flatImplicit w μ' := by
  have hdel := onTrack_delivers hv hnd hcon
  have hM := explicit_good hdel
  have hno : (vehicleOnTrack v).names.states = onTrackNames.states := by rw [onTrack_names]
  have hni : (vehicleOnTrack v).names.inputs = onTrackNames.inputs := by rw [onTrack_names]
  have lx : (((vehicleOnTrack v).explicit con).xOf w).length = onTrackNames.states.length := (ExplicitModel.length_xOf hw).trans (by rw [← hno]; rfl)
  have lu : (((vehicleOnTrack v).explicit con).uOf w).length = onTrackNames.inputs.length := (ExplicitModel.length_uOf hw).trans (by rw [← hni]; rfl)
  generalize hX : named onTrackNames.states (((vehicleOnTrack v).explicit con).xOf w) = X
  generalize hU : named onTrackNames.inputs (((vehicleOnTrack v).explicit con).uOf w) = U
  have d1 : Lists onTrackNames.states (onTrackNames.states.map fun n => (n, X n)) (((vehicleOnTrack v).explicit con).xOf w) := by
    have := lists_map (ns := onTrackNames.states) (by decide) X
    rwa [← hX, map_named (by decide) lx, hX] at this
  have d2 : Lists onTrackNames.inputs (onTrackNames.inputs.map fun n => (n, U n)) (((vehicleOnTrack v).explicit con).uOf w) := by
    have := lists_map (ns := onTrackNames.inputs) (by decide) U
    rwa [← hU, map_named (by decide) lu, hU] at this
  have key := fun μ => arraysOf_spec hdel (xs := ((vehicleOnTrack v).explicit con).xOf w) (us := ((vehicleOnTrack v).explicit con).uOf w) (μ := μ)
      (by rw [hno]; exact lx) (by rw [hni]; exact lu) ⟨by rw [hno]; exact keys_map _ X, by rw [hno]; exact d1⟩ ⟨by rw [hni]; exact keys_map _ U, by rw [hni]; exact d2⟩
  obtain ⟨r, hr, l1, l2, l3⟩ := key μ
  obtain ⟨r', hr', l1', l2', l3'⟩ := key μ'
  obtain ⟨r0, rv, e1, e2, g1, g2, g3, g4, g5, g6, g7, -, -, -⟩ := onTrack_values hv X U (some μ)
  rw [hr, Except.ok.injEq] at e1
  subst e1
  obtain ⟨r0', rv', e1', e2', g1', g2', g3', g4', g5', g6', g7', -, -, -⟩ := onTrack_values hv X U (some μ')
  rw [hr', Except.ok.injEq] at e1'
  subst e1'
  rw [e2, Except.ok.injEq] at e2'
  subst e2'
  have ed : ∀ n ∈ (vehicleOnTrack v).names.states, r.statesDot.lookup n = r'.statesDot.lookup n := by
    intro n hn
    rw [hno] at hn
    have : n ∈ trackNames.states ++ vehicleNames.states := hn
    rcases List.mem_append.mp this with h | h
    · rcases track_mem h with rfl | rfl | rfl
      · rw [g1, g1']
      · rw [g2, g2']
      · rw [g3, g3']
    · rw [g4 n h, g4' n h]
  have eo : ∀ n ∈ (vehicleOnTrack v).names.outputs, r.outputs.lookup n = r'.outputs.lookup n := by
    intro n hn
    rw [onTrack_names] at hn
    rcases List.mem_append.mp hn with h | h
    · obtain ⟨m, hm, rfl⟩ := List.mem_map.mp h
      exact (g5 m).trans (g5' m).symm
    · simp only [List.mem_cons, List.not_mem_nil, or_false] at h
      rcases h with rfl | rfl
      · rw [g6, g6']
      · rw [g7, g7']
  have er : ∀ n ∈ (vehicleOnTrack v).names.residuals, r.outputs.lookup n = r'.outputs.lookup n := by
    intro n hn
    refine eo n ?_
    have := hv.residuals
    rw [onTrack_names] at hn ⊢
    obtain ⟨a, ha, rfl⟩ := List.mem_map.mp hn
    exact List.mem_append_left _ (List.mem_map.mpr ⟨a, this a ha, rfl⟩)
  rw [ExplicitModel.flatImplicit_eq hM hw, ExplicitModel.flatImplicit_eq hM hw, ExplicitModel.rhs, ExplicitModel.rhs, l1.eq l1' ed,
    l2.eq l2' (fun n hn => eo n (hcon n hn)), l3.eq l3' er]

/-- The equations of the stage are twice continuously differentiable at `v`. -/
def TwiceAt (M : ExplicitModel) (v : List ℝ) : Prop :=
  v.length = M.numVar ∧ ∀ r < M.numRes, ContDiffAt ℝ 2 (fun y : Fin M.numVar → ℝ => (M.flatImplicit (List.ofFn y) 0).getD r 0) (fun i => v.getD i 0)

theorem TwiceAt.open_ {M : ExplicitModel} {v : List ℝ} (h : TwiceAt M v) (i : Nat) (hi : i < v.length) : ∀ᶠ t in nhds (v.getD i 0), TwiceAt M (v.set i t) := by
  have hi' : i < M.numVar := h.1 ▸ hi
  have e : ∀ t, (fun k : Fin M.numVar => (v.set i t).getD k 0) = Function.update (fun k : Fin M.numVar => v.getD k 0) ⟨i, hi'⟩ t := by
    intro t
    funext k
    rw [Function.update_apply]
    by_cases hk : k = ⟨i, hi'⟩
    · rw [if_pos hk, hk]
      simp [hi]
    · have hne : i ≠ (k : Nat) := fun e => hk (Fin.ext e.symm)
      rw [if_neg hk]
      simp [List.getElem?_set_ne hne]
  have : ∀ r ∈ Finset.range M.numRes, ∀ᶠ t in nhds (v.getD i 0),
      ContDiffAt ℝ 2 (fun y : Fin M.numVar → ℝ => (M.flatImplicit (List.ofFn y) 0).getD r 0) (fun k : Fin M.numVar => (v.set i t).getD k 0) := by
    intro r hr
    have h1 := (h.2 r (Finset.mem_range.mp hr)).eventually (by simp)
    have hc : ContinuousAt (fun t => Function.update (fun k : Fin M.numVar => v.getD k 0) ⟨i, hi'⟩ t) (v.getD i 0) :=
      (ExplicitModel.update_deriv _ ⟨i, hi'⟩ _).continuousAt
    have e0 : Function.update (fun k : Fin M.numVar => v.getD k 0) ⟨i, hi'⟩ (v.getD i 0) = fun k : Fin M.numVar => v.getD k 0 := Function.update_eq_self _ _
    simp only [e]
    exact hc.eventually (by dsimp only; rw [e0]; exact h1)
  filter_upwards [(Filter.eventually_all_finset (Finset.range M.numRes)).mpr this] with t ht
  exact ⟨by rw [List.length_set]; exact h.1, fun r hr => ht r (Finset.mem_range.mpr hr)⟩

theorem TwiceAt.smooth {v : Mdl ℝ} (hv : Car v) {con : List String} (hnd : con.Nodup) (hcon : ∀ n ∈ con, n ∈ (vehicleOnTrack v).names.outputs) {w : List ℝ}
    (h : TwiceAt ((vehicleOnTrack v).explicit con) w) (μ : ℝ) : ((vehicleOnTrack v).explicit con).Smooth w μ := by
  refine ExplicitModel.smooth_of_contDiff h.1 fun r hr => ?_
  have e : (fun y : Fin ((vehicleOnTrack v).explicit con).numVar → ℝ => (((vehicleOnTrack v).explicit con).flatImplicit (List.ofFn y) μ).getD r 0) =
      fun y => (((vehicleOnTrack v).explicit con).flatImplicit (List.ofFn y) 0).getD r 0 := by
    funext y
    rw [flat_mesh hv hnd hcon (by simp) μ 0]
  rw [e]
  exact h.2 r hr

variable {p : Params} {q : Four TireParams} {cx cy cz : ℝ} {cf : Conf} {u : UnitProblem} {D : List ℝ → ℝ → Prop}

/-- **C112.** For every standard vehicle, usable configuration, road and backend whose derivatives are right where the equations have derivatives, the
derivatives that the solver is given for a lap are right at every point of the search at which the car runs at every stage: the Jacobian of the constraints,
the gradient of the objective and the Hessian of the Lagrangian, for all multipliers. -/
theorem C112_lap (hc : Usable (standardVehicle p q cx cy cz) cf) (hu : Backed (standardVehicle p q cx cy cz) cf u D)
    (hD : ∀ v μ, ((vehicleOnTrack (standardVehicle p q cx cy cz)).explicit cf.conOutputs).Smooth v μ → D v μ) {file : Py (List Row)} {l : Lap}
    (hl : laptime (standardVehicle p q cx cy cz) u cf file = .ok l) {b : Built} (hb : l.problem = .ok b) {z : List ℝ} (hz : z.length = l.S.c.o.L.numDec)
    (hR : ∀ s < l.S.c.o.L.numStages, Regular p q cx cy cz (fun n => readAt l.S.c.o.L (vmul z b.prob.scales) "states" n s)
      (fun n => readAt l.S.c.o.L (vmul z b.prob.scales) "inputs" n s)) (lam : List ℝ) (hlam : lam.length = b.prob.numCon) (sigma : ℝ) :
    ∃ (F : List ℝ → List ℝ) (f : List ℝ → ℝ) (jr jc hr hc : List Nat) (jv hv g : List ℝ),
      (∀ y, b.prob.constraints y = .ok (F y)) ∧ (∀ y, b.prob.objective y = .ok (f y))
      ∧ b.prob.jacobianstructure = .ok (jr, jc) ∧ b.prob.jacobian z = .ok jv ∧ jr.length = jc.length ∧ jv.length = jr.length
      ∧ IsJacobianAt l.S.c.o.L.numDec b.prob.numCon F z (assemble jr jc jv)
      ∧ b.prob.gradient z = .ok g ∧ g.length = l.S.c.o.L.numDec ∧ IsGradientAt l.S.c.o.L.numDec f z (fun j => g.getD j 0)
      ∧ b.prob.hessianstructure.2 = .ok (hr, hc)
      ∧ b.prob.hessianstructure.1.hessian z lam sigma = (b.prob.hessianstructure.1, .ok hv)
      ∧ hr.length = hc.length ∧ hv.length = hr.length
      ∧ IsHessianAt l.S.c.o.L.numDec (fun y => f y * sigma + dot lam (F y)) z Upper (assemble hr hc hv) := by
  have hv := standard_car p q cx cy cz
  obtain ⟨t, S, b0, tr, ht, hm, hg, hb0, hrd, hs, f1, f2, f3⟩ := laptime_inv hv hc hu hl
  obtain ⟨p1, p2, p3, p4, p5⟩ := hm.plain
  have hg' : l.S.Good D := f3 ▸ Good.rescale hg (hg.lap p2).1 p4 _
  obtain ⟨b1, _, _, hb1, _, hr1, _⟩ := build_ok hg'
  have hbb : b = { b1 with bounds := l.st } := by
    unfold Lap.problem at hb
    simp only [bind, Except.bind, hb1] at hb
    exact (Except.ok.inj hb).symm
  subst hbb
  have hM : l.S.c.M = (vehicleOnTrack (standardVehicle p q cx cy cz)).explicit cf.conOutputs := by rw [f3]; exact hm.model
  obtain ⟨n1, n2, -, -⟩ := hm.names
  have eL : l.S.c.o.L = S.c.o.L := by rw [f3]; rfl
  have hdom : l.S.dom D (vmul z b1.prob.scales) := by
    have hlen : (vmul z b1.prob.scales).length = l.S.c.o.L.numDec := by
      rw [vmul, List.length_zipWith, hz, hr1.inv.scales.1, Nat.min_self]
    have h1 : l.S.dom (fun v _ => TwiceAt ((vehicleOnTrack (standardVehicle p q cx cy cz)).explicit cf.conOutputs) v) (vmul z b1.prob.scales) := by
      refine Setup.dom_of_open (fun v _ hv i hi => hv.open_ i hi) hlen fun s hs' => ?_
      have hl' : (l.S.c.o.stageVars (vmul z b1.prob.scales) s).length = ((vehicleOnTrack (standardVehicle p q cx cy cz)).explicit cf.conOutputs).numVar := by
        rw [length_stageVars hlen hs', hg'.cond.width, hM]
      refine ⟨hl', fun r _ => model_components (k := 2) hc.outputs.1 hc.outputs.2 0 hl' ?_ r⟩
      obtain ⟨g1, g2, -, -⟩ := readGroups hg' hlen hs'
      rw [← hM, ← g1, ← g2]
      refine (hR s hs').congr (fun n hn => ?_) fun n hn => ?_
      · rw [readGroup, eL, n1, named_map _ hn]
      · rw [readGroup, eL, n2, named_map _ hn]
    have mono : ∀ y, l.S.c.o.stageDom l.S.c.mesh (fun v _ => TwiceAt ((vehicleOnTrack (standardVehicle p q cx cy cz)).explicit cf.conOutputs) v) y →
        l.S.c.o.stageDom l.S.c.mesh D y := fun y hy s hs => hD _ _ ((hy s hs).smooth hv hc.outputs.1 hc.outputs.2 _)
    exact ⟨mono _ h1.1, fun j hj => (h1.2 j hj).mono fun t ht => mono _ ht⟩
  exact C47_derivatives hg' hb1 hz hdom lam hlam sigma

end Lumos.Lts
