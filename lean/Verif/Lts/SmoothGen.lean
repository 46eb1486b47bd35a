import Verif.Lts.SmoothLap
/-!
# The derivatives of a lap, for every car with smooth equations
-/

namespace Lumos.Lts

open Lumos DecVar DecVar.Layout NLP Bounds Ocp OCP Track LapSim Io Io.Mdl Lumos.Trans Veh

/-- What the car returns. -/
noncomputable def answer (v : Mdl ℝ) (x u : String → ℝ) : Ret ℝ :=
  match v.eval ⟨some (vehicleNames.states.map fun n => (n, x n)), some (vehicleNames.inputs.map fun n => (n, u n)), none⟩ with
  | .ok r => r
  | .error _ => {}

/-- The outputs of the car itself (not of its tyres and aerodynamics) and of the road. -/
def ownOutputs : List String := addPrefix "vehicle" vehicleNames.outputs ++ ["kinematics.yaw_angle", "kinematics.curvature"]

section
variable {v : Mdl ℝ}

/-- At these states and inputs the car's equations are smooth, and those of the road. -/
structure SmoothAt (k : ℕ∞) (v : Mdl ℝ) (x u : String → ℝ) : Prop where
  road : 1 - x "n" * u "track_curvature" ≠ 0
  along : x "vx" * Real.cos (x "eta") - x "vy" * Real.sin (x "eta") ≠ 0
  dots : ∀ {E : Type} [NormedAddCommGroup E] [NormedSpace ℝ E] {e : E} {X U : E → String → ℝ}, (∀ n, ContDiffAt ℝ k (fun y => X y n) e) →
    (∀ n, ContDiffAt ℝ k (fun y => U y n) e) → X e = x → U e = u → ∀ n ∈ vehicleNames.states, ContDiffAt ℝ k (fun y => val (answer v (X y) (U y)).statesDot n) e
  outs : ∀ {E : Type} [NormedAddCommGroup E] [NormedSpace ℝ E] {e : E} {X U : E → String → ℝ}, (∀ n, ContDiffAt ℝ k (fun y => X y n) e) →
    (∀ n, ContDiffAt ℝ k (fun y => U y n) e) → X e = x → U e = u → ∀ n ∈ vehicleNames.outputs, ContDiffAt ℝ k (fun y => val (answer v (X y) (U y)).outputs n) e

open Classical in
/-- The vehicle's own name of one of its outputs on the road. -/
noncomputable def ownStem (n : String) : String := if h : ∃ m ∈ vehicleNames.outputs, n = "vehicle" ++ "." ++ m then h.choose else n

theorem ownStem_spec {m : String} (h : m ∈ vehicleNames.outputs) :
    "vehicle" ++ "." ++ m = "vehicle" ++ "." ++ ownStem ("vehicle" ++ "." ++ m) ∧ ownStem ("vehicle" ++ "." ++ m) ∈ vehicleNames.outputs := by
  have hx : ∃ m' ∈ vehicleNames.outputs, "vehicle" ++ "." ++ m = "vehicle" ++ "." ++ m' := ⟨m, h, rfl⟩
  have e : ownStem ("vehicle" ++ "." ++ m) = hx.choose := dif_pos hx
  rw [e]
  exact ⟨hx.choose_spec.2, hx.choose_spec.1⟩

theorem own_names {v : Mdl ℝ} (hown : ∀ n ∈ vehicleNames.outputs, n ∈ v.names.outputs) {n : String} (hn : n ∈ ownOutputs) : n ∈ (vehicleOnTrack v).names.outputs := by
  rw [onTrack_names]
  rcases List.mem_append.mp hn with h | h
  · obtain ⟨m, hm, rfl⟩ := List.mem_map.mp h
    exact List.mem_append_left _ (List.mem_map.mpr ⟨m, hown m hm, rfl⟩)
  · exact List.mem_append_right _ h

variable {k : ℕ∞} {E : Type} [NormedAddCommGroup E] [NormedSpace ℝ E] {e : E} {X U : E → String → ℝ}

/-- What the car on the road returns depends smoothly on its states and inputs. -/
theorem road_smooth (hv : Car v) (hown : ∀ n ∈ vehicleNames.outputs, n ∈ v.names.outputs) (hX : ∀ n, ContDiffAt ℝ k (fun y => X y n) e) (hU : ∀ n, ContDiffAt ℝ k (fun y => U y n) e)
    (hR : SmoothAt k v (X e) (U e)) :
    ∃ dot out : String → E → ℝ, (∀ n ∈ onTrackNames.states, ContDiffAt ℝ k (dot n) e) ∧
      (∀ n ∈ ownOutputs, ContDiffAt ℝ k (out n) e) ∧
      ∀ y (μ : Option ℝ) r, (vehicleOnTrack v).eval ⟨some (onTrackNames.states.map fun n => (n, X y n)),
          some (onTrackNames.inputs.map fun n => (n, U y n)), μ⟩ = .ok r →
        (∀ n ∈ onTrackNames.states, r.statesDot.lookup n = some (dot n y)) ∧
        ∀ n ∈ ownOutputs, r.outputs.lookup n = some (out n y) := by
  have hs : ContDiffAt ℝ k (fun y => sdot (X y) (U y)) e := sdot_smooth (k := k) hX hU hR.road
  have hs0 : sdot (X e) (U e) ≠ 0 := div_ne_zero hR.along hR.road
  have hnum := hR.dots hX hU rfl rfl
  have hout := hR.outs hX hU rfl rfl
  refine ⟨fun n y => if n = "time" then 1 / sdot (X y) (U y) else
      if n = "n" then (X y "vx" * Real.sin (X y "eta") + X y "vy" * Real.cos (X y "eta")) / sdot (X y) (U y) else
      if n = "eta" then (X y "yaw_rate" - U y "track_curvature" * sdot (X y) (U y)) / sdot (X y) (U y) else
      val (answer v (X y) (U y)).statesDot n * (1 / sdot (X y) (U y)),
    fun n y => if n = "kinematics.yaw_angle" then X y "eta" + U y "track_heading" else if n = "kinematics.curvature" then U y "track_curvature" else
      val (answer v (X y) (U y)).outputs (ownStem n), ?_, ?_, ?_⟩
  · intro n hn
    by_cases h1 : n = "time"
    · simp only [h1, if_true]
      exact contDiffAt_const.div hs hs0
    by_cases h2 : n = "n"
    · simp only [if_neg h1, if_pos h2]
      exact (((hX _).mul (hX _).sin).add ((hX _).mul (hX _).cos)).div hs hs0
    by_cases h3 : n = "eta"
    · simp only [if_neg h1, if_neg h2, if_pos h3]
      exact ((hX _).sub ((hU _).mul hs)).div hs hs0
    simp only [if_neg h1, if_neg h2, if_neg h3]
    have hn' : n ∈ vehicleNames.states := by
      rcases List.mem_append.mp (show n ∈ trackNames.states ++ vehicleNames.states from hn) with h | h
      · exact ((track_mem h).elim h1 fun h => h.elim h2 h3).elim
      · exact h
    exact (hnum n hn').mul (contDiffAt_const.div hs hs0)
  · intro n hn
    by_cases h1 : n = "kinematics.yaw_angle"
    · simp only [h1, if_true]
      exact (hX _).add (hU _)
    by_cases h2 : n = "kinematics.curvature"
    · simp only [if_neg h1, if_pos h2]
      exact hU _
    simp only [if_neg h1, if_neg h2]
    rcases List.mem_append.mp hn with h | h
    · obtain ⟨m, hm, rfl⟩ := List.mem_map.mp h
      exact hout _ (ownStem_spec hm).2
    · simp only [List.mem_cons, List.not_mem_nil, or_false] at h
      exact (h.elim h1 h2).elim
  · intro y μ r hr
    obtain ⟨r', rv, e1, e2, g1, g2, g3, g4, g5, g6, g7, -, -, -⟩ := onTrack_values hv (X y) (U y) μ
    rw [hr, Except.ok.injEq] at e1
    subst e1
    have ea : answer v (X y) (U y) = rv := by
      unfold answer
      rw [e2]
    obtain ⟨rv', ev', -, on⟩ := hv.returns (X y) (U y)
    rw [e2, Except.ok.injEq] at ev'
    subst ev'
    constructor
    · intro n hn
      by_cases h1 : n = "time"
      · simp only [h1, if_true]
        exact g1
      by_cases h2 : n = "n"
      · simp only [if_neg h1, if_pos h2]
        rw [h2]
        exact g2
      by_cases h3 : n = "eta"
      · simp only [if_neg h1, if_neg h2, if_pos h3]
        rw [h3]
        exact g3
      simp only [if_neg h1, if_neg h2, if_neg h3]
      rw [ea]
      refine g4 n ?_
      have : n ∈ trackNames.states ++ vehicleNames.states := hn
      rcases List.mem_append.mp this with h | h
      · exact ((track_mem h).elim h1 fun h => h.elim h2 h3).elim
      · exact h
    · intro n hn
      rcases List.mem_append.mp hn with h | h
      · obtain ⟨m, hm, rfl⟩ := List.mem_map.mp h
        obtain ⟨hs1, hs2⟩ := ownStem_spec hm
        dsimp only
        rw [if_neg (vehicle_ne m).1, if_neg (vehicle_ne m).2, (congrArg (fun k => List.lookup k r.outputs) hs1).trans (g5 _), ea]
        obtain ⟨a, ha⟩ := Option.isSome_iff_exists.mp ((Dict.lookup_isSome rv.outputs (ownStem ("vehicle" ++ "." ++ m))).mpr (on _ (hown _ hs2)))
        unfold val
        rw [ha]
        rfl
      · simp only [List.mem_cons, List.not_mem_nil, or_false] at h
        rcases h with rfl | rfl
        · simp only [if_true]
          exact g6
        · simp only [if_true]
          rw [if_neg (by decide)]
          exact g7

set_option maxHeartbeats 1000000 in
theorem stage_components (hc : Car v) (hown : ∀ n ∈ vehicleNames.outputs, n ∈ v.names.outputs) (hre : ∀ n ∈ v.names.residuals, n ∈ vehicleNames.outputs)
    {con : List String} (hnd : con.Nodup) (hco : ∀ n ∈ con, n ∈ ownOutputs) (μ : ℝ)
    {w : List ℝ} (hw : w.length = ((vehicleOnTrack v).explicit con).numVar)
    (hR : SmoothAt 2 v (named onTrackNames.states (((vehicleOnTrack v).explicit con).xOf w))
      (named onTrackNames.inputs (((vehicleOnTrack v).explicit con).uOf w))) (r : Nat) :
    ContDiffAt ℝ 2 (fun y : Fin ((vehicleOnTrack v).explicit con).numVar → ℝ =>
      (((vehicleOnTrack v).explicit con).flatImplicit (List.ofFn y) μ).getD r 0) (fun i => w.getD i 0) := by
  have hcon : ∀ n ∈ con, n ∈ (vehicleOnTrack v).names.outputs := fun n hn => own_names hown (hco n hn)
  have hrs : ∀ n ∈ (vehicleOnTrack v).names.residuals, n ∈ ownOutputs := by
    intro n hn
    rw [onTrack_names] at hn
    obtain ⟨a, ha, rfl⟩ := List.mem_map.mp hn
    exact List.mem_append_left _ (List.mem_map.mpr ⟨a, hre a ha, rfl⟩)
  have hdel := onTrack_delivers hc hnd hcon
  have hM := explicit_good hdel
  have hno : (vehicleOnTrack v).names.states = onTrackNames.states := by rw [onTrack_names]
  have hni : (vehicleOnTrack v).names.inputs = onTrackNames.inputs := by rw [onTrack_names]
  have hres := hdel.returns
  set m := vehicleOnTrack v with hm
  set M := m.explicit con with hMd
  have ev : List.ofFn (fun i : Fin M.numVar => w.getD i 0) = w := Kkt.ofFn_getD hw
  let X : (Fin M.numVar → ℝ) → String → ℝ := fun y => named onTrackNames.states (M.xOf (List.ofFn y))
  let U : (Fin M.numVar → ℝ) → String → ℝ := fun y => named onTrackNames.inputs (M.uOf (List.ofFn y))
  have hX : ∀ n, ContDiffAt ℝ 2 (fun y => X y n) (fun i : Fin M.numVar => w.getD i 0) := by
    intro n
    show ContDiffAt ℝ 2 (fun y : Fin M.numVar → ℝ => ((List.ofFn y).take M.nx).getD _ 0) _
    simp only [getD_take]
    split_ifs
    · exact getD_ofFn_smooth (k := 2) _ _
    · exact contDiffAt_const
  have hU : ∀ n, ContDiffAt ℝ 2 (fun y => U y n) (fun i : Fin M.numVar => w.getD i 0) := by
    intro n
    show ContDiffAt ℝ 2 (fun y : Fin M.numVar → ℝ => (((List.ofFn y).take (M.nx + M.nu)).drop M.nx).getD _ 0) _
    simp only [getD_drop', getD_take]
    split_ifs
    · exact getD_ofFn_smooth (k := 2) _ _
    · exact contDiffAt_const
  have hR' : SmoothAt 2 v (X fun i : Fin M.numVar => w.getD i 0) (U fun i : Fin M.numVar => w.getD i 0) := by
    show SmoothAt 2 v (named onTrackNames.states (M.xOf (List.ofFn _))) (named onTrackNames.inputs (M.uOf (List.ofFn _)))
    rw [ev]
    exact hR
  obtain ⟨dot, out, hd, ho, hval⟩ := road_smooth (k := 2) hc hown hX hU hR'
  -- the components
  have hcomp : ∀ y : Fin M.numVar → ℝ, M.rhs (List.ofFn y) μ = onTrackNames.states.map (fun n => dot n y) ++ con.map (fun n => out n y) ∧
      M.r (M.xOf (List.ofFn y)) (M.uOf (List.ofFn y)) μ = m.names.residuals.map (fun n => out n y) := by
    intro y
    have hl : (List.ofFn y).length = M.numVar := by simp
    have lx : (M.xOf (List.ofFn y)).length = onTrackNames.states.length := (ExplicitModel.length_xOf hl).trans (by rw [← hno]; rfl)
    have lu : (M.uOf (List.ofFn y)).length = onTrackNames.inputs.length := (ExplicitModel.length_uOf hl).trans (by rw [← hni]; rfl)
    have d1 : Lists onTrackNames.states (onTrackNames.states.map fun n => (n, X y n)) (M.xOf (List.ofFn y)) := by
      have := lists_map (ns := onTrackNames.states) (by decide) (X y)
      rwa [map_named (by decide) lx] at this
    have d2 : Lists onTrackNames.inputs (onTrackNames.inputs.map fun n => (n, U y n)) (M.uOf (List.ofFn y)) := by
      have := lists_map (ns := onTrackNames.inputs) (by decide) (U y)
      rwa [map_named (by decide) lu] at this
    obtain ⟨r, hr, l1, l2, l3⟩ := arraysOf_spec hdel (xs := M.xOf (List.ofFn y)) (us := M.uOf (List.ofFn y)) (μ := μ)
      (by rw [hno]; exact lx) (by rw [hni]; exact lu) ⟨by rw [hno]; exact keys_map _ (X y), by rw [hno]; exact d1⟩ ⟨by rw [hni]; exact keys_map _ (U y), by rw [hni]; exact d2⟩
    obtain ⟨w1, w2⟩ := hval y (some μ) r hr
    rw [hno] at l1
    refine ⟨?_, ?_⟩
    · have e1 := (lists_iff l1 (fun n => dot n y)).2 w1
      have e2 := (lists_iff l2 (fun n => out n y)).2 fun n hn => w2 n (hco n hn)
      unfold ExplicitModel.rhs
      rw [← e1, ← e2]
    · refine (lists_iff l3 _).2 fun n hn => w2 n ?_
      exact hrs n hn
  have hlen : ∀ y : Fin M.numVar → ℝ, (M.rhs (List.ofFn y) μ).length = (M.wOf (List.ofFn y)).length := fun y => by
    rw [ExplicitModel.length_rhs hM (by simp), ExplicitModel.length_wOf (by simp)]
  have hrl : ∀ y : Fin M.numVar → ℝ, (M.rhs (List.ofFn y) μ).length = M.nx + M.ny := fun y => ExplicitModel.length_rhs hM (by simp) μ
  have hform : (fun y : Fin M.numVar → ℝ => (M.flatImplicit (List.ofFn y) μ).getD r 0) = fun y =>
      if r < M.nx + M.ny then (onTrackNames.states.map (fun n => dot n y) ++ con.map (fun n => out n y)).getD r 0 - (List.ofFn y).getD (M.nx + M.nu + r) 0
      else (m.names.residuals.map fun n => out n y).getD (r - (M.nx + M.ny)) 0 := by
    funext y
    rw [ExplicitModel.flatImplicit_eq hM (by simp), getD_append_len, List.length_zipWith, ← hlen y, Nat.min_self, hrl y, getD_zip (hlen y), (hcomp y).1, (hcomp y).2,
      ExplicitModel.wOf, getD_drop']
  rw [hform]
  split_ifs with hr
  · refine ContDiffAt.sub ?_ (getD_ofFn_smooth (k := 2) _ _)
    simp only [getD_append_len, List.length_map]
    split_ifs
    · exact map_smooth (k := 2) hd _
    · exact map_smooth (k := 2) (fun n hn => ho n (hco n hn)) _
  · refine map_smooth (k := 2) (fun n hn => ho n ?_) _
    exact hrs n hn

end

variable {v : Mdl ℝ} {cf : Conf} {u : UnitProblem} {D : List ℝ → ℝ → Prop}

/-- The derivatives that the solver is given for a lap are right wherever the equations of the car and of the road are smooth at every stage. -/
theorem lap_derivatives (hv : Car v) (hown : ∀ n ∈ vehicleNames.outputs, n ∈ v.names.outputs) (hre : ∀ n ∈ v.names.residuals, n ∈ vehicleNames.outputs)
    (hc : Usable v cf) (hco : ∀ n ∈ cf.conOutputs, n ∈ ownOutputs) (hu : Backed v cf u D)
    (hD : ∀ w μ, ((vehicleOnTrack v).explicit cf.conOutputs).Smooth w μ → D w μ) {file : Py (List Row)} {l : Lap}
    (hl : laptime v u cf file = .ok l) {b : Built} (hb : l.problem = .ok b) {z : List ℝ} (hz : z.length = l.S.c.o.L.numDec)
    (hR : ∀ s < l.S.c.o.L.numStages, ∀ x y : String → ℝ, (∀ n ∈ onTrackNames.states, readAt l.S.c.o.L (vmul z b.prob.scales) "states" n s = x n) →
      (∀ n ∈ onTrackNames.inputs, readAt l.S.c.o.L (vmul z b.prob.scales) "inputs" n s = y n) → SmoothAt 2 v x y)
    (lam : List ℝ) (hlam : lam.length = b.prob.numCon) (sigma : ℝ) :
    ∃ (F : List ℝ → List ℝ) (f : List ℝ → ℝ) (jr jc hr hc : List Nat) (jv hv g : List ℝ),
      (∀ y, b.prob.constraints y = .ok (F y)) ∧ (∀ y, b.prob.objective y = .ok (f y))
      ∧ b.prob.jacobianstructure = .ok (jr, jc) ∧ b.prob.jacobian z = .ok jv ∧ jr.length = jc.length ∧ jv.length = jr.length
      ∧ IsJacobianAt l.S.c.o.L.numDec b.prob.numCon F z (assemble jr jc jv)
      ∧ b.prob.gradient z = .ok g ∧ g.length = l.S.c.o.L.numDec ∧ IsGradientAt l.S.c.o.L.numDec f z (fun j => g.getD j 0)
      ∧ b.prob.hessianstructure.2 = .ok (hr, hc)
      ∧ b.prob.hessianstructure.1.hessian z lam sigma = (b.prob.hessianstructure.1, .ok hv)
      ∧ hr.length = hc.length ∧ hv.length = hr.length
      ∧ IsHessianAt l.S.c.o.L.numDec (fun y => f y * sigma + dot lam (F y)) z Upper (assemble hr hc hv) := by
  obtain ⟨t, S, b0, tr, ht, hm, hg, hb0, hrd, hs, f1, f2, f3⟩ := laptime_inv hv hc hu hl
  obtain ⟨p1, p2, p3, p4, p5⟩ := hm.plain
  have hg' : l.S.Good D := f3 ▸ Good.rescale hg (hg.lap p2).1 p4 _
  obtain ⟨b1, _, _, hb1, _, hr1, _⟩ := build_ok hg'
  have hbb : b = { b1 with bounds := l.st } := by
    unfold Lap.problem at hb
    simp only [bind, Except.bind, hb1] at hb
    exact (Except.ok.inj hb).symm
  subst hbb
  have hM : l.S.c.M = (vehicleOnTrack v).explicit cf.conOutputs := by rw [f3]; exact hm.model
  obtain ⟨n1, n2, -, -⟩ := hm.names
  have eL : l.S.c.o.L = S.c.o.L := by rw [f3]; rfl
  have hdom : l.S.dom D (vmul z b1.prob.scales) := by
    have hlen : (vmul z b1.prob.scales).length = l.S.c.o.L.numDec := by
      rw [vmul, List.length_zipWith, hz, hr1.inv.scales.1, Nat.min_self]
    have h1 : l.S.dom (fun w _ => TwiceAt ((vehicleOnTrack v).explicit cf.conOutputs) w) (vmul z b1.prob.scales) := by
      refine Setup.dom_of_open (fun _ _ hw i hi => hw.open_ i hi) hlen fun s hs' => ?_
      have hl' : (l.S.c.o.stageVars (vmul z b1.prob.scales) s).length = ((vehicleOnTrack v).explicit cf.conOutputs).numVar := by
        rw [length_stageVars hlen hs', hg'.cond.width, hM]
      refine ⟨hl', fun r _ => stage_components hv hown hre hc.outputs.1 hco 0 hl' ?_ r⟩
      obtain ⟨g1, g2, -, -⟩ := readGroups hg' hlen hs'
      rw [← hM, ← g1, ← g2]
      refine hR s hs' _ _ (fun n hn => ?_) fun n hn => ?_
      · rw [readGroup, eL, n1, named_map _ hn]
      · rw [readGroup, eL, n2, named_map _ hn]
    have mono : ∀ y, l.S.c.o.stageDom l.S.c.mesh (fun w _ => TwiceAt ((vehicleOnTrack v).explicit cf.conOutputs) w) y →
        l.S.c.o.stageDom l.S.c.mesh D y := fun y hy s hs => hD _ _ ((hy s hs).smooth hv hc.outputs.1 hc.outputs.2 _)
    exact ⟨mono _ h1.1, fun j hj => (h1.2 j hj).mono fun t ht => mono _ ht⟩
  exact C47_derivatives hg' hb1 hz hdom lam hlam sigma

end Lumos.Lts
