import Verif.Lts.Mf52Default
import Verif.Lts.BestLap
/-!
# C113: a best lap of the default car
-/

namespace Lumos.Lts

open Lumos DecVar DecVar.Layout NLP Bounds Ocp OCP Track LapSim Io Io.Mdl Lumos.Trans Veh Tyre

section
variable {v : Mdl ℝ} {cf : Conf} {u : UnitProblem} {D : List ℝ → ℝ → Prop}

/-- The states and inputs at which the car's equations are continuous. -/
def Continuing (v : Mdl ℝ) (con : List String) :
    Set ((Fin ((vehicleOnTrack v).explicit con).nx → ℝ) × (Fin ((vehicleOnTrack v).explicit con).nu → ℝ) × ℝ) :=
  {a | SmoothAt 0 v (named onTrackNames.states (List.ofFn a.1)) (named onTrackNames.inputs (List.ofFn a.2.1))}

theorem car_continuous (hc : Car v) (hown : ∀ n ∈ vehicleNames.outputs, n ∈ v.names.outputs) (hre : ∀ n ∈ v.names.residuals, n ∈ vehicleNames.outputs)
    {con : List String} (hnd : con.Nodup) (hco : ∀ n ∈ con, n ∈ ownOutputs) :
    Kkt.ContinuousModel ((vehicleOnTrack v).explicit con) (Continuing v con) := by
  have hcon : ∀ n ∈ con, n ∈ (vehicleOnTrack v).names.outputs := fun n hn => own_names hown (hco n hn)
  have hrs : ∀ n ∈ (vehicleOnTrack v).names.residuals, n ∈ ownOutputs := by
    intro n hn
    rw [onTrack_names] at hn
    obtain ⟨a, ha, rfl⟩ := List.mem_map.mp hn
    exact List.mem_append_left _ (List.mem_map.mpr ⟨a, hre a ha, rfl⟩)
  have hdel := onTrack_delivers hc hnd hcon
  have hno : (vehicleOnTrack v).names.states = onTrackNames.states := by rw [onTrack_names]
  have hni : (vehicleOnTrack v).names.inputs = onTrackNames.inputs := by rw [onTrack_names]
  set m := vehicleOnTrack v with hm
  set M := m.explicit con with hMd
  have nx : M.nx = onTrackNames.states.length := by rw [← hno]; rfl
  have nu : M.nu = onTrackNames.inputs.length := by rw [← hni]; rfl
  have all : ∀ e ∈ Continuing v con, ∀ k : Nat,
      ContDiffAt ℝ (0 : ℕ∞) (fun a : (Fin M.nx → ℝ) × (Fin M.nu → ℝ) × ℝ => (M.f (List.ofFn a.1) (List.ofFn a.2.1) a.2.2).getD k 0) e ∧
      ContDiffAt ℝ (0 : ℕ∞) (fun a : (Fin M.nx → ℝ) × (Fin M.nu → ℝ) × ℝ => (M.h (List.ofFn a.1) (List.ofFn a.2.1) a.2.2).getD k 0) e ∧
      ContDiffAt ℝ (0 : ℕ∞) (fun a : (Fin M.nx → ℝ) × (Fin M.nu → ℝ) × ℝ => (M.r (List.ofFn a.1) (List.ofFn a.2.1) a.2.2).getD k 0) e := by
    intro e he k
    let X : (Fin M.nx → ℝ) × (Fin M.nu → ℝ) × ℝ → String → ℝ := fun a => named onTrackNames.states (List.ofFn a.1)
    let U : (Fin M.nx → ℝ) × (Fin M.nu → ℝ) × ℝ → String → ℝ := fun a => named onTrackNames.inputs (List.ofFn a.2.1)
    have hX : ∀ n, ContDiffAt ℝ (0 : ℕ∞) (fun a => X a n) e := fun n =>
      (getD_ofFn_smooth (k := 0) (onTrackNames.states.idxOf n) e.1).comp e contDiffAt_fst
    have hU : ∀ n, ContDiffAt ℝ (0 : ℕ∞) (fun a => U a n) e := fun n =>
      (getD_ofFn_smooth (k := 0) (onTrackNames.inputs.idxOf n) e.2.1).comp e (contDiffAt_fst.comp e contDiffAt_snd)
    obtain ⟨dot, out, hd, ho, hval⟩ := road_smooth (k := 0) hc hown hX hU he
    have hcomp : ∀ a : (Fin M.nx → ℝ) × (Fin M.nu → ℝ) × ℝ, M.f (List.ofFn a.1) (List.ofFn a.2.1) a.2.2 = onTrackNames.states.map (fun n => dot n a) ∧
        M.h (List.ofFn a.1) (List.ofFn a.2.1) a.2.2 = con.map (fun n => out n a) ∧
        M.r (List.ofFn a.1) (List.ofFn a.2.1) a.2.2 = m.names.residuals.map (fun n => out n a) := by
      intro a
      have lx : (List.ofFn a.1).length = onTrackNames.states.length := by rw [List.length_ofFn, nx]
      have lu : (List.ofFn a.2.1).length = onTrackNames.inputs.length := by rw [List.length_ofFn, nu]
      have d1 : Lists onTrackNames.states (onTrackNames.states.map fun n => (n, X a n)) (List.ofFn a.1) := by
        have := lists_map (ns := onTrackNames.states) (by decide) (X a)
        rwa [map_named (by decide) lx] at this
      have d2 : Lists onTrackNames.inputs (onTrackNames.inputs.map fun n => (n, U a n)) (List.ofFn a.2.1) := by
        have := lists_map (ns := onTrackNames.inputs) (by decide) (U a)
        rwa [map_named (by decide) lu] at this
      obtain ⟨r, hr, l1, l2, l3⟩ := arraysOf_spec hdel (xs := List.ofFn a.1) (us := List.ofFn a.2.1) (μ := a.2.2)
        (by rw [hno]; exact lx) (by rw [hni]; exact lu) ⟨by rw [hno]; exact keys_map _ (X a), by rw [hno]; exact d1⟩ ⟨by rw [hni]; exact keys_map _ (U a), by rw [hni]; exact d2⟩
      obtain ⟨w1, w2⟩ := hval a (some a.2.2) r hr
      rw [hno] at l1
      exact ⟨(lists_iff l1 (fun n => dot n a)).2 w1, (lists_iff l2 (fun n => out n a)).2 fun n hn => w2 n (hco n hn),
        (lists_iff l3 (fun n => out n a)).2 fun n hn => w2 n (hrs n hn)⟩
    refine ⟨?_, ?_, ?_⟩
    · simp only [fun a => (hcomp a).1]
      exact map_smooth hd k
    · simp only [fun a => (hcomp a).2.1]
      exact map_smooth (fun n hn => ho n (hco n hn)) k
    · simp only [fun a => (hcomp a).2.2]
      exact map_smooth (fun n hn => ho n (hrs n hn)) k
  exact ⟨fun k e he => (all e he k).1.continuousAt.continuousWithinAt, fun k e he => (all e he k).2.1.continuousAt.continuousWithinAt,
    fun k e he => (all e he k).2.2.continuousAt.continuousWithinAt⟩

/-- If the bounds of a lap are finite on the states and inputs and keep the car where its equations are continuous at every stage, then either no lap is within them or there is a best one. -/
theorem best_lap (hv : Car v) (hown : ∀ n ∈ vehicleNames.outputs, n ∈ v.names.outputs) (hre : ∀ n ∈ v.names.residuals, n ∈ vehicleNames.outputs)
    (hc : Usable v cf) (hco : ∀ n ∈ cf.conOutputs, n ∈ ownOutputs) (hu : Backed v cf u D) {file : Py (List Row)} {l : Lap}
    (hl : laptime v u cf file = .ok l) {b : Built} (hb : l.problem = .ok b) (hlim : Kkt.Limited l.S b)
    (hR : ∀ x : List ℝ, x.length = l.S.c.o.L.numDec → Within b.bounds.lb b.bounds.ub x → ∀ s < l.S.c.o.L.numStages,
      ∀ X U : String → ℝ, (∀ n ∈ onTrackNames.states, readAt l.S.c.o.L x "states" n s = X n) → (∀ n ∈ onTrackNames.inputs, readAt l.S.c.o.L x "inputs" n s = U n) →
      SmoothAt 0 v X U)
    {x0 : List ℝ} (h0 : x0.length = l.S.c.o.L.numDec) (hf0 : b.Feasible (vdiv x0 b.prob.scales)) (hw0 : Within b.bounds.lb b.bounds.ub x0) :
    ∃ x : List ℝ, x.length = l.S.c.o.L.numDec ∧ b.Feasible (vdiv x b.prob.scales) ∧ Within b.bounds.lb b.bounds.ub x ∧
      ∀ y : List ℝ, y.length = l.S.c.o.L.numDec → b.Feasible (vdiv y b.prob.scales) → Within b.bounds.lb b.bounds.ub y →
        ∀ f g, b.prob.objective (vdiv x b.prob.scales) = .ok f → b.prob.objective (vdiv y b.prob.scales) = .ok g → f ≤ g := by
  obtain ⟨t, S, b0, tr, ht, hm, hg, hb0, hrd, hs, f1, f2, f3⟩ := laptime_inv hv hc hu hl
  obtain ⟨p1, p2, p3, p4, p5⟩ := hm.plain
  have hg' : l.S.Good D := f3 ▸ Good.rescale hg (hg.lap p2).1 p4 _
  have hM : l.S.c.M = (vehicleOnTrack v).explicit cf.conOutputs := by rw [f3]; exact hm.model
  obtain ⟨n1, n2, -, -⟩ := hm.names
  have eL : l.S.c.o.L = S.c.o.L := by rw [f3]; rfl
  obtain ⟨tr', b', g1, g2, g3, g4, g5⟩ := C69_problem (l := ⟨S, b0.bounds, none⟩) hg p2 p4 hrd hs
  rw [hb, Except.ok.injEq] at g2
  subst g2
  have hcost : ∀ x : List ℝ, x.length = l.S.c.o.L.numDec → b.prob.objective (vdiv x b.prob.scales) = .ok (Kkt.taskCost l.S x) := by
    intro x hx
    rw [(g5 x hx).2]
    have hl' : l.S.laptime = true := by rw [f3]; exact p2
    unfold Kkt.taskCost
    rw [if_neg (by rw [g4]; simp), if_pos hl']
  have hcont : ∃ K, Kkt.ContinuousModel l.S.c.M K ∧ ∀ x : List ℝ, x.length = l.S.c.o.L.numDec → Within b.bounds.lb b.bounds.ub x →
      ∀ s, s < l.S.c.o.L.numStages → Kkt.stagePoint l.S x s ∈ K := by
    refine ⟨{a | SmoothAt 0 v (named onTrackNames.states (List.ofFn a.1)) (named onTrackNames.inputs (List.ofFn a.2.1))}, ?_, ?_⟩
    · have := car_continuous hv hown hre hc.outputs.1 hco
      unfold Continuing at this
      rw [hM]
      exact this
    · intro x hx hw s hs'
      obtain ⟨e1, e2⟩ := Kkt.stagePoint_lists hg' x s
      show SmoothAt 0 v (named onTrackNames.states (List.ofFn _)) (named onTrackNames.inputs (List.ofFn _))
      rw [e1, e2]
      refine hR x hx hw s hs' _ _ (fun n hn => ?_) fun n hn => ?_
      · rw [readGroup, eL, n1, named_map _ hn]
      · rw [readGroup, eL, n2, named_map _ hn]
  obtain ⟨K, hK1, hK2⟩ := hcont
  obtain ⟨x, ⟨hx, hxs, hxw⟩, hbest⟩ := Kkt.C111_exists hg' hK1 hK2 hlim ⟨x0, h0, (g5 x0 h0).1.mp hf0, hw0⟩
  refine ⟨x, hx, (g5 x hx).1.mpr hxs, hxw, fun y hy hyf hyw f g hf hgy => ?_⟩
  rw [hcost x hx, Except.ok.injEq] at hf
  rw [hcost y hy, Except.ok.injEq] at hgy
  rw [← hf, ← hgy]
  exact hbest y hy ⟨(g5 y hy).1.mp hyf, hyw⟩

end

variable {p : Params} {d : Four (Dict ℝ)} {junk : In → Out} {cx cy cz : ℝ} {cf : Conf} {u : UnitProblem} {D : List ℝ → ℝ → Prop}

/-- **C113 (a best lap).** For every car with MF5.2 tyres: if the bounds of a lap are finite on the states and inputs and keep the car running at every stage, with loads and slips at which no
tyre divides by zero (corners do not matter), then either no lap is within them or there is a best one. -/
theorem C113_best_lap (hd : Keyed d) (hc : Usable (defaultCar p d junk cx cy cz) cf) (hco : ∀ n ∈ cf.conOutputs, n ∈ ownOutputs)
    (hu : Backed (defaultCar p d junk cx cy cz) cf u D) {file : Py (List Row)} {l : Lap}
    (hl : laptime (defaultCar p d junk cx cy cz) u cf file = .ok l) {b : Built} (hb : l.problem = .ok b) (hlim : Kkt.Limited l.S b)
    (hR : ∀ x : List ℝ, x.length = l.S.c.o.L.numDec → Within b.bounds.lb b.bounds.ub x → ∀ s < l.S.c.o.L.numStages,
      Runs52 Bears p d junk cx cy cz (fun n => readAt l.S.c.o.L x "states" n s) (fun n => readAt l.S.c.o.L x "inputs" n s))
    {x0 : List ℝ} (h0 : x0.length = l.S.c.o.L.numDec) (hf0 : b.Feasible (vdiv x0 b.prob.scales)) (hw0 : Within b.bounds.lb b.bounds.ub x0) :
    ∃ x : List ℝ, x.length = l.S.c.o.L.numDec ∧ b.Feasible (vdiv x b.prob.scales) ∧ Within b.bounds.lb b.bounds.ub x ∧
      ∀ y : List ℝ, y.length = l.S.c.o.L.numDec → b.Feasible (vdiv y b.prob.scales) → Within b.bounds.lb b.bounds.ub y →
        ∀ f g, b.prob.objective (vdiv x b.prob.scales) = .ok f → b.prob.objective (vdiv y b.prob.scales) = .ok g → f ≤ g :=
  best_lap (default_car p hd.1 hd.2.1 hd.2.2.1 hd.2.2.2 junk cx cy cz)
    (show ∀ n ∈ vehicleNames.outputs, n ∈ vehicleNames.outputs ++ carSubs from fun _ hn => List.mem_append_left _ hn)
    (show ∀ n ∈ ["res_ax", "res_ay"], n ∈ vehicleNames.outputs by decide)
    hc hco hu hl hb hlim (fun x hx hw s hs _ _ e1 e2 => smooth52 (k := 0) (by simp) (fun _ _ _ _ h => ⟨h, .inl rfl⟩) hd (Runs52.congr e1 e2 (hR x hx hw s hs))) h0 hf0 hw0

/-- **C113 (the default tyres).** For the default tyres it is enough that the reported loads are positive and at most 40 kN. -/
theorem C113_loads {x u : String → ℝ} (h : Runs52 (fun _ F _ _ => 0 < F ∧ F ≤ 40000) p defaultTyres junk cx cy cz x u) :
    Runs52 Bears p defaultTyres junk cx cy cz x u := by
  obtain ⟨h1, h2, h3, h4, h5, h6, h7⟩ := h
  refine ⟨h1, h2, h3, h4, fun r hr F kappa alpha => ?_, h6, h7⟩
  obtain ⟨t1, t2, t3, t4⟩ := h5 r hr F kappa alpha
  exact ⟨fun a b c => bears_default (t1 a b c).1 (t1 a b c).2 _ _, fun a b c => bears_default (t2 a b c).1 (t2 a b c).2 _ _,
    fun a b c => bears_default (t3 a b c).1 (t3 a b c).2 _ _, fun a b c => bears_default (t4 a b c).1 (t4 a b c).2 _ _⟩

end Lumos.Lts
