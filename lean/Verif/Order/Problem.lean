import Verif.Order.Props
import Verif.Sim.DroneMore
/-!
# Convergence, existence and uniqueness for built problems (C91)

The time-domain problems of `front` (`Sim/Front.lean`): a model with the states, inputs and outputs of a state space model, any of the
transcriptions, a mesh, a free mesh scale `T`. The inputs of a point are samples of input signals.
-/

namespace Lumos.Order

open Lumos DecVar DecVar.Layout Bounds Ocp Lumos.Trans NLP Sim

/-! ### Specification -/

/-- The dynamics of a model under given input signals. -/
noncomputable def driven (M : ExplicitModel) (U : ℝ → List ℝ) (s : ℝ) (y : Fin M.nx → ℝ) (k : Fin M.nx) : ℝ :=
  (M.f (List.ofFn y) (U s) s).getD k 0

/-- The states, and the state derivatives, of a point at a stage, as a user reads them. -/
noncomputable def statesAt (M : ExplicitModel) (L : Layout) (x : List ℝ) (group : String) (s : Nat) (k : Fin M.nx) : ℝ :=
  readAt L x group (M.states[k.val]'k.isLt) s

/-- The times of the interval points: the points of the mesh times the mesh scale. -/
noncomputable def times (n : Nat) (pts : Option (List ℝ)) (T : ℝ) (i : Nat) : ℝ := (pointsOf n pts).getD i 0 * T

/-- The inputs of a point are samples of the signals. -/
def Sampled (t : Transcription) (n : Nat) (ts : Nat → ℝ) (L : Layout) (x : List ℝ) (U : ℝ → List ℝ) : Prop :=
  ∀ i, i < n → ∀ j, j < t.stages → readGroup L x "inputs" (i * (t.stages - 1) + j) = U (time t ts i j)

/-! ### Lemmas -/

theorem readGroup_ofFn {M : ExplicitModel} {L : Layout} {x : List ℝ} {g : String} (h : L.namesOf g = M.states) (s : Nat) :
    readGroup L x g s = List.ofFn (statesAt M L x g s) := by
  unfold readGroup
  rw [h]
  refine List.ext_getElem (by rw [List.length_map, List.length_ofFn]; rfl) fun i h1 h2 => ?_
  rw [List.getElem_map, List.getElem_ofFn]
  rfl

theorem stage_lt {t : Transcription} {n i j : Nat} (h2 : 2 ≤ t.stages) (hi : i < n) (hj : j < t.stages) :
    i * (t.stages - 1) + j < n * (t.stages - 1) + 1 := by
  have : (i + 1) * (t.stages - 1) ≤ n * (t.stages - 1) := Nat.mul_le_mul_right _ hi
  rw [Nat.succ_mul] at this
  omega

section

variable {M : ExplicitModel} {u : UnitProblem} {name : String} {kwargs : List (String × Int)} {t : Transcription} {n : Nat}
  {pts : Option (List ℝ)} {S : Setup}

theorem Made.mesh (h : Made M u t n pts S) {T : ℝ} (hT : 0 ≤ T) {i : Nat} (hi : i < n) : times n pts T i ≤ times n pts T (i + 1) := by
  have hp := h.pos (S.c.o.normLen.getD i 0) (by
    rw [List.getD_eq_getElem?_getD, List.getElem?_eq_getElem (by rw [h.lens]; exact hi)]
    exact List.getElem_mem _)
  rw [h.len i hi] at hp
  unfold times
  nlinarith

/-- Points that satisfy the constraints of the problem are discrete trajectories of the model under the input signals. -/
theorem C91_problem (h : Made M u t n pts S) (ht : makeTranscription name kwargs = .ok t) {D : List ℝ → ℝ → Prop} (hS : S.Good D)
    (hf : ∀ x u μ μ', M.f x u μ = M.f x u μ') {b : Built} (hb : S.build = .ok b) {x : List ℝ} (hx : x.length = S.c.o.L.numDec)
    {U : ℝ → List ℝ} (hU : Sampled t n (times n pts (readScale S.c.o x)) S.c.o.L x U) (hfeas : b.Feasible (vdiv x b.prob.scales)) :
    Discrete t n (times n pts (readScale S.c.o x)) (driven M U) (statesAt M S.c.o.L x "states") (statesAt M S.c.o.L x "states_dot") := by
  rw [C47_lifted hS h.plain.2.2.2 hb hx] at hfeas
  have h2 := (C38_shapes ht).1
  have e1 : S.c.o.L.namesOf "states" = M.states := by rw [h.layout]; rfl
  have e2 : S.c.o.L.namesOf "states_dot" = M.states := by rw [h.layout]; rfl
  constructor
  · intro i hi k
    have := (h.defects x).mp hfeas.defects i hi _ (List.getElem_mem k.isLt)
    rw [sub_mul] at this
    exact this
  · intro i hi j hj
    have d := hfeas.dynamics (i * (t.stages - 1) + j) (by rw [h.stages]; exact stage_lt h2 hi hj)
    rw [h.model, hU i hi j hj, readGroup_ofFn e1, readGroup_ofFn e2] at d
    funext k
    unfold driven
    rw [hf _ _ _ (S.c.mesh.getD (i * (t.stages - 1) + j) 0 * readScale S.c.o x), d, List.getD_eq_getElem?_getD]
    simp

/-- Refining the mesh of a problem converges: with one constant for all meshes, the states of every point that satisfies the constraints, whose
inputs are samples of the signals and whose states stay in the neighbourhood where the dynamics are Lipschitz, are within `C h^p` of the
trajectory of the model under these signals. -/
theorem C91_problem_converges (hM : M.Good) (ht : makeTranscription name kwargs = .ok t) (hf : ∀ x u μ μ', M.f x u μ = M.f x u μ')
    {U : ℝ → List ℝ} {X : ℝ → Fin M.nx → ℝ} {a c : ℝ} (hX : Solves (driven M U) X a c) {p : Nat} (hp : p ≤ exactDegree name t.stages)
    (hsm : ∀ k, ContDiff ℝ (p + 1 : Nat) fun s => X s k) {ρ L : ℝ} (hL : LipschitzNear (driven M U) X a c ρ L) :
    ∃ C δ, 0 ≤ C ∧ 0 < δ ∧ ∀ (n : Nat) (pts : Option (List ℝ)) (bounds : List (BoundConfig EReal)) (bcs : List (BC EReal)) (scales : List ScaleConfig)
      (S : Setup) (D : List ℝ → ℝ → Prop) (b : Built) (x : List ℝ) (h : ℝ), 1 ≤ n → front M u name kwargs n pts bounds bcs scales = .ok S → S.Good D → S.build = .ok b →
      x.length = S.c.o.L.numDec → b.Feasible (vdiv x b.prob.scales) → Sampled t n (times n pts (readScale S.c.o x)) S.c.o.L x U →
      Mesh n (times n pts (readScale S.c.o x)) a c h → h ≤ δ →
      Close t n (times n pts (readScale S.c.o x)) (statesAt M S.c.o.L x "states") X ρ →
      Close t n (times n pts (readScale S.c.o x)) (statesAt M S.c.o.L x "states") X (C * (‖statesAt M S.c.o.L x "states" 0 - X a‖ + h ^ p)) := by
  obtain ⟨C, δ, hC, hδ, main⟩ := C91_order ht hX hp hsm hL
  refine ⟨C, δ, hC, hδ, ?_⟩
  intro n pts bounds bcs scales S D b x h hn hS hg hb hx hfe hU hm hh hcl
  obtain ⟨t', ht', hmade, _⟩ := front_inv hM hn hS
  rw [ht] at ht'
  obtain rfl := Except.ok.inj ht'
  exact main n _ h hm hh _ _ (C91_problem hmade ht hg hf hb hx hU hfe) hcl

/-- The problem can be simulated: for a model without residuals whose dynamics are Lipschitz, given input signals, a mesh scale and a start such that
the steps of the mesh are small against the Lipschitz constant, there is a point with these that satisfies the constraints, and its states and
derivatives are the only ones. -/
theorem C91_simulate (ht : makeTranscription name kwargs = .ok t) : ∃ K, 0 ≤ K ∧
    ∀ {M : ExplicitModel} {u : UnitProblem} {n : Nat} {pts : Option (List ℝ)} {S : Setup} (_ : Made M u t n pts S) (_ : M.Good) {D : List ℝ → ℝ → Prop} (_ : S.Good D)
      (_ : ∀ x u μ μ', M.f x u μ = M.f x u μ') (_ : M.residuals = []) {b : Built} (_ : S.build = .ok b) {U : ℝ → List ℝ} (_ : ∀ s, (U s).length = M.nu)
      {T L h : ℝ} (_ : 0 ≤ T) (_ : LipschitzAll (driven M U) (times n pts T 0) (times n pts T n) L)
      (_ : ∀ i, i < n → times n pts T (i + 1) - times n pts T i ≤ h) (_ : 2 * (K * L * h) ≤ 1) (_ : 1 ≤ n) (x0 : Fin M.nx → ℝ),
      (∃ x, x.length = S.c.o.L.numDec ∧ b.Feasible (vdiv x b.prob.scales) ∧ readScale S.c.o x = T ∧ statesAt M S.c.o.L x "states" 0 = x0 ∧
        Sampled t n (times n pts T) S.c.o.L x U) ∧
      ∀ x y, x.length = S.c.o.L.numDec → b.Feasible (vdiv x b.prob.scales) → readScale S.c.o x = T → statesAt M S.c.o.L x "states" 0 = x0 →
        Sampled t n (times n pts T) S.c.o.L x U → y.length = S.c.o.L.numDec → b.Feasible (vdiv y b.prob.scales) → readScale S.c.o y = T →
        statesAt M S.c.o.L y "states" 0 = x0 → Sampled t n (times n pts T) S.c.o.L y U →
        ∀ s, s < S.c.o.L.numStages → statesAt M S.c.o.L x "states" s = statesAt M S.c.o.L y "states" s := by
  obtain ⟨K, hK, main⟩ := C91_exists_unique ht
  refine ⟨K, hK, ?_⟩
  intro M u n pts S h hM D hS hf hr b hb U hU T L hmax hT hL hstep hs hn x0
  have h2 := (C38_shapes ht).1
  have hmesh : MeshWithin n (times n pts T) hmax := fun i hi => ⟨Made.mesh h hT hi, hstep i hi⟩
  obtain ⟨⟨X, Xd, hX, hX0⟩, uniq⟩ := main M.nx n (times n pts T) hmax hmesh (driven M U) L hL hs x0
  have hst := h.stages
  have e1 : S.c.o.L.namesOf "states" = M.states := by rw [h.layout]; rfl
  have e2 : S.c.o.L.namesOf "states_dot" = M.states := by rw [h.layout]; rfl
  have e3 : S.c.o.L.namesOf "inputs" = M.inputs := by rw [h.layout]; rfl
  have e4 : S.c.o.L.namesOf "con_outputs" = M.conOutputs := by rw [h.layout]; rfl
  constructor
  · -- the point
    let tm : Nat → ℝ := fun s => time t (times n pts T) (s / (t.stages - 1)) (s % (t.stages - 1))
    have htm : ∀ i j, j < t.stages → tm (i * (t.stages - 1) + j) = time t (times n pts T) i j :=
      fun i j hj => at_number h2 (time t (times n pts T)) (time_end ht _) i hj
    let v : String → String → Nat → ℝ := fun g m s =>
      if g = "states" then (List.ofFn (X s)).getD (M.states.idxOf m) 0
      else if g = "inputs" then (U (tm s)).getD (M.inputs.idxOf m) 0
      else if g = "states_dot" then (List.ofFn (Xd s)).getD (M.states.idxOf m) 0
      else (M.h (List.ofFn (X s)) (U (tm s)) (S.c.mesh.getD s 0 * T)).getD (M.conOutputs.idxOf m) 0
    obtain ⟨x, hxl, hxT, hxv⟩ := Made.point h hS.cond v T
    have hvar : ∀ s g m, s < S.c.o.L.numStages → ((g = "states" ∧ m ∈ M.states) ∨ (g = "inputs" ∧ m ∈ M.inputs) ∨ (g = "states_dot" ∧ m ∈ M.states) ∨
        (g = "con_outputs" ∧ m ∈ M.conOutputs)) → readAt S.c.o.L x g m s = v g m s := by
      intro s g m hs hm
      refine hxv s g m ?_
      rw [h.layout, isVar_iff, ← h.layout]
      exact ⟨hs, hm⟩
    have hgrp : ∀ s g ns (l : List ℝ), s < S.c.o.L.numStages → S.c.o.L.namesOf g = ns → ns.Nodup → l.length = ns.length →
        (∀ m ∈ ns, readAt S.c.o.L x g m s = l.getD (ns.idxOf m) 0) → readGroup S.c.o.L x g s = l := by
      intro s g ns l hs hg hnd hl hv
      unfold readGroup
      rw [hg]
      refine List.ext_getElem (by simpa using hl.symm) fun i h1 h2 => ?_
      have hi : i < ns.length := by simpa using h1
      rw [List.getElem_map, hv _ (List.getElem_mem hi), hnd.idxOf_getElem, List.getD_eq_getElem?_getD, List.getElem?_eq_getElem h2]
      rfl
    have gS : ∀ s, s < S.c.o.L.numStages → readGroup S.c.o.L x "states" s = List.ofFn (X s) := fun s hs =>
      hgrp s "states" M.states _ hs e1 hM.nodupS (by rw [List.length_ofFn]; rfl) fun m hm => by
        rw [hvar s _ m hs (Or.inl ⟨rfl, hm⟩)]; simp [v]
    have gI : ∀ s, s < S.c.o.L.numStages → readGroup S.c.o.L x "inputs" s = U (tm s) := fun s hs =>
      hgrp s "inputs" M.inputs _ hs e3 hM.nodupI (hU _) fun m hm => by
        rw [hvar s _ m hs (Or.inr (Or.inl ⟨rfl, hm⟩))]; simp [v]
    have gD : ∀ s, s < S.c.o.L.numStages → readGroup S.c.o.L x "states_dot" s = List.ofFn (Xd s) := fun s hs =>
      hgrp s "states_dot" M.states _ hs e2 hM.nodupS (by rw [List.length_ofFn]; rfl) fun m hm => by
        rw [hvar s _ m hs (Or.inr (Or.inr (Or.inl ⟨rfl, hm⟩)))]; simp [v]
    have gY : ∀ s, s < S.c.o.L.numStages → readGroup S.c.o.L x "con_outputs" s = M.h (List.ofFn (X s)) (U (tm s)) (S.c.mesh.getD s 0 * T) := fun s hs =>
      hgrp s "con_outputs" M.conOutputs _ hs e4 hM.nodupY (hM.lenH _ _ _ (by simp) (hU _)) fun m hm => by
        rw [hvar s _ m hs (Or.inr (Or.inr (Or.inr ⟨rfl, hm⟩)))]; simp [v]
    have sS : ∀ s, s < S.c.o.L.numStages → statesAt M S.c.o.L x "states" s = X s := by
      intro s hs
      have := gS s hs
      rw [readGroup_ofFn e1] at this
      exact List.ofFn_injective this
    have sD : ∀ s, s < S.c.o.L.numStages → statesAt M S.c.o.L x "states_dot" s = Xd s := by
      intro s hs
      have := gD s hs
      rw [readGroup_ofFn e2] at this
      exact List.ofFn_injective this
    have hlt : ∀ i, i < n → ∀ j, j < t.stages → i * (t.stages - 1) + j < S.c.o.L.numStages := by
      intro i hi j hj
      rw [hst]
      exact stage_lt h2 hi hj
    refine ⟨x, hxl, ?_, hxT, by rw [sS 0 (by rw [hst]; omega), hX0], fun i hi j hj => by rw [gI _ (hlt i hi j hj), htm i j hj]⟩
    rw [C47_lifted hS h.plain.2.2.2 hb hxl]
    refine ⟨(h.defects x).mpr fun i hi m hm => ?_, fun s hs => ?_, fun s hs => ?_, fun s hs => ?_, ?_⟩
    · obtain ⟨k, hk, rfl⟩ := List.mem_iff_getElem.mp hm
      have st := hX.steps i hi ⟨k, hk⟩
      rw [hxT, sub_mul]
      refine Steps.congr (fun j hj => ?_) (fun j hj => ?_) st
      · exact (congrFun (sS _ (hlt i hi j hj)) ⟨k, hk⟩).symm
      · exact (congrFun (sD _ (hlt i hi j hj)) ⟨k, hk⟩).symm
    · obtain ⟨i, j, hi, hj, rfl⟩ : ∃ i j, i < n ∧ j < t.stages ∧ s = i * (t.stages - 1) + j := by
        rw [hst] at hs
        rcases Nat.lt_or_ge s (n * (t.stages - 1)) with hlt | hge
        · refine ⟨s / (t.stages - 1), s % (t.stages - 1), Nat.div_lt_of_lt_mul (by rwa [Nat.mul_comm]), ?_, ?_⟩
          · have := Nat.mod_lt s (show 0 < t.stages - 1 by omega); omega
          · rw [Nat.mul_comm, Nat.div_add_mod]
        · refine ⟨n - 1, t.stages - 1, by omega, by omega, ?_⟩
          have : n * (t.stages - 1) = (n - 1) * (t.stages - 1) + (t.stages - 1) := by
            rw [← Nat.succ_mul, Nat.succ_eq_add_one, Nat.sub_add_cancel hn]
          omega
      have hs' := hlt i hi j hj
      rw [gS _ hs', gI _ hs', gD _ hs', h.model, htm i j hj, hX.dyn i hi j hj]
      refine List.ext_getElem (by rw [hM.lenF _ _ _ (by simp) (hU _)]; simp) fun k h1 h3 => ?_
      have e : ∀ (l l' : List ℝ) (hl : k < l.length), l' = l → l[k] = l'.getD k 0 := by
        rintro l _ hl rfl
        rw [List.getD_eq_getElem?_getD, List.getElem?_eq_getElem hl]
        rfl
      exact (e _ _ h1 (hf _ _ _ _)).trans (List.getElem_ofFn h3).symm
    · rw [gS s hs, gI s hs, gY s hs, h.model, hxT]
    · intro w hw
      have : (M.r (readGroup S.c.o.L x "states" s) (readGroup S.c.o.L x "inputs" s) (S.c.mesh.getD s 0 * readScale S.c.o x)).length = 0 := by
        rw [hM.lenR _ _ _ (by rw [gS s hs]; simp) (by rw [gI s hs]; exact hU _), ExplicitModel.nr, hr]
        rfl
      rw [h.model, List.length_eq_zero_iff.mp this] at hw
      simp at hw
    · rw [h.plain.2.2.1]
      simp
  · intro x y hx fx Tx sx Ux hy fy Ty sy Uy s hs
    rw [hst] at hs
    have dx := C91_problem h ht hS hf hb hx (U := U) (by rw [Tx]; exact Ux) fx
    have dy := C91_problem h ht hS hf hb hy (U := U) (by rw [Ty]; exact Uy) fy
    rw [Tx] at dx
    rw [Ty] at dy
    exact uniq _ _ _ _ dx sx dy sy s hs

end

/-! ### The drone -/

/-- The dynamics of the drone under bounded thrust are Lipschitz. -/
theorem drone_lipschitz (g : ℝ) {f ω : ℝ → ℝ} {B : ℝ} (hB : ∀ s, |f s| ≤ B) (a b : ℝ) :
    LipschitzAll (driven (droneModel g) fun s => [f s, ω s]) a b (max 1 B) := by
  refine ⟨le_max_of_le_left zero_le_one, fun s _ y z => ?_⟩
  have n1 : (1 : ℝ) ≤ max 1 B := le_max_left _ _
  have nB : |f s| ≤ max 1 B := (hB s).trans (le_max_right _ _)
  have hn := norm_nonneg (y - z)
  have c : ∀ k, |y k - z k| ≤ ‖y - z‖ := fun k => norm_le_pi_norm (y - z) k
  have l1 : ∀ k, |y k - z k| ≤ max 1 B * ‖y - z‖ := fun k => (c k).trans (le_mul_of_one_le_left hn n1)
  have val : ∀ y : Fin (droneModel g).nx → ℝ, ∀ k, driven (droneModel g) (fun s => [f s, ω s]) s y k =
      [y (1 : Fin 5), f s * Real.sin (y (4 : Fin 5)), y (3 : Fin 5), f s * Real.cos (y (4 : Fin 5)) - g, ω s].getD k.val 0 := by
    intro y k
    unfold driven
    show ([_, _, _, _, _] : List ℝ).getD _ _ = _
    rfl
  have sinL : ∀ p q : ℝ, |Real.sin p - Real.sin q| ≤ |p - q| := fun p q => by
    have := Real.lipschitzWith_sin.dist_le_mul p q
    simpa [Real.dist_eq] using this
  have cosL : ∀ p q : ℝ, |Real.cos p - Real.cos q| ≤ |p - q| := fun p q => by
    have := Real.lipschitzWith_cos.dist_le_mul p q
    simpa [Real.dist_eq] using this
  have tr : ∀ p q : ℝ, |p - q| ≤ ‖y - z‖ → ∀ w w' : ℝ, |w - w'| ≤ |p - q| → |f s * w - f s * w'| ≤ max 1 B * ‖y - z‖ := by
    intro p q hpq w w' hw
    rw [← mul_sub, abs_mul]
    exact mul_le_mul nB (hw.trans hpq) (abs_nonneg _) (by positivity)
  refine (pi_norm_le_iff_of_nonneg (by positivity)).mpr fun k => ?_
  rw [Pi.sub_apply, val, val, Real.norm_eq_abs]
  have hk : k.val < 5 := k.isLt
  obtain ⟨k, hk'⟩ := k
  change k < 5 at hk'
  interval_cases k
  · exact l1 (1 : Fin 5)
  · exact tr _ _ (c (4 : Fin 5)) _ _ (sinL _ _)
  · exact l1 (3 : Fin 5)
  · have := tr _ _ (c (4 : Fin 5)) _ _ (cosL (y (4 : Fin 5)) (z (4 : Fin 5)))
    show |f s * Real.cos (y (4 : Fin 5)) - g - (f s * Real.cos (z (4 : Fin 5)) - g)| ≤ _
    rwa [sub_sub_sub_cancel_right]
  · show |ω s - ω s| ≤ _
    rw [sub_self, abs_zero]
    positivity

/-- The drone example can be simulated on every mesh whose steps are small enough: for all thrust and rate signals with bounded thrust, every mesh
scale and every start, the constraints of the built problem determine the states. -/
theorem C91_drone {name : String} {kwargs : List (String × Int)} {t : Transcription} (ht : makeTranscription name kwargs = .ok t) :
    ∃ K, 0 ≤ K ∧ ∀ (g : ℝ) (n : Nat) (pts : Option (List ℝ)) (S : Setup) (b : Built), 1 ≤ n → droneSetup g name kwargs n pts = .ok S → S.build = .ok b →
      ∀ (f ω : ℝ → ℝ) (B T h : ℝ), (∀ s, |f s| ≤ B) → 0 ≤ T → (∀ i, i < n → times n pts T (i + 1) - times n pts T i ≤ h) → 2 * (K * max 1 B * h) ≤ 1 →
      ∀ x0 : Fin 5 → ℝ,
      (∃ x, x.length = S.c.o.L.numDec ∧ b.Feasible (vdiv x b.prob.scales) ∧ readScale S.c.o x = T ∧
        statesAt (droneModel g) S.c.o.L x "states" 0 = x0 ∧ Sampled t n (times n pts T) S.c.o.L x fun s => [f s, ω s]) ∧
      ∀ x y, x.length = S.c.o.L.numDec → b.Feasible (vdiv x b.prob.scales) → readScale S.c.o x = T →
        statesAt (droneModel g) S.c.o.L x "states" 0 = x0 → Sampled t n (times n pts T) S.c.o.L x (fun s => [f s, ω s]) →
        y.length = S.c.o.L.numDec → b.Feasible (vdiv y b.prob.scales) → readScale S.c.o y = T →
        statesAt (droneModel g) S.c.o.L y "states" 0 = x0 → Sampled t n (times n pts T) S.c.o.L y (fun s => [f s, ω s]) →
        ∀ s, s < S.c.o.L.numStages → statesAt (droneModel g) S.c.o.L x "states" s = statesAt (droneModel g) S.c.o.L y "states" s := by
  obtain ⟨K, hK, main⟩ := C91_simulate ht
  refine ⟨K, hK, ?_⟩
  intro g n pts S b hn hS hb f ω B T h hB hT hst hs x0
  obtain ⟨t', ht', hm, _⟩ := drone_made hn hS
  rw [ht] at ht'
  obtain rfl := Except.ok.inj ht'
  exact main hm (droneModel_good g) (drone_good hn hS) (fun _ _ _ _ => rfl) rfl hb (U := fun s => [f s, ω s]) (fun _ => rfl) hT
    (drone_lipschitz g hB _ _) hst hs hn x0

end Lumos.Order
