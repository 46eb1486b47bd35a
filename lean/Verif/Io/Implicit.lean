import Verif.Io.Forward
import Verif.Ocp.BuildExample
/-!
# C52: from `forward` by name to the constraints of an OCP

An OCP calls its model through `_apply_and_flat_implicit` (base.py:532-595) with flat arrays; the user has written `forward`
with dictionaries. The theorems say what the constraints of a built OCP are in terms of the user's `forward`.
-/

namespace Lumos.Io

open Lumos Ocp DecVar DecVar.Layout NLP

namespace Mdl

/-- The arrays of `forward_with_arrays` on a newly constructed object, or nothing where it raises. -/
def arraysOf (m : Mdl ℝ) (nm : Names) (x u : List ℝ) (μ : ℝ) : ArrayRet ℝ :=
  match (m.forwardArraysSS nm (clear m) x u μ).2 with
  | .ok a => a
  | .error _ => {}

/-- The model as the OCP uses it (base.py:508-530), with `con` set by `set_con_outputs` (base.py:476-480): `f`, `h`, `r` are
the arrays `states_dot`, `con_outputs`, `residuals` of `forward_with_arrays`. -/
def explicit (m : Mdl ℝ) (con : List String) : ExplicitModel :=
  let nm := m.names.setConOutputs con
  { states := nm.states, inputs := nm.inputs, conOutputs := nm.conOutputs, residuals := nm.residuals
    f := fun x u μ => (arraysOf m nm x u μ).statesDot
    h := fun x u μ => (arraysOf m nm x u μ).conOutputs
    r := fun x u μ => (arraysOf m nm x u μ).residuals }

/-! ## Specification -/

/-- A state-space model that does what its declarations promise: `forward` returns for all states and inputs, with a
derivative for every state and a value for every declared output, for every constrained output and every residual. -/
structure Delivers (m : Mdl ℝ) (con : List String) : Prop where
  orderly : Orderly m
  stateSpace : m.names.stateSpace = true
  states : m.names.states ≠ [] ∧ m.names.states.Nodup
  inputs : m.names.inputs.Nodup
  conNodup : con.Nodup
  returns : ∀ (dx du : Dict ℝ) (μ : ℝ), dx.keys = m.names.states → du.keys = m.names.inputs →
    ∃ r, m.eval { states := some dx, inputs := some du, mesh := some μ } = .ok r ∧ Passable r.statesDot ∧ Passable r.outputs ∧
      (∀ n ∈ m.names.states, n ∈ r.statesDot.keys) ∧ (∀ n ∈ m.names.outputs, n ∈ r.outputs.keys) ∧
      (∀ n ∈ con, n ∈ r.outputs.keys) ∧ (∀ n ∈ m.names.residuals, n ∈ r.outputs.keys)

/-- At stage `s` of the decision vector `x` the model's equations hold: `forward`, called with the states, the inputs and the
mesh of that stage, returns the derivative variables for the states, the output variables for the constrained outputs, and
zero for the residuals. -/
def HoldsAt (m : Mdl ℝ) (con : List String) (L : Layout) (x : List ℝ) (s : Nat) (μ : ℝ) : Prop :=
  ∃ r, m.eval { states := some (m.names.states.map fun n => (n, readAt L x "states" n s))
                inputs := some (m.names.inputs.map fun n => (n, readAt L x "inputs" n s)), mesh := some μ } = .ok r ∧
    (∀ n ∈ m.names.states, r.statesDot.lookup n = some (readAt L x "states_dot" n s)) ∧
    (∀ n ∈ con, r.outputs.lookup n = some (readAt L x "con_outputs" n s)) ∧
    (∀ n ∈ m.names.residuals, r.outputs.lookup n = some 0)

/-! ## Proofs -/

theorem arraysOf_spec {m : Mdl ℝ} {con : List String} (h : Delivers m con) {xs us : List ℝ} {μ : ℝ}
    (hx : xs.length = m.names.states.length) (hu : us.length = m.names.inputs.length) {dx du : Dict ℝ}
    (hdx : dx.keys = m.names.states ∧ Lists m.names.states dx xs) (hdu : du.keys = m.names.inputs ∧ Lists m.names.inputs du us) :
    ∃ r, m.eval { states := some dx, inputs := some du, mesh := some μ } = .ok r ∧
      Lists m.names.states r.statesDot ((explicit m con).f xs us μ) ∧ Lists con r.outputs ((explicit m con).h xs us μ) ∧
      Lists m.names.residuals r.outputs ((explicit m con).r xs us μ) := by
  obtain ⟨r, hr, p1, p2, k1, k2, k3, k4⟩ := h.returns dx du μ hdx.1 hdu.1
  have hrun : m.run (clear m) { states := some dx, inputs := some du, mesh := some μ } = (clear m, .ok r) := by
    have := run_clear h.orderly { states := some dx, inputs := some du, mesh := some μ }
    exact Prod.ext (this.2 r hr) (this.1.trans hr)
  obtain ⟨a, ha, l1, _, l3, l4⟩ := C50_forward_arrays m (m.names.setConOutputs con) h.stateSpace h.states.2 h.inputs _ _ xs us μ hx hu
    hdx hdu hrun p1 p2 k1 k2 k3 k4
  refine ⟨r, hr, ?_⟩
  have e : arraysOf m (m.names.setConOutputs con) xs us μ = a := by unfold arraysOf; rw [ha]
  simp only [explicit, e]
  exact ⟨l1, l3, l4⟩

/-- The dictionary of an array. -/
theorem dictOf {ns : List String} (hnd : ns.Nodup) {v : List ℝ} (hv : v.length = ns.length) :
    ∃ d : Dict ℝ, d.keys = ns ∧ Lists ns d v := by
  obtain ⟨d, _, hk, hl⟩ := (C50_array_to_dict hnd v).2 (Nat.le_of_eq hv.symm)
  rw [← hv, List.take_length] at hl
  exact ⟨d, hk, hl⟩

theorem explicit_good {m : Mdl ℝ} {con : List String} (h : Delivers m con) : (explicit m con).Good where
  pos := List.length_pos_iff.2 h.states.1
  nodupS := h.states.2
  nodupI := h.inputs
  nodupY := h.conNodup
  lenF := by
    intro x u μ hx hu
    obtain ⟨dx, hdx⟩ := dictOf h.states.2 hx
    obtain ⟨du, hdu⟩ := dictOf h.inputs hu
    obtain ⟨r, _, l, _⟩ := arraysOf_spec h (μ := μ) hx hu hdx hdu
    exact l.1
  lenH := by
    intro x u μ hx hu
    obtain ⟨dx, hdx⟩ := dictOf h.states.2 hx
    obtain ⟨du, hdu⟩ := dictOf h.inputs hu
    obtain ⟨r, _, _, l, _⟩ := arraysOf_spec h (μ := μ) hx hu hdx hdu
    exact l.1
  lenR := by
    intro x u μ hx hu
    obtain ⟨dx, hdx⟩ := dictOf h.states.2 hx
    obtain ⟨du, hdu⟩ := dictOf h.inputs hu
    obtain ⟨r, _, _, _, l⟩ := arraysOf_spec h (μ := μ) hx hu hdx hdu
    exact l.1

theorem Lists.getD {ns : List String} {d : Dict ℝ} {v : List ℝ} (h : Lists ns d v) {k : Nat} {n : String} (hk : ns[k]? = some n) :
    d.lookup n = some (v.getD k 0) := by
  obtain ⟨a, ha, hd⟩ := h.2 k n hk
  rw [List.getD_eq_getElem?_getD, ha, hd]
  rfl

/-- C52: the unit constraints that an OCP imposes at a stage, by name. For a flat stage vector `v` of states, inputs, state
derivatives and constrained outputs, `forward` is called with the dictionaries of its states and inputs, and the residuals
are, in this order: for each state what `forward` returns as its derivative minus the derivative in `v`, for each
constrained output what `forward` returns among the outputs minus the value in `v`, and the residual outputs. -/
theorem C52_implicit {m : Mdl ℝ} {con : List String} (h : Delivers m con) {v : List ℝ}
    (hv : v.length = (explicit m con).numVar) (μ : ℝ) :
    ∃ x u xd y dx du r, v = x ++ u ++ xd ++ y ∧ Lists m.names.states dx x ∧ Lists m.names.inputs du u ∧
      dx.keys = m.names.states ∧ du.keys = m.names.inputs ∧
      m.eval { states := some dx, inputs := some du, mesh := some μ } = .ok r ∧
      (∀ k n, m.names.states[k]? = some n →
        ∃ a, r.statesDot.lookup n = some a ∧ ((explicit m con).flatImplicit v μ).getD k 0 = a - xd.getD k 0) ∧
      (∀ k n, con[k]? = some n → ∃ a, r.outputs.lookup n = some a ∧
        ((explicit m con).flatImplicit v μ).getD (m.names.states.length + k) 0 = a - y.getD k 0) ∧
      (∀ k n, m.names.residuals[k]? = some n → ∃ a, r.outputs.lookup n = some a ∧
        ((explicit m con).flatImplicit v μ).getD (m.names.states.length + con.length + k) 0 = a) ∧
      ((explicit m con).flatImplicit v μ).length = m.names.states.length + con.length + m.names.residuals.length := by
  have hM := explicit_good h
  obtain ⟨x, u, xd, y, hv', hx, hu, hxd, hy, c1, c2, c3⟩ := ExplicitModel.C44_residuals hM hv μ
  have hx' : x.length = m.names.states.length := hx
  have hu' : u.length = m.names.inputs.length := hu
  obtain ⟨dx, hdx⟩ := dictOf h.states.2 hx'
  obtain ⟨du, hdu⟩ := dictOf h.inputs hu'
  obtain ⟨r, hr, l1, l2, l3⟩ := arraysOf_spec h (μ := μ) hx' hu' hdx hdu
  refine ⟨x, u, xd, y, dx, du, r, hv', hdx.2, hdu.2, hdx.1, hdu.1, hr, ?_, ?_, ?_, ?_⟩
  · intro k n hk
    have hlt : k < m.names.states.length := (List.getElem?_eq_some_iff.1 hk).1
    exact ⟨_, Lists.getD l1 hk, c1 k hlt⟩
  · intro k n hk
    have hlt : k < con.length := (List.getElem?_eq_some_iff.1 hk).1
    exact ⟨_, Lists.getD l2 hk, c2 k hlt⟩
  · intro k n hk
    have hlt : k < m.names.residuals.length := (List.getElem?_eq_some_iff.1 hk).1
    exact ⟨_, Lists.getD l3 hk, c3 k hlt⟩
  · exact ExplicitModel.length_flatImplicit hM hv μ

theorem keys_map (ns : List String) (f : String → ℝ) : Dict.keys (ns.map fun n => (n, f n)) = ns := by
  simp [Dict.keys, Function.comp_def]

theorem lists_map {ns : List String} (hnd : ns.Nodup) (f : String → ℝ) : Lists ns (ns.map fun n => (n, f n)) (ns.map f) := by
  refine ⟨by simp, ?_⟩
  intro i n hi
  refine ⟨f n, by rw [List.getElem?_map, hi]; rfl, ?_⟩
  exact Dict.lookup_of_mem (by rw [keys_map]; exact hnd) (List.mem_map.2 ⟨n, List.mem_of_getElem? hi, rfl⟩)

theorem lists_iff {ns : List String} {d : Dict ℝ} {v : List ℝ} (h : Lists ns d v) (f : String → ℝ) :
    v = ns.map f ↔ ∀ n ∈ ns, d.lookup n = some (f n) := by
  constructor
  · intro e n hn
    obtain ⟨a, ha, hd⟩ := h.value hn
    rw [hd, ← ha, e, List.getElem?_map, List.getElem?_eq_getElem (List.idxOf_lt_length_iff.2 hn)]
    simp
  · intro hd
    apply List.ext_getElem (by rw [h.1, List.length_map])
    intro i h1 h2
    have hi : i < ns.length := by rw [← h.1]; exact h1
    obtain ⟨a, ha, hda⟩ := h.2 i _ (List.getElem?_eq_getElem hi)
    rw [hd _ (List.getElem_mem hi)] at hda
    rw [List.getElem?_eq_getElem h1] at ha
    rw [List.getElem_map, Option.some.inj ha, ← Option.some.inj hda]

/-- The three equations of `IsSolution` at a stage are the model's equations by name. -/
theorem holdsAt_iff {m : Mdl ℝ} {con : List String} (h : Delivers m con) (L : Layout) (x : List ℝ) (s : Nat) (μ : ℝ)
    (hs : L.namesOf "states" = m.names.states) (hi : L.namesOf "inputs" = m.names.inputs)
    (hd : L.namesOf "states_dot" = m.names.states) (hc : L.namesOf "con_outputs" = con) :
    HoldsAt m con L x s μ ↔
      (explicit m con).f (readGroup L x "states" s) (readGroup L x "inputs" s) μ = readGroup L x "states_dot" s ∧
      (explicit m con).h (readGroup L x "states" s) (readGroup L x "inputs" s) μ = readGroup L x "con_outputs" s ∧
      ∀ v ∈ (explicit m con).r (readGroup L x "states" s) (readGroup L x "inputs" s) μ, v = 0 := by
  unfold readGroup
  rw [hs, hi, hd, hc]
  obtain ⟨r, hr, l1, l2, l3⟩ := arraysOf_spec h (μ := μ) (xs := m.names.states.map fun n => readAt L x "states" n s)
    (us := m.names.inputs.map fun n => readAt L x "inputs" n s) (by simp) (by simp)
    ⟨keys_map _ _, lists_map h.states.2 (fun n => readAt L x "states" n s)⟩
    ⟨keys_map _ _, lists_map h.inputs (fun n => readAt L x "inputs" n s)⟩
  have e3 : (∀ v ∈ (explicit m con).r (m.names.states.map fun n => readAt L x "states" n s)
      (m.names.inputs.map fun n => readAt L x "inputs" n s) μ, v = 0) ↔ ∀ n ∈ m.names.residuals, r.outputs.lookup n = some 0 := by
    rw [← lists_iff l3 (fun _ => 0)]
    rw [List.map_const', List.eq_replicate_iff]
    exact ⟨fun hh => ⟨l3.1, hh⟩, fun hh => hh.2⟩
  rw [lists_iff l1 (fun n => readAt L x "states_dot" n s), lists_iff l2 (fun n => readAt L x "con_outputs" n s), e3]
  constructor
  · rintro ⟨r', hr', h1, h2, h3⟩
    rw [hr] at hr'
    injection hr' with hr'
    subst hr'
    exact ⟨h1, h2, h3⟩
  · rintro ⟨h1, h2, h3⟩
    exact ⟨r, hr, h1, h2, h3⟩

/-- The OCP's model is `m` with constrained outputs `con`: the functions agree on arrays of the right lengths (a shorter array
raises, of a longer one the rest is ignored), and the variables have the model's names. -/
structure Uses (S : Setup) (m : Mdl ℝ) (con : List String) : Prop where
  model : ∀ x u μ, x.length = m.names.states.length → u.length = m.names.inputs.length →
    S.c.M.f x u μ = (explicit m con).f x u μ ∧ S.c.M.h x u μ = (explicit m con).h x u μ ∧
      S.c.M.r x u μ = (explicit m con).r x u μ
  states : S.c.o.L.namesOf "states" = m.names.states
  inputs : S.c.o.L.namesOf "inputs" = m.names.inputs
  statesDot : S.c.o.L.namesOf "states_dot" = m.names.states
  conOutputs : S.c.o.L.namesOf "con_outputs" = con

/-- C52: the discretised problem in terms of the user's model. For an OCP set up from a model (its variables have the model's
names), `x` solves the discretised problem exactly when the transcription's equations hold, at every stage the equations of
`forward` hold by name, and, for a cyclic problem, the ends agree. -/
theorem C52_solution {S : Setup} {m : Mdl ℝ} {con : List String} (h : Delivers m con) (hU : Uses S m con) (x : List ℝ) :
    IsSolution S x ↔
      (∀ i l k : Nat, i < S.c.o.L.numIntervals → l < S.c.o.L.nspi - 1 → ∀ n, m.names.states[k]? = some n →
        ∑ j ∈ Finset.range S.c.o.L.nspi, S.c.o.A l j * readAt S.c.o.L x "states" n (i * (S.c.o.L.nspi - 1) + j)
          = S.c.o.normLen.getD i 0 * readScale S.c.o x *
            ∑ j ∈ Finset.range S.c.o.L.nspi, S.c.o.B l j * readAt S.c.o.L x "states_dot" n (i * (S.c.o.L.nspi - 1) + j)) ∧
      (∀ s, s < S.c.o.L.numStages → HoldsAt m con S.c.o.L x s (S.c.mesh.getD s 0 * readScale S.c.o x)) ∧
      (S.isCyclic = true → ∀ g n, (g = "states" ∨ g = "inputs") → n ∈ S.c.o.L.namesOf g → (g ++ "." ++ n) ∉ S.nonCyclic →
        readAt S.c.o.L x g n 0 = readAt S.c.o.L x g n (S.c.o.L.numStages - 1)) := by
  have hfun : ∀ s μ, _ := fun s μ => hU.model (readGroup S.c.o.L x "states" s) (readGroup S.c.o.L x "inputs" s) μ
    (by simp [readGroup, hU.states]) (by simp [readGroup, hU.inputs])
  have hiff := fun s μ => holdsAt_iff h S.c.o.L x s μ hU.states hU.inputs hU.statesDot hU.conOutputs
  constructor
  · rintro ⟨h1, h2, h3, h4, h5⟩
    refine ⟨?_, ?_, h5⟩
    · intro i l k hi' hl n hn
      exact h1 i l k hi' hl n n (hU.states ▸ hn) (hU.statesDot ▸ hn)
    · intro s hs'
      obtain ⟨e1, e2, e3⟩ := hfun s (S.c.mesh.getD s 0 * readScale S.c.o x)
      rw [hiff, ← e1, ← e2, ← e3]
      exact ⟨h2 s hs', h3 s hs', h4 s hs'⟩
  · rintro ⟨h1, h2, h5⟩
    have h2' := fun s hs' => (hiff s _).1 (h2 s hs')
    refine ⟨?_, ?_, ?_, ?_, h5⟩
    · intro i l k hi' hl n nd hn hnd
      rw [hU.states] at hn
      rw [hU.statesDot, hn] at hnd
      obtain rfl := Option.some.inj hnd
      exact h1 i l k hi' hl n hn
    · intro s hs'; rw [(hfun s _).1]; exact (h2' s hs').1
    · intro s hs'; rw [(hfun s _).2.1]; exact (h2' s hs').2.1
    · intro s hs'; rw [(hfun s _).2.2]; exact (h2' s hs').2.2

/-- C52: so a point satisfies the constraints that a built OCP hands to the solver exactly when the transcription's equations,
the equations of the user's `forward` at every stage, by name, and periodicity hold. -/
theorem C52_feasible {S : Setup} {D : List ℝ → ℝ → Prop} (hS : S.Good D) (hcd : S.isCondensed = false) {m : Mdl ℝ} {con : List String} (h : Delivers m con)
    (hU : Uses S m con) {b : Built} (hb : S.build = .ok b) {x : List ℝ} (hx : x.length = S.c.o.L.numDec) :
    b.Feasible (vdiv x b.prob.scales) ↔
      (∀ i l k : Nat, i < S.c.o.L.numIntervals → l < S.c.o.L.nspi - 1 → ∀ n, m.names.states[k]? = some n →
        ∑ j ∈ Finset.range S.c.o.L.nspi, S.c.o.A l j * readAt S.c.o.L x "states" n (i * (S.c.o.L.nspi - 1) + j)
          = S.c.o.normLen.getD i 0 * readScale S.c.o x *
            ∑ j ∈ Finset.range S.c.o.L.nspi, S.c.o.B l j * readAt S.c.o.L x "states_dot" n (i * (S.c.o.L.nspi - 1) + j)) ∧
      (∀ s, s < S.c.o.L.numStages → HoldsAt m con S.c.o.L x s (S.c.mesh.getD s 0 * readScale S.c.o x)) ∧
      (S.isCyclic = true → ∀ g n, (g = "states" ∨ g = "inputs") → n ∈ S.c.o.L.namesOf g → (g ++ "." ++ n) ∉ S.nonCyclic →
        readAt S.c.o.L x g n 0 = readAt S.c.o.L x g n (S.c.o.L.numStages - 1)) := by
  rw [C47_lifted hS hcd hb hx, C52_solution h hU x]

/-! ## Example: `time_dot = u`, and `p = 2 time` computed by a submodel -/

namespace ImplicitExample

/-- The submodel doubles its input. -/
noncomputable def gain : Mdl ℝ :=
  .node ⟨⟨false, [], ["a"], ["y"], [], []⟩, fun kw =>
    .done { outputs := [("y", 2 * (((kw.inputs.getD []).lookup "a").getD 0))] }⟩ []

/-- The model. -/
noncomputable def sys : Mdl ℝ :=
  .node ⟨⟨true, ["time"], ["u"], ["p"], ["p"], []⟩, fun kw =>
    .call "gain" { inputs := some [("a", ((kw.states.getD []).lookup "time").getD 0)] } fun g =>
      .makeOutputs [("p", (g.outputs.lookup "y").getD 0)] fun o =>
        .done { statesDot := [("time", ((kw.inputs.getD []).lookup "u").getD 0)], outputs := o }⟩
    [("gain", gain)]

theorem sys_names : sys.names = ⟨true, ["time"], ["u"], ["p", "gain.y"], ["p"], []⟩ := by
  unfold sys gain
  simp only [names, namesL, addPrefix, List.flatMap_cons, List.flatMap_nil, List.append_nil, List.map_cons, List.map_nil,
    List.cons_append, List.nil_append]
  decide

theorem sys_eval (a b μ : ℝ) : sys.eval { states := some [("time", a)], inputs := some [("u", b)], mesh := some μ } =
    .ok { statesDot := [("time", b)], outputs := [("p", 2 * a), ("gain.y", 2 * a)] } := by
  have hn := sys_names
  unfold sys at hn ⊢
  unfold eval
  rw [hn]
  have hg : gain.names = ⟨false, [], ["a"], ["y"], [], []⟩ := by
    unfold gain; rw [names_node]; rfl
  simp only [Option.getD_some, Dict.lookup_cons, if_true, evalProg, evalL_eq, Option.map_some]
  have hc : checkCall gain.names { inputs := some [("a", a)] } = .ok () := by
    rw [hg]
    simp [checkCall, Names.checkKeys, Names.group, Dict.keys, bind, Except.bind]
  have he : gain.eval { inputs := some [("a", a)] } = .ok { outputs := [("y", 2 * a)] } := by
    unfold gain eval
    simp only [evalProg, Option.getD_some, Dict.lookup_cons, if_true]
  rw [hc]
  simp only [he]
  have h1 : collected (Dict.keys [("gain", gain)]) ([] ++ [("gain", ({ outputs := [("y", 2 * a)] } : Ret ℝ))]) = [("gain.y", 2 * a)] := by
    simp [collected, Dict.keys, Dict.lookup_cons, Dict.update, Dict.set]
  rw [h1]
  simp [Dict.keys, mergeOutputs, Names.makeDict, Names.starArgs, Names.checkKeys, Names.group, bind, Except.bind,
    pure, Except.pure]

theorem sys_orderly : Orderly sys := by
  refine .node (by simp [Dict.keys]) (fun kw r d => rfl) ?_
  intro p hp
  simp only [List.mem_singleton] at hp
  subst hp
  exact .node (by simp [Dict.keys]) (fun kw => rfl) (fun p hp => absurd hp List.not_mem_nil)

theorem one_key {d : Dict ℝ} {n : String} (h : d.keys = [n]) : ∃ a, d = [(n, a)] := by
  match d, h with
  | [(k, a)], h => simp only [Dict.keys, List.map_cons, List.map_nil, List.cons.injEq, and_true] at h; exact ⟨a, by rw [h]⟩

theorem sys_delivers : Delivers sys ["p"] where
  orderly := sys_orderly
  stateSpace := by rw [sys_names]
  states := by rw [sys_names]; simp
  inputs := by rw [sys_names]; simp
  conNodup := by simp
  returns := by
    intro dx du μ hx hu
    rw [sys_names] at hx hu ⊢
    obtain ⟨a, rfl⟩ := one_key hx
    obtain ⟨b, rfl⟩ := one_key hu
    exact ⟨_, sys_eval a b μ, by simp [Passable, Dict.keys], by simp [Passable, Dict.keys], by simp [Dict.keys], by simp [Dict.keys],
      by simp [Dict.keys], by simp⟩

/-- The OCP of C47's example uses this model. -/
theorem sys_uses : Uses (exSetup false) sys ["p"] where
  model := by
    intro x u μ hx hu
    have hx' := hx
    have hu' := hu
    rw [sys_names] at hx hu
    obtain ⟨a, rfl⟩ := List.length_eq_one_iff.1 hx
    obtain ⟨b, rfl⟩ := List.length_eq_one_iff.1 hu
    have k1 : Dict.keys [("time", a)] = sys.names.states ∧ Lists sys.names.states [("time", a)] [a] := by
      rw [sys_names]
      exact ⟨rfl, lists_map (ns := ["time"]) (by simp) (fun _ => a)⟩
    have k2 : Dict.keys [("u", b)] = sys.names.inputs ∧ Lists sys.names.inputs [("u", b)] [b] := by
      rw [sys_names]
      exact ⟨rfl, lists_map (ns := ["u"]) (by simp) (fun _ => b)⟩
    obtain ⟨r, hr, l1, l2, l3⟩ := arraysOf_spec sys_delivers (μ := μ) hx' hu' k1 k2
    rw [sys_eval] at hr
    injection hr with hr
    subst hr
    rw [sys_names] at l1 l3
    have e1 := (lists_iff l1 (fun _ => b)).2 (by intro n hn; simp only [List.mem_singleton] at hn; subst hn; rfl)
    have e2 := (lists_iff l2 (fun _ => 2 * a)).2 (by intro n hn; simp only [List.mem_singleton] at hn; subst hn; rfl)
    have e3 := (lists_iff l3 (fun _ => 0)).2 (by simp)
    rw [e1, e2, e3]
    exact ⟨rfl, rfl, rfl⟩
  states := by rw [sys_names]; rfl
  inputs := by rw [sys_names]; rfl
  statesDot := by rw [sys_names]; rfl
  conOutputs := rfl

/-- So the hypotheses of `C52_feasible` are met. -/
example : (exSetup false).Good ∧ Delivers sys ["p"] ∧ Uses (exSetup false) sys ["p"] :=
  ⟨exSetup_good false, sys_delivers, sys_uses⟩

end ImplicitExample

end Mdl

end Lumos.Io
