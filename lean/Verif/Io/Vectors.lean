import Verif.Io.Names
/-!
# C50: dictionaries by name and vectors by position
-/

namespace Lumos.Io

open Lumos

variable {V : Type}

/-! ## Specification -/

/-- The vector `v` lists the values that `d` has for the names `ns`. -/
def Lists (ns : List String) (d : Dict V) (v : List V) : Prop :=
  v.length = ns.length ∧ ∀ (i : Nat) (n : String), ns[i]? = some n → ∃ a, v[i]? = some a ∧ d.lookup n = some a

/-- The dictionary can be passed as keyword arguments to `make_vector(self, group, **kwargs)`. -/
def Passable (d : Dict V) : Prop := "self" ∉ d.keys ∧ "group" ∉ d.keys

/-! ## Proofs -/

theorem Lists.eq {ns : List String} {d d' : Dict V} {v v' : List V} (h : Lists ns d v) (h' : Lists ns d' v')
    (hd : ∀ n ∈ ns, d.lookup n = d'.lookup n) : v = v' := by
  apply List.ext_getElem (h.1.trans h'.1.symm)
  intro i hi hi'
  have hn : i < ns.length := h.1 ▸ hi
  obtain ⟨a, ha, hda⟩ := h.2 i _ (List.getElem?_eq_getElem hn)
  obtain ⟨b, hb, hdb⟩ := h'.2 i _ (List.getElem?_eq_getElem hn)
  rw [hd _ (List.getElem_mem hn), hdb] at hda
  rw [List.getElem?_eq_getElem hi] at ha
  rw [List.getElem?_eq_getElem hi'] at hb
  injection ha with ha
  injection hb with hb
  injection hda with hda
  rw [ha, hb, hda]

theorem Lists.value {ns : List String} {d : Dict V} {v : List V} (h : Lists ns d v) {n : String} (hn : n ∈ ns) :
    ∃ a, v[ns.idxOf n]? = some a ∧ d.lookup n = some a := by
  have hlt := List.idxOf_lt_length_iff.2 hn
  exact h.2 _ n (by rw [List.getElem?_eq_getElem hlt]; simp)

theorem mapM_get {ns : List String} {d : Dict V} (h : ∀ n ∈ ns, n ∈ d.keys) : ∃ v, ns.mapM d.get = .ok v ∧ Lists ns d v := by
  induction ns with
  | nil => exact ⟨[], rfl, rfl, by simp⟩
  | cons n ns ih =>
    obtain ⟨v, hv, hl, hg⟩ := ih (fun m hm => h m (List.mem_cons_of_mem _ hm))
    obtain ⟨a, ha⟩ := Option.isSome_iff_exists.1 ((Dict.lookup_isSome d n).2 (h n List.mem_cons_self))
    refine ⟨a :: v, ?_, by simp [hl], ?_⟩
    · simp [List.mapM_cons, Dict.get, ha, hv, bind, Except.bind, pure, Except.pure]
    · intro i m hi
      cases i with
      | zero => simp only [List.getElem?_cons_zero, Option.some.injEq] at hi; subst hi; exact ⟨a, by simp, ha⟩
      | succ i =>
        simp only [List.getElem?_cons_succ] at hi ⊢
        exact hg i m hi

theorem starArgs_pass {d : Dict V} (h : Passable d) : Names.starArgs ["self", "group"] d = .ok () := by
  unfold Names.starArgs
  rw [if_neg]
  simp only [List.mem_cons, List.not_mem_nil, or_false, exists_eq_or_imp, exists_eq_left]
  rintro (h' | h')
  · exact h.1 h'
  · exact h.2 h'

theorem starArgs_fail {d : Dict V} (h : ¬ Passable d) : Names.starArgs ["self", "group"] d = .error .typeError := by
  unfold Names.starArgs
  rw [if_pos]
  simp only [List.mem_cons, List.not_mem_nil, or_false, exists_eq_or_imp, exists_eq_left]
  unfold Passable at h
  tauto

theorem makeVector_ok {nm : Names} {g : String} {ns : List String} (hg : nm.group g = .ok ns) {d : Dict V} (hp : Passable d)
    (h : ∀ n ∈ ns, n ∈ d.keys) : ∃ v, nm.makeVector g d = .ok v ∧ Lists ns d v := by
  obtain ⟨v, hv, hl⟩ := mapM_get h
  refine ⟨v, ?_, hl⟩
  unfold Names.makeVector Names.checkKeys
  rw [starArgs_pass hp, hg]
  simp only [bind, Except.bind]
  rw [if_pos h]
  exact hv

/-- C50: `make_vector` puts the values in the order of the group's names. It needs a value for every name (KeyError
otherwise); values under other names are ignored. -/
theorem C50_make_vector {nm : Names} {g : String} {ns : List String} (hg : nm.group g = .ok ns) {d : Dict V}
    (hp : Passable d) :
    ((∀ n ∈ ns, n ∈ d.keys) → ∃ v, nm.makeVector g d = .ok v ∧ Lists ns d v) ∧
    ((∃ n ∈ ns, n ∉ d.keys) → nm.makeVector g d = .error .keyError ∧ nm.makeDict g d = .error .keyError) ∧
    ((∀ n ∈ ns, n ∈ d.keys) → nm.makeDict g d = .ok d) := by
  refine ⟨makeVector_ok hg hp, ?_, ?_⟩
  · rintro ⟨n, hn, hd⟩
    have : ¬ ∀ n ∈ ns, n ∈ d.keys := fun h => hd (h n hn)
    simp only [Names.makeVector, Names.makeDict, Names.checkKeys, starArgs_pass hp, hg, bind, Except.bind]
    rw [if_neg this]
    exact ⟨rfl, rfl⟩
  · intro h
    simp only [Names.makeDict, Names.checkKeys, starArgs_pass hp, hg, bind, Except.bind, pure, Except.pure]
    rw [if_pos h]

/-- C50: reading a variable by name (`get_input`, `get_output`, `get_state`) from the vector gives the value that was given
under that name. -/
theorem C50_read_back {nm : Names} {g : String} {ns : List String} (hg : nm.group g = .ok ns) {d : Dict V} {v : List V}
    (hv : nm.makeVector g d = .ok v) {n : String} (hn : n ∈ ns) :
    ∃ a, nm.readVar g v n = .ok a ∧ d.lookup n = some a := by
  by_cases hp : Passable d
  · by_cases h : ∀ n ∈ ns, n ∈ d.keys
    · obtain ⟨w, hw, hl⟩ := makeVector_ok hg hp h
      rw [hv] at hw
      injection hw with hw
      subst hw
      obtain ⟨a, ha, hd⟩ := hl.value hn
      refine ⟨a, ?_, hd⟩
      simp [Names.readVar, Names.varIndex, hg, hn, bind, Except.bind, ha]
    · push Not at h
      rw [((C50_make_vector hg hp).2.1 h).1] at hv
      cases hv
  · exfalso
    unfold Names.makeVector at hv
    rw [starArgs_fail hp] at hv
    cases hv

/-- C50 (finding): a variable called `group` or `self` cannot be given a value: with such a name in a group, `make_vector`
and `make_dict` never succeed. -/
theorem C50_reserved_names {nm : Names} {g : String} {ns : List String} (hg : nm.group g = .ok ns)
    (h : "group" ∈ ns ∨ "self" ∈ ns) (d : Dict V) :
    (nm.makeVector g d = .error .typeError ∨ nm.makeVector g d = .error .keyError) ∧
    (nm.makeDict g d = .error .typeError ∨ nm.makeDict g d = .error .keyError) := by
  by_cases hp : Passable d
  · have : ∃ n ∈ ns, n ∉ d.keys := by
      rcases h with h | h
      · exact ⟨_, h, hp.2⟩
      · exact ⟨_, h, hp.1⟩
    have := (C50_make_vector hg hp).2.1 this
    exact ⟨.inr this.1, .inr this.2⟩
  · unfold Names.makeVector Names.makeDict
    rw [starArgs_fail hp]
    exact ⟨.inl rfl, .inl rfl⟩

/-! ### Arrays to dictionaries -/

theorem foldlM_array (ns : List String) (vs : List V) (k : Nat) (d : Dict V) (h : k + ns.length ≤ vs.length)
    (hnd : ns.Nodup) (hd : ∀ n ∈ ns, n ∉ d.keys) :
    (ns.zipIdx k).foldlM (arrayItem vs) d = .ok (d ++ ns.zip (vs.drop k)) := by
  induction ns generalizing k d with
  | nil => simp [pure, Except.pure]
  | cons n ns ih =>
    simp only [List.length_cons] at h
    have hk : k < vs.length := by omega
    simp only [List.zipIdx_cons, List.foldlM_cons, arrayItem, List.getElem?_eq_getElem hk, bind, Except.bind]
    rw [List.nodup_cons] at hnd
    rw [Dict.set_new d n _ (hd n List.mem_cons_self)]
    have e : (n, vs[k]) :: ns.zip (vs.drop (k + 1)) = (n :: ns).zip (vs.drop k) := by
      rw [List.drop_eq_getElem_cons hk, List.zip_cons_cons]
    refine (ih (k + 1) _ (by omega) hnd.2 ?_).trans ?_
    swap
    · rw [← e]
      simp
    · intro m hm
      simp only [Dict.keys, List.map_append, List.map_cons, List.map_nil, List.mem_append, List.mem_singleton, not_or]
      exact ⟨hd m (List.mem_cons_of_mem _ hm), fun e => hnd.1 (e ▸ hm)⟩

theorem arrayToDict_ok {ns : List String} {vs : List V} (hnd : ns.Nodup) (h : ns.length ≤ vs.length) :
    arrayToDict ns vs = .ok (ns.zip vs) := by
  have := foldlM_array ns vs 0 [] (by omega) hnd (by simp [Dict.keys])
  simpa [arrayToDict] using this

theorem foldlM_short (ns : List String) (vs : List V) (k : Nat) (d : Dict V) (h : vs.length < k + ns.length) (hk : k ≤ vs.length) :
    (ns.zipIdx k).foldlM (arrayItem vs) d = .error .indexError := by
  induction ns generalizing k d with
  | nil => simp at h; omega
  | cons n ns ih =>
    simp only [List.zipIdx_cons, List.foldlM_cons, arrayItem, bind, Except.bind]
    by_cases hk' : k < vs.length
    · simp only [List.getElem?_eq_getElem hk']
      exact ih (k + 1) _ (by simp only [List.length_cons] at h; omega) (by omega)
    · rw [List.getElem?_eq_none (by omega)]

theorem keys_zip {ns : List String} {vs : List V} (h : ns.length ≤ vs.length) : Dict.keys (ns.zip vs) = ns := by
  simp [Dict.keys, List.map_fst_zip h]

theorem lookup_zip {ns : List String} {vs : List V} (hnd : ns.Nodup) (h : ns.length ≤ vs.length) {i : Nat} {n : String}
    (hi : ns[i]? = some n) : (ns.zip vs).lookup n = vs[i]? := by
  obtain ⟨hlt, rfl⟩ := List.getElem?_eq_some_iff.1 hi
  have hv : i < vs.length := by omega
  rw [List.getElem?_eq_getElem hv]
  apply Dict.lookup_of_mem (by rw [keys_zip h]; exact hnd)
  rw [List.mem_iff_getElem]
  exact ⟨i, by simp; omega, by simp⟩

/-- C50: an array becomes a dictionary with exactly the given names, each with the value at its position. An array that is
too short raises IndexError; of a longer one the rest is ignored silently. -/
theorem C50_array_to_dict {ns : List String} (hnd : ns.Nodup) (vs : List V) :
    (vs.length < ns.length → arrayToDict ns vs = .error .indexError) ∧
    (ns.length ≤ vs.length → ∃ d, arrayToDict ns vs = .ok d ∧ d.keys = ns ∧ Lists ns d (vs.take ns.length)) := by
  refine ⟨fun h => foldlM_short ns vs 0 [] (by omega) (by omega), fun h => ⟨_, arrayToDict_ok hnd h, keys_zip h, by simp; omega, ?_⟩⟩
  intro i n hi
  obtain ⟨hlt, _⟩ := List.getElem?_eq_some_iff.1 hi
  refine ⟨vs[i], ?_, ?_⟩
  · rw [List.getElem?_take, if_pos hlt, List.getElem?_eq_getElem]
  · rw [lookup_zip hnd h hi, List.getElem?_eq_getElem]

/-- C50: array to dictionary to array gives the array back, and dictionary to array to dictionary gives back the values of
the group's names. -/
theorem C50_round_trip {nm : Names} {g : String} {ns : List String} (hg : nm.group g = .ok ns) (hnd : ns.Nodup)
    (hr : "group" ∉ ns ∧ "self" ∉ ns) :
    (∀ v : List V, v.length = ns.length → ∃ d, arrayToDict ns v = .ok d ∧ nm.makeVector g d = .ok v) ∧
    (∀ (d : Dict V) (v : List V), nm.makeVector g d = .ok v →
      ∃ d', arrayToDict ns v = .ok d' ∧ d'.keys = ns ∧ ∀ n ∈ ns, d'.lookup n = d.lookup n) := by
  constructor
  · intro v hv
    obtain ⟨d, hd, hk, hl⟩ := (C50_array_to_dict hnd v).2 (Nat.le_of_eq hv.symm)
    refine ⟨d, hd, ?_⟩
    obtain ⟨w, hw, hl'⟩ := makeVector_ok hg (d := d) ⟨hk ▸ hr.2, hk ▸ hr.1⟩ (fun n hn => hk ▸ hn)
    rw [hw, Lists.eq hl' hl (fun _ _ => rfl), ← hv, List.take_length]
  · intro d v hv
    have hl : Lists ns d v := by
      by_cases hp : Passable d
      · by_cases h : ∀ n ∈ ns, n ∈ d.keys
        · obtain ⟨w, hw, hl⟩ := makeVector_ok hg hp h
          rw [hv] at hw
          injection hw with hw
          exact hw ▸ hl
        · push Not at h
          rw [((C50_make_vector hg hp).2.1 h).1] at hv
          cases hv
      · exfalso
        unfold Names.makeVector at hv
        rw [starArgs_fail hp] at hv
        cases hv
    obtain ⟨d', hd', hk, hl'⟩ := (C50_array_to_dict hnd v).2 (Nat.le_of_eq hl.1.symm)
    refine ⟨d', hd', hk, ?_⟩
    intro n hn
    obtain ⟨a, ha, hda⟩ := hl.value hn
    obtain ⟨b, hb, hdb⟩ := hl'.value hn
    have hlt := List.idxOf_lt_length_iff.2 hn
    rw [List.getElem?_take, if_pos hlt, ha] at hb
    rw [hda, hdb, Option.some.inj hb]

/-! ### `forward_with_arrays` -/

namespace Mdl

theorem extract_ok (ns : List String) (o : Dict V) (h : ∀ n ∈ ns, n ∈ o.keys) (acc : Dict V) :
    ∃ d, ns.foldlM (extractItem o) acc = .ok d ∧
      (∀ n, n ∈ d.keys ↔ n ∈ acc.keys ∨ n ∈ ns) ∧ (∀ n ∈ ns, d.lookup n = o.lookup n) ∧
      (∀ n, n ∉ ns → d.lookup n = acc.lookup n) := by
  induction ns generalizing acc with
  | nil => exact ⟨acc, rfl, by simp, by simp, by simp⟩
  | cons n ns ih =>
    obtain ⟨a, ha⟩ := Option.isSome_iff_exists.1 ((Dict.lookup_isSome o n).2 (h n List.mem_cons_self))
    obtain ⟨d, hd, hk, hl, hn⟩ := ih (fun m hm => h m (List.mem_cons_of_mem _ hm)) (acc.set n a)
    refine ⟨d, ?_, ?_, ?_, ?_⟩
    · simp only [List.foldlM_cons, extractItem, Dict.get, ha, bind, Except.bind, pure, Except.pure]
      exact hd
    · intro m
      rw [hk, ← Dict.lookup_isSome, Dict.lookup_set, ← Dict.lookup_isSome acc m]
      by_cases e : m = n
      · simp [e]
      · simp [e]
    · intro m hm
      by_cases hm' : m ∈ ns
      · exact hl m hm'
      · have e : m = n := by simpa [hm'] using hm
        subst e
        rw [hn m hm', Dict.lookup_set, if_pos rfl, ha]
    · intro m hm
      simp only [List.mem_cons, not_or] at hm
      rw [hn m hm.2, Dict.lookup_set, if_neg hm.1]

theorem extract_vector {nm : Names} {g : String} {ns : List String} (hg : nm.group g = .ok ns) {o : Dict V}
    (h : ∀ n ∈ ns, n ∈ o.keys) (ho : Passable o) :
    ∃ d v, extract ns o = .ok d ∧ nm.makeVector g d = .ok v ∧ Lists ns o v := by
  obtain ⟨d, hd, hk, hl, _⟩ := extract_ok ns o h []
  have hk : ∀ n, n ∈ d.keys ↔ n ∈ ns := fun n => by rw [hk]; simp [Dict.keys]
  obtain ⟨v, hv, hL⟩ := makeVector_ok hg (d := d)
    ⟨fun hh => ho.1 (h _ ((hk _).1 hh)), fun hh => ho.2 (h _ ((hk _).1 hh))⟩ (fun n hn => (hk n).2 hn)
  refine ⟨d, v, hd, hv, hL.1, ?_⟩
  intro i n hi
  obtain ⟨a, ha, hda⟩ := hL.2 i n hi
  exact ⟨a, ha, by rw [← hl n (List.mem_of_getElem? hi)]; exact hda⟩

/-- C50: `forward_with_arrays` of a state-space model calls `forward` with the dictionaries of the arrays' values by name.
When that returns, with a value for every state's derivative, every output, every constrained output and every residual,
the arrays list the values by name; constrained outputs and residuals are those among the outputs. -/
theorem C50_forward_arrays (m : Mdl V) (nm : Names) (hss : nm.stateSpace = true) (hx : nm.states.Nodup) (hu : nm.inputs.Nodup)
    (σ τ : State V) (xs us : List V) (mesh : V) (hxs : xs.length = nm.states.length) (hus : us.length = nm.inputs.length)
    {dx du : Dict V} (hdx : dx.keys = nm.states ∧ Lists nm.states dx xs) (hdu : du.keys = nm.inputs ∧ Lists nm.inputs du us)
    {r : Ret V} (hr : m.run σ { states := some dx, inputs := some du, mesh := some mesh } = (τ, .ok r))
    (hsd : Passable r.statesDot) (ho : Passable r.outputs) (h1 : ∀ n ∈ nm.states, n ∈ r.statesDot.keys)
    (h2 : ∀ n ∈ nm.outputs, n ∈ r.outputs.keys) (h3 : ∀ n ∈ nm.conOutputs, n ∈ r.outputs.keys)
    (h4 : ∀ n ∈ nm.residuals, n ∈ r.outputs.keys) :
    ∃ a, m.forwardArraysSS nm σ xs us mesh = (τ, .ok a) ∧ Lists nm.states r.statesDot a.statesDot ∧
      Lists nm.outputs r.outputs a.outputs ∧ Lists nm.conOutputs r.outputs a.conOutputs ∧
      Lists nm.residuals r.outputs a.residuals := by
  obtain ⟨ex, hex, hkx, hlx⟩ := (C50_array_to_dict hx xs).2 (Nat.le_of_eq hxs.symm)
  obtain ⟨eu, heu, hku, hlu⟩ := (C50_array_to_dict hu us).2 (Nat.le_of_eq hus.symm)
  have e1 : ex = dx := by
    apply Dict.ext (hkx.trans hdx.1.symm) (hkx ▸ hx)
    intro n
    by_cases hn : n ∈ nm.states
    · obtain ⟨a, ha, h⟩ := hlx.value hn
      obtain ⟨b, hb, h'⟩ := hdx.2.value hn
      rw [← hxs, List.take_length, hb] at ha
      rw [h, h', Option.some.inj ha]
    · rw [(Dict.lookup_none _ _).2 (hkx ▸ hn), (Dict.lookup_none _ _).2 (hdx.1 ▸ hn)]
  have e2 : eu = du := by
    apply Dict.ext (hku.trans hdu.1.symm) (hku ▸ hu)
    intro n
    by_cases hn : n ∈ nm.inputs
    · obtain ⟨a, ha, h⟩ := hlu.value hn
      obtain ⟨b, hb, h'⟩ := hdu.2.value hn
      rw [← hus, List.take_length, hb] at ha
      rw [h, h', Option.some.inj ha]
    · rw [(Dict.lookup_none _ _).2 (hku ▸ hn), (Dict.lookup_none _ _).2 (hdu.1 ▸ hn)]
  subst e1 e2
  obtain ⟨v1, hv1, l1⟩ := makeVector_ok (nm := nm) (g := "states_dot") (ns := nm.states) (by simp [Names.group, hss]) hsd h1
  obtain ⟨v2, hv2, l2⟩ := makeVector_ok (nm := nm) (g := "outputs") (ns := nm.outputs) (by simp [Names.group]) ho h2
  obtain ⟨d3, v3, hd3, hv3, l3⟩ := extract_vector (nm := nm) (g := "con_outputs") (ns := nm.conOutputs)
    (by simp [Names.group, hss]) h3 ho
  obtain ⟨d4, v4, hd4, hv4, l4⟩ := extract_vector (nm := nm) (g := "residuals") (ns := nm.residuals)
    (by simp [Names.group]) h4 ho
  refine ⟨⟨v1, v2, v3, v4⟩, ?_, l1, l2, l3, l4⟩
  unfold forwardArraysSS
  rw [hex, heu]
  simp only [hr, hv1, hv2, hd3, hv3, hd4, hv4, bind, Except.bind, pure, Except.pure]

theorem extract_missing (ns : List String) (o : Dict V) (h : ∃ n ∈ ns, n ∉ o.keys) (acc : Dict V) :
    ns.foldlM (extractItem o) acc = .error .keyError := by
  induction ns generalizing acc with
  | nil => simp at h
  | cons n ns ih =>
    simp only [List.foldlM_cons, extractItem, Dict.get, bind, Except.bind]
    cases hl : o.lookup n with
    | none => rfl
    | some a =>
      have : n ∈ o.keys := (Dict.lookup_isSome o n).1 (by rw [hl]; rfl)
      obtain ⟨m, hm, hmo⟩ := h
      have hm : m ∈ ns := by
        rcases List.mem_cons.1 hm with rfl | hm
        · exact absurd this hmo
        · exact hm
      exact ih ⟨m, hm, hmo⟩ _

/-- C50: when `forward` returns but gives no value for one of the constrained outputs (for instance one that
`set_con_outputs` introduced and the model does not compute), `forward_with_arrays` raises: no array is returned. -/
theorem C50_unknown_con_output (m : Mdl V) (nm : Names) (σ τ : State V) (xs us : List V) (mesh : V) {dx du : Dict V}
    (hdx : arrayToDict nm.states xs = .ok dx) (hdu : arrayToDict nm.inputs us = .ok du) {r : Ret V}
    (hr : m.run σ { states := some dx, inputs := some du, mesh := some mesh } = (τ, .ok r)) {c : String}
    (hc : c ∈ nm.conOutputs) (hno : c ∉ r.outputs.keys) :
    ∃ e, m.forwardArraysSS nm σ xs us mesh = (τ, .error e) := by
  unfold forwardArraysSS
  rw [hdx, hdu]
  simp only [hr, bind, Except.bind, pure, Except.pure]
  cases nm.makeVector "states_dot" r.statesDot with
  | error e => exact ⟨e, rfl⟩
  | ok v =>
    cases nm.makeVector "outputs" r.outputs with
    | error e => exact ⟨e, rfl⟩
    | ok v =>
      dsimp only
      have := extract_missing nm.conOutputs r.outputs ⟨c, hc, hno⟩ []
      unfold extract
      rw [this]
      exact ⟨_, rfl⟩

/-- C50: a stateless model gets its residuals from `ModelReturn.residuals`, so one that declares residuals and returns only
outputs (as state-space models do) cannot be called with arrays. -/
theorem C50_stateless_residuals (m : Mdl V) (nm : Names) (σ τ : State V) (us : List V) {du : Dict V}
    (hdu : arrayToDict nm.inputs us = .ok du) {r : Ret V} (hr : m.run σ { inputs := some du } = (τ, .ok r))
    (hres : r.residuals = []) (hn : nm.residuals ≠ []) : ∃ e, m.forwardArrays nm σ us = (τ, .error e) := by
  unfold forwardArrays
  rw [hdu]
  simp only [hr, bind, Except.bind, pure, Except.pure]
  cases nm.makeVector "outputs" r.outputs with
  | error e => exact ⟨e, rfl⟩
  | ok v =>
    dsimp only
    have hmiss : ∃ n ∈ nm.residuals, n ∉ Dict.keys ([] : Dict V) := by
      obtain ⟨n, hn⟩ := List.exists_mem_of_ne_nil _ hn
      exact ⟨n, hn, by simp [Dict.keys]⟩
    have := ((C50_make_vector (nm := nm) (g := "residuals") (ns := nm.residuals) (by simp [Names.group]) (d := ([] : Dict V))
      ⟨by simp [Dict.keys], by simp [Dict.keys]⟩).2.1 hmiss).1
    rw [hres, this]
    exact ⟨_, rfl⟩

/-- The stateless counterpart of `C50_forward_arrays`. -/
theorem C50_forward_arrays_stateless (m : Mdl V) (nm : Names) (σ τ : State V) (us : List V) {du : Dict V}
    (hdu : arrayToDict nm.inputs us = .ok du) {r : Ret V} (hr : m.run σ { inputs := some du } = (τ, .ok r))
    (ho : Passable r.outputs) (hp : Passable r.residuals) (h1 : ∀ n ∈ nm.outputs, n ∈ r.outputs.keys)
    (h2 : ∀ n ∈ nm.residuals, n ∈ r.residuals.keys) :
    ∃ a, m.forwardArrays nm σ us = (τ, .ok a) ∧ Lists nm.outputs r.outputs a.outputs ∧
      Lists nm.residuals r.residuals a.residuals := by
  obtain ⟨v1, hv1, l1⟩ := makeVector_ok (nm := nm) (g := "outputs") (ns := nm.outputs) (by simp [Names.group]) ho h1
  obtain ⟨v2, hv2, l2⟩ := makeVector_ok (nm := nm) (g := "residuals") (ns := nm.residuals) (by simp [Names.group]) hp h2
  refine ⟨⟨[], v1, [], v2⟩, ?_, l1, l2⟩
  unfold forwardArrays
  rw [hdu]
  simp only [hr, hv1, hv2, bind, Except.bind, pure, Except.pure]

end Mdl

/-! ## Examples -/

def exNames : Names := ⟨true, ["x", "v"], ["u"], ["p", "q"], ["q"], []⟩

example : exNames.makeVector "states" [("v", 2), ("extra", 9), ("x", 1)] = .ok [1, 2] := by decide +kernel

example : exNames.makeVector "states" [("v", 2)] = .error .keyError := by decide +kernel

example : exNames.readVar "states" [1, 2] "v" = .ok 2 := by decide +kernel

example : arrayToDict exNames.states [1, 2, 3] = .ok [("x", 1), ("v", 2)] := by decide +kernel

end Lumos.Io
