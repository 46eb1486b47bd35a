import Verif.Params.Model
/-!
# Which parameters an optimal control problem computes with (C81)
-/

namespace Lumos.Trees.OcpParams

open Lumos

variable {V : Type}

/-! ## Specification -/

/-- The parameter changes asked for, in order. -/
def changes : List (Op V) → List (String × PV (Num V))
  | [] => []
  | .modify path value :: l => (path, value) :: changes l
  | _ :: l => changes l

/-- The parameters after the changes: those that fail change nothing. -/
def latest (t : Tree (Num V)) : List (String × PV (Num V)) → Tree (Num V)
  | [] => t
  | (path, value) :: l => latest (Tree.setParam t path value).1 l

/-! ## Lemmas: the structure of the trees is kept -/

theorem fitsL_set {s : List (String × Mod (Num V))} {cs : List (String × Tree (Num V))} {n : String} {c c' : Tree (Num V)}
    (h : Mod.FitsL s cs) (hl : cs.lookup n = some c) (hc : ∀ m, Mod.Fits m c → Mod.Fits m c') : Mod.FitsL s (Dict.set cs n c') := by
  induction cs generalizing s with
  | nil => simp at hl
  | cons q cs ih =>
    obtain ⟨k, t⟩ := q
    cases s with
    | nil => exact h.elim
    | cons r s =>
      obtain ⟨j, m⟩ := r
      obtain ⟨h1, h2, h3⟩ := h
      by_cases hk : k = n
      · subst hk
        rw [List.lookup_cons_self] at hl
        cases hl
        rw [Dict.set, if_pos rfl]
        exact ⟨h1, hc m h2, h3⟩
      · rw [Dict.set, if_neg hk]
        refine ⟨h1, h2, ih h3 ?_⟩
        rwa [List.lookup_cons, beq_false_of_ne (Ne.symm hk)] at hl

theorem fits_updateAt {f : Tree (Num V) → Tree (Num V) × Option PyErr} (hf : ∀ m t, Mod.Fits m t → Mod.Fits m (f t).1) (ns : List String) :
    ∀ (t : Tree (Num V)) (m : Mod (Num V)), Mod.Fits m t → Mod.Fits m (Tree.updateAt t ns f).1 := by
  induction ns with
  | nil => exact fun t m h => hf m t h
  | cons n ns ih =>
    intro t m h
    rw [Tree.updateAt]
    split
    · exact h
    · rename_i c hc
      obtain ⟨d, cs⟩ := t
      cases m with
      | node cl ps s => exact ⟨h.1, fitsL_set h.2 hc fun m' h' => ih c m' h'⟩

theorem fits_setParam {m : Mod (Num V)} {t : Tree (Num V)} (h : Mod.Fits m t) (path : String) (v : PV (Num V)) :
    Mod.Fits m (Tree.setParam t path v).1 := by
  refine fits_updateAt (fun m t h => ?_) _ t m h
  obtain ⟨d, cs⟩ := t
  cases m with
  | node cl ps s =>
    obtain ⟨⟨kvs, rfl⟩, h2⟩ := h
    exact ⟨⟨_, rfl⟩, h2⟩

theorem fits_latest {m : Mod (Num V)} (l : List (String × PV (Num V))) : ∀ {t : Tree (Num V)}, Mod.Fits m t → Mod.Fits m (latest t l) := by
  induction l with
  | nil => exact fun h => h
  | cons q l ih => exact fun h => ih (fits_setParam h q.1 q.2)

theorem fits_relabel {W : Type} (v : PV W) {m : Mod W} (hm : m.WF) : ∀ {t : Tree W}, Mod.Fits m t → Mod.Fits m (Tree.relabel .dict v t) := by
  induction hm with
  | node c p s hl hk hs ih =>
    intro t h
    obtain ⟨d, cs⟩ := t
    obtain ⟨⟨kvs, rfl⟩, h2⟩ := h
    rw [Tree.relabel, Mod.Fits, Tree.relabelL_eq, Mod.fitsL_iff, List.forall₂_map_right_iff]
    rw [Mod.fitsL_iff] at h2
    refine ⟨⟨_, rfl⟩, ?_⟩
    clear hl hk
    induction h2 with
    | nil => exact .nil
    | cons h1 _ ih2 =>
      exact .cons ⟨h1.1, ih _ List.mem_cons_self h1.2⟩ (ih2 (fun q hq => hs q (List.mem_cons_of_mem _ hq))
        fun q hq => ih q (List.mem_cons_of_mem _ hq))

theorem fits_traced {m : Mod (Num V)} (hm : m.WF) : ∀ {t : Tree (Num V)}, Mod.Fits m t → Mod.Fits m (traced t) := fits_relabel _ hm

/-- Setting parameters, whether it succeeds or not, does not change which trees fit. -/
theorem fits_setParams {W : Type} {m : Mod W} (hm : m.WF) (p : Tree W) : ∀ {t : Tree W}, Mod.Fits m t → Mod.Fits (Mod.setParams m p).1 t := by
  induction hm generalizing p with
  | node c p0 s hl hk hs ih =>
    intro t h
    obtain ⟨d, cs⟩ := t
    by_cases hd : ∃ kvs, p.data = .dict kvs
    · obtain ⟨kvs, hd⟩ := hd
      rw [Mod.setParams_node hl hd]
      refine ⟨h.1, ?_⟩
      have h2 := h.2
      clear h hl hk
      induction s generalizing cs with
      | nil => exact h2
      | cons q s ihs =>
        obtain ⟨n, m⟩ := q
        cases cs with
        | nil => exact h2.elim
        | cons r cs =>
          obtain ⟨k, u⟩ := r
          obtain ⟨e1, e2, e3⟩ := h2
          rw [Mod.setParamsL]
          split
          · exact ⟨e1, e2, e3⟩
          · rename_i c' _
            have e2' := ih (n, m) List.mem_cons_self c' e2
            split
            · rename_i m' e hm'
              rw [hm'] at e2'
              exact ⟨e1, e2', e3⟩
            · rename_i m' hm'
              rw [hm'] at e2'
              exact ⟨e1, e2', ihs (fun q hq => hs q (List.mem_cons_of_mem _ hq)) (fun q hq => ih q (List.mem_cons_of_mem _ hq)) cs e3⟩
    · rw [Mod.setParams_not_dict (fun kvs e => hd ⟨kvs, e⟩)]
      exact h

theorem wf_setParams {m : Mod (Num V)} (hm : m.WF) (p : Tree (Num V)) : (Mod.setParams m p).1.WF := (Mod.setParams_keeps_aux hm p).1

/-! ## The invariant -/

structure Inv (b : Backend) (c : Bool) (t0 : Tree (Num V)) (l : List (String × PV (Num V))) (p : Prob V) : Prop where
  backend : p.backend = b
  condensed : p.condensed = c
  ocp : p.ocp = latest t0 l
  flat : p.flat = if c then t0 else latest t0 l
  compiled : p.compiled = count t0
  wf : p.model.WF
  fits : ∀ l', Mod.Fits p.model (latest t0 l')

theorem latest_append (l l' : List (String × PV (Num V))) : ∀ t : Tree (Num V), latest t (l ++ l') = latest (latest t l) l' := by
  induction l with
  | nil => exact fun t => rfl
  | cons q l ih => exact fun t => ih _

theorem changes_append (l l' : List (Op V)) : changes (l ++ l') = changes l ++ changes l' := by
  induction l with
  | nil => rfl
  | cons q l ih => cases q <;> simp [changes, ih]

theorem apply_inv {b : Backend} {c : Bool} {t0 : Tree (Num V)} {l : List (String × PV (Num V))} {p : Prob V} (h : Inv b c t0 l p)
    (t used : Tree (Num V)) : Inv b c t0 l (apply p t used).1 := by
  have e : (apply p t used).1 = { p with model := (Mod.setParams p.model t).1 } := by
    unfold apply
    rcases hm : Mod.setParams p.model t with ⟨m, _ | e⟩ <;> rfl
  rw [e]
  exact ⟨h.backend, h.condensed, h.ocp, h.flat, h.compiled, wf_setParams h.wf t, fun l' => fits_setParams h.wf t (h.fits l')⟩

theorem setParam_error {t : Tree (Num V)} {path : String} {v : PV (Num V)} {e : PyErr} {t' : Tree (Num V)}
    (h : Tree.setParam t path v = (t', some e)) : t' = t := (Tree.C40_set_failure h).1

theorem modify_eq {b : Backend} {c : Bool} {t0 : Tree (Num V)} {l : List (String × PV (Num V))} {p : Prob V} (h : Inv b c t0 l p) (path : String)
    (v : PV (Num V)) :
    modify p path v = match Tree.setParam p.ocp path v with
      | (_, some e) => (p, some e)
      | (t, none) =>
        if c then ({ p with ocp := t, model := (Mod.setParams p.model t).1 }, some .attributeError)
        else ({ p with ocp := t, model := (Mod.setParams p.model t).1, flat := t }, none) := by
  unfold modify
  rcases hs : Tree.setParam p.ocp path v with ⟨t, _ | e⟩
  · have hf : Mod.Fits p.model t := by
      have := h.fits (l ++ [(path, v)])
      rw [latest_append, ← h.ocp] at this
      rwa [show latest p.ocp [(path, v)] = t by simp [latest, hs]] at this
    have := (Mod.C42_round_trip h.wf hf).1
    simp only
    rcases hm : Mod.setParams p.model t with ⟨m, _ | e⟩
    · simp only [h.condensed]
    · rw [hm] at this
      cases this
  · rw [setParam_error hs]

theorem modify_inv {b : Backend} {c : Bool} {t0 : Tree (Num V)} {l : List (String × PV (Num V))} {p : Prob V} (h : Inv b c t0 l p) (path : String)
    (v : PV (Num V)) : Inv b c t0 (l ++ [(path, v)]) (modify p path v).1 := by
  rw [modify_eq h]
  have hlat : latest t0 (l ++ [(path, v)]) = (Tree.setParam p.ocp path v).1 := by
    rw [latest_append, ← h.ocp]
    rfl
  rcases hs : Tree.setParam p.ocp path v with ⟨t, _ | e⟩
  · rw [hs] at hlat
    by_cases hc : c = true
    · simp only [hc, if_true]
      refine ⟨h.backend, h.condensed.trans hc, hlat.symm, ?_, h.compiled, wf_setParams h.wf t, fun l' => fits_setParams h.wf t (h.fits l')⟩
      have := h.flat
      rw [if_pos hc] at this
      simpa using this
    · simp only [hc]
      refine ⟨h.backend, ?_, hlat.symm, ?_, h.compiled, wf_setParams h.wf t, fun l' => fits_setParams h.wf t (h.fits l')⟩
      · have := h.condensed
        simp_all
      · simpa using hlat.symm
  · rw [hs] at hlat
    have ht := setParam_error hs
    simp only
    rw [ht] at hlat
    refine ⟨h.backend, h.condensed, hlat.symm, ?_, h.compiled, h.wf, h.fits⟩
    rw [h.flat]
    by_cases hc : c = true
    · simp [hc]
    · simp only [hc, hlat, h.ocp]

theorem step_inv {b : Backend} {c : Bool} {t0 : Tree (Num V)} {l : List (String × PV (Num V))} {p : Prob V} (h : Inv b c t0 l p) (op : Op V) :
    Inv b c t0 (l ++ changes [op]) (step p op).1 := by
  cases op with
  | modify path v =>
    have h1 := modify_inv h path v
    have e : (step p (.modify path v)).1 = (modify p path v).1 := by
      simp only [step]
      rcases modify p path v with ⟨q, _ | e⟩ <;> rfl
    rw [e]
    exact h1
  | stage traces =>
    rw [show changes [Op.stage traces] = ([] : List (String × PV (Num V))) from rfl, List.append_nil]
    simp only [step]
    split
    · split
      · exact apply_inv h _ _
      · exact h
    · exact h
    · exact apply_inv h _ _
  | forward traces =>
    rw [show changes [Op.forward traces] = ([] : List (String × PV (Num V))) from rfl, List.append_nil]
    simp only [step]
    split
    · split
      · exact apply_inv h _ _
      · exact h
    · exact h
    · exact apply_inv h _ _
  | setModel t =>
    rw [show changes [Op.setModel t] = ([] : List (String × PV (Num V))) from rfl, List.append_nil]
    have h1 := apply_inv h t t
    have e : (step p (.setModel t)).1 = (apply p t t).1 := by
      simp only [step, apply]
      rcases Mod.setParams p.model t with ⟨m, _ | e⟩ <;> rfl
    rw [e]
    exact h1
  | callModel =>
    rw [show changes [Op.callModel] = ([] : List (String × PV (Num V))) from rfl, List.append_nil]
    exact h

theorem steps_inv {b : Backend} {c : Bool} {t0 : Tree (Num V)} (ops : List (Op V)) : ∀ {l : List (String × PV (Num V))} {p : Prob V},
    Inv b c t0 l p → Inv b c t0 (l ++ changes ops) (steps p ops) := by
  induction ops with
  | nil => exact fun {l p} h => by rwa [show changes ([] : List (Op V)) = [] from rfl, List.append_nil]
  | cons op ops ih =>
    intro l p h
    have := ih (step_inv h op)
    rwa [List.append_assoc, ← changes_append] at this

/-- **C81.** Constructing a problem leaves the parameters of the model as they were, for every backend. -/
theorem C81_construct (b : Backend) (c : Bool) (m : Mod (Num V)) (hm : m.WF) :
    Mod.getParams (construct b c m).model = Mod.getParams m := by
  have hf := Mod.fits_getParams hm
  cases b with
  | jax => exact (Mod.C42_round_trip hm hf).2
  | custom => exact (Mod.C42_round_trip hm hf).2
  | casadi => exact (Mod.C42_round_trip (wf_setParams hm _) (fits_setParams hm _ hf)).2

theorem construct_inv (b : Backend) (c : Bool) {m : Mod (Num V)} (hm : m.WF) :
    Inv b c (Mod.getParams m) [] (construct b c m) := by
  have hf := Mod.fits_getParams hm
  refine ⟨rfl, rfl, rfl, by simp [construct, latest], rfl, ?_, fun l' => ?_⟩
  · cases b with
    | jax => exact wf_setParams hm _
    | custom => exact wf_setParams hm _
    | casadi => exact wf_setParams (wf_setParams hm _) _
  · cases b with
    | jax => exact fits_setParams hm _ (fits_latest l' hf)
    | custom => exact fits_setParams hm _ (fits_latest l' hf)
    | casadi => exact fits_setParams (wf_setParams hm _) _ (fits_setParams hm _ (fits_latest l' hf))

theorem setParams_ok {b : Backend} {c : Bool} {t0 : Tree (Num V)} {l : List (String × PV (Num V))} {p : Prob V} (h : Inv b c t0 l p) :
    (Mod.setParams p.model p.ocp).2 = none ∧ Mod.getParams (Mod.setParams p.model p.ocp).1 = p.ocp := by
  refine Mod.C42_round_trip h.wf ?_
  have := h.fits l
  rwa [← h.ocp] at this

theorem setTraced_ok {b : Backend} {c : Bool} {t0 : Tree (Num V)} {l : List (String × PV (Num V))} {p : Prob V} (h : Inv b c t0 l p) :
    (Mod.setParams p.model (traced p.ocp)).2 = none ∧ Mod.getParams (Mod.setParams p.model (traced p.ocp)).1 = traced p.ocp := by
  refine Mod.C42_round_trip h.wf (fits_traced h.wf ?_)
  have := h.fits l
  rwa [← h.ocp] at this

theorem apply_ok {p : Prob V} {t used : Tree (Num V)} (h : (Mod.setParams p.model t).2 = none) :
    apply p t used = ({ p with model := (Mod.setParams p.model t).1 }, .ok (some used)) := by
  unfold apply
  rcases hm : Mod.setParams p.model t with ⟨m, _ | e⟩
  · rfl
  · rw [hm] at h
    cases h

/-- The value of the stage constraints' evaluation. -/
theorem stage_value {b : Backend} {c : Bool} {t0 : Tree (Num V)} {l : List (String × PV (Num V))} {p : Prob V} (h : Inv b c t0 l p) (tr : Bool) :
    (step p (.stage tr)).2 = if b = .casadi then (if count p.flat = p.compiled then .ok (some p.flat) else .error .runtimeError)
      else .ok (some p.ocp) := by
  have hb := h.backend
  cases b with
  | jax =>
    simp only [step, hb]
    cases tr with
    | true => simp [apply_ok (setTraced_ok h).1]
    | false => simp
  | casadi => simp only [step, hb, if_true]
  | custom => simp [step, hb, apply_ok (setParams_ok h).1]

/-- **C81.** After any history of parameter changes, evaluations and changes to the model object, the stage constraints of a problem that is not
condensed are computed with the model's parameters at construction and all changes since made through the problem, for every backend (with the
backend 'casadi' as long as the number of parameters is the one at construction, else RuntimeError). -/
theorem C81_current (b : Backend) (m : Mod (Num V)) (hm : m.WF) (ops : List (Op V)) (tr : Bool) :
    let t := latest (Mod.getParams m) (changes ops)
    (step (steps (construct b false m) ops) (.stage tr)).2 =
      if b = .casadi ∧ count t ≠ count (Mod.getParams m) then .error .runtimeError else .ok (some t) := by
  have h := steps_inv ops (construct_inv b false hm)
  rw [List.nil_append] at h
  simp only
  rw [stage_value h, h.flat, h.ocp, h.compiled]
  by_cases hb : b = .casadi
  · by_cases hc : count (latest (Mod.getParams m) (changes ops)) = count (Mod.getParams m) <;> simp [hb, hc]
  · simp [hb]

/-- **C81.** A change whose path does not exist raises and changes nothing; any other change of a problem that is not condensed succeeds. -/
theorem C81_modify (b : Backend) (m : Mod (Num V)) (hm : m.WF) (ops : List (Op V)) (path : String) (v : PV (Num V)) :
    let p := steps (construct b false m) ops
    (∀ e, (Tree.setParam p.ocp path v).2 = some e → step p (.modify path v) = (p, .error e)) ∧
    ((Tree.setParam p.ocp path v).2 = none → (step p (.modify path v)).2 = .ok none ∧ Tree.getParam (step p (.modify path v)).1.ocp path = .ok v ∧
      Mod.getParams (step p (.modify path v)).1.model = (step p (.modify path v)).1.ocp) := by
  have h := steps_inv ops (construct_inv b false hm)
  intro p
  have hme := modify_eq h path v
  constructor
  · intro e he
    rcases hs : Tree.setParam p.ocp path v with ⟨t, _ | e'⟩
    · rw [hs] at he
      cases he
    · rw [hs] at he
      cases he
      rw [show (steps (construct b false m) ops).ocp = p.ocp from rfl, hs] at hme
      simp only [step]
      rw [show modify p path v = _ from hme]
  · intro he
    rcases hs : Tree.setParam p.ocp path v with ⟨t, _ | e'⟩
    · rw [show (steps (construct b false m) ops).ocp = p.ocp from rfl, hs] at hme
      simp only [step]
      rw [show modify p path v = _ from hme]
      refine ⟨rfl, Tree.C40_get_set hs, (Mod.C42_round_trip h.wf ?_).2⟩
      have := h.fits (changes ops ++ [(path, v)])
      rw [latest_append] at this
      rw [List.nil_append] at h
      rw [← h.ocp] at this
      rwa [show latest (steps (construct b false m) ops).ocp [(path, v)] = t by simp [latest, show Tree.setParam (steps (construct b false m) ops).ocp path v = _ from hs]] at this
    · rw [hs] at he
      cases he

/-- **C81.** In the words of `get_param`: if all changes succeeded, a parameter the stage constraints use is the value of the last change with its
path, and its value in the model at construction if there was none (paths that do not begin with a dot). -/
theorem C81_reads (b : Backend) (m : Mod (Num V)) (hm : m.WF) (ops : List (Op V)) (tr : Bool) (t used : Tree (Num V))
    (hs : Tree.setLeaves .dict (Mod.getParams m) (changes ops) = .ok t)
    (hu : (step (steps (construct b false m) ops) (.stage tr)).2 = .ok (some used))
    (hd : ∀ u ∈ changes ops, ∀ q, u.1 ≠ "." ++ q) (path : String) (hp : ∀ q, path ≠ "." ++ q) (w : PV (Num V)) :
    Tree.getParam used path = .ok w ↔
      match (changes ops).reverse.lookup path with
      | some v => v = w
      | none => Tree.getParam (Mod.getParams m) path = .ok w := by
  have hl : ∀ (l : List (String × PV (Num V))) (t0 t : Tree (Num V)), Tree.setLeaves .dict t0 l = .ok t → latest t0 l = t := by
    intro l
    induction l with
    | nil =>
      intro t0 t h
      simpa [Tree.setLeaves, latest] using h
    | cons q l ih =>
      intro t0 t h
      obtain ⟨k, v⟩ := q
      rw [Tree.setLeaves] at h
      rcases hq : Tree.setLeaf .dict t0 k v with ⟨t1, _ | e⟩
      · rw [hq] at h
        have := ih t1 t h
        simpa [latest, Tree.setParam, hq] using this
      · rw [hq] at h
        cases h
  have := C81_current b m hm ops tr
  simp only at this
  rw [hu] at this
  split at this
  · cases this
  · cases this
    rw [hl _ _ _ hs]
    refine (Tree.C40_history _ hs hd hp w).trans ?_
    cases (changes ops).reverse.lookup path <;> exact Iff.rfl

/-! ## Findings -/

/-- **C81** (finding). In a condensed problem every change of an existing parameter raises AttributeError, after the fact: with the backends 'jax'
and 'custom' all later evaluations use the new value; with 'casadi' the constraints keep the parameters of the construction for ever while
the model evaluations inside the condensed Jacobian use the new ones. -/
theorem C81_condensed (b : Backend) (m : Mod (Num V)) (hm : m.WF) (ops : List (Op V)) (tr : Bool) :
    let p := steps (construct b true m) ops
    let t := latest (Mod.getParams m) (changes ops)
    (∀ path v, (Tree.setParam p.ocp path v).2 = none → (step p (.modify path v)).2 = .error .attributeError) ∧
    (step p (.stage tr)).2 = .ok (some (if b = .casadi then Mod.getParams m else t)) ∧
    (b ≠ .custom → count t = count (Mod.getParams m) → (step p (.forward tr)).2 = .ok (some t)) := by
  have h := steps_inv ops (construct_inv b true hm)
  rw [List.nil_append] at h
  intro p t
  refine ⟨fun path v hv => ?_, ?_, fun hb hc => ?_⟩
  · have hme := modify_eq h path v
    rcases hs : Tree.setParam p.ocp path v with ⟨t', _ | e'⟩
    · rw [show (steps (construct b true m) ops).ocp = p.ocp from rfl, hs] at hme
      simp only [step]
      rw [show modify p path v = _ from hme]
      rfl
    · rw [hs] at hv
      cases hv
  · rw [stage_value h, h.flat, h.ocp, h.compiled]
    by_cases hb : b = .casadi <;> simp [hb, t]
  · have hbk : p.backend = b := h.backend
    cases b with
    | jax =>
      simp only [step, hbk]
      cases tr with
      | true => simpa [apply_ok (setTraced_ok h).1, p] using h.ocp
      | false => simpa [p] using h.ocp
    | casadi =>
      simp only [step, hbk]
      rw [show p.ocp = t from h.ocp, show p.compiled = _ from h.compiled, if_pos hc]
    | custom => exact absurd rfl hb

/-- **C81** (finding). With the backend 'jax', an evaluation that traces the functions (the first one does) leaves the symbols in the model object:
a call of the model itself then fails if it has any parameter of its own or in a submodel, until its parameters are set again. -/
theorem C81_tracers (c : Bool) (m : Mod (Num V)) (hm : m.WF) (ops : List (Op V)) :
    let p := steps (construct .jax c m) ops
    Mod.getParams (step p (.stage true)).1.model = traced p.ocp ∧
      ((∃ a ∈ Tree.leaves .dict (traced p.ocp), a.2 = .val .tracer) → (step (step p (.stage true)).1 .callModel).2 = .error .typeError) := by
  have h := steps_inv ops (construct_inv .jax c hm)
  intro p
  have hbk : p.backend = .jax := h.backend
  have e : (step p (.stage true)).1.model = (Mod.setParams p.model (traced p.ocp)).1 := by
    simp [step, hbk, apply_ok (setTraced_ok h).1, p]
  have e2 := (setTraced_ok h).2
  refine ⟨by rw [e]; exact e2, ?_⟩
  rintro ⟨a, ha, hat⟩
  generalize step p (.stage true) = q at e ⊢
  simp only [step]
  rw [if_neg]
  rw [e]
  intro hall
  rw [show Mod.getParams (Mod.setParams p.model (traced p.ocp)).1 = traced p.ocp from e2] at hall
  have := List.all_eq_true.mp hall a ha
  rw [hat] at this
  cases this

/-- **C81** (finding). With the backend 'custom' an evaluation overwrites what was set on the model object. -/
theorem C81_overwritten (c : Bool) (m : Mod (Num V)) (hm : m.WF) (ops : List (Op V)) (t : Tree (Num V)) (tr : Bool) :
    let p := steps (construct .custom c m) ops
    Mod.getParams (step (step p (.setModel t)).1 (.stage tr)).1.model = p.ocp := by
  have h := steps_inv ops (construct_inv .custom c hm)
  have h1 := step_inv h (.setModel t)
  intro p
  have e : (step p (.setModel t)).1.ocp = p.ocp := by
    simp only [step]
    rcases Mod.setParams p.model t with ⟨m', _ | e⟩ <;> rfl
  have hb : (step p (.setModel t)).1.backend = .custom := h1.backend
  have h2 := setParams_ok h1
  rw [show (step (step p (.setModel t)).1 (.stage tr)).1 = (apply (step p (.setModel t)).1 (step p (.setModel t)).1.ocp (step p (.setModel t)).1.ocp).1 by
    generalize step p (.setModel t) = q at hb ⊢
    simp only [step, hb]]
  rw [apply_ok h2.1]
  exact h2.2.trans e

/-- A model with one parameter. -/
def pendulum (g : V) : Mod (Num V) :=
  .node { name := "Pendulum", submodels := [], defaults := [("gravity", .val (.val g))] } [("gravity", .val (.val g))] []

/-- **C81** (finding). A misspelt parameter name is not rejected: the problem goes on with the old value, or, with the backend 'casadi', cannot be
evaluated any more. -/
theorem C81_misspelt (g v : V) (tr : Bool) :
    (step (construct .jax false (pendulum g)) (.modify "gravty" (.val (.val v)))).2 = .ok none ∧
    (∃ used, (step (steps (construct .jax false (pendulum g)) [.modify "gravty" (.val (.val v))]) (.stage tr)).2 = .ok (some used) ∧
      Tree.getParam used "gravity" = .ok (.val (.val g))) ∧
    (step (steps (construct .casadi false (pendulum g)) [.modify "gravty" (.val (.val v))]) (.stage tr)).2 = .error .runtimeError := by
  cases tr
  · exact ⟨rfl, ⟨_, rfl, rfl⟩, rfl⟩
  · exact ⟨rfl, ⟨_, rfl, rfl⟩, rfl⟩

/-! ## The hypotheses are met -/

theorem pendulum_wf (g : V) : (pendulum g).WF := .node _ _ _ (fun _ => rfl) List.nodup_nil (by simp)

/-- Two changes, an evaluation and a change of the model object in between. -/
example (g a b z : V) (tr : Bool) : ∃ used,
    (step (steps (construct .casadi false (pendulum g)) [.modify "gravity" (.val (.val a)), .stage tr,
      .setModel (.node (.dict [("gravity", .val (.val z))]) []), .modify "gravity" (.val (.val b))]) (.stage tr)).2 = .ok (some used) ∧
    Tree.getParam used "gravity" = .ok (.val (.val b)) := by
  refine ⟨_, C81_current .casadi (pendulum g) (pendulum_wf g) _ tr, ?_⟩
  rfl

example (g : V) : Mod.getParams (construct .casadi true (pendulum g)).model = Mod.getParams (pendulum g) :=
  C81_construct _ _ _ (pendulum_wf g)

example (g : V) : ∃ a ∈ Tree.leaves .dict (traced (construct .jax false (pendulum g)).ocp), a.2 = .val .tracer :=
  ⟨_, List.mem_cons_self, rfl⟩

end Lumos.Trees.OcpParams
