import Verif.Config.Model
/-!
# C73: configurations and their dictionaries
-/

namespace Lumos.Config

open Lumos

/-! ## Specification -/

/-- A value without configuration objects. -/
inductive Plain : V → Prop
  | none : Plain .none
  | num (a : EReal) : Plain (.num a)
  | str (s : String) : Plain (.str s)
  | arr (as : List EReal) : Plain (.arr as)
  | list (vs : List V) : (∀ v ∈ vs, Plain v) → Plain (.list vs)
  | tup (vs : List V) : (∀ v ∈ vs, Plain v) → Plain (.tup vs)
  | dict (kvs : List (String × V)) : (∀ f ∈ kvs, Plain f.2) → Plain (.dict kvs)

/-- `v` is what `cls(**kw)` gives for some plain keyword arguments. -/
def Made (c : Cls) (v : V) : Prop := ∃ kw, (∀ f ∈ kw, Plain f.2) ∧ make c (.dict kw) = .ok v

/-- The fields that hold configuration objects, and their classes. -/
def seqFields : List (String × Cls) := [("bounds", .bound), ("scales", .scale), ("boundary_conditions", .bc)]

/-- The fields of the configuration have the declared types, and it has no `logging_config`. -/
structure Typed (c : List (String × V)) : Prop where
  seqs : ∀ f ∈ seqFields, ∃ vs, c.lookup f.1 = some (.tup vs) ∧ ∀ v ∈ vs, Made f.2 v
  rest : ∀ f ∈ c, f.1 ∉ seqFields.map Prod.fst → Plain f.2

/-! ## Proofs -/

theorem bind_ok {α β : Type} {a : Py α} {f : α → Py β} {b : β} (h : (a >>= f) = .ok b) : ∃ x, a = .ok x ∧ f x = .ok b := by
  cases a with
  | error e => cases h
  | ok x => exact ⟨x, rfl, h⟩

theorem asdictL_eq (vs : List V) : asdictL vs = vs.map asdict := by
  induction vs with
  | nil => rfl
  | cons v vs ih => simp [asdictL, ih]

theorem asdictF_eq (kvs : List (String × V)) : asdictF kvs = kvs.map fun f => (f.1, asdict f.2) := by
  induction kvs with
  | nil => rfl
  | cons v vs ih =>
    obtain ⟨k, v⟩ := v
    simp [asdictF, ih]

theorem plain_asdict {v : V} (h : Plain v) : asdict v = v := by
  induction h with
  | none => rfl
  | num a => rfl
  | str s => rfl
  | arr as => rfl
  | list vs _ ih =>
    simp only [asdict, asdictL_eq]
    rw [List.map_congr_left (g := id) ih, List.map_id]
  | tup vs _ ih =>
    simp only [asdict, asdictL_eq]
    rw [List.map_congr_left (g := id) ih, List.map_id]
  | dict kvs _ ih =>
    simp only [asdict, asdictF_eq]
    have e : ∀ f ∈ kvs, (f.1, asdict f.2) = id f := fun f hf => Prod.ext rfl (ih f hf)
    rw [List.map_congr_left e, List.map_id]

theorem mapM_inv {α β : Type} {f : α → Py β} {l : List α} {r : List β} (h : l.mapM f = .ok r) :
    List.Forall₂ (fun a b => f a = .ok b) l r := by
  induction l generalizing r with
  | nil =>
    simp only [List.mapM_nil, pure, Except.pure, Except.ok.injEq] at h
    subst h
    exact .nil
  | cons a l ih =>
    rw [List.mapM_cons] at h
    obtain ⟨b, h1, h⟩ := bind_ok h
    obtain ⟨bs, h2, h⟩ := bind_ok h
    cases h
    exact .cons h1 (ih h2)

theorem mapM_of {α β : Type} {f : α → Py β} {l : List α} {r : List β} (h : List.Forall₂ (fun a b => f a = .ok b) l r) :
    l.mapM f = .ok r := by
  induction h with
  | nil => rfl
  | cons h1 _ ih =>
    rw [List.mapM_cons, h1]
    simp only [bind, Except.bind, ih]
    rfl

theorem fieldValue_key {kw : List (String × V)} {f : String × Option V} {g : String × V} (h : fieldValue kw f = .ok g) : g.1 = f.1 := by
  unfold fieldValue at h
  split at h
  · cases h; rfl
  · cases h; rfl
  · cases h

theorem init_keys {fs : List (String × Option V)} {kw c : List (String × V)} (h : init fs kw = .ok c) : c.map Prod.fst = fs.map Prod.fst := by
  unfold init at h
  split at h
  · rename_i hc
    have := mapM_inv h
    clear h hc
    induction this with
    | nil => rfl
    | cons h1 _ ih => simp only [List.map_cons, fieldValue_key h1, ih]
  · cases h

/-- Giving all fields gives these fields. -/
theorem init_full {fs : List (String × Option V)} {kw : List (String × V)} (hk : kw.map Prod.fst = fs.map Prod.fst)
    (hnd : (kw.map Prod.fst).Nodup) : init fs kw = .ok kw := by
  unfold init
  rw [if_pos (by rw [hk]; exact fun k hk => hk)]
  apply mapM_of
  rw [List.forall₂_iff_get]
  have hl : fs.length = kw.length := by
    have := congrArg List.length hk
    simpa using this.symm
  refine ⟨hl, ?_⟩
  intro i h1 h2
  simp only [List.get_eq_getElem]
  have hkey : kw[i].1 = fs[i].1 := by
    have e := congrArg (fun l : List String => l[i]?) hk
    simp only [List.getElem?_map, List.getElem?_eq_getElem h1, List.getElem?_eq_getElem h2, Option.map_some, Option.some.injEq] at e
    exact e
  unfold fieldValue
  rw [← hkey, Dict.lookup_of_mem (d := kw) hnd (k := kw[i].1) (v := kw[i].2) (List.getElem_mem h2)]

theorem setField_keys (c : List (String × V)) (k : String) (v : V) : (setField c k v).map Prod.fst = c.map Prod.fst := by
  unfold setField
  rw [List.map_map]
  apply List.map_congr_left
  intro f _
  simp only [Function.comp]
  split
  · rename_i h; exact h.symm
  · rfl

theorem lookup_setField (c : List (String × V)) (k : String) (v : V) (j : String) :
    (setField c k v).lookup j = if j = k ∧ k ∈ c.map Prod.fst then some v else c.lookup j := by
  unfold setField
  induction c with
  | nil => simp
  | cons f c ih =>
    obtain ⟨a, b⟩ := f
    rw [List.map_cons]
    by_cases hak : a = k
    · subst hak
      simp only [if_true, List.lookup_cons]
      by_cases hj : j = a
      · subst hj
        simp
      · have : (j == a) = false := by simpa using hj
        simp only [this, ih]
        simp [hj]
    · simp only [hak, if_false, List.lookup_cons]
      by_cases hj : j = a
      · subst hj
        simp [hak]
      · have : (j == a) = false := by simpa using hj
        simp only [this, ih]
        have hk : ¬ k = a := fun e => hak e.symm
        have hm : (k ∈ List.map Prod.fst ((a, b) :: c)) ↔ (k ∈ List.map Prod.fst c) := by
          rw [List.map_cons, List.mem_cons]
          exact ⟨fun e => e.resolve_left hk, Or.inr⟩
        simp only [hm]

/-- Two configurations with the same keys and values are equal. -/
theorem fields_ext {c d : List (String × V)} (hk : c.map Prod.fst = d.map Prod.fst) (hnd : (c.map Prod.fst).Nodup)
    (h : ∀ k ∈ c.map Prod.fst, c.lookup k = d.lookup k) : c = d := by
  induction c generalizing d with
  | nil =>
    cases d with
    | nil => rfl
    | cons f d => cases hk
  | cons f c ih =>
    cases d with
    | nil => cases hk
    | cons g d =>
      obtain ⟨a, v⟩ := f
      obtain ⟨b, w⟩ := g
      simp only [List.map_cons, List.cons.injEq] at hk
      obtain ⟨rfl, hk⟩ := hk
      simp only [List.map_cons, List.nodup_cons] at hnd
      have h0 := h a (by simp)
      simp only [List.lookup_cons, beq_self_eq_true, Option.some.injEq] at h0
      subst h0
      rw [ih hk hnd.2]
      intro k hkc
      have := h k (by simp [hkc])
      have hne : (k == a) = false := by
        have : k ≠ a := by rintro rfl; exact hnd.1 hkc
        simpa using this
      simpa [List.lookup_cons, hne] using this

theorem getField_ok {c : List (String × V)} {k : String} {v : V} (h : getField c k = .ok v) : c.lookup k = some v := by
  unfold getField at h
  split at h
  · rename_i w hw; cases h; exact hw
  · cases h

theorem mem_keys_of_lookup {c : List (String × V)} {k : String} {v : V} (h : c.lookup k = some v) : k ∈ c.map Prod.fst := by
  induction c with
  | nil => cases h
  | cons f c ih =>
    obtain ⟨a, b⟩ := f
    rw [List.lookup_cons] at h
    by_cases hk : k = a
    · simp [hk]
    · have : (k == a) = false := by simpa using hk
      simp only [this] at h
      simp [ih h]

/-- What a conversion step does to the fields. -/
theorem convertField_ok {k : String} {cls : Cls} {c d : List (String × V)} (h : convertField k cls c = .ok d) :
    ∃ v w, c.lookup k = some v ∧ convert cls v = .ok w ∧ d.map Prod.fst = c.map Prod.fst
      ∧ ∀ j, d.lookup j = if j = k then some w else c.lookup j := by
  unfold convertField at h
  obtain ⟨v, h1, h⟩ := bind_ok h
  obtain ⟨w, h2, h⟩ := bind_ok h
  cases h
  have h1 := getField_ok h1
  refine ⟨v, w, h1, h2, setField_keys _ _ _, ?_⟩
  intro j
  rw [lookup_setField]
  have := mem_keys_of_lookup h1
  simp [this]

theorem convertField_of {k : String} {cls : Cls} {c : List (String × V)} {v w : V} (h1 : c.lookup k = some v) (h2 : convert cls v = .ok w) :
    ∃ d, convertField k cls c = .ok d ∧ d.map Prod.fst = c.map Prod.fst ∧ ∀ j, d.lookup j = if j = k then some w else c.lookup j := by
  refine ⟨setField c k w, ?_, setField_keys _ _ _, ?_⟩
  · unfold convertField getField
    rw [h1]
    simp only [bind, Except.bind, h2]
    rfl
  · intro j
    rw [lookup_setField]
    have := mem_keys_of_lookup h1
    simp [this]

/-- The fields after `SimConfig.__post_init__`. -/
theorem postInit_ok {c d : List (String × V)} (h : postInit c = .ok d) :
    d.map Prod.fst = c.map Prod.fst ∧ ∃ t b s a b' s' a', c.lookup "transcription" = some t ∧ c.lookup "bounds" = some b
      ∧ c.lookup "scales" = some s ∧ c.lookup "boundary_conditions" = some a ∧ convert .bound b = .ok b' ∧ convert .scale s = .ok s'
      ∧ convert .bc a = .ok a' ∧ ∀ j, d.lookup j = if j = "transcription" then some (wrapTranscription t) else if j = "bounds" then some b'
        else if j = "scales" then some s' else if j = "boundary_conditions" then some a' else c.lookup j := by
  unfold postInit at h
  obtain ⟨t, h1, h⟩ := bind_ok h
  obtain ⟨c1, h2, h⟩ := bind_ok h
  obtain ⟨c2, h3, h⟩ := bind_ok h
  have h1 := getField_ok h1
  obtain ⟨b, b', p1, p2, p3, p4⟩ := convertField_ok h2
  obtain ⟨s, s', q1, q2, q3, q4⟩ := convertField_ok h3
  obtain ⟨a, a', r1, r2, r3, r4⟩ := convertField_ok h
  have l0 : ∀ j, (setField c "transcription" (wrapTranscription t)).lookup j
      = if j = "transcription" then some (wrapTranscription t) else c.lookup j := by
    intro j
    rw [lookup_setField]
    simp [mem_keys_of_lookup h1]
  rw [l0] at p1
  rw [p4, l0] at q1
  rw [q4, p4, l0] at r1
  refine ⟨by rw [r3, q3, p3, setField_keys], t, b, s, a, b', s', a', h1, by simpa using p1, by simpa using q1, by simpa using r1, p2, q2, r2, ?_⟩
  intro j
  rw [r4, q4, p4, l0]
  by_cases e1 : j = "transcription"
  · subst e1; simp
  · by_cases e2 : j = "bounds"
    · subst e2; simp
    · by_cases e3 : j = "scales"
      · subst e3; simp
      · simp [e1, e2, e3]

theorem postInit_of {c : List (String × V)} {t b s a b' s' a' : V} (h1 : c.lookup "transcription" = some t)
    (h2 : c.lookup "bounds" = some b) (h3 : c.lookup "scales" = some s) (h4 : c.lookup "boundary_conditions" = some a)
    (k2 : convert .bound b = .ok b') (k3 : convert .scale s = .ok s') (k4 : convert .bc a = .ok a') :
    ∃ d, postInit c = .ok d ∧ d.map Prod.fst = c.map Prod.fst
      ∧ ∀ j, d.lookup j = if j = "transcription" then some (wrapTranscription t) else if j = "bounds" then some b'
        else if j = "scales" then some s' else if j = "boundary_conditions" then some a' else c.lookup j := by
  have l0 : ∀ j, (setField c "transcription" (wrapTranscription t)).lookup j
      = if j = "transcription" then some (wrapTranscription t) else c.lookup j := by
    intro j
    rw [lookup_setField]
    simp [mem_keys_of_lookup h1]
  obtain ⟨c1, p1, p2, p3⟩ := convertField_of (k := "bounds") (c := setField c "transcription" (wrapTranscription t)) (v := b)
    (by rw [l0]; simpa using h2) k2
  obtain ⟨c2, q1, q2, q3⟩ := convertField_of (k := "scales") (c := c1) (v := s) (by rw [p3, l0]; simpa using h3) k3
  obtain ⟨c3, r1, r2, r3⟩ := convertField_of (k := "boundary_conditions") (c := c2) (v := a) (by rw [q3, p3, l0]; simpa using h4) k4
  have e : postInit c = .ok c3 := by
    unfold postInit getField
    rw [h1]
    simp only [bind, Except.bind, p1, q1, r1]
  refine ⟨c3, e, by rw [r2, q2, p2, setField_keys], ?_⟩
  intro j
  rw [r3, q3, p3, l0]
  by_cases e1 : j = "transcription"
  · subst e1; simp
  · by_cases e2 : j = "bounds"
    · subst e2; simp
    · by_cases e3 : j = "scales"
      · subst e3; simp
      · simp [e1, e2, e3]

theorem wrap_wrap (t : V) : wrapTranscription (wrapTranscription t) = wrapTranscription t := by
  cases t <;> rfl

/-! ### Objects -/

theorem check_of_keys {c : Cls} {f : List (String × V)} {v : V} (h : make c (.dict f) = .ok v) :
    ∃ fields, v = .obj c fields ∧ init (fieldsOf c) f = .ok fields ∧ check c fields = .ok () := by
  unfold make at h
  obtain ⟨fields, h1, h⟩ := bind_ok h
  obtain ⟨u, h2, h⟩ := bind_ok h
  cases h
  exact ⟨fields, rfl, h1, h2⟩

theorem fieldsOf_nodup (c : Cls) : ((fieldsOf c).map Prod.fst).Nodup := by
  cases c <;> simp [fieldsOf]

theorem fieldsOf_plain {c : Cls} {f : String × Option V} (hf : f ∈ fieldsOf c) {v : V} (hv : f.2 = some v) : Plain v := by
  cases c <;> simp only [fieldsOf, List.mem_cons, List.not_mem_nil, or_false] at hf
  · rcases hf with rfl | rfl | rfl <;> cases hv
  · rcases hf with rfl | rfl | rfl <;> cases hv
  · rcases hf with rfl | rfl | rfl | rfl <;> cases hv
  · rcases hf with rfl | rfl | rfl <;> cases hv
    · exact .str _
    · exact .str _
    · exact .num _

theorem mem_of_lookup {c : List (String × V)} {k : String} {v : V} (h : c.lookup k = some v) : (k, v) ∈ c := by
  induction c with
  | nil => cases h
  | cons f c ih =>
    obtain ⟨a, b⟩ := f
    rw [List.lookup_cons] at h
    by_cases hk : k = a
    · subst hk
      simp only [beq_self_eq_true, Option.some.injEq] at h
      simp [h]
    · have : (k == a) = false := by simpa using hk
      simp only [this] at h
      simp [ih h]

/-- The fields of an object that was made are plain. -/
theorem made_fields {c : Cls} {v : V} (h : Made c v) :
    ∃ fields, v = .obj c fields ∧ (∀ f ∈ fields, Plain f.2) ∧ make c (.dict fields) = .ok v ∧ asdict v = .dict fields := by
  obtain ⟨kw, h1, h2⟩ := h
  obtain ⟨fields, rfl, h3, h4⟩ := check_of_keys h2
  have hk := init_keys h3
  have hp : ∀ f ∈ fields, Plain f.2 := by
    unfold init at h3
    split at h3
    · have hf := mapM_inv h3
      intro f hf'
      obtain ⟨i, hi⟩ := List.mem_iff_getElem?.1 hf'
      obtain ⟨hlt, hi⟩ := List.getElem?_eq_some_iff.1 hi
      have hlt' : i < (fieldsOf c).length := by
        have := hf.length_eq
        omega
      have e := (List.forall₂_iff_get.1 hf).2 i hlt' hlt
      simp only [List.get_eq_getElem] at e
      rw [hi] at e
      unfold fieldValue at e
      split at e
      · rename_i w hw
        cases e
        exact h1 _ (mem_of_lookup hw)
      · rename_i w hw1 hw2
        cases e
        exact fieldsOf_plain (List.getElem_mem hlt') hw2
      · cases e
    · cases h3
  refine ⟨fields, rfl, hp, ?_, ?_⟩
  · unfold make
    dsimp only
    rw [init_full hk (by rw [hk]; exact fieldsOf_nodup c)]
    simp only [bind, Except.bind, h4]
    rfl
  · simp only [asdict, asdictF_eq]
    have e : ∀ f ∈ fields, (f.1, asdict f.2) = id f := fun f hf => Prod.ext rfl (plain_asdict (hp f hf))
    rw [List.map_congr_left e, List.map_id]

/-- A tuple of objects survives being turned into dictionaries and back. -/
theorem convert_back {cls : Cls} {vs : List V} (h : ∀ v ∈ vs, Made cls v) : convert cls (asdict (.tup vs)) = .ok (.tup vs) := by
  simp only [asdict, asdictL_eq]
  cases vs with
  | nil => rfl
  | cons v vs =>
    have hm : (List.map asdict (v :: vs)).mapM (make cls) = .ok (v :: vs) := by
      apply mapM_of
      generalize v :: vs = ws at h
      induction ws with
      | nil => exact .nil
      | cons w ws ih =>
        obtain ⟨f, _, _, h3, h4⟩ := made_fields (h w (by simp))
        refine .cons (by rw [h4]; exact h3) (ih fun x hx => h x (by simp [hx]))
    obtain ⟨f, _, _, h3, h4⟩ := made_fields (h v (by simp))
    rw [List.map_cons, h4] at hm ⊢
    simp only [convert, bind, Except.bind, hm]
    rfl

/-! ### The names that must not be periodic -/

theorem addNonCyclic_again {v w : V} {n : String} (h : addNonCyclic v n = .ok w) : addNonCyclic w n = .ok w := by
  unfold addNonCyclic at h
  split at h
  · split at h
    · rename_i e; cases h; simp [addNonCyclic, e]
    · cases h; simp [addNonCyclic, isStr]
  · split at h
    · rename_i e; cases h; simp [addNonCyclic, e]
    · cases h
  · cases h

theorem addNonCyclic_keeps {v w : V} {n m : String} (h : addNonCyclic v n = .ok w) (hm : addNonCyclic v m = .ok v) :
    addNonCyclic w m = .ok w := by
  unfold addNonCyclic at h
  split at h
  · rename_i vs
    split at h
    · cases h; exact hm
    · cases h
      have : vs.any (isStr m) = true := by
        by_contra hc
        simp only [addNonCyclic, hc, if_false, Except.ok.injEq, V.list.injEq] at hm
        simpa using congrArg List.length hm
      simp [addNonCyclic, List.any_append, this]
  · split at h
    · cases h; exact hm
    · cases h
  · cases h

theorem simFields_nodup (k : Sim) : ((simFields k).map Prod.fst).Nodup := by
  cases k <;> simp [simFields]

/-- The fields of a configuration after construction. -/
theorem config_ok {k : Sim} {kw c : List (String × V)} (h : config k kw = .ok c) :
    c.map Prod.fst = (simFields k).map Prod.fst ∧ (∃ t, c.lookup "transcription" = some (wrapTranscription t))
      ∧ (k = .ltc → (∃ t, c.lookup "track" = some t ∧ t ≠ .none)
        ∧ ∃ v, c.lookup "non_cyclic_vars" = some v ∧ addNonCyclic v "states.time" = .ok v ∧ addNonCyclic v "inputs.track_heading" = .ok v) := by
  unfold config at h
  obtain ⟨c0, h0, h⟩ := bind_ok h
  obtain ⟨c1, h1, h⟩ := bind_ok h
  have k0 := init_keys h0
  obtain ⟨k1, t, b, s, a, b', s', a', l1, l2, l3, l4, v2, v3, v4, ll⟩ := postInit_ok h1
  by_cases hl : k = .ltc
  · rw [if_pos hl] at h
    unfold ltcPost at h
    obtain ⟨tr, g1, h⟩ := bind_ok h
    have g1 := getField_ok g1
    have key : ∀ tr : V, c1.lookup "track" = some tr → tr ≠ .none → ((do
        let v ← getField c1 "non_cyclic_vars"
        let v ← addNonCyclic v "states.time"
        let v ← addNonCyclic v "inputs.track_heading"
        return setField c1 "non_cyclic_vars" v : Py (List (String × V))) = .ok c) →
        c.map Prod.fst = (simFields k).map Prod.fst ∧ (∃ t, c.lookup "transcription" = some (wrapTranscription t))
      ∧ (k = .ltc → (∃ t, c.lookup "track" = some t ∧ t ≠ .none)
        ∧ ∃ v, c.lookup "non_cyclic_vars" = some v ∧ addNonCyclic v "states.time" = .ok v ∧ addNonCyclic v "inputs.track_heading" = .ok v) := by
      intro tr g1 hne h
      obtain ⟨v, g2, h⟩ := bind_ok h
      obtain ⟨w, g3, h⟩ := bind_ok h
      obtain ⟨u, g4, h⟩ := bind_ok h
      cases h
      have g2 := getField_ok g2
      have hm := mem_keys_of_lookup g2
      refine ⟨by rw [setField_keys, k1, k0], ⟨t, ?_⟩, fun _ => ⟨⟨tr, ?_, hne⟩, u, ?_, ?_, addNonCyclic_again g4⟩⟩
      · rw [lookup_setField, ll]; simp
      · rw [lookup_setField, g1]; simp
      · rw [lookup_setField]; simp [hm]
      · exact addNonCyclic_keeps g4 (addNonCyclic_again g3)
    cases tr with
    | none => cases h
    | num x => exact key _ g1 (by simp) h
    | str x => exact key _ g1 (by simp) h
    | arr x => exact key _ g1 (by simp) h
    | list x => exact key _ g1 (by simp) h
    | tup x => exact key _ g1 (by simp) h
    | dict x => exact key _ g1 (by simp) h
    | obj x y => exact key _ g1 (by simp) h
  · rw [if_neg hl] at h
    cases h
    exact ⟨by rw [k1, k0], ⟨t, by rw [ll]; simp⟩, fun e => absurd e hl⟩

theorem ltcPost_same {c : List (String × V)} {t v : V} (hnd : (c.map Prod.fst).Nodup) (h1 : c.lookup "track" = some t) (hne : t ≠ .none)
    (h2 : c.lookup "non_cyclic_vars" = some v) (h3 : addNonCyclic v "states.time" = .ok v)
    (h4 : addNonCyclic v "inputs.track_heading" = .ok v) : ltcPost c = .ok c := by
  have hs : setField c "non_cyclic_vars" v = c := by
    apply fields_ext (setField_keys _ _ _) (by rw [setField_keys]; exact hnd)
    intro j _
    rw [lookup_setField]
    split
    · rename_i e; rw [e.1, h2]
    · rfl
  unfold ltcPost getField
  rw [h1]
  cases t with
  | none => exact absurd rfl hne
  | _ => simp only [bind, Except.bind, h2, h3, h4, pure, Except.pure, hs]

theorem lookup_toDict (c : List (String × V)) (k : String) : (toDict c).lookup k = (c.lookup k).map asdict := by
  unfold toDict
  rw [asdictF_eq]
  induction c with
  | nil => rfl
  | cons f c ih =>
    obtain ⟨a, b⟩ := f
    rw [List.map_cons, List.lookup_cons, List.lookup_cons]
    by_cases hk : k = a
    · simp [hk]
    · have : (k == a) = false := by simpa using hk
      simp only [this, ih]

theorem toDict_keys (c : List (String × V)) : (toDict c).map Prod.fst = c.map Prod.fst := by
  unfold toDict
  rw [asdictF_eq, List.map_map]
  rfl

/-- **C73 (round trip).** A configuration of the declared types without `logging_config` is recovered from its dictionary: constructing
the class from `to_dict()` gives an equal configuration. -/
theorem C73_round_trip {k : Sim} {kw c : List (String × V)} (h : config k kw = .ok c) (ht : Typed c) :
    config k (toDict c) = .ok c := by
  obtain ⟨hk, ⟨t, htr⟩, hl⟩ := config_ok h
  have hnd : (c.map Prod.fst).Nodup := by rw [hk]; exact simFields_nodup k
  have hrest : ∀ j, j ∉ seqFields.map Prod.fst → (toDict c).lookup j = c.lookup j := by
    intro j hj
    rw [lookup_toDict]
    cases hc : c.lookup j with
    | none => rfl
    | some v => rw [Option.map_some, plain_asdict (ht.rest _ (mem_of_lookup hc) hj)]
  obtain ⟨b, b1, b2⟩ := ht.seqs ("bounds", .bound) (by simp [seqFields])
  obtain ⟨s, s1, s2⟩ := ht.seqs ("scales", .scale) (by simp [seqFields])
  obtain ⟨a, a1, a2⟩ := ht.seqs ("boundary_conditions", .bc) (by simp [seqFields])
  dsimp only at b1 s1 a1 b2 s2 a2
  obtain ⟨d, d1, d2, d3⟩ := postInit_of (c := toDict c) (t := wrapTranscription t) (b := asdict (.tup b)) (s := asdict (.tup s))
    (a := asdict (.tup a)) (by rw [hrest _ (by simp [seqFields]), htr]) (by rw [lookup_toDict, b1]; rfl) (by rw [lookup_toDict, s1]; rfl)
    (by rw [lookup_toDict, a1]; rfl) (convert_back b2) (convert_back s2) (convert_back a2)
  have hd : d = c := by
    apply fields_ext (by rw [d2, toDict_keys]) (by rw [d2, toDict_keys]; exact hnd)
    intro j _
    rw [d3]
    by_cases e1 : j = "transcription"
    · rw [if_pos e1, wrap_wrap, e1, htr]
    · rw [if_neg e1]
      by_cases e2 : j = "bounds"
      · rw [if_pos e2, e2, b1]
      · rw [if_neg e2]
        by_cases e3 : j = "scales"
        · rw [if_pos e3, e3, s1]
        · rw [if_neg e3]
          by_cases e4 : j = "boundary_conditions"
          · rw [if_pos e4, e4, a1]
          · rw [if_neg e4, hrest j (by simp [seqFields, e2, e3, e4])]
  unfold config
  rw [init_full (by rw [toDict_keys, hk]) (by rw [toDict_keys]; exact hnd)]
  simp only [bind, Except.bind, d1, hd]
  by_cases hltc : k = .ltc
  · rw [if_pos hltc]
    obtain ⟨⟨tr, t1, t2⟩, v, v1, v2, v3⟩ := hl hltc
    exact ltcPost_same hnd t1 t2 v1 v2 v3
  · rw [if_neg hltc]
    rfl

end Lumos.Config
