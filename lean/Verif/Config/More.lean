import Verif.Config.Props
import Verif.Lap.Defaults
/-!
# C73: the fields of a configuration
-/

namespace Lumos.Config

open Lumos

/-! ## Specification -/

/-- The value that the user gave to a field, or its default. -/
def Given (k : Sim) (kw : List (String × V)) (name : String) (v : V) : Prop :=
  kw.lookup name = some v ∨ kw.lookup name = Option.none ∧ (simFields k).lookup name = some (some v)

/-- What becomes of a sequence field: a sequence that begins with a dictionary becomes a tuple of objects made from its elements, any other
value is kept. -/
def Converted (cls : Cls) (v w : V) : Prop :=
  (∃ d vs os, (v = .list (.dict d :: vs) ∨ v = .tup (.dict d :: vs)) ∧ w = .tup os
      ∧ List.Forall₂ (fun x o => make cls x = .ok o) (.dict d :: vs) os)
  ∨ (∀ d vs, v ≠ .list (.dict d :: vs) ∧ v ≠ .tup (.dict d :: vs)) ∧ w = v

/-! ## Proofs -/

theorem init_known {fs : List (String × Option V)} {kw c : List (String × V)} (h : init fs kw = .ok c) :
    (∀ n ∈ kw.map Prod.fst, n ∈ fs.map Prod.fst) ∧ List.Forall₂ (fun a b => fieldValue kw a = .ok b) fs c := by
  unfold init at h
  split at h
  · rename_i hc
    exact ⟨hc, mapM_inv h⟩
  · cases h

theorem forall_lookup {kw : List (String × V)} {fs : List (String × Option V)} {c : List (String × V)}
    (h : List.Forall₂ (fun a b => fieldValue kw a = .ok b) fs c) (n : String) :
    c.lookup n = match fs.lookup n with
      | Option.none => Option.none
      | some d => match kw.lookup n with
        | some v => some v
        | Option.none => d := by
  induction h with
  | nil => rfl
  | @cons a b l r h1 h2 ih =>
    obtain ⟨an, ad⟩ := a
    have hk := fieldValue_key h1
    obtain ⟨bn, bv⟩ := b
    dsimp only at hk
    subst hk
    rw [List.lookup_cons, List.lookup_cons]
    by_cases e : n = bn
    · subst e
      simp only [beq_self_eq_true]
      unfold fieldValue at h1
      dsimp only at h1
      split at h1
      · rename_i e1; cases h1; rw [e1]
      · rename_i e1; cases h1; rw [e1]
      · cases h1
    · have : (n == bn) = false := by simpa using e
      simp only [this, ih]

theorem lookup_isSome {β : Type} {c : List (String × β)} {n : String} (h : n ∈ c.map Prod.fst) : ∃ v, c.lookup n = some v := by
  induction c with
  | nil => simp at h
  | cons f c ih =>
    obtain ⟨a, b⟩ := f
    rw [List.lookup_cons]
    by_cases e : n = a
    · subst e; simp
    · have : (n == a) = false := by simpa using e
      simp only [this]
      simp only [List.map_cons, List.mem_cons, e, false_or] at h
      exact ih h

theorem init_given {k : Sim} {kw c : List (String × V)} (h : init (simFields k) kw = .ok c) {n : String} {v : V} (hv : Given k kw n v) :
    c.lookup n = some v := by
  obtain ⟨hk, hf⟩ := init_known h
  rw [forall_lookup hf]
  rcases hv with hv | ⟨hv, hd⟩
  · obtain ⟨d, hd⟩ := lookup_isSome (hk n (mem_keys_of_lookup hv))
    rw [hd, hv]
  · rw [hd, hv]

theorem config_steps {k : Sim} {kw c : List (String × V)} (h : config k kw = .ok c) :
    ∃ c0 c1, init (simFields k) kw = .ok c0 ∧ postInit c0 = .ok c1 ∧ (k ≠ .ltc → c = c1) ∧ (k = .ltc → ltcPost c1 = .ok c) := by
  unfold config at h
  obtain ⟨c0, h0, h⟩ := bind_ok h
  obtain ⟨c1, h1, h⟩ := bind_ok h
  refine ⟨c0, c1, h0, h1, ?_, ?_⟩
  · intro hk
    rw [if_neg hk] at h
    cases h
    rfl
  · intro hk
    rw [if_pos hk] at h
    exact h

theorem ltcPost_steps {c d : List (String × V)} (h : ltcPost c = .ok d) :
    ∃ t v w u, c.lookup "track" = some t ∧ t ≠ .none ∧ c.lookup "non_cyclic_vars" = some v ∧ addNonCyclic v "states.time" = .ok w
      ∧ addNonCyclic w "inputs.track_heading" = .ok u ∧ ∀ j, d.lookup j = if j = "non_cyclic_vars" then some u else c.lookup j := by
  unfold ltcPost at h
  obtain ⟨tr, g1, h⟩ := bind_ok h
  have g1 := getField_ok g1
  have key : tr ≠ .none → ((do
      let v ← getField c "non_cyclic_vars"
      let v ← addNonCyclic v "states.time"
      let v ← addNonCyclic v "inputs.track_heading"
      return setField c "non_cyclic_vars" v : Py (List (String × V))) = .ok d) →
      ∃ t v w u, c.lookup "track" = some t ∧ t ≠ .none ∧ c.lookup "non_cyclic_vars" = some v ∧ addNonCyclic v "states.time" = .ok w
      ∧ addNonCyclic w "inputs.track_heading" = .ok u ∧ ∀ j, d.lookup j = if j = "non_cyclic_vars" then some u else c.lookup j := by
    intro hne h
    obtain ⟨v, g2, h⟩ := bind_ok h
    obtain ⟨w, g3, h⟩ := bind_ok h
    obtain ⟨u, g4, h⟩ := bind_ok h
    cases h
    have g2 := getField_ok g2
    refine ⟨tr, v, w, u, g1, hne, g2, g3, g4, ?_⟩
    intro j
    rw [lookup_setField]
    simp only [mem_keys_of_lookup g2, and_true]
  cases tr with
  | none => cases h
  | num x => exact key (by simp) h
  | str x => exact key (by simp) h
  | arr x => exact key (by simp) h
  | list x => exact key (by simp) h
  | tup x => exact key (by simp) h
  | dict x => exact key (by simp) h
  | obj x y => exact key (by simp) h

theorem convert_spec {cls : Cls} {v w : V} (h : convert cls v = .ok w) : Converted cls v w := by
  unfold convert at h
  split at h
  · cases h; exact .inr ⟨fun d vs => ⟨by simp, by simp⟩, rfl⟩
  · cases h; exact .inr ⟨fun d vs => ⟨by simp, by simp⟩, rfl⟩
  · cases h; exact .inr ⟨fun d vs => ⟨by simp, by simp⟩, rfl⟩
  · cases h; exact .inr ⟨fun d vs => ⟨by simp, by simp⟩, rfl⟩
  · rename_i d vs
    obtain ⟨os, h1, h⟩ := bind_ok h
    cases h
    exact .inl ⟨d, vs, os, .inl rfl, rfl, mapM_inv h1⟩
  · rename_i d vs
    obtain ⟨os, h1, h⟩ := bind_ok h
    cases h
    exact .inl ⟨d, vs, os, .inr rfl, rfl, mapM_inv h1⟩
  · rename_i vs _ hn
    cases h
    refine .inr ⟨fun d ws => ⟨?_, by simp⟩, rfl⟩
    intro e
    simp only [V.list.injEq] at e
    exact hn d ws e
  · rename_i vs _ hn
    cases h
    refine .inr ⟨fun d ws => ⟨by simp, ?_⟩, rfl⟩
    intro e
    simp only [V.tup.injEq] at e
    exact hn d ws e
  · cases h

/-- **C73 (fields).** The configuration that the constructor returns has exactly the declared fields; only declared names are accepted;
every field has the value given to it or its default, except that a transcription given as a string becomes a tuple, that sequences of
dictionaries become tuples of checked objects, and (for lap-time simulations) `non_cyclic_vars`. -/
theorem C73_fields {k : Sim} {kw c : List (String × V)} (h : config k kw = .ok c) :
    c.map Prod.fst = (simFields k).map Prod.fst
    ∧ (∀ n ∈ kw.map Prod.fst, n ∈ (simFields k).map Prod.fst)
    ∧ (∀ n v, Given k kw n v → n ∉ "transcription" :: seqFields.map Prod.fst → (k = .ltc → n ≠ "non_cyclic_vars") → c.lookup n = some v)
    ∧ (∀ s, Given k kw "transcription" (.str s) → c.lookup "transcription" = some (.tup [.str s]))
    ∧ (∀ v, Given k kw "transcription" v → (∀ s, v ≠ .str s) → c.lookup "transcription" = some v)
    ∧ (∀ f ∈ seqFields, ∀ v, Given k kw f.1 v → ∃ w, c.lookup f.1 = some w ∧ Converted f.2 v w) := by
  obtain ⟨c0, c1, h0, h1, h2, h3⟩ := config_steps h
  obtain ⟨k1, t, b, s, a, b', s', a', l1, l2, l3, l4, v2, v3, v4, ll⟩ := postInit_ok h1
  have hlast : ∀ j, (k = .ltc → j ≠ "non_cyclic_vars") → c.lookup j = c1.lookup j := by
    intro j hj
    by_cases hk : k = .ltc
    · obtain ⟨_, _, _, _, _, _, _, _, _, e⟩ := ltcPost_steps (h3 hk)
      rw [e, if_neg (hj hk)]
    · rw [h2 hk]
  refine ⟨(config_ok h).1, (init_known h0).1, ?_, ?_, ?_, ?_⟩
  · intro n v hv hn hn'
    simp only [seqFields, List.map_cons, List.map_nil, List.mem_cons, List.not_mem_nil, or_false, not_or] at hn
    rw [hlast n hn', ll, if_neg hn.1, if_neg hn.2.1, if_neg hn.2.2.1, if_neg hn.2.2.2]
    exact init_given h0 hv
  · intro x hv
    have := init_given h0 hv
    rw [l1, Option.some.injEq] at this
    subst this
    rw [hlast _ (fun _ => by simp), ll, if_pos rfl]
    rfl
  · intro x hv hs
    have := init_given h0 hv
    rw [l1, Option.some.injEq] at this
    subst this
    rw [hlast _ (fun _ => by simp), ll, if_pos rfl]
    cases t with
    | str z => exact absurd rfl (hs z)
    | _ => rfl
  · intro f hf v hv
    have := init_given h0 hv
    simp only [seqFields, List.mem_cons, List.not_mem_nil, or_false] at hf
    rcases hf with rfl | rfl | rfl
    · refine ⟨b', by rw [hlast _ (fun _ => by simp), ll]; simp, ?_⟩
      rw [l2, Option.some.injEq] at this
      subst this
      exact convert_spec v2
    · refine ⟨s', by rw [hlast _ (fun _ => by simp), ll]; simp, ?_⟩
      rw [l3, Option.some.injEq] at this
      subst this
      exact convert_spec v3
    · refine ⟨a', by rw [hlast _ (fun _ => by simp), ll]; simp, ?_⟩
      rw [l4, Option.some.injEq] at this
      subst this
      exact convert_spec v4

/-- Adding the names that are missing to the end. -/
theorem addNonCyclic_list (ns : List String) (n : String) :
    addNonCyclic (.list (ns.map .str)) n = .ok (.list ((if n ∈ ns then ns else ns ++ [n]).map .str)) := by
  unfold addNonCyclic
  have e : (List.map V.str ns).any (isStr n) = true ↔ n ∈ ns := by
    rw [List.any_map, List.any_eq_true]
    constructor
    · rintro ⟨x, hx, hn⟩
      simp only [Function.comp, isStr, beq_iff_eq] at hn
      exact hn ▸ hx
    · intro hn
      exact ⟨n, hn, by simp [isStr]⟩
  dsimp only
  by_cases hn : n ∈ ns
  · rw [if_pos (e.2 hn), if_pos hn]
  · rw [if_neg (fun h => hn (e.1 h)), if_neg hn]
    simp

/-- **C73 (lap-time simulation).** A lap-time configuration always has a track, and the names of its variables that are not periodic are
those given by the user followed by the ones of `states.time` and `inputs.track_heading` that were missing. -/
theorem C73_ltc {kw c : List (String × V)} (h : config .ltc kw = .ok c) :
    (∃ t, Given .ltc kw "track" t ∧ t ≠ .none)
    ∧ ∀ ns : List String, Given .ltc kw "non_cyclic_vars" (.list (ns.map .str)) →
        c.lookup "non_cyclic_vars" = some (.list ((ns ++ ["states.time", "inputs.track_heading"].filter (· ∉ ns)).map .str)) := by
  obtain ⟨c0, c1, h0, h1, -, h3⟩ := config_steps h
  obtain ⟨k1, t, b, s, a, b', s', a', l1, l2, l3, l4, v2, v3, v4, ll⟩ := postInit_ok h1
  obtain ⟨tr, v, w, u, e1, e2, e3, e4, e5, e6⟩ := ltcPost_steps (h3 rfl)
  obtain ⟨hk, hf⟩ := init_known h0
  constructor
  · refine ⟨tr, ?_, e2⟩
    rw [ll] at e1
    simp only [String.reduceEq, if_false] at e1
    rw [forall_lookup hf] at e1
    cases hw : kw.lookup "track" with
    | none =>
      right
      refine ⟨hw, ?_⟩
      rw [hw] at e1
      split at e1
      · cases e1
      · rename_i d hd
        dsimp only at e1
        rw [hd, e1]
    | some x =>
      left
      rw [hw] at e1
      split at e1
      · cases e1
      · exact e1 ▸ hw
  · intro ns hv
    have g := init_given h0 hv
    rw [ll] at e3
    simp only [String.reduceEq, if_false] at e3
    rw [g, Option.some.injEq] at e3
    subst e3
    rw [addNonCyclic_list, Except.ok.injEq] at e4
    subst e4
    rw [addNonCyclic_list, Except.ok.injEq] at e5
    subst e5
    rw [e6, if_pos rfl, Option.some.injEq, V.list.injEq]
    congr 1
    by_cases m1 : "states.time" ∈ ns <;> by_cases m2 : "inputs.track_heading" ∈ ns <;> simp [m1, m2]

open Classical in
/-- The bounds that `BoundConfig` accepts: two numbers, or two arrays of one length, with the lower below the upper. -/
inductive ValidBounds : V → Prop
  | nums (mk : List V → V) (hmk : mk = V.tup ∨ mk = V.list) (a b : EReal) : a ≤ b → ValidBounds (mk [.num a, .num b])
  | arrs (mk : List V → V) (hmk : mk = V.tup ∨ mk = V.list) (as bs : List EReal) : List.Forall₂ (· ≤ ·) as bs →
      ValidBounds (mk [.arr as, .arr bs])

theorem checkBounds_iff (v : V) : checkBounds v = .ok () ↔ ValidBounds v := by
  have arr : ∀ as bs : List EReal, (do
      assertP (as.length = bs.length)
      assertP (∀ p ∈ as.zip bs, p.1 ≤ p.2) : Py Unit) = .ok () ↔ List.Forall₂ (· ≤ ·) as bs := by
    intro as bs
    rw [List.forall₂_iff_zip]
    simp only [assertP]
    by_cases hl : as.length = bs.length
    · rw [if_pos hl]
      simp only [bind, Except.bind]
      by_cases h : ∀ p ∈ as.zip bs, p.1 ≤ p.2
      · rw [if_pos h]
        exact ⟨fun _ => ⟨hl, fun {a b} hab => h _ hab⟩, fun _ => rfl⟩
      · rw [if_neg h]
        exact ⟨(fun e => by cases e), fun e => absurd (fun p hp => e.2 hp) h⟩
    · rw [if_neg hl]
      exact ⟨(fun e => by cases e), fun e => absurd e.1 hl⟩
  constructor
  · intro h
    unfold checkBounds at h
    split at h
    · rename_i a b
      unfold assertP at h
      split at h
      · rename_i hab; exact .nums _ (.inl rfl) a b hab
      · cases h
    · rename_i a b
      unfold assertP at h
      split at h
      · rename_i hab; exact .nums _ (.inr rfl) a b hab
      · cases h
    · exact .arrs _ (.inl rfl) _ _ ((arr _ _).1 h)
    · exact .arrs _ (.inr rfl) _ _ ((arr _ _).1 h)
    · cases h
  · intro h
    cases h with
    | nums mk hmk a b hab =>
      rcases hmk with rfl | rfl <;> simp [checkBounds, assertP, hab]
    | arrs mk hmk as bs hab =>
      rcases hmk with rfl | rfl <;> exact (arr _ _).2 hab

/-- **C73 (dictionaries).** A dictionary makes a bound exactly when it has the three fields and valid values; scales and boundary conditions
are made from any dictionary with exactly their fields, in any order. -/
theorem C73_made (cls : Cls) (kw : List (String × V)) (hnd : (kw.map Prod.fst).Nodup) (hl : cls ≠ .logging) :
    (∃ o, make cls (.dict kw) = .ok o) ↔
      (kw.map Prod.fst).Perm ((fieldsOf cls).map Prod.fst) ∧ (cls = .bound → ∃ v, kw.lookup "values" = some v ∧ ValidBounds v) := by
  have hnone : ∀ f ∈ fieldsOf cls, f.2 = Option.none := by
    intro f hf
    cases cls <;> simp only [fieldsOf, List.mem_cons, List.not_mem_nil, or_false] at hf
    · rcases hf with rfl | rfl | rfl <;> rfl
    · rcases hf with rfl | rfl | rfl <;> rfl
    · rcases hf with rfl | rfl | rfl | rfl <;> rfl
    · exact absurd rfl hl
  constructor
  · rintro ⟨o, h⟩
    obtain ⟨fields, rfl, h1, h2⟩ := check_of_keys h
    obtain ⟨hk, hf⟩ := init_known h1
    constructor
    · rw [List.perm_ext_iff_of_nodup hnd (fieldsOf_nodup cls)]
      intro n
      refine ⟨hk n, ?_⟩
      intro hn
      obtain ⟨f, hfm, rfl⟩ := List.mem_map.1 hn
      obtain ⟨i, hi, rfl⟩ := List.mem_iff_getElem.1 hfm
      have hi' : i < fields.length := by
        have := hf.length_eq
        omega
      have e := (List.forall₂_iff_get.1 hf).2 i hi hi'
      simp only [List.get_eq_getElem] at e
      unfold fieldValue at e
      rw [hnone _ hfm] at e
      cases hlk : kw.lookup (fieldsOf cls)[i].1 with
      | none => rw [hlk] at e; cases e
      | some v => exact mem_keys_of_lookup hlk
    · rintro rfl
      unfold check at h2
      dsimp only at h2
      rw [forall_lookup hf] at h2
      have hd : (fieldsOf .bound).lookup "values" = some Option.none := rfl
      rw [hd] at h2
      dsimp only at h2
      cases hlk : kw.lookup "values" with
      | none => rw [hlk] at h2; cases h2
      | some v =>
        rw [hlk] at h2
        exact ⟨v, rfl, (checkBounds_iff v).1 h2⟩
  · rintro ⟨hp, hb⟩
    have hm : ∀ f ∈ fieldsOf cls, ∃ v, kw.lookup f.1 = some v := by
      intro f hf
      exact lookup_isSome (hp.symm.subset (List.mem_map_of_mem hf))
    have hex : ∀ l : List (String × Option V), (∀ f ∈ l, ∃ v, kw.lookup f.1 = some v) → ∃ r, l.mapM (fieldValue kw) = .ok r := by
      intro l
      induction l with
      | nil => exact fun _ => ⟨[], rfl⟩
      | cons f l ih =>
        intro h
        obtain ⟨v, hv⟩ := h f (by simp)
        obtain ⟨r, hr⟩ := ih fun g hg => h g (by simp [hg])
        refine ⟨(f.1, v) :: r, mapM_of (.cons ?_ (mapM_inv hr))⟩
        unfold fieldValue
        rw [hv]
    obtain ⟨fields, hr⟩ := hex _ hm
    have hi : init (fieldsOf cls) kw = .ok fields := by
      unfold init
      rw [if_pos (fun n hn => hp.subset hn), hr]
    have hc : check cls fields = .ok () := by
      cases cls with
      | bound =>
        obtain ⟨v, hv, hvb⟩ := hb rfl
        unfold check
        dsimp only
        rw [forall_lookup (mapM_inv hr), hv]
        have hd : (fieldsOf .bound).lookup "values" = some Option.none := rfl
        rw [hd]
        exact (checkBounds_iff v).2 hvb
      | _ => rfl
    refine ⟨.obj cls fields, ?_⟩
    unfold make
    dsimp only
    rw [hi]
    simp only [bind, Except.bind, hc]
    rfl

/-! ## Examples: the hypotheses hold for the default configurations -/

theorem made_of {cls : Cls} {fields : List (String × V)} (hk : fields.map Prod.fst = (fieldsOf cls).map Prod.fst)
    (hp : ∀ f ∈ fields, Plain f.2) (hc : check cls fields = .ok ()) : Made cls (.obj cls fields) := by
  refine ⟨fields, hp, ?_⟩
  unfold make
  dsimp only
  rw [init_full hk (by rw [hk]; exact fieldsOf_nodup cls)]
  simp only [bind, Except.bind, hc]
  rfl

theorem made_bound (g n : String) (a b : EReal) (h : a ≤ b) :
    Made .bound (ofBound ⟨g, n, .scalar a, .scalar b⟩) := by
  apply made_of rfl
  · intro f hf
    simp only [List.mem_cons, List.not_mem_nil, or_false] at hf
    rcases hf with rfl | rfl | rfl
    · exact .str _
    · exact .str _
    · refine .tup _ ?_
      intro v hv
      simp only [ofBVal, List.mem_cons, List.not_mem_nil, or_false] at hv
      rcases hv with rfl | rfl <;> exact .num _
  · exact (checkBounds_iff _).2 (.nums _ (.inl rfl) a b h)

theorem made_scale (s : Ocp.ScaleConfig) : Made .scale (ofScale s) := by
  apply made_of rfl
  · intro f hf
    simp only [List.mem_cons, List.not_mem_nil, or_false] at hf
    rcases hf with rfl | rfl | rfl
    · exact .str _
    · exact .str _
    · exact .num _
  · rfl

theorem made_bc (i : Int) (g n : String) (a : ℝ) : Made .bc (ofBC i g n a) := by
  apply made_of rfl
  · intro f hf
    simp only [List.mem_cons, List.not_mem_nil, or_false] at hf
    rcases hf with rfl | rfl | rfl | rfl
    · exact .num _
    · exact .str _
    · exact .str _
    · exact .num _
  · rfl

theorem default_bound_made {b : Bounds.BoundConfig EReal} (h : Bounds.BoundConfig.make b.group b.name b.lb b.ub = .ok b) :
    Made .bound (ofBound b) := by
  obtain ⟨g, n, lb, ub⟩ := b
  cases lb with
  | scalar a =>
    cases ub with
    | scalar b =>
      simp only [Bounds.BoundConfig.make] at h
      split at h
      · rename_i hab; exact made_bound g n a b hab
      · cases h
    | array bs => cases h
  | array as =>
    cases ub with
    | scalar b => cases h
    | array bs =>
      simp only [Bounds.BoundConfig.make] at h
      split at h
      · rename_i hl
        split at h
        · rename_i hall
          apply made_of rfl
          · intro f hf
            simp only [List.mem_cons, List.not_mem_nil, or_false] at hf
            rcases hf with rfl | rfl | rfl
            · exact .str _
            · exact .str _
            · refine .tup _ ?_
              intro v hv
              simp only [ofBVal, List.mem_cons, List.not_mem_nil, or_false] at hv
              rcases hv with rfl | rfl <;> exact .arr _
          · refine (checkBounds_iff _).2 (.arrs _ (.inl rfl) as bs ?_)
            rw [List.forall₂_iff_zip]
            refine ⟨hl, ?_⟩
            intro a b hab
            rw [List.all_eq_true] at hall
            simpa using hall _ hab
        · cases h
      · cases h

theorem defaults_made (k : Sim) : (∀ v ∈ (defaultsOf k).1, Made .bc v) ∧ (∀ v ∈ (defaultsOf k).2.1, Made .bound v)
    ∧ (∀ v ∈ (defaultsOf k).2.2.1, Made .scale v) ∧ ∀ v ∈ (defaultsOf k).2.2.2, Plain v := by
  have pi := Real.pi_pos
  cases k with
  | sim => simp [defaultsOf]
  | ltc =>
    refine ⟨?_, ?_, ?_, ?_⟩
    · intro v hv
      simp only [defaultsOf, ltcBCs, if_true, List.mem_cons, List.not_mem_nil, or_false] at hv
      subst hv
      exact made_bc _ _ _ _
    · intro v hv
      obtain ⟨b, hb, rfl⟩ := List.mem_map.1 hv
      exact default_bound_made (LapSim.C70_defaults_valid b hb)
    · intro v hv
      obtain ⟨b, hb, rfl⟩ := List.mem_map.1 hv
      exact made_scale b
    · intro v hv
      obtain ⟨b, hb, rfl⟩ := List.mem_map.1 hv
      exact .str _
  | drone =>
    refine ⟨?_, ?_, ?_, ?_⟩
    · intro v hv
      simp only [defaultsOf, droneBCs, List.mem_cons, List.not_mem_nil, or_false] at hv
      rcases hv with rfl | rfl | rfl | rfl | rfl | rfl | rfl | rfl | rfl | rfl <;> exact made_bc _ _ _ _
    · intro v hv
      obtain ⟨b, hb, rfl⟩ := List.mem_map.1 hv
      simp only [droneBounds, LapSim.bound, List.mem_cons, List.not_mem_nil, or_false] at hb
      rcases hb with rfl | rfl | rfl | rfl | rfl | rfl | rfl | rfl <;>
        exact made_bound _ _ _ _ (EReal.coe_le_coe_iff.mpr (by linarith))
    · intro v hv; simp [defaultsOf] at hv
    · intro v hv
      simp only [defaultsOf, List.mem_cons, List.not_mem_nil, or_false] at hv
      subst hv
      exact .str _

/-- Keywords for an example: a track for the lap-time simulation. -/
def exampleKw (k : Sim) : List (String × V) := if k = .ltc then [("track", .str "track.csv")] else []

theorem convert_made {cls : Cls} {vs : List V} (h : ∀ v ∈ vs, Made cls v) : convert cls (.tup vs) = .ok (.tup vs) := by
  cases vs with
  | nil => rfl
  | cons v vs =>
    obtain ⟨f, rfl, _⟩ := made_fields (h v (by simp))
    rfl

theorem names_of {k : Sim} {n : String} (h : n ∈ (simFields k).map Prod.fst) :
    n = "num_intervals" ∨ n = "interval_points" ∨ n = "transcription" ∨ n = "is_cyclic" ∨ n = "non_cyclic_vars" ∨ n = "is_condensed"
      ∨ n = "backend" ∨ n = "hessian_approximation" ∨ n = "boundary_conditions" ∨ n = "bounds" ∨ n = "scales" ∨ n = "con_output_names"
      ∨ n = "logging_config" ∨ k = .ltc ∧ n = "track" := by
  have h2 : (simFields k).map Prod.fst = ["num_intervals", "interval_points", "transcription", "is_cyclic", "non_cyclic_vars", "is_condensed",
      "backend", "hessian_approximation", "boundary_conditions", "bounds", "scales", "con_output_names", "logging_config"]
      ++ if k = .ltc then ["track"] else [] := by cases k <;> rfl
  rw [h2, List.mem_append] at h
  rcases h with h | h
  · simp only [List.mem_cons, List.not_mem_nil, or_false] at h
    rcases h with h | h | h | h | h | h | h | h | h | h | h | h | h <;> simp [h]
  · split at h
    · rename_i hk; simp only [List.mem_cons, List.not_mem_nil, or_false] at h; simp [hk, h]
    · simp at h

/-- The default configurations can be constructed and satisfy the hypotheses of the round trip. -/
theorem C73_default (k : Sim) : ∃ c, config k (exampleKw k) = .ok c ∧ Typed c ∧ config k (toDict c) = .ok c := by
  obtain ⟨m1, m2, m3, m4⟩ := defaults_made k
  have hi : ∃ c, config k (exampleKw k) = .ok c := by
    cases k
    · exact ⟨_, rfl⟩
    · exact ⟨_, rfl⟩
    · exact ⟨_, rfl⟩
  obtain ⟨c, hc⟩ := hi
  obtain ⟨e1, e2, e3, e4, e5, e6⟩ := C73_fields hc
  have conv : ∀ {cls : Cls} {vs : List V} {w : V}, (∀ v ∈ vs, Made cls v) → Converted cls (.tup vs) w → w = .tup vs := by
    intro cls vs w hm hcv
    rcases hcv with ⟨d, ws, os, h1 | h1, -, -⟩ | ⟨-, h⟩
    · cases h1
    · cases h1
      obtain ⟨f, h, _⟩ := made_fields (hm (.dict d) (by simp))
      cases h
    · exact h
  have hlk : (exampleKw k).lookup "bounds" = Option.none ∧ (exampleKw k).lookup "scales" = Option.none
      ∧ (exampleKw k).lookup "boundary_conditions" = Option.none := by
    cases k <;> exact ⟨rfl, rfl, rfl⟩
  have hdf : (simFields k).lookup "bounds" = some (some (.tup (defaultsOf k).2.1)) ∧ (simFields k).lookup "scales" = some (some (.tup (defaultsOf k).2.2.1))
      ∧ (simFields k).lookup "boundary_conditions" = some (some (.tup (defaultsOf k).1)) := by
    cases k <;> exact ⟨rfl, rfl, rfl⟩
  have ht : Typed c := by
    constructor
    · intro f hf
      simp only [seqFields, List.mem_cons, List.not_mem_nil, or_false] at hf
      rcases hf with rfl | rfl | rfl
      · obtain ⟨w, h1, h2⟩ := e6 ("bounds", .bound) (by simp [seqFields]) _ (.inr ⟨hlk.1, hdf.1⟩)
        exact ⟨_, by rw [h1, conv m2 h2], m2⟩
      · obtain ⟨w, h1, h2⟩ := e6 ("scales", .scale) (by simp [seqFields]) _ (.inr ⟨hlk.2.1, hdf.2.1⟩)
        exact ⟨_, by rw [h1, conv m3 h2], m3⟩
      · obtain ⟨w, h1, h2⟩ := e6 ("boundary_conditions", .bc) (by simp [seqFields]) _ (.inr ⟨hlk.2.2, hdf.2.2⟩)
        exact ⟨_, by rw [h1, conv m1 h2], m1⟩
    · rintro ⟨n, v⟩ hf hn
      have hnd : (c.map Prod.fst).Nodup := by rw [e1]; exact simFields_nodup k
      have hl : c.lookup n = some v := Dict.lookup_of_mem hnd hf
      have hm : n ∈ (simFields k).map Prod.fst := e1 ▸ mem_keys_of_lookup hl
      have key : ∀ w, Given k (exampleKw k) n w → n ≠ "transcription" → (k = .ltc → n ≠ "non_cyclic_vars") → Plain w → Plain v := by
        intro w hw h1 h2 hp
        have := e3 n w hw (by simp only [List.mem_cons, not_or]; exact ⟨h1, hn⟩) h2
        rw [hl] at this
        cases this
        exact hp
      have htr : n = "transcription" → Plain v := by
        rintro rfl
        have := e4 "Trapezoidal" (.inr (by cases k <;> exact ⟨rfl, rfl⟩))
        rw [hl] at this
        cases this
        exact .tup _ (by intro x hx; simp only [List.mem_cons, List.not_mem_nil, or_false] at hx; subst hx; exact .str _)
      have hlist : ∀ ns : List String, Plain (.list (ns.map .str)) := by
        intro ns
        refine .list _ ?_
        intro x hx
        obtain ⟨y, _, rfl⟩ := List.mem_map.1 hx
        exact .str _
      have hcon : n = "con_output_names" → Plain v := by
        rintro rfl
        exact key (.tup (defaultsOf k).2.2.2) (.inr (by cases k <;> exact ⟨rfl, rfl⟩)) (by simp) (fun _ => by simp) (.tup _ m4)
      have hncv : n = "non_cyclic_vars" → Plain v := by
        rintro rfl
        by_cases hk : k = .ltc
        · subst hk
          have := (C73_ltc hc).2 [] (.inr ⟨rfl, rfl⟩)
          rw [hl] at this
          cases this
          exact hlist _
        · exact key (.list []) (.inr (by cases k <;> exact ⟨rfl, rfl⟩)) (by simp) (fun e => absurd e hk) (hlist [])
      rcases names_of hm with rfl | rfl | rfl | rfl | rfl | rfl | rfl | rfl | rfl | rfl | rfl | rfl | rfl | ⟨rfl, rfl⟩
      · exact key (.num 99) (.inr (by cases k <;> exact ⟨rfl, rfl⟩)) (by simp) (fun _ => by simp) (.num _)
      · exact key .none (.inr (by cases k <;> exact ⟨rfl, rfl⟩)) (by simp) (fun _ => by simp) .none
      · exact htr rfl
      · exact key (.num 0) (.inr (by cases k <;> exact ⟨rfl, rfl⟩)) (by simp) (fun _ => by simp) (.num _)
      · exact hncv rfl
      · exact key (.num 0) (.inr (by cases k <;> exact ⟨rfl, rfl⟩)) (by simp) (fun _ => by simp) (.num _)
      · exact key (.str "jax") (.inr (by cases k <;> exact ⟨rfl, rfl⟩)) (by simp) (fun _ => by simp) (.str _)
      · exact key (.str "exact") (.inr (by cases k <;> exact ⟨rfl, rfl⟩)) (by simp) (fun _ => by simp) (.str _)
      · exact absurd (by simp [seqFields]) hn
      · exact absurd (by simp [seqFields]) hn
      · exact absurd (by simp [seqFields]) hn
      · exact hcon rfl
      · exact key .none (.inr (by cases k <;> exact ⟨rfl, rfl⟩)) (by simp) (fun _ => by simp) .none
      · exact key (.str "track.csv") (.inl rfl) (by simp) (fun _ => by simp) (.str _)
  exact ⟨c, hc, ht, C73_round_trip hc ht⟩

/-! ## Findings -/

/-- A logging configuration. -/
noncomputable def aLog : V := .obj .logging [("sim_name", .str "a"), ("results_dir", .str "r"), ("log_every_nth_iter", .num 5)]

/-- **C73 finding (logging is lost).** `to_dict` of a configuration with a `logging_config` turns it into a dictionary, which the
constructor does not turn back: the configuration read from the dictionary is accepted, but constructing the problem raises
AttributeError where the original would log. -/
theorem C73_logging_lost : ∃ c c', config .sim [("logging_config", aLog)] = .ok c ∧ startLogging c = .ok true
    ∧ config .sim (toDict c) = .ok c' ∧ startLogging c' = .error .attributeError ∧ c' ≠ c := by
  refine ⟨_, _, rfl, rfl, rfl, rfl, ?_⟩
  intro h
  have : (Except.error .attributeError : Py Bool) = .ok true := congrArg startLogging h
  cases this

/-- **C73 finding (mixed sequences).** A dictionary first and an object after it raises TypeError; an object first and a dictionary after it
is accepted and the dictionary stays a dictionary. -/
theorem C73_mixed_sequences :
    config .sim [("scales", .tup [.dict [("group", .str "states"), ("name", .str "x"), ("value", .num 2)], ofScale ⟨"states", "y", 3⟩])]
      = .error .typeError
    ∧ ∃ c, config .sim [("scales", .tup [ofScale ⟨"states", "y", 3⟩, .dict [("group", .str "states"), ("name", .str "x"), ("value", .num 2)]])]
        = .ok c ∧ c.lookup "scales" = some (.tup [ofScale ⟨"states", "y", 3⟩,
            .dict [("group", .str "states"), ("name", .str "x"), ("value", .num 2)]]) :=
  ⟨rfl, _, rfl, rfl⟩

/-- **C73 finding (tuple of names).** A lap-time configuration whose `non_cyclic_vars` is a tuple without the two names raises
AttributeError. -/
theorem C73_tuple_of_names :
    config .ltc [("track", .str "t.csv"), ("non_cyclic_vars", .tup [.str "states.n"])] = .error .attributeError := rfl

/-- **C73 finding (default boundary conditions).** A lap-time configuration with `is_cyclic=False` gets the boundary conditions for a closed
lap: only the time is fixed at the start, not the six states that `get_default_boundary_conditions(False)` fixes. -/
theorem C73_open_lap_default : ∃ c, config .ltc [("track", .str "t.csv"), ("is_cyclic", .num 0)] = .ok c
    ∧ c.lookup "boundary_conditions" = some (.tup (ltcBCs true)) ∧ c.lookup "boundary_conditions" ≠ some (.tup (ltcBCs false)) := by
  refine ⟨_, rfl, rfl, ?_⟩
  intro h
  have e : V.tup (ltcBCs true) = V.tup (ltcBCs false) := Option.some.inj h
  simp only [V.tup.injEq] at e
  simpa [ltcBCs] using congrArg List.length e

/-- **C73 finding (no track).** The lap-time configuration has a default track, but constructing it without a track raises ValueError. -/
theorem C73_no_track : config .ltc [] = .error .valueError := rfl

end Lumos.Config
