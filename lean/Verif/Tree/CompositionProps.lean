import Verif.Tree.Composition
/-!
# Parameters of composite models (C42) and construction from configurations (C45)
-/

namespace Lumos.Trees

open Lumos

variable {V : Type}

namespace Mod

/-- Well-formed objects, what construction yields: a model of a leaf class has no submodels, and submodel names are
distinct (`_submodels` is a dictionary). -/
inductive WF : Mod V → Prop
  | node (c : ClassDef V) (p : List (String × PV V)) (s : List (String × Mod V)) (hl : c.isLeaf = true → s = [])
      (hk : (Dict.keys s).Nodup) (h : ∀ q ∈ s, WF q.2) : WF (node c p s)

theorem getParamsL_eq (s : List (String × Mod V)) :
    getParamsL s = s.map fun (q : String × Mod V) => (q.1, getParams q.2) := by
  induction s with
  | nil => simp [getParamsL]
  | cons q s ih => obtain ⟨n, m⟩ := q; simp [getParamsL, ih]

theorem defaultParamsL_eq (s : List (String × Mod V)) :
    defaultParamsL s = s.map fun (q : String × Mod V) => (q.1, defaultParams q.2) := by
  induction s with
  | nil => simp [defaultParamsL]
  | cons q s ih => obtain ⟨n, m⟩ := q; simp [defaultParamsL, ih]

theorem getParams_node {c : ClassDef V} {p : List (String × PV V)} {s : List (String × Mod V)}
    (hl : c.isLeaf = true → s = []) :
    getParams (node c p s) = .node (.dict p) (s.map fun (q : String × Mod V) => (q.1, getParams q.2)) := by
  rw [getParams, ← getParamsL_eq]
  by_cases h : c.isLeaf = true
  · rw [if_pos h, hl h]
    simp [getParamsL]
  · rw [if_neg h]

theorem defaultParams_node {c : ClassDef V} {p : List (String × PV V)} {s : List (String × Mod V)}
    (hl : c.isLeaf = true → s = []) :
    defaultParams (node c p s) = .node (.dict c.defaults) (s.map fun (q : String × Mod V) => (q.1, defaultParams q.2)) := by
  rw [defaultParams, ← defaultParamsL_eq]
  by_cases h : c.isLeaf = true
  · rw [if_pos h, hl h]
    simp [defaultParamsL]
  · rw [if_neg h]

theorem setParams_node {c : ClassDef V} {p kvs : List (String × PV V)} {s : List (String × Mod V)} {t : Tree V}
    (hl : c.isLeaf = true → s = []) (ht : t.data = .dict kvs) :
    setParams (node c p s) t = (node c kvs (setParamsL s t).1, (setParamsL s t).2) := by
  rw [setParams, ht]
  by_cases h : c.isLeaf = true
  · simp [h, hl h, setParamsL]
  · simp [h]

theorem setParams_not_dict {c : ClassDef V} {p : List (String × PV V)} {s : List (String × Mod V)} {t : Tree V}
    (ht : ∀ kvs, t.data ≠ .dict kvs) : setParams (node c p s) t = (node c p s, some .attributeError) := by
  rw [setParams]
  split
  · exact absurd (by assumption) (ht _)
  · rfl

/-- Two objects of the same classes with the same submodel names everywhere: they differ in parameters only. -/
inductive Same : Mod V → Mod V → Prop
  | node (c : ClassDef V) (p p' : List (String × PV V)) (s s' : List (String × Mod V)) (hk : Dict.keys s' = Dict.keys s)
      (h : ∀ n m m', s.lookup n = some m → s'.lookup n = some m' → Same m m') : Same (node c p s) (node c p' s')

/-- What the loop of `set_recursive_params` does when it succeeds. -/
theorem setParamsL_ok {s s' : List (String × Mod V)} {t : Tree V} (h : setParamsL s t = (s', none)) :
    List.Forall₂ (fun (q q' : String × Mod V) => q'.1 = q.1 ∧ ∃ c, t.children.lookup q.1 = some c
      ∧ setParams q.2 c = (q'.2, none)) s s' := by
  induction s generalizing s' with
  | nil =>
    simp only [setParamsL, Prod.mk.injEq] at h
    rw [← h.1]
    exact .nil
  | cons q s ih =>
    obtain ⟨n, m⟩ := q
    rw [setParamsL] at h
    split at h
    · simp at h
    · rename_i c hc
      split at h
      · simp at h
      · rename_i m' hm
        simp only [Prod.mk.injEq] at h
        rw [← h.1]
        exact .cons ⟨rfl, c, hc, hm⟩ (ih (Prod.ext rfl h.2))

theorem keys_setParamsL (s : List (String × Mod V)) (t : Tree V) : Dict.keys (setParamsL s t).1 = Dict.keys s := by
  induction s with
  | nil => simp [setParamsL]
  | cons q s ih =>
    obtain ⟨n, m⟩ := q
    rw [setParamsL]
    split
    · rfl
    · split
      · rfl
      · unfold Dict.keys at *
        simp [ih]

theorem lookup_map {α β : Type} (f : α → β) (l : List (String × α)) (n : String) :
    (l.map fun (q : String × α) => (q.1, f q.2)).lookup n = (l.lookup n).map f := by
  induction l with
  | nil => rfl
  | cons q l ih =>
    obtain ⟨k, a⟩ := q
    simp only [List.map_cons, List.lookup_cons]
    split
    · rfl
    · exact ih

theorem lookup_forall₂ {α β : Type} {R : String → α → β → Prop} {s : List (String × α)} {s' : List (String × β)}
    (h : List.Forall₂ (fun (q : String × α) (q' : String × β) => q'.1 = q.1 ∧ R q.1 q.2 q'.2) s s') (n : String) :
    (s.lookup n = none ∧ s'.lookup n = none) ∨ ∃ a b, s.lookup n = some a ∧ s'.lookup n = some b ∧ R n a b := by
  induction h with
  | nil => left; simp
  | @cons q q' s s' hq _ ih =>
    obtain ⟨k, a⟩ := q
    obtain ⟨k', b⟩ := q'
    obtain ⟨hk, hR⟩ := hq
    simp only at hk hR
    subst hk
    by_cases hn : n = k'
    · subst hn
      right
      exact ⟨a, b, by simp, by simp, hR⟩
    · simp only [Dict.lookup_cons, if_neg hn]
      exact ih

/-- **C42 (set, then get).** When `set_recursive_params(p)` succeeds, `get_recursive_params()` then has exactly the
structure of the model, and at every submodel its parameters are those of `p` at the same path. -/
theorem C42_set_get {m m' : Mod V} {p : Tree V} (hm : m.WF) (h : setParams m p = (m', none)) (ns : List String) :
    (∀ m₁, getNames m ns = .ok m₁ → ∃ a b, (getParams m').getNames ns = .ok a ∧ p.getNames ns = .ok b ∧ a.data = b.data
      ∧ Dict.keys a.children = Dict.keys m₁.subs)
    ∧ (∀ e, getNames m ns = .error e → (getParams m').getNames ns = .error e) := by
  induction ns generalizing m m' p with
  | nil =>
    refine ⟨?_, fun e he => by simp [getNames] at he⟩
    intro m₁ he
    simp only [getNames, Except.ok.injEq] at he
    subst he
    obtain ⟨c, p0, s, hl, hk, hs⟩ := hm
    refine ⟨_, _, rfl, rfl, ?_, ?_⟩
    · by_cases hd : ∃ kvs, p.data = .dict kvs
      · obtain ⟨kvs, hd⟩ := hd
        rw [setParams_node hl hd, Prod.mk.injEq] at h
        rw [← h.1, getParams, hd]
        rfl
      · rw [setParams_not_dict (fun kvs e => hd ⟨kvs, e⟩)] at h
        simp at h
    · by_cases hd : ∃ kvs, p.data = .dict kvs
      · obtain ⟨kvs, hd⟩ := hd
        rw [setParams_node hl hd, Prod.mk.injEq] at h
        have hl' : c.isLeaf = true → (setParamsL s p).1 = [] := by
          intro e
          have := keys_setParamsL s p
          rw [hl e] at this ⊢
          simp [setParamsL]
        rw [← h.1, getParams_node hl']
        simp only [Tree.children, subs]
        rw [← keys_setParamsL s p]
        simp [Dict.keys, List.map_map, Function.comp_def]
      · rw [setParams_not_dict (fun kvs e => hd ⟨kvs, e⟩)] at h
        simp at h
  | cons n ns ih =>
    obtain ⟨c, p0, s, hl, hk, hs⟩ := hm
    by_cases hd : ∃ kvs, p.data = .dict kvs
    · obtain ⟨kvs, hd⟩ := hd
      rw [setParams_node hl hd, Prod.mk.injEq] at h
      have hl' : c.isLeaf = true → (setParamsL s p).1 = [] := by
        intro e
        rw [hl e]
        simp [setParamsL]
      have hF := setParamsL_ok (s' := (setParamsL s p).1) (Prod.ext rfl h.2)
      have hL := lookup_forall₂ (R := fun k a b => ∃ c, p.children.lookup k = some c ∧ setParams a c = (b, none)) hF n
      rw [← h.1, getParams_node hl', Tree.getNames, getNames]
      simp only [Tree.children, subs, lookup_map]
      rcases hL with ⟨h1, h2⟩ | ⟨a, b, h1, h2, cp, h3, h4⟩
      · rw [h1, h2]
        refine ⟨fun m₁ he => by simp at he, fun e he => ?_⟩
        simpa using he
      · rw [h1, h2, Tree.getNames, h3]
        simp only [Option.map_some]
        exact ih (hs (n, a) (Dict.mem_of_lookup h1)) h4
    · rw [setParams_not_dict (fun kvs e => hd ⟨kvs, e⟩)] at h
      simp at h

/-- **C42 (what is accepted).** `set_recursive_params(p)` succeeds if and only if `p` has a dictionary of parameters at
the path of every submodel; extra children in `p` are ignored. -/
theorem C42_accepts_iff {m : Mod V} {p : Tree V} (hm : m.WF) :
    (setParams m p).2 = none
      ↔ ∀ ns m₁, getNames m ns = .ok m₁ → ∃ b kvs, p.getNames ns = .ok b ∧ b.data = .dict kvs := by
  constructor
  · intro h ns m₁ hns
    obtain ⟨a, b, h1, h2, h3, _⟩ := (C42_set_get hm (Prod.ext rfl h) ns).1 m₁ hns
    refine ⟨b, ?_⟩
    -- the data read back are a dictionary
    have : ∀ (m : Mod V) (ns : List String) (a : Tree V), (getParams m).getNames ns = .ok a → ∃ kvs, a.data = .dict kvs := by
      intro m ns
      induction ns generalizing m with
      | nil =>
        intro a ha
        obtain ⟨c, q, s⟩ := m
        rw [getParams, Tree.getNames] at ha
        simp only [Except.ok.injEq] at ha
        subst ha
        exact ⟨q, rfl⟩
      | cons n ns ih =>
        intro a ha
        obtain ⟨c, q, s⟩ := m
        rw [getParams, Tree.getNames] at ha
        simp only [Tree.children] at ha
        split at ha
        · simp at ha
        · rename_i t ht
          by_cases hl : c.isLeaf = true
          · rw [if_pos hl] at ht
            simp at ht
          · rw [if_neg hl, getParamsL_eq, lookup_map] at ht
            obtain ⟨m', _, rfl⟩ := Option.map_eq_some_iff.mp ht
            exact ih m' a ha
    obtain ⟨kvs, hk⟩ := this _ _ _ h1
    exact ⟨kvs, h2, by rw [← h3, hk]⟩
  · intro h
    induction hm generalizing p with
    | node c p0 s hl hk hs ih =>
      obtain ⟨b, kvs, hb, hd⟩ := h [] _ rfl
      simp only [Tree.getNames, Except.ok.injEq] at hb
      subst hb
      rw [setParams_node hl hd]
      have hsub : ∀ q ∈ s, ∃ c, p.children.lookup q.1 = some c
          ∧ ∀ ns m₁, getNames q.2 ns = .ok m₁ → ∃ b kvs, c.getNames ns = .ok b ∧ b.data = .dict kvs := by
        intro q hq
        have hlq : s.lookup q.1 = some q.2 := Dict.lookup_of_mem hk hq
        obtain ⟨b, kvs, hb, _⟩ := h [q.1] q.2 (by simp [getNames, subs, hlq])
        rw [Tree.getNames] at hb
        split at hb
        · simp at hb
        · rename_i c hc
          refine ⟨c, hc, ?_⟩
          intro ns m₁ hns
          have := h (q.1 :: ns) m₁ (by rw [getNames]; simp only [subs, hlq]; exact hns)
          rw [Tree.getNames, hc] at this
          exact this
      have ih' : ∀ q ∈ s, ∀ {p : Tree V}, (∀ ns m₁, getNames q.2 ns = .ok m₁ → ∃ b kvs, p.getNames ns = .ok b
          ∧ b.data = .dict kvs) → (setParams q.2 p).2 = none := fun q hq => ih q hq
      clear ih hs hk hl h hd
      simp only
      induction s with
      | nil => simp [setParamsL]
      | cons q s ihs =>
        obtain ⟨n, m⟩ := q
        obtain ⟨c, hc, hcm⟩ := hsub (n, m) (by simp)
        have h1 := ih' (n, m) (by simp) hcm
        rw [setParamsL]
        simp only at hc
        simp only [hc]
        have e : setParams m c = ((setParams m c).1, none) := Prod.ext rfl h1
        rw [e]
        exact ihs (fun q hq => hsub q (List.mem_cons_of_mem _ hq)) (fun q hq => ih' q (List.mem_cons_of_mem _ hq))

mutual
/-- The parameter tree `p` has exactly the structure of the model: the same children in the same order everywhere, and
dictionaries of parameters. -/
def Fits : Mod V → Tree V → Prop
  | node _ _ s, .node d cs => (∃ kvs, d = .dict kvs) ∧ FitsL s cs
/-- See `Fits`. -/
def FitsL : List (String × Mod V) → List (String × Tree V) → Prop
  | [], [] => True
  | (n, m) :: s, (k, t) :: cs => n = k ∧ Fits m t ∧ FitsL s cs
  | _, _ => False
end

theorem fitsL_iff {s : List (String × Mod V)} {cs : List (String × Tree V)} :
    FitsL s cs ↔ List.Forall₂ (fun (q : String × Mod V) (p : String × Tree V) => p.1 = q.1 ∧ Fits q.2 p.2) s cs := by
  induction s generalizing cs with
  | nil => cases cs <;> simp [FitsL]
  | cons q s ih =>
    cases cs with
    | nil => simp [FitsL]
    | cons p cs =>
      obtain ⟨n, m⟩ := q
      obtain ⟨k, t⟩ := p
      simp [FitsL, ih, and_assoc, eq_comm]

/-- **C42 (round trip).** Setting a parameter tree with the structure of the model succeeds, and getting the parameters
returns that tree, as a whole. -/
theorem C42_round_trip {m : Mod V} {p : Tree V} (hm : m.WF) (h : Fits m p) :
    (setParams m p).2 = none ∧ getParams (setParams m p).1 = p := by
  induction hm generalizing p with
  | node c p0 s hl hk hs ih =>
    obtain ⟨d, cs⟩ := p
    rw [Fits, fitsL_iff] at h
    obtain ⟨⟨kvs, rfl⟩, hF⟩ := h
    have hl' : ∀ t, c.isLeaf = true → (setParamsL s t).1 = [] := by
      intro t e
      rw [hl e]
      simp [setParamsL]
    have ht : (Tree.node (.dict kvs) cs).data = PV.dict kvs := rfl
    rw [setParams_node hl ht, getParams_node (hl' _)]
    -- the loop, over a suffix of the submodels
    have loop : ∀ (r : List (String × Mod V)) (cr : List (String × Tree V)),
        List.Forall₂ (fun (q : String × Mod V) (p : String × Tree V) => p.1 = q.1 ∧ Fits q.2 p.2) r cr →
        (∀ q ∈ r, q ∈ s) → (∀ p ∈ cr, cs.lookup p.1 = some p.2) →
        (setParamsL r (.node (.dict kvs) cs)).2 = none
        ∧ ((setParamsL r (.node (.dict kvs) cs)).1.map fun (q : String × Mod V) => (q.1, getParams q.2)) = cr := by
      intro r cr hF
      induction hF with
      | nil => intro _ _; simp [setParamsL]
      | @cons q p r cr hq _ ihr =>
        intro h1 h2
        obtain ⟨n, m⟩ := q
        obtain ⟨k, t⟩ := p
        obtain ⟨rfl, hf⟩ := hq
        simp only at hf
        have hlk := h2 (k, t) (by simp)
        simp only at hlk
        obtain ⟨i1, i2⟩ := ih (k, m) (h1 _ (by simp)) hf
        obtain ⟨j1, j2⟩ := ihr (fun q hq => h1 q (List.mem_cons_of_mem _ hq)) (fun p hp => h2 p (List.mem_cons_of_mem _ hp))
        rw [setParamsL]
        simp only [Tree.children, hlk]
        have e : setParams m t = ((setParams m t).1, none) := Prod.ext rfl i1
        rw [e]
        simp only [List.map_cons, i2, j2]
        exact ⟨j1, trivial⟩
    have hkeys : Dict.keys cs = Dict.keys s := by
      unfold Dict.keys
      clear hk hl hs ih loop hl' ht
      induction hF with
      | nil => rfl
      | cons hq _ ih => simp [hq.1, ih]
    obtain ⟨r1, r2⟩ := loop s cs hF (fun q hq => hq) (fun p hp => Dict.lookup_of_mem (by rw [hkeys]; exact hk) hp)
    exact ⟨r1, by rw [r2]⟩

/-- Reading the parameters gives a tree of the structure of the model. -/
theorem fits_getParams {m : Mod V} (hm : m.WF) : Fits m (getParams m) := by
  induction hm with
  | node c p s hl hk hs ih =>
    rw [getParams_node hl, Fits, fitsL_iff, List.forall₂_map_right_iff, List.forall₂_same]
    exact ⟨⟨p, rfl⟩, fun q hq => ⟨rfl, ih q hq⟩⟩

theorem fits_defaultParams {m : Mod V} (hm : m.WF) : Fits m (defaultParams m) := by
  induction hm with
  | node c p s hl hk hs ih =>
    rw [defaultParams_node hl, Fits, fitsL_iff, List.forall₂_map_right_iff, List.forall₂_same]
    exact ⟨⟨_, rfl⟩, fun q hq => ⟨rfl, ih q hq⟩⟩

/-- **C42 (get, then set).** Setting the parameters just read succeeds and leaves the parameters as they were. -/
theorem C42_get_set {m : Mod V} (hm : m.WF) :
    (setParams m (getParams m)).2 = none ∧ getParams (setParams m (getParams m)).1 = getParams m :=
  C42_round_trip hm (fits_getParams hm)

theorem setParams_keeps_aux {m : Mod V} (hm : m.WF) (p : Tree V) :
    (setParams m p).1.WF ∧ ∀ ns, (∀ m₁, getNames m ns = .ok m₁ → ∃ m₂, getNames (setParams m p).1 ns = .ok m₂ ∧ m₂.cls = m₁.cls
      ∧ Dict.keys m₂.subs = Dict.keys m₁.subs)
      ∧ (∀ e, getNames m ns = .error e → getNames (setParams m p).1 ns = .error e) := by
  induction hm generalizing p with
  | node c p0 s hl hk hs ih =>
    by_cases hd : ∃ kvs, p.data = .dict kvs
    · obtain ⟨kvs, hd⟩ := hd
      rw [setParams_node hl hd]
      have hk' := keys_setParamsL s p
      have hl' : c.isLeaf = true → (setParamsL s p).1 = [] := by
        intro e
        rw [hl e]
        simp [setParamsL]
      -- every submodel afterwards is the old one or the old one with new parameters
      have hsub : ∀ r : List (String × Mod V), List.Forall₂ (fun (q q' : String × Mod V) => q'.1 = q.1
          ∧ (q'.2 = q.2 ∨ ∃ t, q'.2 = (setParams q.2 t).1)) r (setParamsL r p).1 := by
        intro r
        have refl : ∀ r : List (String × Mod V), List.Forall₂ (fun (q q' : String × Mod V) => q'.1 = q.1
            ∧ (q'.2 = q.2 ∨ ∃ t, q'.2 = (setParams q.2 t).1)) r r := by
          intro r
          rw [List.forall₂_same]
          exact fun q _ => ⟨rfl, .inl rfl⟩
        induction r with
        | nil => simp [setParamsL]
        | cons q r ihr =>
          obtain ⟨n, m⟩ := q
          rw [setParamsL]
          split
          · exact refl _
          · rename_i t _
            split
            · rename_i m' e hm'
              exact .cons ⟨rfl, .inr ⟨t, by rw [hm']⟩⟩ (refl _)
            · rename_i m' hm'
              exact .cons ⟨rfl, .inr ⟨t, by rw [hm']⟩⟩ ihr
      refine ⟨.node _ _ _ hl' (by rw [hk']; exact hk) ?_, ?_⟩
      · intro q hq
        have hlq : (setParamsL s p).1.lookup q.1 = some q.2 := Dict.lookup_of_mem (by rw [hk']; exact hk) hq
        rcases lookup_forall₂ (R := fun _ a b => b = a ∨ ∃ t, b = (setParams a t).1) (hsub s) q.1 with ⟨_, h2⟩ | ⟨a, b, h1, h2, h3⟩
        · rw [hlq] at h2
          simp at h2
        · rw [hlq, Option.some.injEq] at h2
          rw [h2]
          have ha := Dict.mem_of_lookup h1
          rcases h3 with rfl | ⟨t, rfl⟩
          · exact hs _ ha
          · exact (ih _ ha t).1
      · intro ns
        cases ns with
        | nil =>
          refine ⟨?_, fun e he => by simp [getNames] at he⟩
          intro m₁ he
          simp only [getNames, Except.ok.injEq] at he
          subst he
          exact ⟨_, rfl, rfl, hk'⟩
        | cons n ns =>
          rw [getNames, getNames]
          simp only [subs]
          rcases lookup_forall₂ (R := fun _ a b => b = a ∨ ∃ t, b = (setParams a t).1) (hsub s) n with ⟨h1, h2⟩ | ⟨a, b, h1, h2, h3⟩
          · rw [h1, h2]
            exact ⟨fun m₁ he => by simp at he, fun e he => he⟩
          · rw [h1, h2]
            simp only
            rcases h3 with rfl | ⟨t, rfl⟩
            · exact ⟨fun m₁ he => ⟨m₁, he, rfl, rfl⟩, fun e he => he⟩
            · exact (ih _ (Dict.mem_of_lookup h1) t).2 ns
    · rw [setParams_not_dict (fun kvs e => hd ⟨kvs, e⟩)]
      exact ⟨.node _ _ _ hl hk hs, fun ns => ⟨fun m₁ he => ⟨m₁, he, rfl, rfl⟩, fun e he => he⟩⟩

/-- **C42 (structure kept).** `set_recursive_params` never changes which submodels exist nor their classes, whether it
succeeds or raises. -/
theorem C42_structure_kept {m : Mod V} (hm : m.WF) (p : Tree V) :
    (setParams m p).1.WF ∧ ∀ ns, (∀ m₁, getNames m ns = .ok m₁ → ∃ m₂, getNames (setParams m p).1 ns = .ok m₂ ∧ m₂.cls = m₁.cls
      ∧ Dict.keys m₂.subs = Dict.keys m₁.subs)
      ∧ (∀ e, getNames m ns = .error e → getNames (setParams m p).1 ns = .error e) :=
  setParams_keeps_aux hm p

/-- A parameter tree all of whose data are dictionaries: what `ParameterTree`s are. -/
inductive Params : Tree V → Prop
  | node (kvs : List (String × PV V)) (cs : List (String × Tree V)) (h : ∀ q ∈ cs, Params q.2) : Params (.node (.dict kvs) cs)

/-- **C42 (missing child).** If `p` lacks a child for some submodel, `set_recursive_params(p)` raises KeyError. -/
theorem C42_missing_child {m : Mod V} {p : Tree V} (hm : m.WF) (hp : Params p)
    (h : ∃ ns m₁ e, getNames m ns = .ok m₁ ∧ p.getNames ns = .error e) : (setParams m p).2 = some .keyError := by
  have only : ∀ {m : Mod V}, m.WF → ∀ {p : Tree V}, Params p → ∀ e, (setParams m p).2 = some e → e = .keyError := by
    intro m hm
    induction hm with
    | node c p0 s hl hk hs ih =>
      intro p hp e
      obtain ⟨kvs, cs, hcs⟩ := hp
      have ht : (Tree.node (.dict kvs) cs).data = PV.dict kvs := rfl
      rw [setParams_node hl ht]
      simp only
      clear hl hk hs
      induction s with
      | nil => simp [setParamsL]
      | cons q s ihs =>
        obtain ⟨n, m⟩ := q
        rw [setParamsL]
        simp only [Tree.children]
        cases hlk : cs.lookup n with
        | none => intro he; simpa using he.symm
        | some t =>
          simp only
          have hsub := ih (n, m) (by simp) (hcs (n, t) (Dict.mem_of_lookup hlk))
          cases hr : setParams m t with
          | mk m' o =>
            simp only [hr] at hsub
            cases o with
            | some e' =>
              intro he
              simp only [Option.some.injEq] at he
              rw [← he]
              exact hsub e' rfl
            | none => exact ihs (fun q hq => ih q (List.mem_cons_of_mem _ hq))
  cases hr : (setParams m p).2 with
  | some e => rw [only hm hp e hr]
  | none =>
    obtain ⟨ns, m₁, e, h1, h2⟩ := h
    obtain ⟨b, kvs, h3, _⟩ := (C42_accepts_iff hm).mp hr ns m₁ h1
    rw [h2] at h3
    simp at h3

/-- **C42 (finding: not atomic).** When `set_recursive_params` raises because a child is missing, the model keeps a
mixture: the parameters of the model itself and of the children before the missing one are already the new ones. -/
theorem C42_not_atomic (a b c d : V) (car aero tire : ClassDef V) (hc : car.submodels = [("aero", "A"), ("tire", "T")])
    (ha : aero.submodels = []) :
    setParams (node car [("mass", .val a)] [("aero", node aero [("cd", .val b)] []), ("tire", node tire [("mu", .val b)] [])])
        (.node (.dict [("mass", .val c)]) [("aero", .node (.dict [("cd", .val d)]) [])])
      = (node car [("mass", .val c)] [("aero", node aero [("cd", .val d)] []), ("tire", node tire [("mu", .val b)] [])],
          some .keyError) := by
  have h1 : car.isLeaf = false := by simp [ClassDef.isLeaf, ClassDef.submodelNames, Dict.keys, hc]
  have h2 : aero.isLeaf = true := by simp [ClassDef.isLeaf, ClassDef.submodelNames, Dict.keys, ha]
  simp [setParams, setParamsL, Tree.data, Tree.children, h1, h2, Dict.lookup_cons]

end Mod

/-! ## Construction from configurations -/

/-- Registries as `add_to_registry` makes them: every class stands under its own name, and its submodel names are
distinct (they are keys of a dictionary). -/
def Registry.WF (reg : Registry V) : Prop :=
  (Dict.keys reg).Nodup ∧ ∀ n c, reg.lookup n = some c → c.name = n ∧ (Dict.keys c.submodels).Nodup

/-- Specification: a configuration that describes a complete model: the class named at the node is registered and the
configuration has a complete child for every submodel name of that class. -/
inductive Complete (reg : Registry V) : Tree V → Prop
  | node (n : String) (cs : List (String × Tree V)) (c : ClassDef V) (hc : reg.lookup n = some c)
      (hs : ∀ k ∈ Dict.keys c.submodels, (cs.lookup k).isSome)
      (h : ∀ k t, k ∈ Dict.keys c.submodels → cs.lookup k = some t → Complete reg t) : Complete reg (.node (.str n) cs)

/-- Specification: `m` is the model that the configuration describes, with default parameters: its class is the one named
at the node, its submodels are those of the class in order, each described by the child of that name. -/
inductive Describes (reg : Registry V) : Tree V → Mod V → Prop
  | node (n : String) (cs : List (String × Tree V)) (c : ClassDef V) (s : List (String × Mod V))
      (hc : reg.lookup n = some c) (hk : Dict.keys s = Dict.keys c.submodels)
      (hs : ∀ k m, s.lookup k = some m → (cs.lookup k).isSome)
      (h : ∀ k m t, s.lookup k = some m → cs.lookup k = some t → Describes reg t m) :
      Describes reg (.node (.str n) cs) (.node c c.defaults s)

theorem isLeaf_iff (c : ClassDef V) : c.isLeaf = true ↔ c.submodels = [] := by
  simp [ClassDef.isLeaf, ClassDef.submodelNames, Dict.keys]

/-- Setting the default parameters on a model whose submodels have theirs. -/
theorem setDefaults {c : ClassDef V} {p : List (String × PV V)} {s : List (String × Mod V)} (hm : (Mod.node c p s).WF)
    (hs : ∀ q ∈ s, q.2.setParams q.2.defaultParams = (q.2, none)) :
    (Mod.node c p s).setParams (Mod.node c p s).defaultParams = (.node c c.defaults s, none) := by
  obtain ⟨_, _, _, hl, hk, hw⟩ := hm
  have ht : ((Mod.node c p s).defaultParams).data = .dict c.defaults := by rw [Mod.defaultParams]; rfl
  rw [Mod.setParams_node hl ht]
  have loop : ∀ r : List (String × Mod V), (∀ q ∈ r, q ∈ s) → Mod.setParamsL r (Mod.node c p s).defaultParams = (r, none) := by
    intro r
    induction r with
    | nil => intro _; simp [Mod.setParamsL]
    | cons q r ih =>
      intro hr
      obtain ⟨n, m⟩ := q
      have hm := hr (n, m) (by simp)
      rw [Mod.setParamsL, Mod.defaultParams_node hl]
      simp only [Tree.children, Mod.lookup_map]
      rw [show s.lookup n = some m from Dict.lookup_of_mem hk hm]
      simp only [Option.map_some]
      have := hs (n, m) hm
      simp only at this
      rw [this]
      simp only
      rw [← Mod.defaultParams_node (p := p) hl, ih (fun q hq => hr q (List.mem_cons_of_mem _ hq))]
  rw [loop s (fun q hq => hq)]

/-- What construction without explicit parameters yields. -/
theorem construct_spec {reg : Registry V} (hreg : reg.WF) {t : Tree V} (hC : Complete reg t) :
    ∃ n cs c m, t = .node (.str n) cs ∧ reg.lookup n = some c ∧ construct reg c t none = .ok m ∧ Describes reg t m ∧ m.WF
      ∧ m.setParams m.defaultParams = (m, none) ∧ ∃ s, m = .node c c.defaults s
        ∧ (if c.isLeaf then pure [] else buildSubmodels reg c.submodelNames cs : Py (List (String × Mod V))) = .ok s := by
  induction hC with
  | node n cs c hc hs h ih =>
    obtain ⟨hname, hnd⟩ := hreg.2 n c hc
    have build : ∀ ks : List String, (∀ k ∈ ks, k ∈ Dict.keys c.submodels) → ∃ s, buildSubmodels reg ks cs = .ok s
        ∧ Dict.keys s = ks ∧ ∀ q ∈ s, q.2.WF ∧ q.2.setParams q.2.defaultParams = (q.2, none)
          ∧ ∃ t, cs.lookup q.1 = some t ∧ Describes reg t q.2 := by
      intro ks
      induction ks with
      | nil => intro _; exact ⟨[], by simp [buildSubmodels], rfl, by simp⟩
      | cons k ks ihk =>
        intro hks
        have hk := hks k (by simp)
        obtain ⟨t, ht⟩ := Option.isSome_iff_exists.mp (hs k hk)
        obtain ⟨n', cs', c', m, e1, e2, e3, e4, e5, e6, _⟩ := ih k t hk ht
        obtain ⟨s, i1, i2, i3⟩ := ihk (fun k hk => hks k (List.mem_cons_of_mem _ hk))
        refine ⟨(k, m) :: s, ?_, by simpa [Dict.keys] using i2, ?_⟩
        · rw [buildSubmodels]
          subst e1
          split
          · rename_i hn
            rw [ht] at hn
            simp at hn
          · rename_i cfg hcfg
            rw [ht, Option.some.injEq] at hcfg
            subst hcfg
            simp only [Registry.getClass, e2, e3, i1, bind, Except.bind, pure, Except.pure]
        · intro q hq
          rcases List.mem_cons.mp hq with rfl | hq
          · exact ⟨e5, e6, t, ht, e4⟩
          · exact i3 q hq
    have hsubs : ∃ s, (if c.isLeaf then pure [] else buildSubmodels reg c.submodelNames cs : Py (List (String × Mod V))) = .ok s
        ∧ Dict.keys s = Dict.keys c.submodels ∧ ∀ q ∈ s, q.2.WF ∧ q.2.setParams q.2.defaultParams = (q.2, none)
          ∧ ∃ t, cs.lookup q.1 = some t ∧ Describes reg t q.2 := by
      by_cases hl : c.isLeaf = true
      · refine ⟨[], by simp [hl, pure, Except.pure], ?_, by simp⟩
        rw [isLeaf_iff] at hl
        simp [hl, Dict.keys]
      · obtain ⟨s, i1, i2, i3⟩ := build c.submodelNames (fun k hk => hk)
        exact ⟨s, by simp [hl, i1], i2, i3⟩
    obtain ⟨s, i1, i2, i3⟩ := hsubs
    have hl : c.isLeaf = true → s = [] := by
      intro e
      rw [isLeaf_iff] at e
      rw [e] at i2
      simpa [Dict.keys] using i2
    have hwf : ∀ p, (Mod.node c p s).WF := fun p => .node _ _ _ hl (by rw [i2]; exact hnd) (fun q hq => (i3 q hq).1)
    have hset : ∀ p, (Mod.node c p s).setParams (Mod.node c p s).defaultParams = (.node c c.defaults s, none) :=
      fun p => setDefaults (hwf p) (fun q hq => (i3 q hq).2.1)
    refine ⟨n, cs, c, .node c c.defaults s, rfl, hc, ?_, ?_, hwf _, hset _, s, rfl, i1⟩
    · rw [construct]
      simp only [hname, ne_eq, not_true_eq_false, if_false]
      have fin : (do
          let subs ← (.ok s : Py (List (String × Mod V)))
          match (Mod.node c [] subs).setParams (none.getD (Mod.node c [] subs).defaultParams) with
            | (m', none) => Except.ok m'
            | (_, some e) => Except.error e : Py (Mod V)) = .ok (.node c c.defaults s) := by
        simp only [bind, Except.bind, Option.getD_none]
        rw [hset]
      by_cases hlf : c.isLeaf = true
      · rw [if_pos hlf] at i1 ⊢
        rw [i1]
        exact fin
      · rw [if_neg hlf] at i1 ⊢
        rw [i1]
        exact fin
    · refine .node n cs c s hc i2 ?_ ?_
      · intro k m hm
        obtain ⟨t, ht, _⟩ := (i3 (k, m) (Dict.mem_of_lookup hm)).2.2
        simp only at ht
        simp [ht]
      · intro k m t hm ht
        obtain ⟨t', ht', hd⟩ := (i3 (k, m) (Dict.mem_of_lookup hm)).2.2
        simp only at ht' hd
        rw [ht, Option.some.injEq] at ht'
        rw [ht']
        exact hd

/-- **C45 (a complete configuration is built).** For every configuration that describes a complete model,
`make_model_from_config` succeeds; the model is the one described, with the default parameters of the classes. -/
theorem C45_complete {reg : Registry V} (hreg : reg.WF) {t : Tree V} (hC : Complete reg t) :
    ∃ m, makeModel reg t = .ok m ∧ Describes reg t m ∧ m.WF ∧ m.getParams = m.defaultParams := by
  obtain ⟨n, cs, c, m, e1, e2, e3, e4, e5, e6, _⟩ := construct_spec hreg hC
  refine ⟨m, ?_, e4, e5, ?_⟩
  · subst e1
    simp only [makeModel, Tree.data, Registry.getClass, e2, bind, Except.bind]
    exact e3
  · have := (Mod.C42_round_trip e5 (Mod.fits_defaultParams e5)).2
    rw [e6] at this
    exact this

/-- **C45 (with parameters).** Constructing from a complete configuration with parameters of the structure of the model
succeeds and the parameters of the model are the given ones. -/
theorem C45_with_params {reg : Registry V} (hreg : reg.WF) {t : Tree V} (hC : Complete reg t) :
    ∃ n c m, t.data = .str n ∧ reg.getClass n = .ok c ∧ makeModel reg t = .ok m ∧ ∀ p, Mod.Fits m p →
      ∃ m', construct reg c t (some p) = .ok m' ∧ m'.getParams = p := by
  obtain ⟨n, cs, c, m, rfl, e2, e3, e4, e5, e6, s, e7, e8⟩ := construct_spec hreg hC
  refine ⟨n, c, m, rfl, by simp [Registry.getClass, e2], ?_, ?_⟩
  · simp only [makeModel, Tree.data, Registry.getClass, e2, bind, Except.bind]
    exact e3
  · intro p hp
    have hname := (hreg.2 n c e2).1
    subst e7
    obtain ⟨_, _, _, hl, hk, hs⟩ := e5
    have hw : (Mod.node c [] s).WF := .node _ _ _ hl hk hs
    have hf : Mod.Fits (.node c [] s) p := by
      obtain ⟨d, cs⟩ := p
      rw [Mod.Fits] at hp ⊢
      exact hp
    obtain ⟨h1, h2⟩ := Mod.C42_round_trip hw hf
    refine ⟨_, ?_, h2⟩
    have hr : (Mod.node c [] s).setParams p = (((Mod.node c [] s).setParams p).1, none) := Prod.ext rfl h1
    have fin : (do
        let subs ← (.ok s : Py (List (String × Mod V)))
        match (Mod.node c [] subs).setParams ((some p).getD (Mod.node c [] subs).defaultParams) with
          | (m', none) => Except.ok m'
          | (_, some e) => Except.error e : Py (Mod V)) = .ok ((Mod.node c [] s).setParams p).1 := by
      simp only [bind, Except.bind, Option.getD_some]
      rw [hr]
    rw [construct]
    simp only [hname, ne_eq, not_true_eq_false, if_false]
    by_cases hlf : c.isLeaf = true
    · rw [if_pos hlf] at e8 ⊢
      rw [e8]
      exact fin
    · rw [if_neg hlf] at e8 ⊢
      rw [e8]
      exact fin

/-- Configuration trees: all data are strings. -/
inductive Config : Tree V → Prop
  | node (n : String) (cs : List (String × Tree V)) (h : ∀ q ∈ cs, Config q.2) : Config (.node (.str n) cs)

/-- **C45 (an incomplete configuration is rejected).** If the configuration does not describe a complete model (an unknown
class, or a submodel without configuration), `make_model_from_config` raises KeyError. -/
theorem C45_incomplete {reg : Registry V} (hreg : reg.WF) {t : Tree V} (ht : Config t) (hC : ¬ Complete reg t) :
    makeModel reg t = .error .keyError := by
  induction ht with
  | node n cs hcs ih =>
    unfold makeModel
    simp only [Tree.data, Registry.getClass]
    cases hc : reg.lookup n with
    | none => rfl
    | some c =>
      simp only [bind, Except.bind]
      obtain ⟨hname, hnd⟩ := hreg.2 n c hc
      -- some submodel has no configuration or an incomplete one
      have hbad : ∃ k ∈ c.submodelNames, ∀ t, cs.lookup k = some t → ¬ Complete reg t := by
        by_contra hno
        simp only [not_exists, not_and, not_forall, not_not] at hno
        refine hC (.node n cs c hc ?_ ?_)
        · intro k hk
          obtain ⟨t, h1, _⟩ := hno k hk
          simp [h1]
        · intro k t hk hkt
          obtain ⟨t', h1, h2⟩ := hno k hk
          rw [hkt, Option.some.injEq] at h1
          rw [h1]
          exact h2
      have hl : c.isLeaf = false := by
        obtain ⟨k, hk, _⟩ := hbad
        cases hcl : c.isLeaf with
        | false => rfl
        | true =>
          rw [isLeaf_iff] at hcl
          simp [ClassDef.submodelNames, Dict.keys, hcl] at hk
      have build : ∀ ks : List String, (∃ k ∈ ks, ∀ t, cs.lookup k = some t → ¬ Complete reg t) →
          buildSubmodels reg ks cs = .error .keyError := by
        intro ks
        induction ks with
        | nil => rintro ⟨k, hk, _⟩; simp at hk
        | cons k ks ihk =>
          intro hex
          rw [buildSubmodels]
          split
          · rfl
          · rename_i cfg hcfg
            have hconf := hcs (k, cfg) (Dict.mem_of_lookup hcfg)
            simp only at hconf
            by_cases hcomp : Complete reg cfg
            · obtain ⟨n', cs', c', m, e1, e2, e3, _⟩ := construct_spec hreg hcomp
              subst e1
              simp only [Registry.getClass, e2, e3, bind, Except.bind]
              rw [ihk]
              obtain ⟨k', hk', hbk⟩ := hex
              rcases List.mem_cons.mp hk' with rfl | hk'
              · exact absurd hcomp (hbk _ hcfg)
              · exact ⟨k', hk', hbk⟩
            · have := ih (k, cfg) (Dict.mem_of_lookup hcfg) hcomp
              simp only at this
              obtain ⟨n', cs', _⟩ := hconf
              unfold makeModel at this
              simp only [Tree.data, bind, Except.bind] at this
              simp only [bind, Except.bind]
              cases hg : Registry.getClass reg n' with
              | error e =>
                rw [hg] at this
                simpa using this
              | ok c' =>
                rw [hg] at this
                simp only at this
                simp only [this]
      rw [construct]
      simp [hname, hl, build _ hbad, bind, Except.bind]

/-- **C45 (wrong class).** Constructing an object of one class from the configuration of another raises TypeError. -/
theorem C45_wrong_class (reg : Registry V) (c : ClassDef V) (n : String) (cs : List (String × Tree V)) (p : Option (Tree V))
    (h : n ≠ c.name) : construct reg c (.node (.str n) cs) p = .error .typeError := by
  rw [construct]
  simp [h]

/-- Default configurations describe complete models. -/
theorem defaultConfig_complete {reg : Registry V} (hreg : reg.WF) (fuel : Nat) :
    ∀ {n : String} {c : ClassDef V} {t : Tree V}, reg.lookup n = some c → defaultConfig reg fuel c = .ok t →
      Complete reg t ∧ t.data = .str n := by
  induction fuel with
  | zero => intro n c t _ h; simp [defaultConfig] at h
  | succ fuel ih =>
    intro n c t hc h
    obtain ⟨hname, hnd⟩ := hreg.2 n c hc
    have loop : ∀ (l : List (String × String)) (cs : List (String × Tree V)), defaultConfigL reg fuel l = .ok cs →
        Dict.keys cs = Dict.keys l ∧ ∀ q ∈ cs, Complete reg q.2 := by
      intro l
      induction l with
      | nil =>
        intro cs h
        simp only [defaultConfigL, Except.ok.injEq] at h
        subst h
        exact ⟨rfl, by simp⟩
      | cons q l ihl =>
        obtain ⟨k, ty⟩ := q
        intro cs h
        rw [defaultConfigL] at h
        simp only [Registry.getClass] at h
        cases hty : reg.lookup ty with
        | none => simp [hty, bind, Except.bind] at h
        | some c' =>
          simp only [hty, bind, Except.bind] at h
          cases hd : defaultConfig reg fuel c' with
          | error e => simp [hd] at h
          | ok t' =>
            simp only [hd] at h
            cases hr : defaultConfigL reg fuel l with
            | error e => simp [hr] at h
            | ok rest =>
              simp only [hr, pure, Except.pure, Except.ok.injEq] at h
              subst h
              obtain ⟨i1, i2⟩ := ihl rest hr
              refine ⟨by simpa [Dict.keys] using i1, ?_⟩
              intro q hq
              rcases List.mem_cons.mp hq with rfl | hq
              · exact (ih hty hd).1
              · exact i2 q hq
    have hcs : ∃ cs, t = .node (.str c.name) cs ∧ Dict.keys cs = Dict.keys c.submodels ∧ ∀ q ∈ cs, Complete reg q.2 := by
      rw [defaultConfig] at h
      by_cases hl : c.isLeaf = true
      · simp only [hl, if_true, pure, Except.pure, bind, Except.bind, Except.ok.injEq] at h
        refine ⟨[], h.symm, ?_, by simp⟩
        rw [isLeaf_iff] at hl
        simp [hl, Dict.keys]
      · rw [if_neg hl] at h
        simp only [bind, Except.bind] at h
        cases hr : defaultConfigL reg fuel c.submodels with
        | error e => simp [hr] at h
        | ok cs =>
          simp only [hr, pure, Except.pure, Except.ok.injEq] at h
          obtain ⟨i1, i2⟩ := loop _ _ hr
          exact ⟨cs, h.symm, i1, i2⟩
    obtain ⟨cs, rfl, h1, h2⟩ := hcs
    rw [hname]
    refine ⟨.node n cs c hc ?_ ?_, rfl⟩
    · intro k hk
      rw [Dict.lookup_isSome, h1]
      exact hk
    · intro k t _ hkt
      exact h2 (k, t) (Dict.mem_of_lookup hkt)

/-- **C45 (from a name).** Whenever the default configuration of a registered class can be made, `make_model_from_name`
succeeds and yields a model of that class with default parameters. -/
theorem C45_from_name {reg : Registry V} (hreg : reg.WF) {fuel : Nat} {n : String} {c : ClassDef V} {t : Tree V}
    (hc : reg.lookup n = some c) (h : defaultConfig reg fuel c = .ok t) :
    ∃ m, makeModelFromName reg fuel n = .ok m ∧ m.cls = c ∧ Describes reg t m ∧ m.getParams = m.defaultParams := by
  obtain ⟨h1, h2⟩ := defaultConfig_complete hreg fuel hc h
  obtain ⟨m, e1, e2, e3, e4⟩ := C45_complete hreg h1
  refine ⟨m, ?_, ?_, e2, e4⟩
  · simp only [makeModelFromName, Registry.getClass, hc, h, bind, Except.bind]
    exact e1
  · cases e2 with
    | node n' cs c' s hc' =>
      simp only [Tree.data, PV.str.injEq] at h2
      rw [h2, hc, Option.some.injEq] at hc'
      exact hc'.symm

/-! ## The registry -/

/-- The calls on the registry. -/
inductive RegOp (V : Type)
  | add (c : ClassDef V)
  | remove (c : ClassDef V)

/-- One call on the registry: the registry afterwards. -/
def RegOp.run (reg : Registry V) : RegOp V → Registry V × Option PyErr
  | .add c => reg.add c
  | .remove c => reg.remove c

/-- The registry after a sequence of calls (exceptions caught by the caller). -/
def runOps (reg : Registry V) : List (RegOp V) → Registry V
  | [] => reg
  | o :: os => runOps (o.run reg).1 os

theorem lookup_filter_ne (reg : Registry V) (k n : String) :
    (reg.filter (fun p => p.1 ≠ k)).lookup n = if n = k then none else reg.lookup n := by
  induction reg with
  | nil => simp
  | cons p reg ih =>
    obtain ⟨a, c⟩ := p
    by_cases ha : a = k
    · subst ha
      simp only [List.filter_cons, ne_eq, not_true_eq_false, decide_false, Bool.false_eq_true, if_false]
      simp only [ne_eq] at ih
      rw [ih, Dict.lookup_cons]
      by_cases hn : n = a
      · simp [hn]
      · simp [hn]
    · simp only [List.filter_cons, ne_eq, ha, not_false_eq_true, decide_true, if_true]
      simp only [ne_eq] at ih
      rw [Dict.lookup_cons, Dict.lookup_cons, ih]
      by_cases hn : n = a
      · simp [hn, ha]
      · simp [hn]

/-- **C46 (add).** `add_to_registry` of a class with a new name makes exactly that name resolve to that class; of a class
with a name in use it raises ValueError and changes nothing. -/
theorem C46_add (reg : Registry V) (c : ClassDef V) :
    (reg.getClass c.name = .error .keyError → (reg.add c).2 = none ∧ (reg.add c).1.getClass c.name = .ok c
      ∧ ∀ n, n ≠ c.name → (reg.add c).1.getClass n = reg.getClass n)
    ∧ (∀ c', reg.getClass c.name = .ok c' → reg.add c = (reg, some .valueError)) := by
  unfold Registry.getClass Registry.add
  cases hl : reg.lookup c.name with
  | none =>
    have hk : c.name ∉ Dict.keys reg := (Dict.lookup_none reg c.name).mp hl
    rw [if_neg hk]
    refine ⟨fun _ => ⟨rfl, ?_, ?_⟩, fun c' h => by simp at h⟩
    · rw [Dict.lookup_set]; simp
    · intro n hn
      rw [Dict.lookup_set, if_neg hn]
  | some c0 =>
    have hk : c.name ∈ Dict.keys reg := (Dict.lookup_isSome reg c.name).mp (by simp [hl])
    rw [if_pos hk]
    exact ⟨fun h => by simp at h, fun _ _ => rfl⟩

/-- **C46 (remove).** `remove_from_registry` of a name in use makes exactly that name unknown; of an unknown name it
raises KeyError and changes nothing. -/
theorem C46_remove (reg : Registry V) (c : ClassDef V) :
    (∀ c', reg.getClass c.name = .ok c' → (reg.remove c).2 = none ∧ (reg.remove c).1.getClass c.name = .error .keyError
      ∧ ∀ n, n ≠ c.name → (reg.remove c).1.getClass n = reg.getClass n)
    ∧ (reg.getClass c.name = .error .keyError → reg.remove c = (reg, some .keyError)) := by
  unfold Registry.getClass Registry.remove
  cases hl : reg.lookup c.name with
  | none =>
    have hk : c.name ∉ Dict.keys reg := (Dict.lookup_none reg c.name).mp hl
    rw [if_neg hk]
    exact ⟨fun c' h => by simp at h, fun _ => rfl⟩
  | some c0 =>
    have hk : c.name ∈ Dict.keys reg := (Dict.lookup_isSome reg c.name).mp (by simp [hl])
    rw [if_pos hk]
    refine ⟨fun _ _ => ⟨rfl, ?_, ?_⟩, fun h => by simp at h⟩
    · rw [lookup_filter_ne]; simp
    · intro n hn
      rw [lookup_filter_ne, if_neg hn]

/-- **C46 (history).** After every sequence of calls, starting from the empty registry, every class stands under its own
name: what a name resolves to is a class of that name. -/
theorem C46_history (ops : List (RegOp V))
    (hc : ∀ o ∈ ops, ∀ c, o = .add c → (Dict.keys c.submodels).Nodup) :
    Registry.WF (runOps ([] : Registry V) ops) := by
  have : ∀ (ops : List (RegOp V)) (reg : Registry V), reg.WF →
      (∀ o ∈ ops, ∀ c, o = .add c → (Dict.keys c.submodels).Nodup) → Registry.WF (runOps reg ops) := by
    intro ops
    induction ops with
    | nil => intro reg h _; exact h
    | cons o ops ih =>
      intro reg h hc
      refine ih _ ?_ (fun o ho => hc o (List.mem_cons_of_mem _ ho))
      cases o with
      | add c =>
        simp only [RegOp.run, Registry.add]
        split
        · exact h
        · refine ⟨Dict.nodup_set h.1 _ _, ?_⟩
          intro n c' hn
          rw [Dict.lookup_set] at hn
          split at hn
          · rename_i e
            simp only [Option.some.injEq] at hn
            subst hn
            exact ⟨e.symm, hc _ (by simp) _ rfl⟩
          · exact h.2 n c' hn
      | remove c =>
        simp only [RegOp.run, Registry.remove]
        split
        · refine ⟨h.1.sublist (List.Sublist.map _ List.filter_sublist), ?_⟩
          intro n c' hn
          rw [lookup_filter_ne] at hn
          split at hn
          · simp at hn
          · exact h.2 n c' hn
        · exact h
  exact this ops [] ⟨by simp [Dict.keys], by simp⟩ hc

/-- Example classes: a car with an aero model, which has a DRS model. -/
def exReg : Registry Nat :=
  runOps [] [.add ⟨"Car", [("aero", "Aero")], [("mass", .val 700)]⟩, .add ⟨"Aero", [("drs", "Drs")], [("cd", .val 1)]⟩,
    .add ⟨"Drs", [], [("gain", .val 2)]⟩, .add ⟨"Car", [], []⟩]

/-- The hypotheses of C45 hold for the example, and the model built has three levels. -/
theorem exReg_ok : exReg.WF ∧ ∃ c t, exReg.lookup "Car" = some c ∧ defaultConfig exReg 3 c = .ok t
    ∧ t = .node (.str "Car") [("aero", .node (.str "Aero") [("drs", .node (.str "Drs") [])])]
    ∧ ∃ m, makeModelFromName exReg 3 "Car" = .ok m ∧ m.cls = c ∧ Describes exReg t m := by
  have hwf : exReg.WF := by
    refine C46_history _ ?_
    intro o ho c e
    subst e
    simp only [List.mem_cons, RegOp.add.injEq, List.not_mem_nil, or_false] at ho
    rcases ho with rfl | rfl | rfl | rfl <;> simp [Dict.keys]
  have e1 : exReg.lookup "Car" = some ⟨"Car", [("aero", "Aero")], [("mass", .val 700)]⟩ := by rfl
  have e2 : defaultConfig exReg 3 ⟨"Car", [("aero", "Aero")], [("mass", .val 700)]⟩
      = .ok (.node (.str "Car") [("aero", .node (.str "Aero") [("drs", .node (.str "Drs") [])])]) := by
    have e3 : exReg.lookup "Aero" = some ⟨"Aero", [("drs", "Drs")], [("cd", .val 1)]⟩ := by rfl
    have e4 : exReg.lookup "Drs" = some ⟨"Drs", [], [("gain", .val 2)]⟩ := by rfl
    simp [defaultConfig, defaultConfigL, Registry.getClass, e3, e4, ClassDef.isLeaf, ClassDef.submodelNames, Dict.keys,
      bind, Except.bind, pure, Except.pure]
  obtain ⟨m, h1, h2, h3, _⟩ := C45_from_name hwf e1 e2
  exact ⟨hwf, _, _, e1, e2, rfl, m, h1, h2, h3⟩

end Lumos.Trees
