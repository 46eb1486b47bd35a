import Verif.Gen.Unravel
/-!
# C96: the parameter tree a generated function computes with
-/

namespace Lumos.Trees.Gen

open Lumos Lumos.Trees Lumos.Trees.Tree

/-- All parameters are numbers, vectors or matrices with at least one entry. -/
def AllNp (t : Tree Val) : Prop := ∀ a ∈ leaves .dict t, ∃ v : NArr ℝ, a.2 = .val (.np v) ∧ Usable v

/-- The arrays of a tree, in the order of its flat dictionary. -/
def arrays (t : Tree Val) : List (NArr ℝ) :=
  (leaves .dict t).filterMap fun (a : List String × PV Val) => match a.2 with
    | .val (.np v) => some v
    | _ => none

/-- The same names with values of the same shapes, in the same order: what `set_param` with a value of the same shape keeps. -/
structure Alike (t u : Tree Val) : Prop where
  names : SameShape .dict t u
  shapes : (arrays t).map NArr.shape = (arrays u).map NArr.shape

theorem arrays_spec {t : Tree Val} (h : AllNp t) :
    (leaves .dict t).map Prod.snd = (arrays t).map (fun v => PV.val (.np v)) ∧ ∀ v ∈ arrays t, Usable v := by
  unfold AllNp at h
  unfold arrays
  revert h
  generalize leaves .dict t = L
  intro h
  induction L with
  | nil => simp
  | cons a l ih =>
    obtain ⟨v, hv, hg⟩ := h a (by simp)
    obtain ⟨i1, i2⟩ := ih (fun b hb => h b (List.mem_cons_of_mem _ hb))
    simp only [List.map_cons, List.filterMap_cons, hv]
    refine ⟨by rw [i1], ?_⟩
    intro w hw
    rcases List.mem_cons.mp hw with rfl | hw
    · exact hg
    · exact i2 w hw

theorem length_arrays {t : Tree Val} (h : AllNp t) : (arrays t).length = (leaves .dict t).length := by
  have := congrArg List.length (arrays_spec h).1
  simpa using this.symm

theorem npValues_zip (ks : List String) (vs : List (NArr ℝ)) :
    npValues (ks.zip (vs.map fun v => PV.val (Val.np v))) = .ok (ks.zip vs) := by
  induction ks generalizing vs with
  | nil => rfl
  | cons k ks ih =>
    cases vs with
    | nil => rfl
    | cons v vs =>
      simp only [List.map_cons, List.zip_cons_cons, npValues, ih]
      rfl

theorem zip_leaves {α : Type} (L : List (List String × α)) :
    L.map (fun a => (pathOf a.1, a.2)) = (L.map fun a => pathOf a.1).zip (L.map Prod.snd) := by
  induction L with
  | nil => rfl
  | cons a L ih => simp [ih]

/-- The names of the flat dictionary. -/
def keysOf (t : Tree Val) : List String := (leaves .dict t).map fun a => pathOf a.1

/-- What `tree_ravel` returns. -/
theorem ravel_eq {t : Tree Val} (hN : Named .dict t) (h : AllNp t) :
    ravel t = .ok (((arrays t).map NArr.data).flatten, fun x => do
      let d ← casUnravel ((keysOf t).zip (arrays t)) x
      Tree.fromFlatDict .dict (toDict (relabel .dict (.str "*") t)) ((keysOf t).zip (d.map fun (kv : String × CMat) => PV.val (.cas kv.2)))) := by
  have hl : (keysOf t).length = (arrays t).length := by rw [keysOf, List.length_map, length_arrays h]
  unfold ravel
  rw [toFlatDict_eq hN]
  simp only [bind, Except.bind]
  rw [zip_leaves, (arrays_spec h).1, show (leaves .dict t).map (fun a => pathOf a.1) = keysOf t from rfl, npValues_zip]
  simp only [pure, Except.pure]
  rw [List.map_fst_zip (by simp [hl])]
  have e : ((keysOf t).zip (arrays t)).map (fun kv => kv.2.data) = (arrays t).map NArr.data := by
    have := List.map_snd_zip (l₁ := keysOf t) (l₂ := arrays t) (by omega)
    conv_rhs => rw [← this, List.map_map]
    rfl
  rw [e]

/-- Trees of the same shape have the same names. -/
theorem keys_sameShape {t : Tree Val} (hN : Named .dict t) : ∀ {u : Tree Val}, SameShape .dict t u →
    (leaves .dict t).map Prod.fst = (leaves .dict u).map Prod.fst := by
  induction hN with
  | node d cs hk hn hd hc ih =>
    intro u hS
    obtain ⟨d', cs'⟩ := u
    rw [SameShape] at hS
    obtain ⟨h1, h2⟩ := hS
    obtain ⟨kvs, kvs', rfl, rfl, hkeys⟩ := h1 rfl
    rw [leaves, leaves, List.map_append, List.map_append]
    congr 1
    · rw [ownLeaves_dict, ownLeaves_dict, List.map_map, List.map_map]
      have := congrArg (List.map fun k : String => [k]) hkeys
      simpa [Dict.keys, List.map_map, Function.comp_def] using this
    · clear hk hn hd h1
      induction cs generalizing cs' with
      | nil =>
        cases cs' with
        | nil => rfl
        | cons => exact h2.elim
      | cons p cs ihc =>
        cases cs' with
        | nil => exact h2.elim
        | cons p' cs' =>
          obtain ⟨n, c⟩ := p
          obtain ⟨n', c'⟩ := p'
          rw [SameShapeL] at h2
          obtain ⟨rfl, e2, e3⟩ := h2
          rw [leavesL, leavesL, List.map_append, List.map_append]
          congr 1
          · have := congrArg (List.map fun ns : List String => n :: ns) (ih (n, c) List.mem_cons_self e2)
            rw [List.map_map, List.map_map] at this ⊢
            exact this
          · exact ihc (fun p hp => hc p (List.mem_cons_of_mem _ hp)) (fun p hp => ih p (List.mem_cons_of_mem _ hp)) cs' e3

/-- Unraveling the vector of an alike tree. -/
theorem unravel_ok {t u : Tree Val} (hN : Named .dict t) (ht : AllNp t) (hNu : Named .dict u) (hu : AllNp u) (ha : Alike t u)
    {x : List ℝ} {un : List ℝ → Py (Tree Val)} (hx : ravel t = .ok (x, un)) :
    ∃ w, un ((arrays u).map NArr.data).flatten = .ok w ∧ Named .dict w ∧ SameShape .dict u w ∧
      leaves .dict w = ((leaves .dict u).map Prod.fst).zip ((arrays u).map fun a => PV.val (.cas (toCas a))) := by
  have hkeys := keys_sameShape hN ha.names
  have hk : keysOf t = keysOf u := by
    have := congrArg (List.map pathOf) hkeys
    rwa [List.map_map, List.map_map] at this
  have hlt : (keysOf t).length = (arrays t).length := by rw [keysOf, List.length_map, length_arrays ht]
  have hlu : (keysOf u).length = (arrays u).length := by rw [keysOf, List.length_map, length_arrays hu]
  obtain ⟨w, w1, w2, w3⟩ := exists_fill hNu ((arrays u).map fun a => PV.val (Val.cas (toCas a))) (by rw [List.length_map, length_arrays hu])
  refine ⟨w, ?_, w1, w2, w3⟩
  rw [ravel_eq hN ht] at hx
  cases hx
  have e1 : ((keysOf u).zip (arrays u)).map (fun kv => kv.2.data) = (arrays u).map NArr.data := by
    have := List.map_snd_zip (l₁ := keysOf u) (l₂ := arrays u) (by omega)
    conv_rhs => rw [← this, List.map_map]
    rfl
  have hun := casUnravel_ok (flat := (keysOf t).zip (arrays t)) (flat' := (keysOf u).zip (arrays u))
    (by rw [List.map_fst_zip (by omega), List.map_fst_zip (by omega), hk])
    (by
      have f1 : ((keysOf t).zip (arrays t)).map (fun kv => kv.2.shape) = (arrays t).map NArr.shape := by
        have := List.map_snd_zip (l₁ := keysOf t) (l₂ := arrays t) (by omega)
        conv_rhs => rw [← this, List.map_map]
        rfl
      have f2 : ((keysOf u).zip (arrays u)).map (fun kv => kv.2.shape) = (arrays u).map NArr.shape := by
        have := List.map_snd_zip (l₁ := keysOf u) (l₂ := arrays u) (by omega)
        conv_rhs => rw [← this, List.map_map]
        rfl
      rw [f1, f2, ha.shapes])
    (fun kv hkv => (arrays_spec hu).2 kv.2 (List.of_mem_zip (a := kv.1) (b := kv.2) hkv).2)
    (fun kv hkv => (arrays_spec ht).2 kv.2 (List.of_mem_zip (a := kv.1) (b := kv.2) hkv).2)
  rw [e1] at hun
  simp only [hun, bind, Except.bind]
  have e2 : (((keysOf u).zip (arrays u)).map fun kv => (kv.1, toCas kv.2)).map (fun (kv : String × CMat) => PV.val (Val.cas kv.2)) =
      (arrays u).map fun a => PV.val (.cas (toCas a)) := by
    rw [List.map_map]
    have := List.map_snd_zip (l₁ := keysOf u) (l₂ := arrays u) (by omega)
    conv_rhs => rw [← this, List.map_map]
    rfl
  rw [e2]
  unfold Tree.fromFlatDict
  rw [C39_dict_round_trip (relabel_facts (.str "*") hN).1.wf]
  simp only [bind, Except.bind]
  have e3 : (keysOf t).zip ((arrays u).map fun a => PV.val (Val.cas (toCas a))) = (leaves .dict w).map fun a => (pathOf a.1, a.2) := by
    rw [w3, map_zip_left, hk]
    congr 1
    rw [List.map_map]
    rfl
  rw [e3, setLeaves_eq (leaves_addr w1), setAll_leaves w1 _ (((relabel_facts (.str "*") hN).2.2.1.trans ha.names).trans w2)]

/-! ### In the words of `get_param` -/

/-- The parameters by address are the leaves. -/
theorem paramAt_leaves {t : Tree Val} (hN : Named .dict t) : ∀ (ms : List String) (k : String) (v : PV Val),
    paramAt t ms k = some v ↔ (ms ++ [k], v) ∈ leaves .dict t := by
  induction hN with
  | node d cs hk hn hd hc ih =>
    intro ms k v
    obtain ⟨kvs, rfl, hnd, _⟩ := hd rfl
    rw [leaves, ownLeaves_dict, List.mem_append]
    cases ms with
    | nil =>
      have h2 : ¬ (([] : List String) ++ [k], v) ∈ leavesL .dict cs := by
        intro hm
        obtain ⟨p, hp, b, hb, e⟩ := mem_leavesL hm
        have e1 : [k] = p.1 :: b.1 := congrArg Prod.fst e
        have hb1 : b.1 = [] := (List.cons.inj e1).2.symm
        obtain ⟨ms, k', e', _⟩ := (leaves_addr (hc p hp) b hb).1 rfl
        rw [hb1] at e'
        simp at e'
      rw [or_iff_left h2]
      simp only [paramAt, getNames, data, List.nil_append, List.mem_map, Prod.mk.injEq, List.cons.injEq, and_true]
      constructor
      · intro h
        exact ⟨(k, v), Dict.mem_of_lookup h, rfl, rfl⟩
      · rintro ⟨kv, hkv, rfl, rfl⟩
        exact Dict.lookup_of_mem hnd hkv
    | cons n ms =>
      have h1 : ¬ (n :: ms ++ [k], v) ∈ kvs.map fun (kv : String × PV Val) => ([kv.1], kv.2) := by
        intro hm
        obtain ⟨kv, _, e⟩ := List.mem_map.mp hm
        have := congrArg (fun q => q.1.length) e
        simp at this
      rw [or_iff_right h1]
      constructor
      · intro h
        simp only [paramAt, getNames, children] at h
        cases hl : cs.lookup n with
        | none => simp [hl] at h
        | some c =>
          simp only [hl] at h
          have hm := Dict.mem_of_lookup hl
          have := (ih (n, c) hm ms k v).mp h
          clear h hl h1 hk hn hd ih hc
          induction cs with
          | nil => simp at hm
          | cons p cs ihc =>
            obtain ⟨n', c'⟩ := p
            rw [leavesL, List.mem_append]
            rcases List.mem_cons.mp hm with e | hm
            · left
              cases e
              exact List.mem_map.mpr ⟨_, this, rfl⟩
            · exact .inr (ihc hm)
      · intro hm
        obtain ⟨p, hp, b, hb, e⟩ := mem_leavesL hm
        obtain ⟨n', c⟩ := p
        have e1 : n :: (ms ++ [k]) = n' :: b.1 := congrArg Prod.fst e
        have e2 : v = b.2 := congrArg Prod.snd e
        obtain ⟨rfl, e3⟩ := List.cons.inj e1
        simp only [paramAt, getNames, children, Dict.lookup_of_mem hk hp]
        exact (ih (n, c) hp ms k v).mpr (by rw [e3, e2]; exact hb)

end Lumos.Trees.Gen
