import Verif.Gen.Props
/-!
# C96: parameters in another order; an example
-/

namespace Lumos.Trees.Gen

open Lumos Lumos.Trees Lumos.Trees.Tree

/-- A parameter that is one number, with numpy or casadi. -/
def asNumber : PV Val → Option ℝ
  | .val (.np a) => if a.shape.prod = 1 then a.data[0]? else none
  | .val (.cas m) => if m.rows * m.cols = 1 then m.data[0]? else none
  | _ => none

/-- `self._params[key]` of a scalar parameter. Simplification: TypeError stands for all exceptions. -/
def numberAt (t : Tree Val) (path : String) : Py ℝ :=
  match getParam t path with
  | .ok v => match asNumber v with
    | some x => .ok x
    | none => .error .typeError
  | .error _ => .error .typeError

theorem numberAt_num {t : Tree Val} {path : String} {x : ℝ} (h : getParam t path = .ok (num x)) : numberAt t path = .ok x := by
  unfold numberAt
  rw [h]
  rfl

theorem asNumber_shows {a : NArr ℝ} {m : CMat} (h : Shows a m) : asNumber (.val (.cas m)) = asNumber (.val (.np a)) := by
  obtain ⟨s, d⟩ := a
  obtain ⟨_, h⟩ := h
  unfold asNumber
  match s, h with
  | [], ⟨h1, h2, h3⟩ =>
    simp only [h1, h2, List.prod_nil, mul_one, if_true]
    exact h3
  | [n], ⟨h1, h2, h3⟩ =>
    simp only [h1, h2, List.prod_cons, List.prod_nil, mul_one]
    split
    · next e => exact h3 0 (by omega)
    · rfl
  | [r, c], ⟨h1, h2, h3⟩ =>
    simp only [h1, h2, List.prod_cons, List.prod_nil, mul_one]
    split
    · next e =>
      obtain ⟨rfl, rfl⟩ := mul_eq_one.mp e
      simpa using h3 0 (by omega) 0 (by omega)
    · rfl

theorem numberAt_agnostic {u w : Tree Val} (hu : AllNp u) (hN : Named .dict u) (h : Arrives id u w) (path : String) : numberAt w path = numberAt u path := by
  unfold numberAt
  cases hw : getParam w path with
  | ok v =>
    obtain ⟨a, m, h1, rfl, h3⟩ := h.only path v hw
    rw [h1]
    simp only [asNumber_shows h3, id]
  | error e =>
    cases hu' : getParam u path with
    | error e => rfl
    | ok v =>
      obtain ⟨a, ha, _⟩ := hu _ ((paramAt_leaves hN _ _ _).mp ((getParam_eq _ _ _ _).mp hu'))
      simp only at ha
      subst ha
      obtain ⟨m, hm, _⟩ := h.values path a hu'
      rw [hw] at hm
      cases hm

/-! ### The way round -/

theorem refill_prefill {a : NArr ℝ} (h : Usable a) : refill (prefill a) = a := by
  obtain ⟨h1, h2, h3⟩ := C96_way_round h
  exact shows_inj (refill_usable h1).1 h (shows_toCas h1) h3 ((refill_usable h1).2.trans h2)

/-- **C96 (the way round).** For a model that computes the same with casadi as with numpy there is, for every alike parameter tree `u` (matrices of any
size), a vector for which the generated function computes what the model computes with `u`: that of the tree with the entries of every matrix moved. -/
theorem C96_prefilled (m : Model) (hm : m.mod.WF) (hN : Named .dict (Mod.getParams m.mod)) (hp : AllNp (Mod.getParams m.mod)) (hr : Agnostic m.run) :
    ∃ m' g, exportC m none = (m', .ok g) ∧ ∀ u, Named .dict u → AllNp u → Alike (Mod.getParams m.mod) u →
      ∃ u' y un, ravel u' = .ok (y, un) ∧ SameShape .dict u u' ∧
        (∀ path a, getParam u path = .ok (.val (.np a)) → getParam u' path = .ok (.val (.np (prefill a)))) ∧
        ∀ states inputs mesh, g states inputs mesh y = m.run u states inputs mesh := by
  obtain ⟨m', g, h1, _, _, h2⟩ := C96_export m hm hN hp
  refine ⟨m', g, h1, fun u hNu hu ha => ?_⟩
  obtain ⟨u', q1, q2, q3⟩ := exists_fill hNu ((arrays u).map fun a => PV.val (.np (prefill a))) (by rw [List.length_map, length_arrays hu])
  have hleaf : leaves .dict u' = (leaves .dict u).map fun p => (p.1, match p.2 with
      | .val (.np a) => PV.val (Val.np (prefill a))
      | v => v) := by
    have e : (arrays u).map (fun a => PV.val (Val.np (prefill a))) = ((leaves .dict u).map Prod.snd).map fun v => match v with
      | .val (.np a) => PV.val (Val.np (prefill a))
      | v => v := by
      rw [(arrays_spec hu).1, List.map_map]
      rfl
    rw [q3, e, List.map_map, List.zip_map']
    rfl
  have hu' : AllNp u' := by
    intro p hp
    rw [hleaf] at hp
    obtain ⟨b, hb, rfl⟩ := List.mem_map.mp hp
    obtain ⟨v, hv, hus⟩ := hu b hb
    simp only [hv]
    exact ⟨_, rfl, (C96_way_round hus).1⟩
  have hval : ∀ path a, getParam u path = .ok (.val (.np a)) → getParam u' path = .ok (.val (.np (prefill a))) := by
    intro path a h
    have h1 := (paramAt_leaves hNu _ _ _).mp ((getParam_eq _ _ _ _).mp h)
    refine (getParam_eq _ _ _ _).mpr ((paramAt_leaves q1 _ _ _).mpr ?_)
    rw [hleaf]
    exact List.mem_map.mpr ⟨_, h1, rfl⟩
  have harr : arrays u' = (arrays u).map prefill := by
    have e1 := (arrays_spec hu').1
    rw [hleaf, List.map_map] at e1
    have e2 := (arrays_spec hu).1
    have e3 : (leaves .dict u).map (Prod.snd ∘ fun p => (p.1, match p.2 with
      | .val (.np a) => PV.val (Val.np (prefill a))
      | v => v)) = ((arrays u).map prefill).map fun v => PV.val (Val.np v) := by
      have := congrArg (List.map fun v : PV Val => match v with
        | .val (.np a) => PV.val (Val.np (prefill a))
        | v => v) e2
      rw [List.map_map, List.map_map] at this
      rw [List.map_map]
      exact this
    rw [e3] at e1
    exact (List.map_injective_iff.mpr (fun x y h => by cases h; rfl) e1).symm
  have ha' : Alike (Mod.getParams m.mod) u' := by
    refine ⟨ha.names.trans q2, ?_⟩
    rw [ha.shapes, harr, List.map_map]
    apply List.map_congr_left
    intro a hmem
    exact ((C96_way_round ((arrays_spec hu).2 a hmem)).2.1).symm
  obtain ⟨y, un, w, f1, f2, f3⟩ := h2 u' q1 hu' ha'
  refine ⟨u', y, un, f1, q2, hval, fun s i z => ?_⟩
  have usable : ∀ {path a}, getParam u path = .ok (.val (.np a)) → Usable a := by
    intro path a h
    obtain ⟨v, hv, hus⟩ := hu _ ((paramAt_leaves hNu _ _ _).mp ((getParam_eq _ _ _ _).mp h))
    cases hv
    exact hus
  rw [f3, hr u w hNu hu ⟨q2.trans f2.names, fun path a h => ?_, fun path v h => ?_⟩]
  · obtain ⟨c, hc1, hc2⟩ := f2.values path _ (hval path a h)
    rw [refill_prefill (usable h)] at hc2
    exact ⟨c, hc1, hc2⟩
  · obtain ⟨b, c, hb, rfl, hc⟩ := f2.only path v h
    have h1 := (paramAt_leaves q1 _ _ _).mp ((getParam_eq _ _ _ _).mp hb)
    rw [hleaf] at h1
    obtain ⟨p, hp, e⟩ := List.mem_map.mp h1
    obtain ⟨a, hpa, hus⟩ := hu p hp
    obtain ⟨e1, e2⟩ := Prod.mk.inj e
    rw [hpa] at e2
    simp only [PV.val.injEq, Val.np.injEq] at e2
    subst e2
    refine ⟨a, c, (getParam_eq _ _ _ _).mpr ((paramAt_leaves hNu _ _ _).mpr ?_), rfl, ?_⟩
    · rw [← e1, ← hpa]
      exact hp
    · rw [refill_prefill hus] at hc
      exact hc

/-! ### An example -/

/-- A model whose output is its parameter "mass". -/
def massRun (t : Tree Val) (_ _ : List ℝ) (_ : ℝ) : Py (Io.Mdl.ArrayRet ℝ) := (numberAt t "mass").bind fun x => .ok { outputs := [x] }

theorem massRun_agnostic : Agnostic massRun := by
  intro u w hN hu h
  funext s i z
  unfold massRun
  rw [numberAt_agnostic hu hN h]

/-- A model with a number, a vector and a matrix as parameters. -/
def exampleParams (a : ℝ) : List (String × PV Val) :=
  [("mass", num a), ("ratios", .val (.np ⟨[3], [1, 2, 3]⟩)), ("map", .val (.np ⟨[2, 2], [1, 2, 3, 4]⟩))]

theorem named_leaf {ps : List (String × PV Val)} (h1 : (Dict.keys ps).Nodup) (h2 : ∀ kv ∈ ps, '.' ∉ kv.1.toList) :
    Named .dict (Tree.node (.dict ps) []) := .node _ _ List.nodup_nil (by simp) (fun _ => ⟨ps, rfl, h1, h2⟩) (by simp)

theorem getParam_leaf {ps : List (String × PV Val)} {k : String} {v : PV Val} (hk : resolve (pathParent k '.') '.' = [] ∧ pathKey k '.' = k) :
    getParam (Tree.node (.dict ps) []) k = .ok v ↔ ps.lookup k = some v := by
  rw [getParam_eq, hk.1, hk.2]
  rfl

theorem paths_leaf {ps ps' : List (String × PV Val)} (h : ∀ k, ps.lookup k = ps'.lookup k) (path : String) (v : PV Val) :
    getParam (Tree.node (.dict ps) []) path = .ok v ↔ getParam (Tree.node (.dict ps') []) path = .ok v := by
  rw [getParam_eq, getParam_eq]
  unfold paramAt
  cases resolve (pathParent path '.') '.' with
  | nil =>
    change ps.lookup (pathKey path '.') = some v ↔ ps'.lookup (pathKey path '.') = some v
    rw [h]
  | cons n ns =>
    have : ∀ q : List (String × PV Val), ∃ e, getNames (Tree.node (.dict q) []) (n :: ns) = .error e := by
      intro q
      exact ⟨_, rfl⟩
    obtain ⟨e, he⟩ := this ps
    obtain ⟨e', he'⟩ := this ps'
    rw [he, he']

theorem example_ok (a : ℝ) : (leafModel "M" (exampleParams a) massRun).mod.WF ∧ Named .dict (Mod.getParams (leafModel "M" (exampleParams a) massRun).mod) ∧
    AllNp (Mod.getParams (leafModel "M" (exampleParams a) massRun).mod) ∧ Agnostic massRun := by
  refine ⟨leafModel_wf _ _ _, named_leaf (ps := exampleParams a) (show ["mass", "ratios", "map"].Nodup by decide) ?_, ?_, massRun_agnostic⟩
  · intro kv hkv
    simp only [exampleParams, List.mem_cons, List.not_mem_nil, or_false] at hkv
    rcases hkv with rfl | rfl | rfl <;> (simp only; decide +kernel)
  · intro p hp
    change p ∈ [(["mass"], num a), (["ratios"], _), (["map"], _)] at hp
    simp only [List.mem_cons, List.not_mem_nil, or_false] at hp
    rcases hp with rfl | rfl | rfl
    · exact ⟨_, rfl, usable_num a⟩
    · exact ⟨_, rfl, rfl, by simp, by simp⟩
    · exact ⟨_, rfl, rfl, by simp, by simp⟩

/-- **C96 (order).** The generated function takes the parameters by position: a tree that holds the same values under the same names, but in
another order, gives the same model for every path, yet the generated function computes with the values exchanged. -/
theorem C96_order (a b : ℝ) : ∃ (m : Model) (u : Tree Val), m.mod.WF ∧ Named .dict (Mod.getParams m.mod) ∧ AllNp (Mod.getParams m.mod) ∧ Agnostic m.run ∧
    (∀ path v, getParam u path = .ok v ↔ getParam (Mod.getParams m.mod) path = .ok v) ∧
    (∀ s i z, m.run u s i z = .ok { outputs := [a] }) ∧
    ∃ m' g y un, exportC m none = (m', .ok g) ∧ ravel u = .ok (y, un) ∧ ∀ s i z, g s i z y = .ok { outputs := [b] } := by
  have hN : ∀ x y : ℝ, Named .dict (Tree.node (.dict [("mass", num x), ("length", num y)]) []) := by
    intro x y
    refine named_leaf (show ["mass", "length"].Nodup by decide) ?_
    intro kv hkv
    simp only [List.mem_cons, List.not_mem_nil, or_false] at hkv
    rcases hkv with rfl | rfl <;> (simp only; decide +kernel)
  have hN' : Named .dict (Tree.node (.dict [("length", num b), ("mass", num a)]) []) := by
    refine named_leaf (show ["length", "mass"].Nodup by decide) ?_
    intro kv hkv
    simp only [List.mem_cons, List.not_mem_nil, or_false] at hkv
    rcases hkv with rfl | rfl <;> (simp only; decide +kernel)
  have hU : ∀ (k l : String) (x y : ℝ), AllNp (Tree.node (.dict [(k, num x), (l, num y)]) []) := by
    intro k l x y p hp
    change p ∈ [([k], num x), ([l], num y)] at hp
    simp only [List.mem_cons, List.not_mem_nil, or_false] at hp
    rcases hp with rfl | rfl
    · exact ⟨_, rfl, usable_num x⟩
    · exact ⟨_, rfl, usable_num y⟩
  have hk : resolve (pathParent "mass" '.') '.' = [] ∧ pathKey "mass" '.' = "mass" := by decide +kernel
  have hp : ∀ path v, getParam (Tree.node (.dict [("length", num b), ("mass", num a)]) []) path = .ok v ↔
      getParam (Tree.node (.dict [("mass", num a), ("length", num b)]) []) path = .ok v := by
    refine fun path v => paths_leaf (fun k => ?_) path v
    by_cases h1 : k = "mass"
    · subst h1
      rfl
    · by_cases h2 : k = "length"
      · subst h2
        rfl
      · have e1 : (k == "mass") = false := by simpa using h1
        have e2 : (k == "length") = false := by simpa using h2
        simp only [List.lookup, e1, e2]
  refine ⟨leafModel "M" [("mass", num a), ("length", num b)] massRun, .node (.dict [("length", num b), ("mass", num a)]) [],
    leafModel_wf _ _ _, hN a b, hU _ _ a b, massRun_agnostic, hp, fun s i z => ?_, ?_⟩
  · unfold leafModel massRun
    simp only
    rw [numberAt_num ((getParam_leaf hk).mpr rfl)]
    rfl
  · obtain ⟨m', g, h1, _, h3⟩ := C96_computes (leafModel "M" [("mass", num a), ("length", num b)] massRun) (leafModel_wf _ _ _) (hN a b) (hU _ _ a b)
      massRun_agnostic
    obtain ⟨y, un, h4, h5⟩ := h3 (.node (.dict [("mass", num b), ("length", num a)]) []) (hN b a) (hU _ _ b a)
      ⟨by
        change SameShape .dict (Tree.node (.dict [("mass", num a), ("length", num b)]) []) _
        rw [SameShape]
        exact ⟨fun _ => ⟨_, _, rfl, rfl, rfl⟩, trivial⟩, rfl⟩ (by
        intro path v hv
        obtain ⟨w, hw, hus⟩ := hU _ _ b a _ ((paramAt_leaves (hN b a) _ _ _).mp ((getParam_eq _ _ _ _).mp hv))
        left
        have := (paramAt_leaves (hN b a) _ _ _).mp ((getParam_eq _ _ _ _).mp hv)
        change _ ∈ [(["mass"], num b), (["length"], num a)] at this
        simp only [List.mem_cons, List.not_mem_nil, or_false, Prod.mk.injEq] at this
        rcases this with ⟨_, e⟩ | ⟨_, e⟩
        · cases e
          simp
        · cases e
          simp)
    rw [ravel_eq (hN b a) (hU _ _ b a)] at h4
    have hy : y = [b, a] := by
      have := (Prod.mk.inj (Except.ok.inj h4)).1
      rw [← this]
      rfl
    have hr : ∃ un', ravel (Tree.node (.dict [("length", num b), ("mass", num a)]) []) = .ok (y, un') := by
      rw [ravel_eq hN' (hU _ _ b a), hy]
      exact ⟨_, rfl⟩
    obtain ⟨un', hr⟩ := hr
    refine ⟨m', g, y, un', h1, hr, fun s i z => ?_⟩
    rw [h5]
    unfold leafModel massRun
    simp only
    rw [numberAt_num ((getParam_leaf hk).mpr rfl)]
    rfl

end Lumos.Trees.Gen
