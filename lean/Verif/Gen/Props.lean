import Verif.Gen.Tree
/-!
# C96: generated code and the model it was generated from
-/

namespace Lumos.Trees.Gen

open Lumos Lumos.Trees Lumos.Trees.Tree

/-! ### Specification -/

/-- The tree `w` of casadi matrices has the names of `u`, and shows under every path the array that `f` makes of the one under that path. -/
structure Arrives (f : NArr ℝ → NArr ℝ) (u w : Tree Val) : Prop where
  names : SameShape .dict u w
  values : ∀ path a, getParam u path = .ok (.val (.np a)) → ∃ m, getParam w path = .ok (.val (.cas m)) ∧ Shows (f a) m
  only : ∀ path v, getParam w path = .ok v → ∃ a m, getParam u path = .ok (.val (.np a)) ∧ v = .val (.cas m) ∧ Shows (f a) m

/-- The model computes the same with numbers and numpy arrays as with the casadi matrices that show them (C90 says which of the array functions
do). -/
def Agnostic (run : Tree Val → List ℝ → List ℝ → ℝ → Py (Io.Mdl.ArrayRet ℝ)) : Prop :=
  ∀ u w, Named .dict u → AllNp u → Arrives id u w → run u = run w

/-! ### The unraveled tree -/

/-- A value in casadi. -/
def conv : PV Val → PV Val
  | .val (.np a) => .val (.cas (toCas a))
  | v => v

theorem leaves_conv {u w : Tree Val} (hu : AllNp u)
    (hw : leaves .dict w = ((leaves .dict u).map Prod.fst).zip ((arrays u).map fun a => PV.val (.cas (toCas a)))) :
    leaves .dict w = (leaves .dict u).map fun p => (p.1, conv p.2) := by
  have e : (arrays u).map (fun a => PV.val (Val.cas (toCas a))) = ((leaves .dict u).map Prod.snd).map conv := by
    rw [(arrays_spec hu).1, List.map_map]
    rfl
  rw [hw, e, List.map_map, List.zip_map']
  rfl

theorem arrives_of {u w : Tree Val} (hNu : Named .dict u) (hu : AllNp u) (hNw : Named .dict w) (hs : SameShape .dict u w)
    (hw : leaves .dict w = (leaves .dict u).map fun p => (p.1, conv p.2)) : Arrives refill u w := by
  refine ⟨hs, ?_, ?_⟩
  · intro path a h
    have h1 := (paramAt_leaves hNu _ _ _).mp ((getParam_eq _ _ _ _).mp h)
    obtain ⟨v, hv, hus⟩ := hu _ h1
    cases hv
    refine ⟨toCas a, (getParam_eq _ _ _ _).mpr ((paramAt_leaves hNw _ _ _).mpr ?_), shows_toCas hus⟩
    rw [hw]
    exact List.mem_map.mpr ⟨_, h1, rfl⟩
  · intro path v h
    have h1 := (paramAt_leaves hNw _ _ _).mp ((getParam_eq _ _ _ _).mp h)
    rw [hw] at h1
    obtain ⟨p, hp, e⟩ := List.mem_map.mp h1
    obtain ⟨a, ha, hus⟩ := hu p hp
    obtain ⟨e1, e2⟩ := Prod.mk.inj e
    rw [ha] at e2
    refine ⟨a, toCas a, (getParam_eq _ _ _ _).mpr ((paramAt_leaves hNu _ _ _).mpr ?_), e2.symm, shows_toCas hus⟩
    rw [← e1, ← ha]
    exact hp

/-- **C96 (unravel).** For every parameter tree `t` of numbers, vectors and matrices: `tree_ravel` lists the entries of all values; and the
function it returns, given as a casadi vector the entries of any alike tree, returns the same names with each value refilled: numbers and vectors
arrive, the entries of a matrix, taken row by row, are filled in column by column (`C96_arrives` says when that is the same matrix). -/
theorem C96_unravel {t : Tree Val} (hN : Named .dict t) (ht : AllNp t) :
    ∃ x un, ravel t = .ok (x, un) ∧ x = ((arrays t).map NArr.data).flatten ∧
      ∀ u, Named .dict u → AllNp u → Alike t u → ∃ y un' w, ravel u = .ok (y, un') ∧ un y = .ok w ∧ Arrives refill u w := by
  refine ⟨_, _, ravel_eq hN ht, rfl, fun u hNu hu ha => ?_⟩
  obtain ⟨w, h1, h2, h3, h4⟩ := unravel_ok hN ht hNu hu ha (ravel_eq hN ht)
  exact ⟨_, _, w, ravel_eq hNu hu, h1, arrives_of hNu hu h2 h3 (leaves_conv hu h4)⟩

theorem alike_refl {t : Tree Val} (hN : Named .dict t) : Alike t t :=
  ⟨(relabel_facts (.str "*") hN).2.1.trans (relabel_facts (.str "*") hN).2.2.1, rfl⟩

/-- Which values casadi cannot hold: empty ones, and those with more than one entry and more than two dimensions. -/
def Impossible (a : NArr ℝ) : Prop := a.Valid ∧ (a.data = [] ∨ 1 < a.data.length ∧ 3 ≤ a.shape.length)

theorem casRebuild_error {a : NArr ℝ} (h : Impossible a) : ∃ e, casRebuild a.data (newShape a.shape) = .error e := by
  obtain ⟨s, d⟩ := a
  obtain ⟨_, h⟩ := h
  rcases h with h | ⟨h1, h2⟩
  · simp only at h
    subst h
    exact ⟨_, rfl⟩
  · simp only at h1 h2
    unfold casRebuild
    rw [if_pos h1]
    match s, h2 with
    | a :: b :: c :: s, _ => exact ⟨_, rfl⟩

theorem casRebuildAll_error {l : List (NArr ℝ)} (h : ∀ a ∈ l, Usable a ∨ Impossible a) (hne : ∃ a ∈ l, Impossible a) :
    ∃ e, casRebuildAll ((pieces (l.map NArr.data).flatten (l.map fun a => a.data.length)).zip (l.map fun a => newShape a.shape)) = .error e := by
  induction l with
  | nil => obtain ⟨a, ha, _⟩ := hne; simp at ha
  | cons a l ih =>
    have hcons : pieces ((a :: l).map NArr.data).flatten ((a :: l).map fun a => a.data.length) =
        a.data :: pieces (l.map NArr.data).flatten (l.map fun a => a.data.length) := by
      cases l with
      | nil => simp [pieces]
      | cons b l =>
        simp only [List.map_cons]
        rw [pieces_cons2, List.flatten_cons, List.take_left, List.drop_left]
    rw [hcons, List.map_cons, List.zip_cons_cons, casRebuildAll]
    rcases h a (by simp) with hu | hi
    · rw [casRebuild_ok hu]
      have : ∃ b ∈ l, Impossible b := by
        obtain ⟨b, hb, hbi⟩ := hne
        rcases List.mem_cons.mp hb with rfl | hb
        · exfalso
          obtain ⟨_, hd, hs⟩ := hu
          rcases hbi.2 with h1 | ⟨_, h2⟩
          · exact hd h1
          · omega
        · exact ⟨b, hb, hbi⟩
      obtain ⟨e, he⟩ := ih (fun c hc => h c (List.mem_cons_of_mem _ hc)) this
      exact ⟨e, by simp only [bind, Except.bind]; rw [he]⟩
    · obtain ⟨e, he⟩ := casRebuild_error hi
      exact ⟨e, by rw [he]; rfl⟩

theorem ravel_eq' {t : Tree Val} (hN : Named .dict t) {vs : List (NArr ℝ)} (h : (leaves .dict t).map Prod.snd = vs.map fun v => PV.val (.np v)) :
    ravel t = .ok ((vs.map NArr.data).flatten, fun x => do
      let d ← casUnravel ((keysOf t).zip vs) x
      Tree.fromFlatDict .dict (toDict (relabel .dict (.str "*") t)) ((keysOf t).zip (d.map fun (kv : String × CMat) => PV.val (.cas kv.2)))) := by
  have hl : (keysOf t).length = vs.length := by
    have := congrArg List.length h
    rw [keysOf, List.length_map]
    simpa using this
  unfold ravel
  rw [toFlatDict_eq hN]
  simp only [bind, Except.bind]
  rw [zip_leaves, h, show (leaves .dict t).map (fun a => pathOf a.1) = keysOf t from rfl, npValues_zip]
  simp only [pure, Except.pure]
  rw [List.map_fst_zip (by simp [hl])]
  have e : ((keysOf t).zip vs).map (fun kv => kv.2.data) = vs.map NArr.data := by
    have := List.map_snd_zip (l₁ := keysOf t) (l₂ := vs) (by omega)
    conv_rhs => rw [← this, List.map_map]
    rfl
  rw [e]

/-- **C96 (refused).** A model with an empty parameter or one with more than two dimensions (and more than one entry) cannot be exported or used
with the casadi backend: generating code raises before anything is changed. -/
theorem C96_refused (m : Model) (hN : Named .dict (Mod.getParams m.mod)) (raised : Option PyErr)
    (hv : ∀ a ∈ leaves .dict (Mod.getParams m.mod), ∃ v : NArr ℝ, a.2 = .val (.np v) ∧ (Usable v ∨ Impossible v))
    (hi : ∃ a ∈ leaves .dict (Mod.getParams m.mod), ∃ v : NArr ℝ, a.2 = .val (.np v) ∧ Impossible v) :
    ∃ e, exportC m raised = (m, .error e) := by
  have key : ∀ L : List (List String × PV Val), (∀ a ∈ L, ∃ v : NArr ℝ, a.2 = .val (.np v) ∧ (Usable v ∨ Impossible v)) →
      ∃ vs : List (NArr ℝ), L.map Prod.snd = vs.map (fun v => PV.val (.np v)) ∧ (∀ v ∈ vs, Usable v ∨ Impossible v) ∧
        ∀ a ∈ L, ∀ v, a.2 = .val (.np v) → v ∈ vs := by
    intro L hL
    induction L with
    | nil => exact ⟨[], rfl, by simp, by simp⟩
    | cons a L ih =>
      obtain ⟨vs, h1, h2, h3⟩ := ih fun b hb => hL b (List.mem_cons_of_mem _ hb)
      obtain ⟨v, hv, hu⟩ := hL a (by simp)
      refine ⟨v :: vs, by simp [h1, hv], ?_, ?_⟩
      · intro w hw
        rcases List.mem_cons.mp hw with rfl | hw
        · exact hu
        · exact h2 w hw
      · intro b hb w hw
        rcases List.mem_cons.mp hb with rfl | hb
        · rw [hv] at hw
          cases hw
          exact List.mem_cons_self
        · exact List.mem_cons_of_mem _ (h3 b hb w hw)
  obtain ⟨vs, h1, h2, h3⟩ := key _ hv
  obtain ⟨a, ha, v, hav, hiv⟩ := hi
  have hmem := h3 a ha v hav
  have hl : (keysOf (Mod.getParams m.mod)).length = vs.length := by
    have := congrArg List.length h1
    rw [keysOf, List.length_map]
    simpa using this
  have hcas : ∃ e, casUnravel ((keysOf (Mod.getParams m.mod)).zip vs) (vs.map NArr.data).flatten = .error e := by
    have hsnd : ((keysOf (Mod.getParams m.mod)).zip vs).map Prod.snd = vs := List.map_snd_zip (by omega)
    obtain ⟨e, he⟩ := casRebuildAll_error h2 ⟨v, hmem, hiv⟩
    rw [← hsnd, List.map_map, List.map_map, List.map_map] at he
    have hlen : (vs.map NArr.data).flatten.length = (((keysOf (Mod.getParams m.mod)).zip vs).map fun kv => kv.2.data.length).sum := by
      conv_lhs => rw [← hsnd, List.map_map, List.length_flatten, List.map_map]
      rfl
    have hdat : (vs.map NArr.data).flatten = (((keysOf (Mod.getParams m.mod)).zip vs).map fun kv => kv.2.data).flatten := by
      conv_lhs => rw [← hsnd, List.map_map]
      rfl
    have he' : casRebuildAll ((pieces (vs.map NArr.data).flatten (((keysOf (Mod.getParams m.mod)).zip vs).map fun kv => kv.2.data.length)).zip
        (((keysOf (Mod.getParams m.mod)).zip vs).map fun kv => newShape kv.2.shape)) = .error e := by
      rw [hdat]
      exact he
    generalize hz : (keysOf (Mod.getParams m.mod)).zip vs = z at *
    cases z with
    | nil =>
      rw [← hsnd] at hmem
      simp at hmem
    | cons q z =>
      refine ⟨e, ?_⟩
      unfold casUnravel
      simp only
      rw [List.map_cons (l := z) (f := fun kv : String × NArr ℝ => kv.2.data.length), casSplit_ok _ _ _ (by rw [hlen]; rfl)]
      simp only [bind, Except.bind]
      rw [← List.map_cons (l := z) (f := fun kv : String × NArr ℝ => kv.2.data.length), he']
  obtain ⟨e, he⟩ := hcas
  refine ⟨e, ?_⟩
  unfold exportC generate
  simp only
  rw [ravel_eq' hN h1]
  simp only [he, bind, Except.bind]

/-! ### Exporting -/

theorem run_symbolic (m : Model) (hm : m.mod.WF) {w : Tree Val} (hw : Mod.Fits m.mod w) :
    (Mod.setParams m.mod (symbolic w)).2 = none ∧ Mod.getParams (Mod.setParams m.mod (symbolic w)).1 = symbolic w :=
  Mod.C42_round_trip hm (OcpParams.fits_relabel _ hm hw)

/-- A tree of the same shape fits where the other fits. -/
theorem fits_sameShape {m : Mod Val} (hm : m.WF) : ∀ {t u : Tree Val}, Mod.Fits m t → SameShape .dict t u → Mod.Fits m u := by
  induction hm with
  | node c p s hl hk hs ih =>
    intro t u h hS
    obtain ⟨d, cs⟩ := t
    obtain ⟨d', cs'⟩ := u
    obtain ⟨_, h2⟩ := h
    rw [SameShape] at hS
    obtain ⟨h1, h3⟩ := hS
    obtain ⟨_, kvs', _, rfl, _⟩ := h1 rfl
    refine ⟨⟨_, rfl⟩, ?_⟩
    clear hl hk h1
    induction s generalizing cs cs' with
    | nil =>
      cases cs with
      | nil =>
        cases cs' with
        | nil => exact h2
        | cons => exact h3.elim
      | cons => exact h2.elim
    | cons q s ihs =>
      obtain ⟨n, m⟩ := q
      cases cs with
      | nil => exact h2.elim
      | cons r cs =>
        obtain ⟨k, u⟩ := r
        cases cs' with
        | nil => exact h3.elim
        | cons r' cs' =>
          obtain ⟨k', u'⟩ := r'
          obtain ⟨e1, e2, e3⟩ := h2
          rw [SameShapeL] at h3
          obtain ⟨f1, f2, f3⟩ := h3
          exact ⟨e1.trans f1, ih (n, m) List.mem_cons_self e2 f2,
            ihs (fun q hq => hs q (List.mem_cons_of_mem _ hq)) (fun q hq => ih q (List.mem_cons_of_mem _ hq)) cs cs' e3 f3⟩

/-- What `generate` returns. -/
theorem generate_eq (m : Model) (hm : m.mod.WF) (hN : Named .dict (Mod.getParams m.mod)) (hp : AllNp (Mod.getParams m.mod)) (raised : Option PyErr) :
    ∃ x un m', ravel (Mod.getParams m.mod) = .ok (x, un) ∧ m'.WF ∧ (∀ t, Mod.Fits m.mod t → Mod.Fits m' t) ∧
      SameShape .dict (Mod.getParams m.mod) (Mod.getParams m') ∧ (∀ a ∈ leaves .dict (Mod.getParams m'), a.2 = .val .sym) ∧
      generate m raised = (⟨m', m.run⟩, match raised with
        | some e => .error e
        | none => .ok fun s u z p => (un p).bind fun w => m.run w s u z) := by
  obtain ⟨w, h1, h2, h3, h4⟩ := unravel_ok hN hp hN hp (alike_refl hN) (ravel_eq hN hp)
  have hfw := fits_sameShape hm (Mod.fits_getParams hm) h3
  obtain ⟨r1, r2⟩ := run_symbolic m hm hfw
  obtain ⟨q1, q2, q3, q4⟩ := relabel_facts (.val .sym) h2
  refine ⟨_, _, (Mod.setParams m.mod (symbolic w)).1, ravel_eq hN hp, (Mod.setParams_keeps_aux hm _).1,
    fun t ht => OcpParams.fits_setParams hm _ ht, ?_, ?_, ?_⟩
  · rw [r2]
    exact h3.trans q2
  · rw [r2]
    intro a ha
    unfold symbolic at ha
    rw [q4] at ha
    obtain ⟨b, _, rfl⟩ := List.mem_map.mp ha
    rfl
  · unfold generate
    simp only
    rw [ravel_eq hN hp]
    dsimp only
    rw [h1]
    dsimp only
    rw [show Mod.setParams m.mod (symbolic w) = ((Mod.setParams m.mod (symbolic w)).1, none) from Prod.ext rfl r1]
    cases raised <;> rfl

/-- **C96 (export).** Exporting a model whose parameters are numbers, vectors and matrices, when nothing raises, leaves the model's parameters as they
were, and the generated function, given the vector of any alike parameter tree `u`, computes what the model computes with the refilled `u`. -/
theorem C96_export (m : Model) (hm : m.mod.WF) (hN : Named .dict (Mod.getParams m.mod)) (hp : AllNp (Mod.getParams m.mod)) :
    ∃ m' g, exportC m none = (m', .ok g) ∧ Mod.getParams m'.mod = Mod.getParams m.mod ∧ m'.run = m.run ∧
      ∀ u, Named .dict u → AllNp u → Alike (Mod.getParams m.mod) u → ∃ y un w, ravel u = .ok (y, un) ∧ Arrives refill u w ∧
        ∀ states inputs mesh, g states inputs mesh y = m.run w states inputs mesh := by
  obtain ⟨x, un, m', h1, h2, h3, _, _, h4⟩ := generate_eq m hm hN hp none
  obtain ⟨r1, r2⟩ := Mod.C42_round_trip h2 (h3 _ (Mod.fits_getParams hm))
  refine ⟨⟨(Mod.setParams m' (Mod.getParams m.mod)).1, m.run⟩, fun s u z p => (un p).bind fun w => m.run w s u z, ?_, r2, rfl, ?_⟩
  · unfold exportC
    simp only
    rw [h4]
    simp only
    rw [show Mod.setParams m' (Mod.getParams m.mod) = ((Mod.setParams m' (Mod.getParams m.mod)).1, none) from Prod.ext rfl r1]
  · intro u hNu hu ha
    obtain ⟨w, f1, f2, f3, f4⟩ := unravel_ok hN hp hNu hu ha h1
    refine ⟨_, _, w, ravel_eq hNu hu, arrives_of hNu hu f2 f3 (leaves_conv hu f4), fun s i z => ?_⟩
    simp only [f1, Except.bind]

/-- Refilling that changes nothing. -/
theorem arrives_id {u w : Tree Val} (h : Arrives refill u w) (hf : ∀ path a, getParam u path = .ok (.val (.np a)) → refill a = a) : Arrives id u w := by
  refine ⟨h.names, fun path a ha => ?_, fun path v hv => ?_⟩
  · obtain ⟨m, h1, h2⟩ := h.values path a ha
    rw [hf path a ha] at h2
    exact ⟨m, h1, h2⟩
  · obtain ⟨a, m, h1, h2, h3⟩ := h.only path v hv
    rw [hf path a h1] at h3
    exact ⟨a, m, h1, h2, h3⟩

/-- **C96 (exported code computes the model).** For a model that computes the same with casadi as with numpy, whose parameters are numbers, vectors
and matrices with one row or column: the generated function, given `u.tree_ravel()`, returns what `forward_with_arrays` returns with the
parameters `u`, for all states, inputs, mesh points and alike parameter trees `u`. -/
theorem C96_computes (m : Model) (hm : m.mod.WF) (hN : Named .dict (Mod.getParams m.mod)) (hp : AllNp (Mod.getParams m.mod)) (hr : Agnostic m.run) :
    ∃ m' g, exportC m none = (m', .ok g) ∧ Mod.getParams m'.mod = Mod.getParams m.mod ∧
      ∀ u, Named .dict u → AllNp u → Alike (Mod.getParams m.mod) u →
        (∀ path a, getParam u path = .ok (.val (.np a)) → a.shape.length ≤ 1 ∨ (∃ n, a.shape = [1, n]) ∨ ∃ n, a.shape = [n, 1]) →
        ∃ y un, ravel u = .ok (y, un) ∧ ∀ states inputs mesh, g states inputs mesh y = m.run u states inputs mesh := by
  obtain ⟨m', g, h1, h2, _, h3⟩ := C96_export m hm hN hp
  refine ⟨m', g, h1, h2, fun u hNu hu ha hs => ?_⟩
  obtain ⟨y, un, w, f1, f2, f3⟩ := h3 u hNu hu ha
  refine ⟨y, un, f1, fun s i z => ?_⟩
  rw [f3, hr u w hNu hu (arrives_id f2 fun path a hpa => ?_)]
  have hus : Usable a := by
    obtain ⟨v, hv, hus⟩ := hu _ ((paramAt_leaves hNu _ _ _).mp ((getParam_eq _ _ _ _).mp hpa))
    cases hv
    exact hus
  exact (C96_arrives hus).2.1 (hs path a hpa)

/-- **C96 (raised).** If anything raises after the parameters were replaced (the evaluation with symbols, the code generator, a missing compiler,
loading the library), the exception is passed on and the model is left with symbols for all its parameters: if it has any, it cannot be evaluated
any more. (The same holds for constructing a problem with the casadi backend.) -/
theorem C96_raised (m : Model) (hm : m.mod.WF) (hN : Named .dict (Mod.getParams m.mod)) (hp : AllNp (Mod.getParams m.mod)) (e : PyErr) :
    ∃ m', exportC m (some e) = (m', .error e) ∧ SameShape .dict (Mod.getParams m.mod) (Mod.getParams m'.mod) ∧
      (∀ a ∈ leaves .dict (Mod.getParams m'.mod), a.2 = .val .sym) ∧
      (leaves .dict (Mod.getParams m.mod) ≠ [] → ∀ states inputs mesh, forwardNow m' states inputs mesh = .error .typeError) := by
  obtain ⟨x, un, m', h1, h2, h3, h4, h5, h6⟩ := generate_eq m hm hN hp (some e)
  refine ⟨⟨m', m.run⟩, ?_, h4, h5, fun hne s i z => ?_⟩
  · unfold exportC
    simp only
    rw [h6]
  · have hk := keys_sameShape hN h4
    unfold forwardNow
    simp only
    rw [if_neg]
    intro hall
    cases hL : leaves .dict (Mod.getParams m') with
    | nil =>
      rw [hL] at hk
      exact hne (List.map_eq_nil_iff.mp hk)
    | cons a L =>
      have ha := h5 a (by rw [hL]; simp)
      rw [List.all_eq_true] at hall
      have := hall a (by rw [hL]; simp)
      rw [ha] at this
      simp at this

/-! ### Findings -/

/-- A model without submodels. -/
def leafModel (name : String) (params : List (String × PV Val)) (run : Tree Val → List ℝ → List ℝ → ℝ → Py (Io.Mdl.ArrayRet ℝ)) : Model :=
  ⟨.node { name := name, submodels := [], defaults := params } params [], run⟩

theorem leafModel_wf (name : String) (params : List (String × PV Val)) (run : Tree Val → List ℝ → List ℝ → ℝ → Py (Io.Mdl.ArrayRet ℝ)) :
    (leafModel name params run).mod.WF := .node _ _ _ (fun _ => rfl) List.nodup_nil (by simp)

/-- A number as a parameter. -/
def num (x : ℝ) : PV Val := .val (.np ⟨[], [x]⟩)

theorem usable_num (x : ℝ) : Usable ⟨[], [x]⟩ := ⟨rfl, by simp, by simp⟩

end Lumos.Trees.Gen
