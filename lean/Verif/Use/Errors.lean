import Verif.Use.More
/-!
# C97: which calls raise, and three ways in which `solve` does
-/

namespace Lumos.Use

open Lumos DecVar DecVar.Layout NLP Bounds Ocp OCP

variable {P : Type} {J : Kind P} {V : Option ℝ → P → Prop} {D : P → List ℝ → ℝ → Prop} {p : P} {u : Use P} {cs : List (Call P)}

/-- **C97 (exceptions).** After any history: `set_scales`, `set_cons` and a query of the structure do not raise; a scaled mesh has no
`set_mesh_scale`; the parameters of a condensed problem cannot be changed; a name in use cannot be added, an unused one not deleted;
constraints of another number of variables are refused; the Hessian can be evaluated if the structure was queried after the last
change; and `solve` raises ValueError if the limits are not those of the present rows, else only what the solver's status asks for. -/
theorem C97_errors (hJ : J.Good V D) (hv : V J.S.builtScale p) (hu : construct J p = .ok u) (hcs : GoodCalls J V (Book.init J p) cs) :
    (∀ cfgs, GoodCall J V (book J p cs) (.setScales cfgs) → ((u.run cs).step (.setScales cfgs)).2 = none)
    ∧ ((u.run cs).step .setCons).2 = none ∧ ((u.run cs).step .hessianstructure).2 = none
    ∧ (∀ ms, ((u.run cs).step (.setMeshScale ms)).2 = if J.S.builtScale = none then some .attributeError else none)
    ∧ (∀ r, ((u.run cs).step (.setParams r)).2 = if J.S.isCondensed then some .attributeError else none)
    ∧ (∀ name o, GoodCall J V (book J p cs) (.addObjective name o) →
        ((u.run cs).step (.addObjective name o)).2 = if name ∈ (book J p cs).objNames then some .nameError else none)
    ∧ (∀ name, ((u.run cs).step (.deleteObjective name)).2 = if name ∈ (book J p cs).objNames then none else some .keyError)
    ∧ (∀ name c, GoodCall J V (book J p cs) (.addConstraints name c) →
        ((u.run cs).step (.addConstraints name c)).2 =
          if name ∈ (book J p cs).conNames J ∨ c.numIn ≠ J.S.c.o.L.numDec then some .valueError else none)
    ∧ (∀ name, GoodCall J V (book J p cs) (.deleteConstraints name) →
        ((u.run cs).step (.deleteConstraints name)).2 = if name ∈ (book J p cs).conNames J then none else some .keyError)
    ∧ (∀ x lam sigma, x.length = J.S.c.o.L.numDec → lam.length = (book J p cs).rows J → (book J p cs).changed = false →
        ((u.run cs).step (.hessian x lam sigma)).2 = none)
    ∧ (∀ a, GoodCall J V (book J p cs) (.solve a) → ((u.run cs).step (.solve a)).2 = errOf ((u.run cs).solve a) ∧
        ((book J p cs).limits ≠ (book J p cs).rows J → (u.run cs).solve a = .error .valueError)) := by
  obtain ⟨_, _, _, h⟩ := used hJ hv hu hcs
  have hf := h.now
  have hk := h.kind
  have hvb := h.sane.valid
  refine ⟨?_, rfl, ?_, ?_, ?_, ?_, ?_, ?_, ?_, ?_, ?_⟩
  · intro cfgs hc
    obtain ⟨q', e, _⟩ := Fits.setScales hJ h.sane hvb hf hc (u.run cs).params ⟨_, h.params ▸ hvb⟩
    show (Ocp.setScales (u.run cs).J.S.c.o.L ((u.run cs).J.model (u.run cs).params).nr (u.run cs).J.S.isCondensed (u.run cs).now cfgs).2
      = none
    rw [hk, e]
  · show errOf (u.run cs).now.hessianstructure.2 = none
    obtain ⟨_, _, _, _, _, _, _, _, _, e, _⟩ := C14_hessian hf.reach (Or.inl (cons_ne hf)) (List.replicate J.S.c.o.L.numDec 0)
      (List.replicate (u.run cs).now.numCon 0) 0 (by simp) (by simp)
    rw [e]
    rfl
  · intro ms
    show (if (u.run cs).J.S.builtScale = none then ((u.run cs), some PyErr.attributeError)
      else ({ u.run cs with scale := some ms }, none)).2 = _
    rw [hk]
    split <;> rfl
  · intro r
    show (if (u.run cs).J.S.isCondensed then ((u.run cs), some PyErr.attributeError)
      else ({ u.run cs with params := r }, none)).2 = _
    rw [hk]
    split <;> rfl
  · rintro name o ⟨_, s, ho⟩
    exact (hf.addObj name ho).2
  · intro name
    exact (hf.delObj name).2
  · rintro name c ⟨_, s, hc⟩
    exact (hf.addCon name hc).2
  · intro name hn
    exact (hf.delCon hn.1 hn.2).2
  · intro x lam sigma hx hl hc
    rw [← rows_fits hJ h.sane hvb hf] at hl
    obtain ⟨v, e⟩ := hessian_ok hf.reach (cons_ne hf) (hf.mask hc) hx hl sigma
    show errOf ((u.run cs).now.hessian x lam sigma).2 = none
    rw [e]
    rfl
  · intro a ha
    refine ⟨rfl, fun hl => ?_⟩
    obtain ⟨w, _, _, e⟩ := hf.solve hJ h.sane hvb (u.run cs).bounds.lb (u.run cs).bounds.ub ha
    rw [if_neg hl] at e
    unfold Use.solve
    rw [hk, h.cl, h.cu, e]

theorem GoodCalls.append {b : Book P} {cs : List (Call P)} {c : Call P} (h : GoodCalls J V b cs)
    (hc : GoodCall J V (b.noteAll J cs) c) : GoodCalls J V b (cs ++ [c]) := by
  induction cs generalizing b with
  | nil => exact ⟨hc, trivial⟩
  | cons d ds ih => exact ⟨h.1, ih h.2 hc⟩

theorem book_append (cs : List (Call P)) (c : Call P) : book J p (cs ++ [c]) = (book J p cs).note J c := by
  unfold book Book.noteAll
  rw [List.foldl_append]
  rfl

theorem run_append (u : Use P) (cs : List (Call P)) (c : Call P) : u.run (cs ++ [c]) = ((u.run cs).step c).1 := by
  unfold Use.run
  rw [List.foldl_append]
  rfl

/-- **C97 (finding).** Constraints added to a problem whose limits fit leave the limits behind: until `set_cons` is called, `solve`
raises ValueError whatever the solver. After `set_cons` the limits fit again. -/
theorem C97_stale_limits (hJ : J.Good V D) (hv : V J.S.builtScale p) (hu : construct J p = .ok u) (hcs : GoodCalls J V (Book.init J p) cs)
    (hfit : (book J p cs).limits = (book J p cs).rows J) {name : String} {c : Cons}
    (hc : GoodCall J V (book J p cs) (.addConstraints name c)) (hn : name ∉ (book J p cs).conNames J)
    (hin : c.numIn = J.S.c.o.L.numDec) (hpos : 0 < c.numCon) (a : SolveArgs)
    (ha : GoodCall J V (book J p (cs ++ [.addConstraints name c])) (.solve a)) :
    ((u.run cs).step (.addConstraints name c)).2 = none
    ∧ (u.run (cs ++ [.addConstraints name c])).solve a = .error .valueError
    ∧ (book J p (cs ++ [.addConstraints name c, .setCons])).limits = (book J p (cs ++ [.addConstraints name c, .setCons])).rows J := by
  have hno : ¬ (name ∈ (book J p cs).conNames J ∨ c.numIn ≠ J.S.c.o.L.numDec) := by
    rintro (h | h)
    · exact hn h
    · exact h hin
  refine ⟨?_, ?_, ?_⟩
  · obtain ⟨_, _, _, _, _, _, _, h, _⟩ := C97_errors hJ hv hu hcs
    rw [h name c hc, if_neg hno]
  · obtain ⟨_, _, _, _, _, _, _, _, _, _, h⟩ := C97_errors hJ hv hu (hcs.append hc)
    refine (h a ha).2 ?_
    rw [book_append, Book.note, if_neg hno]
    unfold Book.rows at hfit ⊢
    dsimp only
    rw [hfit, List.map_append, List.sum_append, List.map_singleton, List.sum_singleton]
    dsimp only
    intro e
    omega
  · rw [show cs ++ [Call.addConstraints name c, .setCons] = (cs ++ [.addConstraints name c]) ++ [.setCons] by simp, book_append]
    rfl

/-- **C97 (finding).** Under jax a problem without objectives cannot be solved: the warm-up raises ValueError. (Under other backends the
constant objective is used, `C97_solve`.) -/
theorem C97_no_objective (hJ : J.Good V D) (hv : V J.S.builtScale p) (hu : construct J p = .ok u) (hcs : GoodCalls J V (Book.init J p) cs)
    (hjax : J.jax = true) (hno : (book J p cs).objNames = []) (a : SolveArgs) : (u.run cs).solve a = .error .valueError := by
  obtain ⟨_, _, _, h⟩ := used hJ hv hu hcs
  have e : (u.run cs).now.objective a.warm = .error .valueError :=
    (C15_no_objective _ ((objs_ne h.now).mpr hno) _).1
  unfold Use.solve solveProb
  rw [h.kind, hjax]
  have hw : warmUp J.exact a.warm (u.run cs).now = ((u.run cs).now, some .valueError) := by
    unfold warmUp
    rw [e]
  simp [hw]

variable {n : Nat} {A : List ℝ → Prop}

theorem vals_length {q : Prob} (hp : Reachable n q A) (hne : q.cons ≠ []) {x lam : List ℝ} (hx : x.length = n)
    (hl : lam.length = q.numCon) (sigma : ℝ) :
    (((q.cons.map fun c => c.2.hessian x (lookupD (q.splitConstraints lam) c.1)) ++
      (q.objs.map fun o => (o.2.hessian x).map (· * sigma))).isEmpty = false) ∧
      ((q.cons.map fun c => c.2.hessian x (lookupD (q.splitConstraints lam) c.1)) ++
      (q.objs.map fun o => (o.2.hessian x).map (· * sigma))).flatten.length = nnz q := by
  obtain ⟨_, _, _, _, vals, _, _, _, _, h5, h6, _⟩ := C14_hessian hp (Or.inl hne) x lam sigma hx hl
  obtain ⟨_, _, _, _, _, m, hm1, hm2⟩ := structure_facts hp hne
  have h6 := congrArg Prod.snd h6
  dsimp only at h6
  have hpieces : q.hessPieces.isEmpty = false := by
    unfold Prob.hessPieces
    cases h : q.cons with
    | nil => exact absurd h hne
    | cons a l => simp
  have hec : q.hessianstructure.1.cons = q.cons := by unfold Prob.hessianstructure; simp [hpieces]
  have heo : q.hessianstructure.1.objs = q.objs := by unfold Prob.hessianstructure; simp [hpieces]
  have hes : ∀ l : List ℝ, q.hessianstructure.1.splitConstraints l = q.splitConstraints l := by
    intro l
    unfold Prob.splitConstraints
    rw [hec]
  unfold Prob.hessian at h6
  simp only [hm1, hec, heo, hes] at h6
  by_cases hv : ((q.cons.map fun c => c.2.hessian x (lookupD (q.splitConstraints lam) c.1)) ++
    (q.objs.map fun o => (o.2.hessian x).map (· * sigma))).isEmpty = true
  · rw [if_pos hv] at h6
    cases h6
  · rw [if_neg hv] at h6
    refine ⟨by simpa using hv, ?_⟩
    by_contra hc
    rw [if_pos (by rw [hm2]; exact fun e => hc e.symm)] at h6
    cases h6

/-- A mask of another length raises. -/
theorem hessian_stale {q : Prob} (hp : Reachable n q A) (hne : q.cons ≠ []) {m : List Bool} (hm : q.idxTriu = some m)
    (hbad : m.length ≠ nnz q) {x lam : List ℝ} (hx : x.length = n) (hl : lam.length = q.numCon) (sigma : ℝ) :
    (q.hessian x lam sigma).2 = .error .indexError := by
  obtain ⟨h1, h2⟩ := vals_length hp hne hx hl sigma
  unfold Prob.hessian
  simp only [hm]
  rw [if_neg (by simp [h1]), if_pos (by rw [h2]; exact hbad)]

/-- **C97 (finding).** Under jax with exact Hessians: a problem was solved, an objective with a non-empty Hessian structure is added
(accepted without exception), and the next `solve` raises IndexError, because the warm-up evaluates the Hessian with the mask of
the old structure. (Without jax the same history is fine, `C97_solve`.) -/
theorem C97_second_solve (hJ : J.Good V D) (hv : V J.S.builtScale p) (hu : construct J p = .ok u) (hcs : GoodCalls J V (Book.init J p) cs)
    (hjax : J.jax = true) (hexact : J.exact = true) (hfit : (book J p cs).limits = (book J p cs).rows J) {a : SolveArgs}
    (ha : GoodCall J V (book J p cs) (.solve a)) {name : String} {o : Obj}
    (ho : GoodCall J V (book J p cs) (.addObjective name o)) (hn : name ∉ (book J p cs).objNames) (hh : o.hessStruct.1 ≠ [])
    (a' : SolveArgs) (ha' : a'.warm.length = J.S.c.o.L.numDec) :
    ((u.run (cs ++ [.solve a])).step (.addObjective name o)).2 = none
    ∧ (u.run (cs ++ [.solve a] ++ [.addObjective name o])).solve a' = .error .indexError := by
  have hobj : (book J p cs).objNames ≠ [] := (ha hjax).1
  have hnames : (book J p (cs ++ [.solve a])).objNames = (book J p cs).objNames := by
    rw [book_append, Book.note, if_neg hobj]
    rfl
  have ho' : GoodCall J V (book J p (cs ++ [.solve a])) (.addObjective name o) := ho
  have hcs' := hcs.append ha
  obtain ⟨_, _, _, _, _, e1, _⟩ := C97_errors hJ hv hu hcs'
  have e1 := e1 name o ho'
  rw [hnames, if_neg hn] at e1
  refine ⟨e1, ?_⟩
  obtain ⟨_, _, _, h0⟩ := used hJ hv hu hcs
  obtain ⟨_, _, _, h1⟩ := used hJ hv hu hcs'
  obtain ⟨_, _, _, h2⟩ := used hJ hv hu (hcs'.append ho')
  obtain ⟨w, w1, _, w3⟩ := h0.now.solve hJ h0.sane h0.sane.valid (u.run cs).bounds.lb (u.run cs).bounds.ub ha
  rw [if_pos hfit] at w3
  have hnow1 : (u.run (cs ++ [.solve a])).now = (solvedProb w).hessianstructure.1 := by
    rw [run_append]
    show (solveProb (u.run cs).J.jax (u.run cs).J.exact (u.run cs).bounds.lb (u.run cs).bounds.ub (u.run cs).cl (u.run cs).cu a
      (u.run cs).now).1 = _
    rw [h0.kind, h0.cl, h0.cu, w3]
  obtain ⟨_, _, _, _, _, m, hm1, hm2⟩ := structure_facts w1.solved.reach (cons_ne w1.solved)
  have hnow2 : (u.run (cs ++ [.solve a] ++ [.addObjective name o])).now = ((u.run (cs ++ [.solve a])).now.addObjective name o).1 := by
    rw [run_append]
    rfl
  have hadd : ∃ o', o'.hessStruct = o.hessStruct ∧ ((u.run (cs ++ [.solve a])).now.addObjective name o).1 =
      { (u.run (cs ++ [.solve a])).now with objs := (u.run (cs ++ [.solve a])).now.objs ++ [(name, o')] } := by
    have e1' : ((u.run (cs ++ [.solve a])).now.addObjective name o).2 = none := e1
    unfold Prob.addObjective at e1' ⊢
    split
    · rename_i hk
      rw [if_pos hk] at e1'
      cases e1'
    · rename_i hk
      rw [if_neg hk] at e1'
      have hst := hessStruct_setInput o (u.run (cs ++ [.solve a])).now.scales
      rcases hsc : o.setInputScales (u.run (cs ++ [.solve a])).now.scales with ⟨o', _ | e⟩
      · rw [hsc] at hst
        exact ⟨o', hst, by rw [hsc]⟩
      · rw [hsc] at e1'
        cases e1'
  obtain ⟨o', o1, o2⟩ := hadd
  have hmask : (u.run (cs ++ [.solve a] ++ [.addObjective name o])).now.idxTriu = some m := by
    rw [hnow2, o2, hnow1]
    exact hm1
  have hnnz : nnz (u.run (cs ++ [.solve a] ++ [.addObjective name o])).now = m.length + o.hessStruct.1.length := by
    have hsame := same_structure (solvedProb w)
    obtain ⟨m', e⟩ := hsame
    rw [hnow2, o2, hnow1, hm2, e]
    simp only [nnz, Prob.hessPieces, List.map_append, List.flatten_append, List.length_append, List.map_cons, List.map_nil,
      List.flatten_cons, List.flatten_nil, List.append_nil, o1]
    omega
  have hf := h2.now
  have hlen : 0 < o.hessStruct.1.length := List.length_pos_of_ne_nil hh
  have hone : (u.run (cs ++ [.solve a] ++ [.addObjective name o])).now.objs ≠ [] := by
    rw [hnow2, o2]
    simp
  have hH := hessian_stale hf.reach (cons_ne hf) hmask (by rw [hnnz]; omega) (lam := List.replicate
    (u.run (cs ++ [.solve a] ++ [.addObjective name o])).now.numCon 1) ha' (by simp) 1
  have hk := h2.kind
  unfold Use.solve solveProb
  rw [hk, hjax, hexact, if_pos rfl]
  generalize (u.run (cs ++ [.solve a] ++ [.addObjective name o])).now = q at *
  have hw : (warmUp true a'.warm q).2 = some .indexError := by
    have hco := cons_ne hf
    unfold warmUp Prob.objective Prob.gradient Prob.constraints Prob.jacobian
    rw [if_neg (by simpa using hone), if_neg (by simpa using hone), if_neg (by simpa using hco), if_neg (by simpa using hco)]
    dsimp only
    rw [if_pos rfl]
    dsimp only
    rw [hH]
    rfl
  dsimp only
  rw [hw]

end Lumos.Use
