import Verif.Io.Model
/-!
# C49: the names of the inputs and outputs of a composite model
-/

namespace Lumos.Io

open Lumos

namespace Mdl

variable {V : Type}

/-! ## Specification -/

/-- `d` is the submodel of `m` at the path `p`. -/
inductive AtPath : Mdl V → List String → Mdl V → Prop
  | here (m : Mdl V) : AtPath m [] m
  | sub {c : Cls V} {s : List (String × Mdl V)} {n : String} {m d : Mdl V} {p : List String} :
      (n, m) ∈ s → AtPath m p d → AtPath (node c s) (n :: p) d

/-- The name under which the variable `o` of the submodel at path `p` is known: `a.b.o`. -/
def dotted : List String → String → String
  | [], o => o
  | n :: p, o => n ++ "." ++ dotted p o

/-- The names contain no dot, and no name is used twice in the same place. -/
inductive WellNamed : Mdl V → Prop
  | node {c : Cls V} {s : List (String × Mdl V)} : (Dict.keys s).Nodup → (∀ n ∈ Dict.keys s, '.' ∉ n.toList) →
      c.direct.outputs.Nodup → (∀ n ∈ c.direct.outputs, '.' ∉ n.toList) →
      c.direct.residuals.Nodup → (∀ n ∈ c.direct.residuals, '.' ∉ n.toList) →
      (∀ p ∈ s, WellNamed p.2) → WellNamed (node c s)

/-! ## Proofs -/

theorem namesL_eq (s : List (String × Mdl V)) : namesL s = s.map fun p => (p.1, names p.2) := by
  induction s with
  | nil => rfl
  | cons p s ih => obtain ⟨n, m⟩ := p; simp [namesL, ih]

/-- Induction over a model and its submodels. -/
theorem ind {P : Mdl V → Prop} (h : ∀ c s, (∀ p ∈ s, P p.2) → P (node c s)) : ∀ m, P m
  | node c s => h c s (fun p hp => indL s p hp)
where
  indL : ∀ (s : List (String × Mdl V)), ∀ p ∈ s, P p.2
    | [], _, hp => absurd hp (List.not_mem_nil)
    | (_, m) :: ms, p, hp => by
      rcases List.mem_cons.1 hp with rfl | hp
      · exact ind h m
      · exact indL ms p hp

theorem names_node (c : Cls V) (s : List (String × Mdl V)) :
    names (node c s) = { c.direct with
      outputs := c.direct.outputs ++ s.flatMap fun p => addPrefix p.1 (names p.2).outputs
      residuals := c.direct.residuals ++ s.flatMap fun p => addPrefix p.1 (names p.2).residuals } := by
  simp [names, namesL_eq, List.flatMap_map]

theorem mem_addPrefix {p n : String} {ns : List String} : n ∈ addPrefix p ns ↔ ∃ o ∈ ns, n = p ++ "." ++ o := by
  simp [addPrefix, eq_comm]

/-- C49: a model's outputs are exactly its own and those of all its submodels, at any depth, each under the path to the
submodel; the same holds for the residuals, and the inputs, states and constrained outputs are the model's own. -/
theorem C49_names (m : Mdl V) :
    (∀ n, n ∈ m.names.outputs ↔ ∃ p d o, AtPath m p d ∧ o ∈ d.cls.direct.outputs ∧ n = dotted p o) ∧
    (∀ n, n ∈ m.names.residuals ↔ ∃ p d o, AtPath m p d ∧ o ∈ d.cls.direct.residuals ∧ n = dotted p o) ∧
    m.names.inputs = m.cls.direct.inputs ∧ m.names.states = m.cls.direct.states ∧
    m.names.conOutputs = m.cls.direct.conOutputs ∧ m.names.stateSpace = m.cls.direct.stateSpace := by
  refine ⟨?_, ?_, ?_⟩
  · induction m using ind with
    | h c s ih =>
      intro n
      rw [names_node]
      simp only [List.mem_append, List.mem_flatMap]
      constructor
      · rintro (h | ⟨q, hq, h⟩)
        · exact ⟨[], _, n, .here _, h, rfl⟩
        · obtain ⟨o, ho, rfl⟩ := mem_addPrefix.1 h
          obtain ⟨p, d, o', hd, ho', rfl⟩ := (ih q hq o).1 ho
          exact ⟨q.1 :: p, d, o', .sub hq hd, ho', rfl⟩
      · rintro ⟨p, d, o, hd, ho, rfl⟩
        cases hd with
        | here => exact .inl ho
        | sub hs hd => exact .inr ⟨_, hs, mem_addPrefix.2 ⟨_, (ih _ hs _).2 ⟨_, _, _, hd, ho, rfl⟩, rfl⟩⟩
  · induction m using ind with
    | h c s ih =>
      intro n
      rw [names_node]
      simp only [List.mem_append, List.mem_flatMap]
      constructor
      · rintro (h | ⟨q, hq, h⟩)
        · exact ⟨[], _, n, .here _, h, rfl⟩
        · obtain ⟨o, ho, rfl⟩ := mem_addPrefix.1 h
          obtain ⟨p, d, o', hd, ho', rfl⟩ := (ih q hq o).1 ho
          exact ⟨q.1 :: p, d, o', .sub hq hd, ho', rfl⟩
      · rintro ⟨p, d, o, hd, ho, rfl⟩
        cases hd with
        | here => exact .inl ho
        | sub hs hd => exact .inr ⟨_, hs, mem_addPrefix.2 ⟨_, (ih _ hs _).2 ⟨_, _, _, hd, ho, rfl⟩, rfl⟩⟩
  · cases m with
    | node c s => rw [names_node]; exact ⟨rfl, rfl, rfl, rfl⟩

theorem prefix_inj {a b x y : String} (ha : '.' ∉ a.toList) (hb : '.' ∉ b.toList) (h : a ++ "." ++ x = b ++ "." ++ y) :
    a = b ∧ x = y := by
  have h' : a.toList ++ '.' :: x.toList = b.toList ++ '.' :: y.toList := by
    have := congrArg String.toList h
    simpa [String.toList_append] using this
  have key : ∀ (l r l' r' : List Char), '.' ∉ l → '.' ∉ l' → l ++ '.' :: r = l' ++ '.' :: r' → l = l' ∧ r = r' := by
    intro l
    induction l with
    | nil =>
      intro r l' r' _ h2 e
      cases l' with
      | nil => exact ⟨rfl, by simpa using e⟩
      | cons c l' => simp only [List.nil_append, List.cons_append, List.cons.injEq] at e; simp [← e.1] at h2
    | cons c l ih =>
      intro r l' r' h1 h2 e
      cases l' with
      | nil => simp only [List.nil_append, List.cons_append, List.cons.injEq] at e; simp [e.1] at h1
      | cons c' l' =>
        simp only [List.cons_append, List.cons.injEq] at e
        obtain ⟨rfl, e⟩ := e
        obtain ⟨rfl, rfl⟩ := ih r l' r' (fun hh => h1 (List.mem_cons_of_mem _ hh)) (fun hh => h2 (List.mem_cons_of_mem _ hh)) e
        exact ⟨rfl, rfl⟩
  obtain ⟨e1, e2⟩ := key _ _ _ _ ha hb h'
  exact ⟨String.toList_inj.1 e1, String.toList_inj.1 e2⟩

theorem dot_mem (a x : String) : '.' ∈ (a ++ "." ++ x).toList := by simp [String.toList_append]

theorem nodup_flat {s : List (String × Mdl V)} (hk : (Dict.keys s).Nodup) (hd : ∀ n ∈ Dict.keys s, '.' ∉ n.toList)
    (f : Mdl V → List String) (hf : ∀ p ∈ s, (f p.2).Nodup) : (s.flatMap fun p => addPrefix p.1 (f p.2)).Nodup := by
  induction s with
  | nil => simp
  | cons q s ih =>
    simp only [List.flatMap_cons]
    rw [List.nodup_append]
    simp only [Dict.keys, List.map_cons, List.nodup_cons] at hk
    refine ⟨?_, ih hk.2 (fun n hn => hd n (by simp only [Dict.keys, List.map_cons, List.mem_cons]; exact .inr hn))
      (fun p hp => hf p (List.mem_cons_of_mem _ hp)), ?_⟩
    · refine (hf q List.mem_cons_self).map ?_
      intro x y e
      exact (prefix_inj (hd q.1 (by simp [Dict.keys])) (hd q.1 (by simp [Dict.keys])) e).2
    · intro x hx y hy e
      subst e
      obtain ⟨o, _, rfl⟩ := mem_addPrefix.1 hx
      obtain ⟨q', hq', hy⟩ := List.mem_flatMap.1 hy
      obtain ⟨o', _, e⟩ := mem_addPrefix.1 hy
      have hmem : q'.1 ∈ List.map Prod.fst s := List.mem_map_of_mem hq'
      have := (prefix_inj (hd q.1 (by simp [Dict.keys]))
        (hd q'.1 (by simp only [Dict.keys, List.map_cons, List.mem_cons]; exact .inr hmem)) e).1
      exact hk.1 (this ▸ hmem)

/-- C49: in a model whose names contain no dots and are not repeated in one place, no two outputs and no two residuals have
the same full name. -/
theorem C49_distinct {m : Mdl V} (h : m.WellNamed) : m.names.outputs.Nodup ∧ m.names.residuals.Nodup := by
  induction h with
  | node hk hd ho hod hr hrd _ ih =>
    rw [names_node]
    constructor
    · refine List.nodup_append.2 ⟨ho, nodup_flat hk hd (fun m => m.names.outputs) (fun p hp => (ih p hp).1), ?_⟩
      intro x hx y hy e
      subst e
      obtain ⟨q, hq, hy⟩ := List.mem_flatMap.1 hy
      obtain ⟨o, _, rfl⟩ := mem_addPrefix.1 hy
      exact hod _ hx (dot_mem _ _)
    · refine List.nodup_append.2 ⟨hr, nodup_flat hk hd (fun m => m.names.residuals) (fun p hp => (ih p hp).2), ?_⟩
      intro x hx y hy e
      subst e
      obtain ⟨q, hq, hy⟩ := List.mem_flatMap.1 hy
      obtain ⟨o, _, rfl⟩ := mem_addPrefix.1 hy
      exact hrd _ hx (dot_mem _ _)

/-- C49: a full name determines the submodel's path and the variable. -/
theorem C49_unambiguous {p q : List String} {a b : String} (hp : ∀ n ∈ p, '.' ∉ n.toList) (hq : ∀ n ∈ q, '.' ∉ n.toList)
    (ha : '.' ∉ a.toList) (hb : '.' ∉ b.toList) : dotted p a = dotted q b ↔ p = q ∧ a = b := by
  refine ⟨?_, fun h => by rw [h.1, h.2]⟩
  induction p generalizing q with
  | nil =>
    cases q with
    | nil => intro h; exact ⟨rfl, h⟩
    | cons n q => intro h; have h : a = n ++ "." ++ dotted q b := h; exact absurd (h ▸ dot_mem n (dotted q b)) ha
  | cons n p ih =>
    cases q with
    | nil => intro h; have h : n ++ "." ++ dotted p a = b := h; exact absurd (h ▸ dot_mem n (dotted p a)) hb
    | cons n' q =>
      intro h
      obtain ⟨rfl, h2⟩ := prefix_inj (hp n List.mem_cons_self) (hq n' List.mem_cons_self) h
      obtain ⟨rfl, rfl⟩ := ih (fun x hx => hp x (List.mem_cons_of_mem _ hx)) (fun x hx => hq x (List.mem_cons_of_mem _ hx)) h2
      exact ⟨rfl, rfl⟩

/-- C49: `get_var_index` is the position of the name in its group: it succeeds exactly on the names of the group (KeyError
for others, AttributeError for an unknown group), and then says at which position the name stands; different names have
different positions, and every position below the number of variables belongs to a name. -/
theorem C49_index (nm : Names) (g : String) :
    (∀ e, nm.group g = .error e → ∀ n, nm.varIndex g n = .error e) ∧
    ∀ ns, nm.group g = .ok ns → nm.numVars g = .ok ns.length ∧
      (∀ n, n ∉ ns → nm.varIndex g n = .error .keyError) ∧
      (∀ n i, nm.varIndex g n = .ok i → ns[i]? = some n) ∧
      (∀ n ∈ ns, ∃ i, nm.varIndex g n = .ok i ∧ i < ns.length) ∧
      (ns.Nodup → ∀ i n, ns[i]? = some n → nm.varIndex g n = .ok i) := by
  constructor
  · intro e h n; simp [Names.varIndex, h, bind, Except.bind]
  · intro ns h
    have hv : ∀ n, nm.varIndex g n = if n ∈ ns then .ok (ns.idxOf n) else .error .keyError := by
      intro n; simp [Names.varIndex, h, bind, Except.bind]
    refine ⟨by simp [Names.numVars, h, bind, Except.bind, pure, Except.pure], ?_, ?_, ?_, ?_⟩
    · intro n hn; simp [hv, hn]
    · intro n i hi
      rw [hv] at hi
      split at hi
      · rename_i hn
        injection hi with hi
        subst hi
        rw [List.getElem?_eq_getElem (List.idxOf_lt_length_iff.2 hn)]
        simp
      · cases hi
    · intro n hn
      exact ⟨_, by rw [hv, if_pos hn], List.idxOf_lt_length_iff.2 hn⟩
    · intro hnd i n hi
      obtain ⟨hlt, rfl⟩ := List.getElem?_eq_some_iff.1 hi
      rw [hv, if_pos (List.getElem_mem hlt), hnd.idxOf_getElem i hlt]

theorem check_ok (nm : Names) : nm.check = .ok () ∨ nm.check = .error .valueError := by
  unfold Names.check
  split_ifs <;> simp

theorem check_iff (nm : Names) : nm.check = .ok () ↔
    (nm.stateSpace = true → (∀ c ∈ nm.conOutputs, c ∈ nm.outputs) ∧ ∀ c ∈ nm.residuals, c ∈ nm.outputs) := by
  unfold Names.check
  split_ifs with h1 h2 h3
  · simp only [true_iff]; exact fun _ => ⟨h2, h3⟩
  · simp only [false_iff]; exact fun h => h3 (h h1).2
  · simp only [false_iff]; exact fun h => h2 (h h1).1
  · simp only [true_iff]; exact fun h => absurd h h1

theorem initL_ok (s : List (String × Mdl V)) (h : ∀ p ∈ s, init p.2 = .ok () ∨ init p.2 = .error .valueError) :
    (initL s = .ok () ∨ initL s = .error .valueError) ∧ (initL s = .ok () ↔ ∀ p ∈ s, init p.2 = .ok ()) := by
  induction s with
  | nil => simp [initL]
  | cons q s ih =>
    obtain ⟨n, m⟩ := q
    have ih := ih (fun p hp => h p (List.mem_cons_of_mem _ hp))
    simp only [initL, bind, Except.bind]
    rcases h (n, m) List.mem_cons_self with e | e
    · simp only [e]
      refine ⟨ih.1, ih.2.trans ?_⟩
      simp [e]
    · simp only [e]
      simp [e]

/-- C49: a model can be constructed exactly when, in itself and in every submodel at any depth that is a state-space model,
the constrained outputs and the residuals are among the outputs; otherwise the constructor raises ValueError. -/
theorem C49_constructible (m : Mdl V) :
    (m.init = .ok () ↔ ∀ p d, AtPath m p d → d.names.stateSpace = true →
      (∀ c ∈ d.names.conOutputs, c ∈ d.names.outputs) ∧ ∀ c ∈ d.names.residuals, c ∈ d.names.outputs) ∧
    (m.init = .ok () ∨ m.init = .error .valueError) := by
  induction m using ind with
  | h c s ih =>
    have hL := initL_ok s (fun p hp => (ih p hp).2)
    simp only [init, bind, Except.bind]
    constructor
    · constructor
      · intro h p d hd
        rcases hL.1 with e | e
        · rw [e] at h
          cases hd with
          | here => exact (check_iff _).1 h
          | sub hs hd => exact (ih _ hs).1.1 (hL.2.1 e _ hs) _ _ hd
        · rw [e] at h; cases h
      · intro h
        have e : initL s = .ok () := hL.2.2 (fun p hp => (ih p hp).1.2 (fun q d hd => h _ d (.sub hp hd)))
        rw [e]
        exact (check_iff _).2 (h [] _ (.here _))
    · rcases hL.1 with e | e
      · rw [e]; exact check_ok _
      · rw [e]; exact .inr rfl

/-- A submodel's residual that is not among its outputs (a stateless submodel is not checked) makes every state-space model
that contains it unusable. -/
theorem C49_residual_of_stateless (c : Cls V) (s : List (String × Mdl V)) (hc : c.direct.stateSpace = true) {n r : String}
    {m : Mdl V} (hm : (n, m) ∈ s) (hr : r ∈ m.names.residuals) (hw : ∀ p ∈ Dict.keys s, '.' ∉ p.toList)
    (hs : (Dict.keys s).Nodup) (hd : ∀ o ∈ c.direct.outputs, '.' ∉ o.toList) (hno : r ∉ m.names.outputs) :
    (node c s).init = .error .valueError := by
  rcases (C49_constructible (node c s)).2 with h | h
  · exfalso
    have h' := ((C49_constructible (node c s)).1.1 h [] _ (.here _) (by rw [names_node]; exact hc)).2
    have hin : n ++ "." ++ r ∈ (node c s).names.residuals := by
      rw [names_node]
      exact List.mem_append_right _ (List.mem_flatMap.2 ⟨_, hm, mem_addPrefix.2 ⟨r, hr, rfl⟩⟩)
    have := h' _ hin
    rw [names_node] at this
    rcases List.mem_append.1 this with hh | hh
    · exact hd _ hh (dot_mem _ _)
    · obtain ⟨q, hq, hh⟩ := List.mem_flatMap.1 hh
      obtain ⟨o, ho, e⟩ := mem_addPrefix.1 hh
      have hqk : q.1 ∈ Dict.keys s := List.mem_map_of_mem hq
      have hnk : n ∈ Dict.keys s := List.mem_map.2 ⟨_, hm, rfl⟩
      obtain ⟨e1, rfl⟩ := prefix_inj (hw n hnk) (hw q.1 hqk) e
      have e2 : q.2 = m := by
        have h1 := Dict.lookup_of_mem hs (k := q.1) (v := q.2) hq
        have h2 := Dict.lookup_of_mem hs hm
        rw [e1, h1] at h2
        exact Option.some.inj h2
      rw [e2] at ho
      exact hno ho
  · exact h

/-- C49 (finding): `set_con_outputs` checks nothing, so a model can be given a constrained output that it does not have
(`C50_unknown_con_output` says what happens then). -/
theorem C49_set_con_outputs_unchecked (nm : Names) (c : List String) (h : ∃ x ∈ c, x ∉ nm.outputs) (hs : nm.stateSpace = true) :
    (nm.setConOutputs c).group "con_outputs" = .ok c ∧ (nm.setConOutputs c).check ≠ .ok () := by
  refine ⟨?_, ?_⟩
  · simp [Names.group, Names.setConOutputs, hs]
  · intro hc
    obtain ⟨x, hx, hn⟩ := h
    exact hn (((check_iff _).1 hc hs).1 x hx)

/-! ## Example: a car with aero and two tires -/

/-- A leaf class with given outputs. -/
def leafCls (outs : List String) : Cls Nat :=
  ⟨⟨false, [], ["v"], outs, [], []⟩, fun _ => .done {}⟩

def exCar : Mdl Nat :=
  .node ⟨⟨true, ["v"], ["u"], ["power"], ["aero.Cx"], ["power"]⟩, fun _ => .done {}⟩
    [("aero", .node (leafCls ["Cx", "Cz"]) []), ("tire", .node (leafCls ["Fz"]) [])]

example : exCar.names.outputs = ["power", "aero.Cx", "aero.Cz", "tire.Fz"] := by decide +kernel

example : exCar.init = .ok () := by decide +kernel

example : exCar.WellNamed := by
  refine .node (by decide) (by decide +kernel) (by decide) (by decide +kernel) (by decide) (by decide +kernel) ?_
  intro p hp
  simp only [List.mem_cons, List.not_mem_nil, or_false] at hp
  rcases hp with rfl | rfl
  · exact .node (by decide) (by decide +kernel) (by decide) (by decide +kernel) (by decide) (by decide +kernel)
      (fun p hp => absurd hp List.not_mem_nil)
  · exact .node (by decide) (by decide +kernel) (by decide) (by decide +kernel) (by decide) (by decide +kernel)
      (fun p hp => absurd hp List.not_mem_nil)

end Mdl

end Lumos.Io
