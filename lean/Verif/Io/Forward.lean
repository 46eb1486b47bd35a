import Verif.Io.Vectors
/-!
# C51: calling submodels

A model object keeps the returns of its submodels between `call_submodel` and `make_outputs_dict`. The specification below
has no such memory: `eval` says what a call of `forward` should give, from its arguments alone. The theorems say that an
object gives exactly that after any history of calls that returned, and what happens after one that raised.
-/

namespace Lumos.Io

open Lumos

namespace Mdl

variable {V : Type}

/-! ## Specification -/

/-- The outputs of the submodels that have been called, each under `submodel.output`. -/
def collected (subNames : List String) (called : Dict (Ret V)) : Dict V :=
  subNames.foldl (fun (acc : Dict V) (n : String) =>
    match called.lookup n with
    | some r => acc.update (r.outputs.map fun kv => (n ++ "." ++ kv.1, kv.2))
    | none => acc) []

/-- The meaning of the body of a `forward`, given the meaning of the submodels and the submodels called so far (since the
last collection of outputs): no submodel may be called twice, and outputs are collected from all of them. -/
def evalProg (nm : Names) (subNames : List String) (look : String → Option (Names × (Kw V → Py (Ret V)))) :
    Dict (Ret V) → Prog V → Py (Ret V)
  | _, .done r => .ok r
  | _, .fail e => .error e
  | called, .call n kw k =>
    match look n with
    | none => .error .keyError
    | some (snm, f) =>
      if n ∈ called.keys then .error .runtimeError
      else
        match checkCall snm kw with
        | .error e => .error e
        | .ok () =>
          match f kw with
          | .error e => .error e
          | .ok r => evalProg nm subNames look (called ++ [(n, r)]) (k r)
  | called, .makeOutputs kw k =>
    if "self" ∈ kw.keys then .error .typeError
    else if ∃ n ∈ subNames, n ∉ called.keys then .error .keyError
    else
      match mergeOutputs nm kw (collected subNames called) with
      | .error e => .error e
      | .ok d => evalProg nm subNames look [] (k d)

mutual
/-- What `forward` gives for given arguments. -/
def eval : Mdl V → Kw V → Py (Ret V)
  | node c s, kw => evalProg (names (node c s)) (Dict.keys s) (evalL s) [] (c.forward kw)
def evalL : List (String × Mdl V) → String → Option (Names × (Kw V → Py (Ret V)))
  | [], _ => none
  | (n, m) :: ms, k => if k = n then some (names m, eval m) else evalL ms k
end

/-- On every way through the body that returns, the outputs of the submodels are collected (`make_outputs_dict`) after the
last call of a submodel. `pending` says whether a submodel has been called since the last collection. -/
def Collects : Bool → Prog V → Prop
  | pending, .done _ => pending = false
  | _, .fail _ => True
  | _, .call _ _ k => ∀ r, Collects true (k r)
  | _, .makeOutputs _ k => ∀ d, Collects false (k d)

/-- Every class in the tree collects its submodels' outputs, and no model has two submodels of one name. -/
inductive Orderly : Mdl V → Prop
  | node {c : Cls V} {s : List (String × Mdl V)} : (Dict.keys s).Nodup → (∀ kw, Collects false (c.forward kw)) →
      (∀ p ∈ s, Orderly p.2) → Orderly (node c s)

/-- A sequence of calls of `forward` on one object: the buffers afterwards and the results. -/
def calls (m : Mdl V) (σ : State V) : List (Kw V) → State V × List (Py (Ret V))
  | [] => (σ, [])
  | kw :: kws =>
    let r := m.run σ kw
    let rest := m.calls r.1 kws
    (rest.1, r.2 :: rest.2)

/-! ## Proofs -/

theorem runL_eq (s : List (String × Mdl V)) (n : String) : runL s n = (s.lookup n).map fun m => (names m, run m) := by
  induction s with
  | nil => rfl
  | cons q s ih =>
    obtain ⟨k, m⟩ := q
    rw [Dict.lookup_cons]
    simp only [runL]
    split_ifs <;> simp_all

theorem evalL_eq (s : List (String × Mdl V)) (n : String) : evalL s n = (s.lookup n).map fun m => (names m, eval m) := by
  induction s with
  | nil => rfl
  | cons q s ih =>
    obtain ⟨k, m⟩ := q
    rw [Dict.lookup_cons]
    simp only [evalL]
    split_ifs <;> simp_all

theorem clearL_eq (s : List (String × Mdl V)) (n : String) (m : Mdl V) (h : s.lookup n = some m) : clearL s n = clear m := by
  funext p
  induction s with
  | nil => simp at h
  | cons q s ih =>
    obtain ⟨k, m'⟩ := q
    rw [Dict.lookup_cons] at h
    simp only [clearL]
    split_ifs at h ⊢ with e
    · injection h with h; rw [h]
    · exact ih h

theorem clear_nil (c : Cls V) (s : List (String × Mdl V)) : clear (node c s) [] = s.map fun p => (p.1, none) := by
  simp [clear]

theorem clear_cons (c : Cls V) (s : List (String × Mdl V)) (n : String) (p : List String) :
    clear (node c s) (n :: p) = clearL s n p := by
  simp [clear]

/-- The buffers of a model whose submodels `called` have been called and returned. -/
structure Inv (s : List (String × Mdl V)) (σ : State V) (called : Dict (Ret V)) : Prop where
  top : σ [] = s.map fun q => (q.1, called.lookup q.1)
  below : ∀ n p, σ (n :: p) = clearL s n p

theorem Inv.lookup {s : List (String × Mdl V)} {σ : State V} {called : Dict (Ret V)} (h : Inv s σ called) {n : String}
    (hn : n ∈ Dict.keys s) : (σ []).lookup n = some (called.lookup n) := by
  rw [h.top]
  clear h
  induction s with
  | nil => simp [Dict.keys] at hn
  | cons q s ih =>
    simp only [List.map_cons]
    rw [Dict.lookup_cons]
    split_ifs with e
    · rw [e]
    · apply ih
      simp only [Dict.keys, List.map_cons, List.mem_cons] at hn
      exact hn.resolve_left e

theorem map_set (s : List (String × Mdl V)) (hk : (Dict.keys s).Nodup) (called : Dict (Ret V)) (n : String) (r : Ret V)
    (hn : n ∈ Dict.keys s) (hc : n ∉ called.keys) :
    Dict.set (s.map fun q => (q.1, called.lookup q.1)) n (some r) = s.map fun q => (q.1, (called ++ [(n, r)]).lookup q.1) := by
  have hl : ∀ k, (called ++ [(n, r)]).lookup k = if k = n then some r else called.lookup k := by
    intro k
    rw [List.lookup_append]
    by_cases e : k = n
    · subst e
      rw [(Dict.lookup_none called k).2 hc]
      simp
    · rw [Dict.lookup_cons]
      simp [e]
  induction s with
  | nil => simp [Dict.keys] at hn
  | cons q s ih =>
    simp only [Dict.keys, List.map_cons, List.nodup_cons, List.mem_cons] at hk hn
    simp only [List.map_cons]
    unfold Dict.set
    by_cases e : q.1 = n
    · rw [if_pos e, hl, if_pos e]
      congr 1
      apply List.map_congr_left
      intro p hp
      rw [hl, if_neg]
      intro e'
      exact hk.1 (List.mem_map.2 ⟨p, hp, by rw [e', e]⟩)
    · rw [if_neg e, hl, if_neg e]
      congr 1
      exact ih hk.2 (hn.resolve_left (fun h => e h.symm))

theorem combine_eq (s : List (String × Mdl V)) (called : Dict (Ret V)) :
    combine (s.map fun q => (q.1, called.lookup q.1)) =
      if ∃ n ∈ Dict.keys s, n ∉ called.keys then .error .keyError else .ok (collected (Dict.keys s) called) := by
  unfold combine collected
  generalize ([] : Dict V) = acc
  induction s generalizing acc with
  | nil => simp [Dict.keys, pure, Except.pure]
  | cons q s ih =>
    simp only [List.map_cons, List.foldlM_cons, Dict.keys, List.foldl_cons]
    cases hq : called.lookup q.1 with
    | none =>
      have : q.1 ∉ called.keys := (Dict.lookup_none _ _).1 hq
      rw [if_pos ⟨q.1, List.mem_cons_self, this⟩]
      rfl
    | some r =>
      have : q.1 ∈ called.keys := (Dict.lookup_isSome _ _).1 (by rw [hq]; rfl)
      simp only [combineItem, bind, Except.bind]
      have ih := ih (Dict.update acc (r.outputs.map fun kv => (q.1 ++ "." ++ kv.1, kv.2)))
      refine ih.trans ?_
      have e : (∃ n ∈ q.1 :: List.map Prod.fst s, n ∉ List.map Prod.fst called) ↔
          ∃ n ∈ Dict.keys s, n ∉ Dict.keys called := by
        constructor
        · rintro ⟨n, hn, h⟩
          rcases List.mem_cons.1 hn with rfl | hn
          · exact absurd this h
          · exact ⟨n, hn, h⟩
        · rintro ⟨n, hn, h⟩
          exact ⟨n, List.mem_cons_of_mem _ hn, h⟩
      by_cases hh : ∃ n ∈ Dict.keys s, n ∉ Dict.keys called
      · rw [if_pos hh]; exact (if_pos (e.2 hh)).symm
      · rw [if_neg hh]; exact (if_neg (fun h => hh (e.1 h))).symm

theorem lookup_mem_keys {s : List (String × Mdl V)} {n : String} {m : Mdl V} (h : s.lookup n = some m) : n ∈ Dict.keys s :=
  (Dict.lookup_isSome _ _).1 (by rw [h]; rfl)

theorem run_body {c : Cls V} {s : List (String × Mdl V)} (nm : Names) (hk : (Dict.keys s).Nodup)
    (hsub : ∀ p ∈ s, ∀ kw, (run p.2 (clear p.2) kw).2 = eval p.2 kw ∧
      ∀ r, eval p.2 kw = .ok r → (run p.2 (clear p.2) kw).1 = clear p.2)
    (prog : Prog V) : ∀ (σ : State V) (called : Dict (Ret V)) (pending : Bool), Inv s σ called →
      Collects pending prog → (pending = false → called = []) →
      (runProg nm (runL s) prog σ).2 = evalProg nm (Dict.keys s) (evalL s) called prog ∧
      ∀ r, evalProg nm (Dict.keys s) (evalL s) called prog = .ok r → (runProg nm (runL s) prog σ).1 = clear (node c s) := by
  induction prog with
  | done r =>
    intro σ called pending hI hC hp
    refine ⟨rfl, fun _ _ => ?_⟩
    have hc : called = [] := hp hC
    subst hc
    funext p
    cases p with
    | nil => simp only [runProg]; rw [hI.top, clear_nil]; simp
    | cons n p => simp only [runProg]; rw [hI.below, clear_cons]
  | fail e => intro σ called pending hI hC hp; exact ⟨rfl, fun _ h => by cases h⟩
  | call n kw k ih =>
    intro σ called pending hI hC hp
    simp only [runProg, evalProg, runL_eq, evalL_eq]
    cases hs : s.lookup n with
    | none => exact ⟨rfl, fun _ h => by cases h⟩
    | some m =>
      simp only [Option.map_some]
      have hn : n ∈ Dict.keys s := lookup_mem_keys hs
      rw [hI.lookup hn]
      cases hc : called.lookup n with
      | some r0 =>
        have : n ∈ called.keys := (Dict.lookup_isSome _ _).1 (by rw [hc]; rfl)
        simp only [this, if_true]
        exact ⟨trivial, fun _ h => by cases h⟩
      | none =>
        have hnc : n ∉ called.keys := (Dict.lookup_none _ _).1 hc
        simp only [hnc, if_false]
        cases checkCall m.names kw with
        | error e => exact ⟨rfl, fun _ h => by cases h⟩
        | ok u =>
          have e1 : σ.sub n = clear m := by
            funext p
            show σ (n :: p) = _
            rw [hI.below, clearL_eq s n m hs]
          dsimp only
          rw [e1]
          obtain ⟨h1, h2⟩ := hsub (n, m) (Dict.mem_of_lookup hs) kw
          dsimp only at h1 h2
          rcases hr : run m (clear m) kw with ⟨τ, res⟩
          rw [hr] at h1 h2
          dsimp only at h1 h2
          subst h1
          cases he : eval m kw with
          | error e => exact ⟨rfl, fun _ h => by cases h⟩
          | ok r =>
            dsimp only
            have hτ := h2 r he
            subst hτ
            refine ih r _ _ true ⟨?_, ?_⟩ (hC r) (by simp)
            · show Dict.set (σ []) n (some r) = _
              rw [hI.top, map_set s hk called n r hn hnc]
            · intro n' p
              show (if n' = n then clear m p else σ (n' :: p)) = _
              split_ifs with e
              · rw [e, clearL_eq s n m hs]
              · exact hI.below n' p
  | makeOutputs kw k ih =>
    intro σ called pending hI hC hp
    simp only [runProg, evalProg]
    split_ifs with h1 h2
    · exact ⟨rfl, fun _ h => by cases h⟩
    · rw [hI.top, combine_eq, if_pos h2]
      exact ⟨rfl, fun _ h => by cases h⟩
    · rw [hI.top, combine_eq, if_neg h2]
      dsimp only
      cases mergeOutputs nm kw (collected (Dict.keys s) called) with
      | error e => exact ⟨rfl, fun _ h => by cases h⟩
      | ok d =>
        dsimp only
        refine ih d _ [] false ⟨?_, ?_⟩ (hC d) (fun _ => rfl)
        · show List.map _ (List.map _ s) = _
          simp
        · intro n p
          exact hI.below n p

theorem run_clear {m : Mdl V} (hm : Orderly m) (kw : Kw V) :
    (run m (clear m) kw).2 = eval m kw ∧ ∀ r, eval m kw = .ok r → (run m (clear m) kw).1 = clear m := by
  induction hm generalizing kw with
  | @node c s hk hC _ ih =>
    simp only [run, eval]
    refine run_body (c := c) _ hk (fun p hp kw => ih p hp kw) (c.forward kw) _ [] false ⟨?_, ?_⟩ (hC kw) (fun _ => rfl)
    · rw [clear_nil]; simp
    · intro n p; rw [clear_cons]

theorem calls_append (m : Mdl V) (σ : State V) (a b : List (Kw V)) :
    m.calls σ (a ++ b) = ((m.calls (m.calls σ a).1 b).1, (m.calls σ a).2 ++ (m.calls (m.calls σ a).1 b).2) := by
  induction a generalizing σ with
  | nil => rfl
  | cons kw a ih => simp only [List.cons_append, calls, ih]

/-- C51: on an object of any depth whose classes collect their submodels' outputs, `forward` is a function of its arguments:
after any history of calls that returned, a call gives what `eval` says for its arguments, whether that is a return or an
exception. -/
theorem C51_forward_is_pure {m : Mdl V} (hm : Orderly m) (history : List (Kw V)) (hist : ∀ kw ∈ history, ∃ r, m.eval kw = .ok r)
    (kw : Kw V) : m.calls (clear m) (history ++ [kw]) =
      ((m.run (clear m) kw).1, history.map (fun k => m.eval k) ++ [m.eval kw]) := by
  have hcalls : ∀ h : List (Kw V), (∀ kw ∈ h, ∃ r, m.eval kw = .ok r) → m.calls (clear m) h = (clear m, h.map (fun k => m.eval k)) := by
    intro h
    induction h with
    | nil => intro _; rfl
    | cons k h ih =>
      intro hk
      obtain ⟨r, hr⟩ := hk k List.mem_cons_self
      simp only [calls, (run_clear hm k).2 r hr, ih (fun x hx => hk x (List.mem_cons_of_mem _ hx)), List.map_cons,
        (run_clear hm k).1]
  rw [calls_append, hcalls history hist]
  simp only [calls, (run_clear hm kw).1]

/-! ### What the collected outputs contain -/

theorem lookup_update (d e : Dict V) (he : e.keys.Nodup) (k : String) :
    (d.update e).lookup k = (e.lookup k).or (d.lookup k) := by
  unfold Dict.update
  induction e generalizing d with
  | nil => simp
  | cons p e ih =>
    obtain ⟨a, v⟩ := p
    simp only [Dict.keys, List.map_cons, List.nodup_cons] at he
    rw [List.foldl_cons, ih _ he.2, Dict.lookup_set, Dict.lookup_cons]
    by_cases h : k = a
    · subst h
      have : e.lookup k = none := (Dict.lookup_none e k).2 he.1
      simp [this]
    · simp [h]

theorem keys_prefix (n : String) (d : Dict V) : Dict.keys (d.map fun kv => (n ++ "." ++ kv.1, kv.2)) = addPrefix n d.keys := by
  simp [Dict.keys, addPrefix]

theorem nodup_prefix (n : String) {ns : List String} (h : ns.Nodup) : (addPrefix n ns).Nodup := by
  refine h.map ?_
  intro x y e
  have : (n ++ "." ++ x).toList = (n ++ "." ++ y).toList := congrArg String.toList e
  simp only [String.toList_append, List.append_assoc] at this
  exact String.toList_inj.1 (List.append_cancel_left (List.append_cancel_left this))

theorem lookup_prefix (n : String) (d : Dict V) (k : String) :
    List.lookup (n ++ "." ++ k) (d.map fun kv => (n ++ "." ++ kv.1, kv.2)) = d.lookup k := by
  induction d with
  | nil => rfl
  | cons p d ih =>
    obtain ⟨a, v⟩ := p
    simp only [List.map_cons]
    rw [Dict.lookup_cons, Dict.lookup_cons, ih]
    by_cases e : k = a
    · simp [e]
    · rw [if_neg e, if_neg]
      intro h
      have : (n ++ "." ++ k).toList = (n ++ "." ++ a).toList := congrArg String.toList h
      simp only [String.toList_append, List.append_assoc] at this
      exact e (String.toList_inj.1 (List.append_cancel_left (List.append_cancel_left this)))

theorem collected_lookup {ns : List String} (hd : ∀ n ∈ ns, '.' ∉ n.toList) {called : Dict (Ret V)}
    (hc : ∀ n r, called.lookup n = some r → r.outputs.keys.Nodup) :
    (∀ n ∈ ns, ∀ r, called.lookup n = some r → ∀ k, (collected ns called).lookup (n ++ "." ++ k) = r.outputs.lookup k) ∧
    ∀ x ∈ (collected ns called).keys, ∃ n ∈ ns, ∃ r, called.lookup n = some r ∧ ∃ k ∈ r.outputs.keys, x = n ++ "." ++ k := by
  have key : ∀ (l : List String) (acc : Dict V), (∀ n ∈ l, '.' ∉ n.toList) → ∀ x v,
      (l.foldl (fun (acc : Dict V) (n : String) =>
        match called.lookup n with
        | some r => acc.update (r.outputs.map fun kv => (n ++ "." ++ kv.1, kv.2))
        | none => acc) acc).lookup x = some v ↔
      (∃ n ∈ l, ∃ r k, called.lookup n = some r ∧ x = n ++ "." ++ k ∧ r.outputs.lookup k = some v) ∨
      ((∀ n ∈ l, ∀ r k, called.lookup n = some r → x = n ++ "." ++ k → r.outputs.lookup k = none) ∧ acc.lookup x = some v) := by
    intro l
    induction l with
    | nil => intro acc _ x v; simp
    | cons n l ih =>
      intro acc hl x v
      rw [List.foldl_cons, ih _ (fun m hm => hl m (List.mem_cons_of_mem _ hm))]
      cases hn : called.lookup n with
      | none =>
        simp only [List.mem_cons, exists_eq_or_imp, forall_eq_or_imp, hn]
        simp
      | some r =>
        have hnd := hc n r hn
        dsimp only
        rw [lookup_update _ _ (by rw [keys_prefix]; exact nodup_prefix n hnd)]
        have huniq : ∀ m ∈ l, ∀ k k', m ++ "." ++ k = n ++ "." ++ k' → m = n ∧ k = k' := by
          intro m hm k k' e
          exact prefix_inj (hl m (List.mem_cons_of_mem _ hm)) (hl n List.mem_cons_self) e
        constructor
        · rintro (⟨m, hm, r', k, h1, rfl, h3⟩ | ⟨h1, h2⟩)
          · exact .inl ⟨m, List.mem_cons_of_mem _ hm, r', k, h1, rfl, h3⟩
          · by_cases hx : ∃ k, x = n ++ "." ++ k
            · obtain ⟨k, rfl⟩ := hx
              rw [lookup_prefix] at h2
              cases hk : r.outputs.lookup k with
              | some w =>
                rw [hk] at h2
                simp only [Option.some_or, Option.some.injEq] at h2
                exact .inl ⟨n, List.mem_cons_self, r, k, hn, rfl, by rw [hk, h2]⟩
              | none =>
                rw [hk] at h2
                simp only [Option.none_or] at h2
                refine .inr ⟨?_, h2⟩
                intro m hm r' k' hr' e
                rcases List.mem_cons.1 hm with rfl | hm
                · obtain ⟨_, rfl⟩ := prefix_inj (hl m List.mem_cons_self) (hl m List.mem_cons_self) e
                  rw [hn] at hr'
                  rw [← Option.some.inj hr']; exact hk
                · exact h1 m hm r' k' hr' e
            · have hnone : List.lookup x (r.outputs.map fun kv => (n ++ "." ++ kv.1, kv.2)) = none := by
                rw [Dict.lookup_none, keys_prefix]
                intro hh
                obtain ⟨o, _, e⟩ := mem_addPrefix.1 hh
                exact hx ⟨o, e⟩
              rw [hnone] at h2
              simp only [Option.none_or] at h2
              refine .inr ⟨?_, h2⟩
              intro m hm r' k' hr' e
              rcases List.mem_cons.1 hm with rfl | hm
              · exact absurd ⟨k', e⟩ hx
              · exact h1 m hm r' k' hr' e
        · rintro (⟨m, hm, r', k, h1, rfl, h3⟩ | ⟨h1, h2⟩)
          · by_cases hmn : m = n
            · subst hmn
              rw [hn] at h1
              obtain rfl := Option.some.inj h1
              by_cases hin : m ∈ l
              · exact .inl ⟨m, hin, r, k, hn, rfl, h3⟩
              · refine .inr ⟨?_, by rw [lookup_prefix, h3]; rfl⟩
                intro m' hm' r' k' _ e
                have := (huniq m' hm' k' k e.symm).1
                exact absurd (this ▸ hm') hin
            · exact .inl ⟨m, (List.mem_cons.1 hm).resolve_left hmn, r', k, h1, rfl, h3⟩
          · refine .inr ⟨fun m hm => h1 m (List.mem_cons_of_mem _ hm), ?_⟩
            have hnone : List.lookup x (r.outputs.map fun kv => (n ++ "." ++ kv.1, kv.2)) = none := by
              rw [Dict.lookup_none, keys_prefix]
              intro hh
              obtain ⟨o, ho, e⟩ := mem_addPrefix.1 hh
              have := h1 n List.mem_cons_self r o hn e
              exact (Dict.lookup_none _ _).1 this ho
            rw [hnone, h2]; rfl
  constructor
  · intro n hn r hr k
    have hk := key ns [] hd (n ++ "." ++ k)
    change ∀ v, (collected ns called).lookup _ = some v ↔ _ at hk
    cases ho : r.outputs.lookup k with
    | some v => exact (hk v).2 (.inl ⟨n, hn, r, k, hr, rfl, ho⟩)
    | none =>
      cases hx : (collected ns called).lookup (n ++ "." ++ k) with
      | none => rfl
      | some v =>
        rcases (hk v).1 hx with ⟨m, hm, r', k', h1, e, h3⟩ | ⟨_, h⟩
        · obtain ⟨rfl, rfl⟩ := prefix_inj (hd n hn) (hd m hm) e
          rw [hr] at h1
          obtain rfl := Option.some.inj h1
          rw [ho] at h3; cases h3
        · simp at h
  · intro x hx
    obtain ⟨v, hv⟩ := Option.isSome_iff_exists.1 ((Dict.lookup_isSome _ _).2 hx)
    rcases (key ns [] hd x v).1 hv with ⟨n, hn, r, k, h1, e, h3⟩ | ⟨_, h⟩
    · exact ⟨n, hn, r, h1, k, (Dict.lookup_isSome _ _).1 (by rw [h3]; rfl), e⟩
    · simp at h

/-- C51: what `make_outputs_dict(**kw)` returns in a model all of whose submodels have been called: the keywords, and for
every submodel each of its outputs under `submodel.output`, and nothing else; every output name of the model is there. -/
theorem C51_outputs_dict {nm : Names} {ns : List String} (hd : ∀ n ∈ ns, '.' ∉ n.toList) {called : Dict (Ret V)}
    (hc : ∀ n r, called.lookup n = some r → r.outputs.keys.Nodup) {kw d : Dict V}
    (h : mergeOutputs nm kw (collected ns called) = .ok d) :
    (∀ k ∈ kw.keys, d.lookup k = kw.lookup k) ∧
    (∀ n ∈ ns, ∀ r, called.lookup n = some r → ∀ k ∈ r.outputs.keys, d.lookup (n ++ "." ++ k) = r.outputs.lookup k) ∧
    (∀ x ∈ d.keys, x ∈ kw.keys ∨ ∃ n ∈ ns, ∃ r, called.lookup n = some r ∧ ∃ k ∈ r.outputs.keys, x = n ++ "." ++ k) ∧
    (∀ x ∈ nm.outputs, x ∈ d.keys) := by
  unfold mergeOutputs at h
  split_ifs at h with hdup
  have hdup' : ∀ k ∈ kw.keys, k ∉ (collected ns called).keys := fun k hk hk' => hdup ⟨k, hk, hk'⟩
  unfold Names.makeDict at h
  by_cases hp : Passable (kw ++ collected ns called)
  swap
  · rw [starArgs_fail hp] at h; cases h
  rw [starArgs_pass hp] at h
  simp only [bind, Except.bind, Names.checkKeys, Names.group, if_true, pure, Except.pure] at h
  have h0 : (if "outputs" = "inputs" then (Except.ok nm.inputs : Py (List String)) else .ok nm.outputs) = .ok nm.outputs := by
    rw [if_neg (by decide)]
  rw [h0] at h
  dsimp only at h
  split_ifs at h with hall
  · injection h with h
    subst h
    obtain ⟨c1, c2⟩ := collected_lookup hd hc
    have hkeys : ∀ x, x ∈ Dict.keys (kw ++ collected ns called) ↔ x ∈ kw.keys ∨ x ∈ (collected ns called).keys := by
      intro x; simp [Dict.keys]
    refine ⟨?_, ?_, ?_, hall⟩
    · intro k hk
      rw [List.lookup_append]
      obtain ⟨v, hv⟩ := Option.isSome_iff_exists.1 ((Dict.lookup_isSome _ _).2 hk)
      rw [hv]; rfl
    · intro n hn r hr k hk
      rw [List.lookup_append]
      have h1 := c1 n hn r hr k
      have : n ++ "." ++ k ∈ (collected ns called).keys := by
        rw [← Dict.lookup_isSome, h1, Dict.lookup_isSome]; exact hk
      have hno : n ++ "." ++ k ∉ kw.keys := fun hh => hdup' _ hh this
      rw [(Dict.lookup_none _ _).2 hno, h1]; rfl
    · intro x hx
      rcases (hkeys x).1 hx with hx | hx
      · exact .inl hx
      · exact .inr (c2 x hx)

/-! ### Exceptions leave the buffer as it is -/

/-- C51 (finding): once `forward` has raised between the call of a submodel and the collection of its outputs, the submodel's
return stays in the object: from then on every `forward` that calls that submodel first raises RuntimeError, whatever its
arguments, and the object never recovers. -/
theorem C51_poisoned (c : Cls V) (s : List (String × Mdl V)) (σ : State V) {a : String} {m : Mdl V} (hm : s.lookup a = some m)
    {kwa : Kw V} {k : Ret V → Prog V} {kw : Kw V} (hf : c.forward kw = .call a kwa k) {τ : State V} {r : Ret V} {e : PyErr}
    (ha : (σ []).lookup a = some none) (hc : checkCall m.names kwa = .ok ()) (hr : m.run (σ.sub a) kwa = (τ, .ok r))
    (hk : k r = .fail e ∨ ∃ b kwb k', k r = .call b kwb k' ∧ ∃ m' τ', b ≠ a ∧ s.lookup b = some m' ∧
      (σ []).lookup b = some none ∧ checkCall m'.names kwb = .ok () ∧ m'.run (σ.sub b) kwb = (τ', .error e)) :
    ((node c s).run σ kw).2 = .error e ∧
    ∀ later : List (Kw V), (∀ x ∈ later, ∃ kx kk, c.forward x = .call a kx kk) →
      ((node c s).calls ((node c s).run σ kw).1 later).2 = later.map fun _ => .error .runtimeError := by
  have hrun : ((node c s).run σ kw).2 = .error e ∧
      ∃ r', ((((node c s).run σ kw).1) []).lookup a = some (some r') := by
    simp only [run, hf, runProg, runL_eq, hm, Option.map_some, ha, hc, hr]
    rcases hk with hk | ⟨b, kwb, k', hk, m', τ', hba, hb, hsb, hcb, hrb⟩
    · rw [hk]
      simp only [runProg]
      exact ⟨trivial, r, by simp [State.setTop, Dict.lookup_set]⟩
    · rw [hk]
      simp only [runProg, runL_eq, hb, Option.map_some]
      have h1 : (((σ.setSub a τ).setTop (((σ.setSub a τ) []).set a (some r))) []).lookup b = some none := by
        show (Dict.set (σ []) a (some r)).lookup b = _
        rw [Dict.lookup_set, if_neg hba, hsb]
      have h2 : ((σ.setSub a τ).setTop (((σ.setSub a τ) []).set a (some r))).sub b = σ.sub b := by
        funext p
        show (if b = a then τ p else σ (b :: p)) = σ (b :: p)
        rw [if_neg hba]
      rw [h1]
      simp only [hcb, h2, hrb]
      refine ⟨trivial, r, ?_⟩
      show (Dict.set (σ []) a (some r)).lookup a = _
      rw [Dict.lookup_set, if_pos rfl]
  obtain ⟨h1, r', h2⟩ := hrun
  refine ⟨h1, ?_⟩
  generalize ((node c s).run σ kw).1 = ρ at h2
  intro later hl
  have hstep : ∀ x ∈ later, (node c s).run ρ x = (ρ, .error .runtimeError) := by
    intro x hx
    obtain ⟨kx, kk, hfx⟩ := hl x hx
    simp only [run, hfx, runProg, runL_eq, hm, Option.map_some, h2]
  clear hl
  induction later with
  | nil => rfl
  | cons x later ih =>
    simp only [calls, hstep x List.mem_cons_self, List.map_cons]
    rw [ih (fun y hy => hstep y (List.mem_cons_of_mem _ hy))]

/-- C51 (finding): a `forward` that calls a submodel and returns without collecting its outputs works once: the next call
raises RuntimeError. -/
theorem C51_forgotten (c : Cls V) (s : List (String × Mdl V)) (σ : State V) {a : String} {m : Mdl V} (hm : s.lookup a = some m)
    {kw kwa : Kw V} {k : Ret V → Prog V} (hf : c.forward kw = .call a kwa k) {τ : State V} {r r' : Ret V}
    (ha : (σ []).lookup a = some none) (hc : checkCall m.names kwa = .ok ()) (hr : m.run (σ.sub a) kwa = (τ, .ok r))
    (hk : k r = .done r') :
    ((node c s).calls σ [kw, kw]).2 = [.ok r', .error .runtimeError] := by
  simp only [calls, run, hf, runProg, runL_eq, hm, Option.map_some, ha, hc, hr, hk]
  have : ((((σ.setSub a τ).setTop (((σ.setSub a τ) []).set a (some r)))) []).lookup a = some (some r) := by
    show (Dict.set (σ []) a (some r)).lookup a = _
    rw [Dict.lookup_set, if_pos rfl]
  simp only [this]

/-- When `call_submodel` accepts its arguments: the submodel's inputs, and its states if it has any, are all there by name; superfluous
names are accepted. Otherwise it raises KeyError before the submodel runs. -/
theorem C51_call_arguments (nm : Names) (kw : Kw V) :
    (checkCall nm kw = .ok () ↔ (∃ d, kw.inputs = some d ∧ ∀ n ∈ nm.inputs, n ∈ d.keys) ∧
      (nm.stateSpace = true → ∃ d, kw.states = some d ∧ ∀ n ∈ nm.states, n ∈ d.keys)) ∧
    (checkCall nm kw = .ok () ∨ checkCall nm kw = .error .keyError) := by
  have key : ∀ (g : String) (ns : List String) (d : Dict V), nm.group g = .ok ns →
      ((∀ n ∈ ns, n ∈ d.keys) → nm.checkKeys g d = .ok ()) ∧ (¬ (∀ n ∈ ns, n ∈ d.keys) → nm.checkKeys g d = .error .keyError) := by
    intro g ns d hg
    unfold Names.checkKeys
    simp only [hg, bind, Except.bind]
    exact ⟨fun h => if_pos h, fun h => if_neg h⟩
  unfold checkCall
  cases hi : kw.inputs with
  | none => simp [bind, Except.bind]
  | some d =>
    have k1 := key "inputs" nm.inputs d (by simp [Names.group])
    by_cases hd : ∀ n ∈ nm.inputs, n ∈ d.keys
    · have hiff : (∃ d', some d = some d' ∧ ∀ n ∈ nm.inputs, n ∈ d'.keys) := ⟨d, rfl, hd⟩
      cases hs : nm.stateSpace with
      | false => simp only [bind, Except.bind, k1.1 hd]; exact ⟨⟨fun _ => ⟨hiff, fun h => by simp at h⟩, fun _ => rfl⟩, .inl rfl⟩
      | true =>
        simp only [bind, Except.bind, k1.1 hd]
        cases hx : kw.states with
        | none => simp
        | some e =>
          have k2 := key "states" nm.states e (by simp [Names.group, hs])
          by_cases he : ∀ n ∈ nm.states, n ∈ e.keys
          · simp only [k2.1 he, if_true]
            exact ⟨⟨fun _ => ⟨hiff, fun _ => ⟨e, rfl, he⟩⟩, fun _ => trivial⟩, .inl trivial⟩
          · simp only [k2.2 he, if_true]
            refine ⟨⟨fun h => (by cases h), fun h => ?_⟩, .inr trivial⟩
            obtain ⟨e', h1, h2⟩ := h.2 trivial
            exact absurd (Option.some.inj h1 ▸ h2) he
    · simp only [bind, Except.bind, k1.2 hd]
      refine ⟨⟨fun h => (by cases h), fun h => ?_⟩, .inr trivial⟩
      obtain ⟨⟨d', h1, h2⟩, -⟩ := h
      exact absurd (Option.some.inj h1 ▸ h2) hd

/-- A model may not give an output the name of a submodel's output. -/
theorem C51_output_given_twice {nm : Names} {kw sub : Dict V} {k : String} (h1 : k ∈ kw.keys) (h2 : k ∈ sub.keys) :
    mergeOutputs nm kw sub = .error .typeError := by
  unfold mergeOutputs
  rw [if_pos ⟨k, h1, h2⟩]

/-! ## Example: a car that calls its aero model and its tire model -/

namespace ForwardExample

/-- The aero model doubles its input. -/
def aero : Mdl Nat :=
  .node ⟨⟨false, [], ["v"], ["F"], [], []⟩, fun kw =>
    match kw.inputs with
    | some d => (match d.lookup "v" with
      | some v => .done { outputs := [("F", 2 * v)] }
      | none => .fail .keyError)
    | none => .fail .typeError⟩ []

/-- The tire model cannot handle zero load. -/
def tire : Mdl Nat :=
  .node ⟨⟨false, [], ["load"], ["grip"], [], []⟩, fun kw =>
    match kw.inputs with
    | some d => (match d.lookup "load" with
      | some 0 => .fail .zeroDivisionError
      | some l => .done { outputs := [("grip", l + 1)] }
      | none => .fail .keyError)
    | none => .fail .typeError⟩ []

/-- The car calls both with its one input and returns all outputs. -/
def car : Mdl Nat :=
  .node ⟨⟨false, [], ["v"], ["sum"], [], []⟩, fun kw =>
    match kw.inputs with
    | some d => (match d.lookup "v" with
      | some v => .call "aero" { inputs := some [("v", v)] } fun ra =>
        .call "tire" { inputs := some [("load", v)] } fun rt =>
          .makeOutputs [("sum", ((ra.outputs.lookup "F").getD 0) + (rt.outputs.lookup "grip").getD 0)] fun o =>
            .done { outputs := o }
      | none => .fail .keyError)
    | none => .fail .typeError⟩ [("aero", aero), ("tire", tire)]

/-- The arguments with speed `v`. -/
def arg (v : Nat) : Kw Nat := { inputs := some [("v", v)] }

theorem car_orderly : Orderly car := by
  refine .node (by decide) ?_ ?_
  · intro kw
    dsimp only
    split
    · split
      · intro ra rt o; exact rfl
      · trivial
    · trivial
  · intro p hp
    simp only [List.mem_cons, List.not_mem_nil, or_false] at hp
    rcases hp with rfl | rfl
    · refine .node (by decide) ?_ (fun p hp => absurd hp List.not_mem_nil)
      intro kw; dsimp only
      split
      · split <;> trivial
      · trivial
    · refine .node (by decide) ?_ (fun p hp => absurd hp List.not_mem_nil)
      intro kw; dsimp only
      split
      · split <;> trivial
      · trivial

/-- The outputs of a result. -/
def outs : Py (Ret Nat) → Py (Dict Nat)
  | .ok r => .ok r.outputs
  | .error e => .error e

theorem car_ok : outs (car.eval (arg 3)) = .ok [("sum", 10), ("aero.F", 6), ("tire.grip", 4)] := by decide +kernel

/-- Two good calls give the same; after a call with zero speed the good call fails for ever, although a new object would
return. -/
example : (car.calls (clear car) [arg 3, arg 3]).2.map outs =
    [.ok [("sum", 10), ("aero.F", 6), ("tire.grip", 4)], .ok [("sum", 10), ("aero.F", 6), ("tire.grip", 4)]] := by
  decide +kernel

example : (car.calls (clear car) [arg 3, arg 0, arg 3, arg 3]).2.map outs =
    [.ok [("sum", 10), ("aero.F", 6), ("tire.grip", 4)], .error .zeroDivisionError, .error .runtimeError,
      .error .runtimeError] := by
  decide +kernel

end ForwardExample

end Mdl

end Lumos.Io
