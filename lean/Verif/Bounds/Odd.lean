import Verif.Bounds.Props
/-!
# Which bounds arguments can leave a lower bound above an upper bound (C19)

`C19_uniform` is about bounds arguments of the shape `BoundConfig` admits. Here every argument is
allowed, and the ones that break `lb ≤ ub` are found exactly: a pair of one lower value and an array of upper
values that fits neither one variable nor the variables it is for.
-/

namespace Lumos.Bounds

open Lumos DecVar DecVar.Layout

variable {V : Type}

/-! ## Specification -/

/-- A number, or an array of one number. -/
def BVal.IsOne (b : BVal V) : Prop := ∃ a, b = .scalar a ∨ b = .array [a]

/-- How many variables a request is for: one global, one stage, or all the stages. -/
def Req.count (L : Layout) (r : Req V) : Nat :=
  if r.group = "global" ∨ r.stage.isSome then 1 else L.numStages

/-- One lower value for all the variables of the request, and an array of upper values of the wrong length. -/
def Req.Mismatched (L : Layout) (r : Req V) : Prop :=
  r.arg.lb.IsOne ∧ ∃ bs, r.arg.ub = .array bs ∧ bs.length ≠ 1 ∧ bs.length ≠ r.count L

/-- The requests made in a call's arguments. -/
def Call.reqs : Call V → List (Req V)
  | .updateBounds cs => cs.map BoundConfig.req
  | .updateBCs bs => bs.map BC.req
  | .set r => [r]

/-! ## Lemmas -/

theorem count_positions {L : Layout} {r : Req V} {idx : Idx}
    (h : L.indexInDec r.group r.name r.stage = .ok idx) : (positions idx).length = r.count L := by
  rcases indexInDec_ok h with ⟨hg, _, rfl⟩ | ⟨hg, hs, _, rfl⟩ | ⟨hg, _, t, ht, _, rfl⟩
  · simp [positions, Req.count, hg]
  · simp [positions, Req.count, hg, hs]
  · simp [positions, Req.count, ht]

theorem assign_error {x : List V} {idx : Idx} {b : BVal V} {e : PyErr} (h : assign x idx b = .error e) :
    e = .valueError ∧ ∃ vs, b = .array vs ∧ vs.length ≠ 1 ∧ vs.length ≠ (positions idx).length := by
  cases idx with
  | scalar i =>
    cases b with
    | scalar v => simp [assign] at h
    | array vs =>
      match vs with
      | [v] => simp [assign] at h
      | [] => simp [assign] at h; exact ⟨h.symm, _, rfl, by simp, by simp [positions]⟩
      | _ :: _ :: _ => simp [assign] at h; exact ⟨h.symm, _, rfl, by simp, by simp [positions]⟩
  | array is =>
    cases b with
    | scalar v => simp [assign] at h
    | array vs =>
      simp only [assign] at h
      split at h
      · simp at h
      · rename_i hne
        split at h
        · simp at h
        · rename_i hx
          simp only [Except.error.injEq] at h
          refine ⟨h.symm, vs, rfl, ?_, by simpa [positions] using hne⟩
          intro h1
          match vs, h1 with
          | [v], _ => exact hx v rfl

theorem assign_wrong {x : List V} {idx : Idx} {vs : List V} (h1 : vs.length ≠ 1)
    (h2 : vs.length ≠ (positions idx).length) : assign x idx (.array vs) = .error .valueError := by
  cases h : assign x idx (.array vs) with
  | error e => rw [(assign_error h).1]
  | ok x' =>
    exfalso
    cases idx with
    | scalar i =>
      match vs, h1, h with
      | [v], h1, _ => simp at h1
    | array is =>
      simp only [assign, positions] at h h2
      rw [if_neg h2] at h
      split at h
      · simp at h1
      · simp at h

theorem assign_one {x : List V} {idx : Idx} {b : BVal V} (h : b.IsOne) : ∃ x', assign x idx b = .ok x' := by
  cases ha : assign x idx b with
  | ok x' => exact ⟨x', rfl⟩
  | error e =>
    obtain ⟨_, vs, rfl, h1, _⟩ := assign_error ha
    obtain ⟨a, h | h⟩ := h
    · simp at h
    · simp only [BVal.array.injEq] at h
      subst h
      simp at h1

variable [LinearOrder V]

theorem leAll_at {lb ub : BVal V} (h : leAll lb ub = .ok true) (k : Nat) {a b : V} (ha : lb.at k = some a)
    (hb : ub.at k = some b) : a ≤ b := by
  have mem : ∀ {vs : List V} {v : V}, (BVal.array vs).at k = some v → v ∈ vs := by
    intro vs v hv
    match vs with
    | [w] => simp only [BVal.at, Option.some.injEq] at hv; simp [hv]
    | [] => simp [BVal.at] at hv
    | _ :: _ :: _ => exact List.mem_of_getElem? hv
  cases lb with
  | scalar p =>
    simp only [BVal.at, Option.some.injEq] at ha
    subst ha
    cases ub with
    | scalar q =>
      simp only [BVal.at, Option.some.injEq] at hb
      subst hb
      simpa [leAll] using h
    | array bs =>
      simp only [leAll, Except.ok.injEq, List.all_eq_true, decide_eq_true_eq] at h
      exact h b (mem hb)
  | array as =>
    cases ub with
    | scalar q =>
      simp only [BVal.at, Option.some.injEq] at hb
      subst hb
      simp only [leAll, Except.ok.injEq, List.all_eq_true, decide_eq_true_eq] at h
      exact h a (mem ha)
    | array bs =>
      simp only [leAll] at h
      split at h
      · rename_i hl
        simp only [Except.ok.injEq, List.all_eq_true, decide_eq_true_eq] at h
        have key : ∀ (j : Nat), as[j]? = some a → bs[j]? = some b → a ≤ b := by
          intro j h1 h2
          have : (as.zip bs)[j]? = some (a, b) := by
            rw [List.getElem?_zip_eq_some]; exact ⟨h1, h2⟩
          exact h (a, b) (List.mem_of_getElem? this)
        match as, bs, hl with
        | [p], [q], _ => exact key 0 (by simpa [BVal.at] using ha) (by simpa [BVal.at] using hb)
        | [], [], _ => simp [BVal.at] at ha
        | p :: p' :: as, q :: q' :: bs, _ => exact key k ha hb
      · split at h
        · simp only [Except.ok.injEq, List.all_eq_true, decide_eq_true_eq] at h
          simp only [BVal.at, Option.some.injEq] at ha
          subst ha
          exact h b (mem hb)
        · simp only [Except.ok.injEq, List.all_eq_true, decide_eq_true_eq] at h
          simp only [BVal.at, Option.some.injEq] at hb
          subst hb
          exact h a (mem ha)
        · simp at h

/-- The second assignment fails after the first succeeded only for a mismatched pair. -/
theorem torn_mismatched {L : Layout} {r : Req V} {idx : Idx} {x y x' : List V} {e : PyErr}
    (hi : L.indexInDec r.group r.name r.stage = .ok idx) (hle : leAll r.arg.lb r.arg.ub = .ok true)
    (ha : assign x idx r.arg.lb = .ok x') (hu : assign y idx r.arg.ub = .error e) : r.Mismatched L := by
  obtain ⟨_, bs, hbs, h1, h2⟩ := assign_error hu
  refine ⟨?_, bs, hbs, h1, by rw [← count_positions hi]; exact h2⟩
  cases hlb : r.arg.lb with
  | scalar a => exact ⟨a, Or.inl rfl⟩
  | array as =>
    by_cases hone : as.length = 1
    · match as, hone with
      | [a], _ => exact ⟨a, Or.inr rfl⟩
    · exfalso
      rw [hlb] at ha hle
      rw [hbs] at hle
      have hlen : as.length = (positions idx).length := by
        by_contra hne
        rw [assign_wrong hone hne] at ha
        simp at ha
      have hab : as.length ≠ bs.length := fun he => h2 (by rw [← he]; exact hlen)
      simp only [leAll, if_neg hab] at hle
      split at hle
      · simp at hone
      · simp at h1
      · simp at hle

/-- A position keeps `lb ≤ ub` under any request that is not both mismatched and for that position. -/
theorem setVarBounds_okAt {L : Layout} {s : St V} {i : Nat}
    (hs : ∀ x y, s.lb[i]? = some x → s.ub[i]? = some y → x ≤ y) (r : Req V)
    (hr : r.Mismatched L → ∀ idx, L.indexInDec r.group r.name r.stage = .ok idx → i ∉ positions idx) :
    ∀ x y, (setVarBounds L s r.group r.name r.stage r.arg).1.lb[i]? = some x →
      (setVarBounds L s r.group r.name r.stage r.arg).1.ub[i]? = some y → x ≤ y := by
  unfold setVarBounds
  cases hi : L.indexInDec r.group r.name r.stage with
  | error e => exact hs
  | ok idx =>
    simp only
    split
    case isFalse => exact hs
    case isTrue =>
    cases hle : leAll r.arg.lb r.arg.ub with
    | error e => exact hs
    | ok t =>
      cases t with
      | false => exact hs
      | true =>
        simp only
        cases ha : assign s.lb idx r.arg.lb with
        | error e => exact hs
        | ok lb' =>
          simp only
          cases hu : assign s.ub idx r.arg.ub with
          | error e =>
            intro x y hx hy
            simp only at hx hy
            rw [assign_other ha i (hr (torn_mismatched hi hle ha hu) idx hi)] at hx
            exact hs x y hx hy
          | ok ub' =>
            intro x y hx hy
            simp only at hx hy
            by_cases hmem : i ∈ positions idx
            · obtain ⟨k, hk⟩ := List.mem_iff_getElem?.mp hmem
              have hnd := positions_nodup hi
              have h1 := (List.getElem?_eq_some_iff.mp hx).1
              have h2 := (List.getElem?_eq_some_iff.mp hy).1
              rw [length_assign ha] at h1
              rw [length_assign hu] at h2
              rw [assign_at ha hnd k i hk h1] at hx
              rw [assign_at hu hnd k i hk h2] at hy
              exact leAll_at hle k hx hy
            · rw [assign_other ha i hmem] at hx
              rw [assign_other hu i hmem] at hy
              exact hs x y hx hy

/-- What every call keeps: the lengths, and `lb ≤ ub` at the position. -/
structure OkAt (L : Layout) (i : Nat) (s : St V) : Prop where
  lbLen : s.lb.length = L.numDec
  ubLen : s.ub.length = L.numDec
  le : ∀ x y, s.lb[i]? = some x → s.ub[i]? = some y → x ≤ y

/-- A request that cannot tear the bounds at the position. -/
def Req.Harmless (L : Layout) (i : Nat) (r : Req V) : Prop :=
  r.Mismatched L → ∀ idx, L.indexInDec r.group r.name r.stage = .ok idx → i ∉ positions idx

theorem OkAt.setVarBounds {L : Layout} {s : St V} {i : Nat} (hs : OkAt L i s) {r : Req V}
    (hr : r.Harmless L i) : OkAt L i (setVarBounds L s r.group r.name r.stage r.arg).1 := by
  have h := run_length L s hs.lbLen hs.ubLen (.set r)
  exact ⟨h.1, h.2, setVarBounds_okAt hs.le r hr⟩

theorem OkAt.setAll {L : Layout} {s : St V} {i : Nat} (hs : OkAt L i s) (rs : List (Req V))
    (hr : ∀ r ∈ rs, r.Harmless L i) : OkAt L i (setAll L s rs).1 := by
  induction rs generalizing s with
  | nil => exact hs
  | cons r rs ih =>
    have h1 := hs.setVarBounds (hr r (by simp))
    simp only [Bounds.setAll]
    cases h : Bounds.setVarBounds L s r.group r.name r.stage r.arg with
    | mk s1 e1 =>
      rw [h] at h1
      cases e1 with
      | some e => exact h1
      | none => exact ih h1 (fun r' h' => hr r' (by simp [h']))

theorem OkAt.call {L : Layout} {s : St V} {i : Nat} (hs : OkAt L i s)
    (hbc : ∀ b ∈ s.bcs, b.req.Harmless L i) (c : Call V) (hc : ∀ r ∈ c.reqs, r.Harmless L i) :
    OkAt L i (c.run L s).1 ∧ ∀ b ∈ (c.run L s).1.bcs, b.req.Harmless L i := by
  have hmap : ∀ {bs : List (BC V)}, (∀ b ∈ bs, b.req.Harmless L i) → ∀ r ∈ bs.map BC.req, r.Harmless L i := by
    intro bs h r hr
    obtain ⟨b, hb, rfl⟩ := List.mem_map.mp hr
    exact h b hb
  cases c with
  | updateBounds cs =>
    have h1 := hs.setAll (cs.map BoundConfig.req) hc
    have h2 := setAll_bcs L s (cs.map BoundConfig.req)
    simp only [Call.run, updateBounds]
    cases h : Bounds.setAll L s (cs.map BoundConfig.req) with
    | mk s1 e1 =>
      rw [h] at h1 h2
      simp only at h1 h2
      cases e1 with
      | some e => exact ⟨h1, by simp only; rw [h2]; exact hbc⟩
      | none =>
        simp only [applyBCs]
        refine ⟨h1.setAll _ (hmap (by rw [h2]; exact hbc)), ?_⟩
        rw [setAll_bcs, h2]; exact hbc
  | updateBCs bs =>
    have hall : ∀ b ∈ s.bcs ++ bs, b.req.Harmless L i := by
      intro b hb
      rcases List.mem_append.mp hb with h | h
      · exact hbc b h
      · exact hc _ (List.mem_map.mpr ⟨b, h, rfl⟩)
    simp only [Call.run, updateBCs, applyBCs]
    refine ⟨OkAt.setAll (s := { s with bcs := s.bcs ++ bs }) ⟨hs.lbLen, hs.ubLen, hs.le⟩ _ (hmap hall), ?_⟩
    rw [setAll_bcs]; exact hall
  | set r =>
    simp only [Call.run]
    refine ⟨hs.setVarBounds (hc r (by simp [Call.reqs])), ?_⟩
    rw [setVarBounds_bcs]; exact hbc

theorem OkAt.runAll {L : Layout} {i : Nat} (calls : List (Call V)) {s : St V} (hs : OkAt L i s)
    (hbc : ∀ b ∈ s.bcs, b.req.Harmless L i) (hc : ∀ c ∈ calls, ∀ r ∈ c.reqs, r.Harmless L i) :
    OkAt L i (runAll L s calls) := by
  induction calls generalizing s with
  | nil => exact hs
  | cons c cs ih =>
    have h := hs.call hbc c (hc c (by simp))
    exact ih h.1 h.2 (fun c' h' => hc c' (by simp [h']))

/-! ## Theorems -/

/-- **C19.** After every history of calls of the bounds API on a fresh problem, with whatever arguments and
whether or not they raise, a decision variable has `lb ≤ ub` unless a mismatched pair was given for it. -/
theorem C19_lb_le_ub [OrderBot V] [OrderTop V] {L : Layout} (hL : L.Made) (calls : List (Call V)) {v : Var}
    (hv : L.IsVar v) {i : Nat} (hq : L.query v = .ok (.scalar i))
    (hc : ∀ c ∈ calls, ∀ r ∈ c.reqs, r.Mismatched L → ¬ r.Mentions L v) :
    ∃ a b, (runAll L (fresh L) calls).lb[i]? = some a ∧ (runAll L (fresh L) calls).ub[i]? = some b ∧ a ≤ b := by
  obtain ⟨j, hj, hlt⟩ := C01_index_in_range hL hv
  rw [hq] at hj
  cases hj
  have h0 : OkAt L i (fresh L : St V) :=
    ⟨(fresh_ordered L).lbLen, (fresh_ordered L).ubLen, (fresh_ordered L).le i⟩
  have h := h0.runAll calls (by simp [fresh]) (fun c hc' r hr hm idx hi =>
    (positions_mentions hL r hi hv hq).2 (hc c hc' r hr hm))
  have hl := h.lbLen
  have hu := h.ubLen
  refine ⟨(runAll L (fresh L) calls).lb[i], (runAll L (fresh L) calls).ub[i],
    List.getElem?_eq_getElem (by omega), List.getElem?_eq_getElem (by omega), ?_⟩
  exact h.le _ _ (List.getElem?_eq_getElem (by omega)) (List.getElem?_eq_getElem (by omega))

/-- Without mismatched pairs the whole problem keeps `lb ≤ ub`, through every history. -/
theorem C19_no_mismatch [OrderBot V] [OrderTop V] (L : Layout) (calls : List (Call V))
    (hc : ∀ c ∈ calls, ∀ r ∈ c.reqs, ¬ r.Mismatched L) : Ordered L (runAll L (fresh L) calls) := by
  have h : ∀ i, OkAt L i (runAll L (fresh L : St V) calls) := by
    intro i
    have h0 : OkAt L i (fresh L : St V) :=
      ⟨(fresh_ordered L).lbLen, (fresh_ordered L).ubLen, (fresh_ordered L).le i⟩
    exact h0.runAll calls (by simp [fresh]) (fun c hc' r hr hm => absurd hm (hc c hc' r hr))
  exact ⟨(h 0).lbLen, (h 0).ubLen, fun i => (h i).le⟩

/-- A mismatched pair is never accepted: the request raises. -/
theorem C19_mismatch_raises (L : Layout) (s : St V) {r : Req V} (hr : r.Mismatched L) :
    (setVarBounds L s r.group r.name r.stage r.arg).2 ≠ none := by
  intro h
  have h' : setVarBounds L s r.group r.name r.stage r.arg =
      ((setVarBounds L s r.group r.name r.stage r.arg).1, none) := Prod.ext rfl h
  obtain ⟨idx, lb', ub', hi, _, _, hb, _⟩ := setVarBounds_ok h'
  obtain ⟨_, bs, hbs, h1, h2⟩ := hr
  rw [hbs, assign_wrong h1 (by rw [count_positions hi]; exact h2)] at hb
  simp at hb

/-- So as long as no call raises, `lb ≤ ub` holds, whatever arguments were given. -/
theorem C19_until_exception [OrderBot V] [OrderTop V] (L : Layout) (calls : List (Call V))
    (hok : AllOk L (fresh L) calls) : Ordered L (runAll L (fresh L) calls) := by
  refine C19_no_mismatch L calls ?_
  have hall : ∀ (rs : List (Req V)) (s : St V), (setAll L s rs).2 = none → ∀ r ∈ rs, ¬ r.Mismatched L := by
    intro rs
    induction rs with
    | nil => intro s _ r hr; simp at hr
    | cons q rs ih =>
      intro s h r hr
      simp only [setAll] at h
      cases h1 : setVarBounds L s q.group q.name q.stage q.arg with
      | mk s1 e1 =>
        rw [h1] at h
        cases e1 with
        | some e => simp at h
        | none =>
          rcases List.mem_cons.mp hr with rfl | hr
          · intro hm
            exact C19_mismatch_raises L s hm (by rw [h1])
          · exact ih s1 h r hr
  have key : ∀ (calls : List (Call V)) (s : St V), AllOk L s calls →
      ∀ c ∈ calls, ∀ r ∈ c.reqs, ¬ r.Mismatched L := by
    intro calls
    induction calls with
    | nil => intro s _ c hc; simp at hc
    | cons d ds ih =>
      intro s h c hc r hr
      rcases List.mem_cons.mp hc with rfl | hc
      · have h1 := h.1
        cases c with
        | updateBounds cs =>
          simp only [Call.run, updateBounds] at h1
          cases h2 : setAll L s (cs.map BoundConfig.req) with
          | mk s1 e1 =>
            rw [h2] at h1
            cases e1 with
            | some e => simp at h1
            | none => exact hall (cs.map BoundConfig.req) s (by rw [h2]) r hr
        | updateBCs bs =>
          simp only [Call.run, updateBCs, applyBCs] at h1
          exact hall _ _ h1 r (by simp only [Call.reqs] at hr; simp only [List.map_append]; simp [hr])
        | set q =>
          simp only [Call.reqs, List.mem_singleton] at hr
          subst hr
          exact fun hm => C19_mismatch_raises L s hm h1
      · exact ih _ h.2 c hc r hr
  exact key calls _ hok

/-- The condition is exact: in any state, a mismatched pair whose lower value is at most all its upper values
raises ValueError, and leaves a variable it is for with that lower value and the old upper bound - also when
this is smaller. -/
theorem C19_mismatch_tears {L : Layout} (hL : L.Made) {s : St V} (hlb : s.lb.length = L.numDec)
    {r : Req V} (hr : r.Mismatched L)
    (hfit : r.count L = 1 ∨ ∃ a, r.arg.lb = .scalar a)
    (hle : leAll r.arg.lb r.arg.ub = .ok true) {v : Var} (hv : L.IsVar v) (hm : r.Mentions L v)
    {idx : Idx} (hi : L.indexInDec r.group r.name r.stage = .ok idx)
    {i : Nat} (hq : L.query v = .ok (.scalar i)) {c : V} (hu : s.ub[i]? = some c) :
    (setVarBounds L s r.group r.name r.stage r.arg).2 = some .valueError ∧
    (setVarBounds L s r.group r.name r.stage r.arg).1.lb[i]? = r.arg.lb.at 0 ∧
    (setVarBounds L s r.group r.name r.stage r.arg).1.ub[i]? = some c := by
  obtain ⟨j, hj, hlt⟩ := C01_index_in_range hL hv
  rw [hq] at hj
  cases hj
  obtain ⟨hone, bs, hbs, h1, h2⟩ := hr
  obtain ⟨lb', ha⟩ := assign_one (x := s.lb) (idx := idx) hone
  have hb : assign s.ub idx r.arg.ub = .error .valueError := by
    rw [hbs]; exact assign_wrong h1 (by rw [count_positions hi]; exact h2)
  have hsize : sizeOk L idx r.arg.lb = true := by
    obtain ⟨a, h | h⟩ := hone
    · rw [h]; cases idx <;> rfl
    · rw [h]
      cases idx with
      | scalar i => rfl
      | array is =>
        simp only [sizeOk, List.length_cons, List.length_nil, decide_eq_true_eq]
        rcases hfit with h3 | ⟨b, h3⟩
        · rcases indexInDec_ok hi with ⟨_, _, h4⟩ | ⟨hg, hs, _, _⟩ | ⟨_, _, t, _, _, h4⟩
          · cases h4
          · simp [Req.count, hg, hs] at h3; omega
          · cases h4
        · rw [h] at h3; cases h3
  have hat := assign_at ha (positions_nodup hi) _ i ((positions_mentions hL r hi hv hq).1 hm) (by omega)
  have hk : r.arg.lb.at (r.slot v) = r.arg.lb.at 0 := by
    obtain ⟨a, h | h⟩ := hone <;> rw [h] <;> rfl
  unfold setVarBounds
  rw [hi]
  simp only [hsize, if_true, hle, ha, hb]
  exact ⟨trivial, by rw [hat, hk], hu⟩


omit [LinearOrder V] in
/-- What `BoundConfig` admits is never mismatched. -/
theorem C19_uniform_fits (L : Layout) {r : Req V} (h : r.arg.Uniform) : ¬ r.Mismatched L := by
  rintro ⟨⟨a, ha⟩, bs, hbs, h1, h2⟩
  match harg : r.arg, h with
  | .single v, _ =>
    rw [harg] at ha hbs
    simp only [BArg.lb, BArg.ub] at ha hbs
    subst hbs
    rcases ha with ha | ha <;> simp at ha
    subst ha
    simp at h1
  | .pair (.scalar p) (.scalar q), _ =>
    rw [harg] at hbs
    simp [BArg.ub] at hbs
  | .pair (.array as) (.array cs), h =>
    rw [harg] at ha hbs
    simp only [BArg.lb, BArg.ub, BVal.array.injEq] at ha hbs
    simp only [BArg.Uniform] at h
    subst hbs
    rcases ha with ha | ha
    · simp at ha
    · subst ha
      exact h1 (by simpa using h.symm)

/-- What `BoundConfig(...)` gives: the bounds as they were passed, a `TypeError` for a number together with an array,
and an `AssertionError` for every other pair that `C19_config` refuses. -/
theorem C19_config_result (g n : String) (lb ub : BVal V) :
    (∀ c, BoundConfig.make g n lb ub = .ok c → c.group = g ∧ c.name = n ∧ c.lb = lb ∧ c.ub = ub) ∧
    (∀ e, BoundConfig.make g n lb ub = .error e →
      e = (match lb, ub with
        | .scalar _, .scalar _ => .assertionError
        | .array _, .array _ => .assertionError
        | _, _ => .typeError)) := by
  match lb, ub with
  | .scalar a, .scalar b =>
    simp only [BoundConfig.make]
    split
    · exact ⟨by rintro c ⟨⟩; exact ⟨rfl, rfl, rfl, rfl⟩, by rintro e ⟨⟩⟩
    · exact ⟨by rintro c ⟨⟩, by rintro e ⟨⟩; rfl⟩
  | .scalar a, .array bs => exact ⟨by rintro c ⟨⟩, by rintro e ⟨⟩; rfl⟩
  | .array as, .scalar b => exact ⟨by rintro c ⟨⟩, by rintro e ⟨⟩; rfl⟩
  | .array as, .array bs =>
    simp only [BoundConfig.make]
    split
    · split
      · exact ⟨by rintro c ⟨⟩; exact ⟨rfl, rfl, rfl, rfl⟩, by rintro e ⟨⟩⟩
      · exact ⟨by rintro c ⟨⟩, by rintro e ⟨⟩; rfl⟩
    · exact ⟨by rintro c ⟨⟩, by rintro e ⟨⟩; rfl⟩

/-- Lower bounds for all stages of a variable must be as many as there are stages, or one number: any other array is an
`AssertionError`, and no bound is changed. -/
theorem C19_size {L : Layout} (s : St V) {g n : String} (hg : g ≠ "global") (hn : fullName g n ∈ L.stageVarNames)
    {b : BArg V} {vs : List V} (hb : b.lb = .array vs) (hv : vs.length ≠ L.numStages) :
    setVarBounds L s g n none b = (s, some .assertionError) := by
  have hi : L.indexInDec g n none = .ok (.array ((List.range L.numStages).map fun (s : Nat) =>
      L.stageVarNames.idxOf (fullName g n) + s * L.numVarStage)) := by
    simp [Layout.indexInDec, hg, Layout.stageEnum, hn, bind, Except.bind, pure, Except.pure]
  simp only [setVarBounds, hi, hb, sizeOk, decide_eq_false hv]
  simp

/-! ## Examples -/

/-- Odd pairs that fit: a lower number with one upper bound per stage, and the other way round. They return,
so `C19_until_exception` applies. -/
example : AllOk exLayout (fresh exLayout : St (Fin 9))
    [.set ⟨"states", "x", none, .pair (.scalar 1) (.array [1, 2, 3, 4, 5, 6, 7])⟩,
     .set ⟨"states", "v", none, .pair (.array [0, 1, 2, 3, 4, 5, 6]) (.scalar 7)⟩,
     .updateBCs [⟨some 2, "states", "x", .pair (.array [1]) (.scalar 3)⟩]] := by
  refine ⟨?_, ?_, ?_, trivial⟩ <;> decide +kernel

/-- A mismatched pair for `states.x` at stage 0; all other variables are covered by `C19_lb_le_ub`. -/
example : (⟨"states", "x", some 0, .pair (.scalar 3) (.array [3, 4])⟩ : Req (Fin 9)).Mismatched exLayout :=
  ⟨⟨3, Or.inl rfl⟩, [3, 4], rfl, by simp, by simp [Req.count]⟩

example : exLayout.indexInDec "states" "x" (some 0) = .ok (.scalar 0) ∧
    leAll (.scalar (3 : Fin 9)) (.array [3, 4]) = .ok true := by
  constructor <;> decide +kernel

/-- Six lower bounds for the seven stages of `exLayout`. -/
example : "states" ≠ "global" ∧ fullName "states" "x" ∈ exLayout.stageVarNames ∧
    ([0, 0, 0, 0, 0, 0] : List (Fin 9)).length ≠ exLayout.numStages := by
  refine ⟨?_, ?_, ?_⟩ <;> decide +kernel

example : BoundConfig.make "states" "x" (.scalar (3 : Fin 9)) (.array [3]) = .error .typeError := rfl

end Lumos.Bounds
