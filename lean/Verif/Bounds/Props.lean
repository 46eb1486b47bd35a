import Verif.Bounds.Model
import Mathlib.Order.Fin.Basic
/-!
# Properties of the bounds API (C19 – C21)
-/

namespace Lumos.Bounds

open Lumos DecVar DecVar.Layout

variable {V : Type}

/-! ## Specification -/

/-- The element of a bound value that belongs to the `k`-th addressed position: the value itself for a
scalar or a one-element array, the `k`-th element otherwise. -/
def BVal.at (b : BVal V) (k : Nat) : Option V :=
  match b with
  | .scalar v => some v
  | .array [v] => some v
  | .array vs => vs[k]?

/-- The request `r` addresses the variable `v`. A stage number may be given from the end (negative); no
stage means all stages. -/
def Req.Mentions (L : Layout) (r : Req V) : Var → Prop
  | .stage s g n => r.group ≠ "global" ∧ fullName r.group r.name = fullName g n ∧
      (r.stage = none ∨ r.stage = some (s : Int) ∨ r.stage = some ((s : Int) - L.numStages))
  | .glob n => r.group = "global" ∧ r.name = n

instance (L : Layout) (r : Req V) (v : Var) : Decidable (r.Mentions L v) := by
  cases v <;> simp only [Req.Mentions] <;> infer_instance

/-- Which element of the bound arrays belongs to the variable: its stage if all stages are addressed. -/
def Req.slot (r : Req V) : Var → Nat
  | .stage s _ _ => if r.stage = none then s else 0
  | .glob _ => 0

/-- The last request in the list that addresses `v`. -/
def lastMention (L : Layout) (rs : List (Req V)) (v : Var) : Option (Req V) :=
  rs.reverse.find? fun r => decide (r.Mentions L v)

/-- The bounds arguments that `BoundConfig` admits (and single values): both scalars, or both arrays of the
same length. -/
def BArg.Uniform : BArg V → Prop
  | .single _ => True
  | .pair (.scalar _) (.scalar _) => True
  | .pair (.array as) (.array bs) => as.length = bs.length
  | _ => False

/-- All bounds arguments of a call are uniform. -/
def Call.Uniform : Call V → Prop
  | .updateBounds cs => ∀ c ∈ cs, (BArg.pair c.lb c.ub).Uniform
  | .updateBCs bs => ∀ b ∈ bs, b.value.Uniform
  | .set r => r.arg.Uniform

/-- Every decision variable has a lower bound not above its upper bound. -/
structure Ordered [LinearOrder V] (L : Layout) (s : St V) : Prop where
  lbLen : s.lb.length = L.numDec
  ubLen : s.ub.length = L.numDec
  le : ∀ (i : Nat) (a b : V), s.lb[i]? = some a → s.ub[i]? = some b → a ≤ b

/-! ## Lemmas on array assignment -/

/-- The positions an index addresses, in order. -/
def positions : Idx → List Nat
  | .scalar i => [i]
  | .array is => is

@[simp] theorem length_setMany (x : List V) (ps : List (Nat × V)) : (setMany x ps).length = x.length := by
  induction ps generalizing x with
  | nil => rfl
  | cons p ps ih => simp [setMany, List.foldl_cons] at ih ⊢; rw [ih]; simp

theorem setMany_of_not_mem (x : List V) (ps : List (Nat × V)) (i : Nat) (h : i ∉ ps.map Prod.fst) :
    (setMany x ps)[i]? = x[i]? := by
  induction ps generalizing x with
  | nil => rfl
  | cons p ps ih =>
    simp only [List.map_cons, List.mem_cons, not_or] at h
    have := ih (x.set p.1 p.2) h.2
    simp only [setMany, List.foldl_cons] at this ⊢
    rw [this, List.getElem?_set_ne (Ne.symm h.1)]

theorem setMany_of_mem (x : List V) (ps : List (Nat × V)) (hnd : (ps.map Prod.fst).Nodup) (i : Nat) (v : V)
    (h : (i, v) ∈ ps) (hi : i < x.length) : (setMany x ps)[i]? = some v := by
  induction ps generalizing x with
  | nil => simp at h
  | cons p ps ih =>
    simp only [List.map_cons, List.nodup_cons] at hnd
    rcases List.mem_cons.mp h with h | h
    · subst h
      have := setMany_of_not_mem (x.set i v) ps i hnd.1
      simp only [setMany, List.foldl_cons] at this ⊢
      rw [this, List.getElem?_set_self hi]
    · have := ih (x.set p.1 p.2) hnd.2 h (by simpa using hi)
      simp only [setMany, List.foldl_cons] at this ⊢
      exact this

theorem BVal.at_array (vs : List V) (k : Nat) (hk : k < vs.length) : (BVal.array vs).at k = vs[k]? := by
  match vs, hk with
  | [v], hk =>
    have : k = 0 := by simpa using hk
    subst this; rfl
  | [], hk => simp at hk
  | _ :: _ :: _, _ => rfl

theorem assign_eq (x x' : List V) (idx : Idx) (b : BVal V) (h : assign x idx b = .ok x') :
    ∃ ps : List (Nat × V), x' = setMany x ps ∧ ps.map Prod.fst = positions idx ∧
      ∀ (k i : Nat), (positions idx)[k]? = some i → ∃ v, b.at k = some v ∧ (i, v) ∈ ps := by
  have hb : ∀ (is : List Nat) (v : V) (b : BVal V), (∀ k, b.at k = some v) →
      (is.map fun i => (i, v)).map Prod.fst = is ∧
      ∀ (k i : Nat), is[k]? = some i → ∃ w, b.at k = some w ∧ (i, w) ∈ is.map fun i => (i, v) := by
    intro is v b hb
    refine ⟨by simp [Function.comp_def], fun k i hk => ⟨v, hb k, ?_⟩⟩
    exact List.mem_map.mpr ⟨i, List.mem_of_getElem? hk, rfl⟩
  cases idx with
  | scalar i =>
    cases b with
    | scalar v =>
      simp only [assign, Except.ok.injEq] at h
      refine ⟨[(i, v)], h.symm, rfl, ?_⟩
      exact (hb [i] v (.scalar v) (fun _ => rfl)).2
    | array vs =>
      match vs, h with
      | [v], h =>
        simp only [assign, Except.ok.injEq] at h
        exact ⟨[(i, v)], h.symm, rfl, (hb [i] v (.array [v]) (fun _ => rfl)).2⟩
  | array is =>
    cases b with
    | scalar v =>
      simp only [assign, Except.ok.injEq] at h
      have := hb is v (.scalar v) (fun _ => rfl)
      exact ⟨_, h.symm, this.1, this.2⟩
    | array vs =>
      simp only [assign] at h
      split at h
      · rename_i hl
        simp only [Except.ok.injEq] at h
        refine ⟨_, h.symm, ?_, ?_⟩
        · simp [positions, List.map_fst_zip, hl]
        · intro k i hk
          have hk' : is[k]? = some i := hk
          have hlt : k < is.length := (List.getElem?_eq_some_iff.mp hk').1
          have hv : vs[k]? = some vs[k] := List.getElem?_eq_getElem (by omega)
          refine ⟨vs[k], ?_, ?_⟩
          · rw [BVal.at_array vs k (by omega), hv]
          · have : (is.zip vs)[k]? = some (i, vs[k]) := by
              rw [List.getElem?_zip_eq_some]; exact ⟨hk', hv⟩
            exact List.mem_of_getElem? this
      · split at h
        · rename_i v _
          simp only [Except.ok.injEq] at h
          have := hb is v (.array [v]) (fun _ => rfl)
          exact ⟨_, h.symm, this.1, this.2⟩
        · simp at h

theorem length_assign {x x' : List V} {idx : Idx} {b : BVal V} (h : assign x idx b = .ok x') :
    x'.length = x.length := by
  obtain ⟨ps, rfl, _⟩ := assign_eq x x' idx b h
  simp

theorem assign_other {x x' : List V} {idx : Idx} {b : BVal V} (h : assign x idx b = .ok x') (i : Nat)
    (hi : i ∉ positions idx) : x'[i]? = x[i]? := by
  obtain ⟨ps, rfl, hp, _⟩ := assign_eq x x' idx b h
  exact setMany_of_not_mem x ps i (by rw [hp]; exact hi)

theorem assign_at {x x' : List V} {idx : Idx} {b : BVal V} (h : assign x idx b = .ok x')
    (hnd : (positions idx).Nodup) (k i : Nat) (hk : (positions idx)[k]? = some i) (hi : i < x.length) :
    x'[i]? = b.at k := by
  obtain ⟨ps, rfl, hp, hv⟩ := assign_eq x x' idx b h
  obtain ⟨v, hb, hm⟩ := hv k i hk
  rw [hb]
  exact setMany_of_mem x ps (by rw [hp]; exact hnd) i v hm hi

/-! ## Index lemmas -/

theorem stageEnum_eq {L : Layout} {key : String} {e : Nat} (h : L.stageEnum key = .ok e) :
    key ∈ L.stageVarNames ∧ e = L.stageVarNames.idxOf key ∧ e < L.numVarStage := by
  unfold stageEnum at h
  split at h
  · rename_i hm
    simp only [Except.ok.injEq] at h
    refine ⟨hm, h.symm, ?_⟩
    rw [← length_stageVarNames, ← h]
    exact List.idxOf_lt_length_of_mem hm
  · simp at h

/-- The three possible outcomes of a successful index query. -/
theorem indexInDec_ok {L : Layout} {g n : String} {st : Option Int} {idx : Idx}
    (h : L.indexInDec g n st = .ok idx) :
    (g = "global" ∧ n ∈ L.globals ∧ idx = .scalar (L.numAllStageVar + L.globals.idxOf n)) ∨
    (g ≠ "global" ∧ st = none ∧ fullName g n ∈ L.stageVarNames ∧
      idx = .array ((List.range L.numStages).map fun (s : Nat) =>
        L.stageVarNames.idxOf (fullName g n) + s * L.numVarStage)) ∨
    (g ≠ "global" ∧ fullName g n ∈ L.stageVarNames ∧ ∃ t, st = some t ∧ L.badStage t = false ∧
      idx = .scalar (L.stageVarNames.idxOf (fullName g n) + L.wrapStage t * L.numVarStage)) := by
  unfold indexInDec at h
  split at h
  · rename_i hg
    left
    unfold globalEnum at h
    split at h
    · rename_i hm
      simp only [Except.map, Except.ok.injEq] at h
      exact ⟨hg, hm, h.symm⟩
    · simp [Except.map] at h
  · rename_i hg
    right
    cases st with
    | none =>
      left
      simp only at h
      cases he : L.stageEnum (fullName g n) with
      | error e => rw [he] at h; simp [bind, Except.bind] at h
      | ok e =>
        obtain ⟨h1, h2, h3⟩ := stageEnum_eq he
        rw [he] at h
        simp only [bind, Except.bind, pure, Except.pure, Except.ok.injEq] at h
        exact ⟨hg, rfl, h1, by rw [← h, h2]⟩
    | some t =>
      right
      simp only at h
      split at h
      · simp at h
      · rename_i hb
        cases he : L.stageEnum (fullName g n) with
        | error e => rw [he] at h; simp [bind, Except.bind] at h
        | ok e =>
          obtain ⟨h1, h2, h3⟩ := stageEnum_eq he
          rw [he] at h
          simp only [bind, Except.bind, pure, Except.pure, Except.ok.injEq] at h
          exact ⟨hg, h1, t, rfl, by simpa using hb, by rw [← h, h2]⟩

/-- The position of a stage variable. -/
theorem query_stage_pos {L : Layout} (h : L.Made) {s : Nat} {g n : String} (hv : L.IsVar (.stage s g n))
    {i : Nat} (hq : L.query (.stage s g n) = .ok (.scalar i)) :
    fullName g n ∈ L.stageVarNames ∧ s < L.numStages ∧
      i = L.stageVarNames.idxOf (fullName g n) + s * L.numVarStage := by
  have hs := hv.1
  have hg : g ≠ "global" := fun e => h.reserved (e ▸ hv.2.1)
  rcases indexInDec_ok (show L.indexInDec g n (some (s : Int)) = _ from hq) with ⟨h1, _⟩ | ⟨_, h1, _⟩ | ⟨_, hm, t, ht, _, hi⟩
  · exact absurd h1 hg
  · cases h1
  · cases ht
    rw [wrapStage_nat L s hs] at hi
    cases hi
    exact ⟨hm, hs, rfl⟩

theorem split_pos {a b s t m : Nat} (ha : a < m) (hb : b < m) (h : a + s * m = b + t * m) : a = b ∧ s = t := by
  have hm : 0 < m := by omega
  have h1 : (a + s * m) % m = a := by rw [Nat.add_mul_mod_self_right, Nat.mod_eq_of_lt ha]
  have h2 : (b + t * m) % m = b := by rw [Nat.add_mul_mod_self_right, Nat.mod_eq_of_lt hb]
  have e : a = b := by rw [← h1, ← h2, h]
  subst e
  exact ⟨rfl, Nat.eq_of_mul_eq_mul_right hm (by omega)⟩

theorem positions_nodup {L : Layout} {g n : String} {st : Option Int} {idx : Idx}
    (h : L.indexInDec g n st = .ok idx) : (positions idx).Nodup := by
  rcases indexInDec_ok h with ⟨_, _, rfl⟩ | ⟨_, _, hm, rfl⟩ | ⟨_, _, t, _, _, rfl⟩
  · simp [positions]
  · have hlt : L.stageVarNames.idxOf (fullName g n) < L.numVarStage := by
      rw [← length_stageVarNames]; exact List.idxOf_lt_length_of_mem hm
    simp only [positions]
    refine List.Nodup.map ?_ List.nodup_range
    intro s t hst
    exact (split_pos hlt hlt hst).2
  · simp [positions]

theorem wrapStage_eq_iff {L : Layout} {t : Int} (hb : L.badStage t = false) {s : Nat} (hs : s < L.numStages) :
    L.wrapStage t = s ↔ t = (s : Int) ∨ t = (s : Int) - L.numStages := by
  unfold badStage at hb
  simp only [Bool.or_eq_false_iff, decide_eq_false_iff_not, not_lt] at hb
  unfold wrapStage
  obtain ⟨h1, h2⟩ := hb
  rcases lt_or_ge t 0 with h | h
  · have e : t % (L.numStages : Int) = t + L.numStages := by
      rw [← Int.add_emod_right, Int.emod_eq_of_lt (by omega) (by omega)]
    rw [e]; omega
  · rw [Int.emod_eq_of_lt h (by omega)]; omega

/-- A successful query addresses exactly the variables it mentions, each in its slot. -/
theorem positions_mentions {L : Layout} (hL : L.Made) (r : Req V) {idx : Idx}
    (h : L.indexInDec r.group r.name r.stage = .ok idx) {v : Var} (hv : L.IsVar v) {i : Nat}
    (hq : L.query v = .ok (.scalar i)) :
    (r.Mentions L v → (positions idx)[r.slot v]? = some i) ∧ (¬ r.Mentions L v → i ∉ positions idx) := by
  have hidx : ∀ {k : String}, k ∈ L.stageVarNames → L.stageVarNames.idxOf k < L.numVarStage := by
    intro k hk; rw [← length_stageVarNames]; exact List.idxOf_lt_length_of_mem hk
  have hinj : ∀ {k k' : String}, k ∈ L.stageVarNames →
      L.stageVarNames.idxOf k = L.stageVarNames.idxOf k' → k = k' := by
    intro k k' hk he; exact (List.idxOf_inj hk).mp he
  have hbound : ∀ {a s : Nat}, a < L.numVarStage → s < L.numStages → a + s * L.numVarStage < L.numAllStageVar := by
    intro r s hr hs
    have h2 : (s + 1) * L.numVarStage ≤ L.numStages * L.numVarStage := Nat.mul_le_mul_right _ hs
    rw [Nat.add_mul, Nat.one_mul] at h2
    unfold numAllStageVar; omega
  cases v with
  | stage s g n =>
    obtain ⟨hm, hs, rfl⟩ := query_stage_pos hL hv hq
    rcases indexInDec_ok h with ⟨hg, _, rfl⟩ | ⟨hg, hst, hm', rfl⟩ | ⟨hg, hm', t, hst, hb, rfl⟩
    · refine ⟨fun hc => absurd hg hc.1, fun _ hc => ?_⟩
      simp only [positions, List.mem_singleton] at hc
      have := hbound (hidx hm) hs
      omega
    · refine ⟨fun hc => ?_, fun hc hmem => hc ⟨hg, ?_, Or.inl hst⟩⟩
      · simp only [positions, Req.slot, hst, if_true, List.getElem?_map, List.getElem?_range hs,
          Option.map_some, hc.2.1]
      · simp only [positions, List.mem_map, List.mem_range] at hmem
        obtain ⟨s', hs', he⟩ := hmem
        exact hinj hm' (split_pos (hidx hm') (hidx hm) he).1
    · refine ⟨fun hc => ?_, fun hc hmem => hc ⟨hg, ?_, Or.inr ?_⟩⟩
      · have hw : L.wrapStage t = s := by
          rw [wrapStage_eq_iff hb hs]
          simpa [hst] using hc.2.2
        simp [positions, Req.slot, hst, hw, hc.2.1]
      · simp only [positions, List.mem_singleton] at hmem
        exact (hinj hm (split_pos (hidx hm) (hidx hm') hmem).1).symm
      · simp only [positions, List.mem_singleton] at hmem
        have hw := (split_pos (hidx hm) (hidx hm') hmem).2
        rw [hst]
        simpa using (wrapStage_eq_iff hb hs).mp hw.symm
  | glob n =>
    have hn : n ∈ L.globals := hv
    rw [query_glob hv] at hq
    simp only [Except.ok.injEq, Idx.scalar.injEq] at hq
    subst hq
    rcases indexInDec_ok h with ⟨hg, hm', rfl⟩ | ⟨hg, hst, hm', rfl⟩ | ⟨hg, hm', t, hst, hb, rfl⟩
    · refine ⟨fun hc => ?_, fun hc hmem => hc ⟨hg, ?_⟩⟩
      · simp [positions, Req.slot, hc.2]
      · simp only [positions, List.mem_singleton] at hmem
        exact ((List.idxOf_inj hn).mp (by omega)).symm
    · refine ⟨fun hc => absurd hc.1 hg, fun _ hmem => ?_⟩
      simp only [positions, List.mem_map, List.mem_range] at hmem
      obtain ⟨s', hs', he⟩ := hmem
      have := hbound (hidx hm') hs'
      omega
    · refine ⟨fun hc => absurd hc.1 hg, fun _ hmem => ?_⟩
      simp only [positions, List.mem_singleton] at hmem
      have := hbound (hidx hm') (wrapStage_lt L t)
      omega

/-! ## One request -/

variable [LinearOrder V]

/-- What a successful `_set_var_bounds` has done. -/
theorem setVarBounds_ok {L : Layout} {s s' : St V} {g n : String} {st : Option Int} {b : BArg V}
    (h : setVarBounds L s g n st b = (s', none)) :
    ∃ idx lb' ub', L.indexInDec g n st = .ok idx ∧ leAll b.lb b.ub = .ok true ∧
      assign s.lb idx b.lb = .ok lb' ∧ assign s.ub idx b.ub = .ok ub' ∧ s' = ⟨lb', ub', s.bcs⟩ := by
  unfold setVarBounds at h
  cases hi : L.indexInDec g n st with
  | error e => rw [hi] at h; simp at h
  | ok idx =>
    rw [hi] at h
    simp only at h
    split at h
    · cases hle : leAll b.lb b.ub with
      | error e => rw [hle] at h; simp at h
      | ok t =>
        rw [hle] at h
        cases t with
        | false => simp at h
        | true =>
          simp only at h
          cases ha : assign s.lb idx b.lb with
          | error e => rw [ha] at h; simp at h
          | ok lb' =>
            rw [ha] at h
            simp only at h
            cases hb : assign s.ub idx b.ub with
            | error e => rw [hb] at h; simp at h
            | ok ub' =>
              rw [hb] at h
              simp only [Prod.mk.injEq, and_true] at h
              exact ⟨idx, lb', ub', rfl, rfl, ha, hb, h.symm⟩
    · simp at h

theorem setVarBounds_at {L : Layout} (hL : L.Made) {s s' : St V} (hlb : s.lb.length = L.numDec)
    (hub : s.ub.length = L.numDec) {r : Req V} (h : setVarBounds L s r.group r.name r.stage r.arg = (s', none))
    {v : Var} (hv : L.IsVar v) {i : Nat} (hq : L.query v = .ok (.scalar i)) :
    s'.lb[i]? = (if r.Mentions L v then r.arg.lb.at (r.slot v) else s.lb[i]?) ∧
    s'.ub[i]? = (if r.Mentions L v then r.arg.ub.at (r.slot v) else s.ub[i]?) ∧
    s'.lb.length = L.numDec ∧ s'.ub.length = L.numDec ∧ s'.bcs = s.bcs := by
  obtain ⟨idx, lb', ub', hi, _, ha, hb, rfl⟩ := setVarBounds_ok h
  obtain ⟨j, hj, hlt⟩ := C01_index_in_range hL hv
  rw [hq] at hj
  cases hj
  have hp := positions_mentions hL r hi hv hq
  have hnd := positions_nodup hi
  refine ⟨?_, ?_, by rw [← hlb]; exact length_assign ha, by rw [← hub]; exact length_assign hb, rfl⟩
  · split
    · rename_i hm
      exact assign_at ha hnd _ i (hp.1 hm) (by omega)
    · rename_i hm
      exact assign_other ha i (hp.2 hm)
  · split
    · rename_i hm
      exact assign_at hb hnd _ i (hp.1 hm) (by omega)
    · rename_i hm
      exact assign_other hb i (hp.2 hm)

omit [LinearOrder V] in
theorem lastMention_cons (L : Layout) (r : Req V) (rs : List (Req V)) (v : Var) :
    lastMention L (r :: rs) v =
      (lastMention L rs v).or (if r.Mentions L v then some r else none) := by
  simp only [lastMention, List.reverse_cons, List.find?_append]
  congr 1
  by_cases h : r.Mentions L v <;> simp [h]

/-- A successful loop of requests leaves on every variable the value of the last request mentioning it. -/
theorem setAll_at {L : Layout} (hL : L.Made) (rs : List (Req V)) {s s' : St V}
    (hlb : s.lb.length = L.numDec) (hub : s.ub.length = L.numDec) (h : setAll L s rs = (s', none))
    {v : Var} (hv : L.IsVar v) {i : Nat} (hq : L.query v = .ok (.scalar i)) :
    s'.lb[i]? = (match lastMention L rs v with | some r => r.arg.lb.at (r.slot v) | none => s.lb[i]?) ∧
    s'.ub[i]? = (match lastMention L rs v with | some r => r.arg.ub.at (r.slot v) | none => s.ub[i]?) ∧
    s'.lb.length = L.numDec ∧ s'.ub.length = L.numDec ∧ s'.bcs = s.bcs := by
  induction rs generalizing s with
  | nil =>
    simp only [setAll, Prod.mk.injEq, and_true] at h
    subst h
    exact ⟨rfl, rfl, hlb, hub, rfl⟩
  | cons r rs ih =>
    simp only [setAll] at h
    cases h1 : setVarBounds L s r.group r.name r.stage r.arg with
    | mk s1 e1 =>
      rw [h1] at h
      cases e1 with
      | some e => simp at h
      | none =>
        simp only at h
        obtain ⟨a1, a2, a3, a4, a5⟩ := setVarBounds_at hL hlb hub h1 hv hq
        obtain ⟨b1, b2, b3, b4, b5⟩ := ih a3 a4 h
        refine ⟨?_, ?_, b3, b4, by rw [b5, a5]⟩
        · rw [b1, lastMention_cons, a1]
          cases lastMention L rs v with
          | some r' => simp
          | none => by_cases hm : r.Mentions L v <;> simp [hm]
        · rw [b2, lastMention_cons, a2]
          cases lastMention L rs v with
          | some r' => simp
          | none => by_cases hm : r.Mentions L v <;> simp [hm]

/-! ## C20 -/

/-- **C20.** After `update_bounds` succeeds, every variable has the bounds given by the last boundary
condition stored for it if there is one, else by the last config in the call that mentions it (the element of
its stage if arrays were given), else the bounds it had before. -/
theorem C20_last_bound_wins {L : Layout} (hL : L.Made) {s s' : St V} (hlb : s.lb.length = L.numDec)
    (hub : s.ub.length = L.numDec) {cs : List (BoundConfig V)} (h : updateBounds L s cs = (s', none))
    {v : Var} (hv : L.IsVar v) {i : Nat} (hq : L.query v = .ok (.scalar i)) :
    s'.lb[i]? =
      (match lastMention L (s.bcs.map BC.req) v with
       | some r => r.arg.lb.at (r.slot v)
       | none =>
         match lastMention L (cs.map BoundConfig.req) v with
         | some r => r.arg.lb.at (r.slot v)
         | none => s.lb[i]?) ∧
    s'.ub[i]? =
      (match lastMention L (s.bcs.map BC.req) v with
       | some r => r.arg.ub.at (r.slot v)
       | none =>
         match lastMention L (cs.map BoundConfig.req) v with
         | some r => r.arg.ub.at (r.slot v)
         | none => s.ub[i]?) := by
  unfold updateBounds at h
  cases h1 : setAll L s (cs.map BoundConfig.req) with
  | mk s1 e1 =>
    rw [h1] at h
    cases e1 with
    | some e => simp at h
    | none =>
      simp only at h
      obtain ⟨a1, a2, a3, a4, a5⟩ := setAll_at hL _ hlb hub h1 hv hq
      unfold applyBCs at h
      rw [a5] at h
      obtain ⟨b1, b2, _⟩ := setAll_at hL _ a3 a4 h hv hq
      rw [b1, b2]
      refine ⟨?_, ?_⟩
      · cases lastMention L (s.bcs.map BC.req) v with
        | some r => rfl
        | none => exact a1
      · cases lastMention L (s.bcs.map BC.req) v with
        | some r => rfl
        | none => exact a2

/-- A direct `set_*_bounds` call that succeeds changes exactly the variables it mentions. -/
theorem C20_direct_set {L : Layout} (hL : L.Made) {s s' : St V} (hlb : s.lb.length = L.numDec)
    (hub : s.ub.length = L.numDec) {r : Req V} (h : setVarBounds L s r.group r.name r.stage r.arg = (s', none))
    {v : Var} (hv : L.IsVar v) {i : Nat} (hq : L.query v = .ok (.scalar i)) :
    s'.lb[i]? = (if r.Mentions L v then r.arg.lb.at (r.slot v) else s.lb[i]?) ∧
    s'.ub[i]? = (if r.Mentions L v then r.arg.ub.at (r.slot v) else s.ub[i]?) :=
  ⟨(setVarBounds_at hL hlb hub h hv hq).1, (setVarBounds_at hL hlb hub h hv hq).2.1⟩

/-! ## C19 -/

theorem Ordered.setVarBounds {L : Layout} {s : St V} (hs : Ordered L s) (g n : String) (st : Option Int)
    {b : BArg V} (hb : b.Uniform) : Ordered L (setVarBounds L s g n st b).1 := by
  unfold Bounds.setVarBounds
  cases hi : L.indexInDec g n st with
  | error e => exact hs
  | ok idx =>
    simp only
    split
    case isFalse => exact hs
    case isTrue =>
    cases hle : leAll b.lb b.ub with
    | error e => exact hs
    | ok t =>
      cases t with
      | false => exact hs
      | true =>
        simp only
        cases ha : assign s.lb idx b.lb with
        | error e => exact hs
        | ok lb' =>
          simp only
          cases hu : assign s.ub idx b.ub with
          | error e =>
            exfalso
            -- with uniform bounds the second assignment succeeds whenever the first does
            match b, hb with
            | .single (.scalar v), _ => cases idx <;> simp [BArg.ub, assign] at hu
            | .single (.array vs), _ =>
              cases idx with
              | scalar i =>
                match vs with
                | [v] => simp [BArg.ub, assign] at hu
                | [] => simp [BArg.lb, assign] at ha
                | _ :: _ :: _ => simp [BArg.lb, assign] at ha
              | array is =>
                simp only [BArg.ub, BArg.lb, assign] at hu ha
                split at hu
                · simp at hu
                · rename_i hne
                  rw [if_neg hne] at ha
                  split at hu
                  · simp at hu
                  · rename_i hx
                    split at ha
                    · exact hx _ rfl
                    · simp at ha
            | .pair (.scalar _) (.scalar _), _ => cases idx <;> simp [BArg.ub, assign] at hu
            | .pair (.array as) (.array bs), hb =>
              simp only [BArg.Uniform] at hb
              cases idx with
              | scalar i =>
                match as, bs, hb with
                | [a], [b], _ => simp [BArg.ub, assign] at hu
                | [], _, _ => simp [BArg.lb, assign] at ha
                | _ :: _ :: _, _, _ => simp [BArg.lb, assign] at ha
              | array is =>
                simp only [BArg.ub, BArg.lb, assign] at hu ha
                rw [hb] at ha
                split at hu
                · simp at hu
                · rename_i hne
                  rw [if_neg hne] at ha
                  split at hu
                  · simp at hu
                  · rename_i hx
                    split at ha
                    · rename_i v
                      match bs, hb with
                      | [w], _ => exact hx w rfl
                    · simp at ha
          | ok ub' =>
            simp only
            refine ⟨by rw [length_assign ha]; exact hs.lbLen, by rw [length_assign hu]; exact hs.ubLen, ?_⟩
            intro i x y hx hy
            simp only at hx hy
            have hnd := positions_nodup hi
            by_cases hmem : i ∈ positions idx
            · obtain ⟨k, hk⟩ := List.mem_iff_getElem?.mp hmem
              have hilt : i < lb'.length := (List.getElem?_eq_some_iff.mp hx).1
              have hiu : i < ub'.length := (List.getElem?_eq_some_iff.mp hy).1
              rw [length_assign ha] at hilt
              rw [length_assign hu] at hiu
              rw [assign_at ha hnd k i hk hilt] at hx
              rw [assign_at hu hnd k i hk hiu] at hy
              match b, hb with
              | .single v, _ =>
                simp only [BArg.lb, BArg.ub] at hx hy
                rw [hx] at hy
                cases hy
                exact le_refl _
              | .pair (.scalar p) (.scalar q), _ =>
                simp only [BArg.lb, BArg.ub, BVal.at, Option.some.injEq, leAll, Except.ok.injEq,
                  decide_eq_true_eq] at hx hy hle
                subst hx hy
                exact hle
              | .pair (.array as) (.array bs), hb =>
                simp only [BArg.Uniform] at hb
                simp only [BArg.lb, BArg.ub, leAll, hb, if_true, Except.ok.injEq, List.all_eq_true,
                  decide_eq_true_eq] at hle hx hy
                have key : ∀ (j : Nat), as[j]? = some x → bs[j]? = some y → x ≤ y := by
                  intro j h1 h2
                  have : (as.zip bs)[j]? = some (x, y) := by
                    rw [List.getElem?_zip_eq_some]; exact ⟨h1, h2⟩
                  exact hle (x, y) (List.mem_of_getElem? this)
                match as, bs, hb with
                | [p], [q], _ =>
                  simp only [BVal.at] at hx hy
                  exact key 0 (by simpa using hx) (by simpa using hy)
                | [], [], _ => simp [BVal.at] at hx
                | p :: p' :: as, q :: q' :: bs, _ =>
                  simp only [BVal.at] at hx hy
                  exact key k hx hy
            · rw [assign_other ha i hmem] at hx
              rw [assign_other hu i hmem] at hy
              exact hs.le i x y hx hy

theorem setVarBounds_bcs (L : Layout) (s : St V) (g n : String) (st : Option Int) (b : BArg V) :
    (setVarBounds L s g n st b).1.bcs = s.bcs := by
  unfold setVarBounds
  repeat' split
  all_goals rfl

theorem Ordered.setAll {L : Layout} {s : St V} (hs : Ordered L s) (rs : List (Req V))
    (hr : ∀ r ∈ rs, r.arg.Uniform) : Ordered L (setAll L s rs).1 := by
  induction rs generalizing s with
  | nil => exact hs
  | cons r rs ih =>
    have h1 := hs.setVarBounds r.group r.name r.stage (hr r (by simp))
    simp only [Bounds.setAll]
    cases h : Bounds.setVarBounds L s r.group r.name r.stage r.arg with
    | mk s1 e1 =>
      rw [h] at h1
      cases e1 with
      | some e => exact h1
      | none => exact ih h1 (fun r' h' => hr r' (by simp [h']))

theorem setAll_bcs (L : Layout) (s : St V) (rs : List (Req V)) : (setAll L s rs).1.bcs = s.bcs := by
  induction rs generalizing s with
  | nil => rfl
  | cons r rs ih =>
    have h1 := setVarBounds_bcs L s r.group r.name r.stage r.arg
    simp only [setAll]
    cases h : setVarBounds L s r.group r.name r.stage r.arg with
    | mk s1 e1 =>
      rw [h] at h1
      cases e1 with
      | some e => exact h1
      | none => simp only; rw [ih]; exact h1

/-- The invariant kept by every call with uniform bounds arguments, raising or not. -/
theorem Ordered.call {L : Layout} {s : St V} (hs : Ordered L s) (hbc : ∀ b ∈ s.bcs, b.value.Uniform)
    (c : Call V) (hc : c.Uniform) :
    Ordered L (c.run L s).1 ∧ ∀ b ∈ (c.run L s).1.bcs, b.value.Uniform := by
  cases c with
  | updateBounds cs =>
    have hreq : ∀ r ∈ cs.map BoundConfig.req, r.arg.Uniform := by
      intro r hr
      obtain ⟨c, hc', rfl⟩ := List.mem_map.mp hr
      exact hc c hc'
    have h1 := hs.setAll (cs.map BoundConfig.req) hreq
    have h2 := setAll_bcs L s (cs.map BoundConfig.req)
    simp only [Call.run, updateBounds]
    cases h : Bounds.setAll L s (cs.map BoundConfig.req) with
    | mk s1 e1 =>
      rw [h] at h1 h2
      simp only at h1 h2
      cases e1 with
      | some e => exact ⟨h1, by simp only; rw [h2]; exact hbc⟩
      | none =>
        simp only [applyBCs]
        refine ⟨h1.setAll _ ?_, ?_⟩
        · intro r hr
          obtain ⟨c, hc', rfl⟩ := List.mem_map.mp hr
          rw [h2] at hc'
          exact hbc c hc'
        · rw [setAll_bcs, h2]; exact hbc
  | updateBCs bs =>
    have hall : ∀ b ∈ s.bcs ++ bs, b.value.Uniform := by
      intro b hb
      rcases List.mem_append.mp hb with h | h
      · exact hbc b h
      · exact hc b h
    simp only [Call.run, updateBCs, applyBCs]
    refine ⟨?_, ?_⟩
    · refine Ordered.setAll (s := { s with bcs := s.bcs ++ bs }) ⟨hs.lbLen, hs.ubLen, hs.le⟩ _ ?_
      intro r hr
      obtain ⟨c, hc', rfl⟩ := List.mem_map.mp hr
      exact hall c hc'
    · rw [setAll_bcs]; exact hall
  | set r =>
    simp only [Call.run]
    refine ⟨hs.setVarBounds _ _ _ hc, ?_⟩
    rw [setVarBounds_bcs]; exact hbc

theorem fresh_ordered [OrderBot V] [OrderTop V] (L : Layout) : Ordered L (fresh L : St V) := by
  refine ⟨by simp [fresh], by simp [fresh], ?_⟩
  intro i a b ha hb
  simp only [fresh, List.getElem?_replicate] at ha
  split at ha
  · cases ha; exact bot_le
  · simp at ha

/-- **C19 (uniform arguments).** After every history of calls of the bounds API, including calls that raise part-way,
every variable has `lb ≤ ub` — provided each bounds argument is a single value, a pair of scalars or a pair of
equally long arrays (what `BoundConfig` enforces, see `C19_config`). Other pairs, passed directly to `set_*_bounds` or as a
boundary condition, are dealt with in `Verif.Bounds.Odd`. -/
theorem C19_uniform [OrderBot V] [OrderTop V] (L : Layout) (calls : List (Call V))
    (hc : ∀ c ∈ calls, c.Uniform) : Ordered L (runAll L (fresh L) calls) := by
  have key : ∀ (calls : List (Call V)) (s : St V), Ordered L s → (∀ b ∈ s.bcs, b.value.Uniform) →
      (∀ c ∈ calls, c.Uniform) → Ordered L (runAll L s calls) := by
    intro calls
    induction calls with
    | nil => intro s hs _ _; exact hs
    | cons c cs ih =>
      intro s hs hb hc
      have h := hs.call hb c (hc c (by simp))
      exact ih _ h.1 h.2 (fun c' h' => hc c' (by simp [h']))
  exact key calls _ (fresh_ordered L) (by simp [fresh]) hc

/-- **C19 (configs).** Every `BoundConfig` that can be constructed has a uniform bounds argument, with lower
values not above upper values; construction fails exactly for the others. -/
theorem C19_config (g n : String) (lb ub : BVal V) :
    (∃ c, BoundConfig.make g n lb ub = .ok c) ↔
      ((BArg.pair lb ub).Uniform ∧ ∀ (k : Nat) (a b : V), lb.at k = some a → ub.at k = some b → a ≤ b) := by
  match lb, ub with
  | .scalar a, .scalar b =>
    simp only [BoundConfig.make, BArg.Uniform, BVal.at, Option.some.injEq, true_and]
    constructor
    · rintro ⟨c, hc⟩ _ x y rfl rfl
      split at hc
      · assumption
      · simp at hc
    · intro h
      exact ⟨⟨g, n, .scalar a, .scalar b⟩, by rw [if_pos (h 0 a b rfl rfl)]⟩
  | .scalar a, .array bs => simp [BoundConfig.make, BArg.Uniform]
  | .array as, .scalar b => simp [BoundConfig.make, BArg.Uniform]
  | .array as, .array bs =>
    have hat := @BVal.at_array V
    simp only [BoundConfig.make, BArg.Uniform]
    constructor
    · rintro ⟨c, hc⟩
      split at hc
      · rename_i hl
        split at hc
        · rename_i hall
          refine ⟨hl, ?_⟩
          simp only [List.all_eq_true, decide_eq_true_eq] at hall
          have key : ∀ (j : Nat) (x y : V), as[j]? = some x → bs[j]? = some y → x ≤ y := by
            intro j x y h1 h2
            have : (as.zip bs)[j]? = some (x, y) := by
              rw [List.getElem?_zip_eq_some]; exact ⟨h1, h2⟩
            exact hall (x, y) (List.mem_of_getElem? this)
          intro k a b ha hb
          match as, bs, hl with
          | [p], [q], _ => exact key 0 a b (by simpa [BVal.at] using ha) (by simpa [BVal.at] using hb)
          | [], [], _ => simp [BVal.at] at ha
          | p :: p' :: as, q :: q' :: bs, _ => exact key k a b ha hb
        · simp at hc
      · simp at hc
    · rintro ⟨hl, h⟩
      refine ⟨⟨g, n, .array as, .array bs⟩, ?_⟩
      rw [if_pos hl, if_pos]
      simp only [List.all_eq_true, decide_eq_true_eq]
      intro p hp
      obtain ⟨k, hk⟩ := List.mem_iff_getElem?.mp hp
      rw [List.getElem?_zip_eq_some] at hk
      have hk1 := (List.getElem?_eq_some_iff.mp hk.1).1
      have hk2 := (List.getElem?_eq_some_iff.mp hk.2).1
      exact h k p.1 p.2 (by rw [hat as k hk1]; exact hk.1) (by rw [hat bs k hk2]; exact hk.2)

/-! ## C21 -/

/-- A call that went through without an exception, on `update_bounds` or `update_boundary_conditions`. -/
def IsUpdate : Call V → Prop
  | .updateBounds _ => True
  | .updateBCs _ => True
  | .set _ => False

/-- A history in which every call succeeded. -/
def AllOk (L : Layout) (s : St V) : List (Call V) → Prop
  | [] => True
  | c :: cs => (c.run L s).2 = none ∧ AllOk L (c.run L s).1 cs

/-- The boundary conditions given in a history, in order. -/
def givenBCs : List (Call V) → List (BC V)
  | [] => []
  | .updateBCs bs :: cs => bs ++ givenBCs cs
  | _ :: cs => givenBCs cs

theorem run_bcs (L : Layout) (s : St V) (c : Call V) :
    (c.run L s).1.bcs = s.bcs ++ givenBCs [c] := by
  cases c with
  | updateBounds cs =>
    have h2 := setAll_bcs L s (cs.map BoundConfig.req)
    simp only [Call.run, updateBounds, givenBCs, List.append_nil]
    cases h : setAll L s (cs.map BoundConfig.req) with
    | mk s1 e1 =>
      rw [h] at h2
      cases e1 with
      | some e => exact h2
      | none => simp only [applyBCs]; rw [setAll_bcs]; exact h2
  | updateBCs bs => simp only [Call.run, updateBCs, applyBCs, setAll_bcs, givenBCs, List.append_nil]
  | set r => simp only [Call.run, setVarBounds_bcs, givenBCs, List.append_nil]

/-- Lengths are kept by every call. -/
theorem run_length (L : Layout) (s : St V) (hlb : s.lb.length = L.numDec) (hub : s.ub.length = L.numDec)
    (c : Call V) : (c.run L s).1.lb.length = L.numDec ∧ (c.run L s).1.ub.length = L.numDec := by
  have h1 : ∀ (s : St V) (g n : String) (st : Option Int) (b : BArg V), s.lb.length = L.numDec →
      s.ub.length = L.numDec → (setVarBounds L s g n st b).1.lb.length = L.numDec ∧
        (setVarBounds L s g n st b).1.ub.length = L.numDec := by
    intro s g n st b hl hu
    unfold setVarBounds
    cases L.indexInDec g n st with
    | error e => exact ⟨hl, hu⟩
    | ok idx =>
      simp only
      split
      · split
        · exact ⟨hl, hu⟩
        · exact ⟨hl, hu⟩
        · cases ha : assign s.lb idx b.lb with
          | error e => exact ⟨hl, hu⟩
          | ok lb' =>
            simp only
            cases hb : assign s.ub idx b.ub with
            | error e => exact ⟨by simp only; rw [length_assign ha]; exact hl, hu⟩
            | ok ub' =>
              exact ⟨by simp only; rw [length_assign ha]; exact hl,
                by simp only; rw [length_assign hb]; exact hu⟩
      · exact ⟨hl, hu⟩
  have h2 : ∀ (rs : List (Req V)) (s : St V), s.lb.length = L.numDec →
      s.ub.length = L.numDec → (setAll L s rs).1.lb.length = L.numDec ∧
        (setAll L s rs).1.ub.length = L.numDec := by
    intro rs
    induction rs with
    | nil => intro s hl hu; exact ⟨hl, hu⟩
    | cons r rs ih =>
      intro s hl hu
      have := h1 s r.group r.name r.stage r.arg hl hu
      simp only [setAll]
      cases h : setVarBounds L s r.group r.name r.stage r.arg with
      | mk s1 e1 =>
        rw [h] at this
        cases e1 with
        | some e => exact this
        | none => exact ih s1 this.1 this.2
  cases c with
  | updateBounds cs =>
    have := h2 (cs.map BoundConfig.req) s hlb hub
    simp only [Call.run, updateBounds]
    cases h : setAll L s (cs.map BoundConfig.req) with
    | mk s1 e1 =>
      rw [h] at this
      cases e1 with
      | some e => exact this
      | none => exact h2 _ s1 this.1 this.2
  | updateBCs bs => exact h2 _ { s with bcs := s.bcs ++ bs } hlb hub
  | set r => exact h1 s r.group r.name r.stage r.arg hlb hub

theorem runAll_length (L : Layout) (cs : List (Call V)) (s : St V) (hlb : s.lb.length = L.numDec)
    (hub : s.ub.length = L.numDec) :
    (runAll L s cs).lb.length = L.numDec ∧ (runAll L s cs).ub.length = L.numDec := by
  induction cs generalizing s with
  | nil => exact ⟨hlb, hub⟩
  | cons c cs ih => exact ih _ (run_length L s hlb hub c).1 (run_length L s hlb hub c).2

/-- After a successful update, every stored boundary condition is in force. -/
theorem update_applies {L : Layout} (hL : L.Made) {s s' : St V} (hlb : s.lb.length = L.numDec)
    (hub : s.ub.length = L.numDec) {c : Call V} (hu : IsUpdate c) (h : c.run L s = (s', none))
    {v : Var} (hv : L.IsVar v) {i : Nat} (hq : L.query v = .ok (.scalar i)) {r : Req V}
    (hr : lastMention L (s'.bcs.map BC.req) v = some r) :
    s'.lb[i]? = r.arg.lb.at (r.slot v) ∧ s'.ub[i]? = r.arg.ub.at (r.slot v) := by
  cases c with
  | updateBounds cs =>
    simp only [Call.run, updateBounds] at h
    cases h1 : setAll L s (cs.map BoundConfig.req) with
    | mk s1 e1 =>
      rw [h1] at h
      cases e1 with
      | some e => simp at h
      | none =>
        simp only at h
        obtain ⟨_, _, a3, a4, _⟩ := setAll_at hL _ hlb hub h1 hv hq
        unfold applyBCs at h
        obtain ⟨b1, b2, _, _, b5⟩ := setAll_at hL _ a3 a4 h hv hq
        rw [b5] at hr
        rw [b1, b2, hr]
        exact ⟨rfl, rfl⟩
  | updateBCs bs =>
    simp only [Call.run, updateBCs, applyBCs] at h
    obtain ⟨b1, b2, _, _, b5⟩ := setAll_at (s := { s with bcs := s.bcs ++ bs }) hL _ hlb hub h hv hq
    rw [b5] at hr
    rw [b1, b2, hr]
    exact ⟨rfl, rfl⟩
  | set r => exact absurd hu (by simp [IsUpdate])

/-- **C21.** After every history of successful `update_bounds` and `update_boundary_conditions` calls on a
fresh problem, a variable for which some boundary condition was given (at any time) has both bounds equal to
the value of the last one given for it. -/
theorem C21_boundary_conditions_persist [OrderBot V] [OrderTop V] {L : Layout} (hL : L.Made)
    (calls : List (Call V)) (hu : ∀ c ∈ calls, IsUpdate c) (hok : AllOk L (fresh L) calls) {v : Var}
    (hv : L.IsVar v) {i : Nat} (hq : L.query v = .ok (.scalar i)) {r : Req V}
    (hr : lastMention L ((givenBCs calls).map BC.req) v = some r) {x : V} (hx : r.arg = .single (.scalar x)) :
    (runAll L (fresh L) calls).lb[i]? = some x ∧ (runAll L (fresh L) calls).ub[i]? = some x := by
  have hrun : ∀ (calls : List (Call V)) (s : St V), (runAll L s calls).bcs = s.bcs ++ givenBCs calls := by
    intro calls
    induction calls with
    | nil => intro s; simp [runAll, givenBCs]
    | cons c cs ih =>
      intro s
      have e : givenBCs (c :: cs) = givenBCs [c] ++ givenBCs cs := by
        cases c <;> simp [givenBCs]
      rw [e, ← List.append_assoc, ← run_bcs]
      exact ih _
  rcases List.eq_nil_or_concat calls with rfl | ⟨pre, c, rfl⟩
  · simp [givenBCs, lastMention] at hr
  · have hsplit : ∀ (pre : List (Call V)) (s : St V), AllOk L s (pre ++ [c]) →
        (c.run L (runAll L s pre)).2 = none := by
      intro pre
      induction pre with
      | nil => intro s h; exact h.1
      | cons d ds ih => intro s h; exact ih _ h.2
    have hfin : runAll L (fresh L : St V) (pre ++ [c]) = (c.run L (runAll L (fresh L) pre)).1 := by
      simp [runAll, List.foldl_append]
    have hlen := runAll_length L pre (fresh L : St V) (by simp [fresh]) (by simp [fresh])
    have hres : c.run L (runAll L (fresh L) pre) = (runAll L (fresh L : St V) (pre ++ [c]), none) := by
      rw [hfin]
      have := hsplit pre _ (by simpa using hok)
      exact Prod.ext rfl this
    have hbcs := hrun (pre ++ [c]) (fresh L : St V)
    have e0 : (fresh L : St V).bcs = [] := rfl
    rw [e0, List.nil_append] at hbcs
    simp only [List.concat_eq_append] at hr hu ⊢
    have := update_applies hL hlen.1 hlen.2 (hu c (by simp)) hres hv hq (r := r) (by rw [hbcs]; exact hr)
    rw [this.1, this.2, hx]
    exact ⟨rfl, rfl⟩

/-- A stored boundary condition on a name that does not exist makes every later update raise: nothing removes
it. (Finding.) -/
theorem C21_bad_condition_is_permanent {L : Layout} {s : St V} {b : BC V} (hb : b ∈ s.bcs) {e : PyErr}
    (hbad : L.indexInDec b.group b.name b.stage = .error e) (c : Call V) (hc : IsUpdate c) :
    (c.run L s).2 ≠ none ∧ b ∈ (c.run L s).1.bcs := by
  have key : ∀ (rs : List (Req V)) (s : St V), b.req ∈ rs → (setAll L s rs).2 ≠ none := by
    intro rs
    induction rs with
    | nil => intro s h; simp at h
    | cons r rs ih =>
      intro s h
      simp only [setAll]
      rcases List.mem_cons.mp h with h | h
      · subst h
        simp [setVarBounds, BC.req, hbad]
      · cases h1 : setVarBounds L s r.group r.name r.stage r.arg with
        | mk s1 e1 =>
          cases e1 with
          | some e => simp
          | none => exact ih s1 h
  refine ⟨?_, ?_⟩
  · cases c with
    | updateBounds cs =>
      have h2 := setAll_bcs L s (cs.map BoundConfig.req)
      simp only [Call.run, updateBounds]
      cases h : setAll L s (cs.map BoundConfig.req) with
      | mk s1 e1 =>
        rw [h] at h2
        simp only at h2
        cases e1 with
        | some e => simp
        | none =>
          simp only [applyBCs]
          exact key _ s1 (List.mem_map.mpr ⟨b, by rw [h2]; exact hb, rfl⟩)
    | updateBCs bs =>
      simp only [Call.run, updateBCs, applyBCs]
      exact key _ _ (List.mem_map.mpr ⟨b, by simp [hb], rfl⟩)
    | set r => exact absurd hc (by simp [IsUpdate])
  · rw [run_bcs]; simp [hb]

/-! ## Findings and examples -/

/-- **C19 (finding).** A pair of a scalar and an array given to `set_state_bounds` for one stage stores the
lower bound and then raises: the lower bound is left above the upper bound that was there. -/
theorem C19_mixed_pair_breaks [OrderBot V] [OrderTop V] {a b c : V} (hab : a < b) (hbc : b ≤ c) :
    ∃ (L : Layout) (calls : List (Call V)), L.Made ∧ ¬ Ordered L (runAll L (fresh L) calls) ∧
      calls = [.updateBounds [⟨"states", "x", .scalar a, .scalar a⟩],
               .set ⟨"states", "x", some 0, .pair (.scalar b) (.array [b, c])⟩] := by
  refine ⟨exLayout, _, exLayout_made, ?_, rfl⟩
  intro h
  have hi : exLayout.indexInDec "states" "x" none = .ok (.array [0, 3, 6, 9, 12, 15, 18]) := by
    decide +kernel
  have hi0 : exLayout.indexInDec "states" "x" (some 0) = .ok (.scalar 0) := by decide +kernel
  have hn : exLayout.numDec = 22 := by decide +kernel
  have hl : exLayout.numStages = 7 := by decide +kernel
  have e : runAll exLayout (fresh exLayout : St V)
      [.updateBounds [⟨"states", "x", .scalar a, .scalar a⟩],
       .set ⟨"states", "x", some 0, .pair (.scalar b) (.array [b, c])⟩] =
      ⟨b :: (setMany (List.replicate 22 ⊥) ([0, 3, 6, 9, 12, 15, 18].map fun i => (i, a))).tail,
        setMany (List.replicate 22 ⊤) ([0, 3, 6, 9, 12, 15, 18].map fun i => (i, a)), []⟩ := by
    simp [runAll, Call.run, updateBounds, setAll, BoundConfig.req, setVarBounds, hi, hi0, sizeOk, leAll,
      BArg.lb, BArg.ub, assign, applyBCs, fresh, hn, setMany, hbc, List.replicate]
  rw [e] at h
  have := h.le 0 b a (by simp) (by simp [setMany, List.replicate])
  exact absurd hab (not_lt.mpr this)

/-- Hypotheses of C20 and C21 are met: a config for all stages, an array config and a boundary condition. -/
example : AllOk exLayout (fresh exLayout : St (Fin 9))
    [.updateBounds [⟨"states", "x", .scalar 1, .scalar 7⟩,
        ⟨"states", "v", .array [0, 1, 2, 3, 4, 5, 6], .array [1, 2, 3, 4, 5, 6, 7]⟩],
     .updateBCs [⟨some (-1), "states", "x", .single (.scalar 5)⟩],
     .updateBounds [⟨"states", "x", .scalar 2, .scalar 3⟩]] := by
  refine ⟨?_, ?_, ?_, trivial⟩ <;> decide +kernel

example : ((runAll exLayout (fresh exLayout : St (Fin 9))
    [.updateBounds [⟨"states", "x", .scalar 1, .scalar 7⟩],
     .updateBCs [⟨some (-1), "states", "x", .single (.scalar 5)⟩],
     .updateBounds [⟨"states", "x", .scalar 2, .scalar 3⟩]]).lb)
    = [2, 0, 0, 2, 0, 0, 2, 0, 0, 2, 0, 0, 2, 0, 0, 2, 0, 0, 5, 0, 0, 0] := by decide +kernel

/-- A direct `set_*_bounds` call overrides a boundary condition until the next update. (Finding.) -/
theorem C21_direct_set_overrides :
    let calls : List (Call (Fin 9)) := [.updateBCs [⟨some 0, "states", "x", .single (.scalar 5)⟩],
      .set ⟨"states", "x", some 0, .pair (.scalar 1) (.scalar 2)⟩]
    AllOk exLayout (fresh exLayout) calls ∧
      (runAll exLayout (fresh exLayout) calls).lb[0]? = some 1 ∧
      (runAll exLayout (fresh exLayout) calls).ub[0]? = some 2 := by
  refine ⟨⟨?_, ?_, trivial⟩, ?_, ?_⟩ <;> decide +kernel

/-- `update_bounds` that raises on its second config has already applied the first one, and the boundary
condition it overwrote is not re-applied. (Finding.) -/
theorem C21_partial_update_loses_condition :
    let calls : List (Call (Fin 9)) := [.updateBCs [⟨some 0, "states", "x", .single (.scalar 5)⟩],
      .updateBounds [⟨"states", "x", .scalar 1, .scalar 2⟩, ⟨"states", "typo", .scalar 1, .scalar 2⟩]]
    (runAll exLayout (fresh exLayout) calls).lb[0]? = some 1 := by
  decide +kernel

end Lumos.Bounds
