import Verif.Solver.Model
import Verif.Ocp.AlgProps
/-!
# `ModelSolver`: variables, positions and scale storage
-/

namespace Lumos.Solver

open Lumos Lumos.NLP Lumos.Ocp

/-- The position of a variable in the flat vector `[states, inputs, states_dot, con_outputs]` (specification). -/
def flatPos (M : ExplicitModel) (g n : String) : Option Nat :=
  if g = "states" then (if n ∈ M.states then some (M.states.idxOf n) else none)
  else if g = "inputs" then (if n ∈ M.inputs then some (M.nx + M.inputs.idxOf n) else none)
  else if g = "states_dot" then (if n ∈ M.states then some (M.nx + M.nu + M.states.idxOf n) else none)
  else if g = "con_outputs" then
    (if n ∈ M.conOutputs then some (M.nx + M.nu + M.nx + M.conOutputs.idxOf n) else none)
  else none

abbrev key (p : String × String) : String := constructName p.1 p.2

theorem allVars_eq (M : ExplicitModel) : MS.allVars M =
    M.states.map (fun n => ("states", n)) ++ (M.inputs.map (fun n => ("inputs", n)) ++
      (M.states.map (fun n => ("states_dot", n)) ++ M.conOutputs.map (fun n => ("con_outputs", n)))) := by
  simp [MS.allVars, ExplicitModel.groups]

theorem length_allVars (M : ExplicitModel) : (MS.allVars M).length = M.numVar := by
  rw [allVars_eq, ExplicitModel.numVar_eq]
  simp [ExplicitModel.nx, ExplicitModel.nu, ExplicitModel.ny]
  omega

theorem inputNames_eq (M : ExplicitModel) : inputNames M = (MS.allVars M).map key := by
  simp [inputNames, MS.allVars, ExplicitModel.groups, key, Function.comp_def]

/-- The four group names. -/
def groupNames : List String := ["states", "inputs", "states_dot", "con_outputs"]

theorem constructName_inj {g g' n n' : String} (hg : g ∈ groupNames) (hg' : g' ∈ groupNames)
    (h : constructName g n = constructName g' n') : g = g' ∧ n = n' := by
  have h' := congrArg String.toList h
  simp only [constructName, String.toList_append] at h'
  simp only [groupNames, List.mem_cons, List.not_mem_nil, or_false] at hg hg'
  rcases hg with rfl | rfl | rfl | rfl <;> rcases hg' with rfl | rfl | rfl | rfl <;>
    first
    | exact ⟨rfl, String.toList_injective (by simpa using h')⟩
    | (exfalso; revert h'; simp)

theorem mem_allVars {M : ExplicitModel} {p : String × String} (h : p ∈ MS.allVars M) : p.1 ∈ groupNames := by
  rw [allVars_eq] at h
  simp only [List.mem_append, List.mem_map] at h
  rcases h with ⟨n, _, rfl⟩ | ⟨n, _, rfl⟩ | ⟨n, _, rfl⟩ | ⟨n, _, rfl⟩ <;> simp [groupNames]

theorem key_inj {p q : String × String} (hp : p.1 ∈ groupNames) (hq : q.1 ∈ groupNames) (h : key p = key q) : p = q := by
  obtain ⟨h1, h2⟩ := constructName_inj hp hq h
  exact Prod.ext h1 h2

theorem nodup_allVars {M : ExplicitModel} (hM : M.Good) : (MS.allVars M).Nodup := by
  rw [allVars_eq]
  have inj : ∀ g : String, Function.Injective (fun n : String => (g, n)) := fun g a b h => by
    simpa using h
  simp only [List.nodup_append, List.mem_append, List.mem_map]
  refine ⟨hM.nodupS.map (inj _), ⟨hM.nodupI.map (inj _), ⟨hM.nodupS.map (inj _), hM.nodupY.map (inj _), ?_⟩, ?_⟩, ?_⟩
  · rintro _ ⟨n, _, rfl⟩ _ ⟨m, _, rfl⟩ h; simp at h
  · rintro _ ⟨n, _, rfl⟩ _ (⟨m, _, rfl⟩ | ⟨m, _, rfl⟩) h <;> simp at h
  · rintro _ ⟨n, _, rfl⟩ _ (⟨m, _, rfl⟩ | ⟨m, _, rfl⟩ | ⟨m, _, rfl⟩) h <;> simp at h

theorem nodup_inputNames {M : ExplicitModel} (hM : M.Good) : (inputNames M).Nodup := by
  rw [inputNames_eq]
  refine List.Nodup.map_on (fun p hp q hq h => key_inj (mem_allVars hp) (mem_allVars hq) h) (nodup_allVars hM)

theorem idxOf_map_on {α β : Type} [BEq α] [LawfulBEq α] [BEq β] [LawfulBEq β] (f : α → β) (l : List α) (a : α)
    (h : ∀ b ∈ l, f b = f a → b = a) : (l.map f).idxOf (f a) = l.idxOf a := by
  induction l with
  | nil => rfl
  | cons b l ih =>
    simp only [List.map_cons, List.idxOf_cons]
    have := h b List.mem_cons_self
    rw [ih fun c hc => h c (List.mem_cons_of_mem _ hc)]
    by_cases hb : b = a
    · simp [hb]
    · have hf : f b ≠ f a := fun e => hb (this e)
      have e1 : (f b == f a) = false := by simpa using hf
      have e2 : (b == a) = false := by simpa using hb
      rw [e1, e2]

theorem idxOf_pair (g : String) (l : List String) (n : String) :
    (l.map (fun m : String => (g, m))).idxOf (g, n) = l.idxOf n :=
  idxOf_map_on (fun m : String => (g, m)) l n (fun b _ h => by simpa using h)

theorem idxOf_append_not {α : Type} [BEq α] [LawfulBEq α] (a b : List α) (x : α) (h : x ∉ a) :
    (a ++ b).idxOf x = a.length + b.idxOf x := by
  rw [List.idxOf_append_of_notMem h]

/-- The position of a variable in the list of all variables is its flat position. -/
theorem idxOf_allVars {M : ExplicitModel} {g n : String} {i : Nat} (h : flatPos M g n = some i) :
    (g, n) ∈ MS.allVars M ∧ (MS.allVars M).idxOf (g, n) = i := by
  rw [allVars_eq]
  unfold flatPos at h
  split_ifs at h with h1 h2 h1 h2 h1 h2 h1 h2
  all_goals (subst h1; cases h)
  · refine ⟨by simp [h2], ?_⟩
    rw [List.idxOf_append_of_mem (by simp [h2]), idxOf_pair]
  · refine ⟨by simp [h2], ?_⟩
    rw [idxOf_append_not _ _ _ (by simp), List.idxOf_append_of_mem (by simp [h2]), idxOf_pair]
    simp [ExplicitModel.nx]
  · refine ⟨by simp [h2], ?_⟩
    rw [idxOf_append_not _ _ _ (by simp), idxOf_append_not _ _ _ (by simp), List.idxOf_append_of_mem (by simp [h2]),
      idxOf_pair]
    simp [ExplicitModel.nx, ExplicitModel.nu]
    omega
  · refine ⟨by simp [h2], ?_⟩
    rw [idxOf_append_not _ _ _ (by simp), idxOf_append_not _ _ _ (by simp), idxOf_append_not _ _ _ (by simp), idxOf_pair]
    simp [ExplicitModel.nx, ExplicitModel.nu]
    omega

theorem flatPos_of_mem {M : ExplicitModel} {g n : String} (h : (g, n) ∈ MS.allVars M) :
    flatPos M g n = some ((MS.allVars M).idxOf (g, n)) := by
  have : ∃ i, flatPos M g n = some i := by
    rw [allVars_eq] at h
    simp only [List.mem_append, List.mem_map, Prod.mk.injEq] at h
    rcases h with ⟨n, hn, rfl, rfl⟩ | ⟨n, hn, rfl, rfl⟩ | ⟨n, hn, rfl, rfl⟩ | ⟨n, hn, rfl, rfl⟩ <;>
      simp [flatPos, hn]
  obtain ⟨i, hi⟩ := this
  rw [hi, (idxOf_allVars hi).2]

theorem flatPos_none {M : ExplicitModel} {g n : String} (h : (g, n) ∉ MS.allVars M) : flatPos M g n = none := by
  cases hc : flatPos M g n with
  | none => rfl
  | some i => exact absurd (idxOf_allVars hc).1 h

theorem flatPos_lt {M : ExplicitModel} {g n : String} {i : Nat} (h : flatPos M g n = some i) : i < M.numVar := by
  obtain ⟨h1, h2⟩ := idxOf_allVars h
  rw [← h2, ← length_allVars]
  exact List.idxOf_lt_length_of_mem h1

/-- `get_var_index_in_flat` returns the flat position. -/
theorem varIndexInFlat_eq {M : ExplicitModel} {g n : String} {i : Nat} (h : flatPos M g n = some i) :
    M.varIndexInFlat g n = .ok i := by
  have hc : (Np.cumsum (M.groups.map fun g => g.2.length)) = [M.nx, M.nx + M.nu, M.nx + M.nu + M.nx,
      M.nx + M.nu + M.nx + M.ny] := by
    simp [ExplicitModel.groups, Np.cumsum, ExplicitModel.nx, ExplicitModel.nu, ExplicitModel.ny]
    omega
  have hk : M.groups.map (·.1) = ["states", "inputs", "states_dot", "con_outputs"] := rfl
  obtain ⟨l1, l2, l3, l4⟩ := M.lookup_groups
  unfold flatPos at h
  split_ifs at h with h1 h2 h1 h2 h1 h2 h1 h2
  all_goals (subst h1; cases h; unfold ExplicitModel.varIndexInFlat)
  · rw [l1, hc, hk]; simp [h2]
  · rw [l2, hc, hk]; simp [h2, List.lookup, Nat.add_comm]
  · rw [l3, hc, hk]; simp [h2, List.lookup, Nat.add_comm]
  · rw [l4, hc, hk]; simp [h2, List.lookup, Nat.add_comm]

/-- The enum lookup returns the flat position. -/
theorem getVarIdx_eq {s : MS} (hn : s.names = inputNames s.M) {g n : String} {i : Nat} (h : flatPos s.M g n = some i) :
    s.getVarIdx g n = .ok i := by
  obtain ⟨h1, h2⟩ := idxOf_allVars h
  have hm : constructName g n ∈ s.names := by
    rw [hn, inputNames_eq]
    exact List.mem_map.2 ⟨(g, n), h1, rfl⟩
  rw [MS.getVarIdx, if_pos hm, hn, inputNames_eq]
  have := idxOf_map_on key (MS.allVars s.M) (g, n)
    (fun b hb e => key_inj (mem_allVars hb) (mem_allVars h1) e)
  rw [show constructName g n = key (g, n) from rfl, this, h2]

theorem getVarIdx_inv {s : MS} (hn : s.names = inputNames s.M) {g n : String} {i : Nat} (h : s.getVarIdx g n = .ok i) :
    ∃ p ∈ MS.allVars s.M, key p = constructName g n ∧ (MS.allVars s.M).idxOf p = i := by
  unfold MS.getVarIdx at h
  split_ifs at h with hm
  cases h
  rw [hn, inputNames_eq] at hm ⊢
  obtain ⟨p, hp, hk⟩ := List.mem_map.1 hm
  refine ⟨p, hp, hk, ?_⟩
  rw [← hk, idxOf_map_on key _ p (fun b hb e => key_inj (mem_allVars hb) (mem_allVars hp) e)]

theorem getVarIdx_error {s : MS} (hn : s.names = inputNames s.M) {g n : String} (hg : g ∈ groupNames)
    (h : flatPos s.M g n = none) : s.getVarIdx g n = .error .keyError := by
  cases hc : s.getVarIdx g n with
  | ok i =>
    obtain ⟨p, hp, hk, _⟩ := getVarIdx_inv hn hc
    have := key_inj (q := (g, n)) (mem_allVars hp) hg hk
    subst this
    rw [flatPos_of_mem hp] at h
    cases h
  | error e =>
    unfold MS.getVarIdx at hc
    split_ifs at hc
    cases hc; rfl

/-! ## The scale dictionaries -/

/-- The dictionary of dictionaries that stores the scale `σ (group, name)` of every variable. -/
def scaleDict (M : ExplicitModel) (σ : String × String → ℝ) : Dict (Dict ℝ) :=
  M.groups.map fun (g : String × List String) => (g.1, g.2.map fun n => (n, σ (g.1, n)))

theorem lookup_names (ns : List String) (f : String → ℝ) {n : String} (h : n ∈ ns) :
    (ns.map fun m => (m, f m)).lookup n = some (f n) := by
  induction ns with
  | nil => cases h
  | cons a l ih =>
    rw [List.map_cons, Dict.lookup_cons]
    by_cases hn : n = a
    · simp [hn]
    · rw [if_neg hn]
      exact ih (by simpa [hn] using h)

theorem keys_names (ns : List String) (f : String → ℝ) : Dict.keys (ns.map fun m => (m, f m)) = ns := by
  simp [Dict.keys, Function.comp_def]

theorem set_names {ns : List String} (hnd : ns.Nodup) (f : String → ℝ) {n : String} (h : n ∈ ns) (v : ℝ) :
    Dict.set (ns.map fun m => (m, f m)) n v = ns.map fun m => (m, if m = n then v else f m) := by
  induction ns with
  | nil => cases h
  | cons a l ih =>
    rw [List.nodup_cons] at hnd
    by_cases hn : a = n
    · subst hn
      simp only [List.map_cons, Dict.set, if_true]
      congr 1
      apply List.map_congr_left
      intro m hm
      have : m ≠ a := fun e => hnd.1 (e ▸ hm)
      simp [this]
    · simp only [List.map_cons, Dict.set, if_neg hn]
      rw [ih hnd.2 (by simpa [Ne.symm hn] using h)]

theorem scaleOf_eq {s : MS} {σ : String × String → ℝ} (h : s.varScales = scaleDict s.M σ) {g n : String}
    (hm : (g, n) ∈ MS.allVars s.M) : s.scaleOf g n = .ok (σ (g, n)) := by
  rw [allVars_eq] at hm
  simp only [List.mem_append, List.mem_map, Prod.mk.injEq] at hm
  unfold MS.scaleOf
  rw [h]
  simp only [bind, Except.bind, Dict.get, scaleDict, ExplicitModel.groups, List.map_cons, List.map_nil, List.lookup]
  rcases hm with ⟨n, hn, rfl, rfl⟩ | ⟨n, hn, rfl, rfl⟩ | ⟨n, hn, rfl, rfl⟩ | ⟨n, hn, rfl, rfl⟩ <;>
    simp [lookup_names _ _ hn]

theorem scalesOf_eq {s : MS} {σ : String × String → ℝ} (h : s.varScales = scaleDict s.M σ) {g : String} {ns : List String}
    (hm : ∀ n ∈ ns, (g, n) ∈ MS.allVars s.M) : s.scalesOf g ns = .ok (ns.map fun n => σ (g, n)) := by
  unfold MS.scalesOf
  induction ns with
  | nil => rfl
  | cons a l ih =>
    rw [List.mapM_cons, scaleOf_eq h (hm a List.mem_cons_self), ih fun n hn => hm n (List.mem_cons_of_mem _ hn)]
    rfl

/-- The scales of the model algebra. -/
def algScales (M : ExplicitModel) (σ : String × String → ℝ) : List ℝ :=
  M.states.map (fun n => σ ("states", n)) ++ M.conOutputs.map (fun n => σ ("con_outputs", n)) ++ List.replicate M.nr 1

theorem algebraScales_eq {s : MS} {σ : String × String → ℝ} (h : s.varScales = scaleDict s.M σ) :
    s.algebraScales = .ok (algScales s.M σ) := by
  unfold MS.algebraScales
  rw [scalesOf_eq h (fun n hn => by rw [allVars_eq]; simp [hn]), scalesOf_eq h (fun n hn => by rw [allVars_eq]; simp [hn])]
  rfl

/-- The scales of all decision variables. -/
def decScales (M : ExplicitModel) (σ : String × String → ℝ) : List ℝ := (MS.allVars M).map σ

theorem foldl_put {s : MS} {σ : String × String → ℝ} (h : s.varScales = scaleDict s.M σ)
    (l : List (String × String)) (hl : ∀ p ∈ l, p ∈ MS.allVars s.M) (d : List ℝ) (hd : d.length = s.M.numVar) :
    ∃ d', l.foldl s.putScale (.ok d) = .ok d' ∧ d'.length = s.M.numVar ∧
      ∀ p ∈ MS.allVars s.M, d'.getD ((MS.allVars s.M).idxOf p) 0
        = if p ∈ l then σ p else d.getD ((MS.allVars s.M).idxOf p) 0 := by
  induction l generalizing d with
  | nil => exact ⟨d, rfl, hd, fun p _ => by simp⟩
  | cons q l ih =>
    obtain ⟨g, n⟩ := q
    have hq := hl (g, n) List.mem_cons_self
    have e1 : s.putScale (.ok d) (g, n) = .ok (d.set ((MS.allVars s.M).idxOf (g, n)) (σ (g, n))) := by
      unfold MS.putScale
      simp only [bind, Except.bind, varIndexInFlat_eq (flatPos_of_mem hq), scaleOf_eq h hq]
      rfl
    rw [List.foldl_cons, e1]
    obtain ⟨d', h1, h2, h3⟩ := ih (fun p hp => hl p (List.mem_cons_of_mem _ hp)) (d.set ((MS.allVars s.M).idxOf (g, n)) (σ (g, n)))
      (by simpa using hd)
    refine ⟨d', h1, h2, fun p hp => ?_⟩
    rw [h3 p hp]
    by_cases hpl : p ∈ l
    · simp [hpl]
    · rw [if_neg hpl]
      have hi : (MS.allVars s.M).idxOf (g, n) < d.length := by
        rw [hd, ← length_allVars]; exact List.idxOf_lt_length_of_mem hq
      by_cases hpq : p = (g, n)
      · subst hpq
        simp [List.getD_eq_getElem?_getD, hi]
      · have hne : (MS.allVars s.M).idxOf (g, n) ≠ (MS.allVars s.M).idxOf p := by
          intro e
          have a := List.getElem_idxOf (List.idxOf_lt_length_of_mem hq)
          have b := List.getElem_idxOf (List.idxOf_lt_length_of_mem hp)
          simp only [e] at a
          exact hpq (b.symm.trans a)
        simp [hpl, hpq, List.getD_eq_getElem?_getD, hne]

theorem newScales_eq {s : MS} {σ : String × String → ℝ} (h : s.varScales = scaleDict s.M σ) (hM : s.M.Good)
    (hl : s.prob.scales.length = s.M.numVar) : s.newScales = .ok (decScales s.M σ) := by
  obtain ⟨d', h1, h2, h3⟩ := foldl_put h (MS.allVars s.M) (fun _ h => h) s.prob.scales hl
  rw [MS.newScales, h1]
  congr 1
  apply List.ext_getElem (by simp [decScales, h2, length_allVars])
  intro i hi hi'
  have hi2 : i < (MS.allVars s.M).length := by simpa [decScales] using hi'
  have := h3 _ (List.getElem_mem hi2)
  rw [(nodup_allVars hM).idxOf_getElem i hi2, if_pos (List.getElem_mem hi2)] at this
  rw [List.getD_eq_getElem?_getD, List.getElem?_eq_getElem hi, Option.getD_some] at this
  rw [this]
  simp [decScales]

theorem scaleDict_set {M : ExplicitModel} (hM : M.Good) (σ : String × String → ℝ) {g n : String} (hm : (g, n) ∈ MS.allVars M)
    (v : ℝ) : ∃ d, Dict.get (scaleDict M σ) g = .ok d ∧ n ∈ d.keys ∧
      Dict.set (scaleDict M σ) g (Dict.set d n v) = scaleDict M (fun p => if p = (g, n) then v else σ p) := by
  rw [allVars_eq] at hm
  simp only [List.mem_append, List.mem_map, Prod.mk.injEq] at hm
  simp only [Dict.get, scaleDict, ExplicitModel.groups, List.map_cons, List.map_nil, List.lookup]
  rcases hm with ⟨n, hn, rfl, rfl⟩ | ⟨n, hn, rfl, rfl⟩ | ⟨n, hn, rfl, rfl⟩ | ⟨n, hn, rfl, rfl⟩
  · refine ⟨_, rfl, ?_, ?_⟩
    · rw [keys_names]; exact hn
    · rw [set_names hM.nodupS _ hn]; simp [Dict.set]
  · refine ⟨_, rfl, ?_, ?_⟩
    · rw [keys_names]; exact hn
    · rw [set_names hM.nodupI _ hn]; simp [Dict.set]
  · refine ⟨_, rfl, ?_, ?_⟩
    · rw [keys_names]; exact hn
    · rw [set_names hM.nodupS _ hn]; simp [Dict.set]
  · refine ⟨_, rfl, ?_, ?_⟩
    · rw [keys_names]; exact hn
    · rw [set_names hM.nodupY _ hn]; simp [Dict.set]

theorem scaleDict_miss {M : ExplicitModel} (σ : String × String → ℝ) {g n : String} (hg : g ∈ groupNames)
    (hm : (g, n) ∉ MS.allVars M) : ∃ d, Dict.get (scaleDict M σ) g = .ok d ∧ n ∉ d.keys := by
  rw [allVars_eq] at hm
  simp only [List.mem_append, List.mem_map, Prod.mk.injEq, not_or] at hm
  obtain ⟨a1, a2, a3, a4⟩ := hm
  simp only [Dict.get, scaleDict, ExplicitModel.groups, List.map_cons, List.map_nil, List.lookup]
  simp only [groupNames, List.mem_cons, List.not_mem_nil, or_false] at hg
  rcases hg with rfl | rfl | rfl | rfl
  · refine ⟨_, rfl, ?_⟩
    rw [keys_names]; intro h; exact a1 ⟨n, h, rfl, rfl⟩
  · refine ⟨_, rfl, ?_⟩
    rw [keys_names]; intro h; exact a2 ⟨n, h, rfl, rfl⟩
  · refine ⟨_, rfl, ?_⟩
    rw [keys_names]; intro h; exact a3 ⟨n, h, rfl, rfl⟩
  · refine ⟨_, rfl, ?_⟩
    rw [keys_names]; intro h; exact a4 ⟨n, h, rfl, rfl⟩

end Lumos.Solver
