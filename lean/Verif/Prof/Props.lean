import Verif.Prof.Model
import Verif.NLP.CompositeProps

/-!
# C115: profiling a problem
-/

namespace Lumos.NLP.Prof

open Lumos

/-! ## Specification -/

/-- What is timed, in order: each objective's three functions, each constraint's two (three with Hessians), and the problem's. -/
def keys (p : Prob) (hessian : Bool) : List String :=
  p.objs.flatMap (fun o => [o.1 ++ ".objective", o.1 ++ ".gradient", o.1 ++ ".hessian"])
  ++ p.cons.flatMap (fun c => [c.1 ++ ".constraints", c.1 ++ ".jacobian"] ++ if hessian then [c.1 ++ ".hessian"] else [])
  ++ ["nlp.objective", "nlp.gradient", "nlp.constraints", "nlp.jacobian"] ++ if hessian then ["nlp.hessian"] else []

/-- The results `d` report for each key the time that its function took, measured last if the key occurs more than once: the
`i`-th function timed was started at reading `2 i` of the clock and had ended at the next. -/
def Reports (K : List String) (repeat_ : Int) (clock : Nat → ℝ) (d : Dict ℝ) : Prop :=
  (∀ k, k ∉ K → d.lookup k = none) ∧
  ∀ i k, K[i]? = some k → (∀ j, i < j → K[j]? ≠ some k) →
    d.lookup k = some ((clock (2 * i + 1) - clock (2 * i)) / repeat_)

/-! ## Proofs -/

theorem callN_ok {k : String} {f : Fn} {p : Prob} (hf : f p = (p, none)) (n : Nat) : ∀ (t : Nat) (c : List String),
    callN k f n ⟨p, t, c⟩ = (⟨p, t, c ++ List.replicate n k⟩, none) := by
  induction n with
  | zero => intro t c; simp [callN]
  | succ n ih =>
    intro t c
    simp only [callN, call, hf, ih]
    simp [List.replicate_succ]

/-- How often a function is called. -/
def times (once : Bool) (repeat_ : Int) : Nat := (if once then 1 else 0) + repeat_.toNat

theorem timed_ok {k : String} {f : Fn} {p : Prob} (hf : f p = (p, none)) {n : Int} (hn : n ≠ 0) (clock : Nat → ℝ) (t : Nat) (c : List String) :
    timed n clock k f ⟨p, t, c⟩ = (⟨p, t + 2, c ++ List.replicate n.toNat k⟩, .ok ((clock (t + 1) - clock t) / n)) := by
  simp only [timed, callN_ok hf, if_neg hn]

theorem timeFunction_ok {k : String} {f : Fn} {p : Prob} (hf : f p = (p, none)) (once : Bool) {n : Int} (hn : n ≠ 0) (clock : Nat → ℝ) (t : Nat)
    (c : List String) : timeFunction once n clock k f ⟨p, t, c⟩
      = (⟨p, t + 2, c ++ List.replicate (times once n) k⟩, .ok ((clock (t + 1) - clock t) / n)) := by
  cases once with
  | false => simp only [timeFunction, Bool.false_eq_true, if_false, timed_ok hf hn, times, Nat.zero_add]
  | true =>
    simp only [timeFunction, if_true, call, hf, timed_ok hf hn, times, Nat.add_comm 1, List.replicate_succ]
    simp

/-- The results of functions that neither raise nor change the problem. -/
noncomputable def collect (n : Int) (clock : Nat → ℝ) : List String → Nat → Dict ℝ → Dict ℝ
  | [], _, d => d
  | k :: ks, t, d => collect n clock ks (t + 2) (d.set k ((clock (t + 1) - clock t) / n))

theorem runJobs_ok (once : Bool) {n : Int} (hn : n ≠ 0) (clock : Nat → ℝ) {p : Prob} : ∀ (js : List (String × Fn)),
    (∀ j ∈ js, j.2 p = (p, none)) → ∀ (rest : List (String × Fn)) (t : Nat) (c : List String) (d : Dict ℝ),
    runJobs once n clock (js ++ rest) ⟨p, t, c⟩ d
      = runJobs once n clock rest ⟨p, t + 2 * js.length, c ++ (js.map Prod.fst).flatMap (List.replicate (times once n))⟩
          (collect n clock (js.map Prod.fst) t d) := by
  intro js
  induction js with
  | nil => intro _ rest t c d; simp [collect]
  | cons j js ih =>
    intro hj rest t c d
    obtain ⟨k, f⟩ := j
    rw [List.cons_append, runJobs, timeFunction_ok (hj (k, f) (by simp)) once hn]
    simp only
    rw [ih (fun j h => hj j (List.mem_cons_of_mem _ h))]
    have e : t + 2 + 2 * js.length = t + 2 * (js.length + 1) := by ring
    simp [collect, e]

theorem collect_append (n : Int) (clock : Nat → ℝ) (K K' : List String) : ∀ (t : Nat) (d : Dict ℝ),
    collect n clock (K ++ K') t d = collect n clock K' (t + 2 * K.length) (collect n clock K t d) := by
  induction K with
  | nil => intro t d; rfl
  | cons k K ih =>
    intro t d
    rw [List.cons_append, collect, collect, ih]
    congr 1
    simp; omega

theorem collect_lookup (n : Int) (clock : Nat → ℝ) : ∀ (K : List String) (t : Nat) (d : Dict ℝ),
    (∀ k, k ∉ K → (collect n clock K t d).lookup k = d.lookup k) ∧
    ∀ i k, K[i]? = some k → (∀ j, i < j → K[j]? ≠ some k) →
      (collect n clock K t d).lookup k = some ((clock (t + (2 * i + 1)) - clock (t + 2 * i)) / n) := by
  intro K
  induction K with
  | nil => intro t d; exact ⟨fun _ _ => rfl, fun i k h => by simp at h⟩
  | cons a K ih =>
    intro t d
    obtain ⟨h1, h2⟩ := ih (t + 2) (d.set a ((clock (t + 1) - clock t) / n))
    refine ⟨fun k hk => ?_, fun i k hi hj => ?_⟩
    · rw [collect, h1 k (fun h => hk (List.mem_cons_of_mem _ h)), Dict.lookup_set, if_neg]
      rintro rfl
      exact hk (by simp)
    · cases i with
      | zero =>
        simp only [List.getElem?_cons_zero, Option.some.injEq] at hi
        subst hi
        rw [collect, h1 a ?_, Dict.lookup_set, if_pos rfl]
        · simp
        · intro h
          obtain ⟨j, hj'⟩ := List.mem_iff_getElem?.mp h
          exact hj (j + 1) (by omega) (by simpa using hj')
      | succ i =>
        rw [collect, h2 i k (by simpa using hi) fun j hij => by simpa using hj (j + 1) (by omega)]
        have e1 : t + 2 + (2 * i + 1) = t + (2 * (i + 1) + 1) := by ring
        have e2 : t + 2 + 2 * i = t + 2 * (i + 1) := by ring
        rw [e1, e2]

theorem collect_reports (n : Int) (clock : Nat → ℝ) (K : List String) : Reports K n clock (collect n clock K 0 []) := by
  obtain ⟨h1, h2⟩ := collect_lookup n clock K 0 []
  exact ⟨fun k hk => by rw [h1 k hk]; rfl, fun i k hi hj => by rw [h2 i k hi hj]; simp⟩

theorem jobs_keys (p : Prob) (x0 : List ℝ) (hessian : Bool) : (jobs p x0 hessian).map Prod.fst = keys p hessian := by
  cases hessian <;> simp [jobs, keys, List.map_flatMap, String.append_assoc]

/-- All but the problem's Hessian. -/
noncomputable def firstJobs (p : Prob) (hessian : Bool) : List (String × Fn) :=
  p.objs.flatMap (fun o => ["objective", "gradient", "hessian"].map fun m => (o.1 ++ "." ++ m, component))
  ++ p.cons.flatMap (fun c => (["constraints", "jacobian"].map fun m => (c.1 ++ "." ++ m, component))
      ++ if hessian then [(c.1 ++ "." ++ "hessian", component)] else [])

theorem first_still (p : Prob) (hessian : Bool) (q : Prob) : ∀ j ∈ firstJobs p hessian, j.2 q = (q, none) := by
  intro j hj
  have : j.2 = component := by
    cases hessian <;> simp [firstJobs] at hj <;> aesop
  rw [this]; rfl

/-- The four functions of the problem itself. -/
noncomputable def ownJobs (x0 : List ℝ) : List (String × Fn) :=
  [("nlp.objective", method fun p => p.objective x0), ("nlp.gradient", method fun p => p.gradient x0),
      ("nlp.constraints", method fun p => p.constraints x0), ("nlp.jacobian", method fun p => p.jacobian x0)]

theorem own_still {p : Prob} (hc : p.cons ≠ []) (ho : p.objs ≠ []) (x0 : List ℝ) : ∀ j ∈ ownJobs x0, j.2 p = (p, none) := by
  have hc' : p.cons.isEmpty = false := by simpa using hc
  have ho' : p.objs.isEmpty = false := by simpa using ho
  intro j hj
  simp only [ownJobs, List.mem_cons, List.not_mem_nil, or_false] at hj
  rcases hj with rfl | rfl | rfl | rfl <;>
    simp [method, Prob.objective, Prob.gradient, Prob.constraints, Prob.jacobian, hc', ho']

theorem jobs_split (p : Prob) (x0 : List ℝ) (hessian : Bool) :
    jobs p x0 hessian = firstJobs p hessian ++ (ownJobs x0 ++ if hessian then [("nlp.hessian", hessianOf x0)] else []) := by
  simp [jobs, firstJobs, ownJobs]

/-- **C115 (without Hessians).** Profiling a problem that has constraints and objectives, `repeat` times (not zero), times
exactly the listed functions, in this order: each is called `repeat` times (not at all if `repeat` is negative), and once more
before if asked; the result for a key is the time between the two readings of the clock around its calls, divided by `repeat`.
The problem stays as it is. -/
theorem C115_profile {p : Prob} (hc : p.cons ≠ []) (ho : p.objs ≠ []) (x0 : List ℝ) {n : Int} (hn : n ≠ 0) (once : Bool)
    (clock : Nat → ℝ) :
    ∃ d, profile p x0 n false once clock
        = (⟨p, 2 * (keys p false).length, (keys p false).flatMap (List.replicate ((if once then 1 else 0) + n.toNat))⟩, .ok d)
      ∧ Reports (keys p false) n clock d := by
  refine ⟨_, ?_, collect_reports n clock _⟩
  have h := runJobs_ok once hn clock (p := p) (jobs p x0 false) (by
    intro j hj
    rw [jobs_split] at hj
    simp only [Bool.false_eq_true, if_false, List.append_nil, List.mem_append] at hj
    exact hj.elim (first_still p false p j) (own_still hc ho x0 j)) [] 0 [] []
  rw [List.append_nil, jobs_keys] at h
  have hl : (jobs p x0 false).length = (keys p false).length := by rw [← jobs_keys p x0, List.length_map]
  rw [profile, h, hl]
  simp [runJobs, times]

theorem callN_settles {k : String} {f : Fn} {p q : Prob} (hf : f p = (q, none)) (hq : f q = (q, none)) (n : Nat) (t : Nat) (c : List String) :
    callN k f (n + 1) ⟨p, t, c⟩ = (⟨q, t, c ++ List.replicate (n + 1) k⟩, none) := by
  simp only [callN, call, hf, callN_ok hq]
  simp [List.replicate_succ]

theorem timeFunction_settles {k : String} {f : Fn} {p q : Prob} (hf : f p = (q, none)) (hq : f q = (q, none)) (once : Bool) {n : Int} (hn : 0 < n)
    (clock : Nat → ℝ) (t : Nat) (c : List String) : timeFunction once n clock k f ⟨p, t, c⟩
      = (⟨q, t + 2, c ++ List.replicate (times once n) k⟩, .ok ((clock (t + 1) - clock t) / n)) := by
  obtain ⟨m, rfl⟩ : ∃ m : Nat, n = ((m + 1 : Nat) : Int) := ⟨n.toNat - 1, by omega⟩
  have hn' : ((m + 1 : Nat) : Int) ≠ 0 := by omega
  cases once with
  | false =>
    simp only [timeFunction, Bool.false_eq_true, if_false, timed, Int.toNat_natCast, callN_settles hf hq, if_neg hn', times, Nat.zero_add]
  | true =>
    simp only [timeFunction, if_true, call, hf, timed_ok hq hn', times, Nat.add_comm 1, List.replicate_succ, Int.toNat_natCast]
    simp

theorem guarded {A B : Prop} [Decidable A] [Decidable B] {X : Prob} {e e' : PyErr} {w v : List ℝ}
    (h : (if A then (X, (Except.error e : Py (List ℝ))) else if B then (X, .error e') else (X, .ok w)).2 = .ok v) :
    (if A then (X, (Except.error e : Py (List ℝ))) else if B then (X, .error e') else (X, .ok w)) = (X, .ok w) := by
  by_cases a : A
  · rw [if_pos a] at h; cases h
  · by_cases b : B
    · rw [if_neg a, if_pos b] at h; cases h
    · rw [if_neg a, if_neg b]

/-- Evaluating the Hessian changes nothing but the remembered positions, and a second evaluation changes nothing. -/
theorem hessian_settles {p : Prob} {x0 : List ℝ} {v : List ℝ} (h : (p.hessian x0 (List.replicate p.numCon 1) 1).2 = .ok v) :
    ∃ m, hessianOf x0 p = ({ p with idxTriu := some m }, none)
      ∧ hessianOf x0 { p with idxTriu := some m } = ({ p with idxTriu := some m }, none) := by
  cases hm : p.idxTriu with
  | some m =>
    have e : ({ p with idxTriu := some m } : Prob) = p := by cases p; simp_all
    refine ⟨m, ?_, ?_⟩ <;>
    · rw [e]
      have h1 : (p.hessian x0 (List.replicate p.numCon 1) 1).1 = p := by
        simp only [Prob.hessian, hm]
        split_ifs <;> rfl
      simp only [hessianOf, h1, h]
  | none =>
    by_cases hp : p.hessPieces.isEmpty
    · simp [Prob.hessian, hm, Prob.hessianstructure, hp] at h
    · simp only [Bool.not_eq_true] at hp
      refine ⟨(p.hessianstructure).1.idxTriu.getD [], ?_, ?_⟩
      · simp only [Prob.hessian, hm, Prob.hessianstructure, hp, Bool.false_eq_true, if_false, hessianOf, Option.getD_some] at h ⊢
        split_ifs at h ⊢
        rfl
      · have e : ∀ L, Prob.hessian { p with idxTriu := some ((p.hessianstructure).1.idxTriu.getD []) } x0 L 1 = p.hessian x0 L 1 := by
          intro L
          simp only [Prob.hessian, hm, Prob.hessianstructure, hp, Bool.false_eq_true, if_false, Option.getD_some]
          rfl
        have h1 : hessianOf x0 { p with idxTriu := some ((p.hessianstructure).1.idxTriu.getD []) } = hessianOf x0 p := by
          simp only [hessianOf, e]
          rfl
        rw [h1]
        simp only [Prob.hessian, hm, Prob.hessianstructure, hp, Bool.false_eq_true, if_false, hessianOf, Option.getD_some] at h ⊢
        rw [guarded h]

/-- **C115 (with Hessians).** The same with the Hessians, when the Hessian of the problem can be evaluated: the constraints'
Hessians and the problem's are timed too. The problem stays as it is but for the positions of the Hessian's entries that its
evaluation remembers. -/
theorem C115_profile_hessian {p : Prob} (hc : p.cons ≠ []) (ho : p.objs ≠ []) (x0 : List ℝ) {n : Int} (hn : 0 < n) (once : Bool)
    (clock : Nat → ℝ) {v : List ℝ} (hv : (p.hessian x0 (List.replicate p.numCon 1) 1).2 = .ok v) :
    ∃ d m, profile p x0 n true once clock
        = (⟨{ p with idxTriu := some m }, 2 * (keys p true).length,
            (keys p true).flatMap (List.replicate ((if once then 1 else 0) + n.toNat))⟩, .ok d)
      ∧ Reports (keys p true) n clock d := by
  obtain ⟨m, h1, h2⟩ := hessian_settles hv
  refine ⟨_, m, ?_, collect_reports n clock _⟩
  have h := runJobs_ok once (by omega : n ≠ 0) clock (p := p) (firstJobs p true ++ ownJobs x0) (by
    intro j hj
    exact (List.mem_append.mp hj).elim (first_still p true p j) (own_still hc ho x0 j)) [("nlp.hessian", hessianOf x0)] 0 [] []
  have hk : keys p true = (firstJobs p true ++ ownJobs x0).map Prod.fst ++ ["nlp.hessian"] := by
    rw [← jobs_keys p x0, jobs_split]
    simp
  rw [List.append_assoc] at h
  rw [profile, jobs_split, if_pos rfl, h, runJobs, timeFunction_settles h1 h2 once hn, hk, collect_append]
  simp only [runJobs, collect]
  simp [times, Nat.mul_add, Nat.add_assoc]

theorem last_index {K : List String} {k : String} (h : k ∈ K) : ∃ i : Nat, K[i]? = some k ∧ ∀ j : Nat, i < j → K[j]? ≠ some k := by
  induction K with
  | nil => simp at h
  | cons a K ih =>
    by_cases hk : k ∈ K
    · obtain ⟨i, h1, h2⟩ := ih hk
      refine ⟨i + 1, by simpa using h1, fun j hj => ?_⟩
      obtain ⟨j, rfl⟩ : ∃ j', j = j' + 1 := ⟨j - 1, by omega⟩
      simpa using h2 j (by omega)
    · have : k = a := by simpa [hk] using h
      subst this
      refine ⟨0, rfl, fun j hj e => ?_⟩
      obtain ⟨j, rfl⟩ : ∃ j', j = j' + 1 := ⟨j - 1, by omega⟩
      exact hk (List.mem_of_getElem? (by simpa using e))

/-- **C115 (complete and non-negative).** The results have a time for each key and for nothing else, and with a clock that does
not run backwards none of them is negative. -/
theorem C115_times {K : List String} {n : Int} {clock : Nat → ℝ} {d : Dict ℝ} (hd : Reports K n clock d) :
    (∀ k, (∃ t, d.lookup k = some t) ↔ k ∈ K) ∧
    (Monotone clock → 0 < n → ∀ k t, d.lookup k = some t → 0 ≤ t) := by
  have key : ∀ k t, d.lookup k = some t → k ∈ K := fun k t h => by
    by_contra hk
    rw [hd.1 k hk] at h
    cases h
  refine ⟨fun k => ⟨fun ⟨t, h⟩ => key k t h, fun h => ?_⟩, fun hm hn k t h => ?_⟩
  · obtain ⟨i, h1, h2⟩ := last_index h
    exact ⟨_, hd.2 i k h1 h2⟩
  · obtain ⟨i, h1, h2⟩ := last_index (key k t h)
    rw [hd.2 i k h1 h2] at h
    cases h
    have h3 : clock (2 * i) ≤ clock (2 * i + 1) := hm (by omega)
    have h4 : (0 : ℝ) < n := by exact_mod_cast hn
    exact div_nonneg (by linarith) h4.le

/-- **C115 (every function).** If the keys are distinct, the time of every function is reported. -/
theorem C115_distinct {K : List String} {n : Int} {clock : Nat → ℝ} {d : Dict ℝ} (hd : Reports K n clock d) (hK : K.Nodup) (i : Nat) (k : String)
    (h : K[i]? = some k) : d.lookup k = some ((clock (2 * i + 1) - clock (2 * i)) / n) := by
  refine hd.2 i k h fun j hij hj => ?_
  have h1 := (List.getElem?_inj (List.getElem?_eq_some_iff.mp h).1 hK).mp (h.trans hj.symm)
  omega

/-- **C115 (finding: names).** They are not distinct when an objective and a constraint have the same name (which nothing
forbids) and Hessians are profiled: of the two Hessians only the constraint's, timed later, is reported. -/
theorem C115_same_name {p : Prob} {a : String} (ho : a ∈ p.objs.map Prod.fst) (hc : a ∈ p.cons.map Prod.fst) : ¬ (keys p true).Nodup := by
  intro h
  simp only [keys, if_true, List.append_assoc] at h
  rw [List.nodup_append] at h
  obtain ⟨o, ho1, rfl⟩ := List.mem_map.mp ho
  obtain ⟨c, hc1, hc2⟩ := List.mem_map.mp hc
  refine h.2.2 (o.1 ++ ".hessian") (List.mem_flatMap.mpr ⟨o, ho1, by simp⟩) (o.1 ++ ".hessian") (List.mem_append_left _ ?_) rfl
  exact List.mem_flatMap.mpr ⟨c, hc1, by simp [hc2]⟩

/-- **C115 (finding: no repetitions).** With `repeat` zero, profiling raises `ZeroDivisionError` at the first function. -/
theorem C115_zero {p : Prob} (ho : p.objs ≠ []) (x0 : List ℝ) (hessian once : Bool) (clock : Nat → ℝ) :
    (profile p x0 0 hessian once clock).2 = .error .zeroDivisionError := by
  obtain ⟨o, os, e⟩ := List.exists_cons_of_ne_nil ho
  obtain ⟨k, js, hj⟩ : ∃ k js, jobs p x0 hessian = (k, component) :: js := ⟨_, _, by rw [jobs_split, firstJobs, e]; rfl⟩
  cases once <;> simp [profile, hj, runJobs, timeFunction, timed, call, component, callN]

/-- **C115 (no constraints or no objectives).** Profiling a problem without constraints, or without objectives, raises
`ValueError`, after the functions of the components have been timed: there is no result. -/
theorem C115_none {p : Prob} (h : p.cons = [] ∨ p.objs = []) (x0 : List ℝ) {n : Int} (hn : 0 < n) (hessian once : Bool) (clock : Nat → ℝ) :
    (profile p x0 n hessian once clock).2 = .error .valueError := by
  obtain ⟨m, rfl⟩ : ∃ m : Nat, n = ((m + 1 : Nat) : Int) := ⟨n.toNat - 1, by omega⟩
  have hn' : ((m + 1 : Nat) : Int) ≠ 0 := by omega
  have bad : ∀ (k : String) (f : Fn) (js : List (String × Fn)) (t : Nat) (c : List String) (d : Dict ℝ), f p = (p, some .valueError) →
      (runJobs once ((m + 1 : Nat) : Int) clock ((k, f) :: js) ⟨p, t, c⟩ d).2 = .error .valueError := by
    intro k f js t c d hf
    cases once <;> simp [runJobs, timeFunction, timed, call, hf, callN]
  have go := fun (js rest : List (String × Fn)) (hjs : ∀ j ∈ js, j.2 p = (p, none)) =>
    runJobs_ok once hn' clock (p := p) js hjs rest 0 [] []
  rw [profile, jobs_split]
  rw [go _ _ (first_still p hessian p)]
  by_cases ho : p.objs = []
  · exact bad _ _ _ _ _ _ (by simp [method, Prob.objective, ho])
  · have hc : p.cons = [] := h.resolve_right ho
    have ho' : p.objs.isEmpty = false := by simpa using ho
    have hjs : ∀ j ∈ (ownJobs x0).take 2, j.2 p = (p, none) := by
      intro j hj
      simp only [ownJobs, List.take_succ_cons, List.take_zero, List.mem_cons, List.not_mem_nil, or_false] at hj
      rcases hj with rfl | rfl <;> simp [method, Prob.objective, Prob.gradient, ho']
    have e : ownJobs x0 = (ownJobs x0).take 2 ++ (ownJobs x0).drop 2 := (List.take_append_drop 2 _).symm
    rw [e, List.append_assoc, runJobs_ok once hn' clock _ hjs]
    exact bad _ _ _ _ _ _ (by simp [method, Prob.constraints, hc])

/-- A problem with two decision variables, an objective `x₀ x₁` and two constraints, both components called "f". -/
noncomputable def exProb : Prob :=
  { numDec := 2, objs := [("f", exProd)], idxTriu := none, scales := [1, 1]
    cons := [("f", Cons.stateOf 2 2 exCon exJac exHess ([0, 0, 1, 1], [0, 1, 0, 1]) ([0, 0, 1, 1], [0, 1, 0, 1]) [1, 1] [1, 1])] }

/-- Its Hessian can be evaluated; with Hessians nothing but the objective's own Hessian goes unreported. -/
example : ∃ d m, profile exProb [3, 4] 10 true true (fun i => i)
    = (⟨{ exProb with idxTriu := some m }, 22, (keys exProb true).flatMap (List.replicate 11)⟩, .ok d)
    ∧ Reports (keys exProb true) 10 (fun i => i) d := by
  have h : (exProb.hessian [3, 4] (List.replicate exProb.numCon 1) 1).2 = .ok [2, 0, 0, 1] := by
    simp [Prob.hessian, exProb, Prob.hessianstructure, Prob.hessPieces, keep, Cons.stateOf, exProd, Obj.stateOf, Cons.hessian, Obj.hessian,
      Prob.numCon, Prob.splitConstraints, lookupD, Np.split, Np.cumsum, exHess, vmul, vdiv, List.replicate, Np.splitFrom]
  exact C115_profile_hessian (by simp [exProb]) (by simp [exProb]) _ (by decide) true _ h

example : keys exProb true = ["f.objective", "f.gradient", "f.hessian", "f.constraints", "f.jacobian", "f.hessian", "nlp.objective",
    "nlp.gradient", "nlp.constraints", "nlp.jacobian", "nlp.hessian"] ∧ (keys exProb false).Nodup := by
  constructor
  · rfl
  · decide

end Lumos.NLP.Prof
