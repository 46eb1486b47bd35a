import Verif.Bench.Model
import Verif.Prof.Props
import Mathlib.Tactic.FieldSimp
import Mathlib.Tactic.Ring
/-!
# C119: the benchmark's metrics
-/

namespace Lumos.Bench

open Lumos Lumos.NLP

/-! ## Specification -/

/-- The names in `listing` that end in `.csv`, in order, are `names`. -/
def CsvNames (listing names : List String) : Prop :=
  names.Sublist listing ∧ (∀ f ∈ names, ∃ a, f = a ++ ".csv") ∧ ∀ f, (∃ a, f = a ++ ".csv") → names.count f = listing.count f

/-- One simulation, starting in state `s`, is solved for the files in order, giving the rows. -/
inductive Ran {S : Type} (solve : S → String → S × Py Row) : S → List String → List Row → Prop where
  | nil (s : S) : Ran solve s [] []
  | cons {s s' : S} {f : String} {r : Row} {fs : List String} {rs : List Row} (h : solve s f = (s', .ok r)) (t : Ran solve s' fs rs) :
      Ran solve s (f :: fs) (r :: rs)

/-- The number of failed and of successful solves, and the iterations of the successful ones. -/
def failures : List Row → Nat
  | [] => 0
  | r :: rs => if r.status = 0 then failures rs else failures rs + 1

/-- The number of solves that ended with status zero. -/
def successes : List Row → Nat
  | [] => 0
  | r :: rs => if r.status = 0 then successes rs + 1 else successes rs

/-- The iterations of the solves that ended with status zero, added up. -/
def iterations : List Row → Nat
  | [] => 0
  | r :: rs => if r.status = 0 then r.numIter + iterations rs else iterations rs

/-- All names of the metrics. -/
def names : List String :=
  ["jax_jit.model_algebra.constraints", "jax_jit.model_algebra.jacobian", "jax_jit.model_algebra.hessian",
   "casadi.100.nlp.objective", "casadi.100.nlp.gradient", "casadi.100.nlp.constraints", "casadi.100.nlp.jacobian", "casadi.100.nlp.hessian",
   "casadi.1000.nlp.objective", "casadi.1000.nlp.gradient", "casadi.1000.nlp.constraints", "casadi.1000.nlp.jacobian", "casadi.1000.nlp.hessian",
   "casadi.10000.nlp.objective", "casadi.10000.nlp.gradient", "casadi.10000.nlp.constraints", "casadi.10000.nlp.jacobian",
   "casadi.10000.nlp.hessian",
   "jax.100.nlp.objective", "jax.100.nlp.gradient", "jax.100.nlp.constraints", "jax.100.nlp.jacobian", "jax.100.nlp.hessian",
   "jax.1000.nlp.objective", "jax.1000.nlp.gradient", "jax.1000.nlp.constraints", "jax.1000.nlp.jacobian", "jax.1000.nlp.hessian",
   "jax.10000.nlp.objective", "jax.10000.nlp.gradient", "jax.10000.nlp.constraints", "jax.10000.nlp.jacobian", "jax.10000.nlp.hessian",
   "num_total", "failure_pct", "avg_success_iter"]

/-! ## Proofs -/

theorem csv_iff (f : String) : ".csv".toList.isSuffixOf f.toList = true ↔ ∃ a, f = a ++ ".csv" := by
  rw [List.isSuffixOf_iff_suffix]
  constructor
  · rintro ⟨t, h⟩
    exact ⟨String.ofList t, by rw [← String.toList_inj, String.toList_append, String.toList_ofList, h]⟩
  · rintro ⟨a, rfl⟩
    exact ⟨a.toList, by rw [String.toList_append]⟩

theorem trackFiles_spec (listing : List String) : ∃ ns, CsvNames listing ns ∧ trackFiles listing = ns.map ("data/tracks/" ++ ·) := by
  refine ⟨_, ⟨List.filter_sublist, fun f hf => (csv_iff f).mp (List.mem_filter.mp hf).2, fun f hf => ?_⟩, rfl⟩
  exact List.count_filter (p := fun f : String => ".csv".toList.isSuffixOf f.toList) ((csv_iff f).mpr hf)

theorem runAll_iff {S : Type} (solve : S → String → S × Py Row) : ∀ (fs : List String) (s : S) (rs : List Row),
    runAll solve s fs = .ok rs ↔ Ran solve s fs rs := by
  intro fs
  induction fs with
  | nil =>
    intro s rs
    constructor
    · intro h; cases h; exact .nil s
    · intro h; cases h; rfl
  | cons f fs ih =>
    intro s rs
    constructor
    · intro h
      rcases e : solve s f with ⟨s', r | r⟩
      · simp [runAll, e] at h
      · rcases e2 : runAll solve s' fs with x | rs'
        · simp [runAll, e, e2] at h
        · simp only [runAll, e, e2, Except.ok.injEq] at h
          subst h
          exact .cons e ((ih s' rs').mp e2)
    · intro h
      cases h with
      | cons e t => simp [runAll, e, (ih _ _).mpr t]

theorem succeeded_length (rows : List Row) : (succeeded rows).length = successes rows := by
  induction rows with
  | nil => rfl
  | cons r rs ih =>
    by_cases h : r.status = 0 <;> simp [succeeded, successes, h] <;> simpa [succeeded] using ih

theorem succeeded_sum (rows : List Row) : ((succeeded rows).map fun r => (r.numIter : ℝ)).sum = iterations rows := by
  induction rows with
  | nil => simp [succeeded, iterations]
  | cons r rs ih =>
    by_cases h : r.status = 0 <;> simp [succeeded, iterations, h] <;> simpa [succeeded] using ih

theorem success_failure (rows : List Row) : successes rows + failures rows = rows.length := by
  induction rows with
  | nil => rfl
  | cons r rs ih => by_cases h : r.status = 0 <;> simp [successes, failures, h] <;> omega

theorem avg_eq (rows : List Row) : avgIter rows = if successes rows = 0 then none else some ((iterations rows : ℝ) / successes rows) := by
  simp only [avgIter, mean, List.length_map, succeeded_length, succeeded_sum]

theorem Ran.length {S : Type} {solve : S → String → S × Py Row} {s : S} {fs : List String} {rs : List Row} (h : Ran solve s fs rs) :
    rs.length = fs.length := by
  induction h with
  | nil => rfl
  | cons _ _ ih => simp [ih]

/-- **C119 (the sweep).** When the sweep succeeds, one simulation was constructed for the first of the directory's csv files
(there is one) and solved for each of them, in order; the metrics are their number, the percentage of them whose solve did not
end with status zero, and the mean number of iterations of the others, NaN if there are none; and the summary's percentage of
successes is what the failures leave of a hundred. -/
theorem C119_sweep {S : Type} {init : String → Py S} {solve : S → String → S × Py Row} {listing : List String} {sm : Summary}
    {ms : List Metric} (h : sweep init solve listing = .ok (sm, ms)) :
    ∃ (f : String) (fs : List String) (s : S) (rows : List Row) (pct : ℝ) (avg : Option ℝ), CsvNames listing (f :: fs)
      ∧ init ("data/tracks/" ++ f) = .ok s ∧ Ran solve s ((f :: fs).map ("data/tracks/" ++ ·)) rows
      ∧ ms = [⟨"num_total", "-", some (fs.length + 1)⟩, ⟨"failure_pct", "%", some pct⟩, ⟨"avg_success_iter", "iter", avg⟩]
      ∧ pct = 100 * failures rows / (fs.length + 1)
      ∧ (successes rows = 0 → avg = none) ∧ (successes rows ≠ 0 → ∃ a, avg = some a ∧ a * successes rows = iterations rows)
      ∧ sm.successPct = 100 - pct ∧ sm.numSuccess = successes rows ∧ sm.numTotal = fs.length + 1 ∧ sm.avgSuccessIter = avg := by
  obtain ⟨ns, h1, h2⟩ := trackFiles_spec listing
  cases ns with
  | nil => simp [sweep, h2] at h
  | cons f fs =>
    rcases e : init ("data/tracks/" ++ f) with x | s
    · simp [sweep, h2, e] at h
    · rcases e2 : runAll solve s ((f :: fs).map ("data/tracks/" ++ ·)) with x | rows
      · simp only [List.map_cons] at e2
        simp [sweep, h2, e, e2] at h
      · have hr := (runAll_iff solve _ s rows).mp e2
        have hl : rows.length = fs.length + 1 := by rw [hr.length]; simp
        have hsf := success_failure rows
        have hsf' : (successes rows : ℝ) = (fs.length + 1) - failures rows := by
          rw [hl] at hsf
          have : ((successes rows + failures rows : ℕ) : ℝ) = ((fs.length + 1 : ℕ) : ℝ) := by rw [hsf]
          push_cast at this
          linarith
        have hn : ((fs.length : ℝ) + 1) ≠ 0 := by positivity
        simp only [List.map_cons] at e2
        simp only [sweep, h2, List.map_cons, e, e2, Except.ok.injEq, Prod.mk.injEq] at h
        obtain ⟨rfl, rfl⟩ := h
        refine ⟨f, fs, s, rows, _, avgIter rows, h1, e, hr, ?_, rfl, ?_, ?_, ?_, succeeded_length rows, hl, rfl⟩
        · simp only [sweepMetrics, succeeded_length, hl, hsf', Nat.cast_add, Nat.cast_one, List.cons.injEq, Metric.mk.injEq, true_and,
            Option.some.injEq, and_true]
          field_simp
          ring
        · intro h0; rw [avg_eq, if_pos h0]
        · intro h0
          rw [avg_eq, if_neg h0]
          exact ⟨_, rfl, div_mul_cancel₀ _ (by exact_mod_cast h0)⟩
        · simp only [summary, succeeded_length, hl, hsf', Nat.cast_add, Nat.cast_one]
          field_simp

/-- **C119 (bounds).** The failure metric of any rows is between 0 and 100: it is 0 exactly if every solve ended with status
zero, and 100 exactly if none did. -/
theorem C119_bounds (rows : List Row) (hr : rows ≠ []) :
    ∃ p, (sweepMetrics rows)[1]? = some ⟨"failure_pct", "%", some p⟩ ∧ 0 ≤ p ∧ p ≤ 100 ∧ (p = 0 ↔ ∀ r ∈ rows, r.status = 0)
      ∧ (p = 100 ↔ ∀ r ∈ rows, r.status ≠ 0) := by
  have hl : (0 : ℝ) < rows.length := by exact_mod_cast List.length_pos_iff.mpr hr
  have hle : (((succeeded rows).length : ℕ) : ℝ) ≤ rows.length := by exact_mod_cast List.length_filter_le _ _
  refine ⟨_, rfl, ?_, ?_, ?_, ?_⟩
  · have : ((succeeded rows).length : ℝ) / rows.length ≤ 1 := (div_le_one hl).mpr hle
    nlinarith
  · have : (0 : ℝ) ≤ ((succeeded rows).length : ℝ) / rows.length := by positivity
    nlinarith
  · have : ((1 - ((succeeded rows).length : ℝ) / rows.length) * 100 = 0) ↔ (succeeded rows).length = rows.length := by
      rw [mul_eq_zero, or_iff_left (by norm_num), sub_eq_zero, eq_comm, div_eq_one_iff_eq hl.ne', Nat.cast_inj]
    rw [this, succeeded, List.length_filter_eq_length_iff]
    simp
  · have : ((1 - ((succeeded rows).length : ℝ) / rows.length) * 100 = 100) ↔ (succeeded rows).length = 0 := by
      constructor
      · intro h
        have h0 : ((succeeded rows).length : ℝ) / rows.length = 0 := by linarith
        rcases div_eq_zero_iff.mp h0 with h1 | h1
        · exact_mod_cast h1
        · exact absurd h1 hl.ne'
      · intro h; rw [h]; simp
    rw [this, List.length_eq_zero_iff, succeeded, List.filter_eq_nil_iff]
    simp

/-- **C119 (order).** If what a solve gives depends only on the track, then the sweep's result does not depend on the order in
which the operating system lists the directory: it succeeds for all orders or for none, with the same metrics. -/
theorem C119_order {S : Type} {init : String → Py S} {solve : S → String → S × Py Row} {g : String → Py Row}
    (hg : ∀ s f, (solve s f).2 = g f) (hi : ∀ f, ∃ s, init f = .ok s) {l l' : List String} (hl : l.Perm l') {x : Summary × List Metric}
    (h : sweep init solve l = .ok x) : sweep init solve l' = .ok x := by
  have key : ∀ (fs : List String) (s : S) (rs : List Row), runAll solve s fs = .ok rs ↔ fs.map g = rs.map .ok := by
    intro fs
    induction fs with
    | nil => intro s rs; cases rs <;> simp [runAll]
    | cons f fs ih =>
      intro s rs
      have hf := hg s f
      rcases e : solve s f with ⟨s', r | r⟩
      · rw [e] at hf
        cases rs <;> simp [runAll, e, ← hf]
      · rw [e] at hf
        simp only at hf
        rcases e2 : runAll solve s' fs with y | rs'
        · cases rs with
          | nil => simp [runAll, e, e2]
          | cons r0 rs0 =>
            simp only [runAll, e, e2, reduceCtorEq, List.map_cons, List.cons.injEq, false_iff, not_and]
            intro _ h2
            rw [(ih s' rs0).mpr h2] at e2
            cases e2
        · have := (ih s' rs').mp e2
          simp only [runAll, e, e2, Except.ok.injEq]
          constructor
          · rintro rfl; simp [← hf, this]
          · intro h2
            cases rs with
            | nil => simp at h2
            | cons r0 rs0 =>
              simp only [List.map_cons, List.cons.injEq, ← hf, Except.ok.injEq] at h2
              have h3 := (ih s' rs0).mpr h2.2
              rw [e2] at h3
              cases h3
              rw [h2.1]
  have hp : (trackFiles l).Perm (trackFiles l') := (hl.filter _).map _
  have inv : ∀ {r r' : List Row}, r.Perm r' → (summary r, sweepMetrics r) = (summary r', sweepMetrics r') := by
    intro r r' h
    have h1 : (succeeded r).Perm (succeeded r') := h.filter _
    have h2 : avgIter r = avgIter r' := by
      have := (h1.map fun r => (r.numIter : ℝ))
      simp only [avgIter, mean, this.length_eq, this.sum_eq]
    simp only [summary, sweepMetrics, h1.length_eq, h.length_eq, h2]
  cases e : trackFiles l with
  | nil => simp [sweep, e] at h
  | cons f fs =>
    rw [e] at hp
    obtain ⟨s, hs⟩ := hi f
    rcases e2 : runAll solve s (f :: fs) with y | rows
    · simp [sweep, e, hs, e2] at h
    · simp only [sweep, e, hs, e2, Except.ok.injEq] at h
      have hk := (key _ _ _).mp e2
      obtain ⟨f', fs', e'⟩ : ∃ f' fs', trackFiles l' = f' :: fs' := by
        cases e' : trackFiles l' with
        | nil => rw [e'] at hp; simp at hp
        | cons a b => exact ⟨a, b, rfl⟩
      rw [e'] at hp
      obtain ⟨s', hs'⟩ := hi f'
      have h4 : ((f' :: fs').map g).Perm (rows.map .ok) := by
        have := hp.symm.map g
        rwa [hk] at this
      obtain ⟨rows', h5, h6⟩ : ∃ rows' : List Row, (f' :: fs').map g = rows'.map .ok ∧ rows'.Perm rows := by
        have : ∀ y ∈ (f' :: fs').map g, ∃ r, y = .ok r := by
          intro y hy
          obtain ⟨r, _, hr⟩ := List.mem_map.mp (h4.subset hy)
          exact ⟨r, hr.symm⟩
        obtain ⟨rows', hr⟩ : ∃ rows' : List Row, (f' :: fs').map g = rows'.map .ok := by
          generalize (f' :: fs').map g = ys at this
          clear * - this
          induction ys with
          | nil => exact ⟨[], rfl⟩
          | cons y ys ih =>
            obtain ⟨r, hr⟩ := this y (by simp)
            obtain ⟨rs, h⟩ := ih fun z hz => this z (by simp [hz])
            exact ⟨r :: rs, by simp [hr, h]⟩
        refine ⟨rows', hr, ?_⟩
        rw [hr] at h4
        exact (List.map_perm_map_iff (fun a b h => by cases h; rfl)).mp h4
      have h7 : runAll solve s' (f' :: fs') = .ok rows' := (key _ _ _).mpr h5
      simp only [sweep, e', hs', h7, Except.ok.injEq]
      rw [← h]
      exact inv h6

/-- **C119 (finding: one error).** If the solve of some track raises (ipopt's status -13 does) whatever was solved before it, the sweep raises and with it
the benchmark: no metric is written, not even those measured before. -/
theorem C119_one_error {S : Type} (jit : Case) (c : String × String → Case) (init : String → Py S) (solve : S → String → S × Py Row)
    {listing : List String} {a : String} (ha : a ++ ".csv" ∈ listing)
    (he : ∀ s, ∃ s' e, solve s ("data/tracks/" ++ (a ++ ".csv")) = (s', .error e)) :
    ∀ ms, createMetrics jit c init solve listing ≠ .ok ms := by
  intro ms h
  have : ∀ x, sweep init solve listing ≠ .ok x := by
    rintro ⟨sm, m⟩ hx
    obtain ⟨f, fs, s, rows, _, _, hn, _, hr, _⟩ := C119_sweep hx
    have hm : a ++ ".csv" ∈ f :: fs := by
      have := hn.2.2 _ ⟨a, rfl⟩
      rw [← List.count_pos_iff] at ha ⊢
      omega
    have hm' : "data/tracks/" ++ (a ++ ".csv") ∈ (f :: fs).map ("data/tracks/" ++ ·) := List.mem_map.mpr ⟨_, hm, rfl⟩
    clear * - hr hm' he
    generalize (f :: fs).map ("data/tracks/" ++ ·) = l at hr hm'
    induction hr with
    | nil => simp at hm'
    | cons h t ih =>
      rename_i s s' f r fs rs
      rcases List.mem_cons.mp hm' with e | e
      · obtain ⟨_, _, h2⟩ := he s
        rw [e, h] at h2
        simp at h2
      · exact ih e
  unfold createMetrics at h
  split at h
  · cases h
  · split at h
    · cases h
    · split at h
      · cases h
      · rename_i x hx; exact this x hx

/-- **C119 (no track).** Without a csv file in the directory the sweep raises `IndexError`. -/
theorem C119_no_track {S : Type} (init : String → Py S) (solve : S → String → S × Py Row) {listing : List String}
    (h : ∀ a, a ++ ".csv" ∉ listing) : sweep init solve listing = .error .indexError := by
  obtain ⟨ns, h1, h2⟩ := trackFiles_spec listing
  cases ns with
  | nil => simp [sweep, h2]
  | cons f fs =>
    obtain ⟨a, rfl⟩ := h1.2.1 f (by simp)
    exact absurd (h1.1.subset (by simp)) (h a)

theorem pick_names {d : Dict ℝ} {pre : String} : ∀ {ns : List String} {ms : List Metric}, pick d pre ns = .ok ms →
    ms.map (fun m => (m.name, m.unit)) = ns.map fun n => (pre ++ "." ++ n, "sec") := by
  intro ns
  induction ns with
  | nil => intro ms h; cases h; rfl
  | cons n ns ih =>
    intro ms h
    rcases e : d.get n with x | v
    · simp [pick, e] at h
    · rcases e2 : pick d pre ns with x | ms'
      · simp [pick, e, e2] at h
      · simp only [pick, e, e2, Except.ok.injEq] at h
        subst h
        simp [ih e2]

/-- **C119 (profiles).** For every problem with objectives and with the constraints `model_algebra`, whose Hessian exists: the
metrics of the first call are the times that the three functions of these constraints took, called once and not before, and
those of the problem are the times of its five functions, called ten times after one call that is not measured; no key is missing. -/
theorem C119_profiles {p : Prob} (hc : "model_algebra" ∈ p.cons.map Prod.fst) (ho : p.objs ≠ []) (x0 : List ℝ) (clock : Nat → ℝ) {v : List ℝ}
    (hv : (p.hessian x0 (List.replicate p.numCon 1) 1).2 = .ok v) :
    (∃ d ms, Prof.Reports (Prof.keys p true) 1 clock d ∧ profileJit p x0 clock = .ok ms
      ∧ (Prof.profile p x0 1 true false clock).1.calls = Prof.keys p true
      ∧ ms.map Metric.name = ["jax_jit.model_algebra.constraints", "jax_jit.model_algebra.jacobian", "jax_jit.model_algebra.hessian"]
      ∧ ms.map Metric.value = ["model_algebra.constraints", "model_algebra.jacobian", "model_algebra.hessian"].map fun k => d.lookup k)
    ∧ ∀ backend num : String, ∃ d ms, Prof.Reports (Prof.keys p true) 10 clock d ∧ profileNlp backend num p x0 clock = .ok ms
      ∧ (Prof.profile p x0 10 true true clock).1.calls = (Prof.keys p true).flatMap (List.replicate 11)
      ∧ ms.map Metric.name = ["nlp.objective", "nlp.gradient", "nlp.constraints", "nlp.jacobian", "nlp.hessian"].map (backend ++ "." ++ num ++ "." ++ ·)
      ∧ ms.map Metric.value = ["nlp.objective", "nlp.gradient", "nlp.constraints", "nlp.jacobian", "nlp.hessian"].map fun k => d.lookup k := by
  have hc' : p.cons ≠ [] := by rintro h; simp [h] at hc
  constructor
  · obtain ⟨d, m, h1, h2⟩ := Prof.C115_profile_hessian hc' ho x0 (n := 1) (by norm_num) false clock hv
    have hk := (Prof.C115_times h2).1
    have hmem : ∀ n ∈ ["model_algebra.constraints", "model_algebra.jacobian", "model_algebra.hessian"], ∃ t, d.lookup n = some t := by
      intro n hn
      rw [hk]
      obtain ⟨cc, h3, h4⟩ := List.mem_map.mp hc
      simp only [Prof.keys, if_true, List.append_assoc, List.mem_append, List.mem_flatMap]
      refine Or.inr (Or.inl ⟨cc, h3, ?_⟩)
      rw [h4]
      simp only [List.mem_cons, List.not_mem_nil, or_false] at hn
      rcases hn with rfl | rfl | rfl <;> simp
    obtain ⟨t1, e1⟩ := hmem "model_algebra.constraints" (by simp)
    obtain ⟨t2, e2⟩ := hmem "model_algebra.jacobian" (by simp)
    obtain ⟨t3, e3⟩ := hmem "model_algebra.hessian" (by simp)
    refine ⟨d, [⟨"jax_jit" ++ "." ++ "model_algebra.constraints", "sec", some t1⟩, ⟨"jax_jit" ++ "." ++ "model_algebra.jacobian", "sec", some t2⟩,
      ⟨"jax_jit" ++ "." ++ "model_algebra.hessian", "sec", some t3⟩], h2, by simp only [profileJit, h1, pick, Dict.get, e1, e2, e3], ?_, ?_, ?_⟩
    · rw [h1]
      have : ∀ l : List String, l.flatMap (List.replicate 1) = l := fun l => by
        induction l with
        | nil => rfl
        | cons a l ih => rw [List.flatMap_cons, ih]; rfl
      exact this _
    · simp
    · simp [e1, e2, e3]
  · intro backend num
    obtain ⟨d, m, h1, h2⟩ := Prof.C115_profile_hessian hc' ho x0 (n := 10) (by norm_num) true clock hv
    have hk := (Prof.C115_times h2).1
    have hmem : ∀ n ∈ ["nlp.objective", "nlp.gradient", "nlp.constraints", "nlp.jacobian", "nlp.hessian"], ∃ t, d.lookup n = some t := by
      intro n hn
      rw [hk]
      simp only [Prof.keys, if_true, List.append_assoc, List.mem_append]
      simp only [List.mem_cons, List.not_mem_nil, or_false] at hn
      rcases hn with rfl | rfl | rfl | rfl | rfl <;> simp
    obtain ⟨t1, e1⟩ := hmem "nlp.objective" (by simp)
    obtain ⟨t2, e2⟩ := hmem "nlp.gradient" (by simp)
    obtain ⟨t3, e3⟩ := hmem "nlp.constraints" (by simp)
    obtain ⟨t4, e4⟩ := hmem "nlp.jacobian" (by simp)
    obtain ⟨t5, e5⟩ := hmem "nlp.hessian" (by simp)
    refine ⟨d, [⟨backend ++ "." ++ num ++ "." ++ "nlp.objective", "sec", some t1⟩, ⟨backend ++ "." ++ num ++ "." ++ "nlp.gradient", "sec", some t2⟩,
      ⟨backend ++ "." ++ num ++ "." ++ "nlp.constraints", "sec", some t3⟩, ⟨backend ++ "." ++ num ++ "." ++ "nlp.jacobian", "sec", some t4⟩,
      ⟨backend ++ "." ++ num ++ "." ++ "nlp.hessian", "sec", some t5⟩], h2,
      by simp only [profileNlp, h1, pick, Dict.get, e1, e2, e3, e4, e5], by rw [h1]; rfl, by simp, by simp [e1, e2, e3, e4, e5]⟩

/-- **C119 (names).** Whenever the benchmark writes metrics, they are the 36 listed, in this order, and no two have the same name. -/
theorem C119_names {S : Type} {jit : Case} {c : String × String → Case} {init : String → Py S} {solve : S → String → S × Py Row}
    {listing : List String} {ms : List Metric} (h : createMetrics jit c init solve listing = .ok ms) :
    ms.map Metric.name = names ∧ names.Nodup := by
  refine ⟨?_, by decide⟩
  have nm : ∀ {d : Dict ℝ} {pre : String} {ns : List String} {ms : List Metric}, pick d pre ns = .ok ms →
      ms.map Metric.name = ns.map (pre ++ "." ++ ·) := fun h => by
    have := congrArg (List.map Prod.fst) (pick_names h)
    simpa [Function.comp_def] using this
  unfold createMetrics at h
  split at h
  · cases h
  rename_i a ha
  split at h
  · cases h
  rename_i b hb
  split at h
  · cases h
  rename_i s hs
  cases h
  have h1 : a.map Metric.name = ["model_algebra.constraints", "model_algebra.jacobian", "model_algebra.hessian"].map ("jax_jit" ++ "." ++ ·) := by
    unfold profileJit at ha
    split at ha
    · cases ha
    · exact nm ha
  have h2 : ∀ (gs : List (String × String)) (b : List Metric), profileAll c gs = .ok b → b.map Metric.name
      = gs.flatMap fun g => ["nlp.objective", "nlp.gradient", "nlp.constraints", "nlp.jacobian", "nlp.hessian"].map (g.1 ++ "." ++ g.2 ++ "." ++ ·) := by
    intro gs
    induction gs with
    | nil => intro b h; cases h; rfl
    | cons g gs ih =>
      intro b h
      unfold profileAll at h
      split at h
      · cases h
      rename_i m hm
      split at h
      · cases h
      rename_i m' hm'
      cases h
      rw [List.map_append, ih _ hm', List.flatMap_cons]
      congr 1
      unfold profileNlp at hm
      split at hm
      · cases hm
      · exact nm hm
  have h3 : s.2.map Metric.name = ["num_total", "failure_pct", "avg_success_iter"] := by
    obtain ⟨sm, m⟩ := s
    obtain ⟨_, _, _, _, _, _, _, _, _, e, _⟩ := C119_sweep hs
    simp only [e]
    rfl
  rw [List.map_append, List.map_append, h1, h2 _ _ hb, h3]
  decide

/-! ## Non-vacuity -/

/-- Three files of which two are tracks, one failing: one of two failed, and the average is that of the other. -/
example : ∃ sm, sweep (S := Unit) (fun _ => .ok ())
      (fun s f => (s, .ok (if f = "data/tracks/Spa.csv" then ⟨0, 40, 100, ""⟩ else ⟨1, 200, 90, ""⟩))) ["Spa.csv", "README.md", "IMS.csv"]
    = .ok (sm, [⟨"num_total", "-", some 2⟩, ⟨"failure_pct", "%", some 50⟩, ⟨"avg_success_iter", "iter", some 40⟩]) := by
  have h : trackFiles ["Spa.csv", "README.md", "IMS.csv"] = ["data/tracks/Spa.csv", "data/tracks/IMS.csv"] := by decide
  refine ⟨summary [⟨0, 40, 100, ""⟩, ⟨1, 200, 90, ""⟩], ?_⟩
  have hne : ¬ "data/tracks/IMS.csv" = "data/tracks/Spa.csv" := by decide
  simp only [sweep, h, runAll, if_neg hne]
  norm_num [sweepMetrics, succeeded, avgIter, mean]

end Lumos.Bench
