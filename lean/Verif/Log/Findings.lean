import Verif.Log.Props
/-!
# C71: solves without logging, repeated solves, and an example
-/

namespace Lumos.Log

open Lumos

/-- Without a logging config nothing is written, whatever IPOPT does. -/
theorem C71_no_logging {E : Env} (hE : E.every = none) (s0 : St) (es : List Event) :
    ∃ s, solve E s0 es = .ok s ∧ s.files = s0.files ∧ s.history = s0.history := by
  have step_ok : ∀ (s : St) (e : Event), ∃ s', step E s e = .ok s' ∧ s'.files = s.files ∧ s'.history = s.history := by
    intro s e
    cases e with
    | objective x => exact ⟨_, rfl, rfl, rfl⟩
    | report m =>
      show ∃ s', intermediate E s m = .ok s' ∧ _
      unfold intermediate log
      rw [hE]
      by_cases h : m.algMod = 0 ∧ some m.iterCount = s.numIter
      · rw [if_pos h]; exact ⟨s, rfl, rfl, rfl⟩
      · rw [if_neg h]; exact ⟨_, rfl, rfl, rfl⟩
  have : ∀ (es : List Event) (s : St), ∃ s', es.foldlM (step E) s = .ok s' ∧ s'.files = s.files ∧ s'.history = s.history := by
    intro es
    induction es with
    | nil => intro s; exact ⟨s, rfl, rfl, rfl⟩
    | cons e es ih =>
      intro s
      obtain ⟨s1, h1, h2, h3⟩ := step_ok s e
      obtain ⟨s2, h4, h5, h6⟩ := ih s1
      refine ⟨s2, ?_, h5.trans h2, h6.trans h3⟩
      rw [List.foldlM_cons, h1]
      exact h4
  obtain ⟨s, h1, h2, h3⟩ := this es s0
  refine ⟨s, ?_, h2, h3⟩
  unfold solve
  rw [h1]
  show logFinal E s = _
  unfold logFinal
  rw [hE]

/-- A solve that ends before IPOPT reports an iteration (for instance because it rejects the problem or an option) raises TypeError when
iterations are to be logged: the number of iterations is still None. -/
theorem C71_no_iteration {E : Env} {n : Nat} (hE : E.every = some n) (hn : 0 < n) (s0 : St) (h0 : s0.numIter = none)
    (x : List ℝ) (hdf : ∃ t, E.df x none = .ok t) : solve E s0 [.objective x] = .error .typeError := by
  obtain ⟨t, ht⟩ := hdf
  unfold solve
  show logFinal E { s0 with last := x } = _
  unfold logFinal writeTable
  rw [hE]
  simp only [h0, ht, bind, Except.bind, pure, Except.pure]
  rw [if_pos hn]

/-- A second solve of the same object that takes no iteration after a solve that took none, as when solving again from the solution:
the report of iteration 0 is taken for a repetition, so its file is missing in the end and FileNotFoundError is raised. -/
theorem C71_second_solve_fails {E : Env} {n : Nat} (hE : E.every = some n) (hn : 0 < n) (s0 : St) (h0 : s0.numIter = some 0)
    (hf : s0.files.lookup (.iter 0) = none) (x : List ℝ) (hdf : ∃ t, E.df x (some 0) = .ok t) (m : Metrics) (hm : m.iterCount = 0)
    (ha : m.algMod = 0) : solve E s0 [.objective x, .report m] = .error .fileNotFoundError := by
  obtain ⟨t, ht⟩ := hdf
  have h1 : [Event.objective x, .report m].foldlM (step E) s0 = .ok { s0 with last := x } := by
    show (step E { s0 with last := x } (.report m) >>= fun s => Except.ok s) = _
    show (intermediate E { s0 with last := x } m >>= fun s => Except.ok s) = _
    unfold intermediate
    rw [if_pos ⟨ha, by rw [hm, h0]⟩]
    rfl
  unfold solve
  rw [h1]
  show logFinal E { s0 with last := x } = _
  unfold logFinal writeTable
  rw [hE]
  simp only [h0, ht, bind, Except.bind, pure, Except.pure]
  rw [if_pos hn]
  have : dropLast (write s0.files .results (.table t)) n 0 = .error .fileNotFoundError := by
    unfold dropLast remove
    rw [if_pos (Nat.zero_mod n), if_neg]
    rw [mem_names_iff, lookup_write_ne _ _ _ _ (by simp), hf]
    simp
  rw [this]

/-- Two solves of the same object: the metrics history of the second holds those of the first as well, and the worst violations of the
second solve stand in the rows of the first, while its own rows have none (unless their number is below that of its iterations). -/
theorem C71_second_solve {E : Env} {n : Nat} (hE : E.every = some n) (hn : 0 < n) (s0 : St) (hs : Sane s0.files) (h0 : s0.numIter = none)
    (hh : s0.history = []) (hclean : ∀ name : FName, name.isIter = true → s0.files.lookup name = none)
    {es es' : List Event} {its its' : List (Metrics × List ℝ)} {x x' : List ℝ} (hr : Run es its (some x)) (hr' : Run es' its' (some x'))
    {K K' : Nat} (hK : its.length = K + 1) (hK' : its'.length = K' + 1) (hpos : 0 < K) (hT : Tables E es) (hT' : Tables E es') :
    ∃ (s s' : St) (rows : List MRow) (T' : Nat → List Row), solve E s0 es = .ok s ∧ solve E s es' = .ok s' ∧
      s'.files.lookup .metricsHistory = some (.metrics rows) ∧
      rows.map MRow.metrics = (its ++ its').map (fun q => some q.1) ∧
      E.df x' (some K') = .ok (T' K') ∧
      (∀ r, rows[K']? = some r → ∃ v, r.violation = some v ∧ Worst (T' K') v) ∧
      ∀ k r, K' < k → rows[k]? = some r → r.violation = some ("NotRecorded", -1) := by
  obtain ⟨s, T, h1, _, _, h2, h3, hF⟩ := C71_solve hE s0 hs (by rw [h0]; simp) hclean hr hK hT
  obtain ⟨s', T', h1', _, h4', _, _, hF'⟩ := C71_solve hE s hF.sane (by rw [h2]; simp; omega) hF.iters hr' hK' hT'
  obtain ⟨rows, r1, r2, _, r4⟩ := hF'.history
  refine ⟨s, s', rows, T', h1, h1', r1, ?_, h4', ?_, ?_⟩
  · rw [r2, h3, hh]
    simp [Function.comp_def]
  · intro r hr
    have := r4 hn K' r hr
    rwa [if_pos (Or.inr rfl)] at this
  · intro k r hk hr
    have := r4 hn k r hr
    rwa [if_neg (by omega)] at this

/-! ## An example -/

/-- A table of one row, whose place on the mesh is the number of the iteration. -/
def toyTable (k : Option Nat) : List Row := [⟨k, (k.getD 0 : Nat), [("states.a", 7), ("stage_con.a", 0)]⟩]

/-- A problem with these tables that logs every iteration, the files being listed as they were written last. -/
def toy (n : Nat) : Env := ⟨some n, fun _ k => .ok (toyTable k), fun fs => (fs.map Prod.fst).filter FName.isIter, fun _ => .refl _⟩

theorem stage_con : isCon "stage_con.a" = true := by decide +kernel

theorem toy_tables (n : Nat) (es : List Event) : Tables (toy n) es := by
  intro x _ k
  refine ⟨toyTable (some k), rfl, ?_, ?_, ?_⟩
  · intro r hr
    rw [toyTable, List.mem_singleton] at hr
    rw [hr]
  · exact List.pairwise_singleton _ _
  · exact ⟨_, List.mem_cons_self, _, List.mem_cons_of_mem _ List.mem_cons_self, stage_con⟩

/-- Three iterations, with trial points and a repeated report. -/
def toyEvents : List Event :=
  [.objective [1], .report ⟨0, 0, []⟩, .objective [5], .objective [2], .report ⟨0, 1, []⟩, .report ⟨0, 1, []⟩, .objective [3],
    .report ⟨1, 2, []⟩]

theorem toy_run : Run toyEvents [(⟨0, 0, []⟩, [1]), (⟨0, 1, []⟩, [2]), (⟨1, 2, []⟩, [3])] (some [3]) := by
  have h1 := Run.objective [1] Run.start
  have h2 := Run.iteration ⟨0, 0, []⟩ h1 rfl
  have h3 := Run.objective [2] (Run.objective [5] h2)
  have h4 := Run.iteration ⟨0, 1, []⟩ h3 rfl
  have h5 := Run.again ⟨0, 1, []⟩ h4 rfl rfl
  have h6 := Run.objective [3] h5
  exact Run.iteration ⟨1, 2, []⟩ h6 rfl

/-- The hypotheses of `C71_solve` are met. -/
theorem toy_solve : ∃ s T, solve (toy 2) (init []) toyEvents = .ok s ∧
    Filed 2 2 T [⟨0, 0, []⟩, ⟨0, 1, []⟩, ⟨1, 2, []⟩] [] s.files := by
  obtain ⟨s, T, h1, _, _, _, _, h2⟩ := C71_solve (E := toy 2) (n := 2) rfl (init []) List.nodup_nil (by simp [init]) (by simp [init])
    toy_run (K := 2) rfl (toy_tables 2 _)
  exact ⟨s, T, h1, h2⟩

theorem toy_idxmax (k : Nat) : idxmax (violations (toyTable (some k))) = .ok ("stage_con.a", (k : ℝ)) := by
  have h : isCon "states.a" = false := by decide +kernel
  simp [violations, toyTable, h, stage_con, idxmax]

theorem toy_add (k : Nat) (ms : List (Nat × MRow)) :
    addViolation ms (toyTable (some k)) = .ok (setRow ms k ("stage_con.a", (k : ℝ))) := by
  obtain ⟨t, ht, h⟩ := toy_tables 1 [.objective []] [] List.mem_cons_self k
  cases ht
  exact addViolation_table h (toy_idxmax k) ms

/-- An iteration that is reported again in restoration mode is logged twice, so that from then on the worst violations stand one row too
early: here the third row has the metrics of iteration 1 and the violation of iteration 2. -/
theorem C71_restoration_shifts :
    let m : Int → Nat → Metrics := fun a k => ⟨a, k, []⟩
    ∃ s rows, solve (toy 1) (init [])
        [.objective [1], .report (m 0 0), .report (m 0 1), .report (m 1 1), .report (m 1 2)] = .ok s ∧
      s.files.lookup .metricsHistory = some (.metrics rows) ∧
      rows = [⟨some (m 0 0), some ("stage_con.a", 0)⟩, ⟨some (m 0 1), some ("stage_con.a", 1)⟩,
        ⟨some (m 1 1), some ("stage_con.a", 2)⟩, ⟨some (m 1 2), some ("NotRecorded", -1)⟩] := by
  intro m
  have hrun : [Event.objective [1], .report (m 0 0), .report (m 0 1), .report (m 1 1), .report (m 1 2)].foldlM (step (toy 1)) (init [])
      = .ok ⟨some 2, [1], [m 0 0, m 0 1, m 1 1, m 1 2],
        [(.iter 2, .table (toyTable (some 2))), (.iter 1, .table (toyTable (some 1))), (.iter 0, .table (toyTable (some 0)))]⟩ := by
    simp [m, step, intermediate, log, toy, writeTable, init, write, bind, Except.bind, pure, Except.pure]
  unfold solve
  rw [hrun]
  simp only [bind, Except.bind]
  unfold logFinal
  have e1 : (FName.iter 1 == FName.results) = false := by decide
  have e2 : (FName.iter 0 == FName.results) = false := by decide
  have e3 : (FName.iter 0 == FName.iter 1) = false := by decide
  simp [toy, writeTable, bind, Except.bind, pure, Except.pure, write, dropLast, remove, readTable, FName.isIter, List.mapM_cons,
    List.mapM_nil, List.lookup, List.filter_cons, addViolations, toy_add, setRow, e1, e2, e3]

end Lumos.Log
