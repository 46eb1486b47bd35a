import Verif.Log.Files
import Mathlib.Data.List.Sort
import Mathlib.Data.List.Range
import Mathlib.Tactic.Linarith
/-!
# C71: what a solve leaves in the logging directory
-/

namespace Lumos.Log

open Lumos

/-! ## Specification -/

/-- What IPOPT reports in a solve: `Run es its x` says that after the events `es` the iterations `0, …, its.length - 1` have been
reported, `its[k]` being the metrics of the first report of iteration `k` with the point at which the objective was evaluated last
before it, and that the objective was last evaluated at `x`. An iteration that was reported is reported again only in regular mode. -/
inductive Run : List Event → List (Metrics × List ℝ) → Option (List ℝ) → Prop
  | start : Run [] [] none
  | objective {es its p} (x : List ℝ) : Run es its p → Run (es ++ [.objective x]) its (some x)
  | iteration {es its x} (m : Metrics) : Run es its (some x) → m.iterCount = its.length →
      Run (es ++ [.report m]) (its ++ [(m, x)]) (some x)
  | again {es its p} (m : Metrics) : Run es its p → m.iterCount + 1 = its.length → m.algMod = 0 →
      Run (es ++ [.report m]) its p

/-- The table of iteration `k`: its rows are in the order of the mesh, and it has a constraint column. -/
structure IsTable (k : Nat) (t : List Row) : Prop where
  iter : ∀ r ∈ t, r.iter = some k
  mesh : t.Pairwise fun a b => a.mesh < b.mesh
  con : ∃ r ∈ t, ∃ c ∈ r.vals, isCon c.1 = true

/-- A largest absolute value of a constraint in a table is that of the constraint `v.1` at the place `v.2` of the mesh. -/
def Worst (t : List Row) (v : String × ℝ) : Prop :=
  ∃ r ∈ t, ∃ c ∈ r.vals, isCon c.1 = true ∧ v = (c.1, r.mesh) ∧
    ∀ r' ∈ t, ∀ c' ∈ r'.vals, isCon c'.1 = true → |c'.2| ≤ |c.2|

/-- Whether iteration `k` is to be logged: every `n`-th is, none for `n = 0`. -/
abbrev Logged (n k : Nat) : Prop := 0 < n ∧ k % n = 0

/-- What a solve that ended with iteration `K` leaves in the directory: `T k` is the table of iteration `k`, `ms` are the metrics. -/
structure Filed (n K : Nat) (T : Nat → List Row) (ms : List Metrics) (before after : FS) : Prop where
  /-- `results.csv` has the table of the last iteration. -/
  results : after.lookup .results = some (.table (T K))
  /-- `all_iters.parquet` has the tables of the logged iterations in their order, and of the last one. -/
  all : 0 < n → after.lookup .allIters =
    some (.table (((List.range K).filter fun k => Logged n k).flatMap T ++ T K))
  /-- No file of a single iteration is left. -/
  iters : ∀ name : FName, name.isIter = true → after.lookup name = none
  /-- `metrics_history.csv` has the metrics, with the worst violation for the logged iterations and the last one. -/
  history : ∃ rows, after.lookup .metricsHistory = some (.metrics rows) ∧ rows.map MRow.metrics = ms.map some ∧
    (n = 0 → ∀ r ∈ rows, r.violation = none) ∧
    (0 < n → ∀ k r, rows[k]? = some r →
      if (k < K ∧ Logged n k) ∨ k = K then ∃ v, r.violation = some v ∧ Worst (T k) v
      else r.violation = some ("NotRecorded", -1))
  /-- Every other file is as before. -/
  others : ∀ name : FName, name.isIter = false → name ≠ .results → name ≠ .metricsHistory → (name = .allIters → n = 0) →
    after.lookup name = before.lookup name
  /-- No name occurs twice. -/
  sane : Sane after

/-- The tables of the problem exist at every point that is evaluated. -/
def Tables (E : Env) (es : List Event) : Prop :=
  ∀ x, .objective x ∈ es → ∀ k, ∃ t, E.df x (some k) = .ok t ∧ IsTable k t

/-! ## Proofs -/

theorem foldl_best (vs : List ((String × ℝ) × ℝ)) : ∀ v : (String × ℝ) × ℝ,
    let b := vs.foldl (fun best v => open Classical in if best.2 < v.2 then v else best) v
    b ∈ v :: vs ∧ ∀ w ∈ v :: vs, w.2 ≤ b.2 := by
  classical
  induction vs with
  | nil => intro v; simp
  | cons a vs ih =>
    intro v
    dsimp only
    rw [List.foldl_cons]
    obtain ⟨h1, h2⟩ := ih (if v.2 < a.2 then a else v)
    by_cases hva : v.2 < a.2
    · simp only [if_pos hva] at h1 h2 ⊢
      refine ⟨List.mem_cons_of_mem _ h1, ?_⟩
      intro w hw
      rcases List.mem_cons.1 hw with rfl | hw
      · exact hva.le.trans (h2 a List.mem_cons_self)
      · exact h2 w hw
    · simp only [if_neg hva] at h1 h2 ⊢
      constructor
      · rcases List.mem_cons.1 h1 with h | h
        · exact List.mem_cons.2 (Or.inl h)
        · exact List.mem_cons_of_mem _ (List.mem_cons_of_mem _ h)
      intro w hw
      rcases List.mem_cons.1 hw with rfl | hw
      · exact h2 _ List.mem_cons_self
      · rcases List.mem_cons.1 hw with rfl | hw
        · exact (not_lt.1 hva).trans (h2 v List.mem_cons_self)
        · exact h2 w (List.mem_cons_of_mem _ hw)

theorem mem_violations (t : List Row) (v : (String × ℝ) × ℝ) :
    v ∈ violations t ↔ ∃ r ∈ t, ∃ c ∈ r.vals, isCon c.1 = true ∧ v = ((c.1, r.mesh), |c.2|) := by
  unfold violations
  simp only [List.mem_flatMap, List.mem_map, List.mem_filter]
  constructor
  · rintro ⟨r, hr, c, ⟨hc, hcon⟩, rfl⟩
    exact ⟨r, hr, c, hc, hcon, rfl⟩
  · rintro ⟨r, hr, c, hc, hcon, rfl⟩
    exact ⟨r, hr, c, ⟨hc, hcon⟩, rfl⟩

/-- The worst violation exists. -/
theorem idxmax_worst {k : Nat} {t : List Row} (h : IsTable k t) : ∃ v, idxmax (violations t) = .ok v ∧ Worst t v := by
  obtain ⟨r, hr, c, hc, hcon⟩ := h.con
  have hm := (mem_violations t ((c.1, r.mesh), |c.2|)).2 ⟨r, hr, c, hc, hcon, rfl⟩
  cases hv : violations t with
  | nil => rw [hv] at hm; cases hm
  | cons v vs =>
    refine ⟨_, rfl, ?_⟩
    obtain ⟨h1, h2⟩ := foldl_best vs v
    rw [← hv] at h1 h2
    obtain ⟨r', hr', c', hc', hcon', he⟩ := (mem_violations t _).1 h1
    refine ⟨r', hr', c', hc', hcon', ?_, ?_⟩
    · rw [he]
    · intro r'' hr'' c'' hc'' hcon''
      have := h2 ((c''.1, r''.mesh), |c''.2|) ((mem_violations t _).2 ⟨r'', hr'', c'', hc'', hcon'', rfl⟩)
      rw [he] at this
      exact this

/-- Rows with their positions as labels. -/
def rows (N : Nat) (g : Nat → MRow) : List (Nat × MRow) := (List.range N).map fun k => (k, g k)

theorem setRow_rows (N : Nat) (g : Nat → MRow) (k : Nat) (v : String × ℝ) (hk : k < N) :
    setRow (rows N g) k v = rows N fun j => if j = k then { g j with violation := some v } else g j := by
  unfold setRow
  have : k ∈ (rows N g).map Prod.fst := by
    unfold rows
    rw [List.map_map, List.mem_map]
    exact ⟨k, List.mem_range.2 hk, rfl⟩
  rw [if_pos this]
  unfold rows
  rw [List.map_map]
  apply List.map_congr_left
  intro j _
  dsimp only [Function.comp]
  by_cases hjk : j = k
  · rw [if_pos hjk, if_pos hjk, hjk]
  · rw [if_neg hjk, if_neg hjk]

theorem addViolation_table {k : Nat} {t : List Row} (h : IsTable k t) {v : String × ℝ} (hv : idxmax (violations t) = .ok v)
    (ms : List (Nat × MRow)) : addViolation ms t = .ok (setRow ms k v) := by
  unfold addViolation
  rw [hv]
  obtain ⟨r, hr, _⟩ := h.con
  cases t with
  | nil => cases hr
  | cons a t =>
    simp only [bind, Except.bind, pure, Except.pure, h.iter a List.mem_cons_self]

theorem addViolations_rows (N : Nat) (T : Nat → List Row) (V : Nat → String × ℝ) (L : List Nat) : ∀ (g : Nat → MRow),
    (∀ k ∈ L, k < N ∧ IsTable k (T k) ∧ idxmax (violations (T k)) = .ok (V k)) →
    addViolations (rows N g) (L.map T) =
      .ok (rows N fun j => if j ∈ L then { g j with violation := some (V j) } else g j) := by
  induction L with
  | nil => intro g _; simp [addViolations]; rfl
  | cons a L ih =>
    intro g h
    obtain ⟨ha, ht, hv⟩ := h a List.mem_cons_self
    unfold addViolations at ih ⊢
    rw [List.map_cons, List.foldlM_cons, addViolation_table ht hv, setRow_rows N g a _ ha]
    refine (ih _ fun k hk => h k (List.mem_cons_of_mem _ hk)).trans ?_
    congr 2
    funext j
    by_cases hj : j ∈ L
    · rw [if_pos hj, if_pos (List.mem_cons_of_mem _ hj)]
      by_cases hja : j = a
      · rw [if_pos hja]
      · rw [if_neg hja]
    · rw [if_neg hj]
      by_cases hja : j = a
      · rw [if_pos hja, if_pos (List.mem_cons.2 (Or.inl hja)), hja]
      · rw [if_neg hja, if_neg (by rw [List.mem_cons]; exact fun h => h.elim hja hj)]

/-- The rows of the history before the violations are filled in. -/
theorem zipIdx_rows (h : List Metrics) (v : Option (String × ℝ)) :
    (h.map fun m => (⟨some m, v⟩ : MRow)).zipIdx.map Prod.swap = rows h.length fun k => ⟨h[k]?, v⟩ := by
  apply List.ext_getElem
  · simp [rows]
  · intro i h1 h2
    have hi : i < h.length := by simpa using h1
    simp [rows, List.getElem?_eq_getElem hi]

/-! ### Sorting -/

theorem rowLe_total (a b : Row) : rowLe a b ∨ rowLe b a := by
  unfold rowLe
  rcases lt_trichotomy (a.iter.getD 0) (b.iter.getD 0) with h | h | h
  · exact Or.inl (Or.inl h)
  · rcases le_total a.mesh b.mesh with h' | h'
    · exact Or.inl (Or.inr ⟨h, h'⟩)
    · exact Or.inr (Or.inr ⟨h.symm, h'⟩)
  · exact Or.inr (Or.inl h)

theorem rowLe_trans (a b c : Row) (h1 : rowLe a b) (h2 : rowLe b c) : rowLe a c := by
  unfold rowLe at *
  rcases h1 with h1 | ⟨h1, h1'⟩ <;> rcases h2 with h2 | ⟨h2, h2'⟩
  · exact Or.inl (h1.trans h2)
  · exact Or.inl (h2 ▸ h1)
  · exact Or.inl (h1 ▸ h2)
  · exact Or.inr ⟨h1.trans h2, h1'.trans h2'⟩

/-- Whatever the order of the tables, sorting puts them in the order of the iterations. -/
theorem sort_tables (T : Nat → List Row) (L M : List Nat) (hp : L.Perm M) (hM : M.Pairwise (· < ·))
    (hT : ∀ k ∈ M, IsTable k (T k)) : sortRows (L.map T).flatten = (M.map T).flatten := by
  classical
  have hpw : ((M.map T).flatten).Pairwise rowLe := by
    rw [List.pairwise_flatten]
    constructor
    · intro t ht
      obtain ⟨k, hk, rfl⟩ := List.mem_map.1 ht
      refine (hT k hk).mesh.imp_of_mem ?_
      intro a b ha hb hab
      exact Or.inr ⟨by rw [(hT k hk).iter a ha, (hT k hk).iter b hb], hab.le⟩
    · rw [List.pairwise_map]
      refine hM.imp_of_mem ?_
      intro j k hj hk hjk a ha b hb
      refine Or.inl ?_
      rw [(hT j hj).iter a ha, (hT k hk).iter b hb]
      exact hjk
  have hs : (sortRows (L.map T).flatten).Pairwise rowLe := by
    unfold sortRows
    refine (List.pairwise_mergeSort (le := fun a b => decide (rowLe a b)) ?_ ?_ _).imp ?_
    · intro a b c h1 h2
      simp only [decide_eq_true_eq] at *
      exact rowLe_trans a b c h1 h2
    · intro a b
      simp only [Bool.or_eq_true, decide_eq_true_eq]
      exact rowLe_total a b
    · intro a b h
      simpa using h
  have hperm : (sortRows (L.map T).flatten).Perm (M.map T).flatten := by
    unfold sortRows
    exact (List.mergeSort_perm _ _).trans (hp.map T).flatten
  refine List.Perm.eq_of_pairwise ?_ hs hpw hperm
  intro a b ha hb hab hba
  have ha' := hperm.mem_iff.1 ha
  rw [List.mem_flatten] at ha' hb
  obtain ⟨t, ht, hat⟩ := ha'
  obtain ⟨u, hu, hbu⟩ := hb
  obtain ⟨j, hj, rfl⟩ := List.mem_map.1 ht
  obtain ⟨k, hk, rfl⟩ := List.mem_map.1 hu
  have ia := (hT j hj).iter a hat
  have ib := (hT k hk).iter b hbu
  unfold rowLe at hab hba
  rw [ia, ib] at hab hba
  simp only [Option.getD_some] at hab hba
  have hjk : j = k := by omega
  subst hjk
  have hm : a.mesh = b.mesh := by
    rcases hab with h | ⟨_, h⟩
    · omega
    · rcases hba with h' | ⟨_, h'⟩
      · omega
      · exact le_antisymm h h'
  by_contra hne
  obtain ⟨i, hi, rfl⟩ := List.mem_iff_getElem.1 hat
  obtain ⟨i', hi', rfl⟩ := List.mem_iff_getElem.1 hbu
  rcases lt_trichotomy i i' with h | h | h
  · exact absurd hm (List.pairwise_iff_getElem.1 (hT j hj).mesh i i' hi hi' h).ne
  · subst h; exact hne rfl
  · exact absurd hm (List.pairwise_iff_getElem.1 (hT j hj).mesh i' i hi' hi h).ne'

/-! ### The run -/

theorem foldlM_snoc {σ α : Type} (f : σ → α → Py σ) (l : List α) (a : α) (s : σ) :
    (l ++ [a]).foldlM f s = (l.foldlM f s) >>= fun s => f s a := by
  rw [List.foldlM_append]
  congr 1
  funext s'
  rw [List.foldlM_cons]
  cases f s' a <;> rfl

/-- The table that the problem makes. -/
def tab (E : Env) (x : List ℝ) (k : Nat) : List Row :=
  match E.df x (some k) with
  | .ok t => t
  | .error _ => []

/-- The state after the events, from the state `s0`. -/
structure After (E : Env) (n : Nat) (s0 : St) (its : List (Metrics × List ℝ)) (p : Option (List ℝ)) (s : St) : Prop where
  last : ∀ x, p = some x → s.last = x
  numIter : s.numIter = if its = [] then s0.numIter else some (its.length - 1)
  history : s.history = s0.history ++ its.map Prod.fst
  sane : Sane s.files
  iter : ∀ k (hk : k < its.length), Logged n k → s.files.lookup (.iter k) = some (.table (tab E (its[k]).2 k))
  other : ∀ name, (∀ k, k < its.length → Logged n k → name ≠ .iter k) → s.files.lookup name = s0.files.lookup name

theorem tab_eq {E : Env} {x : List ℝ} {k : Nat} {t : List Row} (h : E.df x (some k) = .ok t) : tab E x k = t := by
  unfold tab; rw [h]

theorem run_after {E : Env} {n : Nat} (hE : E.every = some n) (s0 : St) (hs : Sane s0.files) (h0 : s0.numIter ≠ some 0)
    {es : List Event} {its : List (Metrics × List ℝ)} {p : Option (List ℝ)} (hr : Run es its p) (hT : Tables E es) :
    ∃ s, es.foldlM (step E) s0 = .ok s ∧ After E n s0 its p s ∧ (∀ q ∈ its, .objective q.2 ∈ es) ∧
      (∀ x, p = some x → .objective x ∈ es) := by
  induction hr with
  | start =>
    refine ⟨s0, rfl, ⟨by simp, by simp, by simp, hs, by simp, by simp⟩, by simp, by simp⟩
  | objective x hr ih =>
    rename_i es its p
    obtain ⟨s, h1, h2, h3, h4⟩ := ih fun y hy => hT y (List.mem_append_left _ hy)
    refine ⟨{ s with last := x }, ?_, ⟨?_, h2.numIter, h2.history, h2.sane, h2.iter, h2.other⟩, ?_, ?_⟩
    · rw [foldlM_snoc, h1]; rfl
    · intro y hy; exact Option.some.inj hy
    · intro q hq; exact List.mem_append_left _ (h3 q hq)
    · intro y hy
      rw [← Option.some.inj hy]
      exact List.mem_append_right _ List.mem_cons_self
  | again m hr hm ha ih =>
    rename_i es its p
    obtain ⟨s, h1, h2, h3, h4⟩ := ih fun y hy => hT y (List.mem_append_left _ hy)
    refine ⟨s, ?_, h2, fun q hq => List.mem_append_left _ (h3 q hq), fun x hx => List.mem_append_left _ (h4 x hx)⟩
    rw [foldlM_snoc, h1]
    show intermediate E s m = _
    unfold intermediate
    rw [if_pos]
    refine ⟨ha, ?_⟩
    have : its ≠ [] := by rintro rfl; simp at hm
    rw [h2.numIter, if_neg this]
    congr 1
    omega
  | iteration m hr hm ih =>
    rename_i es its x
    obtain ⟨s, h1, h2, h3, h4⟩ := ih fun y hy => hT y (List.mem_append_left _ hy)
    have hx : .objective x ∈ es := h4 x rfl
    have hlast : s.last = x := h2.last x rfl
    obtain ⟨t, ht, htt⟩ := hT x (List.mem_append_left _ hx) m.iterCount
    have hnew : ¬(m.algMod = 0 ∧ some m.iterCount = s.numIter) := by
      rintro ⟨_, he⟩
      rw [h2.numIter] at he
      by_cases hi : its = []
      · rw [if_pos hi] at he
        rw [hi] at hm
        rw [hm] at he
        exact h0 he.symm
      · rw [if_neg hi] at he
        have := Option.some.inj he
        have : 0 < its.length := List.length_pos_iff.2 hi
        omega
    have hnum : (some m.iterCount : Option Nat) = if its ++ [(m, x)] = [] then s0.numIter
        else some ((its ++ [(m, x)]).length - 1) := by
      rw [if_neg (by simp), hm]; simp
    have hh : s.history ++ [m] = s0.history ++ (its ++ [(m, x)]).map Prod.fst := by
      rw [h2.history]; simp
    have hobj : ∀ q ∈ its ++ [(m, x)], .objective q.2 ∈ es ++ [.report m] := by
      intro q hq
      rcases List.mem_append.1 hq with hq | hq
      · exact List.mem_append_left _ (h3 q hq)
      · rw [List.mem_singleton] at hq
        subst hq
        exact List.mem_append_left _ hx
    have hpt : ∀ y, some x = some y → .objective y ∈ es ++ [.report m] := by
      intro y hy; rw [← Option.some.inj hy]; exact List.mem_append_left _ hx
    by_cases hl : Logged n m.iterCount
    · refine ⟨⟨some m.iterCount, s.last, s.history ++ [m], write s.files (.iter m.iterCount) (.table t)⟩, ?_,
        ⟨fun y hy => hlast.trans (Option.some.inj hy), hnum, hh, sane_write _ _ _ h2.sane, ?_, ?_⟩, hobj, hpt⟩
      · rw [foldlM_snoc, h1]
        show intermediate E s m = _
        unfold intermediate log writeTable
        rw [if_neg hnew, hE]
        dsimp only
        rw [if_pos hl]
        simp only [bind, Except.bind, pure, Except.pure, hlast, ht]
      · intro k hk hlk
        rw [List.length_append, List.length_singleton] at hk
        by_cases hkm : k = its.length
        · subst hkm
          rw [hm, lookup_write]
          simp only [List.getElem_concat_length]
          rw [← hm, tab_eq ht]
        · have hk' : k < its.length := by omega
          rw [lookup_write_ne _ _ _ _ (by rw [hm]; simpa using hkm), h2.iter k hk' hlk, List.getElem_append_left hk']
      · intro name hname
        have hne : name ≠ .iter m.iterCount := hname m.iterCount (by rw [hm]; simp) hl
        rw [lookup_write_ne _ _ _ _ hne]
        exact h2.other name fun k hk hlk => hname k (by rw [List.length_append]; omega) hlk
    · refine ⟨⟨some m.iterCount, s.last, s.history ++ [m], s.files⟩, ?_,
        ⟨fun y hy => hlast.trans (Option.some.inj hy), hnum, hh, h2.sane, ?_, ?_⟩, hobj, hpt⟩
      · rw [foldlM_snoc, h1]
        show intermediate E s m = _
        unfold intermediate log
        rw [if_neg hnew, hE]
        dsimp only
        rw [if_neg hl]
        rfl
      · intro k hk hlk
        rw [List.length_append, List.length_singleton] at hk
        by_cases hkm : k = its.length
        · subst hkm
          exact absurd (hm ▸ hlk) hl
        · have hk' : k < its.length := by omega
          rw [h2.iter k hk' hlk, List.getElem_append_left hk']
      · intro name hname
        exact h2.other name fun k hk hlk => hname k (by rw [List.length_append]; omega) hlk

theorem fst_inj_iter : Function.Injective FName.iter := fun _ _ h => FName.iter.inj h

/-- **C71**. A solve in which IPOPT reported the iterations `0, …, K`: the directory holds `results.csv`, `metrics_history.csv` and, when
every `n`-th iteration is logged, `all_iters.parquet`, and nothing else has changed, in whatever order the operating system lists files.
The table of an iteration is that of the point at which the objective was evaluated last before its first report, that of the final one
the point at which the objective was evaluated last at all. -/
theorem C71_solve {E : Env} {n : Nat} (hE : E.every = some n) (s0 : St) (hs : Sane s0.files) (h0 : s0.numIter ≠ some 0)
    (hclean : ∀ name : FName, name.isIter = true → s0.files.lookup name = none)
    {es : List Event} {its : List (Metrics × List ℝ)} {x : List ℝ} (hr : Run es its (some x)) {K : Nat} (hK : its.length = K + 1)
    (hT : Tables E es) :
    ∃ s T, solve E s0 es = .ok s ∧ (∀ k (hk : k < its.length), k < K → E.df (its[k]).2 (some k) = .ok (T k)) ∧
      E.df x (some K) = .ok (T K) ∧ s.numIter = some K ∧ s.history = s0.history ++ its.map Prod.fst ∧
      Filed n K T (s0.history ++ its.map Prod.fst) s0.files s.files := by
  classical
  obtain ⟨s, h1, h2, h3, h4⟩ := run_after hE s0 hs h0 hr hT
  set T : Nat → List Row := fun k => if k = K then tab E x k else
    match its[k]? with
    | some q => tab E q.2 k
    | none => [] with hTdef
  have hTlt : ∀ k (hk : k < its.length), k < K → E.df (its[k]).2 (some k) = .ok (T k) ∧ IsTable k (T k) ∧
      T k = tab E (its[k]).2 k := by
    intro k hk hkK
    obtain ⟨t, ht, htt⟩ := hT _ (h3 _ (List.getElem_mem hk)) k
    have : T k = tab E (its[k]).2 k := by
      rw [hTdef]; dsimp only
      rw [if_neg (by omega), List.getElem?_eq_getElem hk]
    rw [this, tab_eq ht]
    exact ⟨ht, htt, rfl⟩
  obtain ⟨tK, htK, htKt⟩ := hT x (h4 x rfl) K
  have hTK : T K = tK := by
    rw [hTdef]; dsimp only
    rw [if_pos rfl, tab_eq htK]
  have hne : its ≠ [] := by rintro rfl; simp at hK
  have hnum : s.numIter = some K := by rw [h2.numIter, if_neg hne, hK]; rfl
  have hlast := h2.last x rfl
  set s1 : St := { s with files := write s.files .results (.table tK) } with hs1
  have hw : writeTable E s .results s.numIter = .ok s1 := by
    unfold writeTable
    rw [hnum, hlast, htK]
    simp only [bind, Except.bind, pure, Except.pure, hs1, hlast, hnum]
  have hsane1 : Sane s1.files := sane_write _ _ _ h2.sane
  rcases Nat.eq_zero_or_pos n with hn | hn
  · -- no iteration is logged
    subst hn
    refine ⟨{ s1 with files := write s1.files .metricsHistory (.metrics (s1.history.map fun m => ⟨some m, none⟩)) }, T, ?_,
      fun k hk hkK => (hTlt k hk hkK).1, hTK ▸ htK, hnum, h2.history, ?_⟩
    · unfold solve
      rw [h1]
      show logFinal E s = _
      unfold logFinal
      rw [hE]
      dsimp only
      rw [hw]
      rfl
    · refine ⟨?_, fun h => absurd h (lt_irrefl _), ?_, ⟨_, lookup_write _ _ _, ?_, ?_, fun h => absurd h (lt_irrefl _)⟩, ?_,
        sane_write _ _ _ hsane1⟩
      · rw [lookup_write_ne _ _ _ _ (by decide), hs1, lookup_write, hTK]
      · intro name hname
        rw [lookup_write_ne _ _ _ _ (by rintro rfl; simp [FName.isIter] at hname), hs1,
          lookup_write_ne _ _ _ _ (by rintro rfl; simp [FName.isIter] at hname),
          h2.other name (fun k _ hl => absurd hl.1 (lt_irrefl _)), hclean name hname]
      · rw [List.map_map]
        show s.history.map _ = _
        rw [h2.history]
        rfl
      · intro _ r hr'
        obtain ⟨m, _, rfl⟩ := List.mem_map.1 hr'
        rfl
      · intro name hname hres hmet _
        rw [lookup_write_ne _ _ _ _ hmet, hs1, lookup_write_ne _ _ _ _ hres,
          h2.other name (fun k _ hl => absurd hl.1 (lt_irrefl _))]
  · -- some are
    obtain ⟨fs2, hfs2, hsane2, hK2, hother2⟩ : ∃ fs2, dropLast s1.files n K = .ok fs2 ∧
        Sane fs2 ∧ fs2.lookup (.iter K) = none ∧ ∀ name, name ≠ .iter K → fs2.lookup name = s1.files.lookup name := by
      by_cases hd : K % n = 0
      · have : s1.files.lookup (.iter K) ≠ none := by
          rw [hs1, lookup_write_ne _ _ _ _ (by simp), h2.iter K (by omega) ⟨hn, hd⟩]
          simp
        refine ⟨_, (if_pos hd).trans (remove_ok _ _ this), sane_filter _ _ hsane1, lookup_filter_self _ _, ?_⟩
        intro name hname
        exact lookup_filter_ne _ _ _ hname
      · refine ⟨s1.files, if_neg hd, hsane1, ?_, fun _ _ => rfl⟩
        rw [hs1, lookup_write_ne _ _ _ _ (by simp), h2.other]
        · exact hclean _ rfl
        · intro k hk hl he
          exact hd (FName.iter.inj he ▸ hl.2)
    -- which iteration files there are
    have hit : ∀ name : FName, name.isIter = true →
        (fs2.lookup name ≠ none ↔ ∃ k, k < K ∧ Logged n k ∧ name = .iter k) := by
      intro name hname
      by_cases hnK : name = .iter K
      · subst hnK
        rw [hK2]
        simp
      · rw [hother2 name hnK, hs1, lookup_write_ne _ _ _ _ (by rintro rfl; simp [FName.isIter] at hname)]
        by_cases hex : ∃ k, k < its.length ∧ Logged n k ∧ name = .iter k
        · obtain ⟨k, hk, hl, rfl⟩ := hex
          rw [h2.iter k hk hl]
          simp only [ne_eq, reduceCtorEq, not_false_eq_true, FName.iter.injEq, true_iff]
          exact ⟨k, by have : k ≠ K := fun e => hnK (e ▸ rfl)
                       omega, hl, rfl⟩
        · rw [h2.other name (fun k hk hl he => hex ⟨k, hk, hl, he⟩), hclean name hname]
          simp only [ne_eq, not_true_eq_false, false_iff]
          rintro ⟨k, hk, hl, rfl⟩
          exact hex ⟨k, by omega, hl, rfl⟩
    have hread : ∀ k, k < K → Logged n k → fs2.lookup (.iter k) = some (.table (T k)) := by
      intro k hk hl
      rw [hother2 _ (by simp; omega), hs1, lookup_write_ne _ _ _ _ (by simp), h2.iter k (by omega) hl,
        (hTlt k (by omega) hk).2.2]
    -- the list of iterations in the order of the operating system
    obtain ⟨L, hL⟩ : ∃ L : List Nat, E.glob fs2 = L.map FName.iter := by
      have : ∀ name ∈ E.glob fs2, ∃ k, FName.iter k = name := by
        intro name hname
        rw [glob_mem] at hname
        obtain ⟨k, _, _, rfl⟩ := (hit name hname.1).1 hname.2
        exact ⟨k, rfl⟩
      generalize E.glob fs2 = l at this
      induction l with
      | nil => exact ⟨[], rfl⟩
      | cons a l ih =>
        obtain ⟨k, rfl⟩ := this a List.mem_cons_self
        obtain ⟨L, rfl⟩ := ih fun name hname => this name (List.mem_cons_of_mem _ hname)
        exact ⟨k :: L, rfl⟩
    have hLmem : ∀ k, k ∈ L ↔ k < K ∧ Logged n k := by
      intro k
      have : k ∈ L ↔ FName.iter k ∈ E.glob fs2 := by
        rw [hL, List.mem_map_of_injective fst_inj_iter]
      rw [this, glob_mem, hit _ rfl]
      constructor
      · rintro ⟨_, k', hk', hl, he⟩
        rw [FName.iter.inj he]
        exact ⟨hk', hl⟩
      · rintro ⟨hk, hl⟩
        exact ⟨rfl, k, hk, hl, rfl⟩
    have hLnd : L.Nodup := by
      have := glob_nodup E fs2 hsane2
      rw [hL] at this
      exact this.of_map _
    set M : List Nat := (List.range K).filter fun k => Logged n k with hM
    have hMmem : ∀ k, k ∈ M ↔ k < K ∧ Logged n k := by
      intro k
      rw [hM, List.mem_filter, List.mem_range]
      simp
    have hLM : L.Perm M := by
      rw [List.perm_ext_iff_of_nodup hLnd (List.nodup_range.filter _)]
      intro k
      rw [hLmem, hMmem]
    -- reading them
    have hdfs : (E.glob fs2 ++ [FName.results]).mapM (readTable fs2) = .ok ((L ++ [K]).map T) := by
      have := read_all fs2 (E.glob fs2 ++ [.results]) (fun name => match name with
        | .iter k => T k
        | _ => T K) ?_
      · rw [this, hL]
        simp
      · intro name hname
        rcases List.mem_append.1 hname with hname | hname
        · rw [hL] at hname
          obtain ⟨k, hk, rfl⟩ := List.mem_map.1 hname
          exact hread k ((hLmem k).1 hk).1 ((hLmem k).1 hk).2
        · rw [List.mem_singleton] at hname
          subst hname
          rw [hother2 _ (by simp), hs1, lookup_write, hTK]
    have hMT : ∀ k ∈ M ++ [K], IsTable k (T k) := by
      intro k hk
      rcases List.mem_append.1 hk with hk | hk
      · exact (hTlt k (by have := ((hMmem k).1 hk).1; omega) ((hMmem k).1 hk).1).2.1
      · rw [List.mem_singleton] at hk
        subst hk
        rw [hTK]
        exact htKt
    have hsort : sortRows ((L ++ [K]).map T).flatten = M.flatMap T ++ T K := by
      rw [sort_tables T (L ++ [K]) (M ++ [K]) (hLM.append_right _) ?_ hMT]
      · simp [List.flatMap]
      · rw [List.pairwise_append]
        refine ⟨(List.pairwise_lt_range (n := K)).filter _, List.pairwise_singleton _ _, ?_⟩
        intro a ha b hb
        rw [List.mem_singleton] at hb
        subst hb
        exact ((hMmem a).1 ha).1
    -- removing them
    set fs3 : FS := write fs2 .allIters (.table (M.flatMap T ++ T K)) with hfs3
    obtain ⟨fs4, hfs4, hsane4, hgone, hkeep⟩ := remove_all (E.glob fs2) fs3 (sane_write _ _ _ hsane2) (glob_nodup E fs2 hsane2) (by
      intro name hname
      rw [glob_mem] at hname
      rw [hfs3, lookup_write_ne _ _ _ _ (by rintro rfl; simp [FName.isIter] at hname)]
      exact hname.2)
    -- the violations
    have hV : ∀ k, ∃ v, k ∈ M ++ [K] → idxmax (violations (T k)) = .ok v ∧ Worst (T k) v := by
      intro k
      by_cases hk : k ∈ M ++ [K]
      · obtain ⟨v, hv⟩ := idxmax_worst (hMT k hk)
        exact ⟨v, fun _ => hv⟩
      · exact ⟨("", 0), fun h => absurd h hk⟩
    choose V hV using hV
    have hLK : ∀ k, k ∈ L ++ [K] ↔ k ∈ M ++ [K] := fun k => (hLM.append_right [K]).mem_iff
    have hlen' : s.history.length = s0.history.length + (K + 1) := by rw [h2.history]; simp [hK]
    have hviol := addViolations_rows s.history.length T V (L ++ [K]) (fun k => ⟨s.history[k]?, some ("NotRecorded", -1)⟩) (by
      intro k hk
      have hk' := (hLK k).1 hk
      refine ⟨?_, hMT k hk', (hV k hk').1⟩
      have hkK : k ≤ K := by
        rcases List.mem_append.1 hk' with h | h
        · exact ((hMmem k).1 h).1.le
        · exact (List.mem_singleton.1 h).le
      omega)
    refine ⟨{ s1 with files := write fs4 .metricsHistory (.metrics ((rows s.history.length fun j =>
        if j ∈ L ++ [K] then { (⟨s.history[j]?, some ("NotRecorded", -1)⟩ : MRow) with violation := some (V j) }
        else ⟨s.history[j]?, some ("NotRecorded", -1)⟩).map Prod.snd)) }, T, ?_,
      fun k hk hkK => (hTlt k hk hkK).1, hTK ▸ htK, hnum, h2.history, ?_⟩
    · unfold solve
      rw [h1]
      show logFinal E s = _
      unfold logFinal
      rw [hE]
      dsimp only
      rw [hw]
      simp only [bind, Except.bind, pure, Except.pure]
      rw [if_pos hn]
      have : s1.numIter = some K := hnum
      rw [this]
      dsimp only
      rw [hfs2]
      dsimp only
      rw [hdfs]
      dsimp only
      rw [hsort, hfs4]
      dsimp only
      have hh : s1.history = s.history := rfl
      rw [hh, zipIdx_rows, hviol]
    · have hkeep' : ∀ name : FName, name.isIter = false → fs4.lookup name = fs3.lookup name := by
        intro name hname
        refine hkeep name ?_
        rw [glob_mem, hname]
        simp
      refine ⟨?_, fun _ => ?_, ?_, ⟨_, lookup_write _ _ _, ?_, fun h => absurd h (by omega), fun _ => ?_⟩, ?_,
        sane_write _ _ _ hsane4⟩
      · rw [lookup_write_ne _ _ _ _ (by decide), hkeep' _ rfl, hfs3, lookup_write_ne _ _ _ _ (by decide),
          hother2 _ (by simp), hs1, lookup_write, hTK]
      · rw [lookup_write_ne _ _ _ _ (by decide), hkeep' _ rfl, hfs3, lookup_write]
      · intro name hname
        rw [lookup_write_ne _ _ _ _ (by rintro rfl; simp [FName.isIter] at hname)]
        by_cases hg : name ∈ E.glob fs2
        · exact hgone name hg
        · rw [hkeep name hg, hfs3, lookup_write_ne _ _ _ _ (by rintro rfl; simp [FName.isIter] at hname)]
          rw [glob_mem] at hg
          by_contra hc
          exact hg ⟨hname, hc⟩
      · rw [← h2.history, List.map_map]
        unfold rows
        rw [List.map_map]
        apply List.ext_getElem
        · simp
        · intro i hi hi'
          have hi2 : i < s.history.length := by simpa using hi'
          simp only [List.getElem_map, List.getElem_range, Function.comp]
          by_cases hiL : i ∈ L ++ [K]
          · rw [if_pos hiL]
            exact List.getElem?_eq_getElem hi2
          · rw [if_neg hiL]
            exact List.getElem?_eq_getElem hi2
      · intro k r hkr
        unfold rows at hkr
        rw [List.map_map, List.getElem?_map] at hkr
        obtain ⟨j, hj, rfl⟩ := Option.map_eq_some_iff.1 hkr
        obtain ⟨hjl, hj⟩ := List.getElem?_eq_some_iff.1 hj
        rw [List.getElem_range] at hj
        subst hj
        rename' k => j
        dsimp only [Function.comp]
        have hiff : j ∈ L ++ [K] ↔ (j < K ∧ Logged n j) ∨ j = K := by
          rw [hLK, List.mem_append, hMmem, List.mem_singleton]
        by_cases hjL : j ∈ L ++ [K]
        · rw [if_pos (hiff.1 hjL), if_pos hjL]
          exact ⟨V j, rfl, (hV j ((hLK j).1 hjL)).2⟩
        · rw [if_neg (fun h => hjL (hiff.2 h)), if_neg hjL]
      · intro name hname hres hmet hall
        have ha : name ≠ .allIters := fun e => by have := hall e; omega
        rw [lookup_write_ne _ _ _ _ hmet, hkeep' _ hname, hfs3, lookup_write_ne _ _ _ _ ha,
          hother2 _ (by rintro rfl; simp [FName.isIter] at hname), hs1, lookup_write_ne _ _ _ _ hres, h2.other]
        intro k _ _ he
        subst he
        simp [FName.isIter] at hname

end Lumos.Log
