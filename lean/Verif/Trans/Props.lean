import Verif.Trans.Matrices
/-!
# Properties of the transcriptions (C33 – C36, C38)
-/

namespace Lumos.Trans

open Polynomial Lumos Lumos.Ocp

/-! ## Specification vocabulary -/

/-- The two-dimensional array with `m` rows (stages), `d` columns (states) and entries `f j k`. -/
def grid (m d : Nat) (f : Nat → Nat → ℝ) : List (List ℝ) :=
  (List.range m).map fun (j : Nat) => (List.range d).map fun (k : Nat) => f j k

/-- `r` rows of `c` entries. -/
def HasShape (M : List (List ℝ)) (r c : Nat) : Prop := M.length = r ∧ ∀ row ∈ M, row.length = c

/-- Entry of a matrix. -/
def entry (M : List (List ℝ)) (i j : Nat) : ℝ := (M.getD i []).getD j 0

/-- Relative position of stage `j` in an interval, as the mesh uses it (`relPoints`, C23). -/
noncomputable def Transcription.tau (t : Transcription) (j : Nat) : ℝ := pt (relPoints t.interp) j

/-- The trajectory with components `q k`, sampled at the stages of an interval of length `h` starting at `t0`. -/
noncomputable def Transcription.sample (t : Transcription) (d : Nat) (q : Nat → ℝ[X]) (t0 h : ℝ) : List (List ℝ) :=
  grid t.stages d fun j k => (q k).eval (t0 + h * t.tau j)

/-! ## Lemmas -/

theorem grid_length (m d : Nat) (f : Nat → Nat → ℝ) : (grid m d f).length = m := by simp [grid]

theorem grid_entry {m d : Nat} (f : Nat → Nat → ℝ) {j k : Nat} (hj : j < m) (hk : k < d) :
    ((grid m d f).getD j []).getD k 0 = f j k := by
  simp [grid, hj, hk]

theorem grid_congr {m d : Nat} {f g : Nat → Nat → ℝ} (h : ∀ j k, j < m → k < d → f j k = g j k) :
    grid m d f = grid m d g := by
  refine List.map_congr_left fun j hj => List.map_congr_left fun k hk => ?_
  exact h j k (List.mem_range.mp hj) (List.mem_range.mp hk)

theorem matmul_grid {M : List (List ℝ)} {r m d : Nat} (hM : HasShape M r m) (hm : 0 < m) (f : Nat → Nat → ℝ) :
    matmul M (grid m d f) = .ok (grid r d fun i k => ∑ j ∈ Finset.range m, entry M i j * f j k) := by
  unfold matmul
  have hall : M.all (fun row => row.length == (grid m d f).length) = true := by
    rw [List.all_eq_true]
    intro row hrow
    simp [grid_length, hM.2 row hrow]
  rw [if_pos hall]
  have h0 : ((grid m d f).getD 0 []).length = d := by simp [grid, hm]
  rw [h0, grid_length]
  congr 1
  unfold grid
  rw [← hM.1]
  refine List.ext_getElem (by simp) ?_
  intro i h1 h2
  have hi : i < M.length := by simpa using h1
  simp only [List.getElem_map, List.getElem_range]
  refine List.map_congr_left fun k hk => ?_
  rw [sum_range]
  refine Finset.sum_congr rfl fun j hj => ?_
  have h3 := grid_entry f (Finset.mem_range.mp hj) (List.mem_range.mp hk)
  unfold grid at h3
  rw [h3, entry]
  simp [hi]

theorem continuityCon_grid {t : Transcription} {r m : Nat} (hA : HasShape t.A r m) (hB : HasShape t.B r m)
    (hm : 0 < m) (d : Nat) (X Xd : Nat → Nat → ℝ) (h : ℝ) :
    t.continuityCon (grid m d X) (grid m d Xd) h = .ok (grid r d fun l k =>
      (∑ j ∈ Finset.range m, entry t.A l j * X j k) - (∑ j ∈ Finset.range m, entry t.B l j * Xd j k) * h) := by
  unfold Transcription.continuityCon
  rw [matmul_grid hA hm, matmul_grid hB hm]
  simp only [bind, Except.bind, pure, Except.pure]
  congr 1
  unfold grid
  rw [List.zipWith_map_left, List.zipWith_map_right, List.zipWith_self]
  refine List.map_congr_left fun l _ => ?_
  rw [List.zipWith_map_left, List.zipWith_map_right, List.zipWith_self]

theorem diags_shape (vs : List ℝ) (os : List Nat) (r c : Nat) : HasShape (diags vs os r c) r c := by
  constructor
  · simp [diags]
  · intro row hrow
    obtain ⟨i, _, rfl⟩ := List.mem_map.mp hrow
    simp

theorem diags_entry (vs : List ℝ) (os : List Nat) {r c i j : Nat} (hi : i < r) (hj : j < c) :
    entry (diags vs os r c) i j = ((vs.zip os).map fun (vo : ℝ × Nat) => if j = i + vo.2 then vo.1 else 0).sum := by
  simp [entry, diags, hi, hj]

/-! ## C38 -/

/-- The attributes of a successfully constructed LGR object. -/
theorem mkColloc_ok (m : Int) (hm : 2 ≤ m) : ∃ c, mkColloc m = .ok c ∧ (c.numStages : Int) = m
    ∧ c.collocationPoints.length + 1 = c.numStages ∧ c.interpPoints = 0 :: c.collocationPoints
    ∧ c.dMatrix = diffMatrix c.interpPoints c.collocationPoints ∧ GoodRel c.interpPoints := by
  obtain ⟨pts, hpts, hlen, hpw, hin, hlast, _⟩ := C37_lgr_points (m - 1) (by omega)
  refine ⟨⟨m.toNat, pts.map fun t => (t + 1) / 2, 0 :: pts.map fun t => (t + 1) / 2,
    diffMatrix (0 :: pts.map fun t => (t + 1) / 2) (pts.map fun t => (t + 1) / 2)⟩, ?_, ?_, ?_, rfl, rfl, ?_⟩
  · unfold mkColloc; rw [hpts]; rfl
  · dsimp only; omega
  · dsimp only; rw [List.length_map]; omega
  · dsimp only
    refine ⟨?_, rfl, ?_, ?_⟩
    · simp; omega
    · have : (0 :: pts.map fun t => (t + 1) / 2).getLast? = some (1 : ℝ) := by
        rw [List.getLast?_cons, List.getLast?_map, hlast]
        norm_num
      rwa [List.getLast?_eq_getElem?] at this
    · rw [List.pairwise_cons]
      constructor
      · intro a ha
        obtain ⟨t, ht, rfl⟩ := List.mem_map.mp ha
        have := (hin t ht).1
        linarith
      · rw [List.pairwise_map]
        exact hpw.imp fun h => by linarith

theorem mkColloc_error (m : Int) (hm : m < 2) : mkColloc m = .error .assertionError := by
  unfold mkColloc
  rw [C37_errors.1 (m - 1) .LGR (by omega)]
  rfl

/-- **C38 (names).** A name that is not one of the four options is a RuntimeError, whatever the arguments. -/
theorem C38_unknown_name (name : String) (kwargs : List (String × Int))
    (h : name ∉ ["ForwardEuler", "Trapezoidal", "LGR", "LGRIntegral"]) :
    makeTranscription name kwargs = .error .runtimeError := by
  simp only [List.mem_cons, List.not_mem_nil, or_false, not_or] at h
  simp [makeTranscription, h]

/-- **C38 (low order).** ForwardEuler and Trapezoidal are constructed without arguments and have 2 stages; any
argument is a TypeError. -/
theorem C38_low_order :
    makeTranscription "ForwardEuler" [] = .ok .forwardEuler ∧ Transcription.forwardEuler.stages = 2
    ∧ makeTranscription "Trapezoidal" [] = .ok .trapezoidal ∧ Transcription.trapezoidal.stages = 2
    ∧ ∀ name ∈ ["ForwardEuler", "Trapezoidal"], ∀ kwargs, kwargs ≠ [] →
      makeTranscription name kwargs = .error .typeError := by
  refine ⟨by simp [makeTranscription, callPlain], rfl, by simp [makeTranscription, callPlain], rfl, ?_⟩
  intro name hn kwargs hk
  simp only [List.mem_cons, List.not_mem_nil, or_false] at hn
  rcases hn with rfl | rfl <;> simp [makeTranscription, callPlain, hk]

/-- **C38 (LGR schemes).** With `num_stages = m` (3 when not given) the LGR schemes are constructed with `m`
stages exactly if `m ≥ 2`; otherwise an AssertionError; any other keyword is a TypeError. -/
theorem C38_lgr (name : String) (hn : name ∈ ["LGR", "LGRIntegral"]) :
    (∃ t, makeTranscription name [] = .ok t ∧ t.stages = 3)
    ∧ (∀ m : Int, 2 ≤ m → ∃ t, makeTranscription name [("num_stages", m)] = .ok t ∧ (t.stages : Int) = m)
    ∧ (∀ m : Int, m < 2 → makeTranscription name [("num_stages", m)] = .error .assertionError)
    ∧ ∀ kwargs, (∃ kv ∈ kwargs, kv.1 ≠ "num_stages") → makeTranscription name kwargs = .error .typeError := by
  have key : ∀ m : Int, 2 ≤ m → ∃ c, mkColloc m = .ok c ∧ (c.numStages : Int) = m := fun m hm => by
    obtain ⟨c, h1, h2, _⟩ := mkColloc_ok m hm; exact ⟨c, h1, h2⟩
  have hbad : ∀ kwargs : List (String × Int), (∃ kv ∈ kwargs, kv.1 ≠ "num_stages") →
      kwargs.all (fun (kv : String × Int) => kv.1 == "num_stages") = false := by
    intro kwargs ⟨kv, h1, h2⟩
    rw [List.all_eq_false]
    exact ⟨kv, h1, by simpa using h2⟩
  simp only [List.mem_cons, List.not_mem_nil, or_false] at hn
  rcases hn with rfl | rfl
  · refine ⟨?_, ?_, ?_, ?_⟩
    · obtain ⟨c, h1, h2⟩ := key 3 (by norm_num)
      exact ⟨.lgr c, by simp [makeTranscription, callNumStages, mkLGR, h1, bind, Except.bind, pure, Except.pure],
        by simp only [Transcription.stages]; omega⟩
    · intro m hm
      obtain ⟨c, h1, h2⟩ := key m hm
      exact ⟨.lgr c, by simp [makeTranscription, callNumStages, mkLGR, h1, bind, Except.bind, pure, Except.pure], h2⟩
    · intro m hm
      simp [makeTranscription, callNumStages, mkLGR, mkColloc_error m hm, bind, Except.bind]
    · intro kwargs h
      simp only [makeTranscription, callNumStages, hbad kwargs h]; simp
  · refine ⟨?_, ?_, ?_, ?_⟩
    · obtain ⟨c, h1, h2⟩ := key 3 (by norm_num)
      exact ⟨.lgrIntegral c (integMatrix c.interpPoints c.collocationPoints), by simp [makeTranscription, callNumStages, mkLGRIntegral, h1, bind, Except.bind, pure, Except.pure],
        by simp only [Transcription.stages]; omega⟩
    · intro m hm
      obtain ⟨c, h1, h2⟩ := key m hm
      exact ⟨.lgrIntegral c (integMatrix c.interpPoints c.collocationPoints), by simp [makeTranscription, callNumStages, mkLGRIntegral, h1, bind, Except.bind, pure, Except.pure], h2⟩
    · intro m hm
      simp [makeTranscription, callNumStages, mkLGRIntegral, mkColloc_error m hm, bind, Except.bind]
    · intro kwargs h
      simp only [makeTranscription, callNumStages, hbad kwargs h]; simp

/-- The four forms of a constructed transcription. -/
theorem make_cases {name : String} {kwargs : List (String × Int)} {t : Transcription}
    (h : makeTranscription name kwargs = .ok t) :
    t = .forwardEuler ∨ t = .trapezoidal ∨
    ∃ c, c.collocationPoints.length + 1 = c.numStages ∧ c.interpPoints = 0 :: c.collocationPoints
      ∧ c.dMatrix = diffMatrix c.interpPoints c.collocationPoints ∧ GoodRel c.interpPoints
      ∧ ((name = "LGR" ∧ t = .lgr c) ∨ (name = "LGRIntegral" ∧
          t = .lgrIntegral c (integMatrix c.interpPoints c.collocationPoints))) := by
  unfold makeTranscription at h
  split_ifs at h with h1 h2 h3 h4
  · left; unfold callPlain at h; split_ifs at h; exact (Except.ok.inj h).symm
  · right; left; unfold callPlain at h; split_ifs at h; exact (Except.ok.inj h).symm
  · right; right
    unfold callNumStages at h
    split_ifs at h
    by_cases hm : 2 ≤ (kwargs.lookup "num_stages").getD 3
    · obtain ⟨c, e1, _, e3, e4, e5, e6⟩ := mkColloc_ok _ hm
      unfold mkLGR at h
      rw [e1] at h
      exact ⟨c, e3, e4, e5, e6, Or.inl ⟨h3, (Except.ok.inj h).symm⟩⟩
    · unfold mkLGR at h
      rw [mkColloc_error _ (by omega)] at h
      simp [bind, Except.bind] at h
  · right; right
    unfold callNumStages at h
    split_ifs at h
    by_cases hm : 2 ≤ (kwargs.lookup "num_stages").getD 3
    · obtain ⟨c, e1, _, e3, e4, e5, e6⟩ := mkColloc_ok _ hm
      unfold mkLGRIntegral at h
      rw [e1] at h
      exact ⟨c, e3, e4, e5, e6, Or.inr ⟨h4, (Except.ok.inj h).symm⟩⟩
    · unfold mkLGRIntegral at h
      rw [mkColloc_error _ (by omega)] at h
      simp [bind, Except.bind] at h

theorem diffMatrix_shape (s e : List ℝ) : HasShape (diffMatrix s e) e.length s.length := by
  constructor
  · simp [diffMatrix, evalMatrix]
  · intro row hrow
    obtain ⟨i, _, rfl⟩ := List.mem_map.mp hrow
    simp [lagrangeBasis]

theorem integMatrix_shape (s e : List ℝ) : HasShape (integMatrix s e) e.length s.length := by
  constructor
  · simp [integMatrix, evalMatrix]
  · intro row hrow
    obtain ⟨i, _, rfl⟩ := List.mem_map.mp hrow
    simp [lagrangeBasis]

/-- **C38 (shapes).** Every constructed transcription has at least two stages, one constraint per interval less
than stages, matrices of `stages - 1` rows and `stages` columns, and stage positions strictly increasing from 0 to 1
(what the mesh needs, C23). -/
theorem C38_shapes {name : String} {kwargs : List (String × Int)} {t : Transcription}
    (h : makeTranscription name kwargs = .ok t) :
    2 ≤ t.stages ∧ t.numCons = t.stages - 1 ∧ HasShape t.A (t.stages - 1) t.stages
      ∧ HasShape t.B (t.stages - 1) t.stages ∧ (relPoints t.interp).length = t.stages ∧ GoodRel (relPoints t.interp) := by
  rcases make_cases h with rfl | rfl | ⟨c, e3, e4, e5, e6, ⟨_, rfl⟩ | ⟨_, rfl⟩⟩
  · exact ⟨le_refl _, rfl, diags_shape _ _ _ _, diags_shape _ _ _ _, rfl, goodRel_none⟩
  · exact ⟨le_refl _, rfl, diags_shape _ _ _ _, diags_shape _ _ _ _, rfl, goodRel_none⟩
  · have hs : c.interpPoints.length = c.numStages := by rw [e4, List.length_cons, e3]
    have h2 := e6.two
    rw [hs] at h2
    refine ⟨h2, ?_, ?_, ?_, hs, e6⟩
    · simp only [Transcription.numCons, Transcription.stages]; omega
    · simp only [Transcription.A, Transcription.stages, e5]
      have := diffMatrix_shape c.interpPoints c.collocationPoints
      rw [hs] at this
      convert this using 1
      omega
    · have := diags_shape [1] [1] c.collocationPoints.length c.numStages
      simp only [Transcription.B, Transcription.stages, Transcription.numCons]
      convert this using 1
      omega
  · have hs : c.interpPoints.length = c.numStages := by rw [e4, List.length_cons, e3]
    have h2 := e6.two
    rw [hs] at h2
    refine ⟨h2, ?_, ?_, ?_, hs, e6⟩
    · simp only [Transcription.numCons, Transcription.stages]; omega
    · simp only [Transcription.A, Transcription.stages]
      constructor
      · simp [eye]
      · intro row hrow
        obtain ⟨r, hr, rfl⟩ := List.mem_map.mp hrow
        obtain ⟨i, _, rfl⟩ := List.mem_map.mp hr
        simp; omega
    · have := integMatrix_shape c.interpPoints c.collocationPoints
      simp only [Transcription.B, Transcription.stages]
      rw [hs] at this
      convert this using 1
      omega

/-- The continuity constraint of every constructed transcription, through the entries of its matrices. -/
theorem con_eq {name : String} {kwargs : List (String × Int)} {t : Transcription}
    (ht : makeTranscription name kwargs = .ok t) (d : Nat) (X Xd : Nat → Nat → ℝ) (h : ℝ) :
    t.continuityCon (grid t.stages d X) (grid t.stages d Xd) h = .ok (grid (t.stages - 1) d fun l k =>
      (∑ j ∈ Finset.range t.stages, entry t.A l j * X j k)
        - (∑ j ∈ Finset.range t.stages, entry t.B l j * Xd j k) * h) := by
  obtain ⟨h1, _, h3, h4, _, _⟩ := C38_shapes ht
  exact continuityCon_grid h3 h4 (by omega) d X Xd h

/-! ## C33 -/

/-- **C33 (Euler formula).** `continuity_con` of forward Euler is `x_1 - x_0 - h xdot_0`, for every state. -/
theorem C33_euler_formula {t : Transcription} (ht : makeTranscription "ForwardEuler" [] = .ok t) (d : Nat)
    (X Xd : Nat → Nat → ℝ) (h : ℝ) :
    t.continuityCon (grid 2 d X) (grid 2 d Xd) h = .ok (grid 1 d fun _ k => X 1 k - X 0 k - h * Xd 0 k) := by
  have he : t = .forwardEuler := (Except.ok.inj (C38_low_order.1.symm.trans ht)).symm
  subst he
  refine (con_eq ht d X Xd h).trans ?_
  congr 1
  refine grid_congr fun l k hl _ => ?_
  have hl0 : l = 0 := by simp only [Transcription.stages] at hl; omega
  subst hl0
  simp only [Transcription.stages, Finset.sum_range_succ, Finset.sum_range_zero, Transcription.A, Transcription.B,
    Transcription.numCons]
  rw [diags_entry _ _ (by omega) (by omega), diags_entry _ _ (by omega) (by omega),
    diags_entry _ _ (by omega) (by omega), diags_entry _ _ (by omega) (by omega)]
  simp
  ring

/-- **C33 (trapezoidal formula).** `continuity_con` of the trapezoidal rule is
`x_1 - x_0 - h/2 (xdot_0 + xdot_1)`, for every state. -/
theorem C33_trapezoidal_formula {t : Transcription} (ht : makeTranscription "Trapezoidal" [] = .ok t) (d : Nat)
    (X Xd : Nat → Nat → ℝ) (h : ℝ) :
    t.continuityCon (grid 2 d X) (grid 2 d Xd) h
      = .ok (grid 1 d fun _ k => X 1 k - X 0 k - h / 2 * (Xd 0 k + Xd 1 k)) := by
  have he : t = .trapezoidal := (Except.ok.inj (C38_low_order.2.2.1.symm.trans ht)).symm
  subst he
  refine (con_eq ht d X Xd h).trans ?_
  congr 1
  refine grid_congr fun l k hl _ => ?_
  have hl0 : l = 0 := by simp only [Transcription.stages] at hl; omega
  subst hl0
  simp only [Transcription.stages, Finset.sum_range_succ, Finset.sum_range_zero, Transcription.A, Transcription.B,
    Transcription.numCons]
  rw [diags_entry _ _ (by omega) (by omega), diags_entry _ _ (by omega) (by omega),
    diags_entry _ _ (by omega) (by omega), diags_entry _ _ (by omega) (by omega)]
  simp
  ring

theorem eval_deg_two (p : ℝ[X]) (hp : p.natDegree ≤ 2) (t : ℝ) :
    p.eval t = p.coeff 0 + p.coeff 1 * t + p.coeff 2 * t ^ 2
      ∧ (derivative p).eval t = p.coeff 1 + 2 * p.coeff 2 * t := by
  have h1 : (derivative p).natDegree < 2 := by
    have := natDegree_derivative_le p; omega
  rw [eval_eq_sum_range' (n := 3) (by omega), eval_eq_sum_range' h1]
  simp only [Finset.sum_range_succ, coeff_derivative, Finset.sum_range_zero]
  constructor <;> (push_cast; ring)

/-- **C33 (Euler exactness).** Forward Euler is exact on affine trajectories, for every interval. -/
theorem C33_euler_exact {t : Transcription} (ht : makeTranscription "ForwardEuler" [] = .ok t) (d : Nat)
    (q : Nat → ℝ[X]) (hq : ∀ k, k < d → (q k).natDegree ≤ 1) (t0 h : ℝ) :
    t.continuityCon (t.sample d q t0 h) (t.sample d (fun k => derivative (q k)) t0 h) h
      = .ok (grid (t.stages - 1) d fun _ _ => 0) := by
  have he : t = .forwardEuler := (Except.ok.inj (C38_low_order.1.symm.trans ht)).symm
  subst he
  refine (C33_euler_formula ht d _ _ h).trans ?_
  congr 1
  refine grid_congr fun l k _ hk => ?_
  have h0 : Transcription.forwardEuler.tau 0 = 0 := rfl
  have h1 : Transcription.forwardEuler.tau 1 = 1 := rfl
  have hc : (q k).coeff 2 = 0 := coeff_eq_zero_of_natDegree_lt (by have := hq k hk; omega)
  rw [h0, h1]
  have e := eval_deg_two (q k) (by have := hq k hk; omega)
  rw [(e _).1, (e _).1, (e _).2, hc]
  ring

/-- **C33 (trapezoidal exactness).** The trapezoidal rule is exact on quadratic trajectories, for every interval. -/
theorem C33_trapezoidal_exact {t : Transcription} (ht : makeTranscription "Trapezoidal" [] = .ok t) (d : Nat)
    (q : Nat → ℝ[X]) (hq : ∀ k, k < d → (q k).natDegree ≤ 2) (t0 h : ℝ) :
    t.continuityCon (t.sample d q t0 h) (t.sample d (fun k => derivative (q k)) t0 h) h
      = .ok (grid (t.stages - 1) d fun _ _ => 0) := by
  have he : t = .trapezoidal := (Except.ok.inj (C38_low_order.2.2.1.symm.trans ht)).symm
  subst he
  refine (C33_trapezoidal_formula ht d _ _ h).trans ?_
  congr 1
  refine grid_congr fun l k _ hk => ?_
  have h0 : Transcription.trapezoidal.tau 0 = 0 := rfl
  have h1 : Transcription.trapezoidal.tau 1 = 1 := rfl
  rw [h0, h1]
  have e := eval_deg_two (q k) (hq k hk)
  rw [(e _).1, (e _).1, (e _).2, (e _).2]
  ring

/-! ## C34 and C35 -/

/-- The polynomial in relative time. -/
noncomputable def toRel (q : ℝ[X]) (t0 h : ℝ) : ℝ[X] := q.comp (C t0 + C h * X)

theorem toRel_eval (q : ℝ[X]) (t0 h τ : ℝ) : (toRel q t0 h).eval τ = q.eval (t0 + h * τ) := by
  simp [toRel]

theorem toRel_degree (q : ℝ[X]) (t0 h : ℝ) : (toRel q t0 h).natDegree ≤ q.natDegree := by
  unfold toRel
  refine natDegree_comp_le.trans ?_
  have h1 : (C t0 + C h * X : ℝ[X]).natDegree ≤ 1 := by
    refine natDegree_add_le_of_degree_le (by simp) ?_
    exact (natDegree_C_mul_le _ _).trans natDegree_X_le
  calc q.natDegree * (C t0 + C h * X : ℝ[X]).natDegree ≤ q.natDegree * 1 := Nat.mul_le_mul_left _ h1
    _ = q.natDegree := by rw [mul_one]

theorem toRel_derivative (q : ℝ[X]) (t0 h τ : ℝ) :
    (derivative (toRel q t0 h)).eval τ = h * (derivative q).eval (t0 + h * τ) := by
  simp [toRel, derivative_comp]

/-- **C34 (the differentiation matrix).** For strictly increasing support points and any evaluation points, the
differentiation matrix applied to the values of a polynomial of degree below the number of support points gives the
values of its derivative. -/
theorem C34_differentiation_matrix {s : List ℝ} (hs : s.Pairwise (· < ·)) (e : List ℝ) (p : ℝ[X])
    (hp : p.natDegree < s.length) :
    matmul (diffMatrix s e) (s.map fun t => [p.eval t]) = .ok (e.map fun t => [(derivative p).eval t]) := by
  have e1 : (s.map fun t => [p.eval t]) = grid s.length 1 fun j _ => p.eval (pt s j) := by
    refine List.ext_getElem (by simp [grid]) fun i h1 h2 => ?_
    have hi : i < s.length := by simpa using h1
    simp [grid, pt, hi]
  rw [e1, matmul_grid (diffMatrix_shape s e) (by omega)]
  congr 1
  refine List.ext_getElem (by simp [grid]) fun i h1 h2 => ?_
  have hi : i < e.length := by simpa using h2
  have := diffMatrix_exact hs e p hp hi
  simp only [grid, List.getElem_map, List.getElem_range, List.range_one, List.map_cons, List.map_nil, entry]
  rw [this]
  simp [pt, hi]

/-- **C34 (value).** Let `q k` be the polynomials of degree `< m` through the stage values of the states. The LGR
continuity constraint of state `k` at the `l`-th collocation point is `h * (q'(t_l) - xdot)`, the derivative being
that given by the data at the same point: the constraint holds exactly if the interpolating polynomials satisfy the
differential equation at all collocation points. -/
theorem C34_lgr_value {kwargs : List (String × Int)} {t : Transcription} (ht : makeTranscription "LGR" kwargs = .ok t)
    (d : Nat) (X Xd : Nat → Nat → ℝ) (q : Nat → ℝ[X]) (hq : ∀ k, k < d → (q k).natDegree < t.stages) (t0 h : ℝ)
    (hX : ∀ j k, j < t.stages → k < d → (q k).eval (t0 + h * t.tau j) = X j k) :
    t.continuityCon (grid t.stages d X) (grid t.stages d Xd) h = .ok (grid (t.stages - 1) d fun l k =>
      h * ((derivative (q k)).eval (t0 + h * t.tau (l + 1)) - Xd (l + 1) k)) := by
  refine (con_eq ht d X Xd h).trans ?_
  congr 1
  refine grid_congr fun l k hl hk => ?_
  rcases make_cases ht with rfl | rfl | ⟨c, e3, e4, e5, e6, ⟨_, rfl⟩ | ⟨h0, rfl⟩⟩
  · exact absurd ht (by unfold makeTranscription; simp [callNumStages]; split_ifs <;> simp [mkLGR, bind, Except.bind, pure, Except.pure]; split <;> simp)
  · exact absurd ht (by unfold makeTranscription; simp [callNumStages]; split_ifs <;> simp [mkLGR, bind, Except.bind, pure, Except.pure]; split <;> simp)
  · have hs : c.interpPoints.length = c.numStages := by rw [e4, List.length_cons, e3]
    simp only [Transcription.stages] at hl hq hX ⊢
    have hl' : l < c.collocationPoints.length := by omega
    have hpt : Transcription.tau (.lgr c) (l + 1) = pt c.collocationPoints l := by
      simp [Transcription.tau, Transcription.interp, relPoints, e4, pt]
    have hA : ∑ j ∈ Finset.range c.numStages, entry (Transcription.lgr c).A l j * X j k
        = h * (derivative (q k)).eval (t0 + h * Transcription.tau (.lgr c) (l + 1)) := by
      rw [hpt, ← toRel_derivative]
      have := diffMatrix_exact e6.incr c.collocationPoints (toRel (q k) t0 h)
        (lt_of_le_of_lt (toRel_degree _ _ _) (by rw [hs]; exact hq k hk)) hl'
      rw [← this, hs]
      refine Finset.sum_congr rfl fun j hj => ?_
      rw [← hX j k (Finset.mem_range.mp hj) hk, toRel_eval]
      simp only [entry, Transcription.A, e5, Transcription.tau, Transcription.interp, relPoints, Option.getD_some]
    have hB : ∑ j ∈ Finset.range c.numStages, entry (Transcription.lgr c).B l j * Xd j k = Xd (l + 1) k := by
      rw [Finset.sum_eq_single (l + 1)]
      · simp only [Transcription.B, Transcription.numCons, Transcription.stages]
        rw [diags_entry _ _ hl' (by omega)]
        simp
      · intro j hj hne
        simp only [Transcription.B, Transcription.numCons, Transcription.stages]
        rw [diags_entry _ _ hl' (Finset.mem_range.mp hj)]
        simp [hne]
      · intro hn
        exact absurd (Finset.mem_range.mpr (by omega)) hn
    rw [hA, hB]
    ring
  · exact absurd h0 (by decide)

/-- The polynomial asked for in `C34_lgr_value` exists and is unique, for every data and every interval of
non-zero length. -/
theorem C34_interpolant {name : String} {kwargs : List (String × Int)} {t : Transcription}
    (ht : makeTranscription name kwargs = .ok t) (v : Nat → ℝ) (t0 h : ℝ) (hh : h ≠ 0) :
    ∃! q : ℝ[X], q.natDegree < t.stages ∧ ∀ j, j < t.stages → q.eval (t0 + h * t.tau j) = v j := by
  obtain ⟨h1, _, _, _, hl, hg⟩ := C38_shapes ht
  have hinj : Set.InjOn (fun j => t0 + h * t.tau j) (Finset.range t.stages) := by
    intro i hi j hj hij
    have hrel := injOn_pt hg.incr
    rw [hl] at hrel
    refine hrel hi hj ?_
    have : h * t.tau i = h * t.tau j := by simpa using hij
    exact mul_left_cancel₀ hh this
  refine ⟨Lagrange.interpolate (Finset.range t.stages) (fun j => t0 + h * t.tau j) v, ⟨?_, ?_⟩, ?_⟩
  · have := Lagrange.degree_interpolate_lt v hinj
    rw [Finset.card_range] at this
    by_cases h0 : Lagrange.interpolate (Finset.range t.stages) (fun j => t0 + h * t.tau j) v = 0
    · rw [h0]; simp; omega
    · rwa [← natDegree_lt_iff_degree_lt h0] at this
  · intro j hj
    exact Lagrange.eval_interpolate_at_node v hinj (by simpa using hj)
  · rintro q ⟨hd, hv⟩
    refine Lagrange.eq_interpolate_of_eval_eq v hinj ?_ fun j hj => hv j (by simpa using hj)
    rw [Finset.card_range]
    exact lt_of_le_of_lt degree_le_natDegree (by exact_mod_cast hd)

/-- **C34 (exactness).** Every polynomial trajectory of degree below the number of stages satisfies the LGR
continuity constraint exactly, on every interval. -/
theorem C34_lgr_exact {kwargs : List (String × Int)} {t : Transcription} (ht : makeTranscription "LGR" kwargs = .ok t)
    (d : Nat) (q : Nat → ℝ[X]) (hq : ∀ k, k < d → (q k).natDegree < t.stages) (t0 h : ℝ) :
    t.continuityCon (t.sample d q t0 h) (t.sample d (fun k => derivative (q k)) t0 h) h
      = .ok (grid (t.stages - 1) d fun _ _ => 0) := by
  refine (C34_lgr_value ht d _ _ q hq t0 h fun j k _ _ => rfl).trans ?_
  congr 1
  refine grid_congr fun l k _ _ => ?_
  ring

/-- **C35 (the integration matrix).** For strictly increasing support points and any evaluation points, the
integration matrix applied to the values of a polynomial of degree below the number of support points gives its
integrals from the first support point to the evaluation points. -/
theorem C35_integration_matrix {s : List ℝ} (hs : s.Pairwise (· < ·)) (e : List ℝ) (p : ℝ[X])
    (hp : p.natDegree < s.length) :
    matmul (integMatrix s e) (s.map fun t => [p.eval t])
      = .ok (e.map fun b => [∫ t in (s.getD 0 0)..b, p.eval t]) := by
  have e1 : (s.map fun t => [p.eval t]) = grid s.length 1 fun j _ => p.eval (pt s j) := by
    refine List.ext_getElem (by simp [grid]) fun i h1 h2 => ?_
    have hi : i < s.length := by simpa using h1
    simp [grid, pt, hi]
  rw [e1, matmul_grid (integMatrix_shape s e) (by omega)]
  congr 1
  refine List.ext_getElem (by simp [grid]) fun i h1 h2 => ?_
  have hi : i < e.length := by simpa using h2
  have := integMatrix_exact hs e p hp hi
  simp only [grid, List.getElem_map, List.getElem_range, List.range_one, List.map_cons, List.map_nil, entry]
  rw [this]
  simp [pt, hi]

/-- **C35 (value).** Let `g k` be the polynomials of degree `< m` through the stage values of the state
derivatives. The LGRIntegral continuity constraint of state `k` at the `l`-th collocation point is the state there,
minus the state at the interval start, minus the integral of `g` over the time between. -/
theorem C35_integral_value {kwargs : List (String × Int)} {t : Transcription}
    (ht : makeTranscription "LGRIntegral" kwargs = .ok t)
    (d : Nat) (X Xd : Nat → Nat → ℝ) (g : Nat → ℝ[X]) (hg : ∀ k, k < d → (g k).natDegree < t.stages) (t0 h : ℝ)
    (hX : ∀ j k, j < t.stages → k < d → (g k).eval (t0 + h * t.tau j) = Xd j k) :
    t.continuityCon (grid t.stages d X) (grid t.stages d Xd) h = .ok (grid (t.stages - 1) d fun l k =>
      X (l + 1) k - X 0 k - ∫ s in t0..(t0 + h * t.tau (l + 1)), (g k).eval s) := by
  refine (con_eq ht d X Xd h).trans ?_
  congr 1
  refine grid_congr fun l k hl hk => ?_
  rcases make_cases ht with rfl | rfl | ⟨c, e3, e4, e5, e6, ⟨h0, rfl⟩ | ⟨_, rfl⟩⟩
  · exact absurd ht (by unfold makeTranscription; simp [callNumStages]; split_ifs <;> simp [mkLGRIntegral, bind, Except.bind, pure, Except.pure]; split <;> simp)
  · exact absurd ht (by unfold makeTranscription; simp [callNumStages]; split_ifs <;> simp [mkLGRIntegral, bind, Except.bind, pure, Except.pure]; split <;> simp)
  · exact absurd h0 (by decide)
  · have hs : c.interpPoints.length = c.numStages := by rw [e4, List.length_cons, e3]
    simp only [Transcription.stages] at hl hg hX ⊢
    have hl' : l < c.collocationPoints.length := by omega
    have hpt : Transcription.tau (.lgrIntegral c (integMatrix c.interpPoints c.collocationPoints)) (l + 1)
        = pt c.collocationPoints l := by
      simp [Transcription.tau, Transcription.interp, relPoints, e4, pt]
    have hp0 : pt c.interpPoints 0 = 0 := by simp [e4, pt]
    have hB : (∑ j ∈ Finset.range c.numStages,
          entry (Transcription.lgrIntegral c (integMatrix c.interpPoints c.collocationPoints)).B l j * Xd j k) * h
        = ∫ s in t0..(t0 + h * pt c.collocationPoints l), (g k).eval s := by
      have := integMatrix_exact e6.incr c.collocationPoints (toRel (g k) t0 h)
        (lt_of_le_of_lt (toRel_degree _ _ _) (by rw [hs]; exact hg k hk)) hl'
      rw [hs] at this
      have e : ∑ j ∈ Finset.range c.numStages,
          entry (Transcription.lgrIntegral c (integMatrix c.interpPoints c.collocationPoints)).B l j * Xd j k
          = ∫ s in (0 : ℝ)..(pt c.collocationPoints l), (g k).eval (t0 + h * s) := by
        rw [hp0] at this
        simp only [toRel_eval] at this
        rw [← this]
        refine Finset.sum_congr rfl fun j hj => ?_
        rw [← hX j k (Finset.mem_range.mp hj) hk]
        rfl
      rw [e, mul_comm, ← smul_eq_mul, intervalIntegral.smul_integral_comp_add_mul (fun s => (g k).eval s)]
      simp
    have hA : ∑ j ∈ Finset.range c.numStages,
          entry (Transcription.lgrIntegral c (integMatrix c.interpPoints c.collocationPoints)).A l j * X j k
        = X (l + 1) k - X 0 k := by
      have hm : c.numStages = (c.numStages - 1) + 1 := by omega
      have hlm : l < c.numStages - 1 := by omega
      rw [hm, Finset.sum_range_succ']
      have ent0 : entry (Transcription.lgrIntegral c (integMatrix c.interpPoints c.collocationPoints)).A l 0 = -1 := by
        simp [entry, Transcription.A, eye, hlm]
      have ents : ∀ j, j < c.numStages - 1 →
          entry (Transcription.lgrIntegral c (integMatrix c.interpPoints c.collocationPoints)).A l (j + 1)
            = if l = j then 1 else 0 := by
        intro j hj
        simp [entry, Transcription.A, eye, hlm, hj]
      rw [ent0, Finset.sum_congr rfl (fun j hj => by rw [ents j (Finset.mem_range.mp hj)])]
      simp [hlm]
      ring
    rw [hA, hB, hpt]

/-- **C35 (exactness).** Every polynomial trajectory of degree at most the number of stages satisfies the
LGRIntegral continuity constraint exactly, on every interval. -/
theorem C35_integral_exact {kwargs : List (String × Int)} {t : Transcription}
    (ht : makeTranscription "LGRIntegral" kwargs = .ok t)
    (d : Nat) (q : Nat → ℝ[X]) (hq : ∀ k, k < d → (q k).natDegree ≤ t.stages) (t0 h : ℝ) :
    t.continuityCon (t.sample d q t0 h) (t.sample d (fun k => derivative (q k)) t0 h) h
      = .ok (grid (t.stages - 1) d fun _ _ => 0) := by
  obtain ⟨h2, _, _, _, _, hgr⟩ := C38_shapes ht
  refine (C35_integral_value ht d _ _ (fun k => derivative (q k)) (fun k hk => ?_) t0 h fun j k _ _ => rfl).trans ?_
  · have h1 := natDegree_derivative_le (q k)
    have := hq k hk
    omega
  congr 1
  refine grid_congr fun l k _ _ => ?_
  have h0 : t.tau 0 = 0 := by
    have := hgr.first
    simp [Transcription.tau, pt, this]
  rw [intervalIntegral.integral_eq_sub_of_hasDerivAt (f := fun s => (q k).eval s)
    (fun s _ => (q k).hasDerivAt s) ((derivative (q k)).continuous.intervalIntegrable _ _), h0]
  simp

/-- Two-stage transcriptions have stage positions 0 and 1. -/
theorem tau_two {name : String} {kwargs : List (String × Int)} {t : Transcription}
    (ht : makeTranscription name kwargs = .ok t) (h2 : t.stages = 2) : t.tau 0 = 0 ∧ t.tau 1 = 1 := by
  obtain ⟨_, _, _, _, hl, hg⟩ := C38_shapes ht
  have h0 := hg.first
  have h1 := hg.last
  rw [hl, h2] at h1
  simp [Transcription.tau, pt, h0, h1]

/-- The line through `(0, a)` and `(h, b)`. -/
theorem line_spec (a b h : ℝ) (hh : h ≠ 0) :
    (C a + C ((b - a) / h) * X : ℝ[X]).natDegree < 2 ∧ (C a + C ((b - a) / h) * X : ℝ[X]).eval (0 + h * 0) = a
    ∧ (C a + C ((b - a) / h) * X : ℝ[X]).eval (0 + h * 1) = b := by
  refine ⟨?_, by simp, ?_⟩
  · refine Nat.lt_succ_of_le (natDegree_add_le_of_degree_le (by simp) ?_)
    exact (natDegree_C_mul_le _ _).trans natDegree_X_le
  · simp only [eval_add, eval_C, eval_mul, eval_X]
    field_simp
    ring

/-- **C34 (two stages).** LGR with two stages is the backward Euler rule. -/
theorem C34_two_stages {t : Transcription} (ht : makeTranscription "LGR" [("num_stages", 2)] = .ok t) (d : Nat)
    (Y Yd : Nat → Nat → ℝ) (h : ℝ) (hh : h ≠ 0) :
    t.continuityCon (grid 2 d Y) (grid 2 d Yd) h = .ok (grid 1 d fun _ k => Y 1 k - Y 0 k - h * Yd 1 k) := by
  have h2 : t.stages = 2 := by
    obtain ⟨t', h1, h3⟩ := (C38_lgr "LGR" (by simp)).2.1 2 (le_refl _)
    have := Except.ok.inj (h1.symm.trans ht)
    subst this
    omega
  obtain ⟨t0, t1⟩ := tau_two ht h2
  have key := C34_lgr_value ht d Y Yd (fun k => C (Y 0 k) + C ((Y 1 k - Y 0 k) / h) * X)
    (fun k _ => by rw [h2]; exact (line_spec _ _ h hh).1) 0 h ?_
  · rw [h2] at key
    refine key.trans ?_
    congr 1
    refine grid_congr fun l k hl _ => ?_
    have hl0 : l = 0 := by omega
    subst hl0
    simp
    field_simp
  · intro j k hj hk
    rw [h2] at hj
    have : j = 0 ∨ j = 1 := by omega
    rcases this with rfl | rfl
    · rw [t0]; exact (line_spec _ _ h hh).2.1
    · rw [t1]; exact (line_spec _ _ h hh).2.2

/-- **C35 (two stages).** LGRIntegral with two stages is the trapezoidal rule. -/
theorem C35_two_stages {t : Transcription} (ht : makeTranscription "LGRIntegral" [("num_stages", 2)] = .ok t) (d : Nat)
    (Y Yd : Nat → Nat → ℝ) (h : ℝ) (hh : h ≠ 0) :
    t.continuityCon (grid 2 d Y) (grid 2 d Yd) h
      = .ok (grid 1 d fun _ k => Y 1 k - Y 0 k - h / 2 * (Yd 0 k + Yd 1 k)) := by
  have h2 : t.stages = 2 := by
    obtain ⟨t', h1, h3⟩ := (C38_lgr "LGRIntegral" (by simp)).2.1 2 (le_refl _)
    have := Except.ok.inj (h1.symm.trans ht)
    subst this
    omega
  obtain ⟨t0, t1⟩ := tau_two ht h2
  have key := C35_integral_value ht d Y Yd (fun k => C (Yd 0 k) + C ((Yd 1 k - Yd 0 k) / h) * X)
    (fun k _ => by rw [h2]; exact (line_spec _ _ h hh).1) 0 h ?_
  · rw [h2] at key
    refine key.trans ?_
    congr 1
    refine grid_congr fun l k hl _ => ?_
    have hl0 : l = 0 := by omega
    subst hl0
    rw [zero_add, t1, intervalIntegral.integral_eq_sub_of_hasDerivAt
      (f := fun s => Yd 0 k * s + (Yd 1 k - Yd 0 k) / h * (s ^ 2 / 2)) (f' := fun s => (C (Yd 0 k) + C ((Yd 1 k - Yd 0 k) / h) * X : ℝ[X]).eval s)]
    · field_simp
      ring
    · intro s _
      have h1 := ((hasDerivAt_id s).const_mul (Yd 0 k)).add
        ((((hasDerivAt_id s).pow 2).div_const 2).const_mul ((Yd 1 k - Yd 0 k) / h))
      refine (h1.congr_deriv ?_)
      simp
    · exact (Polynomial.continuous _).intervalIntegrable _ _
  · intro j k hj hk
    rw [h2] at hj
    have : j = 0 ∨ j = 1 := by omega
    rcases this with rfl | rfl
    · rw [t0]; exact (line_spec _ _ h hh).2.1
    · rw [t1]; exact (line_spec _ _ h hh).2.2

/-- **C35 (finding).** The integral variant is not equivalent to the differential one: the derivative at the start of
the interval enters only the integral variant, so data can satisfy the LGR constraint and violate LGRIntegral. -/
theorem C35_not_equivalent {t u : Transcription} (ht : makeTranscription "LGR" [("num_stages", 2)] = .ok t)
    (hu : makeTranscription "LGRIntegral" [("num_stages", 2)] = .ok u) (h : ℝ) (hh : h ≠ 0) :
    ∃ Y Yd, t.continuityCon Y Yd h = .ok [[0]] ∧ u.continuityCon Y Yd h = .ok [[-h / 2]] ∧ -h / 2 ≠ 0 := by
  refine ⟨grid 2 1 fun _ _ => 0, grid 2 1 fun j _ => if j = 0 then 1 else 0, ?_, ?_, ?_⟩
  · rw [C34_two_stages ht 1 _ _ h hh]
    simp [grid]
  · rw [C35_two_stages hu 1 _ _ h hh]
    simp [grid]
    ring
  · exact div_ne_zero (neg_ne_zero.mpr hh) two_ne_zero

/-! ## C36 -/

/-- **C36.** For every constructed transcription the rows of the A matrix sum to zero, and a constant trajectory
with zero derivative satisfies the continuity constraint, for every interval length. -/
theorem C36_equilibrium {name : String} {kwargs : List (String × Int)} {t : Transcription}
    (ht : makeTranscription name kwargs = .ok t) :
    (∀ row ∈ t.A, row.length = t.stages ∧ row.sum = 0)
    ∧ ∀ (d : Nat) (c : Nat → ℝ) (h : ℝ),
      t.continuityCon (grid t.stages d fun _ k => c k) (grid t.stages d fun _ _ => 0) h
        = .ok (grid (t.stages - 1) d fun _ _ => 0) := by
  obtain ⟨h2, _, hA, _, _, _⟩ := C38_shapes ht
  have hsum : ∀ l, l < t.stages - 1 → ∑ j ∈ Finset.range t.stages, entry t.A l j = 0 := by
    intro l hl
    rcases make_cases ht with rfl | rfl | ⟨c, e3, e4, e5, e6, ⟨_, rfl⟩ | ⟨_, rfl⟩⟩
    · have hl0 : l = 0 := by simp only [Transcription.stages] at hl; omega
      subst hl0
      simp only [Transcription.stages, Finset.sum_range_succ, Finset.sum_range_zero, Transcription.A,
        Transcription.numCons]
      rw [diags_entry _ _ (by omega) (by omega), diags_entry _ _ (by omega) (by omega)]
      simp
    · have hl0 : l = 0 := by simp only [Transcription.stages] at hl; omega
      subst hl0
      simp only [Transcription.stages, Finset.sum_range_succ, Finset.sum_range_zero, Transcription.A,
        Transcription.numCons]
      rw [diags_entry _ _ (by omega) (by omega), diags_entry _ _ (by omega) (by omega)]
      simp
    · have hs : c.interpPoints.length = c.numStages := by rw [e4, List.length_cons, e3]
      simp only [Transcription.stages] at hl ⊢
      have := diffMatrix_exact e6.incr c.collocationPoints (1 : ℝ[X]) (by simp; omega)
        (i := l) (by omega)
      rw [hs] at this
      simpa [entry, Transcription.A, e5] using this
    · simp only [Transcription.stages] at hl ⊢
      have hm : c.numStages = (c.numStages - 1) + 1 := by omega
      rw [hm, Finset.sum_range_succ']
      have ent0 : entry (Transcription.lgrIntegral c (integMatrix c.interpPoints c.collocationPoints)).A l 0 = -1 := by
        simp [entry, Transcription.A, eye, hl]
      have ents : ∀ j, j < c.numStages - 1 →
          entry (Transcription.lgrIntegral c (integMatrix c.interpPoints c.collocationPoints)).A l (j + 1)
            = if l = j then 1 else 0 := by
        intro j hj
        simp [entry, Transcription.A, eye, hl, hj]
      rw [ent0, Finset.sum_congr rfl (fun j hj => by rw [ents j (Finset.mem_range.mp hj)])]
      simp [hl]
  constructor
  · intro row hrow
    refine ⟨hA.2 row hrow, ?_⟩
    obtain ⟨l, hl, rfl⟩ := List.getElem_of_mem hrow
    have := hsum l (by rw [← hA.1]; exact hl)
    rw [← this, ← sum_range]
    have hlen := hA.2 _ hrow
    congr 1
    refine List.ext_getElem (by simp [hlen]) fun j h1 h3 => ?_
    simp [entry, hl, h1]
  · intro d c h
    refine (con_eq ht d _ _ h).trans ?_
    congr 1
    refine grid_congr fun l k hl _ => ?_
    rw [← Finset.sum_mul, hsum l hl]
    simp

end Lumos.Trans
