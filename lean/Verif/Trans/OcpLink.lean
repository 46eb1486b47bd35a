import Verif.Trans.Props
import Verif.Ocp.ContHess
/-!
# The transcriptions inside an optimal control problem (C33 – C36, continued)

The continuity constraints of an OCP (C24) with the matrices of a constructed transcription: trajectories that are
polynomial on every interval satisfy them exactly, and those of LGR / LGRIntegral mean what collocation promises.
-/

namespace Lumos.Trans

open Polynomial Lumos Lumos.Ocp DecVar DecVar.Layout

/-- The OCP `o` was built with the transcription `t` (scaled_mesh_ocp.py:120-135, 1053-1067): its stage count and its
two matrices are those of `t`. -/
structure Uses (o : OCP) (t : Transcription) : Prop where
  stages : o.L.nspi = t.stages
  matA : ∀ l j, o.A l j = entry t.A l j
  matB : ∀ l j, o.B l j = entry t.B l j

/-- Degree up to which a transcription with `m` stages is exact. -/
def exactDegree (name : String) (m : Nat) : Nat :=
  if name = "ForwardEuler" then 1 else if name = "Trapezoidal" then 2
  else if name = "LGR" then m - 1 else m

theorem grid_inj {m d : Nat} {f g : Nat → Nat → ℝ} (h : grid m d f = grid m d g) {j k : Nat} (hj : j < m) (hk : k < d) :
    f j k = g j k := by
  rw [← grid_entry f hj hk, h, grid_entry g hj hk]

/-- All four schemes are exact up to their degree. -/
theorem exact_all {name : String} {kwargs : List (String × Int)} {t : Transcription}
    (ht : makeTranscription name kwargs = .ok t) (d : Nat) (q : Nat → ℝ[X])
    (hq : ∀ k, k < d → (q k).natDegree ≤ exactDegree name t.stages) (t0 h : ℝ) :
    t.continuityCon (t.sample d q t0 h) (t.sample d (fun k => derivative (q k)) t0 h) h
      = .ok (grid (t.stages - 1) d fun _ _ => 0) := by
  by_cases h1 : name ∈ ["ForwardEuler", "Trapezoidal", "LGR", "LGRIntegral"]
  · simp only [List.mem_cons, List.not_mem_nil, or_false] at h1
    obtain ⟨h2, _⟩ := C38_shapes ht
    rcases h1 with rfl | rfl | rfl | rfl
    · have hk : kwargs = [] := by
        by_contra hne
        rw [C38_low_order.2.2.2.2 "ForwardEuler" (by simp) kwargs hne] at ht
        cases ht
      subst hk
      exact C33_euler_exact ht d q (fun k hk => by simpa [exactDegree] using hq k hk) t0 h
    · have hk : kwargs = [] := by
        by_contra hne
        rw [C38_low_order.2.2.2.2 "Trapezoidal" (by simp) kwargs hne] at ht
        cases ht
      subst hk
      exact C33_trapezoidal_exact ht d q (fun k hk => by simpa [exactDegree] using hq k hk) t0 h
    · refine C34_lgr_exact ht d q (fun k hk => ?_) t0 h
      have := hq k hk
      simp [exactDegree] at this
      omega
    · refine C35_integral_exact ht d q (fun k hk => ?_) t0 h
      have := hq k hk
      simpa [exactDegree] using this
  · rw [C38_unknown_name name kwargs h1] at ht
    cases ht

/-- **C34 (in a problem: exactness).** Take any OCP built with any of the four transcriptions and any decision vector
whose states follow, on every interval, polynomials of at most the scheme's degree (1 for ForwardEuler, 2 for
Trapezoidal, `m - 1` for LGR, `m` for LGRIntegral) with the state derivatives those of the polynomials, the stages of
interval `i` lying at `t_i + h_i τ_j` with `h_i` the scaled interval length. Then all continuity constraints vanish. -/
theorem C34_problem_exact {name : String} {kwargs : List (String × Int)} {t : Transcription}
    (ht : makeTranscription name kwargs = .ok t) {o : OCP} (ho : o.Good) (hu : Uses o t) {x : List ℝ}
    (hx : x.length = o.L.numDec) (ms : ℝ) (hms : ∀ s, o.fixedScale = some s → ms = s)
    (hmv : o.fixedScale = none → o.L.getVar x "global" "mesh_scale" none = .ok (.scalar ms))
    (q : Nat → Nat → ℝ[X]) (t0 : Nat → ℝ) (hq : ∀ i k, (q i k).natDegree ≤ exactDegree name t.stages)
    (hs : ∀ i j k n, i < o.L.numIntervals → j < o.L.nspi → (o.L.namesOf "states")[k]? = some n →
      o.L.getVar x "states" n (some ((i * (o.L.nspi - 1) + j : Nat) : Int))
        = .ok (.scalar ((q i k).eval (t0 i + o.normLen.getD i 0 * ms * t.tau j))))
    (hd : ∀ i j k n, i < o.L.numIntervals → j < o.L.nspi → (o.L.namesOf "states_dot")[k]? = some n →
      o.L.getVar x "states_dot" n (some ((i * (o.L.nspi - 1) + j : Nat) : Int))
        = .ok (.scalar ((derivative (q i k)).eval (t0 i + o.normLen.getD i 0 * ms * t.tau j)))) :
    o.contConstraints x = .ok (List.replicate o.numContinuity 0) := by
  obtain ⟨con, ms', hcon, hlen, hf, hn, hval⟩ := OCP.C24_continuity_value ho hx
  have hmm : ms' = ms := by
    cases hfs : o.fixedScale with
    | some s => rw [hf s hfs, hms s hfs]
    | none =>
      have := (hn hfs).symm.trans (hmv hfs)
      simpa using this
  subst hmm
  rw [hcon]
  congr 1
  refine List.eq_replicate_iff.mpr ⟨hlen, ?_⟩
  intro v hv
  obtain ⟨r, hr, rfl⟩ := List.getElem_of_mem hv
  rw [hlen] at hr
  -- decompose the row number
  have hK : 0 < o.numStates := ho.pos
  have hm := ho.stages
  have hM : 0 < o.L.nspi - 1 := by omega
  have hr' : r / o.numStates < (o.L.nspi - 1) * o.L.numIntervals := by
    rw [Nat.div_lt_iff_lt_mul hK]
    unfold OCP.numContinuity at hr
    calc r < o.numStates * (o.L.nspi - 1) * o.L.numIntervals := hr
      _ = (o.L.nspi - 1) * o.L.numIntervals * o.numStates := by ring
  have hi : r / o.numStates / (o.L.nspi - 1) < o.L.numIntervals := by
    rw [Nat.div_lt_iff_lt_mul hM, mul_comm]; exact hr'
  have hl : r / o.numStates % (o.L.nspi - 1) < o.L.nspi - 1 := Nat.mod_lt _ hM
  have hk : r % o.numStates < o.numStates := Nat.mod_lt _ hK
  have hrow : (r / o.numStates / (o.L.nspi - 1) * (o.L.nspi - 1) + r / o.numStates % (o.L.nspi - 1)) * o.numStates
      + r % o.numStates = r := by
    rw [Nat.div_add_mod', Nat.div_add_mod']
  generalize r / o.numStates / (o.L.nspi - 1) = i at hi hrow
  generalize r / o.numStates % (o.L.nspi - 1) = l at hl hrow
  generalize r % o.numStates = k at hk hrow
  have hk1 : k < (o.L.namesOf "states").length := hk
  have hk2 : k < (o.L.namesOf "states_dot").length := by
    have := ho.same; unfold Layout.size at this; rw [this]; exact hk
  obtain ⟨xs, xd, hread, hc⟩ := hval i l k _ _ hi hl (List.getElem?_eq_getElem hk1) (List.getElem?_eq_getElem hk2)
  rw [hrow] at hc
  have hg : con[r]? = some con[r] := List.getElem?_eq_getElem (by rw [hlen]; exact hr)
  rw [hg] at hc
  rw [Option.some.inj hc]
  -- the scheme is exact
  have hex := (con_eq ht 1 (fun j _ => (q i k).eval (t0 i + o.normLen.getD i 0 * ms' * t.tau j))
    (fun j _ => (derivative (q i k)).eval (t0 i + o.normLen.getD i 0 * ms' * t.tau j))
    (o.normLen.getD i 0 * ms')).symm.trans
    (exact_all ht 1 (fun _ => q i k) (fun _ _ => hq i k) (t0 i) (o.normLen.getD i 0 * ms'))
  have hz := grid_inj (Except.ok.inj hex) (j := l) (k := 0) (by rw [← hu.stages]; exact hl) (by omega)
  refine Eq.trans ?_ hz
  rw [hu.stages, mul_comm (o.normLen.getD i 0 * ms')]
  congr 1
  · refine Finset.sum_congr rfl fun j hj => ?_
    have hj' : j < o.L.nspi := by rw [hu.stages]; exact Finset.mem_range.mp hj
    have := (hread j hj').1.symm.trans (hs i j k _ hi hj' (List.getElem?_eq_getElem hk1))
    rw [hu.matA]
    congr 1
    simpa using this
  · congr 1
    refine Finset.sum_congr rfl fun j hj => ?_
    have hj' : j < o.L.nspi := by rw [hu.stages]; exact Finset.mem_range.mp hj
    have := (hread j hj').2.symm.trans (hd i j k _ hi hj' (List.getElem?_eq_getElem hk2))
    rw [hu.matB]
    congr 1
    simpa using this

/-- **C36 (in a problem).** A decision vector whose states are the same at all stages and whose state derivatives are
zero satisfies all continuity constraints, for every transcription, mesh and mesh scale. -/
theorem C36_problem_equilibrium {name : String} {kwargs : List (String × Int)} {t : Transcription}
    (ht : makeTranscription name kwargs = .ok t) {o : OCP} (ho : o.Good) (hu : Uses o t) {x : List ℝ}
    (hx : x.length = o.L.numDec) (c : Nat → ℝ)
    (hs : ∀ (s k : Nat) (n : String), s < o.L.numStages → (o.L.namesOf "states")[k]? = some n →
      o.L.getVar x "states" n (some (s : Int)) = .ok (.scalar (c k)))
    (hd : ∀ (s k : Nat) (n : String), s < o.L.numStages → (o.L.namesOf "states_dot")[k]? = some n →
      o.L.getVar x "states_dot" n (some (s : Int)) = .ok (.scalar 0)) :
    o.contConstraints x = .ok (List.replicate o.numContinuity 0) := by
  obtain ⟨_, ms, _, _, hf, hn, _⟩ := OCP.C24_continuity_value ho hx
  refine C34_problem_exact ht ho hu hx ms hf hn (fun _ k => C (c k)) (fun _ => 0) (fun i k => by simp) ?_ ?_
  · intro i j k n hi hj hname
    rw [hs _ k n (OCP.stage_lt ho hi hj) hname]
    simp
  · intro i j k n hi hj hname
    rw [hd _ k n (OCP.stage_lt ho hi hj) hname]
    simp

/-- **C34 (in a problem: meaning).** In an OCP built with LGR, let `q i k` be the polynomial of degree `< m` through the
values of state `k` at the stages of interval `i` (it exists and is unique, `C34_interpolant`). The continuity
constraint of interval `i`, state `k`, collocation point `l` is `h_i (q'(t) - xdot(t))`, so all continuity constraints
vanish exactly if every interpolating polynomial has the given derivative at every collocation point. -/
theorem C34_problem_meaning {kwargs : List (String × Int)} {t : Transcription}
    (ht : makeTranscription "LGR" kwargs = .ok t) {o : OCP} (ho : o.Good) (hu : Uses o t) {x : List ℝ}
    (hx : x.length = o.L.numDec) (ms : ℝ) (hms : ∀ s, o.fixedScale = some s → ms = s)
    (hmv : o.fixedScale = none → o.L.getVar x "global" "mesh_scale" none = .ok (.scalar ms))
    (q : Nat → Nat → ℝ[X]) (xd : Nat → Nat → Nat → ℝ) (t0 : Nat → ℝ) (hq : ∀ i k, (q i k).natDegree < t.stages)
    (hs : ∀ i j k n, i < o.L.numIntervals → j < o.L.nspi → (o.L.namesOf "states")[k]? = some n →
      o.L.getVar x "states" n (some ((i * (o.L.nspi - 1) + j : Nat) : Int))
        = .ok (.scalar ((q i k).eval (t0 i + o.normLen.getD i 0 * ms * t.tau j))))
    (hd : ∀ i j k n, i < o.L.numIntervals → j < o.L.nspi → (o.L.namesOf "states_dot")[k]? = some n →
      o.L.getVar x "states_dot" n (some ((i * (o.L.nspi - 1) + j : Nat) : Int)) = .ok (.scalar (xd i j k))) :
    ∃ con, o.contConstraints x = .ok con ∧ con.length = o.numContinuity ∧
      ∀ i l k, i < o.L.numIntervals → l < o.L.nspi - 1 → k < o.L.size "states" →
        con[(i * (o.L.nspi - 1) + l) * o.L.size "states" + k]? = some (o.normLen.getD i 0 * ms *
          ((derivative (q i k)).eval (t0 i + o.normLen.getD i 0 * ms * t.tau (l + 1)) - xd i (l + 1) k)) := by
  obtain ⟨con, ms', hcon, hlen, hf, hn, hval⟩ := OCP.C24_continuity_value ho hx
  have hmm : ms' = ms := by
    cases hfs : o.fixedScale with
    | some s => rw [hf s hfs, hms s hfs]
    | none =>
      have := (hn hfs).symm.trans (hmv hfs)
      simpa using this
  subst hmm
  refine ⟨con, hcon, hlen, ?_⟩
  intro i l k hi hl hk
  have hk1 : k < (o.L.namesOf "states").length := hk
  have hk2 : k < (o.L.namesOf "states_dot").length := by
    have := ho.same; unfold Layout.size at this; rw [this]; exact hk
  obtain ⟨xs, yd, hread, hc⟩ := hval i l k _ _ hi hl (List.getElem?_eq_getElem hk1) (List.getElem?_eq_getElem hk2)
  refine hc.trans ?_
  congr 1
  have hex := (con_eq ht 1 (fun j _ => (q i k).eval (t0 i + o.normLen.getD i 0 * ms' * t.tau j))
    (fun j _ => xd i j k) (o.normLen.getD i 0 * ms')).symm.trans
    (C34_lgr_value ht 1 _ _ (fun _ => q i k) (fun _ _ => hq i k) (t0 i) (o.normLen.getD i 0 * ms') fun _ _ _ _ => rfl)
  have hz := grid_inj (Except.ok.inj hex) (j := l) (k := 0) (by rw [← hu.stages]; exact hl) (by omega)
  rw [← hz, hu.stages, mul_comm (o.normLen.getD i 0 * ms')]
  congr 1
  · refine Finset.sum_congr rfl fun j hj => ?_
    have hj' : j < o.L.nspi := by rw [hu.stages]; exact Finset.mem_range.mp hj
    have := (hread j hj').1.symm.trans (hs i j k _ hi hj' (List.getElem?_eq_getElem hk1))
    rw [hu.matA]
    congr 1
    simpa using this
  · congr 1
    refine Finset.sum_congr rfl fun j hj => ?_
    have hj' : j < o.L.nspi := by rw [hu.stages]; exact Finset.mem_range.mp hj
    have := (hread j hj').2.symm.trans (hd i j k _ hi hj' (List.getElem?_eq_getElem hk2))
    rw [hu.matB]
    congr 1
    simpa using this

/-- **C35 (in a problem: meaning).** In an OCP built with LGRIntegral, let `g i k` be the polynomial of degree `< m`
through the values of the derivative of state `k` at the stages of interval `i`. The continuity constraint is the
increment of the state from the interval start to the collocation point minus the integral of `g`. -/
theorem C35_problem_meaning {kwargs : List (String × Int)} {t : Transcription}
    (ht : makeTranscription "LGRIntegral" kwargs = .ok t) {o : OCP} (ho : o.Good) (hu : Uses o t) {x : List ℝ}
    (hx : x.length = o.L.numDec) (ms : ℝ) (hms : ∀ s, o.fixedScale = some s → ms = s)
    (hmv : o.fixedScale = none → o.L.getVar x "global" "mesh_scale" none = .ok (.scalar ms))
    (g : Nat → Nat → ℝ[X]) (y : Nat → Nat → Nat → ℝ) (t0 : Nat → ℝ) (hg : ∀ i k, (g i k).natDegree < t.stages)
    (hs : ∀ i j k n, i < o.L.numIntervals → j < o.L.nspi → (o.L.namesOf "states")[k]? = some n →
      o.L.getVar x "states" n (some ((i * (o.L.nspi - 1) + j : Nat) : Int)) = .ok (.scalar (y i j k)))
    (hd : ∀ i j k n, i < o.L.numIntervals → j < o.L.nspi → (o.L.namesOf "states_dot")[k]? = some n →
      o.L.getVar x "states_dot" n (some ((i * (o.L.nspi - 1) + j : Nat) : Int))
        = .ok (.scalar ((g i k).eval (t0 i + o.normLen.getD i 0 * ms * t.tau j)))) :
    ∃ con, o.contConstraints x = .ok con ∧ con.length = o.numContinuity ∧
      ∀ i l k, i < o.L.numIntervals → l < o.L.nspi - 1 → k < o.L.size "states" →
        con[(i * (o.L.nspi - 1) + l) * o.L.size "states" + k]? = some (y i (l + 1) k - y i 0 k
          - ∫ s in (t0 i)..(t0 i + o.normLen.getD i 0 * ms * t.tau (l + 1)), (g i k).eval s) := by
  obtain ⟨con, ms', hcon, hlen, hf, hn, hval⟩ := OCP.C24_continuity_value ho hx
  have hmm : ms' = ms := by
    cases hfs : o.fixedScale with
    | some s => rw [hf s hfs, hms s hfs]
    | none =>
      have := (hn hfs).symm.trans (hmv hfs)
      simpa using this
  subst hmm
  refine ⟨con, hcon, hlen, ?_⟩
  intro i l k hi hl hk
  have hk1 : k < (o.L.namesOf "states").length := hk
  have hk2 : k < (o.L.namesOf "states_dot").length := by
    have := ho.same; unfold Layout.size at this; rw [this]; exact hk
  obtain ⟨xs, yd, hread, hc⟩ := hval i l k _ _ hi hl (List.getElem?_eq_getElem hk1) (List.getElem?_eq_getElem hk2)
  refine hc.trans ?_
  congr 1
  have hex := (con_eq ht 1 (fun j _ => y i j k) (fun j _ => (g i k).eval (t0 i + o.normLen.getD i 0 * ms' * t.tau j))
    (o.normLen.getD i 0 * ms')).symm.trans
    (C35_integral_value ht 1 _ _ (fun _ => g i k) (fun _ _ => hg i k) (t0 i) (o.normLen.getD i 0 * ms') fun _ _ _ _ => rfl)
  have hz := grid_inj (Except.ok.inj hex) (j := l) (k := 0) (by rw [← hu.stages]; exact hl) (by omega)
  rw [← hz, hu.stages, mul_comm (o.normLen.getD i 0 * ms')]
  congr 1
  · refine Finset.sum_congr rfl fun j hj => ?_
    have hj' : j < o.L.nspi := by rw [hu.stages]; exact Finset.mem_range.mp hj
    have := (hread j hj').1.symm.trans (hs i j k _ hi hj' (List.getElem?_eq_getElem hk1))
    rw [hu.matA]
    congr 1
    simpa using this
  · congr 1
    refine Finset.sum_congr rfl fun j hj => ?_
    have hj' : j < o.L.nspi := by rw [hu.stages]; exact Finset.mem_range.mp hj
    have := (hread j hj').2.symm.trans (hd i j k _ hi hj' (List.getElem?_eq_getElem hk2))
    rw [hu.matB]
    congr 1
    simpa using this

/-! ## Non-vacuity -/

/-- The three-stage problem of C24 – C27 with the matrices of LGR (or any other three-stage scheme) in it. -/
noncomputable def exUses (t : Transcription) : OCP := { OCP.exOCP with A := entry t.A, B := entry t.B }

/-- The hypotheses of the theorems above are met: the default LGR and LGRIntegral schemes exist, and the problem
`exUses` is a well-formed OCP using them. -/
example (name : String) (hn : name ∈ ["LGR", "LGRIntegral"]) :
    ∃ t, makeTranscription name [] = .ok t ∧ (exUses t).Good ∧ Uses (exUses t) t := by
  obtain ⟨t, ht, h3⟩ := (C38_lgr name hn).1
  refine ⟨t, ht, ?_, ⟨h3.symm, fun _ _ => rfl, fun _ _ => rfl⟩⟩
  have g := OCP.exOCP_good
  exact ⟨g.made, g.fields, g.stages, g.intervals, g.states, g.statesDot, g.same, g.pos, g.lens, g.mesh⟩

end Lumos.Trans
