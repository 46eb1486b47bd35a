import Verif.Config.More
import Verif.Sim.DroneProps

/-!
# The defaults of a configuration are those of the problem that is built from it (C73)

`LTCConfig` and `DroneSimConfig` hold their boundary conditions as objects (`Config/Model`); the problems of C95 and C77 are
built from lists of conditions (`Lap/Model`, `Sim/Drone`). Here the former are shown to be the latter.
-/

namespace Lumos.Config
open Bounds

/-- The `BoundaryConditionConfig` that states a condition of one number at one stage (config.py:56-64). -/
noncomputable def conditionObject (b : BC EReal) : Option V :=
  match b.stage, b.value with
  | some s, .single (.scalar a) =>
    some (.obj .bc [("stage", .num ((s : ℝ) : EReal)), ("group", .str b.group), ("name", .str b.name), ("value", .num a)])
  | _, _ => none

/-- The defaults in the documentation of the three classes (config.py:79-133) that are a number, a word or nothing. -/
noncomputable def plainDefaults : List (String × V) :=
  [("num_intervals", .num 99), ("interval_points", .none), ("is_cyclic", .num 0), ("is_condensed", .num 0), ("backend", .str "jax"),
   ("hessian_approximation", .str "exact"), ("logging_config", .none)]

theorem given_default {k : Sim} {kw : List (String × V)} {n : String} {v : V} (h : n ∉ kw.map Prod.fst)
    (hv : (simFields k).lookup n = some (some v)) : Given k kw n v := by
  refine .inr ⟨?_, hv⟩
  rw [List.lookup_eq_none_iff]
  intro p hp
  have e : n ≠ p.1 := fun e => h (e ▸ List.mem_map_of_mem hp)
  simpa using e

theorem kept {cls : Cls} {vs : List V} {w : V} (h : ∀ v ∈ vs, Made cls v) (hc : Converted cls (.tup vs) w) : w = .tup vs := by
  rcases hc with ⟨d, us, os, e, _⟩ | ⟨_, e⟩
  · rcases e with e | e
    · simp at e
    · simp only [V.tup.injEq] at e
      subst e
      obtain ⟨f, e, _⟩ := made_fields (h (.dict d) (by simp))
      simp at e
  · exact e

/-- A field that is not given has its default: a plain one as in `plainDefaults`; `transcription` is the tuple of
"Trapezoidal"; and boundary conditions, bounds, scales and constrained outputs are those with which the lap (C95) and the
drone's flight (C77) are built, while a bare `SimConfig` has none. -/
theorem C73_default_values {k : Sim} {kw c : List (String × V)} (h : config k kw = .ok c) :
    (∀ f ∈ plainDefaults, f.1 ∉ kw.map Prod.fst → c.lookup f.1 = some f.2) ∧
    ("transcription" ∉ kw.map Prod.fst → c.lookup "transcription" = some (.tup [.str "Trapezoidal"])) ∧
    ("boundary_conditions" ∉ kw.map Prod.fst → ∃ bcs, c.lookup "boundary_conditions" = some (.tup bcs) ∧
      bcs.map some = (match k with | .sim => [] | .ltc => LapSim.defaultBCs true | .drone => Sim.droneBCs).map conditionObject) ∧
    ("bounds" ∉ kw.map Prod.fst → c.lookup "bounds" =
      some (.tup ((match k with | .sim => [] | .ltc => LapSim.defaultBounds | .drone => droneBounds).map ofBound))) ∧
    ("scales" ∉ kw.map Prod.fst → c.lookup "scales" = some (.tup (if k = .ltc then LapSim.defaultScales.map ofScale else []))) ∧
    ("con_output_names" ∉ kw.map Prod.fst → c.lookup "con_output_names" =
      some (.tup (match k with | .sim => [] | .ltc => LapSim.defaultConOutputs.map .str | .drone => [.str "sin_theta"]))) := by
  obtain ⟨_, _, hplain, htr, _, hseq⟩ := C73_fields h
  obtain ⟨m1, m2, m3, m4⟩ := defaults_made k
  refine ⟨?_, ?_, ?_, ?_, ?_, ?_⟩
  · intro f hf hn
    simp only [plainDefaults, List.mem_cons, List.not_mem_nil, or_false] at hf
    rcases hf with rfl | rfl | rfl | rfl | rfl | rfl | rfl <;>
      exact hplain _ _ (given_default hn rfl) (by simp [seqFields]) (by simp)
  · intro hn
    exact htr _ (given_default hn rfl)
  · intro hn
    obtain ⟨w, e, hw⟩ := hseq ("boundary_conditions", .bc) (by simp [seqFields]) _ (given_default hn rfl)
    have := kept m1 hw
    subst this
    refine ⟨_, e, ?_⟩
    cases k
    · rfl
    · rfl
    · rfl
  · intro hn
    obtain ⟨w, e, hw⟩ := hseq ("bounds", .bound) (by simp [seqFields]) _ (given_default hn rfl)
    have := kept m2 hw
    subst this
    rw [e]
    cases k <;> rfl
  · intro hn
    obtain ⟨w, e, hw⟩ := hseq ("scales", .scale) (by simp [seqFields]) _ (given_default hn rfl)
    have := kept m3 hw
    subst this
    rw [e]
    cases k <;> rfl
  · intro hn
    rw [hplain _ _ (given_default hn rfl) (by simp [seqFields]) (by simp)]
    cases k <;> rfl

/-- The conditions that `get_default_boundary_conditions` returns, for a closed and for an open lap: what it states is a single number at
the first stage, and for an open lap the car starts at 50 m/s along the road, in its middle, without slipping or turning. -/
theorem C73_lap_conditions (isCyclic : Bool) :
    (ltcBCs isCyclic).map some = (LapSim.defaultBCs isCyclic).map conditionObject ∧
    ltcBCs isCyclic = ([("time", (0 : ℝ))] ++ if isCyclic then [] else [("n", 0), ("eta", 0), ("vx", 50), ("vy", 0), ("yaw_rate", 0)]).map
      fun p : String × ℝ => V.obj .bc [("stage", .num ((0 : ℝ) : EReal)), ("group", .str "states"), ("name", .str p.1), ("value", .num (p.2 : EReal))] := by
  cases isCyclic
  · exact ⟨rfl, by simp [ltcBCs, ofBC]⟩
  · exact ⟨rfl, by simp [ltcBCs, ofBC]⟩

/-- Logging is started exactly by a configuration that holds a `LoggingConfig`, and exactly the value `None` leaves it out. -/
theorem C73_logging_starts (c : List (String × V)) :
    (startLogging c = .ok true ↔ ∃ f, c.lookup "logging_config" = some (.obj .logging f)) ∧
    (startLogging c = .ok false ↔ c.lookup "logging_config" = some .none) := by
  unfold startLogging getField
  cases h : c.lookup "logging_config" with
  | none => simp [bind, Except.bind]
  | some v =>
    cases v with
    | obj cls f => cases cls <;> simp [bind, Except.bind, pure, Except.pure]
    | _ => simp [bind, Except.bind, pure, Except.pure]

/-- A lap on a given track: nothing else is given. -/
example : ∃ c, config .ltc [("track", .str "t.csv")] = .ok c ∧ c.lookup "num_intervals" = some (.num 99) := by
  refine ⟨_, rfl, ?_⟩
  exact (C73_default_values (k := .ltc) (kw := [("track", .str "t.csv")]) rfl).1 ("num_intervals", .num 99) (by simp [plainDefaults]) (by simp)

end Lumos.Config
