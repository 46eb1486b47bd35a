import Verif.Drive.Props
/-!
# C98: what `solve` returns
-/

namespace Lumos.Drive

open Lumos DecVar DecVar.Layout NLP Bounds Ocp OCP Track LapSim Lts Io Io.Mdl Use Lumos.Trans Veh

variable {P : Type} {E : Entry P} {V : P → Prop} {D : P → List ℝ → ℝ → Prop} {p : P} {S : Setup} {file : Py (List Row)} {s : Sim P}
  {ops : List (Op P)}

/-- No guess of the user is the default guess. -/
theorem solve_default (u : Use P) (w x0 : List ℝ) (f : Solver) : u.solve ⟨none, w, x0, f⟩ = u.solve ⟨some x0, w, x0, f⟩ := rfl

/-- **C98 (`solve`).** After any history in which the limits of the constraints fit, `solve` hands the solver the problem now asked
for, from the user's guess or else from the initial guess on the road last set; a point that the solver found feasible comes back, in
the user's units, within the bounds in force, as a lap of the car with the parameters in force over the length in force. -/
theorem C98_solve (hE : E.Good V D) (hp : V p) (hS : front (vehicleOnTrack (E.car p)) (E.unit p) E.conf = .ok S)
    (hs : simulate E p file = .ok s) (hops : GoodOps (E.kind S) V (diary (E.kind S) p file []) ops)
    (hjax : E.jax = true → (diary (E.kind S) p file ops).book.objNames ≠ [] ∧
      (E.exact = true → (diary (E.kind S) p file ops).book.changed = false))
    (hlim : (diary (E.kind S) p file ops).book.limits = (diary (E.kind S) p file ops).book.rows (E.kind S))
    (hpos : ∀ c ∈ (diary (E.kind S) p file ops).book.scales, 0 < c.value) (guess : Option (List ℝ))
    (hguess : ∀ g, guess = some g → g.length = S.c.o.L.numDec) (solver : Solver)
    (hlen : ∀ q i l m, (solver q i l m).1.length = S.c.o.L.numDec) :
    ∃ (t : Transcription) (ms : ℝ) (x0 : List ℝ) (q : Prob) (input : SolverInput) (r : List ℝ × Int),
      makeTranscription E.conf.transcription E.conf.kwargs = .ok t ∧ (diary (E.kind S) p file ops).book.scale = some ms
      ∧ (guess = some x0 ∨ guess = none ∧ (s.run ops).initGuess = .ok x0)
      ∧ r = solver q input (s.run ops).use.cl (s.run ops).use.cu
      ∧ vmul input.x0 (s.run ops).use.now.scales = x0
      ∧ (∀ z, q.constraints z = (s.run ops).use.now.constraints z)
      ∧ ((diary (E.kind S) p file ops).book.objNames ≠ [] → ∀ z, q.objective z = (s.run ops).use.now.objective z)
      ∧ (∀ z : List ℝ, z.length = S.c.o.L.numDec → (Within input.lb input.ub z ↔
          Within (s.run ops).use.bounds.lb (s.run ops).use.bounds.ub (vmul z (s.run ops).use.now.scales)))
      ∧ (s.run ops).solve guess solver =
          (if r.2 = -13 then .error .runtimeError else .ok (vmul r.1 (s.run ops).use.now.scales, r.2))
      ∧ (r.2 ≠ -13 → (s.run ops).use.Feasible r.1 → Within input.lb input.ub r.1 →
          ∃ x, (s.run ops).solve guess solver = .ok (x, r.2) ∧ x.length = S.c.o.L.numDec
            ∧ Within (s.run ops).use.bounds.lb (s.run ops).use.bounds.ub x
            ∧ Laps (E.car (diary (E.kind S) p file ops).book.params) E.conf t S.c.o.L (diary (E.kind S) p file ops).book.cyclic ms x
            ∧ (diary (E.kind S) p file ops).book.UserHolds x) := by
  obtain ⟨t, u, tr, ms, ht, hm, hu, hF, hr, hms, hq, hok⟩ := driven hE hp hS hs hops
  obtain ⟨_, w, _, hw, lw, _⟩ := C98_guess hE hp hS hs hops
  obtain ⟨cs, c1, c2, c3⟩ := hF.calls
  obtain ⟨x0, hx0, lx0, es⟩ : ∃ x0 : List ℝ, (guess = some x0 ∨ guess = none ∧ (s.run ops).initGuess = .ok x0) ∧ x0.length = S.c.o.L.numDec ∧
      (s.run ops).solve guess solver = (u.run cs).solve ⟨some x0, w, w, solver⟩ := by
    cases guess with
    | none =>
      refine ⟨w, Or.inr ⟨rfl, hw⟩, lw, ?_⟩
      unfold Sim.solve
      rw [hw]
      dsimp only
      rw [c2]
      rfl
    | some g =>
      refine ⟨g, Or.inl rfl, hguess g rfl, ?_⟩
      unfold Sim.solve
      rw [hw]
      dsimp only
      rw [c2]
  have hgood : GoodCall (E.kind S) (OK V) (book (E.kind S) p cs) (.solve ⟨some x0, w, w, solver⟩) := by
    intro hj
    rw [← c3]
    exact ⟨(hjax hj).1, lw, (hjax hj).2⟩
  obtain ⟨q, input, r, a1, a2, a3, a4, a5, a6, a7, a8, a9, a10⟩ := C97_solve (kind_good hE ht hm) hok hu c1 hgood (by rw [← c3]; exact hlim)
    (by rw [← c3]; exact hpos) rfl lx0 hlen
  refine ⟨t, ms, x0, q, input, r, ht, hms, hx0, ?_, ?_, ?_, ?_, ?_, ?_, ?_⟩
  · rw [c2]; exact a1
  · rw [c2]; exact a2
  · rw [c2]; exact a5
  · rw [c2, c3]; exact a6
  · rw [c2]; exact a8
  · rw [es, c2]; exact a9
  · intro h1 h2 h3
    rw [c2] at h2
    obtain ⟨x, b1, b2, b3, b4, b5, _⟩ := a10 h1 h2 h3
    refine ⟨x, by rw [es]; exact b1, b2, by rw [c2]; exact b3, ?_, by rw [c3]; exact b4⟩
    have := b5 hm.plain.2.2.2.1
    rw [← c3] at this
    unfold Book.setup at this
    rw [hms] at this
    exact (isSolution_laps hE hq hm ms _ x).mp this

end Lumos.Drive
