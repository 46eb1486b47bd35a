import Verif.Backend.Props
/-!
# C104: a test decorated with `use_backends` (lumos/models/test_utils.py:17-65)
-/

namespace Lumos.Backend

/-- One pass of the loop of `wrapped` (test_utils.py:42-62): the backend is set, the test runs, and `finally` sets the original backend, whether
the test raised or not. The last component says whether it raised (the exception goes on, as it was or as the cause of another one). -/
inductive Pass (body : Cmd) (original : String) : State → String → List Event → State → Bool → Prop
  | mk {s t : State} {b : String} {e : List Event} {r : Bool} : Exec { s with backend := setBackend s.backend b } body e t r →
      Pass body original s b e { t with backend := setBackend t.backend original } r

/-- The loop over the backends (test_utils.py:41-62): what every pass did (its events and whether it raised), the final state and whether the
loop raised. `catches`: the test runs under a `unittest` result, whose `subTest` records an exception and goes on; without one, `subTest`
lets it through. -/
inductive Loop (catches : Bool) (body : Cmd) (original : String) : State → List String → List (List Event × Bool) → State → Bool → Prop
  | done (s : State) : Loop catches body original s [] [] s false
  | next {s t u : State} {b : String} {bs : List String} {e : List Event} {es : List (List Event × Bool)} {failed r : Bool} :
      Pass body original s b e t failed → (failed = false ∨ catches = true) → Loop catches body original t bs es u r →
      Loop catches body original s (b :: bs) ((e, failed) :: es) u r
  | stop {s t : State} {b : String} {bs : List String} {e : List Event} : Pass body original s b e t true → catches = false →
      Loop catches body original s (b :: bs) [(e, true)] t true

/-- `use_backends(backends)(fn)(self)` (test_utils.py:38-66): the original backend is read at the call. -/
def Runs (catches : Bool) (body : Cmd) (backends : List String) (s : State) (es : List (List Event × Bool)) (t : State) (raised : Bool) : Prop :=
  Loop catches body s.backend s backends es t raised

theorem pass_ok {body : Cmd} {o : String} {s t : State} {b : String} {e : List Event} {r : Bool} (h : Pass body o s b e t r) (hs : Ok s)
    (ho : o ∈ valid) : Ok t ∧ t.backend = o := by
  cases h with
  | mk h =>
    obtain ⟨k, -⟩ := C74_valid h ⟨setBackend_valid hs.backend, hs.fns⟩
    exact ⟨⟨setBackend_valid k.backend, k.fns⟩, setBackend_of ho⟩

theorem loop_spec {catches : Bool} {body : Cmd} {o : String} {s t : State} {bs : List String} {es : List (List Event × Bool)} {r : Bool}
    (h : Loop catches body o s bs es t r) : Ok s → s.backend = o →
    Ok t ∧ t.backend = o ∧ es.length ≤ bs.length ∧
    (∀ k, k < es.length → ∃ s' t', Ok s' ∧ s'.backend = (if bs.getD k "" ∈ ["jax", "numpy", "casadi"] then bs.getD k "" else o) ∧
      Exec s' body (es.getD k ([], false)).1 t' (es.getD k ([], false)).2) ∧
    (catches = true → r = false ∧ es.length = bs.length) ∧
    (catches = false → (r = true ↔ ∃ k, k < es.length ∧ (es.getD k ([], false)).2 = true) ∧ (r = false → es.length = bs.length) ∧
      ∀ k, k + 1 < es.length → (es.getD k ([], false)).2 = false) := by
  induction h with
  | done s => exact fun hs ho => ⟨hs, ho, Nat.le_refl _, by simp, by simp, by simp⟩
  | @next s t u b bs e es failed r hp hf _ ih =>
    intro hs ho
    have hov : o ∈ valid := ho ▸ hs.backend
    obtain ⟨ht, hb⟩ := pass_ok hp hs hov
    obtain ⟨k1, k2, k3, k4, k5, k6⟩ := ih ht hb
    refine ⟨k1, k2, Nat.succ_le_succ k3, ?_, ?_, ?_⟩
    · intro k hk
      cases k with
      | zero =>
        cases hp with
        | mk hx =>
          refine ⟨{ s with backend := setBackend s.backend b }, _, ⟨setBackend_valid hs.backend, hs.fns⟩, ?_, hx⟩
          simp only [List.getD_cons_zero]
          rw [← ho]
          rfl
      | succ k => simpa only [List.getD_cons_succ] using k4 k (by simpa using hk)
    · intro hc
      obtain ⟨a, b⟩ := k5 hc
      exact ⟨a, by simp [b]⟩
    · intro hc
      obtain ⟨a, b, c⟩ := k6 hc
      have hff : failed = false := by
        rcases hf with h | h
        · exact h
        · rw [hc] at h; cases h
      refine ⟨⟨fun hr => ?_, fun ⟨k, hk, hv⟩ => ?_⟩, fun hr => by simp [b hr], fun k hk => ?_⟩
      · obtain ⟨k, hk, hv⟩ := a.1 hr
        exact ⟨k + 1, by simpa using hk, by simpa only [List.getD_cons_succ] using hv⟩
      · cases k with
        | zero => simp only [List.getD_cons_zero] at hv; rw [hff] at hv; cases hv
        | succ k => exact a.2 ⟨k, by simpa using hk, by simpa only [List.getD_cons_succ] using hv⟩
      · cases k with
        | zero => simpa only [List.getD_cons_zero] using hff
        | succ k => simpa only [List.getD_cons_succ] using c k (by simpa using hk)
  | @stop s t b bs e hp hc =>
    intro hs ho
    have hov : o ∈ valid := ho ▸ hs.backend
    obtain ⟨ht, hb⟩ := pass_ok hp hs hov
    refine ⟨ht, hb, by simp, ?_, fun h => absurd (hc.symm.trans h) (by simp), fun _ => ⟨⟨fun _ => ⟨0, by simp, rfl⟩, fun _ => rfl⟩, by simp, by simp⟩⟩
    intro k hk
    have : k = 0 := by simpa using hk
    subst this
    cases hp with
    | mk hx =>
      refine ⟨{ s with backend := setBackend s.backend b }, _, ⟨setBackend_valid hs.backend, hs.fns⟩, ?_, hx⟩
      simp only [List.getD_cons_zero]
      rw [← ho]
      rfl

/-- **C104 (the backend afterwards).** A test decorated with `use_backends` leaves the backend that was current at its call, whatever the test
does under any of the backends: set others, raise, call decorated functions. -/
theorem C104_restored {catches : Bool} {body : Cmd} {bs : List String} {s t : State} {es : List (List Event × Bool)} {r : Bool}
    (h : Runs catches body bs s es t r) (hs : Ok s) : t.backend = s.backend ∧ Ok t :=
  ⟨(loop_spec h hs rfl).2.1, (loop_spec h hs rfl).1⟩

/-- **C104 (every pass).** The pass `k` runs the test from the backend `k` of the list - whatever the passes before it did; if there is no backend
of that name (finding), silently from the one at the call. -/
theorem C104_pass {catches : Bool} {body : Cmd} {bs : List String} {s t : State} {es : List (List Event × Bool)} {r : Bool}
    (h : Runs catches body bs s es t r) (hs : Ok s) (k : Nat) (hk : k < es.length) : k < bs.length ∧
    ∃ s' t', s'.backend = (if bs.getD k "" ∈ ["jax", "numpy", "casadi"] then bs.getD k "" else s.backend) ∧
      Exec s' body (es.getD k ([], false)).1 t' (es.getD k ([], false)).2 := by
  obtain ⟨-, -, h1, h2, -⟩ := loop_spec h hs rfl
  obtain ⟨s', t', -, h3, h4⟩ := h2 k hk
  exact ⟨by omega, s', t', h3, h4⟩

/-- **C104 (failures).** Under a `unittest` result every backend gets its pass and nothing is raised, whatever fails (so the note in the code
that the first failure stops the rest does not hold there); without one, the passes go on exactly to the first failure, which is raised. -/
theorem C104_failures {catches : Bool} {body : Cmd} {bs : List String} {s t : State} {es : List (List Event × Bool)} {r : Bool}
    (h : Runs catches body bs s es t r) (hs : Ok s) :
    (catches = true → r = false ∧ es.length = bs.length) ∧
    (catches = false → (r = true ↔ ∃ k, k < es.length ∧ (es.getD k ([], false)).2 = true) ∧ (r = false → es.length = bs.length) ∧
      ∀ k, k + 1 < es.length → (es.getD k ([], false)).2 = false) :=
  ⟨(loop_spec h hs rfl).2.2.2.2.1, (loop_spec h hs rfl).2.2.2.2.2⟩

/-- A test that uses the backend, switches to jax and then fails, run under casadi, an unknown backend and numpy. -/
example : ∃ t, Runs true (.seq .observe (.seq (.set "jax") .raise)) ["casadi", "tensorflow", "numpy"] start
    [([.used "casadi", .wasSet], true), ([.used "numpy", .wasSet], true), ([.used "numpy", .wasSet], true)] t false ∧ t.backend = "numpy" := by
  refine ⟨_, .next (.mk (.seq (.observe _) (.seq (.set _ _) (.raise _)))) (.inr rfl) (.next (.mk (.seq (.observe _) (.seq (.set _ _) (.raise _)))) (.inr rfl)
    (.next (.mk (.seq (.observe _) (.seq (.set _ _) (.raise _)))) (.inr rfl) (.done _))), rfl⟩

end Lumos.Backend
