import Verif.Backend.Model
/-!
# C74: the scope of a backend
-/

namespace Lumos.Backend

/-- The states that occur: the backend is one of the three, and so was the one that every decorated function will restore. The state in
which `import lumos` leaves the program is one (`start`). -/
structure Ok (s : State) : Prop where
  backend : s.backend ∈ valid
  fns : ∀ f ∈ s.fns, f.2.original ∈ valid

/-- The state after the import (numpy/__init__.py:26). -/
def start : State := ⟨"numpy", []⟩

theorem start_ok : Ok start := ⟨by decide, by simp [start]⟩

theorem setBackend_valid {c b : String} (h : c ∈ valid) : setBackend c b ∈ valid := by
  unfold setBackend
  split
  · assumption
  · exact h

theorem setBackend_of {c b : String} (h : b ∈ valid) : setBackend c b = b := if_pos h

theorem lookup_mem {l : List (String × Fn)} {f : String} {g : Fn} (h : l.lookup f = some g) : (f, g) ∈ l := by
  induction l with
  | nil => cases h
  | cons a l ih =>
    obtain ⟨n, v⟩ := a
    rw [List.lookup_cons] at h
    by_cases e : f = n
    · subst e; simp only [beq_self_eq_true, Option.some.injEq] at h; simp [h]
    · have : (f == n) = false := by simpa using e
      simp only [this] at h
      simp [ih h]

/-- **C74 (invariant).** Whatever the program does, the backend is one of the three. -/
theorem C74_valid {s t : State} {c : Cmd} {e : List Event} {r : Bool} (h : Exec s c e t r) (hs : Ok s) :
    Ok t ∧ ∀ b, Event.used b ∈ e → b ∈ valid := by
  induction h with
  | observe s => exact ⟨hs, by simp; exact hs.backend⟩
  | set s b => exact ⟨⟨setBackend_valid hs.backend, hs.fns⟩, by simp⟩
  | raise s => exact ⟨hs, by simp⟩
  | seq _ _ ih1 ih2 =>
    obtain ⟨k1, k2⟩ := ih1 hs
    obtain ⟨k3, k4⟩ := ih2 k1
    exact ⟨k3, fun b hb => (List.mem_append.1 hb).elim (k2 b) (k4 b)⟩
  | seqRaised _ ih => exact ih hs
  | handled _ _ ih1 ih2 =>
    obtain ⟨k1, k2⟩ := ih1 hs
    obtain ⟨k3, k4⟩ := ih2 k1
    exact ⟨k3, fun b hb => (List.mem_append.1 hb).elim (k2 b) (k4 b)⟩
  | fine _ ih => exact ih hs
  | scope _ ih =>
    obtain ⟨k1, k2⟩ := ih ⟨setBackend_valid hs.backend, hs.fns⟩
    exact ⟨⟨setBackend_valid k1.backend, k1.fns⟩, k2⟩
  | decorate s f b c =>
    refine ⟨⟨hs.backend, ?_⟩, by simp⟩
    intro g hg
    rcases List.mem_cons.1 hg with rfl | hg
    · exact hs.backend
    · exact hs.fns g hg
  | call _ _ ih =>
    obtain ⟨k1, k2⟩ := ih ⟨setBackend_valid hs.backend, hs.fns⟩
    refine ⟨⟨setBackend_valid k1.backend, k1.fns⟩, ?_⟩
    intro b hb
    rcases List.mem_cons.1 hb with hb | hb
    · cases hb
    · exact k2 b hb
  | unbound _ => exact ⟨hs, by simp⟩

/-- **C74 (scope).** `with use_backend(b)` runs its body from the backend `b` (from the current one if `b` is unknown) and, whatever the body
does - set another backend, nest scopes, call decorated functions, raise - leaves the backend as it was before the statement. -/
theorem C74_scope {s t : State} {b : String} {c : Cmd} {e : List Event} {r : Bool} (h : Exec s (.scope b c) e t r) (hs : Ok s) :
    t.backend = s.backend
    ∧ ∃ t', Exec ⟨if b ∈ ["jax", "numpy", "casadi"] then b else s.backend, s.fns⟩ c e t' r ∧ t'.fns = t.fns := by
  cases h with
  | scope h1 => exact ⟨setBackend_of hs.backend, _, h1, rfl⟩

/-- **C74 (call).** A call of a decorated function runs its body from the backend of the decorator and leaves the backend that was current
when the function was decorated, which is the caller's only if that did not change. -/
theorem C74_call {s t : State} {f : String} {g : Fn} {e : List Event} {r : Bool} (h : Exec s (.call f) e t r) (hs : Ok s)
    (hf : s.fns.lookup f = some g) :
    t.backend = g.original
    ∧ ∃ e' t', e = .called g.original s.backend :: e' ∧ t'.fns = t.fns
      ∧ Exec ⟨if g.target ∈ ["jax", "numpy", "casadi"] then g.target else s.backend, s.fns⟩ g.body e' t' r := by
  cases h with
  | @call _ t' _ _ e' _ h1 h2 =>
    rw [hf, Option.some.injEq] at h1
    subst h1
    exact ⟨setBackend_of (hs.fns _ (lookup_mem hf)), e', t', rfl, rfl, h2⟩
  | unbound h1 => rw [hf] at h1; cases h1

/-- **C74 (decoration).** The backend that a decorated function restores is the one at its decoration. -/
theorem C74_decorate {s t : State} {f b : String} {c : Cmd} {e : List Event} {r : Bool} (h : Exec s (.decorate f b c) e t r) :
    t.fns.lookup f = some ⟨s.backend, b, c⟩ ∧ t.backend = s.backend ∧ ∀ g, g ≠ f → t.fns.lookup g = s.fns.lookup g := by
  cases h
  refine ⟨by simp, rfl, ?_⟩
  intro g hg
  have : (g == f) = false := by simpa using hg
  simp [List.lookup_cons, this]

/-- **C74 (no leak).** A program that never calls `set_backend` itself and calls decorated functions only under the backend they were
decorated under leaves the backend as it was, also when it raises. -/
theorem C74_no_leak {s t : State} {c : Cmd} {e : List Event} {r : Bool} (h : Exec s c e t r) (hs : Ok s)
    (h1 : Event.wasSet ∉ e) (h2 : ∀ o n, Event.called o n ∈ e → o = n) : t.backend = s.backend := by
  induction h with
  | observe s => rfl
  | set s b => simp at h1
  | raise s => rfl
  | seq k1 _ ih1 ih2 =>
    rw [List.mem_append, not_or] at h1
    rw [ih2 (C74_valid k1 hs).1 h1.2 (fun o n hc => h2 o n (List.mem_append.2 (.inr hc))),
      ih1 hs h1.1 (fun o n hc => h2 o n (List.mem_append.2 (.inl hc)))]
  | seqRaised _ ih => exact ih hs h1 h2
  | handled k1 _ ih1 ih2 =>
    rw [List.mem_append, not_or] at h1
    rw [ih2 (C74_valid k1 hs).1 h1.2 (fun o n hc => h2 o n (List.mem_append.2 (.inr hc))),
      ih1 hs h1.1 (fun o n hc => h2 o n (List.mem_append.2 (.inl hc)))]
  | fine _ ih => exact ih hs h1 h2
  | scope _ _ => exact setBackend_of hs.backend
  | decorate s f b c => rfl
  | call k1 k2 _ =>
    rw [← h2 _ _ (List.mem_cons_self ..)]
    exact setBackend_of (hs.fns _ (lookup_mem k1))
  | unbound _ => rfl

/-! ## A case that meets the hypotheses -/

/-- `with use_backend("casadi"): try: (observe; raise) except: observe`, then `observe`. -/
def demo : Cmd := .seq (.scope "casadi" (.handle (.seq .observe .raise) .observe)) .observe

theorem demo_runs : Exec start demo [.used "casadi", .used "casadi", .used "numpy"] start false :=
  .seq (e := [.used "casadi", .used "casadi"]) (.scope (.handled (.seq (.observe _) (.raise _)) (.observe _))) (.observe _)

example : start.backend = start.backend := C74_no_leak demo_runs start_ok (by decide) (by intro o n h; simp at h)

/-! ## Findings -/

/-- **C74 finding (decorator).** A function decorated under numpy and called inside `with use_backend("casadi")` leaves numpy: the rest of the
scope runs under numpy. The library decorates its mapped constraints this way (nlp.py:277-281, base.py:749). -/
theorem C74_decorator_leaks :
    ∃ t, Exec start (.seq (.decorate "f" "jax" .observe) (.scope "casadi" (.seq .observe (.seq (.call "f") .observe))))
      [.used "casadi", .called "numpy" "casadi", .used "jax", .used "numpy"] t false := by
  refine ⟨⟨"numpy", [("f", ⟨"numpy", "jax", .observe⟩)]⟩, .seq (e := []) (.decorate _ _ _ _) ?_⟩
  refine .scope (t := ⟨"numpy", [("f", ⟨"numpy", "jax", .observe⟩)]⟩) (.seq (e := [.used "casadi"]) (.observe _) ?_)
  exact .seq (e := [.called "numpy" "casadi", .used "jax"]) (.call (g := ⟨"numpy", "jax", .observe⟩) rfl (.observe _)) (.observe _)

/-- **C74 finding (decorated inside a scope).** A function that was decorated inside `with use_backend("casadi")` leaves casadi as the backend
of the whole program when it is called later. -/
theorem C74_decorated_inside :
    ∃ t, Exec start (.seq (.scope "casadi" (.decorate "f" "jax" .observe)) (.call "f")) [.called "casadi" "numpy", .used "jax"] t false
      ∧ t.backend = "casadi" := by
  refine ⟨_, .seq (e := []) (.scope (.decorate _ _ _ _)) (.call (g := ⟨"casadi", "jax", .observe⟩) ?_ (.observe _)), by decide⟩
  have : setBackend start.backend "casadi" = "casadi" := by decide
  simp [this]

/-- **C74 finding (unknown name).** `with use_backend("tensorflow")` raises nothing and runs its body under the current backend. -/
theorem C74_unknown_backend : Exec start (.scope "tensorflow" .observe) [.used "numpy"] start false := .scope (.observe _)

end Lumos.Backend
