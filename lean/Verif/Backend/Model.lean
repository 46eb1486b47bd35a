/-!
# Model of the switchable numerical backend (lumos/numpy/__init__.py, lumos/numpy/utils.py:14-23)
-/

namespace Lumos.Backend

/-- The keys of `__BACKEND_MAP` (numpy/__init__.py:24). -/
def valid : List String := ["jax", "numpy", "casadi"]

/-- `set_backend` (numpy/__init__.py:37-47): an unknown name only logs a warning. -/
def setBackend (current b : String) : String := if b ∈ valid then b else current

/-- A program that uses the backend. Simplification: statements are those that touch the backend; `f` in `decorate f b body` is the name to
which the decorated function is bound. -/
inductive Cmd
  /-- use of `lnp.something` or `lnp.get_backend()`: its effect depends on the backend only -/
  | observe
  /-- `lnp.set_backend(b)` -/
  | set (b : String)
  /-- any statement that raises -/
  | raise
  | seq (c d : Cmd)
  /-- `try: c except: d` -/
  | handle (c d : Cmd)
  /-- `with lnp.use_backend(b): c` -/
  | scope (b : String) (c : Cmd)
  /-- `f = lnp.use_backend(b)(g)`, where the body of `g` is `c` -/
  | decorate (f : String) (b : String) (c : Cmd)
  /-- `f()` of a decorated function -/
  | call (f : String)

/-- A decorated function: the instance of `use_backend` that it was decorated with, and its body. `ContextDecorator._recreate_cm` returns the
instance itself, so the backend that is restored was read at decoration (utils.py:15-17). -/
structure Fn where
  original : String
  target : String
  body : Cmd

/-- The global state: the current backend and the names bound to decorated functions (the latest binding first). -/
structure State where
  backend : String
  fns : List (String × Fn)

/-- What happens during an execution, in order. -/
inductive Event
  /-- the backend in use at an observation -/
  | used (b : String)
  /-- `set_backend` called by the program -/
  | wasSet
  /-- a function decorated while `original` was the backend is called while `now` is -/
  | called (original now : String)
  deriving DecidableEq

/-- Execution: the events, the final state and whether it ended by raising. Programs that do not terminate have no execution. -/
inductive Exec : State → Cmd → List Event → State → Bool → Prop
  | observe (s : State) : Exec s .observe [.used s.backend] s false
  | set (s : State) (b : String) : Exec s (.set b) [.wasSet] { s with backend := setBackend s.backend b } false
  | raise (s : State) : Exec s .raise [] s true
  | seq {s t u : State} {c d : Cmd} {e e' : List Event} {r : Bool} : Exec s c e t false → Exec t d e' u r → Exec s (.seq c d) (e ++ e') u r
  | seqRaised {s t : State} {c d : Cmd} {e : List Event} : Exec s c e t true → Exec s (.seq c d) e t true
  | handled {s t u : State} {c d : Cmd} {e e' : List Event} {r : Bool} : Exec s c e t true → Exec t d e' u r →
      Exec s (.handle c d) (e ++ e') u r
  | fine {s t : State} {c d : Cmd} {e : List Event} : Exec s c e t false → Exec s (.handle c d) e t false
  /-- `use_backend.__init__` reads the backend, `__enter__` sets the target, `__exit__` sets what was read; `__exit__` returns `None`, so an
  exception goes on (utils.py:15-23) -/
  | scope {s t : State} {b : String} {c : Cmd} {e : List Event} {r : Bool} : Exec { s with backend := setBackend s.backend b } c e t r →
      Exec s (.scope b c) e { t with backend := setBackend t.backend s.backend } r
  | decorate (s : State) (f b : String) (c : Cmd) : Exec s (.decorate f b c) [] { s with fns := (f, ⟨s.backend, b, c⟩) :: s.fns } false
  | call {s t : State} {f : String} {g : Fn} {e : List Event} {r : Bool} : s.fns.lookup f = some g →
      Exec { s with backend := setBackend s.backend g.target } g.body e t r →
      Exec s (.call f) (.called g.original s.backend :: e) { t with backend := setBackend t.backend g.original } r
  /-- NameError -/
  | unbound {s : State} {f : String} : s.fns.lookup f = none → Exec s (.call f) [] s true

end Lumos.Backend
