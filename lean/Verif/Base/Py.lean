/-!
# Common vocabulary: Python exceptions as values

Models the Python runtime, not lumos itself: lumos raises exceptions, the model returns them as values.
-/

namespace Lumos

/-- The Python exception classes that lumos code can raise (messages dropped, class kept). -/
inductive PyErr
  | valueError | keyError | typeError | indexError | assertionError
  | runtimeError | nameError | attributeError | zeroDivisionError | notImplementedError
  | fileNotFoundError | stopIteration
  deriving DecidableEq, Repr

/-- A Python computation that may raise. -/
abbrev Py := Except PyErr

instance instDecidableEqPy {α : Type u} [DecidableEq α] : DecidableEq (Py α) := fun a b =>
  match a, b with
  | .error e, .error f => if h : e = f then isTrue (by rw [h]) else isFalse (by simp [h])
  | .ok _, .error _ => isFalse (by simp)
  | .error _, .ok _ => isFalse (by simp)
  | .ok x, .ok y => if h : x = y then isTrue (by rw [h]) else isFalse (by simp [h])

/-- `r` succeeded (no exception). -/
def Py.isOk {α : Type u} (r : Py α) : Bool :=
  match r with
  | .ok _ => true
  | .error _ => false

end Lumos
