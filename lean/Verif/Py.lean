/-!
# Python results

A Python call that may raise is modelled by a value of `Py α`: either the returned value or the class
of the raised exception.  Messages are not modelled.
-/

namespace PyOGRe

/-- Exception classes raised by the modelled code (built-in ones, the ones of
`/repo/src/PyOGRe/Exceptions.py` and the ones raised by sympy that reach the caller). -/
inductive PyErr where
  | typeError
  | valueError
  | indexError
  | keyError
  | attributeError
  | zeroDivisionError
  | permissionError
  | notImplementedError
  | exception
  | indicesDimensionError
  | indicesValueError
  | tensorDimensionError
  | tensorCoordinatesError
  | transformationError
  | nonInvertibleMatrixError
  | syntaxError
  | osError
  deriving DecidableEq, Repr

/-- Result of a Python call. -/
abbrev Py (α : Type) := Except PyErr α

/-- Names of sympy symbols. -/
abbrev Sym := String

@[simp] theorem py_ok_bind {α β : Type} (x : α) (f : α → Py β) : (Except.ok x >>= f) = f x := rfl

@[simp] theorem py_error_bind {α β : Type} (e : PyErr) (f : α → Py β) :
    (Except.error e >>= f) = Except.error e := rfl

@[simp] theorem py_pure {α : Type} (x : α) : (pure x : Py α) = Except.ok x := rfl

@[simp] theorem py_throw {α : Type} (e : PyErr) : (throw e : Py α) = Except.error e := rfl

end PyOGRe
