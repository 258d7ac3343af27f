/-!
# Python exceptions as values

A call that may raise is modelled as a value of `Except PyErr α`.  Only the exception class is
kept, never the message.  A `while` loop takes fuel; the extra value `outOfFuel` means that the
fuel was used up.  Termination of the code is the theorem "from some fuel on the result is not
`outOfFuel`", non-termination is "the result is `outOfFuel` for every fuel".
-/

namespace Verif

/-- The Python exception classes that occur in the modelled code. -/
inductive PyErr where
  | indexError
  | valueError
  | typeError
  | keyError
  | attributeError
  | nameError
  | unboundLocalError
  | notImplementedError
  | zeroDivisionError
  | assertionError
  | fileNotFoundError
  | runtimeError
  /-- plain `Exception(...)` raised by the package itself -/
  | exception
  /-- not a Python exception: the fuel of the model's loop was used up -/
  | outOfFuel
  deriving DecidableEq, Repr

/-- `xs[i]` for a non-negative Python index. -/
def pyGet {α : Type} (xs : List α) (i : Nat) : Except PyErr α :=
  match xs[i]? with
  | some x => .ok x
  | none => .error .indexError

/-- `xs[-1]`. -/
def pyLast {α : Type} (xs : List α) : Except PyErr α :=
  match xs.getLast? with
  | some x => .ok x
  | none => .error .indexError

end Verif
