import Mathlib.Data.Real.Basic
import Mathlib.Analysis.Real.Sqrt
import Mathlib.Data.Real.Sign

/-!
# Python runtime conventions used by the model

Floats are modelled by `ℝ` (exact arithmetic).  A Python call that can raise returns
`Py α = Except PyErr α`.
-/

namespace KGP

open Classical

/-- The exceptions that the modelled code can raise.  The string of `valueError` is the message
(or a short description when the message is produced by numpy/scipy). -/
inductive PyErr where
  | valueError (msg : String)
  | keyError (key : String)
  | unboundLocal (name : String)
  | indexError
  | typeError
  | zeroDivision
  /-- not a Python exception: Python continues with complex numbers, which the model does not follow -/
  | complexResult
  deriving DecidableEq

/-- A Python computation: a value, or an exception. -/
abbrev Py (α : Type) := Except PyErr α

/-- `if c: raise e` -/
noncomputable def raiseIf (c : Prop) (e : PyErr) : Py Unit :=
  if c then .error e else .ok ()

/-- Whether a computation raised `ValueError`. -/
def Py.IsValueError {α : Type} (x : Py α) : Prop := ∃ msg, x = .error (.valueError msg)

/-- Whether a computation returned a value. -/
def Py.Returns {α : Type} (x : Py α) : Prop := ∃ v, x = .ok v

/-- `numpy.copysign(1, a)` / `copysign(1, a)`: kerrgeopy/constants.py:213, spacetime.py:186,192.
Simplification: the sign of a floating point zero is not modelled (`a = -0.0` is read as `0`). -/
noncomputable def copysign1 (a : ℝ) : ℝ := if a < 0 then -1 else 1

/-- Names used in error messages, constants.py:236-241. -/
def errExtreme : PyErr := .valueError "Extreme Kerr not supported"
def errParams : PyErr := .valueError "a^2, e and x^2 must be between 0 and 1"
def errUnstable : PyErr := .valueError "Not a stable orbit"

end KGP
