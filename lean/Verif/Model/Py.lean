/-!
# Python exceptions as values

The exceptions that the modelled functions can raise.  `names` of a `TypeError` are the
parameter names that its message reports as missing (empty for all other TypeErrors).
-/

namespace RT1

/-- Exceptions raised by the modelled code. -/
inductive PyErr where
  | typeError (names : List String)
  | assertionError
  | assertMissing (names : List String)
  | attributeError
  | nameError
  | valueError
  | keyError
  | notImplementedError
  | runtimeError
  | indexError
deriving DecidableEq, Repr

/-- Result of a python call: a value or an exception. -/
abbrev Py := Except PyErr

end RT1
