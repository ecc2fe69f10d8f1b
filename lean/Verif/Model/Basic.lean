/-!
# Exceptions

Python exceptions that the modelled functions raise on purpose, as values.
-/

namespace Pylogit

/-- The exception classes raised by the modelled code. -/
inductive Err where
  | valueError
  | typeError
  | keyError
  | indexError
  | assertionError
  | notImplementedError
  | attributeError
  | linAlgError
  deriving DecidableEq, Repr

end Pylogit
