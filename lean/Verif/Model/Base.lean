/-!
Values shared by all models: Python exceptions / C++ throws as data.

Simplification: only the class of an exception is kept, not its message.
-/

namespace Verif

/-- Exception classes raised by the modelled code (Python built-ins, and C++
`throw`s which boost-python turns into `RuntimeError`; see the individual
models for the lines that raise them, e.g. `Storage.py:66-72` for `ioError` and
`Tof2Channel.icc:10-34` for `cppException`). -/
inductive Err where
  | runtimeError
  | valueError
  | ioError
  | assertionError
  | zeroDivision
  | indexError
  | keyError
  | typeError
  | attributeError
  | notImplemented
  | notRegistered
  | nameError
  /-- C++ `throw Exception(...)` -/
  | cppException
  /-- undefined behaviour in C++ (read past the end, missing return, ...) -/
  | undefinedBehaviour
  /-- unbounded recursion -/
  | recursionError
  deriving DecidableEq, Repr

end Verif
