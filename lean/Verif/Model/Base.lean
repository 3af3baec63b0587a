/-!
# Strings, exceptions, and the monad of the model

Shared by all model files. No parser behaviour in here.
-/

namespace Sharg

/-- `std::string`. Simplification: a `char` is a Lean `Char`; no code point limit is imposed. -/
abbrev Str := List Char

/-- What can end a call abnormally. The first eight are the exception classes of
`include/sharg/exceptions.hpp`, lines 39-212 (all derived from `sharg::parser_error`; messages are not
modelled). The last four are not parser exceptions: `std::out_of_range` and
`std::filesystem::filesystem_error` thrown by the standard library, a failed
`assert` (only in builds without `NDEBUG`), and undefined behaviour. -/
inductive Exn where
  | unknownOption
  | tooManyArguments
  | tooFewArguments
  | requiredOptionMissing
  | optionDeclaredMultipleTimes
  | userInputError
  | validationError
  | designError
  | outOfRange
  | filesystemError
  | assertFailed
  | undefinedBehaviour
  deriving DecidableEq, Repr

/-- `sharg::parser_error` is a base class of the exception (exceptions.hpp lines 39-212). -/
def Exn.isParserError : Exn → Bool
  | .outOfRange | .filesystemError | .assertFailed | .undefinedBehaviour => false
  | _ => true

/-- Result of running code on a state: the state is kept when an exception is thrown, as in C++. -/
inductive Res (σ α : Type) where
  | ok (a : α) (s : σ)
  | err (e : Exn) (s : σ)

/-- Code that reads and writes a state `σ` and may throw. -/
def M (σ α : Type) := σ → Res σ α

namespace M

def pure {σ α : Type} (a : α) : M σ α := fun s => .ok a s

/-- Sequencing: an exception skips the rest and keeps the state reached so far. -/
def bind {σ α β : Type} (m : M σ α) (f : α → M σ β) : M σ β := fun s =>
  match m s with
  | .ok a s' => f a s'
  | .err e s' => .err e s'

/-- `throw e;` -/
def throw {σ α : Type} (e : Exn) : M σ α := fun s => .err e s

/-- Change the state. -/
def modify {σ : Type} (f : σ → σ) : M σ Unit := fun s => .ok () (f s)

instance {σ : Type} : Monad (M σ) where
  pure := M.pure
  bind := M.bind

/-- Run an action for each element of a list, in order (`for (auto && f : calls) f();`). -/
def forEach {σ α : Type} (f : α → M σ Unit) : List α → M σ Unit
  | [] => M.pure ()
  | a :: l => M.bind (f a) fun _ => forEach f l

end M

/-- Final state of a run, whether it threw or not. -/
def Res.state {σ α : Type} : Res σ α → σ
  | .ok _ s => s
  | .err _ s => s

/-- The run returned normally. -/
def Res.isOk {σ α : Type} : Res σ α → Bool
  | .ok _ _ => true
  | .err _ _ => false

/-- The exception, if any. -/
def Res.exn? {σ α : Type} : Res σ α → Option Exn
  | .ok _ _ => none
  | .err e _ => some e

end Sharg
