import Verif.Model.VersionCheck

/-!
# The thread of the server call

Models the life of a parser object in a program with the detached thread of the version check: `run_version_check`
(`include/sharg/parser.hpp` lines 1114-1125), `operator()` and `call_server` (`include/sharg/detail/version_check.hpp` lines 38-45 and
180-220), the destructor (parser.hpp lines 202-207), `std::exit` (parser.hpp line 439). What the program and the server command do besides is
left out; how long they take is not known. The clock counts milliseconds.

Simplification: `wait_for` returns as soon as the value is there or the time is over (an operating system may be late).
-/

namespace Sharg

/-- Where the main thread is. -/
inductive MainAt where
  /-- before `run_version_check` -/
  | start
  /-- somewhere between `run_version_check` and the destructor -/
  | working
  /-- in `wait_for` of the destructor, since a time -/
  | waiting (since : Nat)
  /-- behind the destructor -/
  | destroyed
  /-- the process has ended -/
  | ended
  deriving DecidableEq, Repr

/-- Where the detached thread is. -/
inductive ServerAt where
  | absent
  /-- the command is running -/
  | calling
  /-- the promise was given its value -/
  | answered
  /-- the process has ended while the command was running -/
  | cutOff
  deriving DecidableEq, Repr

/-- `version_check_future`. -/
inductive FutureIs where
  | invalid
  | pending
  | ready
  deriving DecidableEq, Repr

/-- A moment. `sets` counts the calls of `set_value`; `threw` tells that the thread could not be started (`std::system_error`). -/
structure Moment where
  clock : Nat
  main : MainAt
  server : ServerAt
  future : FutureIs
  sets : Nat
  threw : Bool
  deriving DecidableEq, Repr

/-- Before the version check. -/
def Moment.first (clock : Nat) : Moment := ⟨clock, .start, .absent, .invalid, 0, false⟩

/-- How `run_version_check` goes: the check is not performed; there is neither wget nor curl (version_check.hpp lines 180-184); the
thread cannot be started - the promise is destroyed, which makes the future ready - ; it is started (line 219). -/
inductive CheckStart where
  | notPerformed
  | noProgram
  | noThread
  | started
  deriving DecidableEq, Repr

/-- What happens next. -/
inductive Happens where
  /-- a millisecond passes -/
  | tick
  /-- `run_version_check` -/
  | check (s : CheckStart)
  /-- `set_value` in `call_server` -/
  | answer
  /-- the destructor is called: the parser goes out of scope, by a `return` or an exception -/
  | destroy
  /-- `wait_for` returns -/
  | wake
  /-- `std::exit`; local objects are not destroyed -/
  | exit
  /-- the end of `main` -/
  | finish
  deriving DecidableEq, Repr

/-- The moment after, if this can happen now. -/
def Moment.after (m : Moment) : Happens → Option Moment
  | .tick =>
    match m.main with
    | .ended => none
    | .waiting since =>
      if m.future = .pending ∧ m.clock < since + 3000 then some { m with clock := m.clock + 1 } else none
    | _ => some { m with clock := m.clock + 1 }
  | .check s =>
    if m.main = .start then
      match s with
      | .notPerformed => some { m with main := .working }
      | .noProgram => some { m with main := .working, future := .ready, sets := m.sets + 1 }
      | .noThread => some { m with main := .working, future := .ready, threw := true }
      | .started => some { m with main := .working, future := .pending, server := .calling }
    else none
  | .answer =>
    if m.server = .calling then some { m with server := .answered, future := .ready, sets := m.sets + 1 } else none
  | .destroy =>
    if m.main = .working ∨ m.main = .start then
      if m.future = .invalid then some { m with main := .destroyed } else some { m with main := .waiting m.clock }
    else none
  | .wake =>
    match m.main with
    | .waiting since => if m.future = .ready ∨ since + 3000 ≤ m.clock then some { m with main := .destroyed } else none
    | _ => none
  | .exit =>
    if m.main = .working ∨ m.main = .start ∨ m.main = .destroyed then
      some { m with main := .ended, server := if m.server = .calling then .cutOff else m.server }
    else none
  | .finish =>
    if m.main = .destroyed then some { m with main := .ended, server := if m.server = .calling then .cutOff else m.server } else none

/-- A sequence of events. -/
def Moment.run (m : Moment) : List Happens → Option Moment
  | [] => some m
  | h :: hs => (m.after h).bind fun m' => m'.run hs

end Sharg
