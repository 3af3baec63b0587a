import Verif.Model.Files
import Verif.Model.System
import Verif.Model.Text

/-!
# Options of type `std::filesystem::path`

`parse_option_value` has no overload for paths, so that they are read with `operator>>` (`include/sharg/detail/format_parse.hpp` lines 287-298), which
reads `std::quoted` ([fs.path.io], [quoted.manip]), and shown with `operator<<`, which writes `std::quoted`. This file models these two functions of
the standard library on the stream `std::istringstream stream{in}` of line 291, and the file validators at such options.

Simplifications: the global locale is the classic one; a path is the text it was made of (POSIX); `.`, `..`, symbolic links and slashes at the end
have no meaning of their own (as in `Model/Files.lean`).
-/

namespace Sharg

/-- An input stream on a text: what is left to read, and the state bits. -/
structure InStream where
  rest : Str
  eof : Bool := false
  fail : Bool := false
  deriving DecidableEq, Repr

/-- `good()`. -/
def InStream.good (s : InStream) : Bool := !s.eof && !s.fail

/-- The sentry of formatted input ([istream.sentry]): blanks are skipped if `skipws` is set; a stream that is not good, or that ends there, fails. -/
def InStream.sentry (skipws : Bool) (s : InStream) : InStream :=
  if s.good then
    match (if skipws then s.rest.dropWhile isSpace else s.rest) with
    | [] => if skipws then { rest := [], eof := true, fail := true } else s
    | c :: r => { s with rest := c :: r }
  else { s with fail := true }

/-- `is >> c` for a character ([istream.extractors]): fails at the end of the text. -/
def InStream.getChar (skipws : Bool) (s : InStream) : Option Char × InStream :=
  let s := s.sentry skipws
  if s.good then
    match s.rest with
    | [] => (none, { s with eof := true, fail := true })
    | c :: r => (some c, { s with rest := r })
  else (none, s)

/-- `is >> str` ([string.io]): the characters up to the next blank. The end of the text is noticed only if no blank comes before it. -/
def InStream.getWord (s : InStream) : Str × InStream :=
  let s := s.sentry true
  if s.good then
    let word := s.rest.takeWhile (fun c => !isSpace c)
    let rest := s.rest.dropWhile (fun c => !isSpace c)
    (word, { rest, eof := rest.isEmpty, fail := word.isEmpty })
  else ([], s)

/-- The loop of `is >> std::quoted(str)` behind the opening quotation mark, without `skipws`: a backslash stands in front of any character; ends behind
the next quotation mark. -/
def quotedLoop (acc : Str) (rest : Str) : Str × InStream :=
  match rest with
  | [] => (acc, { rest := [], eof := true, fail := true })
  | '\\' :: [] => (acc, { rest := [], eof := true, fail := true })
  | '\\' :: c :: r => quotedLoop (acc ++ [c]) r
  | '"' :: r => (acc, { rest := r })
  | c :: r => quotedLoop (acc ++ [c]) r

/-- `is >> std::quoted(str)` ([quoted.manip]): without a quotation mark at the beginning, the character is put back (`unget`) and a word is read. -/
def getQuoted (s : InStream) : Str × InStream :=
  match s.getChar true with
  | (none, s) => ([], s)
  | (some c, s) => if c = '"' then quotedLoop [] s.rest else InStream.getWord { s with rest := c :: s.rest }

/-- Paths as the numbers of `Elem.other`: the characters are the digits of the number. -/
def pathCode : Str → Nat
  | [] => 0
  | c :: s => pathCode s * 1114113 + (c.toNat + 1)

/-- The path of a number. -/
def pathText (n : Nat) : Str :=
  if h : n = 0 then [] else Char.ofNat (n % 1114113 - 1) :: pathText (n / 1114113)
termination_by n
decreasing_by exact Nat.div_lt_self (Nat.pos_of_ne_zero h) (by decide)

/-- `parse_option_value` for paths, format_parse.hpp lines 287-298. `operator>>` assigns the path if the extraction has not failed; line 294 then also
wants the end of the text to have been noticed. -/
def pathConv (text : Str) : Conv :=
  let r := getQuoted { rest := text }
  let written : Option Elem := if r.2.fail then none else some (.other (pathCode r.1))
  if r.2.fail || !r.2.eof then .fail written else .ok (.other (pathCode r.1))

/-- The type of an option that holds a path. -/
def pathTy : ElemTy := .foreign false pathConv

/-- `stream << path`. -/
def showPath (n : Nat) : Str := quoted (pathText n)

/-- `path.filename()` ([fs.path.decompose]): what is behind the last slash. -/
def fileName (t : Str) : Str := (t.reverse.takeWhile (· ≠ '/')).reverse

/-- What a file validator gets of a path text. -/
def pathArg (cwd : Loc) (t : Str) : PathArg := ⟨locOf cwd t, fileName t⟩

/-- The path in an element: paths, and texts, which are converted to paths. -/
def elemPath : Elem → Option Str
  | .other n => some (pathText n)
  | .str s => some s
  | _ => none

/-- A file validator in the system: paths that do not start with a slash are looked up from the current directory. -/
def Validator.onSystem (v : Validator Disk PathArg) : Validator System Str where
  run t s := onDisk (v.run (pathArg s.cwd t)) s
  help := v.help

/-- A file validator at an option or positional option that holds paths or texts, as called by the parser with the content of the variable; lists:
validators.hpp lines 349-355. Other contents do not occur. -/
def Validator.onPaths (v : Validator Disk PathArg) : Val → System → Bool × System := fun x w =>
  match x with
  | .one e => match elemPath e with
    | some t => v.onSystem.inParser t w
    | none => (true, w)
  | .many es => v.onSystem.each.inParser (es.filterMap elemPath) w

end Sharg
