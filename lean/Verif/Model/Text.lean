import Verif.Model.Setup

/-!
# Texts on help pages

Models the text functions of `include/sharg/detail/format_base.hpp` lines 30-239,
`include/sharg/detail/to_string.hpp` and the text functions of `include/sharg/detail/format_help.hpp` and
`include/sharg/detail/format_html.hpp`.
-/

namespace Sharg

deriving instance DecidableEq for Except

/-! ### `format_base` -/

/-- One step of the loop of `escape_special_xml_chars`, format_base.hpp lines 144-155. -/
def escapeXmlChar (c : Char) : Str :=
  if c = '"' then "&quot;".toList
  else if c = '\'' then "&apos;".toList
  else if c = '&' then "&amp;".toList
  else if c = '<' then "&lt;".toList
  else if c = '>' then "&gt;".toList
  else [c]

/-- `escape_special_xml_chars`, format_base.hpp lines 137-159. -/
def escapeXml (s : Str) : Str := s.flatMap escapeXmlChar

/-- `prep_id_for_help`, format_base.hpp lines 115-129. -/
def prepIdForHelp (c : Char) (s : Str) : Str :=
  (if c ≠ '\x00' then "\\fB-".toList ++ [c] ++ "\\fP".toList else [])
    ++ (if c ≠ '\x00' ∧ s ≠ [] then ", ".toList else [])
    ++ (if s ≠ [] then "\\fB--".toList ++ s ++ "\\fP".toList else [])

/-- `std::string::find_last_of(c)` followed by `erase(pos)`: the text before the last occurrence; `none` if there
is none (`erase(npos)` throws `std::out_of_range`). -/
def eraseFromLast (c : Char) : Str → Option Str
  | [] => none
  | d :: s => match eraseFromLast c s with
    | some t => some (d :: t)
    | none => if d = c then some [] else none

/-- `expand_multiple_flags`, format_base.hpp lines 167-182. The empty text is undefined behaviour
(`flag_cluster.end() - 1`); a group without two flags throws `std::out_of_range` in `erase`, `"-"` runs over the
end of the text. The only caller (format_parse.hpp line 513) passes a dash and at least two flags. -/
def expandMultipleFlags (s : Str) : Except Exn Str :=
  let group := if s.head? = some '-' then s.tail else s
  match group.getLast? with
  | none => .error .undefinedBehaviour
  | some last =>
    match eraseFromLast ',' (group.dropLast.flatMap fun c => ['-', c, ',', ' ']) with
    | none => .error .outOfRange
    | some tmp => .ok (tmp ++ ['a', 'n', 'd', ' ', '-', last])

/-- `stream << std::quoted(s)`: in double quotes, with `"` and `\` preceded by `\`. -/
def quoted (s : Str) : Str :=
  ['"'] ++ (s.flatMap fun c => if c = '"' ∨ c = '\\' then ['\\', c] else [c]) ++ ['"']

/-- Decimal text of a natural number (`stream << n`). -/
def showNat (n : Nat) : Str := (Nat.toDigits 10 n)

/-- Decimal text of an integer (`stream << i`). -/
def showInt (i : Int) : Str := if i < 0 then '-' :: showNat i.natAbs else showNat i.natAbs

/-- How integer types are printed: `char` as a character, `int8_t` and `uint8_t` as a character by `operator<<` but
as a number by `to_string` (to_string.hpp lines 66-69), all others as a number. -/
inductive IntKind where
  | character
  | byte
  | wide
  deriving DecidableEq, Repr

/-- What the pages show of types: names (`get_type_name_as_string`, format_base.hpp lines 33-72), the kind of
integer types, whether a type is `std::filesystem::path`, and `operator<<` of foreign types. -/
structure TypeEnv where
  typeName : ElemTy → Str
  kind : ElemTy → IntKind
  isPath : ElemTy → Bool
  showOther : ElemTy → Nat → Str

/-- A character of a byte. -/
def byteChar (i : Int) : Char := Char.ofNat (i % 256).toNat

/-- `stream << value` for one element. Enumerators: `operator<<` of enumeration_names.hpp lines 250-261 (the list
order stands for the iteration order of the unordered map). -/
def streamElem (te : TypeEnv) (ty : ElemTy) : Elem → Str
  | .str s => s
  | .bool b => if b then ['1'] else ['0']
  | .int i => match te.kind ty with
    | .wide => showInt i
    | _ => [byteChar i]
  | .enumv tag => match ty with
    | .enumeration names => match names.find? (fun p => p.2 = tag) with
      | some p => p.1
      | none => "<UNKNOWN_VALUE>".toList
    | _ => "<UNKNOWN_VALUE>".toList
  | .other n => te.showOther ty n

/-- The list notation of `to_string`, to_string.hpp lines 52-64. -/
def showList : List Str → Str
  | [] => ['[', ']']
  | x :: l => ['['] ++ x ++ (l.flatMap fun y => [',', ' '] ++ y) ++ [']']

/-- `to_string(value)` of one value, to_string.hpp lines 66-73. -/
def toStringElem (te : TypeEnv) (ty : ElemTy) (e : Elem) : Str :=
  match e, te.kind ty with
  | .int i, .byte => showInt i
  | e, _ => streamElem te ty e

/-- `get_default_message(value, value)`, format_base.hpp lines 196-238. -/
def defaultOfValue (te : TypeEnv) (ty : ElemTy) (v : Val) : Str :=
  " Default: ".toList ++
    match v with
    | .many es => showList (es.map fun e => match ty with
        | .string => quoted (streamElem te ty e)
        | _ => streamElem te ty e)
    | .one e => match ty with
        | .string => quoted (streamElem te ty e)
        | _ => toStringElem te ty e

/-- `get_default_message(value, config.default_message)`, format_base.hpp lines 196-238. -/
def defaultOfMessage (te : TypeEnv) (isList : Bool) (ty : ElemTy) (msg : Str) : Str :=
  " Default: ".toList ++
    if isList then msg
    else match ty with
      | .string => quoted msg
      | _ => if te.isPath ty then quoted msg else msg

/-- `option_type_and_list_info`, format_base.hpp lines 90-106. -/
def typeInfo (te : TypeEnv) (isList : Bool) (ty : ElemTy) : Str :=
  if isList then "(\\fIList\\fP of \\fI".toList ++ te.typeName ty ++ "\\fP)".toList
  else "(\\fI".toList ++ te.typeName ty ++ "\\fP)".toList

/-! ### Font commands -/

/-- What happens at `++it; assert(it != str.end()); if (*it ...)` behind the last character: the assertion fails, or,
if it is compiled away, the iterator behind the end is dereferenced and incremented. -/
def endReached (ndebug : Bool) : Exn := if ndebug then .undefinedBehaviour else .assertFailed

/-- Prepends to a result. -/
def prependTo (pre : Str) : Except Exn Str → Except Exn Str
  | .ok s => .ok (pre ++ s)
  | .error e => .error e

/-- ANSI escape sequences, format_help.hpp lines 242, 247, 252. -/
def ansi (tty : Bool) (c : Char) : Str := if tty then ['\x1b', '[', c, 'm'] else []

/-- `to_text`, format_help.hpp lines 220-273. `tty` is `stdout_is_terminal()`. -/
def toText (ndebug tty : Bool) : Str → Except Exn Str
  | [] => .ok []
  | c :: s =>
    if c ≠ '\\' then prependTo [c] (toText ndebug tty s)
    else match s with
      | [] => .error (endReached ndebug)
      | d :: s =>
        if d = '-' then prependTo ['-'] (toText ndebug tty s)
        else if d = 'f' then
          match s with
          | [] => .error (endReached ndebug)
          | e :: s =>
            if e = 'I' then prependTo (ansi tty '4') (toText ndebug tty s)
            else if e = 'B' then prependTo (ansi tty '1') (toText ndebug tty s)
            else if e = 'P' then prependTo (ansi tty '0') (toText ndebug tty s)
            else prependTo ['\\', 'f', e] (toText ndebug tty s)
        else prependTo ['\\', d] (toText ndebug tty s)

/-- `text_width`, format_help.hpp lines 279-321. Simplification: a natural number instead of `unsigned`. -/
def textWidth : Str → Nat
  | [] => 0
  | c :: s =>
    if c ≠ '\\' then 1 + textWidth s
    else match s with
      | [] => 1
      | d :: s' =>
        if d = '\\' ∨ d = '-' then 1 + textWidth s'
        else match s' with
          | [] => 2
          | e :: s'' =>
            if d = 'f' then
              if e = 'B' ∨ e = 'I' ∨ e = 'P' then textWidth s''
              else 1 + textWidth (d :: e :: s'')
            else textWidth (d :: e :: s'')

/-- `to_html`, format_html.hpp lines 173-231. `tags` is the stack `open_tags`. The text is not escaped: the loop
runs over `input`, the escaped copy `buffer` (line 175) is never used. -/
def toHtmlFrom (ndebug : Bool) (tags : List Str) : Str → Except Exn Str
  | [] => .ok []
  | c :: s =>
    if c ≠ '\\' then prependTo [c] (toHtmlFrom ndebug tags s)
    else match s with
      | [] => .error (endReached ndebug)
      | d :: s =>
        if d = '-' then prependTo ['-'] (toHtmlFrom ndebug tags s)
        else if d = 'f' then
          match s with
          | [] => .error (endReached ndebug)
          | e :: s =>
            if e = 'I' then prependTo "<em>".toList (toHtmlFrom ndebug ("em".toList :: tags) s)
            else if e = 'B' then prependTo "<strong>".toList (toHtmlFrom ndebug ("strong".toList :: tags) s)
            else if e = 'P' then
              match tags with
              | [] => .error (endReached ndebug)
              | t :: tags => prependTo ("</".toList ++ t ++ ">".toList) (toHtmlFrom ndebug tags s)
            else prependTo ['\\', 'f', e] (toHtmlFrom ndebug tags s)
        else prependTo ['\\', d] (toHtmlFrom ndebug tags s)

/-- `to_html`, format_html.hpp lines 173-231: the stack is empty at first. -/
def toHtml (ndebug : Bool) (s : Str) : Except Exn Str := toHtmlFrom ndebug [] s

/-! ### Words -/

/-- `std::isspace` of the C locale. -/
def isSpace (c : Char) : Bool :=
  c == ' ' || c == '\t' || c == '\n' || c == '\x0b' || c == '\x0c' || c == '\r'

/-- Extraction of words with `operator>>`: `cur` is the word being read. -/
def wordsFrom (cur : Str) : Str → List Str
  | [] => if cur = [] then [] else [cur]
  | c :: s =>
    if isSpace c then (if cur = [] then wordsFrom [] s else cur :: wordsFrom [] s)
    else wordsFrom (cur ++ [c]) s

/-- The tokens of format_help.hpp lines 333-334. The stream is built from `text.c_str()`, so the text ends at its
first zero character. -/
def words (text : Str) : List Str := wordsFrom [] (text.takeWhile (fun c => c ≠ '\x00'))

/-- `std::toupper` of the C locale. -/
def upperChar (c : Char) : Char :=
  if 'a'.toNat ≤ c.toNat ∧ c.toNat ≤ 'z'.toNat then Char.ofNat (c.toNat - 32) else c

end Sharg
