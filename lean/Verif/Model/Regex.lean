import Verif.Model.PathRegex

/-!
# Patterns

Models what `std::regex` and `std::regex_match` of the C++ standard ([re.grammar], [re.alg.match]) do with the patterns of
`include/sharg/validators.hpp` lines 997-1002, `include/sharg/parser.hpp` line 735 and
`include/sharg/detail/version_check.hpp` lines 76, 93 and 431: the grammar of ECMAScript with the default flags in the
locale "C".

Simplifications: patterns with backreferences, look-ahead, word boundaries, characters given by number, negated escapes or
collating elements inside of brackets, and some patterns on which the implementations of the standard library differ, are
`uncovered`; nothing is said about them. Limits of the implementations (depth of recursion, number of states) are left out.
Groups are only brackets here: `std::regex_match` without a result object does not tell what they matched, and without
backreferences they do not influence whether there is a match. For the same reason greedy and lazy repetitions are equal.
-/

namespace Sharg

/-- A set of characters: those in one of the ranges, or those in none. -/
structure CharSet where
  neg : Bool
  ranges : List (Char × Char)
  deriving DecidableEq, Repr

/-- The character belongs to the set. -/
def CharSet.has (k : CharSet) (c : Char) : Bool :=
  (k.ranges.any fun r => decide (r.1.toNat ≤ c.toNat) && decide (c.toNat ≤ r.2.toNat)) != k.neg

/-- A pattern that was read: the empty text, one character, the beginning (`^`), the end (`$`), one behind the other,
alternatives, and repetition. -/
inductive Re where
  | eps
  | set (k : CharSet)
  | first
  | last
  | seq (a b : Re)
  | alt (a b : Re)
  | many (a : Re)
  deriving DecidableEq, Repr

/-! ### Reading a pattern -/

/-- Why a pattern was not read: `std::regex` throws `std::regex_error`, or the pattern is not covered by this model. -/
inductive PatternFault where
  | malformed
  | uncovered
  deriving DecidableEq, Repr

/-- Result of reading a part of a pattern: what was read, and the rest. -/
abbrev Reading (α : Type) := Except PatternFault (α × Str)

/-- One single character. -/
def single (c : Char) : CharSet := ⟨false, [(c, c)]⟩

/-- Named classes of characters in brackets, in the locale "C". -/
def classNames : List (Str × List (Char × Char)) :=
  [("digit".toList, [('0', '9')]), ("lower".toList, [('a', 'z')]), ("upper".toList, [('A', 'Z')]),
   ("alpha".toList, [('a', 'z'), ('A', 'Z')]), ("alnum".toList, [('0', '9'), ('a', 'z'), ('A', 'Z')]),
   ("xdigit".toList, [('0', '9'), ('a', 'f'), ('A', 'F')]), ("space".toList, [(' ', ' '), ('\t', '\r')])]

/-- Letters, digits and the underscore. -/
def wordRanges : List (Char × Char) := [('a', 'z'), ('A', 'Z'), ('0', '9'), ('_', '_')]

/-- What a backslash and this character stand for: classes, control characters, or the character itself if it is neither a
letter nor a digit nor an underscore. -/
def escapeSet (c : Char) : Option CharSet :=
  if c = 'd' then some ⟨false, [('0', '9')]⟩
  else if c = 'D' then some ⟨true, [('0', '9')]⟩
  else if c = 'w' then some ⟨false, wordRanges⟩
  else if c = 'W' then some ⟨true, wordRanges⟩
  else if c = 's' then some ⟨false, [(' ', ' '), ('\t', '\r')]⟩
  else if c = 'S' then some ⟨true, [(' ', ' '), ('\t', '\r')]⟩
  else if c = 't' then some (single '\t')
  else if c = 'n' then some (single '\n')
  else if c = 'v' then some (single '\x0b')
  else if c = 'f' then some (single '\x0c')
  else if c = 'r' then some (single '\r')
  else if CharSet.has ⟨false, wordRanges⟩ c then none
  else some (single c)

/-- A named class behind `[`, with the rest of the pattern. -/
def classNameOf (s : Str) : List (Str × List (Char × Char)) → Option (List (Char × Char) × Str)
  | [] => none
  | (n, rs) :: l =>
    if (":".toList ++ n ++ ":]".toList).isPrefixOf s then some (rs, s.drop (n.length + 3)) else classNameOf s l

/-- Characters that do not stand for themselves in brackets. -/
def bracketSpecial : List Char := [']', '-', '[', '\\']

/-- The elements of a bracket expression up to its end. -/
def readItems : Nat → Str → Reading (List (Char × Char))
  | 0, _ => .error .uncovered
  | _ + 1, [] => .error .malformed
  | n + 1, c :: s =>
    if c = ']' then .ok ([], s)
    else if c = '-' then
      match s with
      | [] => .error .malformed
      | d :: s' => if d = ']' then .ok ([('-', '-')], s') else .error .uncovered
    else if c = '[' then
      match classNameOf s classNames with
      | none => .error .uncovered
      | some (rs, s') =>
        match readItems n s' with
        | .error e => .error e
        | .ok (l, r) => .ok (rs ++ l, r)
    else if c = '\\' then
      match s with
      | [] => .error .malformed
      | d :: s' =>
        match escapeSet d with
        | none => .error .uncovered
        | some k =>
          if k.neg then .error .uncovered
          else
            match readItems n s' with
            | .error e => .error e
            | .ok (l, r) => .ok (k.ranges ++ l, r)
    else if s.head? = some '-' ∧ s.tail.head? ≠ some ']' then
      match s.tail with
      | [] => .error .malformed
      | b :: s' =>
        if b ∈ bracketSpecial then .error .uncovered
        else if c.toNat ≤ b.toNat then
          match readItems n s' with
          | .error e => .error e
          | .ok (l, r) => .ok ((c, b) :: l, r)
        else .error .malformed
    else
      match readItems n s with
      | .error e => .error e
      | .ok (l, r) => .ok ((c, c) :: l, r)

/-- A bracket expression behind `[`. -/
def readBrackets (s : Str) : Reading CharSet :=
  let neg := s.head? = some '^'
  match readItems (s.length + 1) (if neg then s.tail else s) with
  | .error e => .error e
  | .ok (rs, r) => if rs = [] then .error .uncovered else .ok (⟨neg, rs⟩, r)

/-- How often something is repeated: at least, and at most. -/
abbrev Times := Nat × Option Nat

/-- Repetition behind `{`: `n}`, `n,}` or `n,m}`. -/
def readBraces (s : Str) : Reading Times :=
  let ds := s.takeWhile isDigit
  if ds = [] then .error .malformed
  else
    match s.dropWhile isDigit with
    | [] => .error .malformed
    | c :: r =>
      if c = '}' then .ok ((digitsVal ds, some (digitsVal ds)), r)
      else if c = ',' then
        let es := r.takeWhile isDigit
        match r.dropWhile isDigit with
        | [] => .error .malformed
        | d :: r' =>
          if d = '}' then
            if es = [] then .ok ((digitsVal ds, none), r')
            else if digitsVal ds ≤ digitsVal es then .ok ((digitsVal ds, some (digitsVal es)), r')
            else .error .malformed
          else .error .malformed
      else .error .malformed

/-- A question mark behind a repetition makes it lazy. -/
def skipLazy (s : Str) : Str := if s.head? = some '?' then s.tail else s

/-- The repetition behind an atom, if there is one. -/
def readTimes (s : Str) : Reading (Option Times) :=
  match s with
  | [] => .ok (none, [])
  | c :: r =>
    if c = '*' then .ok (some (0, none), skipLazy r)
    else if c = '+' then .ok (some (1, none), skipLazy r)
    else if c = '?' then .ok (some (0, some 1), skipLazy r)
    else if c = '{' then
      match readBraces r with
      | .error e => .error e
      | .ok (t, r') => .ok (some t, skipLazy r')
    else .ok (none, c :: r)

/-- Something `n` times. -/
def Re.power (a : Re) : Nat → Re
  | 0 => .eps
  | n + 1 => .seq a (a.power n)

/-- Something at most `n` times. -/
def Re.atMost (a : Re) : Nat → Re
  | 0 => .eps
  | n + 1 => .alt .eps (.seq a (a.atMost n))

/-- Something repeated, or not. -/
def Re.times (a : Re) : Option Times → Re
  | none => a
  | some (n, none) => .seq (a.power n) (.many a)
  | some (n, some m) => .seq (a.power n) (a.atMost (m - n))

/-- Characters that have a meaning outside of brackets. -/
def patternSpecial : List Char := ['^', '$', '\\', '.', '*', '+', '?', '(', ')', '[', ']', '{', '}', '|']

mutual

/-- Alternatives, up to the end of the pattern or a closing bracket. -/
def readDisjunction : Nat → Str → Reading Re
  | 0, _ => .error .uncovered
  | n + 1, s =>
    match readAlternative n s with
    | .error e => .error e
    | .ok (a, r) =>
      if r.head? = some '|' then
        match readDisjunction n r.tail with
        | .error e => .error e
        | .ok (b, r') => .ok (.alt a b, r')
      else .ok (a, r)

/-- Terms one behind the other. -/
def readAlternative : Nat → Str → Reading Re
  | 0, _ => .error .uncovered
  | n + 1, s =>
    if s = [] ∨ s.head? = some '|' ∨ s.head? = some ')' then .ok (.eps, s)
    else
      match readTerm n s with
      | .error e => .error e
      | .ok (a, r) =>
        match readAlternative n r with
        | .error e => .error e
        | .ok (b, r') => .ok (.seq a b, r')

/-- An assertion, or an atom with its repetition. -/
def readTerm : Nat → Str → Reading Re
  | 0, _ => .error .uncovered
  | _ + 1, [] => .error .malformed
  | n + 1, c :: s =>
    if c = '^' then .ok (.first, s)
    else if c = '$' then .ok (.last, s)
    else
      match readAtom n c s with
      | .error e => .error e
      | .ok (a, r) =>
        match readTimes r with
        | .error e => .error e
        | .ok (t, r') => .ok (a.times t, r')

/-- An atom that begins with `c`. -/
def readAtom : Nat → Char → Str → Reading Re
  | 0, _, _ => .error .uncovered
  | n + 1, c, s =>
    if c = '.' then .ok (.set ⟨true, [('\n', '\n'), ('\r', '\r')]⟩, s)
    else if c = '\\' then
      match s with
      | [] => .error .malformed
      | d :: r =>
        match escapeSet d with
        | none => .error .uncovered
        | some k => .ok (.set k, r)
    else if c = '[' then
      match readBrackets s with
      | .error e => .error e
      | .ok (k, r) => .ok (.set k, r)
    else if c = '(' then
      if s.head? = some '?' ∧ s.tail.head? ≠ some ':' then .error .uncovered
      else
        match readDisjunction n (if s.head? = some '?' then s.drop 2 else s) with
        | .error e => .error e
        | .ok (a, r) => if r.head? = some ')' then .ok (a, r.tail) else .error .malformed
    else if c = ']' ∨ c = '}' then .error .uncovered
    else if c ∈ patternSpecial then .error .malformed
    else .ok (.set (single c), s)

end

/-- The constructor of `std::regex`. -/
def readPattern (p : Str) : Except PatternFault Re :=
  match readDisjunction (4 * p.length + 4) p with
  | .error e => .error e
  | .ok (a, r) => if r = [] then .ok a else .error .malformed

/-! ### Matching -/

/-- No text at all. -/
def Re.none : Re := .set ⟨false, []⟩

/-- The empty text is matched; `start` and `fin` tell whether this is at the beginning and at the end of the whole text. -/
def Re.nullable (start fin : Bool) : Re → Bool
  | .eps => true
  | .set _ => false
  | .first => start
  | .last => fin
  | .seq a b => a.nullable start fin && b.nullable start fin
  | .alt a b => a.nullable start fin || b.nullable start fin
  | .many _ => true

/-- What has to be matched behind the character `c`. -/
def Re.behind (start : Bool) (c : Char) : Re → Re
  | .eps => .none
  | .set k => if k.has c then .eps else .none
  | .first => .none
  | .last => .none
  | .seq a b => .alt (.seq (a.behind start c) b) (if a.nullable start false then b.behind start c else .none)
  | .alt a b => .alt (a.behind start c) (b.behind start c)
  | .many a => .seq (a.behind start c) (.many a)

/-- Matching the rest of the text. -/
def Re.matchFrom (start : Bool) (r : Re) : Str → Bool
  | [] => r.nullable start true
  | c :: s => (r.behind start c).matchFrom false s

/-- `std::regex_match`: the pattern matches the whole text. -/
def Re.matchAll (r : Re) (s : Str) : Bool := r.matchFrom true s

/-- `regex_validator`, validators.hpp lines 975-1040, with the pattern as text. The pattern is read when a value is
validated (line 999). `other` is what the standard library does with patterns that are not covered (`none`: it throws),
`e` stands for `std::regex_error`. -/
def patternValidator {W : Type} (other : Str → Option (Str → Bool)) (e : Exn) (pattern : Str) : Validator W Str :=
  let matched : Option (Str → Bool) :=
    match readPattern pattern with
    | .ok r => some r.matchAll
    | .error .malformed => none
    | .error .uncovered => other pattern
  match matched with
  | some f => regexValidator pattern f
  | none => ⟨fun _ => M.throw e, (regexValidator (W := W) pattern fun _ => false).help⟩

end Sharg
