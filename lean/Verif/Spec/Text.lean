import Verif.Model.Base

/-!
# Specification: texts

Words, layout, markup, quoting and XML entities, independent of the model's functions.
-/

namespace Sharg.Spec

/-! ### XML -/

/-- The five predefined entities of XML. -/
def entities : List (Str × Char) :=
  [("&quot;".toList, '"'), ("&apos;".toList, '\''), ("&amp;".toList, '&'), ("&lt;".toList, '<'), ("&gt;".toList, '>')]

/-- `plain` is the text that an XML processor reads from `coded`. -/
inductive XmlDecodes : Str → Str → Prop
  | nil : XmlDecodes [] []
  | char {c s t} : c ≠ '&' → XmlDecodes s t → XmlDecodes (c :: s) (c :: t)
  | entity {e c s t} : (e, c) ∈ entities → XmlDecodes s t → XmlDecodes (e ++ s) (c :: t)

/-! ### Flag groups -/

/-- Texts joined with a separator. -/
def joined (sep : Str) : List Str → Str
  | [] => []
  | [x] => x
  | x :: y :: l => x ++ sep ++ joined sep (y :: l)

/-- The documented list of flags: "-a, -g, -d and -g" (format_base.hpp line 165). -/
def documentedFlagList (flags : Str) (last : Char) : Str :=
  joined ", ".toList (flags.map fun c => ['-', c]) ++ " and ".toList ++ ['-', last]

/-! ### Words and lines -/

/-- The six blanks of the C locale. -/
def blank : List Char := [' ', '\t', '\n', '\x0b', '\x0c', '\r']

/-- `ws` are the words of the text: the maximal parts without blanks. -/
inductive Words : Str → List Str → Prop
  | none {g} : (∀ c ∈ g, c ∈ blank) → Words g []
  | word {g w s ws} : (∀ c ∈ g, c ∈ blank) → w ≠ [] → (∀ c ∈ w, c ∉ blank) →
      (∀ c, s.head? = some c → c ∈ blank) → Words s ws → Words (g ++ w ++ s) (w :: ws)

/-- The lines of a text: the parts between line feeds. -/
def lines : Str → List Str
  | [] => [[]]
  | c :: s => if c = '\n' then [] :: lines s else
    match lines s with
    | [] => [[c]]
    | l :: ls => (c :: l) :: ls

/-- The pieces occur in the text, in this order, without overlapping. -/
inductive InOrder : List Str → Str → Prop
  | nil (s) : InOrder [] s
  | cons (gap) {p ps s} : InOrder ps s → InOrder (p :: ps) (gap ++ p ++ s)

/-- Columns taken by the words on one line, one blank between two of them. -/
def lineWidth (l : List Str) : Nat := (joined [' '] l).length

/-- The words are broken into lines behind an indentation of `tab` columns, on a screen with `screen` columns: nothing
is lost or reordered, no line is wider than the screen unless it is one single word, and a line is only ended if the
next word would not have fitted. -/
structure Wrapped (tab screen : Nat) (ws : List Str) (ls : List (List Str)) : Prop where
  all : ls.flatten = ws
  nonempty : ∀ l ∈ ls, l ≠ []
  fits : ∀ l ∈ ls, tab + lineWidth l ≤ screen ∨ ∃ w, l = [w]
  full : ∀ a l w r b, ls = a ++ l :: (w :: r) :: b → screen < tab + lineWidth l + 1 + w.length

/-- Lines put below each other, the lines after the first one indented. -/
def indented (tab : Nat) (ls : List Str) : Str := joined ('\n' :: List.replicate tab ' ') ls

/-! ### Markup

The font commands of man pages: `\fB`, `\fI`, `\fP`; and `\-` for a dash. -/

/-- Marked up text and the characters a terminal without formatting shows for it. A backslash starts `\-`, a font
command, or an unknown font command (`\f` and a character other than `B`, `I`, `P` and backslash, shown as it is). -/
inductive Marked : Str → Str → Prop
  | nil : Marked [] []
  | char {c s t} : c ≠ '\\' → Marked s t → Marked (c :: s) (c :: t)
  | dash {s t} : Marked s t → Marked ('\\' :: '-' :: s) ('-' :: t)
  | font {c s t} : c ∈ ['B', 'I', 'P'] → Marked s t → Marked ('\\' :: 'f' :: c :: s) t
  | unknown {c s t} : c ∉ ['B', 'I', 'P', '\\'] → Marked s t →
      Marked ('\\' :: 'f' :: c :: s) ('\\' :: 'f' :: c :: t)

/-- What a terminal shows: colour and font sequences (escape, `[`, a digit, `m`) take no space. -/
inductive Terminal : Str → Str → Prop
  | nil : Terminal [] []
  | char {c s t} : c ≠ '\x1b' → Terminal s t → Terminal (c :: s) (c :: t)
  | sequence {d s t} : d.isDigit → Terminal s t → Terminal ('\x1b' :: '[' :: d :: 'm' :: s) t

/-- No backslash sequence is cut off: a backslash is followed by a character, `\f` by two. -/
inductive Complete : Str → Prop
  | nil : Complete []
  | char {c s} : c ≠ '\\' → Complete s → Complete (c :: s)
  | escape {c s} : c ≠ 'f' → Complete s → Complete ('\\' :: c :: s)
  | font {c s} : Complete s → Complete ('\\' :: 'f' :: c :: s)

/-- No backslash sequence is cut off by the end of the text, a blank, or a zero character. -/
inductive Uncut : Str → Prop
  | nil : Uncut []
  | char {c s} : c ≠ '\\' → Uncut s → Uncut (c :: s)
  | escape {c s} : c ≠ 'f' → c ≠ '\x00' → c ∉ blank → Uncut s → Uncut ('\\' :: c :: s)
  | font {c s} : c ≠ '\x00' → c ∉ blank → Uncut s → Uncut ('\\' :: 'f' :: c :: s)

/-- Complete, and with `n` fonts already switched on, no `\fP` switches off more fonts than are on. -/
inductive FontsOk : Nat → Str → Prop
  | nil {n} : FontsOk n []
  | char {n c s} : c ≠ '\\' → FontsOk n s → FontsOk n (c :: s)
  | escape {n c s} : c ≠ 'f' → FontsOk n s → FontsOk n ('\\' :: c :: s)
  | on {n c s} : c ∈ ['B', 'I'] → FontsOk (n + 1) s → FontsOk n ('\\' :: 'f' :: c :: s)
  | off {n s} : FontsOk n s → FontsOk (n + 1) ('\\' :: 'f' :: 'P' :: s)
  | unknown {n c s} : c ∉ ['B', 'I', 'P'] → FontsOk n s → FontsOk n ('\\' :: 'f' :: c :: s)

/-- Complete markup with properly nested fonts and without angle brackets. -/
inductive Balanced : Str → Prop
  | nil : Balanced []
  | char {c s} : c ≠ '\\' → c ≠ '<' → c ≠ '>' → Balanced s → Balanced (c :: s)
  | escape {c s} : c ≠ 'f' → c ≠ '<' → c ≠ '>' → Balanced s → Balanced ('\\' :: c :: s)
  | unknown {c s} : c ∉ ['B', 'I', 'P', '<', '>'] → Balanced s → Balanced ('\\' :: 'f' :: c :: s)
  | fonts {c body s} : c ∈ ['B', 'I'] → Balanced body → Balanced s →
      Balanced ('\\' :: 'f' :: c :: (body ++ ('\\' :: 'f' :: 'P' :: s)))

/-! ### HTML -/

/-- Characters of element names here: lower case letters and digits. -/
def tagChars : List Char := "abcdefghijklmnopqrstuvwxyz0123456789".toList

/-- The inside of a start tag: a name, possibly followed by a blank and attributes without angle brackets. -/
def StartTag (name tag : Str) : Prop :=
  name ≠ [] ∧ (∀ c ∈ name, c ∈ tagChars) ∧
    ∃ attrs, tag = name ++ attrs ∧ (∀ c ∈ attrs, c ≠ '<' ∧ c ≠ '>') ∧ (∀ c, attrs.head? = some c → c = ' ')

/-- HTML elements without end tag that occur on the pages. -/
def voidElements : List Str := ["br".toList, "meta".toList]

/-- Properly nested content: text without angle brackets, void elements, and elements whose end tag follows their
properly nested content. -/
inductive WellNested : Str → Prop
  | nil : WellNested []
  | char {c s} : c ≠ '<' → c ≠ '>' → WellNested s → WellNested (c :: s)
  | void {name tag s} : name ∈ voidElements → StartTag name tag → WellNested s →
      WellNested (['<'] ++ tag ++ ['>'] ++ s)
  | element {name tag body s} : name ∉ voidElements → StartTag name tag → WellNested body → WellNested s →
      WellNested (['<'] ++ tag ++ ['>'] ++ body ++ ['<', '/'] ++ name ++ ['>'] ++ s)

end Sharg.Spec
