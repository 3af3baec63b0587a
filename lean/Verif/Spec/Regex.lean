import Verif.Model.Base

/-!
# Specification: patterns

The grammar of patterns (ECMAScript, as in the C++ standard) together with their meaning. The meaning of a pattern tells
which parts of a text it matches; it also depends on whether the part begins at the beginning and ends at the end of the
text.
-/

namespace Sharg.Spec

/-- Which parts of texts are matched: is the part at the beginning of the text, the part, is it at the end of the text. -/
abbrev Meaning := Bool → Str → Bool → Prop

/-- The empty part. -/
def Meaning.nothing : Meaning := fun _ s _ => s = []

/-- One character with a property. -/
def Meaning.char (P : Char → Prop) : Meaning := fun _ s _ => ∃ c, s = [c] ∧ P c

/-- Here the text begins. -/
def Meaning.begin : Meaning := fun start s _ => s = [] ∧ start = true

/-- Here the text ends. -/
def Meaning.stop : Meaning := fun _ s fin => s = [] ∧ fin = true

/-- One behind the other. -/
def Meaning.followed (A B : Meaning) : Meaning := fun start s fin =>
  ∃ u v, s = u ++ v ∧ A start u (fin && v.isEmpty) ∧ B (start && u.isEmpty) v fin

/-- One or the other. -/
def Meaning.or (A B : Meaning) : Meaning := fun start s fin => A start s fin ∨ B start s fin

/-- A number of times. -/
def Meaning.power (A : Meaning) : Nat → Meaning
  | 0 => .nothing
  | n + 1 => A.followed (A.power n)

/-- At least `n` times, and at most `m` times if there is such a limit. -/
def Meaning.repeated (A : Meaning) (n : Nat) (m : Option Nat) : Meaning := fun start s fin =>
  ∃ k, n ≤ k ∧ (∀ l, m = some l → k ≤ l) ∧ A.power k start s fin

/-! ### Characters -/

/-- The character lies between the two. -/
def Between (a b c : Char) : Prop := a.toNat ≤ c.toNat ∧ c.toNat ≤ b.toNat

def IsDigitChar (c : Char) : Prop := Between '0' '9' c
def IsLower (c : Char) : Prop := Between 'a' 'z' c
def IsUpper (c : Char) : Prop := Between 'A' 'Z' c
def IsSpaceChar (c : Char) : Prop := c = ' ' ∨ Between '\t' '\r' c
def IsWordChar (c : Char) : Prop := IsLower c ∨ IsUpper c ∨ IsDigitChar c ∨ c = '_'

/-- What a character behind a backslash stands for, in brackets and elsewhere. -/
inductive Escape : Char → (Char → Prop) → Prop
  | digit : Escape 'd' IsDigitChar
  | word : Escape 'w' IsWordChar
  | space : Escape 's' IsSpaceChar
  | tab : Escape 't' (· = '\t')
  | newline : Escape 'n' (· = '\n')
  | vertical : Escape 'v' (· = '\x0b')
  | feed : Escape 'f' (· = '\x0c')
  | return : Escape 'r' (· = '\r')
  | itself {c} : ¬ IsWordChar c → Escape c (· = c)

/-- The opposites. -/
inductive NegEscape : Char → (Char → Prop) → Prop
  | digit : NegEscape 'D' fun c => ¬ IsDigitChar c
  | word : NegEscape 'W' fun c => ¬ IsWordChar c
  | space : NegEscape 'S' fun c => ¬ IsSpaceChar c

/-- Classes with a name. -/
inductive Named : Str → (Char → Prop) → Prop
  | digit : Named "digit".toList IsDigitChar
  | lower : Named "lower".toList IsLower
  | upper : Named "upper".toList IsUpper
  | alpha : Named "alpha".toList fun c => IsLower c ∨ IsUpper c
  | alnum : Named "alnum".toList fun c => IsDigitChar c ∨ IsLower c ∨ IsUpper c
  | xdigit : Named "xdigit".toList fun c => IsDigitChar c ∨ Between 'a' 'f' c ∨ Between 'A' 'F' c
  | space : Named "space".toList IsSpaceChar

/-- Stands for itself in brackets. -/
def Ordinary (c : Char) : Prop := c ≠ ']' ∧ c ≠ '-' ∧ c ≠ '[' ∧ c ≠ '\\'

/-- What stands between brackets, and the characters it stands for. A dash may stand at the end. -/
inductive Listed : Str → (Char → Prop) → Prop
  | none : Listed [] fun _ => False
  | dash : Listed ['-'] (· = '-')
  | one {c s P} : Ordinary c → Listed s P → Listed (c :: s) fun d => d = c ∨ P d
  | range {a b s P} : Ordinary a → Ordinary b → a.toNat ≤ b.toNat → Listed s P →
      Listed (a :: '-' :: b :: s) fun d => Between a b d ∨ P d
  | named {n N s P} : Named n N → Listed s P → Listed ("[:".toList ++ n ++ ":]".toList ++ s) fun d => N d ∨ P d
  | escape {c E s P} : Escape c E → Listed s P → Listed ('\\' :: c :: s) fun d => E d ∨ P d

/-! ### Repetitions -/

/-- The number that the digits stand for, read from the left. -/
def number (ds : Str) : Nat := ds.foldl (fun n d => 10 * n + (d.toNat - '0'.toNat)) 0

/-- A number in decimal notation. -/
def IsNumber (ds : Str) : Prop := ds ≠ [] ∧ ∀ d ∈ ds, IsDigitChar d

/-- The signs for repetitions: how often at least and at most. -/
inductive Often : Str → Nat → Option Nat → Prop
  | star : Often ['*'] 0 none
  | plus : Often ['+'] 1 none
  | question : Often ['?'] 0 (some 1)
  | exactly {ds} : IsNumber ds → Often ('{' :: (ds ++ ['}'])) (number ds) (some (number ds))
  | atLeast {ds} : IsNumber ds → Often ('{' :: (ds ++ [',', '}'])) (number ds) none
  | fromTo {ds es} : IsNumber ds → IsNumber es → number ds ≤ number es →
      Often ('{' :: (ds ++ ',' :: (es ++ ['}']))) (number ds) (some (number es))

/-! ### Patterns -/

/-- The kinds of parts of patterns. -/
inductive Kind where
  | disjunction
  | alternative
  | term
  | atom

/-- Has a meaning of its own in patterns. -/
def special : List Char := ['^', '$', '\\', '.', '*', '+', '?', '(', ')', '[', ']', '{', '}', '|']

/-- The patterns and what they mean. -/
inductive Means : Kind → Str → Meaning → Prop
  | only {p A} : Means .alternative p A → Means .disjunction p A
  | either {p A q B} : Means .alternative p A → Means .disjunction q B → Means .disjunction (p ++ '|' :: q) (A.or B)
  | empty : Means .alternative [] .nothing
  | next {p A q B} : Means .term p A → Means .alternative q B → Means .alternative (p ++ q) (A.followed B)
  | begin : Means .term ['^'] .begin
  | stop : Means .term ['$'] .stop
  | once {p A} : Means .atom p A → Means .term p A
  | repeat {p A q n m} : Means .atom p A → Often q n m → Means .term (p ++ q) (A.repeated n m)
  | lazy {p A q n m} : Means .atom p A → Often q n m → Means .term (p ++ q ++ ['?']) (A.repeated n m)
  | char {c} : c ∉ special → Means .atom [c] (.char (· = c))
  | any : Means .atom ['.'] (.char fun c => c ≠ '\n' ∧ c ≠ '\r')
  | escape {c P} : Escape c P → Means .atom ['\\', c] (.char P)
  | negEscape {c P} : NegEscape c P → Means .atom ['\\', c] (.char P)
  | brackets {p P} : Listed p P → p ≠ [] → p.head? ≠ some '^' → Means .atom ('[' :: (p ++ [']'])) (.char P)
  | negBrackets {p P} : Listed p P → p ≠ [] → Means .atom ('[' :: '^' :: (p ++ [']'])) (.char fun c => ¬ P c)
  | group {p A} : Means .disjunction p A → Means .atom ('(' :: (p ++ [')'])) A
  | plainGroup {p A} : Means .disjunction p A → Means .atom ('(' :: '?' :: ':' :: (p ++ [')'])) A

/-- `A` tells which whole texts the pattern `p` matches. -/
def PatternFor (p : Str) (A : Str → Prop) : Prop := ∃ L, Means .disjunction p L ∧ ∀ s, A s ↔ L true s true

end Sharg.Spec
