import Verif.Model.ErrorTexts
import Verif.Spec.Account
import Verif.Spec.Setup
import Verif.Spec.Text

/-!
# Specification: what the text of an exception has to say

Of the model only the declarations (with the texts of validators and types) and the result types are used.
-/

namespace Sharg.Spec

/-- All identifiers of an option, as the user has to write them; a slash in between. -/
inductive FullName {W : Type} (d : OptDecl W) : Str → Prop where
  | short : d.short ≠ '\x00' → d.long = [] → FullName d ['-', d.short]
  | long : d.short = '\x00' → FullName d ('-' :: '-' :: d.long)
  | both : d.short ≠ '\x00' → d.long ≠ [] → FullName d ('-' :: d.short :: '/' :: '-' :: '-' :: d.long)

/-- `a` starts with the identifier `name` in a way that is read as the option: `-k...`, `--key` or `--key=...`. -/
def StartsWith {W : Type} (d : OptDecl W) (name a : Str) : Prop :=
  (name = ['-', d.short] ∧ name <+: a) ∨ (name = '-' :: '-' :: d.long ∧ (a = name ∨ name ++ ['='] <+: a))

/-- The text `v` is written as value of the identifier `name` among the arguments `l`: `-kV` (short only), `name=V` or
`name V`. -/
def ValueWritten {W : Type} (d : OptDecl W) (name v : Str) (l : List Str) : Prop :=
  ∃ front a rest, l = front ++ a :: rest ∧
    ((v ≠ [] ∧ a = name ++ '=' :: v) ∨ (v ≠ [] ∧ v.head? ≠ some '=' ∧ name = ['-', d.short] ∧ a = name ++ v) ∨
     (a = name ∧ rest.head? = some v))

/-- The identifier `name` is followed by an argument that was used by another option (or as part of one) before: the value
is the empty text, which nobody wrote. -/
def ValueUsedUp (name v : Str) (l : List Str) : Prop :=
  v = [] ∧ ∃ front u rest, l = front ++ name :: u :: rest ∧ u ≠ []

/-- No value is written behind the identifier: it is the last argument, or ends in `=`. -/
def ValueMissing (name : Str) (l : List Str) : Prop := (∃ front, l = front ++ [name]) ∨ name ++ ['='] ∈ l

/-- A number in decimal. -/
def NumberText (n : Nat) (t : Str) : Prop := IsDecimal t ∧ decValue t = n

/-- The names of an enumeration with their values, each name once (the first entry counts), by value and then by name. -/
structure EnumListing (names ps : List (Str × Int)) : Prop where
  mem : ∀ p, p ∈ ps ↔ ∃ before after, names = before ++ p :: after ∧ ∀ q ∈ before, q.1 ≠ p.1
  sorted : ps.Pairwise fun p q => p.2 < q.2 ∨ (p.2 = q.2 ∧ StrBefore p.1 q.1)

/-- The text `t` explains why `v` is not a value of the type; `name` is what the option is called. -/
inductive Unreadable (wd : Wording) (isList : Bool) (ty : ElemTy) (name v : Str) : Str → Prop where
  | notAValue : (∀ e, ¬ Denotes ty v e) → ¬ OutOfRange ty v → (∀ names, ty ≠ .enumeration names) →
      Unreadable wd isList ty name v ("Value parse failed for ".toList ++ name ++ ": Argument ".toList ++ v
        ++ " could not be parsed as type ".toList ++ wd.typeName isList ty ++ ".".toList)
  | integerRange (lo hi : Int) (los his : Str) : ty = .integer lo hi → OutOfRange ty v → isList = false →
      DenotesInt lo lo los lo → DenotesInt (min 0 hi) hi his hi →
      Unreadable wd isList ty name v ("Value parse failed for ".toList ++ name ++ ": Numeric argument ".toList ++ v
        ++ " is not in the valid range [".toList ++ los ++ ",".toList ++ his ++ "].".toList)
  /-- floating point: the lower limit in the text is the smallest positive number -/
  | floatRange (conv : Str → Conv) : ty = .foreign true conv → OutOfRange ty v → isList = false →
      Unreadable wd isList ty name v ("Value parse failed for ".toList ++ name ++ ": Numeric argument ".toList ++ v
        ++ " is not in the valid range [0.000000,".toList ++ wd.maxText ty ++ "].".toList)
  /-- an enumeration: the text does not tell which option it is about -/
  | unknownName (names ps : List (Str × Int)) : ty = .enumeration names → (∀ e, ¬ Denotes ty v e) → EnumListing names ps →
      ps ≠ [] → Unreadable wd isList ty name v ("You have chosen an invalid input value: ".toList ++ v
        ++ ". Please use one of: [".toList ++ joined ", ".toList (ps.map Prod.fst) ++ "]".toList)

/-- The hint at the end of the texts about unknown identifiers; `what` is "arguments" or "non-options". -/
def dashHint (what : Str) : Str :=
  ". In case this is meant to be a non-option/argument/parameter, please specify the start of ".toList ++ what
    ++ " with '--'. See -h/--help for program information.".toList

/-- What is left of the arguments when options and flags are taken out: `pre` of those in front of `--`, `post` of those
behind it. -/
structure Leftovers {W : Type} (D : Decls W) (args pre post : List Str) : Prop where
  options : ∃ l, Uses D (before args) l ∧ Pointwise (Becomes D) l pre
  tail : Pointwise (Becomes D) (behind args) post

/-- The text `t` of an exception `e` explains what is wrong with the arguments. -/
inductive Explained {W : Type} (wd : Wording) (D : TDecls W) (args : List Str) : Exn → Str → Prop where
  /-- a text that is not a value of the option's type -/
  | badValue (d : TOptDecl W) (name v t : Str) : d ∈ D.options → Bare d.decl name →
      (ValueWritten d.decl name v (before args) ∨ ValueUsedUp name v (before args)) →
      Unreadable wd d.decl.isList d.decl.ty name v t → Explained wd D args .userInputError t
  /-- an option without value -/
  | noValue (d : TOptDecl W) (name : Str) : d ∈ D.options → Bare d.decl name → ValueMissing name (before args) →
      Explained wd D args .tooFewArguments ("Missing value for option ".toList ++ name)
  /-- the same identifier twice -/
  | twice (d : TOptDecl W) (name a b : Str) (l₁ l₂ l₃ : List Str) : d ∈ D.options → d.decl.isList = false →
      Bare d.decl name → before args = l₁ ++ a :: l₂ ++ b :: l₃ → StartsWith d.decl name a → StartsWith d.decl name b →
      Explained wd D args .optionDeclaredMultipleTimes
        ("Option ".toList ++ name ++ " is no list/container but declared multiple times.".toList)
  /-- both identifiers -/
  | shortAndLong (d : TOptDecl W) (a b name : Str) : d ∈ D.options → d.decl.isList = false → d.decl.short ≠ '\x00' →
      d.decl.long ≠ [] → a ∈ before args → StartsWith d.decl ['-', d.decl.short] a →
      b ∈ before args → StartsWith d.decl ('-' :: '-' :: d.decl.long) b → FullName d.decl name →
      Explained wd D args .optionDeclaredMultipleTimes
        ("Option ".toList ++ name ++ " is no list/container but specified multiple times".toList)
  /-- the validator rejects the value -/
  | refused (d : TOptDecl W) (name a : Str) (val : Val) (w : W) : d ∈ D.options → FullName d.decl name →
      a ∈ before args → Names d.decl a → (d.decl.validator val w).1 = false →
      Explained wd D args .validationError ("Validation failed for option ".toList ++ name ++ ": ".toList ++ d.why val w)
  /-- a required option is not there; if the arguments mention it, other options have used these arguments -/
  | notGiven (d : TOptDecl W) (name : Str) (l : List Str) : d ∈ D.options → d.decl.required = true → FullName d.decl name →
      Uses D.forget (before args) l → (∀ a ∈ l, ¬ Names d.decl a) →
      Explained wd D args .requiredOptionMissing ("Option ".toList ++ name ++ " is required but not set.".toList)
  /-- an unknown identifier `-k` or `--key`; flags may have been taken out of the argument -/
  | unknownOption (a b : Str) : b ∈ before args → Becomes D.forget b a →
      (∃ s, a = '-' :: '-' :: s) ∨ (∃ c, c ≠ '-' ∧ a = ['-', c]) →
      Explained wd D args .unknownOption ("Unknown option ".toList ++ a ++ dashHint "non-options".toList)
  /-- a group of unknown flags -/
  | unknownFlags (flags : Str) (last : Char) (b : Str) : b ∈ before args →
      Becomes D.forget b ('-' :: (flags ++ [last])) → flags ≠ [] → flags.head? ≠ some '-' →
      Explained wd D args .unknownOption ("Unknown flags ".toList ++ joined ", ".toList (flags.map fun c => ['-', c])
        ++ "and -".toList ++ [last] ++ dashHint "arguments".toList)
  /-- fewer words than positional options -/
  | tooFewWords (pre post : List Str) (n : Str) : Leftovers D.forget args pre post →
      (nonEmpty (pre ++ post)).length < D.positionals.length → NumberText D.positionals.length n →
      Explained wd D args .tooFewArguments ("Not enough positional arguments provided (Need at least ".toList
        ++ n ++ "). See -h/--help for more information.".toList)
  /-- the `n`-th word is not a value of the positional option that gets it -/
  | badWord (d : TPosDecl W) (pre post : List Str) (n : Nat) (k v t : Str) : d ∈ D.positionals → NumberText (n + 1) k →
      Leftovers D.forget args pre post → (nonEmpty (pre ++ post))[n]? = some v →
      (d.decl.isList = false → D.positionals[n]? = some d) → (d.decl.isList = true → D.positionals.length ≤ n + 1) →
      Unreadable wd d.decl.isList d.decl.ty ("positional option".toList ++ k) v t →
      Explained wd D args .userInputError t
  /-- the validator rejects the value of the `n`-th positional option -/
  | refusedWord (d : TPosDecl W) (n : Nat) (k : Str) (val : Val) (w : W) : D.positionals[n]? = some d →
      d.decl.isList = false → NumberText (n + 1) k → (d.decl.validator val w).1 = false →
      Explained wd D args .validationError
        ("Validation failed for positional option ".toList ++ k ++ ": ".toList ++ d.why val w)
  /-- the validator rejects the list: the number in the text is one more than the number of words -/
  | refusedList (d : TPosDecl W) (pre post : List Str) (k : Str) (val : Val) (w : W) : d ∈ D.positionals →
      d.decl.isList = true → NumberText ((nonEmpty (pre ++ post)).length + 1) k →
      Leftovers D.forget args pre post → (d.decl.validator val w).1 = false →
      Explained wd D args .validationError
        ("Validation failed for positional option ".toList ++ k ++ ": ".toList ++ d.why val w)
  /-- more words than positional options -/
  | tooManyWords (pre post : List Str) : Leftovers D.forget args pre post →
      D.positionals.length < (nonEmpty (pre ++ post)).length → (∀ d ∈ D.positionals, d.decl.isList = false) →
      Explained wd D args .tooManyArguments
        "Too many arguments provided. Please see -h/--help for more information.".toList

/-- The text `t` explains what is wrong with the predefined options or the subcommand; `args` are the arguments behind the
program name. -/
inductive ScanExplained (subs args : List Str) : Exn → Str → Prop where
  /-- the text lists the subcommands, but does not repeat what the user wrote -/
  | unknownSubcommand (a : Str) : a ∈ args → subs ≠ [] → a ∉ subs → a.head? ≠ some '-' →
      ScanExplained subs args .userInputError ("You specified an unknown subcommand! Available subcommands are: [".toList
        ++ joined ", ".toList subs ++ "]. Use -h/--help for more information.".toList)
  | exportNothing : args.getLast? = some "--export-help".toList →
      ScanExplained subs args .tooFewArguments "Option --export-help must be followed by a value.".toList
  | exportUnknown (v : Str) : v ∉ ["html".toList, "man".toList, "ctd".toList, "cwl".toList] →
      (∃ front rest, args = front ++ "--export-help".toList :: v :: rest) ∨ "--export-help=".toList ++ v ∈ args →
      ScanExplained subs args .validationError
        "Validation failed for option --export-help: Value must be one of [html, man, ctd, cwl].".toList
  | checkNothing : args.getLast? = some "--version-check".toList →
      ScanExplained subs args .tooFewArguments "Option --version-check must be followed by a value.".toList
  | checkUnknown (v : Str) : v ∉ ["0".toList, "1".toList, "false".toList, "true".toList] →
      (∃ front rest, args = front ++ "--version-check".toList :: v :: rest) →
      ScanExplained subs args .validationError "Value for option --version-check must be true (1) or false (0).".toList

/-- The text `t` of an exception `e` of `parse()` explains what is wrong. `args` are the arguments that are left to the
parsing of options: those behind the program name without the predefined options. -/
inductive RunExplained {W : Type} (wd : Wording) (D : TDecls W) (p : Parser W) (args : List Str) : Exn → Str → Prop where
  | again : p.parseWasCalled = true →
      RunExplained wd D p args .designError "The function parse() must only be called once!".toList
  | appName : ¬ CleanName p.appName → RunExplained wd D p args .designError
      "The application name must only contain alpha-numeric characters or '_' and '-' (regex: \"^[a-zA-Z0-9_-]+$\").".toList
  | subcommandName (s : Str) : s ∈ p.subcommands → ¬ CleanName s → RunExplained wd D p args .designError
      "The subcommand name must only contain alpha-numeric characters or '_' and '-' (regex: \"^[a-zA-Z0-9_-]+$\").".toList
  | scan {e : Exn} {t : Str} : ScanExplained p.subcommands (p.arguments.drop 1) e t → RunExplained wd D p args e t
  | options {e : Exn} {t : Str} : Explained wd D args e t → RunExplained wd D p args e t

end Sharg.Spec
