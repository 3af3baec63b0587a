import Verif.Model.Parser

/-!
# Specification: identifiers, set-up rules, names

States in terms of API calls which calls should be accepted and what a set-up guarantees.
-/

namespace Sharg.Spec

/-- Identifiers reserved for the predefined options: `-h`, `-hh`, `--help`, `--advanced-help`, `--export-help`,
`--version`, `--copyright`. -/
def predefined : List Str :=
  ["h".toList, "hh".toList, "help".toList, "advanced-help".toList, "export-help".toList, "version".toList,
   "copyright".toList]

/-- Letters, digits, `_`, `@`. -/
def IsShortChar (c : Char) : Prop :=
  ('a' ≤ c ∧ c ≤ 'z') ∨ ('A' ≤ c ∧ c ≤ 'Z') ∨ ('0' ≤ c ∧ c ≤ '9') ∨ c = '_' ∨ c = '@'

instance (c : Char) : Decidable (IsShortChar c) := inferInstanceAs (Decidable (_ ∨ _))

/-- A well-formed long identifier: at least two characters, letters, digits, `_`, `@`, `-`, not starting with
`-`. -/
def IsLongId (s : Str) : Prop :=
  2 ≤ s.length ∧ (∀ c ∈ s, IsShortChar c ∨ c = '-') ∧ s.head? ≠ some '-'

instance (s : Str) : Decidable (IsLongId s) := inferInstanceAs (Decidable (_ ∧ _ ∧ _))

/-- The identifiers of a configuration as strings; `'\0'` and `""` mean "not given". -/
def idsOf (cfg : Config) : List Str :=
  (if cfg.short = '\x00' then [] else [[cfg.short]]) ++ (if cfg.long = [] then [] else [cfg.long])

/-- The configuration of an `add_option` or `add_flag` call. -/
def idConfig {W : Type} : Call W → Option Config
  | .addOption cfg _ _ _ _ => some cfg
  | .addFlag cfg _ _ => some cfg
  | _ => none

/-- The identifiers of all options and flags among the calls. -/
def allIds {W : Type} (cs : List (Call W)) : List Str := (cs.filterMap idConfig).flatMap idsOf

/-- The set-up calls of a history that returned normally, in order. -/
def accepted {W : Type} (env : Env W) : List (Action W) → Prog W → List (Call W)
  | [], _ => []
  | .call c :: as, g =>
    match (Action.call c).run env g with
    | (.returned, g') => c :: accepted env as g'
    | (_, g') => accepted env as g'
  | .parse :: as, g => accepted env as (Action.parse.run env g).2

/-- A parser object as constructed by `sharg::parser{...}`. -/
def start {W : Type} (i : Init) (st : Store) (w : W) : Prog W := { parser := mkParser i, store := st, world := w }

/-- The identifiers of a configuration are acceptable if `taken` are in use. -/
def IdsAcceptable (taken : List Str) (cfg : Config) : Prop :=
  (cfg.short ≠ '\x00' ∨ cfg.long ≠ []) ∧
  (cfg.short ≠ '\x00' → IsShortChar cfg.short ∧ [cfg.short] ∉ taken) ∧
  (cfg.long ≠ [] → IsLongId cfg.long ∧ cfg.long ∉ taken)

instance (taken : List Str) (cfg : Config) : Decidable (IdsAcceptable taken cfg) :=
  inferInstanceAs (Decidable (_ ∧ _ ∧ _))

/-- What the acceptance of a call depends on. -/
structure Situation where
  /-- `parse()` was called -/
  parsed : Bool
  /-- identifiers in use -/
  taken : List Str
  /-- the parser has a subcommand -/
  hasSubcommand : Bool
  /-- there is a list positional option -/
  hasPositionalList : Bool

/-- The documented rules: when a set-up call is accepted. -/
def Acceptable {W : Type} (S : Situation) : Call W → Prop
  | .addOption cfg _ _ _ _ =>
    S.parsed = false ∧ IdsAcceptable S.taken cfg ∧ ¬ (cfg.required = true ∧ cfg.defaultMessage ≠ [])
  | .addFlag cfg _ value =>
    S.parsed = false ∧ IdsAcceptable S.taken cfg ∧ cfg.defaultMessage = [] ∧ value = false
  | .addPositionalOption cfg _ _ _ _ =>
    S.parsed = false ∧ idsOf cfg = [] ∧ cfg.advanced = false ∧ cfg.hidden = false ∧ S.hasSubcommand = false ∧
      S.hasPositionalList = false ∧ cfg.defaultMessage = []
  | .addSubcommands _ => True
  | _ => S.parsed = false

/-- The names given to the constructor and to `add_subcommands`. -/
def namesOf {W : Type} : Call W → List Str
  | .addSubcommands ns => ns
  | _ => []

/-- An `add_positional_option` call with a list variable. -/
def isPositionalList {W : Type} : Call W → Bool
  | .addPositionalOption _ _ isList _ _ => isList
  | _ => false

/-- An `add_positional_option` call. -/
def isPositional {W : Type} : Call W → Bool
  | .addPositionalOption _ _ _ _ _ => true
  | _ => false

/-- The situation after the accepted calls `cs` on a parser constructed from `i`. -/
def situation {W : Type} (i : Init) (parsed : Bool) (cs : List (Call W)) : Situation where
  parsed := parsed
  taken := predefined ++ allIds cs
  hasSubcommand := decide (i.subcommands ++ cs.flatMap namesOf ≠ [])
  hasPositionalList := cs.any isPositionalList

/-- `s` precedes `t` in the dictionary order of code points: a proper prefix, or smaller at the first
difference. -/
def StrBefore (s t : Str) : Prop :=
  (∃ c r, t = s ++ c :: r) ∨ ∃ u a b s' t', s = u ++ a :: s' ∧ t = u ++ b :: t' ∧ a < b

/-- A clean name: non-empty, letters, digits, `_`, `-`. -/
def CleanName (s : Str) : Prop :=
  s ≠ [] ∧ ∀ c ∈ s, ('a' ≤ c ∧ c ≤ 'z') ∨ ('A' ≤ c ∧ c ≤ 'Z') ∨ ('0' ≤ c ∧ c ≤ '9') ∨ c = '_' ∨ c = '-'

instance (s : Str) : Decidable (CleanName s) := inferInstanceAs (Decidable (_ ∧ _))

/-- What a program observes of a history: how each action ended, and the variables and the world at the end. -/
def observe {W : Type} (env : Env W) : List (Action W) → Prog W → List Outcome × Store × W
  | [], g => ([], g.store, g.world)
  | a :: as, g =>
    let r := observe env as (a.run env g).2
    ((a.run env g).1 :: r.1, r.2)

/-- An action of a history uses none of the identifiers `l`. -/
def Avoids {W : Type} (l : List Str) : Action W → Prop
  | .call c => ∀ cfg, idConfig c = some cfg → ∀ s ∈ idsOf cfg, s ∉ l
  | .parse => True

/-- The printed pages do not depend on the set of used identifiers (true for all pages of the library). -/
def PagesIgnoreUsedIds {W : Type} (env : Env W) : Prop :=
  ∀ f (p : Parser W) u st w, env.printPage f { p with usedIds := u } st w = env.printPage f p st w

/-- `SubChain env i ns j`: starting with a parser constructed from `i`, a program can descend through the
subcommands `ns` to a sub-parser constructed from `j`: at each level it performs any actions, then calls
`get_sub_parser`. -/
inductive SubChain {W : Type} (env : Env W) : Init → List Str → Init → Prop where
  | refl (i : Init) : SubChain env i [] i
  | step {i j k : Init} {ns : List Str} (s : Str) (rest : List Str) (as : List (Action W)) (st : Store) (w : W) :
      SubChain env i ns j → getSubParser (runActions env as (start j st w)).parser = .ok k →
      k.arguments = s :: rest → SubChain env i (ns ++ [s]) k

end Sharg.Spec
