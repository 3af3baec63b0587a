import Verif.Spec.Version

/-!
# How a shell reads a command

The part of the POSIX shell language (XCU chapter 2) without quotes, expansions, comments and groups: words, the separators `;`, `&`
and `|`, and redirections of output.
-/

namespace Sharg.Spec

/-- Characters without a meaning of their own. -/
def ShellPlain (c : Char) : Prop := Harmless c ∨ c ∈ ['/', ':', '=', ',', '+', '@', '%']

instance (c : Char) : Decidable (Harmless c) := by unfold Harmless; infer_instance

instance (c : Char) : Decidable (ShellPlain c) := by unfold ShellPlain; infer_instance

/-- The pieces of a command: words, the ends of commands, redirections to a file and duplications of a descriptor. -/
inductive ShellToken where
  | word (w : Str)
  | separator
  | redirect (fd : Str)
  | duplicate (fd : Str)
  deriving DecidableEq

/-- A word that has been read, if there is one. -/
def endOfWord (cur : Str) : List ShellToken := if cur = [] then [] else [.word cur]

/-- A word in front of `>`: if it is a number, it is the descriptor. -/
def beforeRedirect (cur : Str) : List ShellToken × Str :=
  if cur ≠ [] ∧ ∀ c ∈ cur, c ∈ digits then ([], cur) else (endOfWord cur, ['1'])

/-- The pieces of a text, behind the beginning `cur` of a word. `none` if there is a character that is not described here. -/
def shellTokens : Str → Str → Option (List ShellToken)
  | cur, [] => some (endOfWord cur)
  | cur, ' ' :: r => (shellTokens [] r).map (endOfWord cur ++ ·)
  | cur, ';' :: r => (shellTokens [] r).map (endOfWord cur ++ .separator :: ·)
  | cur, '&' :: r => (shellTokens [] r).map (endOfWord cur ++ .separator :: ·)
  | cur, '|' :: r => (shellTokens [] r).map (endOfWord cur ++ .separator :: ·)
  | cur, '>' :: '&' :: r => (shellTokens [] r).map ((beforeRedirect cur).1 ++ .duplicate (beforeRedirect cur).2 :: ·)
  | cur, '>' :: r => (shellTokens [] r).map ((beforeRedirect cur).1 ++ .redirect (beforeRedirect cur).2 :: ·)
  | cur, c :: r => if ShellPlain c then shellTokens (cur ++ [c]) r else none

/-- A command: its name and arguments, and where its output goes. -/
structure ShellCommand where
  words : List Str
  files : List (Str × Str)
  copies : List (Str × Str)
  deriving DecidableEq

/-- The commands that the pieces describe, behind the beginning `c` of a command. -/
def shellCommands : ShellCommand → List ShellToken → Option (List ShellCommand)
  | c, [] => some (if c = ⟨[], [], []⟩ then [] else [c])
  | c, .word w :: ts => shellCommands { c with words := c.words ++ [w] } ts
  | c, .separator :: ts => (shellCommands ⟨[], [], []⟩ ts).map ((if c = ⟨[], [], []⟩ then [] else [c]) ++ ·)
  | c, .redirect fd :: .word w :: ts => shellCommands { c with files := c.files ++ [(fd, w)] } ts
  | c, .duplicate fd :: .word w :: ts => shellCommands { c with copies := c.copies ++ [(fd, w)] } ts
  | _, .redirect _ :: _ => none
  | _, .duplicate _ :: _ => none

/-- The commands that a shell runs for a text, if it is described here. -/
def shellReads (text : Str) : Option (List ShellCommand) := (shellTokens [] text).bind (shellCommands ⟨[], [], []⟩)

end Sharg.Spec
