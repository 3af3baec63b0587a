import Verif.Spec.Files
import Verif.Spec.Values
import Verif.Spec.TimeStamp
import Verif.Model.System

/-!
# Specification of the version check

Nothing here uses the functions of `Model/VersionCheck.lean`.
-/

namespace Sharg.Spec

/-! ### Who decides -/

/-- What a cookie (time stamp file) that can be read says: whether it is younger than a day, and its message. -/
structure Cookie where
  young : Bool
  message : Str

/-- The documented table: `Decides developer environment user cookie answer result`. `developer` tells that notifications
are on, `environment` that `SHARG_NO_VERSION_CHECK` is set, `user` is the value of `--version-check`, `cookie` is there if it
could be read, `answer` is the first character of the answer if the question can be asked. -/
inductive Decides : Bool → Bool → Option Bool → Option Cookie → Option Char → Bool → Prop
  | developer {e u c a} : Decides false e u c a false
  | environment {u c a} : Decides true true u c a false
  | user {b c a} : Decides true false (some b) c a b
  | young {m a} : Decides true false none (some ⟨true, m⟩) a false
  | never {a} : Decides true false none (some ⟨false, "NEVER".toList⟩) a false
  | always {a} : Decides true false none (some ⟨false, "ALWAYS".toList⟩) a true
  | asked {c a b} : (∀ k ∈ c, k.young = false ∧ k.message ≠ "NEVER".toList ∧ k.message ≠ "ALWAYS".toList) →
      (b = true ↔ a = 'y' ∨ a = 'a') → Decides true false none c (some a) b
  | silent {c} : (∀ k ∈ c, k.young = false ∧ k.message ≠ "NEVER".toList ∧ k.message ≠ "ALWAYS".toList) →
      Decides true false none c none false

/-- The question is left to the user: nobody and nothing else decided. -/
def Open (developer environment : Bool) (user : Option Bool) (cookie : Option Cookie) : Prop :=
  developer = true ∧ environment = false ∧ user = none ∧
    ∀ k ∈ cookie, k.young = false ∧ k.message ≠ "NEVER".toList ∧ k.message ≠ "ALWAYS".toList

/-! ### Cookies -/

/-- `line` is the first line of the text. -/
def FirstLine (text line : Str) : Prop :=
  '\n' ∉ line ∧ (text = line ∨ ∃ more, text = line ++ '\n' :: more)

/-- `line` is the second line of the text, or the first one if the text has only one that is not ended. -/
def LastRead (text line : Str) : Prop :=
  ('\n' ∉ text ∧ line = text) ∨ ∃ first more, '\n' ∉ first ∧ text = first ++ '\n' :: more ∧ FirstLine more line

/-- The text of a cookie says `k` at the time `now`: its message is the second line, and it is young if the time in its first line is less than
a day ago. -/
def CookieSays (now : Nat) (text : Str) (k : Cookie) : Prop :=
  LastRead text k.message ∧ ∀ line, FirstLine text line → now ≤ lastSecond → (k.young = true ↔ Young now line)

/-- The cookie was written at time `t` with message `m`. -/
def IsCookie (text : Str) (t : Nat) (m : Str) : Prop :=
  ∃ d, text = d ++ '\n' :: m ∧ '\n' ∉ m ∧ IsDecimal d ∧ decValue d = t

/-- What can be seen of the cookie `file`; it is looked for only if there is a directory for it. -/
inductive CookieSeen (s : System) (dir file : Str) : Option Cookie → Prop
  | some {text w k} : dir ≠ [] → Reaches s.disk (locOf s.cwd file) (.file text true w) → CookieSays s.clock text k →
      CookieSeen s dir file (some k)
  | none : (dir = [] ∨ ∀ text w, ¬ Reaches s.disk (locOf s.cwd file) (.file text true w)) → CookieSeen s dir file none

/-- The answer, if the question can be asked: the first character of the next line of the input, `s` if there is none. -/
def answer (s : System) : Option Char :=
  if s.stdinTty = true ∧ s.stderrTty = true then
    match s.stdin with
    | [] => some 's'
    | c :: _ => if c = '\n' then some 's' else some c
  else none

/-- The directory of the cookies: `~/.config/seqan`. -/
def seqanDir (cwd : Loc) (home : Str) : Loc := locOf cwd home ++ [".config".toList, "seqan".toList]

/-- The test file `dummy.txt` in a directory. -/
def dummyIn (dir : Loc) : Loc := dir ++ ["dummy.txt".toList]

/-- The directory of the cookies is there and can be used, and nothing is in the way of the test file. -/
structure Usable (s : System) (h : Str) : Prop where
  home : s.home = some h
  seqan : ∃ r, Reaches s.disk (seqanDir s.cwd h) (.dir r true true)
  dummy : ∀ n, s.disk.node? (dummyIn (seqanDir s.cwd h)) = some n → ∃ c r, n = .file c r true

/-- The name of the cookie of an app. Release and debug builds have different ones. -/
def cookieName (release : Bool) (name : Str) : Str :=
  name ++ (if release then "_usr.timestamp".toList else "_dev.timestamp".toList)

/-- The place of a cookie. -/
def cookieLoc (s : System) (h : Str) (cookie : Str) : Loc := seqanDir s.cwd h ++ [cookie]

/-- The user said never: there is a cookie in the usable directory `~/.config/seqan`, and its last word is NEVER. -/
def SaidNever (h cookie : Str) (s : System) : Prop :=
  Usable s h ∧ ∃ text w, Reaches s.disk (cookieLoc s h cookie) (.file text true w) ∧ LastRead text "NEVER".toList

/-- The cookie says that the user was asked at time `t` or later (and in the next 285 million years), and it does not say ALWAYS. -/
def AskedSince (h cookie : Str) (t : Nat) (s : System) : Prop :=
  Usable s h ∧ ∃ text t' m, Reaches s.disk (cookieLoc s h cookie) (.file text true true) ∧ IsCookie text t' m ∧ t ≤ t' ∧
    t' ≤ lastSecond ∧ m ≠ "ALWAYS".toList

/-- The cookie in the usable directory `~/.config/seqan` contains `text`. -/
def CookieIs (h cookie text : Str) (s : System) : Prop :=
  Usable s h ∧ ∃ w, Reaches s.disk (cookieLoc s h cookie) (.file text true w)

/-- The cookie can be written, and if there is one already, it can be read. -/
def CookieWritable (h cookie : Str) (s : System) : Prop :=
  s.disk.node? (cookieLoc s h cookie) = none ∨ ∃ text, Reaches s.disk (cookieLoc s h cookie) (.file text true true)

/-! ### Versions -/

/-- `s` is the version `x.y.z`: three decimal numbers. -/
def IsVersion (s : Str) (v : Nat × Nat × Nat) : Prop :=
  ∃ a b c, s = a ++ '.' :: b ++ '.' :: c ∧ (IsDecimal a ∧ IsDecimal b ∧ IsDecimal c) ∧
    v = (decValue a, decValue b, decValue c)

/-- The first version is smaller: the leftmost number in which they differ is smaller. -/
def Older (v w : Nat × Nat × Nat) : Prop :=
  v.1 < w.1 ∨ (v.1 = w.1 ∧ (v.2.1 < w.2.1 ∨ (v.2.1 = w.2.1 ∧ v.2.2 < w.2.2)))

/-- Letters, digits, `_`, `-` and `.`. -/
def Harmless (c : Char) : Prop :=
  ('a' ≤ c ∧ c ≤ 'z') ∨ ('A' ≤ c ∧ c ≤ 'Z') ∨ ('0' ≤ c ∧ c ≤ '9') ∨ c = '_' ∨ c = '-' ∨ c = '.'

/-- The version in front of a text; 0.0.0 if there is none. -/
def VersionInFront (text : Str) (v : Nat × Nat × Nat) : Prop :=
  (∃ s rest, text = s ++ rest ∧ IsVersion s v ∧ ∀ c, rest.head? = some c → c ∉ digits) ∨
  (v = (0, 0, 0) ∧ ∀ s rest w, text = s ++ rest → ¬ IsVersion s w)

/-- All numbers fit into an `int`. -/
def Small (v : Nat × Nat × Nat) : Prop := v.1 < 2 ^ 31 ∧ v.2.1 < 2 ^ 31 ∧ v.2.2 < 2 ^ 31

/-! ### What switching it off leaves -/

/-- The directories that may be created: `~/.config` and `~/.config/seqan`. -/
def cookieDirs (s : System) : List Loc :=
  match s.home with
  | none => []
  | some h => [locOf s.cwd h ++ [".config".toList], seqanDir s.cwd h]

/-- The test files that may be overwritten and removed: `dummy.txt` in `~/.config/seqan` and in the directory for temporary
files. -/
def testFiles (s : System) : List Loc :=
  match s.home with
  | none => []
  | some h => dummyIn (seqanDir s.cwd h) :: (s.tempDir.map fun t => dummyIn (locOf s.cwd t)).toList

/-- The disk `d` differs from that of `s` only in the directories and test files above: directories may be new, test files may
be gone. -/
def OnlyTestFiles (s : System) (d : Disk) : Prop :=
  ∀ q, (∃ f ∈ testFiles s, f <+: q) ∨ d.node? q = s.disk.node? q ∨
    (s.disk.node? q = none ∧ d.node? q = some (.dir true true true) ∧ q ∈ cookieDirs s)

/-! ### Update messages -/

/-- The version file of the app in a directory says that there is a new version: its first line is a version, it is not
0.0.0, and the version in front of the text `version` is smaller. -/
def UpdateKnown (s : System) (dir name version : Str) : Prop :=
  ∃ text w line v own, Reaches s.disk (locOf s.cwd (pathJoin dir (name ++ ".version".toList))) (.file text true w) ∧
    FirstLine text line ∧ IsVersion line v ∧ v ≠ (0, 0, 0) ∧ VersionInFront version own ∧ Older own v

end Sharg.Spec
