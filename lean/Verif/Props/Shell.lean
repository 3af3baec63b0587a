import Verif.Spec.Shell
import Verif.Props.Output

/-!
# What the shell makes of the command

C79.
-/

namespace Sharg

open Spec

/-! ### Reading -/

theorem plain_special {c : Char} (h : ShellPlain c) : c ≠ ' ' ∧ c ≠ ';' ∧ c ≠ '&' ∧ c ≠ '|' ∧ c ≠ '>' := by
  refine ⟨?_, ?_, ?_, ?_, ?_⟩ <;> (rintro rfl; revert h; decide)

theorem shellTokens_plain (w cur rest : Str) (h : ∀ c ∈ w, ShellPlain c) : shellTokens cur (w ++ rest) = shellTokens (cur ++ w) rest := by
  induction w generalizing cur with
  | nil => rw [List.nil_append, List.append_nil]
  | cons c w ih =>
    have hc := h c List.mem_cons_self
    obtain ⟨h1, h2, h3, h4, h5⟩ := plain_special hc
    have e : shellTokens cur (c :: (w ++ rest)) = if ShellPlain c then shellTokens (cur ++ [c]) (w ++ rest) else none := by
      rw [shellTokens]
      all_goals first
        | exact h1
        | exact h2
        | exact h3
        | exact h4
        | exact h5
        | (intro r h; exact absurd h h5)
    rw [List.cons_append, e, if_pos hc, ih _ (fun d hd => h d (List.mem_cons_of_mem _ hd)), List.append_assoc, List.singleton_append]

/-- Words, each with a blank behind it. -/
def spaced (ws : List Str) (rest : Str) : Str := ws.foldr (fun w r => w ++ ' ' :: r) rest

/-- A word without special characters. -/
def PlainWord (w : Str) : Prop := w ≠ [] ∧ ∀ c ∈ w, ShellPlain c

theorem endOfWord_some {w : Str} (h : w ≠ []) : endOfWord w = [.word w] := by
  unfold endOfWord; rw [if_neg h]

theorem shellTokens_spaced (ws : List Str) (rest : Str) (h : ∀ w ∈ ws, PlainWord w) :
    shellTokens [] (spaced ws rest) = (shellTokens [] rest).map (ws.map .word ++ ·) := by
  induction ws with
  | nil =>
    show shellTokens [] rest = _
    cases shellTokens [] rest <;> rfl
  | cons w ws ih =>
    obtain ⟨h1, h2⟩ := h w List.mem_cons_self
    show shellTokens [] (w ++ ' ' :: spaced ws rest) = _
    rw [shellTokens_plain w [] _ h2, List.nil_append, shellTokens, endOfWord_some h1, ih fun x hx => h x (List.mem_cons_of_mem _ hx),
      Option.map_map]
    rfl

theorem shellCommands_words (ws : List Str) (c : ShellCommand) (ts : List ShellToken) :
    shellCommands c (ws.map .word ++ ts) = shellCommands { c with words := c.words ++ ws } ts := by
  induction ws generalizing c with
  | nil => rw [List.append_nil]; rfl
  | cons w ws ih =>
    show shellCommands { c with words := c.words ++ [w] } (ws.map .word ++ ts) = _
    rw [ih]
    dsimp only
    rw [List.append_assoc, List.singleton_append]

theorem tokens_end (w : Str) (h : w ≠ []) : shellTokens w " > /dev/null 2>&1".toList =
    some [.word w, .redirect ['1'], .word "/dev/null".toList, .duplicate ['2'], .word ['1']] := by
  have e : shellTokens w " > /dev/null 2>&1".toList = (shellTokens [] "> /dev/null 2>&1".toList).map (endOfWord w ++ ·) := by
    show shellTokens w (' ' :: "> /dev/null 2>&1".toList) = _
    rw [shellTokens]
  rw [e, endOfWord_some h]
  have e2 : shellTokens [] "> /dev/null 2>&1".toList =
    some [.redirect ['1'], .word "/dev/null".toList, .duplicate ['2'], .word ['1']] := by decide +kernel
  rw [e2]
  rfl

/-- The rest of the command, from the address on. -/
def requestUrl (name v : Str) : Str :=
  "https://seqan-update.informatik.uni-tuebingen.de/check/SeqAn-Sharg_Linux_64_".toList ++ name ++ '_' :: v

/-- The words with which a command begins. -/
def fetcherWords : List (List Str) :=
  [["/usr/bin/env".toList, "-i".toList, "wget".toList, "--timeout=10".toList, "--tries=1".toList, "-q".toList, "-O".toList],
   ["/usr/bin/env".toList, "-i".toList, "curl".toList, "--connect-timeout".toList, "10".toList, "-o".toList]]

theorem harmless_plain {w : Str} (h : ∀ c ∈ w, Harmless c) : ∀ c ∈ w, ShellPlain c := fun c hc => Or.inl (h c hc)

theorem plain_append {a b : Str} (ha : ∀ c ∈ a, ShellPlain c) (hb : ∀ c ∈ b, ShellPlain c) : ∀ c ∈ a ++ b, ShellPlain c := by
  intro c hc
  rcases List.mem_append.1 hc with h | h
  · exact ha c h
  · exact hb c h

theorem plain_url {name v : Str} (hn : ∀ c ∈ name, Harmless c) (hv : ∀ c ∈ v, Harmless c) : PlainWord (requestUrl name v) := by
  refine ⟨fun h => ?_, ?_⟩
  · have : (requestUrl name v).length = 0 := by rw [h]; rfl
    unfold requestUrl at this
    simp at this
  unfold requestUrl
  refine plain_append (plain_append (by decide +kernel) (harmless_plain hn)) ?_
  intro c hc
  rcases List.mem_cons.1 hc with rfl | hc
  · decide
  · exact Or.inl (hv c hc)

theorem spaced_front {ws : List Str} {f : Str} (e : f ++ [' '] = spaced ws []) (rest : Str) : f ++ " ".toList ++ rest = spaced ws rest := by
  show f ++ [' '] ++ rest = _
  rw [e]
  unfold spaced
  clear e
  induction ws with
  | nil => rfl
  | cons w ws ih =>
    show (w ++ ' ' :: List.foldr _ [] ws) ++ rest = w ++ ' ' :: List.foldr _ rest ws
    rw [List.append_assoc, List.cons_append, ih]

/-- A request whose path is the text `mid`: the words in front, then `mid`, then the address. -/
theorem request_spaced {dir name v c : Str} (h : IsRequest dir name v c) : ∃ ws ∈ fetcherWords,
    c = spaced ws (pathJoin dir (name ++ ".version".toList) ++ ' ' :: (requestUrl name v ++ " > /dev/null 2>&1".toList)) := by
  obtain ⟨f, hf, rfl⟩ := h
  have shape : ∀ f : Str, f ++ " ".toList ++ pathJoin dir (name ++ ".version".toList) ++ " ".toList ++
    "https://seqan-update.informatik.uni-tuebingen.de/check/SeqAn-Sharg_Linux_64_".toList ++ name ++ "_".toList ++ v ++
    " > /dev/null 2>&1".toList = f ++ " ".toList ++
      (pathJoin dir (name ++ ".version".toList) ++ ' ' :: (requestUrl name v ++ " > /dev/null 2>&1".toList)) := by
    intro f
    unfold requestUrl
    simp only [List.append_assoc, List.cons_append]
    rfl
  rw [shape]
  rcases List.mem_cons.1 hf with rfl | hf
  · exact ⟨_, List.mem_cons_self, spaced_front (by decide +kernel) _⟩
  · rcases List.mem_cons.1 hf with rfl | hf
    · exact ⟨_, List.mem_cons_of_mem _ List.mem_cons_self, spaced_front (by decide +kernel) _⟩
    · cases hf

theorem fetcher_plain : ∀ ws ∈ fetcherWords, ∀ w ∈ ws, PlainWord w := by
  unfold PlainWord
  decide +kernel

/-- The redirections of a request. -/
def silenced (words : List Str) : ShellCommand := ⟨words, [(['1'], "/dev/null".toList)], [(['2'], ['1'])]⟩

theorem reads_spaced (ws : List Str) (u : Str) (hw : ∀ w ∈ ws, PlainWord w) (hu : PlainWord u) :
    (shellTokens [] (spaced ws (u ++ " > /dev/null 2>&1".toList))) =
      some (ws.map .word ++ [.word u, .redirect ['1'], .word "/dev/null".toList, .duplicate ['2'], .word ['1']]) := by
  rw [shellTokens_spaced ws _ hw, shellTokens_plain u [] _ hu.2, List.nil_append, tokens_end u hu.1]
  rfl

theorem reads_one (ws : List Str) (u : Str) (hw : ∀ w ∈ ws, PlainWord w) (hu : PlainWord u) :
    shellReads (spaced ws (u ++ " > /dev/null 2>&1".toList)) = some [silenced (ws ++ [u])] := by
  unfold shellReads
  rw [reads_spaced ws u hw hu]
  show shellCommands ⟨[], [], []⟩ (ws.map .word ++ _) = _
  rw [shellCommands_words]
  show shellCommands ⟨[] ++ ws ++ [u], [] ++ [(['1'], "/dev/null".toList)], [] ++ [(['2'], ['1'])]⟩ [] = _
  rw [shellCommands, if_neg (fun h => by have := congrArg ShellCommand.files h; cases this)]
  rfl

theorem spaced_append (a b : List Str) (rest : Str) : spaced (a ++ b) rest = spaced a (spaced b rest) := by
  unfold spaced; rw [List.foldr_append]

/-! ### Positive -/

/-- C79: if the texts of HOME and of the directory for temporary files have no characters that mean something to a shell, every command
that the version check sends runs one program: `env`, which runs `wget` or `curl`, with fixed options, one path, which is that of the
version file, and one address. Nothing is printed. -/
theorem C79_one_program_partial (i : CheckInput) (notify : Bool) (user : Option Bool) (s : System) (hn : CleanName i.name)
    (hh : ∀ h, s.home = some h → ∀ c ∈ h, ShellPlain c) (ht : ∀ t, s.tempDir = some t → ∀ c ∈ t, ShellPlain c) :
    ∃ new, (runVersionCheck i notify user s).state.commands = s.commands ++ new ∧
      ∀ c ∈ new, ∃ ws ∈ fetcherWords, ∃ dir v,
        (dir = [] ∨ (∃ h, s.home = some h ∧ dir = seqanText h) ∨ s.tempDir = some dir) ∧
        shellReads c = some [silenced (ws ++ [pathJoin dir (i.name ++ ".version".toList), requestUrl i.name v])] := by
  obtain ⟨new, h1, -, h3⟩ := C53_command_parts i notify user s hn
  refine ⟨new, h1, fun c hc => ?_⟩
  obtain ⟨dir, v, n, h4, h5, h6, h7, -⟩ := h3 c hc
  obtain ⟨ws, hw, rfl⟩ := request_spaced h5
  refine ⟨ws, hw, dir, v, h4, ?_⟩
  have join : ∀ {a b : Str}, (∀ c ∈ a, ShellPlain c) → (∀ c ∈ b, ShellPlain c) → ∀ c ∈ pathJoin a b, ShellPlain c := by
    intro a b ha hb
    unfold pathJoin
    split
    · exact plain_append ha hb
    · refine plain_append ha fun c hc => ?_
      rcases List.mem_cons.1 hc with rfl | hc
      · decide
      · exact hb c hc
  have hdir : ∀ c ∈ dir, ShellPlain c := by
    rcases h4 with rfl | ⟨h, e1, rfl⟩ | e
    · intro c hc; cases hc
    · exact join (join (hh h e1) (by decide)) (by decide)
    · exact ht _ e
  have hp : PlainWord (pathJoin dir (i.name ++ ".version".toList)) := by
    refine ⟨?_, join hdir (plain_append (harmless_plain h6) (by decide))⟩
    intro e
    have : (pathJoin dir (i.name ++ ".version".toList)).length = 0 := by rw [e]; rfl
    unfold pathJoin at this
    split at this
    · simp at this
    · simp at this
  have := reads_one (ws ++ [pathJoin dir (i.name ++ ".version".toList)]) (requestUrl i.name v)
    (fun w hw' => by
      rcases List.mem_append.1 hw' with h | h
      · exact fetcher_plain ws hw w h
      · rw [List.mem_singleton.1 h]; exact hp) (plain_url h6 h7)
  rw [spaced_append] at this
  rw [List.append_assoc] at this
  exact this

/-! ### Negative -/

/-- The command that a run sends if the user says so and the directory can be used. -/
theorem command_sent (i : CheckInput) (s : System) (h : Str) (hu : Usable s h) (hn : matchesNameRegex i.name = true)
    (he : s.noCheckVar = false) (hw : s.wget = true) : ∃ v, (∀ x ∈ v, Harmless x) ∧
      (runVersionCheck i true (some true) s).state.commands = s.commands ++
        [spaced ["/usr/bin/env".toList, "-i".toList, "wget".toList, "--timeout=10".toList, "--tries=1".toList, "-q".toList, "-O".toList]
          (pathJoin (seqanText h) (i.name ++ ".version".toList) ++ ' ' :: (requestUrl i.name v ++ " > /dev/null 2>&1".toList))] := by
  obtain ⟨d, h1, -, -⟩ := makeChecker_usable i s h hu hn
  have h2 := decideCheck_user (usableChecker i h) true { s with disk := d } he
  obtain ⟨t, h3, -⟩ := run_steps i true (some true) h1 h2
  obtain ⟨n, -, hv⟩ := ownVersion_spec i.version
  refine ⟨ownVersion i.version, harmless_version hv, ?_⟩
  rw [h3]
  show s.commands ++ (if true = true ∧ (s.wget = true ∨ s.curl = true) then _ else _) = _
  rw [if_pos ⟨rfl, Or.inl hw⟩, hw]
  have e : ∀ f p n v : Str, serverCommand f p n v = f ++ " ".toList ++ (p ++ ' ' :: (requestUrl n v ++ " > /dev/null 2>&1".toList)) := by
    intro f p n v
    unfold serverCommand requestUrl serverAddress
    simp only [List.append_assoc, List.cons_append]
    rfl
  have e2 := e (getProgram true s.curl) (pathJoin (seqanText h) (i.name ++ ".version".toList)) i.name (ownVersion i.version)
  rw [spaced_front (ws := ["/usr/bin/env".toList, "-i".toList, "wget".toList, "--timeout=10".toList, "--tries=1".toList, "-q".toList,
    "-O".toList]) (by cases s.curl <;> decide +kernel)] at e2
  rw [← e2]
  rfl

theorem pathJoin_behind (a b n : Str) (hb : b ≠ []) : pathJoin (a ++ b) n = a ++ pathJoin b n := by
  unfold pathJoin
  have h1 : (a ++ b = [] ∨ (a ++ b).getLast? = some '/') ↔ (b = [] ∨ b.getLast? = some '/') := by
    have hl : (a ++ b).getLast? = b.getLast? := by
      rw [List.getLast?_append]
      cases hb' : b.getLast? with
      | none => exact absurd (List.getLast?_eq_none_iff.1 hb') hb
      | some x => rfl
    rw [hl]
    constructor
    · rintro (h | h)
      · exact absurd (List.append_eq_nil_iff.1 h).2 hb
      · exact Or.inr h
    · rintro (h | h)
      · exact absurd h hb
      · exact Or.inr h
  by_cases h : b = [] ∨ b.getLast? = some '/'
  · rw [if_pos h, if_pos (h1.2 h), List.append_assoc]
  · rw [if_neg h, if_neg (fun k => h (h1.1 k)), List.append_assoc]

theorem pathJoin_ne (b n : Str) (hb : b ≠ []) : pathJoin b n ≠ [] := by
  unfold pathJoin
  split
  · exact fun h => hb (List.append_eq_nil_iff.1 h).1
  · exact fun h => hb (List.append_eq_nil_iff.1 h).1

theorem seqanText_behind (a b n : Str) (hb : b ≠ []) : pathJoin (seqanText (a ++ b)) n = a ++ pathJoin (seqanText b) n := by
  unfold seqanText configText
  rw [pathJoin_behind a b _ hb, pathJoin_behind a _ _ (pathJoin_ne b _ hb), pathJoin_behind a _ _ (pathJoin_ne _ _ (pathJoin_ne b _ hb))]

theorem plain_seqan {b name : Str} (hb : PlainWord b) (hn : ∀ c ∈ name, Harmless c) :
    PlainWord (pathJoin (seqanText b) (name ++ ".version".toList)) := by
  have join : ∀ {a b : Str}, (∀ c ∈ a, ShellPlain c) → (∀ c ∈ b, ShellPlain c) → ∀ c ∈ pathJoin a b, ShellPlain c := by
    intro a b ha hb
    unfold pathJoin
    split
    · exact plain_append ha hb
    · refine plain_append ha fun c hc => ?_
      rcases List.mem_cons.1 hc with rfl | hc
      · decide
      · exact hb c hc
  exact ⟨pathJoin_ne _ _ (pathJoin_ne _ _ (pathJoin_ne _ _ hb.1)),
    join (join (join hb.2 (by decide)) (by decide)) (plain_append (harmless_plain hn) (by decide))⟩

/-- C79 does not hold: if HOME contains a blank, the answer is written to the file whose name is the part in front of the blank, and the
rest of the path is taken for an address. -/
theorem C79_blank_in_home (i : CheckInput) (s : System) (a b : Str) (hu : Usable s (a ++ ' ' :: b)) (hn : matchesNameRegex i.name = true)
    (he : s.noCheckVar = false) (hw : s.wget = true) (ha : PlainWord a) (hb : PlainWord b) :
    ∃ c v, (runVersionCheck i true (some true) s).state.commands = s.commands ++ [c] ∧
      shellReads c = some [silenced (["/usr/bin/env".toList, "-i".toList, "wget".toList, "--timeout=10".toList, "--tries=1".toList,
        "-q".toList, "-O".toList, a, pathJoin (seqanText b) (i.name ++ ".version".toList), requestUrl i.name v])] := by
  obtain ⟨v, h1, h2⟩ := command_sent i s _ hu hn he hw
  refine ⟨_, v, h2, ?_⟩
  have e : a ++ ' ' :: b = (a ++ [' ']) ++ b := by rw [List.append_assoc]; rfl
  rw [e, seqanText_behind _ _ _ hb.1]
  have := reads_one (["/usr/bin/env".toList, "-i".toList, "wget".toList, "--timeout=10".toList, "--tries=1".toList, "-q".toList, "-O".toList] ++
    [a, pathJoin (seqanText b) (i.name ++ ".version".toList)]) (requestUrl i.name v)
    (fun w hw' => by
      rcases List.mem_append.1 hw' with h | h
      · exact fetcher_plain _ List.mem_cons_self w h
      · rcases List.mem_cons.1 h with rfl | h
        · exact ha
        · rw [List.mem_singleton.1 h]; exact plain_seqan hb (harmless_name hn))
    (plain_url (harmless_name hn) h1)
  rw [spaced_append] at this
  rw [List.append_assoc (a ++ [' ']), List.append_assoc a]
  exact this

/-- C79 does not hold: every command can be in HOME, between two semicolons, and is run. -/
theorem C79_command_in_home (i : CheckInput) (s : System) (a b w : Str) (ws : List Str)
    (hu : Usable s (a ++ ';' :: (spaced ws w ++ ';' :: b))) (hn : matchesNameRegex i.name = true)
    (he : s.noCheckVar = false) (hw : s.wget = true) (ha : PlainWord a) (hb : PlainWord b) (hwd : PlainWord w) (hws : ∀ w ∈ ws, PlainWord w) :
    ∃ c first last, (runVersionCheck i true (some true) s).state.commands = s.commands ++ [c] ∧
      shellReads c = some [first, ⟨ws ++ [w], [], []⟩, last] := by
  obtain ⟨v, h1, h2⟩ := command_sent i s _ hu hn he hw
  have e : a ++ ';' :: (spaced ws w ++ ';' :: b) = (a ++ ';' :: (spaced ws w ++ [';'])) ++ b := by
    rw [List.append_assoc, List.cons_append, List.append_assoc]; rfl
  rw [e, seqanText_behind _ _ _ hb.1] at h2
  generalize hq : pathJoin (seqanText b) (i.name ++ ".version".toList) = q at h2
  have hqp : PlainWord q := hq ▸ plain_seqan hb (harmless_name hn)
  have hurl := plain_url (harmless_name hn) h1
  generalize hF : ["/usr/bin/env".toList, "-i".toList, "wget".toList, "--timeout=10".toList, "--tries=1".toList, "-q".toList, "-O".toList] = F at h2
  have hFp : ∀ w ∈ F, PlainWord w := hF ▸ fetcher_plain _ List.mem_cons_self
  have spaced_text : ∀ (rest : Str), spaced ws w ++ rest = spaced ws (w ++ rest) := by
    intro rest
    unfold spaced
    clear hu e h2 hws
    induction ws with
    | nil => rfl
    | cons x ws ih =>
      show (x ++ ' ' :: List.foldr _ w ws) ++ rest = x ++ ' ' :: List.foldr _ (w ++ rest) ws
      rw [List.append_assoc, List.cons_append, ih]
  refine ⟨_, ⟨F ++ [a], [], []⟩, silenced [q, requestUrl i.name v], h2, ?_⟩
  have t3 : shellTokens [] (q ++ ' ' :: (requestUrl i.name v ++ " > /dev/null 2>&1".toList)) =
      some ([.word q] ++ [.word (requestUrl i.name v), .redirect ['1'], .word "/dev/null".toList, .duplicate ['2'], .word ['1']]) :=
    reads_spaced [q] (requestUrl i.name v) (fun x hx => by rw [List.mem_singleton.1 hx]; exact hqp) hurl
  have t2 : ∀ rest, shellTokens [] (spaced ws w ++ ';' :: rest) =
      (shellTokens [] rest).map (ws.map .word ++ .word w :: .separator :: ·) := by
    intro rest
    rw [spaced_text, shellTokens_spaced ws _ hws, shellTokens_plain w [] _ hwd.2, List.nil_append, shellTokens, endOfWord_some hwd.1,
      Option.map_map]
    rfl
  have t1 : ∀ rest, shellTokens [] (spaced F (a ++ ';' :: rest)) =
      (shellTokens [] rest).map (F.map .word ++ .word a :: .separator :: ·) := by
    intro rest
    rw [shellTokens_spaced F _ hFp, shellTokens_plain a [] _ ha.2, List.nil_append, shellTokens, endOfWord_some ha.1,
      Option.map_map]
    rfl
  unfold shellReads
  have shape : (a ++ ';' :: (spaced ws w ++ [';'])) ++ q ++ ' ' :: (requestUrl i.name v ++ " > /dev/null 2>&1".toList) =
      a ++ ';' :: (spaced ws w ++ ';' :: (q ++ ' ' :: (requestUrl i.name v ++ " > /dev/null 2>&1".toList))) := by
    simp only [List.append_assoc, List.cons_append, List.nil_append]
  rw [shape, t1, t2, t3]
  have c1 : ∀ (words : List Str) (ts : List ShellToken), words ≠ [] →
      shellCommands ⟨words, [], []⟩ (.separator :: ts) = (shellCommands ⟨[], [], []⟩ ts).map (⟨words, [], []⟩ :: ·) := by
    intro words ts hne
    rw [shellCommands, if_neg (fun h => hne (congrArg ShellCommand.words h))]
    rfl
  show shellCommands ⟨[], [], []⟩ (F.map .word ++ ([a].map .word ++ .separator :: (ws.map .word ++ ([w].map .word ++ .separator ::
    ([q, requestUrl i.name v].map .word ++ [.redirect ['1'], .word "/dev/null".toList, .duplicate ['2'], .word ['1']]))))) = _
  rw [shellCommands_words, shellCommands_words, c1 _ _ (by simp), shellCommands_words, shellCommands_words, c1 _ _ (by simp),
    shellCommands_words]
  rfl

/-! ### Examples -/

/-- A system whose home directory has the given name. -/
def exHome (home : String) : System :=
  { exSystem [] 1000000 "" with
    disk := [([], .dir true false true), ([home.toList], .dir true true true),
      ([home.toList, ".config".toList], .dir true true true), ([home.toList, ".config".toList, "seqan".toList], .dir true true true)]
    home := some ('/' :: home.toList) }

/-- The systems of the theorems exist. -/
example : Usable (exHome "John Smith") ("/John".toList ++ ' ' :: "Smith".toList) ∧ PlainWord "/John".toList ∧ PlainWord "Smith".toList :=
  ⟨usable_of (r := true) (by decide +kernel) (by decide +kernel) (by decide +kernel), by unfold PlainWord; decide, by unfold PlainWord; decide⟩

example : Usable (exHome "h;rm -r x;y") ("/h".toList ++ ';' :: (spaced ["rm".toList, "-r".toList] "x".toList ++ ';' :: "y".toList)) :=
  usable_of (r := true) (by decide +kernel) (by decide +kernel) (by decide +kernel)

/-- The whole way from HOME to the commands that are run. -/
example :
    (runVersionCheck exCheck true (some true) (exHome "h;rm -r x;y")).state.commands.map
      (fun c => (shellReads c).map fun l => l.map fun k => k.words.map String.ofList) =
    [some [["/usr/bin/env", "-i", "wget", "--timeout=10", "--tries=1", "-q", "-O", "/h"], ["rm", "-r", "x"],
      ["y/.config/seqan/app.version", "https://seqan-update.informatik.uni-tuebingen.de/check/SeqAn-Sharg_Linux_64_app_1.2.3"]]] := by
  decide +kernel

/-- A usual home directory: one program. -/
example :
    (runVersionCheck exCheck true (some true) (exHome "john")).state.commands.map
      (fun c => (shellReads c).map fun l => l.map fun k => k.words.map String.ofList) =
    [some [["/usr/bin/env", "-i", "wget", "--timeout=10", "--tries=1", "-q", "-O", "/john/.config/seqan/app.version",
      "https://seqan-update.informatik.uni-tuebingen.de/check/SeqAn-Sharg_Linux_64_app_1.2.3"]]] := by
  decide +kernel

end Sharg
