import Verif.Lemmas.Utf8Parse
import Verif.Props.PagePrint

/-!
# C97: texts in UTF-8

`std::string` holds bytes, and users write umlauts. If all texts that a developer chose and all arguments are valid UTF-8, so are the
pages, the values, the arguments of subcommands and the messages of exceptions. One message is not: the one about a group of unknown
flags takes every byte for a flag.
-/

namespace Sharg

open Spec

variable {W : Type}

/-! ### Pages -/

theorem utf8_copyright (c : Console) {license app : Str} {m : Meta} (happ : Utf8 app) (hl : Utf8 license) (h1 : Utf8 m.longCopyright)
    (h2 : Utf8 m.shortCopyright) : WritesUtf8 HelpState.out (copyrightPage c license app m) := by
  have ha : Utf8 (ansi c.tty '0') := utf8_ansi _ _ (by decide)
  have h3 : Utf8 (List.replicate 80 '=') := utf8_replicate 80 (by decide)
  have h4 : Utf8 (List.replicate 80 '-') := utf8_replicate 80 (by decide)
  have h5 : Utf8 (if m.longCopyright ≠ [] then ansi c.tty '0' ++ m.longCopyright ++ ['\n']
      else if m.shortCopyright ≠ [] then
        inBold c (app ++ " full copyright information not available. ".toList
          ++ "Displaying short copyright information instead:\n".toList) ++ m.shortCopyright ++ ['\n']
      else ansi c.tty '0' ++ app ++ " copyright information not available.\n".toList) := by
    split
    · exact (ha.append h1).append (literal_utf8 (by decide))
    · split
      · exact ((utf8_bold _ ((happ.append (literal_utf8 (by decide))).append (literal_utf8 (by decide)))).append h2).append
          (literal_utf8 (by decide))
      · exact (ha.append happ).append (literal_utf8 (by decide))
  have h6 := utf8_bold c (((literal_utf8 (s := "Copyright information for ".toList) (by decide)).append happ).append
    (literal_utf8 (s := ":\n".toList) (by decide)))
  have h7 := utf8_bold c
    (literal_utf8 (s := "This program contains SeqAn code licensed under the following terms:\n".toList) (by decide))
  have h8 : Utf8 ['\n'] := literal_utf8 (by decide)
  unfold copyrightPage
  refine utf8_writes_emit ?_
  exact ((((((((((((h3.append h8).append h6).append h4).append h8).append h5).append h3).append h8).append h7).append h4).append h8).append hl).append h8)

/-- Whatever is printed is valid, also if printing ends with an exception. -/
theorem C97_pages {env : Env W} {g : Prog W} (hg : Reachable env g) {pe : PageEnv} {st : Store} (f : Format)
    (h : ∀ t ∈ pageTexts pe g.parser st, Utf8 t) (htdl : ∀ cwl info, (∀ t ∈ toolTexts info, Utf8 t) → Utf8 (pe.printTool cwl info)) :
    Utf8 (pageOf pe f g.parser st).2 := by
  have hp := inv_reachable hg
  generalize g.parser = p at h hp
  have hi : ∀ t ∈ infoTexts pe.info, Utf8 t := fun t ht => h t (by simp only [pageTexts, List.mem_append]; exact Or.inl (Or.inl (Or.inr ht)))
  have happ : Utf8 p.appName := h _ (by simp [pageTexts])
  have hsd : Utf8 pe.info.shortDescription := hi _ (by simp [infoTexts])
  have hhead := utf8_writes_helpHeader happ hsd
  cases f with
  | parse => exact Utf8.nil
  | help adv =>
    exact utf8_fullPage (out := HelpState.out) hp h adv hhead WritesUtf8.pure (utf8_writes_helpBlock _) (fun s hs => utf8_bold _ hs) _ Utf8.nil
  | shortHelp =>
    refine WritesUtf8.bind (out := HelpState.out) hhead (WritesUtf8.bind (WritesUtf8.steps (utf8_writes_helpBlock _) (utf8_synopsisSteps hi)) ?_) _ Utf8.nil
    refine utf8_writes_helpBlock pe.console (.line "Try -h or --help for more information.\n".toList true) fun t ht => ?_
    simp only [Block.texts, List.mem_singleton] at ht
    subst ht
    exact literal_utf8 (by decide)
  | version =>
    refine WritesUtf8.bind (out := HelpState.out) hhead (WritesUtf8.steps (utf8_writes_helpBlock _) fun x hx => ?_) _ Utf8.nil
    obtain ⟨b, hb, rfl⟩ := List.mem_map.1 hx
    refine Or.inr ⟨b, rfl, (utf8Class (inBold pe.console) fun s hs => utf8_bold _ hs).versionBlocks_class _ _ _ happ (h _ (by simp [pageTexts]))
      (fun s hs => h s ?_) (utf8_metaTexts hi) b hb⟩
    simp only [pageTexts, List.mem_append]
    exact Or.inl (Or.inl (Or.inl (Or.inl (Or.inr (by simpa using hs)))))
  | copyright =>
    exact utf8_copyright pe.console happ (h _ (by simp [pageTexts])) (hi _ (by simp [infoTexts])) (hi _ (by simp [infoTexts])) _ Utf8.nil
  | html =>
    have hbold : ∀ s, Utf8 s → Utf8 ("<strong>".toList ++ s ++ "</strong>".toList) := fun s hs =>
      ((literal_utf8 (by decide)).append hs).append (literal_utf8 (by decide))
    exact utf8_fullPage (out := HtmlState.out) hp h false (utf8_writes_htmlHeader _ happ hsd) utf8_writes_htmlFooter (utf8_writes_htmlBlock _)
      hbold _ Utf8.nil
  | man =>
    have hbold : ∀ s, Utf8 s → Utf8 ("\\fB".toList ++ s ++ "\\fR".toList) := fun s hs =>
      ((literal_utf8 (by decide)).append hs).append (literal_utf8 (by decide))
    have hhead : WritesUtf8 ManState.out (manPrinter p.appName pe.info).header := utf8_writes_manHeader happ hi
    have hfull := utf8_fullPage (out := ManState.out) (pr := manPrinter p.appName pe.info) hp h false hhead WritesUtf8.pure
      utf8_writes_manBlock hbold
    exact hfull { out := [], isFirst := true } Utf8.nil
  | tdl cwl =>
    unfold pageOf
    dsimp only
    split
    · exact (htdl _ _ (tool_utf8 hp h)).append (utf8_if (literal_utf8 (by decide)) Utf8.nil)
    · exact Utf8.nil

/-! ### Values and messages -/

theorem decls_utf8 {p : Parser W} (hp : Inv p) {why : Entry W → Val → W → Str} (h : ∀ e ∈ p.operations, EntryUtf8 why e) :
    DeclsUtf8 (textDeclsOf why p.operations) where
  options := by
    intro d hd
    simp only [textDeclsOf, List.mem_filterMap] at hd
    obtain ⟨e, he, hx⟩ := hd
    cases e with
    | option cfg x l ty v =>
      cases hx
      have hi := cfg_ascii (hp.cfgs cfg (List.mem_filterMap.2 ⟨_, he, rfl⟩))
      have := h _ he
      exact ⟨hi.1, hi.2, this.1, this.2⟩
    | _ => cases hx
  flags := by
    intro d hd
    simp only [textDeclsOf, declsOf, List.mem_filterMap] at hd
    obtain ⟨e, he, hx⟩ := hd
    cases e with
    | flag cfg x =>
      cases hx
      exact (cfg_ascii (hp.cfgs cfg (List.mem_filterMap.2 ⟨_, he, rfl⟩))).1
    | _ => cases hx
  positionals := by
    intro d hd
    simp only [textDeclsOf, List.mem_filterMap] at hd
    obtain ⟨e, he, hx⟩ := hd
    cases e with
    | positional cfg x l ty v =>
      cases hx
      have := h _ he
      exact ⟨this.1, this.2⟩
    | _ => cases hx

theorem clean_utf8 {s : Str} (h : matchesNameRegex s = true) : Utf8 s := by
  refine Utf8.ascii fun c hc => ?_
  rcases ((matchesNameRegex_iff s).1 h).2 c hc with h | h | h | rfl | rfl
  · have : c.toNat ≤ 122 := h.2
    unfold IsAscii; omega
  · have : c.toNat ≤ 90 := h.2
    unfold IsAscii; omega
  · have : c.toNat ≤ 57 := h.2
    unfold IsAscii; omega
  all_goals decide

/-- After `parse()`, however it ends, all texts in variables are valid, the subcommand gets valid arguments, and the message of an
exception is valid unless it is about a group of unknown flags and quotes a single byte of a longer character.
Missing: that message (`C97_unknown_flags_text_is_invalid`). -/
theorem C97_parse_partial {env : Env W} {g : Prog W} (hg : Reachable env g) {wd : Wording} (hw : WordingUtf8 wd)
    {why : Entry W → Val → W → Str} (hy : ∀ e ∈ g.parser.operations, EntryUtf8 why e) (ha : ∀ a ∈ g.parser.arguments, Utf8 a)
    (hst : StoreUtf8 g.store) {o : TOutcome} {g' : Prog W} (h : parseT env wd why g = (o, g')) :
    StoreUtf8 g'.store ∧ (∀ e t, o = .threw e (some t) → Utf8 t ∨ e = .unknownOption ∧ BrokenFlag t) ∧
      (o = .returned → ∀ i, g'.parser.subParser = some i → ∀ a ∈ i.arguments, Utf8 a) := by
  have hinv := inv_reachable hg
  have lit : ∀ (g' : Prog W), StoreUtf8 g'.store → ∀ (e : Exn) (t : Str), Utf8 t → (TOutcome.threw e (some t), g') = (o, g') →
      StoreUtf8 g'.store ∧ (∀ e t, o = .threw e (some t) → Utf8 t ∨ e = .unknownOption ∧ BrokenFlag t) ∧
      (o = .returned → ∀ i, g'.parser.subParser = some i → ∀ a ∈ i.arguments, Utf8 a) := by
    intro g' hs e t ht he
    cases he
    exact ⟨hs, (fun e' t' he => by cases he; exact Or.inl ht), (fun h => by cases h)⟩
  unfold parseT at h
  by_cases hc : g.parser.parseWasCalled = true
  · rw [if_pos hc] at h
    cases h
    exact lit _ hst _ _ (literal_utf8 (by decide)) rfl
  rw [if_neg hc] at h
  unfold verifyNamesT at h
  dsimp only at h
  by_cases h1 : matchesNameRegex g.parser.appName = false
  · rw [if_pos h1] at h
    cases h
    exact lit _ hst _ _ ((literal_utf8 (by decide)).append (literal_utf8 (by decide))) rfl
  rw [if_neg h1] at h
  by_cases h2 : g.parser.subcommands.any (fun s => !matchesNameRegex s) = true
  · rw [if_pos h2] at h
    cases h
    exact lit _ hst _ _ ((literal_utf8 (by decide)).append (literal_utf8 (by decide))) rfl
  rw [if_neg h2] at h
  have hsubs : ∀ s ∈ g.parser.subcommands, Utf8 s := by
    intro s hs
    refine clean_utf8 ?_
    simp only [List.any_eq_true, Bool.not_eq_true', not_exists, not_and] at h2
    simpa using h2 s hs
  dsimp only at h
  unfold determineFormatT at h
  dsimp only at h
  cases harg : g.parser.arguments with
  | nil =>
    rw [harg] at h
    dsimp only at h
    cases h
    exact lit _ hst _ _ Utf8.nil rfl
  | cons exe args =>
    rw [harg] at h
    dsimp only at h
    have hargs : ∀ a ∈ args, Utf8 a := fun a h => ha a (by rw [harg]; simp [h])
    have hscan := scan_utf8 (options := g.parser.options) hsubs _ args (Nat.le_refl _) scanInit
    cases hs : scanLoopT g.parser.options g.parser.subcommands args scanInit with
    | err e2 t2 s =>
      rw [hs] at h hscan
      cases h
      exact lit _ hst _ _ hscan rfl
    | ok u s =>
      rw [hs] at h hscan
      dsimp only at h
      have hfa : ∀ a ∈ s.formatArguments, Utf8 a := fun a hm => by
        rcases hscan.1 a hm with h | h
        · simp [scanInit] at h
        · exact hargs a h
      have hsub : ∀ i, s.sub.map (subInit g.parser.appName (g.parser.executableName ++ [exe])) = some i → ∀ a ∈ i.arguments, Utf8 a := by
        intro i hi a hm
        obtain ⟨r, hr, rfl⟩ := Option.map_eq_some_iff.1 hi
        rcases hscan.2 r hr with h | h
        · simp [scanInit] at h
        · exact hargs a (h a hm)
      unfold checkAndParseT at h
      dsimp only at h
      split at h
      · cases h
        exact ⟨hst, (fun _ _ h => by cases h), (fun h => by cases h)⟩
      · unfold parseFormatT at h
        split at h
        · dsimp only at h
          rename_i w _ _ _
          have hfine := fine_formatParse hw env.ndebug (decls_utf8 hinv hy) hfa hst w
          split at h
          · rename_i hf
            cases h
            rw [hf] at hfine
            exact ⟨hfine.store, (fun _ _ h => by cases h), fun _ => hsub⟩
          · rename_i hf
            cases h
            rw [hf] at hfine
            exact ⟨hfine.1.store, (fun e t h => by cases h; exact hfine.2), (fun h => by cases h)⟩
        · split at h <;> cases h
          · exact ⟨hst, (fun _ _ h => by cases h), (fun h => by cases h)⟩
          · exact ⟨hst, (fun _ _ h => by cases h), (fun h => by cases h)⟩

/-- Values alone, without texts of exceptions. -/
theorem C97_values {env : Env W} {g : Prog W} (hg : Reachable env g)
    (hty : ∀ e ∈ g.parser.operations, EntryUtf8 (fun _ _ _ => []) e) (ha : ∀ a ∈ g.parser.arguments, Utf8 a) (hst : StoreUtf8 g.store) :
    StoreUtf8 (parse env g).2.store := by
  have hw : WordingUtf8 ⟨fun _ _ => [], fun _ => []⟩ := ⟨fun _ _ => Utf8.nil, fun _ => Utf8.nil⟩
  have := (C97_parse_partial hg hw hty ha hst rfl).1
  rw [← C67_texts_only env ⟨fun _ _ => [], fun _ => []⟩ (fun _ _ _ => []) g]
  exact this

/-- A message that quotes a single byte of a longer character is not valid. -/
theorem C97_broken_flag_is_invalid {t : Str} (h : BrokenFlag t) : ¬ Utf8 t := broken_not_utf8 h

/-- C97 fails for groups of unknown flags: the message is invalid whenever one of the flags is not ASCII. -/
theorem C97_unknown_flags_text_is_invalid (flags : Str) (last : Char) (hne : flags ≠ []) (hd : flags.head? ≠ some '-')
    (hc : ∃ c ∈ flags ++ [last], ¬ IsAscii c) : ∃ t, unknownText ('-' :: (flags ++ [last])) = .ok t ∧ ¬ Utf8 t := by
  unfold unknownText
  rw [if_pos (by
    cases flags with
    | nil => exact absurd rfl hne
    | cons c fs => simpa using hd), expandMultipleFlags_eq _ _ hne]
  refine ⟨_, rfl, broken_not_utf8 ?_⟩
  rw [List.append_assoc]
  obtain ⟨c, hm, hn⟩ := hc
  rcases List.mem_append.1 hm with h | h
  · exact broken_group h hn _ _ _
  · rw [List.mem_singleton] at h
    subst h
    exact broken_last hn _ (c := '.') (by decide) _

/-! ### Examples -/

/-- The bytes of `ä`. -/
def exUmlaut : Str := [Char.ofNat 0xc3, Char.ofNat 0xa4]

example : exUmlaut = utf8Text ['ä'] := by decide +kernel

/-- A program without options is given `-ä`. -/
theorem C97_umlaut_flag_breaks_message :
    ∃ t, exSaid [] [String.ofList ('-' :: exUmlaut)] = some (.unknownOption, t) ∧ ¬ Utf8 t := by
  obtain ⟨t, h1, h2⟩ := C97_unknown_flags_text_is_invalid [Char.ofNat 0xc3] (Char.ofNat 0xa4) (by simp) (by decide) ⟨Char.ofNat 0xc3, by decide, by decide⟩
  refine ⟨t, ?_, h2⟩
  have h3 : exSaid [] [String.ofList ('-' :: exUmlaut)] = (unknownText ('-' :: exUmlaut)).toOption.map (Exn.unknownOption, ·) := by decide +kernel
  rw [h3]
  have h4 : unknownText ('-' :: exUmlaut) = .ok t := h1
  rw [h4]
  rfl

/-- `--ä` is reported as it was written. -/
example : exSaid [] [String.ofList ("--".toList ++ exUmlaut)] = some (.unknownOption, "Unknown option --".toList ++ exUmlaut
    ++ (". In case this is meant to be a non-option/argument/parameter, please specify the start of non-options with '--'. "
      ++ "See -h/--help for program information.").toList) := by decide +kernel

theorem exWording_utf8 : WordingUtf8 exWording :=
  ⟨fun _ _ => literal_utf8 (s := "signed 8 bit integer".toList) (by decide),
    fun _ => literal_utf8 (s := "340282346638528859811704183484516925440.000000".toList) (by decide)⟩

theorem exWhy_utf8 : Utf8 "not accepted".toList := literal_utf8 (by decide)

/-- The hypotheses hold for a program with a text option that is given `-s ä`, and the value is `ä`. -/
def exUmlautProg : Prog Unit := exRun [.addOption { short := 's' } 0 false .string fun _ w => (true, w)] ["-s".toList, exUmlaut]

example : Reachable exEnv exUmlautProg ∧ (∀ e ∈ exUmlautProg.parser.operations, EntryUtf8 exWhy e) ∧
    (∀ a ∈ exUmlautProg.parser.arguments, Utf8 a) ∧ WordingUtf8 exWording ∧
    (parse exEnv exUmlautProg).2.store 0 = .one (.str exUmlaut) := by
  refine ⟨exRun_reachable _ _, ?_, ?_, exWording_utf8, by decide +kernel⟩
  · intro e he
    have : exUmlautProg.parser.operations.all (fun e => match e with | .option _ _ _ .string _ => true | _ => false) = true := by decide +kernel
    have := List.all_eq_true.1 this e he
    split at this
    · exact ⟨trivial, fun _ _ _ => exWhy_utf8⟩
    · cases this
  · have : exUmlautProg.parser.arguments = ["app".toList, "-s".toList, exUmlaut] := by decide +kernel
    rw [this]
    intro a h
    simp only [List.mem_cons, List.not_mem_nil, or_false] at h
    rcases h with rfl | rfl | rfl
    · exact literal_utf8 (by decide)
    · exact literal_utf8 (by decide)
    · exact ⟨['ä'], by decide +kernel⟩

/-- The hypotheses of `C97_pages` hold for this program when its short description is `ä`, and the page says so. -/
example : (∀ t ∈ pageTexts (exPages { shortDescription := exUmlaut }) exUmlautProg.parser exUmlautProg.store, Utf8 t) ∧
    (pageOf (exPages { shortDescription := exUmlaut }) .shortHelp exUmlautProg.parser exUmlautProg.store).2.take 8 =
      "app - ".toList ++ exUmlaut := by
  refine ⟨fun t ht => ?_, by decide +kernel⟩
  have h : (pageTexts (exPages { shortDescription := exUmlaut }) exUmlautProg.parser exUmlautProg.store).all
      (fun t => t.all (fun c => decide (IsAscii c)) || t == exUmlaut) = true := by decide +kernel
  have := List.all_eq_true.1 h t ht
  simp only [Bool.or_eq_true, beq_iff_eq] at this
  rcases this with h | rfl
  · exact literal_utf8 h
  · exact ⟨['ä'], by decide +kernel⟩

end Sharg
