import Verif.Lemmas.VersionParts
import Verif.Lemmas.World
import Verif.Props.Version

/-!
# Parts of the version check

C53: the server command. C54: update messages. C55: notifications switched off.
-/

namespace Sharg

open Spec

/-! ### C53 -/

theorem getPath_dir (nd : Bool) (s s' : System) (p : Str) (h : getPath nd s = .ok p s') :
    p = [] ∨ (∃ h, s.home = some h ∧ p = seqanText h) ∨ s.tempDir = some p := by
  obtain hh | ⟨h', hh⟩ := option_cases s.home
  · rw [getPath_no_home nd s hh] at h; cases h
  · obtain ⟨ok₁, d₁, ok₂, d₂, -, -, h3⟩ := getPath_steps nd s h' hh
    rw [h3] at h
    cases hdir : (if ok₂ then some (seqanText h') else s.tempDir) with
    | none => rw [hdir] at h; cases h
    | some d =>
      rw [hdir] at h
      rcases tryDir_ok nd d p { s with disk := d₂ } s' h with h4 | ⟨rfl, -⟩
      · exact Or.inl h4
      · cases ok₂ with
        | true => simp at hdir; exact Or.inr (Or.inl ⟨h', hh, hdir.symm⟩)
        | false => simp at hdir; exact Or.inr (Or.inr hdir)

/-- The two beginnings of the command. -/
def fetchers : List Str :=
  ["/usr/bin/env -i wget --timeout=10 --tries=1 -q -O".toList, "/usr/bin/env -i curl --connect-timeout 10 -o".toList]

/-- The text `c` is a request: fixed texts, a file named after the app in `dir`, the name, and `v`. -/
def IsRequest (dir name v c : Str) : Prop :=
  ∃ f ∈ fetchers, c = f ++ " ".toList ++ pathJoin dir (name ++ ".version".toList) ++ " ".toList ++
    "https://seqan-update.informatik.uni-tuebingen.de/check/SeqAn-Sharg_Linux_64_".toList ++ name ++ "_".toList ++ v ++
    " > /dev/null 2>&1".toList

theorem performCheck_commands (i : CheckInput) (ck : Checker) (s : System) :
    ∃ new, (performCheck i ck s).state.commands = s.commands ++ new ∧ new.length ≤ 1 ∧
      ∀ c ∈ new, IsRequest ck.cookiePath i.name (ownVersion i.version) c := by
  obtain ⟨t, h⟩ := performCheck_run i ck s
  rw [h]
  refine ⟨_, rfl, ?_, ?_⟩
  · split <;> simp
  · intro c hc
    split at hc
    · rename_i hp
      simp only [List.mem_singleton] at hc
      subst hc
      have hg : getProgram s.wget s.curl ∈ fetchers := by
        unfold getProgram fetchers
        rcases hp with hp | hp
        · rw [hp]; simp
        · cases s.wget
          · rw [hp]; simp
          · simp
      refine ⟨_, hg, ?_⟩
      unfold serverCommand serverAddress versionFileName
      simp only [List.append_assoc, List.cons_append]
      rfl
    · cases hc

theorem ownVersion_prefix (text : Str) : ownVersion text <+: text ∨ ownVersion text = "0.0.0".toList := by
  unfold ownVersion
  split
  · rename_i a b c rest hm
    left
    obtain ⟨h1, -⟩ := (versionMatch_iff _ _ _ _ _).1 hm
    exact ⟨rest, h1.symm⟩
  · exact Or.inr rfl

/-- C53: For every app with a proper name: a run adds at most one command. It consists of fixed texts, a path in
`~/.config/seqan`, the directory for temporary files or the current directory, the name, and a version, which is a prefix of
the developer's version text or 0.0.0. Everything that comes from the developer is harmless. -/
theorem C53_command_parts (i : CheckInput) (notify : Bool) (user : Option Bool) (s : System) (hn : CleanName i.name) :
    ∃ new, (runVersionCheck i notify user s).state.commands = s.commands ++ new ∧ new.length ≤ 1 ∧
      ∀ c ∈ new, ∃ dir v n, (dir = [] ∨ (∃ h, s.home = some h ∧ dir = seqanText h) ∨ s.tempDir = some dir) ∧
        IsRequest dir i.name v c ∧ (∀ x ∈ i.name, Harmless x) ∧ (∀ x ∈ v, Harmless x) ∧
        VersionInFront i.version n ∧ IsVersion v n ∧ (v <+: i.version ∨ v = "0.0.0".toList) := by
  cases hm : makeChecker i s with
  | err e s' =>
    refine ⟨[], ?_, by simp, by simp⟩
    have fr := (getPath_frame i.ndebug s).1
    have : s'.commands = s.commands := by
      unfold makeChecker at hm
      rw [M.bind_run] at hm
      cases hg : getPath i.ndebug s with
      | err e' s₁ => rw [hg] at hm fr; cases hm; have h := congrArg System.commands fr; exact h
      | ok p s₁ =>
        rw [hg] at hm fr
        dsimp only at hm
        split at hm
        · cases hm; have h := congrArg System.commands fr; exact h
        · cases hm
    unfold runVersionCheck
    rw [M.bind_run, hm]
    simp [Res.state, this]
  | ok ck s₁ =>
    obtain ⟨h1, h2, h3, -⟩ := makeChecker_ok hm
    obtain ⟨k, r, s₂, -, h5, -, h7, h8⟩ := decideCheck_spec ck notify user s₁ h1
    have hs2 : s₂.commands = s.commands := by
      have e1 : s₁.commands = s.commands := by rw [h2]
      by_cases hop : Open notify s₁.noCheckVar user k
      · have h := congrArg System.commands (h8 hop).1.rest
        exact h.trans e1
      · rw [h7 hop, e1]
    have erun : runVersionCheck i notify user s = (if r then performCheck i ck else M.pure ()) s₂ :=
      (bind_of_ok hm).trans (bind_of_ok h5)
    cases r with
    | false => exact ⟨[], by rw [erun]; simp [Res.state, M.pure, hs2], by simp, by simp⟩
    | true =>
      obtain ⟨new, h9, h10, h11⟩ := performCheck_commands i ck s₂
      refine ⟨new, by rw [erun, ← hs2]; exact h9, h10, fun c hc => ?_⟩
      obtain ⟨v, hv1, hv2⟩ := ownVersion_spec i.version
      exact ⟨ck.cookiePath, _, v, getPath_dir _ _ _ _ h3, h11 c hc,
        harmless_name ((matchesNameRegex_iff _).2 hn), harmless_version hv2, hv1, hv2, ownVersion_prefix _⟩

/-- C53, together with C07: `parse()` calls the version check only with proper names. Two environments whose checks agree on
proper names cannot be told apart. -/
theorem C53_only_clean_names {W : Type} (env : Env W) (check : Str → Bool → Option Bool → W → Option Exn × W) (g : Prog W)
    (h : ∀ n d u w, CleanName n → env.versionCheck n d u w = check n d u w) :
    parse env g = parse { env with versionCheck := check } g := by
  unfold parse
  by_cases hp : g.parser.parseWasCalled = true
  · rw [if_pos hp, if_pos hp]
  · rw [if_neg hp, if_neg hp]
    have h1 := verifyNames_parser { g.parser with parseWasCalled := true }
    cases hv : verifyAppAndSubcommandNames { g.parser with parseWasCalled := true } with
    | err e p => rfl
    | ok u p =>
      rw [hv] at h1
      dsimp only [Res.state] at h1
      subst h1
      have hc : CleanName g.parser.appName := by
        rw [← matchesNameRegex_iff]
        unfold verifyAppAndSubcommandNames at hv
        dsimp only at hv
        by_cases ha : matchesNameRegex g.parser.appName = false
        · rw [if_pos ha] at hv; cases hv
        · simpa using ha
      have h2 := (determine_parser env.ndebug { g.parser with parseWasCalled := true }).1
      dsimp only
      cases hd : determineFormatAndSubcommand env.ndebug { g.parser with parseWasCalled := true } with
      | err e p => rfl
      | ok f p =>
        rw [hd] at h2
        have hn : p.appName = g.parser.appName := h2.appName
        unfold checkAndParse
        dsimp only
        rw [← h _ _ _ _ (hn ▸ hc)]
        rfl

/-- A command of the example app. -/
example : (runVersionCheck exCheck true (some true) (exSystem [] 1000000 "")).state.commands =
    ["/usr/bin/env -i wget --timeout=10 --tries=1 -q -O /h/.config/seqan/app.version https://seqan-update.informatik.uni-tuebingen.de/check/SeqAn-Sharg_Linux_64_app_1.2.3 > /dev/null 2>&1".toList] := by
  decide +kernel

/-- A version text with shell characters. -/
example : (runVersionCheck { exCheck with version := "1.2.3; rm -rf ~".toList } true (some true) (exSystem [] 1000000 "")).state.commands =
    (runVersionCheck exCheck true (some true) (exSystem [] 1000000 "")).state.commands := by
  decide +kernel

example : CleanName exCheck.name := by decide

/-! ### C54 -/

theorem version_content (i : CheckInput) (ck : Checker) (s : System) :
    ∃ content, fsRead (locOf s.cwd (pathJoin ck.cookiePath (versionFileName i.name))) s.disk = .ok content s.disk ∧
      ∀ t, content = some t ↔ ∃ w, Reaches s.disk (locOf s.cwd (pathJoin ck.cookiePath (versionFileName i.name))) (.file t true w) := by
  rcases fsRead_cases (locOf s.cwd (pathJoin ck.cookiePath (versionFileName i.name))) s.disk with ⟨t, w, h1, h2⟩ | ⟨h1, h2⟩
  · refine ⟨_, h2, fun t' => ⟨?_, ?_⟩⟩
    · rintro ⟨⟩; exact ⟨w, h1⟩
    · rintro ⟨w', h3⟩
      have e1 := (lookup_found_iff _ _ _).2 h1
      have e2 := (lookup_found_iff _ _ _).2 h3
      rw [e1] at e2
      simp only [Lookup.found.injEq, Node.file.injEq] at e2
      rw [e2.1]
  · refine ⟨_, h2, fun t' => ⟨fun h => (by cases h), ?_⟩⟩
    rintro ⟨w', h3⟩
    exact absurd h3 (h1 _ _)

theorem isVersion_unregistered (v : Nat × Nat × Nat) : ¬ IsVersion unregisteredApp v := by
  intro h
  have h1 := harmless_version h
  obtain ⟨a, b, c, e, ⟨ha, -, -⟩, -⟩ := h
  cases a with
  | nil => exact ha.1 rfl
  | cons x a =>
    have : x = 'U' := by
      unfold unregisteredApp at e
      exact (List.cons.inj e).1.symm
    subst this
    exact absurd (ha.2 'U' (by simp)) (by decide)

/-- The first of the two numbers that the server sent. -/
theorem serverVersions_app (t : Str) (hs : ∀ v, IsVersion (firstLine t) v → Small v) :
    (∀ v, IsVersion (firstLine t) v → (serverVersions (some t)).1 = v) ∧
    ((∀ v, ¬ IsVersion (firstLine t) v) → (serverVersions (some t)).1 = (0, 0, 0)) := by
  unfold serverVersions
  dsimp only
  constructor
  · intro v hv
    rw [if_pos (fun e : firstLine t = unregisteredApp => isVersion_unregistered v (e ▸ hv))]
    exact versionNumbers_version hv (hs v hv)
  · intro h
    split
    · exact versionNumbers_other h
    · rfl

theorem own_numbers (version : Str) (own : Nat × Nat × Nat) (h : VersionInFront version own) (hs : Small own) :
    versionNumbers (ownVersion version) = own := by
  obtain ⟨v, h1, h2⟩ := ownVersion_spec version
  rw [versionInFront_unique h h1] at hs ⊢
  exact versionNumbers_version h2 hs

/-- C54 (release builds, numbers below `2^31`): the check prints the message exactly if the version file says that there is a
new version, and prints nothing else. -/
theorem C54_update_message_partial (i : CheckInput) (ck : Checker) (s : System) (hr : i.ndebug = true)
    (hs : ∀ text w line v, Reaches s.disk (locOf s.cwd (pathJoin ck.cookiePath (i.name ++ ".version".toList))) (.file text true w) →
      FirstLine text line → IsVersion line v → Small v)
    (ho : ∀ own, VersionInFront i.version own → Small own) :
    (UpdateKnown s ck.cookiePath i.name i.version → (performCheck i ck s).state.stderr = s.stderr ++ messageAppUpdate i.url) ∧
    (¬ UpdateKnown s ck.cookiePath i.name i.version → (performCheck i ck s).state.stderr = s.stderr) := by
  obtain ⟨content, h1, h2⟩ := version_content i ck s
  rw [performCheck_messages i ck s content h1]
  obtain ⟨own, hown, -⟩ := ownVersion_spec i.version
  have hnum := own_numbers i.version own hown (ho own hown)
  cases content with
  | none =>
    have hno : ¬ UpdateKnown s ck.cookiePath i.name i.version := by
      rintro ⟨text, w, line, v, own', h3, -⟩
      cases (h2 text).2 ⟨w, h3⟩
    refine ⟨fun h => absurd h hno, fun _ => ?_⟩
    simp [updateMessages, serverVersions, hr]
  | some t =>
    obtain ⟨w, hw⟩ := (h2 t).1 rfl
    have hsm : ∀ v, IsVersion (firstLine t) v → Small v := fun v hv => hs t w _ v hw ((firstLine_iff _ _).2 rfl) hv
    obtain ⟨hA, hB⟩ := serverVersions_app t hsm
    by_cases hv : ∃ v, IsVersion (firstLine t) v
    · obtain ⟨v, hv⟩ := hv
      have e1 := hA v hv
      have key : UpdateKnown s ck.cookiePath i.name i.version ↔ v ≠ (0, 0, 0) ∧ Older own v := by
        constructor
        · rintro ⟨text, w', line, v', own', h3, h4, h5, h6, h7, h8⟩
          have et : text = t := by
            have := (h2 text).2 ⟨w', h3⟩
            simpa using this.symm
          rw [et, firstLine_iff] at h4
          rw [h4] at h5
          have ev := isVersion_unique hv h5
          have eo := versionInFront_unique hown h7
          rw [ev, eo]
          exact ⟨h6, h8⟩
        · rintro ⟨h3, h4⟩
          exact ⟨t, w, firstLine t, v, own, hw, (firstLine_iff _ _).2 rfl, hv, h3, hown, h4⟩
      rw [key]
      unfold updateMessages
      simp only [e1, hr, hnum, Bool.not_true, Bool.false_and, Bool.false_eq_true, if_false, List.nil_append, if_true,
        versionLess_iff, decide_eq_true_eq]
      by_cases h3 : v ≠ (0, 0, 0)
      · rw [if_pos h3]
        have hle : versionLess (versionNumbers (ownVersion i.version)) (serverVersions (some t)).1 = true ↔ Older own v := by
          rw [hnum, e1, versionLess_iff]
        by_cases h4 : Older own v
        · rw [if_pos (hle.2 h4)]; exact ⟨fun _ => rfl, fun h => absurd ⟨h3, h4⟩ h⟩
        · rw [if_neg (fun h => h4 (hle.1 h))]; exact ⟨fun h => absurd h.2 h4, fun _ => by simp⟩
      · rw [if_neg h3]; exact ⟨fun h => absurd h.1 h3, fun _ => by simp⟩
    · have hv' : ∀ v, ¬ IsVersion (firstLine t) v := fun v h => hv ⟨v, h⟩
      have hno : ¬ UpdateKnown s ck.cookiePath i.name i.version := by
        rintro ⟨text, w', line, v', own', h3, h4, h5, -⟩
        have et : text = t := by
          have := (h2 text).2 ⟨w', h3⟩
          simpa using this.symm
        rw [et, firstLine_iff] at h4
        exact hv' v' (h4 ▸ h5)
      refine ⟨fun h => absurd h hno, fun _ => ?_⟩
      unfold updateMessages
      simp [hB hv', hr]

/-- What a build with assertions prints, for the developer, in this order: a hint for apps the server does not know; a hint
on a new version of Sharg, from the second line of the file (or from the first one, if there is no second); a hint that the
server knows only an older version of the app. It never prints the message of C54. -/
theorem C54_messages_for_developers (i : CheckInput) (ck : Checker) (s : System) (hr : i.ndebug = false) (text : Str) (w : Bool)
    (hf : Reaches s.disk (locOf s.cwd (pathJoin ck.cookiePath (i.name ++ ".version".toList))) (.file text true w))
    (line second : Str) (hl : FirstLine text line) (hl2 : LastRead text second)
    (hs : ∀ v, IsVersion line v → Small v) (hs2 : ∀ v, IsVersion second v → Small v)
    (own : Nat × Nat × Nat) (hown : VersionInFront i.version own) (ho : Small own) :
    ∃ a b c, (performCheck i ck s).state.stderr = s.stderr ++ a ++ b ++ c ∧
      (a = messageUnregisteredApp ∧ line = "UNREGISTERED_APP".toList ∨ a = [] ∧ line ≠ "UNREGISTERED_APP".toList) ∧
      (b = messageShargUpdate ∧ (∃ v, IsVersion second v ∧ v ≠ (0, 0, 0) ∧ Older i.shargVersion v) ∨
        b = [] ∧ ∀ v, IsVersion second v → v ≠ (0, 0, 0) → ¬ Older i.shargVersion v) ∧
      (c = messageRegisteredAppUpdate ∧ (∃ v, IsVersion line v ∧ v ≠ (0, 0, 0) ∧ Older v own) ∨
        c = [] ∧ ∀ v, IsVersion line v → v ≠ (0, 0, 0) → ¬ Older v own) := by
  obtain ⟨content, h1, h2⟩ := version_content i ck s
  have hc : content = some text := (h2 text).2 ⟨w, hf⟩
  subst hc
  rw [firstLine_iff] at hl
  rw [lastRead_iff] at hl2
  subst hl hl2
  rw [performCheck_messages i ck s _ h1]
  have hnum := own_numbers i.version own hown ho
  obtain ⟨hA, hB⟩ := serverVersions_app text hs
  unfold updateMessages
  dsimp only
  simp only [hr, hnum, Bool.not_false, Bool.true_and, Bool.false_eq_true, if_false]
  rw [← List.append_assoc, ← List.append_assoc]
  refine ⟨_, _, _, rfl, ?_, ?_, ?_⟩
  · by_cases h : firstLine text = unregisteredApp
    · left; exact ⟨by simp [h], h⟩
    · right; exact ⟨by simp [h], h⟩
  · have e : (serverVersions (some text)).2 = versionNumbers (secondLine text) := rfl
    rw [e]
    by_cases hv : ∃ v, IsVersion (secondLine text) v
    · obtain ⟨v, hv⟩ := hv
      rw [versionNumbers_version hv (hs2 v hv)]
      by_cases h3 : v ≠ (0, 0, 0) ∧ Older i.shargVersion v
      · left
        refine ⟨?_, v, hv, h3⟩
        rw [if_pos]
        simp [h3.1, (versionLess_iff _ _).2 h3.2]
      · right
        refine ⟨?_, fun v' hv' h4 h5 => h3 ?_⟩
        · rw [if_neg]
          intro h
          simp only [Bool.and_eq_true, decide_eq_true_eq, versionLess_iff] at h
          exact h3 h
        · rw [isVersion_unique hv hv']; exact ⟨h4, h5⟩
    · right
      refine ⟨?_, fun v hv' => absurd ⟨v, hv'⟩ hv⟩
      rw [versionNumbers_other (fun v h => hv ⟨v, h⟩)]
      simp
  · by_cases hv : ∃ v, IsVersion (firstLine text) v
    · obtain ⟨v, hv⟩ := hv
      rw [hA v hv]
      by_cases h3 : v ≠ (0, 0, 0) ∧ Older v own
      · left
        refine ⟨?_, v, hv, h3⟩
        rw [if_pos (by simp [h3.1]), if_pos ((versionLess_iff _ _).2 h3.2)]
      · right
        refine ⟨?_, fun v' hv' h4 h5 => h3 ?_⟩
        · split
          · rename_i h4
            rw [if_neg]
            intro h
            exact h3 ⟨by simpa using h4, (versionLess_iff _ _).1 h⟩
          · rfl
        · rw [isVersion_unique hv hv']; exact ⟨h4, h5⟩
    · right
      refine ⟨?_, fun v hv' => absurd ⟨v, hv'⟩ hv⟩
      rw [hB (fun v h => hv ⟨v, h⟩)]
      simp

/-- An app whose server knows version 1.10.0: the comparison is numerical. -/
theorem ex_updateKnown : UpdateKnown (exSystem [exFile "app.version" "1.10.0\n1.1.2\n"] 1000000 "") "/h/.config/seqan".toList
    "app".toList "1.2.3".toList :=
  ⟨"1.10.0\n1.1.2\n".toList, true, "1.10.0".toList, (1, 10, 0), (1, 2, 3), (lookup_found_iff _ _ _).1 (by decide +kernel),
    (firstLine_iff _ _).2 (by decide +kernel), ⟨['1'], ['1', '0'], ['0'], by decide, by decide, by decide⟩, by decide,
    Or.inl ⟨"1.2.3".toList, [], by decide, ⟨['1'], ['2'], ['3'], by decide, by decide, by decide⟩, by simp⟩,
    Or.inr ⟨rfl, Or.inl (by decide)⟩⟩

example : (runVersionCheck exCheck true (some true) (exSystem [exFile "app.version" "1.10.0\n1.1.2\n"] 1000000 "")).state.stderr
    = messageAppUpdate [] := by decide +kernel

/-- C54 does not hold as stated: a number of `2^31` or more counts as 0, so that the newer version 2147483648.0.0 is taken for
no version at all; and 1.2147483648.0 is older than 1.2.3. -/
theorem C54_large_numbers_ignored :
    (runVersionCheck exCheck true (some true) (exSystem [exFile "app.version" "2147483648.0.0\n"] 1000000 "")).state.stderr = [] ∧
    (runVersionCheck exCheck true (some true) (exSystem [exFile "app.version" "1.2147483648.0\n"] 1000000 "")).state.stderr = [] := by
  decide +kernel

/-- C54 does not hold for builds with assertions: they do not print the message. -/
theorem C54_debug_build_silent :
    (runVersionCheck { exCheck with ndebug := false } true (some true)
      (exSystem [exFile "app.version" "1.10.0\n1.1.2\n"] 1000000 "")).state.stderr = [] := by
  decide +kernel

/-- If the file has only one line, without a newline at its end, the version of the app is taken for a version of Sharg, too: a
new version of the app is announced as a new version of Sharg. -/
theorem C54_one_line_read_twice :
    (runVersionCheck { exCheck with ndebug := false } true (some true)
      (exSystem [exFile "app.version" "1.10.0"] 1000000 "")).state.stderr = messageShargUpdate := by
  decide +kernel

/-! ### C55 -/

theorem makeChecker_frame (i : CheckInput) (s : System) :
    (makeChecker i s).state = { s with disk := (makeChecker i s).state.disk } ∧ OnlyTestFiles s (makeChecker i s).state.disk := by
  have fr := getPath_frame i.ndebug s
  have e : (makeChecker i s).state = (getPath i.ndebug s).state := by
    unfold makeChecker
    rw [M.bind_run]
    cases getPath i.ndebug s with
    | err e s' => rfl
    | ok p s' => dsimp only; split <;> rfl
  rw [e]
  exact fr

theorem run_off (i : CheckInput) (user : Option Bool) (s : System) :
    (runVersionCheck i false user s).state = (makeChecker i s).state ∧
    ((runVersionCheck i false user s).exn? = (makeChecker i s).exn?) := by
  unfold runVersionCheck
  rw [M.bind_run]
  cases makeChecker i s with
  | err e s' => exact ⟨rfl, rfl⟩
  | ok ck s' => exact ⟨rfl, rfl⟩

/-- C55, what is true: with notifications switched off no command is started, nothing is printed or read, and on the disk
nothing changes but the two directories and the test files. The user's wish does not matter. -/
theorem C55_switched_off_partial (i : CheckInput) (user : Option Bool) (s : System) :
    (runVersionCheck i false user s).state = { s with disk := (runVersionCheck i false user s).state.disk } ∧
    OnlyTestFiles s (runVersionCheck i false user s).state.disk := by
  rw [(run_off i user s).1]
  exact makeChecker_frame i s

/-- C55: in a usable directory without a file `dummy.txt` nothing at all changes. -/
theorem C55_no_trace_partial (i : CheckInput) (user : Option Bool) (s : System) (h : Str) (hu : Usable s h)
    (hn : matchesNameRegex i.name = true) (hd : s.disk.node? (dummyIn (seqanDir s.cwd h)) = none) :
    ∃ d, runVersionCheck i false user s = .ok () { s with disk := d } ∧ ∀ q, d.node? q = s.disk.node? q := by
  obtain ⟨d, h1, h2, h3⟩ := makeChecker_usable i s h hu hn
  refine ⟨d, (bind_of_ok h1).trans rfl, fun q => ?_⟩
  by_cases hq : q = dummyIn (seqanDir s.cwd h)
  · rw [hq, hd, h2]
  · exact h3 q hq

theorem onlyTestFiles_trans {s : System} {o : Str} {d d' : Disk} (h1 : OnlyTestFiles s d)
    (h2 : OnlyTestFiles { s with disk := d, stdout := o } d') : OnlyTestFiles s d' := by
  intro q
  rcases h2 q with h | h | ⟨h, h', h''⟩
  · exact Or.inl h
  · rcases h1 q with k | k | ⟨k, k', k''⟩
    · exact Or.inl k
    · exact Or.inr (Or.inl (h.trans k))
    · exact Or.inr (Or.inr ⟨k, h.trans k', k''⟩)
  · rcases h1 q with k | k | ⟨k, k', k''⟩
    · exact Or.inl k
    · exact Or.inr (Or.inr ⟨k ▸ h, h', h''⟩)
    · have h : d.node? q = none := h
      rw [h] at k'; cases k'

/-- C55 for the whole of `parse()`: if no validator touches the world, the only traces of a call, returning or not, are text
on the standard output, the two directories, and the missing test files. -/
theorem C55_parse_partial (r : Surroundings) (g : Prog System) (hoff : g.parser.notify = false)
    (h1 : ∀ d ∈ (declsOf g.parser.operations).options, ∀ x w, (d.validator x w).2 = w)
    (h2 : ∀ d ∈ (declsOf g.parser.operations).positionals, ∀ x w, (d.validator x w).2 = w) :
    ∃ d out, (parse r.env g).2.world = { g.world with disk := d, stdout := g.world.stdout ++ out } ∧ OnlyTestFiles g.world d := by
  refine parse_guards (P := fun w => ∃ d out, w = { g.world with disk := d, stdout := g.world.stdout ++ out } ∧
    OnlyTestFiles g.world d) r.env g ?_ ?_ ?_ ?_ ?_
  · rintro u w ⟨d, out, rfl, hd⟩
    rw [hoff]
    have h3 := C55_switched_off_partial (r.check g.parser.appName) u { g.world with disk := d, stdout := g.world.stdout ++ out }
    refine ⟨_, out, h3.1, onlyTestFiles_trans hd h3.2⟩
  · rintro f p st w ⟨d, out, rfl, hd⟩
    exact ⟨d, out ++ (pageOf r.pages f p st).2, by simp [Surroundings.env], hd⟩
  · intro d hd x w hw
    rw [h1 d hd x w]; exact hw
  · intro d hd x w hw
    rw [h2 d hd x w]; exact hw
  · exact ⟨g.world.disk, [], by simp, fun q => Or.inr (Or.inl rfl)⟩

/-- A home directory without `.config`. -/
def exFresh : System := { exSystem [] 1000000 "" with disk := [([], .dir true false true), (["h".toList], .dir true true true)] }

/-- C55 does not hold as stated: although the developer switched notifications off, a run creates `~/.config/seqan` ... -/
theorem C55_directories_created :
    exFresh.disk.node? ["h".toList, ".config".toList, "seqan".toList] = none ∧
    (runVersionCheck exCheck false none exFresh).state.disk.node? ["h".toList, ".config".toList] = some (.dir true true true) ∧
    (runVersionCheck exCheck false none exFresh).state.disk.node? ["h".toList, ".config".toList, "seqan".toList]
      = some (.dir true true true) := by
  decide +kernel

/-- ... and deletes a file `dummy.txt` in it, for every usable directory. -/
theorem C55_dummy_deleted (i : CheckInput) (user : Option Bool) (s : System) (h : Str) (hu : Usable s h)
    (hn : matchesNameRegex i.name = true) :
    ∃ s', runVersionCheck i false user s = .ok () s' ∧ s'.disk.node? (dummyIn (seqanDir s.cwd h)) = none := by
  obtain ⟨d, h1, h2, -⟩ := makeChecker_usable i s h hu hn
  exact ⟨_, (bind_of_ok h1).trans rfl, h2⟩

/-- Such a directory, with a file that can be lost. -/
example : Usable (exSystem [exFile "dummy.txt" "my notes"] 1000000 "") "/h".toList :=
  ⟨rfl, ⟨true, (lookup_found_iff _ _ _).1 (by decide +kernel)⟩, fun n hn => ⟨"my notes".toList, true, by
    have : (exSystem [exFile "dummy.txt" "my notes"] 1000000 "").disk.node?
      (dummyIn (seqanDir (exSystem [exFile "dummy.txt" "my notes"] 1000000 "").cwd "/h".toList)) =
        some (.file "my notes".toList true true) := by decide +kernel
    rw [this] at hn
    cases hn
    rfl⟩⟩

end Sharg
