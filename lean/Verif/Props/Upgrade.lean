import Verif.Lemmas.Upgrade

/-!
# C96: new options and flags do not break old command lines
-/

namespace Sharg

open Spec

variable {W : Type}

/-- The program with the set-up `cs`, before `parse()`. -/
abbrev released (env : Env W) (cs : List (Call W)) (i : Init) (st : Store) (w : W) : Prog W :=
  runActions env (cs.map .call) (start i st w)

theorem releases_along (env : Env W) (old : Char → Str → Bool) (cs : List (Call W)) (i : Init) (st : Store) (w : W)
    (ha : AllAccepted env cs (start i st w)) (hr : NoneRequired old cs) :
    AllAccepted env (olderRelease old cs) (start i st w) ∧
      Along old (released env (olderRelease old cs) i st w) (released env cs i st w) :=
  along_run env old cs _ _ (along_start old i st w) ha hr

theorem arguments_setup (env : Env W) (cs : List (Call W)) (g : Prog W) :
    (runActions env (cs.map .call) g).parser.arguments = g.parser.arguments := by
  induction cs generalizing g with
  | nil => rfl
  | cons c cs ih =>
    rw [List.map_cons, runActions, ih]
    exact (call_keeps env c g).2.1

/-- C96: options and flags can be left out of a set-up: the remaining calls are accepted as before. -/
theorem C96_older_accepted (env : Env W) (old : Char → Str → Bool) (cs : List (Call W)) (i : Init) (st : Store) (w : W)
    (ha : AllAccepted env cs (start i st w)) (hr : NoneRequired old cs) : AllAccepted env (olderRelease old cs) (start i st w) :=
  (releases_along env old cs i st w ha hr).1

/-- C96 (partial): if no argument that the parser looks at could be taken for a new option or flag, then `parse()` ends in
the old release as in the new one, with a return or an exception: the same outcome, variables, world and arguments for
the sub-parser; or both come to the same page. The arguments behind a subcommand are not restricted. Missing for the
English property: values that begin like a new option, see `C96_inserted_option_takes_value`. -/
theorem C96_upgrade_partial (env : Env W) (old : Char → Str → Bool) (cs : List (Call W)) (i : Init) (st : Store) (w : W)
    (ha : AllAccepted env cs (start i st w)) (hr : NoneRequired old cs)
    (hn : ∀ exe args toks stop, i.arguments = exe :: args →
      Reading (released env (olderRelease old cs) i st w).parser.options
        (released env (olderRelease old cs) i st w).parser.subcommands args toks stop →
      NotMeant (fun d => old d.short d.long) (fun f => old f.short f.long) (decls (released env cs i st w))
        (renderToks toks ++ stop.looked)) :
    SameEnd (parse env (released env (olderRelease old cs) i st w)) (parse env (released env cs i st w)) ∨
      SamePage env (parse env (released env (olderRelease old cs) i st w)) (parse env (released env cs i st w)) := by
  obtain ⟨_, h⟩ := releases_along env old cs i st w ha hr
  refine parse_upgrade env h.upgrade (idsOk_reachable ⟨i, st, w, _, rfl⟩) (fun exe args toks stop he hread => ?_)
  refine hn exe args toks stop ?_ hread
  rw [← he]
  exact (arguments_setup env _ (start i st w)).symm

/-- C96 (partial): the same, with a condition on the whole line. -/
theorem C96_upgrade_line_partial (env : Env W) (old : Char → Str → Bool) (cs : List (Call W)) (i : Init) (st : Store) (w : W)
    (ha : AllAccepted env cs (start i st w)) (hr : NoneRequired old cs)
    (hn : NotMeant (fun d => old d.short d.long) (fun f => old f.short f.long) (decls (released env cs i st w)) (i.arguments.drop 1)) :
    SameEnd (parse env (released env (olderRelease old cs) i st w)) (parse env (released env cs i st w)) ∨
      SamePage env (parse env (released env (olderRelease old cs) i st w)) (parse env (released env cs i st w)) := by
  refine C96_upgrade_partial env old cs i st w ha hr (fun exe args toks stop he hread => ?_)
  rw [he] at hn
  exact hn.mono (looked_prefix hread)

/-- C96 (partial): scripts that worked go on working. If the new options were added behind the old ones and are not required, then
every line with which `parse()` returned in the old release returns in the new one with the same variables, world and
arguments for the sub-parser, also if values begin like a new option. Conditions: the identifiers of new options
themselves are not arguments; words behind `--` do not look like groups with a new flag; and odd arguments do not
contain one. -/
theorem C96_appended_partial (env : Env W) (old : Char → Str → Bool) (cs : List (Call W)) (i : Init) (st : Store) (w : W)
    (ha : AllAccepted env cs (start i st w)) (hr : NoneRequired old cs) (hl : NewOptionsLast old cs)
    (hn : ∀ exe args toks stop, i.arguments = exe :: args →
      Reading (released env (olderRelease old cs) i st w).parser.options
        (released env (olderRelease old cs) i st w).parser.subcommands args toks stop →
      NotUsed (fun d => old d.short d.long) (fun f => old f.short f.long) (decls (released env cs i st w))
        (renderToks toks ++ stop.looked))
    (g₁ : Prog W) (hret : parse env (released env (olderRelease old cs) i st w) = (.returned, g₁)) :
    ∃ g₂, parse env (released env cs i st w) = (.returned, g₂) ∧ g₂.store = g₁.store ∧ g₂.world = g₁.world ∧
      g₂.parser.subParser = g₁.parser.subParser := by
  obtain ⟨_, h⟩ := releases_along env old cs i st w ha hr
  refine parse_appended env h.upgrade (idsOk_reachable ⟨i, st, w, _, rfl⟩) ?_ (fun exe args toks stop he hread => ?_) g₁ hret
  · rw [h.options]
    exact options_last env old cs i st w ha hl
  · refine hn exe args toks stop ?_ hread
    rw [← he]
    exact (arguments_setup env _ (start i st w)).symm

theorem Spec.NotUsed.mono {old : OptDecl W → Bool} {oldFlag : FlagDecl → Bool} {D : Decls W} {l m : List Str}
    (h : NotUsed old oldFlag D m) (hw : Without l m) : NotUsed old oldFlag D l :=
  ⟨fun e he ho a ha => h.options e he ho a (hw.mem a ha), fun f hf ho a ha => h.odd f hf ho a (hw.before a ha),
    fun f hf ho a ha => h.tail f hf ho a (hw.behind a ha)⟩

/-- C96 (partial): the same, with a condition on the whole line. -/
theorem C96_appended_line_partial (env : Env W) (old : Char → Str → Bool) (cs : List (Call W)) (i : Init) (st : Store) (w : W)
    (ha : AllAccepted env cs (start i st w)) (hr : NoneRequired old cs) (hl : NewOptionsLast old cs)
    (hn : NotUsed (fun d => old d.short d.long) (fun f => old f.short f.long) (decls (released env cs i st w)) (i.arguments.drop 1))
    (g₁ : Prog W) (hret : parse env (released env (olderRelease old cs) i st w) = (.returned, g₁)) :
    ∃ g₂, parse env (released env cs i st w) = (.returned, g₂) ∧ g₂.store = g₁.store ∧ g₂.world = g₁.world ∧
      g₂.parser.subParser = g₁.parser.subParser := by
  refine C96_appended_partial env old cs i st w ha hr hl (fun exe args toks stop he hread => ?_) g₁ hret
  rw [he] at hn
  exact hn.mono (looked_prefix hread)

/-- C96: a new option that is required breaks every line of the old release: the new release does not return unless
some argument begins with an identifier of the new option. -/
theorem C96_required_breaks (env : Env W) (cs : List (Call W)) (i : Init) (st : Store) (w : W)
    (e : OptDecl W) (he : e ∈ (decls (released env cs i st w)).options) (hreq : e.required = true)
    (hn : ∀ a ∈ i.arguments.drop 1, ¬ Names e a) : (parse env (released env cs i st w)).1 ≠ .returned := by
  intro hret
  obtain ⟨a, ha, hna⟩ := C21_required_options_occur env _ _ ⟨i, st, w, _, rfl⟩ (returned_pair hret) e he hreq
  obtain ⟨hready, _, ⟨exe, args, toks, stop, harg, hr, hexn, _, hp⟩, _⟩ := parse_returned env _ _ (returned_pair hret)
  rw [hp] at ha
  have hm := (looked_prefix hr).mem a ((kept_without toks stop hr.toksOk).mem a ((List.takeWhile_sublist _).subset ha))
  have harg : i.arguments = exe :: args := by rw [← harg]; exact (arguments_setup env _ (start i st w)).symm
  exact hn a (by rw [harg]; exact hm) hna

/-! ## The hypotheses of the theorems above are met by concrete programs, and cannot be dropped -/

theorem flagSeen_chars {D : Decls W} {f : FlagDecl} {a : Str} (h : FlagSeen D f a) : f.short ∈ a ∨ ∀ c ∈ f.long, c ∈ a := by
  rcases h with rfl | ⟨t, rfl, _, h⟩ | ⟨t, rfl, _, hs⟩
  · exact Or.inr (fun c hc => by simp [hc])
  · exact Or.inl (by simp [h])
  · obtain ⟨_, _, _, hs⟩ := hs
    exact Or.inr (fun c hc => List.mem_cons_of_mem _ (hs.subset (List.mem_cons_of_mem _ hc)))

/-- The new release of `exCalls`: with an option `-x, --extra` behind the others and a flag `-z, --zap` in front. -/
def exUpgrade : List (Call Unit) :=
  .addFlag { short := 'z', long := "zap".toList } 7 false :: exCalls ++
    [.addOption { short := 'x', long := "extra".toList } 8 false .string fun _ w => (true, w)]

def exOld (c : Char) (_ : Str) : Bool := c != 'x' && c != 'z'

def exLineInit (args : List String) : Init := { exInit with arguments := "app".toList :: args.map String.toList }

theorem exUpgrade_older : olderRelease exOld exUpgrade = exCalls := rfl

theorem exUpgrade_decls (args : List String) (ha : AllAccepted exEnv exUpgrade (start (exLineInit args) exStore ())) :
    (∀ e ∈ (decls (released exEnv exUpgrade (exLineInit args) exStore ())).options, exOld e.short e.long = false →
      e.required = false ∧ e.short = 'x' ∧ e.long = "extra".toList) ∧
    ∀ f ∈ (decls (released exEnv exUpgrade (exLineInit args) exStore ())).flags, exOld f.short f.long = false →
      f.short = 'z' ∧ f.long = "zap".toList := by
  have hd : decls (released exEnv exUpgrade (exLineInit args) exStore ()) = declsOf (exUpgrade.filterMap Call.entry?) := by
    unfold decls released
    rw [operations_of_length exEnv exUpgrade _ ha]
    rfl
  rw [hd]
  refine ⟨?_, ?_⟩
  · intro e he ho
    rcases List.mem_cons.1 he with rfl | he
    · exact absurd ho (by decide)
    rcases List.mem_cons.1 he with rfl | he
    · exact absurd ho (by decide)
    rcases List.mem_cons.1 he with rfl | he
    · exact absurd ho (by decide)
    rcases List.mem_cons.1 he with rfl | he
    · exact ⟨rfl, rfl, rfl⟩
    · cases he
  · intro f hf ho
    rcases List.mem_cons.1 hf with rfl | hf
    · exact ⟨rfl, rfl⟩
    rcases List.mem_cons.1 hf with rfl | hf
    · exact absurd ho (by decide)
    rcases List.mem_cons.1 hf with rfl | hf
    · exact absurd ho (by decide)
    rcases List.mem_cons.1 hf with rfl | hf
    · exact absurd ho (by decide)
    · cases hf

theorem exUpgrade_none : NoneRequired exOld exUpgrade := by
  intro cfg x l ty v hm ho
  simp only [exUpgrade, exCalls, List.cons_append, List.nil_append, List.mem_cons, Call.addOption.injEq, reduceCtorEq, List.not_mem_nil,
    false_or, or_false] at hm
  rcases hm with ⟨rfl, _⟩ | ⟨rfl, _⟩ | ⟨rfl, _⟩ | ⟨rfl, _⟩ <;> rfl

/-- `-n 3 file -vq --list=a - -- -y y` -/
example :
    AllAccepted exEnv exUpgrade (start (exLineInit ["-n", "3", "file", "-vq", "--list=a", "-", "--", "-y", "y"]) exStore ()) ∧
    NoneRequired exOld exUpgrade ∧
    NotMeant (fun d => exOld d.short d.long) (fun f => exOld f.short f.long)
      (decls (released exEnv exUpgrade (exLineInit ["-n", "3", "file", "-vq", "--list=a", "-", "--", "-y", "y"]) exStore ()))
      ((exLineInit ["-n", "3", "file", "-vq", "--list=a", "-", "--", "-y", "y"]).arguments.drop 1) ∧
    (parse exEnv (released exEnv exUpgrade
      (exLineInit ["-n", "3", "file", "-vq", "--list=a", "-", "--", "-y", "y"]) exStore ())).1 = .returned := by
  refine ⟨by decide +kernel, exUpgrade_none, ⟨?_, ?_, ?_⟩, by decide +kernel⟩
  · intro e he ho a ha
    obtain ⟨_, h1, h2⟩ := (exUpgrade_decls _ (by decide +kernel)).1 e he ho
    unfold Names
    rw [h1, h2]
    revert a
    decide +kernel
  · intro f hf ho a ha _ hs
    obtain ⟨h1, h2⟩ := (exUpgrade_decls _ (by decide +kernel)).2 f hf ho
    have := flagSeen_chars hs
    rw [h1, h2] at this
    exact absurd this ((by decide +kernel : ∀ a ∈ (exLineInit ["-n", "3", "file", "-vq", "--list=a", "-", "--", "-y", "y"]).arguments.drop 1,
      ¬ ('z' ∈ a ∨ ∀ c ∈ "zap".toList, c ∈ a)) a ((List.takeWhile_sublist _).subset ha))
  · intro f hf ho a ha hs
    obtain ⟨h1, h2⟩ := (exUpgrade_decls _ (by decide +kernel)).2 f hf ho
    have := flagSeen_chars (D := decls (released exEnv exUpgrade (exLineInit []) exStore ())) (Or.inr (Or.inl hs))
    rw [h1, h2] at this
    exact absurd this ((by decide +kernel : ∀ a ∈ (exLineInit ["-n", "3", "file", "-vq", "--list=a", "-", "--", "-y", "y"]).arguments.drop 1,
      ¬ ('z' ∈ a ∨ ∀ c ∈ "zap".toList, c ∈ a)) a ((List.dropWhile_sublist _).subset (List.mem_of_mem_drop ha)))

/-- `-s -xyz file`: the value begins like the new option. -/
theorem exValue_returns : parse exEnv (released exEnv (olderRelease exOld exUpgrade) (exLineInit ["-s", "-xyz", "file"]) exStore ()) =
    (.returned, (parse exEnv (released exEnv (olderRelease exOld exUpgrade) (exLineInit ["-s", "-xyz", "file"]) exStore ())).2) :=
  returned_pair (by decide +kernel)

example :
    AllAccepted exEnv exUpgrade (start (exLineInit ["-s", "-xyz", "file"]) exStore ()) ∧ NoneRequired exOld exUpgrade ∧
    NewOptionsLast exOld exUpgrade ∧
    NotUsed (fun d => exOld d.short d.long) (fun f => exOld f.short f.long)
      (decls (released exEnv exUpgrade (exLineInit ["-s", "-xyz", "file"]) exStore ()))
      ((exLineInit ["-s", "-xyz", "file"]).arguments.drop 1) ∧
    (parse exEnv (released exEnv exUpgrade (exLineInit ["-s", "-xyz", "file"]) exStore ())).2.store 1 = .one (.str "-xyz".toList) := by
  refine ⟨by decide +kernel, exUpgrade_none, ⟨.addFlag { short := 'z', long := "zap".toList } 7 false :: exCalls, _, rfl, ?_, ?_⟩,
    ⟨?_, ?_, ?_⟩, by decide +kernel⟩
  · intro cfg x l ty v hm
    simp only [exCalls, List.mem_cons, Call.addOption.injEq, reduceCtorEq, List.not_mem_nil, false_or, or_false] at hm
    rcases hm with ⟨rfl, _⟩ | ⟨rfl, _⟩ | ⟨rfl, _⟩ <;> rfl
  · intro cfg x l ty v hm
    simp only [List.mem_cons, Call.addOption.injEq, List.not_mem_nil, or_false] at hm
    obtain ⟨rfl, _⟩ := hm
    rfl
  · intro e he ho a ha
    obtain ⟨_, h1, h2⟩ := (exUpgrade_decls _ (by decide +kernel)).1 e he ho
    unfold Bare
    rw [h1, h2]
    revert a
    decide +kernel
  · intro f hf ho a ha hodd hs
    have hno : ∀ a ∈ before ((exLineInit ["-s", "-xyz", "file"]).arguments.drop 1), '\x00' ∉ a ∧ '-' ∉ a.drop 1 := by decide +kernel
    rcases hodd with h | ⟨t, rfl, _, h⟩
    · exact (hno a ha).1 h
    · exact (hno _ ha).2 h
  · intro f hf ho a ha
    exact absurd ha (by revert a; decide +kernel)

/-- C96: a new option registered *in front of* the old ones takes the value of an old option if it begins like it: `-s -n3 file`
sets `-s` to `-n3` in the old release. In the new one `-n` is set to 3 and `-s` to the empty text. Both return. -/
theorem C96_inserted_option_takes_value :
    let old : Char → Str → Bool := fun c _ => c != 'n'
    let i := exLineInit ["-s", "-n3", "file"]
    AllAccepted exEnv exCalls (start i exStore ()) ∧ NoneRequired old exCalls ∧
    (parse exEnv (released exEnv (olderRelease old exCalls) i exStore ())).1 = .returned ∧
    (parse exEnv (released exEnv (olderRelease old exCalls) i exStore ())).2.store 1 = .one (.str "-n3".toList) ∧
    (parse exEnv (released exEnv exCalls i exStore ())).1 = .returned ∧
    (parse exEnv (released exEnv exCalls i exStore ())).2.store 1 = .one (.str []) ∧
    (parse exEnv (released exEnv exCalls i exStore ())).2.store 0 = .one (.int 3) := by
  refine ⟨by decide +kernel, ?_, by decide +kernel, by decide +kernel, by decide +kernel, by decide +kernel, by decide +kernel⟩
  intro cfg x l ty v hm _
  simp only [exCalls, List.mem_cons, Call.addOption.injEq, reduceCtorEq, List.not_mem_nil, or_false] at hm
  rcases hm with ⟨rfl, _⟩ | ⟨rfl, _⟩ | ⟨rfl, _⟩ <;> rfl

/-- C96: a new flag changes words behind `--`: `-- -zebra` is the word `-zebra` in the old release; in the new one `-ebra`, and
the flag is set. -/
theorem C96_new_flag_changes_word :
    let i := exLineInit ["--", "-zebra"]
    AllAccepted exEnv exUpgrade (start i exStore ()) ∧ NoneRequired exOld exUpgrade ∧ NewOptionsLast exOld exUpgrade ∧
    (parse exEnv (released exEnv (olderRelease exOld exUpgrade) i exStore ())).1 = .returned ∧
    (parse exEnv (released exEnv (olderRelease exOld exUpgrade) i exStore ())).2.store 6 = .many [.str "-zebra".toList] ∧
    (parse exEnv (released exEnv exUpgrade i exStore ())).1 = .returned ∧
    (parse exEnv (released exEnv exUpgrade i exStore ())).2.store 6 = .many [.str "-ebra".toList] ∧
    (parse exEnv (released exEnv exUpgrade i exStore ())).2.store 7 = .one (.bool true) := by
  refine ⟨by decide +kernel, exUpgrade_none, ⟨.addFlag { short := 'z', long := "zap".toList } 7 false :: exCalls, _, rfl, ?_, ?_⟩,
    by decide +kernel, by decide +kernel, by decide +kernel, by decide +kernel, by decide +kernel⟩
  · intro cfg x l ty v hm
    simp only [exCalls, List.mem_cons, Call.addOption.injEq, reduceCtorEq, List.not_mem_nil, false_or, or_false] at hm
    rcases hm with ⟨rfl, _⟩ | ⟨rfl, _⟩ | ⟨rfl, _⟩ <;> rfl
  · intro cfg x l ty v hm
    simp only [List.mem_cons, Call.addOption.injEq, List.not_mem_nil, or_false] at hm
    obtain ⟨rfl, _⟩ := hm
    rfl

/-- The hypotheses of `C96_required_breaks`. -/
example :
    (⟨'r', [], 9, false, .string, true, fun _ w => (true, w)⟩ : OptDecl Unit) ∈
      (decls (released exEnv [.addOption { short := 'r', required := true } 9 false .string fun _ w => (true, w)]
        (exLineInit ["a"]) exStore ())).options ∧
    (parse exEnv (released exEnv [] (exLineInit ["--"]) exStore ())).1 = .returned ∧
    (parse exEnv (released exEnv [.addOption { short := 'r', required := true } 9 false .string fun _ w => (true, w)]
      (exLineInit ["--"]) exStore ())).1 = .threw .requiredOptionMissing :=
  ⟨List.mem_cons_self .., by decide +kernel, by decide +kernel⟩

end Sharg
