import Verif.Lemmas.Ends
import Verif.Props.Mixed

/-!
# How `parse()` ends: C100, C32
-/

namespace Sharg

open Spec

variable {W : Type}

theorem ends_of_core (env : Env W) {g : Prog W} {items : List Item} {tail : Option (List Str)} {w₁ : W} {p : Parser W}
    (hp : parse env g = outcomeOf p (formatParse env.ndebug (decls g) (renderLine items tail) g.store w₁).core) (hg : Reachable env g)
    (hok : NeatLine (decls g) items tail) (st' : Store) (w' : W) (r : Option Exn) :
    (∃ p, parse env g = (endOutcome r, ⟨p, st', w'⟩)) ↔ LineEnds env.ndebug (decls g) items tail g.store w₁ st' w' r := by
  have hD := idsOk_reachable hg
  rw [lineEnds_iff hD (positional_lists_last (inv_reachable hg)) hok env.ndebug g.store st' w₁ w' r, hp]
  obtain ⟨r₁, c₁, hc⟩ := endRes_exists (formatParse env.ndebug (decls g) (renderLine items tail) g.store w₁).core
  rw [hc, endRes_inj]
  constructor
  · rintro ⟨p, h⟩
    cases r <;> cases r₁ <;> simp only [endRes, outcomeOf, endOutcome, Prod.mk.injEq, Outcome.threw.injEq, reduceCtorEq, false_and, true_and,
      Prog.mk.injEq] at h
    · exact ⟨rfl, Prod.ext h.2.1 h.2.2⟩
    · obtain ⟨rfl, -, h1, h2⟩ := h
      exact ⟨rfl, Prod.ext h1 h2⟩
  · rintro ⟨rfl, rfl⟩
    exact ⟨p, by cases r₁ <;> rfl⟩

/-- The ending of `parse()` on a line, exactly: return or exception, variables and outside world. -/
theorem C100_ending (env : Env W) (g : Prog W) (hg : Reachable env g) (items : List Item) (tail : Option (List Str))
    (hl : LooseGiven g items tail) (hok : NeatLine (decls g) items tail) (w₁ : W) (hv : CheckPasses env g w₁) (st' : Store) (w' : W)
    (r : Option Exn) :
    (∃ p, parse env g = (endOutcome r, ⟨p, st', w'⟩)) ↔ LineEnds env.ndebug (decls g) items tail g.store w₁ st' w' r := by
  obtain ⟨exe, _, hp⟩ := parse_loose hg hl hv
  exact ends_of_core env hp hg hok st' w' r

/-- The same for lines of declared identifiers. -/
theorem C100_declared_identifiers (env : Env W) (g : Prog W) (hg : Reachable env g) (items : List Item) (tail : Option (List Str))
    (hl : LineGiven g items tail) (hit : ∀ it ∈ items, it.Ok (decls g)) (hok : NeatLine (decls g) items tail) (w₁ : W)
    (hv : CheckPasses env g w₁) (st' : Store) (w' : W) (r : Option Exn) :
    (∃ p, parse env g = (endOutcome r, ⟨p, st', w'⟩)) ↔ LineEnds env.ndebug (decls g) items tail g.store w₁ st' w' r := by
  obtain ⟨exe, _, hp⟩ := parse_line hg hl hit hv
  exact ends_of_core env hp hg hok st' w' r

/-- There is exactly one ending, so the description misses no line and is never ambiguous. -/
theorem C100_one_ending (env : Env W) (g : Prog W) (hg : Reachable env g) (items : List Item) (tail : Option (List Str))
    (hl : LooseGiven g items tail) (hok : NeatLine (decls g) items tail) (w₁ : W) (hv : CheckPasses env g w₁) :
    ∃ st' w' r, LineEnds env.ndebug (decls g) items tail g.store w₁ st' w' r ∧
      (∀ st₂ w₂ r₂, LineEnds env.ndebug (decls g) items tail g.store w₁ st₂ w₂ r₂ → st₂ = st' ∧ w₂ = w' ∧ r₂ = r) ∧
      ∃ p, parse env g = (endOutcome r, ⟨p, st', w'⟩) := by
  obtain ⟨st', w', r, h⟩ := lineEnds_exists env.ndebug (decls g) items tail g.store w₁
  have key := C100_ending env g hg items tail hl hok w₁ hv
  obtain ⟨p, hp⟩ := (key st' w' r).2 h
  refine ⟨st', w', r, h, fun st₂ w₂ r₂ h2 => ?_, p, hp⟩
  obtain ⟨p₂, hp₂⟩ := (key st₂ w₂ r₂).2 h2
  rw [hp] at hp₂
  cases r <;> cases r₂ <;> simp only [endOutcome, Prod.mk.injEq, Outcome.threw.injEq, reduceCtorEq, false_and, true_and, Prog.mk.injEq] at hp₂
  · exact ⟨hp₂.2.1.symm, hp₂.2.2.symm, rfl⟩
  · exact ⟨hp₂.2.2.1.symm, hp₂.2.2.2.symm, by rw [hp₂.1]⟩

/-- The first option with a mistake decides, whatever else is on the line: unknown options, repeated flags, too few or too many words. -/
theorem C100_first_mistake (env : Env W) (g : Prog W) (hg : Reachable env g) (items : List Item) (tail : Option (List Str))
    (hl : LooseGiven g items tail) (w₁ : W) (hv : CheckPasses env g w₁) (st' : Store) (w' : W) (e : Exn)
    (h : OptionsEnd env.ndebug items (decls g).options g.store w₁ st' w' (some e)) : ∃ p, parse env g = (.threw e, ⟨p, st', w'⟩) := by
  have hD := idsOk_reachable hg
  obtain ⟨exe, _, hp⟩ := parse_loose hg hl hv
  refine ⟨plainScanned g.parser exe (renderLine items tail), hp.trans ?_⟩
  change outcomeOf _ (formatParse env.ndebug (decls g) _ _ _).core = _
  rw [formatParse_core hD items hl.itemsLoose tail, M.bind_run, optionsEnd_run env.ndebug items _ h]
  rfl

/-- What remains of C32: whether `parse()` returns or throws, it changes no variable but those of options given on the line, of flags
mentioned there, and of positional options. -/
theorem C32_unmentioned_untouched_partial (env : Env W) (g : Prog W) (hg : Reachable env g) (items : List Item) (tail : Option (List Str))
    (hl : LooseGiven g items tail) (hok : NeatLine (decls g) items tail) (w₁ : W) (hv : CheckPasses env g w₁) (x : VarId)
    (h1 : ∀ d ∈ (decls g).options, d.var = x → shortTexts d items = [] ∧ longTexts d items = [])
    (h2 : ∀ f ∈ (decls g).flags, f.var = x → mentions f items = 0) (h3 : ∀ d ∈ (decls g).positionals, d.var ≠ x) :
    (parse env g).2.store x = g.store x := by
  obtain ⟨st', w', r, h, -, p, hp⟩ := C100_one_ending env g hg items tail hl hok w₁ hv
  rw [hp]
  exact lineEnds_frame h x h1 h2 h3

/-- And if an option has a mistake, the options behind it, the flags and the positional options keep their values. -/
theorem C32_behind_mistake_untouched_partial (env : Env W) (g : Prog W) (hg : Reachable env g) (items : List Item) (tail : Option (List Str))
    (hl : LooseGiven g items tail) (w₁ : W) (hv : CheckPasses env g w₁) (front back : List (OptDecl W)) (d : OptDecl W)
    (hsplit : (decls g).options = front ++ d :: back) (st₁ st' : Store) (w₂ w' : W) (e : Exn)
    (hfront : OptionsEnd env.ndebug items front g.store w₁ st₁ w₂ none) (hd : OptionEnds env.ndebug items d st₁ w₂ st' w' (some e)) :
    (∃ p, parse env g = (.threw e, ⟨p, st', w'⟩)) ∧
    ∀ x, (∀ c ∈ front ++ [d], c.var ≠ x) → st' x = g.store x := by
  have key : ∀ (ds : List (OptDecl W)) (st : Store) (w : W), OptionsEnd env.ndebug items ds st w st₁ w₂ none →
      OptionsEnd env.ndebug items (ds ++ d :: back) st w st' w' (some e) := by
    intro ds
    induction ds with
    | nil => rintro st w ⟨rfl, rfl, -⟩; exact ⟨st', w', some e, hd, rfl, rfl, rfl⟩
    | cons c ds ih =>
      rintro st w ⟨st₃, w₃, r₃, h3, h4⟩
      cases r₃ with
      | some _ => cases h4.2.2
      | none => exact ⟨st₃, w₃, none, h3, ih st₃ w₃ h4⟩
  refine ⟨C100_first_mistake env g hg items tail hl w₁ hv st' w' e (by rw [hsplit]; exact key front _ _ hfront), fun x hx => ?_⟩
  rw [(optionEnds_frame hd).1 x (fun he => hx d (by simp) he.symm),
    optionsEnd_frame front hfront x (fun c hc he => absurd he (hx c (by simp [hc])))]

theorem neatLine_of {env : Env W} {g : Prog W} (hg : Reachable env g) {items : List Item} {tail : Option (List Str)}
    (hit : ∀ it ∈ items, it.Ok (decls g)) (htail : ∀ ws, tail = some ws → ∀ w ∈ ws, w ≠ [] ∧ ∀ f ∈ (decls g).flags, ¬ EatenBy f.short w) :
    NeatLine (decls g) items tail := ⟨fun it hi => ((hit it hi).said (idsOk_reachable hg)).1, htail⟩

/-! ## Examples -/

/-- `-n 12x -v 3` -/
def exTrailing : List Item := [.short 'n' .separate "12x".toList, .flags ['v'], .word "3".toList]

/-- `-n 12 -vv 3` -/
def exTwice : List Item := [.short 'n' .separate "12".toList, .flags ['v', 'v'], .word "3".toList]

/-- The number in front of the garbage is stored, everything else is as before. -/
example : ∃ p, parse exEnv (exLine₂ exTrailing) = (.threw .userInputError, ⟨p, exStore.set 0 (.one (.int 12)), ()⟩) := by
  have hst : (exLine₂ exTrailing).store = exStore := rfl
  refine (C100_ending exEnv (exLine₂ exTrailing) (exRun_reachable _ _) exTrailing none (by decide +kernel)
    (neatLine_of (exRun_reachable _ _) (by decide +kernel) (fun _ h => by cases h)) () rfl _ () (some .userInputError)).2 ?_
  rw [exLine₂_decls exTrailing (by decide +kernel), hst]
  have h0 : ReadsTo (.integer (-128) 127) "12x".toList (some (.int 12)) (some .userInputError) :=
    ReadsTo.beginning (a := "12".toList) (b := "x".toList)
      (((readElem_iff (.integer (-128) 127) "12".toList (.int 12)).1 (by decide +kernel)).elim fun v h => by
        obtain ⟨h1, h2⟩ := h; cases h1; exact h2) (by decide) (by decide)
  refine ⟨exStore.set 0 (.one (.int 12)), (), some .userInputError, ⟨exStore.set 0 (.one (.int 12)), (), some .userInputError, ?_, rfl, rfl, rfl⟩, rfl, rfl, rfl⟩
  have hs : shortTexts exNum exTrailing = ["12x".toList] := by decide +kernel
  have hg : longTexts exNum exTrailing = [] := by decide +kernel
  show OptionEnds false exTrailing exNum exStore () _ () _
  unfold OptionEnds
  rw [hs, hg, if_neg (by simp)]
  exact ⟨_, _, ⟨some .userInputError, .stopWritten h0, rfl⟩, rfl, rfl, rfl⟩

/-- The same by running the program; and the repeated flag, the value of `-n` and the flag are there. -/
example : (parse exEnv (exLine₂ exTrailing)).1 = .threw .userInputError ∧ (parse exEnv (exLine₂ exTrailing)).2.store 0 = .one (.int 12) ∧
    (parse exEnv (exLine₂ exTrailing)).2.store 3 = .one (.bool false) ∧
    (parse exEnv (exLine₂ exTwice)).1 = .threw .unknownOption ∧ (parse exEnv (exLine₂ exTwice)).2.store 0 = .one (.int 12) ∧
    (parse exEnv (exLine₂ exTwice)).2.store 3 = .one (.bool true) := by decide +kernel

/-- The conditions are met by the line with a repeated flag. -/
example : Suspect (decls (exLine₂ exTwice)) exTwice ∧ NeatLine (decls (exLine₂ exTwice)) exTwice none ∧
    LooseGiven (exLine₂ exTwice) exTwice none :=
  ⟨Or.inl (by decide +kernel), neatLine_of (exRun_reachable _ _) (by decide +kernel) (fun _ h => by cases h), by decide +kernel⟩

/-- `-n 12 -vx --loudly 3`: unknown flags. -/
def exUnknown : List Item := [.short 'n' .separate "12".toList, .flags ['v', 'x'], .longFlag "loudly".toList, .word "3".toList]

example : LooseGiven (exLine₂ exUnknown) exUnknown none ∧ (parse exEnv (exLine₂ exUnknown)).1 = .threw .unknownOption ∧
    (parse exEnv (exLine₂ exUnknown)).2.store 3 = .one (.bool true) ∧ (parse exEnv (exLine₂ exUnknown)).2.store 6 = exStore 6 := by
  decide +kernel

example : ∃ p, parse exEnv (exLine₂ exUnknown) = (.threw .unknownOption, ⟨p, (exStore.set 0 (.one (.int 12))).set 3 (.one (.bool true)), ()⟩) := by
  refine (C100_ending exEnv (exLine₂ exUnknown) (exRun_reachable _ _) exUnknown none (by decide +kernel) ⟨?_, fun _ h => by cases h⟩ () rfl _ ()
    (some .unknownOption)).2 ?_
  · rw [exLine₂_decls exUnknown (by decide +kernel)]
    intro it hi
    simp only [exUnknown, List.mem_cons, List.not_mem_nil, or_false] at hi
    rcases hi with rfl | rfl | rfl | rfl
    · show Item.Ok (declsOf (List.filterMap Call.entry? exCalls₂)) (.short 'n' .separate "12".toList); decide +kernel
    · exact ⟨by decide, by decide, by decide, by decide +kernel⟩
    · exact ⟨by decide, by decide +kernel⟩
    · show Item.Ok (declsOf (List.filterMap Call.entry? exCalls₂)) (.word "3".toList); decide +kernel
  · rw [exLine₂_decls exUnknown (by decide +kernel)]
    have h0 : Denotes (.integer (-128) 127) "12".toList (.int 12) := (readElem_iff _ _ _).1 (by decide +kernel)
    have hs : shortTexts exNum exUnknown = ["12".toList] := by decide +kernel
    have hg : longTexts exNum exUnknown = [] := by decide +kernel
    refine ⟨exStore.set 0 (.one (.int 12)), (), none, ⟨exStore.set 0 (.one (.int 12)), (), none, ?_, exStore.set 0 (.one (.int 12)), (), none, ?_, rfl, rfl, rfl⟩,
      Or.inl ⟨Or.inr ⟨.longFlag "loudly".toList, by decide, ?_⟩, rfl, rfl, rfl⟩⟩
    · show OptionEnds false exUnknown exNum exStore () _ () _
      unfold OptionEnds
      rw [hs, hg, if_neg (by simp)]
      exact ⟨_, _, ⟨none, .next h0 .nil, rfl⟩, rfl, true, rfl, rfl⟩
    · show OptionEnds false exUnknown exStr _ () _ () _
      unfold OptionEnds
      rw [if_pos (by decide +kernel)]
      exact ⟨rfl, rfl, rfl⟩
    · rintro ⟨f, hf, h⟩
      have hf : f ∈ [(⟨'v', "verbose".toList, 3⟩ : FlagDecl)] := hf
      simp only [List.mem_cons, List.not_mem_nil, or_false] at hf
      subst hf
      exact absurd h (by decide)

example : ∃ st' w' r, LineEnds false (decls (exLine₂ exTwice)) exTwice none (exLine₂ exTwice).store () st' w' r ∧
    ∃ p, parse exEnv (exLine₂ exTwice) = (endOutcome r, ⟨p, st', w'⟩) := by
  obtain ⟨st', w', r, h1, _, h2⟩ := C100_one_ending exEnv (exLine₂ exTwice) (exRun_reachable _ _) exTwice none (by decide +kernel)
    (neatLine_of (exRun_reachable _ _) (by decide +kernel) (fun _ h => by cases h)) () rfl
  exact ⟨st', w', r, h1, h2⟩

/-- `-s bad -x -n 12x`: the mistake in `-n` comes first because `-n` is registered first; `-x` and the missing word are not noticed. -/
def exManyMistakes : List Item := [.short 's' .separate "bad".toList, .flags ['x'], .short 'n' .separate "12x".toList]

example : LooseGiven (exLine₂ exManyMistakes) exManyMistakes none := by decide +kernel

example : (parse exEnv (exLine₂ exManyMistakes)).1 = .threw .userInputError ∧
    (parse exEnv (exLine₂ exManyMistakes)).2.store 1 = exStore 1 := by decide +kernel

/-- The option `-s` is not on the line: its variable is untouched. -/
example : (parse exEnv (exLine₂ exTwice)).2.store 1 = exStore 1 :=
  C32_unmentioned_untouched_partial exEnv (exLine₂ exTwice) (exRun_reachable _ _) exTwice none (by decide +kernel)
    (neatLine_of (exRun_reachable _ _) (by decide +kernel) (fun _ h => by cases h)) () rfl 1
    (by
      rw [exLine₂_decls exTwice (by decide +kernel)]
      intro d hd
      have hd : d ∈ [exNum, exStr] := hd
      simp only [List.mem_cons, List.not_mem_nil, or_false] at hd
      rcases hd with rfl | rfl
      · intro h; cases h
      · intro _; decide +kernel)
    (by decide +kernel) (by decide +kernel)

end Sharg
