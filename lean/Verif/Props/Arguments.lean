import Verif.Lemmas.Returned
import Verif.Props.Setup

/-!
# Properties of arbitrary argument vectors: C18, C20, C21 (first half), C22, C25, C26, C28

All statements are about any program (any history of set-up calls) and any argument vector on which `parse()` returns
normally. `g'.parser.formatArguments` are the arguments handed to the option parser: by C16 the given ones without the
predefined requests. `before` and `behind` split them at the first `--`.
-/

set_option linter.unusedSimpArgs false

namespace Sharg

open Spec

variable {W : Type}

theorem reachable_returned {env : Env W} {g g' : Prog W} (hg : Reachable env g) (h : parse env g = (.returned, g')) :
    Inv g.parser ∧ IdsOk (declsOf g.parser.operations) ∧
    ∃ w₁ s, formatParse env.ndebug (declsOf g.parser.operations) g'.parser.formatArguments g.store w₁ = .ok () s ∧
      g'.store = s.store ∧ g'.world = s.world := by
  obtain ⟨i, st, w, as, rfl⟩ := hg
  obtain ⟨h1, h2, h3, w1, s, h4, h5, h6⟩ := returned_run env i as st w g' h
  rw [h3] at h2 h4
  exact ⟨h1, h2, w1, s, h4, h5, h6⟩

theorem positional_lists_last {p : Parser W} (h : Inv p) :
    ∀ d ∈ (declsOf p.operations).positionals.dropLast, d.isList = false := by
  have key : ∀ ops : List (Entry W),
      (∀ a b e, ops = a ++ e :: b → e.isPositionalList = true → ∀ e' ∈ b, e'.isPositional = false) →
      ∀ d ∈ (declsOf ops).positionals.dropLast, d.isList = false := by
    intro ops
    induction ops with
    | nil => intro _ d hd; simp [declsOf] at hd
    | cons e ops ih =>
      intro hl d hd
      have ih := ih (fun a b e' he => hl (e :: a) b e' (by rw [he]; rfl))
      cases e with
      | option cfg x l ty v => exact ih d hd
      | flag cfg x => exact ih d hd
      | positional cfg x l ty v =>
        have e1 : (declsOf (Entry.positional cfg x l ty v :: ops)).positionals =
            ⟨x, l, ty, v⟩ :: (declsOf ops).positionals := rfl
        rw [e1] at hd
        cases hp : (declsOf ops).positionals with
        | nil => rw [hp] at hd; simp at hd
        | cons q qs =>
          rw [hp, List.dropLast_cons_cons] at hd
          rcases List.mem_cons.1 hd with rfl | hd
          · cases hll : l with
            | false => rfl
            | true =>
              subst hll
              exfalso
              have hq : q ∈ (declsOf ops).positionals := by rw [hp]; simp
              simp only [declsOf, List.mem_filterMap] at hq
              obtain ⟨e', he', hq⟩ := hq
              have := hl [] ops _ rfl rfl e' he'
              cases e' <;> simp_all [Entry.isPositional]
          · exact ih d (by rw [hp]; exact hd)
      | _ => exact ih d hd
  exact key _ h.posLast

/-! ## C18 -/

theorem settled_of_becomes {D : Decls W} {l m : List Str} (h : Pointwise (Becomes D) l m)
    (hm : ∀ a ∈ m, looksLikeId a = false) : Pointwise (Settled D) l m := by
  induction h with
  | nil => exact .nil
  | @cons a b l m h1 h2 ih =>
    refine .cons ?_ (ih (fun x hx => hm x (by simp [hx])))
    have hb := hm b (by simp)
    cases h1 with
    | same =>
      unfold looksLikeId at hb
      cases a with
      | nil => exact .empty
      | cons c t =>
        refine .word ⟨by simp, ?_⟩
        by_cases hc : c = '-'
        · subst hc
          cases t with
          | nil => exact Or.inl rfl
          | cons y t => simp at hb
        · exact Or.inr (by simpa using hc)
    | @shrink t rest hr _ _ =>
      cases rest with
      | nil => exact absurd rfl hr
      | cons y t => simp [looksLikeId] at hb
    | gone hf => exact .flags hf

theorem pointwise_cons_left {α β : Type} {R : α → β → Prop} {a : α} {l : List α} {m : List β}
    (h : Pointwise R (a :: l) m) : ∃ b m', m = b :: m' ∧ R a b ∧ Pointwise R l m' := by
  cases h with
  | cons h1 h2 => exact ⟨_, _, rfl, h1, h2⟩

/-- C18: on success, every argument is accounted for. Options use up arguments in front of `--` (`Uses`: an identifier
with attached value, an identifier and the next argument, ...); what they leave is empty, consists of flags, or is a
word (`Settled`); behind `--` arguments may lose characters that are short flags (`Becomes`, see C15); the words that
remain fit the positional options. -/
theorem C18_every_argument_accounted_for (env : Env W) (g g' : Prog W) (hg : Reachable env g)
    (h : parse env g = (.returned, g')) :
    let D := declsOf g.parser.operations
    let args := g'.parser.formatArguments
    ∃ used left tail, Uses D (before args) used ∧ Pointwise (Settled D) used left ∧
      Pointwise (Becomes D) (behind args) tail ∧
      Fits D.positionals (nonEmpty left ++ nonEmpty tail).length := by
  intro D args
  obtain ⟨hi, hD, w1, s, hf, _, _⟩ := reachable_returned hg h
  obtain ⟨ph⟩ := phases env.ndebug hD args g.store w1 s () hf
  have hfit := fits_of_run env.ndebug D.positionals (positional_lists_last hi) _ _ _ ph.posRun
  simp only [remaining_append] at hfit
  have hpost := ph.flgPost
  rw [ph.optPost] at hpost
  rcases dropWhile_endMarker args with e | e
  · rw [e] at hpost
    cases hp : ph.flg.post with
    | cons b m => rw [hp] at hpost; cases hpost
    | nil =>
      refine ⟨_, _, [], ph.optDone.uses, settled_of_becomes ph.flgPre ph.noIds, ?_, ?_⟩
      · have : behind args = [] := by
          unfold behind
          rw [show args.dropWhile (fun a => decide (a ≠ ['-', '-'])) = [] from e]
          rfl
        rw [this]; exact .nil
      · rw [hp] at hfit
        exact hfit
  · rw [e] at hpost
    obtain ⟨b, m, hp, hb, hm⟩ := pointwise_cons_left hpost
    refine ⟨_, _, m, ph.optDone.uses, settled_of_becomes ph.flgPre ph.noIds, hm, ?_⟩
    rw [hp] at hfit
    simp only [blankHead, remaining_cons_nil] at hfit
    exact hfit

/-! ## C20 -/

/-- C20, first half: `parse()`, whatever its outcome, only changes variables registered with the parser. -/
theorem C20_only_registered_variables_change (env : Env W) (g : Prog W) (x : VarId)
    (h1 : ∀ d ∈ (declsOf g.parser.operations).options, x ≠ d.var)
    (h2 : ∀ f ∈ (declsOf g.parser.operations).flags, x ≠ f.var)
    (h3 : ∀ d ∈ (declsOf g.parser.operations).positionals, x ≠ d.var) :
    (parse env g).2.store x = g.store x := by
  have hfmt : ∀ (f : Format) (k : Prog W), k.parser.operations = g.parser.operations →
      (parseFormat env f k).2.store x = k.store x := by
    intro f k hk
    unfold parseFormat
    split
    · have := keeps_formatParse env.ndebug (declsOf k.parser.operations) k.parser.formatArguments k.store k.world x
        (by rw [hk]; exact h1) (by rw [hk]; exact h2) (by rw [hk]; exact h3)
      split <;> rename_i hr <;> rw [hr] at this <;> exact this
    · split <;> rfl
  have hchk : ∀ (f : Format) (k : Prog W), k.parser.operations = g.parser.operations →
      (checkAndParse env f k).2.store x = k.store x := by
    intro f k hk
    unfold checkAndParse
    split
    · rfl
    · exact hfmt f _ hk
  by_cases hp : Ready g.parser
  · cases ha : g.parser.arguments with
    | nil => rw [parse_no_arguments env g hp ha]
    | cons exe args =>
      obtain ⟨toks, stop, hr⟩ := reading_exists g.parser.options g.parser.subcommands args
      rw [parse_reading env g hp exe args ha toks stop hr]
      cases stop.exn? with
      | some e => rfl
      | none => exact hchk _ _ rfl
  · rw [parse_not_ready env g hp]

/-- C20, second half, except for one accident: if `parse()` returns, a changed variable belongs to an option named in
front of `--`, to a flag that occurs on the line, or to a positional option. The accident is contained in `FlagSeen`
(and `InGroup` behind `--`): an argument that merely looks like the flag once other flags are removed. -/
theorem C20_unset_options_keep_their_default_partial (env : Env W) (g g' : Prog W) (hg : Reachable env g)
    (h : parse env g = (.returned, g')) (x : VarId) (hx : g'.store x ≠ g.store x) :
    let D := declsOf g.parser.operations
    let args := g'.parser.formatArguments
    (∃ d ∈ D.options, d.var = x ∧ ∃ a ∈ before args, Names d a) ∨
    (∃ f ∈ D.flags, f.var = x ∧ ((∃ a ∈ before args, FlagSeen D f a) ∨ ∃ a ∈ behind args, InGroup f a)) ∨
    (∃ d ∈ D.positionals, d.var = x) := by
  intro D args
  obtain ⟨hi, hD, w1, s, hf, hs, _⟩ := reachable_returned hg h
  exact formatParse_changed env.ndebug hD args g.store w1 s () hf x (by rw [← hs]; exact hx)

/-! ## C21, first half -/

/-- C21: if `parse()` returns, every required option was named in front of `--`. -/
theorem C21_required_options_occur (env : Env W) (g g' : Prog W) (hg : Reachable env g)
    (h : parse env g = (.returned, g')) (d : OptDecl W) (hd : d ∈ (declsOf g.parser.operations).options)
    (hr : d.required = true) : ∃ a ∈ before g'.parser.formatArguments, Names d a := by
  obtain ⟨hi, hD, w1, s, hf, hs, _⟩ := reachable_returned hg h
  obtain ⟨ph⟩ := phases env.ndebug hD _ g.store w1 s () hf
  obtain ⟨front, back, hsplit⟩ := List.append_of_mem hd
  obtain ⟨s1, s2, u1, v1, l1, v2, l2, _, _, _, hmem, _, e1, e2, h5⟩ := options_at hD hsplit env.ndebug _ _ _ ph.optRun
  rcases h5 with ⟨_, _, hq, _⟩ | ⟨hne, _⟩
  · rw [hr] at hq; cases hq
  · obtain ⟨a, ha, hn⟩ := found_named e1 e2 hne
    rcases hmem a ha with rfl | ha
    · exact absurd hn (not_names_nil d)
    · exact ⟨a, ha, hn⟩

/-! ## C22 -/

/-- C22: if `parse()` returns, a non-list option is named at most once in front of `--`, not counting arguments that
follow a bare option identifier (they are values). -/
theorem C22_scalar_option_at_most_once (env : Env W) (g g' : Prog W) (hg : Reachable env g)
    (h : parse env g = (.returned, g')) (d : OptDecl W) (hd : d ∈ (declsOf g.parser.operations).options)
    (hl : d.isList = false) :
    ((free (declsOf g.parser.operations) false (before g'.parser.formatArguments)).filter fun a => Names d a).length ≤ 1 := by
  obtain ⟨hi, hD, w1, s, hf, hs, _⟩ := reachable_returned hg h
  obtain ⟨ph⟩ := phases env.ndebug hD _ g.store w1 s () hf
  exact scalar_once hD hd hl env.ndebug _ _ _ ph.optRun

/-! ## C25 -/

/-- C25: if `parse()` returns, each flag is mentioned at most once in front of `--`, not counting arguments that belong
to options. -/
theorem C25_repeated_flag_not_swallowed (env : Env W) (g g' : Prog W) (hg : Reachable env g)
    (h : parse env g = (.returned, g')) (f : FlagDecl) (hf : f ∈ (declsOf g.parser.operations).flags) :
    let D := declsOf g.parser.operations
    argMentions f ((free D false (before g'.parser.formatArguments)).filter fun a => ¬ ∃ d ∈ D.options, Names d a) ≤ 1 := by
  intro D
  obtain ⟨hi, hD, w1, s, hr, hs, _⟩ := reachable_returned hg h
  obtain ⟨ph⟩ := phases env.ndebug hD _ g.store w1 s () hr
  have h1 := free_sum ph.optDone.uses (cellMentions f) false
  have h2 := flags_mentions hD hf _ _ _ ph.flgRun
  rw [argMentions_zero f _ ph.noIds] at h2
  unfold argMentions at h2 ⊢
  exact Nat.le_trans h1 h2

/-! ## C26 -/

/-- C26: if `parse()` returns, every argument in front of `--` that starts with `-`, is longer than that, and does not
follow a bare option identifier, names an option or consists of flags. -/
theorem C26_unknown_identifiers_rejected (env : Env W) (g g' : Prog W) (hg : Reachable env g)
    (h : parse env g = (.returned, g')) (a : Str) (c : Char) (t : Str) (ha : a = '-' :: c :: t)
    (hfree : a ∈ free (declsOf g.parser.operations) false (before g'.parser.formatArguments)) :
    (∃ d ∈ (declsOf g.parser.operations).options, Attached d a ∨ Bare d a) ∨
      FlagArgument (declsOf g.parser.operations) a := by
  obtain ⟨hi, hD, w1, s, hr, hs, _⟩ := reachable_returned hg h
  obtain ⟨ph⟩ := phases env.ndebug hD _ g.store w1 s () hr
  by_cases hn : ∃ d ∈ (declsOf g.parser.operations).options, Names d a
  · left
    rcases free_named ph.optDone.uses ph.optDone.gone false a hfree hn with ⟨d, hd, h⟩ | ⟨d, hd, h⟩
    · exact ⟨d, hd, Or.inl h⟩
    · exact ⟨d, hd, Or.inr h⟩
  · right
    have hm := free_mem ph.optDone.uses hfree (fun d hd hx => hn ⟨d, hd, hx⟩)
    have hset := settled_of_becomes ph.flgPre ph.noIds
    have key : ∀ {l m : List Str}, Pointwise (Settled (declsOf g.parser.operations)) l m → a ∈ l →
        FlagArgument (declsOf g.parser.operations) a := by
      intro l m hp
      induction hp with
      | nil => simp
      | cons h1 _ ih =>
        intro ha'
        rcases List.mem_cons.1 ha' with rfl | ha'
        · cases h1 with
          | empty => simp at ha
          | word hw => subst ha; rcases hw.2 with h | h <;> simp at h
          | flags hfl => exact hfl
        · exact ih ha'
    exact key hset hm

/-! ## C28 -/

theorem attached_not_empty {D : Decls W} (hD : IdsOk D) {d e : OptDecl W} (hd : d ∈ D.options) (he : e ∈ D.options) {a : Str}
    (ha : (d.short ≠ '\x00' ∧ a = ['-', d.short, '=']) ∨ (d.long ≠ [] ∧ a = '-' :: '-' :: (d.long ++ ['=']))) :
    ¬ Attached e a ∧ ¬ Bare e a := by
  have hshort : ∀ {e : OptDecl W}, e ∈ D.options → e.short ≠ '\x00' → e.short ≠ '-' := fun he h0 =>
    (hD.shortChars _ (mem_shortIds_option he h0)).2
  rcases ha with ⟨h0, rfl⟩ | ⟨h0, rfl⟩
  · constructor
    · rintro ⟨v, hv, ⟨h1, h2 | ⟨h2, h3⟩⟩ | ⟨h1, h2⟩⟩
      · simp at h2; exact hv h2.2
      · simp at h3; rw [← h3.2] at h2; simp at h2
      · simp at h2; exact hshort hd h0 h2.1
    · rintro (⟨h1, h2⟩ | ⟨h1, h2⟩)
      · simp at h2
      · simp at h2; exact hshort hd h0 h2.1
  · have hne := hD.no_eq_option hd
    have hne' := hD.no_eq_option he
    constructor
    · rintro ⟨v, hv, ⟨h1, h2 | ⟨h2, h3⟩⟩ | ⟨h1, h2⟩⟩
      · simp at h2; exact hshort he h1 h2.1.symm
      · simp at h3; exact hshort he h1 h3.1.symm
      · simp only [List.cons.injEq, true_and] at h2
        have := eq_of_append_eq hne hne' h2
        rw [this] at h2
        simp at h2
        exact hv h2
    · rintro (⟨h1, h2⟩ | ⟨h1, h2⟩)
      · simp at h2
      · simp only [List.cons.injEq, true_and] at h2
        exact hne' (h2 ▸ by simp)

theorem bare_not_attached {D : Decls W} (hD : IdsOk D) {d e : OptDecl W} (hd : d ∈ D.options) (he : e ∈ D.options) {a : Str}
    (hb : Bare d a) : ¬ Attached e a := by
  have hshort : ∀ {e : OptDecl W}, e ∈ D.options → e.short ≠ '\x00' → e.short ≠ '-' := fun he h0 =>
    (hD.shortChars _ (mem_shortIds_option he h0)).2
  rintro ⟨v, hv, ⟨h1, h2 | ⟨h2, h3⟩⟩ | ⟨h1, h2⟩⟩ <;> rcases hb with ⟨h0, rfl⟩ | ⟨h0, rfl⟩
  · simp at h2
  · simp at h2; exact hshort he h1 h2.1.symm
  · simp at h3; exact hv h3.2
  · simp at h3; exact hshort he h1 h3.1.symm
  · simp at h2
  · simp at h2; exact hD.no_eq_option hd (h2 ▸ by simp)

/-- C28: if `parse()` returns, no argument in front of `--` that is not itself a value has the form `-k=` or `--key=`
for an option. -/
theorem C28_no_empty_attached_value (env : Env W) (g g' : Prog W) (hg : Reachable env g)
    (h : parse env g = (.returned, g')) (d : OptDecl W) (hd : d ∈ (declsOf g.parser.operations).options) (a : Str)
    (ha : (d.short ≠ '\x00' ∧ a = ['-', d.short, '=']) ∨ (d.long ≠ [] ∧ a = '-' :: '-' :: (d.long ++ ['=']))) :
    a ∉ free (declsOf g.parser.operations) false (before g'.parser.formatArguments) := by
  intro hfree
  obtain ⟨hi, hD, w1, s, hr, hs, _⟩ := reachable_returned hg h
  obtain ⟨ph⟩ := phases env.ndebug hD _ g.store w1 s () hr
  have hn : Names d a := by
    rcases ha with ⟨h0, rfl⟩ | ⟨h0, rfl⟩
    · exact Or.inl ⟨h0, ['='], rfl⟩
    · exact Or.inr ⟨h0, Or.inr ⟨[], by simp⟩⟩
  rcases free_named ph.optDone.uses ph.optDone.gone false a hfree ⟨d, hd, hn⟩ with ⟨e, he, hx⟩ | ⟨e, he, hx⟩
  · exact (attached_not_empty hD hd he ha).1 hx
  · exact (attached_not_empty hD hd he ha).2 hx

/-- C28, except for the case below: if `parse()` returns, the last argument in front of `--` (or of the line) is not an
option identifier without value, unless the argument before it is a bare identifier as well. -/
theorem C28_missing_value_reported_partial (env : Env W) (g g' : Prog W) (hg : Reachable env g)
    (h : parse env g = (.returned, g')) (l : List Str) (a : Str) (hl : before g'.parser.formatArguments = l ++ [a])
    (hprev : ∀ b, l.getLast? = some b → ¬ BareAny (declsOf g.parser.operations) b) :
    ¬ BareAny (declsOf g.parser.operations) a := by
  intro hb
  obtain ⟨hi, hD, w1, s, hr, hs, _⟩ := reachable_returned hg h
  obtain ⟨ph⟩ := phases env.ndebug hD _ g.store w1 s () hr
  refine last_not_bare ph.optDone.uses ph.optDone.gone a hb ?_ l hl hprev
  obtain ⟨d, hd, hb⟩ := hb
  exact fun e he => bare_not_attached hD hd he hb

/-! ## Examples and counterexamples -/

/-- An integer option, a string option, a string list option, three flags and a positional list. -/
def exCalls : List (Call Unit) :=
  [.addOption { short := 'n', long := "num".toList } 0 false (.integer (-128) 127) fun _ w => (true, w),
   .addOption { short := 's', long := "str".toList } 1 false .string fun _ w => (true, w),
   .addOption { short := 'l', long := "list".toList } 2 true .string fun _ w => (true, w),
   .addFlag { short := 'v', long := "verbose".toList } 3 false,
   .addFlag { short := 'q', long := [] } 4 false,
   .addFlag { short := '\x00', long := "loud".toList } 5 false,
   .addPositionalOption {} 6 true .string fun _ w => (true, w)]

def exStore : Store := fun x =>
  if x = 2 then .many [.str "default".toList] else if x = 6 then .many []
  else if x = 0 then .one (.int 5) else if x = 1 then .one (.str []) else .one (.bool false)

/-- The program that performs the calls and is started with the arguments. -/
def exRun (cs : List (Call Unit)) (args : List Str) : Prog Unit :=
  runActions exEnv (cs.map .call) (start { exInit with arguments := "app".toList :: args } exStore ())

theorem exRun_reachable (cs : List (Call Unit)) (args : List Str) : Reachable exEnv (exRun cs args) := ⟨_, _, _, _, rfl⟩

def exProg (args : List String) : Prog Unit := exRun exCalls (args.map String.toList)

theorem exProg_reachable (args : List String) : Reachable exEnv (exProg args) := exRun_reachable _ _

/-- The program returns and the variables have the given values. -/
def exReturns (args : List String) (vals : List (VarId × Val)) : Bool :=
  (parse exEnv (exProg args)).1 == .returned && vals.all fun p => (parse exEnv (exProg args)).2.store p.1 == p.2

def exThrows (args : List String) (e : Exn) : Bool := (parse exEnv (exProg args)).1 == .threw e

theorem returned_pair {α : Type} {r : Outcome × α} (h : r.1 = .returned) : r = (.returned, r.2) := by
  cases r; cases h; rfl

theorem exReturns_run {args : List String} {vals : List (VarId × Val)} (h : exReturns args vals = true) :
    parse exEnv (exProg args) = (.returned, (parse exEnv (exProg args)).2) := by
  simp only [exReturns, Bool.and_eq_true, beq_iff_eq] at h
  exact returned_pair h.1

/-- Hypotheses of the theorems above are met by a line with all kinds of arguments ... -/
example : exReturns ["-n", "3", "file", "-vq", "--list=a", "-", "--loud", "--list", "b", "--", "-x"]
    [(0, .one (.int 3)), (2, .many [.str "a".toList, .str "b".toList]), (3, .one (.bool true)), (4, .one (.bool true)),
      (5, .one (.bool true)), (6, .many [.str "file".toList, .str "-".toList, .str "-x".toList])] = true := by decide +kernel

/-- ... and each of the things they exclude is indeed an exception. -/
example : exThrows ["-n", "3", "--num=4", "x"] .optionDeclaredMultipleTimes = true := by decide +kernel
example : exThrows ["-v", "x", "--verbose"] .unknownOption = true := by decide +kernel
example : exThrows ["-vx", "x"] .unknownOption = true := by decide +kernel
example : exThrows ["x", "-n"] .tooFewArguments = true := by decide +kernel
example : exThrows ["x", "--num="] .tooFewArguments = true := by decide +kernel

/-- C20 and C24 fail for flags: `-v-loud` sets the flag `--loud`, which is neither given as `--loud` nor part of a
group of flags. -/
theorem C20_flag_not_given_is_set : exReturns ["-v-loud", "x"] [(3, .one (.bool true)), (5, .one (.bool true))] = true := by
  decide +kernel

/-- C28 fails: in `--list -s x` the value of `--list` is missing; `-s x` is taken first (options are processed in
order of registration), then `--list` receives the empty string left behind. -/
theorem C28_missing_value_not_noticed :
    exReturns ["--list", "-s", "x", "y"] [(1, .one (.str "x".toList)), (2, .many [.str []])] = true := by
  decide +kernel

end Sharg
