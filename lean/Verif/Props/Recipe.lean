import Verif.Lemmas.Recipe
import Verif.Props.Success

/-!
# Property C95: a script can give every value

The positive part is a recipe: one argument per value, one per flag, `--`, the words. The negative part says which values
no command line whatsoever can give.
-/

set_option linter.unusedSimpArgs false

namespace Sharg

open Spec

variable {W : Type}

/-! ## The recipe -/

/-- C95 (for texts): the line written by the recipe makes `parse()` return, and the options hold exactly the values denoted by
the texts (whatever characters they consist of), exactly the chosen flags were set, and the positional options hold the words.
Words are restricted to those that can be passed at all. -/
theorem C95_recipe_delivers_partial (env : Env W) (g : Prog W) (hg : Reachable env g) (vals : OptDecl W → List Str)
    (on : FlagDecl → Bool) (ws : List Str) (hc : CalledWith g (renderLine (recipe (decls g) vals on) (some ws))) (w₁ : W)
    (hv : CheckPasses env g w₁) (hd : VarsDistinct (decls g)) (hw : Passable (decls g) ws)
    (hflag : ∀ f ∈ (decls g).flags, f.short = '\x00' → f.long ≠ "version-check".toList)
    (hreq : ∀ d ∈ (decls g).options, d.required = true → vals d ≠ [])
    (hvals : ∀ d ∈ (decls g).options, vals d ≠ [] → ∃ val, ValueOf d.isList d.ty (vals d) val ∧ ∀ w, (d.validator val w).1 = true)
    (hpos : PositionalsFit (decls g).positionals ws) :
    ∃ g', parse env g = (.returned, g') ∧
      (∀ d ∈ (decls g).options, vals d ≠ [] → ValueOf d.isList d.ty (vals d) (g'.store d.var)) ∧
      (∀ d ∈ (decls g).options, vals d = [] → g'.store d.var = g.store d.var) ∧
      (∀ f ∈ (decls g).flags, g'.store f.var = if on f then .one (.bool true) else g.store f.var) ∧
      PositionalValues (decls g).positionals ws g'.store := by
  have hi := inv_reachable hg
  have hD := idsOk_reachable hg
  have hgiven : ∀ d ∈ (decls g).options, given d (recipe (decls g) vals on) = vals d := fun d hd => given_recipe hi hD vals on hd
  have hl : LineGiven g (recipe (decls g) vals on) (some ws) :=
    { notParsed := hc.notParsed
      cleanName := hc.cleanName
      noSubcommands := hc.noSubcommands
      arguments := hc.arguments
      notEmpty := by unfold renderLine; simp
      notRequest := by
        refine ⟨fun h => ?_, fun ws' h w hw' => ?_⟩
        · rcases recipe_cases h with ⟨d, _, v, _, h⟩ | ⟨f, hf, h⟩
          · unfold giveItem at h; split at h <;> cases h
          · unfold giveFlag at h
            split at h
            · cases h
            · rename_i hs
              exact hflag f hf (Classical.not_not.1 hs) (Item.longFlag.inj h).symm
        · cases h; exact (hw w hw').2.1 }
  have ha : Accepted (decls g) (recipe (decls g) vals on) (some ws) :=
    { required := fun d hd hr => by rw [hgiven d hd]; exact hreq d hd hr
      values := fun d hd hne => by rw [hgiven d hd] at hne ⊢; exact hvals d hd hne
      positionals := by rw [word_recipe]; exact hpos }
  obtain ⟨g', h1, h2⟩ := C17_well_formed_line_delivers env g hg _ _ hl (recipe_ok hi hD vals on ws hw) w₁ hv hd ha
  refine ⟨g', h1, fun d hd hne => ?_, fun d hd he => ?_, fun f hf => ?_, ?_⟩
  · have := h2.value d hd (by rw [hgiven d hd]; exact hne)
    rwa [hgiven d hd] at this
  · exact h2.default d hd (by rw [hgiven d hd]; exact he)
  · have hm := mentions_recipe hi hD vals on hf
    cases ho : on f with
    | true => rw [ho] at hm; exact h2.flagSet f hf (by rw [hm]; simp)
    | false => rw [ho] at hm; exact h2.flagUnset f hf (by rw [hm]; simp)
  · have := h2.positionals
    rwa [word_recipe] at this

/-- C95 (for values): for every choice of values for options (none, for an option that is not required; a list must not be empty),
of flags, and of words that can be passed, there are arguments with which the program, if called with them, gets exactly these. -/
theorem C95_every_value_can_be_given_partial (env : Env W) (g₀ : Prog W) (want : OptDecl W → Option Val)
    (on : FlagDecl → Bool) (ws : List Str) (hd : VarsDistinct (decls g₀)) (hw : Passable (decls g₀) ws)
    (hflag : ∀ f ∈ (decls g₀).flags, f.short = '\x00' → f.long ≠ "version-check".toList)
    (hreq : ∀ d ∈ (decls g₀).options, d.required = true → want d ≠ none)
    (hvals : ∀ d ∈ (decls g₀).options, ∀ val, want d = some val → ExpressibleVal d.isList d.ty val ∧ ∀ w, (d.validator val w).1 = true)
    (hpos : PositionalsFit (decls g₀).positionals ws) :
    ∃ args, ∀ g w₁, Reachable env g → SameSetup g₀ g → CalledWith g args → CheckPasses env g w₁ →
      ∃ g', parse env g = (.returned, g') ∧
        (∀ d ∈ (decls g₀).options, g'.store d.var = (want d).getD (g₀.store d.var)) ∧
        (∀ f ∈ (decls g₀).flags, g'.store f.var = if on f then .one (.bool true) else g₀.store f.var) ∧
        PositionalValues (decls g₀).positionals ws g'.store := by
  have hch : ∀ d : OptDecl W, ∃ ts : List Str, d ∈ (decls g₀).options →
      (∀ val, want d = some val → ts ≠ [] ∧ ValueOf d.isList d.ty ts val) ∧ (want d = none → ts = []) := by
    intro d
    by_cases hd : d ∈ (decls g₀).options
    · cases hwd : want d with
      | none => exact ⟨[], fun _ => ⟨(fun _ h => by cases h), fun _ => rfl⟩⟩
      | some val =>
        obtain ⟨ts, h1, h2⟩ := expressible_texts (hvals d hd val hwd).1
        exact ⟨ts, fun _ => ⟨(fun _ h => by cases h; exact ⟨h1, h2⟩), fun h => by cases h⟩⟩
    · exact ⟨[], fun h => absurd h hd⟩
  obtain ⟨vals, hvs⟩ := Classical.axiomOfChoice hch
  refine ⟨renderLine (recipe (decls g₀) vals on) (some ws), ?_⟩
  intro g w₁ hg hs hc hv
  have hD : decls g₀ = decls g := congrArg declsOf hs.operations
  rw [hD] at hd hw hflag hreq hvals hpos hvs hc ⊢
  rw [hs.store]
  obtain ⟨g', h1, h2, h3, h4, h5⟩ := C95_recipe_delivers_partial env g hg vals on ws hc w₁ hv hd hw hflag
    (fun d hd hr => by
      cases hwd : want d with
      | none => exact absurd hwd (hreq d hd hr)
      | some val => exact ((hvs d hd).1 val hwd).1)
    (fun d hd hne => by
      cases hwd : want d with
      | none => exact absurd ((hvs d hd).2 hwd) hne
      | some val => exact ⟨val, ((hvs d hd).1 val hwd).2, (hvals d hd val hwd).2⟩) hpos
  refine ⟨g', h1, fun d hd => ?_, h4, h5⟩
  cases hwd : want d with
  | none => exact h3 d hd ((hvs d hd).2 hwd)
  | some val =>
    obtain ⟨e1, e2⟩ := (hvs d hd).1 val hwd
    exact valueOf_unique (h2 d hd e1) e2

/-- Which values have texts: all strings, both truth values, the integers within the limits of the type, and the values of an
enumeration under their name, unless another value comes first with the same name. -/
theorem C95_expressible :
    (∀ s, Expressible .string (.str s)) ∧ (∀ b, Expressible .boolean (.bool b)) ∧
    (∀ lo hi v, Expressible (.integer lo hi) (.int v) ↔ lo ≤ v ∧ v ≤ hi) ∧
    (∀ names tag, (names.map Prod.fst).Nodup → (Expressible (.enumeration names) (.enumv tag) ↔ ∃ name, (name, tag) ∈ names)) := by
  refine ⟨fun s => ⟨s, rfl⟩, fun b => ?_, fun lo hi v => ⟨?_, fun h => ?_⟩, fun names tag hn => ⟨?_, ?_⟩⟩
  · cases b
    · exact ⟨['0'], Or.inr ⟨rfl, Or.inl rfl⟩⟩
    · exact ⟨['1'], Or.inl ⟨rfl, Or.inl rfl⟩⟩
  · rintro ⟨t, v', h1, h2⟩
    cases h1
    exact ⟨h2.1, h2.2.1⟩
  · by_cases hv : 0 ≤ v
    · refine ⟨showNat v.toNat, v, rfl, h.1, h.2, Or.inl ⟨(showNat_spec _).1, ?_⟩⟩
      rw [(showNat_spec _).2]; omega
    · refine ⟨'-' :: showNat (-v).toNat, v, rfl, h.1, h.2, Or.inr ⟨by omega, _, rfl, (showNat_spec _).1, ?_⟩⟩
      rw [(showNat_spec _).2]; omega
  · rintro ⟨t, tag', h1, before, after, rfl, _⟩
    cases h1
    exact ⟨t, by simp⟩
  · rintro ⟨name, h⟩
    obtain ⟨A, B, rfl⟩ := List.append_of_mem h
    refine ⟨name, tag, rfl, A, B, rfl, fun p hp he => ?_⟩
    rw [List.map_append, List.nodup_append] at hn
    exact hn.2.2 p.1 (List.mem_map.2 ⟨p, hp, rfl⟩) name (by simp) he

/-! ## What no command line can give -/

theorem flagShort_some_of {c : Char} {l : List Str} {a : Str} (ha : a ∈ l) {f : FlagDecl} (hf : f.short = c) (h : InGroup f a) :
    flagShort c l ≠ none := by
  induction l with
  | nil => cases ha
  | cons b l ih =>
    unfold flagShort
    cases hb : flagCell c b with
    | some b' => simp
    | none =>
      rcases List.mem_cons.1 ha with rfl | ha
      · obtain ⟨t, rfl, hh, hm⟩ := h
        cases t with
        | nil => cases hm
        | cons y t =>
          have hy : y ≠ '-' := fun e => hh (by rw [e]; rfl)
          have hc : c ∈ '-' :: y :: t := by rw [← hf]; exact List.mem_cons_of_mem _ hm
          simp [flagCell, hy, hc] at hb
      · simp only [ne_eq, Option.map_eq_none_iff]
        exact ih ha

theorem becomes_inGroup {D : Decls W} {f : FlagDecl} {a b : Str} (h : Becomes D a b) (hb : InGroup f b) : InGroup f a := by
  cases h with
  | same => exact hb
  | shrink h1 h2 h3 =>
    obtain ⟨t, ht, _, hm⟩ := hb
    cases ht
    exact ⟨_, rfl, h2, shrinks_mem h3 hm⟩
  | gone _ => exact absurd hb (not_inGroup_nil f)

theorem flags_left {D : Decls W} (hD : IdsOk D) (fs : List FlagDecl) : ∀ (s s' : FState W) (u : Unit), (∀ f ∈ fs, f ∈ D.flags) →
    (fs.map (·.var)).Nodup → M.forEach getFlag fs s = .ok u s' → ∀ f ∈ fs, (∃ a ∈ s'.post, InGroup f a) →
    s'.store f.var = .one (.bool true) := by
  induction fs with
  | nil => intro s s' u _ _ _ f hf; cases hf
  | cons e fs ih =>
    intro s s' u hsub hnd h f hf hin
    rw [M.forEach_cons, M.bind_eq_ok] at h
    obtain ⟨u1, s1, h1, h2⟩ := h
    rw [List.map_cons, List.nodup_cons] at hnd
    rcases List.mem_cons.1 hf with rfl | hf
    · obtain ⟨a, ha, hin⟩ := hin
      obtain ⟨_, hb, _⟩ := flags_becomes hD fs s1 s' u (fun e he => hsub e (by simp [he])) (forall2_refl .same _)
        (forall2_refl .same _) h2
      obtain ⟨a1, ha1, hr⟩ := pointwise_mem hb a ha
      have hin1 := becomes_inGroup hr hin
      have hk := keeps_flags (W := W) (x := f.var) fs (fun d hd he => hnd.1 (List.mem_map.2 ⟨d, hd, he.symm⟩)) s1
      rw [h2] at hk
      have hk : s'.store f.var = s1.store f.var := hk
      rw [hk]
      unfold getFlag at h1
      split at h1
      · cases h1; simp [Store.set]
      · split at h1
        · cases h1; simp [Store.set]
        · rename_i hn
          split at h1
          · cases h1; simp [Store.set]
          · cases h1
            exact absurd hn (flagShort_some_of ha1 rfl hin1)
    · exact ih s1 s' u (fun e he => hsub e (by simp [he])) hnd.2 h2 f hf hin

theorem not_inGroup_word {f : FlagDecl} {a : Str} (h : IsWord a) : ¬ InGroup f a := by
  rintro ⟨t, rfl, _, hm⟩
  rcases h.2 with h | h
  · cases h; cases hm
  · exact h rfl

/-- As `C27_words_delivered`, with what the words say about the flags. -/
theorem words_and_flags (env : Env W) (g g' : Prog W) (hg : Reachable env g) (h : parse env g = (.returned, g'))
    (hv : VarsDistinct (decls g))
    (hnd : env.ndebug = false ∨ ∀ p ∈ (decls g).positionals, p.isList = true → ∀ t, ¬ OutOfRange p.ty t) :
    ∃ used left tail, Uses (decls g) (before g'.parser.formatArguments) used ∧ Pointwise (Settled (decls g)) used left ∧
      Pointwise (Becomes (decls g)) (behind g'.parser.formatArguments) tail ∧
      PositionalValues (decls g).positionals (nonEmpty left ++ nonEmpty tail) g'.store ∧
      ∀ f ∈ (decls g).flags, (∃ a ∈ tail, InGroup f a) → g'.store f.var = .one (.bool true) := by
  obtain ⟨hi, hD, w1, s, hf, hs, _⟩ := reachable_returned hg h
  obtain ⟨ph⟩ := phases env.ndebug hD g'.parser.formatArguments g.store w1 s () hf
  have hset := settled_of_becomes ph.flgPre ph.noIds
  have hpost := ph.flgPost
  rw [ph.optPost] at hpost
  have hvd := hv
  unfold VarsDistinct at hvd
  rw [List.nodup_append, List.nodup_append] at hvd
  have hset' : ∀ f ∈ (decls g).flags, (∃ a ∈ ph.flg.post, InGroup f a) → g'.store f.var = .one (.bool true) := by
    intro f hf hin
    have h1 := flags_left hD (decls g).flags ph.opt ph.flg () (fun _ h => h) hvd.1.2.1 ph.flgRun f hf hin
    have h2 := keeps_bind (x := f.var) (keeps_runPositionals env.ndebug (decls g).positionals (fun d hd he =>
      hvd.2.2 f.var (List.mem_append.2 (Or.inr (List.mem_map.2 ⟨f, hf, rfl⟩))) d.var (List.mem_map.2 ⟨d, hd, rfl⟩) he))
      (fun _ => keeps_leftOver f.var) { ph.flg with pre := ph.flg.pre ++ blankHead ph.flg.post, post := [] }
    rw [ph.posRun] at h2
    rw [hs]
    exact h2.trans h1
  have hfin : ∀ tail, remaining (ph.flg.pre ++ blankHead ph.flg.post) = nonEmpty ph.flg.pre ++ nonEmpty tail →
        PositionalValues (decls g).positionals (nonEmpty ph.flg.pre ++ nonEmpty tail) g'.store := by
    intro tail he
    rw [hs, ← he]
    refine (positionals_final hv env.ndebug ph ?_).1
    intro p hp hl t _
    rcases hnd with hnd | hnd
    · exact Or.inl hnd
    · exact Or.inr (hnd p hp hl t)
  rcases dropWhile_endMarker g'.parser.formatArguments with e | e
  · rw [e] at hpost
    cases hp : ph.flg.post with
    | cons b m => rw [hp] at hpost; cases hpost
    | nil =>
      refine ⟨_, _, [], ph.optDone.uses, hset, ?_, hfin [] ?_, fun f hf ⟨a, ha, _⟩ => by cases ha⟩
      · have : behind g'.parser.formatArguments = [] := by
          unfold behind
          rw [show g'.parser.formatArguments.dropWhile (fun a => decide (a ≠ ['-', '-'])) = [] from e]
          rfl
        rw [this]; exact .nil
      · rw [hp]; simp [nonEmpty, remaining, blankHead]
  · rw [e] at hpost
    obtain ⟨b, m, hp, hb, hm⟩ := pointwise_cons_left hpost
    refine ⟨_, _, m, ph.optDone.uses, hset, hm, hfin m ?_, fun f hf ⟨a, ha, hin⟩ => hset' f hf ⟨a, by rw [hp]; simp [ha], hin⟩⟩
    rw [hp]
    simp [nonEmpty_eq, blankHead, remaining_append, remaining_cons_nil]

theorem denoteAll_string : ∀ {ts : List Str} {es : List Elem}, DenoteAll .string ts es → ∀ s, .str s ∈ es → s ∈ ts
  | [], [], _, _, h => by cases h
  | _ :: _, _ :: _, h, s, hs => by
    rcases List.mem_cons.1 hs with hs | hs
    · have : _ = Elem.str _ := h.1
      rw [this] at hs
      cases hs
      simp
    · exact List.mem_cons_of_mem _ (denoteAll_string h.2 s hs)

/-- The texts in positional options are words. -/
theorem held_words {ds : List (PosDecl W)} : ∀ {ws : List Str} {st : Store}, PositionalValues ds ws st → ∀ d ∈ ds, d.ty = .string →
    ∀ s, HoldsText (st d.var) s → s ∈ ws := by
  induction ds with
  | nil => intro ws st _ d hd; cases hd
  | cons e ds ih =>
    intro ws st h d hd hty s hs
    unfold PositionalValues at h
    split at h
    · rename_i hl
      obtain ⟨rfl, _, h⟩ := h
      obtain rfl := List.mem_singleton.1 hd
      rw [hty] at h
      unfold ValueOf at h
      rw [if_pos rfl] at h
      obtain ⟨es, he, h⟩ := h
      rcases hs with hs | ⟨es', hs, hm⟩
      · rw [he] at hs; cases hs
      · rw [he] at hs
        cases hs
        exact denoteAll_string h s hm
    · rename_i hl
      obtain ⟨t, ts, rfl, h1, h2⟩ := h
      rcases List.mem_cons.1 hd with rfl | hd
      · rw [hty] at h1
        unfold ValueOf at h1
        rw [if_neg (by simp)] at h1
        obtain ⟨t', e', ht, he, hden⟩ := h1
        cases ht
        have : e' = .str t := hden
        subst this
        rcases hs with hs | ⟨es', hs, hm⟩
        · rw [he] at hs; cases hs; simp
        · rw [he] at hs; cases hs
      · exact List.mem_cons_of_mem _ (ih h2 d hd hty s hs)

/-- C95 (negation): no command line makes a positional option hold the empty text, neither as its value nor in its list. -/
theorem C95_no_empty_word (env : Env W) (g g' : Prog W) (hg : Reachable env g) (h : parse env g = (.returned, g'))
    (hv : VarsDistinct (decls g))
    (hnd : env.ndebug = false ∨ ∀ p ∈ (decls g).positionals, p.isList = true → ∀ t, ¬ OutOfRange p.ty t)
    (d : PosDecl W) (hd : d ∈ (decls g).positionals) (hty : d.ty = .string) : ¬ HoldsText (g'.store d.var) [] := by
  intro hh
  obtain ⟨_, left, tail, _, _, _, hp, _⟩ := words_and_flags env g g' hg h hv hnd
  have := held_words hp d hd hty _ hh
  unfold nonEmpty at this
  simp at this

/-- C95 (negation): no command line makes a positional option hold a word in which a flag can be found (`-x`, `-abcx` for a flag
`-x`) without setting the flag. -/
theorem C95_word_with_flag_sets_it (env : Env W) (g g' : Prog W) (hg : Reachable env g) (h : parse env g = (.returned, g'))
    (hv : VarsDistinct (decls g))
    (hnd : env.ndebug = false ∨ ∀ p ∈ (decls g).positionals, p.isList = true → ∀ t, ¬ OutOfRange p.ty t)
    (d : PosDecl W) (hd : d ∈ (decls g).positionals) (hty : d.ty = .string) (s : Str) (hs : HoldsText (g'.store d.var) s)
    (f : FlagDecl) (hf : f ∈ (decls g).flags) (hin : InGroup f s) : g'.store f.var = .one (.bool true) := by
  obtain ⟨_, left, tail, _, hl, _, hp, hfl⟩ := words_and_flags env g g' hg h hv hnd
  rcases List.mem_append.1 (held_words hp d hd hty s hs) with hm | hm
  · exact absurd hin (not_inGroup_word (settled_words hl s hm))
  · exact hfl f hf ⟨s, (List.mem_filter.1 hm).1, hin⟩

theorem shrinks_none {D : Decls W} (hD : D.flags = []) {t rest : Str} (h : Shrinks D t rest) : rest = t := by
  obtain ⟨xs, hx, hp, hs⟩ := h
  cases xs with
  | nil => exact hs.eq_of_length (by simpa using hp.length_eq.symm)
  | cons x xs =>
    obtain ⟨f, hf, _⟩ := hx x (by simp)
    rw [hD] at hf; cases hf

theorem becomes_none {D : Decls W} (hD : D.flags = []) {a b : Str} (h : Becomes D a b) : b = a := by
  cases h with
  | same => rfl
  | shrink _ _ h3 => rw [shrinks_none hD h3]
  | gone h =>
    rcases h with ⟨f, hf, _⟩ | ⟨t, rest, rfl, hne, hh, hs, hr⟩
    · rw [hD] at hf; cases hf
    · rcases hr with rfl | ⟨f, hf, _⟩
      · exact absurd (shrinks_none hD hs).symm hne
      · rw [hD] at hf; cases hf

theorem kept_plain {subs : List Str} {toks : List Tok} (h : ∀ t ∈ toks, t.Ok [] subs) : ∀ a ∈ kept toks, ¬ Reserved a := by
  intro a ha
  unfold kept at ha
  obtain ⟨t, ht, ha⟩ := List.mem_flatMap.1 ha
  have hok := h t ht
  cases t with
  | option o v => cases hok
  | request f args => cases ha
  | check b v => cases ha
  | plain b =>
    obtain rfl := List.mem_singleton.1 ha
    exact hok.2.2.1

/-- C95 (negation): in a program without options and flags, no command line makes a positional option hold a text that is one of
the predefined requests (`-h`, `--version`, `--export-help=html`, ...), also not behind `--`. -/
theorem C95_no_reserved_word (env : Env W) (g g' : Prog W) (hg : Reachable env g) (h : parse env g = (.returned, g'))
    (hv : VarsDistinct (decls g)) (hf : (decls g).flags = []) (ho : g.parser.options = [])
    (hnd : env.ndebug = false ∨ ∀ p ∈ (decls g).positionals, p.isList = true → ∀ t, ¬ OutOfRange p.ty t)
    (d : PosDecl W) (hd : d ∈ (decls g).positionals) (hty : d.ty = .string) (s : Str) (hs : HoldsText (g'.store d.var) s) :
    ¬ Reserved s := by
  obtain ⟨used, left, tail, hu, hl, ht, hp, _⟩ := words_and_flags env g g' hg h hv hnd
  obtain ⟨_, _, ⟨exe, args, toks, stop, _, hr, _, _, hp'⟩, _⟩ := parse_returned env g g' h
  have hfa : g'.parser.formatArguments = kept toks ++ stop.kept := by rw [hp']; rfl
  have hmem : s ∈ g'.parser.formatArguments := by
    rcases List.mem_append.1 (held_words hp d hd hty s hs) with hm | hm
    · exact (List.takeWhile_sublist _).subset ((uses_sublist hu).subset ((settled_sublist hl).subset hm))
    · obtain ⟨a, ha, hab⟩ := pointwise_mem ht s (List.mem_filter.1 hm).1
      rw [becomes_none hf hab]
      exact ((List.drop_sublist _ _).trans (List.dropWhile_sublist _)).subset ha
  rw [hfa] at hmem
  rcases List.mem_append.1 hmem with hm | hm
  · have hok := hr.toksOk
    rw [ho] at hok
    exact kept_plain hok s hm
  · have hok := hr.stopOk
    rw [ho] at hok
    cases stop with
    | lastOption o => cases hok
    | _ => cases hm

theorem denoteAll_ne_nil {ty : ElemTy} {ts : List Str} (hne : ts ≠ []) (h : DenoteAll ty ts []) : False := by
  cases ts with
  | nil => exact hne rfl
  | cons => cases h

/-- C95 (negation): no command line empties a list option that has a default. -/
theorem C95_no_empty_list (env : Env W) (g g' : Prog W) (hg : Reachable env g) (h : parse env g = (.returned, g'))
    (hv : VarsDistinct (decls g)) (d : OptDecl W) (hd : d ∈ (decls g).options)
    (hnd : env.ndebug = false ∨ ∀ t, ¬ OutOfRange d.ty t) (he : g'.store d.var = .many []) : g.store d.var = .many [] := by
  obtain ⟨hi, hD, w1, s, hf, hs, _⟩ := reachable_returned hg h
  obtain ⟨ph⟩ := phases env.ndebug hD _ g.store w1 s () hf
  rw [hs] at he
  rcases option_final hD hv hd env.ndebug ph with ⟨h1, _⟩ | ⟨_, vs, vl, hne, hval⟩
  · rw [← h1]; exact he
  · exfalso
    rw [he] at hval
    have hk : ∀ ts : List Str, ∀ t ∈ ts, env.ndebug = false ∨ ¬ OutOfRange d.ty t := fun ts t _ => hnd.imp id (fun h => h t)
    unfold optValue at hval
    split at hval
    · split at hval
      · rename_i es1 es2 h1 h2
        simp only [Option.some.injEq, Val.many.injEq] at hval
        split at hval
        · rename_i hvl
          subst hvl hval
          exact denoteAll_ne_nil (by simpa using hne) (readListElems_denote _ _ _ _ (hk _) h1)
        · rename_i hvl
          subst hval
          exact denoteAll_ne_nil hvl (readListElems_denote _ _ _ _ (hk _) h2)
      · cases hval
    · split at hval
      · simp at hval
      · cases hval

/-! ## Examples -/

/-- `-7` for the number, `--str` for the text, a list with an empty text and `-h`. -/
def exVals (d : OptDecl Unit) : List Str :=
  if d.short = 'n' then ["-7".toList] else if d.short = 's' then ["--str".toList] else ["".toList, "-h".toList]

def exOn (f : FlagDecl) : Bool := f.short = 'q' || f.long = "loud".toList

def exRecipe : List Str := renderLine (recipe (declsOf (exCalls.filterMap Call.entry?)) exVals exOn) (some ["--x".toList, "-".toList])

example : exRecipe = ["--num=-7", "--str=--str", "--list", "", "--list=-h", "-q", "--loud", "--", "--x", "-"].map String.toList := by decide +kernel

def exScripted : Prog Unit := exRun exCalls exRecipe

theorem exScripted_decls : decls exScripted = declsOf (exCalls.filterMap Call.entry?) := exRun_decls _ _ (by decide +kernel)

theorem exScripted_called : CalledWith exScripted exRecipe := ⟨by decide +kernel, by decide +kernel, by decide +kernel, "app".toList, by decide +kernel⟩

theorem ex_passable : Passable (declsOf (exCalls.filterMap Call.entry?)) ["--x".toList, "-".toList] := by
  intro w hw
  simp only [List.mem_cons, List.not_mem_nil, or_false] at hw
  rcases hw with rfl | rfl
  · exact ⟨by decide, by decide +kernel, fun f _ ⟨y, t, h, hy, _⟩ => by cases h; exact hy rfl⟩
  · exact ⟨by decide, by decide +kernel, fun f _ ⟨y, t, h, hy, _⟩ => by cases h⟩

example : ∃ g', parse exEnv exScripted = (.returned, g') ∧ g'.store 1 = .one (.str "--str".toList) ∧ g'.store 4 = .one (.bool true) := by
  have hc := exScripted_called
  have hd : VarsDistinct (decls exScripted) := by decide +kernel
  have hdec := exScripted_decls
  unfold exRecipe at hc
  rw [← hdec] at hc
  obtain ⟨g', h1, h2, _, h4, _⟩ := C95_recipe_delivers_partial exEnv exScripted (exRun_reachable _ _) exVals exOn
    ["--x".toList, "-".toList] hc () rfl hd (hdec ▸ ex_passable) (by rw [hdec]; decide) (by rw [hdec]; decide)
    (by
      rw [hdec]
      intro d hd
      have hd : d ∈ [⟨'n', "num".toList, 0, false, .integer (-128) 127, false, fun _ w => (true, w)⟩,
        ⟨'s', "str".toList, 1, false, .string, false, fun _ w => (true, w)⟩,
        ⟨'l', "list".toList, 2, true, .string, false, fun _ w => (true, w)⟩] := hd
      simp only [List.mem_cons, List.not_mem_nil, or_false] at hd
      rcases hd with rfl | rfl | rfl
      · exact fun _ => ⟨.one (.int (-7)), ⟨"-7".toList, .int (-7), by decide, rfl, -7, rfl, by decide, by decide,
          Or.inr ⟨by decide, ['7'], rfl, by decide, by decide⟩⟩, fun _ => rfl⟩
      · exact fun _ => ⟨.one (.str "--str".toList), ⟨"--str".toList, .str "--str".toList, by decide, rfl, rfl⟩, fun _ => rfl⟩
      · exact fun _ => ⟨.many [.str [], .str "-h".toList], ⟨_, rfl, rfl, rfl, trivial⟩, fun _ => rfl⟩)
    (by
      rw [hdec]
      exact ⟨rfl, by decide, .many [.str "--x".toList, .str "-".toList], ⟨_, rfl, rfl, rfl, trivial⟩, fun _ => rfl⟩)
  rw [hdec] at h2 h4
  refine ⟨g', h1, ?_, h4 ⟨'q', [], 4⟩ (List.mem_cons_of_mem _ (List.mem_cons_self ..))⟩
  exact valueOf_unique (h2 ⟨'s', "str".toList, 1, false, .string, false, fun _ w => (true, w)⟩
    (List.mem_cons_of_mem _ (List.mem_cons_self ..)) (by decide)) ⟨_, _, rfl, rfl, rfl⟩

/-- What the program wants: -7, and a list of two texts; the other option keeps its default. -/
def exWant (d : OptDecl Unit) : Option Val :=
  if d.short = 'n' then some (.one (.int (-7))) else if d.short = 's' then none else some (.many [.str [], .str "-h".toList])

example : ∃ args, ∀ g w₁, Reachable exEnv g → SameSetup exScripted g → CalledWith g args → CheckPasses exEnv g w₁ →
    ∃ g', parse exEnv g = (.returned, g') ∧ g'.store 0 = .one (.int (-7)) := by
  have hdec := exScripted_decls
  obtain ⟨args, h⟩ := C95_every_value_can_be_given_partial exEnv exScripted exWant exOn ["--x".toList, "-".toList]
    (by decide +kernel) (hdec ▸ ex_passable) (by rw [hdec]; decide) (by rw [hdec]; decide)
    (by
      rw [hdec]
      intro d hd
      have hd : d ∈ [⟨'n', "num".toList, 0, false, .integer (-128) 127, false, fun _ w => (true, w)⟩,
        ⟨'s', "str".toList, 1, false, .string, false, fun _ w => (true, w)⟩,
        ⟨'l', "list".toList, 2, true, .string, false, fun _ w => (true, w)⟩] := hd
      simp only [List.mem_cons, List.not_mem_nil, or_false] at hd
      rcases hd with rfl | rfl | rfl
      · intro val hval
        cases hval
        exact ⟨⟨_, rfl, (C95_expressible.2.2.1 _ _ _).2 (by decide)⟩, fun _ => rfl⟩
      · intro val hval
        cases hval
      · intro val hval
        cases hval
        refine ⟨⟨_, rfl, by simp, fun e he => ?_⟩, fun _ => rfl⟩
        simp only [List.mem_cons, List.not_mem_nil, or_false] at he
        rcases he with rfl | rfl <;> exact C95_expressible.1 _)
    (by
      rw [hdec]
      exact ⟨rfl, by decide, .many [.str "--x".toList, .str "-".toList], ⟨_, rfl, rfl, rfl, trivial⟩, fun _ => rfl⟩)
  refine ⟨args, fun g w₁ hg hs hc hv => ?_⟩
  obtain ⟨g', h1, h2, _⟩ := h g w₁ hg hs hc hv
  rw [hdec] at h2
  exact ⟨g', h1, h2 _ (List.mem_cons_self ..)⟩

/-- An empty word is dropped. -/
example : exReturns ["--", "", "x"] [(6, .many [.str "x".toList])] = true := by decide +kernel

example : ¬ HoldsText ((parse exEnv (exProg ["--", "", "x"])).2.store 6) [] :=
  C95_no_empty_word exEnv _ _ (exProg_reachable _) (returned_pair (by decide +kernel)) (by decide +kernel) (Or.inl rfl)
    ⟨6, true, .string, fun _ w => (true, w)⟩ (by rw [show decls (exProg ["--", "", "x"]) = _ from exRun_decls _ _ (by decide +kernel)]; exact List.mem_cons_self ..) rfl

/-- A word `-v` can be passed, but the flag is set then. -/
example : exReturns ["--", "-vv"] [(3, .one (.bool true)), (6, .many [.str "-v".toList])] = true := by decide +kernel

example : (parse exEnv (exProg ["--", "-vv"])).2.store 3 = .one (.bool true) :=
  C95_word_with_flag_sets_it exEnv _ _ (exProg_reachable _) (returned_pair (by decide +kernel)) (by decide +kernel) (Or.inl rfl)
    ⟨6, true, .string, fun _ w => (true, w)⟩ (by rw [show decls (exProg ["--", "-vv"]) = _ from exRun_decls _ _ (by decide +kernel)]; exact List.mem_cons_self ..) rfl
    "-v".toList (Or.inr ⟨[.str "-v".toList], by decide +kernel, by simp⟩) ⟨'v', "verbose".toList, 3⟩
    (by rw [show decls (exProg ["--", "-vv"]) = _ from exRun_decls _ _ (by decide +kernel)]; exact List.mem_cons_self ..) ⟨['v'], rfl, by decide, by decide⟩

/-- With an option in front of it, `-h` is a word (C15). -/
example : exReturns ["--", "-n", "-h"] [(6, .many [.str "-n".toList, .str "-h".toList])] = true := by decide +kernel

/-- A program with one positional option. -/
def exWordOnly (args : List String) : Prog Unit :=
  exRun [.addPositionalOption {} 1 false .string fun _ w => (true, w)] (args.map String.toList)

example : ¬ Reserved "--x".toList :=
  C95_no_reserved_word exEnv (exWordOnly ["--", "--x"]) _ (exRun_reachable _ _) (returned_pair (by decide +kernel)) (by decide +kernel) (by decide +kernel)
    (by decide +kernel) (Or.inl rfl) ⟨1, false, .string, fun _ w => (true, w)⟩
    (by rw [show decls (exWordOnly ["--", "--x"]) = _ from exRun_decls _ _ (by decide +kernel)]; exact List.mem_cons_self ..) rfl _
    (Or.inl (by decide +kernel))

example : (exProg ["x"]).store 2 ≠ .many [] ∧ (parse exEnv (exProg ["x"])).1 = .returned := by decide +kernel

example : (parse exEnv (exProg ["-l", "", "x"])).2.store 2 ≠ .many [] := fun he =>
  absurd (C95_no_empty_list exEnv (exProg ["-l", "", "x"]) _ (exProg_reachable _) (returned_pair (by decide +kernel)) (by decide +kernel)
    ⟨'l', "list".toList, 2, true, .string, false, fun _ w => (true, w)⟩
    (by rw [show decls (exProg ["-l", "", "x"]) = _ from exRun_decls _ _ (by decide +kernel)]
        exact List.mem_cons_of_mem _ (List.mem_cons_of_mem _ (List.mem_cons_self ..)))
    (Or.inl rfl) he) (by decide +kernel)

end Sharg
