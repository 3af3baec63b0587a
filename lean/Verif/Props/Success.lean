import Verif.Lemmas.Decide
import Verif.Lemmas.Throws
import Verif.Props.Lines

/-!
# Properties C15, C27, C33: what a successful `parse()` guarantees
-/

set_option linter.unusedSimpArgs false

namespace Sharg

open Spec

variable {W : Type}

theorem nonEmpty_eq (l : List Str) : nonEmpty l = remaining l := by
  unfold nonEmpty remaining
  congr 1

/-- The positional options of a successful run. -/
theorem positionals_final {D : Decls W} (hv : VarsDistinct D) (nd : Bool) {args : List Str} {st : Store} {w : W} {s : FState W}
    (ph : Phases nd D args st w s)
    (hnd : ∀ d ∈ D.positionals, d.isList = true → ∀ t ∈ remaining (ph.flg.pre ++ blankHead ph.flg.post),
      nd = false ∨ ¬ OutOfRange d.ty t) :
    PositionalValues D.positionals (remaining (ph.flg.pre ++ blankHead ph.flg.post)) s.store ∧
      positionalsAccepted D.positionals s.store := by
  have h := positionals_mean_of nd D.positionals _ _ _ hnd ph.posRun
  unfold VarsDistinct at hv
  rw [List.nodup_append] at hv
  obtain ⟨h1, h2, _⟩ := positionals_delivered D.positionals _ _ _ _ _ hv.2.1 h
  exact ⟨h1, h2⟩

theorem dropWhile_before (a b : List Str) (ha : ['-', '-'] ∉ a) :
    (a ++ ['-', '-'] :: b).dropWhile (fun x => decide (x ≠ endMarker)) = ['-', '-'] :: b := by
  induction a with
  | nil => exact List.dropWhile_cons_of_neg (by simp [endMarker])
  | cons x a ih =>
    have hx : x ≠ ['-', '-'] := fun e => ha (by simp [e])
    rw [List.cons_append, List.dropWhile_cons_of_pos (by rw [decide_eq_true_iff]; exact hx)]
    exact ih (fun h => ha (by simp [h]))

theorem uses_sublist {D : Decls W} {l l' : List Str} (h : Uses D l l') : (nonEmpty l').Sublist l := by
  unfold nonEmpty
  induction h with
  | nil => exact List.Sublist.refl _
  | keep a _ ih =>
    by_cases ha : a = []
    · simpa [ha] using ih.cons _
    · rw [List.filter_cons_of_pos (by simpa using ha)]; exact ih.cons_cons _
  | attached _ _ _ ih => simpa using ih.cons _
  | pair v _ _ _ ih => simpa using (ih.cons _).cons _
  | orphan _ _ _ ih => simpa using ih.cons _

theorem settled_sublist {D : Decls W} {l m : List Str} (h : Pointwise (Settled D) l m) :
    (nonEmpty m).Sublist (nonEmpty l) := by
  unfold nonEmpty
  induction h with
  | nil => exact List.Sublist.refl _
  | @cons a b l m h1 _ ih =>
    cases h1 with
    | empty => simpa using ih
    | word hw => rw [List.filter_cons_of_pos (by simpa using hw.1), List.filter_cons_of_pos (by simpa using hw.1)]; exact ih.cons_cons _
    | flags _ =>
      rw [List.filter_cons_of_neg (by simp)]
      exact ih.trans ((List.sublist_cons_self a l).filter _)

theorem settled_words {D : Decls W} {l m : List Str} (h : Pointwise (Settled D) l m) : ∀ x ∈ nonEmpty m, IsWord x := by
  unfold nonEmpty
  induction h with
  | nil => simp
  | @cons a b l m h1 _ ih =>
    intro x hx
    cases h1 with
    | empty => exact ih x (by simpa using hx)
    | word hw =>
      rw [List.filter_cons_of_pos (by simpa using hw.1)] at hx
      rcases List.mem_cons.1 hx with rfl | hx
      · exact hw
      · exact ih x hx
    | flags _ => exact ih x (by simpa using hx)

/-! ## C27, C33: positional options -/

/-- C27 (and C18) with values: on success, the arguments not used by options, not consisting of flags and not empty are
assigned to the positional options in order, and the validators of the positional options accepted the final values.
In release builds words that are out of range for a positional list are excluded (C31). -/
theorem C27_words_delivered (env : Env W) (g g' : Prog W) (hg : Reachable env g) (h : parse env g = (.returned, g'))
    (hv : VarsDistinct (decls g)) :
    let D := decls g
    let args := g'.parser.formatArguments
    ∃ used left tail, Uses D (before args) used ∧ Pointwise (Settled D) used left ∧
      Pointwise (Becomes D) (behind args) tail ∧
      ((env.ndebug = false ∨ ∀ p ∈ D.positionals, p.isList = true → ∀ t ∈ nonEmpty left ++ nonEmpty tail, ¬ OutOfRange p.ty t) →
        PositionalValues D.positionals (nonEmpty left ++ nonEmpty tail) g'.store ∧
        ∀ d ∈ D.positionals, ∃ u u', d.validator (g'.store d.var) u = (true, u')) := by
  intro D args
  obtain ⟨hi, hD, w1, s, hf, hs, _⟩ := reachable_returned hg h
  obtain ⟨ph⟩ := phases env.ndebug hD args g.store w1 s () hf
  have hset := settled_of_becomes ph.flgPre ph.noIds
  have hpost := ph.flgPost
  rw [ph.optPost] at hpost
  have hfin : ∀ tail, remaining (ph.flg.pre ++ blankHead ph.flg.post) = nonEmpty ph.flg.pre ++ nonEmpty tail →
      ((env.ndebug = false ∨ ∀ p ∈ D.positionals, p.isList = true →
          ∀ t ∈ nonEmpty ph.flg.pre ++ nonEmpty tail, ¬ OutOfRange p.ty t) →
        PositionalValues D.positionals (nonEmpty ph.flg.pre ++ nonEmpty tail) g'.store ∧
        ∀ d ∈ D.positionals, ∃ u u', d.validator (g'.store d.var) u = (true, u')) := by
    intro tail he hnd
    rw [hs, ← he]
    refine positionals_final hv env.ndebug ph ?_
    intro p hp hl t ht
    rcases hnd with hnd | hnd
    · exact Or.inl hnd
    · exact Or.inr (hnd p hp hl t (he ▸ ht))
  rcases dropWhile_endMarker args with e | e
  · rw [e] at hpost
    cases hp : ph.flg.post with
    | cons b m => rw [hp] at hpost; cases hpost
    | nil =>
      refine ⟨_, _, [], ph.optDone.uses, hset, ?_, hfin [] ?_⟩
      · have : behind args = [] := by
          unfold behind
          rw [show args.dropWhile (fun a => decide (a ≠ ['-', '-'])) = [] from e]
          rfl
        rw [this]; exact .nil
      · rw [hp]; simp [nonEmpty, remaining, blankHead]
  · rw [e] at hpost
    obtain ⟨b, m, hp, hb, hm⟩ := pointwise_cons_left hpost
    refine ⟨_, _, m, ph.optDone.uses, hset, hm, hfin m ?_⟩
    rw [hp]
    simp [nonEmpty_eq, blankHead, remaining_append, remaining_cons_nil]

/-! ## C15 -/

/-- C15, except for words with a predefined meaning and words that look like a group with a registered short flag: the
words behind `--` are delivered to the positional options, after the words in front of it. -/
theorem C15_words_behind_dashes_verbatim_partial (env : Env W) (g g' : Prog W) (hg : Reachable env g)
    (h : parse env g = (.returned, g')) (hv : VarsDistinct (decls g)) (hsub : g.parser.subcommands = [])
    (exe : Str) (a b : List Str) (hargs : g.parser.arguments = exe :: a ++ ['-', '-'] :: b) (ha : ['-', '-'] ∉ a)
    (hres : ∀ x ∈ b, ¬ Reserved x) (hflag : ∀ f ∈ (decls g).flags, ∀ x ∈ b, ¬ InGroup f x)
    (hnd : env.ndebug = false ∨ ∀ p ∈ (decls g).positionals, p.isList = true → ∀ t, ¬ OutOfRange p.ty t) :
    ∃ front, PositionalValues (decls g).positionals (front ++ nonEmpty b) g'.store ∧ front.Sublist a ∧
      ∀ x ∈ front, IsWord x := by
  obtain ⟨_, _, ⟨exe', args, toks, stop, harg', hr, hexn, _, hp'⟩, w1, s, _, hf, hs, _⟩ := parse_returned env g g' h
  rw [hargs] at harg'
  simp only [List.cons_append, List.cons.injEq] at harg'
  obtain ⟨rfl, rfl⟩ := harg'
  have hD := idsOk_reachable hg
  rw [hsub] at hr
  obtain ⟨a', hk, hsl⟩ := kept_behind g.parser.options toks stop hr.toksOk hr.stopOk hexn b hres a hr.eq.symm
  have hfa : g'.parser.formatArguments = a' ++ ['-', '-'] :: b := by rw [hp', ← hk]; rfl
  rw [hfa] at hf
  obtain ⟨hb1, hb2⟩ := before_behind a' b (fun hx => ha (hsl.subset hx))
  obtain ⟨ph⟩ := phases env.ndebug hD _ g.store w1 s () hf
  have hpost : ph.opt.post = ['-', '-'] :: b := by
    rw [ph.optPost]
    exact dropWhile_before a' b (fun hx => ha (hsl.subset hx))
  have hflg := flags_post _ ph.opt ph.flg () (fun f hf' e => by
      by_cases h0 : f.short = '\x00'
      · rw [h0] at e; exact absurd e (by decide)
      · exact (hD.shortChars _ (mem_shortIds_flag hf' h0)).2 e)
    (by
      intro f hf' x hx
      rw [hpost] at hx
      rcases List.mem_cons.1 hx with rfl | hx
      · rintro ⟨t, e, e2, _⟩
        injection e with _ e; subst e; simp at e2
      · exact hflag f hf' x hx) ph.flgRun
  rw [hpost] at hflg
  obtain ⟨h1, _⟩ := positionals_final hv env.ndebug ph (fun p hp hl t ht => hnd.imp id (fun h => h p hp hl t))
  rw [hflg, remaining_append] at h1
  simp only [blankHead, remaining_cons_nil] at h1
  have hset := settled_of_becomes ph.flgPre ph.noIds
  refine ⟨_, by rw [hs, nonEmpty_eq]; exact h1, ?_, ?_⟩
  · rw [← nonEmpty_eq]
    have := (settled_sublist hset).trans (uses_sublist ph.optDone.uses)
    rw [hb1] at this
    exact this.trans hsl
  · rw [← nonEmpty_eq]; exact settled_words hset

/-- C15 fails for words with a predefined meaning: `app x -- -h` prints the help page ... -/
theorem C15_request_behind_dashes_obeyed :
    (parse exEnv (exProg ["x", "--", "-h"])).1 = .exited (.help false) := by decide +kernel

/-- ... and for words that look like a group of flags: `app -- -v` sets the flag and there is no word left. -/
theorem C15_flag_behind_dashes_taken :
    exReturns ["x", "--", "-v"] [(3, .one (.bool true)), (6, .many [.str "x".toList])] = true := by decide +kernel

/-! ## C33 -/

/-- C33: if `parse()` returns and the option is named by an argument that is not a possible value, its validator
accepted the final value of its variable. -/
theorem C33_given_option_validated (env : Env W) (g g' : Prog W) (hg : Reachable env g) (h : parse env g = (.returned, g'))
    (hv : VarsDistinct (decls g)) (d : OptDecl W) (hd : d ∈ (decls g).options)
    (hn : ∃ a ∈ free (decls g) false (before g'.parser.formatArguments), Names d a) :
    ∃ u u', d.validator (g'.store d.var) u = (true, u') := by
  obtain ⟨hi, hD, w1, s, hf, hs, _⟩ := reachable_returned hg h
  obtain ⟨ph⟩ := phases env.ndebug hD _ g.store w1 s () hf
  rw [hs]
  rcases option_final hD hv hd env.ndebug ph with ⟨_, _, h3⟩ | ⟨h1, _⟩
  · obtain ⟨a, ha, hn⟩ := hn
    exact absurd hn (h3 a ha)
  · exact h1

/-- C33: if `parse()` returns and the variable of an option has changed, its validator accepted the final value. -/
theorem C33_changed_option_validated (env : Env W) (g g' : Prog W) (hg : Reachable env g) (h : parse env g = (.returned, g'))
    (hv : VarsDistinct (decls g)) (d : OptDecl W) (hd : d ∈ (decls g).options) (hc : g'.store d.var ≠ g.store d.var) :
    ∃ u u', d.validator (g'.store d.var) u = (true, u') := by
  obtain ⟨hi, hD, w1, s, hf, hs, _⟩ := reachable_returned hg h
  obtain ⟨ph⟩ := phases env.ndebug hD _ g.store w1 s () hf
  rw [hs] at hc ⊢
  rcases option_final hD hv hd env.ndebug ph with ⟨h1, _⟩ | ⟨h1, _⟩
  · exact absurd h1 hc
  · exact h1

theorem bind_of_eq {σ α β : Type} {m m' : M σ α} {s s' : σ} (h : m s = m' s') (f : α → M σ β) :
    M.bind m f s = M.bind m' f s' := by unfold M.bind; rw [h]

/-- The program with the validator of one option replaced. -/
def withValidator (g : Prog W) (front back : List (Entry W)) (cfg : Config) (x : VarId) (l : Bool) (ty : ElemTy)
    (v : Val → W → Bool × W) : Prog W :=
  { g with parser := { g.parser with operations := front ++ .option cfg x l ty v :: back } }

theorem decided_of_returned (env : Env W) (g : Prog W) (hp : Ready g.parser) (exe : Str) (args : List Str)
    (ha : g.parser.arguments = exe :: args) (toks : List Tok) (stop : Stop)
    (hr : Reading g.parser.options g.parser.subcommands args toks stop) (hexn : stop.exn? = none) (g' : Prog W)
    (h : parse env g = (.returned, g')) : decided toks stop = .parse := by
  rw [parse_reading env g hp exe args ha toks stop hr] at h
  by_cases hd : decided toks stop = .parse
  · exact hd
  · have := (checkAndParse_page env _ hd { g with parser := scannedParser g.parser exe toks stop }).1
    simp only [hexn] at h
    rw [h] at this
    exact absurd rfl this

theorem parse_of_run (env : Env W) (g : Prog W) (hp : Ready g.parser) (exe : Str) (args : List Str)
    (ha : g.parser.arguments = exe :: args) (toks : List Tok) (stop : Stop)
    (hr : Reading g.parser.options g.parser.subcommands args toks stop) (hexn : stop.exn? = none)
    (hdec : decided toks stop = .parse) (w₁ : W)
    (hc : env.versionCheck g.parser.appName g.parser.notify (scannedParser g.parser exe toks stop).userDecision g.world = (none, w₁))
    (s : FState W)
    (hf : formatParse env.ndebug (declsOf g.parser.operations) (scannedParser g.parser exe toks stop).formatArguments g.store w₁ =
      .ok () s) :
    parse env g = (.returned, ⟨scannedParser g.parser exe toks stop, s.store, s.world⟩) := by
  rw [parse_reading env g hp exe args ha toks stop hr]
  simp only [hexn, hdec]
  unfold checkAndParse
  rw [show (scannedParser g.parser exe toks stop).appName = g.parser.appName from rfl,
    show (scannedParser g.parser exe toks stop).notify = g.parser.notify from rfl]
  dsimp only
  rw [hc]
  dsimp only
  unfold parseFormat
  dsimp only
  rw [show (scannedParser g.parser exe toks stop).operations = g.parser.operations from rfl, hf]

/-- C33: the validator of an option that is not named on the command line is not called: any other validator, also one
that rejects everything or changes the world, leads to the same result. -/
theorem C33_validator_not_called (env : Env W) (g : Prog W) (front back : List (Entry W)) (cfg : Config) (x : VarId) (l : Bool)
    (ty : ElemTy) (v₁ v₂ : Val → W → Bool × W) (g₁ : Prog W)
    (h : parse env (withValidator g front back cfg x l ty v₁) = (.returned, g₁))
    (hn : ∀ d : OptDecl W, d.short = cfg.short → d.long = cfg.long → ∀ a ∈ before g₁.parser.formatArguments, ¬ Names d a) :
    ∃ g₂, parse env (withValidator g front back cfg x l ty v₂) = (.returned, g₂) ∧ g₂.store = g₁.store ∧ g₂.world = g₁.world := by
  obtain ⟨hready, _, ⟨exe, args, toks, stop, ha, hr, hexn, hreq, hp⟩, w1, s, hc, hf, hs, hw⟩ := parse_returned env _ g₁ h
  have hready₂ : Ready (withValidator g front back cfg x l ty v₂).parser := ⟨hready.notParsed, hready.app, hready.subs⟩
  have hdec : decided toks stop = .parse := decided_of_returned env _ hready exe args ha toks stop hr hexn g₁ h
  rw [hp] at hf hc hn
  have e1 : (declsOf (withValidator g front back cfg x l ty v₁).parser.operations).options =
      (declsOf front).options ++ ⟨cfg.short, cfg.long, x, l, ty, cfg.required, v₁⟩ :: (declsOf back).options := by
    simp [declsOf, withValidator]
  have e2 : (declsOf (withValidator g front back cfg x l ty v₂).parser.operations).options =
      (declsOf front).options ++ ⟨cfg.short, cfg.long, x, l, ty, cfg.required, v₂⟩ :: (declsOf back).options := by
    simp [declsOf, withValidator]
  have e3 : (declsOf (withValidator g front back cfg x l ty v₂).parser.operations).flags =
      (declsOf (withValidator g front back cfg x l ty v₁).parser.operations).flags := by
    simp [declsOf, withValidator]
  have e4 : (declsOf (withValidator g front back cfg x l ty v₂).parser.operations).positionals =
      (declsOf (withValidator g front back cfg x l ty v₁).parser.operations).positionals := by
    simp [declsOf, withValidator]
  have hf₂ : formatParse env.ndebug (declsOf (withValidator g front back cfg x l ty v₂).parser.operations)
      (scannedParser (withValidator g front back cfg x l ty v₂).parser exe toks stop).formatArguments
      (withValidator g front back cfg x l ty v₂).store w1 = .ok () s := by
    rw [← hf]
    unfold formatParse parseBody
    rw [e1, e2, e3, e4]
    have := options_validator env.ndebug (declsOf front).options (declsOf back).options
      ⟨cfg.short, cfg.long, x, l, ty, cfg.required, v₁⟩ v₂
      ⟨before (kept toks ++ stop.kept), (kept toks ++ stop.kept).dropWhile (fun a => decide (a ≠ endMarker)),
        g.store, w1⟩ (hn _ rfl rfl)
    dsimp only at this
    exact bind_of_eq this _
  exact ⟨_, parse_of_run env _ hready₂ exe args ha toks stop hr hexn hdec w1 hc s hf₂, hs.symm, hw.symm⟩

/-! ## The hypotheses of the theorems above are met by concrete programs -/

/-- `-n 3 file -vq --list=a - -- -x y` -/
def exDone : Prog Unit := exProg ["-n", "3", "file", "-vq", "--list=a", "-", "--", "-x", "y"]

theorem exDone_returns : parse exEnv exDone = (.returned, (parse exEnv exDone).2) :=
  returned_pair (by decide +kernel)

example : ∃ front, PositionalValues (decls exDone).positionals (front ++ nonEmpty ["-x".toList, "y".toList])
      (parse exEnv exDone).2.store ∧
    front.Sublist (["-n", "3", "file", "-vq", "--list=a", "-"].map String.toList) ∧ ∀ x ∈ front, IsWord x :=
  C15_words_behind_dashes_verbatim_partial exEnv exDone _ (exProg_reachable _) exDone_returns (by decide +kernel)
    (by decide +kernel) "app".toList _ ["-x".toList, "y".toList] (by decide +kernel) (by decide) (by decide) (by
      have hd : decls exDone = declsOf (exCalls.filterMap Call.entry?) := exRun_decls _ _ (by decide +kernel)
      rw [hd]
      intro f hf x hx
      have hf : f ∈ [⟨'v', "verbose".toList, 3⟩, ⟨'q', [], 4⟩, ⟨'\x00', "loud".toList, 5⟩] := hf
      simp only [List.mem_cons, List.not_mem_nil, or_false] at hf hx
      rintro ⟨t, rfl, h1, h2⟩
      rcases hx with hx | hx
      · have : t = ['x'] := by
          have e : "-x".toList = ['-', 'x'] := by decide
          rw [e] at hx; injection hx
        subst this
        rcases hf with rfl | rfl | rfl <;> simp at h2
      · have e : "y".toList = ['y'] := by decide
        rw [e] at hx; injection hx with hx _; cases hx)
    (Or.inl rfl)

example : let d : OptDecl Unit := ⟨'n', "num".toList, 0, false, .integer (-128) 127, false, fun _ w => (true, w)⟩
    ∃ u u', d.validator ((parse exEnv exDone).2.store d.var) u = (true, u') := by
  intro d
  have hd : decls exDone = declsOf (exCalls.filterMap Call.entry?) := exRun_decls _ _ (by decide +kernel)
  refine C33_given_option_validated exEnv exDone _ (exProg_reachable _) exDone_returns (by decide +kernel) d
    (by rw [hd]; exact .head _) ⟨"-n".toList, ?_, Or.inl ⟨by decide, [], by decide⟩⟩
  have hfa : (parse exEnv exDone).2.parser.formatArguments =
    ["-n", "3", "file", "-vq", "--list=a", "-", "--", "-x", "y"].map String.toList := by decide +kernel
  rw [hfa, hd]
  decide

/-- The validator of `--str`, which is not given, may be replaced. -/
example (v : Val → Unit → Bool × Unit) :
    let g := start { exInit with arguments := ["app".toList, "x".toList] } exStore ()
    let back : List (Entry Unit) := [.positional {} 6 true .string fun _ w => (true, w)]
    ∃ g₂, parse exEnv (withValidator g [] back { short := 's', long := "str".toList } 1 false .string v) = (.returned, g₂) := by
  intro g back
  obtain ⟨g₂, h, _⟩ := C33_validator_not_called exEnv g [] back { short := 's', long := "str".toList } 1 false .string
    (fun _ w => (true, w)) v _ (returned_pair (by decide +kernel)) (by
      intro d h1 h2 a ha
      have hfa : (parse exEnv (withValidator g [] back { short := 's', long := "str".toList } 1 false .string
          (fun _ w => (true, w)))).2.parser.formatArguments = ["x".toList] := by decide +kernel
      rw [hfa] at ha
      have ha : a ∈ ["x".toList] := ha
      rw [List.mem_singleton.1 ha]
      rintro (⟨_, t, ht⟩ | ⟨_, ht | ⟨t, ht⟩⟩)
      · have e : "x".toList = ['x'] := by decide
        rw [e] at ht; injection ht with ht _; cases ht
      · have e : "x".toList = ['x'] := by decide
        rw [e] at ht; injection ht with ht _; cases ht
      · have e : "x".toList = ['x'] := by decide
        rw [e] at ht; injection ht with ht _; cases ht)
  exact ⟨g₂, h⟩

end Sharg
