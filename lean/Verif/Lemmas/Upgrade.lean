import Verif.Props.Lines
import Verif.Props.Success
import Verif.Spec.Upgrade

/-!
# Lemmas for C96: options and flags that nobody mentions
-/

namespace Sharg

open Spec

variable {W : Type}

/-! ### Options -/

theorem consumeId_none {d : OptDecl W} {id : Id} (hid : id.isEmpty = true ∨ IdOf d id) {l : List Str} (h : ∀ a ∈ l, ¬ Names d a) :
    consumeId id l = some ([], l) := by
  unfold consumeId
  rcases hid with he | hid
  · rw [if_pos he]
  · have he : id.isEmpty = false := by
      rcases hid with ⟨h, rfl⟩ | ⟨h, rfl⟩ <;> simp [Id.isEmpty, h]
    rw [if_neg (by simp [he])]
    refine consumeAll_none_hit id l (fun a ha => ?_)
    rw [← Bool.not_eq_true]
    exact fun hh => h a ha ((names_iff d a).2 ⟨id, hid, hh⟩)

theorem options_unnamed (nd : Bool) (old : OptDecl W → Bool) (l : List (OptDecl W)) : ∀ s : FState W,
    (∀ e ∈ l, old e = false → e.required = false ∧ ∀ a ∈ s.pre, ¬ Names e a) →
    M.forEach (getOption nd) l s = M.forEach (getOption nd) (l.filter old) s := by
  induction l with
  | nil => intro s _; rfl
  | cons d l ih =>
    intro s h
    rw [M.forEach_cons, M.bind_run]
    cases ho : old d with
    | false =>
      obtain ⟨h1, h2⟩ := h d (by simp) ho
      rw [getOption_unnamed nd d s h2, if_neg (by simp [h1]), List.filter_cons_of_neg (by simp [ho])]
      exact ih s (fun e he => h e (by simp [he]))
    | true =>
      rw [List.filter_cons_of_pos (by simp [ho]), M.forEach_cons, M.bind_run]
      cases hg : getOption nd d s with
      | err e s' => rfl
      | ok u s' =>
        refine ih s' (fun e he hoe => ?_)
        obtain ⟨h1, h2⟩ := h e (by simp [he]) hoe
        refine ⟨h1, fun a ha => ?_⟩
        obtain ⟨v1, l1, v2, l2, e1, e2, h3⟩ := (getOption_ok nd d s s' u).1 hg
        rcases h3 with ⟨_, _, _, rfl⟩ | ⟨_, val, w, _, _, rfl⟩
        · exact h2 a ha
        · rcases consumeId_mem _ e2 a ha with rfl | ha
          · exact not_names_nil e
          · rcases consumeId_mem _ e1 a ha with rfl | ha
            · exact not_names_nil e
            · exact h2 a ha

/-! ### Flags -/

theorem getFlag_unseen {D : Decls W} (hD : IdsOk D) {f : FlagDecl} (hf : f ∈ D.flags) {l m : List Str} (s : FState W)
    (h1 : Pointwise (Becomes D) l s.pre) (h2 : Pointwise (Becomes D) m s.post) (hl : ∀ a ∈ l, ¬ FlagSeen D f a)
    (hm : ∀ a ∈ m, ¬ InGroup f a) : getFlag f s = .ok () s := by
  have hc := flag_short_dash hD hf
  unfold getFlag
  cases e1 : flagShort f.short s.pre with
  | some p =>
    obtain ⟨y, b, b', z, e3, _, e5, _⟩ := flagShort_spec _ _ _ e1
    obtain ⟨a, ha, hab⟩ := pointwise_mem h1 b (by rw [e3]; simp)
    exact absurd (Or.inr (Or.inl (flagged_short hc hab e5))) (hl a ha)
  | none =>
    cases e2 : flagShort f.short s.post with
    | some p =>
      obtain ⟨y, b, b', z, e3, _, e5, _⟩ := flagShort_spec _ _ _ e2
      obtain ⟨a, ha, hab⟩ := pointwise_mem h2 b (by rw [e3]; simp)
      exact absurd (flagged_short hc hab e5) (hm a ha)
    | none =>
      cases e3 : flagLong f.long s.pre with
      | some p =>
        obtain ⟨y, z, e4, _⟩ := flagLong_spec _ _ _ e3
        obtain ⟨a, ha, hab⟩ := pointwise_mem h1 ('-' :: '-' :: f.long) (by rw [e4]; simp)
        exact absurd (flagged_long hab) (hl a ha)
      | none => rfl

theorem flags_unseen {D : Decls W} (hD : IdsOk D) (oldFlag : FlagDecl → Bool) {l m : List Str} (fs : List FlagDecl) : ∀ s : FState W,
    (∀ f ∈ fs, f ∈ D.flags) → Pointwise (Becomes D) l s.pre → Pointwise (Becomes D) m s.post →
    (∀ f ∈ fs, oldFlag f = false → (∀ a ∈ l, ¬ FlagSeen D f a) ∧ ∀ a ∈ m, ¬ InGroup f a) →
    M.forEach getFlag fs s = M.forEach getFlag (fs.filter oldFlag) s := by
  induction fs with
  | nil => intro s _ _ _ _; rfl
  | cons f fs ih =>
    intro s hsub h1 h2 h
    rw [M.forEach_cons, M.bind_run]
    have hf := hsub f (by simp)
    cases ho : oldFlag f with
    | false =>
      obtain ⟨h3, h4⟩ := h f (by simp) ho
      rw [getFlag_unseen hD hf s h1 h2 h3 h4, List.filter_cons_of_neg (by simp [ho])]
      exact ih s (fun e he => hsub e (by simp [he])) h1 h2 (fun e he => h e (by simp [he]))
    | true =>
      rw [List.filter_cons_of_pos (by simp [ho]), M.forEach_cons, M.bind_run]
      cases hg : getFlag f s with
      | err e s' => rfl
      | ok u s' =>
        obtain ⟨a1, a2, _⟩ := getFlag_becomes hf (flag_short_dash hD hf) s s' u h1 h2 hg
        exact ih s' (fun e he => hsub e (by simp [he])) a1 a2 (fun e he => h e (by simp [he]))

/-! ### The option parser -/

theorem formatParse_upgrade {old : OptDecl W → Bool} {oldFlag : FlagDecl → Bool} {D₁ D₂ : Decls W} (hD : IdsOk D₂) (nd : Bool)
    (ho : D₁.options = D₂.options.filter old) (hf : D₁.flags = D₂.flags.filter oldFlag) (hp : D₁.positionals = D₂.positionals)
    (hr : ∀ e ∈ D₂.options, old e = false → e.required = false) (args : List Str) (hn : NotMeant old oldFlag D₂ args)
    (st : Store) (w : W) : formatParse nd D₁ args st w = formatParse nd D₂ args st w := by
  have hbef : ∀ a ∈ before args, a ∈ args := fun a ha => (List.takeWhile_sublist _).subset ha
  unfold formatParse parseBody
  rw [M.bind_run, M.bind_run, ho, ← options_unnamed nd old D₂.options _
    (fun e he hoe => ⟨hr e he hoe, fun a ha => hn.options e he hoe a (hbef a ha)⟩)]
  cases h1 : M.forEach (getOption nd) D₂.options ⟨before args, args.dropWhile (· ≠ endMarker), st, w⟩ with
  | err e s =>
    rw [show M.forEach (getOption nd) D₂.options
      ⟨args.takeWhile fun a => decide (a ≠ endMarker), args.dropWhile fun a => decide (a ≠ endMarker), st, w⟩ = _ from h1]
  | ok u s1 =>
    rw [show M.forEach (getOption nd) D₂.options
      ⟨args.takeWhile fun a => decide (a ≠ endMarker), args.dropWhile fun a => decide (a ≠ endMarker), st, w⟩ = _ from h1]
    dsimp only
    obtain ⟨a1, a2⟩ := options_done nd (before args) D₂.options [] _ s1 u rfl ⟨uses_refl _, by simp, fun a ha => Or.inr ha⟩ h1
    have a2 : s1.post = args.dropWhile (· ≠ endMarker) := a2
    rw [M.bind_run, M.bind_run, hf, ← flags_unseen hD oldFlag D₂.flags s1 (fun _ h => h) (forall2_refl .same _) (forall2_refl .same _)
      (fun f hf' hof => ⟨fun a ha => ?_, fun a ha => ?_⟩), hp]
    · rcases a1.mem a ha with rfl | hm
      · exact not_flagSeen_nil D₂ f
      · exact hn.flags f hf' hof a hm (fun d hd => a1.gone a ha d (by simpa using hd))
    · rw [a2] at ha
      rcases dropWhile_endMarker args with e | e
      · rw [e] at ha; cases ha
      · rw [e] at ha
        rcases List.mem_cons.1 ha with rfl | ha
        · rintro ⟨t, ht, hh, _⟩
          unfold endMarker at ht
          simp at ht
          rw [← ht] at hh
          simp at hh
        · exact hn.tail f hf' hof a ha

/-! ### Scanning -/

theorem looked_subset (stop : Stop) : ∀ a ∈ stop.looked, a ∈ stop.render := by
  intro a ha
  cases stop <;> first
    | exact ha
    | (simp only [Stop.looked, List.mem_singleton] at ha; simp [Stop.render, ha])

theorem reading_congr {o₁ o₂ subs args : List Str} {toks : List Tok} {stop : Stop} (h : Reading o₁ subs args toks stop)
    (ho : ∀ a ∈ renderToks toks ++ stop.looked, (a ∈ o₁ ↔ a ∈ o₂)) : Reading o₂ subs args toks stop := by
  have hmem : ∀ t ∈ toks, ∀ a ∈ t.render, (a ∈ o₁ ↔ a ∈ o₂) := fun t ht a ha =>
    ho a (List.mem_append.2 (Or.inl (List.mem_flatMap.2 ⟨t, ht, ha⟩)))
  have hstop : ∀ a ∈ stop.looked, (a ∈ o₁ ↔ a ∈ o₂) := fun a ha => ho a (List.mem_append.2 (Or.inr ha))
  refine ⟨h.eq, fun t ht => ?_, ?_⟩
  · have hok := h.toksOk t ht
    have hm := hmem t ht
    cases t with
    | option o v => exact (hm o (by simp [Tok.render])).1 hok
    | request f as =>
      refine ⟨hok.1, fun a rest he => ?_⟩
      obtain ⟨h1, h2⟩ := hok.2 a rest he
      exact ⟨fun hc => h1 ((hm a (by rw [Tok.render, he]; exact List.mem_cons_self ..)).2 hc), h2⟩
    | check b v => exact ⟨hok.1, fun hc => hok.2.1 ((hm _ (List.mem_cons_self ..)).2 hc), hok.2.2⟩
    | plain a => exact ⟨fun hc => hok.1 ((hm a (List.mem_cons_self ..)).2 hc), hok.2⟩
  · have hok := h.stopOk
    cases stop with
    | atEnd => trivial
    | lastOption o => exact (hstop o (List.mem_cons_self ..)).1 hok
    | subcommand s rest => exact ⟨fun hc => hok.1 ((hstop s (List.mem_cons_self ..)).2 hc), hok.2⟩
    | unknownSubcommand a rest => exact ⟨fun hc => hok.1 ((hstop a (List.mem_cons_self ..)).2 hc), hok.2⟩
    | missingValue a => exact ⟨fun hc => hok.1 ((hstop a (List.mem_cons_self ..)).2 hc), hok.2⟩
    | badExport v rest => exact ⟨fun hc => hok.1 ((hstop _ (List.mem_cons_self ..)).2 hc), hok.2⟩
    | badExportEq v rest => exact ⟨fun hc => hok.1 ((hstop _ (List.mem_cons_self ..)).2 hc), hok.2⟩
    | badCheck v rest => exact ⟨fun hc => hok.1 ((hstop _ (List.mem_cons_self ..)).2 hc), hok.2⟩

/-- The first list is the second without some arguments other than `--`. -/
inductive Without : List Str → List Str → Prop where
  | nil (m) : Without [] m
  | keep (a) {l m} : Without l m → Without (a :: l) (a :: m)
  | skip {a} (h : a ≠ ['-', '-']) {l m} : Without l m → Without l (a :: m)

theorem Without.mem {l m : List Str} (h : Without l m) : ∀ a ∈ l, a ∈ m := by
  induction h with
  | nil => simp
  | keep a _ ih =>
    intro b hb
    rcases List.mem_cons.1 hb with rfl | hb
    · simp
    · exact List.mem_cons_of_mem _ (ih b hb)
  | skip _ _ ih => exact fun b hb => List.mem_cons_of_mem _ (ih b hb)

theorem Without.before {l m : List Str} (h : Without l m) : ∀ a ∈ before l, a ∈ before m := by
  unfold Spec.before
  induction h with
  | nil => simp
  | keep a _ ih =>
    intro b hb
    by_cases ha : a = ['-', '-']
    · rw [List.takeWhile_cons_of_neg (by simp [ha])] at hb; cases hb
    · rw [List.takeWhile_cons_of_pos (by simp [ha])] at hb ⊢
      rcases List.mem_cons.1 hb with rfl | hb
      · simp
      · exact List.mem_cons_of_mem _ (ih b hb)
  | skip ha _ ih =>
    intro b hb
    rw [List.takeWhile_cons_of_pos (by simp [ha])]
    exact List.mem_cons_of_mem _ (ih b hb)

theorem Without.behind {l m : List Str} (h : Without l m) : ∀ a ∈ behind l, a ∈ behind m := by
  unfold Spec.behind
  induction h with
  | nil => simp
  | keep a h ih =>
    intro b hb
    by_cases ha : a = ['-', '-']
    · rw [List.dropWhile_cons_of_neg (by simp [ha])] at hb ⊢
      exact h.mem b hb
    · rw [List.dropWhile_cons_of_pos (by simp [ha])] at hb ⊢
      exact ih b hb
  | skip ha _ ih =>
    intro b hb
    rw [List.dropWhile_cons_of_pos (by simp [ha])]
    exact ih b hb

theorem without_append {l m x y : List Str} (h : Without x y) (hk : l = m ∨ (l = [] ∧ ∀ a ∈ m, a ≠ ['-', '-'])) :
    Without (l ++ x) (m ++ y) := by
  rcases hk with rfl | ⟨rfl, hm⟩
  · induction l with
    | nil => exact h
    | cons a l ih => exact .keep a ih
  · rw [List.nil_append]
    induction m with
    | nil => exact h
    | cons a m ih => exact .skip (hm a (by simp)) (ih (fun b hb => hm b (by simp [hb])))

theorem tok_without {o subs : List Str} (t : Tok) (h : t.Ok o subs) :
    t.kept = t.render ∨ (t.kept = [] ∧ ∀ a ∈ t.render, a ≠ ['-', '-']) := by
  cases t with
  | option o v => exact Or.inl rfl
  | plain a => exact Or.inl rfl
  | request f as =>
    refine Or.inr ⟨rfl, ?_⟩
    have := h.1
    show ∀ a ∈ as, a ≠ ['-', '-']
    cases this <;> decide
  | check b v =>
    refine Or.inr ⟨rfl, ?_⟩
    have := h.1
    intro a ha
    simp only [Tok.render, List.mem_cons, List.not_mem_nil, or_false] at ha
    rcases ha with rfl | rfl
    · decide
    · unfold CheckValue at this
      split at this <;> rcases this with rfl | rfl <;> decide

theorem kept_without {o subs : List Str} (toks : List Tok) (stop : Stop) (h : ∀ t ∈ toks, t.Ok o subs) :
    Without (kept toks ++ stop.kept) (renderToks toks ++ stop.looked) := by
  induction toks with
  | nil =>
    cases stop with
    | lastOption o => exact .keep _ (.nil _)
    | _ => exact .nil _
  | cons t toks ih =>
    simp only [kept, renderToks, List.flatMap_cons, List.append_assoc] at ih ⊢
    exact without_append (ih (fun t' ht' => h t' (by simp [ht']))) (tok_without t (h t (by simp)))

theorem Spec.NotMeant.mono {old : OptDecl W → Bool} {oldFlag : FlagDecl → Bool} {D : Decls W} {l m : List Str}
    (h : NotMeant old oldFlag D m) (hw : Without l m) : NotMeant old oldFlag D l :=
  ⟨fun e he ho a ha => h.options e he ho a (hw.mem a ha), fun f hf ho a ha => h.flags f hf ho a (hw.before a ha),
    fun f hf ho a ha => h.tail f hf ho a (hw.behind a ha)⟩

theorem without_refl (l : List Str) : Without l l := by
  induction l with
  | nil => exact .nil _
  | cons a l ih => exact .keep a ih

theorem looked_prefix {o subs args : List Str} {toks : List Tok} {stop : Stop} (h : Reading o subs args toks stop) :
    Without (renderToks toks ++ stop.looked) args := by
  rw [h.eq]
  refine without_append ?_ (Or.inl rfl)
  cases stop with
  | subcommand s rest => exact .keep _ (.nil _)
  | unknownSubcommand s rest => exact .keep _ (.nil _)
  | _ => exact without_refl _

/-! ### `parse()` -/

theorem bare_names {d : OptDecl W} {a : Str} (h : Bare d a) : Names d a := by
  rcases h with ⟨h, rfl⟩ | ⟨h, rfl⟩
  · exact Or.inl ⟨h, [], rfl⟩
  · exact Or.inr ⟨h, Or.inl rfl⟩

theorem Spec.Upgrade.mem_options' {old : OptDecl W → Bool} {oldFlag : FlagDecl → Bool} {g₁ g₂ : Prog W} (h : Upgrade old oldFlag g₁ g₂)
    (a : Str) (ha : ∀ e ∈ (declsOf g₂.parser.operations).options, old e = false → ¬ Bare e a) :
    a ∈ g₁.parser.options ↔ a ∈ g₂.parser.options := by
  rw [h.scans₁, h.scans₂, h.options]
  constructor
  · rintro ⟨d, hd, hb⟩
    exact ⟨d, (List.mem_filter.1 hd).1, hb⟩
  · rintro ⟨d, hd, hb⟩
    refine ⟨d, List.mem_filter.2 ⟨hd, ?_⟩, hb⟩
    apply Classical.byContradiction
    intro ho
    exact ha d hd (by simpa using ho) hb

theorem Spec.Upgrade.mem_options {old : OptDecl W → Bool} {oldFlag : FlagDecl → Bool} {g₁ g₂ : Prog W} (h : Upgrade old oldFlag g₁ g₂)
    (a : Str) (ha : ∀ e ∈ (declsOf g₂.parser.operations).options, old e = false → ¬ Names e a) :
    a ∈ g₁.parser.options ↔ a ∈ g₂.parser.options :=
  h.mem_options' a (fun e he ho hb => ha e he ho (bare_names hb))

theorem parse_upgrade (env : Env W) {old : OptDecl W → Bool} {oldFlag : FlagDecl → Bool} {g₁ g₂ : Prog W}
    (h : Upgrade old oldFlag g₁ g₂) (hD : IdsOk (declsOf g₂.parser.operations))
    (hn : ∀ exe args toks stop, g₁.parser.arguments = exe :: args →
      Reading g₁.parser.options g₁.parser.subcommands args toks stop →
      NotMeant old oldFlag (declsOf g₂.parser.operations) (renderToks toks ++ stop.looked)) :
    SameEnd (parse env g₁) (parse env g₂) ∨ SamePage env (parse env g₁) (parse env g₂) := by
  by_cases hp : Ready g₁.parser
  · have hp₂ : Ready g₂.parser := ⟨h.parsed ▸ hp.notParsed, h.appName ▸ hp.app, h.subcommands ▸ hp.subs⟩
    cases ha : g₁.parser.arguments with
    | nil =>
      rw [parse_no_arguments env g₁ hp ha, parse_no_arguments env g₂ hp₂ (h.arguments ▸ ha)]
      exact Or.inl ⟨rfl, h.store, h.world, h.subParser⟩
    | cons exe args =>
      obtain ⟨toks, stop, hr⟩ := reading_exists g₁.parser.options g₁.parser.subcommands args
      have hm := hn exe args toks stop ha hr
      have hr₂ : Reading g₂.parser.options g₂.parser.subcommands args toks stop := by
        rw [← h.subcommands]
        exact reading_congr hr (fun a ha => h.mem_options a (fun e he ho => hm.options e he ho a ha))
      rw [parse_reading env g₁ hp exe args ha toks stop hr, parse_reading env g₂ hp₂ exe args (h.arguments ▸ ha) toks stop hr₂]
      have hsub : (scannedParser g₁.parser exe toks stop).subParser = (scannedParser g₂.parser exe toks stop).subParser := by
        simp only [scannedParser, h.appName, h.executableName]
      cases he : stop.exn? with
      | some e => exact Or.inl ⟨rfl, h.store, h.world, hsub⟩
      | none =>
        dsimp only
        unfold checkAndParse
        dsimp only
        rw [show (scannedParser g₂.parser exe toks stop).appName = (scannedParser g₁.parser exe toks stop).appName from h.appName.symm,
          show (scannedParser g₂.parser exe toks stop).notify = (scannedParser g₁.parser exe toks stop).notify from h.notify.symm,
          show (scannedParser g₂.parser exe toks stop).userDecision = (scannedParser g₁.parser exe toks stop).userDecision from rfl,
          ← h.world]
        cases hv : env.versionCheck (scannedParser g₁.parser exe toks stop).appName (scannedParser g₁.parser exe toks stop).notify
            (scannedParser g₁.parser exe toks stop).userDecision g₁.world with
        | mk oe w =>
          cases oe with
          | some e => exact Or.inl ⟨rfl, h.store, rfl, hsub⟩
          | none =>
            dsimp only
            by_cases hd : decided toks stop = .parse
            · rw [hd]
              left
              unfold parseFormat
              dsimp only
              have hf := formatParse_upgrade hD env.ndebug h.options h.flags h.positionals h.notRequired
                (kept toks ++ stop.kept) (hm.mono (kept_without toks stop hr.toksOk)) g₁.store w
              rw [show (scannedParser g₁.parser exe toks stop).operations = g₁.parser.operations from rfl,
                show (scannedParser g₂.parser exe toks stop).operations = g₂.parser.operations from rfl,
                show (scannedParser g₁.parser exe toks stop).formatArguments = kept toks ++ stop.kept from rfl,
                show (scannedParser g₂.parser exe toks stop).formatArguments = kept toks ++ stop.kept from rfl, hf, ← h.store]
              cases formatParse env.ndebug (declsOf g₂.parser.operations) (kept toks ++ stop.kept) g₁.store w with
              | ok u s => exact ⟨rfl, rfl, rfl, hsub⟩
              | err e s => exact ⟨rfl, rfl, rfl, hsub⟩
            · exact Or.inr ⟨decided toks stop, _, _, g₁.store, w, hd, rfl, by rw [h.store]⟩
  · have hp₂ : ¬ Ready g₂.parser := fun hc =>
      hp ⟨h.parsed ▸ hc.notParsed, h.appName ▸ hc.app, h.subcommands ▸ hc.subs⟩
    rw [parse_not_ready env g₁ hp, parse_not_ready env g₂ hp₂]
    exact Or.inl ⟨rfl, h.store, h.world, h.subParser⟩

/-! ### Set-up -/

theorem accepted_cons (env : Env W) (c : Call W) (cs : List (Call W)) (g : Prog W) (hc : AllAccepted env (c :: cs) g) :
    Acceptable g.parser.situation c ∧ AllAccepted env cs { g with parser := c.effect g.parser } := by
  have key : ∀ (cs : List (Call W)) (g : Prog W), (accepted env (cs.map .call) g).length ≤ cs.length := by
    intro cs
    induction cs with
    | nil => intro g; simp [accepted]
    | cons c cs ih =>
      intro g
      simp only [List.map_cons, accepted, List.length_cons]
      split
      · simp only [List.length_cons]; exact Nat.succ_le_succ (ih _)
      · exact Nat.le_succ_of_le (ih _)
  unfold AllAccepted at hc ⊢
  simp only [List.map_cons, accepted, List.length_cons] at hc
  by_cases ha : Acceptable g.parser.situation c
  · refine ⟨ha, ?_⟩
    have hrun : (Action.call c).run env g = (.returned, { g with parser := c.effect g.parser }) := by
      simp only [Action.run, Call.run_acceptable c g.parser ha]
    rw [hrun] at hc
    simpa using hc
  · obtain ⟨l, os, hr, _⟩ := Call.run_rejected c g.parser ha
    have hrun : (Action.call c).run env g =
        (.threw .designError, { g with parser := { g.parser with usedIds := l ++ g.parser.usedIds, options := os ++ g.parser.options } }) := by
      simp only [Action.run, hr]
    rw [hrun] at hc
    dsimp only at hc
    exact absurd (key cs _) (by rw [hc]; exact Nat.not_succ_le_self _)

theorem accepted_of (env : Env W) (c : Call W) (cs : List (Call W)) (g : Prog W) (ha : Acceptable g.parser.situation c)
    (hc : AllAccepted env cs { g with parser := c.effect g.parser }) : AllAccepted env (c :: cs) g := by
  unfold AllAccepted at hc ⊢
  have hrun : (Action.call c).run env g = (.returned, { g with parser := c.effect g.parser }) := by
    simp only [Action.run, Call.run_acceptable c g.parser ha]
  simp only [List.map_cons, accepted, List.length_cons, hrun, hc]

theorem run_cons (env : Env W) (c : Call W) (cs : List (Call W)) (g : Prog W) (ha : Acceptable g.parser.situation c) :
    runActions env ((c :: cs).map .call) g = runActions env (cs.map .call) { g with parser := c.effect g.parser } := by
  have hrun : (Action.call c).run env g = (.returned, { g with parser := c.effect g.parser }) := by
    simp only [Action.run, Call.run_acceptable c g.parser ha]
  simp only [List.map_cons, runActions, hrun]

/-- The two releases during their set-up. -/
structure Along (old : Char → Str → Bool) (g₁ g₂ : Prog W) : Prop where
  options : (declsOf g₁.parser.operations).options = (declsOf g₂.parser.operations).options.filter (fun d => old d.short d.long)
  flags : (declsOf g₁.parser.operations).flags = (declsOf g₂.parser.operations).flags.filter (fun f => old f.short f.long)
  positionals : (declsOf g₁.parser.operations).positionals = (declsOf g₂.parser.operations).positionals
  notRequired : ∀ e ∈ (declsOf g₂.parser.operations).options, old e.short e.long = false → e.required = false
  scans₁ : ScansOptions g₁
  scans₂ : ScansOptions g₂
  used : ∀ s ∈ g₁.parser.usedIds, s ∈ g₂.parser.usedIds
  list : g₁.parser.hasPositionalListOption = g₂.parser.hasPositionalListOption
  parsed : g₁.parser.parseWasCalled = g₂.parser.parseWasCalled
  appName : g₁.parser.appName = g₂.parser.appName
  executableName : g₁.parser.executableName = g₂.parser.executableName
  notify : g₁.parser.notify = g₂.parser.notify
  subcommands : g₁.parser.subcommands = g₂.parser.subcommands
  subParser : g₁.parser.subParser = g₂.parser.subParser
  arguments : g₁.parser.arguments = g₂.parser.arguments
  store : g₁.store = g₂.store
  world : g₁.world = g₂.world

theorem declsOf_append (l m : List (Entry W)) : declsOf (l ++ m) =
    ⟨(declsOf l).options ++ (declsOf m).options, (declsOf l).flags ++ (declsOf m).flags,
      (declsOf l).positionals ++ (declsOf m).positionals⟩ := by
  simp only [declsOf, List.filterMap_append]

theorem mem_dashedIds (cfg : Config) (x : VarId) (l : Bool) (ty : ElemTy) (v : Val → W → Bool × W) (o : Str) :
    o ∈ dashedIds cfg ↔ Bare (⟨cfg.short, cfg.long, x, l, ty, cfg.required, v⟩ : OptDecl W) o := by
  unfold dashedIds Bare
  rw [List.mem_append]
  by_cases h1 : cfg.short = '\x00' <;> by_cases h2 : cfg.long = [] <;> simp [h1, h2, Id.dashed]

theorem scans_effect (c : Call W) (g : Prog W) (h : ScansOptions g) : ScansOptions { g with parser := c.effect g.parser } := by
  intro o
  show o ∈ c.dashed ++ g.parser.options ↔ ∃ d ∈ (declsOf (g.parser.operations ++ c.entry?.toList)).options, Bare d o
  rw [declsOf_append, List.mem_append, h o]
  cases c with
  | addOption cfg x l ty v =>
    rw [show (Call.addOption cfg x l ty v : Call W).dashed = dashedIds cfg from rfl, mem_dashedIds cfg x l ty v]
    simp only [List.mem_append]
    constructor
    · rintro (hb | ⟨d, hd, hb⟩)
      · exact ⟨_, Or.inr (List.mem_cons_self ..), hb⟩
      · exact ⟨d, Or.inl hd, hb⟩
    · rintro ⟨d, hd | hd, hb⟩
      · exact Or.inr ⟨d, hd, hb⟩
      · rcases List.mem_singleton.1 hd with rfl
        exact Or.inl hb
  | _ => simp [Call.dashed, Call.entry?, declsOf]

theorem acceptable_mono {S T : Situation} {c : Call W} (h : Acceptable T c) (h1 : S.parsed = T.parsed) (h2 : ∀ s ∈ S.taken, s ∈ T.taken)
    (h3 : S.hasSubcommand = T.hasSubcommand) (h4 : S.hasPositionalList = T.hasPositionalList) : Acceptable S c := by
  have hid : ∀ cfg : Config, IdsAcceptable T.taken cfg → IdsAcceptable S.taken cfg := fun cfg h =>
    ⟨h.1, fun hs => ⟨(h.2.1 hs).1, fun hc => (h.2.1 hs).2 (h2 _ hc)⟩, fun hs => ⟨(h.2.2 hs).1, fun hc => (h.2.2 hs).2 (h2 _ hc)⟩⟩
  cases c with
  | addOption cfg x l ty v => exact ⟨h1.trans h.1, hid cfg h.2.1, h.2.2⟩
  | addFlag cfg x b => exact ⟨h1.trans h.1, hid cfg h.2.1, h.2.2⟩
  | addPositionalOption cfg x l ty v =>
    obtain ⟨a1, a2, a3, a4, a5, a6, a7⟩ := h
    exact ⟨h1.trans a1, a2, a3, a4, h3.trans a5, h4.trans a6, a7⟩
  | addSubcommands ns => trivial
  | _ => exact h1.trans h

theorem Along.acceptable {old : Char → Str → Bool} {g₁ g₂ : Prog W} (h : Along old g₁ g₂) {c : Call W}
    (ha : Acceptable g₂.parser.situation c) : Acceptable g₁.parser.situation c :=
  acceptable_mono ha h.parsed h.used (by simp only [Parser.situation, h.subcommands]) h.list

theorem Along.both {old : Char → Str → Bool} {g₁ g₂ : Prog W} (h : Along old g₁ g₂) (c : Call W) (ho : isOldCall old c = true) :
    Along old { g₁ with parser := c.effect g₁.parser } { g₂ with parser := c.effect g₂.parser } where
  options := by
    show (declsOf (_ ++ _)).options = (declsOf (_ ++ _)).options.filter _
    rw [declsOf_append, declsOf_append]
    simp only [List.filter_append, h.options]
    congr 1
    cases c <;> first
      | rfl
      | (simp only [isOldCall] at ho; simp [Call.entry?, declsOf, ho])
  flags := by
    show (declsOf (_ ++ _)).flags = (declsOf (_ ++ _)).flags.filter _
    rw [declsOf_append, declsOf_append]
    simp only [List.filter_append, h.flags]
    congr 1
    cases c <;> first
      | rfl
      | (simp only [isOldCall] at ho; simp [Call.entry?, declsOf, ho])
  positionals := by
    show (declsOf (_ ++ _)).positionals = (declsOf (_ ++ _)).positionals
    rw [declsOf_append, declsOf_append]
    simp only [h.positionals]
  notRequired := by
    intro e he hoe
    have he : e ∈ (declsOf (g₂.parser.operations ++ c.entry?.toList)).options := he
    rw [declsOf_append] at he
    rcases List.mem_append.1 he with he | he
    · exact h.notRequired e he hoe
    · cases c <;> first
        | (simp [Call.entry?, declsOf] at he; done)
        | (simp only [Call.entry?, declsOf, Option.toList_some, List.filterMap_cons, List.filterMap_nil, List.mem_singleton] at he
           subst he
           simp only [isOldCall] at ho
           rw [ho] at hoe; cases hoe)
  scans₁ := scans_effect c g₁ h.scans₁
  scans₂ := scans_effect c g₂ h.scans₂
  used := by
    intro s hs
    rcases List.mem_append.1 hs with hs | hs
    · exact List.mem_append.2 (Or.inl hs)
    · exact List.mem_append.2 (Or.inr (h.used s hs))
  list := by simp only [Call.effect, h.list]
  parsed := h.parsed
  appName := h.appName
  executableName := h.executableName
  notify := h.notify
  subcommands := by simp only [Call.effect, h.subcommands]
  subParser := h.subParser
  arguments := h.arguments
  store := h.store
  world := h.world

theorem Along.new {old : Char → Str → Bool} {g₁ g₂ : Prog W} (h : Along old g₁ g₂) (c : Call W) (ho : isOldCall old c = false)
    (hr : NoneRequired old [c]) : Along old g₁ { g₂ with parser := c.effect g₂.parser } where
  options := by
    show _ = (declsOf (_ ++ _)).options.filter _
    rw [declsOf_append]
    simp only [List.filter_append, h.options]
    cases c <;> simp only [isOldCall] at ho <;> first
      | (cases ho; done)
      | simp [Call.entry?, declsOf, ho]
  flags := by
    show _ = (declsOf (_ ++ _)).flags.filter _
    rw [declsOf_append]
    simp only [List.filter_append, h.flags]
    cases c <;> simp only [isOldCall] at ho <;> first
      | (cases ho; done)
      | simp [Call.entry?, declsOf, ho]
  positionals := by
    show _ = (declsOf (_ ++ _)).positionals
    rw [declsOf_append, h.positionals]
    cases c <;> simp only [isOldCall] at ho <;> first
      | (cases ho; done)
      | simp [Call.entry?, declsOf]
  notRequired := by
    intro e he hoe
    have he : e ∈ (declsOf (g₂.parser.operations ++ c.entry?.toList)).options := he
    rw [declsOf_append] at he
    rcases List.mem_append.1 he with he | he
    · exact h.notRequired e he hoe
    · cases c <;> first
        | (simp [Call.entry?, declsOf] at he; done)
        | (simp only [Call.entry?, declsOf, Option.toList_some, List.filterMap_cons, List.filterMap_nil, List.mem_singleton] at he
           subst he
           exact hr _ _ _ _ _ (List.mem_singleton.2 rfl) hoe)
  scans₁ := h.scans₁
  scans₂ := scans_effect c g₂ h.scans₂
  used := fun s hs => List.mem_append.2 (Or.inr (h.used s hs))
  list := by
    have : isPositionalList c = false := by cases c <;> first | rfl | (simp only [isOldCall] at ho; cases ho)
    simp only [Call.effect, h.list, this, Bool.or_false]
  parsed := h.parsed
  appName := h.appName
  executableName := h.executableName
  notify := h.notify
  subcommands := by cases c <;> first | exact h.subcommands | (simp only [isOldCall] at ho; cases ho)
  subParser := h.subParser
  arguments := h.arguments
  store := h.store
  world := h.world

theorem along_run (env : Env W) (old : Char → Str → Bool) (cs : List (Call W)) : ∀ g₁ g₂ : Prog W, Along old g₁ g₂ →
    AllAccepted env cs g₂ → NoneRequired old cs →
    AllAccepted env (olderRelease old cs) g₁ ∧
      Along old (runActions env ((olderRelease old cs).map .call) g₁) (runActions env (cs.map .call) g₂) := by
  induction cs with
  | nil => intro g₁ g₂ h _ _; exact ⟨rfl, h⟩
  | cons c cs ih =>
    intro g₁ g₂ h ha hr
    obtain ⟨hc, ha⟩ := accepted_cons env c cs g₂ ha
    have hr' : NoneRequired old cs := fun cfg x l ty v hm => hr cfg x l ty v (List.mem_cons_of_mem _ hm)
    rw [run_cons env c cs g₂ hc]
    unfold olderRelease at ih ⊢
    cases ho : isOldCall old c with
    | true =>
      rw [List.filter_cons_of_pos (by simp [ho])]
      have hc₁ := h.acceptable hc
      rw [run_cons env c _ g₁ hc₁]
      obtain ⟨h1, h2⟩ := ih _ _ (h.both c ho) ha hr'
      exact ⟨accepted_of env c _ g₁ hc₁ h1, h2⟩
    | false =>
      rw [List.filter_cons_of_neg (by simp [ho])]
      exact ih _ _ (h.new c ho (fun cfg x l ty v hm => hr cfg x l ty v (by
        rw [List.mem_singleton] at hm; rw [hm]; exact List.mem_cons_self ..))) ha hr'

theorem along_start (old : Char → Str → Bool) (i : Init) (st : Store) (w : W) : Along old (start i st w) (start i st w) := by
  have hs : ScansOptions (start i st w) := by
    intro o
    simp [start, mkParser, declsOf]
  exact ⟨rfl, rfl, rfl, (by intro e he; simp [start, mkParser, declsOf] at he), hs, hs, fun _ h => h, rfl, rfl, rfl, rfl, rfl, rfl, rfl,
    rfl, rfl, rfl⟩

theorem Along.upgrade {old : Char → Str → Bool} {g₁ g₂ : Prog W} (h : Along old g₁ g₂) :
    Upgrade (fun d => old d.short d.long) (fun f => old f.short f.long) g₁ g₂ :=
  ⟨h.options, h.flags, h.positionals, h.notRequired, h.scans₁, h.scans₂, h.parsed, h.appName, h.executableName, h.notify,
    h.subcommands, h.subParser, h.arguments, h.store, h.world⟩

/-! ### New options behind the old ones -/

theorem looksLikeId_of {a : Str} {x : Char} (h : x ∈ a.tail) (hd : a.head? = some '-') : looksLikeId a = true := by
  cases a with
  | nil => cases hd
  | cons y t =>
    cases t with
    | nil => cases h
    | cons z t =>
      simp only [List.head?_cons, Option.some.injEq] at hd
      subst hd
      rfl

theorem shrinks_head {D : Decls W} {c : Char} {t rest : Str} (h : Shrinks D (c :: t) rest) (hr : rest.head? ≠ some c) :
    ∃ f ∈ D.flags, f.short = c := by
  obtain ⟨xs, hx, hp, hs⟩ := h
  have hs' : rest.Sublist t := by
    cases hs with
    | cons _ hs => exact hs
    | cons_cons _ hs => exact absurd rfl hr
  have h1 := hp.count_eq c
  rw [List.count_cons_self, List.count_append] at h1
  have h2 := hs'.count_le c
  exact hx c (List.count_pos_iff.1 (by omega))

theorem shrinks_cover {D : Decls W} {t rest : Str} (h : Shrinks D t rest) {c : Char} (hc : c ∈ t) :
    (∃ f ∈ D.flags, f.short = c) ∨ c ∈ rest := by
  obtain ⟨xs, hx, hp, hs⟩ := h
  rcases List.mem_append.1 (hp.mem_iff.1 hc) with h | h
  · exact Or.inl (hx c h)
  · exact Or.inr h

/-- Identifiers of a new release. -/
structure NewIds (D₁ : Decls W) (c : Char) (s : Str) : Prop where
  short : c ≠ '\x00' → ∀ f ∈ D₁.flags, f.short ≠ c
  long : s ≠ [] → ∀ f ∈ D₁.flags, f.long ≠ s
  dash : c ≠ '-'
  eq : '=' ∉ s

/-- What an option that does not belong to the program can have to do with an argument that is left behind. -/
theorem left_not_named {D₁ : Decls W} (hD : IdsOk D₁) {e : OptDecl W} (he : NewIds D₁ e.short e.long) {a b : Str} (hab : Becomes D₁ a b)
    (hb : looksLikeId b = false) : ¬ Names e a := by
  have hlook : Names e a → looksLikeId a = true := by
    rintro (⟨_, t, rfl⟩ | ⟨_, rfl | ⟨t, rfl⟩⟩) <;> rfl
  intro hn
  cases hab with
  | same => rw [hlook hn] at hb; cases hb
  | @shrink t rest h1 _ _ =>
    cases rest with
    | nil => exact h1 rfl
    | cons => cases hb
  | gone hf =>
    rcases hf with ⟨f, hf, ha⟩ | ⟨t, rest, ha, hne, hhd, hsh, hrest⟩
    · rcases hn with ⟨_, t, ht⟩ | ⟨hl, ht | ⟨t, ht⟩⟩
      · rw [ha] at ht
        simp only [List.cons_append, List.nil_append, List.cons.injEq, true_and] at ht
        exact he.dash ht.1
      · rw [ha] at ht
        simp only [List.cons.injEq, true_and] at ht
        exact he.long hl f hf ht
      · rw [ha] at ht
        simp only [List.cons_append, List.append_assoc, List.nil_append, List.cons.injEq, true_and] at ht
        have hl : f.long ≠ [] := by rw [← ht]; simp
        have hm : f.long ∈ longIds D₁ := by
          unfold longIds
          exact List.mem_filter.2 ⟨List.mem_append.2 (Or.inr (List.mem_map.2 ⟨f, hf, rfl⟩)), by simpa using hl⟩
        have := hD.longChars _ hm '=' (by rw [← ht]; simp)
        exact absurd this (by unfold IsIdChar; decide)
    · rcases hn with ⟨hs, t', ht⟩ | ⟨_, ht | ⟨t', ht⟩⟩
      · rw [ha] at ht
        simp only [List.cons_append, List.nil_append, List.cons.injEq, true_and] at ht
        rw [← ht] at hsh
        obtain ⟨f, hf, hc⟩ := shrinks_head hsh (by
          rcases hrest with rfl | ⟨f, _, rfl⟩
          · simp
          · simpa using Ne.symm he.dash)
        exact he.short hs f hf hc
      · rw [ha] at ht
        simp only [List.cons.injEq, true_and] at ht
        rw [ht] at hhd
        exact hhd rfl
      · rw [ha] at ht
        simp only [List.cons_append, List.cons.injEq, true_and] at ht
        rw [← ht] at hhd
        exact hhd rfl

theorem left_not_seen {D₁ D₂ : Decls W} {f : FlagDecl} (he : NewIds D₁ f.short f.long) {a b : Str} (hab : Becomes D₁ a b)
    (hb : looksLikeId b = false) (hdd : a ≠ ['-', '-']) (hodd : Odd a → ¬ FlagSeen D₂ f a) : ¬ FlagSeen D₂ f a := by
  intro hs
  have hs0 := hs
  rcases hs with rfl | ⟨t, rfl, hhd, hm⟩ | ⟨t, rfl, hhd, hsh⟩
  · cases hab with
    | same => cases hb
    | shrink _ h2 _ => exact h2 rfl
    | gone hf =>
      rcases hf with ⟨g, hg, ha⟩ | ⟨t, rest, ha, hne, hhd, hsh, hrest⟩
      · simp only [List.cons.injEq, true_and] at ha
        refine he.long (fun h0 => hdd (by rw [h0])) g hg ha.symm
      · simp only [List.cons.injEq, true_and] at ha
        rw [← ha] at hhd
        exact hhd rfl
  · cases hab with
    | same => rw [looksLikeId_of (a := '-' :: t) hm rfl] at hb; cases hb
    | @shrink t rest h1 _ _ =>
      cases rest with
      | nil => exact h1 rfl
      | cons => cases hb
    | gone hf =>
      rcases hf with ⟨g, hg, ha⟩ | ⟨t', rest, ha, hne, _, hsh, hrest⟩
      · simp only [List.cons.injEq, true_and] at ha
        rw [ha] at hhd
        exact hhd rfl
      · simp only [List.cons.injEq, true_and] at ha
        subst ha
        by_cases h0 : f.short = '\x00'
        · exact hodd (Or.inl (by rw [← h0]; exact List.mem_cons_of_mem _ hm)) hs0
        · rcases hrest with rfl | ⟨g, hg, rfl⟩
          · rcases shrinks_cover hsh hm with ⟨g, hg, hc⟩ | hc
            · exact he.short h0 g hg hc
            · cases hc
          · refine hodd (Or.inr ⟨t, rfl, hhd, ?_⟩) hs0
            obtain ⟨_, _, _, hsub⟩ := hsh
            exact hsub.subset (List.mem_cons_self ..)
  · refine hodd (Or.inr ⟨t, rfl, hhd, ?_⟩) hs0
    obtain ⟨_, _, _, hsub⟩ := hsh
    exact hsub.subset (List.mem_cons_self ..)

theorem pointwise_mem_left {R : Str → Str → Prop} {l m : List Str} (h : Pointwise R l m) : ∀ a ∈ l, ∃ b ∈ m, R a b := by
  induction h with
  | nil => simp
  | cons h _ ih =>
    intro a ha
    rcases List.mem_cons.1 ha with rfl | ha
    · exact ⟨_, List.mem_cons_self .., h⟩
    · obtain ⟨b, hb, hr⟩ := ih a ha
      exact ⟨b, List.mem_cons_of_mem _ hb, hr⟩

theorem idsOk_filter {D₁ D₂ : Decls W} (hD : IdsOk D₂) (old : OptDecl W → Bool) (oldFlag : FlagDecl → Bool)
    (ho : D₁.options = D₂.options.filter old) (hf : D₁.flags = D₂.flags.filter oldFlag) : IdsOk D₁ := by
  have h1 : (shortIds D₁).Sublist (shortIds D₂) := by
    unfold shortIds
    rw [ho, hf]
    exact (((List.filter_sublist).map _).append ((List.filter_sublist).map _)).filter _
  have h2 : (longIds D₁).Sublist (longIds D₂) := by
    unfold longIds
    rw [ho, hf]
    exact (((List.filter_sublist).map _).append ((List.filter_sublist).map _)).filter _
  exact ⟨h1.nodup hD.shortNodup, h2.nodup hD.longNodup, fun c hc => hD.shortChars c (h1.subset hc),
    fun s hs => hD.longChars s (h2.subset hs)⟩

theorem filter_map_apart {α β : Type} [DecidableEq β] (f : α → β) (p : α → Bool) (q : β → Bool) {l : List α} {pre : List β}
    (h : ((pre ++ l.map f).filter q).Nodup) {a b : α} (ha : a ∈ l) (hb : b ∈ l) (hpa : p a = false) (hpb : p b = true)
    (hq : q (f a) = true) : f b ≠ f a := by
  intro he
  rw [List.filter_append, List.nodup_append] at h
  have h := h.2.1
  rw [List.filter_map] at h
  have h1 : a ∈ l.filter (q ∘ f) := List.mem_filter.2 ⟨ha, hq⟩
  have h2 : b ∈ l.filter (q ∘ f) := List.mem_filter.2 ⟨hb, by show q (f b) = true; rw [he]; exact hq⟩
  have : b = a := by
    generalize l.filter (q ∘ f) = m at h h1 h2
    clear ha hb
    induction m with
    | nil => cases h1
    | cons c m ih =>
      simp only [List.map_cons, List.nodup_cons, List.mem_map, not_exists, not_and] at h
      rcases List.mem_cons.1 h1 with e1 | h1 <;> rcases List.mem_cons.1 h2 with e2 | h2
      · rw [e1, e2]
      · exact absurd (e1 ▸ he) (h.1 b h2)
      · exact absurd (e2 ▸ he.symm) (h.1 a h1)
      · exact ih h.2 h1 h2
  rw [this, hpa] at hpb
  cases hpb

theorem option_apart {D₁ D₂ : Decls W} (hD : IdsOk D₂) (oldFlag : FlagDecl → Bool) (hf : D₁.flags = D₂.flags.filter oldFlag)
    {e : OptDecl W} (he : e ∈ D₂.options) : NewIds D₁ e.short e.long := by
  have hmem : ∀ f ∈ D₁.flags, f ∈ D₂.flags := fun f h => (List.mem_filter.1 (hf ▸ h)).1
  refine ⟨fun h0 f hfm hc => ?_, fun h0 f hfm hc => ?_, ?_, ?_⟩
  · have h := hD.shortNodup
    unfold shortIds at h
    rw [List.filter_append, List.nodup_append] at h
    refine h.2.2 e.short (List.mem_filter.2 ⟨List.mem_map.2 ⟨e, he, rfl⟩, by simpa using h0⟩) f.short
      (List.mem_filter.2 ⟨List.mem_map.2 ⟨f, hmem f hfm, rfl⟩, by simpa [hc] using h0⟩) hc.symm
  · have h := hD.longNodup
    unfold longIds at h
    rw [List.filter_append, List.nodup_append] at h
    refine h.2.2 e.long (List.mem_filter.2 ⟨List.mem_map.2 ⟨e, he, rfl⟩, by simpa using h0⟩) f.long
      (List.mem_filter.2 ⟨List.mem_map.2 ⟨f, hmem f hfm, rfl⟩, by simpa [hc] using h0⟩) hc.symm
  · by_cases h0 : e.short = '\x00'
    · rw [h0]; decide
    · exact (hD.shortChars e.short (List.mem_filter.2 ⟨List.mem_append.2 (Or.inl (List.mem_map.2 ⟨e, he, rfl⟩)), by simpa using h0⟩)).2
  · intro hc
    have h0 : e.long ≠ [] := by intro h0; rw [h0] at hc; cases hc
    have := hD.longChars e.long (List.mem_filter.2 ⟨List.mem_append.2 (Or.inl (List.mem_map.2 ⟨e, he, rfl⟩)), by simpa using h0⟩) _ hc
    exact absurd this (by unfold IsIdChar; decide)

theorem flag_apart {D₁ D₂ : Decls W} (hD : IdsOk D₂) (oldFlag : FlagDecl → Bool) (hf : D₁.flags = D₂.flags.filter oldFlag)
    {e : FlagDecl} (he : e ∈ D₂.flags) (hn : oldFlag e = false) : NewIds D₁ e.short e.long := by
  refine ⟨fun h0 f hfm => ?_, fun h0 f hfm => ?_, flag_short_dash hD he, fun hc => ?_⟩
  · rw [hf] at hfm
    obtain ⟨h1, h2⟩ := List.mem_filter.1 hfm
    exact filter_map_apart (fun f : FlagDecl => f.short) oldFlag (fun c => decide (c ≠ '\x00')) hD.shortNodup he h1 hn h2 (by simpa using h0)
  · rw [hf] at hfm
    obtain ⟨h1, h2⟩ := List.mem_filter.1 hfm
    exact filter_map_apart (fun f : FlagDecl => f.long) oldFlag (fun c => decide (c ≠ [])) hD.longNodup he h1 hn h2 (by simpa using h0)
  · have h0 : e.long ≠ [] := by intro h0; rw [h0] at hc; cases hc
    have := hD.longChars e.long (List.mem_filter.2 ⟨List.mem_append.2 (Or.inr (List.mem_map.2 ⟨e, he, rfl⟩)), by simpa using h0⟩) _ hc
    exact absurd this (by unfold IsIdChar; decide)

theorem not_end_before (args : List Str) : ['-', '-'] ∉ before args := by
  unfold before
  induction args with
  | nil => simp
  | cons a l ih =>
    by_cases ha : a = ['-', '-']
    · rw [List.takeWhile_cons_of_neg (by simp [ha])]; simp
    · rw [List.takeWhile_cons_of_pos (by simp [ha])]
      simp only [List.mem_cons, not_or]
      exact ⟨fun h => ha h.symm, ih⟩

theorem formatParse_appended {old : OptDecl W → Bool} {oldFlag : FlagDecl → Bool} {D₁ D₂ : Decls W} (hD : IdsOk D₂) (nd : Bool)
    (ho : D₁.options = D₂.options.filter old) (hl : D₂.options = D₁.options ++ D₂.options.filter (fun d => !old d))
    (hf : D₁.flags = D₂.flags.filter oldFlag) (hp : D₁.positionals = D₂.positionals)
    (hr : ∀ e ∈ D₂.options, old e = false → e.required = false) (args : List Str)
    (hodd : ∀ f ∈ D₂.flags, oldFlag f = false → ∀ a ∈ before args, Odd a → ¬ FlagSeen D₂ f a)
    (htail : ∀ f ∈ D₂.flags, oldFlag f = false → ∀ a ∈ behind args, ¬ InGroup f a)
    (st : Store) (w : W) (s : FState W) (h : formatParse nd D₁ args st w = .ok () s) : formatParse nd D₂ args st w = .ok () s := by
  have hD₁ := idsOk_filter hD old oldFlag ho hf
  obtain ⟨ph⟩ := phases nd hD₁ args st w s () h
  have hopt : M.forEach (getOption nd) D₂.options ⟨before args, args.dropWhile (· ≠ endMarker), st, w⟩ = .ok () ph.opt := by
    rw [hl, forEach_append, M.bind_run, ph.optRun]
    dsimp only
    rw [options_unnamed nd (fun _ => false) (D₂.options.filter (fun d => !old d)) ph.opt]
    · have : (D₂.options.filter (fun d => !old d)).filter (fun _ => false) = [] := by simp
      rw [this]; rfl
    · intro e he _
      obtain ⟨he, hoe⟩ := List.mem_filter.1 he
      refine ⟨hr e he (by simpa using hoe), fun a ha => ?_⟩
      obtain ⟨b, hb, hab⟩ := pointwise_mem_left ph.flgPre a ha
      exact left_not_named hD₁ (option_apart hD oldFlag hf he) hab (ph.noIds b hb)
  have hflg : M.forEach getFlag D₂.flags ph.opt = M.forEach getFlag D₁.flags ph.opt := by
    rw [hf]
    refine flags_unseen hD oldFlag D₂.flags ph.opt (fun _ h => h) (forall2_refl .same _) (forall2_refl .same _)
      (fun f hf' hof => ⟨fun a ha => ?_, fun a ha => ?_⟩)
    · obtain ⟨b, hb, hab⟩ := pointwise_mem_left ph.flgPre a ha
      rcases ph.optDone.mem a ha with rfl | hm
      · exact not_flagSeen_nil D₂ f
      · refine left_not_seen (flag_apart hD oldFlag hf hf' hof) hab (ph.noIds b hb) (fun hc => ?_) (hodd f hf' hof a hm)
        rw [hc] at hm
        exact not_end_before args hm
    · rw [ph.optPost] at ha
      rcases dropWhile_endMarker args with e | e
      · rw [e] at ha; cases ha
      · rw [e] at ha
        rcases List.mem_cons.1 ha with rfl | ha
        · rintro ⟨t, ht, hh, _⟩
          unfold endMarker at ht
          simp at ht
          rw [← ht] at hh
          simp at hh
        · exact htail f hf' hof a ha
  rw [← h]
  unfold formatParse parseBody
  rw [M.bind_run, M.bind_run]
  rw [show M.forEach (getOption nd) D₂.options
      ⟨args.takeWhile fun a => decide (a ≠ endMarker), args.dropWhile fun a => decide (a ≠ endMarker), st, w⟩ = _ from hopt,
    show M.forEach (getOption nd) D₁.options
      ⟨args.takeWhile fun a => decide (a ≠ endMarker), args.dropWhile fun a => decide (a ≠ endMarker), st, w⟩ = _ from ph.optRun]
  dsimp only
  rw [M.bind_run, M.bind_run, hflg, hp]

theorem parse_appended (env : Env W) {old : OptDecl W → Bool} {oldFlag : FlagDecl → Bool} {g₁ g₂ : Prog W}
    (h : Upgrade old oldFlag g₁ g₂) (hD : IdsOk (declsOf g₂.parser.operations))
    (hl : (declsOf g₂.parser.operations).options =
      (declsOf g₁.parser.operations).options ++ (declsOf g₂.parser.operations).options.filter (fun d => !old d))
    (hn : ∀ exe args toks stop, g₁.parser.arguments = exe :: args →
      Reading g₁.parser.options g₁.parser.subcommands args toks stop →
      NotUsed old oldFlag (declsOf g₂.parser.operations) (renderToks toks ++ stop.looked))
    (g₁' : Prog W) (hret : parse env g₁ = (.returned, g₁')) :
    ∃ g₂', parse env g₂ = (.returned, g₂') ∧ g₂'.store = g₁'.store ∧ g₂'.world = g₁'.world ∧
      g₂'.parser.subParser = g₁'.parser.subParser := by
  obtain ⟨hready, _, ⟨exe, args, toks, stop, ha, hr, hexn, hreq, hp⟩, w1, s, hc, hf, hs, hw⟩ := parse_returned env _ g₁' hret
  have hdec : decided toks stop = .parse := decided_of_returned env _ hready exe args ha toks stop hr hexn g₁' hret
  have hm := hn exe args toks stop ha hr
  have hready₂ : Ready g₂.parser := ⟨h.parsed ▸ hready.notParsed, h.appName ▸ hready.app, h.subcommands ▸ hready.subs⟩
  have hr₂ : Reading g₂.parser.options g₂.parser.subcommands args toks stop := by
    rw [← h.subcommands]
    exact reading_congr hr (fun a ha => h.mem_options' a (fun e he ho => hm.options e he ho a ha))
  have hsub : (scannedParser g₂.parser exe toks stop).subParser = (scannedParser g₁.parser exe toks stop).subParser := by
    simp only [scannedParser, h.appName, h.executableName]
  have hw' := kept_without toks stop hr.toksOk
  rw [hp] at hf hc
  have hf₂ := formatParse_appended hD env.ndebug h.options hl h.flags h.positionals h.notRequired (kept toks ++ stop.kept)
    (fun f hf ho a ha => hm.odd f hf ho a (hw'.before a ha)) (fun f hf ho a ha => hm.tail f hf ho a (hw'.behind a ha)) g₁.store w1 s hf
  rw [h.store] at hf₂
  rw [h.appName, h.notify, h.world] at hc
  exact ⟨_, parse_of_run env g₂ hready₂ exe args (h.arguments ▸ ha) toks stop hr₂ hexn hdec w1 hc s hf₂, hs.symm, hw.symm, by rw [hp]; exact hsub⟩

theorem options_last (env : Env W) (old : Char → Str → Bool) (cs : List (Call W)) (i : Init) (st : Store) (w : W)
    (ha : AllAccepted env cs (start i st w)) (hl : NewOptionsLast old cs) :
    (declsOf (runActions env (cs.map .call) (start i st w)).parser.operations).options =
      (declsOf (runActions env (cs.map .call) (start i st w)).parser.operations).options.filter (fun d => old d.short d.long) ++
      (declsOf (runActions env (cs.map .call) (start i st w)).parser.operations).options.filter (fun d => !old d.short d.long) := by
  rw [operations_of_length env cs _ ha]
  have h0 : (start i st w).parser.operations = [] := rfl
  obtain ⟨front, back, rfl, h1, h2⟩ := hl
  have key : ∀ (l : List (Call W)) (b : Bool),
      (∀ cfg x k ty v, Call.addOption cfg x k ty v ∈ l → old cfg.short cfg.long = b) →
      ∀ d ∈ (declsOf (l.filterMap Call.entry?)).options, old d.short d.long = b := by
    intro l b hl d hd
    unfold declsOf at hd
    obtain ⟨en, hen, hd⟩ := List.mem_filterMap.1 hd
    obtain ⟨c, hc, hce⟩ := List.mem_filterMap.1 hen
    cases c <;> simp only [Call.entry?, Option.some.injEq, reduceCtorEq] at hce <;> subst hce <;>
      simp only [Option.some.injEq, reduceCtorEq] at hd
    subst hd
    exact hl _ _ _ _ _ hc
  rw [h0, List.nil_append, List.filterMap_append, declsOf_append]
  dsimp only
  rw [List.filter_append, List.filter_append]
  have e1 := key front true h1
  have e2 := key back false h2
  rw [List.filter_eq_self.2 (fun d hd => e1 d hd), List.filter_eq_nil_iff.2 (fun d hd => by simp [e2 d hd]),
    List.filter_eq_nil_iff.2 (fun d hd => by simp [e1 d hd]), List.filter_eq_self.2 (fun d hd => by simp [e2 d hd])]
  simp

end Sharg
