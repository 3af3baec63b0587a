import Verif.Props.Terminal
import Mathlib.Data.List.Induction

/-!
# Property C76: what is printed where
-/

namespace Sharg

open Spec

/-! ### Standard output -/

/-- The code leaves this part of the system alone. -/
def Spares {α β : Type} (f : System → β) (m : SysM α) : Prop := ∀ s, f (m s).state = f s

/-- The code prints nothing on standard output. -/
abbrev QuietOut {α : Type} (m : SysM α) : Prop := Spares System.stdout m

/-- A part of the system besides the disk. -/
def OffDisk {β : Type} (f : System → β) : Prop := ∀ (s : System) (d : Disk), f { s with disk := d } = f s

theorem offDisk_stdout : OffDisk System.stdout := fun _ _ => rfl
theorem offDisk_stderr : OffDisk System.stderr := fun _ _ => rfl
theorem offDisk_terminals : OffDisk fun s => (s.stdinTty, s.stderrTty) := fun _ _ => rfl

section
variable {γ : Type} {o : System → γ}

theorem spares_bind {α β : Type} {m : SysM α} {f : α → SysM β} (h1 : Spares o m) (h2 : ∀ a, Spares o (f a)) : Spares o (M.bind m f) := by
  intro s
  rw [M.bind_run]
  have := h1 s
  cases hm : m s with
  | ok a s' => rw [hm] at this; exact (h2 a s').trans this
  | err e s' => rw [hm] at this; exact this

theorem quiet_pure {α : Type} (a : α) : Spares o (M.pure a) := fun _ => rfl
theorem quiet_throw {α : Type} (e : Exn) : Spares o (M.throw (α := α) e) := fun _ => rfl
theorem quiet_look {α : Type} (f : System → α) : Spares o (look f) := fun _ => rfl
theorem quiet_onDisk (ho : OffDisk o) {α : Type} (m : FsM α) : Spares o (onDisk m) := by
  intro s
  unfold onDisk
  split <;> exact ho s _
theorem quiet_at (ho : OffDisk o) {α : Type} (f : System → FsM α) : Spares o (fun s => onDisk (f s) s) := fun s => quiet_onDisk ho (f s) s

theorem quiet_getPath (ho : OffDisk o) (nd : Bool) : Spares o (getPath nd) := by
  refine spares_bind (quiet_look _) fun home => ?_
  cases home with
  | none => exact quiet_throw _
  | some h =>
    refine spares_bind (quiet_look _) fun cwd => spares_bind (quiet_onDisk ho _) fun ok₁ => spares_bind ?_ fun ok₂ => spares_bind ?_ fun dir => ?_
    · split
      · exact quiet_onDisk ho _
      · exact quiet_pure _
    · split
      · exact quiet_pure _
      · exact quiet_look _
    · cases dir with
      | none => exact quiet_throw _
      | some d => exact spares_bind (quiet_onDisk ho _) fun _ => spares_bind (quiet_onDisk ho _) fun _ => quiet_pure _

theorem quiet_makeChecker (ho : OffDisk o) (i : CheckInput) : Spares o (makeChecker i) := by
  refine spares_bind (quiet_getPath ho _) fun p => ?_
  split
  · exact quiet_throw _
  · exact quiet_pure _

theorem quiet_writeCookie (ho : OffDisk o) (ck : Checker) (m : Str) : Spares o (writeCookie ck m) := quiet_at ho _

theorem quiet_cookieDecision (ho : OffDisk o) (ck : Checker) : Spares o (cookieDecision ck) := by
  refine spares_bind ?_ fun there => ?_
  · intro s
    unfold pathExists
    split
    · rfl
    · exact quiet_onDisk ho _ s
  · split
    · refine spares_bind (quiet_at ho _) fun content => ?_
      cases content with
      | none => exact quiet_pure _
      | some t =>
        refine spares_bind (quiet_look _) fun now => ?_
        split
        · exact quiet_pure _
        · split
          · exact quiet_pure _
          · split <;> exact quiet_pure _
    · exact quiet_pure _

end

theorem quiet_askUser (ck : Checker) : QuietOut (askUser ck) := by
  refine spares_bind (quiet_look _) fun it => ?_
  split
  · refine spares_bind (fun _ => rfl) fun _ => spares_bind (fun _ => rfl) fun c => ?_
    split
    · exact quiet_pure _
    · split
      · exact spares_bind (quiet_writeCookie offDisk_stdout _ _) fun _ => quiet_pure _
      · split
        · exact spares_bind (quiet_writeCookie offDisk_stdout _ _) fun _ => quiet_pure _
        · exact quiet_pure _
  · exact quiet_pure _

theorem quiet_decideCheck (ck : Checker) (notify : Bool) (user : Option Bool) : QuietOut (decideCheck ck notify user) := by
  unfold decideCheck
  split
  · exact quiet_pure _
  · refine spares_bind (quiet_look _) fun no => ?_
    split
    · exact quiet_pure _
    · cases user with
      | some b => exact quiet_pure _
      | none =>
        refine spares_bind (quiet_cookieDecision offDisk_stdout _) fun d => ?_
        cases d with
        | some b => exact quiet_pure _
        | none => exact spares_bind (quiet_writeCookie offDisk_stdout _ _) fun _ => quiet_askUser _

theorem quiet_performCheck (i : CheckInput) (ck : Checker) : QuietOut (performCheck i ck) := by
  refine spares_bind (quiet_at offDisk_stdout _) fun content => spares_bind (fun _ => rfl) fun _ => fun s => ?_
  show (if _ then s else _).stdout = s.stdout
  split <;> rfl

/-- The version check prints nothing on standard output. -/
theorem quiet_check (i : CheckInput) (notify : Bool) (user : Option Bool) : QuietOut (runVersionCheck i notify user) := by
  refine spares_bind (quiet_makeChecker offDisk_stdout i) fun ck => spares_bind (quiet_decideCheck ck notify user) fun p => ?_
  split
  · exact quiet_performCheck i ck
  · exact quiet_pure _

/-- No validator of the set-up prints on standard output. -/
def QuietValidators (p : Parser System) : Prop :=
  (∀ d ∈ (declsOf p.operations).options, ∀ x w, (d.validator x w).2.stdout = w.stdout) ∧
  (∀ d ∈ (declsOf p.operations).positionals, ∀ x w, (d.validator x w).2.stdout = w.stdout)

/-- The validator of a set-up call, if any, prints nothing on standard output. -/
def QuietCall : Call System → Prop
  | .addOption _ _ _ _ v => ∀ x w, (v x w).2.stdout = w.stdout
  | .addPositionalOption _ _ _ _ v => ∀ x w, (v x w).2.stdout = w.stdout
  | _ => True

/-- C76: nothing but the requested page goes to standard output. If `parse()` returns, nothing was printed there; if it
exits, exactly the page; if it throws, nothing or the beginning of a page that failed with this exception. -/
theorem C76_only_pages_on_standard_output (r : Surroundings) (g : Prog System) (hq : QuietValidators g.parser) :
    match (parse r.env g).1 with
    | .returned => (parse r.env g).2.world.stdout = g.world.stdout
    | .exited f => ∃ page, pageOf r.pages f (parse r.env g).2.parser g.store = (none, page) ∧
        (parse r.env g).2.world.stdout = g.world.stdout ++ page
    | .threw e => (parse r.env g).2.world.stdout = g.world.stdout ∨
        ∃ f page, f ≠ .parse ∧ pageOf r.pages f (parse r.env g).2.parser g.store = (some e, page) ∧
          (parse r.env g).2.world.stdout = g.world.stdout ++ page := by
  rcases parse_steps r.env g with ⟨e, p, h⟩ | ⟨-, -, f, p, hs, h⟩
  · rw [h]; exact Or.inl rfl
  · rw [h]
    unfold checkAndParse
    have hc : (r.env.versionCheck p.appName p.notify p.userDecision g.world).2.stdout = g.world.stdout :=
      quiet_check _ _ _ g.world
    dsimp only
    generalize r.env.versionCheck p.appName p.notify p.userDecision g.world = c at hc
    obtain ⟨o, w⟩ := c
    cases o with
    | some e => exact Or.inl hc
    | none =>
      dsimp only at hc ⊢
      have page : ∀ f, f ≠ .parse → parseFormat r.env f { g with parser := p, world := w } =
          (match (pageOf r.pages f p g.store).1 with
            | some e => (.threw e, { g with parser := p, world := { w with stdout := w.stdout ++ (pageOf r.pages f p g.store).2 } })
            | none => (.exited f, { g with parser := p, world := { w with stdout := w.stdout ++ (pageOf r.pages f p g.store).2 } })) := by
        intro f hf
        have e : r.env.printPage f p g.store w =
            ((pageOf r.pages f p g.store).1, { w with stdout := w.stdout ++ (pageOf r.pages f p g.store).2 }) := rfl
        unfold parseFormat
        cases f with
        | parse => exact absurd rfl hf
        | _ => dsimp only; rw [e]; cases (pageOf r.pages _ p g.store).1 <;> rfl
      by_cases hf : f = .parse
      · subst hf
        have := guards_formatParse (P := fun x : System => x.stdout = w.stdout) r.env.ndebug (declsOf p.operations) p.formatArguments
          g.store w (fun d hd x y hy => by rw [hs.operations] at hd; rw [hq.1 d hd x y]; exact hy)
          (fun d hd x y hy => by rw [hs.operations] at hd; rw [hq.2 d hd x y]; exact hy) rfl
        unfold parseFormat
        dsimp only
        cases hp : formatParse r.env.ndebug (declsOf p.operations) p.formatArguments g.store w with
        | ok u s => rw [hp] at this; exact this.trans hc
        | err e s => rw [hp] at this; exact Or.inl (this.trans hc)
      · rw [page f hf]
        cases hp : pageOf r.pages f p g.store with
        | mk o page =>
          cases o with
          | none => exact ⟨page, hp, by rw [← hc]⟩
          | some e => exact Or.inr ⟨f, page, hf, hp, by rw [← hc]⟩

/-- C76: a parser object prints at most one page in its life, and nothing else, on standard output. -/
theorem C76_at_most_one_page (r : Surroundings) (i : Init) (st : Store) (w : System) (as : List (Action System))
    (hq : ∀ c, .call c ∈ as → QuietCall c) :
    ∃ out, (runActions r.env as (start i st w)).world.stdout = w.stdout ++ out ∧
      (out = [] ∨ ∃ (f : Format) (p : Parser System), f ≠ .parse ∧ (pageOf r.pages f p st).2 = out) := by
  have hcalls : ∀ (as : List (Action System)) (g : Prog System), ∀ c ∈ accepted r.env as g, .call c ∈ as := by
    intro as
    induction as with
    | nil => intro g c hc; cases hc
    | cons a as ih =>
      intro g c hc
      cases a with
      | parse => exact List.mem_cons_of_mem _ (ih _ c hc)
      | call d =>
        unfold accepted at hc
        split at hc
        · rcases List.mem_cons.1 hc with rfl | hc
          · exact List.mem_cons_self
          · exact List.mem_cons_of_mem _ (ih _ c hc)
        · exact List.mem_cons_of_mem _ (ih _ c hc)
  have hquiet : ∀ as : List (Action System), (∀ c, .call c ∈ as → QuietCall c) → QuietValidators (runActions r.env as (start i st w)).parser := by
    intro as hq
    have hop := operations_history r.env as (start i st w)
    have hmem : ∀ e ∈ (runActions r.env as (start i st w)).parser.operations, ∃ c, QuietCall c ∧ c.entry? = some e := by
      intro e he
      rw [hop] at he
      rcases List.mem_append.1 he with he | he
      · cases he
      · obtain ⟨c, hc, he⟩ := List.mem_filterMap.1 he
        exact ⟨c, hq c (hcalls _ _ c hc), he⟩
    constructor
    · intro d hd
      obtain ⟨e, he, hde⟩ := List.mem_filterMap.1 hd
      obtain ⟨c, hc, hce⟩ := hmem e he
      cases c with
      | addOption cfg y l ty v => cases hce; cases hde; exact hc
      | _ => cases hce <;> cases hde
    · intro d hd
      obtain ⟨e, he, hde⟩ := List.mem_filterMap.1 hd
      obtain ⟨c, hc, hce⟩ := hmem e he
      cases c with
      | addPositionalOption cfg y l ty v => cases hce; cases hde; exact hc
      | _ => cases hce <;> cases hde
  -- either nothing was parsed yet, or at most one page was printed
  have main : ∀ as : List (Action System), (∀ c, .call c ∈ as → QuietCall c) →
      let g := runActions r.env as (start i st w)
      (g.parser.parseWasCalled = false → g.world = w ∧ g.store = st) ∧
      ∃ out, g.world.stdout = w.stdout ++ out ∧ (out = [] ∨ ∃ (f : Format) (p : Parser System), f ≠ .parse ∧ (pageOf r.pages f p st).2 = out) := by
    intro as
    induction as using List.reverseRecOn with
    | nil => intro _; exact ⟨fun _ => ⟨rfl, rfl⟩, [], (List.append_nil _).symm, Or.inl rfl⟩
    | append_singleton as a ih =>
      intro hq
      have hq' : ∀ c, .call c ∈ as → QuietCall c := fun c hc => hq c (List.mem_append_left _ hc)
      have ih := ih hq'
      have hquiet := hquiet as hq'
      rw [runActions_append]
      generalize runActions r.env as (start i st w) = g at ih hquiet
      obtain ⟨ih1, out, ih2, ih3⟩ := ih
      cases a with
      | call c =>
        have hrun : ∃ p, ((Action.call c).run r.env g).2 = { g with parser := p } ∧ p.parseWasCalled = g.parser.parseWasCalled := by
          by_cases hc : Acceptable g.parser.situation c
          · rw [Action.call_run_acceptable r.env c g hc]
            exact ⟨_, rfl, rfl⟩
          · obtain ⟨p, hp, hr⟩ := Action.call_run_rejected r.env c g hc
            rw [hr]
            exact ⟨p, rfl, (reject_operations c _ _ _ hc hp).2.2.2⟩
        obtain ⟨p, h1, h2⟩ := hrun
        show (((Action.call c).run r.env g).2.parser.parseWasCalled = false → ((Action.call c).run r.env g).2.world = w ∧ ((Action.call c).run r.env g).2.store = st) ∧
          ∃ out, ((Action.call c).run r.env g).2.world.stdout = w.stdout ++ out ∧ (out = [] ∨ ∃ (f : Format) (p : Parser System), f ≠ .parse ∧ (pageOf r.pages f p st).2 = out)
        rw [h1]
        exact ⟨fun h => ih1 (h2 ▸ h), out, ih2, ih3⟩
      | parse =>
        show ((parse r.env g).2.parser.parseWasCalled = false → (parse r.env g).2.world = w ∧ (parse r.env g).2.store = st) ∧
          ∃ out, (parse r.env g).2.world.stdout = w.stdout ++ out ∧ (out = [] ∨ ∃ (f : Format) (p : Parser System), f ≠ .parse ∧ (pageOf r.pages f p st).2 = out)
        refine ⟨fun h => ?_, ?_⟩
        · rw [(parse_parser r.env g).2] at h
          cases h
        · by_cases hcalled : g.parser.parseWasCalled = true
          · have : parse r.env g = (.threw .designError, g) := by unfold parse; rw [if_pos hcalled]
            rw [this]
            exact ⟨out, ih2, ih3⟩
          · obtain ⟨h1, h2⟩ := ih1 (by simpa using hcalled)
            have h3 := C76_only_pages_on_standard_output r g hquiet
            rw [h1, h2] at h3
            cases ho : (parse r.env g).1 with
            | returned => rw [ho] at h3; exact ⟨[], by rw [h3, List.append_nil], Or.inl rfl⟩
            | exited f =>
              rw [ho] at h3
              obtain ⟨page, h4, h5⟩ := h3
              refine ⟨page, h5, Or.inr ⟨f, _, ?_, by rw [h4]⟩⟩
              exact (C68_printed_to_standard_output r g (parse r.env g).2 f (by rw [← ho])).1
            | threw e =>
              rw [ho] at h3
              rcases h3 with h3 | ⟨f, page, h4, h5, h6⟩
              · exact ⟨[], by rw [h3, List.append_nil], Or.inl rfl⟩
              · exact ⟨page, h6, Or.inr ⟨f, _, h4, by rw [h5]⟩⟩
  exact (main as hq).2

/-! ### The same page for every command line -/

/-- The parser with other arguments and another name of the executable. -/
def Parser.redirect {W : Type} (p : Parser W) (a x : List Str) : Parser W := { p with arguments := a, executableName := x }

/-- The code does not look at the arguments and the name of the executable, and leaves them alone. -/
def Oblivious {W α : Type} (m : PM W α) : Prop := ∀ p a x,
  m (p.redirect a x) = match m p with
    | .ok v q => .ok v (q.redirect a x)
    | .err e q => .err e (q.redirect a x)

variable {W : Type}

theorem oblivious_bind {α β : Type} {m : PM W α} {f : α → PM W β} (h1 : Oblivious m) (h2 : ∀ a, Oblivious (f a)) : Oblivious (M.bind m f) := by
  intro p a x
  rw [M.bind_run, M.bind_run, h1 p a x]
  cases m p with
  | ok v q => exact h2 v q a x
  | err e q => rfl

theorem oblivious_pure {α : Type} (a : α) : Oblivious (M.pure (σ := Parser W) a) := fun _ _ _ => rfl
theorem oblivious_throw {α : Type} (e : Exn) : Oblivious (M.throw (σ := Parser W) (α := α) e) := fun _ _ _ => rfl

theorem oblivious_parseNotCalled : Oblivious (W := W) checkParseNotCalled := by
  intro p a x
  unfold checkParseNotCalled
  show (if p.parseWasCalled = true then _ else _) = _
  split <;> rfl

theorem oblivious_idExists (id : Str) : Oblivious (W := W) (idExists id) := by
  intro p a x
  unfold idExists
  show (if id ∈ p.usedIds then _ else _) = _
  split <;> rfl

theorem oblivious_fresh (id : Str) : Oblivious (W := W) (M.bind (idExists id) fun used => if used then M.throw .designError else M.pure ()) := by
  refine oblivious_bind (oblivious_idExists _) fun used => ?_
  split
  · exact oblivious_throw _
  · exact oblivious_pure _

theorem oblivious_identifiers (c : Char) (s : Str) : Oblivious (W := W) (verifyIdentifiers c s) := by
  unfold verifyIdentifiers
  split
  · exact oblivious_throw _
  · refine oblivious_bind ?_ fun _ => ?_
    · unfold verifyShort
      split
      · split
        · exact oblivious_throw _
        · exact oblivious_fresh _
      · exact oblivious_pure _
    · unfold verifyLong
      split
      · split
        · exact oblivious_throw _
        · split
          · exact oblivious_throw _
          · split
            · exact oblivious_throw _
            · exact oblivious_fresh _
      · exact oblivious_pure _

theorem oblivious_push (e : Entry W) : Oblivious (pushOperation e) := fun _ _ _ => rfl

theorem oblivious_call (c : Call W) : Oblivious c.run := by
  cases c with
  | addOption cfg y l ty v =>
    refine oblivious_bind oblivious_parseNotCalled fun _ => oblivious_bind ?_ fun _ => oblivious_push _
    refine oblivious_bind (oblivious_identifiers _ _) fun _ => oblivious_bind (fun _ _ _ => rfl) fun _ => ?_
    split
    · exact oblivious_throw _
    · exact oblivious_pure _
  | addFlag cfg y b =>
    refine oblivious_bind oblivious_parseNotCalled fun _ => oblivious_bind ?_ fun _ => ?_
    · refine oblivious_bind (oblivious_identifiers _ _) fun _ => ?_
      split
      · exact oblivious_throw _
      · exact oblivious_pure _
    · split
      · exact oblivious_throw _
      · exact oblivious_push _
  | addPositionalOption cfg y l ty v =>
    refine oblivious_bind oblivious_parseNotCalled fun _ => oblivious_bind ?_ fun _ => oblivious_bind (fun _ _ _ => rfl) fun _ => oblivious_push _
    intro p a x
    unfold verifyPositionalOptionConfig
    show (if cfg.short ≠ '\x00' ∨ cfg.long ≠ [] then _ else if cfg.advanced = true ∨ cfg.hidden = true then _
      else if p.subcommands ≠ [] then _ else if p.hasPositionalListOption = true then _ else if cfg.defaultMessage ≠ [] then _ else _) = _
    split
    · rfl
    · split
      · rfl
      · split
        · rfl
        · split
          · rfl
          · split <;> rfl
  | addSection t a => exact oblivious_bind oblivious_parseNotCalled fun _ => oblivious_push _
  | addSubsection t a => exact oblivious_bind oblivious_parseNotCalled fun _ => oblivious_push _
  | addLine t p a => exact oblivious_bind oblivious_parseNotCalled fun _ => oblivious_push _
  | addListItem k d a => exact oblivious_bind oblivious_parseNotCalled fun _ => oblivious_push _
  | addSubcommands ns => exact fun _ _ _ => rfl

/-- Set-up calls on parsers that differ in the arguments. -/
theorem setUp_redirect (env : Env W) (cs : List (Call W)) (g g' : Prog W) (a x : List Str)
    (h : g'.parser = g.parser.redirect a x) (hs : g'.store = g.store) :
    (runActions env (cs.map .call) g').parser = (runActions env (cs.map .call) g).parser.redirect a x ∧
    (runActions env (cs.map .call) g').store = g.store ∧ (runActions env (cs.map .call) g).store = g.store ∧
    (runActions env (cs.map .call) g').world = g'.world ∧ (runActions env (cs.map .call) g).world = g.world := by
  induction cs generalizing g g' with
  | nil => exact ⟨h, hs, rfl, rfl, rfl⟩
  | cons c cs ih =>
    rw [List.map_cons]
    unfold runActions
    have := oblivious_call c g.parser a x
    unfold Action.run
    dsimp only
    rw [h, this]
    cases c.run g.parser with
    | ok u q =>
      obtain ⟨h1, h2, h3, h4, h5⟩ := ih { g with parser := q } { g' with parser := q.redirect a x } rfl hs
      exact ⟨h1, h2, h3, h4, h5⟩
    | err e q =>
      obtain ⟨h1, h2, h3, h4, h5⟩ := ih { g with parser := q } { g' with parser := q.redirect a x } rfl hs
      exact ⟨h1, h2, h3, h4, h5⟩

/-- What a page depends on. -/
theorem pageOf_setup (pe : PageEnv) (f : Format) (p q : Parser W) (st : Store) (h1 : q.appName = p.appName) (h2 : q.notify = p.notify)
    (h3 : q.subcommands = p.subcommands) (h4 : q.operations = p.operations) (h5 : (∃ c, f = .tdl c) → q.executableName = p.executableName) :
    pageOf pe f q st = pageOf pe f p st := by
  have hi : ∀ a, pe.input a q st = pe.input a p st := by
    intro a
    unfold PageEnv.input
    rw [h1, h2, h3, h4]
  cases f with
  | tdl c =>
    unfold pageOf
    dsimp only
    rw [h1, h4, h5 ⟨c, rfl⟩]
  | parse => rfl
  | _ => unfold pageOf; dsimp only; first | rw [hi, h1] | rw [h1]

/-- The name of the executable after `parse()`. -/
theorem exited_executable (env : Env W) (g g' : Prog W) (f : Format) (h : parse env g = (.exited f, g')) :
    g'.parser.executableName = g.parser.executableName ++ g.parser.arguments.take 1 := by
  unfold parse at h
  split at h
  · cases h
  · have h1 := verifyNames_parser { g.parser with parseWasCalled := true }
    cases hv : verifyAppAndSubcommandNames { g.parser with parseWasCalled := true } with
    | err e p => rw [hv] at h; cases h
    | ok u p =>
      rw [hv] at h h1
      dsimp only [Res.state] at h h1
      subst h1
      cases hd : determineFormatAndSubcommand env.ndebug { g.parser with parseWasCalled := true } with
      | err e p => rw [hd] at h; cases h
      | ok k p =>
        rw [hd] at h
        dsimp only at h
        have := checkAndParse_parser env k { g with parser := p }
        rw [h] at this
        rw [this]
        unfold determineFormatAndSubcommand at hd
        dsimp only at hd
        split at hd
        · cases hd
        · rename_i exe args ha
          rw [ha]
          split at hd
          · cases hd
          · cases hd
            rfl

/-- C76: a page does not depend on the rest of the command line: two runs of the same program that print the same kind of page
print the same text, whatever else was given. (An exported tool description names the executable.) -/
theorem C76_same_page_for_every_command_line (r : Surroundings) (i j : Init) (h1 : j.appName = i.appName) (h2 : j.notify = i.notify)
    (h3 : j.subcommands = i.subcommands) (cs : List (Call System)) (st : Store) (w w' : System) (f : Format) (g g' : Prog System)
    (hx : (∃ c, f = .tdl c) → j.executableName ++ j.arguments.take 1 = i.executableName ++ i.arguments.take 1)
    (hg : parse r.env (runActions r.env (cs.map .call) (start i st w)) = (.exited f, g))
    (hg' : parse r.env (runActions r.env (cs.map .call) (start j st w')) = (.exited f, g')) :
    ∃ page, g.world.stdout = w.stdout ++ page ∧ g'.world.stdout = w'.stdout ++ page := by
  obtain ⟨k1, k2, k3, k4, k5⟩ := setUp_redirect r.env cs (start i st w) (start j st w') j.arguments j.executableName
    (by unfold start mkParser Parser.redirect; dsimp only; rw [h1, h2, h3]) rfl
  have out : ∀ {g₀ g₁ : Prog System}, parse r.env g₀ = (.exited f, g₁) →
      g₁.world.stdout = g₀.world.stdout ++ (pageOf r.pages f g₁.parser g₀.store).2 := by
    intro g₀ g₁ h
    obtain ⟨-, -, -, -, v, hv, hw⟩ := C68_printed_to_standard_output r g₀ g₁ f h
    rw [hw]
    have := quiet_check (r.check g₁.parser.appName) g₁.parser.notify g₁.parser.userDecision g₀.world
    rw [hv] at this
    show v.stdout ++ _ = _
    rw [show v.stdout = g₀.world.stdout from this]
  refine ⟨(pageOf r.pages f g.parser st).2, ?_, ?_⟩
  · rw [out hg, k3, k5]; rfl
  · rw [out hg', k2, k4]
    show w'.stdout ++ _ = _
    congr 1
    obtain ⟨-, s1, -⟩ := C68_printed_to_standard_output r _ _ f hg
    obtain ⟨-, s2, -⟩ := C68_printed_to_standard_output r _ _ f hg'
    show (pageOf r.pages f g'.parser st).2 = _
    rw [pageOf_setup r.pages f g.parser g'.parser st]
    · rw [s2.appName, s1.appName, k1]; rfl
    · rw [s2.notify, s1.notify, k1]; rfl
    · rw [s2.subcommands, s1.subcommands, k1]; rfl
    · rw [s2.operations, s1.operations, k1]; rfl
    · intro hf
      rw [exited_executable r.env _ _ f hg, exited_executable r.env _ _ f hg', k1]
      have e1 : (runActions r.env (cs.map .call) (start i st w)).parser.executableName = i.executableName := by
        obtain ⟨e, -⟩ := setUp_redirect r.env cs (start i st w) (start i st w) i.arguments i.executableName rfl rfl
        rw [e]; rfl
      have e2 : (runActions r.env (cs.map .call) (start i st w)).parser.arguments = i.arguments := by
        obtain ⟨e, -⟩ := setUp_redirect r.env cs (start i st w) (start i st w) i.arguments i.executableName rfl rfl
        rw [e]; rfl
      rw [e1, e2]
      exact hx hf

/-! ### Standard error -/

theorem offDisk_view : OffDisk fun s => (s.stderr, s.stdinTty, s.stderrTty, s.noCheckVar) := fun _ _ => rfl

/-- What the decision adds to standard error. -/
theorem decide_says (ck : Checker) (notify : Bool) (user : Option Bool) (s : System) :
    ∃ q, (decideCheck ck notify user s).state.stderr = s.stderr ++ q ∧
      (q ≠ [] → q = question ∧ s.stdinTty = true ∧ s.stderrTty = true ∧ user = none ∧ notify = true ∧ s.noCheckVar = false) ∧
      (∀ s', decideCheck ck notify user s = .ok true s' → notify = true ∧ s.noCheckVar = false) := by
  have none_said : ∀ {m : SysM Bool}, m s = .ok false s → ∃ q, (m s).state.stderr = s.stderr ++ q ∧
      (q ≠ [] → q = question ∧ s.stdinTty = true ∧ s.stderrTty = true ∧ user = none ∧ notify = true ∧ s.noCheckVar = false) ∧
      (∀ s', m s = .ok true s' → notify = true ∧ s.noCheckVar = false) := by
    intro m h
    rw [h]
    exact ⟨[], (List.append_nil _).symm, fun h => absurd rfl h, fun s' h => by cases h⟩
  cases notify with
  | false => exact none_said rfl
  | true =>
    cases hn : s.noCheckVar with
    | true =>
      rw [hn] at none_said
      exact none_said (by unfold decideCheck; rw [if_neg (by simp), M.bind_run, look_run]; dsimp only; rw [hn]; rfl)
    | false =>
      cases user with
      | some b => exact ⟨[], by
          unfold decideCheck; rw [if_neg (by simp), M.bind_run, look_run]; dsimp only; rw [hn]; exact (List.append_nil _).symm,
          fun h => absurd rfl h, fun _ _ => ⟨rfl, rfl⟩⟩
      | none =>
        have e : decideCheck ck true none s = M.bind (cookieDecision ck) (fun d =>
            match d with
            | some b => M.pure b
            | none => M.bind (writeCookie ck "ASK".toList) fun _ => askUser ck) s := by
          unfold decideCheck; rw [if_neg (by simp), M.bind_run, look_run]; dsimp only; rw [hn]; rfl
        rw [e, M.bind_run]
        have hc := quiet_cookieDecision offDisk_view ck s
        cases hd : cookieDecision ck s with
        | err x s₁ =>
          rw [hd] at hc
          have hc : s₁.stderr = s.stderr := congrArg (·.1) hc
          exact ⟨[], by rw [List.append_nil]; exact hc, fun h => absurd rfl h, fun _ _ => ⟨rfl, rfl⟩⟩
        | ok d s₁ =>
          rw [hd] at hc
          have hc : (s₁.stderr, s₁.stdinTty, s₁.stderrTty, s₁.noCheckVar) = (s.stderr, s.stdinTty, s.stderrTty, s.noCheckVar) := hc
          injection hc with c1 c2
          injection c2 with c2 c3
          injection c3 with c3 c4
          cases d with
          | some b => exact ⟨[], by rw [List.append_nil]; exact c1, fun h => absurd rfl h, fun _ _ => ⟨rfl, rfl⟩⟩
          | none =>
            dsimp only
            rw [M.bind_run]
            have hw := quiet_writeCookie offDisk_view ck "ASK".toList s₁
            cases he : writeCookie ck "ASK".toList s₁ with
            | err x s₂ =>
              rw [he] at hw
              have hw : s₂.stderr = s₁.stderr := congrArg (·.1) hw
              exact ⟨[], by rw [List.append_nil]; exact hw.trans c1, fun h => absurd rfl h, fun _ _ => ⟨rfl, rfl⟩⟩
            | ok u s₂ =>
              rw [he] at hw
              have hw : (s₂.stderr, s₂.stdinTty, s₂.stderrTty, s₂.noCheckVar) = (s₁.stderr, s₁.stdinTty, s₁.stderrTty, s₁.noCheckVar) := hw
              injection hw with d1 d2
              injection d2 with d2 d3
              injection d3 with d3 d4
              dsimp only
              unfold askUser
              rw [M.bind_run, look_run]
              dsimp only
              by_cases hi : (s₂.stdinTty && s₂.stderrTty) = true
              · rw [if_pos hi]
                rw [Bool.and_eq_true] at hi
                refine ⟨question, ?_, fun _ => ⟨rfl, by rw [← c2, ← d2]; exact hi.1, by rw [← c3, ← d3]; exact hi.2, rfl, rfl, rfl⟩,
                  fun _ _ => ⟨rfl, rfl⟩⟩
                have said : (sayErr question s₂) = .ok () { s₂ with stderr := s₂.stderr ++ question } := rfl
                rw [M.bind_run, said]
                dsimp only
                have rest : ∀ m : SysM Bool, Spares System.stderr m →
                    (m { s₂ with stderr := s₂.stderr ++ question }).state.stderr = s.stderr ++ question := by
                  intro m hm
                  rw [hm]
                  show s₂.stderr ++ question = _
                  rw [d1, c1]
                refine rest _ (spares_bind (fun _ => rfl) fun c => ?_)
                split
                · exact quiet_pure _
                · split
                  · exact spares_bind (quiet_writeCookie offDisk_stderr _ _) fun _ => quiet_pure _
                  · split
                    · exact spares_bind (quiet_writeCookie offDisk_stderr _ _) fun _ => quiet_pure _
                    · exact quiet_pure _
              · rw [if_neg hi]
                exact ⟨[], by rw [List.append_nil]; exact d1.trans c1, fun h => absurd rfl h, fun _ _ => ⟨rfl, rfl⟩⟩

/-- What the version check adds to standard error: the question, then messages. -/
theorem check_says (i : CheckInput) (notify : Bool) (user : Option Bool) (s : System) :
    ∃ q m, (runVersionCheck i notify user s).state.stderr = s.stderr ++ q ++ m ∧
      (q ≠ [] → q = question ∧ s.stdinTty = true ∧ s.stderrTty = true ∧ user = none ∧ notify = true ∧ s.noCheckVar = false) ∧
      (m ≠ [] → (∃ content, m = updateMessages i content) ∧ notify = true ∧ s.noCheckVar = false) := by
  unfold runVersionCheck
  rw [M.bind_run]
  have hc := quiet_makeChecker offDisk_view i s
  cases hk : makeChecker i s with
  | err x s₁ =>
    rw [hk] at hc
    have hc : s₁.stderr = s.stderr := congrArg (·.1) hc
    exact ⟨[], [], by rw [List.append_nil, List.append_nil]; exact hc, fun h => absurd rfl h, fun h => absurd rfl h⟩
  | ok ck s₁ =>
    rw [hk] at hc
    have hc : (s₁.stderr, s₁.stdinTty, s₁.stderrTty, s₁.noCheckVar) = (s.stderr, s.stdinTty, s.stderrTty, s.noCheckVar) := hc
    injection hc with c1 c2
    injection c2 with c2 c3
    injection c3 with c3 c4
    dsimp only
    rw [M.bind_run]
    obtain ⟨q, h1, h2, h3⟩ := decide_says ck notify user s₁
    rw [c2, c3, c4] at h2
    rw [c4] at h3
    rw [c1] at h1
    cases hd : decideCheck ck notify user s₁ with
    | err x s₂ =>
      rw [hd] at h1
      exact ⟨q, [], by rw [List.append_nil]; exact h1, h2, fun h => absurd rfl h⟩
    | ok b s₂ =>
      rw [hd] at h1
      cases b with
      | false => exact ⟨q, [], by rw [List.append_nil]; exact h1, h2, fun h => absurd rfl h⟩
      | true =>
        dsimp only
        rw [if_pos rfl]
        have said : ∃ content, (performCheck i ck s₂).state.stderr = s₂.stderr ++ updateMessages i content := by
          have e : ∃ content, onDisk (fsRead (locOf s₂.cwd (pathJoin ck.cookiePath (versionFileName i.name)))) s₂ = .ok content s₂ := by
            rcases fsRead_cases (locOf s₂.cwd (pathJoin ck.cookiePath (versionFileName i.name))) s₂.disk with ⟨t, w, -, h⟩ | ⟨-, h⟩
            · exact ⟨_, onDisk_ok h⟩
            · exact ⟨_, onDisk_ok h⟩
          obtain ⟨content, e⟩ := e
          refine ⟨content, ?_⟩
          have e' : performCheck i ck s₂ = _ := bind_of_ok e
          rw [e']
          show (if _ then _ else _ : System).stderr = _
          split <;> rfl
        obtain ⟨content, e⟩ := said
        refine ⟨q, updateMessages i content, ?_, h2, fun _ => ⟨⟨_, rfl⟩, h3 s₂ hd⟩⟩
        show (performCheck i ck s₂).state.stderr = _
        rw [e]
        have : s₂.stderr = s.stderr ++ q := h1
        rw [this]

/-- C76: `parse()` itself writes nothing to standard error. The version check may, if it is not switched off: the question,
only if standard input and standard error are terminals and the user did not decide on the command line; then messages about
newer versions. -/
theorem C76_standard_error (r : Surroundings) (g : Prog System)
    (h1 : ∀ d ∈ (declsOf g.parser.operations).options, ∀ x w, (d.validator x w).2.stderr = w.stderr)
    (h2 : ∀ d ∈ (declsOf g.parser.operations).positionals, ∀ x w, (d.validator x w).2.stderr = w.stderr) :
    ∃ q m, (parse r.env g).2.world.stderr = g.world.stderr ++ q ++ m ∧
      (q ≠ [] → q = question ∧ g.world.stdinTty = true ∧ g.world.stderrTty = true ∧ g.parser.notify = true ∧
        g.world.noCheckVar = false ∧ (parse r.env g).2.parser.userDecision = none) ∧
      (m ≠ [] → (∃ content, m = updateMessages (r.check g.parser.appName) content) ∧ g.parser.notify = true ∧
        g.world.noCheckVar = false) := by
  rcases parse_steps r.env g with ⟨e, p, h⟩ | ⟨-, -, f, p, hs, h⟩
  · rw [h]
    exact ⟨[], [], by rw [List.append_nil, List.append_nil], fun h => absurd rfl h, fun h => absurd rfl h⟩
  · have hp := checkAndParse_parser r.env f { g with parser := p }
    rw [h, hp]
    obtain ⟨q, m, k1, k2, k3⟩ := check_says (r.check p.appName) p.notify p.userDecision g.world
    have hv : (r.env.versionCheck p.appName p.notify p.userDecision g.world).2 =
      (runVersionCheck (r.check p.appName) p.notify p.userDecision g.world).state := rfl
    refine ⟨q, m, ?_, ?_, ?_⟩
    · rw [← k1, ← hv]
      unfold checkAndParse
      dsimp only
      generalize r.env.versionCheck p.appName p.notify p.userDecision g.world = c
      obtain ⟨o, w⟩ := c
      cases o with
      | some e => rfl
      | none =>
        exact guards_parseFormat (P := fun x : System => x.stderr = w.stderr) r.env f { g with parser := p, world := w }
          (fun f p st y hy => hy) (fun d hd x y hy => by
            have hd : d ∈ (declsOf p.operations).options := hd
            rw [hs.operations] at hd; exact (h1 d hd x y).trans hy)
          (fun d hd x y hy => by
            have hd : d ∈ (declsOf p.operations).positionals := hd
            rw [hs.operations] at hd; exact (h2 d hd x y).trans hy) rfl
    · intro hq
      obtain ⟨e1, e2, e3, e4, e5, e6⟩ := k2 hq
      exact ⟨e1, e2, e3, hs.notify ▸ e5, e6, e4⟩
    · intro hm
      obtain ⟨e1, e2, e3⟩ := k3 hm
      rw [← hs.appName]
      exact ⟨e1, hs.notify ▸ e2, e3⟩

/-! ### Examples -/

/-- A program whose validators are quiet. -/
example : QuietValidators (exProgram (exSystem [] 0 "") ["app", "-a", "1"]).parser := by
  have h : (exProgram (exSystem [] 0 "") ["app", "-a", "1"]).parser.operations =
    [.option { short := 'a', long := "alpha".toList } 0 false (.integer (-128) 127) (fun _ w => (true, w))] := rfl
  constructor
  · intro d hd
    rw [h] at hd
    cases hd with
    | head => intro x w; rfl
    | tail _ hd => cases hd
  · intro d hd
    rw [h] at hd
    cases hd

/-- The three ways to end: a returning run writes the question to standard error only; a request prints a page; an error prints
nothing. -/
example :
    (parse (exSurroundings {}).env (exProgram (exSystem [] 0 "n\n") ["app", "-a", "1"])).1 = .returned ∧
    (parse (exSurroundings {}).env (exProgram (exSystem [] 0 "n\n") ["app", "-a", "1"])).2.world.stdout = [] ∧
    (parse (exSurroundings {}).env (exProgram (exSystem [] 0 "n\n") ["app", "-a", "1"])).2.world.stderr = question ∧
    (parse (exSurroundings {}).env (exProgram (exSystem [] 0 "n\n") ["app", "-a", "x"])).1 = .threw .userInputError ∧
    (parse (exSurroundings {}).env (exProgram (exSystem [] 0 "n\n") ["app", "-a", "x"])).2.world.stdout = [] := by
  decide +kernel

/-- The same page for different command lines. -/
example : ∀ l ∈ [["app", "--version"], ["app", "--version", "-a", "x"], ["tool", "-a", "1", "y", "--version"]],
    (parse (exSurroundings {}).env (exProgram (exSystem [] 0 "s\n") l)).1 = .exited .version ∧
    (parse (exSurroundings {}).env (exProgram (exSystem [] 0 "s\n") l)).2.world.stdout ≠ [] := by
  decide +kernel

end Sharg
