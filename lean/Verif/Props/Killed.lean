import Verif.Lemmas.Killed
import Verif.Lemmas.Machine

/-!
# Killed at any moment of parse() (C93)
-/

namespace Sharg

open Spec Steps

/-! ### The model -/

/-- The validator of a kind. -/
def Spec.kindValidator : PathKind → Validator Disk PathArg
  | .inputFile exts => inputFile exts []
  | .inputDirectory => inputDirectory
  | .outputFile nd mode exts => outputFile nd mode exts []
  | .outputDirectory nd => outputDirectory nd

theorem steps_kindValidator (k : PathKind) (cwd : Loc) (t : Str) : (k.steps cwd t).run = onDisk ((kindValidator k).run (pathArg cwd t)) := by
  have h : (k.check (pathArg cwd t)).steps.run = (kindValidator k).run (pathArg cwd t) := by
    rw [PathCheck.steps_run]; cases k <;> rfl
  show (Steps.onDisk (k.check (pathArg cwd t)).steps).run = _
  rw [Steps.run_onDisk, h]

theorem onDisk_cwd {α : Type} (m : FsM α) (s : System) : (onDisk m s).state.cwd = s.cwd := by
  unfold onDisk; cases m s.disk <;> rfl

theorem stepsEach_kindValidator (k : PathKind) (ts : List Str) (s : System) :
    (k.stepsEach s.cwd ts).run s = (kindValidator k).onSystem.each.run ts s := by
  suffices h : ∀ cwd, s.cwd = cwd → (k.stepsEach cwd ts).run s = (kindValidator k).onSystem.each.run ts s from h _ rfl
  intro cwd hc
  induction ts generalizing s with
  | nil => rfl
  | cons t ts ih =>
    show ((k.steps cwd t).bind fun _ => k.stepsEach cwd ts).run s = M.bind ((kindValidator k).onSystem.run t) (fun _ => (kindValidator k).onSystem.each.run ts) s
    rw [Steps.run_bind, steps_kindValidator]
    show M.bind _ _ s = M.bind (fun s => onDisk ((kindValidator k).run (pathArg s.cwd t)) s) _ s
    unfold M.bind
    dsimp only
    rw [hc]
    have := onDisk_cwd ((kindValidator k).run (pathArg cwd t)) s
    cases hr : onDisk ((kindValidator k).run (pathArg cwd t)) s with
    | ok a s' => rw [hr] at this; exact ih s' (this.trans hc)
    | err e s' => rfl

/-- C93: a program that is not killed runs the validators as before. -/
theorem C93_alive_validators (k : PathKind) (x : Val) (s : System) :
    k.killable x ⟨s, none⟩ = (((kindValidator k).onPaths x s).1, ⟨((kindValidator k).onPaths x s).2, none⟩) := by
  unfold PathKind.killable Validator.onPaths
  cases x with
  | one e =>
    dsimp only
    cases elemPath e with
    | none => rfl
    | some t =>
      dsimp only
      rw [mortal_none, steps_kindValidator]
      unfold Validator.inParser
      dsimp only [Validator.onSystem]
      cases onDisk ((kindValidator k).run (pathArg s.cwd t)) s <;> rfl
  | many es =>
    dsimp only
    rw [mortal_none, stepsEach_kindValidator]
    unfold Validator.inParser
    cases (kindValidator k).onSystem.each.run (es.filterMap elemPath) s <;> rfl

/-- C93: a program that is not killed runs the version check as before. -/
theorem C93_alive_check (r : Surroundings) (s : System) :
    ∀ name notify user, r.killable.versionCheck name notify user ⟨s, none⟩ =
      ((r.env.versionCheck name notify user s).1, ⟨(r.env.versionCheck name notify user s).2, none⟩) := by
  intro name notify user
  unfold Surroundings.killable Surroundings.env
  dsimp only
  rw [mortal_none, runVersionCheckSteps_run]
  cases runVersionCheck (r.check name) notify user s <;> rfl

/-- C93: a program that is killed after `n` steps of a validator or of the version check leaves the system as it is after these steps. -/
theorem C93_killed_steps (r : Surroundings) (n : Nat) (s : System) :
    (∀ (k : PathKind) e t, elemPath e = some t → (k.killable (.one e) ⟨s, some n⟩).2.system = (k.steps s.cwd t).killedAfter n s) ∧
    (∀ name notify user, (r.killable.versionCheck name notify user ⟨s, some n⟩).2.system =
      (runVersionCheckSteps (r.check name) notify user).killedAfter n s) := by
  refine ⟨fun k e t he => ?_, fun name notify user => ?_⟩
  · unfold PathKind.killable
    dsimp only
    rw [he]
    dsimp only
    rw [passed_world, mortal_some]
  · show (thrown _).2.system = _
    rw [thrown_world, mortal_some]

/-! ### The property -/

theorem killed_core {X C : Loc → Prop} {s₀ : System} (r : Surroundings) (g : Prog Mortal) (hk : Kept X C s₀.disk g.world.system.disk)
    (ht : Tracks s₀ g.world.system) (hp : Places X C s₀ (cookieName r.pages.build.ndebug g.parser.appName))
    (hu : AllUsual (declsOf g.parser.operations))
    (hx : ∀ q, NamedAsOutput (declsOf g.parser.operations) g.parser.arguments.tail s₀.cwd (s₀.disk.node? q) q → X q) :
    WorldKept X C s₀ (parse r.killable g).2.world := by
  refine parse_keepsOn r.killable g (fun hn u => ?_) (fun f p st w hw => hw) (fun d hd => ?_) (fun d hd => ?_) ⟨hk, ht.cwd⟩
  · show WorldKept X C s₀ (thrown _).2
    rw [thrown_world]
    have h : CheckKeeps X C s₀ _ := always_mortal (safe_always (may_check (r.check g.parser.appName) ((matchesNameRegex_iff _).2 hn) hp g.parser.notify u) ⟨hk, ht⟩)
    exact ⟨h.1, h.2.cwd⟩
  · exact usual_keeps (hu.1 d hd) fun hty k hv a ha t hta p hpt q hq =>
      hx q ⟨a, ha, p, k, hq, Or.inl ⟨d, hd, hty, hv, hpt.trans hta⟩⟩
  · exact usual_keeps (hu.2 d hd) fun hty k hv a ha t hta p hpt q hq =>
      hx q ⟨a, ha, p, k, hq, Or.inr ⟨d, hd, hty, hv, hpt.sublist.trans hta⟩⟩

theorem afterAll_kept {X C : Loc → Prop} {d₀ : Disk} (rs : List Start) (hu : ∀ r ∈ rs, AllUsual (declsOf r.prog.parser.operations))
    (hx : ∀ r ∈ rs, ∀ q, r.mayTouch (d₀.node? q) q → X q) (hc : ∀ r ∈ rs, ∀ q ∈ cookiePlaces r.prog.world.system r.cookie, C q) (d : Disk)
    (h : Kept X C d₀ d) : Kept X C d₀ (afterAll rs d) := by
  induction rs generalizing d with
  | nil => exact h
  | cons r rs ih =>
    refine ih (fun r' hr' => hu r' (List.mem_cons_of_mem _ hr')) (fun r' hr' => hx r' (List.mem_cons_of_mem _ hr'))
      (fun r' hr' => hc r' (List.mem_cons_of_mem _ hr')) _ ?_
    have hr : r ∈ r :: rs := List.mem_cons_self
    refine (killed_core (s₀ := { r.prog.world.system with disk := d₀ }) r.around (r.on d) h ⟨rfl, rfl, rfl⟩ ⟨?_, ?_, ?_⟩ (hu r hr) ?_).1
    · exact fun q hq hn => hx r hr q (Or.inr (Or.inr (Or.inl ⟨hq, hn⟩)))
    · exact fun f hf q hq => hx r hr q (Or.inr (Or.inl ⟨f, hf, hq⟩))
    · exact fun q hq => ⟨hx r hr q (Or.inr (Or.inr (Or.inr hq))), hc r hr q hq⟩
    · exact fun q hq => hx r hr q (Or.inl hq)

/-- C93: programs are started one after the other, with any calls, arguments, store and state, and each of them is killed after any number of steps
or not at all. Then everything on the disk is as before but for what was named as an output, and the places of the version checks; there, it is
gone, an empty file, a new directory, or a cookie. -/
theorem C93_killed_anywhere (rs : List Start) (d : Disk) (hw : WellFormed d) (hu : ∀ r ∈ rs, AllUsual (declsOf r.prog.parser.operations)) (q : Loc) :
    Accounted rs d (afterAll rs d) q :=
  (afterAll_kept (X := fun q => ∃ r ∈ rs, r.mayTouch (d.node? q) q) (C := fun q => ∃ r ∈ rs, q ∈ cookiePlaces r.prog.world.system r.cookie) rs hu
    (fun r hr _ hq => ⟨r, hr, hq⟩) (fun r hr _ hq => ⟨r, hr, hq⟩) d ⟨hw, fun _ => Or.inl rfl⟩).each q

/-- C93: what no program may touch is as before. -/
theorem C93_others_survive (rs : List Start) (d : Disk) (hw : WellFormed d) (hu : ∀ r ∈ rs, AllUsual (declsOf r.prog.parser.operations)) (q : Loc)
    (hq : ∀ r ∈ rs, ¬ r.mayTouch (d.node? q) q) : (afterAll rs d).node? q = d.node? q := by
  rcases C93_killed_anywhere rs d hw hu q with h | ⟨⟨r, hr, h⟩, -⟩ | ⟨⟨r, hr, h⟩, -⟩
  · exact h
  · exact absurd h (hq r hr)
  · exact absurd (Or.inr (Or.inr (Or.inr h))) (hq r hr)

/-- No text is invented: what is in a file was in it before, or it is empty, or a cookie of a program. -/
theorem C93_no_invented_text (rs : List Start) (d : Disk) (hw : WellFormed d) (hu : ∀ r ∈ rs, AllUsual (declsOf r.prog.parser.operations)) (q : Loc)
    (text : Str) (x w : Bool) (h : (afterAll rs d).node? q = some (.file text x w)) :
    d.node? q = some (.file text x w) ∨ text = [] ∨ (OwnCookie text ∧ ∃ r ∈ rs, q ∈ cookiePlaces r.prog.world.system r.cookie) := by
  rcases C93_killed_anywhere rs d hw hu q with e | ⟨-, e⟩ | ⟨hr, t', x', w', e, ho⟩
  · exact Or.inl (e ▸ h)
  · rw [h] at e; exact Or.inr (Or.inl e)
  · rw [h] at e; cases e; exact Or.inr (Or.inr ⟨ho, hr⟩)

/-- C93: nothing happens to the disk once the program is dead. -/
theorem C93_nothing_after_death (r : Surroundings) (g : Prog Mortal) (hu : AllUsual (declsOf g.parser.operations)) (hl : g.world.left = some 0) :
    (parse r.killable g).2.world.system.disk = g.world.system.disk ∧ (parse r.killable g).2.world.left = some 0 := by
  have dead : ∀ {α : Type} (p : Steps System α) (m : Mortal), m.left = some 0 → (p.mortal m).2 = m := by
    rintro α p ⟨s, l⟩ rfl
    exact mortal_dead p s
  have keep : ∀ {S : Str → Str → Prop} {A : List Str} {ty : ElemTy} {v : Val → Mortal → Bool × Mortal}, Usual ty v →
      KeepsOn (fun m : Mortal => m.system.disk = g.world.system.disk ∧ m.left = some 0) S A ty v := by
    rintro S A ty v (hv | ⟨-, k, rfl⟩)
    · exact Or.inl fun x m hm => ⟨(hv x m).1.trans hm.1, (hv x m).2.2.trans hm.2⟩
    · refine Or.inl fun x m hm => ?_
      have e : (k.killable x m).2 = m := by
        unfold PathKind.killable
        cases x with
        | one e =>
          dsimp only
          cases elemPath e with
          | none => rfl
          | some t => dsimp only; rw [passed_world, dead _ _ hm.2]
        | many es => dsimp only; rw [passed_world, dead _ _ hm.2]
      rw [e]; exact hm
  refine parse_keepsOn (P := fun m : Mortal => m.system.disk = g.world.system.disk ∧ m.left = some 0) r.killable g (fun _ u => ?_)
    (fun f p st w hw => hw) (fun d hd => keep (hu.1 d hd)) (fun d hd => keep (hu.2 d hd)) ⟨rfl, hl⟩
  show (thrown _).2.system.disk = _ ∧ (thrown _).2.left = _
  rw [thrown_world, dead _ _ hl]
  exact ⟨rfl, hl⟩

/-! ### Examples -/

/-- A program with an output file `-o` that may exist, and an output directory `-d`. -/
def exMortalCalls : List (Call Mortal) :=
  [.addOption { short := 'o', long := "output".toList } 0 false .string (PathKind.outputFile false .openOrCreate []).killable,
   .addOption { short := 'd', long := "dir".toList } 1 false pathTy (PathKind.outputDirectory false).killable]

def exMortal (left : Option Nat) (args : List String) : Start where
  around := exSurroundings {}
  prog := runActions (exSurroundings {}).killable (exMortalCalls.map .call)
    (start { exInit with arguments := "app".toList :: args.map String.toList, notify := true } (fun _ => .one (.str [])) ⟨exSystem [] 1000000 "n\n", left⟩)

def exMortalDisk : Disk := (exSystem [(["h".toList, "out.txt".toList], .file "precious".toList true true),
  (["h".toList, "notes.txt".toList], .file "dear".toList true true)] 0 "").disk

theorem exMortal_usual (left : Option Nat) (args : List String) : AllUsual (declsOf (exMortal left args).prog.parser.operations) := by
  constructor
  · intro d hd
    have hd : d ∈ (declsOf (exMortalCalls.filterMap Call.entry?)).options := hd
    cases hd with
    | head => exact Or.inr ⟨Or.inl rfl, _, rfl⟩
    | tail _ hd =>
      cases hd with
      | head => exact Or.inr ⟨Or.inr rfl, _, rfl⟩
      | tail _ hd => exact nomatch hd
  · intro d hd
    have hd : d ∈ (declsOf (exMortalCalls.filterMap Call.entry?)).positionals := hd
    exact nomatch hd

def exWhere (rs : List Start) (l : List String) : Option Node := (afterAll rs exMortalDisk).node? (l.map String.toList)

theorem suffix_drop {p a : Str} (h : p <:+ a) : ∃ n < a.length + 1, p = a.drop n :=
  ⟨a.length - p.length, by omega, List.suffix_iff_eq_drop.1 h⟩

theorem mayChange_near {k : PathKind} {p : PathArg} {old : Option Node} {q : Loc} (h : MayChange (k.check p) old q) : q = p.loc ∨ q = dummyIn p.loc := by
  cases k with
  | inputFile e => exact h.elim
  | inputDirectory => exact h.elim
  | outputFile nd mode e =>
    cases mode with
    | createNew => exact Or.inl h.1
    | openOrCreate => exact Or.inl h
  | outputDirectory nd => exact h.imp And.left id

theorem exMortal_apart (left : Option Nat) (args : List String) (old : Option Node) (q : Loc)
    (hq : ∀ a ∈ args.map String.toList, ∀ n < a.length + 1, q ≠ locOf ["h".toList] (a.drop n) ∧ q ≠ dummyIn (locOf ["h".toList] (a.drop n)))
    (hc : (∀ f ∈ testFiles (exSystem [] 0 ""), ¬ f <+: q) ∧ q ∉ cookieDirs (exSystem [] 0 "") ∧
      q ∉ cookiePlaces (exSystem [] 0 "") "app_usr.timestamp".toList) : ¬ (exMortal left args).mayTouch old q := by
  rintro (⟨a, ha, p, k, hm, ⟨d, -, -, -, hp⟩ | ⟨d, hd, -⟩⟩ | ⟨f, hf, h⟩ | ⟨h, -⟩ | h)
  · obtain ⟨n, hn, rfl⟩ := suffix_drop hp
    rcases mayChange_near hm with h | h
    · exact (hq a ha n hn).1 h
    · exact (hq a ha n hn).2 h
  · exact nomatch hd
  · exact hc.1 f hf h
  · exact hc.2.1 h
  · exact hc.2.2 h

/-- Killed at any moment, and again at any moment of another run: the file `notes.txt` is as it was. -/
example (n k : Option Nat) : exWhere [exMortal n ["-o", "out.txt"], exMortal k ["-d", "new"]] ["h", "notes.txt"] = some (.file "dear".toList true true) := by
  have hw : WellFormed exMortalDisk := by decide +kernel
  refine (C93_others_survive [exMortal n ["-o", "out.txt"], exMortal k ["-d", "new"]] exMortalDisk hw ?_ (["h", "notes.txt"].map String.toList) ?_).trans
    (by decide +kernel)
  · intro r hr
    rcases List.mem_cons.1 hr with rfl | hr
    · exact exMortal_usual _ _
    · rcases List.mem_singleton.1 hr with rfl
      exact exMortal_usual _ _
  · intro r hr
    rcases List.mem_cons.1 hr with rfl | hr
    · exact exMortal_apart _ _ _ _ (by decide +kernel) (by decide +kernel)
    · rcases List.mem_singleton.1 hr with rfl
      exact exMortal_apart _ _ _ _ (by decide +kernel) (by decide +kernel)

/-- Killed after 22 steps the file of the option is empty, and after 23 it is gone; the cookie is one of the app. -/
example : exWhere [exMortal (some 22) ["-o", "out.txt"]] ["h", "out.txt"] = some (.file [] true true) ∧
    exWhere [exMortal (some 23) ["-o", "out.txt"]] ["h", "out.txt"] = none ∧
    exWhere [exMortal (some 21) ["-o", "out.txt"]] ["h", "out.txt"] = some (.file "precious".toList true true) ∧
    exWhere [exMortal (some 5) ["-o", "out.txt"]] ["h", ".config", "seqan", "dummy.txt"] = some (.file [] true true) ∧
    exWhere [exMortal (some 15) ["-o", "out.txt"]] ["h", ".config", "seqan", "app_usr.timestamp"] = some (.file "1000000\nASK".toList true true) ∧
    exWhere [exMortal (some 21) ["-d", "new"]] ["h", "new"] = some (.dir true true true) ∧
    exWhere [exMortal none ["-d", "new"]] ["h", "new"] = none := by decide +kernel

end Sharg
