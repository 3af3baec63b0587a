import Verif.Props.Lines

/-!
# Options that share a variable

C80. Nothing stops a program from registering two options for one variable. The options are read in the order of their registration
(format_parse.hpp lines 54-75), then the flags, then the positional options, so the order on the command line does not decide.
-/

namespace Sharg

open Spec

variable {W : Type}

/-- Options that are not given do not touch a variable. -/
theorem optionsMean_keeps (items : List Item) (x : VarId) (ds : List (OptDecl W)) : ∀ (st : Store) (w : W) (st' : Store) (w' : W),
    OptionsMean items ds st w st' w' → (∀ e ∈ ds, e.var = x → given e items = []) → st' x = st x := by
  induction ds with
  | nil => rintro st w st' w' ⟨rfl, -⟩ -; rfl
  | cons d ds ih =>
    intro st w st' w' h hk
    have hk' : ∀ e ∈ ds, e.var = x → given e items = [] := fun e he => hk e (List.mem_cons_of_mem _ he)
    rcases h with ⟨-, -, h⟩ | ⟨hg, val, w₁, -, -, h⟩
    · exact ih _ _ _ _ h hk'
    · rw [ih _ _ _ _ h hk']
      have hne : d.var ≠ x := fun e => hg (hk d List.mem_cons_self e)
      exact Store.set_ne st val (Ne.symm hne)

/-- The last given option decides. -/
theorem optionsMean_last (items : List Item) (d : OptDecl W) (front back : List (OptDecl W)) : ∀ (st : Store) (w : W) (st' : Store) (w' : W),
    OptionsMean items (front ++ d :: back) st w st' w' → given d items ≠ [] → (∀ e ∈ back, e.var = d.var → given e items = []) →
    ValueOf d.isList d.ty (given d items) (st' d.var) := by
  induction front with
  | nil =>
    intro st w st' w' h hg hb
    rcases h with ⟨h, -, -⟩ | ⟨-, val, w₁, hv, -, h⟩
    · exact absurd h hg
    · rw [optionsMean_keeps items d.var back _ _ _ _ h hb, Store.set_self]
      exact hv
  | cons c front ih =>
    intro st w st' w' h hg hb
    rcases h with ⟨-, -, h⟩ | ⟨-, val, w₁, -, -, h⟩
    · exact ih _ _ _ _ h hg hb
    · exact ih _ _ _ _ h hg hb

theorem setFlags_keeps (items : List Item) (x : VarId) (fs : List FlagDecl) : ∀ st : Store,
    (∀ f ∈ fs, f.var = x → mentions f items = 0) → setFlags items fs st x = st x := by
  induction fs with
  | nil => intro st _; rfl
  | cons f fs ih =>
    intro st h
    show setFlags items fs _ x = _
    rw [ih _ fun g hg => h g (List.mem_cons_of_mem _ hg)]
    split
    · rfl
    · rename_i hm
      exact Store.set_ne st _ (fun e => hm (h f List.mem_cons_self e.symm))

theorem setFlags_true (items : List Item) (f : FlagDecl) (hm : mentions f items ≠ 0) (fs : List FlagDecl) : ∀ st : Store,
    f ∈ fs ∨ st f.var = .one (.bool true) → setFlags items fs st f.var = .one (.bool true) := by
  induction fs with
  | nil =>
    rintro st (h | h)
    · cases h
    · exact h
  | cons g fs ih =>
    intro st h
    show setFlags items fs _ f.var = _
    apply ih
    by_cases hg : mentions g items = 0
    · rw [if_pos hg]
      rcases h with h | h
      · rcases List.mem_cons.1 h with rfl | h
        · exact absurd hg hm
        · exact Or.inl h
      · exact Or.inr h
    · rw [if_neg hg]
      by_cases hv : f.var = g.var
      · right; rw [hv, Store.set_self]
      · rcases h with h | h
        · rcases List.mem_cons.1 h with rfl | h
          · exact absurd rfl hv
          · exact Or.inl h
        · right; rw [Store.set_ne st _ hv]; exact h

theorem positionalsMean_keeps (x : VarId) (ds : List (PosDecl W)) : ∀ (ws : List Str) (st : Store) (w : W) (st' : Store) (w' : W),
    PositionalsMean ds ws st w st' w' → (∀ d ∈ ds, d.var ≠ x) → st' x = st x := by
  induction ds with
  | nil => rintro ws st w st' w' ⟨-, rfl, -⟩ -; rfl
  | cons d ds ih =>
    intro ws st w st' w' h hk
    have hne := hk d List.mem_cons_self
    unfold PositionalsMean at h
    split at h
    · obtain ⟨-, -, val, -, -, rfl⟩ := h
      exact Store.set_ne st val (Ne.symm hne)
    · obtain ⟨t, ts, val, w₁, -, -, -, h⟩ := h
      rw [ih _ _ _ _ _ h fun e he => hk e (List.mem_cons_of_mem _ he)]
      exact Store.set_ne st val (Ne.symm hne)

theorem positionalsMean_last (d : PosDecl W) (front : List (PosDecl W)) : ∀ (ws : List Str) (st : Store) (w : W) (st' : Store) (w' : W),
    PositionalsMean (front ++ [d]) ws st w st' w' → ∃ texts, texts <:+ ws ∧ texts ≠ [] ∧ ValueOf d.isList d.ty texts (st' d.var) := by
  induction front with
  | nil =>
    intro ws st w st' w' h
    rw [List.nil_append] at h
    unfold PositionalsMean at h
    split at h
    · rename_i hl
      obtain ⟨-, hne, val, hv, -, rfl⟩ := h
      exact ⟨ws, List.suffix_refl _, hne, by rw [Store.set_self, hl]; exact hv⟩
    · rename_i hl
      obtain ⟨t, ts, val, w₁, rfl, hv, -, h⟩ := h
      obtain ⟨rfl, rfl, -⟩ := h
      have hl : d.isList = false := by cases he : d.isList; rfl; exact absurd he hl
      exact ⟨[t], List.suffix_refl _, (by intro h; cases h), by rw [Store.set_self, hl]; exact hv⟩
  | cons c front ih =>
    intro ws st w st' w' h
    rw [List.cons_append] at h
    unfold PositionalsMean at h
    split at h
    · obtain ⟨h, -⟩ := h
      exact absurd (List.append_eq_nil_iff.1 h).2 (by intro h; cases h)
    · obtain ⟨t, ts, val, w₁, rfl, -, -, h⟩ := h
      obtain ⟨texts, h1, h2⟩ := ih _ _ _ _ _ h
      exact ⟨texts, h1.trans (List.suffix_cons t ts), h2⟩

/-- C80: of the given options that share a variable, the one that was registered last decides about its value, wherever the options stand on
the line. (No mentioned flag and no positional option shares the variable.) -/
theorem C80_last_registered_wins_partial (env : Env W) (g g' : Prog W) (hg : Reachable env g) (items : List Item)
    (tail : Option (List Str)) (hl : LineGiven g items tail) (hok : LineOk (decls g) items tail)
    (hnd : env.ndebug = false ∨ ListsRepresentable (decls g) items tail) (h : parse env g = (.returned, g'))
    (front back : List (OptDecl W)) (d : OptDecl W) (hs : (decls g).options = front ++ d :: back) (hgiven : given d items ≠ [])
    (hb : ∀ e ∈ back, e.var = d.var → given e items = [])
    (hf : ∀ f ∈ (decls g).flags, f.var = d.var → mentions f items = 0) (hp : ∀ p ∈ (decls g).positionals, p.var ≠ d.var) :
    ValueOf d.isList d.ty (given d items) (g'.store d.var) := by
  obtain ⟨w₁, -, st₁, w₂, h1, h2⟩ := C17_only_meaningful_lines_partial env g g' hg items tail hl hok hnd h
  rw [hs] at h1
  rw [positionalsMean_keeps d.var _ _ _ _ _ _ h2 hp, setFlags_keeps items d.var _ _ hf]
  exact optionsMean_last items d front back _ _ _ _ h1 hgiven hb

/-- C80: a mentioned flag wins against all options that share its variable, wherever they stand. -/
theorem C80_flag_wins (env : Env W) (g g' : Prog W) (hg : Reachable env g) (items : List Item)
    (tail : Option (List Str)) (hl : LineGiven g items tail) (hok : LineOk (decls g) items tail)
    (hnd : env.ndebug = false ∨ ListsRepresentable (decls g) items tail) (h : parse env g = (.returned, g'))
    (f : FlagDecl) (hf : f ∈ (decls g).flags) (hm : mentions f items ≠ 0) (hp : ∀ p ∈ (decls g).positionals, p.var ≠ f.var) :
    g'.store f.var = .one (.bool true) := by
  obtain ⟨w₁, -, st₁, w₂, h1, h2⟩ := C17_only_meaningful_lines_partial env g g' hg items tail hl hok hnd h
  rw [positionalsMean_keeps f.var _ _ _ _ _ _ h2 hp]
  exact setFlags_true items f hm _ _ (Or.inl hf)

/-- C80: the last positional option wins against all options, flags and positional options that share its variable. -/
theorem C80_last_positional_wins (env : Env W) (g g' : Prog W) (hg : Reachable env g) (items : List Item)
    (tail : Option (List Str)) (hl : LineGiven g items tail) (hok : LineOk (decls g) items tail)
    (hnd : env.ndebug = false ∨ ListsRepresentable (decls g) items tail) (h : parse env g = (.returned, g'))
    (front : List (PosDecl W)) (d : PosDecl W) (hs : (decls g).positionals = front ++ [d]) :
    ∃ texts, texts <:+ words items tail ∧ texts ≠ [] ∧ ValueOf d.isList d.ty texts (g'.store d.var) := by
  obtain ⟨w₁, -, st₁, w₂, h1, h2⟩ := C17_only_meaningful_lines_partial env g g' hg items tail hl hok hnd h
  rw [hs] at h2
  exact positionalsMean_last d front _ _ _ _ _ h2

/-- C80: a variable whose options are not given and whose flags are not mentioned keeps its value, however many options share it. -/
theorem C80_nothing_given (env : Env W) (g g' : Prog W) (hg : Reachable env g) (items : List Item)
    (tail : Option (List Str)) (hl : LineGiven g items tail) (hok : LineOk (decls g) items tail)
    (hnd : env.ndebug = false ∨ ListsRepresentable (decls g) items tail) (h : parse env g = (.returned, g')) (x : VarId)
    (ho : ∀ d ∈ (decls g).options, d.var = x → given d items = [])
    (hf : ∀ f ∈ (decls g).flags, f.var = x → mentions f items = 0) (hp : ∀ p ∈ (decls g).positionals, p.var ≠ x) :
    g'.store x = g.store x := by
  obtain ⟨w₁, -, st₁, w₂, h1, h2⟩ := C17_only_meaningful_lines_partial env g g' hg items tail hl hok hnd h
  rw [positionalsMean_keeps x _ _ _ _ _ _ h2 hp, setFlags_keeps items x _ _ hf]
  exact optionsMean_keeps items x _ _ _ _ _ h1 ho

/-! ## Witnesses and examples -/

/-- Two options, two flags and a positional option; the options share the variable 0, the flags the variable 3, and the first option
rejects 100. -/
def exShared : List (Call Unit) :=
  [.addOption { short := 'a', long := [] } 0 false (.integer (-128) 127) fun v w => (v != .one (.int 100), w),
   .addOption { short := 'b', long := [] } 0 false (.integer (-128) 127) fun _ w => (true, w),
   .addFlag { short := 'v', long := [] } 3 false,
   .addFlag { short := 'w', long := [] } 3 false,
   .addPositionalOption {} 1 false .string fun _ w => (true, w)]

def exSharedRun (items : List Item) : Prog Unit := exRun exShared (renderLine items none)

def exSharedValue (items : List Item) : Bool × Val × Val :=
  ((parse exEnv (exSharedRun items)).1 == .returned,
   (parse exEnv (exSharedRun items)).2.store 0, (parse exEnv (exSharedRun items)).2.store 3)

/-- C80 fails: with `-b 2 -a 1 x` the variable of both options is 2, although `-a 1` is the last word on it; `-a 1 -b 2 x` gives the same. -/
theorem C80_last_on_the_line_loses :
    exSharedValue [.short 'b' .separate "2".toList, .short 'a' .separate "1".toList, .word "x".toList] =
      (true, .one (.int 2), .one (.bool false)) ∧
    exSharedValue [.short 'a' .separate "1".toList, .short 'b' .separate "2".toList, .word "x".toList] =
      (true, .one (.int 2), .one (.bool false)) := by decide +kernel

/-- C80 fails: the validator of `-a` rejects 100, yet the variable of the given option `-a` is 100 in the end. -/
theorem C80_validator_is_evaded :
    exSharedValue [.short 'a' .separate "1".toList, .short 'b' .separate "100".toList, .word "x".toList] =
      (true, .one (.int 100), .one (.bool false)) := by decide +kernel

def exSharedItems : List Item :=
  [.short 'b' .separate "2".toList, .flags ['v'], .short 'a' .separate "1".toList, .word "x".toList]

theorem exShared_decls : decls (exSharedRun exSharedItems) = declsOf (exShared.filterMap Call.entry?) := exRun_decls _ _ (by decide +kernel)

def exSharedV : FlagDecl := ⟨'v', [], 3⟩

def exSharedX : PosDecl Unit := ⟨1, false, .string, fun _ w => (true, w)⟩

def exSharedB : OptDecl Unit := ⟨'b', [], 0, false, .integer (-128) 127, false, fun _ w => (true, w)⟩

theorem exShared_reachable : Reachable exEnv (exSharedRun exSharedItems) := exRun_reachable _ _

def exSharedEnd : Prog Unit := (parse exEnv (exSharedRun exSharedItems)).2

theorem exShared_returned : parse exEnv (exSharedRun exSharedItems) = (.returned, exSharedEnd) :=
  returned_pair (beq_iff_eq.1 (by decide +kernel : ((parse exEnv (exSharedRun exSharedItems)).1 == .returned) = true))

example : ValueOf exSharedB.isList exSharedB.ty (given exSharedB exSharedItems) (exSharedEnd.store exSharedB.var) := by
  refine C80_last_registered_wins_partial exEnv (exSharedRun exSharedItems) exSharedEnd exShared_reachable exSharedItems none (by decide +kernel) (by decide +kernel)
      (Or.inl rfl) exShared_returned ?_ [] exSharedB ?_ (by decide) (by intro e he; cases he) ?_ ?_
  · exact [⟨'a', [], 0, false, .integer (-128) 127, false, fun v w => (v != .one (.int 100), w)⟩]
  · rw [exShared_decls]; rfl
  · rw [exShared_decls]; decide
  · rw [exShared_decls]; decide

example : exSharedEnd.store exSharedV.var = .one (.bool true) := by
  refine C80_flag_wins exEnv (exSharedRun exSharedItems) exSharedEnd exShared_reachable exSharedItems none (by decide +kernel) (by decide +kernel)
      (Or.inl rfl) exShared_returned exSharedV ?_ (by decide) ?_
  · rw [exShared_decls]; exact List.mem_cons_self
  · rw [exShared_decls]; decide

example : ∃ texts, texts <:+ words exSharedItems none ∧ texts ≠ [] ∧
    ValueOf exSharedX.isList exSharedX.ty texts (exSharedEnd.store exSharedX.var) :=
  C80_last_positional_wins exEnv (exSharedRun exSharedItems) exSharedEnd exShared_reachable exSharedItems none (by decide +kernel) (by decide +kernel)
    (Or.inl rfl) exShared_returned [] exSharedX (by rw [exShared_decls]; rfl)

example : exSharedEnd.store 7 = (exSharedRun exSharedItems).store 7 := by
  refine C80_nothing_given exEnv (exSharedRun exSharedItems) exSharedEnd exShared_reachable exSharedItems none (by decide +kernel) (by decide +kernel)
    (Or.inl rfl) exShared_returned 7 ?_ ?_ ?_
  · rw [exShared_decls]; decide
  · rw [exShared_decls]; decide
  · rw [exShared_decls]; decide

end Sharg
