import Verif.Lemmas.Mixed
import Verif.Props.Lists

/-!
# Lists given with both identifiers: C23, C19
-/

namespace Sharg

open Spec

variable {W : Type}

/-- What is wrong about C23, for every line: if a list option is given with both its identifiers, the occurrences of the short one might
as well not be there (as long as their texts can be read). -/
theorem C23_short_values_ignored (env : Env W) (g₁ g₂ : Prog W) (hg₁ : Reachable env g₁) (hg₂ : Reachable env g₂)
    (hsame : SameSetup g₁ g₂) (items : List Item) (tail : Option (List Str)) (hl₁ : LooseGiven g₁ items tail)
    (hl₂ : LooseGiven g₂ (lastWord (decls g₁) items) tail) (hread : OverruledReadable env.ndebug (decls g₁) items) : SameOutcome env g₁ g₂ := by
  have hD := idsOk_reachable hg₁
  have hops : decls g₁ = decls g₂ := by unfold decls; rw [hsame.operations]
  refine parse_same (ready_of hl₁.notParsed hl₁.cleanName hl₁.noSubcommands)
    (ready_of hl₂.notParsed hl₂.cleanName hl₂.noSubcommands) hl₁.arguments hl₂.arguments hl₁.noSubcommands
    hl₂.noSubcommands hl₁.notEmpty hl₂.notEmpty
    (unrequested_loose (inv_reachable hg₁) items hl₁.itemsLoose hl₁.others tail hl₁.tailPlain)
    (unrequested_loose (inv_reachable hg₂) _ hl₂.itemsLoose hl₂.others tail hl₂.tailPlain) hsame ?_
  intro w
  show (formatParse env.ndebug (decls g₁) _ _ _).core = (formatParse env.ndebug (decls g₂) _ _ _).core
  rw [← hops, formatParse_core hD items hl₁.itemsLoose tail,
    formatParse_core hD _ (fun it hi => hl₁.itemsLoose it (lastWord_mem hi)) tail, hsame.store, absOptions_mixed env.ndebug hD hl₁.itemsLoose hread,
    lastWord_others]

/-- The exact meaning of well-formed lines without the restriction that lists are given uniformly (C17): the line is accepted if and only
if all overruled texts can be read and the line without them is meaningful; its effect is the meaning of that line. -/
theorem C17_C23_mixed_lines (env : Env W) (g : Prog W) (hg : Reachable env g) (items : List Item) (tail : Option (List Str))
    (hl : LineGiven g items tail) (hok : MixedOk (decls g) items tail) (w₁ : W) (hv : CheckPasses env g w₁)
    (hnd : env.ndebug = false ∨ ListsRepresentable (decls g) (lastWord (decls g) items) tail) (st' : Store) (w' : W) :
    (∃ p, parse env g = (.returned, ⟨p, st', w'⟩)) ↔
      OverruledReadable env.ndebug (decls g) items ∧ LineMeans (decls g) (lastWord (decls g) items) tail g.store w₁ st' w' := by
  have hD := idsOk_reachable hg
  have hloose : ∀ it ∈ items, it.Loose (decls g) := fun it h => (hok.itemsOk it h).loose hD
  have hok' := lastWord_ok hok
  have hloose' : ∀ it ∈ lastWord (decls g) items, it.Loose (decls g) := fun it h => hloose it (lastWord_mem h)
  have hc := formatParse_core hD items hloose tail env.ndebug g.store w₁
  have hc' := formatParse_core hD _ hloose' tail env.ndebug g.store w₁
  rw [lastWord_others] at hc'
  obtain ⟨exe, _, hp⟩ := parse_line hg hl hok.itemsOk hv
  constructor
  · rintro ⟨p, h⟩
    rw [h] at hp
    cases hf : formatParse env.ndebug (decls g) (renderLine items tail) g.store w₁ with
    | err e s => rw [hf] at hp; simp [outcomeOf, Res.core] at hp
    | ok u s =>
      rw [hf] at hp hc
      simp only [outcomeOf, Res.core, Prod.mk.injEq, true_and] at hp
      have hr : OverruledReadable env.ndebug (decls g) items := by
        have h1 := hc.symm
        rw [show (Res.ok u s : Res (FState W) Unit).core = .ok u s.core from rfl, M.bind_eq_ok] at h1
        obtain ⟨u1, c1, h1, -⟩ := h1
        exact absOptions_readable env.ndebug hD hloose h1
      refine ⟨hr, ?_⟩
      rw [absOptions_mixed env.ndebug hD hloose hr, ← hc'] at hc
      obtain ⟨s', h2, h3⟩ := Res.core_ok hc.symm
      have := means_of_formatParse env.ndebug hD _ tail hok' g.store w₁ s' u hnd h2
      simp only [FState.core, Prod.mk.injEq] at h3
      rw [h3.1, h3.2] at this
      cases hp
      exact this
  · rintro ⟨hr, hm⟩
    obtain ⟨s, h1, rfl, rfl⟩ := formatParse_of_means env.ndebug hD _ tail hok' g.store w₁ st' w' hm
    rw [h1, ← absOptions_mixed env.ndebug hD hloose hr, ← hc] at hc'
    obtain ⟨s', h2, h3⟩ := Res.core_ok hc'.symm
    rw [h2] at hp
    simp only [FState.core, Prod.mk.injEq] at h3
    refine ⟨plainScanned g.parser exe (renderLine items tail), hp.trans ?_⟩
    simp only [outcomeOf, Res.core, FState.core, h3.1, h3.2]

/-- In particular the list holds exactly the values given with the long identifier if that was used at all. -/
theorem C23_long_values_only (env : Env W) (g g' : Prog W) (hg : Reachable env g) (items : List Item) (tail : Option (List Str))
    (hl : LineGiven g items tail) (hok : MixedOk (decls g) items tail) (hv : VarsDistinct (decls g))
    (hnd : env.ndebug = false ∨ ListsRepresentable (decls g) (lastWord (decls g) items) tail)
    (w₁ : W) (hcheck : CheckPasses env g w₁) (h : parse env g = (.returned, g')) (d : OptDecl W) (hd : d ∈ (decls g).options)
    (hli : d.isList = true) (hlong : longTexts d items ≠ []) :
    ∃ es, g'.store d.var = .many es ∧ DenoteAll d.ty (longTexts d items) es := by
  obtain ⟨-, hm⟩ := (C17_C23_mixed_lines env g hg items tail hl hok w₁ hcheck hnd g'.store g'.world).1 ⟨g'.parser, h⟩
  obtain ⟨hdel, _, _⟩ := line_delivered hv hm
  have := hdel.value d hd
  rw [lastWord_given hd hli hlong, hli] at this
  exact this hlong

/-- A text that cannot be read is an error even if its value would be lost. -/
theorem C23_ignored_values_still_read (env : Env W) (g : Prog W) (hg : Reachable env g) (items : List Item) (tail : Option (List Str))
    (hl : LineGiven g items tail) (hok : MixedOk (decls g) items tail) (w₁ : W) (hv : CheckPasses env g w₁)
    (hbad : ¬ OverruledReadable env.ndebug (decls g) items) : (parse env g).1 ≠ .returned := by
  intro h
  have hD := idsOk_reachable hg
  have hloose : ∀ it ∈ items, it.Loose (decls g) := fun it h => (hok.itemsOk it h).loose hD
  have hc := formatParse_core hD items hloose tail env.ndebug g.store w₁
  obtain ⟨exe, _, hp⟩ := parse_line hg hl hok.itemsOk hv
  rw [hp] at h
  cases hf : formatParse env.ndebug (decls g) (renderLine items tail) g.store w₁ with
  | err e s => rw [hf] at h; simp [outcomeOf, Res.core] at h
  | ok u s =>
    rw [hf] at hc
    have h1 := hc.symm
    rw [show (Res.ok u s : Res (FState W) Unit).core = .ok u s.core from rfl, M.bind_eq_ok] at h1
    obtain ⟨u1, c1, h1, -⟩ := h1
    exact hbad (absOptions_readable env.ndebug hD hloose h1)

/-! ## Examples -/

/-- `-l a --list b -n 3 -l c x` -/
def exBothIds : List Item :=
  [.short 'l' .separate "a".toList, .long "list".toList true "b".toList, .short 'n' .separate "3".toList, .short 'l' .attached "c".toList,
   .word "x".toList]

def exBothIdsLine : Prog Unit := exRun exCalls (renderLine exBothIds none)

theorem exBothIdsLine_decls : decls exBothIdsLine = declsOf (exCalls.filterMap Call.entry?) := exRun_decls _ _ (by decide +kernel)

theorem exBothIds_lastWord : lastWord (decls exBothIdsLine) exBothIds =
    [.long "list".toList true "b".toList, .short 'n' .separate "3".toList, .word "x".toList] := by decide +kernel

theorem exBothIds_ok : MixedOk (decls exBothIdsLine) exBothIds none :=
  ⟨by decide +kernel, by decide +kernel, fun _ h => by cases h⟩

theorem exBothIds_readable : OverruledReadable false (decls exBothIdsLine) exBothIds := by
  rw [exBothIdsLine_decls]
  intro d hd form v hm _
  have hd : d ∈ [⟨'n', "num".toList, 0, false, .integer (-128) 127, false, fun _ w => (true, w)⟩,
    ⟨'s', "str".toList, 1, false, .string, false, fun _ w => (true, w)⟩,
    ⟨'l', "list".toList, 2, true, .string, false, fun _ w => (true, w)⟩] := hd
  simp only [List.mem_cons, List.not_mem_nil, or_false] at hd
  rcases hd with rfl | rfl | rfl
  · rename_i ho
    exact absurd ho (by simp [overruled, exBothIds, exCalls, Call.entry?, declsOf])
  · exact Or.inl ⟨_, rfl⟩
  · exact Or.inl ⟨_, rfl⟩

example : SameOutcome exEnv exBothIdsLine (exRun exCalls (renderLine (lastWord (decls exBothIdsLine) exBothIds) none)) :=
  C23_short_values_ignored exEnv exBothIdsLine _ (exRun_reachable _ _) (exRun_reachable _ _)
    (exRun_same _ _ _ (by decide +kernel) (by decide +kernel) (by decide +kernel) (by decide +kernel)) exBothIds none (by decide +kernel)
    (by decide +kernel) exBothIds_readable

example : ∃ es, (parse exEnv exBothIdsLine).2.store 2 = .many es ∧ DenoteAll .string ["b".toList] es := by
  have hret : (parse exEnv exBothIdsLine).1 = .returned := by decide +kernel
  have hd : (⟨'l', "list".toList, 2, true, .string, false, fun _ w => (true, w)⟩ : OptDecl Unit) ∈ (decls exBothIdsLine).options := by
    rw [exBothIdsLine_decls]
    exact .tail _ (.tail _ (.head _))
  have ht : longTexts (⟨'l', "list".toList, 2, true, .string, false, fun _ w => (true, w)⟩ : OptDecl Unit) exBothIds = ["b".toList] := by
    decide +kernel
  generalize hr : parse exEnv exBothIdsLine = r at hret
  obtain ⟨o, g'⟩ := r
  cases hret
  obtain ⟨es, h1, h2⟩ := C23_long_values_only exEnv exBothIdsLine g' (exRun_reachable _ _) exBothIds none (by decide +kernel)
    exBothIds_ok (by decide +kernel) (Or.inl rfl) () rfl hr _ hd rfl (by rw [ht]; simp)
  rw [ht] at h2
  exact ⟨es, h1, h2⟩

/-- `-i x --ints 1`: the value of `-i` would be lost, but is no number. -/
example : (parse exEnv (exNumbers ["-i", "x", "--ints", "1"])).1 = .threw .userInputError ∧
    (parse exEnv (exNumbers ["-i", "7", "--ints", "1"])).2.store 0 = .many [.int 1] := by decide +kernel

/-- In release builds the texts may be out of range. -/
example : (parse exRelease (exNumbers ["-i", "300", "--ints", "1"])).1 = .returned ∧
    (parse exEnv (exNumbers ["-i", "300", "--ints", "1"])).1 = .threw .assertFailed := by decide +kernel

end Sharg
