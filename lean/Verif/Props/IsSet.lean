import Verif.Lemmas.Decide
import Verif.Props.Lines

/-! # C35: `is_option_set` -/

set_option linter.unusedSimpArgs false

namespace Sharg

open Spec

variable {W : Type}

/-- The identifier as a string. -/
def Spec.idText : Id → Str
  | .short c => [c]
  | .long s => s

/-- The argument reads as the identifier, with or without something attached. -/
def Spec.ReadsAs : Id → Str → Prop
  | .short c, a => ∃ t, a = '-' :: c :: t
  | .long s, a => a = '-' :: '-' :: s ∨ ∃ t, a = '-' :: '-' :: (s ++ '=' :: t)

/-- The item names the identifier. -/
def Spec.Item.NamesId : Id → Item → Prop
  | .short c, .short c' _ _ => c' = c
  | .short c, .flags cs => c ∈ cs
  | .long s, .long s' _ _ => s' = s
  | .long s, .longFlag s' => s' = s
  | _, _ => False

/-- The value that an item gives as an argument of its own. -/
def Spec.Item.separateValue : Item → Option Str
  | .short _ .separate v => some v
  | .long _ true v => some v
  | _ => none

theorem hits_iff (id : Id) (a : Str) : id.hits a = true ↔ ReadsAs id a := by
  cases id with
  | short c =>
    simp only [Id.hits, Id.dashed, ReadsAs]
    match a with
    | [] => simp
    | [x] => simp
    | x :: y :: t => simp
  | long s =>
    simp only [Id.hits, Id.dashed, ReadsAs]
    match a with
    | [] => simp
    | [x] => simp
    | x :: y :: t =>
      simp only [List.length_cons, List.take_succ_cons, Bool.and_eq_true, beq_iff_eq, List.cons.injEq, Bool.or_eq_true,
        Nat.add_right_cancel_iff, List.getElem?_cons_succ]
      constructor
      · rintro ⟨⟨rfl, rfl, h⟩, h2⟩
        have ht : t = s ++ t.drop s.length := by
          have := List.take_append_drop s.length t
          rw [h] at this
          exact this.symm
        rcases h2 with h2 | h2
        · left
          rw [List.drop_of_length_le (by omega)] at ht
          exact ⟨rfl, rfl, by simpa using ht⟩
        · right
          have : (t.drop s.length).head? = some '=' := by rw [List.head?_drop]; exact h2
          cases hd : t.drop s.length with
          | nil => rw [hd] at this; simp at this
          | cons z u =>
            rw [hd] at this ht
            simp at this
            subst this
            exact ⟨u, rfl, rfl, ht⟩
      · rintro (⟨rfl, rfl, rfl⟩ | ⟨u, rfl, rfl, rfl⟩)
        · simp
        · simp

theorem all_of_dropWhile_nil {α : Type} (p : α → Bool) (l : List α) (h : l.dropWhile p = []) : ∀ a ∈ l, p a = true := by
  induction l with
  | nil => simp
  | cons x l ih =>
    rw [List.dropWhile_cons] at h
    split at h
    · rename_i hx
      intro a ha
      rcases List.mem_cons.1 ha with rfl | ha
      · exact hx
      · exact ih h a ha
    · cases h

def oneChar : Id → Bool
  | .short _ => false
  | .long s => s.length == 1

theorem isOptionSet_eq (p : Parser W) (id : Id) : isOptionSet p id =
    if !p.parseWasCalled then .error .designError
    else if oneChar id then .error .designError
    else if idText id ∉ p.usedIds then .error .designError
    else
      match findOptionId id (before p.formatArguments) with
      | (_, []) => .ok false
      | (_, _ :: _) => .ok true := by
  cases id <;> rfl

theorem isOptionSet_of_used (p : Parser W) (hi : Inv p) (id : Id) (hp : p.parseWasCalled = true)
    (hs : ∀ s, id = .long s → s.length ≠ 1) (hu : idText id ∈ p.usedIds) :
    ∃ b, isOptionSet p id = .ok b ∧ (b = true ↔ ∃ a ∈ before p.formatArguments, ReadsAs id a) := by
  have hne : id.isEmpty = false := by
    rcases hi.wf _ hu with ⟨c, h, hc⟩ | h
    · cases id with
      | short c' =>
        simp only [idText, List.cons.injEq, and_true] at h
        subst h
        simp only [Id.isEmpty, beq_eq_false_iff_ne]
        rintro rfl
        revert hc; decide
      | long s => exact absurd (by rw [show s = [c] from h]; rfl) (hs s rfl)
    · cases id with
      | short c => have := h.1; simp [idText] at this
      | long s =>
        simp only [Id.isEmpty, List.isEmpty_eq_false_iff]
        rintro rfl
        have := h.1; simp [idText] at this
  have h1 : oneChar id = false := by
    cases id with
    | short c => rfl
    | long s => simpa [oneChar] using hs s rfl
  rw [isOptionSet_eq, hp, h1]
  simp only [Bool.not_true, Bool.false_eq_true, if_false, hu, not_true_eq_false, findOptionId, hne]
  cases hd : (before p.formatArguments).dropWhile (fun a => !id.hits a) with
  | nil =>
    refine ⟨false, rfl, ?_⟩
    simp only [Bool.false_eq_true, false_iff, not_exists, not_and]
    intro a ha
    rw [← hits_iff]
    intro hh
    have h0 := all_of_dropWhile_nil _ _ hd a ha
    simp [hh] at h0
  | cons a l =>
    refine ⟨true, rfl, ?_⟩
    simp only [true_iff]
    refine ⟨a, ?_, ?_⟩
    · have : a ∈ (before p.formatArguments).dropWhile (fun a => !id.hits a) := by rw [hd]; simp
      exact (List.dropWhile_sublist _).mem this
    · rw [← hits_iff]
      have := List.head?_dropWhile_not (fun a => !id.hits a) (before p.formatArguments)
      rw [hd] at this
      simpa using this

/-- C35, first half of the exceptions: before `parse()` is called, `is_option_set` throws `design_error`; so it does for
a string of one character. -/
theorem C35_misuse_reported (p : Parser W) (id : Id)
    (h : p.parseWasCalled = false ∨ ∃ c, id = .long [c]) : isOptionSet p id = .error .designError := by
  rcases h with h | ⟨c, rfl⟩
  · unfold isOptionSet; simp [h]
  · unfold isOptionSet
    cases p.parseWasCalled <;> simp

/-- Identifiers in use come from calls. -/
theorem used_mentioned (env : Env W) (as : List (Action W)) : ∀ g : Prog W, ∀ s ∈ (runActions env as g).parser.usedIds,
    s ∈ g.parser.usedIds ∨ ∃ a ∈ as, ¬ Avoids [s] a := by
  induction as with
  | nil => intro g s hs; exact Or.inl hs
  | cons a as ih =>
    intro g s hs
    rcases ih _ s hs with h | ⟨b, hb, h⟩
    · cases a with
      | parse =>
        left
        rw [show (Action.parse.run env g).2 = (parse env g).2 from rfl, (parse_parser env g).1.usedIds] at h
        exact h
      | call c =>
        by_cases hc : Acceptable g.parser.situation c
        · rw [Action.call_run_acceptable env c g hc] at h
          simp only [Call.effect, List.mem_append] at h
          rcases h with h | h
          · right
            refine ⟨.call c, by simp, ?_⟩
            unfold Call.burnt at h
            cases hcfg : idConfig c with
            | none => rw [hcfg] at h; simp at h
            | some cfg =>
              rw [hcfg] at h
              simp only [Option.map_some, Option.getD_some] at h
              intro hav
              exact hav cfg hcfg s ((mem_burnt _ _).1 h) (by simp)
          · exact Or.inl h
        · obtain ⟨l, os, hq, a1, _⟩ := c.run_rejected g.parser hc
          simp only [Action.run, hq, List.mem_append] at h
          rcases h with h | h
          · obtain ⟨cfg, h1, h2, _⟩ := a1 s h
            right
            exact ⟨.call c, by simp, fun hav => hav cfg h1 s h2 (by simp)⟩
          · exact Or.inl h
    · exact Or.inr ⟨b, by simp [hb], h⟩

/-- C35, second half: for an identifier that no call of the history mentions and that is not predefined, `design_error`
is thrown. -/
theorem C35_unregistered_reported (env : Env W) (i : Init) (st : Store) (w : W) (as : List (Action W)) (id : Id)
    (h1 : idText id ∉ predefined) (h2 : ∀ a ∈ as, Avoids [idText id] a) :
    isOptionSet (runActions env as (start i st w)).parser id = .error .designError := by
  have hu : idText id ∉ (runActions env as (start i st w)).parser.usedIds := by
    intro hu
    rcases used_mentioned env as _ _ hu with h | ⟨a, ha, h⟩
    · exact h1 (by simpa [start, mkParser, builtinIds_eq] using h)
    · exact h (h2 a ha)
  rw [isOptionSet_eq]
  simp only [hu, not_false_eq_true, if_true, ite_self]

/-- C35, what `is_option_set` tells for every argument vector: whether some argument in front of `--` reads as the
identifier. It never throws for a registered identifier. -/
theorem C35_tells_whether_identifier_occurs (env : Env W) (g : Prog W) (hg : Reachable env g)
    (hp : g.parser.parseWasCalled = true) (id : Id) (hs : ∀ c, id ≠ .long [c])
    (hid : idText id ∈ entryIds g.parser.operations) :
    ∃ b, isOptionSet g.parser id = .ok b ∧ (b = true ↔ ∃ a ∈ before g.parser.formatArguments, ReadsAs id a) := by
  have hi := inv_reachable hg
  refine isOptionSet_of_used g.parser hi id hp ?_ (hi.used _ hid).1
  intro s hs' hl
  match s, hl with
  | [c], _ => exact hs c hs'

/-! ### Well-formed lines -/

/-- The identifier of a registered option or flag. -/
def Spec.RegisteredId (D : Decls W) : Id → Prop
  | .short c => c ∈ shortIds D
  | .long s => s ∈ longIds D

theorem registered_entryIds {p : Parser W} {id : Id} (h : RegisteredId (declsOf p.operations) id) :
    idText id ∈ entryIds p.operations := by
  cases id with
  | short c =>
    have := ((ids_perm p.operations).1.filter _).mem_iff.1 h
    exact (short_sublist _).mem (List.mem_map.2 ⟨c, this, rfl⟩)
  | long s =>
    have := ((ids_perm p.operations).2.filter _).mem_iff.1 h
    exact (long_sublist _).mem this

theorem registered_long {p : Parser W} (hi : Inv p) {s : Str} (h : RegisteredId (declsOf p.operations) (.long s)) :
    IsLongId s := by
  have h1 := ((ids_perm p.operations).2.filter _).mem_iff.1 h
  simp only [List.mem_filter, List.mem_map, decide_eq_true_eq] at h1
  obtain ⟨⟨cfg, h1, rfl⟩, h2⟩ := h1
  exact (hi.cfgs cfg (by simpa using h1)).2.2 h2

theorem no_eq_of_chars {s : Str} (h : ∀ c ∈ s, IsIdChar c) : '=' ∉ s := fun he => isIdChar_ne_eq (h _ he) rfl

theorem reads_item {D : Decls W} (hD : IdsOk D) {id : Id} (hid : RegisteredId D id) {it : Item} (hit : it.Ok D)
    (hsep : ∀ v, it.separateValue = some v → ¬ ReadsAs id v)
    (hgrp : ∀ cs c, it = .flags cs → id = .short c → c ∈ cs → cs.head? = some c) :
    (∃ a ∈ it.render, ReadsAs id a) ↔ it.NamesId id := by
  cases id with
  | short c =>
    have hc := (hD.shortChars c hid).2
    cases it with
    | short c' form v =>
      cases form with
      | separate =>
        have := hsep v rfl
        simp only [ReadsAs] at this
        simp [Item.render, ReadsAs, Item.NamesId, this]
      | _ => simp [Item.render, ReadsAs, Item.NamesId]
    | long s sep v =>
      cases sep with
      | true =>
        have := hsep v rfl
        simp only [ReadsAs] at this
        simp [Item.render, ReadsAs, Item.NamesId, this, Ne.symm hc]
      | false => simp [Item.render, ReadsAs, Item.NamesId, Ne.symm hc]
    | flags cs =>
      simp only [Item.render, List.mem_singleton, exists_eq_left, ReadsAs, Item.NamesId, List.cons.injEq, true_and]
      constructor
      · rintro ⟨t, rfl⟩; simp
      · intro hm
        have := hgrp cs c rfl rfl hm
        cases cs with
        | nil => simp at hm
        | cons x t => simp at this; exact ⟨t, by rw [this]⟩
    | longFlag s => simp [Item.render, ReadsAs, Item.NamesId, Ne.symm hc]
    | word w =>
      obtain ⟨h1, h2⟩ := hit
      simp only [Item.render, List.mem_singleton, exists_eq_left, ReadsAs, Item.NamesId, iff_false]
      rintro ⟨t, rfl⟩
      rcases h2 with h2 | h2 <;> simp at h2
  | long s =>
    have hs := no_eq_of_chars (hD.longChars s hid)
    cases it with
    | short c' form v =>
      obtain ⟨h0, ⟨d, hd, rfl⟩, _⟩ := hit
      have hc := (hD.shortChars _ (mem_shortIds_option hd h0)).2
      cases form with
      | separate =>
        have := hsep v rfl
        simp only [ReadsAs] at this
        simp [Item.render, ReadsAs, Item.NamesId, this, hc]
      | _ => simp [Item.render, ReadsAs, Item.NamesId, hc]
    | long s' sep v =>
      obtain ⟨h0, ⟨d, hd, rfl⟩, _⟩ := hit
      have hs' := hD.no_eq_option hd
      cases sep with
      | true =>
        have := hsep v rfl
        simp only [ReadsAs] at this
        simp only [Item.render, List.mem_cons, List.not_mem_nil, or_false, exists_eq_or_imp, exists_eq_left, ReadsAs,
          Item.NamesId, this, List.cons.injEq, true_and]
        constructor
        · rintro (h | ⟨t, h⟩)
          · exact h
          · exact absurd (by rw [h]; simp) hs'
        · intro h; exact Or.inl h
      | false =>
        simp only [Item.render, List.mem_singleton, exists_eq_left, ReadsAs, Item.NamesId, List.cons.injEq, true_and]
        constructor
        · rintro (h | ⟨t, h⟩)
          · exact absurd (by rw [← h]; simp) hs
          · exact eq_of_append_eq hs' hs h
        · rintro rfl; exact Or.inr ⟨v, rfl⟩
    | flags cs =>
      obtain ⟨h1, h2⟩ := hit
      simp only [Item.render, List.mem_singleton, exists_eq_left, ReadsAs, Item.NamesId, List.cons.injEq, true_and,
        iff_false]
      have : cs.head? ≠ some '-' := by
        intro h
        obtain ⟨h3, f, hf, h4⟩ := h2 '-' (List.mem_of_mem_head? h)
        exact (hD.shortChars _ (mem_shortIds_flag hf (by rw [h4]; exact h3))).2 h4
      rintro (h | ⟨t, h⟩) <;> (rw [h] at this; simp at this)
    | longFlag s' =>
      obtain ⟨h0, f, hf, rfl⟩ := hit
      have hs' := hD.no_eq_flag hf
      simp only [Item.render, List.mem_singleton, exists_eq_left, ReadsAs, Item.NamesId, List.cons.injEq, true_and]
      constructor
      · rintro (h | ⟨t, h⟩)
        · exact h
        · exact absurd (by rw [h]; simp) hs'
      · intro h; exact Or.inl h
    | word w =>
      obtain ⟨h1, h2⟩ := hit
      simp only [Item.render, List.mem_singleton, exists_eq_left, ReadsAs, Item.NamesId, iff_false]
      rintro (rfl | ⟨t, rfl⟩) <;> rcases h2 with h2 | h2 <;> simp at h2

/-- C35 on well-formed lines, with two exceptions: after `parse()` returned, `is_option_set` of a registered identifier
tells whether the identifier was given. Excluded: values given as an argument of their own that read as the identifier,
and short flags inside of a group. -/
theorem C35_tells_whether_given_partial (env : Env W) (g g' : Prog W) (hg : Reachable env g) (items : List Item)
    (tail : Option (List Str)) (hl : LineGiven g items tail) (hok : LineOk (decls g) items tail)
    (h : parse env g = (.returned, g')) (id : Id) (hid : RegisteredId (decls g) id)
    (hsep : ∀ it ∈ items, ∀ v, it.separateValue = some v → ¬ ReadsAs id v)
    (hgrp : ∀ cs c, Item.flags cs ∈ items → id = .short c → c ∈ cs → cs.head? = some c) :
    ∃ b, isOptionSet g'.parser id = .ok b ∧ (b = true ↔ ∃ it ∈ items, it.NamesId id) := by
  have hi := inv_reachable hg
  have hD := idsOk_reachable hg
  obtain ⟨exe, ha⟩ := hl.arguments
  have hp := parse_unrequested env g (ready_of hl.notParsed hl.cleanName hl.noSubcommands) exe _ ha hl.noSubcommands
    hl.notEmpty (unrequested_line hi items hok.itemsOk tail hl.notRequest)
  have hfa : g'.parser.formatArguments = renderLine items tail := by
    cases hc : env.versionCheck g.parser.appName g.parser.notify none g.world with
    | mk o w =>
      rw [h, hc] at hp
      cases o with
      | some e => simp at hp
      | none =>
        dsimp only at hp
        cases hf : formatParse env.ndebug (declsOf g.parser.operations) (renderLine items tail) g.store w with
        | err e s => rw [hf] at hp; simp at hp
        | ok u s =>
          rw [hf] at hp
          injection hp with _ hp
          rw [hp]; rfl
  have hpp := parse_parser env g
  rw [h] at hpp
  obtain ⟨hss, hpc⟩ := hpp
  have hi' : Inv g'.parser := hi.congr hss.usedIds hss.operations hss.options hss.list
  have hs : ∀ s, id = .long s → s.length ≠ 1 := by
    rintro s rfl hl1
    have := (registered_long hi hid).1
    omega
  obtain ⟨b, h1, h2⟩ := isOptionSet_of_used g'.parser hi' id hpc hs (by
    rw [hss.usedIds]; exact (hi.used _ (registered_entryIds hid)).1)
  refine ⟨b, h1, h2.trans ?_⟩
  have hb : before g'.parser.formatArguments = items.flatMap Item.render := by
    rw [hfa]
    exact (split_loose hD items (fun it hit => (hok.itemsOk it hit).loose hD) tail).1
  rw [hb]
  constructor
  · rintro ⟨a, ha, hr⟩
    obtain ⟨it, hit, ha⟩ := List.mem_flatMap.1 ha
    exact ⟨it, hit, (reads_item hD hid (hok.itemsOk it hit) (hsep it hit) (fun cs c e => by
      subst e; exact hgrp cs c hit)).1 ⟨a, ha, hr⟩⟩
  · rintro ⟨it, hit, hn⟩
    obtain ⟨a, ha, hr⟩ := (reads_item hD hid (hok.itemsOk it hit) (hsep it hit) (fun cs c e => by
      subst e; exact hgrp cs c hit)).2 hn
    exact ⟨a, List.mem_flatMap.2 ⟨it, hit, ha⟩, hr⟩

/-- For the identifiers of options there is no exception. -/
theorem C35_tells_whether_option_given (env : Env W) (g g' : Prog W) (hg : Reachable env g) (items : List Item)
    (tail : Option (List Str)) (hl : LineGiven g items tail) (hok : LineOk (decls g) items tail)
    (h : parse env g = (.returned, g')) (d : OptDecl W) (hd : d ∈ (decls g).options) :
    (d.short ≠ '\x00' → ∃ b, isOptionSet g'.parser (.short d.short) = .ok b ∧
      (b = true ↔ ∃ form v, Item.short d.short form v ∈ items)) ∧
    (d.long ≠ [] → ∃ b, isOptionSet g'.parser (.long d.long) = .ok b ∧
      (b = true ↔ ∃ sep v, Item.long d.long sep v ∈ items)) := by
  have hD := idsOk_reachable hg
  have hsep : ∀ id, OptId (decls g) id → ∀ it ∈ items, ∀ v, it.separateValue = some v → ¬ ReadsAs id v := by
    intro id hid it hit v hv hr
    have hok := hok.itemsOk it hit
    have hlk := hid.hits_looks ((hits_iff id v).2 hr)
    cases it with
    | short c form v' =>
      cases form <;> simp [Item.separateValue] at hv
      subst hv
      exact hok.2.2.1 hlk
    | long s sep v' =>
      cases sep <;> simp [Item.separateValue] at hv
      subst hv
      have := hok.2.2
      simp at this
      exact this.1 hlk
    | _ => simp [Item.separateValue] at hv
  constructor
  · intro h0
    obtain ⟨b, h1, h2⟩ := C35_tells_whether_given_partial env g g' hg items tail hl hok h (.short d.short)
      (mem_shortIds_option hd h0) (hsep _ ⟨h0, d, hd, rfl⟩) (by
        rintro cs c hcs ⟨⟩ hc
        obtain ⟨_, f, hf, he⟩ := (hok.itemsOk _ hcs).2 _ hc
        exact absurd he.symm (hD.option_ne_flag_short hd hf h0))
    refine ⟨b, h1, h2.trans ⟨?_, ?_⟩⟩
    · rintro ⟨it, hit, hn⟩
      cases it with
      | short c form v => cases hn; exact ⟨form, v, hit⟩
      | flags cs =>
        obtain ⟨_, f, hf, he⟩ := (hok.itemsOk _ hit).2 _ hn
        exact absurd he.symm (hD.option_ne_flag_short hd hf h0)
      | _ => exact hn.elim
    · rintro ⟨form, v, hit⟩
      exact ⟨_, hit, rfl⟩
  · intro h0
    obtain ⟨b, h1, h2⟩ := C35_tells_whether_given_partial env g g' hg items tail hl hok h (.long d.long)
      (mem_longIds_option hd h0) (hsep _ ⟨h0, d, hd, rfl⟩) (by rintro cs c hcs ⟨⟩)
    refine ⟨b, h1, h2.trans ⟨?_, ?_⟩⟩
    · rintro ⟨it, hit, hn⟩
      cases it with
      | long s sep v => cases hn; exact ⟨sep, v, hit⟩
      | longFlag s =>
        obtain ⟨_, f, hf, he⟩ := hok.itemsOk _ hit
        cases hn
        exact absurd he.symm (hD.option_ne_flag_long hd hf h0)
      | _ => exact hn.elim
    · rintro ⟨sep, v, hit⟩
      exact ⟨_, hit, rfl⟩

/-- What `is_option_set` tells after the example program has parsed the arguments. -/
def exSet (args : List String) (id : Id) (b : Bool) : Bool :=
  (parse exEnv (exProg args)).1 == .returned &&
    match isOptionSet (parse exEnv (exProg args)).2.parser id with
    | .ok b' => b' == b
    | .error _ => false

/-- C35 fails for a flag inside of a group, for a value that looks like the identifier, and predefined identifiers do not
cause an exception. Also, both identifiers of an option are distinguished: `-n 3` sets `n` but not `num`. -/
theorem C35_other_answers :
    exSet ["-qv", "x"] (.short 'v') false = true ∧ exSet ["-vq", "x"] (.short 'v') true = true ∧
    exSet ["-s", "--verbose", "x"] (.long "verbose".toList) true = true ∧
    exSet ["-s", "-v", "x"] (.short 'v') true = true ∧
    exSet ["x"] (.long "help".toList) false = true ∧ exSet ["x"] (.short 'h') false = true ∧
    exSet ["-n", "3", "x"] (.short 'n') true = true ∧ exSet ["-n", "3", "x"] (.long "num".toList) false = true := by
  decide +kernel

/-- The hypotheses are met: `-n 3 file -vq --list=a - --loud --list b -- -x`. -/
example : ∃ b, isOptionSet (parse exEnv exLine).2.parser (.short 'v') = .ok b ∧
    (b = true ↔ ∃ it ∈ exItems, it.NamesId (.short 'v')) := by
  refine C35_tells_whether_given_partial exEnv exLine _ (exRun_reachable _ _) exItems exTail exLine_given exLine_ok
    (returned_pair (by decide +kernel)) (.short 'v') (by rw [exLine_decls]; show 'v' ∈ shortIds _; decide) ?_ ?_
  · have : ∀ it ∈ exItems, ∀ v, it.separateValue = some v → (Id.short 'v').hits v = false := by decide
    intro it hit v hv h
    rw [← hits_iff, this it hit v hv] at h
    cases h
  · intro cs c hcs hc _
    cases hc
    have hcs : Item.flags cs ∈ [Item.flags ['v', 'q']] := by
      have := hcs
      simp [exItems] at this
      simp [this]
    simp only [List.mem_singleton, Item.flags.injEq] at hcs
    rw [hcs]; rfl

example : ∃ b, isOptionSet (parse exEnv exLine).2.parser (.long "list".toList) = .ok b ∧
    (b = true ↔ ∃ sep v, Item.long "list".toList sep v ∈ exItems) :=
  (C35_tells_whether_option_given exEnv exLine _ (exRun_reachable _ _) exItems exTail exLine_given exLine_ok
    (returned_pair (by decide +kernel)) ⟨'l', "list".toList, 2, true, .string, false, fun _ w => (true, w)⟩
    (by rw [exLine_decls]; exact .tail _ (.tail _ (.head _)))).2 (by decide)

example : isOptionSet (runActions exEnv [.parse] (start exInit exStore ())).parser (.long "unknown".toList) = .error .designError :=
  C35_unregistered_reported exEnv exInit exStore () [.parse] (.long "unknown".toList) (by decide)
    (by intro a ha; rw [List.mem_singleton.1 ha]; trivial)

end Sharg
