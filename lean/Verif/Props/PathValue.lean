import Verif.Lemmas.PathValue
import Verif.Props.Float
import Verif.Props.Defaults
import Verif.Props.Success

/-!
# Property C85: the value of a path option is the given file name
-/

namespace Sharg

open Spec

variable {W : Type}

/-! ### Which texts are accepted -/

/-- C85: the texts that are accepted for a path option, and the paths they are read as: a name without blanks that does not begin with a quotation
mark; blanks in front of it are dropped. -/
theorem C85_accepted_exactly (text : Str) (e : Elem) : Denotes pathTy text e ↔ ∃ p, DenotesPath text p ∧ e = pathElem p :=
  pathConv_ok text e

/-- A text is read as one path at most. -/
theorem denotesPath_unique {text p q : Str} (hp : DenotesPath text p) (hq : DenotesPath text q) : p = q := by
  obtain ⟨⟨_, h1, _⟩, b, hb, hb'⟩ := hp
  obtain ⟨⟨_, h2, _⟩, c, hc, hc'⟩ := hq
  rw [← dropWhile_blanks hb' h1, ← dropWhile_blanks hc' h2, ← hb, ← hc]

theorem denotesPath_self {p : Str} (h : Nameable p) : DenotesPath p p := ⟨h, [], rfl, by simp⟩

/-- C85, partial: a name without blanks that does not begin with a quotation mark is read as written. -/
theorem C85_verbatim_partial (text : Str) (h : Nameable text) (e : Elem) : Denotes pathTy text e ↔ e = pathElem text := by
  rw [C85_accepted_exactly]
  constructor
  · rintro ⟨p, hp, rfl⟩
    rw [denotesPath_unique hp (denotesPath_self h)]
  · rintro rfl
    exact ⟨text, denotesPath_self h, rfl⟩

/-- C85 does not hold for any other file name: no text at all is read as an empty path, a path with a blank, or a path that begins with a quotation
mark. -/
theorem C85_other_names_cannot_be_given (p : Str) (h : ¬ Nameable p) (text : Str) : ¬ Denotes pathTy text (pathElem p) := by
  rw [C85_accepted_exactly]
  rintro ⟨q, hq, he⟩
  rw [pathElem_inj he] at h
  exact h hq.1

/-- C85 does not hold for texts with blanks in front: they are read as the name of another file. -/
theorem C85_blanks_in_front_dropped (c : Char) (blanks p : Str) (hc : c ∈ whiteSpace) (hb : ∀ x ∈ blanks, x ∈ whiteSpace) (hp : Nameable p) :
    Denotes pathTy (c :: blanks ++ p) (pathElem p) ∧ c :: blanks ++ p ≠ p := by
  refine ⟨(C85_accepted_exactly _ _).2 ⟨p, ⟨hp, c :: blanks, rfl, ?_⟩, rfl⟩, ?_⟩
  · intro x hx
    rcases List.mem_cons.1 hx with rfl | hx
    · exact hc
    · exact hb x hx
  · intro h
    have := congrArg List.length h
    simp at this
    omega

/-- What the parser does with the text of a scalar path option. -/
theorem C85_paths_exact (ndebug : Bool) (x : VarId) (text : Str) (s : FState W) :
    (∀ p, DenotesPath text p → assignScalar ndebug pathTy x text s = .ok () { s with store := s.store.set x (.one (pathElem p)) }) ∧
    ((¬ ∃ p, DenotesPath text p) → ∃ s', assignScalar ndebug pathTy x text s = .err .userInputError s') := by
  unfold assignScalar
  simp only [pathTy, parseElem, parseForeign]
  constructor
  · intro p hp
    rw [(pathConv_ok text (pathElem p)).2 ⟨p, hp, rfl⟩]
    rfl
  · intro hp
    cases hc : pathConv text with
    | ok e =>
      obtain ⟨p, h, _⟩ := (pathConv_ok text e).1 hc
      exact absurd ⟨p, h⟩ hp
    | fail w => cases w <;> exact ⟨_, rfl⟩
    | overflow => exact absurd hc (pathConv_overflow text)

/-! ### At the level of `parse()` -/

/-- What the variable of a named option holds when `parse()` has returned, whatever the line looks like. -/
theorem returned_option_elems (env : Env W) (g g' : Prog W) (hg : Reachable env g) (h : parse env g = (.returned, g'))
    (hv : VarsDistinct (decls g)) (d : OptDecl W) (hd : d ∈ (decls g).options)
    (hn : ∃ a ∈ free (decls g) false (before g'.parser.formatArguments), Names d a) :
    (d.isList = false → ∃ t e, Denotes d.ty t e ∧ g'.store d.var = .one e) ∧
    (d.isList = true → ∃ es, g'.store d.var = .many es ∧ ∀ e ∈ es, ∃ t, Denotes d.ty t e) := by
  obtain ⟨hi, hD, w1, s, hr, hs, _⟩ := reachable_returned hg h
  obtain ⟨ph⟩ := phases env.ndebug hD _ g.store w1 s () hr
  rw [hs]
  rcases option_final hD hv hd env.ndebug ph with ⟨_, _, h3⟩ | ⟨_, ws, wl, _, h2⟩
  · obtain ⟨a, ha, hna⟩ := hn
    exact absurd hna (h3 a ha)
  · unfold optValue at h2
    constructor
    · intro hl
      rw [hl] at h2
      simp only [Bool.false_eq_true, if_false] at h2
      cases ht : ws ++ wl with
      | nil => simp [ht] at h2
      | cons t ts =>
        cases ts with
        | cons t' ts => simp [ht] at h2
        | nil =>
          simp only [ht, Option.map_eq_some_iff] at h2
          obtain ⟨e, h3, h4⟩ := h2
          exact ⟨t, e, (readElem_iff _ _ _).1 h3, h4.symm⟩
    · intro hl
      rw [if_pos hl] at h2
      cases h1 : readListElems env.ndebug d.ty ws with
      | error e => simp [h1] at h2
      | ok es1 =>
        cases h4 : readListElems env.ndebug d.ty wl with
        | error e => simp [h1, h4] at h2
        | ok es2 =>
          simp only [h1, h4] at h2
          have hall : ∀ e ∈ (if wl = [] then es1 else es2), ∃ t, Denotes d.ty t e := by
            intro e he
            split at he
            · obtain ⟨t, _, ht⟩ := readListElems_mem _ _ _ _ h1 e he
              exact ⟨t, ht⟩
            · obtain ⟨t, _, ht⟩ := readListElems_mem _ _ _ _ h4 e he
              exact ⟨t, ht⟩
          exact ⟨_, (Option.some.inj h2).symm, hall⟩

/-- C85 is false for `parse()`: whatever the arguments are, when it has returned, the variable of a path option that was given never holds an empty
path, a path with a blank, or a path that begins with a quotation mark. Such files cannot be named on the command line. -/
theorem C85_only_nameable_paths (env : Env W) (g g' : Prog W) (hg : Reachable env g) (h : parse env g = (.returned, g'))
    (hv : VarsDistinct (decls g)) (d : OptDecl W) (hd : d ∈ (decls g).options) (hty : d.ty = pathTy)
    (hn : ∃ a ∈ free (decls g) false (before g'.parser.formatArguments), Names d a) :
    (d.isList = false → ∃ p, g'.store d.var = .one (pathElem p) ∧ Nameable p) ∧
    (d.isList = true → ∃ ps : List Str, g'.store d.var = .many (ps.map pathElem) ∧ ∀ p ∈ ps, Nameable p) := by
  obtain ⟨h1, h2⟩ := returned_option_elems env g g' hg h hv d hd hn
  rw [hty] at h1 h2
  refine ⟨fun hl => ?_, fun hl => ?_⟩
  · obtain ⟨t, e, ht, he⟩ := h1 hl
    obtain ⟨p, hp, rfl⟩ := (C85_accepted_exactly t e).1 ht
    exact ⟨p, he, hp.1⟩
  · obtain ⟨es, he, hes⟩ := h2 hl
    have : ∃ ps : List Str, es = ps.map pathElem ∧ ∀ p ∈ ps, Nameable p := by
      clear he
      induction es with
      | nil => exact ⟨[], rfl, by simp⟩
      | cons e es ih =>
        obtain ⟨t, ht⟩ := hes e (.head _)
        obtain ⟨p, hp, rfl⟩ := (C85_accepted_exactly t e).1 ht
        obtain ⟨ps, rfl, hps⟩ := ih fun e he => hes e (.tail _ he)
        refine ⟨p :: ps, rfl, fun q hq => ?_⟩
        rcases List.mem_cons.1 hq with rfl | hq
        · exact hp.1
        · exact hps q hq
    obtain ⟨ps, rfl, hps⟩ := this
    exact ⟨ps, he, hps⟩

/-- C85, for well-formed lines: a path option that was given, in whatever spelling, holds the path its text is read as. -/
theorem C85_option_holds_path (env : Env W) (g g' : Prog W) (hg : Reachable env g) (items : List Item)
    (tail : Option (List Str)) (hl : LineGiven g items tail) (hok : LineOk (decls g) items tail)
    (hnd : env.ndebug = false ∨ ListsRepresentable (decls g) items tail) (hvars : VarsDistinct (decls g))
    (h : parse env g = (.returned, g')) (d : OptDecl W) (hd : d ∈ (decls g).options)
    (hty : d.ty = pathTy) (hs : d.isList = false) (it : Item) (hit : it ∈ items) (text : Str) (hv : it.valueFor d = some text) :
    ∃ p, DenotesPath text p ∧ g'.store d.var = .one (pathElem p) := by
  obtain ⟨w₁, _, hm⟩ := C17_only_meaningful_lines_partial env g g' hg items tail hl hok hnd h
  have hdel := (line_delivered hvars hm).1
  have hmem : text ∈ given d items := List.mem_filterMap.2 ⟨it, hit, hv⟩
  have := hdel.value d hd (List.ne_nil_of_mem hmem)
  rw [hs] at this
  obtain ⟨t, e, ht, he, hde⟩ := this
  rw [ht, List.mem_singleton] at hmem
  subst hmem
  rw [hty] at hde
  obtain ⟨p, h2, rfl⟩ := (C85_accepted_exactly text e).1 hde
  exact ⟨p, h2, he⟩

theorem denoteAll_paths (ts : List Str) (es : List Elem) (h : DenoteAll pathTy ts es) :
    ∃ ps : List Str, es = ps.map pathElem ∧ List.Forall₂ DenotesPath ts ps := by
  induction ts generalizing es with
  | nil =>
    cases es with
    | nil => exact ⟨[], rfl, .nil⟩
    | cons e es => exact absurd h id
  | cons t ts ih =>
    cases es with
    | nil => exact absurd h id
    | cons e es =>
      obtain ⟨v, h1, rfl⟩ := (C85_accepted_exactly t e).1 h.1
      obtain ⟨vs, rfl, h2⟩ := ih es h.2
      exact ⟨v :: vs, rfl, .cons h1 h2⟩

/-- C85, for lists of paths: one path for each text, in the order of the line. -/
theorem C85_list_holds_paths (env : Env W) (g g' : Prog W) (hg : Reachable env g) (items : List Item)
    (tail : Option (List Str)) (hl : LineGiven g items tail) (hok : LineOk (decls g) items tail)
    (hnd : env.ndebug = false ∨ ListsRepresentable (decls g) items tail) (hvars : VarsDistinct (decls g))
    (h : parse env g = (.returned, g')) (d : OptDecl W) (hd : d ∈ (decls g).options)
    (hty : d.ty = pathTy) (hs : d.isList = true) (hgiven : given d items ≠ []) :
    ∃ ps : List Str, g'.store d.var = .many (ps.map pathElem) ∧ List.Forall₂ DenotesPath (given d items) ps := by
  obtain ⟨w₁, _, hm⟩ := C17_only_meaningful_lines_partial env g g' hg items tail hl hok hnd h
  have := (line_delivered hvars hm).1.value d hd hgiven
  rw [hs] at this
  obtain ⟨es, he, hall⟩ := this
  rw [hty] at hall
  obtain ⟨vs, rfl, h2⟩ := denoteAll_paths _ _ hall
  exact ⟨vs, he, h2⟩

theorem valueOf_paths {l : Bool} {ts : List Str} {v : Val} (h : ValueOf l pathTy ts v) :
    ∃ ps : List Str, v = (if l then .many (ps.map pathElem) else v) ∧ (l = false → ∃ p, v = .one (pathElem p) ∧ Nameable p) ∧
      ∀ p ∈ ps, Nameable p := by
  cases l with
  | false =>
    obtain ⟨t, e, _, he, hde⟩ := h
    obtain ⟨p, hp, rfl⟩ := (C85_accepted_exactly t e).1 hde
    exact ⟨[], rfl, fun _ => ⟨p, he, hp.1⟩, by simp⟩
  | true =>
    obtain ⟨es, he, hall⟩ := h
    obtain ⟨ps, rfl, hps⟩ := denoteAll_paths _ _ hall
    refine ⟨ps, he, by simp, ?_⟩
    clear he hall
    induction hps with
    | nil => simp
    | cons h _ ih =>
      intro p hp
      rcases List.mem_cons.1 hp with rfl | hp
      · exact h.1
      · exact ih p hp

theorem positionalValues_mem (ds : List (PosDecl W)) : ∀ (ws : List Str) (st : Store), PositionalValues ds ws st →
    ∀ d ∈ ds, ∃ ts, ValueOf d.isList d.ty ts (st d.var) := by
  induction ds with
  | nil => simp
  | cons d ds ih =>
    intro ws st h e he
    unfold PositionalValues at h
    split at h
    · rename_i hl
      obtain ⟨rfl, _, h⟩ := h
      rw [List.mem_singleton] at he
      subst he
      exact ⟨ws, by rw [hl]; exact h⟩
    · rename_i hl
      obtain ⟨t, ts, _, h1, h2⟩ := h
      rcases List.mem_cons.1 he with rfl | he
      · exact ⟨[t], by rw [eq_false_of_ne_true hl]; exact h1⟩
      · exact ih ts st h2 e he

/-- C85 is false for positional options as well: whatever the arguments are, they only ever get nameable paths. -/
theorem C85_positionals_only_nameable_paths (env : Env W) (g g' : Prog W) (hg : Reachable env g) (h : parse env g = (.returned, g'))
    (hv : VarsDistinct (decls g)) (hnd : env.ndebug = false ∨ ∀ d ∈ (decls g).positionals, d.isList = true → d.ty = pathTy)
    (d : PosDecl W) (hd : d ∈ (decls g).positionals) (hty : d.ty = pathTy) :
    (d.isList = false → ∃ p, g'.store d.var = .one (pathElem p) ∧ Nameable p) ∧
    (d.isList = true → ∃ ps : List Str, g'.store d.var = .many (ps.map pathElem) ∧ ∀ p ∈ ps, Nameable p) := by
  obtain ⟨hi, hD, w1, s, hr, hs, _⟩ := reachable_returned hg h
  obtain ⟨ph⟩ := phases env.ndebug hD _ g.store w1 s () hr
  rw [hs]
  obtain ⟨h1, _⟩ := positionals_final hv env.ndebug ph (by
    intro e he hl t _
    rcases hnd with h | h
    · exact Or.inl h
    · right
      rw [h e he hl]
      exact fun h => absurd h (by simp [OutOfRange, pathTy, pathConv_overflow]))
  obtain ⟨ts, hts⟩ := positionalValues_mem _ _ _ h1 d hd
  rw [hty] at hts
  obtain ⟨ps, h2, h3, h4⟩ := valueOf_paths hts
  refine ⟨h3, fun hl => ⟨ps, ?_, h4⟩⟩
  rw [hl] at h2
  exact h2

/-- The text stands for no path, but the conversion writes one. -/
theorem path_text_reported (env : Env W) (g : Prog W) (hg : Reachable env g) (items : List Item)
    (tail : Option (List Str)) (hl : LooseGiven g items tail) (w₁ : W) (hv : CheckPasses env g w₁)
    (huni : ∀ d ∈ (decls g).options, d.isList = true → Uniform d items)
    (front back : List (OptDecl W)) (d : OptDecl W) (hsplit : (decls g).options = front ++ d :: back) (st₁ : Store) (w₂ : W)
    (hm : OptionsMean items front g.store w₁ st₁ w₂) (hty : d.ty = pathTy) (hs : d.isList = false) (t : Str) (hgiven : given d items = [t])
    (p : Str) (hbad : pathConv t = .fail (some (pathElem p))) :
    ∃ g', parse env g = (.threw .userInputError, g') ∧ g'.store = st₁.set d.var (.one (pathElem p)) := by
  have h0 : lift (W := W) (assignScalar env.ndebug d.ty d.var t) (st₁, w₂) = .err .userInputError (st₁.set d.var (.one (pathElem p)), w₂) := by
    rw [hty]
    unfold lift assignScalar
    simp only [pathTy, parseElem, parseForeign, hbad]
    rfl
  have h1 : absOption env.ndebug d [t] [] (st₁, w₂) = .err .userInputError (st₁.set d.var (.one (pathElem p)), w₂) := by
    unfold absOption absById absScalar
    simp [hs, M.bind_run, h0]
  rw [← hgiven, ← absOption_single _ _ _ (by rw [hgiven]; simp)] at h1
  obtain ⟨g', h, h4, _⟩ := parse_option_error env g hg items tail hl w₁ hv huni front back d hsplit st₁ w₂ hm _ _ h1
  exact ⟨g', h, h4⟩

/-- C85 is false for names with blanks: `--in "my file.txt"` ends with `user_input_error`, and the variable holds the first part of the name (the
options registered before are fine). -/
theorem C85_name_with_blank_rejected (env : Env W) (g : Prog W) (hg : Reachable env g) (items : List Item)
    (tail : Option (List Str)) (hl : LooseGiven g items tail) (w₁ : W) (hv : CheckPasses env g w₁)
    (huni : ∀ d ∈ (decls g).options, d.isList = true → Uniform d items)
    (front back : List (OptDecl W)) (d : OptDecl W) (hsplit : (decls g).options = front ++ d :: back) (st₁ : Store) (w₂ : W)
    (hm : OptionsMean items front g.store w₁ st₁ w₂) (hty : d.ty = pathTy) (hs : d.isList = false)
    (p rest : Str) (c : Char) (hp : Nameable p) (hc : c ∈ whiteSpace) (hgiven : given d items = [p ++ c :: rest]) :
    ∃ g', parse env g = (.threw .userInputError, g') ∧ g'.store = st₁.set d.var (.one (pathElem p)) :=
  path_text_reported env g hg items tail hl w₁ hv huni front back d hsplit st₁ w₂ hm hty hs _ hgiven p
    (pathConv_broken [] p rest c hp (by simp) hc)

/-- C85: quoting does not help. A path between quotation marks ends with `user_input_error` too, although it has been read and written to the
variable. -/
theorem C85_quoted_name_rejected (env : Env W) (g : Prog W) (hg : Reachable env g) (items : List Item)
    (tail : Option (List Str)) (hl : LooseGiven g items tail) (w₁ : W) (hv : CheckPasses env g w₁)
    (huni : ∀ d ∈ (decls g).options, d.isList = true → Uniform d items)
    (front back : List (OptDecl W)) (d : OptDecl W) (hsplit : (decls g).options = front ++ d :: back) (st₁ : Store) (w₂ : W)
    (hm : OptionsMean items front g.store w₁ st₁ w₂) (hty : d.ty = pathTy) (hs : d.isList = false)
    (text p : Str) (hq : Quotes text p) (hgiven : given d items = [text]) :
    ∃ g', parse env g = (.threw .userInputError, g') ∧ g'.store = st₁.set d.var (.one (pathElem p)) :=
  path_text_reported env g hg items tail hl w₁ hv huni front back d hsplit st₁ w₂ hm hty hs _ hgiven p (pathConv_quoted text p hq)

/-! ### Default values -/

theorem showPath_quotes (p : Str) : Quotes (showPath (pathCode p)) p := by
  unfold Quotes showPath quoted
  rw [pathText_code]
  rfl

/-- C85: the help page shows the default value of a path option between quotation marks. The shown text is never accepted as a value; the path
itself is accepted if and only if it has no blanks, is not empty, and does not begin with a quotation mark. -/
theorem C85_default_on_the_page (te : TypeEnv) (hte : te.showOther pathTy = showPath) (p : Str) (text : Str) :
    (ShowsDefault te pathTy (.one (pathElem p)) text ↔ Quotes text p) ∧
    (Quotes text p → ∀ e, ¬ Denotes pathTy text e) ∧
    (Denotes pathTy p (pathElem p) ↔ Nameable p) := by
  refine ⟨?_, ?_, ?_⟩
  · have e : toStringElem te pathTy (pathElem p) = showPath (pathCode p) := by
      unfold toStringElem pathElem
      rw [← hte]
      cases te.kind pathTy <;> rfl
    have hq := showPath_quotes p
    constructor
    · intro h
      have h1 : " Default: ".toList ++ toStringElem te pathTy (pathElem p) = " Default: ".toList ++ text := h
      rw [e] at h1
      rw [← List.append_cancel_left h1]
      exact hq
    · intro h
      have : text = showPath (pathCode p) := by rw [h, hq]
      subst this
      show " Default: ".toList ++ toStringElem te pathTy (pathElem p) = _
      rw [e]
  · intro h e hd
    have hd : pathConv text = .ok e := hd
    rw [pathConv_quoted text p h] at hd
    cases hd
  · constructor
    · intro h
      by_cases hn : Nameable p
      · exact hn
      · exact absurd h (C85_other_names_cannot_be_given p hn p)
    · intro h
      exact (C85_verbatim_partial p h _).2 rfl

/-! ### Examples -/

example : Nameable "/data/reads.fasta".toList ∧ ¬ Nameable "my file.txt".toList ∧ ¬ Nameable "\"quoted\"".toList ∧ ¬ Nameable [] := by decide +kernel

/-- A program with a path option, and one with a list of paths. -/
def exPathCalls (isList : Bool) : List (Call Unit) :=
  [.addOption { short := 'f', long := "file".toList } 0 isList pathTy fun _ w => (true, w)]

def exPathDecl (isList : Bool) : OptDecl Unit := ⟨'f', "file".toList, 0, isList, pathTy, false, fun _ w => (true, w)⟩

def exPathRun : Prog Unit := exRun (exPathCalls false) (["--file", "/data/a.txt"].map String.toList)

theorem exPath_mem : exPathDecl false ∈ (decls exPathRun).options := by
  rw [show decls exPathRun = declsOf ((exPathCalls false).filterMap Call.entry?) from exRun_decls _ _ (by decide +kernel)]
  exact .head _

theorem exPath_returned : parse exEnv exPathRun = (.returned, (parse exEnv exPathRun).2) := returned_pair (by decide +kernel)

example : ∃ p, DenotesPath "/data/a.txt".toList p ∧ (parse exEnv exPathRun).2.store (exPathDecl false).var = .one (pathElem p) :=
  C85_option_holds_path exEnv exPathRun (parse exEnv exPathRun).2 (exRun_reachable _ _) [.long "file".toList true "/data/a.txt".toList] none
    (by decide +kernel) (by decide +kernel) (Or.inl rfl) (by decide +kernel) exPath_returned (exPathDecl false) exPath_mem rfl rfl
    (.long "file".toList true "/data/a.txt".toList) (.head _) "/data/a.txt".toList (by decide)

example : ∃ p, (parse exEnv exPathRun).2.store (exPathDecl false).var = .one (pathElem p) ∧ Nameable p :=
  (C85_only_nameable_paths exEnv exPathRun (parse exEnv exPathRun).2 (exRun_reachable _ _) exPath_returned (by decide +kernel) (exPathDecl false)
    exPath_mem rfl ⟨"--file".toList, by decide +kernel, by decide +kernel⟩).1 rfl

def exPathListRun : Prog Unit := exRun (exPathCalls true) (["-f", "a.txt", "-f", " b.txt"].map String.toList)

theorem exPathList_mem : exPathDecl true ∈ (decls exPathListRun).options := by
  rw [show decls exPathListRun = declsOf ((exPathCalls true).filterMap Call.entry?) from exRun_decls _ _ (by decide +kernel)]
  exact .head _

theorem exPathList_returned : parse exEnv exPathListRun = (.returned, (parse exEnv exPathListRun).2) := returned_pair (by decide +kernel)

example : ∃ ps : List Str, (parse exEnv exPathListRun).2.store (exPathDecl true).var = .many (ps.map pathElem) ∧
    List.Forall₂ DenotesPath ["a.txt".toList, " b.txt".toList] ps :=
  C85_list_holds_paths exEnv exPathListRun (parse exEnv exPathListRun).2 (exRun_reachable _ _)
    [.short 'f' .separate "a.txt".toList, .short 'f' .separate " b.txt".toList] none
    (by decide +kernel) (by decide +kernel) (Or.inl rfl) (by decide +kernel) exPathList_returned (exPathDecl true) exPathList_mem rfl rfl (by decide)

/-- The blank in front of the second name is lost. -/
example : (parse exEnv exPathListRun).2.store 0 = .many [pathElem "a.txt".toList, pathElem "b.txt".toList] := by decide +kernel

/-- `--file "my file.txt"`. -/
def exBlankItems : List Item := [.long "file".toList true "my file.txt".toList]

def exBlankRun : Prog Unit := exRun (exPathCalls false) (renderLine exBlankItems none)

theorem exBlank_decls : decls exBlankRun = declsOf ((exPathCalls false).filterMap Call.entry?) := exRun_decls _ _ (by decide +kernel)

example : ∃ g', parse exEnv exBlankRun = (.threw .userInputError, g') ∧ g'.store = exBlankRun.store.set 0 (.one (pathElem "my".toList)) :=
  C85_name_with_blank_rejected exEnv exBlankRun (exRun_reachable _ _) exBlankItems none (by decide +kernel) () rfl
    (by decide +kernel) [] [] (exPathDecl false) (by rw [exBlank_decls]; rfl) _ _ ⟨rfl, rfl⟩ rfl rfl "my".toList "file.txt".toList ' ' (by decide +kernel)
    (by decide) (by decide)

/-- With quotation marks that reach the program. -/
def exQuotedItems : List Item := [.long "file".toList true "\"my file.txt\"".toList]

def exQuotedRun : Prog Unit := exRun (exPathCalls false) (renderLine exQuotedItems none)

theorem exQuoted_decls : decls exQuotedRun = declsOf ((exPathCalls false).filterMap Call.entry?) := exRun_decls _ _ (by decide +kernel)

example : ∃ g', parse exEnv exQuotedRun = (.threw .userInputError, g') ∧
    g'.store = exQuotedRun.store.set 0 (.one (pathElem "my file.txt".toList)) :=
  C85_quoted_name_rejected exEnv exQuotedRun (exRun_reachable _ _) exQuotedItems none (by decide +kernel) () rfl
    (by decide +kernel) [] [] (exPathDecl false) (by rw [exQuoted_decls]; rfl) _ _ ⟨rfl, rfl⟩ rfl rfl "\"my file.txt\"".toList "my file.txt".toList
    (by unfold Quotes; decide +kernel) (by decide)

/-- A parser that shows paths as the stream does. -/
def exPathTypes : TypeEnv := { exTypes with showOther := fun _ => showPath }

example : ShowsDefault exPathTypes pathTy (.one (pathElem "a \"b\"".toList)) "\"a \\\"b\\\"\"".toList :=
  ((C85_default_on_the_page exPathTypes rfl "a \"b\"".toList _).1).2 (by unfold Quotes; decide +kernel)

/-- A positional path option. -/
def exPathPosCalls : List (Call Unit) := [.addPositionalOption { } 0 false pathTy fun _ w => (true, w)]

def exPathPosDecl : PosDecl Unit := ⟨0, false, pathTy, fun _ w => (true, w)⟩

def exPathPosRun : Prog Unit := exRun exPathPosCalls ["a.txt".toList]

theorem exPathPos_mem : exPathPosDecl ∈ (decls exPathPosRun).positionals := by
  rw [show decls exPathPosRun = declsOf (exPathPosCalls.filterMap Call.entry?) from exRun_decls _ _ (by decide +kernel)]
  exact .head _

theorem exPathPos_returned : parse exEnv exPathPosRun = (.returned, (parse exEnv exPathPosRun).2) := returned_pair (by decide +kernel)

example : ∃ p, (parse exEnv exPathPosRun).2.store exPathPosDecl.var = .one (pathElem p) ∧ Nameable p :=
  (C85_positionals_only_nameable_paths exEnv exPathPosRun (parse exEnv exPathPosRun).2 (exRun_reachable _ _) exPathPos_returned (by decide +kernel)
    (Or.inl rfl) exPathPosDecl exPathPos_mem rfl).1 rfl

end Sharg
