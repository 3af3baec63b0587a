import Verif.Lemmas.Line
import Verif.Spec.Line
import Verif.Lemmas.ParseRun

/-!
# From `parse()` to `format_parse`

Identifiers registered by calls satisfy what the grammar asks for, and a line without requests arrives unchanged.
-/

set_option linter.unusedSimpArgs false

namespace Sharg

open Spec

variable {W : Type}

/-! ### Identifiers -/

theorem declsOf_option (cfg : Config) (x : VarId) (l : Bool) (ty : ElemTy) (v : Val → W → Bool × W)
    (ops : List (Entry W)) : (declsOf (.option cfg x l ty v :: ops)).options =
      { short := cfg.short, long := cfg.long, var := x, isList := l, ty := ty, required := cfg.required,
        validator := v } :: (declsOf ops).options ∧
    (declsOf (.option cfg x l ty v :: ops)).flags = (declsOf ops).flags := ⟨rfl, rfl⟩

theorem declsOf_flag (cfg : Config) (x : VarId) (ops : List (Entry W)) :
    (declsOf (.flag cfg x :: ops)).options = (declsOf ops).options ∧
    (declsOf (.flag cfg x :: ops)).flags = { short := cfg.short, long := cfg.long, var := x } :: (declsOf ops).flags :=
  ⟨rfl, rfl⟩

theorem ids_perm (ops : List (Entry W)) :
    (((declsOf ops).options.map (·.short) ++ (declsOf ops).flags.map (·.short)).Perm
      ((ops.filterMap Entry.idConfig?).map (·.short))) ∧
    (((declsOf ops).options.map (·.long) ++ (declsOf ops).flags.map (·.long)).Perm
      ((ops.filterMap Entry.idConfig?).map (·.long))) := by
  induction ops with
  | nil => exact ⟨.refl _, .refl _⟩
  | cons e ops ih =>
    cases e with
    | option cfg x l ty v =>
      rw [(declsOf_option cfg x l ty v ops).1, (declsOf_option cfg x l ty v ops).2]
      simp only [List.filterMap_cons, Entry.idConfig?, List.map_cons, List.cons_append]
      exact ⟨ih.1.cons _, ih.2.cons _⟩
    | flag cfg x =>
      rw [(declsOf_flag cfg x ops).1, (declsOf_flag cfg x ops).2]
      simp only [List.filterMap_cons, Entry.idConfig?, List.map_cons]
      exact ⟨List.perm_middle.trans (ih.1.cons _), List.perm_middle.trans (ih.2.cons _)⟩
    | _ => exact ih

theorem short_sublist (cfgs : List Config) :
    List.Sublist (((cfgs.map (·.short)).filter (· ≠ '\x00')).map fun c => [c]) (cfgs.flatMap idsOf) := by
  induction cfgs with
  | nil => simp
  | cons cfg cfgs ih =>
    by_cases h : cfg.short = '\x00'
    · simp only [List.map_cons, List.flatMap_cons, h, ne_eq, not_true_eq_false, decide_false, Bool.false_eq_true,
        not_false_eq_true, List.filter_cons_of_neg]
      exact ih.trans (List.sublist_append_right _ _)
    · simp only [List.map_cons, List.flatMap_cons]
      rw [List.filter_cons_of_pos (by simpa using h)]
      have : idsOf cfg = [cfg.short] :: (if cfg.long = [] then [] else [cfg.long]) := by
        unfold idsOf; simp [h]
      rw [this]
      simp only [List.map_cons, List.cons_append]
      exact (ih.trans (List.sublist_append_right _ _)).cons_cons _

theorem long_sublist (cfgs : List Config) :
    List.Sublist ((cfgs.map (·.long)).filter (· ≠ [])) (cfgs.flatMap idsOf) := by
  induction cfgs with
  | nil => simp
  | cons cfg cfgs ih =>
    by_cases h : cfg.long = []
    · simp only [List.map_cons, List.flatMap_cons, h, ne_eq, not_true_eq_false, decide_false, Bool.false_eq_true,
        not_false_eq_true, List.filter_cons_of_neg]
      exact ih.trans (List.sublist_append_right _ _)
    · simp only [List.map_cons, List.flatMap_cons]
      rw [List.filter_cons_of_pos (by simpa using h)]
      have : idsOf cfg = (if cfg.short = '\x00' then [] else [[cfg.short]]) ++ [cfg.long] := by
        unfold idsOf; simp [h]
      rw [this, List.append_assoc]
      exact (((ih).cons_cons _)).trans (List.sublist_append_right _ _)

theorem isIdChar_of_short {c : Char} (h : IsShortChar c) : IsIdChar c ∧ c ≠ '-' := by
  refine ⟨?_, shortChar_ne_dash h⟩
  unfold IsIdChar
  unfold IsShortChar at h
  simp only [Char.le_def] at *
  grind

/-- What C01 gives. -/
theorem idsOk_of_inv {p : Parser W} (h : Inv p) : IdsOk (declsOf p.operations) where
  shortNodup := by
    have h1 := (short_sublist (p.operations.filterMap Entry.idConfig?)).nodup h.nodup
    have h2 := (List.pairwise_map.1 h1).imp (S := (· ≠ ·)) (fun h e => h (by rw [e]))
    exact ((ids_perm p.operations).1.filter _).nodup_iff.2 h2
  longNodup := by
    have h1 := (long_sublist (p.operations.filterMap Entry.idConfig?)).nodup h.nodup
    exact ((ids_perm p.operations).2.filter _).nodup_iff.2 h1
  shortChars := by
    intro c hc
    have := ((ids_perm p.operations).1.filter _).mem_iff.1 hc
    simp only [List.mem_filter, List.mem_map, decide_eq_true_eq] at this
    obtain ⟨⟨cfg, h1, rfl⟩, h2⟩ := this
    exact isIdChar_of_short ((h.cfgs cfg (by simpa using h1)).2.1 h2)
  longChars := by
    intro c hc
    have := ((ids_perm p.operations).2.filter _).mem_iff.1 hc
    simp only [List.mem_filter, List.mem_map, decide_eq_true_eq] at this
    obtain ⟨⟨cfg, h1, rfl⟩, h2⟩ := this
    intro c' hc'
    rcases ((h.cfgs cfg (by simpa using h1)).2.2 h2).2.1 c' hc' with h3 | rfl
    · exact (isIdChar_of_short h3).1
    · simp [IsIdChar]

/-! ### Reading a line without requests -/

/-- The arguments contain no request and reach the option parser unchanged. -/
def Unrequested (options args : List Str) : Prop :=
  ∃ toks stop, Reading options [] args toks stop ∧ lastRequest toks = none ∧ lastCheck toks = none ∧
    kept toks ++ stop.kept = args ∧ stop.exn? = none ∧ stop.sub? = none

theorem Unrequested.nil (options : List Str) : Unrequested options [] :=
  ⟨[], .atEnd, ⟨rfl, by simp, trivial⟩, rfl, rfl, rfl, rfl, rfl⟩

theorem Unrequested.option {options rest : List Str} {o : Str} (v : Str) (ho : o ∈ options)
    (h : Unrequested options rest) : Unrequested options (o :: v :: rest) := by
  obtain ⟨toks, stop, ⟨h1, h2, h3⟩, h4, h5, h6, h7, h8⟩ := h
  refine ⟨.option o v :: toks, stop, ⟨?_, ?_, h3⟩, ?_, ?_, ?_, h7, h8⟩
  · rw [h1]; rfl
  · intro t ht
    rcases List.mem_cons.1 ht with rfl | ht
    · exact ho
    · exact h2 t ht
  · simpa [lastRequest, Tok.request?] using h4
  · simpa [lastCheck, Tok.check?] using h5
  · rw [← h6]; rfl

theorem Unrequested.plain {options rest : List Str} {a : Str} (ha : a ∉ options) (hr : ¬ Reserved a)
    (h : Unrequested options rest) : Unrequested options (a :: rest) := by
  obtain ⟨toks, stop, ⟨h1, h2, h3⟩, h4, h5, h6, h7, h8⟩ := h
  refine ⟨.plain a :: toks, stop, ⟨?_, ?_, h3⟩, ?_, ?_, ?_, h7, h8⟩
  · rw [h1]; rfl
  · intro t ht
    rcases List.mem_cons.1 ht with rfl | ht
    · exact ⟨ha, by simp, hr, by simp⟩
    · exact h2 t ht
  · simpa [lastRequest, Tok.request?] using h4
  · simpa [lastCheck, Tok.check?] using h5
  · rw [← h6]; rfl

theorem Unrequested.of_not_reserved (options : List Str) :
    ∀ (n : Nat) (args : List Str), args.length ≤ n → (∀ a ∈ args, ¬ Reserved a) → Unrequested options args := by
  intro n
  induction n with
  | zero =>
    intro args hn _
    have : args = [] := by simpa using hn
    subst this; exact .nil _
  | succ n ih =>
    intro args hn h
    cases args with
    | nil => exact .nil _
    | cons a rest =>
      by_cases ha : a ∈ options
      · cases rest with
        | nil => exact ⟨[], .lastOption a, ⟨rfl, by simp, ha⟩, rfl, rfl, rfl, rfl, rfl⟩
        | cons v rest =>
          exact .option v ha (ih rest (by simp at hn; omega) (fun b hb => h b (by simp [hb])))
      · exact .plain ha (h a (by simp)) (ih rest (by simpa using hn) (fun b hb => h b (by simp [hb])))

theorem reserved_head {a : Str} (h : Reserved a) : a.head? = some '-' := by
  rcases h with h | ⟨v, rfl⟩
  · simp only [List.mem_cons, List.not_mem_nil, or_false] at h
    rcases h with rfl | rfl | rfl | rfl | rfl | rfl | rfl | rfl <;> rfl
  · rfl

theorem reserved_short {c : Char} {t : Str} (hc : c ≠ '-') (h : Reserved ('-' :: c :: t)) : c = 'h' := by
  rcases h with h | ⟨v, h⟩
  · simp only [List.mem_cons, List.not_mem_nil, or_false] at h
    rcases h with h | h | h | h | h | h | h | h <;> injection h with _ h <;> injection h with h _ <;>
      first | exact h | exact absurd h hc
  · injection h with _ h; injection h with h _; exact absurd h hc

theorem exportEq_split : "--export-help=".toList = '-' :: '-' :: ("export-help".toList ++ ['=']) := by decide

/-- Long requests. -/
theorem reserved_long {s : Str} (hs : '=' ∉ s) (h : Reserved ('-' :: '-' :: s)) :
    s ∈ ["help".toList, "advanced-help".toList, "version".toList, "copyright".toList, "export-help".toList,
      "version-check".toList] := by
  rcases h with h | ⟨v, h⟩
  · simp only [List.mem_cons, List.not_mem_nil, or_false] at h ⊢
    rcases h with h | h | h | h | h | h | h | h <;> injection h with _ h <;> injection h with h1 h <;>
      first | exact absurd h1 (by decide) | (subst h; decide)
  · rw [exportEq_split] at h
    simp only [List.cons_append, List.cons.injEq, true_and] at h
    exfalso; apply hs; rw [h]; simp

theorem reserved_long_eq {s v : Str} (hs : '=' ∉ s) (h : Reserved ('-' :: '-' :: (s ++ '=' :: v))) :
    s = "export-help".toList := by
  rcases h with h | ⟨v', h⟩
  · exfalso
    have : '=' ∈ ('-' :: '-' :: (s ++ '=' :: v)) := by simp
    simp only [List.mem_cons, List.not_mem_nil, or_false] at h
    rcases h with h | h | h | h | h | h | h | h <;> rw [h] at this <;> revert this <;> decide
  · rw [exportEq_split] at h
    simp only [List.cons_append, List.cons.injEq, true_and, List.append_assoc, List.nil_append] at h
    exact eq_of_append_eq hs (by decide) (u := v) (v := v') h

theorem opt_shape {p : Parser W} (h : Inv p) {o : Str} (ho : o ∈ p.options) :
    (∃ c, o = ['-', c] ∧ IsShortChar c) ∨ (∃ s, o = '-' :: '-' :: s ∧ IsLongId s) := by
  obtain ⟨s, hs, rfl, _⟩ := h.opts o ho
  rcases h.wf s hs with ⟨c, rfl, hc⟩ | hl
  · exact Or.inl ⟨c, rfl, hc⟩
  · exact Or.inr ⟨s, dash_long hl, hl⟩

theorem longId_no_eq {s : Str} (h : IsLongId s) : '=' ∉ s := by
  intro he
  rcases h.2.1 _ he with h' | h'
  · revert h'; decide
  · revert h'; decide

theorem mem_options {p : Parser W} {d : OptDecl W} (hd : d ∈ (declsOf p.operations).options) :
    ∃ cfg x l ty v, Entry.option cfg x l ty v ∈ p.operations ∧ d = { short := cfg.short, long := cfg.long, var := x, isList := l, ty := ty, required := cfg.required, validator := v } := by
  simp only [declsOf, List.mem_filterMap] at hd
  obtain ⟨e, he, h⟩ := hd
  cases e <;> simp at h
  exact ⟨_, _, _, _, _, he, h.symm⟩

theorem mem_flags {p : Parser W} {f : FlagDecl} (hd : f ∈ (declsOf p.operations).flags) :
    ∃ cfg x, Entry.flag cfg x ∈ p.operations ∧ f = { short := cfg.short, long := cfg.long, var := x } := by
  simp only [declsOf, List.mem_filterMap] at hd
  obtain ⟨e, he, h⟩ := hd
  cases e <;> simp at h
  exact ⟨_, _, he, h.symm⟩

theorem entry_ids {p : Parser W} {e : Entry W} (he : e ∈ p.operations) {cfg : Config} (hc : e.idConfig? = some cfg)
    {s : Str} (hs : s ∈ idsOf cfg) : s ∈ entryIds p.operations := by
  unfold entryIds
  rw [List.mem_flatMap]
  exact ⟨cfg, List.mem_filterMap.2 ⟨e, he, hc⟩, hs⟩

theorem option_short {p : Parser W} (h : Inv p) {d : OptDecl W} (hd : d ∈ (declsOf p.operations).options)
    (hs : d.short ≠ '\x00') : ['-', d.short] ∈ p.options ∧ [d.short] ∉ predefined := by
  obtain ⟨cfg, x, l, ty, v, he, rfl⟩ := mem_options hd
  have hm : [cfg.short] ∈ idsOf cfg := (mem_idsOf _ _).2 (Or.inl ⟨hs, rfl⟩)
  exact ⟨h.optsAll _ _ _ _ _ he _ hm, (h.used _ (entry_ids he rfl hm)).2⟩

theorem option_long {p : Parser W} (h : Inv p) {d : OptDecl W} (hd : d ∈ (declsOf p.operations).options)
    (hs : d.long ≠ []) : '-' :: '-' :: d.long ∈ p.options ∧ d.long ∉ predefined ∧ IsLongId d.long := by
  obtain ⟨cfg, x, l, ty, v, he, rfl⟩ := mem_options hd
  have hm : cfg.long ∈ idsOf cfg := (mem_idsOf _ _).2 (Or.inr ⟨hs, rfl⟩)
  have hl : IsLongId cfg.long := (h.cfgs cfg (List.mem_filterMap.2 ⟨_, he, rfl⟩)).2.2 hs
  have := h.optsAll _ _ _ _ _ he _ hm
  rw [dash_long hl] at this
  exact ⟨this, (h.used _ (entry_ids he rfl hm)).2, hl⟩

theorem flag_short {p : Parser W} (h : Inv p) {f : FlagDecl} (hf : f ∈ (declsOf p.operations).flags)
    (hs : f.short ≠ '\x00') : ['-', f.short] ∉ p.options ∧ [f.short] ∉ predefined := by
  obtain ⟨cfg, x, he, rfl⟩ := mem_flags hf
  have hm : [cfg.short] ∈ idsOf cfg := (mem_idsOf _ _).2 (Or.inl ⟨hs, rfl⟩)
  exact ⟨h.flagsNot _ _ he _ hm, (h.used _ (entry_ids he rfl hm)).2⟩

theorem flag_long {p : Parser W} (h : Inv p) {f : FlagDecl} (hf : f ∈ (declsOf p.operations).flags)
    (hs : f.long ≠ []) : '-' :: '-' :: f.long ∉ p.options ∧ f.long ∉ predefined ∧ IsLongId f.long := by
  obtain ⟨cfg, x, he, rfl⟩ := mem_flags hf
  have hm : cfg.long ∈ idsOf cfg := (mem_idsOf _ _).2 (Or.inr ⟨hs, rfl⟩)
  have hl : IsLongId cfg.long := (h.cfgs cfg (List.mem_filterMap.2 ⟨_, he, rfl⟩)).2.2 hs
  have := h.flagsNot _ _ he _ hm
  rw [dash_long hl] at this
  exact ⟨this, (h.used _ (entry_ids he rfl hm)).2, hl⟩

theorem unrequested_item {p : Parser W} (h : Inv p) {it : Item} (hit : it.Ok (declsOf p.operations))
    (hv : it ≠ .longFlag "version-check".toList) {rest : List Str} (hr : Unrequested p.options rest) :
    Unrequested p.options (it.render ++ rest) := by
  have hlong : ∀ {c : Char} {t : Str}, c ≠ '-' → t ≠ [] → '-' :: c :: t ∉ p.options := by
    intro c t hc ht ho
    rcases opt_shape h ho with ⟨c', h1, _⟩ | ⟨s, h1, _⟩
    · simp at h1; exact ht h1.2
    · simp at h1; exact hc h1.1
  have hpre : "h".toList ∈ predefined := by decide
  cases it with
  | short c form v =>
    obtain ⟨hc, ⟨d, hd, rfl⟩, hform⟩ := hit
    obtain ⟨ho, hp⟩ := option_short h hd hc
    have hcd : d.short ≠ '-' := ((idsOk_of_inv h).shortChars _ (mem_shortIds_option hd hc)).2
    have hch : d.short ≠ 'h' := fun e => hp (by rw [e]; exact hpre)
    cases form with
    | attached => exact .plain (hlong hcd hform.1) (fun hres => hch (reserved_short hcd hres)) hr
    | equals => exact .plain (hlong hcd (by simp)) (fun hres => hch (reserved_short hcd hres)) hr
    | separate => exact .option v ho hr
  | long s sep v =>
    obtain ⟨hs, ⟨d, hd, rfl⟩, hsep⟩ := hit
    obtain ⟨ho, hp, hl⟩ := option_long h hd hs
    cases sep with
    | true => exact .option v ho hr
    | false =>
      refine .plain ?_ (fun hres => hp ?_) hr
      · intro ho
        rcases opt_shape h ho with ⟨c', h1, _⟩ | ⟨s, h1, h2⟩
        · simp at h1
        · simp at h1
          exact longId_no_eq h2 (by rw [← h1]; simp)
      · rw [reserved_long_eq (longId_no_eq hl) hres]; decide
  | flags cs =>
    obtain ⟨hne, hcs⟩ := hit
    cases cs with
    | nil => exact absurd rfl hne
    | cons c t =>
      obtain ⟨hc, f, hf, rfl⟩ := hcs c (by simp)
      obtain ⟨ho, hp⟩ := flag_short h hf hc
      have hcd : f.short ≠ '-' := ((idsOk_of_inv h).shortChars _ (mem_shortIds_flag hf hc)).2
      have hch : f.short ≠ 'h' := fun e => hp (by rw [e]; exact hpre)
      refine .plain ?_ (fun hres => hch (reserved_short hcd hres)) hr
      cases t with
      | nil => exact ho
      | cons c' t => exact hlong hcd (by simp)
  | longFlag s =>
    obtain ⟨hs, f, hf, rfl⟩ := hit
    obtain ⟨ho, hp, hl⟩ := flag_long h hf hs
    refine .plain ho (fun hres => ?_) hr
    have := reserved_long (longId_no_eq hl) hres
    simp only [List.mem_cons, List.not_mem_nil, or_false] at this
    rcases this with e | e | e | e | e | e <;> first | (exact hp (by rw [e]; decide)) | exact hv (by rw [e])
  | word w =>
    obtain ⟨hw, hh⟩ := hit
    have hno : w ∉ p.options := by
      intro ho
      rcases opt_shape h ho with ⟨c', h1, _⟩ | ⟨s, h1, h2⟩ <;> rw [h1] at hh <;> simp at hh
    refine .plain hno (fun hres => ?_) hr
    rcases hh with rfl | hh
    · rcases hres with h' | ⟨v, h'⟩
      · revert h'; decide
      · simp at h'
    · exact hh (reserved_head hres)

theorem unrequested_line {p : Parser W} (h : Inv p) (items : List Item)
    (hit : ∀ it ∈ items, it.Ok (declsOf p.operations)) (tail : Option (List Str)) (hn : NotRequest items tail) :
    Unrequested p.options (renderLine items tail) := by
  obtain ⟨hn1, hn2⟩ := hn
  unfold renderLine
  induction items with
  | nil =>
    cases tail with
    | none => exact .nil _
    | some ws =>
      refine Unrequested.of_not_reserved _ _ _ (Nat.le_refl _) ?_
      intro a ha
      simp only [List.flatMap_nil, List.nil_append, List.mem_cons] at ha
      rcases ha with rfl | ha
      · intro hres
        have := reserved_long (s := []) (by simp) hres
        revert this; decide
      · exact hn2 ws rfl a ha
  | cons it items ih =>
    rw [List.flatMap_cons, List.append_assoc]
    exact unrequested_item h (hit it (by simp)) (fun e => hn1 (e ▸ List.mem_cons_self))
      (ih (fun i hi => hit i (by simp [hi])) (fun hm => hn1 (List.mem_cons_of_mem _ hm)))

/-- The same for lines with arbitrary further arguments that are neither reserved nor registered as options. -/
theorem unrequested_loose {p : Parser W} (h : Inv p) (items : List Item)
    (hit : ∀ it ∈ items, it.Loose (declsOf p.operations)) (hplain : ∀ it ∈ items, it.isOption = false → ∀ a ∈ it.render,
      ¬ Reserved a ∧ a ∉ p.options) (tail : Option (List Str))
    (htail : ∀ ws, tail = some ws → ∀ w ∈ ws, ¬ Reserved w) :
    Unrequested p.options (renderLine items tail) := by
  unfold renderLine
  induction items with
  | nil =>
    cases tail with
    | none => exact .nil _
    | some ws =>
      refine Unrequested.of_not_reserved _ _ _ (Nat.le_refl _) ?_
      intro a ha
      simp only [List.flatMap_nil, List.nil_append, List.mem_cons] at ha
      rcases ha with rfl | ha
      · intro hres
        have := reserved_long (s := []) (by simp) hres
        revert this; decide
      · exact htail ws rfl a ha
  | cons it items ih =>
    rw [List.flatMap_cons, List.append_assoc]
    have ih := ih (fun i hi => hit i (by simp [hi])) (fun i hi => hplain i (by simp [hi]))
    have h1 := hit it (by simp)
    have h2 := hplain it (by simp)
    cases it with
    | short c form v => exact unrequested_item h (it := .short c form v) h1 (by simp) ih
    | long s sep v => exact unrequested_item h (it := .long s sep v) h1 (by simp) ih
    | flags cs =>
      have h2 := h2 rfl ('-' :: cs) (by simp [Item.render])
      exact .plain h2.2 h2.1 ih
    | longFlag s =>
      have h2 := h2 rfl ('-' :: '-' :: s) (by simp [Item.render])
      exact .plain h2.2 h2.1 ih
    | word w =>
      have h2 := h2 rfl w (by simp [Item.render])
      exact .plain h2.2 h2.1 ih

/-- The parser behind scanning a line without requests. -/
def plainScanned (p : Parser W) (exe : Str) (args : List Str) : Parser W :=
  { p with
    parseWasCalled := true
    executableName := p.executableName ++ [exe]
    formatArguments := args
    userDecision := none
    subParser := none }

/-- `parse()` on a line without requests is the version check followed by `format_parse`. -/
theorem parse_unrequested (env : Env W) (g : Prog W) (hp : Ready g.parser) (exe : Str) (args : List Str)
    (ha : g.parser.arguments = exe :: args) (hs : g.parser.subcommands = []) (hne : args ≠ [])
    (hu : Unrequested g.parser.options args) :
    parse env g =
      match env.versionCheck g.parser.appName g.parser.notify none g.world with
      | (some e, w) => (.threw e, { parser := plainScanned g.parser exe args, store := g.store, world := w })
      | (none, w) =>
        match formatParse env.ndebug (declsOf g.parser.operations) args g.store w with
        | .ok _ s => (.returned, { parser := plainScanned g.parser exe args, store := s.store, world := s.world })
        | .err e s => (.threw e, { parser := plainScanned g.parser exe args, store := s.store, world := s.world }) := by
  obtain ⟨toks, stop, hr, h1, h2, h3, h4, h5⟩ := hu
  rw [← hs] at hr
  rw [parse_reading env g hp exe args ha toks stop hr, h4]
  have hd : decided toks stop = .parse := by
    unfold decided; rw [h1, h3]; simp [hne]
  have hsp : scannedParser g.parser exe toks stop = plainScanned g.parser exe args := by
    unfold scannedParser plainScanned; rw [h2, h3, h5]; rfl
  dsimp only
  rw [hd, hsp]
  unfold checkAndParse
  dsimp only [plainScanned]
  cases env.versionCheck g.parser.appName g.parser.notify none g.world with
  | mk o w =>
    cases o with
    | some e => rfl
    | none =>
      unfold parseFormat
      dsimp only
      cases formatParse env.ndebug (declsOf g.parser.operations) args g.store w <;> rfl

end Sharg
