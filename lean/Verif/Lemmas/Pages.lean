import Verif.Lemmas.Wrap
import Verif.Lemmas.AccountFlags
import Verif.Spec.Pages

/-!
# Lemmas about pages

`TextClass` collects what a property of texts needs so that it holds for every text the pages print as soon as it holds
for the supplied texts.
-/

namespace Sharg

open Spec

/-- `P` is kept by everything the pages do with texts; `Q` suffices for a text in quotes. -/
structure TextClass (P Q : Str → Prop) (bold : Str → Str) : Prop where
  nil : P []
  append : ∀ {a b}, P a → P b → P (a ++ b)
  char : ∀ {c : Char}, c.toNat < 128 → c ∉ ['\\', '<', '>'] → P [c]
  fonts : ∀ {c s}, c ∈ ['B', 'I'] → P s → P (['\\', 'f', c] ++ s ++ ['\\', 'f', 'P'])
  quoted : ∀ {s}, Q s → P (quoted s)
  bold : ∀ {s}, P s → P (bold s)

/-- The texts of a print call. -/
def Block.texts : Block → List Str
  | .sec t => [t]
  | .subsec t => [t]
  | .line t _ => [t]
  | .item k d => [k, d]

namespace TextClass

set_option linter.unusedSectionVars false

variable {P Q : Str → Prop} {bold : Str → Str} (C : TextClass P Q bold)
include C

theorem plain {s : Str} (h : ∀ c ∈ s, c.toNat < 128 ∧ c ∉ ['\\', '<', '>']) : P s := by
  induction s with
  | nil => exact C.nil
  | cons c s ih =>
    exact C.append (a := [c]) (C.char (h c (by simp)).1 (h c (by simp)).2) (ih fun d hd => h d (by simp [hd]))

theorem app3 {a b c : Str} (h1 : P a) (h2 : P b) (h3 : P c) : P (a ++ b ++ c) := C.append (C.append h1 h2) h3

theorem ite {p : Prop} [Decidable p] {a b : Str} (h1 : p → P a) (h2 : ¬ p → P b) : P (if p then a else b) := by
  split
  · exact h1 ‹_›
  · exact h2 ‹_›

theorem flatMap {α : Type} {f : α → Str} {l : List α} (h : ∀ a ∈ l, P (f a)) : P (l.flatMap f) := by
  induction l with
  | nil => exact C.nil
  | cons a l ih => exact C.append (h a (by simp)) (ih fun b hb => h b (by simp [hb]))

theorem boldFont {s : Str} (h : P s) : P ("\\fB".toList ++ s ++ "\\fP".toList) := C.fonts (c := 'B') (by decide) h

theorem showNat_class (n : Nat) : P (showNat n) := by
  refine C.plain fun c hc => ?_
  have := Nat.isDigit_of_mem_toDigits (by decide) (by decide) hc
  refine ⟨?_, ?_⟩
  · simp only [Char.isDigit, Bool.and_eq_true, decide_eq_true_eq, UInt32.le_iff_toNat_le] at this
    have h9 : c.toNat ≤ 57 := this.2
    omega
  intro h
  simp only [List.mem_cons, List.not_mem_nil, or_false] at h
  rcases h with rfl | rfl | rfl <;> exact absurd this (by decide)

theorem prepId {c : Char} {s : Str} (hc : P [c]) (hs : P s) : P (prepIdForHelp c s) := by
  unfold prepIdForHelp
  refine C.app3 (C.ite (fun _ => ?_) fun _ => C.nil) (C.ite (fun _ => C.plain (by decide)) fun _ => C.nil)
    (C.ite (fun _ => ?_) fun _ => C.nil)
  · have : "\\fB-".toList ++ [c] ++ "\\fP".toList = "\\fB".toList ++ (['-'] ++ [c]) ++ "\\fP".toList := rfl
    rw [this]
    exact C.boldFont (C.append (C.plain (by decide)) hc)
  · have : "\\fB--".toList ++ s ++ "\\fP".toList = "\\fB".toList ++ (['-', '-'] ++ s) ++ "\\fP".toList := rfl
    rw [this]
    exact C.boldFont (C.append (C.plain (by decide)) hs)

theorem typeInfo_class (te : TypeEnv) (l : Bool) (ty : ElemTy) (h : P (te.typeName ty)) : P (typeInfo te l ty) := by
  unfold typeInfo
  refine C.ite (fun _ => ?_) fun _ => ?_
  · have : "(\\fIList\\fP of \\fI".toList ++ te.typeName ty ++ "\\fP)".toList =
        ['('] ++ (['\\', 'f', 'I'] ++ "List".toList ++ ['\\', 'f', 'P']) ++ (" of ".toList ++
          (['\\', 'f', 'I'] ++ te.typeName ty ++ ['\\', 'f', 'P']) ++ [')']) := by
      simp
    rw [this]
    exact C.app3 (C.plain (by decide)) (C.fonts (by decide) (C.plain (by decide)))
      (C.app3 (C.plain (by decide)) (C.fonts (by decide) h) (C.plain (by decide)))
  · have : "(\\fI".toList ++ te.typeName ty ++ "\\fP)".toList =
        ['('] ++ (['\\', 'f', 'I'] ++ te.typeName ty ++ ['\\', 'f', 'P']) ++ [')'] := by
      simp
    rw [this]
    exact C.app3 (C.plain (by decide)) (C.fonts (by decide) h) (C.plain (by decide))

theorem showList_class {l : List Str} (h : ∀ s ∈ l, P s) : P (showList l) := by
  cases l with
  | nil => exact C.plain (by decide)
  | cons x l =>
    unfold showList
    refine C.append (C.app3 (C.plain (by decide)) (h x (by simp)) (C.flatMap fun y hy => ?_)) (C.plain (by decide))
    exact C.append (C.plain (by decide)) (h y (by simp [hy]))

theorem defaultOfValue_class (te : TypeEnv) (ty : ElemTy) (v : Val)
    (h1 : isString ty = false → ∀ s ∈ valueTexts te ty v, P s)
    (h2 : isString ty = true → ∀ s ∈ valueTexts te ty v, Q s) : P (defaultOfValue te ty v) := by
  unfold defaultOfValue
  refine C.append (C.plain (by decide)) ?_
  cases v with
  | one e =>
    cases ty with
    | string => exact C.quoted (h2 rfl _ (by simp [valueTexts, isString]))
    | _ => exact h1 rfl _ (by simp [valueTexts, isString])
  | many es =>
    apply C.showList_class
    intro s hs
    obtain ⟨e, he, rfl⟩ := List.mem_map.1 hs
    cases ty with
    | string => exact C.quoted (h2 rfl _ (by simp only [valueTexts, List.mem_map]; exact ⟨e, he, rfl⟩))
    | _ => exact h1 rfl _ (by simp only [valueTexts, List.mem_map]; exact ⟨e, he, rfl⟩)

theorem defaultOfMessage_class (te : TypeEnv) (l : Bool) (ty : ElemTy) (msg : Str)
    (h1 : (l || !(isString ty || te.isPath ty)) = true → P msg) (h2 : Q msg) : P (defaultOfMessage te l ty msg) := by
  unfold defaultOfMessage
  refine C.append (C.plain (by decide)) ?_
  cases l with
  | true => exact h1 rfl
  | false =>
    rw [if_neg (by decide)]
    cases ty with
    | string => exact C.quoted h2
    | _ => exact C.ite (fun _ => C.quoted h2) fun hp => h1 (by simp [isString, hp])

theorem validatorPart_class (cfg : Config) (h : P cfg.validatorMessage) : P (validatorPart cfg) := by
  unfold validatorPart
  exact C.ite (fun _ => C.append (C.plain (by decide)) h) fun _ => C.nil

theorem optionItem_class {W : Type} (te : TypeEnv) (st : Store) (cfg : Config) (x : VarId) (l : Bool) (ty : ElemTy)
    (v : Val → W → Bool × W) (h1 : ∀ s ∈ entryTexts te st (.option cfg x l ty v), P s)
    (h2 : ∀ s ∈ entryQuoted te st (.option cfg x l ty v), Q s) : ∀ s ∈ (optionItem te st cfg x l ty).texts, P s := by
  intro s hs
  simp only [optionItem, Block.texts, List.mem_cons, List.not_mem_nil, or_false] at hs
  rcases hs with rfl | rfl
  · exact C.app3 (C.prepId (h1 _ (by simp [entryTexts])) (h1 _ (by simp [entryTexts]))) (C.plain (by decide))
      (C.typeInfo_class te l ty (h1 _ (by simp [entryTexts])))
  · refine C.app3 (h1 _ (by simp [entryTexts])) (C.ite (fun _ => C.ite (fun _ => C.nil) fun _ => ?_) fun _ => ?_)
      (C.validatorPart_class cfg (h1 _ (by simp [entryTexts])))
    · refine C.defaultOfValue_class te ty _ (fun hn s hs => h1 s ?_) (fun hn s hs => h2 s ?_)
      · simp [entryTexts, hn, hs]
      · simp [entryQuoted, hn, hs]
    · refine C.defaultOfMessage_class te l ty _ (fun hn => h1 _ ?_) (h2 _ (by simp [entryQuoted]))
      simp only [entryTexts, hn, if_true]
      simp

theorem positionalItem_class {W : Type} (te : TypeEnv) (st : Store) (n : Nat) (cfg : Config) (x : VarId) (l : Bool)
    (ty : ElemTy) (v : Val → W → Bool × W) (h1 : ∀ s ∈ entryTexts te st (.positional cfg x l ty v), P s)
    (h2 : ∀ s ∈ entryQuoted te st (.positional cfg x l ty v), Q s) :
    ∀ s ∈ (positionalItem te st n cfg x l ty).texts, P s := by
  intro s hs
  simp only [positionalItem, Block.texts, List.mem_cons, List.not_mem_nil, or_false] at hs
  rcases hs with rfl | rfl
  · have : "\\fBARGUMENT-".toList ++ showNat n ++ "\\fP ".toList ++ typeInfo te l ty =
        ("\\fB".toList ++ ("ARGUMENT-".toList ++ showNat n) ++ "\\fP".toList) ++ [' '] ++ typeInfo te l ty := by simp
    rw [this]
    exact C.app3 (C.boldFont (C.append (C.plain (by decide)) (C.showNat_class n))) (C.plain (by decide))
      (C.typeInfo_class te l ty (h1 _ (by simp [entryTexts])))
  · refine C.app3 (h1 _ (by simp [entryTexts])) (C.ite (fun _ => ?_) fun _ => C.nil)
      (C.validatorPart_class cfg (h1 _ (by simp [entryTexts])))
    refine C.defaultOfValue_class te ty _ (fun hn s hs => h1 s ?_) (fun hn s hs => h2 s ?_)
    · simp [entryTexts, hn, hs]
    · simp [entryQuoted, hn, hs]

theorem setUpCall_class {W : Type} (te : TypeEnv) (st : Store) (adv : Bool) (e : Entry W)
    (h1 : ∀ s ∈ entryTexts te st e, P s) (h2 : ∀ s ∈ entryQuoted te st e, Q s) :
    ∀ b ∈ setUpCall te st adv e, ∀ s ∈ b.texts, P s := by
  have store : ∀ a h b0, (∀ s ∈ Block.texts b0, P s) → ∀ b ∈ storeElement adv a h b0, ∀ s ∈ b.texts, P s := by
    intro a h b0 hb b hm
    unfold storeElement at hm
    split at hm
    · rw [List.mem_singleton] at hm; subst hm; exact hb
    · simp at hm
  cases e with
  | option cfg x l ty v => exact store _ _ _ (C.optionItem_class te st cfg x l ty v h1 h2)
  | flag cfg x =>
    refine store _ _ _ ?_
    intro s hs
    simp only [flagItem, Block.texts, List.mem_cons, List.not_mem_nil, or_false] at hs
    rcases hs with rfl | rfl
    · exact C.prepId (h1 _ (by simp [entryTexts])) (h1 _ (by simp [entryTexts]))
    · exact h1 _ (by simp [entryTexts])
  | positional => simp [setUpCall]
  | sec t a => exact store _ _ _ h1
  | subsec t a => exact store _ _ _ h1
  | line t p a => exact store _ _ _ h1
  | listItem k d a => exact store _ _ _ h1

theorem positionalCalls_class {W : Type} (te : TypeEnv) (st : Store) (es : List (Entry W))
    (h1 : ∀ e ∈ es, ∀ s ∈ entryTexts te st e, P s) (h2 : ∀ e ∈ es, ∀ s ∈ entryQuoted te st e, Q s) :
    ∀ n, ∀ b ∈ positionalCalls te st n es, ∀ s ∈ b.texts, P s := by
  induction es with
  | nil => simp [positionalCalls]
  | cons e es ih =>
    have ih' := ih (fun e he => h1 e (by simp [he])) (fun e he => h2 e (by simp [he]))
    intro n
    cases e with
    | positional cfg x l ty v =>
      intro b hb
      simp only [positionalCalls, List.mem_cons] at hb
      rcases hb with rfl | hb
      · exact C.positionalItem_class te st (n + 1) cfg x l ty v (h1 _ (by simp)) (h2 _ (by simp))
      · exact ih' (n + 1) b hb
    | _ => exact ih' n

/-- A constant block. -/
theorem const {b : Block} (h : ∀ s ∈ b.texts, ∀ c ∈ s, c.toNat < 128 ∧ c ∉ ['\\', '<', '>']) : ∀ s ∈ b.texts, P s :=
  fun s hs => C.plain (h s hs)

theorem commonOptions_class (b : Build) (notify : Bool) : ∀ x ∈ commonOptions b notify, ∀ s ∈ x.texts, P s := by
  have two : ∀ a d : Str, P a → P d → ∀ s ∈ (Block.item a d).texts, P s := by
    intro a d ha hd s hs
    simp only [Block.texts, List.mem_cons, List.not_mem_nil, or_false] at hs
    rcases hs with rfl | rfl <;> assumption
  intro x hx
  simp only [commonOptions, List.mem_append, List.mem_cons, List.not_mem_nil, or_false] at hx
  rcases hx with (rfl | rfl | rfl | rfl | rfl | rfl) | hx
  · exact C.const (by decide)
  · exact two _ _ (C.app3 (C.boldFont (s := "-h".toList) (C.plain (by decide))) (C.plain (s := ", ".toList) (by decide))
      (C.boldFont (s := "--help".toList) (C.plain (by decide)))) (C.plain (by decide))
  · exact two _ _ (C.app3 (C.boldFont (s := "-hh".toList) (C.plain (by decide))) (C.plain (s := ", ".toList) (by decide))
      (C.boldFont (s := "--advanced-help".toList) (C.plain (by decide)))) (C.plain (by decide))
  · exact two _ _ (C.boldFont (s := "--version".toList) (C.plain (by decide))) (C.plain (by decide))
  · exact two _ _ (C.boldFont (s := "--copyright".toList) (C.plain (by decide))) (C.plain (by decide))
  · refine two _ _ (C.append (C.boldFont (s := "--export-help".toList) (C.plain (by decide)))
      (C.plain (s := " (std::string)".toList) (by decide))) (C.app3 (C.plain (by decide)) ?_ (C.plain (by decide)))
    unfold supportedExports
    exact C.ite (fun _ => C.plain (by decide)) fun _ => C.plain (by decide)
  · split at hx
    · rw [List.mem_singleton] at hx; subst hx
      exact two _ _ (C.append (C.boldFont (s := "--version-check".toList) (C.plain (by decide)))
        (C.plain (s := " (bool)".toList) (by decide))) (C.plain (by decide))
    · simp at hx

theorem subcommandBlocks_class (app : Str) (names : List Str) (ha : P app) (hn : ∀ s ∈ names, P s) :
    ∀ x ∈ subcommandBlocks app names, ∀ s ∈ x.texts, P s := by
  unfold subcommandBlocks
  split
  · simp
  · rename_i first rest
    intro x hx
    simp only [List.mem_append, List.mem_cons, List.mem_map, List.not_mem_nil, or_false] at hx
    rcases hx with ((rfl | rfl) | ⟨n, hn', rfl⟩) | (rfl | rfl)
    · exact C.const (by decide)
    · exact C.const (by decide)
    · intro s hs
      simp only [Block.texts, List.mem_singleton] at hs
      subst hs
      have : "- \\fB".toList ++ n ++ "\\fP".toList = "- ".toList ++ ("\\fB".toList ++ n ++ "\\fP".toList) := rfl
      rw [this]
      exact C.append (C.plain (by decide)) (C.boldFont (hn n (by simpa using hn')))
    · intro s hs
      simp only [Block.texts, List.mem_singleton] at hs
      subst hs
      exact C.append (C.append (C.app3 (C.plain (by decide)) ha (C.plain (by decide))) (hn _ (by simp)))
        (C.plain (by decide))
    · intro s hs
      simp only [Block.texts, List.mem_singleton] at hs
      subst hs
      refine C.app3 (C.plain (by decide)) ?_ (C.plain (by decide))
      exact C.app3 (C.plain (s := "specified ".toList) (by decide))
        (C.boldFont (s := "before".toList) (C.plain (by decide)))
        (C.plain (s := " the subcommand key word. Every argument after the ".toList) (by decide))

theorem versionBlocks_class (b : Build) (app : Str) (m : Meta) (ha : P app) (h1 : P b.shargVersion)
    (h2 : ∀ s ∈ b.seqanVersion, P s) (hm : ∀ s ∈ metaTexts m, P s) :
    ∀ x ∈ versionBlocks b bold app m, ∀ s ∈ x.texts, P s := by
  intro x hx
  have one : ∀ (t : Str) (p : Bool), P t → ∀ s ∈ (Block.line t p).texts, P s := by
    intro t p ht s hs
    simp only [Block.texts, List.mem_singleton] at hs
    subst hs; exact ht
  simp only [versionBlocks, List.mem_append, List.mem_cons, List.not_mem_nil, or_false] at hx
  rcases hx with ((rfl | rfl | rfl | rfl) | hx) | hx
  · exact C.const (by decide)
  · exact one _ _ (C.append (C.bold (C.plain (by decide))) (hm _ (by simp [metaTexts])))
  · exact one _ _ (C.append (C.bold (C.append ha (C.plain (by decide)))) (hm _ (by simp [metaTexts])))
  · exact one _ _ (C.append (C.bold (C.plain (by decide))) h1)
  · split at hx
    · rw [List.mem_singleton] at hx; subst hx
      exact one _ _ (C.append (C.bold (C.plain (by decide))) (h2 _ (by assumption)))
    · simp at hx
  · split at hx
    · simp only [List.mem_cons, List.not_mem_nil, or_false] at hx
      rcases hx with rfl | rfl
      · exact C.const (by decide)
      · exact one _ _ (hm _ (by simp [metaTexts]))
    · simp at hx

theorem legalBlocks_class (app : Str) (m : Meta) (ha : P app) (hm : ∀ s ∈ metaTexts m, P s) :
    ∀ x ∈ legalBlocks bold app m, ∀ s ∈ x.texts, P s := by
  have one : ∀ (t : Str) (p : Bool), P t → ∀ s ∈ (Block.line t p).texts, P s := by
    intro t p ht s hs
    simp only [Block.texts, List.mem_singleton] at hs
    subst hs; exact ht
  have opt : ∀ (q : Prop) [Decidable q] (b : Block), (∀ s ∈ b.texts, P s) →
      ∀ x ∈ (if q then [b] else []), ∀ s ∈ x.texts, P s := by
    intro q _ b hb x hx
    split at hx
    · rw [List.mem_singleton] at hx; subst hx; exact hb
    · simp at hx
  intro x hx
  unfold legalBlocks at hx
  split at hx
  · simp only [List.mem_append] at hx
    rcases hx with (((((hx | hx) | hx) | hx) | hx) | hx) | hx
    · rw [List.mem_singleton] at hx; subst hx; exact C.const (by decide)
    · exact opt _ _ (one _ _ (C.append (C.bold (C.append ha (C.plain (by decide)))) (hm _ (by simp [metaTexts])))) x hx
    · exact opt _ _ (one _ _ (C.append (C.bold (C.plain (by decide))) (hm _ (by simp [metaTexts])))) x hx
    · exact opt _ _ (one _ _ (C.append (C.bold (C.plain (by decide))) (hm _ (by simp [metaTexts])))) x hx
    · rw [List.mem_singleton] at hx; subst hx
      exact one _ _ (C.append (C.bold (C.plain (by decide))) (C.plain (by decide)))
    · exact opt _ _ (one _ _ (C.append (C.bold (C.plain (by decide))) (hm _ (by simp [metaTexts])))) x hx
    · exact opt _ _ (one _ _ (C.app3 (C.plain (by decide)) (C.bold (C.plain (by decide))) (C.plain (by decide)))) x hx
  · simp at hx

theorem paragraphSection_class (title : Str) (texts : List Str) (ht : P title) (h : ∀ s ∈ texts, P s) :
    ∀ x ∈ paragraphSection title texts, ∀ s ∈ x.texts, P s := by
  intro x hx s hs
  unfold paragraphSection at hx
  split at hx
  · simp only [List.mem_cons, List.mem_map] at hx
    rcases hx with rfl | ⟨t, ht', rfl⟩
    · simp only [Block.texts, List.mem_singleton] at hs; subst hs; exact ht
    · simp only [Block.texts, List.mem_singleton] at hs; subst hs; exact h _ ht'
  · simp at hx

end TextClass

/-- Splitting at the first blank or tabulator. -/
theorem findIdx_gap {s : Str} (h : ∃ c ∈ s, isGap c = true) (pre : Str) (hp : ∀ c ∈ pre, isGap c = false) :
    ∃ i, (pre ++ s).findIdx? (fun c => c = ' ' || c = '\t') = some i ∧
      (pre ++ s).take i = pre ++ s.takeWhile (fun c => !isGap c) ∧
      (pre ++ s).drop i = s.dropWhile (fun c => !isGap c) := by
  induction pre with
  | nil =>
    induction s with
    | nil => obtain ⟨c, hc, _⟩ := h; simp at hc
    | cons c s ih =>
      by_cases hc : isGap c = true
      · refine ⟨0, ?_, ?_, ?_⟩
        · simp only [List.nil_append, List.findIdx?_cons]
          simp only [isGap] at hc
          rw [if_pos hc]
        · simp [hc]
        · simp [hc]
      · have : ∃ d ∈ s, isGap d = true := by
          obtain ⟨d, hd, hg⟩ := h
          rcases List.mem_cons.1 hd with rfl | hd
          · exact absurd hg hc
          · exact ⟨d, hd, hg⟩
        obtain ⟨i, h1, h2, h3⟩ := ih this
        simp only [List.nil_append] at h1 h2 h3
        refine ⟨i + 1, ?_, ?_, ?_⟩
        · simp only [List.nil_append, List.findIdx?_cons]
          simp only [isGap] at hc
          rw [if_neg hc, h1]; rfl
        · simp [hc, h2]
        · simp [hc, h3]
  | cons c pre ih =>
    obtain ⟨i, h1, h2, h3⟩ := ih fun d hd => hp d (by simp [hd])
    have hc := hp c (by simp)
    refine ⟨i + 1, ?_, ?_, ?_⟩
    · simp only [List.cons_append, List.findIdx?_cons]
      simp only [isGap] at hc
      rw [if_neg (by simp [hc]), h1]; rfl
    · simp [h2]
    · simp [h3]

/-- What `print_synopsis` makes of a line. -/
theorem synopsisText_eq {s : Str} (h : ∃ c ∈ s, isGap c = true) :
    synopsisText s = .ok ("\\fB".toList ++ s.takeWhile (fun c => !isGap c) ++ "\\fP".toList
      ++ s.dropWhile (fun c => !isGap c)) := by
  obtain ⟨i, h1, h2, h3⟩ := findIdx_gap h "\\fB".toList (by decide)
  simp only [synopsisText, h1, h2, h3]

theorem synopsisText_none {s : Str} (h : ¬ ∃ c ∈ s, isGap c = true) : synopsisText s = .error .outOfRange := by
  have : ("\\fB".toList ++ s).findIdx? (fun c => c = ' ' || c = '\t') = none := by
    rw [List.findIdx?_eq_none_iff]
    intro c hc
    rcases List.mem_append.1 hc with hc | hc
    · have : ∀ d ∈ "\\fB".toList, (decide (d = ' ') || decide (d = '\t')) = false := by decide
      exact this c hc
    · have : ¬ isGap c = true := fun hg => h ⟨c, hc, hg⟩
      simpa [isGap] using this
  simp only [synopsisText, this]

/-- All print calls of a page get texts of the class; only lines of the synopsis may not be printed at all. -/
theorem pageSteps_class_or {P Q : Str → Prop} {bold : Str → Str} (C : TextClass P Q bold) {W : Type} (pe : PageEnv)
    (adv : Bool) (p : Parser W) (st : Store) (h1 : ∀ t ∈ suppliedTexts pe p st, P t)
    (h2 : ∀ t ∈ suppliedQuoted pe p st, Q t) :
    ∀ x ∈ pageSteps (pe.input adv p st) bold, (¬ SynopsisOk pe.info ∧ x = .error .outOfRange) ∨
      ∃ b, x = .ok b ∧ ∀ t ∈ b.texts, P t := by
  have hm : ∀ t ∈ metaTexts pe.info, P t := fun t ht => h1 t (by simp [suppliedTexts, ht])
  have hmem : ∀ (l : List Block), (∀ b ∈ l, ∀ t ∈ b.texts, P t) → ∀ x ∈ l.map (Except.ok (ε := Exn)),
      (¬ SynopsisOk pe.info ∧ x = .error .outOfRange) ∨ ∃ b, x = .ok b ∧ ∀ t ∈ b.texts, P t := by
    intro l hl x hx
    obtain ⟨b, hb, rfl⟩ := List.mem_map.1 hx
    exact Or.inr ⟨b, rfl, hl b hb⟩
  have he1 : ∀ e ∈ p.operations, ∀ t ∈ entryTexts pe.types st e, P t := fun e he t ht =>
    h1 t (by simp only [suppliedTexts, List.mem_append, List.mem_flatMap]; exact Or.inr ⟨e, he, ht⟩)
  have he2 : ∀ e ∈ p.operations, ∀ t ∈ entryQuoted pe.types st e, Q t := fun e he t ht =>
    h2 t (by simp only [suppliedQuoted, List.mem_flatMap]; exact ⟨e, he, ht⟩)
  have happ : P p.appName := h1 _ (by simp [suppliedTexts])
  intro x hx
  simp only [pageSteps, pageStart, List.mem_append] at hx
  rcases hx with ((hx | hx) | hx) | hx
  · split at hx
    · rcases List.mem_cons.1 hx with rfl | hx
      · exact Or.inr ⟨_, rfl, C.const (by decide)⟩
      · simp only [synopsisSteps, List.mem_map] at hx
        obtain ⟨s, hs', rfl⟩ := hx
        have hs' : s ∈ pe.info.synopsis := hs'
        by_cases hgap : ¬ ∃ c ∈ s, isGap c = true
        · rw [synopsisText_none hgap]
          exact Or.inl ⟨fun hok => hgap (hok s hs'), rfl⟩
        replace hgap := Classical.not_not.1 hgap
        rw [synopsisText_eq hgap]
        refine Or.inr ⟨_, rfl, ?_⟩
        intro t ht
        simp only [Block.texts, List.mem_singleton] at ht
        subst ht
        have hsyn : ∀ t ∈ [s.takeWhile (fun c => !isGap c), s.dropWhile (fun c => !isGap c)], P t := fun t ht =>
          hm t (by simp only [metaTexts, List.mem_append, List.mem_flatMap]; exact Or.inr ⟨s, hs', ht⟩)
        exact C.append (C.boldFont (hsyn _ (by simp))) (hsyn _ (by simp))
    · simp at hx
  · refine hmem _ ?_ x hx
    intro b hb
    simp only [startBlocks, List.mem_append] at hb
    rcases hb with (((hb | hb) | hb) | hb) | hb
    · refine C.paragraphSection_class _ _ (C.plain (by decide)) (fun s hs => hm s ?_) b hb
      have hs : s ∈ pe.info.description := hs
      simp [metaTexts, hs]
    · refine C.subcommandBlocks_class _ _ happ (fun s hs => h1 s ?_) b hb
      have hs : s ∈ p.subcommands := hs
      simp [suppliedTexts, hs]
    · split at hb
      · rw [List.mem_singleton] at hb; subst hb; exact C.const (by decide)
      · simp at hb
    · exact C.positionalCalls_class _ _ _ he1 he2 0 b hb
    · rw [List.mem_singleton] at hb; subst hb; exact C.const (by decide)
  · refine hmem _ ?_ x hx
    intro b hb
    simp only [entryBlocks, List.mem_flatMap] at hb
    obtain ⟨e, he, hb⟩ := hb
    exact C.setUpCall_class _ _ _ e (he1 e he) (he2 e he) b hb
  · refine hmem _ ?_ x hx
    intro b hb
    simp only [endBlocks, List.mem_append] at hb
    rcases hb with ((hb | hb) | hb) | hb
    · exact C.commonOptions_class _ _ b hb
    · refine C.paragraphSection_class _ _ (C.plain (by decide)) (fun s hs => hm s ?_) b hb
      have hs : s ∈ pe.info.examples := hs
      simp [metaTexts, hs]
    · refine C.versionBlocks_class _ _ _ happ (h1 _ ?_) (fun s hs => h1 s ?_) hm b hb
      · simp [suppliedTexts, PageEnv.input]
      · have hs : s ∈ pe.build.seqanVersion := hs
        simp only [suppliedTexts, List.mem_append]
        refine Or.inl (Or.inl (Or.inl (Or.inr ?_)))
        simpa using hs
    · exact C.legalBlocks_class _ _ happ hm b hb

/-- All print calls of a page whose synopsis is well formed get texts of the class. -/
theorem pageSteps_class {P Q : Str → Prop} {bold : Str → Str} (C : TextClass P Q bold) {W : Type} (pe : PageEnv)
    (adv : Bool) (p : Parser W) (st : Store) (hs : SynopsisOk pe.info) (h1 : ∀ t ∈ suppliedTexts pe p st, P t)
    (h2 : ∀ t ∈ suppliedQuoted pe p st, Q t) :
    ∀ x ∈ pageSteps (pe.input adv p st) bold, ∃ b, x = .ok b ∧ ∀ t ∈ b.texts, P t := fun x hx =>
  (pageSteps_class_or C pe adv p st h1 h2 x hx).resolve_left fun h => h.1 hs

/-! ### Which texts can be printed -/

theorem prependTo_ok {pre : Str} {r : Except Exn Str} : (∃ o, prependTo pre r = .ok o) ↔ ∃ o, r = .ok o := by
  cases r <;> simp [prependTo]

/-- Induction over marked up text. -/
theorem markup_induct {motive : Str → Prop} (nil : motive [])
    (char : ∀ c s, c ≠ '\\' → motive s → motive (c :: s)) (lone : motive ['\\'])
    (escape : ∀ c s, c ≠ 'f' → motive s → motive ('\\' :: c :: s)) (lonef : motive ['\\', 'f'])
    (font : ∀ c s, motive s → motive ('\\' :: 'f' :: c :: s)) : ∀ s, motive s
  | [] => nil
  | c :: s => by
    by_cases hc : c = '\\'
    · subst hc
      match s with
      | [] => exact lone
      | d :: s =>
        by_cases hd : d = 'f'
        · subst hd
          match s with
          | [] => exact lonef
          | e :: s => exact font e s (markup_induct nil char lone escape lonef font s)
        · exact escape d s hd (markup_induct nil char lone escape lonef font s)
    · exact char c s hc (markup_induct nil char lone escape lonef font s)

theorem complete_char {c : Char} (hc : c ≠ '\\') {s : Str} : Complete (c :: s) ↔ Complete s :=
  ⟨fun h => by cases h <;> first | assumption | exact absurd rfl hc, .char hc⟩

theorem complete_escape {c : Char} (hc : c ≠ 'f') {s : Str} : Complete ('\\' :: c :: s) ↔ Complete s :=
  ⟨fun h => by cases h with
    | char h => exact absurd rfl h
    | escape _ h => exact h
    | font => exact absurd rfl hc, .escape hc⟩

theorem complete_font {c : Char} {s : Str} : Complete ('\\' :: 'f' :: c :: s) ↔ Complete s :=
  ⟨fun h => by cases h with
    | char h => exact absurd rfl h
    | escape h => exact absurd rfl h
    | font h => exact h, .font⟩

/-- `to_text` succeeds exactly on complete markup. -/
theorem toText_ok_iff (nd tty : Bool) (s : Str) : (∃ o, toText nd tty s = .ok o) ↔ Complete s := by
  induction s using markup_induct with
  | nil => exact ⟨fun _ => .nil, fun _ => ⟨[], rfl⟩⟩
  | char c s hc ih => rw [toText_char nd tty hc, prependTo_ok, ih, complete_char hc]
  | lone =>
    rw [toText_end]
    refine ⟨fun ⟨o, h⟩ => by simp at h, fun h => ?_⟩
    cases h with
    | char h => exact absurd rfl h
  | escape c s hc ih =>
    rw [complete_escape hc, ← ih]
    by_cases hd : c = '-'
    · subst hd; rw [toText_dash, prependTo_ok]
    · rw [toText_escape nd tty hd hc, prependTo_ok]
  | lonef =>
    rw [toText_end_f]
    refine ⟨fun ⟨o, h⟩ => by simp at h, fun h => ?_⟩
    cases h with
    | char h => exact absurd rfl h
    | escape h => exact absurd rfl h
  | font c s ih => rw [toText_font, prependTo_ok, ih, complete_font]

theorem toHtmlFrom_char (nd : Bool) (tags : List Str) {c : Char} (hc : c ≠ '\\') (s : Str) :
    toHtmlFrom nd tags (c :: s) = prependTo [c] (toHtmlFrom nd tags s) := by
  rw [toHtmlFrom.eq_def]; simp [hc]

theorem toHtmlFrom_dash (nd : Bool) (tags : List Str) (s : Str) :
    toHtmlFrom nd tags ('\\' :: '-' :: s) = prependTo ['-'] (toHtmlFrom nd tags s) := by
  rw [toHtmlFrom.eq_def]; simp

theorem toHtmlFrom_escape (nd : Bool) (tags : List Str) {d : Char} (h1 : d ≠ '-') (h2 : d ≠ 'f') (s : Str) :
    toHtmlFrom nd tags ('\\' :: d :: s) = prependTo ['\\', d] (toHtmlFrom nd tags s) := by
  rw [toHtmlFrom.eq_def]; simp [h1, h2]

theorem toHtmlFrom_I (nd : Bool) (tags : List Str) (s : Str) :
    toHtmlFrom nd tags ('\\' :: 'f' :: 'I' :: s) = prependTo "<em>".toList (toHtmlFrom nd ("em".toList :: tags) s) := by
  rw [toHtmlFrom.eq_def]; simp

theorem toHtmlFrom_B (nd : Bool) (tags : List Str) (s : Str) :
    toHtmlFrom nd tags ('\\' :: 'f' :: 'B' :: s) =
      prependTo "<strong>".toList (toHtmlFrom nd ("strong".toList :: tags) s) := by
  rw [toHtmlFrom.eq_def]; simp

theorem toHtmlFrom_P (nd : Bool) (t : Str) (tags : List Str) (s : Str) :
    toHtmlFrom nd (t :: tags) ('\\' :: 'f' :: 'P' :: s) =
      prependTo ("</".toList ++ t ++ ">".toList) (toHtmlFrom nd tags s) := by
  rw [toHtmlFrom.eq_def]; simp

theorem toHtmlFrom_P_none (nd : Bool) (s : Str) :
    toHtmlFrom nd [] ('\\' :: 'f' :: 'P' :: s) = .error (endReached nd) := by
  rw [toHtmlFrom.eq_def]; simp

theorem toHtmlFrom_unknown (nd : Bool) (tags : List Str) {e : Char} (he : e ∉ ['B', 'I', 'P']) (s : Str) :
    toHtmlFrom nd tags ('\\' :: 'f' :: e :: s) = prependTo ['\\', 'f', e] (toHtmlFrom nd tags s) := by
  simp only [List.mem_cons, List.not_mem_nil, or_false, not_or] at he
  rw [toHtmlFrom.eq_def]; simp [he]

theorem toHtmlFrom_end (nd : Bool) (tags : List Str) : toHtmlFrom nd tags ['\\'] = .error (endReached nd) := by
  rw [toHtmlFrom.eq_def]; simp

theorem toHtmlFrom_end_f (nd : Bool) (tags : List Str) : toHtmlFrom nd tags ['\\', 'f'] = .error (endReached nd) := by
  rw [toHtmlFrom.eq_def]; simp

theorem fontsOk_iff_char {n : Nat} {c : Char} (hc : c ≠ '\\') {s : Str} : FontsOk n (c :: s) ↔ FontsOk n s :=
  ⟨fun h => by cases h <;> first | assumption | exact absurd rfl hc, .char hc⟩

theorem fontsOk_lone {n : Nat} : ¬ FontsOk n ['\\'] := by
  intro h
  cases h with
  | char h => exact absurd rfl h

theorem fontsOk_lonef {n : Nat} : ¬ FontsOk n ['\\', 'f'] := by
  intro h
  cases h with
  | char h => exact absurd rfl h
  | escape h => exact absurd rfl h

theorem fontsOk_iff_escape {n : Nat} {c : Char} (hc : c ≠ 'f') {s : Str} : FontsOk n ('\\' :: c :: s) ↔ FontsOk n s := by
  refine ⟨fun h => ?_, .escape hc⟩
  cases h with
  | char h => exact absurd rfl h
  | escape _ h => exact h
  | _ => exact absurd rfl hc

theorem fontsOk_iff_on {n : Nat} {c : Char} (hc : c ∈ ['B', 'I']) {s : Str} :
    FontsOk n ('\\' :: 'f' :: c :: s) ↔ FontsOk (n + 1) s := by
  refine ⟨fun h => ?_, .on hc⟩
  cases h with
  | char h => exact absurd rfl h
  | escape h => exact absurd rfl h
  | on _ h => exact h
  | off h => exact absurd hc (by decide)
  | unknown h => simp at h hc; rcases hc with rfl | rfl <;> simp at h

theorem fontsOk_iff_off {n : Nat} {s : Str} : FontsOk (n + 1) ('\\' :: 'f' :: 'P' :: s) ↔ FontsOk n s := by
  refine ⟨fun h => ?_, .off⟩
  cases h with
  | char h => exact absurd rfl h
  | escape h => exact absurd rfl h
  | on h => exact absurd h (by decide)
  | off h => exact h
  | unknown h => exact absurd (by decide) h

theorem fontsOk_off_zero {s : Str} : ¬ FontsOk 0 ('\\' :: 'f' :: 'P' :: s) := by
  intro h
  cases h with
  | char h => exact absurd rfl h
  | escape h => exact absurd rfl h
  | on h => exact absurd h (by decide)
  | unknown h => exact absurd (by decide) h

theorem fontsOk_iff_unknown {n : Nat} {c : Char} (hc : c ∉ ['B', 'I', 'P']) {s : Str} :
    FontsOk n ('\\' :: 'f' :: c :: s) ↔ FontsOk n s := by
  refine ⟨fun h => ?_, .unknown hc⟩
  cases h with
  | char h => exact absurd rfl h
  | escape h => exact absurd rfl h
  | on h => simp at h hc; rcases h with rfl | rfl <;> simp at hc
  | off h => simp at hc
  | unknown _ h => exact h

/-- `to_html` succeeds exactly if no font is switched off that is not on. -/
theorem toHtmlFrom_ok_iff (nd : Bool) (s : Str) :
    ∀ tags, (∃ o, toHtmlFrom nd tags s = .ok o) ↔ FontsOk tags.length s := by
  induction s using markup_induct with
  | nil => exact fun _ => ⟨fun _ => .nil, fun _ => ⟨[], rfl⟩⟩
  | char c s hc ih => intro tags; rw [toHtmlFrom_char nd tags hc, prependTo_ok, ih, fontsOk_iff_char hc]
  | lone =>
    intro tags
    rw [toHtmlFrom_end]
    exact ⟨fun ⟨o, h⟩ => by simp at h, fun h => absurd h fontsOk_lone⟩
  | escape c s hc ih =>
    intro tags
    rw [fontsOk_iff_escape hc, ← ih]
    by_cases hd : c = '-'
    · subst hd; rw [toHtmlFrom_dash, prependTo_ok]
    · rw [toHtmlFrom_escape nd tags hd hc, prependTo_ok]
  | lonef =>
    intro tags
    rw [toHtmlFrom_end_f]
    exact ⟨fun ⟨o, h⟩ => by simp at h, fun h => absurd h fontsOk_lonef⟩
  | font c s ih =>
    intro tags
    by_cases hI : c = 'I'
    · subst hI
      rw [toHtmlFrom_I, prependTo_ok, ih, fontsOk_iff_on (by decide)]
      rfl
    · by_cases hB : c = 'B'
      · subst hB
        rw [toHtmlFrom_B, prependTo_ok, ih, fontsOk_iff_on (by decide)]
        rfl
      · by_cases hP : c = 'P'
        · subst hP
          cases tags with
          | nil =>
            rw [toHtmlFrom_P_none]
            exact ⟨fun ⟨o, h⟩ => by simp at h, fun h => absurd h fontsOk_off_zero⟩
          | cons t tags => rw [toHtmlFrom_P, prependTo_ok, ih, List.length_cons, fontsOk_iff_off]
        · have hn : c ∉ ['B', 'I', 'P'] := by simp [hI, hB, hP]
          rw [toHtmlFrom_unknown nd tags hn, prependTo_ok, ih, fontsOk_iff_unknown hn]

/-! ### The classes for C46 -/

theorem uncut_append {a b : Str} (ha : Uncut a) (hb : Uncut b) : Uncut (a ++ b) := by
  induction ha with
  | nil => exact hb
  | char h _ ih => exact .char h ih
  | escape h1 h2 h3 _ ih => exact .escape h1 h2 h3 ih
  | font h1 h2 _ ih => exact .font h1 h2 ih

theorem complete_append {a b : Str} (ha : Complete a) (hb : Complete b) : Complete (a ++ b) := by
  induction ha with
  | nil => exact hb
  | char h _ ih => exact .char h ih
  | escape h1 _ ih => exact .escape h1 ih
  | font _ ih => exact .font ih

theorem uncut_complete {s : Str} (h : Uncut s) : Complete s := by
  induction h with
  | nil => exact .nil
  | char h _ ih => exact .char h ih
  | escape h1 _ _ _ ih => exact .escape h1 ih
  | font _ _ _ ih => exact .font ih

theorem uncut_plain {s : Str} (h : '\\' ∉ s) : Uncut s := by
  induction s with
  | nil => exact .nil
  | cons c s ih =>
    simp only [List.mem_cons, not_or] at h
    exact .char (Ne.symm h.1) (ih h.2)

theorem uncut_takeWhile {s : Str} (h : Uncut s) : Uncut (s.takeWhile (fun c => c ≠ '\x00')) := by
  induction h with
  | nil => exact .nil
  | char h _ ih =>
    rw [List.takeWhile_cons]
    split
    · exact .char h ih
    · exact .nil
  | escape h1 h2 h3 _ ih =>
    rw [List.takeWhile_cons, if_pos (by decide), List.takeWhile_cons, if_pos (by simpa using h2)]
    exact .escape h1 h2 h3 ih
  | font h2 h3 _ ih =>
    rw [List.takeWhile_cons, if_pos (by decide), List.takeWhile_cons, if_pos (by decide), List.takeWhile_cons,
      if_pos (by simpa using h2)]
    exact .font h2 h3 ih

theorem not_isSpace {c : Char} (h : c ∉ blank) : isSpace c = false := by
  cases hc : isSpace c with
  | false => rfl
  | true => exact absurd ((isSpace_iff c).1 hc) h

theorem uncut_wordsFrom {s : Str} (h : Uncut s) : ∀ cur, Complete cur → ∀ w ∈ wordsFrom cur s, Complete w := by
  induction h with
  | nil =>
    intro cur hc w hw
    unfold wordsFrom at hw
    split at hw
    · simp at hw
    · rw [List.mem_singleton] at hw; subst hw; exact hc
  | char h _ ih =>
    intro cur hc w hw
    unfold wordsFrom at hw
    split at hw
    · split at hw
      · exact ih [] .nil w hw
      · rcases List.mem_cons.1 hw with rfl | hw
        · exact hc
        · exact ih [] .nil w hw
    · exact ih _ (complete_append hc (.char h .nil)) w hw
  | escape h1 h2 h3 _ ih =>
    intro cur hc w hw
    unfold wordsFrom at hw
    rw [if_neg (by decide)] at hw
    unfold wordsFrom at hw
    rw [not_isSpace h3] at hw
    simp only [Bool.false_eq_true, if_false, List.append_assoc] at hw
    exact ih _ (complete_append hc (.escape h1 .nil)) w hw
  | font h2 h3 _ ih =>
    intro cur hc w hw
    unfold wordsFrom at hw
    rw [if_neg (by decide)] at hw
    unfold wordsFrom at hw
    rw [if_neg (by decide)] at hw
    unfold wordsFrom at hw
    rw [not_isSpace h3] at hw
    simp only [Bool.false_eq_true, if_false, List.append_assoc] at hw
    exact ih _ (complete_append hc (.font .nil)) w hw

theorem uncut_words {s : Str} (h : Uncut s) : ∀ w ∈ words s, Complete w :=
  uncut_wordsFrom (uncut_takeWhile h) [] .nil

theorem uncut_quoteBody (s : Str) : Uncut (quoteBody s) := by
  induction s with
  | nil => exact .nil
  | cons c s ih =>
    rw [quoteBody_cons]
    split
    · rename_i h
      rcases h with rfl | rfl
      · exact .escape (by decide) (by decide) (by decide) ih
      · exact .escape (by decide) (by decide) (by decide) ih
    · rename_i h
      simp only [not_or] at h
      exact .char h.2 ih

theorem uncut_quoted (s : Str) : Uncut (quoted s) := by
  rw [quoted_eq]
  exact .char (by decide) (uncut_append (uncut_quoteBody s) (.char (by decide) .nil))

/-- Texts without cut off sequences are a class, for the console. -/
theorem uncutClass (c : Console) : TextClass Uncut (fun _ => True) (inBold c) where
  nil := .nil
  append := uncut_append
  char _ h := .char (fun hc => h (by simp [hc])) .nil
  fonts hc h := by
    simp only [List.mem_cons, List.not_mem_nil, or_false] at hc
    refine uncut_append (uncut_append ?_ h) (.font (by decide) (by decide) .nil)
    rcases hc with rfl | rfl
    · exact .font (by decide) (by decide) .nil
    · exact .font (by decide) (by decide) .nil
  quoted _ := uncut_quoted _
  bold h := by
    unfold inBold
    refine uncut_append (uncut_append ?_ h) ?_
    · unfold ansi; split <;> exact uncut_plain (by decide)
    · unfold ansi; split <;> exact uncut_plain (by decide)

theorem fontsOk_mono {n : Nat} {s : Str} (h : FontsOk n s) : ∀ k, FontsOk (n + k) s := by
  induction h with
  | nil => exact fun _ => .nil
  | char h _ ih => exact fun k => .char h (ih k)
  | escape h _ ih => exact fun k => .escape h (ih k)
  | on h _ ih => exact fun k => .on h (by have := ih k; rwa [Nat.add_right_comm] at this)
  | off _ ih => exact fun k => by have := ih k; rw [Nat.add_right_comm]; exact .off this
  | unknown h _ ih => exact fun k => .unknown h (ih k)

/-- Appending: the fonts left open by the first part can only help. -/
theorem fontsOk_append {n : Nat} {a b : Str} (ha : FontsOk n a) (k : Nat) (hb : FontsOk k b) : FontsOk (n + k) (a ++ b) := by
  induction ha with
  | nil => exact Nat.add_comm k _ ▸ fontsOk_mono hb _
  | char h _ ih => exact .char h ih
  | escape h _ ih => exact .escape h ih
  | on h _ ih => exact .on h (by rwa [Nat.add_right_comm] at ih)
  | off _ ih => rw [Nat.add_right_comm]; exact .off ih
  | unknown h _ ih => exact .unknown h ih

theorem fontsOk_plain {n : Nat} {s : Str} (h : '\\' ∉ s) : FontsOk n s := by
  induction s with
  | nil => exact .nil
  | cons c s ih =>
    simp only [List.mem_cons, not_or] at h
    exact .char (Ne.symm h.1) (ih h.2)

theorem fontsOk_quoteBody (s : Str) : FontsOk 0 (quoteBody s) := by
  induction s with
  | nil => exact .nil
  | cons c s ih =>
    rw [quoteBody_cons]
    split
    · rename_i h
      rcases h with rfl | rfl
      · exact .escape (by decide) ih
      · exact .escape (by decide) ih
    · rename_i h
      simp only [not_or] at h
      exact .char h.2 ih

/-- Texts with correct fonts are a class, for HTML. -/
theorem fontsClass : TextClass (FontsOk 0) (fun _ => True) (fun s => "<strong>".toList ++ s ++ "</strong>".toList) where
  nil := .nil
  append ha hb := fontsOk_append ha 0 hb
  char _ h := .char (fun hc => h (by simp [hc])) .nil
  fonts {c s} hc h := by
    refine .on hc ?_
    have : FontsOk (0 + 1) (s ++ ['\\', 'f', 'P']) := fontsOk_append h 1 (.off .nil)
    exact this
  quoted := by
    intro s _
    rw [quoted_eq]
    exact .char (by decide) (fontsOk_append (fontsOk_quoteBody s) 0 (.char (by decide) .nil))
  bold h := fontsOk_append (n := 0) (fontsOk_append (n := 0) (fontsOk_plain (by decide)) 0 h) 0 (fontsOk_plain (by decide))

end Sharg
