import Verif.Props.Placed
import Verif.Spec.ManPage

/-!
# C70: reading man pages
-/

namespace Sharg

open Spec

variable {W : Type}

/-- Lines with their line feeds. -/
def unlines (ls : List Str) : Str := ls.flatMap (· ++ ['\n'])

theorem unlines_append (a b : List Str) : unlines (a ++ b) = unlines a ++ unlines b := List.flatMap_append

theorem manPiece_text {t : Str} (h : PlainLine t) : manPiece t = .text t := by
  obtain ⟨-, h1, h2⟩ := h
  cases t with
  | nil => exact absurd rfl h1
  | cons c s =>
    have h3 := h2 c rfl
    simp only [List.mem_cons, List.not_mem_nil, or_false, not_or] at h3
    obtain ⟨a1, a2, a3⟩ := h3
    have hne : ∀ u : Str, c :: s ≠ '.' :: u := by
      intro u hu
      injection hu with hu
      exact a2 hu
    have hpre : ∀ (d e : Char), List.isPrefixOf ['.', d, e, ' '] (c :: s) = false := by
      intro d e
      have : ('.' == c) = false := by simpa using Ne.symm a2
      simp only [List.isPrefixOf, this, Bool.false_and]
    have n1 : c :: s ≠ ".TP".toList := hne ['T', 'P']
    have n2 : c :: s ≠ ".br".toList := hne ['b', 'r']
    have n3 : c :: s ≠ ".sp".toList := hne ['s', 'p']
    unfold manPiece
    rw [if_neg n1, if_neg n2, if_neg n3]
    have e1 : ".TH ".toList = ['.', 'T', 'H', ' '] := rfl
    have e2 : ".SH ".toList = ['.', 'S', 'H', ' '] := rfl
    have e3 : ".SS ".toList = ['.', 'S', 'S', ' '] := rfl
    rw [e1, e2, e3, hpre, hpre, hpre]
    simp only [Bool.false_and, Bool.false_eq_true, if_false, a1, a2, a3, or_self]

theorem manPiece_heading {t : Str} (h : t ≠ []) : manPiece (".SH ".toList ++ t) = .heading t := by
  cases t with
  | nil => exact absurd rfl h
  | cons c s =>
    have : ".SH ".toList ++ c :: s = '.' :: 'S' :: 'H' :: ' ' :: c :: s := rfl
    rw [this]
    simp [manPiece, List.isPrefixOf]

theorem manPiece_subheading {t : Str} (h : t ≠ []) : manPiece (".SS ".toList ++ t) = .subheading t := by
  cases t with
  | nil => exact absurd rfl h
  | cons c s =>
    have : ".SS ".toList ++ c :: s = '.' :: 'S' :: 'S' :: ' ' :: c :: s := rfl
    rw [this]
    simp [manPiece, List.isPrefixOf]

theorem manPiece_title (t : Str) : manPiece (".TH ".toList ++ t) = .title t := by
  have : ".TH ".toList ++ t = '.' :: 'T' :: 'H' :: ' ' :: t := rfl
  rw [this]
  simp [manPiece, List.isPrefixOf]

/-- Titles of sections and subsections. -/
def isTitle : Block → Bool
  | .sec _ => true
  | .subsec _ => true
  | _ => false

/-- The lines that are written for an element. -/
def manLines (first : Bool) : Block → List Str
  | .sec t => [".SH ".toList ++ t.map Char.toUpper]
  | .subsec t => [".SS ".toList ++ t]
  | .line t p => (if first then [] else [if p then ".sp".toList else ".br".toList]) ++ [t]
  | .item k d => [".TP".toList, k, d]

theorem manBlock_lines (b : Block) {h h' : ManState} (e : manBlock b h = .ok () h') :
    h'.out = h.out ++ unlines (manLines h.isFirst b) ∧ h'.isFirst = isTitle b := by
  cases b with
  | sec t => cases e; exact ⟨by simp [unlines, manLines, upper_map], rfl⟩
  | subsec t => cases e; exact ⟨by simp [unlines, manLines], rfl⟩
  | line t p =>
    cases e
    refine ⟨?_, rfl⟩
    show h.out ++ (if h.isFirst then [] else _) ++ t ++ "\n".toList = _
    rw [List.append_assoc, List.append_assoc]
    congr 1
    generalize h.isFirst = f
    cases f <;> cases p <;> simp [unlines, manLines]
  | item k d => cases e; exact ⟨by simp [unlines, manLines], rfl⟩

theorem toUpper_low {c d : Char} (hd : d.toNat < 65) (h : c.toUpper = d) : c = d := by
  rw [← upperChar_eq] at h
  unfold upperChar at h
  split at h
  · rename_i hc
    have h5 : 97 ≤ c.toNat := hc.1
    have h6 : c.toNat ≤ 122 := hc.2
    have : ∀ m : Fin 26, (Char.ofNat (m.val + 65)).toNat = m.val + 65 := by decide +kernel
    have := this ⟨c.toNat - 97, by omega⟩
    simp only at this
    rw [show c.toNat - 97 + 65 = c.toNat - 32 by omega, h] at this
    omega
  · exact h

theorem toLower_low {c d : Char} (hd : d.toNat < 65) (h : c.toLower = d) : c = d := by
  rw [← lowerChar_eq] at h
  unfold lowerChar at h
  split at h
  · rename_i hc
    have h5 : 65 ≤ c.toNat := hc.1
    have h6 : c.toNat ≤ 90 := hc.2
    have : ∀ m : Fin 26, (Char.ofNat (m.val + 97)).toNat = m.val + 97 := by decide +kernel
    have := this ⟨c.toNat - 65, by omega⟩
    simp only at this
    rw [show c.toNat - 65 + 97 = c.toNat + 32 by omega, h] at this
    omega
  · exact h

theorem low_upper {t : Str} {d : Char} (hd : d.toNat < 65) (h : d ∉ t) : d ∉ t.map Char.toUpper := by
  intro hh
  obtain ⟨c, h1, h2⟩ := List.mem_map.1 hh
  exact h (toUpper_low hd h2 ▸ h1)

theorem low_lower {t : Str} {d : Char} (hd : d.toNat < 65) (h : d ∉ t) : d ∉ t.map Char.toLower := by
  intro hh
  obtain ⟨c, h1, h2⟩ := List.mem_map.1 hh
  exact h (toLower_low hd h2 ▸ h1)

theorem newline_upper {t : Str} (h : '\n' ∉ t) : '\n' ∉ t.map Char.toUpper := low_upper (by decide) h

theorem plain_lines {b : Block} (h : PlainElement b) (first : Bool) : ∀ l ∈ manLines first b, '\n' ∉ l := by
  have hs : '\n' ∉ ".SH ".toList := by decide
  have hss : '\n' ∉ ".SS ".toList := by decide
  have htp : '\n' ∉ ".TP".toList := by decide
  have hsp : '\n' ∉ ".sp".toList := by decide
  have hbr : '\n' ∉ ".br".toList := by decide
  intro l hl hn
  cases b with
  | sec t =>
    rw [List.mem_singleton.1 hl] at hn
    rcases List.mem_append.1 hn with hn | hn
    · exact hs hn
    · exact newline_upper h.1 hn
  | subsec t =>
    rw [List.mem_singleton.1 hl] at hn
    rcases List.mem_append.1 hn with hn | hn
    · exact hss hn
    · exact h.1 hn
  | line t p =>
    rcases List.mem_append.1 hl with hl | hl
    · cases first with
      | true => cases hl
      | false =>
        rw [List.mem_singleton.1 hl] at hn
        cases p with
        | true => exact hsp hn
        | false => exact hbr hn
    · rw [List.mem_singleton.1 hl] at hn
      exact h.1 hn
  | item k d =>
    rcases List.mem_cons.1 hl with rfl | hl
    · exact htp hn
    rcases List.mem_cons.1 hl with rfl | hl
    · exact h.1.1 hn
    rw [List.mem_singleton.1 hl] at hn
    exact h.2.1 hn

theorem plain_pieces {b : Block} (h : PlainElement b) (first : Bool) (bs : List Block) :
    manPieces first (b :: bs) = (manLines first b).map manPiece
      ++ manPieces (isTitle b) bs := by
  cases b with
  | sec t =>
    show _ = manPiece _ :: _
    rw [manPiece_heading (by simpa using h.2)]
    rfl
  | subsec t =>
    show _ = manPiece _ :: _
    rw [manPiece_subheading h.2]
    rfl
  | line t p =>
    have h : PlainLine t := h
    have e1 : manPiece ".sp".toList = .space := by decide +kernel
    have e2 : manPiece ".br".toList = .lineBreak := by decide +kernel
    cases first <;> cases p <;> simp only [manPieces, manLines, isTitle, Bool.false_eq_true, if_true, if_false, List.map_cons,
      List.map_nil, manPiece_text h, e1, e2, List.cons_append, List.nil_append]
  | item k d =>
    show _ = manPiece _ :: manPiece _ :: manPiece _ :: _
    rw [manPiece_text h.1, manPiece_text h.2]
    rfl

theorem man_steps (pr : Printer ManState) (hpr : pr.block = manBlock) (bs : List Block) (hb : ∀ b ∈ bs, PlainElement b) {h h' : ManState}
    (e : pr.steps (bs.map .ok) h = .ok () h') :
    ∃ ls, h'.out = h.out ++ unlines ls ∧ (∀ l ∈ ls, '\n' ∉ l) ∧ ls.map manPiece = manPieces h.isFirst bs := by
  induction bs generalizing h with
  | nil => cases e; exact ⟨[], by simp [unlines], by simp, rfl⟩
  | cons b bs ih =>
    have e : M.bind (pr.block b) (fun _ => pr.steps (bs.map .ok)) h = .ok () h' := e
    rw [M.bind_eq_ok, hpr] at e
    obtain ⟨_, h1, e1, e2⟩ := e
    obtain ⟨a1, a2⟩ := manBlock_lines b e1
    obtain ⟨ls, c1, c2, c3⟩ := ih (fun b hh => hb b (List.mem_cons_of_mem _ hh)) e2
    have hp := hb b (List.mem_cons_self ..)
    refine ⟨manLines h.isFirst b ++ ls, ?_, ?_, ?_⟩
    · rw [c1, a1, unlines_append, List.append_assoc]
    · intro l hl
      rcases List.mem_append.1 hl with hl | hl
      · exact plain_lines hp _ l hl
      · exact c2 l hl
    · rw [List.map_append, c3, plain_pieces hp, a2]

/-- C70 (partial): if the texts of the man page are single lines that do not start with a blank, a dot or an apostrophe, then
the formatter of man pages reads exactly the elements of the page, after the title line and the name. -/
theorem C70_man_page_is_read_back_partial (pe : PageEnv) (p : Parser W) (st : Store) (hn : CleanName p.appName)
    (hd : '\n' ∉ pe.info.date ∧ '"' ∉ pe.info.date) (hv : '\n' ∉ pe.info.version ∧ '"' ∉ pe.info.version)
    (ht : '\n' ∉ pe.info.manPageTitle ∧ '"' ∉ pe.info.manPageTitle) (hs : '\n' ∉ pe.info.shortDescription)
    (hb : ∀ b ∈ elements (outline pe .man p st), PlainElement b) (h : (pageOf pe .man p st).1 = none) :
    ∃ ls args number, (pageOf pe .man p st).2 = unlines ls ∧ (∀ l ∈ ls, '\n' ∉ l) ∧
      ls.map manPiece = .title args :: .heading "NAME".toList :: .text (p.appName ++ " \\- ".toList ++ pe.info.shortDescription)
        :: manPieces true (elements (outline pe .man p st)) ∧
      IsDecimal number ∧ decValue number = pe.info.manPageSection ∧
      MacroArgs args [p.appName.map Char.toUpper, number, pe.info.date, p.appName.map Char.toLower ++ " ".toList ++ pe.info.version,
        pe.info.manPageTitle] := by
  have h : (printFullPage (manPrinter p.appName pe.info) (pe.input false p st) ⟨[], true⟩).exn? = none := h
  have hp : (pageOf pe .man p st).2 =
    (printFullPage (manPrinter p.appName pe.info) (pe.input false p st) ⟨[], true⟩).state.out := rfl
  rw [hp]
  cases hr : printFullPage (manPrinter p.appName pe.info) (pe.input false p st) ⟨[], true⟩ with
  | err e s => rw [hr] at h; cases h
  | ok u s =>
    unfold printFullPage at hr
    rw [M.bind_eq_ok] at hr
    obtain ⟨_, s1, e1, hr⟩ := hr
    rw [M.bind_eq_ok] at hr
    obtain ⟨_, s2, e2, e3⟩ := hr
    cases e3
    obtain ⟨start, g1, number, g2, g3, g4⟩ := prints_manHeader _ _ _ _ e1
    have hs1 : s1.isFirst = true := by cases e1; rfl
    obtain ⟨bs, hbs⟩ := steps_ok _ e2
    rw [hbs] at e2
    have : bs = elements (outline pe .man p st) := pageSteps_outline pe .man p st bs hbs
    subst this
    obtain ⟨ls, c1, c2, c3⟩ := man_steps _ rfl _ hb e2
    rw [hs1] at c3
    obtain ⟨args, hargs⟩ : ∃ args, args = p.appName.map Char.toUpper ++ [' '] ++ (number ++ [' '] ++ ("\"".toList ++ pe.info.date
      ++ "\" ".toList ++ ("\"".toList ++ (p.appName.map Char.toLower ++ " ".toList ++ pe.info.version) ++ "\" ".toList
      ++ ("\"".toList ++ pe.info.manPageTitle ++ "\"".toList)))) := ⟨_, rfl⟩
    have hout : start = unlines [".TH ".toList ++ args, ".SH ".toList ++ "NAME".toList,
        p.appName ++ " \\- ".toList ++ pe.info.shortDescription] := by
      have l1 : " \"".toList = [' '] ++ "\"".toList := by decide +kernel
      have l2 : "\" \"".toList = "\" ".toList ++ "\"".toList := by decide +kernel
      have l3 : "\"\n.SH NAME\n".toList = "\"".toList ++ ['\n'] ++ ".SH ".toList ++ "NAME".toList ++ ['\n'] := by decide +kernel
      have l4 : "\n".toList = ['\n'] := rfl
      have l5 : " ".toList = [' '] := rfl
      rw [g4, hargs, l1, l2, l3, l4, l5]
      unfold unlines
      simp only [List.flatMap_cons, List.flatMap_nil, List.append_nil, List.append_assoc]
    have hclean : ∀ d : Char, d ∈ [' ', '"', '\n'] → d ∉ p.appName := by
      intro d hd hh
      have h1 := hn.2 d hh
      have h2 : ∀ d ∈ [' ', '"', '\n'], ¬ (('a' ≤ d ∧ d ≤ 'z') ∨ ('A' ≤ d ∧ d ≤ 'Z') ∨ ('0' ≤ d ∧ d ≤ '9') ∨ d = '_' ∨ d = '-') := by
        decide
      exact h2 d hd h1
    have hnum : ∀ d : Char, d ∈ [' ', '"', '\n'] → d ∉ number := by
      intro d hd hh
      have h1 := g2.2 d hh
      have h2 : ∀ d ∈ [' ', '"', '\n'], d ∉ digits := by decide
      exact h2 d hd h1
    have hup : ∀ d : Char, d ∈ [' ', '"', '\n'] → d ∉ p.appName.map Char.toUpper := by
      intro d hd
      have : ∀ d ∈ [' ', '"', '\n'], d.toNat < 65 := by decide
      exact low_upper (this d hd) (hclean d hd)
    have hlo : ∀ d : Char, d ∈ [' ', '"', '\n'] → d ∉ p.appName.map Char.toLower := by
      intro d hd
      have : ∀ d ∈ [' ', '"', '\n'], d.toNat < 65 := by decide
      exact low_lower (this d hd) (hclean d hd)
    refine ⟨[".TH ".toList ++ args, ".SH ".toList ++ "NAME".toList, p.appName ++ " \\- ".toList ++ pe.info.shortDescription] ++ ls, args,
      number, ?_, ?_, ?_, g2, g3, ?_⟩
    · show s.out = _
      rw [c1, g1, hout, unlines_append]
      rfl
    · intro l hl
      rcases List.mem_append.1 hl with hl | hl
      · rcases List.mem_cons.1 hl with rfl | hl
        · rw [hargs]
          have m1 : '\n' ∉ ".TH ".toList := by decide
          have m2 : '\n' ∉ "\"".toList := by decide
          have m3 : '\n' ∉ "\" ".toList := by decide
          have m4 : '\n' ∉ " ".toList := by decide
          have m5 : '\n' ∉ [' '] := by decide
          simp only [List.mem_append, not_or]
          exact ⟨m1, ⟨hup _ (by simp), m5⟩, ⟨hnum _ (by simp), m5⟩, ⟨⟨m2, hd.1⟩, m3⟩, ⟨⟨m2, ⟨hlo _ (by simp), m4⟩, hv.1⟩, m3⟩,
            ⟨m2, ht.1⟩, m2⟩
        rcases List.mem_cons.1 hl with rfl | hl
        · decide
        rw [List.mem_singleton.1 hl]
        have m1 : '\n' ∉ " \\- ".toList := by decide
        simp only [List.mem_append, not_or]
        exact ⟨⟨hclean _ (by simp), m1⟩, hs⟩
      · exact c2 l hl
    · rw [List.map_append, c3, List.map_cons, List.map_cons, List.map_cons, List.map_nil, manPiece_title,
        manPiece_heading (by decide)]
      have : PlainLine (p.appName ++ " \\- ".toList ++ pe.info.shortDescription) := by
        have m1 : '\n' ∉ " \\- ".toList := by decide
        refine ⟨?_, ?_, ?_⟩
        · simp only [List.mem_append, not_or]
          exact ⟨⟨hclean _ (by simp), m1⟩, hs⟩
        · intro hh
          have := (List.append_eq_nil_iff.1 (List.append_eq_nil_iff.1 hh).1).1
          exact hn.1 this
        · intro c hc
          cases ha : p.appName with
          | nil => exact absurd ha hn.1
          | cons x xs =>
            rw [ha] at hc
            injection hc with hc
            subst hc
            have h1 := hn.2 x (by rw [ha]; exact List.mem_cons_self ..)
            intro hx
            have h2 : ∀ d ∈ [' ', '.', '\''], ¬ (('a' ≤ d ∧ d ≤ 'z') ∨ ('A' ≤ d ∧ d ≤ 'Z') ∨ ('0' ≤ d ∧ d ≤ '9') ∨ d = '_' ∨ d = '-') := by
              decide
            exact h2 x hx h1
      rw [manPiece_text this]
      rfl
    · rw [hargs]
      refine .word ?_ ?_ (.word ?_ ?_ (.quoted hd.2 (.quoted ?_ (.last ht.2))))
      · intro hh
        exact hn.1 (List.map_eq_nil_iff.1 hh)
      · intro c hc
        exact ⟨fun hh => hup c (by simp [hh]) hc, fun hh => hup c (by simp [hh]) hc⟩
      · exact g2.1
      · intro c hc
        exact ⟨fun hh => hnum c (by simp [hh]) hc, fun hh => hnum c (by simp [hh]) hc⟩
      · have m4 : '"' ∉ " ".toList := by decide
        simp only [List.mem_append, not_or]
        exact ⟨⟨hlo _ (by simp), m4⟩, hv.2⟩

/-- C70: a text without other backslash sequences than those for fonts and `\\-` shows the same characters in a man page and
on the console. -/
theorem C70_same_characters {s t : Str} (h : RoffText s t) (hr : ¬ ['\\', 'f', 'R'] <:+: s) : ConsoleText false s t := by
  induction h with
  | nil => exact .nil
  | @char c s t hc _ ih => exact .char hc (ih fun ⟨a, b, hh⟩ => hr ⟨c :: a, b, by rw [← hh]; rfl⟩)
  | @dash s t _ ih => exact .dash (ih fun ⟨a, b, hh⟩ => hr ⟨'\\' :: '-' :: a, b, by rw [← hh]; rfl⟩)
  | @font c s t hc _ ih =>
    have ih := ih fun ⟨a, b, hh⟩ => hr ⟨'\\' :: 'f' :: c :: a, b, by rw [← hh]; rfl⟩
    simp only [List.mem_cons, List.not_mem_nil, or_false] at hc
    rcases hc with rfl | rfl | rfl | rfl
    · exact .font (d := '1') (by simp) ih
    · exact .font (d := '4') (by simp) ih
    · exact absurd ⟨[], s, rfl⟩ hr
    · exact .font (d := '0') (by simp) ih

/-! ### Counterexamples and examples -/

/-- C70 does not hold as stated: a description that begins with a dot is an instruction for the formatter, which shows nothing
for it ... -/
theorem C70_description_is_an_instruction :
    (pageOf (exPages {}) .man (exPageParser [.flag { short := 'z', description := ".gz files are written.".toList } 0])
      exPageStore).1 = none ∧
    "\n.TP\n\\fB-z\\fP\n.gz files are written.\n".toList <:+:
      (pageOf (exPages {}) .man (exPageParser [.flag { short := 'z', description := ".gz files are written.".toList } 0])
        exPageStore).2 ∧
    manPiece ".gz files are written.".toList = .request ".gz files are written.".toList := by
  decide +kernel

/-- ... and a description with a line feed can even begin a new section. -/
theorem C70_description_begins_a_section :
    (pageOf (exPages {}) .man (exPageParser [.flag { short := 'z', description := "Text.\n.SH Options\nText.".toList } 0])
      exPageStore).1 = none ∧
    "\n.TP\n\\fB-z\\fP\nText.\n.SH Options\nText.\n".toList <:+:
      (pageOf (exPages {}) .man (exPageParser [.flag { short := 'z', description := "Text.\n.SH Options\nText.".toList } 0])
        exPageStore).2 := by
  decide +kernel

instance (t : Str) : Decidable (PlainLine t) := by
  unfold PlainLine
  cases h : t.head? with
  | none => exact decidable_of_iff ('\n' ∉ t ∧ t ≠ []) (by simp)
  | some c => exact decidable_of_iff ('\n' ∉ t ∧ t ≠ [] ∧ c ∉ [' ', '.', '\'']) (by simp)

instance (b : Block) : Decidable (PlainElement b) := by
  cases b <;> unfold PlainElement <;> infer_instance

/-- The conditions hold for a usual app. -/
example : (∀ b ∈ elements (outline (exPages exDescribed) .man (exPageParser [exSecret false false]) exPageStore), PlainElement b) ∧
    CleanName (exPageParser [exSecret false false]).appName ∧
    (pageOf (exPages exDescribed) .man (exPageParser [exSecret false false]) exPageStore).1 = none := by
  decide +kernel

end Sharg
