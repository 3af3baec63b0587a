import Verif.Lemmas.PagePrint

/-!
# Lemmas about nested tags
-/

namespace Sharg

open Spec

theorem wellNested_append {a b : Str} (ha : WellNested a) (hb : WellNested b) : WellNested (a ++ b) := by
  induction ha with
  | nil => exact hb
  | char h1 h2 _ ih => exact .char h1 h2 ih
  | void h1 h2 _ ih => rw [List.append_assoc]; exact .void h1 h2 ih
  | element h1 h2 h3 _ _ ih => rw [List.append_assoc]; exact .element h1 h2 h3 ih

theorem wellNested_plain {s : Str} (h : ∀ c ∈ s, c ≠ '<' ∧ c ≠ '>') : WellNested s := by
  induction s with
  | nil => exact .nil
  | cons c s ih =>
    exact .char (h c (by simp)).1 (h c (by simp)).2 (ih fun d hd => h d (by simp [hd]))

/-- An element without attributes. -/
theorem wellNested_element {name body : Str} (h1 : name ∉ voidElements) (h2 : name ≠ []) (h3 : ∀ c ∈ name, c ∈ tagChars)
    (h : WellNested body) : WellNested (['<'] ++ name ++ ['>'] ++ body ++ (['<', '/'] ++ name ++ ['>'])) := by
  have := WellNested.element (name := name) (tag := name) (s := []) h1 ⟨h2, h3, [], by simp, by simp, by simp⟩ h .nil
  simpa using this

/-- In properly nested content there are as many opening as closing angle brackets. -/
theorem wellNested_count {s : Str} (h : WellNested s) : s.count '<' = s.count '>' := by
  have tagName : ∀ {name : Str}, (∀ c ∈ name, c ∈ tagChars) → ∀ d, d ∉ tagChars → name.count d = 0 := by
    intro name hn d hd
    exact List.count_eq_zero.2 fun hm => hd (hn d hm)
  have tagCount : ∀ {name tag : Str}, StartTag name tag → tag.count '<' = 0 ∧ tag.count '>' = 0 := by
    rintro name tag ⟨_, hn, attrs, rfl, ha, _⟩
    rw [List.count_append, List.count_append, tagName hn '<' (by decide), tagName hn '>' (by decide)]
    have h1 : attrs.count '<' = 0 := List.count_eq_zero.2 fun hm => (ha _ hm).1 rfl
    have h2 : attrs.count '>' = 0 := List.count_eq_zero.2 fun hm => (ha _ hm).2 rfl
    omega
  induction h with
  | nil => rfl
  | char h1 h2 _ ih => rw [List.count_cons_of_ne h1, List.count_cons_of_ne h2, ih]
  | void h1 h2 _ ih =>
    have := tagCount h2
    simp only [List.count_append, List.count_cons, List.count_nil, this, ih]
    simp
  | element h1 h2 _ _ ih1 ih2 =>
    have := tagCount h2
    simp only [List.count_append, List.count_cons, List.count_nil, this, ih1, ih2,
      tagName h2.2.1 '<' (by decide), tagName h2.2.1 '>' (by decide)]
    simp

/-- The tags that are open behind a text, innermost first. -/
inductive OpenIn : List Str → Str → Prop
  | base {a} : WellNested a → OpenIn [] a
  | push {ts a name tag b} : OpenIn ts a → name ∉ voidElements → StartTag name tag → WellNested b →
      OpenIn (name :: ts) (a ++ (['<'] ++ tag ++ ['>']) ++ b)

theorem openIn_append {ts : List Str} {a b : Str} (ha : OpenIn ts a) (hb : WellNested b) : OpenIn ts (a ++ b) := by
  cases ha with
  | base h => exact .base (wellNested_append h hb)
  | push h1 h2 h3 h4 => rw [List.append_assoc]; exact .push h1 h2 h3 (wellNested_append h4 hb)

theorem openIn_push {ts : List Str} {a name tag : Str} (ha : OpenIn ts a) (h2 : name ∉ voidElements)
    (h3 : StartTag name tag) : OpenIn (name :: ts) (a ++ (['<'] ++ tag ++ ['>'])) := by
  have := OpenIn.push (b := []) ha h2 h3 .nil
  simpa using this

theorem openIn_pop {ts : List Str} {a name : Str} (ha : OpenIn (name :: ts) a) :
    OpenIn ts (a ++ (['<', '/'] ++ name ++ ['>'])) := by
  cases ha with
  | push h1 h2 h3 h4 =>
    have hw := WellNested.element (s := []) h2 h3 h4 .nil
    have := openIn_append h1 hw
    simpa using this

/-! ### Texts -/

/-- The text becomes properly nested HTML, wherever it stands. -/
def Neutral (nd : Bool) (s : Str) : Prop :=
  ∃ o, WellNested o ∧ ∀ tags rest, toHtmlFrom nd tags (s ++ rest) = prependTo o (toHtmlFrom nd tags rest)

theorem prependTo_prependTo (a b : Str) (r : Except Exn Str) : prependTo a (prependTo b r) = prependTo (a ++ b) r := by
  cases r <;> simp [prependTo]

theorem neutral_append {nd : Bool} {a b : Str} (ha : Neutral nd a) (hb : Neutral nd b) : Neutral nd (a ++ b) := by
  obtain ⟨o1, w1, h1⟩ := ha
  obtain ⟨o2, w2, h2⟩ := hb
  refine ⟨o1 ++ o2, wellNested_append w1 w2, fun tags rest => ?_⟩
  rw [List.append_assoc, h1, h2, prependTo_prependTo]

theorem neutral_nil (nd : Bool) : Neutral nd [] := ⟨[], .nil, fun tags rest => by
  cases h : toHtmlFrom nd tags rest <;> simp [prependTo, h]⟩

theorem neutral_char (nd : Bool) {c : Char} (h1 : c ≠ '\\') (h2 : c ≠ '<') (h3 : c ≠ '>') : Neutral nd [c] :=
  ⟨[c], .char h2 h3 .nil, fun tags rest => toHtmlFrom_char nd tags h1 rest⟩

theorem neutral_fonts (nd : Bool) {c : Char} (hc : c ∈ ['B', 'I']) {s : Str} (h : Neutral nd s) :
    Neutral nd (['\\', 'f', c] ++ s ++ ['\\', 'f', 'P']) := by
  obtain ⟨o, w, h⟩ := h
  simp only [List.mem_cons, List.not_mem_nil, or_false] at hc
  rcases hc with rfl | rfl
  · refine ⟨['<'] ++ "strong".toList ++ ['>'] ++ o ++ (['<', '/'] ++ "strong".toList ++ ['>']),
      wellNested_element (by decide) (by decide) (by decide) w, fun tags rest => ?_⟩
    have e1 : (['\\', 'f', 'B'] ++ s ++ ['\\', 'f', 'P']) ++ rest = '\\' :: 'f' :: 'B' :: (s ++ ('\\' :: 'f' :: 'P' :: rest)) := by
      simp
    rw [e1, toHtmlFrom_B, h, toHtmlFrom_P, prependTo_prependTo, prependTo_prependTo]
    congr 1
  · refine ⟨['<'] ++ "em".toList ++ ['>'] ++ o ++ (['<', '/'] ++ "em".toList ++ ['>']),
      wellNested_element (by decide) (by decide) (by decide) w, fun tags rest => ?_⟩
    have e1 : (['\\', 'f', 'I'] ++ s ++ ['\\', 'f', 'P']) ++ rest = '\\' :: 'f' :: 'I' :: (s ++ ('\\' :: 'f' :: 'P' :: rest)) := by
      simp
    rw [e1, toHtmlFrom_I, h, toHtmlFrom_P, prependTo_prependTo, prependTo_prependTo]
    congr 1

theorem neutral_escape (nd : Bool) {c : Char} (h1 : c ≠ 'f') (h2 : c ≠ '<') (h3 : c ≠ '>') : Neutral nd ['\\', c] := by
  by_cases hc : c = '-'
  · subst hc
    exact ⟨['-'], .char (by decide) (by decide) .nil, fun tags rest => toHtmlFrom_dash nd tags rest⟩
  · exact ⟨['\\', c], .char (by decide) (by decide) (.char h2 h3 .nil), fun tags rest => toHtmlFrom_escape nd tags hc h1 rest⟩

theorem neutral_of_balanced (nd : Bool) {s : Str} (h : Balanced s) : Neutral nd s := by
  induction h with
  | nil => exact neutral_nil nd
  | char h1 h2 h3 _ ih => exact neutral_append (neutral_char nd h1 h2 h3) ih
  | escape h1 h2 h3 _ ih => exact neutral_append (neutral_escape nd h1 h2 h3) ih
  | unknown h1 _ ih =>
    rename_i c s _
    simp only [List.mem_cons, List.not_mem_nil, or_false, not_or] at h1
    refine neutral_append (a := ['\\', 'f', c]) ⟨['\\', 'f', c], .char (by decide) (by decide) (.char (by decide) (by decide)
      (.char h1.2.2.2.1 h1.2.2.2.2 .nil)), fun tags rest => toHtmlFrom_unknown nd tags ?_ rest⟩ ih
    simp [h1]
  | fonts hc _ _ ih1 ih2 =>
    rename_i c body s _ _
    have := neutral_append (neutral_fonts nd hc ih1) ih2
    simpa using this

theorem neutral_quoteBody (nd : Bool) {s : Str} (h : '<' ∉ s ∧ '>' ∉ s) : Neutral nd (quoteBody s) := by
  induction s with
  | nil => exact neutral_nil nd
  | cons c s ih =>
    simp only [List.mem_cons, not_or] at h
    rw [quoteBody_cons]
    refine neutral_append ?_ (ih ⟨h.1.2, h.2.2⟩)
    split
    · rename_i hc
      refine neutral_escape nd ?_ (Ne.symm h.1.1) (Ne.symm h.2.1)
      rcases hc with rfl | rfl <;> decide
    · rename_i hc
      simp only [not_or] at hc
      exact neutral_char nd hc.2 (Ne.symm h.1.1) (Ne.symm h.2.1)

/-- A properly nested piece of HTML without backslash is neutral. -/
theorem neutral_html (nd : Bool) {s : Str} (h : '\\' ∉ s) (hw : WellNested s) : Neutral nd s := by
  refine ⟨s, hw, fun tags rest => ?_⟩
  clear hw
  induction s with
  | nil => cases h : toHtmlFrom nd tags rest <;> simp [prependTo, h]
  | cons c s ih =>
    simp only [List.mem_cons, not_or] at h
    rw [List.cons_append, toHtmlFrom_char nd tags (Ne.symm h.1), ih h.2, prependTo_prependTo]
    rfl

/-- Neutral texts are a class; in quotes it suffices that there are no angle brackets. -/
theorem neutralClass (nd : Bool) : TextClass (Neutral nd) (fun s => '<' ∉ s ∧ '>' ∉ s)
    (fun s => "<strong>".toList ++ s ++ "</strong>".toList) where
  nil := neutral_nil nd
  append := neutral_append
  char _ h := by
    simp only [List.mem_cons, List.not_mem_nil, or_false, not_or] at h
    exact neutral_char nd h.1 h.2.1 h.2.2
  fonts hc h := neutral_fonts nd hc h
  quoted h := by
    rw [quoted_eq]
    exact neutral_append (neutral_char nd (c := '"') (by decide) (by decide) (by decide)) (neutral_append
      (neutral_quoteBody nd h) (neutral_char nd (c := '"') (by decide) (by decide) (by decide)))
  bold {s} h := by
    obtain ⟨o, w, h⟩ := h
    refine ⟨['<'] ++ "strong".toList ++ ['>'] ++ o ++ (['<', '/'] ++ "strong".toList ++ ['>']),
      wellNested_element (by decide) (by decide) (by decide) w, fun tags rest => ?_⟩
    have plain : ∀ (t : Str), '\\' ∉ t → ∀ rest, toHtmlFrom nd tags (t ++ rest) = prependTo t (toHtmlFrom nd tags rest) := by
      intro t
      induction t with
      | nil => intro _ rest; cases h : toHtmlFrom nd tags rest <;> simp [prependTo, h]
      | cons c t ih =>
        intro ht rest
        simp only [List.mem_cons, not_or] at ht
        rw [List.cons_append, toHtmlFrom_char nd tags (Ne.symm ht.1), ih ht.2, prependTo_prependTo]
        rfl
    rw [List.append_assoc, List.append_assoc, plain _ (by decide), h, plain _ (by decide), prependTo_prependTo,
      prependTo_prependTo]
    congr 1

/-! ### The page -/

/-- The tags open after the print calls so far. -/
def openTags (h : HtmlState) : List Str :=
  (if h.isDl then ["dl".toList] else []) ++ (if h.isP then ["p".toList] else []) ++ ["body".toList, "html".toList]

/-- What holds between two print calls: behind the document type the tags are nested, and not both a list and a paragraph
are open. -/
def HtmlInv (doctype : Str) (h : HtmlState) : Prop :=
  ∃ s, h.out = doctype ++ s ∧ OpenIn (openTags h) s ∧ ¬ (h.isDl = true ∧ h.isP = true)

theorem startTag_plain {name : Str} (h1 : name ≠ []) (h2 : ∀ c ∈ name, c ∈ tagChars) : StartTag name name :=
  ⟨h1, h2, [], by simp, by simp, by simp⟩

theorem inv_append {d : Str} {h : HtmlState} (hi : HtmlInv d h) {o : Str} (ho : WellNested o) :
    HtmlInv d { h with out := h.out ++ o } := by
  obtain ⟨s, h1, h2, h3⟩ := hi
  exact ⟨s ++ o, by simp [h1], openIn_append h2 ho, h3⟩

/-- The state after `maybe_close_list`. -/
def closeList (h : HtmlState) : HtmlState :=
  { h with out := h.out ++ (if h.isDl then "</dl>\n".toList else []), isDl := false }

/-- The state after `maybe_close_paragraph`. -/
def closeParagraph (h : HtmlState) : HtmlState :=
  { h with out := h.out ++ (if h.isP then "</p>\n".toList else []), isP := false }

theorem inv_closeList {d : Str} {h : HtmlState} (hi : HtmlInv d h) : HtmlInv d (closeList h) := by
  obtain ⟨s, h1, h2, h3⟩ := hi
  by_cases hd : h.isDl = true
  · have hp : h.isP = false := by cases hp : h.isP <;> simp_all
    have h4 : OpenIn ("dl".toList :: ["body".toList, "html".toList]) s := by simpa [openTags, hd, hp] using h2
    have h5 := openIn_append (openIn_pop h4) (b := ['\n']) (.char (by decide) (by decide) .nil)
    refine ⟨_, ?_, by simpa [openTags, closeList, hp] using h5, by simp [closeList]⟩
    simp [closeList, hd, h1]
  · have hd' : h.isDl = false := by simpa using hd
    refine ⟨s, by simp [closeList, hd', h1], ?_, by simp [closeList]⟩
    simpa [openTags, closeList, hd'] using h2

theorem inv_closeParagraph {d : Str} {h : HtmlState} (hi : HtmlInv d h) : HtmlInv d (closeParagraph h) := by
  obtain ⟨s, h1, h2, h3⟩ := hi
  by_cases hp : h.isP = true
  · have hd : h.isDl = false := by cases hd : h.isDl <;> simp_all
    have h4 : OpenIn ("p".toList :: ["body".toList, "html".toList]) s := by simpa [openTags, hd, hp] using h2
    have h5 := openIn_append (openIn_pop h4) (b := ['\n']) (.char (by decide) (by decide) .nil)
    refine ⟨_, ?_, by simpa [openTags, closeParagraph, hd] using h5, by simp [closeParagraph]⟩
    simp [closeParagraph, hp, h1]
  · have hp' : h.isP = false := by simpa using hp
    refine ⟨s, by simp [closeParagraph, hp', h1], ?_, by simp [closeParagraph]⟩
    simpa [openTags, closeParagraph, hp'] using h2

theorem bind_of_ok {σ α β : Type} {m : M σ α} {f : α → M σ β} {s s' : σ} {a : α} (h : m s = .ok a s') :
    M.bind m f s = f a s' := by
  simp [M.bind, h]

/-- The state with more output. -/
def HtmlState.emit (h : HtmlState) (o : Str) : HtmlState := { h with out := h.out ++ o }

/-- The state in an open paragraph. -/
def openParagraph (h : HtmlState) : HtmlState :=
  { h with out := h.out ++ (if h.isP then [] else "<p>\n".toList), isP := true }

/-- The state in an open list. -/
def openList (h : HtmlState) : HtmlState :=
  { h with out := h.out ++ (if h.isDl then [] else "<dl>\n".toList), isDl := true }

theorem inv_emit {d : Str} {h : HtmlState} (hi : HtmlInv d h) {o : Str} (ho : WellNested o) : HtmlInv d (h.emit o) :=
  inv_append hi ho

theorem emit_emit (h : HtmlState) (a b : Str) : (h.emit a).emit b = h.emit (a ++ b) := by
  simp [HtmlState.emit]

theorem htmlEmit_run (o : Str) (h : HtmlState) : htmlEmit o h = .ok () (h.emit o) := rfl

theorem modify_run {σ : Type} (f : σ → σ) (s : σ) : M.modify f s = .ok () (f s) := rfl

theorem closeList_run (h : HtmlState) : maybeCloseList h = .ok () (closeList h) := rfl

theorem closeParagraph_run (h : HtmlState) : maybeCloseParagraph h = .ok () (closeParagraph h) := rfl

theorem text_run {nd : Bool} {t : Str} (ht : Neutral nd t) :
    ∃ o, WellNested o ∧ ∀ h, htmlText nd t h = .ok () (h.emit o) := by
  obtain ⟨o, w, ho⟩ := ht
  have := ho [] []
  rw [List.append_nil] at this
  refine ⟨o, w, fun h => ?_⟩
  have e : toHtml nd t = .ok o := by rw [toHtml, this]; simp [toHtmlFrom, prependTo]
  simp [htmlText, e, htmlEmit_run]

theorem inv_openParagraph {d : Str} {h : HtmlState} (hi : HtmlInv d h) (hd : h.isDl = false) :
    HtmlInv d (openParagraph h) := by
  obtain ⟨s, e1, e2, e3⟩ := hi
  by_cases hp : h.isP = true
  · refine ⟨s, by simp [openParagraph, hp, e1], ?_, by simp [openParagraph, hd]⟩
    simpa [openTags, openParagraph, hp] using e2
  · have hp' : h.isP = false := by simpa using hp
    have e4 : OpenIn ["body".toList, "html".toList] s := by simpa [openTags, hp', hd] using e2
    have e5 := openIn_append (openIn_push e4 (name := "p".toList) (by decide) (startTag_plain (by decide) (by decide)))
      (b := ['\n']) (.char (by decide) (by decide) .nil)
    refine ⟨_, ?_, by simpa [openTags, openParagraph, hd] using e5, by simp [openParagraph, hd]⟩
    simp [openParagraph, hp', e1]

theorem inv_openList {d : Str} {h : HtmlState} (hi : HtmlInv d h) (hp : h.isP = false) : HtmlInv d (openList h) := by
  obtain ⟨s, e1, e2, e3⟩ := hi
  by_cases hd : h.isDl = true
  · refine ⟨s, by simp [openList, hd, e1], ?_, by simp [openList, hp]⟩
    simpa [openTags, openList, hd] using e2
  · have hd' : h.isDl = false := by simpa using hd
    have e4 : OpenIn ["body".toList, "html".toList] s := by simpa [openTags, hd', hp] using e2
    have e5 := openIn_append (openIn_push e4 (name := "dl".toList) (by decide) (startTag_plain (by decide) (by decide)))
      (b := ['\n']) (.char (by decide) (by decide) .nil)
    refine ⟨_, ?_, by simpa [openTags, openList, hp] using e5, by simp [openList, hp]⟩
    simp [openList, hd', e1]

theorem htmlHeading_run {nd : Bool} {tag t : Str} (ht : Neutral nd t) (h : HtmlState) :
    ∃ o, WellNested o ∧ htmlHeading nd tag t h = .ok () ((closeParagraph (closeList h)).emit
      (['<'] ++ tag ++ ['>'] ++ o ++ (['<', '/'] ++ tag ++ ['>']) ++ ['\n'])) := by
  obtain ⟨o, w, ho⟩ := text_run ht
  refine ⟨o, w, ?_⟩
  unfold htmlHeading
  refine (bind_of_ok (closeList_run h)).trans ?_
  refine (bind_of_ok (closeParagraph_run _)).trans ?_
  refine (bind_of_ok (htmlEmit_run _ _)).trans ?_
  refine (bind_of_ok (ho _)).trans ?_
  rw [htmlEmit_run, emit_emit, emit_emit]
  simp

theorem htmlBlock_inv {nd : Bool} {d : Str} {b : Block} (hb : ∀ t ∈ b.texts, Neutral nd t) {h : HtmlState}
    (hi : HtmlInv d h) : ∃ h', htmlBlock nd b h = .ok () h' ∧ HtmlInv d h' ∧ ((∀ k e, b ≠ .item k e) → h'.isDl = false) := by
  have nl : WellNested ['\n'] := .char (by decide) (by decide) .nil
  cases b with
  | sec t =>
    obtain ⟨o, w, ho⟩ := htmlHeading_run (tag := "h2".toList) (hb t (by simp [Block.texts])) h
    refine ⟨_, ho, inv_emit (inv_closeParagraph (inv_closeList hi)) ?_, fun _ => rfl⟩
    exact wellNested_append (wellNested_element (by decide) (by decide) (by decide) w) nl
  | subsec t =>
    obtain ⟨o, w, ho⟩ := htmlHeading_run (tag := "h3".toList) (hb t (by simp [Block.texts])) h
    refine ⟨_, ho, inv_emit (inv_closeParagraph (inv_closeList hi)) ?_, fun _ => rfl⟩
    exact wellNested_append (wellNested_element (by decide) (by decide) (by decide) w) nl
  | line t p =>
    obtain ⟨o, w, ho⟩ := text_run (hb t (by simp [Block.texts]))
    have h2 := inv_emit (inv_emit (inv_openParagraph (inv_closeList hi) rfl) w) nl
    have erun : htmlBlock nd (.line t p) h =
        (if p then maybeCloseParagraph else htmlEmit "<br>\n".toList)
          (((openParagraph (closeList h)).emit o).emit ['\n']) := by
      show htmlLine nd t p h = _
      unfold htmlLine
      refine (bind_of_ok (closeList_run h)).trans ?_
      refine (bind_of_ok (modify_run _ _)).trans ?_
      refine (bind_of_ok (ho _)).trans ?_
      exact bind_of_ok (htmlEmit_run _ _)
    rw [erun]
    cases p with
    | true => exact ⟨_, rfl, inv_closeParagraph h2, fun _ => rfl⟩
    | false =>
      refine ⟨_, rfl, inv_emit h2 (o := "<br>\n".toList) ?_, fun _ => rfl⟩
      exact WellNested.void (name := "br".toList) (tag := "br".toList) (s := ['\n']) (by decide)
        (startTag_plain (by decide) (by decide)) nl
  | item k e =>
    obtain ⟨o1, w1, ho1⟩ := text_run (hb k (by simp [Block.texts]))
    obtain ⟨o2, w2, ho2⟩ := text_run (hb e (by simp [Block.texts]))
    have w : WellNested ((['<'] ++ "dt".toList ++ ['>'] ++ o1 ++ (['<', '/'] ++ "dt".toList ++ ['>'])) ++ ['\n']
        ++ (['<'] ++ "dd".toList ++ ['>'] ++ o2 ++ (['<', '/'] ++ "dd".toList ++ ['>'])) ++ ['\n']) :=
      wellNested_append (wellNested_append (wellNested_append
        (wellNested_element (by decide) (by decide) (by decide) w1) nl)
        (wellNested_element (by decide) (by decide) (by decide) w2)) nl
    refine ⟨_, ?_, inv_emit (inv_openList (inv_closeParagraph hi) rfl) w, fun hk => absurd rfl (hk k e)⟩
    show htmlItem nd k e h = _
    unfold htmlItem
    refine (bind_of_ok (closeParagraph_run h)).trans ?_
    refine (bind_of_ok (modify_run _ _)).trans ?_
    refine (bind_of_ok (htmlEmit_run _ _)).trans ?_
    refine (bind_of_ok (ho1 _)).trans ?_
    refine (bind_of_ok (htmlEmit_run _ _)).trans ?_
    refine (bind_of_ok (ho2 _)).trans ?_
    rw [htmlEmit_run, emit_emit, emit_emit, emit_emit, emit_emit]
    simp
    rfl

theorem htmlSteps_inv {nd : Bool} {d app : Str} {m : Meta} {l : List Step}
    (hl : ∀ x ∈ l, ∃ b, x = .ok b ∧ ∀ t ∈ b.texts, Neutral nd t) :
    ∀ {h : HtmlState}, HtmlInv d h → ∃ h', (htmlPrinter nd app m).steps l h = .ok () h' ∧ HtmlInv d h' ∧
      (l ≠ [] → (∀ k e, (.ok (.item k e) : Step) ∉ l) → h'.isDl = false) := by
  induction l with
  | nil => intro h hi; exact ⟨h, rfl, hi, fun hn => absurd rfl hn⟩
  | cons x l ih =>
    intro h hi
    obtain ⟨b, rfl, hb⟩ := hl x (by simp)
    obtain ⟨h1, e1, i1, f1⟩ := htmlBlock_inv hb hi
    obtain ⟨h2, e2, i2, f2⟩ := ih (fun y hy => hl y (by simp [hy])) i1
    refine ⟨h2, ?_, i2, fun _ hn => ?_⟩
    · have : (htmlPrinter nd app m).steps (.ok b :: l) h =
          M.bind (htmlBlock nd b) (fun _ => (htmlPrinter nd app m).steps l) h := rfl
      rw [this]
      simp only [M.bind, e1, e2]
    · by_cases hl0 : l = []
      · subst hl0
        have : h2 = h1 := by
          have e2' : (htmlPrinter nd app m).steps [] h1 = .ok () h1 := rfl
          rw [e2'] at e2
          injection e2 with _ e; exact e.symm
        rw [this]
        exact f1 fun k e he => hn k e (by simp [he])
      · exact f2 hl0 fun k e he => hn k e (by simp [he])

theorem steps_append {σ : Type} (pr : Printer σ) (l1 l2 : List Step) :
    pr.steps (l1 ++ l2) = M.bind (pr.steps l1) fun _ => pr.steps l2 := forEach_append _ _ _

theorem escapeXml_plain (s : Str) : ∀ c ∈ escapeXml s, c ≠ '<' ∧ c ≠ '>' := by
  intro c hc
  simp only [escapeXml, List.mem_flatMap] at hc
  obtain ⟨d, _, hd⟩ := hc
  rcases escapeXmlChar_entity d with ⟨he, hn⟩ | he
  · rw [he, List.mem_singleton] at hd
    subst hd
    simp only [List.mem_cons, not_or, List.not_mem_nil, or_false] at hn
    exact ⟨hn.2.2.1, hn.2.2.2.1⟩
  · have := entity_chars he c hd
    simp only [List.mem_cons, not_or, List.not_mem_nil, or_false] at this
    exact ⟨this.2.2.1, this.2.2.2⟩

theorem headStart_open : OpenIn ["html".toList] headStart :=
  openIn_push (a := []) (tag := "html lang=\"en\"".toList) (.base .nil) (by decide)
    ⟨by decide, by decide, " lang=\"en\"".toList, rfl, by decide, by decide⟩

theorem headMeta_nested : WellNested headMeta :=
  WellNested.void (name := "meta".toList)
    (tag := "meta http-equiv=\"content-type\" content=\"text/html; charset=utf-8\"".toList) (s := ['\n']) (by decide)
    ⟨by decide, by decide, " http-equiv=\"content-type\" content=\"text/html; charset=utf-8\"".toList, rfl,
      by decide, by decide⟩ (.char (by decide) (by decide) .nil)

theorem headTitle_nested (app sd : Str) : WellNested (['<'] ++ "title".toList ++ ['>']
    ++ (escapeXml app ++ " &mdash; ".toList ++ escapeXml sd) ++ (['<', '/'] ++ "title".toList ++ ['>'])) := by
  refine wellNested_element (by decide) (by decide) (by decide) (wellNested_plain ?_)
  intro c hc
  simp only [List.mem_append] at hc
  rcases hc with (hc | hc) | hc
  · exact escapeXml_plain _ c hc
  · revert c; decide
  · exact escapeXml_plain _ c hc

theorem openIn_congr {ts : List Str} {a b : Str} (h : OpenIn ts a) (e : a = b) : OpenIn ts b := e ▸ h

theorem htmlHead_open (app : Str) (m : Meta) : OpenIn ["body".toList, "html".toList] (htmlHead app m) := by
  have nl : WellNested ['\n'] := .char (by decide) (by decide) .nil
  have hhead := wellNested_element (name := "head".toList) (by decide) (by decide) (by decide)
    (wellNested_append (wellNested_append nl headMeta_nested) (wellNested_append (headTitle_nested app m.shortDescription) nl))
  have h2 := openIn_append headStart_open (wellNested_append nl (wellNested_append hhead nl))
  have h3 := openIn_append (openIn_push h2 (name := "body".toList) (by decide) (startTag_plain (by decide) (by decide))) nl
  exact openIn_congr h3 (by simp [htmlHead])

/-- The title of the page, behind its head. -/
def htmlTitle (nd : Bool) (app sd : Str) : HtmlM :=
  M.bind (htmlEmit "<h1>".toList) fun _ =>
  M.bind (htmlText nd app) fun _ =>
  M.bind (htmlEmit "</h1>\n<div>".toList) fun _ =>
  M.bind (htmlText nd sd) fun _ =>
  htmlEmit "</div>\n".toList

theorem htmlHeader_eq (nd : Bool) (app : Str) (m : Meta) :
    htmlHeader nd app m = M.bind (htmlEmit (doctypeLine ++ htmlHead app m)) fun _ => htmlTitle nd app m.shortDescription := rfl

theorem htmlTitle_inv {nd : Bool} {app sd : Str} (h1 : Neutral nd app) (h2 : Neutral nd sd) :
    ∃ o, WellNested o ∧ ∀ h, htmlTitle nd app sd h = .ok () (h.emit o) := by
  have nl : WellNested ['\n'] := .char (by decide) (by decide) .nil
  obtain ⟨o1, w1, ho1⟩ := text_run h1
  obtain ⟨o2, w2, ho2⟩ := text_run h2
  have hw := wellNested_append (wellNested_append
    (wellNested_append (wellNested_element (name := "h1".toList) (by decide) (by decide) (by decide) w1) nl)
    (wellNested_element (name := "div".toList) (by decide) (by decide) (by decide) w2)) nl
  refine ⟨_, hw, fun h => ?_⟩
  unfold htmlTitle
  refine (bind_of_ok (htmlEmit_run _ _)).trans ?_
  refine (bind_of_ok (ho1 _)).trans ?_
  refine (bind_of_ok (htmlEmit_run _ _)).trans ?_
  refine (bind_of_ok (ho2 _)).trans ?_
  rw [htmlEmit_run, emit_emit, emit_emit, emit_emit, emit_emit]
  simp

theorem htmlHeader_inv {nd : Bool} {app : Str} {m : Meta} (h1 : Neutral nd app) (h2 : Neutral nd m.shortDescription) :
    ∃ h', htmlHeader nd app m { out := [], isDl := false, isP := false } = .ok () h' ∧ HtmlInv doctypeLine h' := by
  obtain ⟨o, w, ho⟩ := htmlTitle_inv h1 h2
  have hi : HtmlInv doctypeLine (HtmlState.emit ⟨[], false, false⟩ (doctypeLine ++ htmlHead app m)) :=
    ⟨htmlHead app m, by simp only [HtmlState.emit, List.nil_append], htmlHead_open app m, by simp [HtmlState.emit]⟩
  refine ⟨_, ?_, inv_emit hi w⟩
  rw [htmlHeader_eq]
  generalize doctypeLine ++ htmlHead app m = x
  exact (bind_of_ok (htmlEmit_run _ _)).trans (ho _)

theorem htmlFooter_inv {d : Str} {h : HtmlState} (hi : HtmlInv d h) (hd : h.isDl = false) :
    ∃ h' s, htmlFooter h = .ok () h' ∧ h'.out = d ++ s ∧ WellNested s := by
  obtain ⟨s, e1, e2, _⟩ := inv_closeParagraph hi
  have e3 : OpenIn ["body".toList, "html".toList] s := by
    have : (closeParagraph h).isP = false := rfl
    have : (closeParagraph h).isDl = false := hd
    simpa [openTags, *] using e2
  have e4 := openIn_pop (openIn_pop e3)
  cases e4 with
  | base e4 =>
    refine ⟨(closeParagraph h).emit "</body></html>".toList, _, ?_, ?_, e4⟩
    · unfold htmlFooter
      refine (bind_of_ok (closeParagraph_run h)).trans (htmlEmit_run _ _)
    · simp [HtmlState.emit, e1]

/-- The blocks at the end of the page contain no list item. -/
theorem version_no_item (b : Build) (bold : Str → Str) (app : Str) (m : Meta) (k e : Str) :
    Block.item k e ∉ versionBlocks b bold app m ++ legalBlocks bold app m := by
  intro h
  rcases List.mem_append.1 h with h | h
  · unfold versionBlocks at h
    simp only [List.mem_append] at h
    rcases h with (h | h) | h
    · simp at h
    · split at h <;> simp at h
    · split at h <;> simp at h
  · unfold legalBlocks at h
    split at h
    · simp only [List.mem_append] at h
      rcases h with (((((h | h) | h) | h) | h) | h) | h
      all_goals first | (split at h <;> simp at h; done) | simp at h
    · simp at h

theorem htmlPage_nested {W : Type} (pe : PageEnv) (p : Parser W) (st : Store) (hs : SynopsisOk pe.info)
    (h1 : ∀ t ∈ suppliedTexts pe p st, Neutral pe.build.ndebug t)
    (h2 : ∀ t ∈ suppliedQuoted pe p st, '<' ∉ t ∧ '>' ∉ t) :
    ∃ s, pageOf pe .html p st = (none, doctypeLine ++ s) ∧ WellNested s := by
  have hm : ∀ t ∈ metaTexts pe.info, Neutral pe.build.ndebug t := fun t ht => h1 t (by simp [suppliedTexts, ht])
  obtain ⟨s1, r1, i1⟩ := htmlHeader_inv (m := pe.info) (h1 p.appName (by simp [suppliedTexts])) (hm _ (by simp [metaTexts]))
  have hall := pageSteps_class (neutralClass pe.build.ndebug) pe false p st hs h1 h2
  let bold : Str → Str := fun s => "<strong>".toList ++ s ++ "</strong>".toList
  let i := pe.input false p st
  let l1 : List Step := pageStart i ++ (entryBlocks i).map .ok
    ++ (commonOptions i.build i.notify ++ paragraphSection "Examples".toList i.info.examples).map .ok
  let l2 : List Step := (versionBlocks i.build bold i.appName i.info ++ legalBlocks bold i.appName i.info).map .ok
  have hl : pageSteps i bold = l1 ++ l2 := by
    simp only [pageSteps, endBlocks, l1, l2, List.map_append, List.append_assoc]
  have hall' : ∀ x ∈ l1 ++ l2, ∃ b, x = .ok b ∧ ∀ t ∈ b.texts, Neutral pe.build.ndebug t := by
    rw [← hl]; exact hall
  obtain ⟨s2, r2, i2, _⟩ := htmlSteps_inv (app := p.appName) (m := pe.info) (l := l1)
    (fun x hx => hall' x (List.mem_append_left _ hx)) i1
  obtain ⟨s3, r3, i3, f3⟩ := htmlSteps_inv (app := p.appName) (m := pe.info) (l := l2)
    (fun x hx => hall' x (List.mem_append_right _ hx)) i2
  have hd : s3.isDl = false := by
    refine f3 (by simp [l2, versionBlocks]) fun k e he => ?_
    simp only [l2, List.mem_map] at he
    obtain ⟨b, hb, he⟩ := he
    injection he with he
    subst he
    exact version_no_item _ _ _ _ k e hb
  obtain ⟨s4, s, r4, o4, w4⟩ := htmlFooter_inv i3 hd
  refine ⟨s, ?_, w4⟩
  have hrun : printFullPage (htmlPrinter pe.build.ndebug p.appName pe.info) i
      { out := [], isDl := false, isP := false } = .ok () s4 := by
    unfold printFullPage
    refine (bind_of_ok r1).trans ?_
    refine (bind_of_ok (s' := s3) (a := ()) ?_).trans r4
    have : (htmlPrinter pe.build.ndebug p.appName pe.info).bold = bold := rfl
    rw [this, hl, steps_append]
    exact (bind_of_ok r2).trans r3
  simp only [pageOf, runHtml]
  rw [hrun]
  simp [Res.exn?, Res.state, o4]

/-! ### A decision procedure -/

/-- What a tag does to the open tags. -/
def tagEffect (tag : Str) (open_ : List Str) : Option (List Str) :=
  match tag with
  | '/' :: name => if open_.head? = some name then some open_.tail else none
  | tag =>
    if tag.takeWhile (fun c => decide (c ∈ tagChars)) ∈ voidElements then some open_
    else some (tag.takeWhile (fun c => decide (c ∈ tagChars)) :: open_)

/-- Reads HTML with a stack; the second argument is the tag being read. -/
def nests : List Str → Option Str → Str → Bool
  | o, none, [] => o.isEmpty
  | _, some _, [] => false
  | o, none, c :: s => if c = '<' then nests o (some []) s else if c = '>' then false else nests o none s
  | o, some t, c :: s =>
    if c = '<' then false else if c = '>' then (match tagEffect t o with
      | some o' => nests o' none s
      | none => false)
    else nests o (some (t ++ [c])) s

theorem nests_tag (o : List Str) (tag : Str) (h : ∀ c ∈ tag, c ≠ '<' ∧ c ≠ '>') (s : Str) :
    ∀ t, nests o (some t) (tag ++ '>' :: s) = match tagEffect (t ++ tag) o with
      | some o' => nests o' none s
      | none => false := by
  induction tag with
  | nil => intro t; simp [nests]
  | cons c tag ih =>
    intro t
    have hc := h c (by simp)
    rw [List.cons_append, nests, if_neg hc.1, if_neg hc.2, ih fun d hd => h d (by simp [hd])]
    simp

theorem tagName_plain {name : Str} (h : ∀ c ∈ name, c ∈ tagChars) : ∀ c ∈ name, c ≠ '<' ∧ c ≠ '>' := by
  intro c hc
  have := h c hc
  constructor <;> (rintro rfl; revert this; decide)

theorem startTag_name {name tag : Str} (h : StartTag name tag) :
    tag.takeWhile (fun c => decide (c ∈ tagChars)) = name ∧ (∀ c ∈ tag, c ≠ '<' ∧ c ≠ '>') ∧ tag.head? ≠ some '/' := by
  obtain ⟨h1, h2, attrs, rfl, h3, h4⟩ := h
  refine ⟨?_, ?_, ?_⟩
  · rw [List.takeWhile_append_of_pos (by simpa using h2)]
    cases attrs with
    | nil => simp
    | cons a l =>
      have : a = ' ' := h4 a rfl
      subst this
      rw [List.takeWhile_cons_of_neg (by decide), List.append_nil]
  · intro c hc
    rcases List.mem_append.1 hc with hc | hc
    · exact tagName_plain h2 c hc
    · exact h3 c hc
  · cases name with
    | nil => exact absurd rfl h1
    | cons a l =>
      simp only [List.cons_append, List.head?_cons, ne_eq, Option.some.injEq]
      rintro rfl
      have := h2 '/' (by simp)
      revert this; decide

/-- Properly nested content does not change the open tags. -/
theorem nests_of_wellNested {s : Str} (h : WellNested s) : ∀ o rest, nests o none (s ++ rest) = nests o none rest := by
  induction h with
  | nil => intros; rfl
  | char h1 h2 _ ih => intro o rest; rw [List.cons_append, nests, if_neg h1, if_neg h2, ih]
  | void h1 h2 _ ih =>
    rename_i name tag s _
    intro o rest
    obtain ⟨e1, e2, e3⟩ := startTag_name h2
    have : ['<'] ++ tag ++ ['>'] ++ s ++ rest = '<' :: (tag ++ '>' :: (s ++ rest)) := by simp
    rw [this, nests, if_pos rfl, nests_tag _ _ e2, List.nil_append]
    have : tagEffect tag o = some o := by
      unfold tagEffect
      split
      · simp at e3
      · rw [e1, if_pos h1]
    rw [this]
    exact ih o rest
  | element h1 h2 _ _ ih1 ih2 =>
    rename_i name tag body s _ _
    intro o rest
    obtain ⟨e1, e2, e3⟩ := startTag_name h2
    have : ['<'] ++ tag ++ ['>'] ++ body ++ ['<', '/'] ++ name ++ ['>'] ++ s ++ rest
        = '<' :: (tag ++ '>' :: (body ++ '<' :: ('/' :: name ++ '>' :: (s ++ rest)))) := by simp
    rw [this, nests, if_pos rfl, nests_tag _ _ e2, List.nil_append]
    have : tagEffect tag o = some (name :: o) := by
      unfold tagEffect
      split
      · simp at e3
      · rw [e1, if_neg h1]
    rw [this]
    simp only
    rw [ih1, nests, if_pos rfl, nests_tag _ ('/' :: name)]
    · simp only [List.nil_append, tagEffect, List.head?_cons, if_true, List.tail_cons]
      exact ih2 o rest
    · intro c hc
      rcases List.mem_cons.1 hc with rfl | hc
      · decide
      · exact tagName_plain h2.2.1 c hc

theorem nests_true {s : Str} (h : WellNested s) : nests [] none s = true := by
  have := nests_of_wellNested h [] []
  rw [List.append_nil] at this
  rw [this]; rfl

/-! ### Output only grows -/

/-- The action only appends to the output. -/
def Grows (m : HtmlM) : Prop := ∀ h, h.out <+: (m h).state.out

theorem grows_bind {m n : HtmlM} (h1 : Grows m) (h2 : Grows n) : Grows (M.bind m fun _ => n) := by
  intro h
  have := h1 h
  unfold M.bind
  cases hm : m h with
  | ok a h' => rw [hm] at this; exact this.trans (h2 h')
  | err e h' => rw [hm] at this; exact this

theorem grows_emit (s : Str) : Grows (htmlEmit s) := fun _ => List.prefix_append _ _

theorem grows_throw (e : Exn) : Grows (M.throw e) := fun _ => List.prefix_rfl

theorem grows_text (nd : Bool) (s : Str) : Grows (htmlText nd s) := by
  unfold htmlText
  split
  · exact grows_emit _
  · exact grows_throw _

theorem grows_closeList : Grows maybeCloseList := fun _ => List.prefix_append _ _

theorem grows_closeParagraph : Grows maybeCloseParagraph := fun _ => List.prefix_append _ _

theorem grows_block (nd : Bool) (b : Block) : Grows (htmlBlock nd b) := by
  have heading : ∀ tag t, Grows (htmlHeading nd tag t) := fun tag t =>
    grows_bind grows_closeList (grows_bind grows_closeParagraph (grows_bind (grows_emit _)
      (grows_bind (grows_text _ _) (grows_emit _))))
  cases b with
  | sec t => exact heading _ _
  | subsec t => exact heading _ _
  | line t p =>
    show Grows (htmlLine nd t p)
    unfold htmlLine
    refine grows_bind grows_closeList (grows_bind (fun _ => List.prefix_append _ _) (grows_bind (grows_text _ _)
      (grows_bind (grows_emit _) ?_)))
    split
    · exact grows_closeParagraph
    · exact grows_emit _
  | item k d =>
    show Grows (htmlItem nd k d)
    unfold htmlItem
    exact grows_bind grows_closeParagraph (grows_bind (fun _ => List.prefix_append _ _) (grows_bind (grows_emit _)
      (grows_bind (grows_text _ _) (grows_bind (grows_emit _) (grows_bind (grows_text _ _) (grows_emit _))))))

theorem grows_steps (nd : Bool) (app : Str) (m : Meta) (l : List Step) : Grows ((htmlPrinter nd app m).steps l) := by
  induction l with
  | nil => exact fun _ => List.prefix_rfl
  | cons x l ih =>
    refine grows_bind (m := (htmlPrinter nd app m).step x) ?_ ih
    cases x with
    | ok b => exact grows_block nd b
    | error e => exact grows_throw e

theorem htmlPage_head {W : Type} (pe : PageEnv) (p : Parser W) (st : Store) :
    doctypeLine ++ htmlHead p.appName pe.info <+: (pageOf pe .html p st).2 := by
  have hrest : Grows (M.bind (htmlTitle pe.build.ndebug p.appName pe.info.shortDescription) fun _ =>
      M.bind ((htmlPrinter pe.build.ndebug p.appName pe.info).steps
        (pageSteps (pe.input false p st) (htmlPrinter pe.build.ndebug p.appName pe.info).bold)) fun _ => htmlFooter) :=
    grows_bind (grows_bind (grows_emit _) (grows_bind (grows_text _ _) (grows_bind (grows_emit _)
      (grows_bind (grows_text _ _) (grows_emit _))))) (grows_bind (grows_steps _ _ _ _)
      (grows_bind grows_closeParagraph (grows_emit _)))
  have h := hrest (HtmlState.emit ⟨[], false, false⟩ (doctypeLine ++ htmlHead p.appName pe.info))
  have e : printFullPage (htmlPrinter pe.build.ndebug p.appName pe.info) (pe.input false p st)
      { out := [], isDl := false, isP := false } =
      (M.bind (htmlTitle pe.build.ndebug p.appName pe.info.shortDescription) fun _ =>
      M.bind ((htmlPrinter pe.build.ndebug p.appName pe.info).steps
        (pageSteps (pe.input false p st) (htmlPrinter pe.build.ndebug p.appName pe.info).bold)) fun _ => htmlFooter)
        (HtmlState.emit ⟨[], false, false⟩ (doctypeLine ++ htmlHead p.appName pe.info)) := by
    unfold printFullPage
    show M.bind (htmlHeader pe.build.ndebug p.appName pe.info) _ _ = _
    rw [htmlHeader_eq]
    generalize doctypeLine ++ htmlHead p.appName pe.info = x
    rfl
  simp only [pageOf, runHtml]
  rw [e]
  simpa only [HtmlState.emit, List.nil_append] using h

end Sharg
