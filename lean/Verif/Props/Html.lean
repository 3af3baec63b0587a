import Verif.Lemmas.Html
import Verif.Props.PagePrint

/-!
# Property C45: the HTML page
-/

namespace Sharg

open Spec

/-- C45 (negation). Texts of the developer introduce markup, since only the title in the head of the page is escaped: the
page contains these lines as they are. -/
theorem C45_texts_are_not_escaped :
    ∀ t ∈ ["<script>alert(1)</script>".toList, "a < b".toList, "a & b".toList, "\"a\" 'b'".toList],
      ∃ a b, pageOf (exPages {}) .html (exPageParser [.line t false false]) exPageStore = (none, a ++ t ++ b) := by
  have key : ∀ t ∈ ["<script>alert(1)</script>".toList, "a < b".toList, "a & b".toList, "\"a\" 'b'".toList],
      (pageOf (exPages {}) .html (exPageParser [.line t false false]) exPageStore) =
        (none, doctypeLine ++ htmlHead "app".toList {} ++ "<h1>app</h1>\n<div></div>\n<h2>Options</h2>\n<p>\n".toList ++ t
          ++ ((pageOf (exPages {}) .html (exPageParser [.line t false false]) exPageStore).2.drop
            (doctypeLine ++ htmlHead "app".toList {} ++ "<h1>app</h1>\n<div></div>\n<h2>Options</h2>\n<p>\n".toList
              ++ t).length)) := by
    decide +kernel
  intro t ht
  exact ⟨_, _, key t ht⟩

/-- C45 (negation). The tags are not balanced if a text contains an angle bracket, or switches on a font and not off, or
if a default value in quotes contains an angle bracket. -/
theorem C45_tags_are_not_balanced :
    (∀ e ∈ [.line "a < b".toList false false, .line "a > b".toList false false, .line "\\fBbold".toList false false,
        .option { short := 's' } 0 false .string (fun _ w => (true, w))], ∀ s,
      pageOf (exPages {}) .html (exPageParser [e]) (fun _ => .one (.str "<".toList)) = (none, doctypeLine ++ s) →
        ¬ WellNested s) := by
  intro e he s hs hw
  have h := nests_true hw
  have hs' : s = (pageOf (exPages {}) .html (exPageParser [e]) (fun _ => .one (.str "<".toList))).2.drop
      doctypeLine.length := by rw [hs]; simp
  rw [hs'] at h
  simp only [List.mem_cons, List.not_mem_nil, or_false] at he
  clear hs hw hs'
  rcases he with rfl | rfl | rfl | rfl <;> revert h <;> decide +kernel

/-- C45 (partial; missing: texts with angle brackets or with fonts that are not nested, see above, and escaping in general).
If the synopsis can be printed, the fonts in all supplied texts are nested properly and neither they nor the defaults shown
in quotes contain angle brackets, then the page is printed and is, behind the document type, one sequence of properly
nested elements: whatever sections, subsections, lines, paragraphs and list items were added, and in whatever order. -/
theorem C45_page_is_nested_partial {W : Type} (pe : PageEnv) (p : Parser W) (st : Store) (hs : SynopsisOk pe.info)
    (h1 : ∀ t ∈ suppliedTexts pe p st, Balanced t) (h2 : ∀ t ∈ suppliedQuoted pe p st, '<' ∉ t ∧ '>' ∉ t) :
    ∃ s, pageOf pe .html p st = (none, doctypeLine ++ s) ∧ WellNested s :=
  htmlPage_nested pe p st hs (fun t ht => neutral_of_balanced _ (h1 t ht)) h2

/-- C45 (partial): the title in the head of the page shows the name and the short description escaped, whatever they are:
the head consists of two fixed parts around them, and an XML processor reads them back from what is printed. -/
theorem C45_title_is_escaped_partial {W : Type} (pe : PageEnv) (p : Parser W) (st : Store) :
    ∃ a b rest, (pageOf pe .html p st).2 = doctypeLine ++ headStart ++ "\n<head>\n".toList ++ headMeta
        ++ "<title>".toList ++ a ++ " &mdash; ".toList ++ b ++ "</title>\n</head>\n<body>\n".toList ++ rest ∧
      (∀ t, XmlDecodes a t ↔ t = p.appName) ∧ (∀ t, XmlDecodes b t ↔ t = pe.info.shortDescription) ∧
      (∀ c ∈ a ++ b, c ∉ ['"', '\'', '<', '>']) := by
  obtain ⟨rest, h⟩ := htmlPage_head pe p st
  refine ⟨escapeXml p.appName, escapeXml pe.info.shortDescription, rest, ?_,
    (C44_escaping_is_safe_and_reversible _).2.2, (C44_escaping_is_safe_and_reversible _).2.2, ?_⟩
  · rw [← h]
    simp only [htmlHead, List.append_assoc]
  · intro c hc
    rcases List.mem_append.1 hc with hc | hc
    · exact (C44_escaping_is_safe_and_reversible _).1 c hc
    · exact (C44_escaping_is_safe_and_reversible _).1 c hc

/-- The hypotheses hold for the example, and the partial theorem covers nested fonts. -/
example : ∃ s, pageOf (exPages exPageMeta) .html (exPageParser exPageEntries) exPageStore = (none, doctypeLine ++ s) ∧
    WellNested s := by
  refine C45_page_is_nested_partial _ _ _ (by unfold SynopsisOk; decide +kernel) ?_ (by decide +kernel)
  have h : ∀ t ∈ suppliedTexts (exPages exPageMeta) (exPageParser exPageEntries) exPageStore,
      ∀ c ∈ t, c ≠ '\\' ∧ c ≠ '<' ∧ c ≠ '>' := by decide +kernel
  intro t ht
  have := h t ht
  clear ht h
  induction t with
  | nil => exact .nil
  | cons c t ih => exact .char (this c (by simp)).1 (this c (by simp)).2.1 (this c (by simp)).2.2 (ih fun d hd => this d (by simp [hd]))

example : Balanced ['\\', 'f', 'B', 'x', '\\', 'f', 'I', 'y', '\\', 'f', 'P', '\\', 'f', 'P'] :=
  .fonts (body := ['x', '\\', 'f', 'I', 'y', '\\', 'f', 'P']) (by decide) (.char (by decide) (by decide) (by decide)
    (.fonts (body := ['y']) (by decide) (.char (by decide) (by decide) (by decide) .nil) .nil)) .nil

end Sharg
