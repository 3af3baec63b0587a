import Verif.Lemmas.Shown
import Verif.Props.PagePrint

/-!
# Property C43: which registrations appear on which page
-/

namespace Sharg

open Spec

variable {W : Type}

/-- C43, hidden: options and flags that are hidden have no influence on any page. -/
theorem C43_hidden_never_shown (pe : PageEnv) (f : Format) (p : Parser W) (st : Store) :
    pageOf pe f p st = pageOf pe f { p with operations := p.operations.filter fun e => !isHidden e } st := by
  refine (page_filter pe f p st _ (fun e h => ?_) fun e h _ => ?_).symm
  · cases e <;> first | rfl | cases h
  · simp only [visible, Bool.and_eq_true] at h
    exact h.1

/-- C43, advanced (partial; the HTML and the man page export should show advanced entries, see below): entries that are
advanced have no influence on the normal help page, nor on any page except the advanced help page and the tool
descriptions. -/
theorem C43_advanced_not_shown_partial (pe : PageEnv) (f : Format) (p : Parser W) (st : Store) (hf : advancedShown f = false) :
    pageOf pe f p st = pageOf pe f { p with operations := p.operations.filter fun e => !isAdvanced e } st := by
  refine (page_filter pe f p st _ (fun e h => ?_) fun e h _ => ?_).symm
  · cases e <;> first | rfl | cases h
  · simp only [visible, Bool.and_eq_true, hf, Bool.or_false] at h
    exact h.2

/-- C43, everything else is shown (partial: advanced entries are missing in HTML and man pages; tool descriptions see
below): on help pages, HTML pages and man pages that are printed without failure, the positional options appear in the
order of registration with their numbers, and then all other entries that are not hidden, and not advanced unless the page
shows advanced entries, in the order of registration. -/
theorem C43_all_visible_in_order_partial (pe : PageEnv) (f : Format) (p : Parser W) (st : Store)
    (hf : (∃ a, f = .help a) ∨ f = .html ∨ f = .man) (h : (pageOf pe f p st).1 = none) :
    ∃ as es,
      List.Forall₂ (fun x ps => Pieces pe f (argumentCall pe.types st x.2 x.1) ps)
        ((p.operations.filter isArgument).zipIdx 1) as ∧
      List.Forall₂ (fun e ps => Pieces pe f (callOf pe.types st e) ps)
        (p.operations.filter fun e => visible (advancedShown f) e && !isArgument e) es ∧
      InOrder (as.flatten ++ es.flatten) (pageOf pe f p st).2 := by
  obtain ⟨as, es, h1, h2, h3⟩ := page_pieces pe f p st hf h
  rw [positionalCalls_arguments] at h1
  rw [entryBlocks_visible] at h2
  have unmap : ∀ {α : Type} (g : α → Block) (l : List α) (pss : List (List Str)), List.Forall₂ (Pieces pe f) (l.map g) pss →
      List.Forall₂ (fun x ps => Pieces pe f (g x) ps) l pss := by
    intro α g l
    induction l with
    | nil => intro pss h; cases h; exact .nil
    | cons x l ih => intro pss h; cases h with | cons a b => exact .cons a (ih _ b)
  exact ⟨as, es, unmap _ _ _ h1, unmap _ _ _ h2, h3⟩

/-- The man page shows each visible option with all its names and its description, word for word. -/
theorem C43_man_page_option (pe : PageEnv) (p : Parser W) (st : Store) (h : (pageOf pe .man p st).1 = none) (e : Entry W)
    (he : e ∈ p.operations) (hi : hasIds e = true) (hv : visible false e = true) (term desc : Str)
    (hc : callOf pe.types st e = .item term desc) :
    ∃ before between after, (pageOf pe .man p st).2 = before ++ term ++ between ++ desc ++ after := by
  obtain ⟨as, es, -, h2, h3⟩ := C43_all_visible_in_order_partial pe .man p st (Or.inr (Or.inr rfl)) h
  have hm : e ∈ p.operations.filter fun e => visible (advancedShown .man) e && !isArgument e := by
    refine List.mem_filter.2 ⟨he, ?_⟩
    cases e with
    | option => simpa [isArgument, advancedShown] using hv
    | flag => simpa [isArgument, advancedShown] using hv
    | _ => cases hi
  have key : ∀ (l : List (Entry W)) (pss : List (List Str)),
      List.Forall₂ (fun e ps => Pieces pe .man (callOf pe.types st e) ps) l pss → e ∈ l → [term, desc] ∈ pss := by
    intro l pss hl
    induction hl with
    | nil => intro hm; cases hm
    | @cons a b l1 l2 hab _ ih =>
      intro hm
      rcases List.mem_cons.1 hm with rfl | hm
      · rw [hc] at hab
        have : b = [term, desc] := hab
        rw [this]
        exact List.mem_cons_self
      · exact List.mem_cons_of_mem _ (ih hm)
  obtain ⟨u, v, huv⟩ := List.append_of_mem (key _ _ h2 hm)
  rw [huv] at h3
  simp only [List.flatten_append, List.flatten_cons] at h3
  rw [← List.append_assoc] at h3
  generalize as.flatten ++ u.flatten = l at h3
  generalize (pageOf pe .man p st).2 = o at h3
  clear h2 huv h hm key hc
  induction l generalizing o with
  | nil =>
    rw [List.nil_append] at h3
    cases h3 with
    | cons g1 h4 =>
      cases h4 with
      | @cons g2 _ _ s' h5 => exact ⟨g1, g2, s', by simp only [List.append_assoc]⟩
  | cons x l ih =>
    cases h3 with
    | @cons g p ps s h4 =>
      obtain ⟨a, b, c, rfl⟩ := ih s h4
      exact ⟨g ++ x ++ a, b, c, by simp only [List.append_assoc]⟩

/-- C43 in tool descriptions: the parameters are those of the positional options, followed by one parameter for each
option and flag that is not hidden, advanced or not, in the order of registration, with the description of the help
page. -/
theorem C43_tool_description_partial (te : TypeEnv) (m : Meta) (appName : Str) (names : List Str) (es : List (Entry W)) (st : Store) :
    ((parameters (toolInfo te m appName names es st).params).map fun n => (n.name, n.description)) =
      ((es.filter isArgument).zipIdx.map fun x => ("positional_".toList ++ showNat x.2,
        match argumentCall te st (x.2 + 1) x.1 with | .item _ d => d | _ => [])) ++
      ((es.filter fun e => hasIds e && !isHidden e).map fun e => (longId e, helpText te st e)) := by
  have wrap : ∀ (l : List Str) (t : TdlTree), parameters (wrapCommands l t) = parameters t := by
    intro l t
    induction l with
    | nil => rfl
    | cons a l ih => exact ih
  have args : ∀ n, ((tdlPositionals te st n es).map fun n => (n.name, n.description)) =
      ((es.filter isArgument).zipIdx n).map fun x => ("positional_".toList ++ showNat x.2,
        match argumentCall te st (x.2 + 1) x.1 with | .item _ d => d | _ => []) := by
    induction es with
    | nil => intro n; rfl
    | cons e es ih =>
      intro n
      cases e with
      | positional cfg x l ty v =>
        simp only [tdlPositionals, List.map_cons, ih, isArgument, List.filter_cons, if_true, List.zipIdx_cons]
        congr 2
        simp only [argumentCall, validatorPart]
        by_cases h : cfg.validatorMessage = [] <;> simp [h]
      | _ => exact ih n
  have ids : ((es.flatMap fun e => (tdlCall te st e).1).map fun n => (n.name, n.description)) =
      (es.filter fun e => hasIds e && !isHidden e).map fun e => (longId e, helpText te st e) := by
    clear args
    induction es with
    | nil => rfl
    | cons e es ih =>
      rw [List.flatMap_cons, List.map_append, ih, List.filter_cons]
      cases e with
      | option cfg x l ty v =>
        have : (tdlOption te st cfg x l ty).description = helpText te st (.option cfg x l ty v : Entry W) := by
          unfold tdlOption helpText callOf validatorPart
          dsimp only
          by_cases h1 : cfg.defaultMessage = [] <;> by_cases h2 : cfg.validatorMessage = [] <;> simp [h1, h2]
        cases hh : cfg.hidden with
        | true =>
          rw [tdlCall_hidden te st (.option cfg x l ty v) hh, if_neg (by show ¬ (true && !cfg.hidden) = true; rw [hh]; simp)]
          rfl
        | false =>
          have e1 : tdlCall te st (.option cfg x l ty v : Entry W)
              = ([tdlOption te st cfg x l ty], [("--".toList ++ cfg.long, cfg.long)]) := by
            unfold tdlCall; exact if_neg (by rw [hh]; simp)
          rw [e1, if_pos (by show (true && !cfg.hidden) = true; rw [hh]; rfl), List.map_cons, List.map_cons, ← this]
          rfl
      | flag cfg x =>
        cases hh : cfg.hidden with
        | true =>
          rw [tdlCall_hidden te st (.flag cfg x) hh, if_neg (by show ¬ (true && !cfg.hidden) = true; rw [hh]; simp)]
          rfl
        | false =>
          have e1 : tdlCall te st (.flag cfg x : Entry W) = ([tdlFlag st cfg x], []) := by unfold tdlCall; exact if_neg (by rw [hh]; simp)
          rw [e1, if_pos (by show (true && !cfg.hidden) = true; rw [hh]; rfl), List.map_cons]
          rfl
      | _ => rfl
  show List.map _ (parameters (wrapCommands names.tail (.params _))) = _
  rw [wrap]
  show List.map _ (tdlPositionals te st 0 es ++ es.flatMap fun e => (tdlCall te st e).1) = _
  rw [List.map_append, args 0, ids]

/-- C43 does not hold as stated: sections, lines and list items, advanced or not, have no influence on tool
descriptions. -/
theorem C43_texts_not_in_tool_description (pe : PageEnv) (cwl : Bool) (p : Parser W) (st : Store) :
    pageOf pe (.tdl cwl) p st =
      pageOf pe (.tdl cwl) { p with operations := p.operations.filter fun e => hasIds e || isArgument e } st := by
  have h : ∀ es : List (Entry W),
      (es.filter fun e => hasIds e || isArgument e).flatMap (fun e => (tdlCall pe.types st e).1) =
        es.flatMap (fun e => (tdlCall pe.types st e).1) ∧
      (es.filter fun e => hasIds e || isArgument e).flatMap (fun e => (tdlCall pe.types st e).2) =
        es.flatMap (fun e => (tdlCall pe.types st e).2) ∧
      ∀ n, tdlPositionals pe.types st n (es.filter fun e => hasIds e || isArgument e) = tdlPositionals pe.types st n es := by
    intro es
    induction es with
    | nil => exact ⟨rfl, rfl, fun _ => rfl⟩
    | cons e es ih =>
      obtain ⟨i1, i2, i3⟩ := ih
      cases e with
      | option =>
        rw [List.filter_cons_of_pos rfl]
        exact ⟨by rw [List.flatMap_cons, List.flatMap_cons, i1], by rw [List.flatMap_cons, List.flatMap_cons, i2], i3⟩
      | flag =>
        rw [List.filter_cons_of_pos rfl]
        exact ⟨by rw [List.flatMap_cons, List.flatMap_cons, i1], by rw [List.flatMap_cons, List.flatMap_cons, i2], i3⟩
      | positional =>
        rw [List.filter_cons_of_pos rfl]
        refine ⟨by rw [List.flatMap_cons, List.flatMap_cons, i1], by rw [List.flatMap_cons, List.flatMap_cons, i2], fun n => ?_⟩
        unfold tdlPositionals
        rw [i3]
      | _ => exact ⟨i1, i2, i3⟩
  obtain ⟨t1, t2, t3⟩ := h p.operations
  simp only [pageOf, toolInfo, t1, t2, t3]

/-! ## Examples -/

/-- An option `--secret`, advanced or hidden or neither. -/
def exSecret (advanced hidden : Bool) : Entry Unit :=
  .option { long := "secret".toList, description := "Text.".toList, advanced := advanced, hidden := hidden } 0 false
    (.integer (-128) 127) (fun _ w => (true, w))

/-- C43 does not hold as stated: an advanced option should appear in every export, but the HTML and the man page are the
same as without the option; the normal help page is, as it should be, and the advanced help page is not. -/
theorem C43_advanced_missing_in_exports :
    advancedDocumented .html = true ∧ advancedDocumented .man = true ∧
    pageOf (exPages {}) .html (exPageParser [exSecret true false]) exPageStore =
      pageOf (exPages {}) .html (exPageParser []) exPageStore ∧
    pageOf (exPages {}) .man (exPageParser [exSecret true false]) exPageStore =
      pageOf (exPages {}) .man (exPageParser []) exPageStore ∧
    pageOf (exPages {}) (.help false) (exPageParser [exSecret true false]) exPageStore =
      pageOf (exPages {}) (.help false) (exPageParser []) exPageStore ∧
    pageOf (exPages {}) (.help true) (exPageParser [exSecret true false]) exPageStore ≠
      pageOf (exPages {}) (.help true) (exPageParser []) exPageStore ∧
    pageOf (exPages {}) .html (exPageParser [exSecret false false]) exPageStore ≠
      pageOf (exPages {}) .html (exPageParser []) exPageStore :=
  ⟨rfl, rfl, C43_advanced_not_shown_partial _ .html _ _ rfl, C43_advanced_not_shown_partial _ .man _ _ rfl,
    C43_advanced_not_shown_partial _ (.help false) _ _ rfl, by decide +kernel, by decide +kernel⟩

example : (pageOf (exPages {}) .man (exPageParser [exSecret false false]) exPageStore).1 = none ∧
    hasIds (exSecret false false) = true ∧ visible false (exSecret false false) = true ∧
    callOf (exPages {}).types exPageStore (exSecret false false)
      = .item "\\fB--secret\\fP (\\fIsigned 32 bit integer\\fP)".toList "Text. Default: 7".toList := by
  decide +kernel

end Sharg
