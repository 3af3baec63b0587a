import Verif.Lemmas.Pages

/-!
# Which print calls succeed
-/

namespace Sharg

open Spec

/-- The action succeeds on every state. -/
def Total {σ : Type} (m : M σ Unit) : Prop := ∀ h, ∃ h', m h = .ok () h'

/-- The action fails on every state with this exception. -/
def Fails {σ : Type} (e : Exn) (m : M σ Unit) : Prop := ∀ h, ∃ h', m h = .err e h'

theorem total_bind {σ : Type} {m n : M σ Unit} (h1 : Total m) (h2 : Total n) : Total (M.bind m fun _ => n) := by
  intro h
  obtain ⟨a, ha⟩ := h1 h
  obtain ⟨b, hb⟩ := h2 a
  exact ⟨b, by simp [M.bind, ha, hb]⟩

theorem fails_bind_left {σ : Type} {e : Exn} {m n : M σ Unit} (h1 : Fails e m) : Fails e (M.bind m fun _ => n) := by
  intro h
  obtain ⟨a, ha⟩ := h1 h
  exact ⟨a, by simp [M.bind, ha]⟩

theorem fails_bind_right {σ : Type} {e : Exn} {m n : M σ Unit} (h1 : Total m) (h2 : Fails e n) :
    Fails e (M.bind m fun _ => n) := by
  intro h
  obtain ⟨a, ha⟩ := h1 h
  obtain ⟨b, hb⟩ := h2 a
  exact ⟨b, by simp [M.bind, ha, hb]⟩

theorem total_modify {σ : Type} (f : σ → σ) : Total (M.modify f) := fun h => ⟨f h, rfl⟩

theorem total_pure {σ : Type} : Total (M.pure () : M σ Unit) := fun h => ⟨h, rfl⟩

theorem fails_throw {σ : Type} (e : Exn) : Fails e (M.throw e : M σ Unit) := fun h => ⟨h, rfl⟩

/-- Every list of actions that either always succeed or always fail. -/
theorem forEach_total {σ α : Type} {f : α → M σ Unit} {l : List α} (h : ∀ a ∈ l, Total (f a)) : Total (M.forEach f l) := by
  induction l with
  | nil => exact total_pure
  | cons a l ih => exact total_bind (h a (by simp)) (ih fun b hb => h b (by simp [hb]))

theorem forEach_fails {σ α : Type} {f : α → M σ Unit} {E : Exn → Prop} {l : List α}
    (hall : ∀ a ∈ l, Total (f a) ∨ ∃ e, E e ∧ Fails e (f a)) (h : ∃ a ∈ l, ¬ Total (f a)) :
    ∃ e, E e ∧ Fails e (M.forEach f l) := by
  induction l with
  | nil => obtain ⟨a, ha, _⟩ := h; simp at ha
  | cons a l ih =>
    rcases hall a (by simp) with ht | ⟨e, hE, hf⟩
    · obtain ⟨b, hb, hn⟩ := h
      rcases List.mem_cons.1 hb with rfl | hb
      · exact absurd ht hn
      · obtain ⟨e, hE, hf⟩ := ih (fun b hb => hall b (by simp [hb])) ⟨b, hb, hn⟩
        exact ⟨e, hE, fails_bind_right ht hf⟩
    · exact ⟨e, hE, fails_bind_left hf⟩

theorem fails_not_total {σ : Type} {e : Exn} {m : M σ Unit} (h : Fails e m) (s : σ) : ¬ Total m := by
  intro ht
  obtain ⟨a, ha⟩ := h s
  obtain ⟨b, hb⟩ := ht s
  rw [ha] at hb
  simp at hb

/-! ### The console -/

theorem toText_fails (nd tty : Bool) {s : Str} (h : ¬ Complete s) : toText nd tty s = .error (endReached nd) := by
  induction s using markup_induct with
  | nil => exact absurd .nil h
  | char c s hc ih => rw [toText_char nd tty hc, ih (fun h' => h (.char hc h'))]; rfl
  | lone => exact toText_end nd tty
  | escape c s hc ih =>
    have := ih (fun h' => h (.escape hc h'))
    by_cases hd : c = '-'
    · subst hd; rw [toText_dash, this]; rfl
    · rw [toText_escape nd tty hd hc, this]; rfl
  | lonef => exact toText_end_f nd tty
  | font c s ih => rw [toText_font, ih (fun h' => h (.font h'))]; rfl

theorem emitText_total (c : Console) {s : Str} (h : Complete s) : Total (emitText c s) := by
  obtain ⟨o, ho⟩ := (toText_ok_iff c.ndebug c.tty s).2 h
  unfold emitText
  rw [ho]
  exact total_modify _

theorem emitText_fails (c : Console) {s : Str} (h : ¬ Complete s) : Fails (endReached c.ndebug) (emitText c s) := by
  unfold emitText
  rw [toText_fails _ _ h]
  exact fails_throw _

theorem printWords_total (c : Console) (tab : Nat) {ws : List Str} (h : ∀ w ∈ ws, Complete w) :
    ∀ pos, Total (printWords c tab pos ws) := by
  induction ws with
  | nil => exact fun _ => total_pure
  | cons w ws ih =>
    intro pos
    have ih' := ih fun v hv => h v (by simp [hv])
    unfold printWords
    split
    · exact total_bind (total_modify _) (total_bind (emitText_total c (h w (by simp))) (ih' _))
    · exact total_bind (total_modify _) (total_bind (emitText_total c (h w (by simp))) (ih' _))

theorem printWords_fails (c : Console) (tab : Nat) {ws : List Str} (h : ∃ w ∈ ws, ¬ Complete w) :
    ∀ pos, Fails (endReached c.ndebug) (printWords c tab pos ws) := by
  induction ws with
  | nil => obtain ⟨w, hw, _⟩ := h; simp at hw
  | cons w ws ih =>
    intro pos
    unfold printWords
    by_cases hw : Complete w
    · have : ∃ v ∈ ws, ¬ Complete v := by
        obtain ⟨v, hv, hn⟩ := h
        rcases List.mem_cons.1 hv with rfl | hv
        · exact absurd hw hn
        · exact ⟨v, hv, hn⟩
      split
      · exact fails_bind_right (total_modify _) (fails_bind_right (emitText_total c hw) (ih this _))
      · exact fails_bind_right (total_modify _) (fails_bind_right (emitText_total c hw) (ih this _))
    · split
      · exact fails_bind_right (total_modify _) (fails_bind_left (emitText_fails c hw))
      · exact fails_bind_right (total_modify _) (fails_bind_left (emitText_fails c hw))

theorem printText_total (c : Console) (tab : Nat) {s : Str} (h : ∀ w ∈ words s, Complete w) : Total (printText c s tab) := by
  unfold printText
  split
  · exact total_pure
  · rename_i w ws he
    rw [he] at h
    refine total_bind (emitText_total c (h w (by simp))) (total_bind ?_ (total_modify _))
    have := printWords_total c tab (ws := ws) fun v hv => h v (by simp [hv])
    split
    · exact total_bind (total_modify _) (this _)
    · exact this _

theorem printText_fails (c : Console) (tab : Nat) {s : Str} (h : ∃ w ∈ words s, ¬ Complete w) :
    Fails (endReached c.ndebug) (printText c s tab) := by
  unfold printText
  split
  · rename_i he; rw [he] at h; obtain ⟨w, hw, _⟩ := h; simp at hw
  · rename_i w ws he
    rw [he] at h
    by_cases hw : Complete w
    · have : ∃ v ∈ ws, ¬ Complete v := by
        obtain ⟨v, hv, hn⟩ := h
        rcases List.mem_cons.1 hv with rfl | hv
        · exact absurd hw hn
        · exact ⟨v, hv, hn⟩
      refine fails_bind_right (emitText_total c hw) (fails_bind_left ?_)
      split
      · exact fails_bind_right (total_modify _) (printWords_fails c tab this _)
      · exact printWords_fails c tab this _
    · exact fails_bind_left (emitText_fails c hw)

/-- The texts of a print call that the console can print: those of lines and descriptions are printed word by word, the
terms of list items as a whole, titles are not interpreted. -/
def HelpOk : Block → Prop
  | .sec _ => True
  | .subsec _ => True
  | .line t _ => ∀ w ∈ words t, Complete w
  | .item k d => Complete k ∧ ∀ w ∈ words d, Complete w

theorem helpBlock_total (c : Console) {b : Block} (h : HelpOk b) : Total (helpBlock c b) := by
  cases b with
  | sec t => exact total_bind (total_modify _) (total_modify _)
  | subsec t => exact total_bind (total_modify _) (total_modify _)
  | line t p =>
    show Total (helpLine c t p)
    unfold helpLine
    exact total_bind (total_modify _) (total_bind (total_modify _) (total_bind (printText_total c _ h) (total_modify _)))
  | item k d =>
    show Total (helpItem c k d)
    unfold helpItem
    exact total_bind (total_modify _) (total_bind (total_modify _) (total_bind (emitText_total c h.1)
      (total_bind (total_modify _) (total_bind (printText_total c _ h.2) (total_modify _)))))

theorem helpBlock_fails (c : Console) {b : Block} (h : ¬ HelpOk b) : Fails (endReached c.ndebug) (helpBlock c b) := by
  have words_bad : ∀ s : Str, ¬ (∀ w ∈ words s, Complete w) → ∃ w ∈ words s, ¬ Complete w := by
    intro s hs
    by_cases he : ∃ w ∈ words s, ¬ Complete w
    · exact he
    · exact absurd (fun w hw => Classical.byContradiction fun hn => he ⟨w, hw, hn⟩) hs
  cases b with
  | sec t => exact absurd trivial h
  | subsec t => exact absurd trivial h
  | line t p =>
    show Fails _ (helpLine c t p)
    unfold helpLine
    exact fails_bind_right (total_modify _) (fails_bind_right (total_modify _)
      (fails_bind_left (printText_fails c _ (words_bad t h))))
  | item k d =>
    show Fails _ (helpItem c k d)
    unfold helpItem
    refine fails_bind_right (total_modify _) (fails_bind_right (total_modify _) ?_)
    by_cases hk : Complete k
    · exact fails_bind_right (emitText_total c hk) (fails_bind_right (total_modify _)
        (fails_bind_left (printText_fails c _ (words_bad d fun hd => h ⟨hk, hd⟩))))
    · exact fails_bind_left (emitText_fails c hk)

/-! ### HTML -/

theorem toHtmlFrom_fails (nd : Bool) (s : Str) :
    ∀ tags, ¬ FontsOk tags.length s → toHtmlFrom nd tags s = .error (endReached nd) := by
  induction s using markup_induct with
  | nil => exact fun _ h => absurd .nil h
  | char c s hc ih =>
    intro tags h
    rw [toHtmlFrom_char nd tags hc, ih tags (fun h' => h (.char hc h'))]; rfl
  | lone => exact fun tags _ => toHtmlFrom_end nd tags
  | escape c s hc ih =>
    intro tags h
    have := ih tags (fun h' => h (.escape hc h'))
    by_cases hd : c = '-'
    · subst hd; rw [toHtmlFrom_dash, this]; rfl
    · rw [toHtmlFrom_escape nd tags hd hc, this]; rfl
  | lonef => exact fun tags _ => toHtmlFrom_end_f nd tags
  | font c s ih =>
    intro tags h
    by_cases hI : c = 'I'
    · subst hI
      rw [toHtmlFrom_I, ih ("em".toList :: tags) (fun h' => h (.on (by decide) h'))]; rfl
    · by_cases hB : c = 'B'
      · subst hB
        rw [toHtmlFrom_B, ih ("strong".toList :: tags) (fun h' => h (.on (by decide) h'))]; rfl
      · by_cases hP : c = 'P'
        · subst hP
          cases tags with
          | nil => exact toHtmlFrom_P_none nd s
          | cons t tags => rw [toHtmlFrom_P, ih _ (fun h' => h (.off h'))]; rfl
        · have hn : c ∉ ['B', 'I', 'P'] := by simp [hI, hB, hP]
          rw [toHtmlFrom_unknown nd tags hn, ih _ (fun h' => h (.unknown hn h'))]; rfl

theorem htmlText_total (nd : Bool) {s : Str} (h : FontsOk 0 s) : Total (htmlText nd s) := by
  obtain ⟨o, ho⟩ := (toHtmlFrom_ok_iff nd s []).2 h
  unfold htmlText toHtml
  rw [ho]
  exact total_modify _

theorem htmlText_fails (nd : Bool) {s : Str} (h : ¬ FontsOk 0 s) : Fails (endReached nd) (htmlText nd s) := by
  unfold htmlText toHtml
  rw [toHtmlFrom_fails nd s [] h]
  exact fails_throw _

theorem htmlBlock_total (nd : Bool) {b : Block} (h : ∀ t ∈ b.texts, FontsOk 0 t) : Total (htmlBlock nd b) := by
  cases b with
  | sec t =>
    show Total (htmlHeading nd _ t)
    unfold htmlHeading
    exact total_bind (total_modify _) (total_bind (total_modify _) (total_bind (total_modify _)
      (total_bind (htmlText_total nd (h t (by simp [Block.texts]))) (total_modify _))))
  | subsec t =>
    show Total (htmlHeading nd _ t)
    unfold htmlHeading
    exact total_bind (total_modify _) (total_bind (total_modify _) (total_bind (total_modify _)
      (total_bind (htmlText_total nd (h t (by simp [Block.texts]))) (total_modify _))))
  | line t p =>
    show Total (htmlLine nd t p)
    unfold htmlLine
    refine total_bind (total_modify _) (total_bind (total_modify _)
      (total_bind (htmlText_total nd (h t (by simp [Block.texts]))) (total_bind (total_modify _) ?_)))
    split <;> exact total_modify _
  | item k d =>
    show Total (htmlItem nd k d)
    unfold htmlItem
    exact total_bind (total_modify _) (total_bind (total_modify _) (total_bind (total_modify _)
      (total_bind (htmlText_total nd (h k (by simp [Block.texts]))) (total_bind (total_modify _)
      (total_bind (htmlText_total nd (h d (by simp [Block.texts]))) (total_modify _))))))

theorem htmlBlock_fails (nd : Bool) {b : Block} (h : ¬ ∀ t ∈ b.texts, FontsOk 0 t) :
    Fails (endReached nd) (htmlBlock nd b) := by
  cases b with
  | sec t =>
    show Fails _ (htmlHeading nd _ t)
    unfold htmlHeading
    exact fails_bind_right (total_modify _) (fails_bind_right (total_modify _) (fails_bind_right (total_modify _)
      (fails_bind_left (htmlText_fails nd fun ht => h (by simpa [Block.texts] using ht)))))
  | subsec t =>
    show Fails _ (htmlHeading nd _ t)
    unfold htmlHeading
    exact fails_bind_right (total_modify _) (fails_bind_right (total_modify _) (fails_bind_right (total_modify _)
      (fails_bind_left (htmlText_fails nd fun ht => h (by simpa [Block.texts] using ht)))))
  | line t p =>
    show Fails _ (htmlLine nd t p)
    unfold htmlLine
    exact fails_bind_right (total_modify _) (fails_bind_right (total_modify _)
      (fails_bind_left (htmlText_fails nd fun ht => h (by simpa [Block.texts] using ht))))
  | item k d =>
    show Fails _ (htmlItem nd k d)
    unfold htmlItem
    refine fails_bind_right (total_modify _) (fails_bind_right (total_modify _) (fails_bind_right (total_modify _) ?_))
    by_cases hk : FontsOk 0 k
    · exact fails_bind_right (htmlText_total nd hk) (fails_bind_right (total_modify _)
        (fails_bind_left (htmlText_fails nd fun hd => h (by simpa [Block.texts] using ⟨hk, hd⟩))))
    · exact fails_bind_left (htmlText_fails nd hk)

theorem htmlHeader_total (nd : Bool) (app : Str) (m : Meta) (h1 : FontsOk 0 app) (h2 : FontsOk 0 m.shortDescription) :
    Total (htmlHeader nd app m) := by
  unfold htmlHeader
  exact total_bind (total_modify _) (total_bind (total_modify _) (total_bind (htmlText_total nd h1)
    (total_bind (total_modify _) (total_bind (htmlText_total nd h2) (total_modify _)))))

theorem htmlHeader_fails (nd : Bool) (app : Str) (m : Meta) (h : ¬ (FontsOk 0 app ∧ FontsOk 0 m.shortDescription)) :
    Fails (endReached nd) (htmlHeader nd app m) := by
  unfold htmlHeader
  refine fails_bind_right (total_modify _) (fails_bind_right (total_modify _) ?_)
  by_cases h1 : FontsOk 0 app
  · exact fails_bind_right (htmlText_total nd h1) (fails_bind_right (total_modify _)
      (fails_bind_left (htmlText_fails nd fun h2 => h ⟨h1, h2⟩)))
  · exact fails_bind_left (htmlText_fails nd h1)

/-! ### Man page -/

theorem manBlock_total (b : Block) : Total (manBlock b) := by
  cases b <;> exact total_modify _

/-! ### Pages -/

theorem steps_total {σ : Type} (pr : Printer σ) {l : List Step} (h : ∀ x ∈ l, ∃ b, x = .ok b ∧ Total (pr.block b)) :
    Total (pr.steps l) := by
  refine forEach_total fun x hx => ?_
  obtain ⟨b, rfl, hb⟩ := h x hx
  exact hb

theorem fullPage_total {σ W : Type} (pr : Printer σ) (i : PageInput W) (h1 : Total pr.header)
    (h2 : ∀ x ∈ pageSteps i pr.bold, ∃ b, x = .ok b ∧ Total (pr.block b)) (h3 : Total pr.footer) :
    Total (printFullPage pr i) :=
  total_bind h1 (total_bind (steps_total pr h2) h3)

end Sharg
