import Verif.Spec.Utf8
import Verif.Lemmas.History
import Verif.Lemmas.Pages

/-!
# Lemmas: valid UTF-8

The bytes of a character outside of ASCII are all at least 128, so a text may be cut at every ASCII character.
-/

namespace Sharg

open Spec

theorem ofNat_toNat {n : Nat} (h : n < 256) : (Char.ofNat n).toNat = n := by
  have : n.isValidChar := Or.inl (by omega)
  simp [Char.ofNat, this, Char.toNat, Char.ofNatAux]

theorem utf8Bytes_ascii {c : Char} (h : IsAscii c) : utf8Bytes c = [c] := by
  have h' : c.val.toNat < 128 := h
  have e : String.utf8EncodeChar c = [UInt8.ofNat c.val.toNat] := by
    unfold String.utf8EncodeChar
    dsimp only
    rw [if_pos (by omega)]
  unfold utf8Bytes
  rw [e]
  simp only [List.map_cons, List.map_nil, List.cons.injEq, and_true]
  apply Char.ext
  apply UInt32.toNat.inj
  have h2 : (UInt8.ofNat c.val.toNat).toNat = c.val.toNat := by
    rw [UInt8.toNat_ofNat']
    omega
  rw [h2]
  exact ofNat_toNat (by omega)

theorem utf8Bytes_high {c : Char} (h : ¬ IsAscii c) : 2 ≤ (utf8Bytes c).length ∧ ∀ b ∈ utf8Bytes c, ¬ IsAscii b := by
  have h' : ¬ c.val.toNat < 128 := h
  have byte : ∀ n, 128 ≤ n → n < 256 → ¬ IsAscii (Char.ofNat (UInt8.ofNat n).toNat) := by
    intro n h1 h2
    have : (UInt8.ofNat n).toNat = n := by rw [UInt8.toNat_ofNat']; omega
    rw [this]
    unfold IsAscii
    rw [ofNat_toNat h2]
    omega
  unfold utf8Bytes String.utf8EncodeChar
  dsimp only
  rw [if_neg (by omega)]
  split
  · refine ⟨by simp, ?_⟩
    simp only [List.map_cons, List.map_nil, List.forall_mem_cons, List.not_mem_nil, false_implies, implies_true, and_true]
    exact ⟨byte _ (by omega) (by omega), byte _ (by omega) (by omega)⟩
  split
  · refine ⟨by simp, ?_⟩
    simp only [List.map_cons, List.map_nil, List.forall_mem_cons, List.not_mem_nil, false_implies, implies_true, and_true]
    exact ⟨byte _ (by omega) (by omega), byte _ (by omega) (by omega), byte _ (by omega) (by omega)⟩
  · refine ⟨by simp, ?_⟩
    simp only [List.map_cons, List.map_nil, List.forall_mem_cons, List.not_mem_nil, false_implies, implies_true, and_true]
    exact ⟨byte _ (by omega) (by omega), byte _ (by omega) (by omega), byte _ (by omega) (by omega), byte _ (by omega) (by omega)⟩

namespace Spec.Utf8

theorem nil : Utf8 [] := ⟨[], rfl⟩

theorem append {a b : Str} (ha : Utf8 a) (hb : Utf8 b) : Utf8 (a ++ b) := by
  obtain ⟨u, rfl⟩ := ha
  obtain ⟨v, rfl⟩ := hb
  exact ⟨u ++ v, by unfold utf8Text; rw [List.flatMap_append]⟩

theorem ascii {s : Str} (h : ∀ c ∈ s, IsAscii c) : Utf8 s := by
  induction s with
  | nil => exact nil
  | cons c s ih =>
    have h1 : Utf8 [c] := ⟨[c], by unfold utf8Text; simp [utf8Bytes_ascii (h c (by simp))]⟩
    exact append h1 (ih fun d hd => h d (by simp [hd]))

theorem cons {c : Char} {s : Str} (hc : IsAscii c) (h : Utf8 s) : Utf8 (c :: s) :=
  append (a := [c]) (ascii (by simpa using hc)) h

/-- A text can be cut at every ASCII character. -/
theorem split {a b : Str} {c : Char} (hc : IsAscii c) (h : Utf8 (a ++ c :: b)) : Utf8 a ∧ Utf8 b := by
  obtain ⟨u, hu⟩ := h
  induction u generalizing a with
  | nil => simp [utf8Text] at hu
  | cons x u ih =>
    have e : utf8Text (x :: u) = utf8Bytes x ++ utf8Text u := by unfold utf8Text; rw [List.flatMap_cons]
    rw [e] at hu
    rcases List.append_eq_append_iff.1 hu with ⟨t, h1, h2⟩ | ⟨t, h1, h2⟩
    · -- the first character reaches behind `a`
      cases t with
      | nil =>
        rw [List.append_nil] at h1
        have hx := ih (a := []) h2
        exact ⟨⟨[x], by unfold utf8Text; rw [List.flatMap_singleton, h1]⟩, hx.2⟩
      | cons d t =>
        rw [List.cons_append] at h2
        injection h2 with h3 h4
        subst h3
        by_cases hx : IsAscii x
        · rw [utf8Bytes_ascii hx] at h1
          cases a with
          | nil =>
            rw [List.nil_append] at h1
            injection h1 with h5 h6
            subst h6
            exact ⟨nil, u, by simpa using h4⟩
          | cons y a => simp at h1
        · exact absurd hc ((utf8Bytes_high hx).2 _ (by rw [h1]; simp))
    · have hx := ih h2.symm
      refine ⟨?_, hx.2⟩
      rw [h1]
      exact append ⟨[x], by unfold utf8Text; rw [List.flatMap_singleton]⟩ hx.1

/-- ASCII text in front can be taken away. -/
theorem behind {a b : Str} (ha : ∀ c ∈ a, IsAscii c) (h : Utf8 (a ++ b)) : Utf8 b := by
  induction a with
  | nil => exact h
  | cons c a ih =>
    refine ih (fun d hd => ha d (by simp [hd])) ?_
    exact (split (a := []) (ha c (by simp)) h).2

theorem tail {c : Char} {s : Str} (hc : IsAscii c) (h : Utf8 (c :: s)) : Utf8 s := behind (a := [c]) (by simpa using hc) h

/-- One byte is an ASCII character. -/
theorem single {c : Char} (h : Utf8 [c]) : IsAscii c := by
  obtain ⟨u, hu⟩ := h
  cases u with
  | nil => simp [utf8Text] at hu
  | cons x u =>
    by_cases hx : IsAscii x
    · unfold utf8Text at hu
      rw [List.flatMap_cons, utf8Bytes_ascii hx] at hu
      injection hu with h1 h2
      exact h1 ▸ hx
    · have hl := congrArg List.length hu
      unfold utf8Text at hl
      rw [List.flatMap_cons, List.length_append] at hl
      have := (utf8Bytes_high hx).1
      simp only [List.length_cons, List.length_nil] at hl
      omega

theorem erase {c : Char} {s : Str} (hc : IsAscii c) (h : Utf8 s) : Utf8 (s.erase c) := by
  by_cases hm : c ∈ s
  · obtain ⟨a, b, _, h1, h2⟩ := List.exists_erase_eq hm
    rw [h2]
    rw [h1] at h
    exact append (split hc h).1 (split hc h).2
  · rw [List.erase_of_not_mem hm]; exact h

/-- What is in front of the first character that fails an ASCII test. -/
theorem takeWhile {s : Str} {q : Char → Bool} (hq : ∀ c, q c = false → IsAscii c) (h : Utf8 s) : Utf8 (s.takeWhile q) := by
  have e := List.takeWhile_append_dropWhile (p := q) (l := s)
  cases hd : s.dropWhile q with
  | nil => rw [hd, List.append_nil] at e; rw [e]; exact h
  | cons c t =>
    have hc : q c = false := by
      have := List.head?_dropWhile_not q s
      rw [hd] at this
      simpa using this
    rw [hd] at e
    exact (split (hq c hc) (e ▸ h)).1

/-- What is behind it. -/
theorem dropWhile {s : Str} {q : Char → Bool} (hq : ∀ c, q c = false → IsAscii c) (h : Utf8 s) : Utf8 (s.dropWhile q) := by
  have e := List.takeWhile_append_dropWhile (p := q) (l := s)
  cases hd : s.dropWhile q with
  | nil => exact nil
  | cons c t =>
    have hc : q c = false := by
      have := List.head?_dropWhile_not q s
      rw [hd] at this
      simpa using this
    rw [hd] at e
    exact cons (hq c hc) (split (hq c hc) (e ▸ h)).2

theorem flatten {l : List Str} (h : ∀ s ∈ l, Utf8 s) : Utf8 l.flatten := by
  induction l with
  | nil => exact nil
  | cons a l ih => exact append (h a (by simp)) (ih fun s hs => h s (by simp [hs]))

theorem flatMap {α : Type} {f : α → Str} {l : List α} (h : ∀ a ∈ l, Utf8 (f a)) : Utf8 (l.flatMap f) := by
  rw [List.flatMap_def]
  refine flatten fun s hs => ?_
  obtain ⟨a, ha, rfl⟩ := List.mem_map.1 hs
  exact h a ha

end Spec.Utf8

/-! ### Rewriting texts from left to right -/

/-- Behind the first bytes of a character, `o` is as good as `s`. -/
def KeepsUtf8 (s o : Str) : Prop := ∀ q, Utf8 (q ++ s) → Utf8 (q ++ o)

theorem KeepsUtf8.utf8 {s o : Str} (h : KeepsUtf8 s o) (hs : Utf8 s) : Utf8 o := h [] hs

theorem KeepsUtf8.nil : KeepsUtf8 [] [] := fun _ h => h

theorem KeepsUtf8.same (c : Char) {s o : Str} (h : KeepsUtf8 s o) : KeepsUtf8 (c :: s) (c :: o) := fun q hq => by
  have := h (q ++ [c]) (by simpa using hq)
  simpa using this

/-- An ASCII character may be replaced by any text. -/
theorem KeepsUtf8.replace {c : Char} (hc : IsAscii c) {t s o : Str} (ht : Utf8 t) (h : KeepsUtf8 s o) : KeepsUtf8 (c :: s) (t ++ o) := fun _ hq =>
  (Utf8.split hc hq).1.append (ht.append (h.utf8 (Utf8.split hc hq).2))

theorem KeepsUtf8.flatMap {f : Char → Str} (h : ∀ c, f c = [c] ∨ (IsAscii c ∧ Utf8 (f c))) (s : Str) : KeepsUtf8 s (s.flatMap f) := by
  induction s with
  | nil => exact KeepsUtf8.nil
  | cons c s ih =>
    rw [List.flatMap_cons]
    rcases h c with e | ⟨h1, h2⟩
    · rw [e]; exact ih.same c
    · exact KeepsUtf8.replace h1 h2 ih

theorem flatMap_pure (f : Char → Char) (s : Str) : s.flatMap (fun c => [f c]) = s.map f := by
  induction s with
  | nil => rfl
  | cons c s ih => rw [List.flatMap_cons, ih]; rfl

theorem KeepsUtf8.map {f : Char → Char} (h : ∀ c, f c = c ∨ (IsAscii c ∧ IsAscii (f c))) (s : Str) : KeepsUtf8 s (s.map f) := by
  have := KeepsUtf8.flatMap (f := fun c => [f c]) (fun c => ?_) s
  · rwa [flatMap_pure] at this
  · rcases h c with e | ⟨h1, h2⟩
    · exact Or.inl (by rw [e])
    · exact Or.inr ⟨h1, Utf8.ascii (by simpa using h2)⟩

theorem literal_utf8 {s : Str} (h : s.all (fun c => decide (IsAscii c)) = true) : Utf8 s :=
  Utf8.ascii fun c hc => of_decide_eq_true (List.all_eq_true.1 h c hc)

theorem utf8_escapeXml {s : Str} (h : Utf8 s) : Utf8 (escapeXml s) := by
  refine (KeepsUtf8.flatMap (fun c => ?_) s).utf8 h
  unfold escapeXmlChar
  split
  · rename_i e; subst e; exact Or.inr ⟨by decide, literal_utf8 (by decide)⟩
  split
  · rename_i e; subst e; exact Or.inr ⟨by decide, literal_utf8 (by decide)⟩
  split
  · rename_i e; subst e; exact Or.inr ⟨by decide, literal_utf8 (by decide)⟩
  split
  · rename_i e; subst e; exact Or.inr ⟨by decide, literal_utf8 (by decide)⟩
  split
  · rename_i e; subst e; exact Or.inr ⟨by decide, literal_utf8 (by decide)⟩
  · exact Or.inl rfl

theorem utf8_quoted {s : Str} (h : Utf8 s) : Utf8 (quoted s) := by
  unfold quoted
  refine ((literal_utf8 (by decide)).append ((KeepsUtf8.flatMap (fun c => ?_) s).utf8 h)).append (literal_utf8 (by decide))
  split
  · rename_i e
    rcases e with rfl | rfl
    · exact Or.inr ⟨by decide, literal_utf8 (by decide)⟩
    · exact Or.inr ⟨by decide, literal_utf8 (by decide)⟩
  · exact Or.inl rfl

theorem upper_ascii (c : Char) : upperChar c = c ∨ (IsAscii c ∧ IsAscii (upperChar c)) := by
  unfold upperChar
  split
  · rename_i h
    have h1 : 97 ≤ c.toNat := h.1
    have h2 : c.toNat ≤ 122 := h.2
    refine Or.inr ⟨by unfold IsAscii; omega, ?_⟩
    unfold IsAscii
    rw [ofNat_toNat (by omega)]
    omega
  · exact Or.inl rfl

theorem lower_ascii (c : Char) : lowerChar c = c ∨ (IsAscii c ∧ IsAscii (lowerChar c)) := by
  unfold lowerChar
  split
  · rename_i h
    have h1 : 65 ≤ c.toNat := h.1
    have h2 : c.toNat ≤ 90 := h.2
    refine Or.inr ⟨by unfold IsAscii; omega, ?_⟩
    unfold IsAscii
    rw [ofNat_toNat (by omega)]
    omega
  · exact Or.inl rfl

theorem utf8_upper {s : Str} (h : Utf8 s) : Utf8 (s.map upperChar) := (KeepsUtf8.map upper_ascii s).utf8 h

theorem utf8_lower {s : Str} (h : Utf8 s) : Utf8 (s.map lowerChar) := (KeepsUtf8.map lower_ascii s).utf8 h

theorem prependTo_eq {pre o : Str} {r : Except Exn Str} (h : prependTo pre r = .ok o) : ∃ o', r = .ok o' ∧ o = pre ++ o' := by
  cases r with
  | error e => cases h
  | ok o' => exact ⟨o', rfl, by cases h; rfl⟩

theorem utf8_ansi (tty : Bool) (c : Char) (hc : IsAscii c) : Utf8 (ansi tty c) := by
  unfold ansi
  split
  · refine Utf8.ascii ?_
    intro d hd
    simp only [List.mem_cons, List.not_mem_nil, or_false] at hd
    rcases hd with rfl | rfl | rfl | rfl
    · decide
    · decide
    · exact hc
    · decide
  · exact Utf8.nil

/-- Taking an ASCII character out in front of a byte that stays. -/
theorem KeepsUtf8.drop {c : Char} (hc : IsAscii c) {s o : Str} (h : KeepsUtf8 s o) : KeepsUtf8 (c :: s) o := KeepsUtf8.replace (t := []) hc Utf8.nil h

theorem keeps_toText (nd tty : Bool) (s : Str) : ∀ o, toText nd tty s = .ok o → KeepsUtf8 s o := by
  induction s using markup_induct with
  | nil => intro o h; cases h; exact KeepsUtf8.nil
  | char c s hc ih =>
    intro o h
    unfold toText at h
    rw [if_pos hc] at h
    obtain ⟨o', h1, rfl⟩ := prependTo_eq h
    exact (ih o' h1).same c
  | lone => intro o h; cases h
  | lonef => intro o h; cases h
  | escape c s hc ih =>
    intro o h
    unfold toText at h
    rw [if_neg (by simp)] at h
    dsimp only at h
    split at h
    · rename_i e
      subst e
      obtain ⟨o', h1, rfl⟩ := prependTo_eq h
      exact ((ih o' h1).same '-').drop (by decide)
    · obtain ⟨o', h1, rfl⟩ := prependTo_eq h
      exact ((ih o' h1).same c).same '\\'
  | font c s ih =>
    intro o h
    unfold toText at h
    rw [if_neg (by simp)] at h
    dsimp only at h
    rw [if_neg (by decide), if_pos rfl] at h
    have repl : ∀ (d : Char), IsAscii d → ∀ t o', Utf8 t → KeepsUtf8 s o' → KeepsUtf8 ('\\' :: 'f' :: d :: s) (t ++ o') :=
      fun d hd t o' ht hk => ((KeepsUtf8.replace hd ht hk).drop (by decide)).drop (by decide)
    split at h
    · rename_i e
      subst e
      obtain ⟨o', h1, rfl⟩ := prependTo_eq h
      exact repl _ (by decide) _ _ (utf8_ansi tty _ (by decide)) (ih o' h1)
    split at h
    · rename_i e
      subst e
      obtain ⟨o', h1, rfl⟩ := prependTo_eq h
      exact repl _ (by decide) _ _ (utf8_ansi tty _ (by decide)) (ih o' h1)
    split at h
    · rename_i e
      subst e
      obtain ⟨o', h1, rfl⟩ := prependTo_eq h
      exact repl _ (by decide) _ _ (utf8_ansi tty _ (by decide)) (ih o' h1)
    · obtain ⟨o', h1, rfl⟩ := prependTo_eq h
      exact (((ih o' h1).same c).same 'f').same '\\'

theorem keeps_toHtmlFrom (nd : Bool) (s : Str) : ∀ (tags : List Str) (o : Str), (∀ t ∈ tags, Utf8 t) →
    toHtmlFrom nd tags s = .ok o → KeepsUtf8 s o := by
  induction s using markup_induct with
  | nil => intro tags o _ h; cases h; exact KeepsUtf8.nil
  | char c s hc ih =>
    intro tags o ht h
    unfold toHtmlFrom at h
    rw [if_pos hc] at h
    obtain ⟨o', h1, rfl⟩ := prependTo_eq h
    exact (ih tags o' ht h1).same c
  | lone => intro tags o _ h; cases h
  | lonef => intro tags o _ h; cases h
  | escape c s hc ih =>
    intro tags o ht h
    unfold toHtmlFrom at h
    rw [if_neg (by simp)] at h
    dsimp only at h
    split at h
    · rename_i e
      subst e
      obtain ⟨o', h1, rfl⟩ := prependTo_eq h
      exact ((ih tags o' ht h1).same '-').drop (by decide)
    · obtain ⟨o', h1, rfl⟩ := prependTo_eq h
      exact ((ih tags o' ht h1).same c).same '\\'
  | font c s ih =>
    intro tags o ht h
    unfold toHtmlFrom at h
    rw [if_neg (by simp)] at h
    dsimp only at h
    rw [if_neg (by decide), if_pos rfl] at h
    have repl : ∀ (d : Char), IsAscii d → ∀ t o', Utf8 t → KeepsUtf8 s o' → KeepsUtf8 ('\\' :: 'f' :: d :: s) (t ++ o') :=
      fun d hd t o' ht hk => ((KeepsUtf8.replace hd ht hk).drop (by decide)).drop (by decide)
    have push : ∀ t : Str, Utf8 t → ∀ x ∈ t :: tags, Utf8 x := fun t h x hx => by
      rcases List.mem_cons.1 hx with rfl | hx
      · exact h
      · exact ht x hx
    split at h
    · rename_i e
      subst e
      obtain ⟨o', h1, rfl⟩ := prependTo_eq h
      exact repl _ (by decide) _ _ (literal_utf8 (by decide)) (ih _ o' (push _ (literal_utf8 (by decide))) h1)
    split at h
    · rename_i e
      subst e
      obtain ⟨o', h1, rfl⟩ := prependTo_eq h
      exact repl _ (by decide) _ _ (literal_utf8 (by decide)) (ih _ o' (push _ (literal_utf8 (by decide))) h1)
    split at h
    · rename_i e
      subst e
      cases tags with
      | nil => cases h
      | cons t tags =>
        obtain ⟨o', h1, rfl⟩ := prependTo_eq h
        exact repl _ (by decide) _ _ (((literal_utf8 (by decide)).append (ht t (by simp))).append (literal_utf8 (by decide)))
          (ih _ o' (fun x hx => ht x (by simp [hx])) h1)
    · obtain ⟨o', h1, rfl⟩ := prependTo_eq h
      exact (((ih tags o' ht h1).same c).same 'f').same '\\'

theorem space_ascii {c : Char} (h : isSpace c = true) : IsAscii c := by
  simp only [isSpace, Bool.or_eq_true, beq_iff_eq] at h
  rcases h with ((((rfl | rfl) | rfl) | rfl) | rfl) | rfl <;> decide

theorem utf8_wordsFrom (s : Str) : ∀ cur, Utf8 (cur ++ s) → ∀ w ∈ wordsFrom cur s, Utf8 w := by
  induction s with
  | nil =>
    intro cur h w hw
    unfold wordsFrom at hw
    rw [List.append_nil] at h
    split at hw
    · simp at hw
    · rw [List.mem_singleton] at hw; subst hw; exact h
  | cons c s ih =>
    intro cur h w hw
    unfold wordsFrom at hw
    split at hw
    · rename_i hc
      have := Utf8.split (space_ascii hc) h
      split at hw
      · exact ih [] this.2 w hw
      · rcases List.mem_cons.1 hw with rfl | hw
        · exact this.1
        · exact ih [] this.2 w hw
    · exact ih (cur ++ [c]) (by simpa using h) w hw

theorem utf8_words {s : Str} (h : Utf8 s) : ∀ w ∈ words s, Utf8 w :=
  utf8_wordsFrom _ [] (Utf8.takeWhile (fun c hc => by
    have : c = '\x00' := by simpa using hc
    subst this; decide) h)

/-! ### Pages -/

/-- Code that writes valid texts, whether it throws or not. -/
def WritesUtf8 {σ : Type} (out : σ → Str) (m : M σ Unit) : Prop := ∀ h, Utf8 (out h) → Utf8 (out (m h).state)

section writes

variable {σ : Type} {out : σ → Str}

theorem WritesUtf8.bind {m n : M σ Unit} (h1 : WritesUtf8 out m) (h2 : WritesUtf8 out n) : WritesUtf8 out (M.bind m fun _ => n) := by
  intro h hh
  unfold M.bind
  have := h1 h hh
  cases e : m h with
  | ok u h' => rw [e] at this; exact h2 h' this
  | err x h' => rw [e] at this; exact this

theorem WritesUtf8.pure : WritesUtf8 out (M.pure ()) := fun _ h => h

theorem WritesUtf8.throw (e : Exn) : WritesUtf8 out (M.throw e) := fun _ h => h

theorem WritesUtf8.modify {f : σ → σ} (h : ∀ s, ∃ t, out (f s) = out s ++ t ∧ Utf8 t) : WritesUtf8 out (M.modify f) := by
  intro s hs
  obtain ⟨t, h1, h2⟩ := h s
  show Utf8 (out (f s))
  rw [h1]
  exact hs.append h2

theorem WritesUtf8.forEach {α : Type} {f : α → M σ Unit} {l : List α} (h : ∀ a ∈ l, WritesUtf8 out (f a)) : WritesUtf8 out (M.forEach f l) := by
  induction l with
  | nil => exact WritesUtf8.pure
  | cons a l ih => exact WritesUtf8.bind (h a (by simp)) (ih fun b hb => h b (by simp [hb]))

theorem WritesUtf8.steps {pr : Printer σ} (hb : ∀ b : Block, (∀ t ∈ b.texts, Utf8 t) → WritesUtf8 out (pr.block b))
    {l : List Step} (h : ∀ x ∈ l, (∃ e, x = .error e) ∨ ∃ b, x = .ok b ∧ ∀ t ∈ b.texts, Utf8 t) : WritesUtf8 out (pr.steps l) := by
  refine WritesUtf8.forEach fun x hx => ?_
  rcases h x hx with ⟨e, rfl⟩ | ⟨b, rfl, h⟩
  · exact WritesUtf8.throw e
  · exact hb b h

end writes

theorem utf8_writes_emit {s : Str} (h : Utf8 s) : WritesUtf8 HelpState.out (emit s) := WritesUtf8.modify fun _ => ⟨s, rfl, h⟩

theorem utf8_writes_emitText (c : Console) {s : Str} (h : Utf8 s) : WritesUtf8 HelpState.out (emitText c s) := by
  unfold emitText
  split
  · rename_i t e
    exact utf8_writes_emit ((keeps_toText _ _ s t e).utf8 h)
  · exact WritesUtf8.throw _

theorem utf8_blanks (n : Nat) : Utf8 (blanks n) := Utf8.ascii fun c hc => by
  rw [List.eq_of_mem_replicate hc]; decide

theorem utf8_replicate (n : Nat) {c : Char} (h : IsAscii c) : Utf8 (List.replicate n c) := Utf8.ascii fun d hd => by
  rw [List.eq_of_mem_replicate hd]; exact h

theorem utf8_writes_newline (n : Nat) : WritesUtf8 HelpState.out (emit ('\n' :: blanks n)) := utf8_writes_emit (.cons (by decide) (utf8_blanks n))

theorem utf8_writes_printWords (c : Console) (tab : Nat) {ws : List Str} (h : ∀ w ∈ ws, Utf8 w) :
    ∀ pos, WritesUtf8 HelpState.out (printWords c tab pos ws) := by
  induction ws with
  | nil => exact fun _ => WritesUtf8.pure
  | cons w ws ih =>
    intro pos
    have ih := ih fun x hx => h x (by simp [hx])
    unfold printWords
    split
    · exact WritesUtf8.bind (utf8_writes_newline _) (WritesUtf8.bind (utf8_writes_emitText c (h w (by simp))) (ih _))
    · exact WritesUtf8.bind (utf8_writes_emit (literal_utf8 (by decide))) (WritesUtf8.bind (utf8_writes_emitText c (h w (by simp))) (ih _))

theorem utf8_writes_printText (c : Console) (tab : Nat) {s : Str} (h : Utf8 s) : WritesUtf8 HelpState.out (printText c s tab) := by
  have hw := utf8_words h
  unfold printText
  split
  · exact WritesUtf8.pure
  · rename_i w ws e
    rw [e] at hw
    refine WritesUtf8.bind (utf8_writes_emitText c (hw w (by simp))) (WritesUtf8.bind ?_ (utf8_writes_emit (literal_utf8 (by decide))))
    split
    · exact WritesUtf8.bind (utf8_writes_newline _) (utf8_writes_printWords c tab (fun x hx => hw x (by simp [hx])) _)
    · exact utf8_writes_printWords c tab (fun x hx => hw x (by simp [hx])) _

theorem utf8_writes_paragraph (b : Bool) : WritesUtf8 HelpState.out (setParagraph b) := WritesUtf8.modify fun _ => ⟨[], by simp, Utf8.nil⟩

theorem utf8_writes_break : WritesUtf8 HelpState.out paragraphBreak := WritesUtf8.modify fun s => ⟨_, rfl, by
  split
  · exact literal_utf8 (by decide)
  · exact Utf8.nil⟩

theorem utf8_bold (c : Console) {s : Str} (h : Utf8 s) : Utf8 (inBold c s) :=
  ((utf8_ansi _ _ (by decide)).append h).append (utf8_ansi _ _ (by decide))

theorem utf8_writes_helpBlock (c : Console) (b : Block) (h : ∀ t ∈ b.texts, Utf8 t) : WritesUtf8 HelpState.out (helpBlock c b) := by
  cases b with
  | sec t =>
    have ht := h t (by simp [Block.texts])
    refine WritesUtf8.bind (utf8_writes_emit ?_) (utf8_writes_paragraph _)
    exact ((((literal_utf8 (by decide)).append (utf8_ansi _ _ (by decide))).append (utf8_upper ht)).append
      (utf8_ansi _ _ (by decide))).append (literal_utf8 (by decide))
  | subsec t =>
    have ht := h t (by simp [Block.texts])
    refine WritesUtf8.bind (utf8_writes_emit ?_) (utf8_writes_paragraph _)
    exact (((literal_utf8 (by decide)).append (utf8_blanks _)).append (utf8_bold c ht)).append (literal_utf8 (by decide))
  | line t p =>
    show WritesUtf8 _ (helpLine c t p)
    unfold helpLine
    exact WritesUtf8.bind utf8_writes_break (WritesUtf8.bind (utf8_writes_emit (utf8_blanks _)) (WritesUtf8.bind (utf8_writes_printText c _
      (h t (by simp [Block.texts]))) (utf8_writes_paragraph _)))
  | item k d =>
    show WritesUtf8 _ (helpItem c k d)
    unfold helpItem
    dsimp only
    refine WritesUtf8.bind utf8_writes_break (WritesUtf8.bind (utf8_writes_emit (utf8_blanks _)) (WritesUtf8.bind (utf8_writes_emitText c
      (h k (by simp [Block.texts]))) (WritesUtf8.bind (utf8_writes_emit ?_) (WritesUtf8.bind (utf8_writes_printText c _
      (h d (by simp [Block.texts]))) (utf8_writes_paragraph _)))))
    split
    · exact .cons (by decide) (utf8_blanks _)
    · exact utf8_blanks _

theorem utf8_writes_helpHeader {app : Str} {m : Meta} (h1 : Utf8 app) (h2 : Utf8 m.shortDescription) :
    WritesUtf8 HelpState.out (helpHeader app m) := by
  refine utf8_writes_emit ((((h1.append ?_).append (literal_utf8 (by decide))).append (utf8_replicate _ (by decide))).append
    (literal_utf8 (by decide)))
  split
  · exact Utf8.nil
  · exact (literal_utf8 (by decide)).append h2

theorem utf8_writes_htmlEmit {s : Str} (h : Utf8 s) : WritesUtf8 HtmlState.out (htmlEmit s) := WritesUtf8.modify fun _ => ⟨s, rfl, h⟩

theorem utf8_writes_htmlText (nd : Bool) {s : Str} (h : Utf8 s) : WritesUtf8 HtmlState.out (htmlText nd s) := by
  unfold htmlText
  split
  · rename_i t e
    exact utf8_writes_htmlEmit ((keeps_toHtmlFrom _ s [] t (by simp) e).utf8 h)
  · exact WritesUtf8.throw _

theorem utf8_if {c : Prop} [Decidable c] {a b : Str} (ha : Utf8 a) (hb : Utf8 b) : Utf8 (if c then a else b) := by
  split
  · exact ha
  · exact hb

theorem utf8_writes_closeList : WritesUtf8 HtmlState.out maybeCloseList :=
  WritesUtf8.modify fun _ => ⟨_, rfl, utf8_if (literal_utf8 (by decide)) Utf8.nil⟩

theorem utf8_writes_closeParagraph : WritesUtf8 HtmlState.out maybeCloseParagraph :=
  WritesUtf8.modify fun _ => ⟨_, rfl, utf8_if (literal_utf8 (by decide)) Utf8.nil⟩

theorem utf8_writes_heading (nd : Bool) {tag t : Str} (h1 : Utf8 tag) (h2 : Utf8 t) : WritesUtf8 HtmlState.out (htmlHeading nd tag t) := by
  unfold htmlHeading
  exact WritesUtf8.bind utf8_writes_closeList (WritesUtf8.bind utf8_writes_closeParagraph (WritesUtf8.bind
    (utf8_writes_htmlEmit (((literal_utf8 (by decide)).append h1).append (literal_utf8 (by decide)))) (WritesUtf8.bind (utf8_writes_htmlText nd h2)
    (utf8_writes_htmlEmit (((literal_utf8 (by decide)).append h1).append (literal_utf8 (by decide)))))))

theorem utf8_writes_htmlBlock (nd : Bool) (b : Block) (h : ∀ t ∈ b.texts, Utf8 t) : WritesUtf8 HtmlState.out (htmlBlock nd b) := by
  cases b with
  | sec t => exact utf8_writes_heading nd (literal_utf8 (by decide)) (h t (by simp [Block.texts]))
  | subsec t => exact utf8_writes_heading nd (literal_utf8 (by decide)) (h t (by simp [Block.texts]))
  | line t p =>
    show WritesUtf8 _ (htmlLine nd t p)
    unfold htmlLine
    refine WritesUtf8.bind utf8_writes_closeList (WritesUtf8.bind (WritesUtf8.modify fun _ => ⟨_, rfl, utf8_if Utf8.nil (literal_utf8 (by decide))⟩)
      (WritesUtf8.bind (utf8_writes_htmlText nd (h t (by simp [Block.texts]))) (WritesUtf8.bind (utf8_writes_htmlEmit (literal_utf8 (by decide))) ?_)))
    split
    · exact utf8_writes_closeParagraph
    · exact utf8_writes_htmlEmit (literal_utf8 (by decide))
  | item k d =>
    show WritesUtf8 _ (htmlItem nd k d)
    unfold htmlItem
    exact WritesUtf8.bind utf8_writes_closeParagraph (WritesUtf8.bind (WritesUtf8.modify fun _ => ⟨_, rfl, utf8_if Utf8.nil (literal_utf8 (by decide))⟩)
      (WritesUtf8.bind (utf8_writes_htmlEmit (literal_utf8 (by decide))) (WritesUtf8.bind (utf8_writes_htmlText nd (h k (by simp [Block.texts])))
      (WritesUtf8.bind (utf8_writes_htmlEmit (literal_utf8 (by decide))) (WritesUtf8.bind (utf8_writes_htmlText nd (h d (by simp [Block.texts])))
      (utf8_writes_htmlEmit (literal_utf8 (by decide))))))))

theorem utf8_writes_htmlHeader (nd : Bool) {app : Str} {m : Meta} (h1 : Utf8 app) (h2 : Utf8 m.shortDescription) :
    WritesUtf8 HtmlState.out (htmlHeader nd app m) := by
  unfold htmlHeader
  refine WritesUtf8.bind (utf8_writes_htmlEmit ((literal_utf8 (by decide +kernel)).append ?_)) (WritesUtf8.bind (utf8_writes_htmlEmit (literal_utf8 (by decide)))
    (WritesUtf8.bind (utf8_writes_htmlText nd h1) (WritesUtf8.bind (utf8_writes_htmlEmit (literal_utf8 (by decide))) (WritesUtf8.bind (utf8_writes_htmlText nd h2)
    (utf8_writes_htmlEmit (literal_utf8 (by decide)))))))
  unfold htmlHead
  exact ((((((literal_utf8 (by decide)).append (literal_utf8 (by decide))).append (literal_utf8 (by decide +kernel))).append
    (literal_utf8 (by decide))).append (utf8_escapeXml h1)).append (literal_utf8 (by decide))).append (utf8_escapeXml h2)
    |>.append (literal_utf8 (by decide))

theorem utf8_writes_htmlFooter : WritesUtf8 HtmlState.out htmlFooter :=
  WritesUtf8.bind utf8_writes_closeParagraph (utf8_writes_htmlEmit (literal_utf8 (by decide)))

theorem utf8_writes_manBlock (b : Block) (h : ∀ t ∈ b.texts, Utf8 t) : WritesUtf8 ManState.out (manBlock b) := by
  cases b with
  | sec t =>
    have ht := h t (by simp [Block.texts])
    exact WritesUtf8.modify fun s => ⟨".SH ".toList ++ t.map upperChar ++ "\n".toList, by simp [List.append_assoc],
      ((literal_utf8 (by decide)).append (utf8_upper ht)).append (literal_utf8 (by decide))⟩
  | subsec t =>
    have ht := h t (by simp [Block.texts])
    exact WritesUtf8.modify fun s => ⟨".SS ".toList ++ t ++ "\n".toList, by simp [List.append_assoc],
      ((literal_utf8 (by decide)).append ht).append (literal_utf8 (by decide))⟩
  | line t p =>
    have ht := h t (by simp [Block.texts])
    exact WritesUtf8.modify fun s => ⟨(if s.isFirst then [] else if p then ".sp\n".toList else ".br\n".toList) ++ t ++ "\n".toList,
      by simp [List.append_assoc],
      ((utf8_if Utf8.nil (utf8_if (literal_utf8 (by decide)) (literal_utf8 (by decide)))).append ht).append (literal_utf8 (by decide))⟩
  | item k d =>
    have hk := h k (by simp [Block.texts])
    have hd := h d (by simp [Block.texts])
    exact WritesUtf8.modify fun s => ⟨".TP\n".toList ++ k ++ "\n".toList ++ d ++ "\n".toList, by simp [List.append_assoc],
      ((((literal_utf8 (by decide)).append hk).append (literal_utf8 (by decide))).append hd).append (literal_utf8 (by decide))⟩

theorem utf8_showNat (n : Nat) : Utf8 (showNat n) := Utf8.ascii fun c hc => by
  have := Nat.isDigit_of_mem_toDigits (by decide) (by decide) hc
  simp only [Char.isDigit, Bool.and_eq_true, decide_eq_true_eq, UInt32.le_iff_toNat_le] at this
  have h9 : c.toNat ≤ 57 := this.2
  unfold IsAscii
  omega

theorem utf8_writes_manHeader {app : Str} {m : Meta} (h1 : Utf8 app) (h : ∀ t ∈ infoTexts m, Utf8 t) :
    WritesUtf8 ManState.out (manHeader app m) := by
  have hd := h m.date (by simp [infoTexts])
  have hv := h m.version (by simp [infoTexts])
  have ht := h m.manPageTitle (by simp [infoTexts])
  have hs := h m.shortDescription (by simp [infoTexts])
  refine WritesUtf8.modify fun s => ⟨".TH ".toList ++ app.map upperChar ++ " ".toList ++ showNat m.manPageSection ++ " \"".toList ++ m.date
    ++ "\" \"".toList ++ app.map lowerChar ++ " ".toList ++ m.version ++ "\" \"".toList ++ m.manPageTitle
    ++ "\"\n".toList
    ++ ".SH NAME\n".toList ++ app ++ " \\- ".toList ++ m.shortDescription ++ "\n".toList, by simp only [List.append_assoc], ?_⟩
  have hu := utf8_upper h1
  have hl := utf8_lower h1
  have hn := utf8_showNat m.manPageSection
  repeat' with_reducible apply Utf8.append
  all_goals first | assumption | exact literal_utf8 (by decide)

/-- Valid texts are a class. -/
theorem utf8Class (bold : Str → Str) (hb : ∀ s, Utf8 s → Utf8 (bold s)) : TextClass Utf8 Utf8 bold where
  nil := Utf8.nil
  append := Utf8.append
  char h _ := Utf8.ascii (by intro d hd; rw [List.mem_singleton] at hd; subst hd; exact h)
  fonts hc h := by
    refine ((Utf8.ascii ?_).append h).append (literal_utf8 (by decide))
    intro d hd
    simp only [List.mem_cons, List.not_mem_nil, or_false] at hd hc
    rcases hd with rfl | rfl | rfl
    · decide
    · decide
    · rcases hc with rfl | rfl <;> decide
  quoted := utf8_quoted
  bold h := hb _ h

theorem shortChar_ascii {c : Char} (h : IsShortChar c) : IsAscii c := by
  rcases h with h | h | h | rfl | rfl
  · have : c.toNat ≤ 122 := h.2
    unfold IsAscii; omega
  · have : c.toNat ≤ 90 := h.2
    unfold IsAscii; omega
  · have : c.toNat ≤ 57 := h.2
    unfold IsAscii; omega
  all_goals decide

theorem longId_ascii {s : Str} (h : IsLongId s) : ∀ c ∈ s, IsAscii c := fun c hc => by
  rcases h.2.1 c hc with h | rfl
  · exact shortChar_ascii h
  · decide

theorem cfg_ascii {cfg : Config} (h : CfgOk cfg) : IsAscii cfg.short ∧ ∀ c ∈ cfg.long, IsAscii c := by
  refine ⟨?_, fun c hc => ?_⟩
  · by_cases h0 : cfg.short = '\x00'
    · rw [h0]; decide
    · exact shortChar_ascii (h.2.1 h0)
  · have h0 : cfg.long ≠ [] := by intro e; rw [e] at hc; simp at hc
    exact longId_ascii (h.2.2 h0) c hc

variable {W : Type}

theorem gap_ascii (c : Char) (h : (!isGap c) = false) : IsAscii c := by
  simp only [isGap, Bool.not_eq_false', Bool.or_eq_true, decide_eq_true_eq] at h
  rcases h with rfl | rfl <;> decide

theorem utf8_metaTexts {m : Meta} (h : ∀ t ∈ infoTexts m, Utf8 t) : ∀ t ∈ metaTexts m, Utf8 t := by
  intro t ht
  simp only [metaTexts, List.mem_append, List.mem_flatMap] at ht
  rcases ht with ((ht | ht) | ht) | ⟨s, hs, ht⟩
  · refine h t ?_
    simp only [infoTexts, List.mem_append]
    left; left; left
    simp only [List.mem_cons, List.not_mem_nil, or_false] at ht ⊢
    rcases ht with e | e | e | e | e | e | e | e <;> simp [e]
  · exact h t (by simp [infoTexts, ht])
  · exact h t (by simp [infoTexts, ht])
  · have hs' := h s (by simp [infoTexts, hs])
    simp only [List.mem_cons, List.not_mem_nil, or_false] at ht
    rcases ht with rfl | rfl
    · exact Utf8.takeWhile gap_ascii hs'
    · exact Utf8.dropWhile gap_ascii hs'

theorem utf8_entry {te : TypeEnv} {st : Store} {e : Entry W} (hc : ∀ cfg, e.idConfig? = some cfg → CfgOk cfg)
    (h : ∀ t ∈ chosenTexts te st e, Utf8 t) : (∀ t ∈ entryTexts te st e, Utf8 t) ∧ ∀ t ∈ entryQuoted te st e, Utf8 t := by
  cases e with
  | option cfg x l ty v =>
    have hi := cfg_ascii (hc cfg rfl)
    have hs : Utf8 [cfg.short] := Utf8.ascii (by simpa using hi.1)
    have hl : Utf8 cfg.long := Utf8.ascii hi.2
    have hv : ∀ t ∈ valueTexts te ty (st x), Utf8 t := fun t ht => h t (by simp [chosenTexts, ht])
    refine ⟨fun t ht => ?_, fun t ht => ?_⟩
    · simp only [entryTexts, List.mem_append, List.mem_cons, List.not_mem_nil, or_false] at ht
      rcases ht with ((rfl | rfl | rfl | rfl | rfl) | ht) | ht
      · exact hl
      · exact hs
      · exact h _ (by simp [chosenTexts])
      · exact h _ (by simp [chosenTexts])
      · exact h _ (by simp [chosenTexts])
      · split at ht
        · rw [List.mem_singleton] at ht; subst ht; exact h _ (by simp [chosenTexts])
        · simp at ht
      · split at ht
        · simp at ht
        · exact hv t ht
    · simp only [entryQuoted, List.mem_append, List.mem_singleton] at ht
      rcases ht with rfl | ht
      · exact h _ (by simp [chosenTexts])
      · split at ht
        · exact hv t ht
        · simp at ht
  | flag cfg x =>
    have hi := cfg_ascii (hc cfg rfl)
    refine ⟨fun t ht => ?_, fun t ht => by simp [entryQuoted] at ht⟩
    simp only [entryTexts, List.mem_cons, List.not_mem_nil, or_false] at ht
    rcases ht with rfl | rfl | rfl
    · exact Utf8.ascii hi.2
    · exact Utf8.ascii (by simpa using hi.1)
    · exact h _ (by simp [chosenTexts])
  | positional cfg x l ty v =>
    have hv : ∀ t ∈ valueTexts te ty (st x), Utf8 t := fun t ht => h t (by simp [chosenTexts, ht])
    refine ⟨fun t ht => ?_, fun t ht => ?_⟩
    · simp only [entryTexts, List.mem_append, List.mem_cons, List.not_mem_nil, or_false] at ht
      rcases ht with (rfl | rfl | rfl) | ht
      · exact h _ (by simp [chosenTexts])
      · exact h _ (by simp [chosenTexts])
      · exact h _ (by simp [chosenTexts])
      · split at ht
        · simp at ht
        · exact hv t ht
    · simp only [entryQuoted] at ht
      split at ht
      · exact hv t ht
      · simp at ht
  | sec t a => exact ⟨h, fun t ht => by simp [entryQuoted] at ht⟩
  | subsec t a => exact ⟨h, fun t ht => by simp [entryQuoted] at ht⟩
  | line t p a => exact ⟨h, fun t ht => by simp [entryQuoted] at ht⟩
  | listItem k d a => exact ⟨h, fun t ht => by simp [entryQuoted] at ht⟩

theorem utf8_supplied {pe : PageEnv} {p : Parser W} {st : Store} (hp : Inv p) (h : ∀ t ∈ pageTexts pe p st, Utf8 t) :
    (∀ t ∈ suppliedTexts pe p st, Utf8 t) ∧ ∀ t ∈ suppliedQuoted pe p st, Utf8 t := by
  have he : ∀ e ∈ p.operations, (∀ t ∈ entryTexts pe.types st e, Utf8 t) ∧ ∀ t ∈ entryQuoted pe.types st e, Utf8 t :=
    fun e he => utf8_entry (fun cfg hc => hp.cfgs cfg (List.mem_filterMap.2 ⟨e, he, hc⟩)) fun t ht =>
      h t (by simp only [pageTexts, List.mem_append, List.mem_flatMap]; exact Or.inr ⟨e, he, ht⟩)
  refine ⟨fun t ht => ?_, fun t ht => ?_⟩
  · simp only [suppliedTexts, List.mem_append, List.mem_flatMap] at ht
    rcases ht with (((ht | ht) | ht) | ht) | ⟨e, he', ht⟩
    · refine h t ?_
      simp only [List.mem_cons, List.not_mem_nil, or_false] at ht
      rcases ht with rfl | rfl <;> simp [pageTexts]
    · exact h t (by simp only [pageTexts, List.mem_append]; exact Or.inl (Or.inl (Or.inl (Or.inl (Or.inr ht)))))
    · exact h t (by simp only [pageTexts, List.mem_append]; exact Or.inl (Or.inl (Or.inl (Or.inr ht))))
    · exact utf8_metaTexts (fun t ht => h t (by simp only [pageTexts, List.mem_append]; exact Or.inl (Or.inl (Or.inr ht)))) t ht
    · exact (he e he').1 t ht
  · simp only [suppliedQuoted, List.mem_flatMap] at ht
    obtain ⟨e, he', ht⟩ := ht
    exact (he e he').2 t ht

theorem utf8_fullPage {σ : Type} {out : σ → Str} {pr : Printer σ} {pe : PageEnv} {p : Parser W} {st : Store} (hp : Inv p)
    (h : ∀ t ∈ pageTexts pe p st, Utf8 t) (adv : Bool) (h1 : WritesUtf8 out pr.header) (h2 : WritesUtf8 out pr.footer)
    (hb : ∀ b : Block, (∀ t ∈ b.texts, Utf8 t) → WritesUtf8 out (pr.block b)) (hbold : ∀ s, Utf8 s → Utf8 (pr.bold s)) :
    WritesUtf8 out (printFullPage pr (pe.input adv p st)) := by
  refine WritesUtf8.bind h1 (WritesUtf8.bind (WritesUtf8.steps hb fun x hx => ?_) h2)
  have hs := utf8_supplied hp h
  rcases pageSteps_class_or (utf8Class pr.bold hbold) pe adv p st hs.1 hs.2 x hx with ⟨_, e⟩ | h
  · exact Or.inl ⟨_, e⟩
  · exact Or.inr h

theorem utf8_synopsisSteps {m : Meta} (hm : ∀ t ∈ infoTexts m, Utf8 t) :
    ∀ x ∈ synopsisSteps m, (∃ e, x = .error e) ∨ ∃ b, x = .ok b ∧ ∀ t ∈ b.texts, Utf8 t := by
  intro x hx
  simp only [synopsisSteps, List.mem_map] at hx
  obtain ⟨s, hs, rfl⟩ := hx
  have hu := hm s (by simp [infoTexts, hs])
  by_cases hg : ∃ c ∈ s, isGap c = true
  · rw [synopsisText_eq hg]
    refine Or.inr ⟨_, rfl, fun t ht => ?_⟩
    simp only [Block.texts, List.mem_singleton] at ht
    subst ht
    exact (((literal_utf8 (by decide)).append (Utf8.takeWhile gap_ascii hu)).append (literal_utf8 (by decide))).append
      (Utf8.dropWhile gap_ascii hu)
  · rw [synopsisText_none hg]
    exact Or.inl ⟨_, rfl⟩

/-! ### Tool descriptions -/

theorem toString_utf8 {te : TypeEnv} {ty : ElemTy} {v : Val} (h : ∀ t ∈ valueTexts te ty v, Utf8 t) {e : Elem} (hv : v = .one e) :
    Utf8 (toStringElem te ty e) := by
  subst hv
  have h0 := h _ (List.mem_singleton.2 rfl)
  by_cases hs : isString ty = true
  · rw [if_pos hs] at h0
    unfold toStringElem
    split
    · unfold showInt
      split
      · exact .cons (by decide) (utf8_showNat _)
      · exact utf8_showNat _
    · exact h0
  · rw [if_neg hs] at h0
    exact h0

theorem toTdl_utf8 {te : TypeEnv} {ty : ElemTy} {v : Val} (h : ∀ t ∈ valueTexts te ty v, Utf8 t) {s : Str} (e : toTdl ty v = .str s) :
    Utf8 s := by
  unfold toTdl at e
  split at e
  · cases e
  · split at e
    all_goals try cases e
    exact h s (by simp [valueTexts, isString, streamElem])

theorem utf8_noBold : TextClass Utf8 Utf8 (id : Str → Str) := utf8Class id fun _ h => h

theorem tdlOption_utf8 {te : TypeEnv} {st : Store} {cfg : Config} {x : VarId} {l : Bool} {ty : ElemTy} {v : Val → W → Bool × W}
    (hl : ∀ c ∈ cfg.long, IsAscii c) (h : ∀ t ∈ chosenTexts te st (.option cfg x l ty v), Utf8 t) :
    ∀ t ∈ paramTexts (tdlOption te st cfg x l ty), Utf8 t := by
  have hv : ∀ t ∈ valueTexts te ty (st x), Utf8 t := fun t ht => h t (by simp [chosenTexts, ht])
  have hm : Utf8 cfg.defaultMessage := h _ (by simp [chosenTexts])
  intro t ht
  simp only [paramTexts, List.mem_append, List.mem_cons, List.not_mem_nil, or_false] at ht
  rcases ht with ((rfl | rfl) | ht) | ht
  · exact Utf8.ascii hl
  · refine ((h cfg.description (by simp [chosenTexts])).append ?_).append (utf8_noBold.validatorPart_class cfg (h _ (by simp [chosenTexts])))
    refine utf8_if (utf8_if Utf8.nil ?_) ?_
    · exact utf8_noBold.defaultOfValue_class te ty _ (fun _ => hv) fun _ => hv
    · exact utf8_noBold.defaultOfMessage_class te l ty _ (fun _ => hm) hm
  · simp only [tdlOption, List.mem_append] at ht
    rcases ht with (ht | ht) | ht
    · split at ht
      · rw [List.mem_singleton.1 ht]; exact literal_utf8 (by decide)
      · simp at ht
    · split at ht
      · rw [List.mem_singleton.1 ht]; exact literal_utf8 (by decide)
      · simp at ht
    · split at ht
      · exact h t (by simp [chosenTexts, ht])
      · simp at ht
  · split at ht
    · rename_i s e
      rw [List.mem_singleton] at ht
      subst ht
      simp only [tdlOption] at e
      split at e
      · simp only [TdlValue.str.injEq] at e
        rw [← e]
        split
        · rename_i x hx
          exact toString_utf8 hv hx
        · rename_i es hx
          refine utf8_noBold.showList_class fun s hs => ?_
          rw [hx] at hv
          exact hv s hs
      · exact toTdl_utf8 hv e
    · simp at ht

theorem tdlPositionals_utf8 {te : TypeEnv} {st : Store} : ∀ (es : List (Entry W)) (n : Nat), (∀ e ∈ es, ∀ t ∈ chosenTexts te st e, Utf8 t) →
    ∀ q ∈ tdlPositionals te st n es, ∀ t ∈ paramTexts q, Utf8 t := by
  intro es
  induction es with
  | nil => intro n _ q hq; simp [tdlPositionals] at hq
  | cons e es ih =>
    intro n h q hq
    have hr : ∀ e ∈ es, ∀ t ∈ chosenTexts te st e, Utf8 t := fun e he => h e (by simp [he])
    have he := h e (by simp)
    cases e with
    | positional cfg x l ty v =>
      simp only [tdlPositionals, List.mem_cons] at hq
      rcases hq with rfl | hq
      · have hv : ∀ t ∈ valueTexts te ty (st x), Utf8 t := fun t ht => he t (by simp [chosenTexts, ht])
        intro t ht
        simp only [paramTexts, List.mem_append, List.mem_cons, List.not_mem_nil, or_false] at ht
        rcases ht with ((rfl | rfl) | ht) | ht
        · exact (literal_utf8 (by decide)).append (utf8_showNat _)
        · refine ((he cfg.description (by simp [chosenTexts])).append (utf8_if ?_ Utf8.nil)).append
            (utf8_noBold.validatorPart_class cfg (he _ (by simp [chosenTexts])))
          exact utf8_noBold.defaultOfValue_class te ty _ (fun _ => hv) fun _ => hv
        · split at ht
          · simp at ht
          · rw [List.mem_singleton.1 ht]; exact literal_utf8 (by decide)
        · cases l
          · have : t = [] := by simpa using ht
            subst this; exact Utf8.nil
          · simp at ht
      · exact ih _ hr q hq
    | _ => exact ih _ hr q hq

theorem tree_utf8 {t : TdlTree} (ht : ∀ s ∈ treeTexts t, Utf8 s) {names : List Str} (hn : ∀ s ∈ names, Utf8 s) :
    ∀ s ∈ treeTexts (wrapCommands names t), Utf8 s := by
  unfold wrapCommands
  induction names with
  | nil => exact ht
  | cons n names ih =>
    intro s hs
    simp only [List.foldr_cons, treeTexts, List.mem_cons] at hs
    rcases hs with rfl | hs
    · exact hn _ (by simp)
    · exact ih (fun s hs => hn s (by simp [hs])) s hs

theorem tool_utf8 {pe : PageEnv} {p : Parser W} {st : Store} (hp : Inv p) (h : ∀ t ∈ pageTexts pe p st, Utf8 t) :
    ∀ t ∈ toolTexts (toolInfo pe.types pe.info p.appName p.executableName p.operations st), Utf8 t := by
  have hi : ∀ t ∈ infoTexts pe.info, Utf8 t := fun t ht => h t (by simp only [pageTexts, List.mem_append]; exact Or.inl (Or.inl (Or.inr ht)))
  have hx : ∀ t ∈ p.executableName, Utf8 t := fun t ht => h t (by simp only [pageTexts, List.mem_append]; exact Or.inl (Or.inr ht))
  have he : ∀ e ∈ p.operations, ∀ t ∈ chosenTexts pe.types st e, Utf8 t := fun e he t ht =>
    h t (by simp only [pageTexts, List.mem_append, List.mem_flatMap]; exact Or.inr ⟨e, he, ht⟩)
  have hc : ∀ e ∈ p.operations, ∀ cfg, e.idConfig? = some cfg → ∀ c ∈ cfg.long, IsAscii c := fun e hm cfg hcfg =>
    (cfg_ascii (hp.cfgs cfg (List.mem_filterMap.2 ⟨e, hm, hcfg⟩))).2
  intro t ht
  simp only [toolTexts, List.mem_append, List.mem_cons, List.not_mem_nil, or_false] at ht
  rcases ht with (((rfl | rfl | rfl | rfl) | ht) | ht) | ht
  · exact hi _ (by simp [infoTexts, toolInfo])
  · exact h _ (by simp [pageTexts, toolInfo])
  · exact hi _ (by simp [infoTexts, toolInfo])
  · exact Utf8.flatMap fun d hd => (hi d (by simp [infoTexts, hd])).append (literal_utf8 (by decide))
  · simp only [toolInfo, Option.mem_toList] at ht
    exact hx t (List.mem_of_mem_head? ht)
  · refine tree_utf8 (fun s hs => ?_) (fun s hs => hx s (List.mem_of_mem_tail hs)) t ht
    simp only [treeTexts, List.mem_flatMap, List.mem_append] at hs
    obtain ⟨q, hq, hs⟩ := hs
    rcases hq with hq | ⟨e, hm, hq⟩
    · exact tdlPositionals_utf8 _ _ he q hq s hs
    · cases e with
      | option cfg x l ty v =>
        simp only [tdlCall] at hq
        split at hq
        · simp at hq
        · rw [List.mem_singleton.1 hq] at hs
          exact tdlOption_utf8 (hc _ hm cfg rfl) (he _ hm) s hs
      | flag cfg x =>
        simp only [tdlCall] at hq
        split at hq
        · simp at hq
        · rw [List.mem_singleton.1 hq] at hs
          simp only [paramTexts, tdlFlag, List.append_nil, List.mem_append, List.mem_cons, List.not_mem_nil, or_false] at hs
          rcases hs with (rfl | rfl) | hs
          · exact Utf8.ascii (hc _ hm cfg rfl)
          · exact he _ hm _ (by simp [chosenTexts])
          · split at hs
            · rename_i s' e'
              unfold toTdl at e'
              repeat' split at e'
              all_goals cases e'
              rename_i heq _
              cases heq
            · simp at hs
      | _ => simp [tdlCall] at hq
  · simp only [toolInfo, List.mem_flatMap] at ht
    obtain ⟨q, ⟨e, hm, hq⟩, ht⟩ := ht
    cases e with
    | option cfg x l ty v =>
      simp only [tdlCall] at hq
      split at hq
      · simp at hq
      · rw [List.mem_singleton.1 hq] at ht
        simp only [List.mem_cons, List.not_mem_nil, or_false] at ht
        have := Utf8.ascii (hc _ hm cfg rfl)
        rcases ht with rfl | rfl
        · exact (literal_utf8 (by decide)).append this
        · exact this
    | flag cfg x =>
      simp only [tdlCall] at hq
      split at hq <;> simp at hq
    | _ => simp [tdlCall] at hq

end Sharg
