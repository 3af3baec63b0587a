import Verif.Lemmas.Version

/-!
# Lemmas about version numbers and update messages
-/

namespace Sharg

open Spec

/-- The regular expression matches exactly the texts that start with a version. -/
theorem versionMatch_iff (s a b c rest : Str) :
    versionMatch s = some (a, b, c, rest) ↔
      s = a ++ '.' :: b ++ '.' :: c ++ rest ∧ (IsDecimal a ∧ IsDecimal b ∧ IsDecimal c) ∧ ∀ x, rest.head? = some x → x ∉ digits := by
  constructor
  · intro h
    unfold versionMatch at h
    split at h
    · rename_i s₁ h1
      split at h
      · rename_i s₂ h2
        split at h
        · rename_i h3
          simp only [Option.some.injEq, Prod.mk.injEq] at h
          obtain ⟨rfl, rfl, rfl, rfl⟩ := h
          refine ⟨?_, ⟨⟨h3.1, (takeWhile_digits_spec s).1⟩, ⟨h3.2.1, (takeWhile_digits_spec s₁).1⟩, ⟨h3.2.2, (takeWhile_digits_spec s₂).1⟩⟩, (takeWhile_digits_spec s₂).2⟩
          have e1 : s = s.takeWhile isDigit ++ '.' :: s₁ := by rw [← h1]; exact List.takeWhile_append_dropWhile.symm
          have e2 : s₁ = s₁.takeWhile isDigit ++ '.' :: s₂ := by rw [← h2]; exact List.takeWhile_append_dropWhile.symm
          have e3 : s₂ = s₂.takeWhile isDigit ++ s₂.dropWhile isDigit := List.takeWhile_append_dropWhile.symm
          conv => lhs; rw [e1, e2, e3]
          simp
        · cases h
      · cases h
    · cases h
  · rintro ⟨rfl, ⟨ha, hb, hc⟩, hr⟩
    have e : a ++ '.' :: b ++ '.' :: c ++ rest = a ++ ('.' :: (b ++ ('.' :: (c ++ rest)))) := by simp
    have hd : ∀ t, ∀ x, ('.' :: t : Str).head? = some x → x ∉ digits := by
      intro t x hx; cases hx; exact dot_not_digit
    obtain ⟨h1, h2⟩ := takeWhile_digits a ('.' :: (b ++ ('.' :: (c ++ rest)))) ha.2 (hd _)
    obtain ⟨h3, h4⟩ := takeWhile_digits b ('.' :: (c ++ rest)) hb.2 (hd _)
    obtain ⟨h5, h6⟩ := takeWhile_digits c rest hc.2 hr
    rw [e]
    unfold versionMatch
    simp only [h1, h2, h3, h4, h5, h6]
    rw [if_pos ⟨ha.1, hb.1, hc.1⟩]

theorem isVersion_unique {s : Str} {v w : Nat × Nat × Nat} (h1 : IsVersion s v) (h2 : IsVersion s w) : v = w := by
  obtain ⟨a, b, c, rfl, ⟨ha, hb, hc⟩, rfl⟩ := h1
  obtain ⟨a', b', c', e, ⟨ha', hb', hc'⟩, rfl⟩ := h2
  have m1 := (versionMatch_iff (a ++ '.' :: b ++ '.' :: c) a b c []).2 ⟨by simp, ⟨ha, hb, hc⟩, by simp⟩
  have m2 := (versionMatch_iff (a ++ '.' :: b ++ '.' :: c) a' b' c' []).2 ⟨by rw [e]; simp, ⟨ha', hb', hc'⟩, by simp⟩
  rw [m1] at m2
  simp only [Option.some.injEq, Prod.mk.injEq] at m2
  obtain ⟨rfl, rfl, rfl, -⟩ := m2
  rfl

theorem intOrZero_small {ds : Str} (h : ∀ c ∈ ds, c ∈ digits) (hs : decValue ds < 2 ^ 31) : intOrZero ds = decValue ds := by
  unfold intOrZero
  rw [digitsVal_eq ds h, if_pos (by omega)]

theorem versionNumbers_version {s : Str} {v : Nat × Nat × Nat} (h : IsVersion s v) (hs : Small v) : versionNumbers s = v := by
  obtain ⟨a, b, c, rfl, ⟨ha, hb, hc⟩, rfl⟩ := h
  have m1 := (versionMatch_iff (a ++ '.' :: b ++ '.' :: c) a b c []).2 ⟨by simp, ⟨ha, hb, hc⟩, by simp⟩
  unfold versionNumbers
  rw [m1]
  dsimp only
  rw [intOrZero_small ha.2 hs.1, intOrZero_small hb.2 hs.2.1, intOrZero_small hc.2 hs.2.2]

theorem versionNumbers_other {s : Str} (h : ∀ v, ¬ IsVersion s v) : versionNumbers s = (0, 0, 0) := by
  unfold versionNumbers
  split
  · rename_i a b c hm
    obtain ⟨h1, h2, -⟩ := (versionMatch_iff _ _ _ _ _).1 hm
    exact absurd ⟨a, b, c, by simpa using h1, h2, rfl⟩ (h (decValue a, decValue b, decValue c))
  · rfl

theorem ownVersion_spec (text : Str) : ∃ v, VersionInFront text v ∧ IsVersion (ownVersion text) v := by
  unfold ownVersion
  cases hm : versionMatch text with
  | some x =>
    obtain ⟨a, b, c, rest⟩ := x
    obtain ⟨h1, h2, h3⟩ := (versionMatch_iff _ _ _ _ _).1 hm
    have hv : IsVersion (a ++ '.' :: b ++ '.' :: c) (decValue a, decValue b, decValue c) := ⟨a, b, c, rfl, h2, rfl⟩
    exact ⟨_, Or.inl ⟨_, rest, h1, hv, h3⟩, hv⟩
  | none =>
    refine ⟨(0, 0, 0), Or.inr ⟨rfl, ?_⟩, ⟨['0'], ['0'], ['0'], rfl, by decide, rfl⟩⟩
    rintro s rest w rfl ⟨a, b, c, rfl, ⟨ha, hb, hc⟩, -⟩
    have m := (versionMatch_iff (a ++ '.' :: b ++ '.' :: c ++ rest) a b (c ++ rest.takeWhile isDigit) (rest.dropWhile isDigit)).2 ⟨by
      simp [List.takeWhile_append_dropWhile], ⟨ha, hb, ?_⟩, (takeWhile_digits_spec rest).2⟩
    · rw [hm] at m; cases m
    · refine ⟨by simp [hc.1], ?_⟩
      intro x hx
      rcases List.mem_append.1 hx with hx | hx
      · exact hc.2 x hx
      · exact (takeWhile_digits_spec rest).1 x hx

theorem versionInFront_unique {t : Str} {v w : Nat × Nat × Nat} (h1 : VersionInFront t v) (h2 : VersionInFront t w) : v = w := by
  have key : ∀ {s rest s' rest' : Str} {v w}, t = s ++ rest → IsVersion s v → (∀ c, rest.head? = some c → c ∉ digits) →
      t = s' ++ rest' → IsVersion s' w → (∀ c, rest'.head? = some c → c ∉ digits) → v = w := by
    rintro s rest s' rest' v w e1 ⟨a, b, c, rfl, h, rfl⟩ hr e2 ⟨a', b', c', rfl, h', rfl⟩ hr'
    have m1 := (versionMatch_iff t a b c rest).2 ⟨e1, h, hr⟩
    have m2 := (versionMatch_iff t a' b' c' rest').2 ⟨e2, h', hr'⟩
    rw [m1] at m2
    simp only [Option.some.injEq, Prod.mk.injEq] at m2
    obtain ⟨rfl, rfl, rfl, -⟩ := m2
    rfl
  rcases h1 with ⟨s, rest, e, hv, hr⟩ | ⟨rfl, h1⟩
  · rcases h2 with ⟨s', rest', e', hv', hr'⟩ | ⟨rfl, h2⟩
    · exact key e hv hr e' hv' hr'
    · exact absurd hv (h2 s rest v e)
  · rcases h2 with ⟨s', rest', e', hv', hr'⟩ | ⟨rfl, -⟩
    · exact absurd hv' (h1 s' rest' w e')
    · rfl

theorem versionLess_iff (v w : Nat × Nat × Nat) : versionLess v w = true ↔ Older v w := by
  unfold versionLess Older
  simp [Bool.or_eq_true, Bool.and_eq_true]

theorem harmless_digit {c : Char} (h : c ∈ digits) : Harmless c := by
  refine Or.inr (Or.inr (Or.inl ?_))
  unfold digits at h
  simp at h
  rcases h with rfl | rfl | rfl | rfl | rfl | rfl | rfl | rfl | rfl | rfl <;> decide

theorem harmless_version {s : Str} {v : Nat × Nat × Nat} (h : IsVersion s v) : ∀ c ∈ s, Harmless c := by
  obtain ⟨a, b, c, rfl, ⟨ha, hb, hc⟩, -⟩ := h
  intro x hx
  simp only [List.append_assoc, List.cons_append, List.mem_append, List.mem_cons] at hx
  rcases hx with hx | rfl | hx | rfl | hx
  · exact harmless_digit (ha.2 x hx)
  · exact Or.inr (Or.inr (Or.inr (Or.inr (Or.inr rfl))))
  · exact harmless_digit (hb.2 x hx)
  · exact Or.inr (Or.inr (Or.inr (Or.inr (Or.inr rfl))))
  · exact harmless_digit (hc.2 x hx)

/-- What the check prints. -/
theorem performCheck_messages (i : CheckInput) (ck : Checker) (s : System) (content : Option Str)
    (h : fsRead (locOf s.cwd (pathJoin ck.cookiePath (versionFileName i.name))) s.disk = .ok content s.disk) :
    (performCheck i ck s).state.stderr = s.stderr ++ updateMessages i content := by
  unfold performCheck
  have e1 : onDisk (fsRead (locOf s.cwd (pathJoin ck.cookiePath (versionFileName i.name)))) s = .ok content s := onDisk_ok h
  have e : ∀ f : Option Str → SysM Unit,
      M.bind (fun s => onDisk (fsRead (locOf s.cwd (pathJoin ck.cookiePath (versionFileName i.name)))) s) f s = f content s :=
    fun f => bind_of_ok e1
  rw [e]
  have e2 : ∀ f : Unit → SysM Unit, M.bind (sayErr (updateMessages i content)) f s =
      f () { s with stderr := s.stderr ++ updateMessages i content } := fun f => bind_of_ok (modify_run _ _)
  rw [e2]
  show (if getProgram s.wget s.curl = [] then _ else _ : System).stderr = _
  split <;> rfl

end Sharg
