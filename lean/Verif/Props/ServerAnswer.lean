import Verif.Props.Output

/-!
# What the answer of the server can do

C77: the texts that it can cause, and answers that are cut off.
-/

namespace Sharg

open Spec

/-! ### Only fixed texts -/

/-- C77: whatever the server sends, the version check writes one of at most sixteen texts to standard error, which are known
before. Nothing that the server sends is printed. -/
theorem C77_only_fixed_texts (r : Surroundings) (name : Str) : ∃ texts : List Str, texts.length ≤ 16 ∧
    ∀ g : Prog System, g.parser.appName = name →
      (∀ d ∈ (declsOf g.parser.operations).options, ∀ x w, (d.validator x w).2.stderr = w.stderr) →
      (∀ d ∈ (declsOf g.parser.operations).positionals, ∀ x w, (d.validator x w).2.stderr = w.stderr) →
      ∃ x ∈ texts, (parse r.env g).2.world.stderr = g.world.stderr ++ x := by
  refine ⟨[[], question].flatMap fun q => [[], messageUnregisteredApp].flatMap fun a => [[], messageShargUpdate].flatMap fun b =>
    [[], if (r.check name).ndebug then messageAppUpdate (r.check name).url else messageRegisteredAppUpdate].map fun c =>
      q ++ (a ++ b ++ c), ?_, ?_⟩
  · exact Nat.le_of_eq rfl
  · intro g hn h1 h2
    obtain ⟨q, m, e, hq, hm⟩ := C76_standard_error r g h1 h2
    refine ⟨q ++ m, ?_, by rw [e, List.append_assoc]⟩
    have hq' : q ∈ [[], question] := by
      by_cases h : q = []
      · rw [h]; exact List.mem_cons_self
      · rw [(hq h).1]; exact List.mem_cons_of_mem _ List.mem_cons_self
    have one : ∀ (p : Bool) (x : Str), (if p then x else []) ∈ [[], x] := by
      intro p x
      cases p
      · exact List.mem_cons_self
      · exact List.mem_cons_of_mem _ List.mem_cons_self
    have hm' : ∃ a ∈ [[], messageUnregisteredApp], ∃ b ∈ [[], messageShargUpdate],
        ∃ c ∈ [[], if (r.check name).ndebug then messageAppUpdate (r.check name).url else messageRegisteredAppUpdate],
        m = a ++ b ++ c := by
      by_cases h : m = []
      · exact ⟨[], List.mem_cons_self, [], List.mem_cons_self, [], List.mem_cons_self, h⟩
      · obtain ⟨content, hc⟩ := (hm h).1
        rw [hn] at hc
        rw [hc]
        unfold updateMessages
        refine ⟨_, one _ _, _, one _ _, _, ?_, rfl⟩
        by_cases hz : decide ((serverVersions content).1 ≠ (0, 0, 0)) = true
        · rw [if_pos hz]
          by_cases hd : (r.check name).ndebug = true
          · rw [if_pos hd, if_pos hd]; exact one _ _
          · rw [if_neg hd, if_neg hd]; exact one _ _
        · rw [if_neg hz]; exact List.mem_cons_self
    obtain ⟨a, ha, b, hb, c, hc, rfl⟩ := hm'
    exact List.mem_flatMap.2 ⟨q, hq', List.mem_flatMap.2 ⟨a, ha, List.mem_flatMap.2 ⟨b, hb, List.mem_map.2 ⟨c, hc, rfl⟩⟩⟩⟩

/-! ### Answers that are cut off -/

theorem decValue_prefix (a b : Str) : decValue a ≤ decValue (a ++ b) := by
  induction a with
  | nil => exact Nat.zero_le _
  | cons c a ih =>
    show digits.idxOf c * 10 ^ a.length + decValue a ≤ digits.idxOf c * 10 ^ (a ++ b).length + decValue (a ++ b)
    refine Nat.add_le_add (Nat.mul_le_mul_left _ (Nat.pow_le_pow_right (by decide) ?_)) ih
    rw [List.length_append]
    exact Nat.le_add_right _ _

/-- A version that is cut off and is still a version is not newer, and the parts in front of its last number are the same. -/
theorem isVersion_prefix {s t : Str} {v w : Nat × Nat × Nat} (hp : s <+: t) (h1 : IsVersion s v) (h2 : IsVersion t w) :
    v.1 = w.1 ∧ v.2.1 = w.2.1 ∧ v.2.2 ≤ w.2.2 := by
  obtain ⟨rest, rfl⟩ := hp
  obtain ⟨a, b, c, rfl, ⟨ha, hb, hc⟩, rfl⟩ := h1
  obtain ⟨a', b', c', e, ⟨ha', hb', hc'⟩, rfl⟩ := h2
  have m1 := (versionMatch_iff (a ++ '.' :: b ++ '.' :: c ++ rest) a' b' c' []).2
    ⟨by rw [e, List.append_nil], ⟨ha', hb', hc'⟩, by simp⟩
  have m2 := (versionMatch_iff (a ++ '.' :: b ++ '.' :: c ++ rest) a b (c ++ rest.takeWhile isDigit) (rest.dropWhile isDigit)).2
    ⟨by simp [List.takeWhile_append_dropWhile], ⟨ha, hb, by simp [hc.1], by
      intro x hx
      rcases List.mem_append.1 hx with hx | hx
      · exact hc.2 x hx
      · exact (takeWhile_digits_spec rest).1 x hx⟩, (takeWhile_digits_spec rest).2⟩
  rw [m1] at m2
  simp only [Option.some.injEq, Prod.mk.injEq] at m2
  obtain ⟨rfl, rfl, rfl, -⟩ := m2
  exact ⟨rfl, rfl, decValue_prefix _ _⟩

theorem firstLine_prefix {p t : Str} (h : p <+: t) : firstLine p <+: firstLine t := by
  obtain ⟨rest, rfl⟩ := h
  unfold firstLine
  induction p with
  | nil => exact List.nil_prefix
  | cons c p ih =>
    rw [List.cons_append, List.takeWhile_cons, List.takeWhile_cons]
    split
    · exact List.cons_prefix_cons.2 ⟨rfl, ih⟩
    · exact List.nil_prefix

theorem secondLine_prefix {p t : Str} (h : p <+: t) (hn : '\n' ∈ p) : secondLine p <+: secondLine t ∧ firstLine p = firstLine t := by
  have ht : '\n' ∈ t := h.subset hn
  unfold secondLine
  rw [if_pos hn, if_pos ht]
  obtain ⟨rest, rfl⟩ := h
  induction p with
  | nil => cases hn
  | cons c p ih =>
    by_cases hc : c = '\n'
    · subst hc
      constructor
      · show firstLine p <+: firstLine (p ++ rest)
        exact firstLine_prefix (List.prefix_append p rest)
      · rfl
    · have hn' : '\n' ∈ p := by
        rcases List.mem_cons.1 hn with h | h
        · exact absurd h.symm hc
        · exact h
      have hb : decide (c ≠ '\n') = true := decide_eq_true hc
      obtain ⟨i1, i2⟩ := ih hn' (List.mem_append_left _ hn')
      unfold firstLine at i2 ⊢
      constructor
      · rw [List.cons_append, List.dropWhile_cons, List.dropWhile_cons, if_pos hb, if_pos hb]
        exact i1
      · rw [List.cons_append, List.takeWhile_cons, List.takeWhile_cons, if_pos hb, if_pos hb, i2]

/-- A version does not begin with the letter of `UNREGISTERED_APP`. -/
theorem isVersion_prefix_unregistered {s : Str} {v : Nat × Nat × Nat} (hp : s <+: unregisteredApp) : ¬ IsVersion s v := by
  intro h
  obtain ⟨a, b, c, rfl, ⟨ha, -, -⟩, -⟩ := h
  cases a with
  | nil => exact ha.1 rfl
  | cons x a =>
    obtain ⟨rest, e⟩ := hp
    have : x = 'U' := by
      unfold unregisteredApp at e
      exact (List.cons.inj e).1
    subst this
    exact absurd (ha.2 'U' (by simp)) (by decide)

theorem versionLess_mono {o v w : Nat × Nat × Nat} (h : v.1 = w.1 ∧ v.2.1 = w.2.1 ∧ v.2.2 ≤ w.2.2)
    (hl : versionLess o v = true) : versionLess o w = true := by
  unfold versionLess at hl ⊢
  simp only [Bool.or_eq_true, Bool.and_eq_true, decide_eq_true_eq] at hl ⊢
  omega

theorem small_prefix {v w : Nat × Nat × Nat} (h : v.1 = w.1 ∧ v.2.1 = w.2.1 ∧ v.2.2 ≤ w.2.2) (hs : Small w) : Small v := by
  unfold Small at hs ⊢
  omega

/-- What is read from a line that is cut off: nothing, or a version that is not newer. -/
theorem versionNumbers_prefix {s t : Str} {w : Nat × Nat × Nat} (hp : s <+: t) (h : IsVersion t w) (hs : Small w)
    (hn : versionNumbers s ≠ (0, 0, 0)) :
    (versionNumbers s).1 = w.1 ∧ (versionNumbers s).2.1 = w.2.1 ∧ (versionNumbers s).2.2 ≤ w.2.2 := by
  by_cases hv : ∃ v, IsVersion s v
  · obtain ⟨v, hv⟩ := hv
    have h1 := isVersion_prefix hp hv h
    rw [versionNumbers_version hv (small_prefix h1 hs)]
    exact h1
  · exact absurd (versionNumbers_other fun v hv' => hv ⟨v, hv'⟩) hn

/-- The line of the server about the app: a version, or that the app is not registered. -/
def AboutApp (line : Str) : Prop := (∃ v, IsVersion line v ∧ Small v) ∨ line = "UNREGISTERED_APP".toList

theorem version_not_zero {o w : Nat × Nat × Nat} (h : versionLess o w = true) : w ≠ (0, 0, 0) := by
  rintro rfl
  simp [versionLess] at h

/-- The messages, as a function of what was read. -/
def saysOf (i : CheckInput) (unregistered : Bool) (app sharg : Nat × Nat × Nat) : Str :=
  (if !i.ndebug && unregistered then messageUnregisteredApp else [])
  ++ (if !i.ndebug && decide (sharg ≠ (0, 0, 0)) && versionLess i.shargVersion sharg then messageShargUpdate else [])
  ++ (if decide (app ≠ (0, 0, 0)) then
        (if i.ndebug then
          (if versionLess (versionNumbers (ownVersion i.version)) app then messageAppUpdate i.url else [])
        else
          (if versionLess app (versionNumbers (ownVersion i.version)) then messageRegisteredAppUpdate else []))
      else [])

theorem messages_saysOf (i : CheckInput) (t : Str) :
    updateMessages i (some t) = saysOf i (decide (firstLine t = unregisteredApp)) (versionNumbers (firstLine t))
      (versionNumbers (secondLine t)) := by
  have e : (serverVersions (some t)).1 = versionNumbers (firstLine t) := by
    show (if firstLine t ≠ unregisteredApp then versionNumbers (firstLine t) else (0, 0, 0)) = _
    by_cases h : firstLine t = unregisteredApp
    · rw [if_neg (fun hn => hn h), h]
      exact (versionNumbers_other fun v => isVersion_unregistered v).symm
    · rw [if_pos h]
  have e2 : (serverVersions (some t)).2 = versionNumbers (secondLine t) := rfl
  have e3 : (decide (Option.map firstLine (some t) = some unregisteredApp)) = decide (firstLine t = unregisteredApp) := by
    exact decide_eq_decide.2 ⟨fun h => Option.some.inj h, fun h => congrArg some h⟩
  have : updateMessages i (some t) = saysOf i (decide (Option.map firstLine (some t) = some unregisteredApp)) (serverVersions (some t)).1
    (serverVersions (some t)).2 := rfl
  rw [this, e, e2, e3]

theorem saysOf_release (i : CheckInput) (hr : i.ndebug = true) (u : Bool) (v w : Nat × Nat × Nat) :
    saysOf i u v w = if v ≠ (0, 0, 0) ∧ versionLess (versionNumbers (ownVersion i.version)) v = true then messageAppUpdate i.url else [] := by
  unfold saysOf
  simp only [hr, Bool.not_true, Bool.false_and, Bool.false_eq_true, if_false, List.nil_append, if_true]
  by_cases h : v = (0, 0, 0)
  · subst h; rfl
  · rw [if_pos (decide_eq_true h)]
    by_cases hl : versionLess (versionNumbers (ownVersion i.version)) v = true
    · rw [if_pos hl, if_pos ⟨h, hl⟩]
    · rw [if_neg hl, if_neg (fun k => hl k.2)]

/-- Release builds: a cut off answer causes no message, or the same as the whole answer. -/
theorem messages_prefix (i : CheckInput) (hr : i.ndebug = true) {p t : Str} (hp : p <+: t) (ht : AboutApp (firstLine t)) :
    updateMessages i (some p) = [] ∨
      (updateMessages i (some p) = messageAppUpdate i.url ∧ updateMessages i (some t) = messageAppUpdate i.url) := by
  have hf := firstLine_prefix hp
  rw [messages_saysOf, messages_saysOf, saysOf_release i hr, saysOf_release i hr]
  by_cases hc : versionNumbers (firstLine p) ≠ (0, 0, 0) ∧
    versionLess (versionNumbers (ownVersion i.version)) (versionNumbers (firstLine p)) = true
  · right
    rw [if_pos hc]
    rcases ht with ⟨w, hw, hs⟩ | hu
    · have hl2 := versionLess_mono (versionNumbers_prefix hf hw hs hc.1) hc.2
      rw [versionNumbers_version hw hs, if_pos ⟨version_not_zero hl2, hl2⟩]
      exact ⟨rfl, rfl⟩
    · have hf' : firstLine p <+: unregisteredApp := by
        rw [hu] at hf; exact hf
      exact absurd (versionNumbers_other fun v => isVersion_prefix_unregistered hf') hc.1
  · left
    rw [if_neg hc]

/-- C77 (release builds): the version file `p` is what there is of the answer `t` of the server, because the download has not
ended yet or has been stopped. Then the check says nothing, or it says what it says for the whole answer: that there is a new
version of the app. -/
theorem C77_no_false_alarm_partial (i : CheckInput) (ck : Checker) (s s' : System) (p t line : Str) (w w' : Bool)
    (hr : i.ndebug = true) (hp : p <+: t)
    (hf : Reaches s.disk (locOf s.cwd (pathJoin ck.cookiePath (i.name ++ ".version".toList))) (.file p true w))
    (hf' : Reaches s'.disk (locOf s'.cwd (pathJoin ck.cookiePath (i.name ++ ".version".toList))) (.file t true w'))
    (hl : FirstLine t line) (ha : AboutApp line) :
    (performCheck i ck s).state.stderr = s.stderr ∨
      ((performCheck i ck s).state.stderr = s.stderr ++ messageAppUpdate i.url ∧
        (performCheck i ck s').state.stderr = s'.stderr ++ messageAppUpdate i.url) := by
  obtain ⟨c, h1, h2⟩ := version_content i ck s
  obtain ⟨c', h1', h2'⟩ := version_content i ck s'
  have e : c = some p := (h2 p).2 ⟨w, hf⟩
  have e' : c' = some t := (h2' t).2 ⟨w', hf'⟩
  subst e e'
  rw [firstLine_iff] at hl
  subst hl
  rw [performCheck_messages i ck s _ h1, performCheck_messages i ck s' _ h1']
  rcases messages_prefix i hr hp ha with h | ⟨h3, h4⟩
  · left; rw [h, List.append_nil]
  · right; rw [h3, h4]; exact ⟨rfl, rfl⟩

/-- C77 (all builds): if the first line of the answer is there together with its end, the check says what it says for the whole
answer, or it leaves out the message about Sharg. -/
theorem C77_first_line_complete_partial (i : CheckInput) (ck : Checker) (s s' : System) (p t line second : Str) (w w' : Bool)
    (v : Nat × Nat × Nat) (hp : p <+: t) (hn : '\n' ∈ p)
    (hf : Reaches s.disk (locOf s.cwd (pathJoin ck.cookiePath (i.name ++ ".version".toList))) (.file p true w))
    (hf' : Reaches s'.disk (locOf s'.cwd (pathJoin ck.cookiePath (i.name ++ ".version".toList))) (.file t true w'))
    (hl : FirstLine t line) (h2 : t = line ++ '\n' :: second ∨ ∃ more, t = line ++ '\n' :: second ++ '\n' :: more)
    (h2n : '\n' ∉ second) (hv : IsVersion second v) (hs : Small v) :
    ∃ a b b' c, (performCheck i ck s).state.stderr = s.stderr ++ (a ++ b ++ c) ∧
      (performCheck i ck s').state.stderr = s'.stderr ++ (a ++ b' ++ c) ∧ (b = [] ∨ b = messageShargUpdate ∧ b' = b) := by
  obtain ⟨k, r1, r2⟩ := version_content i ck s
  obtain ⟨k', r1', r2'⟩ := version_content i ck s'
  have e : k = some p := (r2 p).2 ⟨w, hf⟩
  have e' : k' = some t := (r2' t).2 ⟨w', hf'⟩
  subst e e'
  have hsec : secondLine t = second := by
    refine ((lastRead_iff t second).1 (Or.inr ⟨line, ?_⟩)).symm
    rcases h2 with h2 | ⟨more, h2⟩
    · exact ⟨second, hl.1, h2, h2n, Or.inl rfl⟩
    · exact ⟨second ++ '\n' :: more, hl.1, by rw [h2]; simp, h2n, Or.inr ⟨more, rfl⟩⟩
  obtain ⟨p2, p1⟩ := secondLine_prefix hp hn
  rw [hsec] at p2
  rw [performCheck_messages i ck s _ r1, performCheck_messages i ck s' _ r1']
  rw [messages_saysOf, messages_saysOf, p1, hsec, versionNumbers_version hv hs]
  unfold saysOf
  refine ⟨_, _, _, _, rfl, rfl, ?_⟩
  by_cases hb : (!i.ndebug && decide (versionNumbers (secondLine p) ≠ (0, 0, 0)) &&
    versionLess i.shargVersion (versionNumbers (secondLine p))) = true
  · right
    rw [if_pos hb]
    rw [Bool.and_eq_true, Bool.and_eq_true] at hb
    have hz : versionNumbers (secondLine p) ≠ (0, 0, 0) := of_decide_eq_true hb.1.2
    have hl2 := versionLess_mono (versionNumbers_prefix p2 hv hs hz) hb.2
    rw [if_pos]
    · exact ⟨rfl, rfl⟩
    · rw [Bool.and_eq_true, Bool.and_eq_true]
      exact ⟨⟨hb.1.1, decide_eq_true (version_not_zero hl2)⟩, hl2⟩
  · left
    rw [if_neg hb]

/-- C77 does not hold for builds with assertions: if the version 1.2.13 that the server sends is cut off after 1.2.1, the developer of
version 1.2.3 reads that the server knows only an older version (and that there is a new version of Sharg). -/
theorem C77_cut_number_alarms :
    "1.2.1".toList <+: "1.2.13\n1.1.2\n".toList ∧
    (runVersionCheck { exCheck with ndebug := false } true (some true)
      (exSystem [exFile "app.version" "1.2.1"] 1000000 "")).state.stderr = messageShargUpdate ++ messageRegisteredAppUpdate ∧
    (runVersionCheck { exCheck with ndebug := false } true (some true)
      (exSystem [exFile "app.version" "1.2.13\n1.1.2\n"] 1000000 "")).state.stderr = [] := by
  decide +kernel

/-- C77 does not hold for builds with assertions: if the answer is cut off before the end of its first line, the version of the
app counts as version of Sharg, and the check announces a version of Sharg that does not exist. -/
theorem C77_cut_line_announces_sharg :
    "1.2.3".toList <+: "1.2.3\n1.1.2\n".toList ∧
    (runVersionCheck { exCheck with ndebug := false } true (some true)
      (exSystem [exFile "app.version" "1.2.3"] 1000000 "")).state.stderr = messageShargUpdate ∧
    (runVersionCheck { exCheck with ndebug := false } true (some true)
      (exSystem [exFile "app.version" "1.2.3\n1.1.2\n"] 1000000 "")).state.stderr = [] := by
  decide +kernel

/-- In general: if the answer is cut off in front of the first newline and the rest is a version newer than that of Sharg, builds with
assertions announce a new version of Sharg, whatever the server says about Sharg. -/
theorem C77_cut_line_announces_sharg_always (i : CheckInput) (ck : Checker) (s : System) (hr : i.ndebug = false) (p : Str) (w : Bool)
    (v : Nat × Nat × Nat) (hf : Reaches s.disk (locOf s.cwd (pathJoin ck.cookiePath (i.name ++ ".version".toList))) (.file p true w))
    (hv : IsVersion p v) (hs : Small v) (ho : Older i.shargVersion v) :
    messageShargUpdate <:+: (performCheck i ck s).state.stderr := by
  obtain ⟨k, r1, r2⟩ := version_content i ck s
  have e : k = some p := (r2 p).2 ⟨w, hf⟩
  subst e
  rw [performCheck_messages i ck s _ r1]
  have hn : '\n' ∉ p := by
    intro h
    have h1 := harmless_version hv _ h
    unfold Harmless at h1
    revert h1
    decide
  have e2 : secondLine p = p := ((lastRead_iff p p).1 (Or.inl ⟨hn, rfl⟩)).symm
  have hl : versionLess i.shargVersion v = true := by
    unfold versionLess Older at *
    simp only [Bool.or_eq_true, Bool.and_eq_true, decide_eq_true_eq]
    exact ho
  rw [messages_saysOf, e2, versionNumbers_version hv hs]
  unfold saysOf
  have hb : (!i.ndebug && decide (v ≠ (0, 0, 0)) && versionLess i.shargVersion v) = true := by
    rw [hl, hr, decide_eq_true (version_not_zero hl)]
    rfl
  rw [if_pos hb]
  rw [← List.append_assoc, ← List.append_assoc]
  exact ⟨_, _, rfl⟩

/-! ### Examples -/

/-- The hypotheses can be met: the answer 1.10.0 and 1.1.3 is cut off after 1.10. -/
example : "1.10.".toList <+: "1.10.0\n1.1.3\n".toList ∧ FirstLine "1.10.0\n1.1.3\n".toList "1.10.0".toList ∧ AboutApp "1.10.0".toList := by
  refine ⟨⟨"0\n1.1.3\n".toList, by decide +kernel⟩, (firstLine_iff _ _).2 (by decide +kernel), Or.inl ⟨(1, 10, 0), ?_, by unfold Small; decide⟩⟩
  exact ⟨"1".toList, "10".toList, "0".toList, by decide +kernel, by decide +kernel, by decide +kernel⟩

/-- With 1.10.2 cut off after 1.10.0 or earlier there are both cases: the message of the whole answer, and none. -/
example :
    (runVersionCheck exCheck true (some true) (exSystem [exFile "app.version" "1.10.2\n1.1.3\n"] 1000000 "")).state.stderr = messageAppUpdate [] ∧
    (runVersionCheck exCheck true (some true) (exSystem [exFile "app.version" "1.10.2"] 1000000 "")).state.stderr = messageAppUpdate [] ∧
    (runVersionCheck exCheck true (some true) (exSystem [exFile "app.version" "1.10."] 1000000 "")).state.stderr = [] ∧
    (runVersionCheck exCheck true (some true) (exSystem [exFile "app.version" ""] 1000000 "")).state.stderr = [] := by
  decide +kernel

/-- What the server sends is not printed. -/
example : ∀ sent ∈ ["You are hacked", "1.2.3\u001b[31m\n9.9.9\n", "9.9.9;rm\n"],
    (runVersionCheck exCheck true (some true) (exSystem [exFile "app.version" sent] 1000000 "")).state.stderr = [] := by
  decide +kernel

end Sharg
