import Verif.Props.Version

/-!
# Property C94: damaged cookies and wrong clocks
-/

namespace Sharg

open Spec

/-! ### Time stamps -/

/-- The first character of a number. -/
theorem render_first (d : DecimalText) (h : d.Ok) : ∃ c t, d.render = c :: t ∧ (c ∈ digits ∨ c = '.' ∨ c = '-') := by
  rw [render_body]
  obtain ⟨c, t, h1, h2⟩ := decBody_head d h
  cases d.neg with
  | true => exact ⟨'-', decBody d, rfl, Or.inr (Or.inr rfl)⟩
  | false =>
    refine ⟨c, t, h1, ?_⟩
    rcases h2 with h2 | h2
    · exact Or.inl h2
    · exact Or.inr (Or.inl h2)

/-- A line that does not begin like a number or like `inf` is old. -/
theorem not_young_of_head (now : Nat) (line : Str) (hnow : 86400 ≤ now)
    (hl : ∀ c ∈ line.head?, c ∉ digits ∧ c ≠ '.' ∧ c ≠ '-' ∧ c ≠ 'i' ∧ c ≠ 'I') : ¬ Young now line := by
  rintro (⟨d, n, hd, -⟩ | ⟨w, rest, e, hw⟩ | ⟨-, h⟩)
  · obtain ⟨c, t, h1, h2⟩ := render_first d hd.1
    obtain ⟨r, hr⟩ := hd.2.1
    rw [h1] at hr
    have := hl c (by rw [← hr]; rfl)
    rcases h2 with h2 | h2 | h2
    · exact this.1 h2
    · exact this.2.1 h2
    · exact this.2.2.1 h2
  · cases w with
    | nil => cases hw
    | cons c t =>
      have hc : c.toLower = 'i' := (List.cons.inj (show c.toLower :: t.map Char.toLower = 'i' :: ['n', 'f'] from hw)).1
      have := hl c (by rw [e]; rfl)
      have hc' : c = 'i' ∨ c = 'I' := by
        have key : ∀ c : Char, c.toLower = 'i' → c = 'i' ∨ c = 'I' := by
          intro c hc
          unfold Char.toLower at hc
          split at hc
          · right
            have hv := congrArg Char.toNat hc
            apply Char.ext
            have := congrArg Char.val hc
            simp only at this
            have h3 : c.val + 32 = 105 := this
            have : c.val = 73 := by
              have := congrArg (· - 32) h3
              simpa using this
            exact this
          · exact Or.inl hc
        exact key c hc
      rcases hc' with rfl | rfl
      · exact this.2.2.2.1 rfl
      · exact this.2.2.2.2 rfl
  · omega

theorem decValue_le_of_prefix {a b : Str} (h : a <+: b) : decValue a ≤ decValue b := by
  obtain ⟨c, rfl⟩ := h
  rw [decValue_append]
  exact Nat.le_trans (Nat.le_mul_of_pos_right _ (Nat.pow_pos (by decide))) (Nat.le_add_right _ _)

theorem prefix_append_cases {a b c : Str} (h : a <+: b ++ c) : a <+: b ∨ ∃ x, a = b ++ x ∧ x <+: c := by
  obtain ⟨r, hr⟩ := h
  rcases List.append_eq_append_iff.1 hr with ⟨x, h1, -⟩ | ⟨x, h1, h2⟩
  · exact Or.inl ⟨x, h1.symm⟩
  · exact Or.inr ⟨x, h1, r, h2.symm⟩

/-! ### Runs -/

/-- C94, for each text that the time stamp file can contain: what the next run of the app (without options) does is decided by the first two lines. If the
number in front of the first line is less than a day ago, or the second line is NEVER, nothing happens, and the file stays as it is. Otherwise,
if the second line is ALWAYS, a request is sent, nobody is asked, and the file stays as it is. Otherwise the file is replaced by one with the time of this run and
the message that belongs to the answer. Missing: a text with a time in the future or with `inf` keeps the app silent for more
than a day, see below. -/
theorem C94_what_a_text_decides_partial (i : CheckInput) (h : Str) (s : System) (text : Str) (hn : matchesNameRegex i.name = true)
    (he : s.noCheckVar = false) (hcl : s.clock ≤ lastSecond) (hs : CookieIs h (cookieName i.ndebug i.name) text s)
    (line msg : Str) (hf : FirstLine text line) (hm : LastRead text msg) :
    ∃ s', runVersionCheck i true none s = .ok () s' ∧
      (Young s.clock line ∨ msg = "NEVER".toList →
        s' = { s with disk := s'.disk } ∧ CookieIs h (cookieName i.ndebug i.name) text s') ∧
      (¬ Young s.clock line → msg = "ALWAYS".toList →
        s' = { s with disk := s'.disk, stderr := s'.stderr, commands := s'.commands } ∧
        s'.commands.length = s.commands.length + (if s.wget = true ∨ s.curl = true then 1 else 0) ∧
        CookieIs h (cookieName i.ndebug i.name) text s') ∧
      (¬ Young s.clock line → msg ≠ "NEVER".toList → msg ≠ "ALWAYS".toList → CookieWritable h (cookieName i.ndebug i.name) s →
        ∃ text' t, CookieIs h (cookieName i.ndebug i.name) text' s' ∧ IsCookie text' t (messageAfter (answer s)) ∧
          s.clock ≤ t ∧ t ≤ s.clock + s.delay) := by
  obtain ⟨hu, w, hr⟩ := hs
  obtain ⟨d, k, r, s₂, t, hu', hdm, hd, hk, hdec, hno, hyes, hrun, ht, hfr⟩ := run_usable i true none s h hu hn
  have hu₂ := hfr.usable hu
  have hrd : Reaches d (cookieLoc s h (cookieName i.ndebug i.name)) (.file text true w) := by
    refine reaches_cookie_congr (s := s) (s' := { s with disk := d }) rfl (fun q hq => hd q ?_) (hd _ ?_) hr
    · rintro rfl; exact hq ⟨_, rfl⟩
    · exact cookieLoc_ne_dummy s h _ _
  obtain ⟨k', rfl, hks⟩ := cookieSeen_some (s := { s with disk := d }) hn hk hrd
  have hmsg : k'.message = msg := lastRead_unique hks.1 hm
  have hy : k'.young = true ↔ Young s.clock line := hks.2 line hf hcl
  rw [he] at hdec
  refine ⟨_, hrun, ?_, ?_, ?_⟩
  · intro hsil
    have hop : ¬ Open true false none (some k') := by
      intro hop
      obtain ⟨h1, h2, -⟩ := hop.2.2.2 k' rfl
      rcases hsil with h3 | h3
      · rw [hy.2 h3] at h1; cases h1
      · exact h2 (hmsg.trans h3)
    have e₂ := hno (by rw [he]; exact hop)
    have hrf : r = false := by
      rcases hsil with h3 | h3
      · have h4 := hy.2 h3
        cases r with
        | false => rfl
        | true =>
          generalize answer s = a at hdec
          cases hdec with
          | always => cases h4
          | asked h1 _ => exact absurd ⟨rfl, rfl, rfl, h1⟩ hop
      · exact decides_never hdec (hmsg.trans h3)
    refine ⟨?_, ⟨hu₂.home, hu₂.seqan, hu₂.dummy⟩, w, ?_⟩
    · rw [e₂, ht hrf, hrf]
      simp
    · rw [e₂]; exact hrd
  · intro hny hal
    have hop : ¬ Open true false none (some k') := fun hop => (hop.2.2.2 k' rfl).2.2 (hmsg.trans hal)
    have e₂ := hno (by rw [he]; exact hop)
    have hrt : r = true := by
      have h4 : k'.young = false := by
        cases h5 : k'.young with
        | false => rfl
        | true => exact absurd (hy.1 h5) hny
      have h5 := hmsg.trans hal
      generalize answer s = a at hdec
      cases hdec with
      | young => cases h4
      | never => exact absurd h5 (by decide)
      | always => rfl
      | asked h1 _ => exact absurd h5 (h1 k' rfl).2.2
      | silent h1 => exact absurd h5 (h1 k' rfl).2.2
    refine ⟨?_, ?_, ⟨hu₂.home, hu₂.seqan, hu₂.dummy⟩, w, ?_⟩
    · rw [e₂]
    · rw [e₂, hrt]
      by_cases hp : s.wget = true ∨ s.curl = true
      · simp [hp]
      · simp [hp]
    · rw [e₂]; exact hrd
  · intro hny hnn hna hw
    have hop : Open true false none (some k') := by
      refine ⟨rfl, rfl, rfl, ?_⟩
      rintro k ⟨⟩
      refine ⟨?_, hmsg ▸ hnn, hmsg ▸ hna⟩
      cases h5 : k'.young with
      | false => rfl
      | true => exact absurd (hy.1 h5) hny
    obtain ⟨fr, s₁, hw1, hask⟩ := hyes (by rw [he]; exact hop)
    obtain ⟨text', t'', h1, h2, h3, h4⟩ := open_run i h { s with disk := d } s₁ s₂ r hn hu' (writable_congr _ _ hd hw) hw1 hask
    have ea : answer { s with disk := d } = answer s := answer_congr rfl rfl rfl
    rw [ea] at h2
    refine ⟨text', t'', ⟨⟨hu₂.home, hu₂.seqan, hu₂.dummy⟩, true, ?_⟩, h2, h3, h4⟩
    show Reaches s₂.disk (seqanDir s₂.cwd h ++ [cookieName i.ndebug i.name]) _
    rw [hfr.cwd]; exact h1

/-- C94, the beginning of a cookie (the program or the system stopped while it was written) does not outlast the day: written at time `t`, it is
replaced by the first run that starts a day later or more, if it does not have all of ALWAYS or NEVER. In particular an empty file. -/
theorem C94_truncated_cookie_is_replaced (i : CheckInput) (h : Str) (s : System) (text full : Str) (t : Nat) (m : Str)
    (hn : matchesNameRegex i.name = true) (he : s.noCheckVar = false) (hcl : s.clock ≤ lastSecond)
    (hs : CookieIs h (cookieName i.ndebug i.name) text s) (hw : CookieWritable h (cookieName i.ndebug i.name) s)
    (hfull : IsCookie full t m) (hm : m = "ASK".toList ∨ m = "NEVER".toList ∨ m = "ALWAYS".toList)
    (hpre : text <+: full) (hcut : text ≠ full ∨ m = "ASK".toList) (ht : t + 86400 ≤ s.clock) :
    ∃ s' text' t', runVersionCheck i true none s = .ok () s' ∧ CookieIs h (cookieName i.ndebug i.name) text' s' ∧
      IsCookie text' t' (messageAfter (answer s)) ∧ s.clock ≤ t' := by
  obtain ⟨d, rfl, hnl, hd, hv⟩ := hfull
  have key : ∃ line msg, FirstLine text line ∧ LastRead text msg ∧ ¬ Young s.clock line ∧ msg ≠ "NEVER".toList ∧ msg ≠ "ALWAYS".toList := by
    have hdn : ∀ {x : Str}, x <+: d → ∀ c ∈ x, c ∈ digits := fun hx c hc => hd.2 c (hx.subset hc)
    have hnd : ∀ {x : Str}, x <+: d → '\n' ∉ x := fun hx hc => absurd (hdn hx _ hc) (by decide)
    have hold : ∀ x, x <+: d → ¬ Young s.clock x := by
      intro x hx hy
      cases x with
      | nil => exact not_young_of_head _ [] (by omega) (by simp) hy
      | cons c x =>
        have h1 := decValue_le_of_prefix hx
        rw [young_decimal _ _ ⟨by simp, hdn hx⟩ (by omega)] at hy
        omega
    rcases prefix_append_cases hpre with h1 | ⟨x, rfl, h1⟩
    · refine ⟨text, text, ⟨hnd h1, Or.inl rfl⟩, Or.inl ⟨hnd h1, rfl⟩, hold _ h1, ?_, ?_⟩
      · rintro rfl
        exact absurd (hdn h1 'N' (by decide)) (by decide)
      · rintro rfl
        exact absurd (hdn h1 'A' (by decide)) (by decide)
    · cases x with
      | nil =>
        have hx : d ++ [] <+: d := by rw [List.append_nil]
        refine ⟨d ++ [], d ++ [], ⟨hnd hx, Or.inl rfl⟩, Or.inl ⟨hnd hx, rfl⟩, hold _ hx, ?_, ?_⟩
        · intro e
          exact absurd (hdn hx 'N' (by rw [e]; decide)) (by decide)
        · intro e
          exact absurd (hdn hx 'A' (by rw [e]; decide)) (by decide)
      | cons c x =>
        obtain ⟨rfl, h2⟩ := List.cons_prefix_cons.1 h1
        have hxn : '\n' ∉ x := fun hc => hnl (h2.subset hc)
        refine ⟨d, x, ⟨hnd (List.prefix_refl d), Or.inr ⟨x, rfl⟩⟩, Or.inr ⟨d, x, hnd (List.prefix_refl d), rfl, hxn, Or.inl rfl⟩, hold _ (List.prefix_refl d), ?_, ?_⟩
        all_goals
          rintro rfl
          rcases hm with rfl | rfl | rfl
          · exact absurd h2 (by decide)
          · first
            | exact absurd h2 (by decide)
            | (rcases hcut with h3 | h3
               · exact h3 rfl
               · exact absurd h3 (by decide))
          · first
            | exact absurd h2 (by decide)
            | (rcases hcut with h3 | h3
               · exact h3 rfl
               · exact absurd h3 (by decide))
  obtain ⟨line, msg, h1, h2, h3, h4, h5⟩ := key
  obtain ⟨s', h6, -, -, h7⟩ := C94_what_a_text_decides_partial i h s text hn he hcl hs line msg h1 h2
  obtain ⟨text', t', h8, h9, h10, -⟩ := h7 h3 h4 h5 hw
  exact ⟨s', text', t', h6, h8, h9, h10⟩

/-- C94, a file whose first line does not begin like a number or like `inf` is replaced by the next run, unless its second line is ALWAYS or NEVER. -/
theorem C94_garbage_is_replaced (i : CheckInput) (h : Str) (s : System) (text line msg : Str) (hn : matchesNameRegex i.name = true)
    (he : s.noCheckVar = false) (hcl : s.clock ≤ lastSecond) (hday : 86400 ≤ s.clock)
    (hs : CookieIs h (cookieName i.ndebug i.name) text s) (hw : CookieWritable h (cookieName i.ndebug i.name) s)
    (hf : FirstLine text line) (hm : LastRead text msg) (hl : ∀ c ∈ line.head?, c ∉ digits ∧ c ≠ '.' ∧ c ≠ '-' ∧ c ≠ 'i' ∧ c ≠ 'I')
    (h1 : msg ≠ "NEVER".toList) (h2 : msg ≠ "ALWAYS".toList) :
    ∃ s' text' t', runVersionCheck i true none s = .ok () s' ∧ CookieIs h (cookieName i.ndebug i.name) text' s' ∧
      IsCookie text' t' (messageAfter (answer s)) ∧ s.clock ≤ t' := by
  obtain ⟨s', h6, -, -, h7⟩ := C94_what_a_text_decides_partial i h s text hn he hcl hs line msg hf hm
  obtain ⟨text', t', h8, h9, h10, -⟩ := h7 (not_young_of_head _ _ hday hl) h1 h2 hw
  exact ⟨s', text', t', h6, h8, h9, h10⟩

/-! ### Histories -/

theorem young_step (i : CheckInput) (notify : Bool) (user : Option Bool) (h : Str) (rel : Bool) (name text : Str) (s : System)
    (hn : matchesNameRegex i.name = true) (hs : CookieIs h (cookieName rel name) text s)
    (hy : cookieName i.ndebug i.name = cookieName rel name → s.clock ≤ lastSecond ∧ ∃ line, FirstLine text line ∧ Young s.clock line) :
    ∃ s', runVersionCheck i notify user s = .ok () s' ∧ CookieIs h (cookieName rel name) text s' ∧
      (cookieName i.ndebug i.name = cookieName rel name → user = none → s' = { s with disk := s'.disk }) := by
  obtain ⟨hu, w, hr⟩ := hs
  obtain ⟨d, k, r, s₂, t, hu', hdm, hd, hk, hdec, hno, hyes, hrun, ht, hfr⟩ := run_usable i notify user s h hu hn
  have hu₂ := hfr.usable hu
  by_cases hc : cookieName i.ndebug i.name = cookieName rel name
  · have hrd : Reaches d (cookieLoc s h (cookieName rel name)) (.file text true w) := by
      refine reaches_cookie_congr (s := s) (s' := { s with disk := d }) rfl (fun q hq => hd q ?_) (hd _ ?_) hr
      · rintro rfl; exact hq ⟨_, rfl⟩
      · exact cookieLoc_ne_dummy s h rel name
    obtain ⟨k', rfl, hks⟩ := cookieSeen_some (s := { s with disk := d }) hn hk (hc ▸ hrd)
    obtain ⟨hcl, line, hl, hyo⟩ := hy hc
    have hky : k'.young = true := (hks.2 line hl hcl).2 hyo
    have hop : ∀ n e u, ¬ Open n e u (some k') := fun n e u hop => by
      have := (hop.2.2.2 k' rfl).1
      rw [hky] at this
      cases this
    have e₂ := hno (hop _ _ _)
    refine ⟨_, hrun, ⟨⟨hu₂.home, hu₂.seqan, hu₂.dummy⟩, w, ?_⟩, fun _ hu0 => ?_⟩
    · rw [e₂]; exact hrd
    · subst hu0
      have hrf : r = false := by
        cases r with
        | false => rfl
        | true =>
          generalize answer s = a at hdec
          generalize s.noCheckVar = e at hdec
          cases hdec with
          | always => cases hky
          | asked h1 _ => exact absurd ⟨rfl, rfl, rfl, h1⟩ (hop true false none)
      rw [e₂, ht hrf, hrf]
      simp
  · refine ⟨_, hrun, ⟨⟨hu₂.home, hu₂.seqan, hu₂.dummy⟩, w, ?_⟩, fun h => absurd h hc⟩
    exact reaches_cookie_congr (s := s) (s' := s₂) hfr.cwd (frame_other hfr) (other_cookie hfr hc (cookieName_ne_dummy rel name)) hr

theorem young_play (h : Str) (rel : Bool) (name text : Str) (steps : List Event) (s : System)
    (hs : CookieIs h (cookieName rel name) text s)
    (hsteps : ∀ st ∈ steps, matchesNameRegex st.input.name = true ∧
      ∀ s, CookieIs h (cookieName rel name) text s → CookieIs h (cookieName rel name) text (st.outside s) ∧
        (cookieName st.input.ndebug st.input.name = cookieName rel name →
          (st.outside s).clock ≤ lastSecond ∧ ∃ line, FirstLine text line ∧ Young (st.outside s).clock line)) :
    CookieIs h (cookieName rel name) text (play steps s) := by
  induction steps generalizing s with
  | nil => exact hs
  | cons st steps ih =>
    obtain ⟨hn, ho⟩ := hsteps st (by simp)
    obtain ⟨s', h1, h2, -⟩ := young_step st.input st.notify st.user h rel name text (st.outside s) hn (ho s hs).1 (ho s hs).2
    refine ih _ ?_ (fun st' h' => hsteps st' (by simp [h']))
    show CookieIs h (cookieName rel name) text (runVersionCheck st.input st.notify st.user (st.outside s)).state
    rw [h1]
    exact h2

/-- C94: as long as the time stamp is less than a day old, the file silences the app and is never replaced: however often this and other apps are run,
whatever else happens as long as nobody else changes the file or makes its directory unusable, no run of the app without
`--version-check` sends a request, prints or reads anything. -/
theorem C94_young_silences (h : Str) (rel : Bool) (name text : Str) (steps : List Event) (s : System)
    (hs : CookieIs h (cookieName rel name) text s)
    (hsteps : ∀ st ∈ steps, matchesNameRegex st.input.name = true ∧
      ∀ s, CookieIs h (cookieName rel name) text s → CookieIs h (cookieName rel name) text (st.outside s) ∧
        (cookieName st.input.ndebug st.input.name = cookieName rel name →
          (st.outside s).clock ≤ lastSecond ∧ ∃ line, FirstLine text line ∧ Young (st.outside s).clock line))
    (pre post : List Event) (st : Event) (hsplit : steps = pre ++ st :: post)
    (hown : st.input.ndebug = rel ∧ st.input.name = name) (huser : st.user = none) :
    st.after (play pre s) = { st.before (play pre s) with disk := (st.after (play pre s)).disk } := by
  subst hsplit
  have hp := young_play h rel name text pre s hs (fun st' h' => hsteps st' (by simp [h']))
  obtain ⟨hn, ho⟩ := hsteps st (by simp)
  obtain ⟨s', h1, h2, h3⟩ := young_step st.input st.notify st.user h rel name text (st.outside (play pre s)) hn (ho _ hp).1 (ho _ hp).2
  have := h3 (by rw [hown.1, hown.2]) huser
  show (runVersionCheck st.input st.notify st.user (st.outside (play pre s))).state = { st.outside (play pre s) with
    disk := (runVersionCheck st.input st.notify st.user (st.outside (play pre s))).state.disk }
  rw [h1]
  exact this

/-- C94 does not hold as stated: a cookie with a time in the future (the clock was wrong when it was written) silences the app until a day after that time,
however far away it is; it is not replaced. -/
theorem C94_future_cookie_silences (h : Str) (rel : Bool) (name text m : Str) (t : Nat) (steps : List Event) (s : System)
    (ht : IsCookie text t m) (hlast : t ≤ lastSecond) (hs : CookieIs h (cookieName rel name) text s)
    (hsteps : ∀ st ∈ steps, matchesNameRegex st.input.name = true ∧
      ∀ s, CookieIs h (cookieName rel name) text s → CookieIs h (cookieName rel name) text (st.outside s) ∧
        (st.outside s).clock < t + 86400 ∧ (st.outside s).clock ≤ lastSecond)
    (pre post : List Event) (st : Event) (hsplit : steps = pre ++ st :: post)
    (hown : st.input.ndebug = rel ∧ st.input.name = name) (huser : st.user = none) :
    st.after (play pre s) = { st.before (play pre s) with disk := (st.after (play pre s)).disk } := by
  obtain ⟨-, dd, hf, hdd, hdv⟩ := isCookie_lines ht
  refine C94_young_silences h rel name text steps s hs (fun st hst => ⟨(hsteps st hst).1, fun s hs => ?_⟩) pre post st hsplit hown huser
  obtain ⟨h1, h2, h3⟩ := (hsteps st hst).2 s hs
  exact ⟨h1, fun _ => ⟨h3, dd, hf, (young_decimal _ _ hdd (by rw [hdv]; exact hlast)).2 (by rw [hdv]; exact h2)⟩⟩

/-- C94 does not hold as stated: a file whose first line begins with `inf` (in any case) silences the app forever. -/
theorem C94_infinity_silences_forever (h : Str) (rel : Bool) (name text line : Str) (steps : List Event) (s : System)
    (hf : FirstLine text line) (hinf : BeginsWith "inf".toList false line) (hs : CookieIs h (cookieName rel name) text s)
    (hsteps : ∀ st ∈ steps, matchesNameRegex st.input.name = true ∧
      ∀ s, CookieIs h (cookieName rel name) text s → CookieIs h (cookieName rel name) text (st.outside s) ∧ (st.outside s).clock ≤ lastSecond)
    (pre post : List Event) (st : Event) (hsplit : steps = pre ++ st :: post)
    (hown : st.input.ndebug = rel ∧ st.input.name = name) (huser : st.user = none) :
    st.after (play pre s) = { st.before (play pre s) with disk := (st.after (play pre s)).disk } := by
  refine C94_young_silences h rel name text steps s hs (fun st hst => ⟨(hsteps st hst).1, fun s hs => ?_⟩) pre post st hsplit hown huser
  obtain ⟨h1, h2⟩ := (hsteps st hst).2 s hs
  exact ⟨h1, fun _ => ⟨h2, line, hf, Or.inr (Or.inl hinf)⟩⟩

/-! ### Examples -/

/-- The cookie of `exCheck` contains `text`. -/
theorem ex_cookieIs (text : String) (clock : Nat) (stdin : String) :
    CookieIs "/h".toList (cookieName true "app".toList) text.toList (exSystem [exFile "app_usr.timestamp" text] clock stdin) :=
  ⟨usable_of (r := true) rfl rfl rfl, true, (lookup_found_iff _ _ _).1 rfl⟩

/-- In November 2023 the user gets the question when the cookie is empty, damaged, or cut; not if it is from 2033, and not if it
begins with `Info`. -/
def exAsked (text : String) : Bool :=
  decide ((runVersionCheck exCheck true none (exSystem [exFile "app_usr.timestamp" text] 1700000000 "y\n")).state.stderr = question)

example : exAsked "" = true ∧ exAsked "???" = true ∧ exAsked "16999\n" = true ∧ exAsked "1699900000\nNEVE" = true ∧ exAsked "1699900000\nNEVER" = false ∧
    exAsked "1699990000" = false ∧ exAsked "2000000000\nASK" = false ∧ exAsked "Info\n" = false ∧ exAsked "-inf" = true ∧ exAsked "nan" = true ∧
    exAsked "1.7e9 is late" = false ∧ exAsked "1e999" = true ∧ exAsked "+1700000000" = true := by
  decide +kernel

/-- The hypotheses of the theorems can be met. -/
example : ∃ s' text' t', runVersionCheck exCheck true none (exSystem [exFile "app_usr.timestamp" "16999"] 1700000000 "y\n") = .ok () s' ∧
    CookieIs "/h".toList (cookieName true "app".toList) text' s' ∧
      IsCookie text' t' (messageAfter (some 'y')) ∧ 1700000000 ≤ t' :=
  C94_truncated_cookie_is_replaced exCheck "/h".toList _ "16999".toList "1699900000\nASK".toList 1699900000 "ASK".toList (by decide) rfl (by decide)
    (ex_cookieIs _ _ _) (Or.inr ⟨_, (lookup_found_iff _ _ _).1 rfl⟩) ⟨"1699900000".toList, rfl, by decide, ⟨by decide, by decide⟩, by decide +kernel⟩
    (Or.inl rfl) (by decide) (Or.inr rfl) (by decide)

example (steps : List Nat) (hc : ∀ c ∈ steps, c ≤ 2000000000) (pre post : List Nat) (c : Nat) (e : steps = pre ++ c :: post) :=
  C94_future_cookie_silences "/h".toList true "app".toList "2000000000\nASK".toList "ASK".toList 2000000000
    (steps.map fun c => ⟨fun s => { s with clock := c }, exCheck, true, none⟩) (exSystem [exFile "app_usr.timestamp" "2000000000\nASK"] 1700000000 "y\n")
    ⟨"2000000000".toList, rfl, by decide, ⟨by decide, by decide⟩, by decide +kernel⟩ (by decide) (ex_cookieIs _ _ _)
    (by
      intro st hst
      obtain ⟨c, hc', rfl⟩ := List.mem_map.1 hst
      have := hc c hc'
      refine ⟨show matchesNameRegex exCheck.name = true by decide, fun s hs => ⟨⟨⟨hs.1.home, hs.1.seqan, hs.1.dummy⟩, hs.2⟩, ?_, ?_⟩⟩
      · show c < _
        omega
      · show c ≤ lastSecond
        exact Nat.le_trans this (by decide))
    (pre.map fun c => ⟨fun s => { s with clock := c }, exCheck, true, none⟩) (post.map fun c => ⟨fun s => { s with clock := c }, exCheck, true, none⟩)
    ⟨fun s => { s with clock := c }, exCheck, true, none⟩ (by rw [e, List.map_append]; rfl) ⟨rfl, rfl⟩ rfl

example : FirstLine "Infinite\n".toList "Infinite".toList ∧ BeginsWith "inf".toList false "Infinite".toList :=
  ⟨⟨by decide, Or.inr ⟨[], rfl⟩⟩, "Inf".toList, "inite".toList, rfl, by decide⟩

end Sharg
