import Verif.Lemmas.Version
import Verif.Props.Values

/-!
# The version check

C50: who decides. C51: NEVER is permanent. C52: how often requests are sent.
-/

namespace Sharg

open Spec

/-! ### C50 -/

/-- C50: The decision follows the table `Decides`: `s₁` is the system after the construction of the checker, whose result is
looked for in `ck.cookiePath`. The result is seen from the number of commands sent. Only if nobody and nothing decided, the
cookie is written and, on terminals, the user is asked; otherwise the decision leaves no trace. -/
theorem C50_who_decides (i : CheckInput) (notify : Bool) (user : Option Bool) (s s₁ : System) (ck : Checker)
    (h : makeChecker i s = .ok ck s₁) :
    ∃ cookie r s', CookieSeen s₁ ck.cookiePath ck.timestampFile cookie ∧
      Decides notify s.noCheckVar user cookie (answer s) r ∧
      runVersionCheck i notify user s = .ok () s' ∧
      s'.commands.length = s.commands.length + (if r = true ∧ (s.wget = true ∨ s.curl = true) then 1 else 0) ∧
      (r = false → ¬ Open notify s.noCheckVar user cookie → s' = s₁) ∧
      (r = false → Open notify s.noCheckVar user cookie →
        s'.stderr = s.stderr ++ (if (answer s).isSome then question else [])) ∧
      (¬ Open notify s.noCheckVar user cookie → s' = { s₁ with stderr := s'.stderr, commands := s'.commands }) := by
  obtain ⟨h1, h2, -, -⟩ := makeChecker_ok h
  obtain ⟨k, r, s₂, h4, h5, h6, h7, h8⟩ := decideCheck_spec ck notify user s₁ h1
  obtain ⟨t, h9, h10⟩ := run_steps i notify user h h5
  have ea : answer s₁ = answer s := by rw [h2]; exact answer_congr rfl rfl rfl
  have en : s₁.noCheckVar = s.noCheckVar := by rw [h2]
  rw [ea, en] at h6
  rw [en] at h7 h8
  refine ⟨k, r, _, h4, h6, h9, ?_, ?_, ?_, ?_⟩
  · by_cases hop : Open notify s.noCheckVar user k
    · have hf := (h8 hop).1.rest
      have e1 : s₂.commands = s.commands := by rw [hf, h2]
      have e2 : s₂.wget = s.wget := by rw [hf, h2]
      have e3 : s₂.curl = s.curl := by rw [hf, h2]
      simp only [List.length_append, e1, e2, e3]
      split <;> simp
    · have hf := h7 hop
      have e1 : s₂.commands = s.commands := by rw [hf, h2]
      have e2 : s₂.wget = s.wget := by rw [hf, h2]
      have e3 : s₂.curl = s.curl := by rw [hf, h2]
      simp only [List.length_append, e1, e2, e3]
      split <;> simp
  · intro hr hop
    rw [h7 hop, h10 hr, hr]
    simp
  · intro hr hop
    simp only [h10 hr, List.append_nil]
    have hf := congrArg System.stderr (h8 hop).1.rest
    rw [ea] at hf
    have e1 : s₁.stderr = s.stderr := by rw [h2]
    rw [e1] at hf
    rw [hf]
    cases hs : (answer s).isSome <;> simp
  · intro hop
    rw [h7 hop]

/-! ### C51 -/

/-- Something that happens: first changes from outside, then a run of an app. -/
structure Event where
  outside : System → System
  input : CheckInput
  notify : Bool
  user : Option Bool

/-- The system before the run of a step. -/
def Event.before (st : Event) (s : System) : System := st.outside s

/-- The system after a step. -/
def Event.after (st : Event) (s : System) : System := (runVersionCheck st.input st.notify st.user (st.before s)).state

/-- The system after some steps. -/
def play (steps : List Event) (s : System) : System := steps.foldl (fun s st => st.after s) s

/-- The cookie of another app is not touched. -/
theorem other_cookie {i : CheckInput} {h c : Str} {s s' : System} (f : RunFrame i h s s') (hne : cookieName i.ndebug i.name ≠ c)
    (hd : c ≠ "dummy.txt".toList) : s'.disk.node? (cookieLoc s h c) = s.disk.node? (cookieLoc s h c) := by
  refine f.disk _ ?_ ?_
  · intro e
    unfold cookieLoc dummyIn at e
    have := List.append_cancel_left e
    simp only [List.cons.injEq, and_true] at this
    exact hd this
  · intro e
    unfold cookieLoc at e
    have := List.append_cancel_left e
    simp only [List.cons.injEq, and_true] at this
    exact hne this.symm

theorem frame_other {i : CheckInput} {h : Str} {s s' : System} (f : RunFrame i h s s') (q : Loc)
    (hq : ¬ ∃ c, q = seqanDir s.cwd h ++ [c]) : s'.disk.node? q = s.disk.node? q := by
  refine f.disk q ?_ ?_
  · rintro rfl; exact hq ⟨_, rfl⟩
  · rintro rfl; exact hq ⟨_, rfl⟩

theorem lastRead_unique {t a b : Str} (ha : LastRead t a) (hb : LastRead t b) : a = b := by
  rw [lastRead_iff] at ha hb
  rw [ha, hb]

theorem firstLine_unique {t a b : Str} (ha : FirstLine t a) (hb : FirstLine t b) : a = b := by
  rw [firstLine_iff] at ha hb
  rw [ha, hb]

/-- The cookie that a checker sees is the one that is there. -/
theorem cookieSeen_some {i : CheckInput} {h : Str} {s : System} {k : Option Cookie} {text : Str} {w : Bool}
    (hn : matchesNameRegex i.name = true)
    (hs : CookieSeen s (seqanText h) (usableChecker i h).timestampFile k)
    (hr : Reaches s.disk (cookieLoc s h (cookieName i.ndebug i.name)) (.file text true w)) :
    ∃ k', k = some k' ∧ CookieSays s.clock text k' := by
  have hl := locOf_usableChecker i h s hn
  cases hs with
  | some _ h1 h2 =>
    rw [hl] at h1
    have := reaches_unique h1 hr
    cases this
    exact ⟨_, rfl, h2⟩
  | none h1 =>
    rcases h1 with h1 | h1
    · exact absurd h1 (seqanText_ne h)
    · rw [hl] at h1
      exact absurd hr (h1 text w)

theorem decides_never {n e : Bool} {k : Cookie} {a : Option Char} {r : Bool} (h : Decides n e none (some k) a r)
    (hm : k.message = "NEVER".toList) : r = false := by
  cases h with
  | developer => rfl
  | environment => rfl
  | young => rfl
  | never => rfl
  | always => simp at hm
  | asked h1 _ => exact absurd hm (h1 k rfl).2.1
  | silent h1 => rfl

/-- One run after NEVER. -/
theorem never_step (i : CheckInput) (notify : Bool) (user : Option Bool) (h : Str) (rel : Bool) (name : Str) (s : System)
    (hn : matchesNameRegex i.name = true) (hs : SaidNever h (cookieName rel name) s) :
    ∃ s', runVersionCheck i notify user s = .ok () s' ∧ SaidNever h (cookieName rel name) s' ∧
      (cookieName i.ndebug i.name = cookieName rel name → user = none → s' = { s with disk := s'.disk }) := by
  obtain ⟨hu, text, w, hr, hlr⟩ := hs
  obtain ⟨d, k, r, s₂, t, hu', hdm, hd, hk, hdec, hno, hyes, hrun, ht, hfr⟩ := run_usable i notify user s h hu hn
  have hu₂ := hfr.usable hu
  by_cases hc : cookieName i.ndebug i.name = cookieName rel name
  · -- the own cookie
    have hrd : Reaches d (cookieLoc s h (cookieName rel name)) (.file text true w) := by
      refine reaches_cookie_congr (s := s) (s' := { s with disk := d }) rfl (fun q hq => hd q ?_) (hd _ ?_) hr
      · rintro rfl; exact hq ⟨_, rfl⟩
      · exact cookieLoc_ne_dummy s h rel name
    obtain ⟨k', rfl, hks⟩ := cookieSeen_some (s := { s with disk := d }) hn hk (hc ▸ hrd)
    have hm : k'.message = "NEVER".toList := lastRead_unique hks.1 hlr
    have hno' : ¬ Open notify s.noCheckVar user (some k') := fun hop => (hop.2.2.2 k' rfl).2.1 hm
    have e₂ := hno hno'
    refine ⟨_, hrun, ⟨⟨hu₂.home, hu₂.seqan, hu₂.dummy⟩, text, w, ?_, hlr⟩, fun _ hu0 => ?_⟩
    · rw [e₂]; exact hrd
    · subst hu0
      have hrf : r = false := decides_never hdec hm
      rw [e₂, ht hrf, hrf]
      simp
  · refine ⟨_, hrun, ⟨⟨hu₂.home, hu₂.seqan, hu₂.dummy⟩, text, w, ?_, hlr⟩, fun h => absurd h hc⟩
    exact reaches_cookie_congr (s := s) (s' := s₂) hfr.cwd (frame_other hfr) (other_cookie hfr hc (cookieName_ne_dummy rel name)) hr

theorem play_append (a b : List Event) (s : System) : play (a ++ b) s = play b (play a s) := by
  unfold play; rw [List.foldl_append]

theorem never_play (h : Str) (rel : Bool) (name : Str) (steps : List Event) (s : System)
    (hs : SaidNever h (cookieName rel name) s)
    (hsteps : ∀ st ∈ steps, matchesNameRegex st.input.name = true ∧
      ∀ s, SaidNever h (cookieName rel name) s → SaidNever h (cookieName rel name) (st.outside s)) :
    SaidNever h (cookieName rel name) (play steps s) := by
  induction steps generalizing s with
  | nil => exact hs
  | cons st steps ih =>
    obtain ⟨hn, ho⟩ := hsteps st (by simp)
    obtain ⟨s', h1, h2, -⟩ := never_step st.input st.notify st.user h rel name (st.outside s) hn (ho s hs)
    refine ih _ ?_ (fun st' h' => hsteps st' (by simp [h']))
    show SaidNever h (cookieName rel name) (runVersionCheck st.input st.notify st.user (st.outside s)).state
    rw [h1]
    exact h2

/-- C51, part 1: from the moment when the cookie says NEVER, no run of the app without `--version-check` sends a request, prints or
reads anything, however often it and other apps are run, whatever options these runs have, whatever time passes and whatever
else happens, as long as nobody else changes the cookie or makes its directory unusable. All it changes is the disk (the
test file). -/
theorem C51_never_is_permanent_partial (h : Str) (rel : Bool) (name : Str) (steps : List Event) (s : System)
    (hs : SaidNever h (cookieName rel name) s)
    (hsteps : ∀ st ∈ steps, matchesNameRegex st.input.name = true ∧
      ∀ s, SaidNever h (cookieName rel name) s → SaidNever h (cookieName rel name) (st.outside s))
    (pre post : List Event) (st : Event) (hsplit : steps = pre ++ st :: post)
    (hown : st.input.ndebug = rel ∧ st.input.name = name) (huser : st.user = none) :
    st.after (play pre s) = { st.before (play pre s) with disk := (st.after (play pre s)).disk } := by
  subst hsplit
  have hp := never_play h rel name pre s hs (fun st' h' => hsteps st' (by simp [h']))
  obtain ⟨hn, ho⟩ := hsteps st (by simp)
  obtain ⟨s', h1, h2, h3⟩ := never_step st.input st.notify st.user h rel name (st.outside (play pre s)) hn (ho _ hp)
  have := h3 (by rw [hown.1, hown.2]) huser
  show (runVersionCheck st.input st.notify st.user (st.outside (play pre s))).state = { st.outside (play pre s) with
    disk := (runVersionCheck st.input st.notify st.user (st.outside (play pre s))).state.disk }
  rw [h1]
  exact this

theorem digitChar_spec : ∀ m < 10, Nat.digitChar m ∈ digits ∧ digits.idxOf (Nat.digitChar m) = m := by decide

theorem showNat_value (n : Nat) : IsDecimal (showNat n) ∧ decValue (showNat n) = n := by
  unfold showNat
  induction n using Nat.strongRecOn with
  | _ n ih =>
    rw [Nat.toDigits_eq_if (by decide)]
    by_cases h : n < 10
    · rw [if_pos h]
      obtain ⟨h1, h2⟩ := digitChar_spec n h
      refine ⟨⟨by simp, fun c hc => ?_⟩, ?_⟩
      · rw [List.mem_singleton.1 hc]; exact h1
      · simp [decValue, h2]
    · rw [if_neg h]
      obtain ⟨h1, h2⟩ := digitChar_spec (n % 10) (Nat.mod_lt _ (by decide))
      obtain ⟨⟨h3, h4⟩, h5⟩ := ih (n / 10) (by omega)
      refine ⟨⟨by simp, fun c hc => ?_⟩, ?_⟩
      · rcases List.mem_append.1 hc with hc | hc
        · exact h4 c hc
        · rw [List.mem_singleton.1 hc]; exact h1
      · rw [decValue_append, h5]
        simp only [decValue, h2, List.length_cons, List.length_nil, Nat.pow_zero]
        omega

/-- A cookie is written where it can be written. -/
theorem writeCookie_writes (i : CheckInput) (h m : Str) (s : System) (hn : matchesNameRegex i.name = true) (hm : '\n' ∉ m)
    (hu : Usable s h) (hw : CookieWritable h (cookieName i.ndebug i.name) s) :
    ∃ d text, writeCookie (usableChecker i h) m s = .ok () { s with disk := d } ∧
      Reaches d (cookieLoc s h (cookieName i.ndebug i.name)) (.file text true true) ∧ IsCookie text s.clock m ∧
      ∀ q, q ≠ cookieLoc s h (cookieName i.ndebug i.name) → d.node? q = s.disk.node? q := by
  have hl := locOf_usableChecker i h s hn
  obtain ⟨r, hr⟩ := hu.seqan
  have hcase : (CanCreate s.disk (cookieLoc s h (cookieName i.ndebug i.name)) ∧
      s.disk.node? (cookieLoc s h (cookieName i.ndebug i.name)) = none) ∨
      ∃ c r, Reaches s.disk (cookieLoc s h (cookieName i.ndebug i.name)) (.file c r true) := by
    rcases hw with hw | ⟨text, hw⟩
    · exact Or.inl ⟨⟨_, _, r, rfl, hr⟩, hw⟩
    · exact Or.inr ⟨_, _, hw⟩
  obtain ⟨d, r', h1, h2, h3, h4, h5⟩ := fsWrite_writes _ (showNat s.clock ++ '\n' :: m) s.disk hcase
  have hr' : r' = true := by
    rcases hw with hw | ⟨text, hw⟩
    · exact h4 hw
    · exact h5 _ _ hw.1
  subst hr'
  refine ⟨d, _, ?_, h2, ⟨showNat s.clock, rfl, hm, (showNat_value s.clock).1, (showNat_value s.clock).2⟩, h3⟩
  refine onDisk_ok ?_
  rw [hl]
  exact h1

/-- What the cookie says after the user was, or could not be, asked. -/
def messageAfter : Option Char → Str
  | some 'a' => "ALWAYS".toList
  | some 'n' => "NEVER".toList
  | _ => "ASK".toList

theorem messageAfter_other {a : Char} (h1 : a ≠ 'a') (h2 : a ≠ 'n') : messageAfter (some a) = "ASK".toList := by
  unfold messageAfter
  split
  · rename_i h; cases h; exact absurd rfl h1
  · rename_i h; cases h; exact absurd rfl h2
  · rfl

theorem open_run (i : CheckInput) (h : Str) (s s₁ s₂ : System) (r : Bool) (hn : matchesNameRegex i.name = true)
    (hu : Usable s h) (hw : CookieWritable h (cookieName i.ndebug i.name) s)
    (h1 : writeCookie (usableChecker i h) "ASK".toList s = .ok () s₁) (h2 : askUser (usableChecker i h) s₁ = .ok r s₂) :
    ∃ text t, Reaches s₂.disk (cookieLoc s h (cookieName i.ndebug i.name)) (.file text true true) ∧
      IsCookie text t (messageAfter (answer s)) ∧ s.clock ≤ t ∧ t ≤ s.clock + s.delay := by
  obtain ⟨d, text, h3, h4, h5, h6⟩ := writeCookie_writes i h "ASK".toList s hn (by decide) hu hw
  rw [h3] at h1
  cases h1
  obtain ⟨r', s', h7, h8, h9⟩ := askUser_spec (usableChecker i h) { s with disk := d }
  rw [h7] at h2
  cases h2
  have ea : answer { s with disk := d } = answer s := answer_congr rfl rfl rfl
  rw [ea] at h9
  have again : ∀ m, '\n' ∉ m → ∀ s', writeCookie (usableChecker i h) m (afterAnswer { s with disk := d }) = .ok () s' →
      ∃ text t, Reaches s'.disk (cookieLoc s h (cookieName i.ndebug i.name)) (.file text true true) ∧ IsCookie text t m ∧ s.clock ≤ t ∧ t ≤ s.clock + s.delay := by
    intro m hm s' hwr
    have hu' : Usable (afterAnswer { s with disk := d }) h := by
      refine usable_congr hu rfl rfl (fun q hq => h6 q ?_) (fun n hn' => hu.dummy n ?_)
      · rintro rfl; exact hq ⟨_, rfl⟩
      · rw [← h6 _ (cookieLoc_ne_dummy s h i.ndebug i.name).symm]
        exact hn'
    have hw' : CookieWritable h (cookieName i.ndebug i.name) (afterAnswer { s with disk := d }) := Or.inr ⟨text, h4⟩
    obtain ⟨d', text', h10, h11, h12, -⟩ := writeCookie_writes i h m _ hn hm hu' hw'
    rw [h10] at hwr
    cases hwr
    exact ⟨text', _, h11, h12, Nat.le_add_right _ _, Nat.le_refl _⟩
  cases ha : answer s with
  | none =>
    rw [ha] at h9
    obtain ⟨-, rfl⟩ := h9
    exact ⟨text, s.clock, h4, h5, Nat.le_refl _, Nat.le_add_right _ _⟩
  | some a =>
    rw [ha] at h9
    rcases h9.2 with ⟨rfl, hwr⟩ | ⟨rfl, hwr⟩ | ⟨e1, e2, rfl⟩
    · exact again "ALWAYS".toList (by decide) _ hwr
    · exact again "NEVER".toList (by decide) _ hwr
    · rw [messageAfter_other e1 e2]
      exact ⟨text, s.clock, h4, h5, Nat.le_refl _, Nat.le_add_right _ _⟩

theorem isCookie_lines {text m : Str} {t : Nat} (h : IsCookie text t m) :
    LastRead text m ∧ ∃ d, FirstLine text d ∧ IsDecimal d ∧ decValue d = t := by
  obtain ⟨d, rfl, hm, hd, hv⟩ := h
  have hnl : '\n' ∉ d := fun hc => by
    have := hd.2 _ hc
    revert this
    decide
  exact ⟨Or.inr ⟨d, m, hnl, rfl, hm, Or.inl rfl⟩, d, ⟨hnl, Or.inr ⟨m, rfl⟩⟩, hd, hv⟩

/-- The cookie of an app can still be written after the construction of a checker. -/
theorem writable_congr {s : System} {h : Str} {d : Disk} (nd : Bool) (name : Str)
    (hd : ∀ q, q ≠ dummyIn (seqanDir s.cwd h) → d.node? q = s.disk.node? q) (hw : CookieWritable h (cookieName nd name) s) :
    CookieWritable h (cookieName nd name) { s with disk := d } := by
  have hq : ∀ q, ¬ (∃ c, q = seqanDir s.cwd h ++ [c]) → d.node? q = s.disk.node? q := by
    intro q hq
    refine hd q ?_
    rintro rfl; exact hq ⟨_, rfl⟩
  rcases hw with hw | ⟨text, hw⟩
  · exact Or.inl ((hd _ (cookieLoc_ne_dummy s h nd name)).trans hw)
  · exact Or.inr ⟨text, reaches_cookie_congr (s := s) (s' := { s with disk := d }) rfl hq (hd _ (cookieLoc_ne_dummy s h nd name)) hw⟩

/-- C51, part 2: the answer `n` makes the cookie say NEVER, whenever the question is asked in a usable directory in which the cookie
can be written. (`sees` is what can be seen of the cookie: nothing, or something that leaves the decision open.) -/
theorem C51_answer_n_is_remembered (i : CheckInput) (h : Str) (s s' : System) (hn : matchesNameRegex i.name = true)
    (hu : Usable s h) (hw : CookieWritable h (cookieName i.ndebug i.name) s) (he : s.noCheckVar = false)
    (sees : ∀ text w, Reaches s.disk (cookieLoc s h (cookieName i.ndebug i.name)) (.file text true w) →
      ∀ k, CookieSays s.clock text k → k.young = false ∧ k.message ≠ "NEVER".toList ∧ k.message ≠ "ALWAYS".toList)
    (ha : answer s = some 'n') (hrun : runVersionCheck i true none s = .ok () s') :
    SaidNever h (cookieName i.ndebug i.name) s' ∧ s'.commands = s.commands := by
  obtain ⟨d, k, r, s₂, t, hu', hdm, hd, hk, hdec, hno, hyes, hrun', ht, hfr⟩ := run_usable i true none s h hu hn
  rw [hrun'] at hrun
  cases hrun
  rw [he] at hdec
  have hq : ∀ q, ¬ (∃ c, q = seqanDir s.cwd h ++ [c]) → s.disk.node? q = d.node? q := by
    intro q hq
    refine (hd q ?_).symm
    rintro rfl; exact hq ⟨_, rfl⟩
  have hop : Open true false none k := by
    refine ⟨rfl, rfl, rfl, ?_⟩
    intro k' hk'
    cases hk' : k with
    | none => rename_i hk''; rw [hk'] at hk''; cases hk''
    | some k'' =>
      rename_i hk''
      rw [hk'] at hk''; cases hk''
      rw [hk'] at hk
      cases hk with
      | some _ hr hs =>
        have hl := locOf_usableChecker i h { s with disk := d } hn
        rw [hl] at hr
        refine sees _ _ (reaches_cookie_congr (s := { s with disk := d }) (s' := s) rfl hq (hd _ (cookieLoc_ne_dummy s h _ _)).symm hr) k' hs
  obtain ⟨fr, s₁, hw1, hask⟩ := hyes (by rw [he]; exact hop)
  obtain ⟨text, t', h1, h2, -, -⟩ := open_run i h { s with disk := d } s₁ s₂ r hn hu' (writable_congr _ _ hd hw) hw1 hask
  have ea : answer { s with disk := d } = answer s := answer_congr rfl rfl rfl
  rw [ea, ha] at h2
  have hu₂ := hfr.usable hu
  have hr : r = false := by
    rw [ha] at hdec
    cases r with
    | false => rfl
    | true =>
      exfalso
      cases hdec with
      | always => exact (hop.2.2.2 _ rfl).2.2 rfl
      | asked _ hb => have := hb.1 rfl; simp at this
  refine ⟨⟨⟨hu₂.home, hu₂.seqan, hu₂.dummy⟩, text, true, ?_, (isCookie_lines h2).1⟩, ?_⟩
  · show Reaches s₂.disk (seqanDir s₂.cwd h ++ [cookieName i.ndebug i.name]) _
    rw [hfr.cwd]; exact h1
  · have e1 : s₂.commands = s.commands := by rw [fr.rest]
    rw [hr]
    simp [e1]

/-! A system, and the app whose cookie is looked at. -/

/-- An app, release build. -/
def exCheck : CheckInput where
  ndebug := true
  name := "app".toList
  version := "1.2.3".toList
  url := []
  shargVersion := (1, 1, 2)

/-- A system with the home directory `/h`. -/
def exSystem (files : Disk) (clock : Nat) (stdin : String) : System where
  disk := [([], .dir true false true), (["h".toList], .dir true true true),
    (["h".toList, ".config".toList], .dir true true true), (["h".toList, ".config".toList, "seqan".toList], .dir true true true)] ++ files
  cwd := ["h".toList]
  clock := clock
  delay := 5
  home := some "/h".toList
  noCheckVar := false
  tempDir := some "/tmp".toList
  stdinTty := true
  stderrTty := true
  wget := true
  curl := false
  stdin := stdin.toList
  stdout := []
  stderr := []
  commands := []

/-- A file in `~/.config/seqan`. -/
def exFile (name content : String) : Loc × Node :=
  (["h".toList, ".config".toList, "seqan".toList, name.toList], .file content.toList true true)

theorem usable_of {s : System} {h : Str} {r : Bool} (h1 : s.home = some h)
    (h2 : s.disk.lookup (seqanDir s.cwd h) = .found (.dir r true true))
    (h3 : s.disk.node? (dummyIn (seqanDir s.cwd h)) = none) : Usable s h :=
  ⟨h1, ⟨r, (lookup_found_iff _ _ _).1 h2⟩, fun n hn => by rw [h3] at hn; cases hn⟩

/-- The hypotheses of both theorems about C51 can be met. -/
theorem ex_saidNever : SaidNever "/h".toList (cookieName true "app".toList)
    (exSystem [exFile "app_usr.timestamp" "100\nNEVER"] 1000000 "") :=
  ⟨usable_of (r := true) rfl (by decide +kernel) (by decide +kernel), "100\nNEVER".toList, true,
    (lookup_found_iff _ _ _).1 (by decide +kernel), (lastRead_iff _ _).2 (by decide +kernel)⟩

theorem ex_usable (clock : Nat) (stdin : String) : Usable (exSystem [] clock stdin) "/h".toList :=
  usable_of (r := true) rfl rfl rfl

theorem ex_no_cookie (clock : Nat) (stdin : String) :
    (exSystem [] clock stdin).disk.node? (cookieLoc (exSystem [] clock stdin) "/h".toList (cookieName exCheck.ndebug exCheck.name)) = none := rfl

example : ∃ s', runVersionCheck exCheck true none (exSystem [] 1000000 "n\n") = .ok () s' ∧
    SaidNever "/h".toList (cookieName true "app".toList) s' := by
  have hu := ex_usable 1000000 "n\n"
  obtain ⟨_, _, _, _, _, _, _, _, _, _, _, _, hrun, _, _⟩ := run_usable exCheck true none _ _ hu (by decide)
  refine ⟨_, hrun, (C51_answer_n_is_remembered exCheck _ _ _ (by decide) hu (Or.inl (ex_no_cookie _ _)) rfl ?_ rfl hrun).1⟩
  intro text w hr
  have h1 := ex_no_cookie 1000000 "n\n"
  rw [hr.1] at h1
  cases h1

/-- A system in which `~/.config` and the directory for temporary files may not be written. -/
def exReadOnly (clock : Nat) (stdin : String) : System :=
  { exSystem [] clock stdin with
    disk := [([], .dir true false true), (["h".toList], .dir true false true), (["tmp".toList], .dir true false true),
      (["w".toList], .dir true true true)]
    cwd := ["w".toList] }

/-- C51 does not hold as stated: if neither `~/.config/seqan` nor the directory for temporary files can be used, the cookie is
written into the current directory, but never looked for there. The user answers `n`, runs the app again a second later, and is
asked again. -/
theorem C51_never_is_forgotten :
    let s₁ := (runVersionCheck exCheck true none (exReadOnly 1000000 "n\n")).state
    let s₂ := (runVersionCheck exCheck true none { s₁ with clock := s₁.clock + 1, stdin := "y\n".toList, stderr := [] }).state
    s₁.disk.node? ["w".toList, "app_usr.timestamp".toList] = some (.file "1000005\nNEVER".toList true true) ∧
    s₂.stderr = question ∧ s₂.commands ≠ [] := by
  decide +kernel

/-! ### C52 -/

/-- Nobody but the user of the command line or an ALWAYS cookie makes the app send a request without asking. -/
theorem decides_quiet {n e : Bool} {u : Option Bool} {k : Cookie} {a : Option Char} (h : Decides n e u (some k) a true)
    (hu : u ≠ some true) (hk : k.message ≠ "ALWAYS".toList) : Open n e u (some k) := by
  cases h with
  | user => exact absurd rfl hu
  | always => exact absurd rfl hk
  | asked h1 _ => exact ⟨rfl, rfl, rfl, h1⟩

/-- One run after a question. -/
theorem asked_step (i : CheckInput) (notify : Bool) (user : Option Bool) (h : Str) (rel : Bool) (name : Str) (T : Nat) (s : System)
    (hn : matchesNameRegex i.name = true) (hs : AskedSince h (cookieName rel name) T s)
    (hcl : s.clock + s.delay ≤ lastSecond) (ha : cookieName i.ndebug i.name = cookieName rel name → answer s ≠ some 'a') :
    ∃ s', runVersionCheck i notify user s = .ok () s' ∧ AskedSince h (cookieName rel name) T s' ∧
      (cookieName i.ndebug i.name = cookieName rel name → user ≠ some true → s'.commands ≠ s.commands → T + 86400 ≤ s.clock) := by
  obtain ⟨hu, text, t', m, hr, hic, hT, hL, hm⟩ := hs
  obtain ⟨d, k, r, s₂, t, hu', hdm, hd, hk, hdec, hno, hyes, hrun, ht, hfr⟩ := run_usable i notify user s h hu hn
  have hu₂ := hfr.usable hu
  by_cases hc : cookieName i.ndebug i.name = cookieName rel name
  · have hrd : Reaches d (cookieLoc s h (cookieName rel name)) (.file text true true) := by
      refine reaches_cookie_congr (s := s) (s' := { s with disk := d }) rfl (fun q hq => hd q ?_) (hd _ ?_) hr
      · rintro rfl; exact hq ⟨_, rfl⟩
      · exact cookieLoc_ne_dummy s h rel name
    obtain ⟨k', rfl, hks⟩ := cookieSeen_some (s := { s with disk := d }) hn hk (hc ▸ hrd)
    obtain ⟨hl, dd, hf, hdd, hdv⟩ := isCookie_lines hic
    have hmsg : k'.message = m := lastRead_unique hks.1 hl
    by_cases hop : Open notify s.noCheckVar user (some k')
    · have hy : ¬ s.clock < t' + 86400 := by
        intro hlt
        have h1 := (hks.2 dd hf (Nat.le_trans (Nat.le_add_right _ _) hcl)).2 ((young_decimal _ _ hdd (by rw [hdv]; exact hL)).2 (by rw [hdv]; exact hlt))
        rw [(hop.2.2.2 k' rfl).1] at h1
        cases h1
      obtain ⟨fr, s₁, hw1, hask⟩ := hyes hop
      obtain ⟨text', t'', h1, h2, h3, h4⟩ := open_run i h { s with disk := d } s₁ s₂ r hn hu'
        (writable_congr _ _ hd (Or.inr ⟨text, hc ▸ hr⟩)) hw1 hask
      have ea : answer { s with disk := d } = answer s := answer_congr rfl rfl rfl
      rw [ea] at h2
      have h3 : s.clock ≤ t'' := h3
      have h4 : t'' ≤ s.clock + s.delay := h4
      refine ⟨_, hrun, ⟨⟨hu₂.home, hu₂.seqan, hu₂.dummy⟩, text', t'', messageAfter (answer s), ?_, h2, by omega, by omega, ?_⟩, fun _ _ _ => by omega⟩
      · show Reaches s₂.disk (seqanDir s₂.cwd h ++ [cookieName rel name]) _
        rw [hfr.cwd, ← hc]; exact h1
      · cases hans : answer s with
        | none => decide
        | some a =>
          have hA : a ≠ 'a' := fun e => ha hc (by rw [hans, e])
          by_cases hN : a = 'n'
          · subst hN; decide
          · rw [messageAfter_other hA hN]; decide
    · have e₂ := hno hop
      refine ⟨_, hrun, ⟨⟨hu₂.home, hu₂.seqan, hu₂.dummy⟩, text, t', m, ?_, hic, hT, hL, hm⟩, fun _ hut hcm => ?_⟩
      · rw [e₂]; exact hrd
      · exfalso
        apply hcm
        cases r with
        | false => rw [e₂]; simp
        | true => exact absurd (decides_quiet hdec hut (hmsg ▸ hm)) hop
  · refine ⟨_, hrun, ⟨⟨hu₂.home, hu₂.seqan, hu₂.dummy⟩, text, t', m, ?_, hic, hT, hL, hm⟩, fun h => absurd h hc⟩
    exact reaches_cookie_congr (s := s) (s' := s₂) hfr.cwd (frame_other hfr) (other_cookie hfr hc (cookieName_ne_dummy rel name)) hr

theorem asked_play (h : Str) (rel : Bool) (name : Str) (T : Nat) (steps : List Event) (s : System)
    (hs : AskedSince h (cookieName rel name) T s)
    (hsteps : ∀ st ∈ steps, matchesNameRegex st.input.name = true ∧
      ∀ s, AskedSince h (cookieName rel name) T s →
        AskedSince h (cookieName rel name) T (st.outside s) ∧ (st.outside s).clock + (st.outside s).delay ≤ lastSecond ∧
        (cookieName st.input.ndebug st.input.name = cookieName rel name → answer (st.outside s) ≠ some 'a')) :
    AskedSince h (cookieName rel name) T (play steps s) := by
  induction steps generalizing s with
  | nil => exact hs
  | cons st steps ih =>
    obtain ⟨hn, ho⟩ := hsteps st (by simp)
    obtain ⟨s', h1, h2, -⟩ := asked_step st.input st.notify st.user h rel name T (st.outside s) hn (ho s hs).1 (ho s hs).2.1 (ho s hs).2.2
    refine ih _ ?_ (fun st' h' => hsteps st' (by simp [h']))
    show AskedSince h (cookieName rel name) T (runVersionCheck st.input st.notify st.user (st.outside s)).state
    rw [h1]
    exact h2

/-- C52: if the user never answers `a` to this app, the requests of an app lie at least a day apart. In `s` the app is run, asks, and sends a
request. Then apps are run in any order, with any options and any changes from outside that leave the directory usable and the
cookie as it is or write a later one, not ALWAYS. A run of the app without `--version-check 1` that sends a request again starts at least
86400 seconds after the first one started, as long as no clock shows a time after the next 285 million years. Missing: after the answer `a` there is no limit, see the next theorem. -/
theorem C52_a_day_between_requests_partial (i : CheckInput) (h : Str) (s s' : System) (hn : matchesNameRegex i.name = true)
    (hu : Usable s h) (hw : CookieWritable h (cookieName i.ndebug i.name) s) (notify : Bool)
    (hal : ∀ text w, Reaches s.disk (cookieLoc s h (cookieName i.ndebug i.name)) (.file text true w) → ¬ LastRead text "ALWAYS".toList)
    (hcl : s.clock + s.delay ≤ lastSecond) (ha : answer s ≠ some 'a') (hrun : runVersionCheck i notify none s = .ok () s') (hsent : s'.commands ≠ s.commands)
    (steps : List Event)
    (hsteps : ∀ st ∈ steps, matchesNameRegex st.input.name = true ∧
      ∀ s₁, AskedSince h (cookieName i.ndebug i.name) s.clock s₁ →
        AskedSince h (cookieName i.ndebug i.name) s.clock (st.outside s₁) ∧ (st.outside s₁).clock + (st.outside s₁).delay ≤ lastSecond ∧
        (cookieName st.input.ndebug st.input.name = cookieName i.ndebug i.name → answer (st.outside s₁) ≠ some 'a'))
    (pre post : List Event) (st : Event) (hsplit : steps = pre ++ st :: post)
    (hown : st.input.ndebug = i.ndebug ∧ st.input.name = i.name) (huser : st.user ≠ some true)
    (hagain : (st.after (play pre s')).commands ≠ (st.before (play pre s')).commands) :
    s.clock + 86400 ≤ (st.before (play pre s')).clock := by
  subst hsplit
  have hs : AskedSince h (cookieName i.ndebug i.name) s.clock s' := by
    obtain ⟨d, k, r, s₂, t, hu', hdm, hd, hk, hdec, hno, hyes, hrun', ht, hfr⟩ := run_usable i notify none s h hu hn
    rw [hrun'] at hrun
    cases hrun
    have hu₂ := hfr.usable hu
    have hq : ∀ q, ¬ (∃ c, q = seqanDir s.cwd h ++ [c]) → s.disk.node? q = d.node? q := by
      intro q hq
      refine (hd q ?_).symm
      rintro rfl; exact hq ⟨_, rfl⟩
    have hop : Open notify s.noCheckVar none k := by
      have hr : r = true := by
        cases r with
        | true => rfl
        | false =>
          exfalso
          apply hsent
          by_cases hop : Open notify s.noCheckVar none k
          · have e1 : s₂.commands = s.commands := by rw [(hyes hop).1.rest]
            simp [e1]
          · have e1 : s₂.commands = s.commands := by rw [hno hop]
            simp [e1]
      subst hr
      cases k with
      | none =>
        refine ⟨?_, ?_, rfl, fun k hk => by cases hk⟩
        · cases notify with
          | true => rfl
          | false => cases hdec
        · cases he : s.noCheckVar with
          | false => rfl
          | true => rw [he] at hdec; cases hdec
      | some k' =>
        refine decides_quiet hdec (by simp) ?_
        cases hk with
        | some _ hr hsays =>
          rw [locOf_usableChecker i h { s with disk := d } hn] at hr
          intro hm
          refine hal _ _ (reaches_cookie_congr (s := { s with disk := d }) (s' := s) rfl hq (hd _ (cookieLoc_ne_dummy s h _ _)).symm hr) ?_
          rw [← hm]; exact hsays.1
    obtain ⟨fr, s₁, hw1, hask⟩ := hyes hop
    obtain ⟨text', t'', h1, h2, h3, h4⟩ := open_run i h { s with disk := d } s₁ s₂ r hn hu' (writable_congr _ _ hd hw) hw1 hask
    have ea : answer { s with disk := d } = answer s := answer_congr rfl rfl rfl
    rw [ea] at h2
    refine ⟨⟨hu₂.home, hu₂.seqan, hu₂.dummy⟩, text', t'', messageAfter (answer s), ?_, h2, h3, Nat.le_trans h4 hcl, ?_⟩
    · show Reaches s₂.disk (seqanDir s₂.cwd h ++ [cookieName i.ndebug i.name]) _
      rw [hfr.cwd]; exact h1
    · cases hans : answer s with
      | none => decide
      | some a =>
        have hA : a ≠ 'a' := fun e => ha (by rw [hans, e])
        by_cases hN : a = 'n'
        · subst hN; decide
        · rw [messageAfter_other hA hN]; decide
  have hp := asked_play h i.ndebug i.name s.clock pre s' hs (fun st' h' => hsteps st' (by simp [h']))
  obtain ⟨hn', ho⟩ := hsteps st (by simp)
  obtain ⟨s'', h1, h2, h3⟩ := asked_step st.input st.notify st.user h i.ndebug i.name s.clock (st.outside (play pre s')) hn' (ho _ hp).1 (ho _ hp).2.1 (ho _ hp).2.2
  refine h3 (by rw [hown.1, hown.2]) huser ?_
  have e : st.after (play pre s') = s'' := by
    show (runVersionCheck st.input st.notify st.user (st.outside (play pre s'))).state = s''
    rw [h1]; rfl
  rw [e] at hagain
  exact hagain

/-- The hypotheses can be met: the user answers `y`, and again after a day. -/
example :
    let s := exSystem [] 1000000 "y\n"
    let s' := (runVersionCheck exCheck true none s).state
    s'.commands ≠ s.commands ∧
    (runVersionCheck exCheck true none { s' with clock := 1000000 + 86400, stdin := "y\n".toList }).state.commands ≠ s'.commands ∧
    (runVersionCheck exCheck true none { s' with clock := 1000000 + 86399, stdin := "y\n".toList }).state.commands = s'.commands := by
  decide +kernel

/-- C52 does not hold as stated: after the answer `a` the cookie is never written again, so from the next day on every run sends
a request. Here the user answers `a` at time 1000000; runs at 1086405 and at 1086406 both send. -/
theorem C52_always_means_every_run :
    let s₁ := (runVersionCheck exCheck true none (exSystem [] 1000000 "a\n")).state
    let s₂ := (runVersionCheck exCheck true none { s₁ with clock := 1086405 }).state
    let s₃ := (runVersionCheck exCheck true none { s₂ with clock := 1086406 }).state
    s₁.commands.length = 1 ∧ s₂.commands.length = 2 ∧ s₃.commands.length = 3 := by
  decide +kernel

/-- The same for all times: with an ALWAYS cookie that is older than a day, every run without options sends a request and leaves
the cookie as it is, for the next 285 million years. -/
theorem C52_old_always_cookie (i : CheckInput) (h : Str) (s : System) (hn : matchesNameRegex i.name = true) (hu : Usable s h)
    (he : s.noCheckVar = false) (hp : s.wget = true ∨ s.curl = true) (text : Str) (w : Bool) (t : Nat)
    (hr : Reaches s.disk (cookieLoc s h (cookieName i.ndebug i.name)) (.file text true w))
    (hc : IsCookie text t "ALWAYS".toList) (ht : t + 86400 ≤ s.clock) (hcl : s.clock ≤ lastSecond) :
    ∃ s', runVersionCheck i true none s = .ok () s' ∧ s'.commands.length = s.commands.length + 1 ∧
      Reaches s'.disk (cookieLoc s' h (cookieName i.ndebug i.name)) (.file text true w) := by
  obtain ⟨d, k, r, s₂, u, hu', hdm, hd, hk, hdec, hno, hyes, hrun, -, hfr⟩ := run_usable i true none s h hu hn
  have hrd : Reaches d (cookieLoc s h (cookieName i.ndebug i.name)) (.file text true w) := by
    refine reaches_cookie_congr (s := s) (s' := { s with disk := d }) rfl (fun q hq => hd q ?_) (hd _ ?_) hr
    · rintro rfl; exact hq ⟨_, rfl⟩
    · exact cookieLoc_ne_dummy s h _ _
  obtain ⟨k', rfl, hks⟩ := cookieSeen_some (s := { s with disk := d }) hn hk hrd
  obtain ⟨hl, dd, hf, hdd, hdv⟩ := isCookie_lines hc
  have hmsg : k'.message = "ALWAYS".toList := lastRead_unique hks.1 hl
  have hop : ¬ Open true s.noCheckVar none (some k') := fun hop => (hop.2.2.2 k' rfl).2.2 hmsg
  have e₂ := hno hop
  have hy : k'.young = false := by
    cases hy : k'.young with
    | false => rfl
    | true =>
      exfalso
      have h1 := (young_decimal _ _ hdd (by rw [hdv]; omega)).1 ((hks.2 dd hf hcl).1 hy)
      rw [hdv] at h1
      have h1 : s.clock < t + 86400 := h1
      omega
  have hrt : r = true := by
    rw [he] at hdec
    generalize answer s = a at hdec
    cases hdec with
    | young => cases hy
    | never => simp at hmsg
    | always => rfl
    | asked h1 _ => exact absurd hmsg (h1 k' rfl).2.2
    | silent h1 => exact absurd hmsg (h1 k' rfl).2.2
  refine ⟨_, hrun, ?_, ?_⟩
  · rw [e₂, hrt]
    simp [hp]
  · rw [e₂]; exact hrd

end Sharg
