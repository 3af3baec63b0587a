import Verif.Props.Output

/-!
# What the version check writes to the disk

C78.
-/

namespace Sharg.Spec

/-- The places where a cookie may be written: `~/.config/seqan`, the directory for temporary files, and the current directory. -/
def cookiePlaces (s : System) (cookie : Str) : List Loc :=
  (s.cwd ++ [cookie]) ::
    match s.home with
    | none => []
    | some h => cookieLoc s h cookie :: (s.tempDir.map fun t => locOf s.cwd t ++ [cookie]).toList

/-- `~/.config/seqan` is there, and it can be searched, but nothing can be created in it. -/
structure Locked (s : System) (h : Str) : Prop where
  home : s.home = some h
  seqan : ∃ r, Reaches s.disk (seqanDir s.cwd h) (.dir r false true)
  dummy : s.disk.node? (dummyIn (seqanDir s.cwd h)) = none

/-- The text of a cookie that the version check writes. -/
def OwnCookie (text : Str) : Prop :=
  ∃ t m, IsCookie text t m ∧ m ∈ ["ASK".toList, "ALWAYS".toList, "NEVER".toList]

end Sharg.Spec

namespace Sharg

open Spec

/-! ### Lemmas -/

theorem fsWrite_result (p : Loc) (t : Str) (fs : Disk) : ∃ fs', fsWrite p t fs = .ok () fs' ∧
    (∀ q, q ≠ p → fs'.node? q = fs.node? q) ∧ (fs'.node? p = fs.node? p ∨ ∃ r w, fs'.node? p = some (.file t r w)) := by
  obtain ⟨b, d, h1, h2, h3⟩ := openForWriting_frame p fs
  cases b with
  | false =>
    have e : d = fs := h3 rfl
    subst e
    refine ⟨d, ?_, h2, Or.inl rfl⟩
    exact (bind_of_ok h1).trans rfl
  | true =>
    have e : fsWrite p t fs = (match d.node? p with
      | some (.file _ r w) => .ok () (d.replace p (.file t r w))
      | _ => .ok () d) := (bind_of_ok h1).trans rfl
    rw [e]
    have keep : (∀ c r w, d.node? p ≠ some (.file c r w)) → d.node? p = fs.node? p := by
      intro hn
      unfold fsOpenForWriting at h1
      rcases lookup_cases fs p with ⟨n, k1, kl⟩ | ⟨kl, -⟩ | ⟨kl, -, -⟩
      · rw [kl] at h1
        cases n with
        | file c r w =>
          cases w with
          | true =>
            cases h1
            exact absurd (by rw [node?_replace, if_pos rfl, k1.1]; rfl) (hn [] r true)
          | false => cases h1
        | dir r w x => cases h1
        | special r w => cases h1; rfl
      · rw [kl] at h1
        dsimp only at h1
        split at h1
        · cases h1
          exact absurd (by rw [node?_cons, if_pos rfl]) (hn [] true true)
        · cases h1
      · rw [kl] at h1; cases h1
    cases hd : d.node? p with
    | none => exact ⟨d, rfl, h2, Or.inl (keep (fun c r w => by rw [hd]; exact fun h => nomatch h))⟩
    | some n =>
      cases n with
      | file c r w =>
        refine ⟨_, rfl, fun q hq => ?_, Or.inr ⟨r, w, ?_⟩⟩
        · rw [node?_replace, if_neg (Ne.symm hq)]; exact h2 q hq
        · rw [node?_replace, if_pos rfl, hd]; rfl
      | dir r w x => exact ⟨d, rfl, h2, Or.inl (keep (fun c r w => by rw [hd]; exact fun h => nomatch h))⟩
      | special r w => exact ⟨d, rfl, h2, Or.inl (keep (fun c r w => by rw [hd]; exact fun h => nomatch h))⟩

theorem ownCookie_written (clock : Nat) (m : Str) (hm : m ∈ ["ASK".toList, "ALWAYS".toList, "NEVER".toList]) :
    OwnCookie (showNat clock ++ '\n' :: m) := by
  refine ⟨clock, m, ⟨_, rfl, ?_, (showNat_value clock).1, (showNat_value clock).2⟩, hm⟩
  rcases List.mem_cons.1 hm with rfl | hm
  · decide
  · rcases List.mem_cons.1 hm with rfl | hm
    · decide
    · rcases List.mem_cons.1 hm with rfl | hm
      · decide
      · cases hm

/-- What writing cookies does to a disk: nothing but that there may be a cookie at its place. -/
structure CookieChange (place : Loc) (s s' : System) : Prop where
  others : ∀ q, q ≠ place → s'.disk.node? q = s.disk.node? q
  there : s'.disk.node? place = s.disk.node? place ∨ ∃ text r w, s'.disk.node? place = some (.file text r w) ∧ OwnCookie text

theorem CookieChange.refl (place : Loc) {s s' : System} (h : s'.disk = s.disk) : CookieChange place s s' :=
  ⟨fun q _ => by rw [h], Or.inl (by rw [h])⟩

theorem CookieChange.trans {place : Loc} {a b c : System} (h : CookieChange place a b) (k : CookieChange place b c) :
    CookieChange place a c := by
  refine ⟨fun q hq => (k.others q hq).trans (h.others q hq), ?_⟩
  rcases k.there with k1 | k1
  · rw [k1]; exact h.there
  · exact Or.inr k1

theorem writeCookie_change (ck : Checker) (m : Str) (hm : m ∈ ["ASK".toList, "ALWAYS".toList, "NEVER".toList]) (s s' : System)
    (h : writeCookie ck m s = .ok () s') : CookieChange (locOf s.cwd ck.timestampFile) s s' ∧ s'.cwd = s.cwd := by
  obtain ⟨d, h1, h2, h3⟩ := fsWrite_result (locOf s.cwd ck.timestampFile) (showNat s.clock ++ '\n' :: m) s.disk
  have e : writeCookie ck m s = .ok () { s with disk := d } := onDisk_ok h1
  rw [e] at h
  cases h
  refine ⟨⟨h2, ?_⟩, rfl⟩
  rcases h3 with h3 | ⟨r, w, h3⟩
  · exact Or.inl h3
  · exact Or.inr ⟨_, r, w, h3, ownCookie_written _ _ hm⟩

theorem decideCheck_change (ck : Checker) (notify : Bool) (user : Option Bool) (s s' : System) (r : Bool)
    (hp : Prepared ck s) (h : decideCheck ck notify user s = .ok r s') : CookieChange (locOf s.cwd ck.timestampFile) s s' := by
  obtain ⟨k, r', s'', -, h2, -, h4, h5⟩ := decideCheck_spec ck notify user s hp
  rw [h2] at h
  cases h
  by_cases ho : Open notify s.noCheckVar user k
  · obtain ⟨-, s₁, h6, h7⟩ := h5 ho
    obtain ⟨c1, e1⟩ := writeCookie_change ck _ (by simp) s s₁ h6
    obtain ⟨r₂, s₂, h8, -, h9⟩ := askUser_spec ck s₁
    rw [h8] at h7
    cases h7
    cases ha : answer s₁ with
    | none =>
      rw [ha] at h9
      rw [h9.2]
      exact c1
    | some a =>
      rw [ha] at h9
      have c0 : CookieChange (locOf s.cwd ck.timestampFile) s (afterAnswer s₁) := c1.trans (CookieChange.refl _ rfl)
      have ew : (afterAnswer s₁).cwd = s.cwd := e1
      rcases h9.2 with ⟨-, h10⟩ | ⟨-, h10⟩ | ⟨-, -, h10⟩
      · have := (writeCookie_change ck _ (by simp) _ _ h10).1
        rw [ew] at this
        exact c0.trans this
      · have := (writeCookie_change ck _ (by simp) _ _ h10).1
        rw [ew] at this
        exact c0.trans this
      · rw [h10]; exact c0
  · rw [h4 ho]
    exact CookieChange.refl _ rfl

/-- The place of the cookie. -/
theorem cookie_place (i : CheckInput) (s s₁ : System) (ck : Checker) (hn : matchesNameRegex i.name = true)
    (h : makeChecker i s = .ok ck s₁) : locOf s.cwd ck.timestampFile ∈ cookiePlaces s (cookieName i.ndebug i.name) := by
  obtain ⟨-, -, h3, h4⟩ := makeChecker_ok h
  rw [h4, timestampName_eq, locOf_join _ _ _ (cookieName_ne i.ndebug i.name) (slash_not_in_cookieName i.ndebug hn)]
  have hdir : ck.cookiePath = [] ∨ (∃ h, s.home = some h ∧ (ck.cookiePath = seqanText h ∨ s.tempDir = some ck.cookiePath)) := by
    obtain hh | ⟨h', hh⟩ := option_cases s.home
    · rw [getPath_no_home _ s hh] at h3; cases h3
    · rcases getPath_dir _ s s₁ _ h3 with e | ⟨h'', e1, e2⟩ | e
      · exact Or.inl e
      · exact Or.inr ⟨h'', e1, Or.inl e2⟩
      · exact Or.inr ⟨h', hh, Or.inr e⟩
  unfold cookiePlaces
  rcases hdir with e | ⟨h', hh, e | e⟩
  · rw [e]
    have : locOf s.cwd [] = s.cwd := by
      unfold locOf
      rw [if_neg (by decide)]
      exact List.append_nil _
    rw [this]
    exact List.mem_cons_self
  · rw [hh, e, locOf_seqan]
    exact List.mem_cons_of_mem _ List.mem_cons_self
  · rw [hh, e]
    exact List.mem_cons_of_mem _ (List.mem_cons_of_mem _ (List.mem_singleton.2 rfl))

/-- C78: however the version check runs and ends, it changes nothing on the disk but this: test files may be gone, `~/.config` and
`~/.config/seqan` may be new, and at one of three places there may be a cookie. -/
theorem C78_disk_partial (i : CheckInput) (notify : Bool) (user : Option Bool) (s : System) (hn : matchesNameRegex i.name = true) :
    ∃ place ∈ cookiePlaces s (cookieName i.ndebug i.name), ∀ q,
      (∃ f ∈ testFiles s, f <+: q) ∨
      (runVersionCheck i notify user s).state.disk.node? q = s.disk.node? q ∨
      (s.disk.node? q = none ∧ (runVersionCheck i notify user s).state.disk.node? q = some (.dir true true true) ∧ q ∈ cookieDirs s) ∨
      (q = place ∧ ∃ text r w, (runVersionCheck i notify user s).state.disk.node? q = some (.file text r w) ∧ OwnCookie text) := by
  cases hm : makeChecker i s with
  | err e s₁ =>
    have fr := makeChecker_frame i s
    have e1 : (runVersionCheck i notify user s).state = s₁ := by
      unfold runVersionCheck
      rw [M.bind_run, hm]
      rfl
    rw [hm] at fr
    refine ⟨_, List.mem_cons_self, fun q => ?_⟩
    rw [e1]
    rcases fr.2 q with h | h | h
    · exact Or.inl h
    · exact Or.inr (Or.inl h)
    · exact Or.inr (Or.inr (Or.inl h))
  | ok ck s₁ =>
    have fr := makeChecker_frame i s
    rw [hm] at fr
    have hcwd : s₁.cwd = s.cwd := by rw [(makeChecker_ok hm).2.1]
    refine ⟨_, cookie_place i s s₁ ck hn hm, fun q => ?_⟩
    obtain ⟨k, r, s₂, -, h2, -, -, -⟩ := decideCheck_spec ck notify user s₁ (makeChecker_ok hm).1
    obtain ⟨t, h3, -⟩ := run_steps i notify user hm h2
    have ch := decideCheck_change ck notify user s₁ s₂ r (makeChecker_ok hm).1 h2
    rw [hcwd] at ch
    rw [h3]
    show _ ∨ s₂.disk.node? q = _ ∨ (_ ∧ s₂.disk.node? q = _ ∧ _) ∨ (_ ∧ ∃ text r w, s₂.disk.node? q = _ ∧ _)
    have base : ∀ e : s₂.disk.node? q = s₁.disk.node? q, (∃ f ∈ testFiles s, f <+: q) ∨
      s₂.disk.node? q = s.disk.node? q ∨
      (s.disk.node? q = none ∧ s₂.disk.node? q = some (.dir true true true) ∧ q ∈ cookieDirs s) ∨
      (q = locOf s.cwd ck.timestampFile ∧ ∃ text r w, s₂.disk.node? q = some (.file text r w) ∧ OwnCookie text) := by
      intro e
      rw [e]
      rcases fr.2 q with h | h | h
      · exact Or.inl h
      · exact Or.inr (Or.inl h)
      · exact Or.inr (Or.inr (Or.inl h))
    by_cases hq : q = locOf s.cwd ck.timestampFile
    · rcases ch.there with e | e
      · exact base (by rw [hq]; exact e)
      · exact Or.inr (Or.inr (Or.inr ⟨hq, by rw [hq]; exact e⟩))
    · exact base (ch.others q hq)

/-! ### A directory that is locked -/

theorem makeChecker_locked (i : CheckInput) (s : System) (h : Str) (hl : Locked s h) (hn : matchesNameRegex i.name = true) :
    makeChecker i s = .ok ⟨[], cookieName i.ndebug i.name⟩ s := by
  obtain ⟨r, hr⟩ := hl.seqan
  have hcfg : ∃ r w, Reaches s.disk (locOf s.cwd (configText h)) (.dir r w true) := by
    rw [locOf_config]
    obtain ⟨r', w', h1⟩ := hr.2 (locOf s.cwd h ++ [".config".toList]) "seqan".toList [] (by simp [seqanDir])
    refine ⟨r', w', h1, fun q c t ht => ?_⟩
    exact hr.2 q c (t ++ ["seqan".toList]) (by
      rw [show seqanDir s.cwd h = (locOf s.cwd h ++ [".config".toList]) ++ ["seqan".toList] by simp [seqanDir], ht]; simp)
  obtain ⟨r', w', hcfg⟩ := hcfg
  have c1 : fsCreateDirectory (locOf s.cwd (configText h)) s.disk = .ok true s.disk := by
    unfold fsCreateDirectory; rw [(lookup_found_iff _ _ _).2 hcfg]
  have c2 : fsCreateDirectory (locOf s.cwd (seqanText h)) s.disk = .ok true s.disk := by
    unfold fsCreateDirectory; rw [locOf_seqan, (lookup_found_iff _ _ _).2 hr]
  obtain ⟨ok₁, d₁, ok₂, d₂, h1, h2, h3⟩ := getPath_steps i.ndebug s h hl.home
  rw [c1] at h1; cases h1
  rcases h2 with ⟨-, h2⟩ | ⟨h2, -⟩
  · rw [c2] at h2; cases h2
    have h3 : getPath i.ndebug s = tryDir i.ndebug s.cwd (seqanText h) s := h3
    have hno : ¬ parentWritable s.disk (dummyIn (seqanDir s.cwd h)) = true := by
      intro hp
      obtain ⟨q', c', r', he, hr'⟩ := (parentWritable_iff _ _).1 hp
      have e := List.append_inj' (show seqanDir s.cwd h ++ ["dummy.txt".toList] = q' ++ [c'] from he) (by simp)
      rw [← e.1] at hr'
      cases reaches_unique hr hr'
    have hmiss : s.disk.lookup (dummyIn (seqanDir s.cwd h)) = .missing := by
      rcases lookup_cases s.disk (dummyIn (seqanDir s.cwd h)) with ⟨n, k1, -⟩ | ⟨kl, -⟩ | ⟨kl, k2, -⟩
      · have k := k1.1; rw [hl.dummy] at k; cases k
      · exact kl
      · exfalso
        obtain ⟨q', c', t, r', w', ht, hr'⟩ := k2
        rcases List.eq_nil_or_concat t with rfl | ⟨t', z, rfl⟩
        · have e := List.append_inj' (show seqanDir s.cwd h ++ ["dummy.txt".toList] = q' ++ [c'] from ht) (by simp)
          rw [← e.1] at hr'
          cases reaches_unique hr hr'
        · have ht : seqanDir s.cwd h ++ ["dummy.txt".toList] = (q' ++ c' :: t') ++ [z] := by
            rw [show q' ++ c' :: t' ++ [z] = q' ++ c' :: (t'.concat z) by simp]; exact ht
          have e := List.append_inj' ht (by simp)
          obtain ⟨r2, w2, h2⟩ := hr.2 q' c' t' e.1
          have := hr'.1.symm.trans h2
          cases this
    have o1 : fsOpenForWriting (dummyIn (seqanDir s.cwd h)) s.disk = .ok false s.disk := by
      unfold fsOpenForWriting; rw [hmiss]; dsimp only; rw [if_neg hno]
    have o2 : withGuard i.ndebug (dummyIn (seqanDir s.cwd h)) (fsRemoveNoThrow (dummyIn (seqanDir s.cwd h))) s.disk = .ok () s.disk := by
      have m1 : fsRemoveNoThrow (dummyIn (seqanDir s.cwd h)) s.disk = .ok () s.disk := by
        unfold fsRemoveNoThrow fsRemove; rw [hmiss]
      have m2 : fsRemoveAll (dummyIn (seqanDir s.cwd h)) s.disk = .ok () s.disk := by
        unfold fsRemoveAll; rw [hmiss]
      unfold withGuard
      rw [m1]
      dsimp only
      rw [m2]
    have o3 : getPath i.ndebug s = .ok [] s := by
      rw [h3]
      unfold tryDir
      rw [locOf_dummy, locOf_seqan]
      refine (bind_of_ok (onDisk_ok o1)).trans ?_
      refine (bind_of_ok (onDisk_ok o2)).trans ?_
      rfl
    unfold makeChecker
    refine (bind_of_ok o3).trans ?_
    rw [hn, Bool.not_true, Bool.and_false, if_neg (by decide)]
    rfl
  · cases h2

theorem locked_decides (i : CheckInput) (s : System) (he : s.noCheckVar = false) :
    ∃ s₁ r s₂ t, writeCookie ⟨[], cookieName i.ndebug i.name⟩ "ASK".toList s = .ok () s₁ ∧
      askUser ⟨[], cookieName i.ndebug i.name⟩ s₁ = .ok r s₂ ∧
      ∀ h, Locked s h → matchesNameRegex i.name = true →
        (runVersionCheck i true none s).state.disk = s₂.disk ∧ (runVersionCheck i true none s).state.stderr = s₂.stderr ++ t := by
  have hp : Prepared ⟨[], cookieName i.ndebug i.name⟩ s := Or.inl rfl
  obtain ⟨k, r, s₂, h1, h2, -, -, h5⟩ := decideCheck_spec ⟨[], cookieName i.ndebug i.name⟩ true none s hp
  have hk : k = none := by
    cases h1 with
    | some hne => exact absurd rfl hne
    | none => rfl
  subst hk
  obtain ⟨-, s₁, h6, h7⟩ := h5 ⟨rfl, he, rfl, fun k hk => by cases hk⟩
  by_cases hl : ∃ h, Locked s h ∧ matchesNameRegex i.name = true
  · obtain ⟨h, hl, hn⟩ := hl
    obtain ⟨t, h3, -⟩ := run_steps i true none (makeChecker_locked i s h hl hn) h2
    exact ⟨s₁, r, s₂, t, h6, h7, fun _ _ _ => by rw [h3]; exact ⟨rfl, rfl⟩⟩
  · exact ⟨s₁, r, s₂, [], h6, h7, fun h k hn => absurd ⟨h, k, hn⟩ hl⟩

/-- C78 does not hold: if `~/.config/seqan` cannot be written, the cookie is written to the current directory, whatever directory that
is. (The user is not asked here; standard input is not a terminal.) -/
theorem C78_cookie_in_current_directory (i : CheckInput) (s : System) (h : Str) (hl : Locked s h) (hn : matchesNameRegex i.name = true)
    (he : s.noCheckVar = false) (ht : s.stdinTty = false)
    (hc : ∃ r, Reaches s.disk s.cwd (.dir r true true)) (hf : s.disk.node? (s.cwd ++ [cookieName i.ndebug i.name]) = none) :
    ∃ text, Reaches (runVersionCheck i true none s).state.disk (s.cwd ++ [cookieName i.ndebug i.name]) (.file text true true) ∧
      IsCookie text s.clock "ASK".toList := by
  obtain ⟨s₁, r, s₂, t, h1, h2, h3⟩ := locked_decides i s he
  obtain ⟨rd, hr⟩ := hc
  have eloc : locOf s.cwd (cookieName i.ndebug i.name) = s.cwd ++ [cookieName i.ndebug i.name] := by
    have := locOf_join s.cwd [] _ (cookieName_ne i.ndebug i.name) (slash_not_in_cookieName i.ndebug hn)
    have e0 : locOf s.cwd [] = s.cwd := by
      unfold locOf
      rw [if_neg (by decide)]
      exact List.append_nil _
    rw [e0] at this
    exact this
  obtain ⟨d, r', k1, k2, -, k4, -⟩ := fsWrite_writes (s.cwd ++ [cookieName i.ndebug i.name]) (showNat s.clock ++ '\n' :: "ASK".toList) s.disk
    (Or.inl ⟨⟨_, _, rd, rfl, hr⟩, hf⟩)
  have e1 : writeCookie ⟨[], cookieName i.ndebug i.name⟩ "ASK".toList s = .ok () { s with disk := d } := by
    rw [← eloc] at k1
    exact onDisk_ok k1
  rw [e1] at h1
  cases h1
  obtain ⟨r₃, s₃, a1, -, a3⟩ := askUser_spec ⟨[], cookieName i.ndebug i.name⟩ { s with disk := d }
  have ha : answer { s with disk := d } = none := answer_none _ (fun h => by
    have : s.stdinTty = true := h.1
    rw [ht] at this; cases this)
  rw [ha] at a3
  rw [a1] at h2
  cases h2
  rw [(h3 h hl hn).1, a3.2]
  rw [k4 hf] at k2
  exact ⟨_, k2, _, rfl, by decide, (showNat_value _).1, (showNat_value _).2⟩

/-- C78 does not hold: if `~/.config/seqan` cannot be written, cookies are written but not read. The user is asked in every run, whatever
was answered before and whatever cookies there are. -/
theorem C78_locked_asks_every_time (i : CheckInput) (s : System) (h : Str) (hl : Locked s h) (hn : matchesNameRegex i.name = true)
    (he : s.noCheckVar = false) (hi : s.stdinTty = true) (ho : s.stderrTty = true) :
    ∃ t, (runVersionCheck i true none s).state.stderr = s.stderr ++ question ++ t := by
  obtain ⟨s₁, r, s₂, t, h1, h2, h3⟩ := locked_decides i s he
  obtain ⟨d, e1, -⟩ := writeCookie_run ⟨[], cookieName i.ndebug i.name⟩ "ASK".toList s
  rw [e1] at h1
  cases h1
  obtain ⟨r₃, s₃, a1, a2, -⟩ := askUser_spec ⟨[], cookieName i.ndebug i.name⟩ { s with disk := d }
  rw [a1] at h2
  cases h2
  refine ⟨t, ?_⟩
  rw [(h3 h hl hn).2]
  have e := congrArg System.stderr a2.rest
  rw [e, headD_answer { s with disk := d } ⟨hi, ho⟩]
  rfl

/-! ### Examples -/

/-- A system in which `~/.config/seqan` cannot be written; the current directory is `/work`. -/
def exLocked (files : Disk) (stdin : String) (tty : Bool) : System :=
  { exSystem [] 1000000 stdin with
    disk := [([], .dir true false true), (["h".toList], .dir true true true),
      (["h".toList, ".config".toList], .dir true true true), (["h".toList, ".config".toList, "seqan".toList], .dir true false true),
      (["work".toList], .dir true true true)] ++ files
    cwd := ["work".toList]
    stdinTty := tty }

/-- It meets the hypotheses. -/
example : Locked (exLocked [] "" false) "/h".toList ∧ ∃ r, Reaches (exLocked [] "" false).disk (exLocked [] "" false).cwd (.dir r true true) :=
  ⟨⟨rfl, ⟨true, (lookup_found_iff _ _ _).1 (by decide +kernel)⟩, by decide +kernel⟩, true, (lookup_found_iff _ _ _).1 (by decide +kernel)⟩

/-- The cookie in the current directory; and the question, although it was answered with `n` before. -/
example :
    (runVersionCheck exCheck true none (exLocked [] "" false)).state.disk.node? ["work".toList, "app_usr.timestamp".toList] =
      some (.file "1000000\nASK".toList true true) ∧
    (runVersionCheck exCheck true none (runVersionCheck exCheck true none (exLocked [] "n\nn\n" true)).state).state.stderr =
      question ++ question := by
  decide +kernel

/-- A run in which a cookie appears and a test file is gone. -/
example :
    (runVersionCheck exCheck true none (exSystem [exFile "dummy.txt" "x"] 1000000 "a\n")).state.disk.node?
      ["h".toList, ".config".toList, "seqan".toList, "app_usr.timestamp".toList] = some (.file "1000005\nALWAYS".toList true true) ∧
    (runVersionCheck exCheck true none (exSystem [exFile "dummy.txt" "x"] 1000000 "a\n")).state.disk.node?
      ["h".toList, ".config".toList, "seqan".toList, "dummy.txt".toList] = none := by
  decide +kernel

end Sharg
