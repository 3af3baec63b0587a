import Verif.Model.VersionCheck
import Verif.Spec.Version
import Verif.Lemmas.System
import Verif.Lemmas.Values
import Verif.Lemmas.Html
import Verif.Lemmas.TimeStamp

/-!
# Lemmas about the version check
-/

namespace Sharg

open Spec

/-! ### Where the files are -/

/-- The text of the path `~/.config`. -/
def configText (h : Str) : Str := pathJoin h ".config".toList

/-- The text of the path `~/.config/seqan`. -/
def seqanText (h : Str) : Str := pathJoin (configText h) "seqan".toList

theorem locOf_config (cwd : Loc) (h : Str) : locOf cwd (configText h) = locOf cwd h ++ [".config".toList] :=
  locOf_join _ _ _ (by decide) (by decide)

theorem locOf_seqan (cwd : Loc) (h : Str) : locOf cwd (seqanText h) = seqanDir cwd h := by
  unfold seqanText
  rw [locOf_join _ _ _ (by decide) (by decide), locOf_config]
  simp [seqanDir]

theorem locOf_dummy (cwd : Loc) (d : Str) : locOf cwd (pathJoin d dummyName) = dummyIn (locOf cwd d) :=
  locOf_join _ _ _ (by decide) (by decide)

theorem seqanText_ne (h : Str) : seqanText h ≠ [] := by
  unfold seqanText pathJoin
  split <;> simp

/-! ### `get_path` -/

/-- The end of `get_path`: the test file in the chosen directory. -/
def tryDir (nd : Bool) (cwd : Loc) (d : Str) : SysM Str :=
  M.bind (onDisk (fsOpenForWriting (locOf cwd (pathJoin d dummyName)))) fun opened =>
  M.bind (onDisk (withGuard nd (locOf cwd (pathJoin d dummyName)) (fsRemoveNoThrow (locOf cwd (pathJoin d dummyName)))))
    fun _ => M.pure (if opened then d else [])

theorem tryDir_frame (nd : Bool) (d : Str) (s : System) :
    (tryDir nd s.cwd d s).state = { s with disk := (tryDir nd s.cwd d s).state.disk } ∧
    ∀ q, ¬ dummyIn (locOf s.cwd d) <+: q → (tryDir nd s.cwd d s).state.disk.node? q = s.disk.node? q := by
  obtain ⟨b, fs', h1, h2, -⟩ := openForWriting_frame (locOf s.cwd (pathJoin d dummyName)) s.disk
  have h3 := guardedRemove_frame nd (locOf s.cwd (pathJoin d dummyName)) fs'
  have e : tryDir nd s.cwd d s = M.bind (onDisk (withGuard nd (locOf s.cwd (pathJoin d dummyName))
      (fsRemoveNoThrow (locOf s.cwd (pathJoin d dummyName))))) (fun _ => M.pure (if b then d else [])) { s with disk := fs' } :=
    bind_of_ok (onDisk_ok h1)
  rw [e, ← locOf_dummy]
  unfold M.bind
  rw [onDisk_run]
  dsimp only
  cases hg : withGuard nd (locOf s.cwd (pathJoin d dummyName)) (fsRemoveNoThrow (locOf s.cwd (pathJoin d dummyName))) fs' with
  | ok u fs₂ =>
    rw [hg] at h3
    exact ⟨rfl, fun q hq => (h3 q hq).trans (h2 q fun e => hq (e ▸ List.prefix_refl _))⟩
  | err x fs₂ =>
    rw [hg] at h3
    exact ⟨rfl, fun q hq => (h3 q hq).trans (h2 q fun e => hq (e ▸ List.prefix_refl _))⟩

/-- The tested directory, if the test succeeds, can be searched. -/
theorem openForWriting_parent (q : Loc) (c : Str) (fs fs' : Disk) (h : fsOpenForWriting (q ++ [c]) fs = .ok true fs') :
    ∃ r w, Reaches fs q (.dir r w true) := by
  unfold fsOpenForWriting at h
  rcases lookup_cases fs (q ++ [c]) with ⟨n, h1, hl⟩ | ⟨hl, _⟩ | ⟨hl, _, _⟩
  · obtain ⟨r, w, h2⟩ := h1.2 q c [] rfl
    refine ⟨r, w, h2, fun q' c' t ht => ?_⟩
    exact h1.2 q' c' (t ++ [c]) (by rw [ht]; simp)
  · rw [hl] at h
    dsimp only at h
    split at h
    · rename_i hp
      obtain ⟨q', c', r, he, hr⟩ := (parentWritable_iff _ _).1 hp
      have := List.append_inj' he (by simp)
      rw [this.1]
      exact ⟨r, true, hr⟩
    · cases h
  · rw [hl] at h
    cases h

theorem tryDir_ok (nd : Bool) (d p : Str) (s s' : System) (h : tryDir nd s.cwd d s = .ok p s') :
    p = [] ∨ (p = d ∧ ∃ r w, Reaches s'.disk (locOf s.cwd d) (.dir r w true)) := by
  obtain ⟨b, fs', h1, h2, -⟩ := openForWriting_frame (locOf s.cwd (pathJoin d dummyName)) s.disk
  have fr := (tryDir_frame nd d s).2
  rw [h] at fr
  unfold tryDir at h
  rw [M.bind_eq_ok] at h
  obtain ⟨b', s₁, h3, h⟩ := h
  rw [onDisk_ok h1] at h3
  cases h3
  rw [M.bind_eq_ok] at h
  obtain ⟨_, s₂, h4, h⟩ := h
  cases h
  cases b with
  | false => exact Or.inl rfl
  | true =>
    refine Or.inr ⟨rfl, ?_⟩
    rw [locOf_dummy] at h1
    obtain ⟨r, w, hr⟩ := openForWriting_parent _ _ _ _ h1
    refine ⟨r, w, reaches_congr (fun q hq => ?_) hr⟩
    refine (fr q fun hp => ?_).symm
    have h5 := hq.length_le
    have h6 := hp.length_le
    simp only [dummyIn, List.length_append, List.length_singleton] at h6
    omega

theorem option_cases {α : Type} (o : Option α) : o = none ∨ ∃ a, o = some a := by
  cases o <;> simp

theorem look_run {α : Type} (f : System → α) (s : System) : look f s = .ok (f s) s := rfl

/-- `get_path` in three steps. -/
theorem getPath_steps (nd : Bool) (s : System) (h : Str) (hh : s.home = some h) :
    ∃ (ok₁ : Bool) (d₁ : Disk) (ok₂ : Bool) (d₂ : Disk),
      fsCreateDirectory (locOf s.cwd (configText h)) s.disk = .ok ok₁ d₁ ∧
      ((ok₁ = true ∧ fsCreateDirectory (locOf s.cwd (seqanText h)) d₁ = .ok ok₂ d₂) ∨ (ok₁ = false ∧ ok₂ = false ∧ d₂ = d₁)) ∧
      getPath nd s = (match if ok₂ then some (seqanText h) else s.tempDir with
        | none => .err .filesystemError { s with disk := d₂ }
        | some d => tryDir nd s.cwd d { s with disk := d₂ }) := by
  have e₁ : ∃ ok₁ d₁, fsCreateDirectory (locOf s.cwd (configText h)) s.disk = .ok ok₁ d₁ := by
    rcases createDirectory_cases (locOf s.cwd (configText h)) s.disk with ⟨b, hb, -⟩ | ⟨hb, -, -⟩
    · exact ⟨_, _, hb⟩
    · exact ⟨_, _, hb⟩
  obtain ⟨ok₁, d₁, h1⟩ := e₁
  have e₂ : ∃ ok₂ d₂, fsCreateDirectory (locOf s.cwd (seqanText h)) d₁ = .ok ok₂ d₂ := by
    rcases createDirectory_cases (locOf s.cwd (seqanText h)) d₁ with ⟨b, hb, -⟩ | ⟨hb, -, -⟩
    · exact ⟨_, _, hb⟩
    · exact ⟨_, _, hb⟩
  obtain ⟨ok₂, d₂, h2⟩ := e₂
  have hl : look (·.home) s = .ok (some h) s := by rw [look, hh]
  unfold getPath
  cases ok₁ with
  | true =>
    refine ⟨true, d₁, ok₂, d₂, h1, Or.inl ⟨rfl, h2⟩, ?_⟩
    refine (bind_of_ok hl).trans ?_
    dsimp only
    refine (bind_of_ok (look_run _ _)).trans ?_
    refine (bind_of_ok (onDisk_ok h1)).trans ?_
    simp only [if_true]
    refine (bind_of_ok (onDisk_ok (s := { s with disk := d₁ }) h2)).trans ?_
    cases ok₂ with
    | true =>
      simp only [if_true]
      refine (bind_of_ok (M.pure_run _ _)).trans ?_
      rfl
    | false =>
      simp only [Bool.false_eq_true, if_false]
      refine (bind_of_ok (look_run _ _)).trans ?_
      cases s.tempDir <;> rfl
  | false =>
    refine ⟨false, d₁, false, d₁, h1, Or.inr ⟨rfl, rfl, rfl⟩, ?_⟩
    refine (bind_of_ok hl).trans ?_
    dsimp only
    refine (bind_of_ok (look_run _ _)).trans ?_
    refine (bind_of_ok (onDisk_ok h1)).trans ?_
    simp only [Bool.false_eq_true, if_false]
    refine (bind_of_ok (M.pure_run _ _)).trans ?_
    simp only [Bool.false_eq_true, if_false]
    refine (bind_of_ok (look_run _ _)).trans ?_
    cases s.tempDir <;> rfl

theorem getPath_no_home (nd : Bool) (s : System) (hh : s.home = none) : getPath nd s = .err .undefinedBehaviour s := by
  have hl : look (·.home) s = .ok none s := by rw [look, hh]
  exact (bind_of_ok hl).trans rfl

theorem createDirectory_frame {p : Loc} {fs fs' : Disk} {b : Bool} (h : fsCreateDirectory p fs = .ok b fs') (q : Loc) :
    fs'.node? q = fs.node? q ∨ (fs.node? q = none ∧ fs'.node? q = some (.dir true true true) ∧ q = p) := by
  rcases createDirectory_cases p fs with ⟨b', hb, -⟩ | ⟨hb, hc, hm⟩
  · rw [hb] at h; cases h; exact Or.inl rfl
  · rw [hb] at h
    cases h
    by_cases hq : p = q
    · subst hq
      exact Or.inr ⟨node_none hm hc, by rw [node?_cons, if_pos rfl], rfl⟩
    · exact Or.inl (by rw [node?_cons, if_neg hq])

/-- All that `get_path` changes. -/
theorem getPath_frame (nd : Bool) (s : System) :
    (getPath nd s).state = { s with disk := (getPath nd s).state.disk } ∧
    ∀ q, (∃ f ∈ testFiles s, f <+: q) ∨ (getPath nd s).state.disk.node? q = s.disk.node? q ∨
      (s.disk.node? q = none ∧ (getPath nd s).state.disk.node? q = some (.dir true true true) ∧ q ∈ cookieDirs s) := by
  obtain hh | ⟨h, hh⟩ := option_cases s.home
  · rw [getPath_no_home nd s hh]; exact ⟨rfl, fun q => Or.inr (Or.inl rfl)⟩
  · obtain ⟨ok₁, d₁, ok₂, d₂, h1, h2, h3⟩ := getPath_steps nd s h hh
    have hd : ∀ q, d₂.node? q = s.disk.node? q ∨
        (s.disk.node? q = none ∧ d₂.node? q = some (.dir true true true) ∧ q ∈ cookieDirs s) := by
      intro q
      have c1 := createDirectory_frame h1 q
      have m1 : locOf s.cwd (configText h) ∈ cookieDirs s := by simp [cookieDirs, hh, locOf_config]
      have m2 : locOf s.cwd (seqanText h) ∈ cookieDirs s := by simp [cookieDirs, hh, locOf_seqan]
      rcases h2 with ⟨-, h2⟩ | ⟨-, -, rfl⟩
      · have c2 := createDirectory_frame h2 q
        rcases c2 with c2 | ⟨c2, c3, rfl⟩
        · rcases c1 with c1 | ⟨c1, c4, rfl⟩
          · exact Or.inl (c2.trans c1)
          · exact Or.inr ⟨c1, c2.trans c4, m1⟩
        · rcases c1 with c1 | ⟨c1, c4, e⟩
          · exact Or.inr ⟨c1 ▸ c2, c3, m2⟩
          · rw [c4] at c2; cases c2
      · rcases c1 with c1 | ⟨c1, c4, rfl⟩
        · exact Or.inl c1
        · exact Or.inr ⟨c1, c4, m1⟩
    rw [h3]
    cases hdir : (if ok₂ then some (seqanText h) else s.tempDir) with
    | none => exact ⟨rfl, fun q => Or.inr (hd q)⟩
    | some d =>
      have fr := tryDir_frame nd d { s with disk := d₂ }
      dsimp only at fr ⊢
      refine ⟨by rw [fr.1], fun q => ?_⟩
      by_cases hq : dummyIn (locOf s.cwd d) <+: q
      · left
        refine ⟨_, ?_, hq⟩
        cases ok₂ with
        | true => cases hdir; simp [testFiles, hh, locOf_seqan]
        | false =>
          have hdir : s.tempDir = some d := by simpa using hdir
          simp [testFiles, hh, hdir]
      · right
        have := fr.2 q hq
        rw [this]
        exact hd q

/-- The result of `get_path` is empty or leads to a directory. -/
theorem getPath_ok (nd : Bool) (s s' : System) (p : Str) (h : getPath nd s = .ok p s') :
    p = [] ∨ ∃ r w, Reaches s'.disk (locOf s'.cwd p) (.dir r w true) := by
  have hc : s'.cwd = s.cwd := by
    have := congrArg System.cwd (getPath_frame nd s).1
    rw [h] at this
    exact this
  cases hh : s.home with
  | none => rw [getPath_no_home nd s hh] at h; cases h
  | some h' =>
    obtain ⟨ok₁, d₁, ok₂, d₂, -, -, h3⟩ := getPath_steps nd s h' hh
    rw [h3] at h
    cases hdir : (if ok₂ then some (seqanText h') else s.tempDir) with
    | none => rw [hdir] at h; cases h
    | some d =>
      rw [hdir] at h
      rcases tryDir_ok nd d p { s with disk := d₂ } s' h with h4 | ⟨rfl, h4⟩
      · exact Or.inl h4
      · rw [hc]; exact Or.inr h4

/-- In a usable directory only the test file comes and goes. -/
theorem getPath_usable (nd : Bool) (s : System) (h : Str) (hu : Usable s h) :
    ∃ d, getPath nd s = .ok (seqanText h) { s with disk := d } ∧ d.node? (dummyIn (seqanDir s.cwd h)) = none ∧
      ∀ q, q ≠ dummyIn (seqanDir s.cwd h) → d.node? q = s.disk.node? q := by
  obtain ⟨r, hr⟩ := hu.seqan
  have hcfg : ∃ r w, Reaches s.disk (locOf s.cwd (configText h)) (.dir r w true) := by
    rw [locOf_config]
    obtain ⟨r', w', h1⟩ := hr.2 (locOf s.cwd h ++ [".config".toList]) "seqan".toList [] (by simp [seqanDir])
    refine ⟨r', w', h1, fun q c t ht => ?_⟩
    exact hr.2 q c (t ++ ["seqan".toList]) (by
      rw [show seqanDir s.cwd h = (locOf s.cwd h ++ [".config".toList]) ++ ["seqan".toList] by simp [seqanDir], ht]; simp)
  obtain ⟨r', w', hcfg⟩ := hcfg
  have c1 : fsCreateDirectory (locOf s.cwd (configText h)) s.disk = .ok true s.disk := by
    unfold fsCreateDirectory; rw [(lookup_found_iff _ _ _).2 hcfg]
  have c2 : fsCreateDirectory (locOf s.cwd (seqanText h)) s.disk = .ok true s.disk := by
    unfold fsCreateDirectory; rw [locOf_seqan, (lookup_found_iff _ _ _).2 hr]
  obtain ⟨ok₁, d₁, ok₂, d₂, h1, h2, h3⟩ := getPath_steps nd s h hu.home
  rw [c1] at h1; cases h1
  rcases h2 with ⟨-, h2⟩ | ⟨h2, -⟩
  · rw [c2] at h2; cases h2
    have h3 : getPath nd s = tryDir nd s.cwd (seqanText h) s := h3
    have hcc : CanCreate s.disk (dummyIn (seqanDir s.cwd h)) := ⟨_, _, r, rfl, hr⟩
    -- the test file can be opened
    have ho : ∃ d c r, fsOpenForWriting (dummyIn (seqanDir s.cwd h)) s.disk = .ok true d ∧
        (∀ q, q ≠ dummyIn (seqanDir s.cwd h) → d.node? q = s.disk.node? q) ∧
        d.node? (dummyIn (seqanDir s.cwd h)) = some (.file c r true) := by
      cases hn : s.disk.node? (dummyIn (seqanDir s.cwd h)) with
      | none =>
        refine ⟨(dummyIn (seqanDir s.cwd h), .file [] true true) :: s.disk, [], true, ?_, fun q hq => by rw [node?_cons, if_neg (Ne.symm hq)], by rw [node?_cons, if_pos rfl]⟩
        simp [fsOpenForWriting, lookup_missing_of hn hcc, (parentWritable_iff _ _).2 hcc]
      | some n =>
        obtain ⟨c, r₁, rfl⟩ := hu.dummy n hn
        have hre : Reaches s.disk (dummyIn (seqanDir s.cwd h)) (.file c r₁ true) := by
          refine ⟨hn, fun q c t ht => ?_⟩
          rcases List.eq_nil_or_concat t with rfl | ⟨t', z, rfl⟩
          · have := List.append_inj' ht (by simp)
            rw [← this.1]; exact ⟨r, true, hr.1⟩
          · have ht : seqanDir s.cwd h ++ ["dummy.txt".toList] = (q ++ c :: t') ++ [z] := by rw [show q ++ c :: t' ++ [z] = q ++ c :: (t'.concat z) by simp]; exact ht
            have := List.append_inj' ht (by simp)
            exact hr.2 q c t' this.1
        refine ⟨s.disk.replace (dummyIn (seqanDir s.cwd h)) (.file [] r₁ true), [], r₁, ?_, fun q hq => by rw [node?_replace, if_neg (Ne.symm hq)], by rw [node?_replace, if_pos rfl, hn]; rfl⟩
        simp [fsOpenForWriting, (lookup_found_iff _ _ _).2 hre]
    obtain ⟨d, c, r₁, ho, hd, hdn⟩ := ho
    have hcc' : CanCreate d (dummyIn (seqanDir s.cwd h)) := canCreate_congr (fun q _ hq => (hd q hq).symm) hcc
    have hre : Reaches d (dummyIn (seqanDir s.cwd h)) (.file c r₁ true) := by
      obtain ⟨q', c', r', e', hr'⟩ := hcc'
      have e'' := List.append_inj' (show seqanDir s.cwd h ++ ["dummy.txt".toList] = q' ++ [c'] from e') (by simp)
      refine ⟨hdn, fun q c t ht => ?_⟩
      rcases List.eq_nil_or_concat t with rfl | ⟨t', z, rfl⟩
      · have := List.append_inj' (e'.symm.trans ht) (by simp)
        rw [← this.1]; exact ⟨r', true, hr'.1⟩
      · have ht : q' ++ [c'] = (q ++ c :: t') ++ [z] := by
          rw [← e', ht]; simp
        have := List.append_inj' ht (by simp)
        exact hr'.2 q c t' this.1
    have hrm : fsRemoveNoThrow (dummyIn (seqanDir s.cwd h)) d = .ok () (d.filter fun e => decide (e.1 ≠ dummyIn (seqanDir s.cwd h))) := by
      simp [fsRemoveNoThrow, fsRemove, (lookup_found_iff _ _ _).2 hre, (parentWritable_iff _ _).2 hcc']
    have hms : Disk.lookup (d.filter fun e => decide (e.1 ≠ dummyIn (seqanDir s.cwd h))) (dummyIn (seqanDir s.cwd h)) = .missing :=
      lookup_after_remove (fun l => decide (l ≠ dummyIn (seqanDir s.cwd h))) (fun q _ => by simp) hcc'
    have hg : withGuard nd (dummyIn (seqanDir s.cwd h)) (fsRemoveNoThrow (dummyIn (seqanDir s.cwd h))) d =
        .ok () (d.filter fun e => decide (e.1 ≠ dummyIn (seqanDir s.cwd h))) := by
      unfold withGuard
      rw [hrm]
      simp only [fsRemoveAll, hms]
    refine ⟨d.filter fun e => decide (e.1 ≠ dummyIn (seqanDir s.cwd h)), ?_, ?_, ?_⟩
    · rw [h3]
      unfold tryDir
      rw [locOf_dummy, locOf_seqan]
      refine (bind_of_ok (onDisk_ok ho)).trans ?_
      refine (bind_of_ok (onDisk_ok (s := { s with disk := d }) hg)).trans ?_
      rfl
    · have := node?_filter d (fun l => decide (l ≠ dummyIn (seqanDir s.cwd h))) (dummyIn (seqanDir s.cwd h))
      rw [this]; simp
    · intro q hq
      have := node?_filter d (fun l => decide (l ≠ dummyIn (seqanDir s.cwd h))) q
      rw [this]; simp [hq, hd q hq]
  · cases h2

/-! ### Lines -/

theorem takeWhile_line (s : Str) (h : '\n' ∉ s) : s.takeWhile (fun c => decide (c ≠ '\n')) = s := by
  have := List.takeWhile_append_of_pos (p := fun c => decide (c ≠ '\n')) (l₁ := s) (l₂ := [])
    (fun c hc => by simpa using fun e : c = '\n' => h (e ▸ hc))
  simpa using this

theorem firstLine_iff (t l : Str) : FirstLine t l ↔ l = firstLine t := by
  unfold FirstLine firstLine
  constructor
  · rintro ⟨h, rfl | ⟨more, rfl⟩⟩
    · exact (takeWhile_line _ h).symm
    · rw [List.takeWhile_append_of_pos (fun c hc => by simpa using fun e : c = '\n' => h (e ▸ hc))]
      simp
  · rintro rfl
    refine ⟨fun h => by
      have := List.all_eq_true.1 (List.all_takeWhile (p := fun c => decide (c ≠ '\n')) (l := t)) _ h
      simp at this, ?_⟩
    cases hd : t.dropWhile (fun c => decide (c ≠ '\n')) with
    | nil => left; exact (List.append_nil _).symm.trans (hd ▸ List.takeWhile_append_dropWhile) |>.symm
    | cons c more =>
      right
      have hc : c = '\n' := by
        have := List.head_dropWhile_not (fun c => decide (c ≠ '\n')) (l := t) (by rw [hd]; simp)
        simp only [hd, List.head_cons] at this
        simpa using this
      subst hc
      exact ⟨more, by rw [← hd]; exact List.takeWhile_append_dropWhile.symm⟩

theorem lastRead_iff (t l : Str) : LastRead t l ↔ l = secondLine t := by
  unfold LastRead secondLine
  by_cases hn : '\n' ∈ t
  · rw [if_pos hn]
    have hf := (firstLine_iff t (firstLine t)).2 rfl
    obtain ⟨h1, h2 | ⟨more, h2⟩⟩ := hf
    · exact absurd (h2 ▸ hn) h1
    · have e : (t.dropWhile (fun c => decide (c ≠ '\n'))).tail = more := by
        conv => lhs; rw [h2]
        rw [List.dropWhile_append_of_pos (fun c hc => by simpa using fun e : c = '\n' => h1 (e ▸ hc))]
        simp
      rw [e]
      constructor
      · rintro (⟨h, -⟩ | ⟨f, m, h3, h4, h5⟩)
        · exact absurd hn h
        · have : f = firstLine t := (firstLine_iff t f).1 ⟨h3, Or.inr ⟨m, h4⟩⟩
          rw [this] at h4
          have h6 := List.append_cancel_left (h4.symm.trans h2)
          cases h6
          exact (firstLine_iff _ _).1 h5
      · intro h
        exact Or.inr ⟨_, more, h1, h2, (firstLine_iff _ _).2 h⟩
  · rw [if_neg hn]
    have : firstLine t = t := takeWhile_line t hn
    rw [this]
    constructor
    · rintro (⟨-, h⟩ | ⟨f, m, h3, h4, h5⟩)
      · exact h
      · exact absurd (by rw [h4]; simp) hn
    · intro h; exact Or.inl ⟨hn, h⟩

theorem cookieSays (now : Nat) (t : Str) : CookieSays now t ⟨youngerThanDay (firstLine t) now, secondLine t⟩ := by
  refine ⟨(lastRead_iff _ _).2 rfl, fun line hl hn => ?_⟩
  rw [(firstLine_iff _ _).1 hl]
  exact youngerThanDay_iff _ now hn

/-! ### The decision -/

theorem fsRead_cases (p : Loc) (fs : Disk) :
    (∃ t w, Reaches fs p (.file t true w) ∧ fsRead p fs = .ok (some t) fs) ∨
    ((∀ t w, ¬ Reaches fs p (.file t true w)) ∧ fsRead p fs = .ok none fs) := by
  unfold fsRead
  rcases lookup_cases fs p with ⟨n, h1, hl⟩ | ⟨hl, h1⟩ | ⟨hl, _, h1⟩
  · cases n with
    | file t r w =>
      cases r with
      | true => exact Or.inl ⟨t, w, h1, by simp [hl]⟩
      | false => exact Or.inr ⟨fun t' w' h2 => (by cases reaches_unique h1 h2), by simp [hl]⟩
    | dir r w x => exact Or.inr ⟨fun t' w' h2 => (by cases reaches_unique h1 h2), by simp [hl]⟩
    | special r w => exact Or.inr ⟨fun t' w' h2 => (by cases reaches_unique h1 h2), by simp [hl]⟩
  · exact Or.inr ⟨fun t' w' h2 => h1 _ h2, by simp [hl]⟩
  · exact Or.inr ⟨fun t' w' h2 => h1 _ h2, by simp [hl]⟩

/-- The checker is ready: if it has a directory, the directory is there. -/
def Prepared (ck : Checker) (s : System) : Prop :=
  ck.cookiePath = [] ∨ ∃ n, Reaches s.disk (locOf s.cwd ck.cookiePath) n

theorem pathExists_ready {ck : Checker} {s : System} (h : Prepared ck s) :
    pathExists ck.cookiePath s = .ok (decide (ck.cookiePath ≠ [])) s := by
  unfold pathExists
  by_cases hp : ck.cookiePath = []
  · rw [if_pos hp, hp]; rfl
  · rw [if_neg hp]
    rcases h with h | ⟨n, h⟩
    · exact absurd h hp
    · rw [onDisk_run]
      simp [fsExists, (lookup_found_iff _ _ _).2 h, hp]

/-- What the cookie decides: either it does, in agreement with what can be seen of it, or it leaves the decision open. -/
theorem cookieDecision_spec (ck : Checker) (s : System) (h : Prepared ck s) :
    ∃ o k, cookieDecision ck s = .ok o s ∧ CookieSeen s ck.cookiePath ck.timestampFile k ∧
      (∀ b, o = some b → ∀ a, Decides true false none k a b) ∧ (o = none → Open true false none k) := by
  unfold cookieDecision
  by_cases hp : ck.cookiePath = []
  · refine ⟨none, none, ?_, .none (Or.inl hp), fun _ h => (by cases h), fun _ => ⟨rfl, rfl, rfl, fun k hk => by cases hk⟩⟩
    refine (bind_of_ok (pathExists_ready h)).trans ?_
    simp [hp]
  · have e : ∀ o, (M.bind (fun s => onDisk (fsRead (locOf s.cwd ck.timestampFile)) s) fun content =>
        match content with
        | none => M.pure none
        | some t =>
          M.bind (look (·.clock)) fun now =>
          if youngerThanDay (firstLine t) now then M.pure (some false)
          else if secondLine t = "NEVER".toList then M.pure (some false)
          else if secondLine t = "ALWAYS".toList then M.pure (some true)
          else M.pure none) s = .ok o s →
        (M.bind (pathExists ck.cookiePath) fun there =>
          if there then
            M.bind (fun s => onDisk (fsRead (locOf s.cwd ck.timestampFile)) s) fun content =>
            match content with
            | none => M.pure none
            | some t =>
              M.bind (look (·.clock)) fun now =>
              if youngerThanDay (firstLine t) now then M.pure (some false)
              else if secondLine t = "NEVER".toList then M.pure (some false)
              else if secondLine t = "ALWAYS".toList then M.pure (some true)
              else M.pure none
          else M.pure none) s = .ok o s := by
      intro o ho
      refine (bind_of_ok (pathExists_ready h)).trans ?_
      simpa only [decide_eq_true hp, if_true] using ho
    rcases fsRead_cases (locOf s.cwd ck.timestampFile) s.disk with ⟨t, w, h1, h2⟩ | ⟨h1, h2⟩
    · have hseen := CookieSeen.some (s := s) (dir := ck.cookiePath) (file := ck.timestampFile) hp h1
        (cookieSays s.clock t)
      have step : ∀ o, (if youngerThanDay (firstLine t) s.clock then M.pure (some false)
          else if secondLine t = "NEVER".toList then M.pure (some false)
          else if secondLine t = "ALWAYS".toList then M.pure (some true)
          else (M.pure none : SysM (Option Bool))) s = .ok o s →
          (M.bind (fun s => onDisk (fsRead (locOf s.cwd ck.timestampFile)) s) fun content =>
            match content with
            | none => M.pure none
            | some t =>
              M.bind (look (·.clock)) fun now =>
              if youngerThanDay (firstLine t) now then M.pure (some false)
              else if secondLine t = "NEVER".toList then M.pure (some false)
              else if secondLine t = "ALWAYS".toList then M.pure (some true)
              else M.pure none) s = .ok o s := by
        intro o ho
        refine (bind_of_ok (onDisk_ok h2)).trans ?_
        dsimp only
        refine (bind_of_ok (look_run _ _)).trans ?_
        exact ho
      by_cases hy : youngerThanDay (firstLine t) s.clock = true
      · refine ⟨some false, _, e _ (step _ (by rw [if_pos hy]; rfl)), hseen, ?_, fun h => by cases h⟩
        rintro b ⟨⟩ a
        rw [hy]; exact .young
      · have hy' : youngerThanDay (firstLine t) s.clock = false := by simpa using hy
        rw [hy'] at hseen
        by_cases hn : secondLine t = "NEVER".toList
        · refine ⟨some false, _, e _ (step _ (by rw [if_neg hy, if_pos hn]; rfl)), hseen, ?_, fun h => by cases h⟩
          rintro b ⟨⟩ a
          rw [hn]; exact .never
        · by_cases ha : secondLine t = "ALWAYS".toList
          · refine ⟨some true, _, e _ (step _ (by rw [if_neg hy, if_neg hn, if_pos ha]; rfl)), hseen, ?_, fun h => by cases h⟩
            rintro b ⟨⟩ a
            rw [ha]; exact .always
          · refine ⟨none, _, e _ (step _ (by rw [if_neg hy, if_neg hn, if_neg ha]; rfl)), hseen, fun _ h => (by cases h), fun _ => ?_⟩
            refine ⟨rfl, rfl, rfl, ?_⟩
            rintro k ⟨⟩
            exact ⟨rfl, hn, ha⟩
    · refine ⟨none, none, e _ ?_, .none (Or.inr h1), fun _ h => (by cases h), fun _ => ⟨rfl, rfl, rfl, fun k hk => by cases hk⟩⟩
      exact (bind_of_ok (onDisk_ok h2)).trans rfl

/-- A cookie that is written changes only its file. -/
theorem writeCookie_run (ck : Checker) (m : Str) (s : System) :
    ∃ d, writeCookie ck m s = .ok () { s with disk := d } ∧ ∀ q, q ≠ locOf s.cwd ck.timestampFile → d.node? q = s.disk.node? q := by
  obtain ⟨d, h1, h2⟩ := fsWrite_frame (locOf s.cwd ck.timestampFile) (showNat s.clock ++ '\n' :: m) s.disk
  exact ⟨d, onDisk_ok h1, h2⟩

theorem headD_answer (s : System) (h : s.stdinTty = true ∧ s.stderrTty = true) :
    answer s = some ((firstLine s.stdin).headD 's') := by
  unfold answer
  rw [if_pos h]
  cases s.stdin with
  | nil => rfl
  | cons c t =>
    by_cases hc : c = '\n'
    · simp [firstLine, hc]
    · simp [firstLine, hc]

/-- What can be different after the user was asked, or could not be asked: the cookie; and if the question was asked, it was
printed, a line was read and time has passed. -/
structure AfterAsking (ck : Checker) (s s' : System) : Prop where
  disk : ∀ q, q ≠ locOf s.cwd ck.timestampFile → s'.disk.node? q = s.disk.node? q
  rest : s' = { s with
    disk := s'.disk
    stderr := if (answer s).isSome then s.stderr ++ question else s.stderr
    stdin := if (answer s).isSome then (s.stdin.dropWhile (fun c => c ≠ '\n')).tail else s.stdin
    clock := if (answer s).isSome then s.clock + s.delay else s.clock }

theorem answer_none (s : System) (h : ¬ (s.stdinTty = true ∧ s.stderrTty = true)) : answer s = none := by
  unfold answer; rw [if_neg h]

/-- The system after the answer has been read. -/
def afterAnswer (s : System) : System :=
  { s with
    stderr := s.stderr ++ question
    stdin := (s.stdin.dropWhile (fun c => c ≠ '\n')).tail
    clock := s.clock + s.delay }

theorem readAnswer_run (s : System) : readAnswer s = .ok ((firstLine s.stdin).headD 's')
    { s with stdin := (s.stdin.dropWhile (fun c => c ≠ '\n')).tail, clock := s.clock + s.delay } := rfl

theorem askUser_spec (ck : Checker) (s : System) :
    ∃ r s', askUser ck s = .ok r s' ∧ AfterAsking ck s s' ∧
      (match answer s with
        | none => r = false ∧ s' = s
        | some a => (r = true ↔ a = 'y' ∨ a = 'a') ∧
          ((a = 'a' ∧ writeCookie ck "ALWAYS".toList (afterAnswer s) = .ok () s') ∨
           (a = 'n' ∧ writeCookie ck "NEVER".toList (afterAnswer s) = .ok () s') ∨
           (a ≠ 'a' ∧ a ≠ 'n' ∧ s' = afterAnswer s))) := by
  unfold askUser
  by_cases ht : s.stdinTty = true ∧ s.stderrTty = true
  · have ha := headD_answer s ht
    rw [ha]
    have hb : (s.stdinTty && s.stderrTty) = true := by simp [ht]
    have key : ∀ (r : Bool) (s' : System),
        ((if (firstLine s.stdin).headD 's' = 'y' then M.pure true
          else if (firstLine s.stdin).headD 's' = 'a' then M.bind (writeCookie ck "ALWAYS".toList) fun _ => M.pure true
          else if (firstLine s.stdin).headD 's' = 'n' then M.bind (writeCookie ck "NEVER".toList) fun _ => M.pure false
          else (M.pure false : SysM Bool)) (afterAnswer s) = .ok r s') →
        (M.bind (look fun s => s.stdinTty && s.stderrTty) fun interactive =>
          if interactive then
            M.bind (sayErr question) fun _ =>
            M.bind readAnswer fun c =>
            if c = 'y' then M.pure true
            else if c = 'a' then M.bind (writeCookie ck "ALWAYS".toList) fun _ => M.pure true
            else if c = 'n' then M.bind (writeCookie ck "NEVER".toList) fun _ => M.pure false
            else M.pure false
          else M.pure false) s = .ok r s' := by
      intro r s' h
      refine (bind_of_ok (look_run _ _)).trans ?_
      rw [hb]
      simp only [if_true]
      refine (bind_of_ok (modify_run _ _)).trans ?_
      refine (bind_of_ok (readAnswer_run _)).trans ?_
      exact h
    generalize (firstLine s.stdin).headD 's' = c at ha key ⊢
    have hw : ∀ m, ∃ d, writeCookie ck m (afterAnswer s) = .ok () { afterAnswer s with disk := d } ∧
        ∀ q, q ≠ locOf s.cwd ck.timestampFile → d.node? q = s.disk.node? q := fun m => writeCookie_run ck m (afterAnswer s)
    have frame0 : AfterAsking ck s (afterAnswer s) := ⟨fun q _ => rfl, by rw [ha]; rfl⟩
    have frame1 : ∀ d : Disk, (∀ q, q ≠ locOf s.cwd ck.timestampFile → d.node? q = s.disk.node? q) →
        AfterAsking ck s { afterAnswer s with disk := d } := fun d hd => ⟨hd, by rw [ha]; rfl⟩
    by_cases hy : c = 'y'
    · refine ⟨true, _, key _ _ (by rw [if_pos hy]; rfl), frame0, ⟨by simp [hy], ?_⟩⟩
      exact Or.inr (Or.inr ⟨by rw [hy]; decide, by rw [hy]; decide, rfl⟩)
    · by_cases hA : c = 'a'
      · obtain ⟨d, h1, h2⟩ := hw "ALWAYS".toList
        refine ⟨true, _, key _ _ (by rw [if_neg hy, if_pos hA]; exact (bind_of_ok h1).trans rfl), frame1 d h2, ⟨by simp [hA], ?_⟩⟩
        exact Or.inl ⟨hA, h1⟩
      · by_cases hN : c = 'n'
        · obtain ⟨d, h1, h2⟩ := hw "NEVER".toList
          refine ⟨false, _, key _ _ (by rw [if_neg hy, if_neg hA, if_pos hN]; exact (bind_of_ok h1).trans rfl), frame1 d h2, ⟨by simp [hy, hA], ?_⟩⟩
          exact Or.inr (Or.inl ⟨hN, h1⟩)
        · refine ⟨false, _, key _ _ (by rw [if_neg hy, if_neg hA, if_neg hN]; rfl), frame0, ⟨by simp [hy, hA], ?_⟩⟩
          exact Or.inr (Or.inr ⟨hA, hN, rfl⟩)
  · have hb : (s.stdinTty && s.stderrTty) = false := by
      cases h1 : s.stdinTty <;> cases h2 : s.stderrTty <;> simp_all
    have ha := answer_none s ht
    refine ⟨false, s, ?_, ⟨fun q _ => rfl, by rw [ha]; rfl⟩, by rw [ha]; exact ⟨rfl, rfl⟩⟩
    refine (bind_of_ok (look_run _ _)).trans ?_
    rw [hb]
    rfl

/-! ### Names -/

theorem nameChar_cases (c : Char) (h : isNameChar c = true) :
    ('a' ≤ c ∧ c ≤ 'z') ∨ ('A' ≤ c ∧ c ≤ 'Z') ∨ ('0' ≤ c ∧ c ≤ '9') ∨ c = '_' ∨ c = '-' := by
  unfold isNameChar at h
  simp only [Bool.or_eq_true, decide_eq_true_eq, beq_iff_eq] at h
  have e : ∀ a b : Char, a.toNat ≤ b.toNat → a ≤ b := fun a b h => h
  rcases h with (((h | h) | h) | h) | h
  · exact Or.inl ⟨e _ _ h.1, e _ _ h.2⟩
  · exact Or.inr (Or.inl ⟨e _ _ h.1, e _ _ h.2⟩)
  · exact Or.inr (Or.inr (Or.inl ⟨e _ _ h.1, e _ _ h.2⟩))
  · exact Or.inr (Or.inr (Or.inr (Or.inl h)))
  · exact Or.inr (Or.inr (Or.inr (Or.inr h)))

theorem harmless_name {name : Str} (h : matchesNameRegex name = true) : ∀ c ∈ name, Harmless c := by
  intro c hc
  have : isNameChar c = true := by
    unfold matchesNameRegex at h
    rw [Bool.and_eq_true, List.all_eq_true] at h
    exact h.2 c hc
  rcases nameChar_cases c this with h | h | h | h | h
  · exact Or.inl h
  · exact Or.inr (Or.inl h)
  · exact Or.inr (Or.inr (Or.inl h))
  · exact Or.inr (Or.inr (Or.inr (Or.inl h)))
  · exact Or.inr (Or.inr (Or.inr (Or.inr (Or.inl h))))

theorem slash_not_in_name {name : Str} (h : matchesNameRegex name = true) : '/' ∉ name := by
  intro hc
  have : isNameChar '/' = true := by
    unfold matchesNameRegex at h
    rw [Bool.and_eq_true, List.all_eq_true] at h
    exact h.2 _ hc
  revert this
  decide

theorem timestampName_eq (nd : Bool) (name : Str) : timestampName nd name = cookieName nd name := rfl

theorem cookieName_ne (nd : Bool) (name : Str) : cookieName nd name ≠ [] := by
  unfold cookieName; cases nd <;> simp

theorem slash_not_in_cookieName (nd : Bool) {name : Str} (h : matchesNameRegex name = true) : '/' ∉ cookieName nd name := by
  unfold cookieName
  rw [List.mem_append, not_or]
  refine ⟨slash_not_in_name h, ?_⟩
  cases nd <;> decide

theorem cookieName_ne_dummy (nd : Bool) (name : Str) : cookieName nd name ≠ "dummy.txt".toList := by
  intro e
  have := congrArg List.getLast? e
  unfold cookieName at this
  rw [List.getLast?_append] at this
  cases nd <;> simp at this

/-! ### A run in a usable directory -/

/-- The checker of an app in a usable directory. -/
def usableChecker (i : CheckInput) (h : Str) : Checker := ⟨seqanText h, pathJoin (seqanText h) (timestampName i.ndebug i.name)⟩

theorem locOf_usableChecker (i : CheckInput) (h : Str) (s : System) (hn : matchesNameRegex i.name = true) :
    locOf s.cwd (usableChecker i h).timestampFile = cookieLoc s h (cookieName i.ndebug i.name) := by
  show locOf s.cwd (pathJoin (seqanText h) (cookieName i.ndebug i.name)) = seqanDir s.cwd h ++ [cookieName i.ndebug i.name]
  rw [locOf_join _ _ _ (cookieName_ne _ _) (slash_not_in_cookieName _ hn), locOf_seqan]

theorem makeChecker_usable (i : CheckInput) (s : System) (h : Str) (hu : Usable s h) (hn : matchesNameRegex i.name = true) :
    ∃ d, makeChecker i s = .ok (usableChecker i h) { s with disk := d } ∧ d.node? (dummyIn (seqanDir s.cwd h)) = none ∧
      ∀ q, q ≠ dummyIn (seqanDir s.cwd h) → d.node? q = s.disk.node? q := by
  obtain ⟨d, h1, h2, h3⟩ := getPath_usable i.ndebug s h hu
  refine ⟨d, ?_, h2, h3⟩
  refine (bind_of_ok h1).trans ?_
  rw [hn]
  simp only [Bool.not_true, Bool.and_false, Bool.false_eq_true, if_false]
  rfl

theorem not_prefix_concat (l : Loc) (c : Str) : ¬ (l ++ [c]) <+: l := by
  intro h
  have := h.length_le
  rw [List.length_append, List.length_singleton] at this
  omega

/-- Changes of files in the directory do not make it unusable. -/
theorem usable_congr {s s' : System} {h : Str} (hu : Usable s h) (hh : s'.home = s.home) (hc : s'.cwd = s.cwd)
    (hq : ∀ q, ¬ (∃ c, q = seqanDir s.cwd h ++ [c]) → s'.disk.node? q = s.disk.node? q)
    (hd : ∀ n, s'.disk.node? (dummyIn (seqanDir s.cwd h)) = some n → ∃ c r, n = .file c r true) : Usable s' h := by
  refine ⟨hh.trans hu.home, ?_, by rw [hc]; exact hd⟩
  obtain ⟨r, hr⟩ := hu.seqan
  rw [hc]
  refine ⟨r, reaches_congr (fun q hp => (hq q ?_).symm) hr⟩
  rintro ⟨c, rfl⟩
  exact not_prefix_concat _ _ hp

theorem reaches_cookie_congr {s s' : System} {h c : Str} {n : Node} (hc : s'.cwd = s.cwd)
    (hq : ∀ q, ¬ (∃ c', q = seqanDir s.cwd h ++ [c']) → s'.disk.node? q = s.disk.node? q)
    (hn : s'.disk.node? (cookieLoc s h c) = s.disk.node? (cookieLoc s h c))
    (hr : Reaches s.disk (cookieLoc s h c) n) : Reaches s'.disk (cookieLoc s' h c) n := by
  unfold cookieLoc at *
  rw [hc]
  refine reaches_congr (fun q hp => ?_) hr
  by_cases he : q = seqanDir s.cwd h ++ [c]
  · rw [he]; exact hn.symm
  · refine (hq q ?_).symm
    rintro ⟨c', rfl⟩
    have := hp.eq_of_length (by simp)
    exact he this

theorem performCheck_run (i : CheckInput) (ck : Checker) (s : System) :
    ∃ t, performCheck i ck s = .ok () { s with
      stderr := s.stderr ++ t
      commands := s.commands ++ (if s.wget = true ∨ s.curl = true then
        [serverCommand (getProgram s.wget s.curl) (pathJoin ck.cookiePath (versionFileName i.name)) i.name (ownVersion i.version)]
        else []) } := by
  have e : ∃ content, onDisk (fsRead (locOf s.cwd (pathJoin ck.cookiePath (versionFileName i.name)))) s = .ok content s := by
    rcases fsRead_cases (locOf s.cwd (pathJoin ck.cookiePath (versionFileName i.name))) s.disk with ⟨t, w, -, h2⟩ | ⟨-, h2⟩
    · exact ⟨_, onDisk_ok h2⟩
    · exact ⟨_, onDisk_ok h2⟩
  obtain ⟨content, e⟩ := e
  refine ⟨updateMessages i content, ?_⟩
  unfold performCheck
  refine (bind_of_ok e).trans ?_
  refine (bind_of_ok (modify_run _ _)).trans ?_
  refine (modify_run _ _).trans ?_
  cases hw : s.wget with
  | true => simp [getProgram]
  | false =>
    cases hc : s.curl with
    | true => simp [getProgram]
    | false => simp [getProgram]

/-! ### Runs -/

theorem decideCheck_off (ck : Checker) (user : Option Bool) (s : System) :
    decideCheck ck false user s = .ok false s := rfl

theorem decideCheck_env (ck : Checker) (user : Option Bool) (s : System) (h : s.noCheckVar = true) :
    decideCheck ck true user s = .ok false s := by
  unfold decideCheck
  simp only [Bool.not_true, Bool.false_eq_true, if_false]
  refine (bind_of_ok (look_run _ _)).trans ?_
  rw [h]
  rfl

theorem decideCheck_user (ck : Checker) (b : Bool) (s : System) (h : s.noCheckVar = false) :
    decideCheck ck true (some b) s = .ok b s := by
  unfold decideCheck
  simp only [Bool.not_true, Bool.false_eq_true, if_false]
  refine (bind_of_ok (look_run _ _)).trans ?_
  rw [h]
  rfl

theorem decideCheck_cookie (ck : Checker) (s : System) (h : s.noCheckVar = false) {b : Bool}
    (hc : cookieDecision ck s = .ok (some b) s) : decideCheck ck true none s = .ok b s := by
  unfold decideCheck
  simp only [Bool.not_true, Bool.false_eq_true, if_false]
  refine (bind_of_ok (look_run _ _)).trans ?_
  rw [h]
  simp only [Bool.false_eq_true, if_false]
  exact (bind_of_ok hc).trans rfl

theorem decideCheck_ask (ck : Checker) (s s' : System) (h : s.noCheckVar = false)
    (hc : cookieDecision ck s = .ok none s) (hw : writeCookie ck "ASK".toList s = .ok () s') :
    decideCheck ck true none s = askUser ck s' := by
  unfold decideCheck
  simp only [Bool.not_true, Bool.false_eq_true, if_false]
  refine (bind_of_ok (look_run _ _)).trans ?_
  rw [h]
  simp only [Bool.false_eq_true, if_false]
  refine (bind_of_ok hc).trans ?_
  exact (bind_of_ok hw).trans rfl

theorem answer_congr {s s' : System} (h1 : s'.stdinTty = s.stdinTty) (h2 : s'.stderrTty = s.stderrTty) (h3 : s'.stdin = s.stdin) :
    answer s' = answer s := by
  unfold answer; rw [h1, h2, h3]

/-- The decision agrees with the table, whoever decides. -/
theorem decideCheck_spec (ck : Checker) (notify : Bool) (user : Option Bool) (s : System) (h : Prepared ck s) :
    ∃ k r s', CookieSeen s ck.cookiePath ck.timestampFile k ∧ decideCheck ck notify user s = .ok r s' ∧
      Decides notify s.noCheckVar user k (answer s) r ∧
      (¬ Open notify s.noCheckVar user k → s' = s) ∧
      (Open notify s.noCheckVar user k → AfterAsking ck s s' ∧
        ∃ s₁, writeCookie ck "ASK".toList s = .ok () s₁ ∧ askUser ck s₁ = .ok r s') := by
  obtain ⟨o, k, h1, h2, h3, h4⟩ := cookieDecision_spec ck s h
  refine ⟨k, ?_⟩
  cases notify with
  | false => exact ⟨false, s, h2, rfl, .developer, fun _ => rfl, fun h => by cases h.1⟩
  | true =>
    cases he : s.noCheckVar with
    | true => exact ⟨false, s, h2, decideCheck_env ck user s he, .environment, fun _ => rfl, fun h => by cases h.2.1⟩
    | false =>
      cases user with
      | some b => exact ⟨b, s, h2, decideCheck_user ck b s he, .user, fun _ => rfl, fun h => by cases h.2.2.1⟩
      | none =>
        cases o with
        | some b =>
          refine ⟨b, s, h2, decideCheck_cookie ck s he h1, h3 b rfl _, fun _ => rfl, fun hop => ?_⟩
          exfalso
          have := h3 b rfl none
          obtain ⟨-, -, -, hk⟩ := hop
          have h5 := h3 b rfl (some 'y')
          cases this with
          | young => have := (hk _ rfl).1; cases this
          | never => exact (hk _ rfl).2.1 rfl
          | always => exact (hk _ rfl).2.2 rfl
          | silent hh =>
            cases h5 with
            | young => have := (hk _ rfl).1; cases this
            | never => exact (hk _ rfl).2.1 rfl
            | asked _ hb => have := hb.2 (Or.inl rfl); cases this
        | none =>
          have hop := h4 rfl
          obtain ⟨d, hw, hf⟩ := writeCookie_run ck "ASK".toList s
          obtain ⟨r, s', ha, hfr, hans⟩ := askUser_spec ck { s with disk := d }
          have ea : answer { s with disk := d } = answer s := answer_congr rfl rfl rfl
          refine ⟨r, s', h2, (decideCheck_ask ck s _ he h1 hw).trans ha, ?_, fun h => absurd hop h, fun _ => ⟨?_, _, hw, ha⟩⟩
          · rw [ea] at hans
            cases hs : answer s with
            | none => rw [hs] at hans; rw [hans.1]; exact .silent hop.2.2.2
            | some a => rw [hs] at hans; exact .asked hop.2.2.2 hans.1
          · refine ⟨fun q hq => (hfr.disk q hq).trans (hf q hq), ?_⟩
            have := hfr.rest
            rw [ea] at this
            exact this

theorem makeChecker_ok {i : CheckInput} {s s₁ : System} {ck : Checker} (h : makeChecker i s = .ok ck s₁) :
    Prepared ck s₁ ∧ s₁ = { s with disk := s₁.disk } ∧ getPath i.ndebug s = .ok ck.cookiePath s₁ ∧
      ck.timestampFile = pathJoin ck.cookiePath (timestampName i.ndebug i.name) := by
  unfold makeChecker at h
  rw [M.bind_eq_ok] at h
  obtain ⟨p, s', h1, h2⟩ := h
  split at h2
  · cases h2
  · cases h2
    have fr := (getPath_frame i.ndebug s).1
    rw [h1] at fr
    refine ⟨?_, fr, h1, rfl⟩
    rcases getPath_ok _ _ _ _ h1 with h3 | ⟨r, w, h3⟩
    · exact Or.inl h3
    · exact Or.inr ⟨_, h3⟩

/-- A run is: construction, decision, and, if it says so, the check. -/
theorem run_steps (i : CheckInput) (notify : Bool) (user : Option Bool) {s s₁ s₂ : System} {ck : Checker} {r : Bool}
    (h1 : makeChecker i s = .ok ck s₁) (h2 : decideCheck ck notify user s₁ = .ok r s₂) :
    ∃ t, runVersionCheck i notify user s = .ok () { s₂ with
      stderr := s₂.stderr ++ t
      commands := s₂.commands ++ (if r = true ∧ (s₂.wget = true ∨ s₂.curl = true) then
        [serverCommand (getProgram s₂.wget s₂.curl) (pathJoin ck.cookiePath (versionFileName i.name)) i.name (ownVersion i.version)]
        else []) } ∧ (r = false → t = []) := by
  cases r with
  | false =>
    refine ⟨[], ?_, fun _ => rfl⟩
    refine (bind_of_ok h1).trans ((bind_of_ok h2).trans ?_)
    simp
  | true =>
    obtain ⟨t, h3⟩ := performCheck_run i ck s₂
    refine ⟨t, ?_, fun h => by cases h⟩
    refine (bind_of_ok h1).trans ((bind_of_ok h2).trans ?_)
    simp only [if_true, true_and]
    exact h3

/-- What a run in a usable directory can change there. -/
structure RunFrame (i : CheckInput) (h : Str) (s s' : System) : Prop where
  home : s'.home = s.home
  cwd : s'.cwd = s.cwd
  dummy : s'.disk.node? (dummyIn (seqanDir s.cwd h)) = none
  disk : ∀ q, q ≠ dummyIn (seqanDir s.cwd h) → q ≠ cookieLoc s h (cookieName i.ndebug i.name) → s'.disk.node? q = s.disk.node? q

theorem cookieLoc_ne_dummy (s : System) (h : Str) (nd : Bool) (name : Str) :
    cookieLoc s h (cookieName nd name) ≠ dummyIn (seqanDir s.cwd h) := by
  unfold cookieLoc dummyIn
  intro e
  have := List.append_cancel_left e
  simp only [List.cons.injEq, and_true] at this
  exact cookieName_ne_dummy nd name this

theorem RunFrame.usable {i : CheckInput} {h : Str} {s s' : System} (f : RunFrame i h s s') (hu : Usable s h) : Usable s' h := by
  refine usable_congr hu f.home f.cwd (fun q hq => f.disk q ?_ ?_) (fun n hn => by rw [f.dummy] at hn; cases hn)
  · rintro rfl; exact hq ⟨_, rfl⟩
  · rintro rfl; exact hq ⟨_, rfl⟩

/-- A run in a usable directory: the decision `r` is made on a system that differs only in the test file. -/
theorem run_usable (i : CheckInput) (notify : Bool) (user : Option Bool) (s : System) (h : Str) (hu : Usable s h)
    (hn : matchesNameRegex i.name = true) :
    ∃ d k r s₂ t, Usable { s with disk := d } h ∧
      (d.node? (dummyIn (seqanDir s.cwd h)) = none) ∧
      (∀ q, q ≠ dummyIn (seqanDir s.cwd h) → d.node? q = s.disk.node? q) ∧
      CookieSeen { s with disk := d } (seqanText h) (usableChecker i h).timestampFile k ∧
      Decides notify s.noCheckVar user k (answer s) r ∧
      (¬ Open notify s.noCheckVar user k → s₂ = { s with disk := d }) ∧
      (Open notify s.noCheckVar user k → AfterAsking (usableChecker i h) { s with disk := d } s₂ ∧
        ∃ s₁, writeCookie (usableChecker i h) "ASK".toList { s with disk := d } = .ok () s₁ ∧
          askUser (usableChecker i h) s₁ = .ok r s₂) ∧
      runVersionCheck i notify user s = .ok () { s₂ with
        stderr := s₂.stderr ++ t
        commands := s₂.commands ++ (if r = true ∧ (s₂.wget = true ∨ s₂.curl = true) then
          [serverCommand (getProgram s₂.wget s₂.curl) (pathJoin (seqanText h) (versionFileName i.name)) i.name (ownVersion i.version)]
          else []) } ∧ (r = false → t = []) ∧
      RunFrame i h s s₂ := by
  obtain ⟨d, h1, h2, h3⟩ := makeChecker_usable i s h hu hn
  have hu' : Usable { s with disk := d } h := by
    refine usable_congr hu rfl rfl (fun q hq => h3 q ?_) (fun n hn' => ?_)
    · rintro rfl; exact hq ⟨_, rfl⟩
    · have : d.node? (dummyIn (seqanDir s.cwd h)) = some n := hn'
      rw [h2] at this; cases this
  obtain ⟨k, r, s₂, h4, h5, h6, h7, h8⟩ := decideCheck_spec (usableChecker i h) notify user _ (makeChecker_ok h1).1
  obtain ⟨t, h9, h10⟩ := run_steps i notify user h1 h5
  have ea : answer { s with disk := d } = answer s := answer_congr rfl rfl rfl
  refine ⟨d, k, r, s₂, t, hu', h2, h3, h4, ea ▸ h6, h7, h8, h9, h10, ?_⟩
  by_cases hop : Open notify s.noCheckVar user k
  · obtain ⟨fr, -⟩ := h8 hop
    have hl := locOf_usableChecker i h { s with disk := d } hn
    have hdisk := fr.disk
    rw [hl] at hdisk
    refine ⟨by rw [fr.rest], by rw [fr.rest], ?_, ?_⟩
    · refine (hdisk _ (fun e => ?_)).trans h2
      exact cookieLoc_ne_dummy s h i.ndebug i.name e.symm
    · intro q hq1 hq2
      exact (hdisk q hq2).trans (h3 q hq1)
  · rw [h7 hop]
    exact ⟨rfl, rfl, h2, fun q hq _ => h3 q hq⟩

end Sharg
