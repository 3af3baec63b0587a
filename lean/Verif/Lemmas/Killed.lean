import Verif.Lemmas.LineValues
import Verif.Lemmas.PathValue
import Verif.Lemmas.Rely
import Verif.Props.Crash
import Verif.Props.Scan
import Verif.Spec.Killed

/-!
# Killed at some step
-/

namespace Sharg

open Spec Steps

/-! ### Steps of a program that may be killed -/

/-- A program that is not killed. -/
theorem mortal_none {α : Type} (p : Steps System α) (s : System) :
    p.mortal ⟨s, none⟩ = (some (p.run s).outcome, ⟨(p.run s).state, none⟩) := by
  induction p generalizing s with
  | done r => cases r <;> rfl
  | step next rest ih => exact ih s (next s)

/-- A program that is killed. -/
theorem mortal_some {α : Type} (p : Steps System α) (s : System) (n : Nat) : (p.mortal ⟨s, some n⟩).2.system = p.killedAfter n s := by
  induction n generalizing p s with
  | zero => cases p <;> rfl
  | succ n ih =>
    cases p with
    | done r => rfl
    | step next rest => exact ih (rest s) (next s)

theorem mortal_dead {α : Type} (p : Steps System α) (s : System) : (p.mortal ⟨s, some 0⟩).2 = ⟨s, some 0⟩ := by
  cases p <;> rfl

theorem always_mortal {α : Type} {I : System → Prop} {p : Steps System α} {m : Mortal} (h : Always I p m.system) :
    I (p.mortal m).2.system := by
  obtain ⟨s, l⟩ := m
  cases l with
  | none => rw [mortal_none]; exact always_end h
  | some n => rw [mortal_some]; exact always_iff.1 h n

theorem safe_always {α σ : Type} {K : σ → Prop} {Q : Except Exn α → Prop} {p : Steps σ α} {s : σ} (h : Safe K Q p) (hs : K s) : Always K p s := by
  induction p generalizing s with
  | done r => exact hs
  | step next rest ih => exact ⟨hs, ih s (h s hs).2 (h s hs).1⟩

theorem always_onDisk {α : Type} {I : System → Prop} {p : Steps Disk α} {s : System} (h : Always (fun d => I { s with disk := d }) p s.disk) :
    Always I (Steps.onDisk p) s := by
  induction p generalizing s with
  | done r => exact h
  | step next rest ih => exact ⟨h.1, ih s.disk (s := { s with disk := next s.disk }) h.2⟩

theorem passed_world {α : Type} (r : Option (Except Exn α) × Mortal) : (passed r).2 = r.2 := by
  obtain ⟨o, m⟩ := r
  cases o with
  | none => rfl
  | some e => cases e <;> rfl

theorem thrown_world {α : Type} (r : Option (Except Exn α) × Mortal) : (thrown r).2 = r.2 := by
  obtain ⟨o, m⟩ := r
  cases o with
  | none => rfl
  | some e => cases e <;> rfl

/-! ### Disks that differ only in expected places -/

/-- The disk is well-formed, and differs only at places with `X`, where it is bare, and at places with `C`, where there is a cookie. -/
structure Kept (X C : Loc → Prop) (d₀ d : Disk) : Prop where
  form : WellFormed d
  each : ∀ q, d.node? q = d₀.node? q ∨ (X q ∧ Blank (d.node? q)) ∨ (C q ∧ ∃ text r w, d.node? q = some (.file text r w) ∧ OwnCookie text)

variable {X C : Loc → Prop} {d₀ d : Disk}

theorem Kept.gone (h : Kept X C d₀ d) {p : Loc} (hn : d.node? p = none) (hx : d₀.node? p = none → X p) : X p := by
  rcases h.each p with e | ⟨hx, -⟩ | ⟨-, t, r, w, e, -⟩
  · exact hx (by rw [← e, hn])
  · exact hx
  · rw [hn] at e; cases e

theorem Kept.new (h : Kept X C d₀ d) {p : Loc} {n : Node} (hn : d.node? p = none) (hc : CanCreate d p) (hx : d₀.node? p = none → X p)
    (hb : Blank (some n)) : Kept X C d₀ ((p, n) :: d) := by
  refine ⟨wellFormed_new h.form n hn hc, fun q => ?_⟩
  rw [node?_cons]
  by_cases hq : p = q
  · subst hq
    rw [if_pos rfl]
    exact Or.inr (Or.inl ⟨h.gone hn hx, hb⟩)
  · rw [if_neg hq]; exact h.each q

theorem Kept.replace (h : Kept X C d₀ d) {p : Loc} {m n : Node} (hm : d.node? p = some m) (hnd : ∀ r w x, m ≠ .dir r w x)
    (hn : (X p ∧ Blank (some n)) ∨ (C p ∧ ∃ text r w, n = .file text r w ∧ OwnCookie text)) : Kept X C d₀ (d.replace p n) := by
  refine ⟨wellFormed_replace h.form n hm hnd, fun q => ?_⟩
  rw [node?_replace]
  by_cases hq : p = q
  · subst hq
    rw [if_pos rfl, hm]
    rcases hn with hn | ⟨hc, t, r, w, rfl, ho⟩
    · exact Or.inr (Or.inl hn)
    · exact Or.inr (Or.inr ⟨hc, t, r, w, rfl, ho⟩)
  · rw [if_neg hq]; exact h.each q

theorem wellFormed_filter (hw : WellFormed d) (keep : Loc → Bool)
    (hk : ∀ e ∈ d, keep e.1 = true → ∀ q c t, e.1 = q ++ c :: t → keep q = true) : WellFormed (d.filter fun e => keep e.1) := by
  refine ⟨hw.1.sublist (List.filter_sublist.map _), ?_⟩
  intro e he q c t h
  obtain ⟨h1, h2⟩ := List.mem_filter.1 he
  obtain ⟨r, w, x, h3⟩ := hw.2 e h1 q c t h
  refine ⟨r, w, x, ?_⟩
  rw [node?_filter, hk e h1 h2 q c t h]; exact h3

theorem Kept.filter (h : Kept X C d₀ d) (keep : Loc → Bool) (hk : ∀ e ∈ d, keep e.1 = true → ∀ q c t, e.1 = q ++ c :: t → keep q = true)
    (hx : ∀ q, keep q = false → X q) : Kept X C d₀ (d.filter fun e => keep e.1) := by
  refine ⟨wellFormed_filter h.form keep hk, fun q => ?_⟩
  rw [node?_filter]
  cases hq : keep q with
  | true => exact h.each q
  | false => exact Or.inr (Or.inl ⟨hx q hq, trivial⟩)

theorem Kept.remove_leaf (h : Kept X C d₀ d) {p : Loc} (hl : ∀ e ∈ d, ∀ c t, e.1 ≠ p ++ c :: t) (hx : X p) :
    Kept X C d₀ (d.filter fun e => decide (e.1 ≠ p)) := by
  refine h.filter (fun q => decide (q ≠ p)) (fun e he _ q c t ht => ?_) fun q hq => ?_
  · simp only [ne_eq, decide_not, Bool.not_eq_true', decide_eq_false_iff_not]
    rintro rfl
    exact hl e he c t ht
  · have : q = p := by simpa using hq
    rw [this]; exact hx

theorem leaf_of_file (hw : WellFormed d) {p : Loc} {m : Node} (hm : d.node? p = some m) (hnd : ∀ r w x, m ≠ .dir r w x) :
    ∀ e ∈ d, ∀ c t, e.1 ≠ p ++ c :: t := by
  intro e he c t h
  obtain ⟨r, w, x, h2⟩ := hw.2 e he p c t h
  rw [hm] at h2
  injection h2 with h2
  exact hnd r w x h2

theorem leaf_of_empty {p : Loc} (hb : d.hasBelow p = false) : ∀ e ∈ d, ∀ c t, e.1 ≠ p ++ c :: t := by
  intro e he c t h
  have : d.hasBelow p = true := by
    unfold Disk.hasBelow
    rw [List.any_eq_true]
    refine ⟨e, he, decide_eq_true ⟨⟨c :: t, h.symm⟩, fun h' => ?_⟩⟩
    rw [h'] at h
    have := congrArg List.length h
    simp at this
  rw [hb] at this; cases this

/-! ### Operations -/

theorem Kept.openForWriting (h : Kept X C d₀ d) {p : Loc} (hx : X p) : Kept X C d₀ (fsOpenForWriting p d).state := by
  unfold fsOpenForWriting
  rcases lookup_cases d p with ⟨n, h1, hl⟩ | ⟨hl, h1⟩ | ⟨hl, hd, h1⟩
  · rw [hl]
    cases n with
    | file c r w =>
      cases w with
      | true => exact h.replace h1.1 (by simp) (Or.inl ⟨hx, rfl⟩)
      | false => exact h
    | dir r w x => exact h
    | special r w => exact h
  · rw [hl]
    dsimp only
    split
    · rename_i hp
      have hc := (parentWritable_iff _ _).1 hp
      exact h.new (node_none hl hc) hc (fun _ => hx) rfl
    · exact h
  · rw [hl]; exact h

theorem Kept.put (h : Kept X C d₀ d) {p : Loc} {t : Str} (hc : C p) (ht : OwnCookie t) : Kept X C d₀ (fsPut p t d).state := by
  unfold fsPut
  cases hn : d.node? p with
  | none => exact h
  | some n =>
    cases n with
    | file c r w => exact h.replace hn (by simp) (Or.inr ⟨hc, t, r, w, rfl, ht⟩)
    | dir r w x => exact h
    | special r w => exact h

theorem Kept.remove (h : Kept X C d₀ d) {p : Loc} (hx : X p) : Kept X C d₀ (fsRemove p d).state := by
  unfold fsRemove
  rcases lookup_cases d p with ⟨n, h1, hl⟩ | ⟨hl, h1⟩ | ⟨hl, hd, h1⟩
  · rw [hl]
    cases n with
    | dir r w x =>
      dsimp only
      split
      · rename_i hp
        have hp : (!d.hasBelow p) = true := ((Bool.and_eq_true _ _).mp hp).2
        exact h.remove_leaf (leaf_of_empty ((Bool.not_eq_true' _).mp hp)) hx
      · exact h
    | file c r w =>
      dsimp only
      split
      · exact h.remove_leaf (leaf_of_file h.form h1.1 (by simp)) hx
      · exact h
    | special r w =>
      dsimp only
      split
      · exact h.remove_leaf (leaf_of_file h.form h1.1 (by simp)) hx
      · exact h
  · rw [hl]; exact h
  · rw [hl]; exact h

theorem Kept.removeNoThrow (h : Kept X C d₀ d) {p : Loc} (hx : X p) : Kept X C d₀ (fsRemoveNoThrow p d).state := by
  have := h.remove hx
  unfold fsRemoveNoThrow
  cases hr : fsRemove p d with
  | ok u s => rw [hr] at this; exact this
  | err e s => rw [hr] at this; exact this

theorem Kept.removeAll (h : Kept X C d₀ d) {p : Loc} (hx : ∀ q, p <+: q → X q) : Kept X C d₀ (fsRemoveAll p d).state := by
  unfold fsRemoveAll
  rcases lookup_cases d p with ⟨n, h1, hl⟩ | ⟨hl, h1⟩ | ⟨hl, hd, h1⟩
  · rw [hl]
    dsimp only
    split
    · refine h.filter (fun q => !decide (p <+: q)) (fun e _ hk q c t ht => ?_) fun q hq => hx q (by simpa using hq)
      simp only [Bool.not_eq_true', decide_eq_false_iff_not] at hk ⊢
      exact fun hp => hk (hp.trans ⟨c :: t, ht.symm⟩)
    · exact h
  · rw [hl]; exact h
  · rw [hl]; exact h

theorem Kept.createDirectory (h : Kept X C d₀ d) {p : Loc} (hx : d₀.node? p = none → X p) : Kept X C d₀ (fsCreateDirectory p d).state := by
  unfold fsCreateDirectory
  rcases lookup_cases d p with ⟨n, h1, hl⟩ | ⟨hl, h1⟩ | ⟨hl, hd, h1⟩
  · rw [hl]; cases n <;> exact h
  · rw [hl]
    dsimp only
    split
    · rename_i hp
      have hc := (parentWritable_iff _ _).1 hp
      exact h.new (node_none hl hc) hc hx ⟨rfl, rfl, rfl⟩
    · exact h
  · rw [hl]; exact h

/-! ### Checks of paths -/

/-- `validate_writeability`. -/
theorem kept_writeability (nd : Bool) {p : Loc} (h : Kept X C d₀ d) (hx : X p) : Always (Kept X C d₀) (validateWriteabilitySteps nd p) d := by
  rcases lookup_cases d p with ⟨n, h1, hl⟩ | ⟨hl, h1⟩ | ⟨hl, hd, h1⟩
  · by_cases hnd : ∃ r w x, n = .dir r w x
    · obtain ⟨r, w, x, rfl⟩ := hnd
      have hd : fsIsDirectory p d = .ok true d := by simp [fsIsDirectory, hl]
      exact always_bind_ok hd h h
    · have hnd : ∀ r w x, n ≠ .dir r w x := fun r w x e => hnd ⟨r, w, x, e⟩
      exact always_writeability_file nd h.form h1 hnd h (fun c r e => h.replace h1.1 hnd (Or.inl ⟨hx, rfl⟩))
        fun _ => h.remove_leaf (leaf_of_file h.form h1.1 hnd) hx
  · exact always_writeability_missing nd hl h fun hc => h.new (node_none hl hc) hc (fun _ => hx) rfl
  · have hd : fsIsDirectory p d = .err .filesystemError d := by simp [fsIsDirectory, hl]
    exact always_bind_err hd h h

theorem always_of_quiet {σ α : Type} {I : σ → Prop} {p : Steps σ α} {s : σ} (h : Quiet p) (hs : I s) : Always I p s :=
  always_iff.2 fun n => by rw [quiet_killed h]; exact hs

/-- Every check keeps to the places that it may change. -/
theorem kept_check (c : PathCheck) (h : Kept X C d₀ d) (hx : ∀ q, MayChange c (d₀.node? q) q → X q) : Always (Kept X C d₀) c.steps d := by
  cases c with
  | inputFile exts p => exact always_iff.2 fun n => by rw [C59_inputs_untouched _ rfl]; exact h
  | inputDirectory p => exact always_iff.2 fun n => by rw [C59_inputs_untouched _ rfl]; exact h
  | outputFile nd mode exts p =>
    show Always _ (outputFileSteps nd mode exts p) d
    rcases lookup_cases d p.loc with ⟨n, h1, hl⟩ | ⟨hl, h1⟩ | ⟨hl, hd, h1⟩
    · by_cases hnd : ∃ r w x, n = .dir r w x
      · obtain ⟨r, w, x, rfl⟩ := hnd
        have hd : fsIsDirectory p.loc d = .ok true d := by simp [fsIsDirectory, hl]
        exact always_bind_ok hd h h
      · have hnd : ∀ r w x, n ≠ .dir r w x := fun r w x e => hnd ⟨r, w, x, e⟩
        cases mode with
        | createNew =>
          refine always_iff.2 fun k => ?_
          rcases C59_create_new_moments nd exts p k d with e | ⟨e, -, -⟩
          · rw [e]; exact h
          · exact absurd h1 (e n)
        | openOrCreate =>
          exact always_outputFile_file nd exts p h.form h1 hnd h (fun c r e => h.replace h1.1 hnd (Or.inl ⟨hx _ rfl, rfl⟩))
            fun _ => h.remove_leaf (leaf_of_file h.form h1.1 hnd) (hx _ rfl)
    · refine always_outputFile_missing nd mode exts p hl h fun hc => h.new (node_none hl hc) hc (fun hn => hx _ ?_) rfl
      cases mode with
      | createNew => exact ⟨rfl, hn⟩
      | openOrCreate => exact rfl
    · have hd : fsIsDirectory p.loc d = .err .filesystemError d := by simp [fsIsDirectory, hl]
      exact always_bind_err hd h h
  | outputDirectory nd p =>
    show Always _ (outputDirectorySteps nd p) d
    have hdum : X (p.loc ++ [dummyName]) := hx _ (Or.inr (by rw [dummyName_eq]; rfl))
    rcases lookup_cases d p.loc with ⟨n, h1, hl⟩ | ⟨hl, h1⟩ | ⟨hl, hd, h1⟩
    · have he : fsExists p.loc d = .ok true d := by simp [fsExists, hl]
      refine always_bind_ok he h ?_
      by_cases hnd : ∃ r w x, n = .dir r w x
      · obtain ⟨r, w, x, rfl⟩ := hnd
        have hc : fsCreateDirectory p.loc d = .ok true d := by simp [fsCreateDirectory, hl]
        refine always_bind_ok hc h ?_
        have hv := kept_writeability nd h hdum
        exact always_rethrow hv (always_end hv)
      · have hc : fsCreateDirectory p.loc d = .ok false d := by
          cases n with
          | dir r w x => exact absurd ⟨r, w, x, rfl⟩ hnd
          | file c r w => simp [fsCreateDirectory, hl]
          | special r w => simp [fsCreateDirectory, hl]
        exact always_bind_ok hc h h
    · have hnew : ∀ hc : CanCreate d p.loc, Kept X C d₀ ((p.loc, .dir true true true) :: d) := fun hc =>
        h.new (node_none hl hc) hc (fun hn => hx _ (Or.inl ⟨rfl, hn⟩)) ⟨rfl, rfl, rfl⟩
      refine always_outputDirectory_missing nd p h.form hl h hnew fun hc => ?_
      exact (hnew hc).new (child_of_new h.form (node_none hl hc) _ _) (canCreate_child.2 ⟨true, reaches_new _ hl hc⟩) (fun _ => hdum) rfl
    · have hd : fsExists p.loc d = .err .filesystemError d := by simp [fsExists, hl]
      exact always_bind_err hd h h

/-! ### The version check -/

/-- The value, if there is one, is one with `P`. -/
def May {α : Type} (P : α → Prop) (r : Except Exn α) : Prop := ∀ a, r = .ok a → P a

theorem may_bind {σ α β : Type} {K : σ → Prop} {P : α → Prop} {Q : β → Prop} {p : Steps σ α} {f : α → Steps σ β} (hp : Safe K (May P) p)
    (hf : ∀ a, P a → Safe K (May Q) (f a)) : Safe K (May Q) (p.bind f) :=
  safe_handle hp fun r hr => by
    cases r with
    | ok a => exact hf a (hr a rfl)
    | error e => exact fun a h => nomatch h

theorem may_pure {σ α : Type} {K : σ → Prop} {P : α → Prop} {a : α} (h : P a) : Safe K (May P) (Steps.pure a) := by
  intro b e; cases e; exact h

theorem may_throw {σ α : Type} {K : σ → Prop} {P : α → Prop} {e : Exn} : Safe K (May P) (Steps.throw e) := fun _ h => nomatch h

/-- A function that keeps the condition. -/
theorem may_atom {σ α : Type} {K : σ → Prop} {m : M σ α} (h : ∀ s, K s → K (m s).state) : Safe K (May fun _ => True) (Steps.atom m) :=
  fun s hs => ⟨h s hs, fun _ _ => trivial⟩

theorem may_look {σ α : Type} {K : σ → Prop} {P : α → Prop} {m : M σ α} (h : ∀ s, K s → ∃ a, m s = .ok a s ∧ P a) :
    Safe K (May P) (Steps.atom m) :=
  safe_mono (safe_atom fun s hs => (h s hs).imp fun a ⟨h1, h2⟩ => ⟨s, h1, hs, h2⟩) fun r ⟨a, h1, h2⟩ b h3 => by
    rw [h1] at h3; cases h3; exact h2

/-- The system is as before except for the disk, the streams and the commands. -/
structure Tracks (s₀ s : System) : Prop where
  cwd : s.cwd = s₀.cwd
  home : s.home = s₀.home
  tempDir : s.tempDir = s₀.tempDir

theorem Tracks.onDisk {s₀ s : System} (h : Tracks s₀ s) (d : Disk) : Tracks s₀ { s with disk := d } := ⟨h.1, h.2, h.3⟩

/-- The condition that the version check keeps. -/
def CheckKeeps (X C : Loc → Prop) (s₀ s : System) : Prop := Kept X C s₀.disk s.disk ∧ Tracks s₀ s

variable {s₀ : System}

theorem may_onDisk {α : Type} {m : FsM α} (h : ∀ d, Kept X C s₀.disk d → Kept X C s₀.disk (m d).state) :
    Safe (CheckKeeps X C s₀) (May fun _ => True) (Steps.atom (onDisk m)) := by
  refine may_atom fun s hs => ?_
  have := h s.disk hs.1
  unfold onDisk
  cases hm : m s.disk with
  | ok a d => rw [hm] at this; exact ⟨this, hs.2.onDisk d⟩
  | err e d => rw [hm] at this; exact ⟨this, hs.2.onDisk d⟩

theorem may_steps {α : Type} {Q : Except Exn α → Prop} {p : Steps Disk α} (h : Safe (Kept X C s₀.disk) Q p) : Safe (CheckKeeps X C s₀) Q (Steps.onDisk p) :=
  safe_onDisk h fun _ d hs => hs.onDisk d

theorem may_guard (nd : Bool) {l : Loc} {p : Steps Disk Unit} (hp : Safe (Kept X C d₀) (May fun _ => True) p)
    (hr : ∀ d, Kept X C d₀ d → Kept X C d₀ (fsRemoveAll l d).state) : Safe (Kept X C d₀) (May fun _ => True) (withGuardSteps nd l p) := by
  refine safe_handle hp fun r _ => safe_handle (Q := fun _ => True) (fun s hs => ⟨hr s hs, trivial⟩) fun r' _ => ?_
  cases r' with
  | ok a => exact fun _ _ => trivial
  | error e => cases nd <;> exact fun _ _ => trivial

/-- Where the version check may be. -/
structure Places (X C : Loc → Prop) (s₀ : System) (cookie : Str) : Prop where
  dirs : ∀ q ∈ cookieDirs s₀, s₀.disk.node? q = none → X q
  tests : ∀ f ∈ testFiles s₀, ∀ q, f <+: q → X q
  cookies : ∀ q ∈ cookiePlaces s₀ cookie, X q ∧ C q

/-- The directory that was chosen. -/
def Chosen (s₀ : System) (p : Str) : Prop := p = [] ∨ ∃ h, s₀.home = some h ∧ (p = seqanText h ∨ s₀.tempDir = some p)

theorem may_getPath {cookie : Str} (hp : Places X C s₀ cookie) (nd : Bool) : Safe (CheckKeeps X C s₀) (May (Chosen s₀)) (getPathSteps nd) := by
  refine may_bind (P := fun h => h = s₀.home) (may_look fun s hs => ⟨s.home, rfl, hs.2.home⟩) fun home hh => ?_
  subst hh
  cases hh : s₀.home with
  | none => exact may_throw
  | some h =>
    refine may_bind (P := fun c => c = s₀.cwd) (may_look fun s hs => ⟨s.cwd, rfl, hs.2.cwd⟩) fun cwd hc => ?_
    subst hc
    have hcd : cookieDirs s₀ = [locOf s₀.cwd h ++ [".config".toList], seqanDir s₀.cwd h] := by unfold cookieDirs; rw [hh]
    have htf : testFiles s₀ = dummyIn (seqanDir s₀.cwd h) :: (s₀.tempDir.map fun t => dummyIn (locOf s₀.cwd t)).toList := by
      unfold testFiles; rw [hh]
    refine may_bind (P := fun _ => True) (may_onDisk fun d hd => hd.createDirectory fun hn => ?_) fun ok₁ _ => ?_
    · have e : locOf s₀.cwd (pathJoin h ".config".toList) = locOf s₀.cwd h ++ [".config".toList] := locOf_config s₀.cwd h
      rw [e] at hn ⊢
      exact hp.dirs _ (by rw [hcd]; simp) hn
    refine may_bind (P := fun _ => True) ?_ fun ok₂ _ => ?_
    · split
      · refine may_onDisk fun d hd => hd.createDirectory fun hn => ?_
        have e : locOf s₀.cwd (pathJoin (pathJoin h ".config".toList) "seqan".toList) = seqanDir s₀.cwd h := locOf_seqan s₀.cwd h
        rw [e] at hn ⊢
        exact hp.dirs _ (by rw [hcd]; simp) hn
      · exact may_pure trivial
    refine may_bind (P := fun o : Option Str => ∀ t, o = some t → t = seqanText h ∨ s₀.tempDir = some t) ?_ fun dir hdir => ?_
    · split
      · exact may_pure fun t e => Or.inl (by cases e; rfl)
      · exact may_look fun s hs => ⟨s.tempDir, rfl, fun t e => Or.inr (by rw [← hs.2.tempDir]; exact e)⟩
    cases dir with
    | none => exact may_throw
    | some t =>
      have hf : locOf s₀.cwd (pathJoin t dummyName) ∈ testFiles s₀ := by
        have e : locOf s₀.cwd (pathJoin t dummyName) = dummyIn (locOf s₀.cwd t) := locOf_dummy s₀.cwd t
        rw [e, htf]
        rcases hdir t rfl with rfl | ht
        · rw [locOf_seqan]; exact List.mem_cons_self
        · rw [ht]; exact List.mem_cons_of_mem _ (List.mem_singleton.2 rfl)
      have hx := hp.tests _ hf
      refine may_bind (P := fun _ => True) (may_onDisk fun d hd => hd.openForWriting (hx _ (List.prefix_refl _))) fun opened _ => ?_
      refine may_bind (P := fun _ => True) (may_steps (may_guard nd (may_atom fun d hd => hd.removeNoThrow (hx _ (List.prefix_refl _)))
        fun d hd => hd.removeAll hx)) fun _ _ => ?_
      refine may_pure ?_
      split
      · exact Or.inr ⟨h, hh, hdir t rfl⟩
      · exact Or.inl rfl

theorem may_writeCookie {cookie : Str} (hp : Places X C s₀ cookie) {ck : Checker} (hck : locOf s₀.cwd ck.timestampFile ∈ cookiePlaces s₀ cookie)
    {msg : Str} (hm : msg ∈ ["ASK".toList, "ALWAYS".toList, "NEVER".toList]) :
    Safe (CheckKeeps X C s₀) (May fun _ => True) (writeCookieSteps ck msg) := by
  refine may_bind (P := fun x : Loc × Str => x.1 = locOf s₀.cwd ck.timestampFile ∧ ∃ n, x.2 = showNat n)
    (may_look fun s hs => ⟨_, rfl, by dsimp only; rw [hs.2.cwd], s.clock, rfl⟩) fun x hx => may_steps ?_
  obtain ⟨h1, n, h2⟩ := hx
  rw [h1, h2]
  refine may_bind (P := fun _ => True) (may_atom fun d hd => hd.openForWriting (hp.cookies _ hck).1) fun opened _ => ?_
  split
  · exact may_atom fun d hd => hd.put (hp.cookies _ hck).2 (ownCookie_written n msg hm)
  · exact may_pure trivial

theorem may_say (f : System → System) (hf : ∀ s, (f s).disk = s.disk ∧ (f s).cwd = s.cwd ∧ (f s).home = s.home ∧ (f s).tempDir = s.tempDir) :
    Safe (CheckKeeps X C s₀) (May fun _ => True) (Steps.atom (M.modify f)) := by
  refine may_atom fun s hs => ?_
  obtain ⟨h1, h2, h3, h4⟩ := hf s
  exact ⟨by rw [show (M.modify f s).state = f s from rfl, h1]; exact hs.1, ⟨h2.trans hs.2.cwd, h3.trans hs.2.home, h4.trans hs.2.tempDir⟩⟩

theorem may_sayErr (t : Str) : Safe (CheckKeeps X C s₀) (May fun _ => True) (Steps.atom (sayErr t)) := may_say _ fun _ => ⟨rfl, rfl, rfl, rfl⟩

theorem may_askUser {cookie : Str} (hp : Places X C s₀ cookie) {ck : Checker} (hck : locOf s₀.cwd ck.timestampFile ∈ cookiePlaces s₀ cookie) :
    Safe (CheckKeeps X C s₀) (May fun _ => True) (askUserSteps ck) := by
  refine may_bind (P := fun _ => True) (may_look fun s _ => ⟨_, rfl, trivial⟩) fun interactive _ => ?_
  split
  · refine may_bind (P := fun _ => True) (may_sayErr _) fun _ _ => ?_
    refine may_bind (P := fun _ => True) (may_atom fun s hs => ⟨hs.1, hs.2.1, hs.2.2, hs.2.3⟩) fun c _ => ?_
    split
    · exact may_pure trivial
    · split
      · exact may_bind (P := fun _ => True) (may_writeCookie hp hck (by simp)) fun _ _ => may_pure trivial
      · split
        · exact may_bind (P := fun _ => True) (may_writeCookie hp hck (by simp)) fun _ _ => may_pure trivial
        · exact may_pure trivial
  · exact may_pure trivial

theorem onDisk_look {α : Type} {m : FsM α} {s : System} (h : ∀ d, (m d).state = d) : (onDisk m s).state = s := by
  have := h s.disk
  unfold onDisk
  cases hm : m s.disk with
  | ok a d => rw [hm] at this; show { s with disk := d } = s; rw [show d = s.disk from this]
  | err e d => rw [hm] at this; show { s with disk := d } = s; rw [show d = s.disk from this]

theorem may_reads {α : Type} {K : System → Prop} {m : SysM α} (h : ∀ s, (m s).state = s) : Safe K (May fun _ => True) (Steps.atom m) :=
  may_atom fun s hs => by rw [h]; exact hs

theorem may_pathExists (K : System → Prop) (t : Str) : Safe K (May fun _ => True) (Steps.atom (pathExists t)) :=
  may_reads fun s => by
    unfold pathExists
    split
    · rfl
    · exact onDisk_look fun d => by unfold fsExists; split <;> rfl

theorem may_readPath (K : System → Prop) (t : Str) : Safe K (May fun _ => True) (Steps.atom (readPath t)) :=
  may_reads fun s => onDisk_look fun d => by unfold fsRead; split <;> rfl

theorem may_cookieDecision (K : System → Prop) (ck : Checker) : Safe K (May fun _ => True) (cookieDecisionSteps ck) := by
  refine may_bind (P := fun _ => True) (may_pathExists K _) fun there _ => ?_
  split
  · refine may_bind (P := fun _ => True) (may_readPath K _) fun content _ => ?_
    cases content with
    | none => exact may_pure trivial
    | some t =>
      refine may_bind (P := fun _ => True) (may_look fun s _ => ⟨_, rfl, trivial⟩) fun now _ => ?_
      split
      · exact may_pure trivial
      · split
        · exact may_pure trivial
        · split <;> exact may_pure trivial
  · exact may_pure trivial

theorem may_decide {cookie : Str} (hp : Places X C s₀ cookie) {ck : Checker} (hck : locOf s₀.cwd ck.timestampFile ∈ cookiePlaces s₀ cookie)
    (notify : Bool) (user : Option Bool) : Safe (CheckKeeps X C s₀) (May fun _ => True) (decideCheckSteps ck notify user) := by
  unfold decideCheckSteps
  split
  · exact may_pure trivial
  · refine may_bind (P := fun _ => True) (may_look fun s _ => ⟨_, rfl, trivial⟩) fun noCheck _ => ?_
    split
    · exact may_pure trivial
    · cases user with
      | some b => exact may_pure trivial
      | none =>
        refine may_bind (P := fun _ => True) (may_cookieDecision _ ck) fun d _ => ?_
        cases d with
        | some b => exact may_pure trivial
        | none => exact may_bind (P := fun _ => True) (may_writeCookie hp hck (by simp)) fun _ _ => may_askUser hp hck

theorem may_perform (i : CheckInput) (ck : Checker) : Safe (CheckKeeps X C s₀) (May fun _ => True) (performCheckSteps i ck) := by
  refine may_bind (P := fun _ => True) (may_readPath _ _) fun content _ => ?_
  refine may_bind (P := fun _ => True) (may_sayErr _) fun _ _ => may_say _ fun s => ?_
  split <;> exact ⟨rfl, rfl, rfl, rfl⟩

/-- The version check keeps to its places. -/
theorem may_check (i : CheckInput) (hn : matchesNameRegex i.name = true) (hp : Places X C s₀ (cookieName i.ndebug i.name)) (notify : Bool)
    (user : Option Bool) : Safe (CheckKeeps X C s₀) (May fun _ => True) (runVersionCheckSteps i notify user) := by
  refine may_bind (P := fun ck : Checker => locOf s₀.cwd ck.timestampFile ∈ cookiePlaces s₀ (cookieName i.ndebug i.name)) ?_ fun ck hck => ?_
  · refine may_bind (may_getPath hp i.ndebug) fun p hc => ?_
    split
    · exact may_throw
    · refine may_pure ?_
      show locOf s₀.cwd (pathJoin p (timestampName i.ndebug i.name)) ∈ _
      rw [timestampName_eq, locOf_join _ _ _ (cookieName_ne i.ndebug i.name) (slash_not_in_cookieName i.ndebug hn)]
      unfold cookiePlaces
      rcases hc with e | ⟨h', hh, e | e⟩
      · rw [e]
        have : locOf s₀.cwd [] = s₀.cwd := by
          unfold locOf
          rw [if_neg (by decide)]
          exact List.append_nil _
        rw [this]
        exact List.mem_cons_self
      · rw [hh, e, locOf_seqan]
        exact List.mem_cons_of_mem _ List.mem_cons_self
      · rw [hh, e]
        exact List.mem_cons_of_mem _ (List.mem_cons_of_mem _ (List.mem_singleton.2 rfl))
  · refine may_bind (P := fun _ => True) (may_decide hp hck notify user) fun perform _ => ?_
    split
    · exact may_perform i ck
    · exact may_pure trivial

/-! ### Validators -/

/-- The disk is kept and the current directory is the same. -/
def WorldKept (X C : Loc → Prop) (s₀ : System) (m : Mortal) : Prop := Kept X C s₀.disk m.system.disk ∧ m.system.cwd = s₀.cwd

theorem kept_steps (k : PathKind) (t : Str) {s : System} (h : Kept X C s₀.disk s.disk ∧ s.cwd = s₀.cwd)
    (hx : ∀ q, MayChange (k.check (pathArg s₀.cwd t)) (s₀.disk.node? q) q → X q) :
    Always (fun s => Kept X C s₀.disk s.disk ∧ s.cwd = s₀.cwd) (k.steps s₀.cwd t) s :=
  always_onDisk (always_mono (fun _ hd => ⟨hd, h.2⟩) (kept_check _ h.1 hx))

theorem kept_stepsEach (k : PathKind) (ts : List Str) {s : System} (h : Kept X C s₀.disk s.disk ∧ s.cwd = s₀.cwd)
    (hx : ∀ t ∈ ts, ∀ q, MayChange (k.check (pathArg s₀.cwd t)) (s₀.disk.node? q) q → X q) :
    Always (fun s => Kept X C s₀.disk s.disk ∧ s.cwd = s₀.cwd) (k.stepsEach s₀.cwd ts) s := by
  induction ts generalizing s with
  | nil => exact h
  | cons t ts ih =>
    have h1 := kept_steps k t h (hx t (by simp))
    refine always_bind h1 fun a s' hs' => ih ?_ fun t ht => hx t (by simp [ht])
    have := always_end h1
    rw [hs'] at this
    exact this

theorem kept_killable (k : PathKind) (x : Val) {m : Mortal} (h : WorldKept X C s₀ m)
    (hx : ∀ e, (x = .one e ∨ ∃ es, x = .many es ∧ e ∈ es) → ∀ t, elemPath e = some t →
      ∀ q, MayChange (k.check (pathArg s₀.cwd t)) (s₀.disk.node? q) q → X q) : WorldKept X C s₀ (k.killable x m).2 := by
  have hcwd : m.system.cwd = s₀.cwd := h.2
  cases x with
  | one e =>
    show WorldKept X C s₀ (match elemPath e with
      | some t => passed ((k.steps m.system.cwd t).mortal m)
      | none => (true, m)).2
    cases he : elemPath e with
    | none => exact h
    | some t =>
      dsimp only
      rw [passed_world, hcwd]
      exact always_mortal (kept_steps k t h (hx e (Or.inl rfl) t he))
  | many es =>
    show WorldKept X C s₀ (passed ((k.stepsEach m.system.cwd (es.filterMap elemPath)).mortal m)).2
    rw [passed_world, hcwd]
    refine always_mortal (kept_stepsEach k _ h fun t ht => ?_)
    obtain ⟨e, he, h1⟩ := List.mem_filterMap.1 ht
    exact hx e (Or.inr ⟨es, rfl, he⟩) t h1

theorem solid_path : Solid pathTy := by
  intro t res w h
  have h : parseForeign false pathConv t = (res, w) := by
    have : (Except.ok (parseForeign false pathConv t) : Except Exn _) = .ok (res, w) := h
    injection this
  unfold parseForeign at h
  cases hc : pathConv t with
  | ok e => rw [hc] at h; cases h; exact Or.inr ⟨rfl, e, rfl⟩
  | fail e => rw [hc] at h; cases h; exact Or.inl rfl
  | overflow => exact absurd hc (pathConv_overflow t)

theorem solid_holds {ty : ElemTy} (h : HoldsPaths ty) : Solid ty := by
  rcases h with rfl | rfl
  · exact solid_string
  · exact solid_path

/-- The path that is read is the end of the text. -/
theorem path_in_text {ty : ElemTy} (h : HoldsPaths ty) {t p : Str} {e : Elem} (he : parseElem ty t = .ok (.success, some e))
    (hp : elemPath e = some p) : p <:+ t := by
  rcases h with rfl | rfl
  · have : e = .str t := by
      have : (Except.ok (ParseRes.success, some (Elem.str t)) : Except Exn _) = .ok (.success, some e) := he
      cases this; rfl
    subst this
    cases hp
    exact List.suffix_refl _
  · have hc : pathConv t = .ok e := by
      have h : parseForeign false pathConv t = (.success, some e) := by
        have : (Except.ok (parseForeign false pathConv t) : Except Exn _) = .ok (.success, some e) := he
        injection this
      unfold parseForeign at h
      cases hc : pathConv t with
      | ok e' => rw [hc] at h; cases h; rfl
      | fail e' => rw [hc] at h; cases h
      | overflow => exact absurd hc (pathConv_overflow t)
    obtain ⟨p', ⟨-, blanks, h1, -⟩, rfl⟩ := (pathConv_ok t e).1 hc
    have : p = p' := by
      have : some (pathText (pathCode p')) = some p := hp
      rw [pathText_code] at this
      cases this; rfl
    rw [this, h1]
    exact List.suffix_append _ _

/-- A usual validator keeps to what is named on the command line. -/
theorem usual_keeps {S : Str → Str → Prop} {A : List Str} {ty : ElemTy} {v : Val → Mortal → Bool × Mortal} (hu : Usual ty v)
    (hx : HoldsPaths ty → ∀ k : PathKind, v = k.killable → ∀ a ∈ A, ∀ t, S t a → ∀ p, p <:+ t →
      ∀ q, MayChange (k.check (pathArg s₀.cwd p)) (s₀.disk.node? q) q → X q) : KeepsOn (WorldKept X C s₀) S A ty v := by
  rcases hu with hl | ⟨hty, k, rfl⟩
  · refine Or.inl fun x m hm => ?_
    obtain ⟨h1, h2, -⟩ := hl x m
    exact ⟨by rw [h1]; exact hm.1, h2.trans hm.2⟩
  · refine Or.inr ⟨solid_holds hty, fun x m hv hm => kept_killable k x hm fun e he p hp => ?_⟩
    have hr : ReadFrom S A ty e := by
      rcases hv with ⟨e', rfl, hr⟩ | ⟨es, rfl, hr⟩
      · rcases he with he | ⟨es, he, -⟩
        · cases he; exact hr
        · cases he
      · rcases he with he | ⟨es', he, h'⟩
        · cases he
        · cases he; exact hr e h'
    obtain ⟨a, ha, t, hs, he⟩ := hr
    exact hx hty k rfl a ha t hs p (path_in_text hty he hp)

/-! ### `parse()` -/

/-- Whatever the version check, started in the world at hand, leaves and the pages and the validators keep, the validators being called with
values from the command line, is there after `parse()`. -/
theorem parse_keepsOn {W : Type} {P : W → Prop} (env : Env W) (g : Prog W)
    (hc : CleanName g.parser.appName → ∀ u, P (env.versionCheck g.parser.appName g.parser.notify u g.world).2)
    (hp : ∀ f p st w, P w → P (env.printPage f p st w).2)
    (h1 : ∀ d ∈ (declsOf g.parser.operations).options, KeepsOn P (· <:+ ·) g.parser.arguments.tail d.ty d.validator)
    (h2 : ∀ d ∈ (declsOf g.parser.operations).positionals, KeepsOn P List.Sublist g.parser.arguments.tail d.ty d.validator) (hw : P g.world) :
    P (parse env g).2.world := by
  by_cases hr : Ready g.parser
  · cases ha : g.parser.arguments with
    | nil => rw [parse_no_arguments env g hr ha]; exact hw
    | cons exe args =>
      rw [ha] at h1 h2
      obtain ⟨toks, stop, hd⟩ := reading_exists g.parser.options g.parser.subcommands args
      have hsub : (scannedParser g.parser exe toks stop).formatArguments.Sublist args := by
        have := C16_subsequence env g hr exe args ha
        rw [parse_reading env g hr exe args ha toks stop hd] at this
        cases hx : stop.exn? with
        | some e => rw [hx] at this; exact this
        | none =>
          rw [hx] at this
          dsimp only at this
          rw [checkAndParse_parser] at this
          exact this
      have up : ∀ {S ty v}, KeepsOn P S args ty v → KeepsOn P S (scannedParser g.parser exe toks stop).formatArguments ty v := by
        intro S ty v h
        rcases h with h | ⟨h, h'⟩
        · exact Or.inl h
        · refine Or.inr ⟨h, fun x w hv => h' x w ?_⟩
          have hread : ∀ e, ReadFrom S (scannedParser g.parser exe toks stop).formatArguments ty e → ReadFrom S args ty e :=
            fun e ⟨a, ha, t, h1, h2⟩ => ⟨a, hsub.subset ha, t, h1, h2⟩
          rcases hv with ⟨e, h1, h2⟩ | ⟨es, h1, h2⟩
          · exact Or.inl ⟨e, h1, hread e h2⟩
          · exact Or.inr ⟨es, h1, fun e he => hread e (h2 e he)⟩
      rw [parse_reading env g hr exe args ha toks stop hd]
      cases stop.exn? with
      | some e => exact hw
      | none =>
        dsimp only
        unfold checkAndParse
        have := hc hr.app (scannedParser g.parser exe toks stop).userDecision
        dsimp only [scannedParser] at this ⊢
        cases hv : env.versionCheck g.parser.appName g.parser.notify (lastCheck toks) g.world with
        | mk o w =>
          rw [hv] at this
          cases o with
          | some e => exact this
          | none =>
            show P (parseFormat env (decided toks stop) ⟨scannedParser g.parser exe toks stop, g.store, w⟩).2.world
            unfold parseFormat
            split
            · have hk := formatParse_keeps env.ndebug (declsOf g.parser.operations) (scannedParser g.parser exe toks stop).formatArguments g.store w
                (fun d hd => up (h1 d hd)) (fun d hd => up (h2 d hd)) this
              show P (match formatParse env.ndebug (declsOf g.parser.operations) (scannedParser g.parser exe toks stop).formatArguments g.store w with
                | .ok _ s => (Outcome.returned, (⟨scannedParser g.parser exe toks stop, s.store, s.world⟩ : Prog W))
                | .err e s => (.threw e, ⟨scannedParser g.parser exe toks stop, s.store, s.world⟩)).2.world
              cases hf : formatParse env.ndebug (declsOf g.parser.operations) (scannedParser g.parser exe toks stop).formatArguments g.store w with
              | ok u s => rw [hf] at hk; exact hk
              | err e s => rw [hf] at hk; exact hk
            · have hk := hp (decided toks stop) (scannedParser g.parser exe toks stop) g.store w this
              split
              · rename_i hh; rw [hh] at hk; exact hk
              · rename_i hh; rw [hh] at hk; exact hk
  · rw [parse_not_ready env g hr]; exact hw

end Sharg
