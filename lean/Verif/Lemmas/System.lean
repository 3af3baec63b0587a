import Verif.Model.System
import Verif.Props.Files

/-!
# Lemmas about paths and about what single file system calls change
-/

namespace Sharg

open Spec

/-! ### Path texts -/

theorem splitFrom_noslash (cur n : Str) (h : '/' ∉ n) : splitFrom cur n = if cur ++ n = [] then [] else [cur ++ n] := by
  induction n generalizing cur with
  | nil => simp [splitFrom]
  | cons c n ih =>
    simp only [List.mem_cons, not_or] at h
    rw [splitFrom, if_neg (fun e => h.1 e.symm), ih _ h.2]
    simp

theorem splitFrom_slash (cur p n : Str) : splitFrom cur (p ++ '/' :: n) = splitFrom cur p ++ splitFrom [] n := by
  induction p generalizing cur with
  | nil => by_cases h : cur = [] <;> simp [splitFrom, h]
  | cons c p ih =>
    by_cases hc : c = '/'
    · by_cases h : cur = []
      · simp only [List.cons_append, splitFrom, hc, if_true, h]; exact ih []
      · simp only [List.cons_append, splitFrom, hc, if_true, h, if_false]; rw [ih []]
    · simp only [List.cons_append, splitFrom, hc, if_false]; exact ih _

theorem splitFrom_join (p n : Str) (hn : n ≠ []) (h : '/' ∉ n) : splitFrom [] (pathJoin p n) = splitFrom [] p ++ [n] := by
  have h0 : splitFrom [] n = [n] := by rw [splitFrom_noslash _ _ h]; simp [hn]
  unfold pathJoin
  by_cases hp : p = []
  · subst hp; simp [h0, splitFrom]
  · by_cases hl : p.getLast? = some '/'
    · obtain ⟨q, rfl⟩ : ∃ q, p = q ++ ['/'] := by
        rcases List.eq_nil_or_concat p with rfl | ⟨q, c, rfl⟩
        · exact absurd rfl hp
        · simp only [List.concat_eq_append, List.getLast?_append, List.getLast?_singleton, Option.some_or, Option.some.injEq] at hl
          exact ⟨q, by simp [hl]⟩
      rw [if_pos (Or.inr hl), List.append_assoc]
      show splitFrom [] (q ++ '/' :: n) = splitFrom [] (q ++ '/' :: []) ++ [n]
      rw [splitFrom_slash, splitFrom_slash, h0]
      simp [splitFrom]
    · rw [if_neg (by simp [hp, hl]), splitFrom_slash, h0]

theorem head_join (p n : Str) (h : '/' ∉ n) : ((pathJoin p n).head? = some '/') ↔ (p.head? = some '/') := by
  unfold pathJoin
  cases p with
  | nil =>
    cases n with
    | nil => simp
    | cons c n => simp only [List.mem_cons, not_or] at h; simp [Ne.symm h.1]
  | cons a p => split <;> simp

/-- A name behind a path leads to the object of that name in its directory. -/
theorem locOf_join (cwd : Loc) (p n : Str) (hn : n ≠ []) (h : '/' ∉ n) : locOf cwd (pathJoin p n) = locOf cwd p ++ [n] := by
  unfold locOf
  rw [splitFrom_join p n hn h]
  by_cases hh : p.head? = some '/'
  · rw [if_pos ((head_join p n h).2 hh), if_pos hh]; simp
  · rw [if_neg (fun e => hh ((head_join p n h).1 e)), if_neg hh]; simp

/-! ### What the calls change -/

theorem createDirectory_cases (p : Loc) (fs : Disk) :
    (∃ b, fsCreateDirectory p fs = .ok b fs ∧ (b = true → ∃ r w x, Reaches fs p (.dir r w x))) ∨
    (fsCreateDirectory p fs = .ok true ((p, .dir true true true) :: fs) ∧ CanCreate fs p ∧ fs.lookup p = .missing) := by
  unfold fsCreateDirectory
  rcases lookup_cases fs p with ⟨n, h1, hl⟩ | ⟨hl, _⟩ | ⟨hl, _, _⟩
  · cases n with
    | dir r w x => exact Or.inl ⟨true, by simp [hl], fun _ => ⟨r, w, x, h1⟩⟩
    | file c r w => exact Or.inl ⟨false, by simp [hl], fun h => by simp at h⟩
    | special r w => exact Or.inl ⟨false, by simp [hl], fun h => by simp at h⟩
  · by_cases hc : parentWritable fs p = true
    · exact Or.inr ⟨by simp [hl, hc], (parentWritable_iff _ _).1 hc, hl⟩
    · exact Or.inl ⟨false, by simp [hl, hc], fun h => by simp at h⟩
  · exact Or.inl ⟨false, by simp [hl], fun h => by simp at h⟩

/-- Opening for writing touches only the file; if it succeeds the directory can be searched. -/
theorem openForWriting_frame (p : Loc) (fs : Disk) :
    ∃ b fs', fsOpenForWriting p fs = .ok b fs' ∧ (∀ q, q ≠ p → fs'.node? q = fs.node? q) ∧
      (b = false → fs' = fs) := by
  unfold fsOpenForWriting
  cases fs.lookup p with
  | found n =>
    cases n with
    | file c r w =>
      cases w with
      | true => exact ⟨true, _, rfl, fun q hq => by rw [node?_replace, if_neg (Ne.symm hq)], fun h => nomatch h⟩
      | false => exact ⟨false, fs, rfl, fun q _ => rfl, fun _ => rfl⟩
    | special r w => exact ⟨w, fs, rfl, fun q _ => rfl, fun _ => rfl⟩
    | dir r w x => exact ⟨false, fs, rfl, fun q _ => rfl, fun _ => rfl⟩
  | missing =>
    dsimp only
    split
    · exact ⟨true, _, rfl, fun q hq => by rw [node?_cons, if_neg (Ne.symm hq)], fun h => nomatch h⟩
    · exact ⟨false, fs, rfl, fun q _ => rfl, fun _ => rfl⟩
  | denied => exact ⟨false, fs, rfl, fun q _ => rfl, fun _ => rfl⟩

theorem removeNoThrow_frame (p : Loc) (fs : Disk) :
    ∃ fs', fsRemoveNoThrow p fs = .ok () fs' ∧ ∀ q, q ≠ p → fs'.node? q = fs.node? q := by
  have key : ∀ q, q ≠ p → Disk.node? (fs.filter fun e => decide (e.1 ≠ p)) q = fs.node? q := by
    intro q hq
    have := node?_filter fs (fun l => decide (l ≠ p)) q
    rw [this]; simp [hq]
  unfold fsRemoveNoThrow fsRemove
  cases fs.lookup p with
  | missing => exact ⟨fs, rfl, fun _ _ => rfl⟩
  | denied => exact ⟨fs, rfl, fun _ _ => rfl⟩
  | found n =>
    by_cases h1 : parentWritable fs p = true
    · cases n with
      | dir r w x =>
        by_cases h2 : fs.hasBelow p = true
        · exact ⟨fs, by simp [h1, h2], fun _ _ => rfl⟩
        · exact ⟨_, by simp [h1, h2], key⟩
      | file c r w => exact ⟨_, by simp [h1], key⟩
      | special r w => exact ⟨_, by simp [h1], key⟩
    · cases n <;> exact ⟨fs, by simp [h1], fun _ _ => rfl⟩

theorem removeAll_frame (p : Loc) (fs : Disk) :
    (∀ q, ¬ p <+: q → (fsRemoveAll p fs).state.node? q = fs.node? q) := by
  intro q hq
  have key : Disk.node? (fs.filter fun e => !decide (p <+: e.1)) q = fs.node? q := by
    have := node?_filter fs (fun l => !decide (p <+: l)) q
    rw [this]; simp [hq]
  unfold fsRemoveAll
  cases fs.lookup p with
  | missing => rfl
  | denied => rfl
  | found n =>
    dsimp only
    split
    · exact key
    · rfl

/-- A guarded removal touches only what is at or below the guarded location. -/
theorem guardedRemove_frame (nd : Bool) (p : Loc) (fs : Disk) :
    ∀ q, ¬ p <+: q → (withGuard nd p (fsRemoveNoThrow p) fs).state.node? q = fs.node? q := by
  intro q hq
  obtain ⟨fs', h1, h2⟩ := removeNoThrow_frame p fs
  have hne : q ≠ p := fun e => hq (e ▸ List.prefix_refl _)
  have h3 := removeAll_frame p fs' q hq
  unfold withGuard
  rw [h1]
  dsimp only
  cases h : fsRemoveAll p fs' with
  | ok a fs₂ =>
    rw [h] at h3
    exact h3.trans (h2 q hne)
  | err e fs₂ =>
    rw [h] at h3
    dsimp only
    cases nd <;> exact h3.trans (h2 q hne)

/-- A write touches only the file. -/
theorem fsWrite_frame (p : Loc) (t : Str) (fs : Disk) :
    ∃ fs', fsWrite p t fs = .ok () fs' ∧ ∀ q, q ≠ p → fs'.node? q = fs.node? q := by
  obtain ⟨b, fs', h1, h2, h3⟩ := openForWriting_frame p fs
  unfold fsWrite M.bind
  rw [h1]
  cases b with
  | false => exact ⟨fs', rfl, h2⟩
  | true =>
    dsimp only [if_true]
    simp only [if_true]
    cases hn : fs'.node? p with
    | none => exact ⟨fs', rfl, h2⟩
    | some n =>
      cases n with
      | file c r w =>
        exact ⟨_, rfl, fun q hq => by rw [node?_replace, if_neg (Ne.symm hq)]; exact h2 q hq⟩
      | dir r w x => exact ⟨fs', rfl, h2⟩
      | special r w => exact ⟨fs', rfl, h2⟩

/-- Where a file may be created, or where there is one that may be written, it contains the text afterwards. -/
theorem fsWrite_writes (p : Loc) (t : Str) (fs : Disk)
    (h : (CanCreate fs p ∧ fs.node? p = none) ∨ ∃ c r, Reaches fs p (.file c r true)) :
    ∃ fs' r, fsWrite p t fs = .ok () fs' ∧ Reaches fs' p (.file t r true) ∧
      (∀ q, q ≠ p → fs'.node? q = fs.node? q) ∧
      ((fs.node? p = none → r = true) ∧ (∀ c r', fs.node? p = some (.file c r' true) → r = r')) := by
  have keep : ∀ (fs₁ fs₂ : Disk) (n : Node), (∀ q, q ≠ p → fs₂.node? q = fs₁.node? q) → fs₂.node? p = some n →
      ∀ m, Reaches fs₁ p m → Reaches fs₂ p n := by
    intro fs₁ fs₂ n hq hp m hm
    refine ⟨hp, fun q c u hu => ?_⟩
    have hne : q ≠ p := by
      intro e; rw [e] at hu
      have := congrArg List.length hu
      simp at this
    rw [hq q hne]
    exact hm.2 q c u hu
  rcases h with ⟨hc, hn⟩ | ⟨c, r, hr⟩
  · have hm := lookup_missing_of hn hc
    have hpw := (parentWritable_iff _ _).2 hc
    have ho : fsOpenForWriting p fs = .ok true ((p, .file [] true true) :: fs) := by
      simp [fsOpenForWriting, hm, hpw]
    have hr := reaches_new (.file [] true true) hm hc
    refine ⟨Disk.replace ((p, .file [] true true) :: fs) p (.file t true true), true, ?_, ?_, ?_, fun _ => rfl, ?_⟩
    · unfold fsWrite M.bind
      rw [ho]
      simp only [if_true]
      rw [hr.1]
    · exact keep _ _ _ (fun q hq => by rw [node?_replace, if_neg (Ne.symm hq)]) (by rw [node?_replace, if_pos rfl, hr.1]; rfl) _ hr
    · intro q hq
      rw [node?_replace, if_neg (Ne.symm hq), node?_cons, if_neg (Ne.symm hq)]
    · intro c r' h; rw [hn] at h; cases h
  · have hl := (lookup_found_iff _ _ _).2 hr
    have ho : fsOpenForWriting p fs = .ok true (fs.replace p (.file [] r true)) := by
      simp [fsOpenForWriting, hl]
    have h1 : (fs.replace p (.file [] r true)).node? p = some (.file [] r true) := by
      rw [node?_replace, if_pos rfl, hr.1]; rfl
    have hr1 : Reaches (fs.replace p (.file [] r true)) p (.file [] r true) :=
      keep fs _ _ (fun q hq => by rw [node?_replace, if_neg (Ne.symm hq)]) h1 _ hr
    refine ⟨(fs.replace p (.file [] r true)).replace p (.file t r true), r, ?_, ?_, ?_, ?_, ?_⟩
    · unfold fsWrite M.bind
      rw [ho]
      simp only [if_true]
      rw [h1]
    · exact keep _ _ _ (fun q hq => by rw [node?_replace, if_neg (Ne.symm hq)]) (by rw [node?_replace, if_pos rfl, h1]; rfl) _ hr1
    · intro q hq
      rw [node?_replace, if_neg (Ne.symm hq), node?_replace, if_neg (Ne.symm hq)]
    · intro h; rw [hr.1] at h; cases h
    · intro c' r' h
      rw [hr.1] at h
      cases h; rfl

/-! ### Frames of `SysM` code -/

theorem onDisk_run {α : Type} (m : FsM α) (s : System) :
    onDisk m s = (match m s.disk with
      | .ok a d => .ok a { s with disk := d }
      | .err e d => .err e { s with disk := d }) := rfl

theorem onDisk_ok {α : Type} {m : FsM α} {s : System} {a : α} {d : Disk} (h : m s.disk = .ok a d) :
    onDisk m s = .ok a { s with disk := d } := by rw [onDisk_run, h]

end Sharg
