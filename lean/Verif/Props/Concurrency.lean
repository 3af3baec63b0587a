import Verif.Lemmas.Crash
import Verif.Props.Version

/-!
# Paths checked by several programs at the same time (C60)
-/

namespace Sharg

open Spec Steps

/-- C60: some programs check paths, each for itself, and no check may disturb another one. Whatever the order of their steps, and even if
some are killed, each check that is finished has the result it has without the others, everything at and below its path (if it is one for
an output) is as after this check alone, and everything that is not at or below the path of a check for an output is as before. -/
theorem C60_simultaneous_checks_partial (fs : Disk) (ht : (fs.map (·.1)).Nodup) (jobs : List (PathCheck × System))
    (hind : ∀ (k l : Nat) (a b : PathCheck × System), jobs[k]? = some a → jobs[l]? = some b → k ≠ l → ¬ Disturbs b.1 a.1) (hs : List Happening) :
    (∀ k j r, jobs[k]? = some j → ((checksOn fs jobs).play hs).finished k r →
      r = (j.1.alone fs).outcome ∧
      (j.1.isOutput = true → ∀ q, j.1.loc <+: q → ((checksOn fs jobs).play hs).disk.node? q = (j.1.alone fs).state.node? q)) ∧
    ∀ q, (∀ j ∈ jobs, j.1.isOutput = true → ¬ j.1.loc <+: q) → ((checksOn fs jobs).play hs).disk.node? q = fs.node? q := by
  let code := jobs.map fun j => j.1.steps
  let R : Nat → Loc → Prop := fun k q => ∃ j, jobs[k]? = some j ∧ readBy j.1 q
  let Wr : Nat → Loc → Prop := fun k q => ∃ j, jobs[k]? = some j ∧ changedBy j.1 q
  have hcode : ∀ (k : Nat) p, code[k]? = some p → ∃ j : PathCheck × System, jobs[k]? = some j ∧ p = j.1.steps := by
    intro k p hk
    rw [List.getElem?_map] at hk
    cases hj : jobs[k]? with
    | none => rw [hj] at hk; cases hk
    | some j => rw [hj] at hk; exact ⟨j, rfl, (Option.some.inj hk).symm⟩
  have hlen : code.length = jobs.length := List.length_map ..
  have hR : ∀ (k : Nat) (j : PathCheck × System), jobs[k]? = some j → ∀ q, R k q ↔ readBy j.1 q := by
    intro k j hj q
    constructor
    · rintro ⟨j', h1, h2⟩
      rw [hj] at h1; cases h1; exact h2
    · exact fun h => ⟨j, hj, h⟩
  have hWr : ∀ (k : Nat) (j : PathCheck × System), jobs[k]? = some j → ∀ q, Wr k q ↔ changedBy j.1 q := by
    intro k j hj q
    constructor
    · rintro ⟨j', h1, h2⟩
      rw [hj] at h1; cases h1; exact h2
    · exact fun h => ⟨j, hj, h⟩
  have hl : ∀ k p, code[k]? = some p → LocalSteps (R k) (Wr k) p := by
    intro k p hk
    obtain ⟨j, hj, rfl⟩ := hcode k p hk
    exact (PathCheck.local j.1).congr (fun q => (hR k j hj q).symm) fun q => (hWr k j hj q).symm
  have hd : ∀ k l q, k < code.length → l < code.length → k ≠ l → R k q → ¬ Wr l q := by
    rintro k l q - - hkl ⟨a, ha, hr⟩ ⟨b, hb, hw⟩
    exact not_read_of_not_disturbs (hind k l a b ha hb hkl) q hr hw
  have h0 : Apart fs code R Wr (checksOn fs jobs) := by
    refine ⟨by simp [checksOn, hlen], ht, fun _ _ => rfl, fun k p hk => ⟨0, fun _ _ => rfl, Or.inr ?_⟩⟩
    obtain ⟨j, hj, rfl⟩ := hcode k p hk
    exact ⟨j.2, by simp [checksOn, hj, Steps.restAfter]⟩
  have h := apart_play ht hl hd h0 hs
  refine ⟨fun k j r hj hf => ?_, fun q hq => ?_⟩
  · have hk : code[k]? = some j.1.steps := by
      show (jobs.map _)[k]? = _
      rw [List.getElem?_map, hj]; rfl
    obtain ⟨h1, h2⟩ := apart_finished h hk hf
    rw [PathCheck.steps_run] at h1 h2
    exact ⟨h1.symm, fun ho q hq => h2 q ⟨j, hj, Or.inr ⟨ho, hq⟩⟩⟩
  · refine h.frame q fun k hk => ?_
    rintro ⟨j, hj, ho, hw⟩
    exact hq j (List.mem_of_getElem? hj) ho hw

/-! ### No check can be held up -/

/-- At most `n` steps, whatever happens in between. -/
def AtMost {σ α : Type} : Nat → Steps σ α → Prop
  | _, .done _ => True
  | 0, .step _ _ => False
  | n + 1, .step _ rest => ∀ s, AtMost n (rest s)

theorem AtMost.mono {σ α : Type} {n m : Nat} {p : Steps σ α} (h : AtMost n p) (hnm : n ≤ m) : AtMost m p := by
  induction n generalizing m p with
  | zero =>
    cases p with
    | done r => cases m <;> trivial
    | step next rest => exact h.elim
  | succ n ih =>
    cases p with
    | done r => cases m <;> trivial
    | step next rest =>
      cases m with
      | zero => omega
      | succ m => exact fun s => ih (h s) (by omega)

theorem atMost_handle {σ α β : Type} {n m : Nat} {p : Steps σ α} {k : Except Exn α → Steps σ β} (hp : AtMost n p)
    (hk : ∀ r, AtMost m (k r)) : AtMost (n + m) (p.handle k) := by
  induction n generalizing p with
  | zero =>
    cases p with
    | done r => exact (hk r).mono (by omega)
    | step next rest => exact hp.elim
  | succ n ih =>
    cases p with
    | done r => exact (hk r).mono (by omega)
    | step next rest =>
      rw [show n + 1 + m = (n + m) + 1 by omega]
      exact fun s => ih (hp s)

theorem atMost_bind {σ α β : Type} {n m : Nat} {p : Steps σ α} {f : α → Steps σ β} (hp : AtMost n p) (hf : ∀ a, AtMost m (f a)) :
    AtMost (n + m) (p.bind f) :=
  atMost_handle hp fun r => match r with
    | .ok a => hf a
    | .error _ => by cases m <;> trivial

theorem atMost_atom {σ α : Type} (m : M σ α) : AtMost 1 (Steps.atom m) := fun _ => trivial

theorem atMost_ite {σ α : Type} {n : Nat} {c : Prop} [Decidable c] {p q : Steps σ α} (hp : AtMost n p) (hq : AtMost n q) :
    AtMost n (if c then p else q) := by
  split
  · exact hp
  · exact hq

theorem atMost_done {σ α : Type} (n : Nat) (r : Except Exn α) : AtMost n (.done r : Steps σ α) := by cases n <;> trivial

theorem atMost_readability (p : Loc) : AtMost 3 (validateReadabilitySteps p) := by
  refine atMost_bind (m := 2) (atMost_atom _) fun isDir => atMost_ite ?_ ?_
  · exact atMost_bind (m := 1) (atMost_atom _) fun ok => atMost_ite (atMost_done _ _) (atMost_done _ _)
  · refine atMost_bind (m := 1) (atMost_atom _) fun isFile => atMost_ite (atMost_done _ _) ?_
    exact atMost_bind (m := 0) (atMost_atom _) fun ok => atMost_ite (atMost_done _ _) (atMost_done _ _)

theorem atMost_guard (nd : Bool) (p : Loc) {n : Nat} {body : Steps Disk Unit} (h : AtMost n body) :
    AtMost (n + 1) (withGuardSteps nd p body) :=
  atMost_handle h fun _ => atMost_handle (n := 1) (m := 0) (atMost_atom _) fun r' => match r' with
    | .ok _ => atMost_done _ _
    | .error _ => atMost_ite (atMost_done _ _) (atMost_done _ _)

theorem atMost_rethrow {n : Nat} {body : Steps Disk Unit} (h : AtMost n body) : AtMost n (rethrowFsSteps body) :=
  atMost_handle (m := 0) h fun r => match r with
    | .ok _ => atMost_done _ _
    | .error e => by cases e <;> exact atMost_done _ _

theorem atMost_writeability (nd : Bool) (p : Loc) : AtMost 4 (validateWriteabilitySteps nd p) := by
  refine atMost_bind (m := 3) (atMost_atom _) fun isDir => atMost_ite (atMost_done _ _) ?_
  refine atMost_bind (m := 2) (atMost_atom _) fun opened => ?_
  exact atMost_guard nd p (atMost_ite (atMost_done _ _) (atMost_atom _))

theorem atMost_check (c : PathCheck) : AtMost 8 c.steps := by
  cases c with
  | inputFile exts p =>
    refine AtMost.mono (n := 4) ?_ (by omega)
    refine atMost_rethrow (atMost_bind (m := 3) (atMost_atom _) fun there => atMost_ite (atMost_done _ _) ?_)
    exact atMost_bind (m := 0) (atMost_readability _) fun _ => atMost_done _ _
  | inputDirectory p =>
    refine AtMost.mono (n := 5) ?_ (by omega)
    refine atMost_rethrow (atMost_bind (m := 4) (atMost_atom _) fun there => atMost_ite (atMost_done _ _) ?_)
    exact atMost_bind (m := 3) (atMost_atom _) fun isDir => atMost_ite (atMost_done _ _) (atMost_readability _)
  | outputFile nd mode exts p =>
    refine AtMost.mono (n := 6) ?_ (by omega)
    refine atMost_bind (m := 5) (atMost_atom _) fun isDir => atMost_ite (atMost_done _ _) ?_
    refine atMost_rethrow (atMost_bind (n := 1) (m := 4) (atMost_ite (atMost_atom _) (atMost_done _ _)) fun there =>
      atMost_ite (atMost_done _ _) ?_)
    exact atMost_bind (m := 0) (atMost_writeability _ _) fun _ => atMost_done _ _
  | outputDirectory nd p =>
    refine atMost_bind (m := 7) (atMost_atom _) fun there => atMost_bind (m := 6) (atMost_atom _) fun ok => atMost_ite (atMost_done _ _) ?_
    refine atMost_rethrow (atMost_ite ?_ ((atMost_writeability _ _).mono (by omega)))
    exact atMost_guard nd _ (atMost_bind (m := 1) (atMost_writeability _ _) fun _ => atMost_atom _)

theorem atMost_onDisk {α : Type} {n : Nat} {p : Steps Disk α} (h : AtMost n p) : AtMost n (Steps.onDisk p) := by
  induction n generalizing p with
  | zero =>
    cases p with
    | done r => trivial
    | step next rest => exact h.elim
  | succ n ih =>
    cases p with
    | done r => trivial
    | step next rest => exact fun s => ih (h s.disk)

/-- How often it was the turn of program `k`. -/
def turns (k : Nat) (hs : List Happening) : Nat := hs.countP fun h => match h with
  | .step l => l = k
  | _ => false

theorem atMost_play (k : Nat) (hs : List Happening) {m : Machine} {n : Nat}
    (h : m.procs[k]? = some none ∨ ∃ p, m.procs[k]? = some (some p) ∧ AtMost (n + turns k hs) p.code) :
    (m.play hs).procs[k]? = some none ∨ ∃ p, (m.play hs).procs[k]? = some (some p) ∧ AtMost n p.code := by
  induction hs generalizing m with
  | nil => exact h
  | cons a hs ih =>
    refine ih (m := m.next a) ?_
    have hlt : k < m.procs.length := by
      rcases h with h | ⟨p, h, _⟩ <;> exact lt_of_getElem? h
    cases a with
    | kill l =>
      have ht : turns k (.kill l :: hs) = turns k hs := by simp [turns]
      rw [ht] at h
      simp only [Machine.next, List.getElem?_set]
      by_cases hlk : l = k
      · subst hlk
        rw [if_pos rfl, if_pos hlt]; exact Or.inl rfl
      · rw [if_neg hlk]; exact h
    | time l t =>
      have ht : turns k (.time l t :: hs) = turns k hs := by simp [turns]
      rw [ht] at h
      simp only [Machine.next]
      cases hp : m.procs[l]? with
      | none => exact h
      | some o =>
        cases o with
        | none => exact h
        | some pr =>
          simp only [List.getElem?_set]
          by_cases hlk : l = k
          · subst hlk
            rw [if_pos rfl, if_pos hlt]
            rcases h with h | ⟨p, h, ha⟩
            · rw [hp] at h; cases h
            · rw [hp] at h; cases h
              exact Or.inr ⟨_, rfl, ha⟩
          · rw [if_neg hlk]; exact h
    | step l =>
      simp only [Machine.next]
      by_cases hlk : l = k
      · subst hlk
        have ht : turns l (.step l :: hs) = turns l hs + 1 := by simp [turns]
        rw [ht] at h
        rcases h with h | ⟨p, h, ha⟩
        · rw [h]; exact Or.inl h
        · rw [h]
          simp only [List.getElem?_set, if_true]
          rw [if_pos hlt]
          refine Or.inr ⟨_, rfl, ?_⟩
          obtain ⟨code, own⟩ := p
          cases code with
          | done r => exact atMost_done _ _
          | step next rest => exact ha _
      · have ht : turns k (.step l :: hs) = turns k hs := by simp [turns, hlk]
        rw [ht] at h
        cases hp : m.procs[l]? with
        | none => exact h
        | some o =>
          cases o with
          | none => exact h
          | some pr =>
            simp only [List.getElem?_set]
            rw [if_neg hlk]; exact h

/-- C60: no check can be held up by the others, not even by one that may disturb it: after at most eight own steps it is finished
(or it was killed). -/
theorem C60_never_held_up (fs : Disk) (jobs : List (PathCheck × System)) (hs : List Happening) (k : Nat) (hk : k < jobs.length)
    (ht : 8 ≤ turns k hs) :
    (∃ r, ((checksOn fs jobs).play hs).finished k r) ∨ ((checksOn fs jobs).play hs).procs[k]? = some none := by
  have h0 : (checksOn fs jobs).procs[k]? = some (some ⟨Steps.onDisk (jobs[k]).1.steps, (jobs[k]).2⟩) := by
    simp [checksOn, List.getElem?_eq_getElem hk]
  rcases atMost_play k hs (n := 0) (Or.inr ⟨_, h0, (atMost_onDisk (atMost_check _)).mono (by omega)⟩) with h | ⟨p, h, ha⟩
  · exact Or.inr h
  · obtain ⟨code, own⟩ := p
    cases code with
    | done r => exact Or.inl ⟨r, own, h⟩
    | step next rest => exact ha.elim

/-! ### Checks that disturb each other -/

/-- The result of a finished program. -/
def Machine.result (m : Machine) (k : Nat) : Option (Except Exn Unit) :=
  match m.procs[k]? with
  | some (some ⟨.done r, _⟩) => some r
  | _ => none

theorem finished_of_result {m : Machine} {k : Nat} {r : Except Exn Unit} (h : m.result k = some r) : m.finished k r := by
  unfold Machine.result at h
  split at h
  · rename_i r' s hp
    cases h
    exact ⟨s, hp⟩
  · cases h

/-- A check in `create_new` mode of a file that does not exist. -/
def exFileCheck : PathCheck := .outputFile true .createNew [] (exPath ["home", "user", "new.txt"])

/-- A check of a directory that does not exist. -/
def exDirCheck : PathCheck := .outputDirectory true (exPath ["home", "user", "new"])

/-- The surroundings of the programs in the examples. -/
def exOwn : System := exSystem exDisk 0 ""

deriving instance DecidableEq for Except

/-- C60 does not hold for the same path: of two programs which check the same new file in `create_new` mode one can see the file that the
other one creates for the test, and rejects the path, although the file exists neither before nor afterwards. -/
theorem C60_same_file_rejected : ∃ hs : List Happening,
    ((checksOn exDisk [(exFileCheck, exOwn), (exFileCheck, exOwn)]).play hs).finished 0 (.ok ()) ∧
    ((checksOn exDisk [(exFileCheck, exOwn), (exFileCheck, exOwn)]).play hs).finished 1 (.error .validationError) ∧
    ((checksOn exDisk [(exFileCheck, exOwn), (exFileCheck, exOwn)]).play hs).disk = exDisk ∧
    (exFileCheck.alone exDisk).isOk = true :=
  ⟨List.replicate 4 (.step 0) ++ List.replicate 2 (.step 1) ++ List.replicate 4 (.step 0), finished_of_result (by decide +kernel),
    finished_of_result (by decide +kernel), by decide +kernel, by decide +kernel⟩

/-- C60 does not hold for the same path: if another program writes the file between two steps of a check in `create_new` mode, then the
check deletes it and accepts the path. -/
theorem C60_same_file_deleted : ∃ hs hs' : List Happening,
    let m : Machine := ⟨exDisk, [some ⟨Steps.onDisk exFileCheck.steps, exOwn⟩,
      some ⟨Steps.onDisk (fsWriteSteps exFileCheck.loc "result".toList), exOwn⟩]⟩
    (m.play hs).finished 1 (.ok ()) ∧ (m.play hs).disk.node? exFileCheck.loc = some (.file "result".toList true true) ∧
    (m.play (hs ++ hs')).finished 0 (.ok ()) ∧ (m.play (hs ++ hs')).disk.node? exFileCheck.loc = none :=
  ⟨List.replicate 2 (.step 0) ++ List.replicate 2 (.step 1), List.replicate 4 (.step 0), finished_of_result (by decide +kernel),
    by decide +kernel, finished_of_result (by decide +kernel), by decide +kernel⟩

/-- C60 does not hold for paths in a checked directory: a file that another program writes into the directory while the directory is checked
is deleted together with the directory. -/
theorem C60_file_in_new_directory_deleted : ∃ hs hs' : List Happening,
    let m : Machine := ⟨exDisk, [some ⟨Steps.onDisk exDirCheck.steps, exOwn⟩,
      some ⟨Steps.onDisk (fsWriteSteps (exDirCheck.loc ++ ["result.txt".toList]) "result".toList), exOwn⟩]⟩
    (m.play hs).finished 1 (.ok ()) ∧
    (m.play hs).disk.node? (exDirCheck.loc ++ ["result.txt".toList]) = some (.file "result".toList true true) ∧
    (m.play (hs ++ hs')).finished 0 (.ok ()) ∧ (m.play (hs ++ hs')).disk = exDisk :=
  ⟨List.replicate 4 (.step 0) ++ List.replicate 2 (.step 1), List.replicate 4 (.step 0), finished_of_result (by decide +kernel),
    by decide +kernel, finished_of_result (by decide +kernel), by decide +kernel⟩

/-! ### Examples -/

/-- Two checks that do not disturb each other, and one that does. -/
example : ¬ Disturbs exFileCheck exDirCheck ∧ ¬ Disturbs exDirCheck exFileCheck ∧
    Disturbs (.outputDirectory true (exPath ["home", "user"])) exFileCheck := by
  refine ⟨fun h => ?_, fun h => ?_, rfl, Or.inl (by decide +kernel)⟩
  · rcases h.2 with h | ⟨_, h⟩ <;> exact absurd h (by decide +kernel)
  · rcases h.2 with h | ⟨_, h⟩ <;> exact absurd h (by decide +kernel)

/-- Both are finished when each had its turn eight times, alternating. -/
example : ((checksOn exDisk [(exFileCheck, exOwn), (exDirCheck, exOwn)]).play
      ((List.replicate 8 [Happening.step 0, .step 1]).flatten)).result 0 = some (.ok ()) ∧
    ((checksOn exDisk [(exFileCheck, exOwn), (exDirCheck, exOwn)]).play
      ((List.replicate 8 [Happening.step 0, .step 1]).flatten)).result 1 = some (.ok ()) := by decide +kernel

end Sharg
