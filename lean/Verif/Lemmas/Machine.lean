import Verif.Lemmas.Region
import Verif.Spec.Concurrency

/-!
# Programs that run at the same time on different parts of the disk
-/

namespace Sharg

open Spec

namespace Steps

variable {σ α : Type}

/-- What remains to be done after `n` steps. -/
def restAfter : Nat → Steps σ α → σ → Steps σ α
  | 0, p, _ => p
  | _, .done r, _ => .done r
  | n + 1, .step next rest, s => restAfter n (rest s) (next s)

theorem killedAfter_done (n : Nat) (r : Except Exn α) (s : σ) : killedAfter n (done r) s = s := by cases n <;> rfl

theorem restAfter_done (n : Nat) (r : Except Exn α) (s : σ) : restAfter n (done r) s = done r := by cases n <;> rfl

/-- Once finished, the state and the result are those of the whole run. -/
theorem run_of_restAfter {n : Nat} {p : Steps σ α} {s : σ} {r : Except Exn α} (h : restAfter n p s = done r) :
    (p.run s).outcome = r ∧ (p.run s).state = killedAfter n p s := by
  induction n generalizing p s with
  | zero => cases (h : p = done r); cases r <;> exact ⟨rfl, rfl⟩
  | succ n ih =>
    cases p with
    | done r' => cases (h : done r' = done r); cases r <;> exact ⟨rfl, rfl⟩
    | step next rest => exact ih h

theorem after_succ {n : Nat} {p : Steps σ α} {s : σ} {next : σ → σ} {rest : σ → Steps σ α} (h : restAfter n p s = step next rest) :
    restAfter (n + 1) p s = rest (killedAfter n p s) ∧ killedAfter (n + 1) p s = next (killedAfter n p s) := by
  induction n generalizing p s with
  | zero => cases (h : p = step next rest); exact ⟨rfl, rfl⟩
  | succ n ih =>
    cases p with
    | done r => cases (h : done r = step next rest)
    | step next' rest' => exact ih h

end Steps

theorem localSteps_after {α : Type} {R Wr : Loc → Prop} (n : Nat) {p : Steps Disk α} (h : LocalSteps R Wr p) {fs : Disk} (ht : Tidy fs) :
    LocalSteps R Wr (p.restAfter n fs) ∧ Tidy (p.killedAfter n fs) ∧ ∀ q, ¬ Wr q → (p.killedAfter n fs).node? q = fs.node? q := by
  induction n generalizing p fs with
  | zero => exact ⟨h, ht, fun _ _ => rfl⟩
  | succ n ih =>
    cases p with
    | done r => exact ⟨h, ht, fun _ _ => rfl⟩
    | step next rest =>
      obtain ⟨h1, h2, h3⟩ := ih (h.2.2.2 fs) (h.1 fs ht)
      exact ⟨h1, h2, fun q hq => (h3 q hq).trans (h.2.1 fs q hq)⟩

/-- The machine and each program alone: program `k` has made some number of steps, and the part of the disk it reads looks as
if it had made them alone. -/
structure Apart (fs : Disk) (code : List (Steps Disk Unit)) (R Wr : Nat → Loc → Prop) (m : Machine) : Prop where
  len : m.procs.length = code.length
  tidy : Tidy m.disk
  frame : ∀ q, (∀ k, k < code.length → ¬ Wr k q) → m.disk.node? q = fs.node? q
  each : ∀ k p, code[k]? = some p → ∃ n, Agree (R k) m.disk (p.killedAfter n fs) ∧
    (m.procs[k]? = some none ∨ ∃ s, m.procs[k]? = some (some ⟨Steps.onDisk (p.restAfter n fs), s⟩))

theorem lt_of_getElem? {α : Type} {l : List α} {k : Nat} {a : α} (h : l[k]? = some a) : k < l.length :=
  (List.getElem?_eq_some_iff.1 h).1

theorem apart_next {fs : Disk} {code : List (Steps Disk Unit)} {R Wr : Nat → Loc → Prop} {m : Machine} (hfs : Tidy fs)
    (hl : ∀ k p, code[k]? = some p → LocalSteps (R k) (Wr k) p)
    (hd : ∀ k l q, k < code.length → l < code.length → k ≠ l → R k q → ¬ Wr l q)
    (h : Apart fs code R Wr m) (hap : Happening) : Apart fs code R Wr (m.next hap) := by
  cases hap with
  | kill l =>
    refine ⟨by simp [Machine.next, h.len], h.tidy, h.frame, fun k p hk => ?_⟩
    obtain ⟨n, h1, h2⟩ := h.each k p hk
    refine ⟨n, h1, ?_⟩
    simp only [Machine.next, List.getElem?_set]
    by_cases hlk : l = k
    · subst hlk
      rw [if_pos rfl, if_pos (by rw [h.len]; exact lt_of_getElem? hk)]
      exact Or.inl rfl
    · rw [if_neg hlk]; exact h2
  | time l t =>
    simp only [Machine.next]
    cases hp : m.procs[l]? with
    | none => exact h
    | some o =>
      cases o with
      | none => exact h
      | some pr =>
        refine ⟨by simp [h.len], h.tidy, h.frame, fun k p hk => ?_⟩
        obtain ⟨n, h1, h2⟩ := h.each k p hk
        refine ⟨n, h1, ?_⟩
        simp only [List.getElem?_set]
        by_cases hlk : l = k
        · subst hlk
          rw [if_pos rfl, if_pos (lt_of_getElem? hp)]
          rcases h2 with h2 | ⟨s, h2⟩
          · rw [hp] at h2; cases h2
          · rw [hp] at h2; cases h2
            exact Or.inr ⟨_, rfl⟩
        · rw [if_neg hlk]; exact h2
  | step l =>
    simp only [Machine.next]
    cases hp : m.procs[l]? with
    | none => exact h
    | some o =>
      cases o with
      | none => exact h
      | some pr =>
        have hlt : l < code.length := by rw [← h.len]; exact lt_of_getElem? hp
        have hcl : code[l]? = some code[l] := List.getElem?_eq_getElem hlt
        obtain ⟨n, h1, h2⟩ := h.each l _ hcl
        rcases h2 with h2 | ⟨s, h2⟩
        · rw [hp] at h2; cases h2
        rw [hp] at h2
        cases h2
        obtain ⟨hlo, hti, -⟩ := localSteps_after n (hl l _ hcl) hfs
        cases hc : (code[l]).restAfter n fs with
        | done r =>
          have e : Process.step m.disk ⟨Steps.onDisk (.done r), s⟩ = (m.disk, ⟨Steps.onDisk (.done r), s⟩) := rfl
          dsimp only
          rw [e]
          refine ⟨by simp [h.len], h.tidy, h.frame, fun k p hk => ?_⟩
          obtain ⟨n', h1', h2'⟩ := h.each k p hk
          refine ⟨n', h1', ?_⟩
          simp only [List.getElem?_set]
          by_cases hlk : l = k
          · subst hlk
            rw [if_pos rfl, if_pos (lt_of_getElem? hp)]
            rw [hp, hc] at h2'
            exact h2'
          · rw [if_neg hlk]; exact h2'
        | step next rest =>
          rw [hc] at hlo
          have e : Process.step m.disk ⟨Steps.onDisk (.step next rest), s⟩ =
              (next m.disk, ⟨Steps.onDisk (rest m.disk), { s with disk := next m.disk }⟩) := rfl
          dsimp only
          rw [e]
          obtain ⟨hs1, hs2⟩ := Steps.after_succ hc
          obtain ⟨hr1, hr2⟩ := hlo.2.2.1 _ _ h.tidy hti h1
          refine ⟨by simp [h.len], hlo.1 _ h.tidy, fun q hq => ?_, fun k p hk => ?_⟩
          · exact (hlo.2.1 _ q (hq l hlt)).trans (h.frame q hq)
          · simp only [List.getElem?_set]
            by_cases hlk : l = k
            · subst hlk
              have : code[l] = p := by rw [hcl] at hk; exact Option.some.inj hk
              subst this
              refine ⟨n + 1, ?_, Or.inr ⟨{ s with disk := next m.disk }, ?_⟩⟩
              · rw [hs2]; exact hr2
              · rw [if_pos rfl, if_pos (lt_of_getElem? hp), hs1, hr1]
            · rw [if_neg hlk]
              obtain ⟨n', h1', h2'⟩ := h.each k p hk
              refine ⟨n', fun q hq => ?_, h2'⟩
              exact (hlo.2.1 _ q (hd k l q (lt_of_getElem? hk) hlt (Ne.symm hlk) hq)).trans (h1' q hq)

theorem apart_play {fs : Disk} {code : List (Steps Disk Unit)} {R Wr : Nat → Loc → Prop} {m : Machine} (hfs : Tidy fs)
    (hl : ∀ k p, code[k]? = some p → LocalSteps (R k) (Wr k) p)
    (hd : ∀ k l q, k < code.length → l < code.length → k ≠ l → R k q → ¬ Wr l q)
    (h : Apart fs code R Wr m) (hs : List Happening) : Apart fs code R Wr (m.play hs) := by
  unfold Machine.play
  induction hs generalizing m with
  | nil => exact h
  | cons a hs ih => exact ih (apart_next hfs hl hd h a)

theorem onDisk_eq_done {α : Type} {p : Steps Disk α} {r : Except Exn α} (h : Steps.onDisk p = .done r) : p = .done r := by
  cases p with
  | done r' => cases (h : Steps.done r' = .done r); rfl
  | step next rest => cases (h : Steps.step _ _ = Steps.done r)

theorem apart_finished {fs : Disk} {code : List (Steps Disk Unit)} {R Wr : Nat → Loc → Prop} {m : Machine}
    (h : Apart fs code R Wr m) {k : Nat} {p : Steps Disk Unit} {r : Except Exn Unit} (hk : code[k]? = some p) (hf : m.finished k r) :
    (p.run fs).outcome = r ∧ Agree (R k) m.disk (p.run fs).state := by
  obtain ⟨s, hs⟩ := hf
  obtain ⟨n, h1, h2⟩ := h.each k p hk
  rcases h2 with h2 | ⟨s', h2⟩
  · rw [hs] at h2; cases h2
  · rw [hs] at h2
    have h3 : (⟨.done r, s⟩ : Process) = ⟨Steps.onDisk (p.restAfter n fs), s'⟩ := Option.some.inj (Option.some.inj h2)
    have h4 := onDisk_eq_done (Process.mk.injEq .. ▸ h3 : _ ∧ _).1.symm
    obtain ⟨h5, h6⟩ := Steps.run_of_restAfter h4
    exact ⟨h5, h6 ▸ h1⟩

/-! ### Checks of paths -/

theorem PathCheck.steps_run (c : PathCheck) : c.steps.run = c.alone := by
  cases c with
  | inputFile exts p => exact inputFileSteps_run exts [] p
  | inputDirectory p => exact inputDirectorySteps_run p
  | outputFile nd mode exts p => exact outputFileSteps_run nd mode exts [] p
  | outputDirectory nd p => exact outputDirectorySteps_run nd p

/-- What a check reads. -/
def readBy (c : PathCheck) (q : Loc) : Prop := q <+: c.loc ∨ (c.isOutput = true ∧ c.loc <+: q)

/-- What a check may change. -/
def changedBy (c : PathCheck) (q : Loc) : Prop := c.isOutput = true ∧ c.loc <+: q

theorem LocalSteps.congr {α : Type} {R R' Wr Wr' : Loc → Prop} {p : Steps Disk α} (h : LocalSteps R Wr p) (hr : ∀ q, R q ↔ R' q)
    (hw : ∀ q, Wr q ↔ Wr' q) : LocalSteps R' Wr' p := by
  have e1 : R = R' := funext fun q => propext (hr q)
  have e2 : Wr = Wr' := funext fun q => propext (hw q)
  rw [← e1, ← e2]; exact h

theorem PathCheck.local (c : PathCheck) : LocalSteps (readBy c) (changedBy c) c.steps := by
  cases c with
  | inputFile exts p =>
    exact (localSteps_inputFile exts p fun _ => False).congr (fun q => by simp [readBy, OnWay, PathCheck.loc, PathCheck.isOutput])
      (fun q => by simp [changedBy, PathCheck.isOutput])
  | inputDirectory p =>
    exact (localSteps_inputDirectory p fun _ => False).congr (fun q => by simp [readBy, OnWay, PathCheck.loc, PathCheck.isOutput])
      (fun q => by simp [changedBy, PathCheck.isOutput])
  | outputFile nd mode exts p =>
    exact (localSteps_outputFile nd mode exts p).congr (fun q => by simp [readBy, Near, PathCheck.loc, PathCheck.isOutput])
      (fun q => by simp [changedBy, Below, PathCheck.loc, PathCheck.isOutput])
  | outputDirectory nd p =>
    exact (localSteps_outputDirectory nd p).congr (fun q => by simp [readBy, Near, PathCheck.loc, PathCheck.isOutput])
      (fun q => by simp [changedBy, Below, PathCheck.loc, PathCheck.isOutput])

theorem not_read_of_not_disturbs {a b : PathCheck} (h : ¬ Disturbs a b) (q : Loc) (hr : readBy b q) : ¬ changedBy a q := by
  rintro ⟨ha, hq⟩
  refine h ⟨ha, ?_⟩
  rcases hr with hr | ⟨hb, hr⟩
  · exact Or.inl (hq.trans hr)
  · rcases List.prefix_or_prefix_of_prefix hq hr with h1 | h1
    · exact Or.inl h1
    · exact Or.inr ⟨hb, h1⟩

end Sharg
