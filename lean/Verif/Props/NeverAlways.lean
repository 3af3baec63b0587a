import Verif.Lemmas.Rely
import Verif.Props.Concurrency

/-!
# Version checks of several programs at the same time (C61)
-/

namespace Sharg

open Spec Steps

/-- What is known about program `k` of the machine `m`, at any time: a version check keeps its home and current directory; a check of the
app whose cookie says never, without `--version-check`, has not written anything, has not read anything and has not sent anything. -/
def KnownOf (D : Loc) (rel : Bool) (name : Str) (m : Machine) (k : Nat) (s : System) : Prop :=
  ∀ p, m.procs[k]? = some (some p) →
    ((∃ i notify user, IsCheck D p i notify user ∧ matchesNameRegex i.name = true) → s.home = p.own.home ∧ s.cwd = p.own.cwd) ∧
    ((∃ i notify, IsCheck D p i notify none ∧ matchesNameRegex i.name = true ∧ i.ndebug = rel ∧ i.name = name) →
      s.commands = p.own.commands ∧ s.stdin = p.own.stdin ∧ s.stdout = p.own.stdout ∧ s.stderr = p.own.stderr)

/-- C61: some programs run at the same time on a machine on which the user has said never for an app. Some of them do version checks, with
the same directory for the cookies, for any apps; the others do anything that does not destroy the cookie. Whatever the order of their steps,
however much time passes, and even if some are killed at any step: the cookie stays as it is, and no run of the app without `--version-check`
asks, prints or sends anything, or fails. -/
theorem C61_never_with_others_partial (D : Loc) (rel : Bool) (name : Str) (m : Machine) (hJ : NeverOn D (cookieName rel name) m.disk)
    (hp : ∀ (k : Nat) (p : Process), m.procs[k]? = some (some p) →
      (∃ i notify user, IsCheck D p i notify user ∧ matchesNameRegex i.name = true) ∨
      Respects (NeverOn D (cookieName rel name)) p.code)
    (hs : List Happening) :
    NeverOn D (cookieName rel name) (m.play hs).disk ∧
    ∀ (k : Nat) (p : Process) (i : CheckInput) (notify : Bool), m.procs[k]? = some (some p) → IsCheck D p i notify none →
      matchesNameRegex i.name = true → i.ndebug = rel → i.name = name →
      ∀ p', (m.play hs).procs[k]? = some (some p') →
        p'.own.commands = p.own.commands ∧ p'.own.stdin = p.own.stdin ∧ p'.own.stdout = p.own.stdout ∧ p'.own.stderr = p.own.stderr ∧
        ∀ r, p'.code = .done r → r = .ok () := by
  have hc : cookieName rel name ≠ "dummy.txt".toList := cookieName_ne_dummy rel name
  let Q : Nat → Except Exn Unit → Prop := fun k r => ∀ p, m.procs[k]? = some (some p) →
    (∃ i notify, IsCheck D p i notify none ∧ matchesNameRegex i.name = true ∧ i.ndebug = rel ∧ i.name = name) → r = .ok ()
  have hret : ∀ k (r : Except Exn Unit), Returns (fun _ => True) r → Q k r := by
    rintro k _ ⟨a, rfl, -⟩ p - -
    rfl
  have hGd : ∀ k s d, KnownOf D rel name m k s → KnownOf D rel name m k { s with disk := d } := fun k s d h => h
  have hGt : ∀ k s t, KnownOf D rel name m k s → KnownOf D rel name m k { s with clock := t } := fun k s d h => h
  have h0 : AllSafe (NeverOn D (cookieName rel name)) (KnownOf D rel name m) Q m := by
    refine ⟨hJ, fun k p hk => ⟨?_, fun p' hk' => ?_⟩⟩
    · by_cases hown : ∃ i notify, IsCheck D p i notify none ∧ matchesNameRegex i.name = true ∧ i.ndebug = rel ∧ i.name = name
      · obtain ⟨i, notify, hch, hn, hr, hnm⟩ := hown
        obtain ⟨hcode, h, hh, hD⟩ := hch
        rw [hcode]
        refine safe_mono (safe_own hc i hn (by rw [hr, hnm]) notify hD (fun s hs => ?_) (hGd k)) (hret k)
        have := (hs p hk).1 ⟨i, notify, none, ⟨hcode, h, hh, hD⟩, hn⟩
        exact ⟨this.1.trans hh, this.2⟩
      · by_cases hany : ∃ i notify user, IsCheck D p i notify user ∧ matchesNameRegex i.name = true
        · obtain ⟨i, notify, user, ⟨hcode, h, hh, hD⟩, hn⟩ := hany
          have hGG : ∀ s, KnownOf D rel name m k s → s.home = some h ∧ s.cwd = p.own.cwd := fun s hs => by
            have := (hs p hk).1 ⟨i, notify, user, ⟨hcode, h, hh, hD⟩, hn⟩
            exact ⟨this.1.trans hh, this.2⟩
          have hT : Talks (KnownOf D rel name m k) := by
            refine ⟨hGd k, fun s t hs p' hp' => ?_, fun s t c hs p' hp' => ?_, fun s t hs p' hp' => ?_⟩ <;>
            · rw [hk] at hp'
              cases hp'
              exact ⟨(hs p hk).1, fun h => absurd h hown⟩
          rw [hcode]
          exact safe_mono (safe_any hc i hn notify user hD hGG hT) (hret k)
        · have hr := (hp k p hk).resolve_left hany
          have hall : ∀ s, KnownOf D rel name m k s := fun s p' hp' => by
            rw [hk] at hp'
            cases hp'
            exact ⟨fun h => absurd h hany, fun h => absurd h hown⟩
          have hQ : ∀ r, Q k r := fun r p' hp' h => by
            rw [hk] at hp'
            cases hp'
            exact absurd h hown
          revert hr
          generalize p.code = code
          intro hr
          induction code with
          | done r => exact hQ r
          | step next rest ih => exact fun s hs => ⟨⟨(hr s hs.1).1, hall _⟩, ih s (hr s hs.1).2⟩
    · rw [hk] at hk'
      cases hk'
      exact ⟨fun _ => ⟨rfl, rfl⟩, fun _ => ⟨rfl, rfl, rfl, rfl⟩⟩
  have h := allSafe_play hGd hGt h0 hs
  refine ⟨h.disk, fun k p i notify hk hch hn hr hnm p' hk' => ?_⟩
  obtain ⟨h1, h2⟩ := h.each k p' hk'
  obtain ⟨h3, h4, h5, h6⟩ := (h2 p hk).2 ⟨i, notify, hch, hn, hr, hnm⟩
  refine ⟨h3, h4, h5, h6, fun r hr' => ?_⟩
  rw [hr'] at h1
  exact h1 p hk ⟨i, notify, hch, hn, hr, hnm⟩

/-! ### What is lost -/

/-- Two runs of an app: at the terminal, and without one. -/
def exTwoRuns : Machine :=
  ⟨(exSystem [] 1000000 "").disk, [some ⟨runVersionCheckSteps exCheck true none, exSystem [] 1000000 "n\n"⟩,
    some ⟨runVersionCheckSteps exCheck true none, { exSystem [] 1000000 "" with stdinTty := false }⟩]⟩

/-- The place of the cookie of the app. -/
def exCookie : Loc := ["h".toList, ".config".toList, "seqan".toList, "app_usr.timestamp".toList]

/-- C61 does not hold if another run of the app is already under way: the user says never in one run, the run ends, and then the other run,
in which nobody was asked, replaces the cookie by one that says that the user is to be asked again after a day. -/
theorem C61_never_lost_to_other_run : ∃ hs hs' : List Happening,
    (exTwoRuns.play hs).finished 0 (.ok ()) ∧
    (exTwoRuns.play hs).disk.node? exCookie = some (.file "1000005\nNEVER".toList true true) ∧
    (exTwoRuns.play (hs ++ hs')).finished 1 (.ok ()) ∧
    (exTwoRuns.play (hs ++ hs')).disk.node? exCookie = some (.file "1000000\nASK".toList true true) :=
  ⟨List.replicate 11 (.step 1) ++ List.replicate 30 (.step 0), List.replicate 30 (.step 1), finished_of_result (by decide +kernel),
    by decide +kernel, finished_of_result (by decide +kernel), by decide +kernel⟩

/-- C61 does not hold if the run in which the user says never is killed: the answer has been read, and the cookie is empty. In the next run
the user is asked again. -/
theorem C61_never_lost_when_killed : ∃ n,
    let s := (runVersionCheckSteps exCheck true none).killedAfter n (exSystem [] 1000000 "n\n")
    s.stdin = [] ∧ s.stderr = question ∧ s.disk.node? exCookie = some (.file [] true true) ∧
    (runVersionCheck exCheck true none { s with clock := 2000000, stderr := [], stdin := "y\n".toList }).state.stderr = question :=
  ⟨18, by decide +kernel⟩

/-- C52 does not hold for runs at the same time: both ask, and both send a request, although no day has passed. -/
theorem C52_simultaneous_requests : ∃ hs : List Happening,
    let m : Machine := ⟨(exSystem [] 1000000 "").disk, [some ⟨runVersionCheckSteps exCheck true none, exSystem [] 1000000 "y\n"⟩,
      some ⟨runVersionCheckSteps exCheck true none, exSystem [] 1000000 "y\n"⟩]⟩
    ((m.play hs).procs.map fun p => p.map fun p => (p.own.commands.length, p.own.clock)) = [some (1, 1000005), some (1, 1000005)] :=
  ⟨List.replicate 11 (.step 0) ++ List.replicate 30 (.step 1) ++ List.replicate 30 (.step 0), by decide +kernel⟩

/-! ### Examples -/

/-- A machine as in `C61_never_with_others_partial`: two runs of the app, one of another app, and a program that does nothing. -/
def exNever : Machine :=
  ⟨(exSystem [exFile "app_usr.timestamp" "100\nNEVER"] 0 "").disk,
    [some ⟨runVersionCheckSteps exCheck true none, exSystem [] 1000000 "y\n"⟩,
     some ⟨runVersionCheckSteps exCheck true none, exSystem [] 2000000 "y\n"⟩,
     some ⟨runVersionCheckSteps { exCheck with name := "other".toList } true none, exSystem [] 1000000 "y\n"⟩,
     some ⟨Steps.pure (), exSystem [] 1000000 ""⟩]⟩

theorem exNever_start : NeverOn ["h".toList, ".config".toList, "seqan".toList] (cookieName true "app".toList) exNever.disk :=
  ⟨⟨true, (lookup_found_iff _ _ _).1 (by decide +kernel)⟩, fun e he h => by
    revert e
    have : ∀ e ∈ exNever.disk, ¬ dummyIn ["h".toList, ".config".toList, "seqan".toList] <+: e.1 := by decide +kernel
    exact fun e he h => absurd h (this e he),
    "100\nNEVER".toList, true, (lookup_found_iff _ _ _).1 (by decide +kernel), (lastRead_iff _ _).2 (by decide +kernel)⟩

example (hs : List Happening) :
    NeverOn ["h".toList, ".config".toList, "seqan".toList] (cookieName true "app".toList) (exNever.play hs).disk := by
  refine (C61_never_with_others_partial _ true "app".toList exNever exNever_start ?_ hs).1
  have hc : ∀ i c t, IsCheck ["h".toList, ".config".toList, "seqan".toList]
      ⟨runVersionCheckSteps i true none, exSystem [] c t⟩ i true none :=
    fun i c t => ⟨rfl, "/h".toList, rfl, by show seqanDir ["h".toList] "/h".toList = _; decide +kernel⟩
  intro k p hk
  match k, hk with
  | 0, hk => cases hk; exact Or.inl ⟨_, _, _, hc _ _ _, by decide +kernel⟩
  | 1, hk => cases hk; exact Or.inl ⟨_, _, _, hc _ _ _, by decide +kernel⟩
  | 2, hk => cases hk; exact Or.inl ⟨_, _, _, hc _ _ _, by decide +kernel⟩
  | 3, hk => cases hk; exact Or.inr trivial
  | n + 4, hk => cases hk

/-- The runs of the app end without a word, the other app asks and sends its request. -/
example : let m := exNever.play (List.replicate 40 [Happening.step 0, .step 1, .step 2]).flatten
    m.result 0 = some (.ok ()) ∧ m.result 1 = some (.ok ()) ∧ m.result 2 = some (.ok ()) ∧
    (m.procs.map fun p => p.map fun p => (p.own.commands.length, decide (p.own.stderr = []))) =
      [some (0, true), some (0, true), some (1, false), some (0, true)] := by decide +kernel

end Sharg
