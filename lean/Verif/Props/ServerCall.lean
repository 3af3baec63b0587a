import Verif.Model.ServerCall

/-!
# Property C73: the server call and the end of the program
-/

namespace Sharg

/-- Only the passing of time. -/
def ticksOf (hs : List Happens) : Nat := hs.count .tick

/-- What holds at every moment. -/
structure Moment.Sound (m : Moment) : Prop where
  once : m.sets ≤ 1
  calling : m.server = .calling → m.sets = 0 ∧ m.future = .pending ∧ m.threw = false
  pending : m.future = .pending → m.server = .calling ∨ m.server = .cutOff
  cutOff : m.server = .cutOff → m.main = .ended
  waiting : ∀ s, m.main = .waiting s → s ≤ m.clock ∧ m.clock ≤ s + 3000 ∧ m.future ≠ .invalid
  start : m.main = .start → m.future = .invalid ∧ m.sets = 0 ∧ m.threw = false ∧ m.server = .absent
  threw : m.threw = true → m.sets = 0 ∧ m.server = .absent
  ready : m.future = .ready → m.sets = 1 ∨ m.threw = true
  invalid : m.future = .invalid → m.sets = 0 ∧ m.server = .absent

theorem Moment.Sound.first (c : Nat) : (Moment.first c).Sound := by
  constructor <;> simp [Moment.first]

theorem Moment.Sound.after {m m' : Moment} (h : m.Sound) {e : Happens} (he : m.after e = some m') : m'.Sound := by
  obtain ⟨clock, main, server, future, sets, threw⟩ := m
  obtain ⟨h1, h2, h3, h4, h5, h6, h7, h8, h9⟩ := h
  cases e with
  | check s =>
    unfold Moment.after at he
    cases main <;> cases s <;> simp_all <;> subst he <;> constructor <;> simp_all
  | tick =>
    unfold Moment.after at he
    cases main with
    | waiting s =>
      simp only [Option.ite_none_right_eq_some, Option.some.injEq] at he
      obtain ⟨⟨ha, hb⟩, rfl⟩ := he
      constructor <;> simp_all
      omega
    | ended => cases he
    | _ => cases he; constructor <;> simp_all
  | answer =>
    unfold Moment.after at he
    cases server <;> simp_all
    subst he
    constructor <;> simp_all
  | destroy =>
    unfold Moment.after at he
    cases main <;> cases future <;> simp_all <;> subst he <;> constructor <;> simp_all
  | wake =>
    unfold Moment.after at he
    cases main <;> simp_all
    obtain ⟨_, rfl⟩ := he
    constructor <;> simp_all
  | exit =>
    unfold Moment.after at he
    cases main <;> cases server <;> simp_all <;> subst he <;> constructor <;> simp_all
  | finish =>
    unfold Moment.after at he
    cases main <;> cases server <;> simp_all <;> subst he <;> constructor <;> simp_all

theorem Moment.Sound.run {m m' : Moment} (h : m.Sound) (hs : List Happens) (he : m.run hs = some m') : m'.Sound := by
  induction hs generalizing m with
  | nil => cases he; exact h
  | cons e hs ih =>
    simp only [Moment.run] at he
    cases ha : m.after e with
    | none => rw [ha] at he; cases he
    | some m1 => rw [ha] at he; exact ih (h.after ha) he

theorem Moment.run_append (m : Moment) (a b : List Happens) : m.run (a ++ b) = (m.run a).bind fun m' => m'.run b := by
  induction a generalizing m with
  | nil => rfl
  | cons e a ih =>
    simp only [List.cons_append, Moment.run]
    cases m.after e with
    | none => rfl
    | some m1 => exact ih m1

/-- The clock counts the ticks. -/
theorem Moment.clock_after {m m' : Moment} {e : Happens} (he : m.after e = some m') : m'.clock = m.clock + ticksOf [e] := by
  obtain ⟨clock, main, server, future, sets, threw⟩ := m
  cases e with
  | tick =>
    have ht : ticksOf [.tick] = 1 := rfl
    rw [ht]
    unfold Moment.after at he
    cases main with
    | waiting s =>
      simp only [Option.ite_none_right_eq_some, Option.some.injEq] at he
      rw [← he.2]
    | ended => cases he
    | _ => cases he; rfl
  | check s =>
    have ht : ticksOf [.check s] = 0 := by simp [ticksOf]
    unfold Moment.after at he
    cases main <;> cases s <;> simp_all <;> subst he <;> rfl
  | answer =>
    have ht : ticksOf [.answer] = 0 := rfl
    unfold Moment.after at he
    cases server <;> simp_all
    subst he; rfl
  | destroy =>
    have ht : ticksOf [.destroy] = 0 := rfl
    unfold Moment.after at he
    cases main <;> cases future <;> simp_all <;> subst he <;> rfl
  | wake =>
    have ht : ticksOf [.wake] = 0 := rfl
    unfold Moment.after at he
    cases main <;> simp_all
    rw [← he.2]
  | exit =>
    have ht : ticksOf [.exit] = 0 := rfl
    unfold Moment.after at he
    cases main <;> simp_all <;> subst he <;> rfl
  | finish =>
    have ht : ticksOf [.finish] = 0 := rfl
    unfold Moment.after at he
    cases main <;> simp_all
    subst he; rfl

theorem Moment.clock_run {m m' : Moment} (hs : List Happens) (he : m.run hs = some m') : m'.clock = m.clock + ticksOf hs := by
  induction hs generalizing m with
  | nil => cases he; rfl
  | cons e hs ih =>
    simp only [Moment.run] at he
    cases ha : m.after e with
    | none => rw [ha] at he; cases he
    | some m1 =>
      rw [ha] at he
      have h1 := ih he
      have h2 := Moment.clock_after ha
      have h3 : ticksOf (e :: hs) = ticksOf [e] + ticksOf hs := by
        unfold ticksOf
        rw [show e :: hs = [e] ++ hs from rfl, List.count_append]
      omega

/-- The destructor has begun at this time, or is over. -/
def Moment.Leaving (s : Nat) (m : Moment) : Prop := m.main = .waiting s ∨ m.main = .destroyed ∨ m.main = .ended

theorem Moment.Leaving.after {s : Nat} {m m' : Moment} (h : m.Leaving s) {e : Happens} (he : m.after e = some m') : m'.Leaving s := by
  obtain ⟨clock, main, server, future, sets, threw⟩ := m
  simp only [Moment.Leaving] at h
  unfold Moment.after at he
  unfold Moment.Leaving
  rcases h with rfl | rfl | rfl <;> cases e <;> simp at he
  all_goals first
    | (subst he; simp; done)
    | (obtain ⟨_, rfl⟩ := he; simp; done)

theorem Moment.Leaving.run {s : Nat} {m m' : Moment} (h : m.Leaving s) (hs : List Happens) (he : m.run hs = some m') : m'.Leaving s := by
  induction hs generalizing m with
  | nil => cases he; exact h
  | cons e hs ih =>
    simp only [Moment.run] at he
    cases ha : m.after e with
    | none => rw [ha] at he; cases he
    | some m1 => rw [ha] at he; exact ih (h.after ha) he

/-- Calls of the destructor: it begins at once, and only if there was no version check it is over at once. -/
theorem Moment.destroy_cases {m m1 : Moment} (hd : m.after .destroy = some m1) :
    (m.future = .invalid ∧ m1 = { m with main := .destroyed }) ∨ (m.future ≠ .invalid ∧ m1 = { m with main := .waiting m.clock }) := by
  obtain ⟨clock, main, server, future, sets, threw⟩ := m
  unfold Moment.after at hd
  cases main <;> cases future <;> simp_all

/-- **C73** (the promise gets at most one value). Whatever the order of events: `set_value` is called at most once, and never after the
thread could not be started, so that it does not throw. -/
theorem C73_one_value (c : Nat) (hs : List Happens) (m : Moment) (h : (Moment.first c).run hs = some m) :
    m.sets ≤ 1 ∧ (m.threw = true → m.sets = 0) ∧ (m.server = .calling → m.sets = 0) :=
  have hs' := (Moment.Sound.first c).run hs h
  ⟨hs'.once, fun h => (hs'.threw h).1, fun h => (hs'.calling h).1⟩

/-- **C73** (the destructor waits three seconds at most). Whatever has happened before and meanwhile: when the destructor returns, no more
than 3000 milliseconds have passed since it was called, and fewer only if the server call is over (or never began). -/
theorem C73_waits_three_seconds_at_most (c : Nat) (before meanwhile : List Happens) (m1 m2 : Moment)
    (h1 : (Moment.first c).run (before ++ [.destroy]) = some m1) (h2 : m1.run (meanwhile ++ [.wake]) = some m2) :
    ticksOf meanwhile ≤ 3000 ∧ m2.clock = m1.clock + ticksOf meanwhile ∧
      (ticksOf meanwhile < 3000 → m2.server = .answered ∨ m2.server = .absent) := by
  rw [Moment.run_append] at h1 h2
  obtain ⟨m0, hm0, h1⟩ := Option.bind_eq_some_iff.1 h1
  obtain ⟨mw, hmw, h2⟩ := Option.bind_eq_some_iff.1 h2
  simp only [Moment.run] at h1 h2
  obtain ⟨m1', hd, h1⟩ := Option.bind_eq_some_iff.1 h1
  obtain ⟨m2', hw, h2⟩ := Option.bind_eq_some_iff.1 h2
  cases h1; cases h2
  have hs0 := (Moment.Sound.first c).run _ hm0
  have hs1 := hs0.after hd
  have hsw := hs1.run _ hmw
  have hck := Moment.clock_run _ hmw
  have hck2 := Moment.clock_after hw
  have ht : ticksOf [.wake] = 0 := rfl
  rw [ht] at hck2
  have hl : m1.Leaving m0.clock := by
    rcases Moment.destroy_cases hd with ⟨_, h⟩ | ⟨_, h⟩
    · rw [h]; exact Or.inr (Or.inl rfl)
    · rw [h]; exact Or.inl rfl
  have hc1 : m1.clock = m0.clock := by
    rcases Moment.destroy_cases hd with ⟨_, h⟩ | ⟨_, h⟩ <;> rw [h]
  have hlw := hl.run _ hmw
  have hmain : mw.main = .waiting m0.clock := by
    rcases hlw with h | h | h
    · exact h
    · unfold Moment.after at hw; rw [h] at hw; cases hw
    · unfold Moment.after at hw; rw [h] at hw; cases hw
  obtain ⟨ha, hb, hc⟩ := hsw.waiting _ hmain
  refine ⟨by omega, by omega, fun hlt => ?_⟩
  unfold Moment.after at hw
  simp only [hmain, Option.ite_none_right_eq_some, Option.some.injEq] at hw
  obtain ⟨hr, rfl⟩ := hw
  have hready : mw.future = .ready := by
    rcases hr with h | h
    · exact h
    · omega
  show mw.server = _ ∨ mw.server = _
  cases hsv : mw.server with
  | absent => exact Or.inr rfl
  | answered => exact Or.inl rfl
  | calling => have := (hsw.calling hsv).2.1; rw [hready] at this; cases this
  | cutOff => have := hsw.cutOff hsv; rw [hmain] at this; cases this

/-- **C73** (the destructor never hangs). At every moment of waiting either the destructor can return or time can pass; by
`C73_waits_three_seconds_at_most` the latter happens at most 3000 times. If three seconds are over, it can return even if the server never
answers. -/
theorem C73_never_hangs (c : Nat) (hs : List Happens) (m : Moment) (h : (Moment.first c).run hs = some m) (since : Nat)
    (hm : m.main = .waiting since) :
    (m.after .wake = some { m with main := .destroyed } ∨ m.after .tick = some { m with clock := m.clock + 1 }) ∧
      (m.clock = since + 3000 → m.after .wake = some { m with main := .destroyed }) := by
  have hs' := (Moment.Sound.first c).run hs h
  obtain ⟨ha, hb, hc⟩ := hs'.waiting _ hm
  simp only [Moment.after, hm]
  refine ⟨?_, fun h => ?_⟩
  · cases hf : m.future with
    | invalid => exact absurd hf hc
    | ready => left; rw [if_pos (Or.inl rfl)]
    | pending =>
      by_cases hlt : m.clock < since + 3000
      · right; rw [if_pos ⟨rfl, hlt⟩]
      · left; rw [if_pos (Or.inr (by omega))]
  · rw [if_pos (Or.inr (by omega))]

/-- **C73** (no check, no waiting). If the version check is not performed, then the destructor returns at once. -/
theorem C73_no_check_no_waiting (c : Nat) (hs : List Happens) (m m1 : Moment) (h : (Moment.first c).run hs = some m)
    (hno : ∀ s, Happens.check s ∈ hs → s = .notPerformed) (hd : m.after .destroy = some m1) : m1.main = .destroyed := by
  have key : ∀ (hs : List Happens) (a b : Moment), a.Sound → a.future = .invalid → (∀ s, Happens.check s ∈ hs → s = .notPerformed) →
      a.run hs = some b → b.future = .invalid := by
    intro hs
    induction hs with
    | nil => intro a b _ hf _ hr; cases hr; exact hf
    | cons e hs ih =>
      intro a b hsd hf hn hr
      simp only [Moment.run] at hr
      obtain ⟨a1, ha, hr⟩ := Option.bind_eq_some_iff.1 hr
      refine ih a1 b (hsd.after ha) ?_ (fun s hs' => hn s (List.mem_cons_of_mem _ hs')) hr
      have hab := (hsd.invalid hf).2
      obtain ⟨clock, main, server, future, sets, threw⟩ := a
      simp only at hf hab
      subst hf hab
      cases e with
      | check s =>
        obtain rfl := hn s List.mem_cons_self
        unfold Moment.after at ha
        cases main <;> simp_all
        rw [← ha]
      | _ =>
        unfold Moment.after at ha
        cases main <;> simp_all <;> first | (rw [← ha]) | (rw [← ha.2])
  have hf := key hs _ m (Moment.Sound.first c) rfl hno h
  rcases Moment.destroy_cases hd with ⟨_, h⟩ | ⟨h, _⟩
  · rw [h]
  · exact absurd hf h

/-- **C73** (partial: programs that leave `main`). If the parser is destroyed - by the end of its scope or by an exception - and the program
ends, then the server call is cut off only if it has already been given three seconds since. Not so if the program is ended by `std::exit`
(`C73_cut_off_by_exit`). -/
theorem C73_cut_off_after_three_seconds_partial (c : Nat) (before meanwhile after : List Happens) (m1 m2 m3 : Moment)
    (h1 : (Moment.first c).run (before ++ [.destroy]) = some m1) (h2 : m1.run (meanwhile ++ [.wake]) = some m2)
    (h3 : m2.run after = some m3) (hcut : m3.server = .cutOff) : ticksOf meanwhile = 3000 := by
  obtain ⟨hle, _, hlt⟩ := C73_waits_three_seconds_at_most c before meanwhile m1 m2 h1 h2
  have key : ∀ (hs : List Happens) (a b : Moment), a.Leaving 0 → (a.server = .answered ∨ a.server = .absent) → a.run hs = some b →
      (b.server = .answered ∨ b.server = .absent) := by
    intro hs
    induction hs with
    | nil => intro a b _ hv hr; cases hr; exact hv
    | cons e hs ih =>
      intro a b hl hv hr
      simp only [Moment.run] at hr
      obtain ⟨a1, ha, hr⟩ := Option.bind_eq_some_iff.1 hr
      refine ih a1 b (hl.after ha) ?_ hr
      obtain ⟨clock, main, server, future, sets, threw⟩ := a
      simp only [Moment.Leaving] at hl
      simp only at hv
      unfold Moment.after at ha
      rcases hl with rfl | rfl | rfl <;> rcases hv with rfl | rfl <;> cases e <;> simp at ha
      all_goals first
        | (subst ha; simp; done)
        | (obtain ⟨_, rfl⟩ := ha; simp; done)
  have hdest : m2.main = .destroyed := by
    rw [Moment.run_append] at h2
    obtain ⟨mw, _, h2⟩ := Option.bind_eq_some_iff.1 h2
    simp only [Moment.run] at h2
    obtain ⟨m2', hw, h2⟩ := Option.bind_eq_some_iff.1 h2
    cases h2
    unfold Moment.after at hw
    cases hm : mw.main <;> rw [hm] at hw <;> simp at hw
    rw [← hw.2]
  rcases Nat.lt_or_ge (ticksOf meanwhile) 3000 with h | h
  · rcases key after m2 m3 (Or.inr (Or.inl hdest)) (hlt h) h3 with h | h <;> rw [hcut] at h <;> cases h
  · omega

/-- **C73** (negation). The claim that a server call is always given three seconds is wrong: help pages and the like are ended by
`std::exit`, which does not destroy the parser. Wherever the program is between the start of the call and the destructor, it can end with
the call cut off. -/
theorem C73_cut_off_by_exit (c : Nat) (hs : List Happens) (m : Moment) (h : (Moment.first c).run hs = some m) (hw : m.main = .working)
    (hcall : m.server = .calling) :
    ∃ m', m.after .exit = some m' ∧ m'.server = .cutOff ∧ m'.clock = m.clock ∧ m'.sets = 0 := by
  have hs' := (Moment.Sound.first c).run hs h
  refine ⟨{ m with main := .ended, server := .cutOff }, ?_, rfl, rfl, (hs'.calling hcall).1⟩
  simp only [Moment.after, hw, hcall]
  simp

/-- The call is started and the program ends by `std::exit` in the same millisecond. -/
example : (Moment.first 5).run [.check .started, .exit] = some ⟨5, .ended, .cutOff, .pending, 0, false⟩ := by decide

/-- The server answers while the destructor waits. -/
example : (Moment.first 0).run ([.check .started, .tick] ++ [.destroy] ++ ([.tick, .tick, .answer] ++ [.wake]) ++ [.finish]) =
    some ⟨3, .ended, .answered, .ready, 1, false⟩ := by decide

/-- The server answers when the destructor has already given up. -/
example : ((Moment.first 0).run ([.check .started] ++ [.destroy] ++ (List.replicate 3000 .tick ++ [.wake]) ++ [.tick, .answer, .finish])).map
    Moment.server = some .answered := by decide +kernel

/-- Without wget and curl the destructor returns at once. -/
example : (Moment.first 0).run [.check .noProgram, .destroy, .wake] = some ⟨0, .destroyed, .absent, .ready, 1, false⟩ := by decide

end Sharg
