import Verif.Props.CheckLine

/-!
# Properties C53 and C54 for whole runs: what `parse()` sends and which messages it prints
-/

namespace Sharg

open Spec

/-- C53 for `parse()`: whatever the command line, the registrations and the values are, a run starts at most one program for the
version check. What it sends are the name of the app and the version that its developer set, and nothing else. -/
theorem C53_parse_sends_name_and_version (r : Surroundings) (g : Prog System) (hv : StartNothing g.parser) :
    ∃ new, (parse r.env g).2.world.commands = g.world.commands ++ new ∧ new.length ≤ 1 ∧
      ∀ c ∈ new, ∃ dir v n, (dir = [] ∨ (∃ h, g.world.home = some h ∧ dir = seqanText h) ∨ g.world.tempDir = some dir) ∧
        IsRequest dir g.parser.appName v c ∧ (∀ x ∈ g.parser.appName, Harmless x) ∧ (∀ x ∈ v, Harmless x) ∧
        VersionInFront r.pages.info.version n ∧ IsVersion v n ∧ (v <+: r.pages.info.version ∨ v = "0.0.0".toList) := by
  rcases parse_steps r.env g with ⟨e, p, h⟩ | ⟨-, hn, f, p, hs, h⟩
  · rw [h]
    exact ⟨[], (List.append_nil _).symm, Nat.zero_le _, fun c hc => absurd hc List.not_mem_nil⟩
  · rw [h, checkAndParse_commands r f { g with parser := p } (by
      unfold StartNothing at hv ⊢
      dsimp only
      rw [hs.operations]
      exact hv)]
    have hn' : CleanName p.appName := by rw [hs.appName]; exact hn
    obtain ⟨new, h1, h2, h3⟩ := C53_command_parts (r.check p.appName) p.notify p.userDecision g.world hn'
    refine ⟨new, h1, h2, fun c hc => ?_⟩
    have := h3 c hc
    rw [← hs.appName]
    exact this

/-- The numbers of the version in the version file of the app are below `2^31`. -/
def SmallVersionFile (s : System) (dir name : Str) : Prop :=
  ∀ text w line v, Reaches s.disk (locOf s.cwd (pathJoin dir (name ++ ".version".toList))) (.file text true w) →
    FirstLine text line → IsVersion line v → Small v

theorem check_says_update (i : CheckInput) (notify : Bool) (user : Option Bool) (s : System) (hr : i.ndebug = true)
    (ho : ∀ own, VersionInFront i.version own → Small own) :
    ∃ q m, (runVersionCheck i notify user s).state.stderr = s.stderr ++ q ++ m ∧ (q = [] ∨ q = question) ∧
      (m = [] ∨ ∃ ck s₁ s₂, makeChecker i s = .ok ck s₁ ∧ decideCheck ck notify user s₁ = .ok true s₂ ∧
        (SmallVersionFile s₂ ck.cookiePath i.name →
          m = messageAppUpdate i.url ∧ UpdateKnown s₂ ck.cookiePath i.name i.version)) := by
  unfold runVersionCheck
  rw [M.bind_run]
  have hc := quiet_makeChecker offDisk_view i s
  cases hk : makeChecker i s with
  | err x s₁ =>
    rw [hk] at hc
    have hc : s₁.stderr = s.stderr := congrArg (·.1) hc
    exact ⟨[], [], by rw [List.append_nil, List.append_nil]; exact hc, Or.inl rfl, Or.inl rfl⟩
  | ok ck s₁ =>
    rw [hk] at hc
    have c1 : s₁.stderr = s.stderr := congrArg (·.1) hc
    dsimp only
    rw [M.bind_run]
    obtain ⟨q, h1, h2, h3⟩ := decide_says ck notify user s₁
    have hq : q = [] ∨ q = question := by
      by_cases h : q = []
      · exact Or.inl h
      · exact Or.inr (h2 h).1
    rw [c1] at h1
    cases hd : decideCheck ck notify user s₁ with
    | err x s₂ =>
      rw [hd] at h1
      exact ⟨q, [], by rw [List.append_nil]; exact h1, hq, Or.inl rfl⟩
    | ok b s₂ =>
      rw [hd] at h1
      cases b with
      | false => exact ⟨q, [], by rw [List.append_nil]; exact h1, hq, Or.inl rfl⟩
      | true =>
        dsimp only
        rw [if_pos rfl]
        obtain ⟨content, k1, -⟩ := version_content i ck s₂
        have e : (performCheck i ck s₂).state.stderr = s.stderr ++ q ++ updateMessages i content := by
          rw [performCheck_messages i ck s₂ content k1]
          show s₂.stderr ++ _ = _
          rw [show s₂.stderr = s.stderr ++ q from h1]
        refine ⟨q, updateMessages i content, e, hq, ?_⟩
        by_cases hm : updateMessages i content = []
        · exact Or.inl hm
        · refine Or.inr ⟨ck, s₁, s₂, rfl, hd, fun hs => ?_⟩
          obtain ⟨u1, u2⟩ := C54_update_message_partial i ck s₂ hr hs ho
          rw [performCheck_messages i ck s₂ content k1] at u1 u2
          by_cases hu : UpdateKnown s₂ ck.cookiePath i.name i.version
          · exact ⟨List.append_cancel_left (u1 hu), hu⟩
          · have := u2 hu
            exact absurd (List.append_cancel_left (this.trans (List.append_nil _).symm)) hm

/-- C54 for `parse()` (release builds, numbers below `2^31`): a message is printed only if the version file, as it is when the check
has been decided on, says that there is a newer version of the app than the one that the developer set; and it is the message
below with the developer's address. -/
theorem C54_parse_message_partial (r : Surroundings) (g : Prog System) (hr : r.pages.build.ndebug = true)
    (h1 : ∀ d ∈ (declsOf g.parser.operations).options, ∀ x w, (d.validator x w).2.stderr = w.stderr)
    (h2 : ∀ d ∈ (declsOf g.parser.operations).positionals, ∀ x w, (d.validator x w).2.stderr = w.stderr)
    (ho : ∀ own, VersionInFront r.pages.info.version own → Small own) :
    ∃ q m, (parse r.env g).2.world.stderr = g.world.stderr ++ q ++ m ∧ (q = [] ∨ q = question) ∧
      (m = [] ∨ ∃ ck s₁ s₂, makeChecker (r.check g.parser.appName) g.world = .ok ck s₁ ∧
        decideCheck ck g.parser.notify (parse r.env g).2.parser.userDecision s₁ = .ok true s₂ ∧
        (SmallVersionFile s₂ ck.cookiePath g.parser.appName →
          m = messageAppUpdate r.pages.info.url ∧ UpdateKnown s₂ ck.cookiePath g.parser.appName r.pages.info.version)) := by
  rcases parse_steps r.env g with ⟨e, p, h⟩ | ⟨-, -, f, p, hs, h⟩
  · rw [h]
    exact ⟨[], [], by rw [List.append_nil, List.append_nil], Or.inl rfl, Or.inl rfl⟩
  · have hp := checkAndParse_parser r.env f { g with parser := p }
    rw [h, hp]
    obtain ⟨q, m, k1, k2, k3⟩ := check_says_update (r.check p.appName) p.notify p.userDecision g.world hr ho
    have hv : (r.env.versionCheck p.appName p.notify p.userDecision g.world).2 =
      (runVersionCheck (r.check p.appName) p.notify p.userDecision g.world).state := rfl
    refine ⟨q, m, ?_, k2, ?_⟩
    · rw [← k1, ← hv]
      unfold checkAndParse
      dsimp only
      generalize r.env.versionCheck p.appName p.notify p.userDecision g.world = c
      obtain ⟨o, w⟩ := c
      cases o with
      | some e => rfl
      | none =>
        exact guards_parseFormat (P := fun x : System => x.stderr = w.stderr) r.env f { g with parser := p, world := w }
          (fun f p st y hy => hy) (fun d hd x y hy => by
            have hd : d ∈ (declsOf p.operations).options := hd
            rw [hs.operations] at hd; exact (h1 d hd x y).trans hy)
          (fun d hd x y hy => by
            have hd : d ∈ (declsOf p.operations).positionals := hd
            rw [hs.operations] at hd; exact (h2 d hd x y).trans hy) rfl
    · rw [← hs.appName, ← hs.notify]
      exact k3

/-- C54: the message says that there is a new version, how to get rid of the message, and, if the developer set an address, where
to find the new version. -/
theorem C54_message_text (url : Str) :
    (url = [] → messageAppUpdate url =
      ("[APP VERSION INFO] :: A new version of this application is now available.\n" ++
        "[APP VERSION INFO] :: If you don't wish to receive further notifications, set --version-check false.\n\n").toList) ∧
    (url ≠ [] → messageAppUpdate url =
      ("[APP VERSION INFO] :: A new version of this application is now available.\n" ++
        "[APP VERSION INFO] :: If you don't wish to receive further notifications, set --version-check false.\n" ++
        "[APP VERSION INFO] :: Visit ").toList ++ url ++ " for updates.\n\n".toList) := by
  constructor
  · rintro rfl
    decide +kernel
  · intro h
    unfold messageAppUpdate
    rw [if_neg h, String.toList_append, String.toList_append]
    simp only [List.append_assoc]

/-! ### Examples -/

/-- A release build of version 1.2.3 with the address `x.org`, on a system with a version file. -/
def exReleased : Surroundings :=
  let r := exSurroundings {}
  { r with pages := { r.pages with info := { r.pages.info with version := "1.2.3".toList, url := "x.org".toList },
                                   build := { r.pages.build with ndebug := true } } }

def exUpdate (file : String) : Prog System :=
  exProgram (exSystem [exFile "app.version" file] 1000000 "") ["app", "-a", "1", "--version-check", "1"]

/-- A message is printed and a request is sent. -/
example : (parse exReleased.env (exUpdate "1.10.0\n")).2.world.stderr =
      ("[APP VERSION INFO] :: A new version of this application is now available.\n" ++
        "[APP VERSION INFO] :: If you don't wish to receive further notifications, set --version-check false.\n" ++
        "[APP VERSION INFO] :: Visit x.org for updates.\n\n").toList ∧
    (parse exReleased.env (exUpdate "1.10.0\n")).2.world.commands.length = 1 ∧
    (parse exReleased.env (exUpdate "1.2.3\n")).2.world.stderr = [] := by
  decide +kernel

end Sharg
