import Verif.Lemmas.Trace
import Verif.Lemmas.Scan

/-! Further lemmas on set-up histories, names and sub-parsers. -/

set_option linter.unusedSimpArgs false

namespace Sharg

open Spec

variable {W : Type}

theorem runActions_append (env : Env W) (x y : List (Action W)) (g : Prog W) :
    runActions env (x ++ y) g = runActions env y (runActions env x g) := by
  induction x generalizing g with
  | nil => rfl
  | cons b x ih => exact ih _

theorem parsed_keep (env : Env W) (x : List (Action W)) (g : Prog W) (h : g.parser.parseWasCalled = true) :
    (runActions env x g).parser.parseWasCalled = true := by
  induction x generalizing g with
  | nil => exact h
  | cons b x ih =>
    apply ih
    cases b with
    | parse => exact (parse_parser env g).2
    | call c =>
      by_cases hc : Acceptable g.parser.situation c
      · rw [Action.call_run_acceptable env c g hc]; exact h
      · obtain ⟨p, hp, hr⟩ := Action.call_run_rejected env c g hc
        rw [hr]
        dsimp only
        rw [(reject_operations c _ _ _ hc hp).2.2.2, h]

theorem idsAcceptable_congr (cfg : Config) (l l' : List Str) (h : ∀ s, s ∈ l ↔ s ∈ l') :
    IdsAcceptable l cfg ↔ IdsAcceptable l' cfg := by
  simp [IdsAcceptable, h]

theorem acceptable_congr (S S' : Situation) (c : Call W) (h1 : S.parsed = S'.parsed) (h2 : ∀ s, s ∈ S.taken ↔ s ∈ S'.taken)
    (h3 : S.hasSubcommand = S'.hasSubcommand) (h4 : S.hasPositionalList = S'.hasPositionalList) :
    Acceptable S c ↔ Acceptable S' c := by
  cases c <;> simp [Acceptable, h1, h3, h4, idsAcceptable_congr _ _ _ h2]

theorem mem_burnt_call (c : Call W) (s : Str) : s ∈ c.burnt ↔ s ∈ allIds [c] := by
  cases c <;> simp [Call.burnt, idConfig, allIds, mem_burnt]

theorem allIds_cons (c : Call W) (cs : List (Call W)) : allIds (c :: cs) = allIds [c] ++ allIds cs := by
  unfold allIds
  rw [show c :: cs = [c] ++ cs from rfl, List.filterMap_append, List.flatMap_append]

/-- State after a history in which every call was accepted. -/
theorem all_accepted (env : Env W) (cs : List (Call W)) (g : Prog W)
    (h : accepted env (cs.map .call) g = cs) :
    (∀ s, s ∈ (runActions env (cs.map .call) g).parser.usedIds ↔ s ∈ g.parser.usedIds ∨ s ∈ allIds cs) ∧
    (runActions env (cs.map .call) g).parser.parseWasCalled = g.parser.parseWasCalled ∧
    (runActions env (cs.map .call) g).parser.hasPositionalListOption =
      (g.parser.hasPositionalListOption || cs.any isPositionalList) := by
  induction cs generalizing g with
  | nil => simp [runActions, allIds]
  | cons c cs ih =>
    simp only [List.map_cons, accepted, runActions] at h ⊢
    by_cases hc : Acceptable g.parser.situation c
    · rw [Action.call_run_acceptable env c g hc] at h ⊢
      simp only [List.cons.injEq, true_and] at h
      obtain ⟨h1, h2, h3⟩ := ih _ h
      refine ⟨fun s => ?_, ?_, ?_⟩
      · rw [h1 s, allIds_cons, List.mem_append, ← mem_burnt_call]
        simp only [Call.effect, List.mem_append]
        grind
      · rw [h2]; rfl
      · rw [h3]; simp [Call.effect, Bool.or_assoc]
    · obtain ⟨p, hp, hr⟩ := Action.call_run_rejected env c g hc
      rw [hr] at h
      dsimp only at h
      exfalso
      have hlen : ∀ (as : List (Action W)) (g : Prog W), (accepted env as g).length ≤ as.length := by
        intro as
        induction as with
        | nil => simp [accepted]
        | cons a as ih =>
          intro g
          cases a with
          | parse => simp only [accepted, List.length_cons]; exact Nat.le_succ_of_le (ih _)
          | call c =>
            simp only [accepted, List.length_cons]
            split
            · simp only [List.length_cons]; exact Nat.succ_le_succ (ih _)
            · exact Nat.le_succ_of_le (ih _)
      have := hlen (cs.map .call) { g with parser := p }
      rw [h] at this
      simp at this
      omega

theorem matchesNameRegex_iff (s : Str) : matchesNameRegex s = true ↔ CleanName s := by
  unfold matchesNameRegex CleanName
  rw [Bool.and_eq_true, List.all_eq_true]
  refine and_congr (by cases s <;> simp) ?_
  refine forall_congr' fun c => imp_congr_right fun _ => ?_
  unfold isNameChar
  simp only [Bool.or_eq_true, decide_eq_true_eq, beq_iff_eq, Char.le_def, UInt32.le_iff_toNat_le, Char.toNat]
  grind

theorem scanLoop_sub (options subs args : List Str) (s : ScanState) (r : List Str) (hs : s.sub = none)
    (h : (scanLoop options subs args s).state.sub = some r) : ∃ x rest, r = x :: rest ∧ x ∈ subs := by
  obtain ⟨toks, stop, hr⟩ := reading_exists options subs args
  have hk := hr.stopOk
  rw [scan_reading _ _ _ _ _ hr] at h
  cases stop <;> simp [Stop.exn?, Res.state, scanResult, Stop.sub?, hs] at h
  exact ⟨_, _, h.symm, hk.2⟩

end Sharg
