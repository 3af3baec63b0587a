import Verif.Spec.Loosen
import Verif.Lemmas.Upgrade

/-!
# Lemmas about programs that demand less
-/

namespace Sharg

open Spec

variable {W : Type}

/-- What the first code does successfully, the second one does as well. -/
def Refines {σ α : Type} (m m' : M σ α) : Prop := ∀ s a s', m s = .ok a s' → m' s = .ok a s'

theorem Refines.rfl' {σ α : Type} (m : M σ α) : Refines m m := fun _ _ _ h => h

theorem Refines.bind {σ α β : Type} {m m' : M σ α} {f f' : α → M σ β} (h : Refines m m') (hf : ∀ a, Refines (f a) (f' a)) :
    Refines (M.bind m f) (M.bind m' f') := by
  intro s b s' hs
  obtain ⟨a, s₁, h1, h2⟩ := (M.bind_eq_ok _ _ _ _ _).1 hs
  exact (M.bind_eq_ok _ _ _ _ _).2 ⟨a, s₁, h _ _ _ h1, hf _ _ _ _ h2⟩

theorem Refines.throw {σ α : Type} (e : Exn) (m : M σ α) : Refines (M.throw e) m := fun _ _ _ h => by cases h

/-! ### Values -/

theorem fromChars_wider {lo hi lo' hi' : Int} (h1 : lo' ≤ lo) (h2 : hi ≤ hi') (s : Str) (v : Int) (h : fromChars lo hi s = .ok v []) :
    fromChars lo' hi' s = .ok v [] := by
  have hneg : (decide (lo < 0) && (s.head? == some '-')) = (decide (lo' < 0) && (s.head? == some '-')) := by
    cases hd : s.head? == some '-' with
    | false => simp
    | true =>
      by_cases hl : lo < 0
      · simp [hl, show lo' < 0 by omega]
      · exfalso
        unfold fromChars at h
        dsimp only at h
        rw [hd, decide_eq_false hl] at h
        cases s with
        | nil => simp at hd
        | cons c t =>
          obtain rfl : c = '-' := by simpa using hd
          rw [if_pos] at h
          · cases h
          · rw [Bool.false_and, if_neg (by decide), List.takeWhile_cons_of_neg (by decide)]
  unfold fromChars at h ⊢
  dsimp only at h ⊢
  rw [← hneg]
  generalize (if (decide (lo < 0) && (s.head? == some '-')) then s.tail else s) = body at *
  by_cases h0 : body.takeWhile isDigit = []
  · rw [if_pos h0] at h; cases h
  · rw [if_neg h0] at h ⊢
    generalize (if (decide (lo < 0) && (s.head? == some '-')) = true then -(digitsVal (body.takeWhile isDigit) : Int)
      else (digitsVal (body.takeWhile isDigit) : Int)) = u at *
    by_cases hu : u < lo ∨ hi < u
    · rw [if_pos hu] at h; cases h
    · rw [if_neg hu] at h
      rw [if_neg (by omega)]
      exact h

theorem parseInteger_wider {lo hi lo' hi' : Int} (h1 : lo' ≤ lo) (h2 : hi ≤ hi') (s : Str) (r : Option Elem)
    (h : parseInteger lo hi s = (.success, r)) : parseInteger lo' hi' s = (.success, r) := by
  unfold parseInteger at h
  cases hf : fromChars lo hi s with
  | outOfRange => rw [hf] at h; cases h
  | invalid => rw [hf] at h; cases h
  | ok v rest =>
    rw [hf] at h
    dsimp only at h
    by_cases hr : rest = []
    · subst hr
      unfold parseInteger
      rw [fromChars_wider h1 h2 s v hf]
      exact h
    · rw [if_neg hr] at h; cases h

theorem readElem_wider {ty ty' : ElemTy} (h : WiderType ty ty') {t : Str} {e : Elem} (ht : readElem ty t = some e) : readElem ty' t = some e := by
  cases h with
  | same => exact ht
  | @integers lo hi lo' hi' h1 h2 =>
    have hp : parseInteger lo hi t = (.success, some e) := Except.ok.inj ((readElem_some _ _ _).1 ht)
    exact (readElem_some _ _ _).2 (congrArg Except.ok (parseInteger_wider h1 h2 t _ hp))
  | @names names names' hn =>
    have hp : parseEnum names t = .ok (.success, some e) := (readElem_some _ _ _).1 ht
    refine (readElem_some _ _ _).2 (show parseEnum names' t = _ from ?_)
    unfold parseEnum at hp ⊢
    cases hl : names.lookup t with
    | none => rw [hl] at hp; dsimp only at hp; split at hp <;> cases hp
    | some tag => rw [hl] at hp; rw [hn t tag hl]; exact hp

theorem assignScalar_wider (nd : Bool) {ty ty' : ElemTy} (h : WiderType ty ty') (x : VarId) (text : Str) :
    Refines (assignScalar (W := W) nd ty x text) (assignScalar nd ty' x text) := by
  intro s a s' hs
  obtain ⟨e, he, rfl⟩ := (assignScalar_ok _ _ _ _ _ _ _).1 hs
  exact (assignScalar_ok _ _ _ _ _ _ _).2 ⟨e, readElem_wider h he, rfl⟩

theorem appendList_read (nd : Bool) (ty : ElemTy) (x : VarId) (t : Str) (e : Elem) (h : readElem ty t = some e) (s : FState W) :
    appendList nd ty x t s = .ok () { s with store := s.store.set x ((s.store x).pushBack e) } := by
  unfold appendList
  rw [(readElem_some _ _ _).1 h]
  simp only [M.do_bind, throwOnInputError, if_true, M.bind_run, M.modify_run, throwIf, M.pure_run, Option.getD_some]

theorem appendList_debug (ty : ElemTy) (x : VarId) (t : Str) (s s' : FState W) (a : Unit) (h : appendList false ty x t s = .ok a s') :
    ∃ e, readElem ty t = some e := by
  unfold appendList at h
  cases hp : parseElem ty t with
  | error e => simp [hp] at h
  | ok r =>
    obtain ⟨res, written⟩ := r
    cases res with
    | success => obtain ⟨e, -, he⟩ := parseElem_success ty t written hp; exact ⟨e, he⟩
    | error => simp [hp, throwOnInputError, throwIf] at h
    | overflowError => simp [hp, throwOnInputError, throwIf] at h

theorem appendList_wider (nd : Bool) {ty ty' : ElemTy} (h : WiderType ty ty') (hnd : nd = true → ty = ty') (x : VarId) (text : Str) :
    Refines (appendList (W := W) nd ty x text) (appendList nd ty' x text) := by
  cases nd with
  | true => rw [hnd rfl]; exact .rfl' _
  | false =>
    intro s a s' hs
    obtain ⟨e, he⟩ := appendList_debug _ _ _ _ _ _ hs
    rw [appendList_read _ _ _ _ _ he] at hs
    rw [appendList_read _ _ _ _ _ (readElem_wider h he)]
    exact hs

theorem validate_looser {v v' : Val → W → Bool × W} (h : Loosens v v') (x : VarId) : Refines (validate v x) (validate v' x) := by
  intro s a s' hs
  unfold validate at hs ⊢
  cases hv : v (s.store x) s.world with
  | mk b w =>
    rw [hv] at hs
    cases b with
    | false => cases hs
    | true =>
      rw [h _ _ _ hv]
      exact hs

/-! ### Options and positional options -/

structure LooserOpt (nd : Bool) (d d' : OptDecl W) : Prop where
  short : d'.short = d.short
  long : d'.long = d.long
  var : d'.var = d.var
  isList : d'.isList = d.isList
  required : d'.required = true → d.required = true
  type : Widened nd d.isList d.ty d'.ty
  validator : Loosens d.validator d'.validator

structure LooserPos (nd : Bool) (d d' : PosDecl W) : Prop where
  var : d'.var = d.var
  isList : d'.isList = d.isList
  type : Widened nd d.isList d.ty d'.ty
  validator : Loosens d.validator d'.validator

theorem collect_wider (nd : Bool) {ty ty' : ElemTy} (h : WiderType ty ty') (hnd : nd = true → ty = ty') (x : VarId) (id : Id) (n : Nat) :
    ∀ (l front : List Str), l.length ≤ n → Refines (collect (W := W) nd ty x id front l) (collect nd ty' x id front l) := by
  induction n with
  | zero =>
    intro l front hl
    cases l with
    | nil => exact .rfl' _
    | cons => simp at hl
  | succ n ih =>
    intro l front hl
    cases l with
    | nil => exact .rfl' _
    | cons a rest =>
      have hl : rest.length ≤ n := by simpa using hl
      unfold collect
      by_cases h1 : id.hits a
      · rw [if_pos h1, if_pos h1]
        by_cases h2 : id.dashed.length < a.length
        · rw [if_pos h2, if_pos h2]
          cases retrieve id a rest with
          | error e => exact .rfl' _
          | ok r => exact .bind (appendList_wider nd h hnd x _) fun _ => ih _ _ hl
        · rw [if_neg h2, if_neg h2]
          cases rest with
          | nil => exact .rfl' _
          | cons v rest' => exact .bind (appendList_wider nd h hnd x _) fun _ => ih _ _ (by simp at hl; omega)
      · rw [if_neg h1, if_neg h1]
        exact ih _ _ hl

theorem getOptionById_looser {nd : Bool} {d d' : OptDecl W} (h : LooserOpt nd d d') (id : Id) :
    Refines (getOptionById nd d id) (getOptionById nd d' id) := by
  obtain ⟨-, -, hv, hl, -, ⟨ht, hnd⟩, -⟩ := h
  unfold getOptionById
  rw [hl, hv]
  by_cases hL : d.isList = true
  · rw [if_pos hL, if_pos hL]
    intro s a s' hs
    unfold getOptionByIdList at hs ⊢
    cases hf : findOptionId id s.pre with
    | mk front back =>
      rw [hf] at hs
      cases back with
      | nil => exact hs
      | cons b back =>
        exact (Refines.bind (.rfl' _) fun _ => .bind (collect_wider nd ht (fun hn => hnd hn hL) _ id _ _ _ (Nat.le_refl _)) fun _ => .rfl' _) _ _ _ hs
  · rw [if_neg hL, if_neg hL]
    intro s a s' hs
    unfold getOptionByIdScalar at hs ⊢
    cases hf : findOptionId id s.pre with
    | mk front back =>
      rw [hf] at hs
      cases back with
      | nil => exact hs
      | cons b back =>
        dsimp only at hs ⊢
        cases hr : retrieve id b back with
        | error e => rw [hr] at hs; cases hs
        | ok r =>
          rw [hr] at hs
          exact (Refines.bind (.rfl' _) fun _ => .bind (assignScalar_wider nd ht _ _) fun _ => .rfl' _) _ _ _ hs

theorem getOption_looser {nd : Bool} {d d' : OptDecl W} (h : LooserOpt nd d d') : Refines (getOption nd d) (getOption nd d') := by
  unfold getOption
  rw [h.short, h.long, h.var, h.isList]
  refine .bind (getOptionById_looser h _) fun a => .bind (getOptionById_looser h _) fun b => ?_
  by_cases h1 : (a && b && !d.isList) = true
  · rw [if_pos h1, if_pos h1]; exact .rfl' _
  · rw [if_neg h1, if_neg h1]
    by_cases h2 : (a || b) = true
    · rw [if_pos h2, if_pos h2]; exact validate_looser h.validator _
    · rw [if_neg h2, if_neg h2]
      by_cases h3 : d.required = true
      · rw [if_pos h3]; exact .throw _ _
      · rw [if_neg h3, if_neg fun h' => h3 (h.required h')]; exact .rfl' _

theorem fillList_wider (nd : Bool) {ty ty' : ElemTy} (h : WiderType ty ty') (hnd : nd = true → ty = ty') (x : VarId) (l : List Str) :
    ∀ front, Refines (fillList (W := W) nd ty x front l) (fillList nd ty' x front l) := by
  induction l with
  | nil => exact fun _ => .rfl' _
  | cons a l ih =>
    intro front
    unfold fillList
    by_cases h1 : a = []
    · rw [if_pos h1, if_pos h1]; exact ih _
    · rw [if_neg h1, if_neg h1]
      exact .bind (appendList_wider nd h hnd x a) fun _ => ih _

theorem getPositional_looser {nd last : Bool} {d d' : PosDecl W} (h : LooserPos nd d d') :
    Refines (getPositional nd last d) (getPositional nd last d') := by
  obtain ⟨hv, hl, ⟨ht, hnd⟩, hval⟩ := h
  intro s a s' hs
  unfold getPositional at hs ⊢
  rw [hl, hv]
  cases hd : s.pre.dropWhile (fun a => a = []) with
  | nil => rw [hd] at hs; cases hs
  | cons b rest =>
    rw [hd] at hs
    dsimp only at hs ⊢
    by_cases hL : d.isList = true
    · rw [if_pos hL] at hs ⊢
      by_cases ha : (!nd && !last) = true
      · rw [if_pos ha] at hs; cases hs
      · rw [if_neg ha] at hs ⊢
        exact (Refines.bind (.rfl' _) fun _ => .bind (fillList_wider nd ht (fun hn => hnd hn hL) _ _ _) fun _ => validate_looser hval _) _ _ _ hs
    · rw [if_neg hL] at hs ⊢
      exact (Refines.bind (assignScalar_wider nd ht _ _) fun _ => .bind (.rfl' _) fun _ => validate_looser hval _) _ _ _ hs

theorem pointwise_isEmpty {α β : Type} {R : α → β → Prop} {l : List α} {m : List β} (h : Pointwise R l m) : l.isEmpty = m.isEmpty := by
  cases h <;> rfl

theorem runPositionals_looser {nd : Bool} {ds ds' : List (PosDecl W)} (h : Pointwise (LooserPos nd) ds ds') :
    Refines (runPositionals nd ds) (runPositionals nd ds') := by
  induction h with
  | nil => exact .rfl' _
  | cons hd hr ih =>
    unfold runPositionals
    rw [pointwise_isEmpty hr]
    exact .bind (getPositional_looser hd) fun _ => ih

theorem options_looser {nd : Bool} {ds ds' : List (OptDecl W)} (h : Pointwise (LooserOpt nd) ds ds') :
    Refines (M.forEach (getOption nd) ds) (M.forEach (getOption nd) ds') := by
  induction h with
  | nil => exact .rfl' _
  | cons hd hr ih => exact .bind (getOption_looser hd) fun _ => ih

theorem parseBody_looser {nd : Bool} {D D' : Decls W} (ho : Pointwise (LooserOpt nd) D.options D'.options) (hf : D'.flags = D.flags)
    (hp : Pointwise (LooserPos nd) D.positionals D'.positionals) : Refines (parseBody nd D) (parseBody nd D') := by
  unfold parseBody
  rw [hf]
  exact .bind (options_looser ho) fun _ => .bind (.rfl' _) fun _ => .bind (.rfl' _) fun _ => .bind (.rfl' _) fun _ =>
    .bind (runPositionals_looser hp) fun _ => .rfl' _

/-! ### The parser -/

/-- The two releases during their set-up. -/
structure Beneath (nd : Bool) (g g' : Prog W) : Prop where
  options : Pointwise (LooserOpt nd) (declsOf g.parser.operations).options (declsOf g'.parser.operations).options
  flags : (declsOf g'.parser.operations).flags = (declsOf g.parser.operations).flags
  positionals : Pointwise (LooserPos nd) (declsOf g.parser.operations).positionals (declsOf g'.parser.operations).positionals
  parser : g'.parser = { g.parser with operations := g'.parser.operations }
  store : g'.store = g.store
  world : g'.world = g.world

theorem pointwise_append {α β : Type} {R : α → β → Prop} {l l' : List α} {m m' : List β} (h : Pointwise R l m) (h' : Pointwise R l' m') :
    Pointwise R (l ++ l') (m ++ m') := by
  induction h with
  | nil => exact h'
  | cons hd _ ih => exact .cons hd ih

theorem Beneath.situation {nd : Bool} {g g' : Prog W} (h : Beneath nd g g') : g'.parser.situation = g.parser.situation := by
  rw [h.parser]; rfl

/-- One step of the set-up on each side. -/
theorem Beneath.step {nd : Bool} {g g' : Prog W} (h : Beneath nd g g') (c c' : Call W) (hb : c'.burnt = c.burnt) (hd : c'.dashed = c.dashed)
    (hl : isPositionalList c' = isPositionalList c)
    (hs : ∀ p : Parser W, (c'.effect p).subcommands = (c.effect p).subcommands)
    (ho : Pointwise (LooserOpt nd) (declsOf c.entry?.toList).options (declsOf c'.entry?.toList).options)
    (hf : (declsOf c'.entry?.toList).flags = (declsOf c.entry?.toList).flags)
    (hp : Pointwise (LooserPos nd) (declsOf c.entry?.toList).positionals (declsOf c'.entry?.toList).positionals) :
    Beneath nd { g with parser := c.effect g.parser } { g' with parser := c'.effect g'.parser } := by
  obtain ⟨p, st, w⟩ := g
  obtain ⟨p', st', w'⟩ := g'
  obtain ⟨b1, b2, b3, b4, b5, b6⟩ := h
  dsimp only at b1 b2 b3 b4 b5 b6
  have e1 : (c.effect p).operations = p.operations ++ c.entry?.toList := rfl
  have e2 : (c'.effect p').operations = p'.operations ++ c'.entry?.toList := rfl
  refine ⟨?_, ?_, ?_, ?_, b5, b6⟩
  · dsimp only
    rw [e1, e2, declsOf_append, declsOf_append]
    exact pointwise_append b1 ho
  · dsimp only
    rw [e1, e2, declsOf_append, declsOf_append]
    dsimp only
    rw [b2, hf]
  · dsimp only
    rw [e1, e2, declsOf_append, declsOf_append]
    exact pointwise_append b3 hp
  · dsimp only
    have hs' := hs p'
    rw [b4] at hs' ⊢
    unfold Call.effect at hs' ⊢
    dsimp only at hs' ⊢
    rw [hb, hd, hl]
    congr 1

theorem Beneath.text {nd : Bool} {g g' : Prog W} (h : Beneath nd g g') (c : Call W) (hc : isText c) :
    Beneath nd { g with parser := c.effect g.parser } g' ∧ Beneath nd g { g' with parser := c.effect g'.parser } := by
  obtain ⟨p, st, w⟩ := g
  obtain ⟨p', st', w'⟩ := g'
  obtain ⟨b1, b2, b3, b4, b5, b6⟩ := h
  dsimp only at b1 b2 b3 b4 b5 b6
  have e : ∀ q : Parser W, c.effect q = { q with operations := q.operations ++ c.entry?.toList } ∧
      declsOf (q.operations ++ c.entry?.toList) = declsOf q.operations := by
    intro q
    cases c <;> first | exact hc.elim | (rw [declsOf_append]; simp [Call.effect, Call.burnt, Call.dashed, idConfig, isPositionalList, Call.entry?, declsOf])
  refine ⟨⟨?_, ?_, ?_, ?_, b5, b6⟩, ⟨?_, ?_, ?_, ?_, b5, b6⟩⟩
  · dsimp only; rw [(e p).1]; dsimp only; rw [(e p).2]; exact b1
  · dsimp only; rw [(e p).1]; dsimp only; rw [(e p).2]; exact b2
  · dsimp only; rw [(e p).1]; dsimp only; rw [(e p).2]; exact b3
  · dsimp only; rw [(e p).1]; dsimp only; rw [b4]
  · dsimp only; rw [(e p').1]; dsimp only; rw [(e p').2]; exact b1
  · dsimp only; rw [(e p').1]; dsimp only; rw [(e p').2]; exact b2
  · dsimp only; rw [(e p').1]; dsimp only; rw [(e p').2]; exact b3
  · dsimp only; rw [(e p').1]; dsimp only; rw [b4]

theorem isText_acceptable {S : Situation} {c : Call W} (hc : isText c) : Acceptable S c ↔ S.parsed = false := by
  cases c <;> first | exact hc.elim | exact Iff.rfl

theorem idsAcceptable_same {taken : List Str} {cfg cfg' : Config} (h1 : cfg'.short = cfg.short) (h2 : cfg'.long = cfg.long) :
    IdsAcceptable taken cfg' ↔ IdsAcceptable taken cfg := by
  unfold IdsAcceptable; rw [h1, h2]

theorem setup_looser (env : Env W) {cs cs' : List (Call W)} (h : Loosened env.ndebug cs cs') :
    ∀ {g g' : Prog W}, Beneath env.ndebug g g' → g.parser.parseWasCalled = false → AllAccepted env cs g →
      AllAccepted env cs' g' ∧ Beneath env.ndebug (runActions env (cs.map .call) g) (runActions env (cs'.map .call) g') := by
  induction h with
  | nil => intro g g' hb _ _; exact ⟨rfl, hb⟩
  | @option cs cs' cfg cfg' x isList ty ty' v v' h1 h2 h3 h4 h5 _ ih =>
    intro g g' hb hn ha
    obtain ⟨hc, ha⟩ := accepted_cons env _ _ _ ha
    have hc' : Acceptable g'.parser.situation (.addOption cfg' x isList ty' v') := by
      rw [hb.situation]
      exact ⟨hc.1, (idsAcceptable_same h1 h2).2 hc.2.1, fun hd => hd.2 (h3 hd.1).2⟩
    have hb' := hb.step (.addOption cfg x isList ty v) (.addOption cfg' x isList ty' v')
      (by simp only [Call.burnt, idConfig, Option.map_some, Option.getD_some, burnt, h1, h2])
      (by simp only [Call.dashed, dashedIds, h1, h2]) rfl (fun _ => rfl)
      (.cons ⟨h1, h2, rfl, rfl, fun hr => (h3 hr).1, h4, h5⟩ .nil) rfl .nil
    obtain ⟨r1, r2⟩ := ih hb' hn ha
    rw [run_cons env _ _ _ hc, run_cons env _ _ _ hc']
    exact ⟨accepted_of env _ _ _ hc' r1, r2⟩
  | @flag cs cs' cfg cfg' x value h1 h2 h3 _ ih =>
    intro g g' hb hn ha
    obtain ⟨hc, ha⟩ := accepted_cons env _ _ _ ha
    have hc' : Acceptable g'.parser.situation (.addFlag cfg' x value : Call W) := by
      rw [hb.situation]
      exact ⟨hc.1, (idsAcceptable_same h1 h2).2 hc.2.1, h3.trans hc.2.2.1, hc.2.2.2⟩
    have hb' := hb.step (.addFlag cfg x value) (.addFlag cfg' x value)
      (by simp only [Call.burnt, idConfig, Option.map_some, Option.getD_some, burnt, h1, h2]) rfl rfl (fun _ => rfl)
      .nil (by simp only [Call.entry?, Option.toList_some, declsOf, List.filterMap_cons, h1, h2, List.filterMap_nil]) .nil
    obtain ⟨r1, r2⟩ := ih hb' hn ha
    rw [run_cons env _ _ _ hc, run_cons env _ _ _ hc']
    exact ⟨accepted_of env _ _ _ hc' r1, r2⟩
  | @positional cs cs' cfg cfg' x isList ty ty' v v' h1 h4 h5 _ ih =>
    intro g g' hb hn ha
    obtain ⟨hc, ha⟩ := accepted_cons env _ _ _ ha
    have hc' : Acceptable g'.parser.situation (.addPositionalOption cfg' x isList ty' v') := by
      rw [hb.situation, ← h1]
      exact hc
    have hb' := hb.step (.addPositionalOption cfg x isList ty v) (.addPositionalOption cfg' x isList ty' v') rfl rfl rfl (fun _ => rfl)
      .nil rfl (.cons ⟨rfl, rfl, h4, h5⟩ .nil)
    obtain ⟨r1, r2⟩ := ih hb' hn ha
    rw [run_cons env _ _ _ hc, run_cons env _ _ _ hc']
    exact ⟨accepted_of env _ _ _ hc' r1, r2⟩
  | subcommands ns _ ih =>
    intro g g' hb hn ha
    obtain ⟨hc, ha⟩ := accepted_cons env _ _ _ ha
    have hc' : Acceptable g'.parser.situation (.addSubcommands ns : Call W) := trivial
    have hb' := hb.step (.addSubcommands ns) (.addSubcommands ns) rfl rfl rfl (fun _ => rfl) .nil rfl .nil
    obtain ⟨r1, r2⟩ := ih hb' hn ha
    rw [run_cons env _ _ _ hc, run_cons env _ _ _ hc']
    exact ⟨accepted_of env _ _ _ hc' r1, r2⟩
  | textBefore ht _ ih =>
    intro g g' hb hn ha
    obtain ⟨hc, ha⟩ := accepted_cons env _ _ _ ha
    obtain ⟨r1, r2⟩ := ih (hb.text _ ht).1 hn ha
    rw [run_cons env _ _ _ hc]
    exact ⟨r1, r2⟩
  | @textAfter cs cs' c ht _ ih =>
    intro g g' hb hn ha
    have hc' : Acceptable g'.parser.situation c := by rw [hb.situation]; exact (isText_acceptable ht).2 hn
    obtain ⟨r1, r2⟩ := ih (hb.text _ ht).2 hn ha
    rw [run_cons env _ _ _ hc']
    exact ⟨accepted_of env _ _ _ hc' r1, r2⟩

/-- The same command line for the new release. -/
theorem parse_looser (env : Env W) {g g' r : Prog W} (h : Beneath env.ndebug g g') (hr : parse env g = (.returned, r)) :
    ∃ r', parse env g' = (.returned, r') ∧ r'.store = r.store ∧ r'.world = r.world ∧ r'.parser = { r.parser with operations := g'.parser.operations } := by
  obtain ⟨p, st, w⟩ := g
  obtain ⟨p', st', w'⟩ := g'
  obtain ⟨b1, b2, b3, b4, b5, b6⟩ := h
  dsimp only at b1 b2 b3 b4 b5 b6
  subst b5 b6
  by_cases hp : Ready p
  case neg => rw [parse_not_ready env _ hp] at hr; cases hr
  have hp' : Ready p' := by rw [b4]; exact ⟨hp.1, hp.2, hp.3⟩
  cases ha : p.arguments with
  | nil => rw [parse_no_arguments env _ hp ha] at hr; cases hr
  | cons exe args =>
    have ha' : p'.arguments = exe :: args := by rw [b4]; exact ha
    obtain ⟨toks, stop, hread⟩ := reading_exists p.options p.subcommands args
    have hread' : Reading p'.options p'.subcommands args toks stop := by rw [b4]; exact hread
    rw [parse_reading env _ hp exe args ha toks stop hread] at hr
    rw [parse_reading env _ hp' exe args ha' toks stop hread']
    cases hs : stop.exn? with
    | some e => rw [hs] at hr; cases hr
    | none =>
      rw [hs] at hr
      dsimp only at hr ⊢
      have hdec : decided toks stop = .parse := by
        by_cases hd : decided toks stop = .parse
        · exact hd
        · exact absurd (by rw [hr]) (checkAndParse_page env _ hd _).1
      rw [hdec] at hr ⊢
      have hsc : scannedParser p' exe toks stop = { scannedParser p exe toks stop with operations := p'.operations } := by
        rw [b4]; rfl
      rw [hsc]
      unfold checkAndParse at hr ⊢
      dsimp only at hr ⊢
      cases hv : env.versionCheck (scannedParser p exe toks stop).appName (scannedParser p exe toks stop).notify
          (scannedParser p exe toks stop).userDecision w' with
      | mk o w₁ =>
        rw [hv] at hr
        cases o with
        | some e => cases hr
        | none =>
          dsimp only at hr ⊢
          unfold parseFormat at hr ⊢
          dsimp only at hr ⊢
          cases hf : formatParse env.ndebug (declsOf (scannedParser p exe toks stop).operations) (scannedParser p exe toks stop).formatArguments st' w₁ with
          | err e s => rw [hf] at hr; cases hr
          | ok a s =>
            rw [hf] at hr
            rw [show formatParse env.ndebug (declsOf p'.operations) (scannedParser p exe toks stop).formatArguments st' w₁ = .ok a s from
              parseBody_looser b1 b2 b3 _ _ _ hf]
            cases hr
            exact ⟨_, rfl, rfl, rfl, rfl⟩

/-- A page for the old release is a page of the same kind for the new one. -/
theorem parse_looser_page (env : Env W) {g g' : Prog W} {f : Format} (h : Beneath env.ndebug g g') (hr : (parse env g).1 = .exited f) :
    SamePage env (parse env g) (parse env g') := by
  obtain ⟨p, st, w⟩ := g
  obtain ⟨p', st', w'⟩ := g'
  obtain ⟨-, -, -, b4, b5, b6⟩ := h
  dsimp only at b4 b5 b6
  subst b5 b6
  by_cases hp : Ready p
  case neg => rw [parse_not_ready env _ hp] at hr; cases hr
  have hp' : Ready p' := by rw [b4]; exact ⟨hp.1, hp.2, hp.3⟩
  cases ha : p.arguments with
  | nil => rw [parse_no_arguments env _ hp ha] at hr; cases hr
  | cons exe args =>
    have ha' : p'.arguments = exe :: args := by rw [b4]; exact ha
    obtain ⟨toks, stop, hread⟩ := reading_exists p.options p.subcommands args
    have hread' : Reading p'.options p'.subcommands args toks stop := by rw [b4]; exact hread
    rw [parse_reading env _ hp exe args ha toks stop hread] at hr ⊢
    rw [parse_reading env _ hp' exe args ha' toks stop hread']
    cases hs : stop.exn? with
    | some e => rw [hs] at hr; cases hr
    | none =>
      rw [hs] at hr
      dsimp only at hr ⊢
      by_cases hd : decided toks stop = .parse
      · rw [hd] at hr; exact absurd hr (checkAndParse_parse env _ f)
      have hsc : scannedParser p' exe toks stop = { scannedParser p exe toks stop with operations := p'.operations } := by
        rw [b4]; rfl
      rw [hsc]
      unfold checkAndParse at hr ⊢
      dsimp only at hr ⊢
      cases hv : env.versionCheck (scannedParser p exe toks stop).appName (scannedParser p exe toks stop).notify
          (scannedParser p exe toks stop).userDecision w' with
      | mk o w₁ =>
        rw [hv] at hr
        cases o with
        | some e => cases hr
        | none => exact ⟨_, _, _, _, _, hd, rfl, rfl⟩

theorem beneath_refl (nd : Bool) (g : Prog W) (h : g.parser.operations = []) : Beneath nd g g := by
  refine ⟨?_, rfl, ?_, rfl, rfl, rfl⟩ <;> rw [h] <;> exact .nil

end Sharg
