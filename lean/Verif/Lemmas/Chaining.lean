import Verif.Model.Chaining
import Verif.Spec.Chaining
import Verif.Props.Regex
import Verif.Props.Ends
import Verif.Props.Tutorial

/-!
# Lemmas about the program with two validators in a row
-/

namespace Sharg

open Spec

open Classical in
theorem inputFile_onSystem (exts : List Str) (help : Str) (t : Str) (s : System) :
    (inputFile exts help).onSystem.run t s = if InputUsable s exts t then .ok () s else .err .validationError s := by
  have hk : ((∃ n, Reaches s.disk (pathArg s.cwd t).loc n ∧ Readable n) ∧ NameAccepted exts (pathArg s.cwd t).name) ↔ InputUsable s exts t :=
    ⟨fun h => ⟨h.1, fun name hn => by rw [← nameOf_unique hn]; exact h.2⟩, fun h => ⟨h.1, h.2 _ (nameOf_fileName t)⟩⟩
  rw [onSystem_run]
  by_cases h : InputUsable s exts t
  · rw [if_pos h, (C40_input_file exts help _ _).1.2 (hk.2 h)]
  · rw [if_neg h, (C40_input_file exts help _ _).2.2 fun hh => h (hk.1 hh)]

open Classical in
theorem patternFile_run {p : Str} {A : Str → Prop} (hp : PatternFor p A) (other : Str → Option (Str → Bool)) (e : Exn) (exts : List Str)
    (help : Str) (t : Str) (s : System) :
    (patternFile other e p exts help).run t s = if A t ∧ InputUsable s exts t then .ok () s else .err .validationError s := by
  show M.bind ((patternValidator other e p).run t) (fun _ => (inputFile exts help).onSystem.run t) s = _
  rw [M.bind_run, (C103_accepts other e p A hp s).1 t]
  by_cases h : A t
  · rw [if_pos h]
    show (inputFile exts help).onSystem.run t s = _
    rw [inputFile_onSystem]
    by_cases h2 : InputUsable s exts t
    · rw [if_pos h2, if_pos ⟨h, h2⟩]
    · rw [if_neg h2, if_neg fun hh => h2 hh.2]
  · rw [if_neg h, if_neg fun hh => h hh.1]

theorem patternFile_state {p : Str} {A : Str → Prop} (hp : PatternFor p A) (other : Str → Option (Str → Bool)) (e : Exn) (exts : List Str)
    (help : Str) (t : Str) (s : System) : ((patternFile other e p exts help).run t s).state = s := by
  rw [patternFile_run hp]
  split <;> rfl

open Classical in
theorem patternFile_each {p : Str} {A : Str → Prop} (hp : PatternFor p A) (other : Str → Option (Str → Bool)) (e : Exn) (exts : List Str)
    (help : Str) (ts : List Str) (s : System) :
    (patternFile other e p exts help).each.run ts s =
      if (∀ t ∈ ts, A t ∧ InputUsable s exts t) then .ok () s else .err .validationError s := by
  show M.forEach (patternFile other e p exts help).run ts s = _
  induction ts with
  | nil => rw [if_pos (by simp)]; rfl
  | cons t ts ih =>
    rw [M.forEach_cons, M.bind_run, patternFile_run hp]
    by_cases h : A t ∧ InputUsable s exts t
    · rw [if_pos h]
      show M.forEach _ ts s = _
      rw [ih]
      by_cases h2 : ∀ t ∈ ts, A t ∧ InputUsable s exts t
      · rw [if_pos h2, if_pos fun u hu => (List.mem_cons.1 hu).elim (fun he => he ▸ h) (h2 u)]
      · rw [if_neg h2, if_neg fun hh => h2 fun u hu => hh u (.tail _ hu)]
    · rw [if_neg h, if_neg fun hh => h (hh t (.head _))]

theorem absolutePattern_for : PatternFor absolutePattern AbsoluteText := C103_absolute_pattern

open Classical in
theorem absoluteFile_atTexts (t : Str) (s : System) : absoluteFile.atTexts (.one (.str t)) s = (decide (FilePassed s t), s) := by
  show absoluteFile.inParser t s = _
  unfold Validator.inParser absoluteFile
  rw [patternFile_run absolutePattern_for]
  by_cases h : FilePassed s t
  · rw [if_pos ⟨h.absolute, h.usable⟩, decide_eq_true h]
  · rw [if_neg fun hh => h ⟨hh.1, hh.2⟩, decide_eq_false h]

/-! ### The texts -/

theorem split_last {c : Char} {s : Str} (h : c ∈ s) : ∃ a b, s = a ++ c :: b ∧ c ∉ b := by
  induction s with
  | nil => cases h
  | cons d s ih =>
    by_cases hs : c ∈ s
    · obtain ⟨a, b, rfl, hb⟩ := ih hs
      exact ⟨d :: a, b, rfl, hb⟩
    · rcases List.mem_cons.1 h with rfl | h
      · exact ⟨[], s, rfl, hs⟩
      · exact absurd h hs

theorem sameText_last {s t : Str} (h : SameText s t) : ∀ c, s.getLast? = some c → ∃ d, t.getLast? = some d ∧ SameLetter c d := by
  induction s generalizing t with
  | nil => intro c hc; cases hc
  | cons a s ih =>
    cases t with
    | nil => exact absurd h id
    | cons b t =>
      intro c hc
      cases s with
      | nil =>
        cases t with
        | nil => cases hc; exact ⟨b, rfl, h.1⟩
        | cons _ _ => exact absurd h.2 id
      | cons a' s =>
        cases t with
        | nil => exact absurd h.2 id
        | cons b' t => exact ih h.2 c hc

theorem absoluteText_iff {s : System} {t : Str} (hu : InputUsable s ["sa".toList, "so".toList] t) (h1 : '\n' ∉ t) (h2 : '\r' ∉ t) :
    AbsoluteText t ↔ InDirectory t := by
  constructor
  · rintro ⟨names, r, e, rfl, hne, hn, -⟩
    cases names with
    | nil => exact absurd rfl hne
    | cons n names =>
      have := hn n (.head _)
      cases names with
      | nil => exact ⟨n, r ++ '.' :: e, by simp, this.1, this.2⟩
      | cons m names => exact ⟨n, m ++ names.flatMap ('/' :: ·) ++ '/' :: r ++ '.' :: e, by simp, this.1, this.2⟩
  · rintro ⟨n, rest, rfl, hn, hn2⟩
    have hname := nameOf_fileName ('/' :: n ++ '/' :: rest)
    generalize fileName ('/' :: n ++ '/' :: rest) = name at hname
    rcases hu.2 name hname with h | ⟨⟨b, e, he, -⟩, -, ext, hext, b', e', hb', hs⟩
    · cases h
    obtain ⟨a, x, hax, hx⟩ := split_last (c := '.') (s := name) (by rw [he]; simp)
    have hx0 : x ≠ [] := by
      rintro rfl
      have hl : name.getLast? = some '.' := by rw [hax]; simp
      have he0 : e' ≠ [] := by
        rintro rfl
        simp only [List.mem_cons, List.not_mem_nil, or_false] at hext
        rcases hext with rfl | rfl <;> exact hs
      have hl' : e'.getLast? = some '.' := by
        rcases hb' with ⟨h, -⟩ | h
        · rw [h, List.getLast?_append] at hl
          cases hg : e'.getLast? with
          | none => exact absurd (List.getLast?_eq_none_iff.1 hg) he0
          | some c => rw [hg] at hl; simpa using hl
        · rw [h, ← List.cons_append, List.getLast?_append] at hl
          cases hg : e'.getLast? with
          | none => exact absurd (List.getLast?_eq_none_iff.1 hg) he0
          | some c => rw [hg] at hl; simpa using hl
      obtain ⟨d, hd, hsl⟩ := sameText_last hs '.' hl'
      simp only [List.mem_cons, List.not_mem_nil, or_false] at hext
      rcases hext with rfl | rfl <;>
      · have : d = _ := (Option.some.inj hd).symm
        subst this
        revert hsl
        unfold SameLetter
        decide +kernel
    have hxs : '/' ∉ x := fun hc => hname.1 (by rw [hax]; simp [hc])
    have ht : ∃ dir, '/' :: n ++ '/' :: rest = (dir ++ '/' :: a) ++ '.' :: x := by
      rcases hname.2 with h | ⟨dir, h⟩
      · exact absurd (by rw [← h]; simp) hname.1
      · exact ⟨dir, by rw [h, hax]; simp⟩
    obtain ⟨dir, ht⟩ := ht
    rcases List.append_eq_append_iff.1 ht with ⟨c, hc1, hc2⟩ | ⟨c, hc1, hc2⟩
    · cases c with
      | nil => cases hc2
      | cons y c =>
        rw [List.cons_append, List.cons.injEq] at hc2
        obtain ⟨rfl, rfl⟩ := hc2
        refine ⟨[n], c, x, by simp, by simp, by simpa using ⟨hn, hn2⟩, fun h => h1 (by simp [h]), fun h => h2 (by simp [h]), hx0, hxs, hx⟩
    · have : '/' ∈ '.' :: x := by rw [hc2]; simp
      rcases List.mem_cons.1 this with h | h
      · cases h
      · exact absurd h hxs

/-! ### The program -/

def chainedOption : OptDecl System := ⟨'f', "file".toList, 0, false, .string, false, absoluteFile.atTexts⟩

def chainingDecls : Decls System := ⟨[chainedOption], [], []⟩

theorem chaining_accepted (env : Env System) (args : List Str) (s : System) :
    (accepted env (chainingCalls.map .call)
      (start { appName := "Test".toList, arguments := args, notify := true, subcommands := [], executableName := [] }
        (fun _ => .one (.str [])) s)).length = 1 := rfl

theorem chaining_reachable (env : Env System) (args : List Str) (s : System) : Reachable env (chaining env args s) := ⟨_, _, _, _, rfl⟩

theorem chaining_decls (env : Env System) (args : List Str) (s : System) : decls (chaining env args s) = chainingDecls :=
  (congrArg declsOf (operations_of_length env chainingCalls _ (chaining_accepted env args s))).trans rfl

theorem shortTexts_chained (items : List Item) : shortTexts chainedOption items = shortFiles items := rfl

theorem longTexts_chained (items : List Item) : longTexts chainedOption items = longFiles items := rfl

theorem assign_texts (x : VarId) (ts : List Str) (st : Store) :
    ∃ st', AssignEnds .string x ts st st' none ∧ st' x = (match ts.getLast? with | some t => .one (.str t) | none => st x) ∧
      ∀ y, y ≠ x → st' y = st y := by
  induction ts generalizing st with
  | nil => exact ⟨st, .nil, rfl, fun _ _ => rfl⟩
  | cons t ts ih =>
    obtain ⟨st', h1, h2, h3⟩ := ih (st.set x (.one (.str t)))
    refine ⟨st', .next (show Denotes .string t (.str t) from rfl) h1, ?_, fun y hy => (h3 y hy).trans (Store.set_ne _ _ hy)⟩
    rw [h2]
    cases ts with
    | nil => exact Store.set_self _ _ _
    | cons u ts => rw [List.getLast?_cons_cons]; cases hg : (u :: ts).getLast? with
      | none => exact absurd (List.getLast?_eq_none_iff.1 hg) (by simp)
      | some v => rfl

theorem suspect_chaining {items : List Item} {tail : Option (List Str)} (h : NeatLine chainingDecls items tail) :
    Suspect chainingDecls items ↔ StrayDash items := by
  constructor
  · rintro (⟨f, hf, _⟩ | ⟨it, hi, hk⟩)
    · cases hf
    · refine ⟨it, hi, ?_⟩
      cases it with
      | flags cs => exact Or.inl ⟨cs, rfl⟩
      | longFlag s => exact Or.inr ⟨s, rfl⟩
      | short _ _ _ => exact absurd trivial hk
      | long _ _ _ => exact absurd trivial hk
      | word _ => exact absurd trivial hk
  · rintro ⟨it, hi, ⟨cs, rfl⟩ | ⟨s, rfl⟩⟩
    · have hs := (h.itemsSaid _ hi).1
      refine Or.inr ⟨_, hi, fun hk => ?_⟩
      cases cs with
      | nil => exact hs rfl
      | cons c cs =>
        obtain ⟨f, hf, -⟩ := hk c (.head _)
        cases hf
    · refine Or.inr ⟨_, hi, fun ⟨f, hf, _⟩ => ?_⟩
      cases hf

end Sharg
