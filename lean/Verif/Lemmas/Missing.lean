import Verif.Spec.Missing
import Verif.Lemmas.Ends

/-!
# An identifier without value on a line
-/

set_option linter.unusedSimpArgs false

namespace Sharg

open Spec

variable {W : Type}

/-! ### Texts on both sides -/

theorem consumeAll_append (id : Id) (l₂ : List Str) : ∀ (n : Nat) (l₁ : List Str), l₁.length ≤ n → ∀ v₁ m₁, consumeAll id l₁ = some (v₁, m₁) →
    consumeAll id (l₁ ++ l₂) = (consumeAll id l₂).map fun p => (v₁ ++ p.1, m₁ ++ p.2) := by
  intro n
  induction n with
  | zero =>
    intro l₁ hn v₁ m₁ h
    have : l₁ = [] := by simpa using hn
    subst this
    simp [consumeAll] at h
    obtain ⟨rfl, rfl⟩ := h
    simp
  | succ n ih =>
    intro l₁ hn v₁ m₁ h
    cases l₁ with
    | nil =>
      simp [consumeAll] at h
      obtain ⟨rfl, rfl⟩ := h
      simp
    | cons a rest =>
      have hr : rest.length ≤ n := by simpa using hn
      rw [consumeAll.eq_def] at h
      rw [List.cons_append, consumeAll.eq_def]
      by_cases hh : id.hits a = true
      · simp only [hh, if_true] at h ⊢
        by_cases hl : id.dashed.length < a.length
        · simp only [hl, if_true] at h ⊢
          cases hi : inlineVal id a with
          | none => simp [hi] at h
          | some v =>
            simp only [hi, Option.map_eq_some_iff] at h ⊢
            obtain ⟨⟨vs, l''⟩, hc, hp⟩ := h
            simp only [Prod.mk.injEq] at hp
            obtain ⟨rfl, rfl⟩ := hp
            rw [ih rest hr vs l'' hc, Option.map_map]
            rfl
        · simp only [hl, if_false] at h ⊢
          cases rest with
          | nil => simp at h
          | cons v rest' =>
            have hr' : rest'.length ≤ n := by simp at hr; omega
            simp only [Option.map_eq_some_iff, List.cons_append] at h ⊢
            obtain ⟨⟨vs, l''⟩, hc, hp⟩ := h
            simp only [Prod.mk.injEq] at hp
            obtain ⟨rfl, rfl⟩ := hp
            rw [ih rest' hr' vs l'' hc, Option.map_map]
            rfl
      · simp only [hh] at h ⊢
        simp only [Bool.false_eq_true, if_false, Option.map_eq_some_iff] at h ⊢
        obtain ⟨⟨vs, l''⟩, hc, hp⟩ := h
        simp only [Prod.mk.injEq] at hp
        obtain ⟨rfl, rfl⟩ := hp
        rw [ih rest hr vs l'' hc, Option.map_map]
        rfl

/-- An argument that does not concern the identifier. -/
theorem consumeId_around (id : Id) {l₁ l₂ v₁ m₁ v₂ m₂ : List Str} {o : Str} (h₁ : consumeId id l₁ = some (v₁, m₁))
    (h₂ : consumeId id l₂ = some (v₂, m₂)) (ho : id.isEmpty = true ∨ id.hits o = false) :
    consumeId id (l₁ ++ o :: l₂) = some (v₁ ++ v₂, m₁ ++ o :: m₂) := by
  unfold consumeId at h₁ h₂ ⊢
  split at h₁
  · rename_i he
    rw [if_pos he] at h₂ ⊢
    simp only [Option.some.injEq, Prod.mk.injEq] at h₁ h₂
    obtain ⟨rfl, rfl⟩ := h₁
    obtain ⟨rfl, rfl⟩ := h₂
    rfl
  · rename_i he
    rw [if_neg he] at h₂ ⊢
    have ho : id.hits o = false := ho.resolve_left he
    have h3 : consumeAll id (o :: l₂) = some (v₂, o :: m₂) := by
      rw [consumeAll.eq_def]
      simp only [ho, Bool.false_eq_true, if_false, h₂, Option.map_some]
    rw [consumeAll_append id (o :: l₂) _ _ (Nat.le_refl _) _ _ h₁, h3]
    rfl

theorem findOptionId_at (id : Id) (he : id.isEmpty = false) {front : List Str} (hf : ∀ a ∈ front, id.hits a = false) {a : Str} (ha : id.hits a = true)
    (rest : List Str) : findOptionId id (front ++ a :: rest) = (front, a :: rest) := by
  unfold findOptionId
  rw [if_neg (by simp [he]), List.takeWhile_append_of_pos (by simpa using hf), List.dropWhile_append_of_pos (by simpa using hf),
    List.takeWhile_cons, List.dropWhile_cons]
  simp [ha]

theorem retrieve_append (id : Id) {a : Str} {rest text blanks rest'} (h : retrieve id a rest = .ok (text, blanks, rest')) (l : List Str) :
    retrieve id a (rest ++ l) = .ok (text, blanks, rest' ++ l) := by
  by_cases hl : id.dashed.length < a.length
  · rw [retrieve_inline id a _ hl] at h ⊢
    cases hi : inlineVal id a with
    | none => simp [hi] at h
    | some v => simp [hi] at h ⊢; grind
  · rw [retrieve_sep id a _ hl] at h ⊢
    cases rest with
    | nil => simp at h
    | cons v rest => simp at h ⊢; grind

/-! ### The identifier without value -/

/-- What happens to an identifier with the texts `vals` and then none. -/
def absWanting (nd : Bool) (d : OptDecl W) (vals : List Str) : M (Core W) Unit :=
  if d.isList then M.bind (lift (setVar d.var (.many []))) fun _ =>
    M.bind (M.forEach (fun t => lift (appendList nd d.ty d.var t)) vals) fun _ => M.throw .tooFewArguments
  else match vals with
    | [] => M.throw .tooFewArguments
    | v :: _ => M.bind (lift (assignScalar nd d.ty d.var v)) fun _ => M.throw .optionDeclaredMultipleTimes

/-- The same exception and the same variables and world. -/
def SameErr {α β : Type} (r : Res (FState W) α) (q : Res (Core W) β) : Prop := ∃ e s', r = .err e s' ∧ q = .err e s'.core

theorem sameErr_bind {α β α' β' : Type} {m : FM W α} {f : α → FM W β} {s : FState W} {m' : M (Core W) α'} {f' : α' → M (Core W) β'}
    (h : SameErr (m s) (m' s.core)) : SameErr (M.bind m f s) (M.bind m' f' s.core) := by
  obtain ⟨e, s', h1, h2⟩ := h
  exact ⟨e, s', by rw [M.bind_run, h1], by rw [M.bind_run, h2]⟩

theorem sameErr_of {α β β' : Type} {m : FM W α} {f : α → FM W β} {s : FState W} {m' : M (Core W) α} {f' : α → M (Core W) β'}
    (h1 : (m s).core = m' s.core) (h2 : ∀ a s', m s = .ok a s' → SameErr (f a s') (f' a s'.core)) : SameErr (M.bind m f s) (M.bind m' f' s.core) := by
  rw [M.bind_run, M.bind_run, ← h1]
  cases hm : m s with
  | ok a s' => exact h2 a s' hm
  | err e s' => exact ⟨e, s', rfl, rfl⟩

theorem sameErr_append_true {α β γ : Type} {m : FM W α} {f : α → FM W β} {s : FState W} {q : Res (Core W) γ} (h : SameErr (m s) q) :
    SameErr (M.bind m f s) q := by
  obtain ⟨e, s', h1, h2⟩ := h
  exact ⟨e, s', by rw [M.bind_run, h1], h2⟩

theorem collect_wanting (nd : Bool) (ty : ElemTy) (x : VarId) (id : Id) (o : Str) (l₂ : List Str) (ho : id.hits o = true)
    (hr : retrieve id o l₂ = .error .tooFewArguments) : ∀ (n : Nat) (l front : List Str) (s : FState W) (vals l' : List Str), l.length ≤ n →
      consumeAll id l = some (vals, l') → SameErr (collect nd ty x id front (l ++ o :: l₂) s)
        (M.bind (M.forEach (fun t => lift (appendList nd ty x t)) vals) (fun _ => (M.throw .tooFewArguments : M (Core W) Unit)) s.core) := by
  have hend : ∀ (front : List Str) (s : FState W), SameErr (collect nd ty x id front (o :: l₂) s)
      (M.bind (M.forEach (fun t => lift (appendList nd ty x t)) []) (fun _ => (M.throw .tooFewArguments : M (Core W) Unit)) s.core) := by
    intro front s
    refine ⟨.tooFewArguments, s, ?_, rfl⟩
    rw [collect.eq_def]
    simp only [ho, if_true]
    by_cases hl : id.dashed.length < o.length
    · simp only [hl, if_true, hr]; rfl
    · rw [retrieve_sep id o _ hl] at hr
      simp only [hl, if_false]
      cases l₂ with
      | nil => rfl
      | cons v l₂ => simp at hr
  intro n
  induction n with
  | zero =>
    intro l front s vals l' hn hc
    have : l = [] := by simpa using hn
    subst this
    simp [consumeAll] at hc
    obtain ⟨rfl, rfl⟩ := hc
    exact hend front s
  | succ n ih =>
    intro l front s vals l' hn hc
    cases l with
    | nil =>
      simp [consumeAll] at hc
      obtain ⟨rfl, rfl⟩ := hc
      exact hend front s
    | cons a rest =>
      have hr : rest.length ≤ n := by simpa using hn
      rw [List.cons_append, collect.eq_def]
      rw [consumeAll.eq_def] at hc
      have hstep : ∀ (v : Str) (vs : List Str) (c : Core W), M.bind (M.forEach (fun t => lift (appendList nd ty x t)) (v :: vs))
          (fun _ => (M.throw .tooFewArguments : M (Core W) Unit)) c = M.bind (lift (appendList nd ty x v)) (fun _ =>
            M.bind (M.forEach (fun t => lift (appendList nd ty x t)) vs) fun _ => (M.throw .tooFewArguments : M (Core W) Unit)) c := by
        intro v vs c
        rw [M.forEach_cons]
        simp only [M.bind_run]
        cases lift (appendList nd ty x v) c <;> rfl
      by_cases hh : id.hits a = true
      · simp only [hh, if_true] at hc ⊢
        by_cases hl : id.dashed.length < a.length
        · simp only [hl, if_true] at hc ⊢
          rw [retrieve_inline id a _ hl]
          cases hi : inlineVal id a with
          | none => simp [hi] at hc
          | some v =>
            simp only [hi, Option.map_eq_some_iff] at hc
            obtain ⟨⟨vs, l''⟩, hc, hp⟩ := hc
            simp only [Prod.mk.injEq] at hp
            obtain ⟨rfl, rfl⟩ := hp
            rw [hstep]
            exact sameErr_of (appendList_core nd ty x v s) (fun u s' h => ih rest _ _ _ _ hr hc)
        · simp only [hl, if_false] at hc ⊢
          cases rest with
          | nil => simp at hc
          | cons v rest' =>
            have hr' : rest'.length ≤ n := by simp at hr; omega
            simp only [Option.map_eq_some_iff, List.cons_append] at hc ⊢
            obtain ⟨⟨vs, l''⟩, hc, hp⟩ := hc
            simp only [Prod.mk.injEq] at hp
            obtain ⟨rfl, rfl⟩ := hp
            rw [hstep]
            exact sameErr_of (appendList_core nd ty x v s) (fun u s' h => ih rest' _ _ _ _ hr' hc)
      · simp only [hh] at hc ⊢
        simp only [Bool.false_eq_true, if_false, Option.map_eq_some_iff] at hc ⊢
        obtain ⟨⟨vs, l''⟩, hc, hp⟩ := hc
        simp only [Prod.mk.injEq] at hp
        obtain ⟨rfl, rfl⟩ := hp
        exact ih rest _ _ _ _ hr hc

/-- The search for the identifier comes to the argument without value. -/
theorem byId_wanting (nd : Bool) (d : OptDecl W) (id : Id) (he : id.isEmpty = false) (s : FState W) {l₁ l₂ vals m₁ : List Str} {o : Str}
    (hs : s.pre = l₁ ++ o :: l₂) (hc : consumeId id l₁ = some (vals, m₁)) (ho : id.hits o = true)
    (hr : retrieve id o l₂ = .error .tooFewArguments) : SameErr (getOptionById nd d id s) (absWanting nd d vals s.core) := by
  have hc' : consumeAll id l₁ = some (vals, m₁) := by
    unfold consumeId at hc
    rwa [if_neg (by simp [he])] at hc
  unfold getOptionById absWanting
  split
  · unfold getOptionByIdList
    rw [hs]
    have hne : (findOptionId id (l₁ ++ o :: l₂)).2 ≠ [] := by
      intro h
      rcases (findOptionId_nil_iff id _).1 h with h | h
      · rw [he] at h; cases h
      · have := h o (by simp); rw [ho] at this; cases this
    cases hf : findOptionId id (l₁ ++ o :: l₂) with
    | mk front back =>
      rw [hf] at hne
      cases back with
      | nil => exact absurd rfl hne
      | cons a rest =>
        dsimp only
        refine sameErr_of (m := setVar d.var (.many [])) (m' := lift (setVar d.var (.many []))) rfl (fun u s' h => ?_)
        exact sameErr_append_true (collect_wanting nd d.ty d.var id o l₂ ho hr _ l₁ [] s' vals m₁ (Nat.le_refl _) hc')
  · unfold getOptionByIdScalar
    rw [hs]
    cases hf : findOptionId id l₁ with
    | mk front back =>
      obtain ⟨hl, hfront, hback⟩ := findOptionId_spec id l₁ front back hf
      cases back with
      | nil =>
        rw [List.append_nil] at hl
        subst hl
        have hno := hfront he
        rw [consumeAll_none_hit id _ hno] at hc'
        simp only [Option.some.injEq, Prod.mk.injEq] at hc'
        obtain ⟨rfl, rfl⟩ := hc'
        rw [findOptionId_at id he hno ho]
        simp only [hr]
        exact ⟨_, _, rfl, rfl⟩
      | cons a rest =>
        obtain ⟨-, ha⟩ := hback a rfl
        subst hl
        rw [consumeAll_skip id front _ (hfront he), consumeAll_hit id a rest ha] at hc'
        cases hra : retrieve id a rest with
        | error e => simp [hra] at hc'
        | ok q =>
          obtain ⟨text, blanks, rest'⟩ := q
          simp only [hra, Option.map_eq_some_iff] at hc'
          obtain ⟨_, ⟨⟨vs, l2⟩, h3, rfl⟩, h4⟩ := hc'
          simp only [Prod.mk.injEq] at h4
          obtain ⟨rfl, rfl⟩ := h4
          rw [List.append_assoc, List.cons_append, findOptionId_at id he (hfront he) ha]
          simp only [retrieve_append id hra]
          rw [M.bind_run, setPre_run]
          dsimp only
          refine sameErr_of (m' := lift (assignScalar nd d.ty d.var text)) (s := { s with pre := front ++ blanks ++ (rest' ++ o :: l₂) })
            (assignScalar_core nd d.ty d.var text _) (fun u s' h => ?_)
          have hne : (findOptionId id (rest' ++ o :: l₂)).2 ≠ [] := by
            intro h
            rcases (findOptionId_nil_iff id _).1 h with h | h
            · rw [he] at h; cases h
            · have := h o (by simp); rw [ho] at this; cases this
          cases hf2 : findOptionId id (rest' ++ o :: l₂) with
          | mk front2 back2 =>
            rw [hf2] at hne
            cases back2 with
            | nil => exact absurd rfl hne
            | cons b2 r2 => exact ⟨_, _, rfl, rfl⟩

/-! ### Which identifiers are concerned -/

/-- The identifier that has no value. -/
def wantingId (d : OptDecl W) (short : Bool) : Id := if short then .short d.short else .long d.long

theorem wanting_hits (d : OptDecl W) (short eq : Bool) : (wantingId d short).hits (wanting d short eq) = true := by
  cases short with
  | true => exact (Id.hits_short_iff _ _).2 ⟨_, rfl⟩
  | false =>
    refine (Id.hits_long_iff _ _).2 ?_
    cases eq with
    | false => exact Or.inl (by simp [wanting])
    | true => exact Or.inr ⟨[], by simp [wanting]⟩

theorem wanting_retrieve (d : OptDecl W) (short eq : Bool) (l : List Str) (hl : eq = false → l = []) :
    retrieve (wantingId d short) (wanting d short eq) l = .error .tooFewArguments := by
  cases eq with
  | false =>
    rw [hl rfl, retrieve_sep]
    cases short <;> simp [wanting, wantingId, Id.dashed]
  | true =>
    rw [retrieve_inline _ _ _ (by cases short <;> simp [wanting, wantingId, Id.dashed])]
    have : inlineVal (wantingId d short) (wanting d short true) = none := by
      unfold inlineVal
      cases short <;> simp [wanting, wantingId, Id.dashed]
    rw [this]

/-- No other identifier finds it. -/
theorem wanting_only {D : Decls W} (hD : IdsOk D) {d : OptDecl W} (hd : d ∈ D.options) {short : Bool} (eq : Bool)
    (hne : if short then d.short ≠ '\x00' else d.long ≠ []) {id : Id} (hid : OptId D id) (hh : id.hits (wanting d short eq) = true) :
    id = wantingId d short := by
  cases id with
  | short c =>
    obtain ⟨hc, e, he, rfl⟩ := hid
    obtain ⟨t, ht⟩ := (Id.hits_short_iff _ _).1 hh
    have hdash := (hD.shortChars _ (mem_shortIds_option he hc)).2
    cases short with
    | true => simp [wanting] at ht; simp [wantingId, ht.1]
    | false => simp [wanting] at ht; exact absurd ht.1.symm hdash
  | long s =>
    obtain ⟨hs, e, he, rfl⟩ := hid
    have heq := hD.no_eq_option he
    cases short with
    | true =>
      have hdash := (hD.shortChars _ (mem_shortIds_option hd hne)).2
      rcases (Id.hits_long_iff _ _).1 hh with h | ⟨t, h⟩ <;> simp [wanting] at h <;> exact absurd h.1 hdash
    | false =>
      have hdeq := hD.no_eq_option hd
      cases eq with
      | false =>
        rcases (Id.hits_long_iff _ _).1 hh with h | ⟨t, h⟩
        · simp [wanting] at h; simp [wantingId, h]
        · simp [wanting] at h; exact absurd (by rw [h]; simp) hdeq
      | true =>
        rcases (Id.hits_long_iff _ _).1 hh with h | ⟨t, h⟩
        · simp [wanting] at h; exact absurd (by rw [← h]; simp) heq
        · simp [wanting] at h
          have := eq_of_append_eq (u := []) hdeq heq h
          simp [wantingId, this]

theorem wantingId_fresh {D : Decls W} (hD : IdsOk D) {front back : List (OptDecl W)} {d e : OptDecl W} (hsplit : D.options = front ++ d :: back)
    {short : Bool} (hne : if short then d.short ≠ '\x00' else d.long ≠ []) (he : e ∈ front) :
    Id.short e.short ≠ wantingId d short ∧ Id.long e.long ≠ wantingId d short := by
  have hd : d ∈ D.options := by rw [hsplit]; simp
  cases short with
  | true =>
    have hit : (Item.short d.short .attached ['x']).Loose D := ⟨hne, ⟨d, hd, rfl⟩, by simp⟩
    have h := not_done_yet hD hsplit hit (by simp [usedBy, Id.used])
    unfold doneBy at h
    rw [List.any_eq_false] at h
    have := h e he
    simp [usedBy, Id.used] at this
    exact ⟨by simpa [wantingId] using this, by simp [wantingId]⟩
  | false =>
    have hit : (Item.long d.long false ['x']).Loose D := ⟨hne, ⟨d, hd, rfl⟩, by simp⟩
    have h := not_done_yet hD hsplit hit (by simp [usedBy, Id.used])
    unfold doneBy at h
    rw [List.any_eq_false] at h
    have := h e he
    simp [usedBy, Id.used] at this
    exact ⟨by simp [wantingId], by simpa [wantingId] using this⟩

theorem wanting_missed {D : Decls W} (hD : IdsOk D) {d : OptDecl W} (hd : d ∈ D.options) {short : Bool} (eq : Bool)
    (hne : if short then d.short ≠ '\x00' else d.long ≠ []) {id : Id} (hid : id.isEmpty = true ∨ OptId D id) (hdiff : id ≠ wantingId d short) :
    id.isEmpty = true ∨ id.hits (wanting d short eq) = false := by
  rcases hid with h | h
  · exact Or.inl h
  · refine Or.inr ?_
    cases hh : id.hits (wanting d short eq) with
    | false => rfl
    | true => exact absurd (wanting_only hD hd eq hne h hh) hdiff

/-! ### The options in turn -/

/-- The option without value. -/
def absMissing (nd : Bool) (d : OptDecl W) (short : Bool) (items₁ items₂ : List Item) : M (Core W) Unit :=
  if short then absWanting nd d (shortValues d items₁)
  else M.bind (absById nd d (shortValues d (items₁ ++ items₂))) fun _ => absWanting nd d (longValues d items₁)

theorem getOption_missing {D : Decls W} (hD : IdsOk D) (items₁ items₂ : List Item) (hit₁ : ∀ it ∈ items₁, it.Loose D) (hit₂ : ∀ it ∈ items₂, it.Loose D)
    (nd : Bool) {front back : List (OptDecl W)} {d : OptDecl W} (hsplit : D.options = front ++ d :: back) {short : Bool} (eq : Bool)
    (hne : if short then d.short ≠ '\x00' else d.long ≠ []) (hlast : eq = false → items₂ = []) (s : FState W)
    (hs : s.pre = stage (doneBy front) items₁ ++ wanting d short eq :: stage (doneBy front) items₂) :
    SameErr (getOption nd d s) (absMissing nd d short items₁ items₂ s.core) := by
  have hd : d ∈ D.options := by rw [hsplit]; simp
  obtain ⟨l₁, h1, h2⟩ := getOption_loose hD items₁ hit₁ hsplit
  obtain ⟨l₂, h3, h4⟩ := getOption_loose hD items₂ hit₂ hsplit
  have hl2 : items₂ = [] → stage (doneBy front) items₂ = [] := by rintro rfl; rfl
  unfold getOption absMissing
  cases short with
  | true =>
    refine sameErr_append_true ?_
    exact byId_wanting nd d (wantingId d true) (by simpa [wantingId, Id.isEmpty] using hne) s hs h1 (wanting_hits d true eq)
      (wanting_retrieve d true eq _ (fun h => hl2 (hlast h)))
  | false =>
    have h5 := consumeId_around (.short d.short) h1 h3
      (wanting_missed hD hd eq hne (optId_short hd) (by simp [wantingId]) : _ ∨ (Id.short d.short).hits (wanting d false eq) = false)
    rw [← hs] at h5
    have hsv : shortValues d items₁ ++ shortValues d items₂ = shortValues d (items₁ ++ items₂) := by
      unfold shortValues; rw [List.filterMap_append]
    refine sameErr_of ((byId_core nd d _ s _ _ h5).trans (by rw [hsv])) (fun a s1 hs1 => ?_)
    obtain ⟨p1, -⟩ := byId_pre nd d _ s s1 a _ _ h5 hs1
    refine sameErr_append_true ?_
    refine byId_wanting nd d (wantingId d false) (by simpa [wantingId, Id.isEmpty] using hne) s1 p1 h2 (wanting_hits d false eq)
      (wanting_retrieve d false eq _ (fun h => ?_))
    have h6 := hlast h
    subst h6
    have h7 : consumeId (.short d.short) [] = some (shortValues d [], l₂) := h3
    unfold consumeId at h7
    split at h7 <;> simp [consumeAll, shortValues] at h7 <;> exact h7

theorem options_missing {D : Decls W} (hD : IdsOk D) (items₁ items₂ : List Item) (hit₁ : ∀ it ∈ items₁, it.Loose D) (hit₂ : ∀ it ∈ items₂, it.Loose D)
    (nd : Bool) {d : OptDecl W} {short : Bool} (eq : Bool) (hne : if short then d.short ≠ '\x00' else d.long ≠ []) (hlast : eq = false → items₂ = [])
    (back : List (OptDecl W)) (front : List (OptDecl W)) : ∀ (proc : List (OptDecl W)) (s : FState W), D.options = proc ++ (front ++ d :: back) →
      s.pre = stage (doneBy proc) items₁ ++ wanting d short eq :: stage (doneBy proc) items₂ →
      SameErr (M.forEach (getOption nd) (front ++ d :: back) s)
        (M.bind (absOptions nd (items₁ ++ items₂) front) (fun _ => absMissing nd d short items₁ items₂) s.core) := by
  induction front with
  | nil =>
    intro proc s hsplit hs
    rw [List.nil_append, M.forEach_cons]
    exact sameErr_append_true (getOption_missing hD items₁ items₂ hit₁ hit₂ nd hsplit eq hne hlast s hs)
  | cons c front ih =>
    intro proc s hsplit hs
    have hsplit' : D.options = proc ++ c :: (front ++ d :: back) := hsplit
    have hd : d ∈ D.options := by rw [hsplit]; simp
    have hc : c ∈ D.options := by rw [hsplit]; simp
    have hfresh := wantingId_fresh hD (front := proc ++ c :: front) (back := back) (d := d) (e := c) (by rw [hsplit]; simp) hne (by simp)
    obtain ⟨l₁, h1, h2⟩ := getOption_loose hD items₁ hit₁ hsplit'
    obtain ⟨l₂, h3, h4⟩ := getOption_loose hD items₂ hit₂ hsplit'
    have h5 := consumeId_around (.short c.short) h1 h3 (wanting_missed hD hd eq hne (optId_short hc) hfresh.1)
    have h6 := consumeId_around (.long c.long) h2 h4 (wanting_missed hD hd eq hne (optId_long hc) hfresh.2)
    have hsv : shortValues c items₁ ++ shortValues c items₂ = shortValues c (items₁ ++ items₂) := by
      unfold shortValues; rw [List.filterMap_append]
    have hlv : longValues c items₁ ++ longValues c items₂ = longValues c (items₁ ++ items₂) := by
      unfold longValues; rw [List.filterMap_append]
    rw [hsv, ← hs] at h5
    rw [hlv] at h6
    obtain ⟨h7, h8⟩ := getOption_core nd c s _ _ _ _ h5 h6
    have hassoc : M.bind (absOptions nd (items₁ ++ items₂) (c :: front)) (fun _ => absMissing nd d short items₁ items₂) s.core =
        M.bind (absOption nd c (shortValues c (items₁ ++ items₂)) (longValues c (items₁ ++ items₂))) (fun _ =>
          M.bind (absOptions nd (items₁ ++ items₂) front) fun _ => absMissing nd d short items₁ items₂) s.core := by
      unfold absOptions
      rw [M.forEach_cons]
      simp only [M.bind_run]
      cases absOption nd c (shortValues c (items₁ ++ items₂)) (longValues c (items₁ ++ items₂)) s.core <;> rfl
    rw [List.cons_append, M.forEach_cons, hassoc]
    exact sameErr_of h7 (fun u s1 hs1 => ih (proc ++ [c]) s1 (by simp [hsplit]) (h8 u s1 hs1).1)

theorem wanting_ne_endMarker {D : Decls W} (hD : IdsOk D) {d : OptDecl W} (hd : d ∈ D.options) {short : Bool} (eq : Bool)
    (hne : if short then d.short ≠ '\x00' else d.long ≠ []) : wanting d short eq ≠ endMarker := by
  cases short with
  | true =>
    have hdash := (hD.shortChars _ (mem_shortIds_option hd hne)).2
    intro h
    simp [wanting, endMarker] at h
    exact hdash h.1
  | false =>
    intro h
    have hne' : d.long ≠ [] := hne
    simp [wanting, endMarker, hne'] at h

/-- The option parser on the line. -/
theorem formatParse_missing {D : Decls W} (hD : IdsOk D) (items₁ items₂ : List Item) (hit₁ : ∀ it ∈ items₁, it.Loose D)
    (hit₂ : ∀ it ∈ items₂, it.Loose D) (tail : Option (List Str)) (nd : Bool) {front back : List (OptDecl W)} {d : OptDecl W}
    (hsplit : D.options = front ++ d :: back) {short : Bool} (eq : Bool)
    (hne : if short then d.short ≠ '\x00' else d.long ≠ []) (hlast : eq = false → items₂ = []) (st : Store) (w : W) :
    SameErr (formatParse nd D (items₁.flatMap Item.render ++ wanting d short eq :: renderLine items₂ tail) st w)
      (M.bind (absOptions nd (items₁ ++ items₂) front) (fun _ => absMissing nd d short items₁ items₂) (st, w)) := by
  have hd : d ∈ D.options := by rw [hsplit]; simp
  obtain ⟨hs1, hs2⟩ := split_loose hD items₂ hit₂ tail
  have hall : ∀ a ∈ items₁.flatMap Item.render, decide (a ≠ endMarker) = true := by
    intro a ha
    obtain ⟨it, hi, ha⟩ := List.mem_flatMap.1 ha
    simpa using loose_ne_endMarker hD it (hit₁ it hi) a ha
  have ho : decide (wanting d short eq ≠ endMarker) = true := by simpa using wanting_ne_endMarker hD hd eq hne
  unfold formatParse
  rw [List.takeWhile_append_of_pos hall, List.dropWhile_append_of_pos hall, List.takeWhile_cons, List.dropWhile_cons, if_pos ho, if_pos ho, hs1, hs2,
    parseBody_eq, hsplit]
  refine sameErr_append_true (s := ⟨_, _, st, w⟩) ?_
  have h := options_missing hD items₁ items₂ hit₁ hit₂ nd eq hne hlast back front []
    { pre := items₁.flatMap Item.render ++ wanting d short eq :: items₂.flatMap Item.render, post := tailCells tail, store := st, world := w } hsplit
    (by rw [stage_none, stage_none])
  exact h

/-! ### In the words of the specification -/

theorem wantingEnds_run (nd : Bool) (d : OptDecl W) {ts : List Str} {st st' : Store} {e : Exn} (h : WantingEnds nd d ts st st' e) (w : W) :
    absWanting nd d ts (st, w) = .err e (st', w) := by
  unfold WantingEnds at h
  unfold absWanting
  split at h
  · rename_i hl
    obtain ⟨es, r, h1, rfl, rfl⟩ := h
    have := elementsEnd_run nd d.ty d.var h1 [] st w
    rw [List.nil_append] at this
    simp only [hl, if_true, M.bind_run, lift_setVar, this]
    cases r <;> rfl
  · rename_i hl
    simp only [hl, Bool.false_eq_true, if_false]
    split at h
    · rename_i hts
      subst hts
      obtain ⟨rfl, rfl⟩ := h
      rfl
    · rename_i hts
      cases ts with
      | nil => exact absurd rfl hts
      | cons t ts =>
        obtain ⟨r, h1, rfl⟩ := h
        have := assignEnds_one nd h1 w
        simp only [M.bind_run, this]
        cases r <;> rfl

theorem shortEnds_run (nd : Bool) (d : OptDecl W) {ts : List Str} {st st' : Store} {r : Option Exn} (h : ShortEnds nd d ts st st' r) (w : W) :
    match r with
    | some e => absById nd d ts (st, w) = .err e (st', w)
    | none => ∃ b, absById nd d ts (st, w) = .ok b (st', w) := by
  unfold ShortEnds at h
  unfold absById
  split at h
  · rename_i hts
    subst hts
    obtain ⟨rfl, rfl⟩ := h
    cases d.isList <;> exact ⟨_, rfl⟩
  · rename_i hts
    split at h
    · rename_i hl
      obtain ⟨es, h1, rfl⟩ := h
      have := absList_run nd d.ty d.var hts h1 st w
      simp only [hl, if_true, this]
      cases r with
      | some e => rfl
      | none => exact ⟨_, rfl⟩
    · rename_i hl
      simp only [hl, Bool.false_eq_true, if_false]
      obtain ⟨r₁, h1, rfl⟩ := h
      match ts, hts with
      | [t], _ =>
        have := assignEnds_one nd h1 w
        simp only [absScalar, M.bind_run, this]
        cases r₁ with
        | some e => rfl
        | none => exact ⟨_, rfl⟩
      | t :: t' :: ts, _ =>
        have := assignEnds_one nd h1 w
        simp only [absScalar, M.bind_run, this]
        cases r₁ with
        | some e => rfl
        | none => simp only [List.length_cons, show 2 ≤ ts.length + 1 + 1 by omega, if_true]; rfl

theorem missingOptionEnds_run (nd : Bool) (d : OptDecl W) (short : Bool) (items₁ items₂ : List Item) {st st' : Store} {e : Exn}
    (h : MissingOptionEnds nd d short items₁ items₂ st st' e) (w : W) : absMissing nd d short items₁ items₂ (st, w) = .err e (st', w) := by
  unfold MissingOptionEnds at h
  rw [shortTexts_eq, shortTexts_eq, longTexts_eq] at h
  unfold absMissing
  split at h
  · rename_i hs
    rw [if_pos hs]
    exact wantingEnds_run nd d h w
  · rename_i hs
    rw [if_neg hs]
    obtain ⟨st₁, r₁, h1, h2⟩ := h
    have h3 := shortEnds_run nd d h1 w
    cases r₁ with
    | some e₁ =>
      obtain ⟨rfl, rfl⟩ := h2
      rw [M.bind_run, h3]
    | none =>
      obtain ⟨b, h3⟩ := h3
      rw [M.bind_run, h3]
      exact wantingEnds_run nd d h2 w

theorem wantingEnds_exists (nd : Bool) (d : OptDecl W) (ts : List Str) (st : Store) : ∃ st' e, WantingEnds nd d ts st st' e := by
  unfold WantingEnds
  split
  · obtain ⟨es, r, h⟩ := elementsEnd_exists nd d.ty ts
    exact ⟨_, _, es, r, h, rfl, rfl⟩
  · split
    · exact ⟨_, _, rfl, rfl⟩
    · obtain ⟨st', r, h⟩ := assignEnds_exists d.ty d.var (ts.take 1) st
      exact ⟨st', _, r, h, rfl⟩

theorem shortEnds_exists (nd : Bool) (d : OptDecl W) (ts : List Str) (st : Store) : ∃ st' r, ShortEnds nd d ts st st' r := by
  unfold ShortEnds
  split
  · exact ⟨_, _, rfl, rfl⟩
  · split
    · obtain ⟨es, r, h⟩ := elementsEnd_exists nd d.ty ts
      exact ⟨_, _, es, h, rfl⟩
    · obtain ⟨st', r, h⟩ := assignEnds_exists d.ty d.var (ts.take 1) st
      exact ⟨st', _, r, h, rfl⟩

theorem missingEnds_exists (nd : Bool) (D : Decls W) {d : OptDecl W} (hd : d ∈ D.options) (short : Bool) (items₁ items₂ : List Item) (st : Store)
    (w : W) : ∃ st' w' e, MissingEnds nd D d short items₁ items₂ st w st' w' e := by
  obtain ⟨front, back, hsplit⟩ := List.append_of_mem hd
  obtain ⟨st₁, w₁, r₁, h1⟩ := optionsEnd_exists nd (items₁ ++ items₂) front st w
  cases r₁ with
  | some e => exact ⟨st₁, w₁, e, front, back, st₁, some e, hsplit, h1, rfl, rfl⟩
  | none =>
    have : ∃ st' e, MissingOptionEnds nd d short items₁ items₂ st₁ st' e := by
      unfold MissingOptionEnds
      split
      · exact wantingEnds_exists nd d _ st₁
      · obtain ⟨st₂, r₂, h2⟩ := shortEnds_exists nd d (shortTexts d (items₁ ++ items₂)) st₁
        cases r₂ with
        | some e => exact ⟨_, _, st₂, some e, h2, rfl, rfl⟩
        | none =>
          obtain ⟨st', e, h3⟩ := wantingEnds_exists nd d (longTexts d items₁) st₂
          exact ⟨st', e, st₂, none, h2, h3⟩
    obtain ⟨st', e, h2⟩ := this
    exact ⟨st', w₁, e, front, back, st₁, none, hsplit, h1, h2⟩

theorem missingEnds_run {D : Decls W} (hD : IdsOk D) (items₁ items₂ : List Item) (hit₁ : ∀ it ∈ items₁, it.Loose D) (hit₂ : ∀ it ∈ items₂, it.Loose D)
    (tail : Option (List Str)) (nd : Bool) {d : OptDecl W} {short : Bool} (eq : Bool) (hne : if short then d.short ≠ '\x00' else d.long ≠ [])
    (hlast : eq = false → items₂ = []) {st st' : Store} {w w' : W} {e : Exn} (h : MissingEnds nd D d short items₁ items₂ st w st' w' e) :
    (formatParse nd D (items₁.flatMap Item.render ++ wanting d short eq :: renderLine items₂ tail) st w).core = .err e (st', w') := by
  obtain ⟨front, back, st₁, r₁, hsplit, h1, h2⟩ := h
  obtain ⟨e', s', h3, h4⟩ := formatParse_missing hD items₁ items₂ hit₁ hit₂ tail nd hsplit eq hne hlast st w
  have h5 := optionsEnd_run nd (items₁ ++ items₂) front h1
  rw [M.bind_run, h5] at h4
  rw [h3]
  cases r₁ with
  | some e₁ =>
    obtain ⟨rfl, rfl⟩ := h2
    exact h4.symm
  | none =>
    have h6 := missingOptionEnds_run nd d short items₁ items₂ h2 w'
    simp only [endRes, h6] at h4
    exact h4.symm

end Sharg
