import Verif.Lemmas.Exact

/-!
# Comparing two runs
-/

set_option linter.unusedSimpArgs false

namespace Sharg

open Spec

variable {W : Type}

theorem parse_same {env : Env W} {g₁ g₂ : Prog W} {args₁ args₂ : List Str} (hp₁ : Ready g₁.parser) (hp₂ : Ready g₂.parser)
    (ha₁ : ∃ exe, g₁.parser.arguments = exe :: args₁) (ha₂ : ∃ exe, g₂.parser.arguments = exe :: args₂)
    (hs₁ : g₁.parser.subcommands = []) (hs₂ : g₂.parser.subcommands = []) (hne₁ : args₁ ≠ []) (hne₂ : args₂ ≠ [])
    (hu₁ : Unrequested g₁.parser.options args₁) (hu₂ : Unrequested g₂.parser.options args₂) (hsame : SameSetup g₁ g₂)
    (hcore : ∀ w, (formatParse env.ndebug (declsOf g₁.parser.operations) args₁ g₁.store w).core =
      (formatParse env.ndebug (declsOf g₂.parser.operations) args₂ g₂.store w).core) : SameOutcome env g₁ g₂ := by
  obtain ⟨e₁, ha₁⟩ := ha₁
  obtain ⟨e₂, ha₂⟩ := ha₂
  unfold SameOutcome
  rw [parse_unrequested env g₁ hp₁ e₁ args₁ ha₁ hs₁ hne₁ hu₁, parse_unrequested env g₂ hp₂ e₂ args₂ ha₂ hs₂ hne₂ hu₂,
    hsame.appName, hsame.notify, hsame.world]
  cases env.versionCheck g₂.parser.appName g₂.parser.notify none g₂.world with
  | mk o w =>
    cases o with
    | some e => exact ⟨rfl, hsame.store, rfl⟩
    | none =>
      have := hcore w
      dsimp only
      cases h1 : formatParse env.ndebug (declsOf g₁.parser.operations) args₁ g₁.store w with
      | ok u s =>
        rw [h1] at this
        obtain ⟨s', h2, h3⟩ := Res.core_ok this.symm
        rw [h2]
        simp only [FState.core, Prod.mk.injEq] at h3
        exact ⟨rfl, h3.1.symm, h3.2.symm⟩
      | err e s =>
        rw [h1] at this
        obtain ⟨s', h2, h3⟩ := Res.core_err this.symm
        rw [h2]
        simp only [FState.core, Prod.mk.injEq] at h3
        exact ⟨rfl, h3.1.symm, h3.2.symm⟩

/-- Options that are spelled uniformly depend on their values only. -/
theorem absOptions_congr (nd : Bool) (items₁ items₂ : List Item) (ds : List (OptDecl W))
    (h : ∀ d ∈ ds, Uniform d items₁ ∧ Uniform d items₂ ∧ given d items₁ = given d items₂) :
    absOptions nd items₁ ds = absOptions nd items₂ ds := by
  induction ds with
  | nil => rfl
  | cons d ds ih =>
    obtain ⟨h1, h2, h3⟩ := h d (by simp)
    have ih := ih (fun e he => h e (by simp [he]))
    unfold absOptions at ih ⊢
    rw [M.forEach_cons, M.forEach_cons, ih]
    rw [absOption_uniform nd d items₁ h1, absOption_uniform nd d items₂ h2, h3]

theorem inj_of_nodup {α β : Type} (f : α → β) (p : β → Bool) (l : List α) (m : List β)
    (h : ((l.map f ++ m).filter p).Nodup) {a b : α} (ha : a ∈ l) (hb : b ∈ l) (hp : p (f a) = true) (he : f a = f b) :
    a = b := by
  induction l with
  | nil => cases ha
  | cons x l ih =>
    rw [List.map_cons, List.cons_append, List.filter_cons] at h
    have hl : ((l.map f ++ m).filter p).Nodup := by
      split at h
      · exact (List.nodup_cons.1 h).2
      · exact h
    have hno : ∀ y ∈ l, p (f x) = true → f x ≠ f y := by
      intro y hy hpx hxy
      rw [if_pos hpx] at h
      apply (List.nodup_cons.1 h).1
      rw [hxy] at hpx ⊢
      exact List.mem_filter.2 ⟨List.mem_append_left _ (List.mem_map.2 ⟨y, hy, rfl⟩), hpx⟩
    rcases List.mem_cons.1 ha with ha' | ha' <;> rcases List.mem_cons.1 hb with hb' | hb'
    · rw [ha', hb']
    · subst ha'; exact absurd he (hno b hb' hp)
    · subst hb'; exact absurd he.symm (hno a ha' (he ▸ hp))
    · exact ih hl ha' hb'

theorem option_of_short {D : Decls W} (hD : IdsOk D) {d e : OptDecl W} (hd : d ∈ D.options) (he : e ∈ D.options)
    (h0 : d.short ≠ '\x00') (h : d.short = e.short) : d = e :=
  inj_of_nodup (fun d : OptDecl W => d.short) (· ≠ '\x00') D.options (D.flags.map FlagDecl.short) hD.shortNodup hd he (by simpa using h0) h

theorem option_of_long {D : Decls W} (hD : IdsOk D) {d e : OptDecl W} (hd : d ∈ D.options) (he : e ∈ D.options)
    (h0 : d.long ≠ []) (h : d.long = e.long) : d = e :=
  inj_of_nodup (fun d : OptDecl W => d.long) (· ≠ []) D.options (D.flags.map FlagDecl.long) hD.longNodup hd he (by simpa using h0) h

theorem given_respell {D : Decls W} (hD : IdsOk D) {items₁ items₂ : List Item} (h : Pointwise (Respelled D) items₁ items₂)
    (d : OptDecl W) (hd : d ∈ D.options) : given d items₁ = given d items₂ := by
  induction h with
  | nil => rfl
  | cons h _ ih =>
    unfold given at ih ⊢
    rw [List.filterMap_cons, List.filterMap_cons, ih]
    cases h with
    | same it => rfl
    | respell e he s t v hs ht =>
      have key : ∀ {it : Item}, SpellingOf e v it → (e = d → it.valueFor d = some v) ∧ (e ≠ d → it.valueFor d = none) := by
        intro it hs
        cases hs with
        | short h0 form =>
          simp only [Item.valueFor]
          exact ⟨fun hed => by simp [hed], fun hed => if_neg fun hx => hed (option_of_short hD he hd h0 hx)⟩
        | long h0 sep =>
          simp only [Item.valueFor]
          exact ⟨fun hed => by simp [hed], fun hed => if_neg fun hx => hed (option_of_long hD he hd h0 hx)⟩
      by_cases hed : e = d
      · rw [(key hs).1 hed, (key ht).1 hed]
      · rw [(key hs).2 hed, (key ht).2 hed]

theorem others_respell {D : Decls W} {items₁ items₂ : List Item} (h : Pointwise (Respelled D) items₁ items₂) :
    others items₁ = others items₂ := by
  induction h with
  | nil => rfl
  | cons h _ ih =>
    unfold others at ih ⊢
    rw [List.flatMap_cons, List.flatMap_cons, ih]
    cases h with
    | same it => rfl
    | respell e he s t v hs ht =>
      cases hs <;> cases ht <;> rfl

/-! ### Order of registration -/

/-- `OptionsMean` in terms of what the model reads. -/
def chain (nd : Bool) (items : List Item) : List (OptDecl W) → Store → W → Store → W → Prop
  | [], st, w, st', w' => st' = st ∧ w' = w
  | d :: ds, st, w, st', w' =>
    (given d items = [] ∧ d.required = false ∧ chain nd items ds st w st' w') ∨
    (given d items ≠ [] ∧ ∃ val w₁, optValue nd d (given d items) [] = some val ∧ d.validator val w = (true, w₁) ∧
      chain nd items ds (st.set d.var val) w₁ st' w')

theorem absOptions_chain {D : Decls W} (hD : IdsOk D) (items : List Item) (hit : ∀ it ∈ items, it.Loose D)
    (huni : ∀ d ∈ D.options, d.isList = true → Uniform d items) (nd : Bool)
    (ds : List (OptDecl W)) : ∀ (proc rest : List (OptDecl W)) (st : Store) (w : W) (st' : Store) (w' : W) (u : Unit),
      D.options = proc ++ (ds ++ rest) →
      (absOptions nd items ds (st, w) = .ok u (st', w') ↔ chain nd items ds st w st' w') := by
  induction ds with
  | nil =>
    intro proc rest st w st' w' u _
    simp only [absOptions, M.forEach_nil, M.pure_run, Res.ok.injEq, Prod.mk.injEq, chain]
    exact ⟨fun h => ⟨h.2.1.symm, h.2.2.symm⟩, fun h => ⟨trivial, h.1.symm, h.2.symm⟩⟩
  | cons d ds ih =>
    intro proc rest st w st' w' u hsplit
    have hsplit' : D.options = proc ++ d :: (ds ++ rest) := by simpa using hsplit
    have hd : d ∈ D.options := by rw [hsplit']; simp
    have key := fun u => absOption_ok hD items hit hsplit' (huni d hd) nd st w u
    have ih := fun st w => ih (proc ++ [d]) rest st w st' w' u (by simp [hsplit])
    unfold absOptions at ih ⊢
    rw [M.forEach_cons, M.bind_eq_ok]
    unfold chain
    constructor
    · rintro ⟨u1, ⟨st1, w1⟩, h1, h2⟩
      rcases (key u1 _).1 h1 with ⟨a, b, c⟩ | ⟨a, val, w2, b, c, e⟩
      · simp only [Prod.mk.injEq] at c
        obtain ⟨rfl, rfl⟩ := c
        exact Or.inl ⟨a, b, (ih _ _).1 h2⟩
      · simp only [Prod.mk.injEq] at e
        obtain ⟨rfl, rfl⟩ := e
        exact Or.inr ⟨a, val, _, b, c, (ih _ _).1 h2⟩
    · rintro (⟨a, b, c⟩ | ⟨a, val, w2, b, c, e⟩)
      · exact ⟨(), _, (key () _).2 (Or.inl ⟨a, b, rfl⟩), (ih _ _).2 c⟩
      · exact ⟨(), _, (key () _).2 (Or.inr ⟨a, val, w2, b, c, rfl⟩), (ih _ _).2 e⟩

theorem set_comm (st : Store) {x y : VarId} (h : x ≠ y) (u v : Val) : (st.set x u).set y v = (st.set y v).set x u := by
  funext z
  unfold Store.set
  by_cases h1 : z = x <;> by_cases h2 : z = y <;> simp_all

theorem chain_perm (nd : Bool) (items : List Item) {ds es : List (OptDecl W)} (hp : ds.Perm es) :
    (ds.map (·.var)).Nodup → (∀ d ∈ ds, ∀ v w, (d.validator v w).2 = w) → ∀ (st : Store) (w : W) (st' : Store) (w' : W),
      chain nd items ds st w st' w' → chain nd items es st w st' w' := by
  induction hp with
  | nil => intros; assumption
  | cons d _ ih =>
    intro hn hw st w st' w' h
    have ih := ih (List.nodup_cons.1 hn).2 (fun d hd => hw d (by simp [hd]))
    rcases h with ⟨a, b, c⟩ | ⟨a, val, w1, b, c, e⟩
    · exact Or.inl ⟨a, b, ih _ _ _ _ c⟩
    · exact Or.inr ⟨a, val, w1, b, c, ih _ _ _ _ e⟩
  | swap d e l =>
    intro hn hw st w st' w' h
    have hne : e.var ≠ d.var := by
      have := (List.nodup_cons.1 hn).1
      simp at this
      exact this.1
    have we : ∀ {v w b w'}, e.validator v w = (b, w') → w' = w := by
      intro v w b w' h; have := hw e (by simp) v w; rw [h] at this; exact this
    have wd : ∀ {v w b w'}, d.validator v w = (b, w') → w' = w := by
      intro v w b w' h; have := hw d (by simp) v w; rw [h] at this; exact this
    rcases h with ⟨a, b, ⟨a', b', c⟩ | ⟨a', val', w1', b', c', h'⟩⟩ | ⟨a, val, w1, b, c, ⟨a', b', h'⟩ | ⟨a', val', w1', b', c', h'⟩⟩
    · exact Or.inl ⟨a', b', Or.inl ⟨a, b, c⟩⟩
    · exact Or.inr ⟨a', val', w1', b', c', Or.inl ⟨a, b, h'⟩⟩
    · exact Or.inl ⟨a', b', Or.inr ⟨a, val, w1, b, c, h'⟩⟩
    · obtain rfl := we c
      obtain rfl := wd c'
      refine Or.inr ⟨a', val', _, b', c', Or.inr ⟨a, val, _, b, c, ?_⟩⟩
      rw [set_comm _ (Ne.symm hne)]; exact h'
  | trans h1 h2 ih1 ih2 =>
    intro hn hw st w st' w' h
    exact ih2 ((h1.map _).nodup_iff.1 hn) (fun d hd => hw d (h1.mem_iff.2 hd)) st w st' w' (ih1 hn hw st w st' w' h)

theorem setFlags_perm (items : List Item) {fs gs : List FlagDecl} (hp : fs.Perm gs) :
    ∀ st, setFlags items fs st = setFlags items gs st := by
  induction hp with
  | nil => intro st; rfl
  | cons f _ ih => intro st; exact ih _
  | swap f g l =>
    intro st
    simp only [setFlags]
    congr 1
    by_cases h : g.var = f.var
    · split <;> split <;> simp [h]
    · split <;> split <;> first | rfl | exact set_comm _ h _ _
  | trans _ _ ih1 ih2 => intro st; rw [ih1, ih2]

end Sharg
