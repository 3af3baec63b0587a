import Verif.Lemmas.Crash
import Verif.Lemmas.Version

/-!
# Code that keeps a condition although others run at the same time
-/

namespace Sharg

open Spec

namespace Steps

variable {σ α β : Type}

/-- Every step keeps `K`, even if the state is another one (with `K`) before each step, and the result is as `Q` says. -/
def Safe (K : σ → Prop) (Q : Except Exn α → Prop) : Steps σ α → Prop
  | .done r => Q r
  | .step next rest => ∀ s, K s → K (next s) ∧ Safe K Q (rest s)

/-- The result is a value, one with `P`. -/
def Returns (P : α → Prop) (r : Except Exn α) : Prop := ∃ a, r = .ok a ∧ P a

variable {K : σ → Prop}

theorem safe_handle {Q : Except Exn α → Prop} {Q' : Except Exn β → Prop} {p : Steps σ α} {k : Except Exn α → Steps σ β}
    (hp : Safe K Q p) (hk : ∀ r, Q r → Safe K Q' (k r)) : Safe K Q' (p.handle k) := by
  induction p with
  | done r => exact hk r hp
  | step next rest ih => exact fun s hs => ⟨(hp s hs).1, ih s (hp s hs).2⟩

theorem safe_bind {P : α → Prop} {Q : Except Exn β → Prop} {p : Steps σ α} {f : α → Steps σ β} (hp : Safe K (Returns P) p)
    (hf : ∀ a, P a → Safe K Q (f a)) : Safe K Q (p.bind f) :=
  safe_handle hp fun _ ⟨a, h, ha⟩ => by subst h; exact hf a ha

theorem safe_atom {P : α → Prop} {m : M σ α} (h : ∀ s, K s → ∃ a s', m s = .ok a s' ∧ K s' ∧ P a) :
    Safe K (Returns P) (Steps.atom m) := by
  intro s hs
  obtain ⟨a, s', h1, h2, h3⟩ := h s hs
  refine ⟨?_, ?_⟩
  · show K (m s).state
    rw [h1]; exact h2
  · show Returns P (m s).outcome
    rw [h1]; exact ⟨a, rfl, h3⟩

theorem safe_mono {Q Q' : Except Exn α → Prop} {p : Steps σ α} (h : Safe K Q p) (hq : ∀ r, Q r → Q' r) : Safe K Q' p := by
  induction p with
  | done r => exact hq r h
  | step next rest ih => exact fun s hs => ⟨(h s hs).1, ih s (h s hs).2⟩

theorem safe_pure {P : α → Prop} {a : α} (h : P a) : Safe K (Returns P) (Steps.pure a) := ⟨a, rfl, h⟩

theorem safe_onDisk {J : Disk → Prop} {G : System → Prop} {Q : Except Exn α → Prop} {p : Steps Disk α} (h : Safe J Q p)
    (hG : ∀ s d, G s → G { s with disk := d }) : Safe (fun s => J s.disk ∧ G s) Q (Steps.onDisk p) := by
  induction p with
  | done r => exact h
  | step next rest ih => exact fun s hs => ⟨⟨(h s.disk hs.1).1, hG s _ hs.2⟩, ih s.disk (h s.disk hs.1).2⟩

theorem safe_look {J : Disk → Prop} {G : System → Prop} {P : α → Prop} {f : System → α} (h : ∀ s, G s → P (f s)) :
    Safe (fun s => J s.disk ∧ G s) (Returns P) (Steps.atom (look f)) :=
  safe_atom fun s hs => ⟨f s, s, rfl, hs, h s hs.2⟩

theorem safe_guard {J : Disk → Prop} (nd : Bool) {l : Loc} {p : Steps Disk Unit} (hp : Safe J (Returns fun _ => True) p)
    (hr : ∀ d, J d → ∃ d', fsRemoveAll l d = .ok () d' ∧ J d') : Safe J (Returns fun _ => True) (withGuardSteps nd l p) := by
  refine safe_handle hp fun r hr' => safe_handle (Q := Returns fun _ => True) (safe_atom fun d hd => ?_) fun r' h => ?_
  · obtain ⟨d', h1, h2⟩ := hr d hd
    exact ⟨(), d', h1, h2, trivial⟩
  · obtain ⟨a, rfl, -⟩ := h
    exact hr'

end Steps

open Steps

/-! ### A machine -/

/-- A condition on the disk and one for each program, none of which is ever broken. -/
structure AllSafe (J : Disk → Prop) (G : Nat → System → Prop) (Q : Nat → Except Exn Unit → Prop) (m : Machine) : Prop where
  disk : J m.disk
  each : ∀ k p, m.procs[k]? = some (some p) → Safe (fun s => J s.disk ∧ G k s) (Q k) p.code ∧ G k p.own

theorem allSafe_next {J : Disk → Prop} {G : Nat → System → Prop} {Q : Nat → Except Exn Unit → Prop} {m : Machine}
    (hGd : ∀ k s d, G k s → G k { s with disk := d }) (hGt : ∀ k s t, G k s → G k { s with clock := t })
    (h : AllSafe J G Q m) (a : Happening) : AllSafe J G Q (m.next a) := by
  cases a with
  | kill l =>
    refine ⟨h.disk, fun k p hk => ?_⟩
    simp only [Machine.next, List.getElem?_set] at hk
    by_cases hlk : l = k
    · rw [if_pos hlk] at hk
      split at hk <;> cases hk
    · rw [if_neg hlk] at hk
      exact h.each k p hk
  | time l t =>
    simp only [Machine.next]
    cases hp : m.procs[l]? with
    | none => exact h
    | some o =>
      cases o with
      | none => exact h
      | some pr =>
        refine ⟨h.disk, fun k p hk => ?_⟩
        simp only [List.getElem?_set] at hk
        by_cases hlk : l = k
        · subst hlk
          rw [if_pos rfl, if_pos (lt_of_getElem? hp)] at hk
          cases hk
          obtain ⟨h1, h2⟩ := h.each l pr hp
          exact ⟨h1, hGt l _ _ h2⟩
        · rw [if_neg hlk] at hk
          exact h.each k p hk
  | step l =>
    simp only [Machine.next]
    cases hp : m.procs[l]? with
    | none => exact h
    | some o =>
      cases o with
      | none => exact h
      | some pr =>
        obtain ⟨code, own⟩ := pr
        obtain ⟨h1, h2⟩ := h.each l _ hp
        cases code with
        | done r =>
          refine ⟨h.disk, fun k p hk => ?_⟩
          simp only [List.getElem?_set] at hk
          by_cases hlk : l = k
          · subst hlk
            rw [if_pos rfl, if_pos (lt_of_getElem? hp)] at hk
            cases hk
            exact h.each l _ hp
          · rw [if_neg hlk] at hk
            exact h.each k p hk
        | step next rest =>
          obtain ⟨⟨h3, h4⟩, h5⟩ := h1 { own with disk := m.disk } ⟨h.disk, hGd l _ _ h2⟩
          refine ⟨h3, fun k p hk => ?_⟩
          simp only [List.getElem?_set] at hk
          by_cases hlk : l = k
          · subst hlk
            rw [if_pos rfl, if_pos (lt_of_getElem? hp)] at hk
            cases hk
            exact ⟨h5, h4⟩
          · rw [if_neg hlk] at hk
            exact h.each k p hk

theorem allSafe_play {J : Disk → Prop} {G : Nat → System → Prop} {Q : Nat → Except Exn Unit → Prop} {m : Machine}
    (hGd : ∀ k s d, G k s → G k { s with disk := d }) (hGt : ∀ k s t, G k s → G k { s with clock := t })
    (h : AllSafe J G Q m) (hs : List Happening) : AllSafe J G Q (m.play hs) := by
  unfold Machine.play
  induction hs generalizing m with
  | nil => exact h
  | cons a hs ih => exact ih (allSafe_next hGd hGt h a)

theorem safe_of_respects {J : Disk → Prop} {α : Type} {p : Steps System α} (h : Respects J p) :
    Safe (fun s => J s.disk ∧ True) (fun _ => True) p := by
  induction p with
  | done r => trivial
  | step next rest ih => exact fun s hs => ⟨⟨(h s hs.1).1, trivial⟩, ih s (h s hs.1).2⟩

/-! ### The directory of the cookies -/

section

variable {D : Loc} {cookie : Str}

theorem not_below_dummy {cookie : Str} (hc : cookie ≠ "dummy.txt".toList) {q : Loc} (hq : q <+: D ++ [cookie]) : ¬ dummyIn D <+: q := by
  intro h
  have h1 := h.trans hq
  have hl : (dummyIn D).length = (D ++ [cookie]).length := by simp [dummyIn]
  have h2 := List.IsPrefix.eq_of_length h1 hl
  have := List.append_cancel_left h2
  simp only [List.cons.injEq, and_true] at this
  exact hc this.symm

/-- What a change must leave alone. -/
theorem neverOn_congr (hc : cookie ≠ "dummy.txt".toList) {c' : Str} (hc' : c' ≠ cookie) {d d' : Disk} (h : NeverOn D cookie d)
    (hq : ∀ q, ¬ dummyIn D <+: q → q ≠ D ++ [c'] → d'.node? q = d.node? q)
    (hd : ∀ e ∈ d', dummyIn D <+: e.1 → ∃ c r, e = (dummyIn D, .file c r true)) : NeverOn D cookie d' := by
  obtain ⟨⟨r, h1⟩, -, text, w, h2, h3⟩ := h
  have key : ∀ q, q <+: D ++ [cookie] → d.node? q = d'.node? q := by
    intro q hp
    refine (hq q (not_below_dummy hc hp) ?_).symm
    rintro rfl
    have := List.IsPrefix.eq_of_length hp (by simp)
    have := List.append_cancel_left this
    simp only [List.cons.injEq, and_true] at this
    exact hc' this
  exact ⟨⟨r, reaches_congr (fun q hp => key q (hp.trans (List.prefix_append _ _))) h1⟩, hd, text, w, reaches_congr key h2, h3⟩

theorem dummy_node {d : Disk} (h : NeverOn D cookie d) {n : Node} (hn : d.node? (dummyIn D) = some n) : ∃ c r, n = .file c r true := by
  obtain ⟨e, he, h1, h2⟩ : ∃ e ∈ d, e.1 = dummyIn D ∧ e.2 = n := by
    have := mem_of_node? hn
    exact ⟨_, this, rfl, rfl⟩
  obtain ⟨c, r, h3⟩ := h.2.1 e he (by rw [h1])
  exact ⟨c, r, by rw [← h2, h3]⟩

theorem canCreate_in {d : Disk} (h : NeverOn D cookie d) (c : Str) : CanCreate d (D ++ [c]) := by
  obtain ⟨r, h1⟩ := h.1
  exact canCreate_child.2 ⟨r, h1⟩

theorem lookup_in {d : Disk} (h : NeverOn D cookie d) (c : Str) :
    d.lookup (D ++ [c]) = .missing ∨ ∃ n, d.lookup (D ++ [c]) = .found n ∧ d.node? (D ++ [c]) = some n := by
  rcases lookup_cases d (D ++ [c]) with ⟨n, h1, hl⟩ | ⟨hl, _⟩ | ⟨_, hd, _⟩
  · exact Or.inr ⟨n, hl, h1.1⟩
  · exact Or.inl hl
  · exact absurd hd (canCreate_not_denied (canCreate_in h c))

theorem mem_replace {fs : Disk} {p : Loc} {n : Node} {e : Loc × Node} (h : e ∈ fs.replace p n) : e = (p, n) ∨ (e ∈ fs ∧ e.1 ≠ p) := by
  obtain ⟨e', he', h1⟩ := List.mem_map.1 h
  by_cases h2 : e'.1 = p
  · rw [if_pos h2] at h1; exact Or.inl h1.symm
  · rw [if_neg h2] at h1; subst h1; exact Or.inr ⟨he', h2⟩

/-- Opening the test file. -/
theorem open_dummy (hc : cookie ≠ "dummy.txt".toList) {d : Disk} (h : NeverOn D cookie d) :
    ∃ d', fsOpenForWriting (dummyIn D) d = .ok true d' ∧ NeverOn D cookie d' := by
  rcases lookup_in h "dummy.txt".toList with hl | ⟨n, hl, hn⟩
  · have hpw := (parentWritable_iff _ _).2 (canCreate_in h "dummy.txt".toList)
    refine ⟨(dummyIn D, .file [] true true) :: d, by simp only [fsOpenForWriting, dummyIn, hl, hpw, if_true], ?_⟩
    refine neverOn_congr (c' := "dummy.txt".toList) hc hc.symm h (fun q hq _ => ?_) fun e he hp => ?_
    · rw [node?_cons, if_neg]
      rintro rfl
      exact hq (List.prefix_refl _)
    · rcases List.mem_cons.1 he with rfl | he
      · exact ⟨[], true, rfl⟩
      · exact h.2.1 e he hp
  · obtain ⟨c, r, rfl⟩ := dummy_node h hn
    refine ⟨d.replace (dummyIn D) (.file [] r true), by simp only [fsOpenForWriting, dummyIn, hl, if_true], ?_⟩
    refine neverOn_congr (c' := "dummy.txt".toList) hc hc.symm h (fun q hq _ => ?_) fun e he hp => ?_
    · rw [node?_replace, if_neg]
      rintro rfl
      exact hq (List.prefix_refl _)
    · rcases mem_replace he with rfl | ⟨he, -⟩
      · exact ⟨[], r, rfl⟩
      · exact h.2.1 e he hp

/-- Leaving out the test file. -/
theorem without_dummy (hc : cookie ≠ "dummy.txt".toList) {d : Disk} (h : NeverOn D cookie d) (keep : Loc → Bool)
    (hk : ∀ q, ¬ dummyIn D <+: q → keep q = true) : NeverOn D cookie (d.filter fun e => keep e.1) := by
  refine neverOn_congr (c' := "dummy.txt".toList) hc hc.symm h (fun q hq _ => ?_) fun e he hp => h.2.1 e (List.mem_filter.1 he).1 hp
  rw [node?_filter, hk q hq]; rfl

theorem remove_dummy (hc : cookie ≠ "dummy.txt".toList) {d : Disk} (h : NeverOn D cookie d) :
    ∃ d', fsRemoveNoThrow (dummyIn D) d = .ok () d' ∧ NeverOn D cookie d' := by
  have hw := without_dummy hc h (fun q => decide (q ≠ dummyIn D)) (fun q hq => by
    simp only [ne_eq, decide_not, Bool.not_eq_true', decide_eq_false_iff_not]
    rintro rfl
    exact hq (List.prefix_refl _))
  have hpw := (parentWritable_iff _ _).2 (canCreate_in h "dummy.txt".toList)
  rcases lookup_in h "dummy.txt".toList with hl | ⟨n, hl, hn⟩
  · have e : fsRemove (dummyIn D) d = .ok () d := by simp only [fsRemove, dummyIn, hl]
    exact ⟨d, by simp only [fsRemoveNoThrow, e], h⟩
  · obtain ⟨c, r, rfl⟩ := dummy_node h hn
    have e : fsRemove (dummyIn D) d = .ok () (d.filter fun e => decide (e.1 ≠ dummyIn D)) := by
      simp only [fsRemove, dummyIn, hl, hpw, if_true]
    exact ⟨_, by simp only [fsRemoveNoThrow, e], hw⟩

theorem removeAll_dummy (hc : cookie ≠ "dummy.txt".toList) {d : Disk} (h : NeverOn D cookie d) :
    ∃ d', fsRemoveAll (dummyIn D) d = .ok () d' ∧ NeverOn D cookie d' := by
  have hw := without_dummy hc h (fun q => !decide (dummyIn D <+: q)) (fun q hq => by simp [hq])
  have hpw := (parentWritable_iff _ _).2 (canCreate_in h "dummy.txt".toList)
  rcases lookup_in h "dummy.txt".toList with hl | ⟨n, hl, hn⟩
  · exact ⟨d, by simp only [fsRemoveAll, dummyIn, hl], h⟩
  · have hcl : d.clearable (dummyIn D) = true := by
      unfold Disk.clearable
      rw [List.all_eq_true]
      intro e he
      cases hn : e.2 with
      | dir r w x =>
        dsimp only
        by_cases hp : dummyIn D <+: e.1
        · obtain ⟨c, r', h1⟩ := h.2.1 e he hp
          rw [h1] at hn; cases hn
        · simp [hp]
      | file c r w => rfl
      | special r w => rfl
    refine ⟨_, ?_, hw⟩
    have hcl' : d.clearable (D ++ ["dummy.txt".toList]) = true := hcl
    simp only [fsRemoveAll, dummyIn, hl, hpw, hcl', Bool.and_self, if_true]

/-- Opening and writing the cookie of another app. -/
theorem open_other (hc : cookie ≠ "dummy.txt".toList) {c' : Str} (hc' : c' ≠ cookie) (hd : c' ≠ "dummy.txt".toList) {d : Disk}
    (h : NeverOn D cookie d) : ∃ b d', fsOpenForWriting (D ++ [c']) d = .ok b d' ∧ NeverOn D cookie d' := by
  have hnb : ¬ dummyIn D <+: D ++ [c'] := not_below_dummy hd (List.prefix_refl _)
  have hpw := (parentWritable_iff _ _).2 (canCreate_in h c')
  rcases lookup_in h c' with hl | ⟨n, hl, hn⟩
  · refine ⟨true, (D ++ [c'], .file [] true true) :: d, by simp only [fsOpenForWriting, hl, hpw, if_true], ?_⟩
    refine neverOn_congr hc hc' h (fun q _ hq => ?_) fun e he hp => ?_
    · rw [node?_cons, if_neg (fun h => hq h.symm)]
    · rcases List.mem_cons.1 he with rfl | he
      · exact absurd hp hnb
      · exact h.2.1 e he hp
  · cases n with
    | dir r w x => exact ⟨false, d, by simp only [fsOpenForWriting, hl], h⟩
    | special r w => exact ⟨w, d, by simp only [fsOpenForWriting, hl], h⟩
    | file c r w =>
      cases w with
      | false => exact ⟨false, d, by simp [fsOpenForWriting, hl], h⟩
      | true =>
        refine ⟨true, d.replace (D ++ [c']) (.file [] r true), by simp only [fsOpenForWriting, hl, if_true], ?_⟩
        refine neverOn_congr hc hc' h (fun q _ hq => ?_) fun e he hp => ?_
        · rw [node?_replace, if_neg (fun h => hq h.symm)]
        · rcases mem_replace he with rfl | ⟨he, -⟩
          · exact absurd hp hnb
          · exact h.2.1 e he hp

theorem put_other (hc : cookie ≠ "dummy.txt".toList) {c' : Str} (hc' : c' ≠ cookie) (hd : c' ≠ "dummy.txt".toList) (t : Str) {d : Disk}
    (h : NeverOn D cookie d) : ∃ d', fsPut (D ++ [c']) t d = .ok () d' ∧ NeverOn D cookie d' := by
  have hnb : ¬ dummyIn D <+: D ++ [c'] := not_below_dummy hd (List.prefix_refl _)
  unfold fsPut
  cases hn : d.node? (D ++ [c']) with
  | none => exact ⟨d, rfl, h⟩
  | some n =>
    cases n with
    | dir r w x => exact ⟨d, rfl, h⟩
    | special r w => exact ⟨d, rfl, h⟩
    | file c r w =>
      refine ⟨_, rfl, neverOn_congr hc hc' h (fun q _ hq => ?_) fun e he hp => ?_⟩
      · rw [node?_replace, if_neg (fun h => hq h.symm)]
      · rcases mem_replace he with rfl | ⟨he, -⟩
        · exact absurd hp hnb
        · exact h.2.1 e he hp

/-! ### The version check -/

theorem createDirectory_in {d : Disk} {p : Loc} (hp : p <+: D) (h : NeverOn D cookie d) : fsCreateDirectory p d = .ok true d := by
  obtain ⟨⟨r, h1⟩, -⟩ := h
  obtain ⟨r', w', x', h2⟩ : ∃ r' w' x', Reaches d p (.dir r' w' x') := by
    obtain ⟨t, ht⟩ := hp
    cases t with
    | nil => rw [List.append_nil] at ht; subst ht; exact ⟨r, true, true, h1⟩
    | cons c t =>
      obtain ⟨r', w', h2⟩ := h1.2 p c t ht.symm
      refine ⟨r', w', true, h2, fun q c' t' ht' => h1.2 q c' (t' ++ c :: t) ?_⟩
      rw [← ht, ht']; simp
  simp only [fsCreateDirectory, (lookup_found_iff _ _ _).2 h2]

/-- `get_path` finds the directory, whatever others do. -/
theorem safe_getPath (hc : cookie ≠ "dummy.txt".toList) (nd : Bool) {G : System → Prop} {h : Str} {cwd : Loc} (hD : seqanDir cwd h = D)
    (hG : ∀ s, G s → s.home = some h ∧ s.cwd = cwd) (hGd : ∀ s d, G s → G { s with disk := d }) :
    Safe (fun s => NeverOn D cookie s.disk ∧ G s) (Returns fun p => p = seqanText h) (getPathSteps nd) := by
  have hD' : locOf cwd (seqanText h) = D := (locOf_seqan cwd h).trans hD
  have hcfg : locOf cwd (configText h) <+: D := by
    rw [← hD, locOf_config]
    exact ⟨["seqan".toList], by simp [seqanDir]⟩
  have hdum : locOf cwd (pathJoin (seqanText h) dummyName) = dummyIn D := (locOf_dummy cwd _).trans (by rw [hD'])
  refine safe_bind (P := fun o => o = some h) (safe_look fun s hs => (hG s hs).1) ?_
  rintro _ rfl
  refine safe_bind (P := fun c => c = cwd) (safe_look fun s hs => (hG s hs).2) ?_
  rintro _ rfl
  refine safe_bind (P := fun b => b = true) (safe_atom fun s hs => ?_) ?_
  · exact ⟨true, _, onDisk_ok (createDirectory_in hcfg hs.1), hs, rfl⟩
  rintro _ rfl
  refine safe_bind (P := fun b => b = true) (safe_atom fun s hs => ?_) ?_
  · exact ⟨true, _, onDisk_ok (createDirectory_in (show locOf _ (seqanText h) <+: D from hD' ▸ List.prefix_refl _) hs.1), hs, rfl⟩
  rintro _ rfl
  refine safe_bind (P := fun o => o = some (seqanText h)) (safe_pure rfl) ?_
  rintro _ rfl
  refine safe_bind (P := fun b => b = true) (safe_atom fun s hs => ?_) ?_
  · obtain ⟨d', h1, h2⟩ := open_dummy hc hs.1
    exact ⟨true, _, onDisk_ok (hdum.symm ▸ h1), ⟨h2, hGd _ _ hs.2⟩, rfl⟩
  rintro _ rfl
  refine safe_bind (P := fun _ => True) (safe_onDisk (safe_guard nd (safe_atom fun d hd => ?_) fun d hd => ?_) hGd) fun _ _ => safe_pure rfl
  · obtain ⟨d', h1, h2⟩ := remove_dummy hc hd
    exact ⟨(), d', hdum.symm ▸ h1, h2, trivial⟩
  · obtain ⟨d', h1, h2⟩ := removeAll_dummy hc hd
    exact ⟨d', hdum.symm ▸ h1, h2⟩

theorem safe_makeChecker (hc : cookie ≠ "dummy.txt".toList) (i : CheckInput) (hn : matchesNameRegex i.name = true) {G : System → Prop}
    {h : Str} {cwd : Loc} (hD : seqanDir cwd h = D) (hG : ∀ s, G s → s.home = some h ∧ s.cwd = cwd)
    (hGd : ∀ s d, G s → G { s with disk := d }) :
    Safe (fun s => NeverOn D cookie s.disk ∧ G s) (Returns fun ck => ck = usableChecker i h) (makeCheckerSteps i) := by
  refine safe_bind (safe_getPath hc i.ndebug hD hG hGd) ?_
  rintro _ rfl
  rw [if_neg (by rw [hn]; simp)]
  exact safe_pure rfl

/-- The own app: the cookie is found, and it says no. -/
theorem safe_cookieDecision (i : CheckInput) (hn : matchesNameRegex i.name = true) (hi : cookieName i.ndebug i.name = cookie)
    {G : System → Prop} {h : Str} {cwd : Loc} (hD : seqanDir cwd h = D) (hG : ∀ s, G s → s.home = some h ∧ s.cwd = cwd) :
    Safe (fun s => NeverOn D cookie s.disk ∧ G s) (Returns fun o => o = some false) (cookieDecisionSteps (usableChecker i h)) := by
  refine safe_bind (P := fun b => b = true) (safe_atom fun s hs => ?_) ?_
  · obtain ⟨r, hr⟩ := hs.1.1
    have hp : Prepared (usableChecker i h) s := Or.inr ⟨_, by
      show Reaches s.disk (locOf s.cwd (seqanText h)) _
      rw [(hG s hs.2).2, locOf_seqan, hD]; exact hr⟩
    refine ⟨true, s, ?_, hs, rfl⟩
    rw [pathExists_ready hp]
    have : (usableChecker i h).cookiePath ≠ [] := seqanText_ne h
    rw [decide_eq_true this]
  rintro _ rfl
  refine safe_bind (P := fun o => ∃ t, o = some t ∧ LastRead t "NEVER".toList) (safe_atom fun s hs => ?_) ?_
  · obtain ⟨-, -, text, w, h1, h2⟩ := hs.1
    have hloc : locOf s.cwd (usableChecker i h).timestampFile = D ++ [cookie] := by
      rw [locOf_usableChecker i h s hn, cookieLoc, (hG s hs.2).2, hD, hi]
    have e : fsRead (D ++ [cookie]) s.disk = .ok (some text) s.disk := by
      rcases fsRead_cases (D ++ [cookie]) s.disk with ⟨t, w', h3, h4⟩ | ⟨h3, -⟩
      · have := reaches_unique h3 h1
        cases this
        exact h4
      · exact absurd h1 (h3 _ _)
    refine ⟨some text, s, ?_, hs, text, rfl, h2⟩
    show onDisk (fsRead (locOf s.cwd (usableChecker i h).timestampFile)) s = _
    rw [hloc]
    exact onDisk_ok e
  rintro _ ⟨t, rfl, ht⟩
  have ht' := (lastRead_iff _ _).1 ht
  refine safe_bind (P := fun _ => True) (safe_look fun s hs => trivial) fun now _ => ?_
  by_cases hy : youngerThanDay (firstLine t) now
  · rw [if_pos hy]; exact safe_pure rfl
  · rw [if_neg hy, if_pos ht'.symm]; exact safe_pure rfl

/-- The own app does not do anything. -/
theorem safe_own (hc : cookie ≠ "dummy.txt".toList) (i : CheckInput) (hn : matchesNameRegex i.name = true)
    (hi : cookieName i.ndebug i.name = cookie) (notify : Bool) {G : System → Prop} {h : Str} {cwd : Loc} (hD : seqanDir cwd h = D)
    (hG : ∀ s, G s → s.home = some h ∧ s.cwd = cwd) (hGd : ∀ s d, G s → G { s with disk := d }) :
    Safe (fun s => NeverOn D cookie s.disk ∧ G s) (Returns fun _ => True) (runVersionCheckSteps i notify none) := by
  refine safe_bind (safe_makeChecker hc i hn hD hG hGd) ?_
  rintro _ rfl
  refine safe_bind (P := fun b => b = false) ?_ ?_
  · unfold decideCheckSteps
    cases notify with
    | false => exact safe_pure rfl
    | true =>
      refine safe_bind (P := fun _ => True) (safe_look fun s hs => trivial) fun noCheck _ => ?_
      cases noCheck with
      | true => exact safe_pure rfl
      | false =>
        refine safe_bind (safe_cookieDecision i hn hi hD hG) ?_
        rintro _ rfl
        exact safe_pure rfl
  · rintro _ rfl
    exact safe_pure trivial

/-- What a check of any app may change besides the disk. -/
structure Talks (G : System → Prop) : Prop where
  disk : ∀ s d, G s → G { s with disk := d }
  stderr : ∀ s t, G s → G { s with stderr := t }
  stdin : ∀ s t c, G s → G { s with stdin := t, clock := c }
  commands : ∀ s t, G s → G { s with commands := t }

theorem safe_writeCookie (hc : cookie ≠ "dummy.txt".toList) (i : CheckInput) (hn : matchesNameRegex i.name = true)
    (hi : cookieName i.ndebug i.name ≠ cookie) (msg : Str) {G : System → Prop} {h : Str} {cwd : Loc} (hD : seqanDir cwd h = D)
    (hG : ∀ s, G s → s.home = some h ∧ s.cwd = cwd) (hGd : ∀ s d, G s → G { s with disk := d }) :
    Safe (fun s => NeverOn D cookie s.disk ∧ G s) (Returns fun _ => True) (writeCookieSteps (usableChecker i h) msg) := by
  have hdm := cookieName_ne_dummy i.ndebug i.name
  refine safe_bind (P := fun x => x.1 = D ++ [cookieName i.ndebug i.name]) (safe_look fun s hs => ?_) ?_
  · show locOf s.cwd (usableChecker i h).timestampFile = _
    rw [locOf_usableChecker i h s hn, cookieLoc, (hG s hs).2, hD]
  rintro ⟨l, t⟩ (rfl : l = _)
  refine safe_onDisk (safe_bind (P := fun _ => True) (safe_atom fun d hd => ?_) fun b _ => ?_) hGd
  · obtain ⟨b, d', h1, h2⟩ := open_other hc hi hdm hd
    exact ⟨b, d', h1, h2, trivial⟩
  · cases b with
    | false => exact safe_pure trivial
    | true =>
      refine safe_atom fun d hd => ?_
      obtain ⟨d', h1, h2⟩ := put_other hc hi hdm (t ++ '\n' :: msg) hd
      exact ⟨(), d', h1, h2, trivial⟩

/-- Reading a file changes nothing. -/
theorem safe_readPath {J : Disk → Prop} {G : System → Prop} (p : Str) :
    Safe (fun s => J s.disk ∧ G s) (Returns fun _ => True) (Steps.atom (readPath p)) := by
  refine safe_atom fun s hs => ?_
  rcases fsRead_cases (locOf s.cwd p) s.disk with ⟨t, w, -, h⟩ | ⟨-, h⟩
  · exact ⟨some t, s, onDisk_ok h, hs, trivial⟩
  · exact ⟨none, s, onDisk_ok h, hs, trivial⟩

theorem safe_askUser (hc : cookie ≠ "dummy.txt".toList) (i : CheckInput) (hn : matchesNameRegex i.name = true)
    (hi : cookieName i.ndebug i.name ≠ cookie) {G : System → Prop} {h : Str} {cwd : Loc} (hD : seqanDir cwd h = D)
    (hG : ∀ s, G s → s.home = some h ∧ s.cwd = cwd) (hT : Talks G) :
    Safe (fun s => NeverOn D cookie s.disk ∧ G s) (Returns fun _ => True) (askUserSteps (usableChecker i h)) := by
  refine safe_bind (P := fun _ => True) (safe_look fun s hs => trivial) fun interactive _ => ?_
  cases interactive with
  | false => exact safe_pure trivial
  | true =>
    refine safe_bind (P := fun _ => True) (safe_atom fun s hs => ⟨(), _, rfl, ⟨hs.1, hT.stderr s _ hs.2⟩, trivial⟩) fun _ _ => ?_
    refine safe_bind (P := fun _ => True) (safe_atom fun s hs => ⟨_, _, rfl, ⟨hs.1, hT.stdin s _ _ hs.2⟩, trivial⟩) fun c _ => ?_
    by_cases h1 : c = 'y'
    · rw [if_pos h1]; exact safe_pure trivial
    rw [if_neg h1]
    by_cases h2 : c = 'a'
    · rw [if_pos h2]
      exact safe_bind (safe_writeCookie hc i hn hi _ hD hG hT.disk) fun _ _ => safe_pure trivial
    rw [if_neg h2]
    by_cases h3 : c = 'n'
    · rw [if_pos h3]
      exact safe_bind (safe_writeCookie hc i hn hi _ hD hG hT.disk) fun _ _ => safe_pure trivial
    rw [if_neg h3]
    exact safe_pure trivial

theorem safe_perform {J : Disk → Prop} (i : CheckInput) (ck : Checker) {G : System → Prop} (hT : Talks G) :
    Safe (fun s => J s.disk ∧ G s) (Returns fun _ => True) (performCheckSteps i ck) := by
  refine safe_bind (safe_readPath _) fun content _ => ?_
  refine safe_bind (P := fun _ => True) (safe_atom fun s hs => ⟨(), _, rfl, ⟨hs.1, hT.stderr s _ hs.2⟩, trivial⟩) fun _ _ => ?_
  refine safe_atom fun s hs => ⟨(), _, rfl, ?_, trivial⟩
  dsimp only
  by_cases hp : getProgram s.wget s.curl = []
  · rw [if_pos hp]; exact hs
  · rw [if_neg hp]; exact ⟨hs.1, hT.commands s _ hs.2⟩

/-- Other apps, which have other cookies. -/
theorem safe_cookieDecision_other (i : CheckInput) {G : System → Prop} {h : Str} {cwd : Loc} (hD : seqanDir cwd h = D)
    (hG : ∀ s, G s → s.home = some h ∧ s.cwd = cwd) :
    Safe (fun s => NeverOn D cookie s.disk ∧ G s) (Returns fun _ => True) (cookieDecisionSteps (usableChecker i h)) := by
  refine safe_bind (P := fun b => b = true) (safe_atom fun s hs => ?_) ?_
  · obtain ⟨r, hr⟩ := hs.1.1
    have hp : Prepared (usableChecker i h) s := Or.inr ⟨_, by
      show Reaches s.disk (locOf s.cwd (seqanText h)) _
      rw [(hG s hs.2).2, locOf_seqan, hD]; exact hr⟩
    refine ⟨true, s, ?_, hs, rfl⟩
    rw [pathExists_ready hp]
    have : (usableChecker i h).cookiePath ≠ [] := seqanText_ne h
    rw [decide_eq_true this]
  rintro _ rfl
  refine safe_bind (safe_readPath _) fun content _ => ?_
  cases content with
  | none => exact safe_pure trivial
  | some t =>
    refine safe_bind (P := fun _ => True) (safe_look fun s hs => trivial) fun now _ => ?_
    split
    · exact safe_pure trivial
    split
    · exact safe_pure trivial
    split
    · exact safe_pure trivial
    · exact safe_pure trivial

/-- A check of any app keeps the cookie that says never. -/
theorem safe_any (hc : cookie ≠ "dummy.txt".toList) (i : CheckInput) (hn : matchesNameRegex i.name = true)
    (notify : Bool) (user : Option Bool) {G : System → Prop} {h : Str} {cwd : Loc} (hD : seqanDir cwd h = D)
    (hG : ∀ s, G s → s.home = some h ∧ s.cwd = cwd) (hT : Talks G) :
    Safe (fun s => NeverOn D cookie s.disk ∧ G s) (Returns fun _ => True) (runVersionCheckSteps i notify user) := by
  refine safe_bind (safe_makeChecker hc i hn hD hG hT.disk) ?_
  rintro _ rfl
  refine safe_bind (P := fun _ => True) ?_ ?_
  · unfold decideCheckSteps
    cases notify with
    | false => exact safe_pure trivial
    | true =>
      refine safe_bind (P := fun _ => True) (safe_look fun s hs => trivial) fun noCheck _ => ?_
      cases noCheck with
      | true => exact safe_pure trivial
      | false =>
        cases user with
        | some b => exact safe_pure trivial
        | none =>
          by_cases hi : cookieName i.ndebug i.name = cookie
          · refine safe_bind (safe_cookieDecision i hn hi hD hG) ?_
            rintro _ rfl
            exact safe_pure trivial
          · refine safe_bind (safe_cookieDecision_other i hD hG) fun o _ => ?_
            cases o with
            | some b => exact safe_pure trivial
            | none => exact safe_bind (safe_writeCookie hc i hn hi _ hD hG hT.disk) fun _ _ => safe_askUser hc i hn hi hD hG hT
  · intro b _
    cases b with
    | false => exact safe_pure trivial
    | true => exact safe_perform i _ hT

end

end Sharg
