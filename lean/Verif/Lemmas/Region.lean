import Verif.Lemmas.Steps
import Verif.Lemmas.System

/-!
# Which part of the disk a step depends on and changes

`R` is the set of locations that are read, `Wr` the set of locations that may change.
-/

namespace Sharg

open Spec

/-- At most one object per location. -/
def Tidy (fs : Disk) : Prop := (fs.map (·.1)).Nodup

/-- The same objects at the given locations. -/
def Agree (R : Loc → Prop) (fs gs : Disk) : Prop := ∀ q, R q → fs.node? q = gs.node? q

/-- The code reads only `R` and changes only `Wr`. -/
structure Local {α : Type} (R Wr : Loc → Prop) (m : FsM α) : Prop where
  tidy : ∀ fs, Tidy fs → Tidy (m fs).state
  frame : ∀ fs q, ¬ Wr q → (m fs).state.node? q = fs.node? q
  same : ∀ fs gs, Tidy fs → Tidy gs → Agree R fs gs → (m fs).outcome = (m gs).outcome ∧ Agree R (m fs).state (m gs).state

/-- On the way to `p`, including `p`. -/
def OnWay (p q : Loc) : Prop := q <+: p

/-- On the way to `p`, at `p`, or below it. -/
def Near (p q : Loc) : Prop := q <+: p ∨ p <+: q

/-- At `p` or below it. -/
def Below (p q : Loc) : Prop := p <+: q

theorem Agree.mono {R S : Loc → Prop} {fs gs : Disk} (h : Agree S fs gs) (hs : ∀ q, R q → S q) : Agree R fs gs :=
  fun q hq => h q (hs q hq)

theorem Agree.lookup {R : Loc → Prop} {fs gs : Disk} {p : Loc} (h : Agree R fs gs) (hr : ∀ q, q <+: p → R q) :
    fs.lookup p = gs.lookup p := lookup_congr fun q hq => h q (hr q hq)

theorem Agree.parentWritable {R : Loc → Prop} {fs gs : Disk} {p : Loc} (h : Agree R fs gs) (hr : ∀ q, q <+: p → R q) :
    Sharg.parentWritable fs p = Sharg.parentWritable gs p := parentWritable_congr fun q hq _ => h q (hr q hq)

/-- More locations may be read, more may change. -/
theorem Local.mono {α : Type} {R R' Wr Wr' : Loc → Prop} {m : FsM α} (h : Local R Wr m) (hr : ∀ q, R q → R' q)
    (hw : ∀ q, Wr q → Wr' q) (hwr : ∀ q, Wr q → R q) : Local R' Wr' m where
  tidy := h.tidy
  frame fs q hq := h.frame fs q fun h' => hq (hw q h')
  same fs gs h1 h2 ha := by
    obtain ⟨e1, e2⟩ := h.same fs gs h1 h2 (ha.mono hr)
    refine ⟨e1, fun q hq => ?_⟩
    by_cases hwq : Wr q
    · exact e2 q (hwr q hwq)
    · rw [h.frame fs q hwq, h.frame gs q hwq]; exact ha q hq

/-- Code that only looks. -/
theorem local_look {α : Type} {R Wr : Loc → Prop} {m : FsM α} (hs : ∀ fs, (m fs).state = fs)
    (ho : ∀ fs gs, Agree R fs gs → (m fs).outcome = (m gs).outcome) : Local R Wr m where
  tidy fs h := by rw [hs]; exact h
  frame fs q _ := by rw [hs]
  same fs gs _ _ ha := ⟨ho fs gs ha, by rw [hs, hs]; exact ha⟩

theorem local_exists (p : Loc) (Wr : Loc → Prop) : Local (OnWay p) Wr (fsExists p) := by
  refine local_look (fun fs => ?_) (fun fs gs ha => ?_)
  · unfold fsExists; cases fs.lookup p <;> rfl
  · unfold fsExists; rw [ha.lookup (p := p) fun q hq => hq]; cases gs.lookup p <;> rfl

theorem local_isDirectory (p : Loc) (Wr : Loc → Prop) : Local (OnWay p) Wr (fsIsDirectory p) := by
  refine local_look (fun fs => ?_) (fun fs gs ha => ?_)
  · unfold fsIsDirectory; cases fs.lookup p with
    | found n => cases n <;> rfl
    | _ => rfl
  · unfold fsIsDirectory; rw [ha.lookup (p := p) fun q hq => hq]
    cases gs.lookup p with
    | found n => cases n <;> rfl
    | _ => rfl

theorem local_isRegularFile (p : Loc) (Wr : Loc → Prop) : Local (OnWay p) Wr (fsIsRegularFile p) := by
  refine local_look (fun fs => ?_) (fun fs gs ha => ?_)
  · unfold fsIsRegularFile; cases fs.lookup p with
    | found n => cases n <;> rfl
    | _ => rfl
  · unfold fsIsRegularFile; rw [ha.lookup (p := p) fun q hq => hq]
    cases gs.lookup p with
    | found n => cases n <;> rfl
    | _ => rfl

theorem local_canList (p : Loc) (Wr : Loc → Prop) : Local (OnWay p) Wr (fsCanList p) := by
  refine local_look (fun fs => ?_) (fun fs gs ha => ?_)
  · unfold fsCanList; cases fs.lookup p with
    | found n => cases n <;> rfl
    | _ => rfl
  · unfold fsCanList; rw [ha.lookup (p := p) fun q hq => hq]
    cases gs.lookup p with
    | found n => cases n <;> rfl
    | _ => rfl

theorem local_canRead (p : Loc) (Wr : Loc → Prop) : Local (OnWay p) Wr (fsCanRead p) := by
  refine local_look (fun fs => ?_) (fun fs gs ha => ?_)
  · unfold fsCanRead; cases fs.lookup p with
    | found n => cases n <;> rfl
    | _ => rfl
  · unfold fsCanRead; rw [ha.lookup (p := p) fun q hq => hq]
    cases gs.lookup p with
    | found n => cases n <;> rfl
    | _ => rfl

/-! ### Changes -/

theorem tidy_cons {fs : Disk} {p : Loc} (n : Node) (h : Tidy fs) (hn : fs.node? p = none) : Tidy ((p, n) :: fs) := by
  unfold Tidy
  rw [List.map_cons, List.nodup_cons]
  refine ⟨fun hm => ?_, h⟩
  obtain ⟨e, he, h1⟩ := List.mem_map.1 hm
  exact node?_eq_none.1 hn e he h1

theorem tidy_filter {fs : Disk} (keep : Loc × Node → Bool) (h : Tidy fs) : Tidy (fs.filter keep) :=
  List.Sublist.nodup (List.Sublist.map _ List.filter_sublist) h

theorem tidy_replace {fs : Disk} (p : Loc) (n : Node) (h : Tidy fs) : Tidy (fs.replace p n) := by
  unfold Tidy Disk.replace
  have : (fs.map fun e => if e.1 = p then (p, n) else e).map (·.1) = fs.map (·.1) := by
    rw [List.map_map]
    refine List.map_congr_left fun e _ => ?_
    by_cases he : e.1 = p <;> simp [he]
  rw [this]
  exact h

theorem agree_cons {R : Loc → Prop} {fs gs : Disk} (p : Loc) (n : Node) (h : Agree R fs gs) :
    Agree R ((p, n) :: fs) ((p, n) :: gs) := by
  intro q hq
  rw [node?_cons, node?_cons, h q hq]

theorem agree_filter {R : Loc → Prop} {fs gs : Disk} (keep : Loc → Bool) (h : Agree R fs gs) :
    Agree R (fs.filter fun e => keep e.1) (gs.filter fun e => keep e.1) := by
  intro q hq
  rw [node?_filter, node?_filter, h q hq]

theorem agree_replace {R : Loc → Prop} {fs gs : Disk} (p : Loc) (n : Node) (h : Agree R fs gs) :
    Agree R (fs.replace p n) (gs.replace p n) := by
  intro q hq
  rw [node?_replace, node?_replace, h q hq]

theorem hasBelow_iff (fs : Disk) (p : Loc) : fs.hasBelow p = true ↔ ∃ q, p <+: q ∧ q ≠ p ∧ fs.node? q ≠ none := by
  unfold Disk.hasBelow
  rw [List.any_eq_true]
  constructor
  · rintro ⟨e, he, h⟩
    have h := of_decide_eq_true h
    exact ⟨e.1, h.1, h.2, fun hn => node?_eq_none.1 hn e he rfl⟩
  · rintro ⟨q, h1, h2, h3⟩
    have : ∃ e ∈ fs, e.1 = q := by
      refine Classical.byContradiction fun hn => h3 (node?_eq_none.2 fun e he hq => hn ⟨e, he, hq⟩)
    obtain ⟨e, he, rfl⟩ := this
    exact ⟨e, he, decide_eq_true ⟨h1, h2⟩⟩

theorem mem_of_node? {fs : Disk} {q : Loc} {n : Node} (h : fs.node? q = some n) : (q, n) ∈ fs := by
  unfold Disk.node? at h
  rw [Option.map_eq_some_iff] at h
  obtain ⟨e, he, hn⟩ := h
  have h1 := List.find?_some he
  have h2 := List.mem_of_find?_eq_some he
  have h3 : e.1 = q := of_decide_eq_true h1
  rw [← h3, ← hn]
  exact h2

theorem clearable_iff {fs : Disk} (ht : Tidy fs) (p : Loc) :
    fs.clearable p = true ↔ ∀ q r w x, p <+: q → fs.node? q = some (.dir r w x) → r = true ∧ w = true ∧ x = true := by
  unfold Disk.clearable
  rw [List.all_eq_true]
  constructor
  · intro h q r w x hq hn
    have := h _ (mem_of_node? hn)
    simpa [hq, and_assoc] using this
  · intro h e he
    have hn := node?_of_mem ht he
    cases h2 : e.2 with
    | dir r w x =>
      dsimp only
      by_cases hp : p <+: e.1
      · obtain ⟨rfl, rfl, rfl⟩ := h e.1 r w x hp (h2 ▸ hn)
        simp
      · simp [hp]
    | file c r w => rfl
    | special r w => rfl

theorem bool_eq_of_iff {a b : Bool} (h : a = true ↔ b = true) : a = b := by
  cases a <;> cases b <;> simp_all

theorem Agree.hasBelow {fs gs : Disk} {p : Loc} (h : Agree (Near p) fs gs) : fs.hasBelow p = gs.hasBelow p := by
  refine bool_eq_of_iff ?_
  rw [hasBelow_iff, hasBelow_iff]
  constructor
  · rintro ⟨q, h1, h2, h3⟩; exact ⟨q, h1, h2, by rw [← h q (Or.inr h1)]; exact h3⟩
  · rintro ⟨q, h1, h2, h3⟩; exact ⟨q, h1, h2, by rw [h q (Or.inr h1)]; exact h3⟩

theorem Agree.clearable {fs gs : Disk} {p : Loc} (h : Agree (Near p) fs gs) (hf : Tidy fs) (hg : Tidy gs) :
    fs.clearable p = gs.clearable p := by
  refine bool_eq_of_iff ?_
  rw [clearable_iff hf, clearable_iff hg]
  constructor
  · intro h1 q r w x hq hn; exact h1 q r w x hq (by rw [h q (Or.inr hq)]; exact hn)
  · intro h1 q r w x hq hn; exact h1 q r w x hq (by rw [← h q (Or.inr hq)]; exact hn)

theorem near_self_way {p q : Loc} (h : q <+: p) : Near p q := Or.inl h

theorem local_openForWriting (p : Loc) : Local (Near p) (Below p) (fsOpenForWriting p) where
  tidy fs ht := by
    unfold fsOpenForWriting
    cases hl : fs.lookup p with
    | found n =>
      cases n with
      | file c r w =>
        dsimp only
        split
        · exact tidy_replace _ _ ht
        · exact ht
      | dir r w x => exact ht
      | special r w => exact ht
    | missing =>
      dsimp only
      split
      · next hp => exact tidy_cons _ ht (node_none hl ((parentWritable_iff _ _).1 hp))
      · exact ht
    | denied => exact ht
  frame fs q hq := by
    obtain ⟨b, fs', h1, h2, -⟩ := openForWriting_frame p fs
    rw [h1]
    exact h2 q fun e => hq (e ▸ List.prefix_refl _)
  same fs gs hf hg ha := by
    unfold fsOpenForWriting
    rw [ha.lookup (p := p) fun q hq => near_self_way hq, ha.parentWritable (p := p) fun q hq => near_self_way hq]
    cases gs.lookup p with
    | found n =>
      cases n with
      | file c r w =>
        cases w with
        | true => exact ⟨rfl, agree_replace _ _ ha⟩
        | false => exact ⟨rfl, ha⟩
      | dir r w x => exact ⟨rfl, ha⟩
      | special r w => exact ⟨rfl, ha⟩
    | missing =>
      dsimp only
      split
      · exact ⟨rfl, agree_cons _ _ ha⟩
      · exact ⟨rfl, ha⟩
    | denied => exact ⟨rfl, ha⟩

theorem local_createDirectory (p : Loc) : Local (Near p) (Below p) (fsCreateDirectory p) where
  tidy fs ht := by
    rcases createDirectory_cases p fs with ⟨b, h, -⟩ | ⟨h, hc, hm⟩
    · rw [h]; exact ht
    · rw [h]; exact tidy_cons _ ht (node_none hm hc)
  frame fs q hq := by
    rcases createDirectory_cases p fs with ⟨b, h, -⟩ | ⟨h, hc, hm⟩
    · rw [h]; rfl
    · rw [h]
      show Disk.node? ((p, _) :: fs) q = _
      rw [node?_cons, if_neg (fun (e : p = q) => hq (e ▸ List.prefix_refl _))]
  same fs gs hf hg ha := by
    unfold fsCreateDirectory
    rw [ha.lookup (p := p) fun q hq => near_self_way hq, ha.parentWritable (p := p) fun q hq => near_self_way hq]
    cases gs.lookup p with
    | found n => cases n <;> exact ⟨rfl, ha⟩
    | missing =>
      dsimp only
      split
      · exact ⟨rfl, agree_cons _ _ ha⟩
      · exact ⟨rfl, ha⟩
    | denied => exact ⟨rfl, ha⟩

theorem local_remove (p : Loc) : Local (Near p) (Below p) (fsRemove p) where
  tidy fs ht := by
    unfold fsRemove
    cases fs.lookup p with
    | found n =>
      cases n <;> dsimp only <;> split
      all_goals first
        | exact tidy_filter _ ht
        | exact ht
    | missing => exact ht
    | denied => exact ht
  frame fs q hq := by
    have hne : q ≠ p := fun e => hq (e ▸ List.prefix_refl _)
    have key : Disk.node? (fs.filter fun e => decide (e.1 ≠ p)) q = fs.node? q := by rw [node?_filter_ne, if_neg hne]
    unfold fsRemove
    cases fs.lookup p with
    | found n =>
      cases n <;> dsimp only <;> split
      all_goals first
        | exact key
        | rfl
    | missing => rfl
    | denied => rfl
  same fs gs hf hg ha := by
    unfold fsRemove
    rw [ha.lookup (p := p) fun q hq => near_self_way hq, ha.parentWritable (p := p) fun q hq => near_self_way hq, ha.hasBelow]
    cases gs.lookup p with
    | found n =>
      cases n <;> dsimp only <;> split
      all_goals first
        | exact ⟨rfl, agree_filter (fun l => decide (l ≠ p)) ha⟩
        | exact ⟨rfl, ha⟩
    | missing => exact ⟨rfl, ha⟩
    | denied => exact ⟨rfl, ha⟩

theorem local_removeAll (p : Loc) : Local (Near p) (Below p) (fsRemoveAll p) where
  tidy fs ht := by
    unfold fsRemoveAll
    cases fs.lookup p with
    | found n =>
      dsimp only
      split
      · exact tidy_filter _ ht
      · exact ht
    | missing => exact ht
    | denied => exact ht
  frame fs q hq := removeAll_frame p fs q hq
  same fs gs hf hg ha := by
    unfold fsRemoveAll
    rw [ha.lookup (p := p) fun q hq => near_self_way hq, ha.parentWritable (p := p) fun q hq => near_self_way hq,
      ha.clearable hf hg]
    cases gs.lookup p with
    | found n =>
      dsimp only
      split
      · exact ⟨rfl, agree_filter (fun l => !decide (p <+: l)) ha⟩
      · exact ⟨rfl, ha⟩
    | missing => exact ⟨rfl, ha⟩
    | denied => exact ⟨rfl, ha⟩

/-- An object inside `p` belongs to the region of `p`. -/
theorem Local.child {α : Type} {p : Loc} {c : Str} {m : FsM α} (h : Local (Near (p ++ [c])) (Below (p ++ [c])) m) :
    Local (Near p) (Below p) m := by
  refine h.mono (fun q hq => ?_) (fun q hq => (List.prefix_append p [c]).trans hq) (fun q hq => Or.inr hq)
  rcases hq with hq | hq
  · rcases List.prefix_concat_iff.1 hq with rfl | hq
    · exact Or.inr (List.prefix_append _ _)
    · exact Or.inl hq
  · exact Or.inr ((List.prefix_append p [c]).trans hq)

/-! ### Steps -/

/-- All steps read only `R` and change only `Wr`. -/
def LocalSteps {α : Type} (R Wr : Loc → Prop) : Steps Disk α → Prop
  | .done _ => True
  | .step next rest =>
    (∀ fs, Tidy fs → Tidy (next fs)) ∧ (∀ fs q, ¬ Wr q → (next fs).node? q = fs.node? q) ∧
    (∀ fs gs, Tidy fs → Tidy gs → Agree R fs gs → rest fs = rest gs ∧ Agree R (next fs) (next gs)) ∧
    ∀ fs, LocalSteps R Wr (rest fs)

variable {α β : Type} {R Wr : Loc → Prop}

theorem localSteps_atom {m : FsM α} (h : Local R Wr m) : LocalSteps R Wr (Steps.atom m) := by
  refine ⟨h.tidy, h.frame, fun fs gs hf hg ha => ?_, fun fs => trivial⟩
  obtain ⟨h1, h2⟩ := h.same fs gs hf hg ha
  exact ⟨congrArg Steps.done h1, h2⟩

theorem localSteps_handle {p : Steps Disk α} {k : Except Exn α → Steps Disk β} (hp : LocalSteps R Wr p)
    (hk : ∀ r, LocalSteps R Wr (k r)) : LocalSteps R Wr (p.handle k) := by
  induction p with
  | done r => exact hk r
  | step next rest ih =>
    obtain ⟨h1, h2, h3, h4⟩ := hp
    refine ⟨h1, h2, fun fs gs hf hg ha => ?_, fun fs => ih fs (h4 fs)⟩
    obtain ⟨h5, h6⟩ := h3 fs gs hf hg ha
    exact ⟨congrArg (fun x => Steps.handle x k) h5, h6⟩

theorem localSteps_bind {p : Steps Disk α} {f : α → Steps Disk β} (hp : LocalSteps R Wr p)
    (hf : ∀ a, LocalSteps R Wr (f a)) : LocalSteps R Wr (p.bind f) := by
  refine localSteps_handle hp fun r => ?_
  cases r with
  | ok a => exact hf a
  | error e => trivial

theorem localSteps_ite {c : Prop} [Decidable c] {p q : Steps Disk α} (hp : LocalSteps R Wr p) (hq : LocalSteps R Wr q) :
    LocalSteps R Wr (if c then p else q) := by
  split
  · exact hp
  · exact hq

theorem localSteps_guard {p : Loc} (nd : Bool) {body : Steps Disk Unit} (hb : LocalSteps R Wr body)
    (hr : Local R Wr (fsRemoveAll p)) : LocalSteps R Wr (withGuardSteps nd p body) := by
  refine localSteps_handle hb fun r => localSteps_handle (localSteps_atom hr) fun r' => ?_
  cases r' with
  | ok a => trivial
  | error e => cases nd <;> trivial

theorem localSteps_rethrow {body : Steps Disk Unit} (hb : LocalSteps R Wr body) : LocalSteps R Wr (rethrowFsSteps body) := by
  refine localSteps_handle hb fun r => ?_
  cases r with
  | ok a => trivial
  | error e => cases e <;> trivial

theorem local_widen {m : FsM α} {p : Loc} {Wr : Loc → Prop} (h : ∀ Wr, Local (OnWay p) Wr m) : Local (Near p) Wr m :=
  (h fun _ => False).mono (fun _ hq => Or.inl hq) (fun _ hq => hq.elim) (fun _ hq => hq.elim)

theorem localSteps_readability (p : Loc) : LocalSteps (OnWay p) Wr (validateReadabilitySteps p) := by
  refine localSteps_bind (localSteps_atom (local_isDirectory p Wr)) fun isDir => localSteps_ite ?_ ?_
  · exact localSteps_bind (localSteps_atom (local_canList p Wr)) fun ok => localSteps_ite trivial trivial
  · refine localSteps_bind (localSteps_atom (local_isRegularFile p Wr)) fun isFile => localSteps_ite trivial ?_
    exact localSteps_bind (localSteps_atom (local_canRead p Wr)) fun ok => localSteps_ite trivial trivial

theorem localSteps_writeability (nd : Bool) (p : Loc)
    (h1 : Local R Wr (fsIsDirectory p)) (h2 : Local R Wr (fsOpenForWriting p)) (h3 : Local R Wr (fsRemove p))
    (h4 : Local R Wr (fsRemoveAll p)) : LocalSteps R Wr (validateWriteabilitySteps nd p) := by
  refine localSteps_bind (localSteps_atom h1) fun isDir => localSteps_ite trivial ?_
  refine localSteps_bind (localSteps_atom h2) fun opened => localSteps_guard nd (localSteps_ite trivial ?_) h4
  exact localSteps_atom h3

theorem localSteps_inputFile (exts : List Str) (p : PathArg) (Wr : Loc → Prop) :
    LocalSteps (OnWay p.loc) Wr (inputFileSteps exts p) := by
  refine localSteps_rethrow (localSteps_bind (localSteps_atom (local_exists p.loc Wr)) fun there => localSteps_ite trivial ?_)
  exact localSteps_bind (localSteps_readability p.loc) fun _ => trivial

theorem localSteps_inputDirectory (p : PathArg) (Wr : Loc → Prop) :
    LocalSteps (OnWay p.loc) Wr (inputDirectorySteps p) := by
  refine localSteps_rethrow (localSteps_bind (localSteps_atom (local_exists p.loc Wr)) fun there => localSteps_ite trivial ?_)
  refine localSteps_bind (localSteps_atom (local_isDirectory p.loc Wr)) fun isDir => localSteps_ite trivial ?_
  exact localSteps_readability p.loc

theorem localSteps_outputFile (nd : Bool) (mode : OpenMode) (exts : List Str) (p : PathArg) :
    LocalSteps (Near p.loc) (Below p.loc) (outputFileSteps nd mode exts p) := by
  refine localSteps_bind (localSteps_atom (local_widen (local_isDirectory p.loc))) fun isDir => localSteps_ite trivial ?_
  refine localSteps_rethrow (localSteps_bind (localSteps_ite ?_ trivial) fun there => localSteps_ite trivial ?_)
  · exact localSteps_atom (local_widen (local_exists p.loc))
  · refine localSteps_bind ?_ fun _ => trivial
    exact localSteps_writeability nd p.loc (local_widen (local_isDirectory p.loc)) (local_openForWriting _) (local_remove _)
      (local_removeAll _)

theorem localSteps_outputDirectory (nd : Bool) (p : PathArg) :
    LocalSteps (Near p.loc) (Below p.loc) (outputDirectorySteps nd p) := by
  have hw : LocalSteps (Near p.loc) (Below p.loc) (validateWriteabilitySteps nd (p.loc ++ [dummyName])) :=
    localSteps_writeability nd _ (local_widen (local_isDirectory _)).child (local_openForWriting _).child
      (local_remove _).child (local_removeAll _).child
  refine localSteps_bind (localSteps_atom (local_widen (local_exists p.loc))) fun there => ?_
  refine localSteps_bind (localSteps_atom (local_createDirectory p.loc)) fun ok => localSteps_ite trivial ?_
  refine localSteps_rethrow (localSteps_ite (localSteps_guard nd (localSteps_bind hw fun _ => ?_) (local_removeAll _)) hw)
  exact localSteps_atom (local_removeAll _)

end Sharg
