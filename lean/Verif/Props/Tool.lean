import Verif.Lemmas.History
import Verif.Spec.Tool
import Verif.Props.Setup
import Verif.Props.Shown
import Verif.Props.Texts

/-!
# Property C64: what a workflow system learns from an exported tool description
-/

namespace Sharg

open Spec

variable {W : Type}

/-- The names of the parameters: the positional options are numbered, options and flags have their long identifier. -/
theorem toolInfo_names (te : TypeEnv) (m : Meta) (appName : Str) (names : List Str) (es : List (Entry W)) (st : Store) :
    (parameters (toolInfo te m appName names es st).params).map (·.name) =
      ((List.range (es.filter isArgument).length).map fun n => "positional_".toList ++ showNat n) ++
      (es.filter fun e => hasIds e && !isHidden e).map longId := by
  have h := congrArg (List.map Prod.fst) (C43_tool_description_partial te m appName names es st)
  rw [List.map_map, List.map_append, List.map_map, List.map_map] at h
  refine h.trans ?_
  congr 1
  rw [List.range_eq_range', ← List.zipIdx_map_snd 0 (es.filter isArgument), List.map_map]
  rfl

/-- C64, mapping: exactly the visible options are mapped, in order, each to its long identifier with two dashes. -/
theorem C64_mapping_exact (te : TypeEnv) (m : Meta) (appName : Str) (names : List Str) (es : List (Entry W)) (st : Store) :
    (toolInfo te m appName names es st).cliMapping = (es.filter visibleOption).map fun e => ('-' :: '-' :: longId e, longId e) := by
  show es.flatMap (fun e => (tdlCall te st e).2) = _
  induction es with
  | nil => rfl
  | cons e es ih =>
    rw [List.flatMap_cons, ih]
    cases e with
    | option cfg x l ty v =>
      cases hh : cfg.hidden with
      | true =>
        rw [List.filter_cons_of_neg (by show ¬ (!cfg.hidden) = true; rw [hh]; simp)]
        rw [tdlCall_hidden te st (.option cfg x l ty v) hh]; rfl
      | false =>
        rw [List.filter_cons_of_pos (by show (!cfg.hidden) = true; rw [hh]; rfl)]
        have e1 : tdlCall te st (.option cfg x l ty v : Entry W)
            = ([tdlOption te st cfg x l ty], [("--".toList ++ cfg.long, cfg.long)]) := by
          unfold tdlCall; exact if_neg (by rw [hh]; simp)
        rw [e1]; rfl
    | flag cfg x =>
      rw [List.filter_cons_of_neg (by show ¬ false = true; simp)]
      have e1 : (tdlCall te st (.flag cfg x : Entry W)).2 = [] := by
        show (if cfg.hidden = true then (([], []) : List TdlParam × List (Str × Str)) else ([tdlFlag st cfg x], [])).2 = []
        by_cases hh : cfg.hidden = true <;> simp [hh]
      rw [e1]; rfl
    | _ => rfl

/-- The long identifiers of visible options and flags are among all identifiers. -/
theorem longIds_sublist (es : List (Entry W)) (h : ∀ e ∈ es, hasIds e = true → isHidden e = false → longId e ≠ []) :
    ((es.filter fun e => hasIds e && !isHidden e).map longId).Sublist (entryIds es) := by
  have one : ∀ cfg : Config, cfg.long ≠ [] → [cfg.long].Sublist (idsOf cfg) := by
    intro cfg hc
    unfold idsOf
    rw [if_neg hc]
    exact List.sublist_append_right _ _
  induction es with
  | nil => exact List.Sublist.slnil
  | cons e es ih =>
    have ih := ih fun e he => h e (List.mem_cons_of_mem _ he)
    have he := h e List.mem_cons_self
    have hsub : (entryIds es).Sublist (entryIds (e :: es)) := by
      unfold entryIds
      rw [List.filterMap_cons]
      split
      · exact List.Sublist.refl _
      · rw [List.flatMap_cons]; exact List.sublist_append_right _ _
    by_cases hv : (hasIds e && !isHidden e) = true
    · rw [List.filter_cons, if_pos hv, List.map_cons]
      simp only [Bool.and_eq_true, Bool.not_eq_true'] at hv
      have hl := he hv.1 hv.2
      cases e with
      | option cfg x l ty v => exact (one cfg hl).append ih
      | flag cfg x => exact (one cfg hl).append ih
      | _ => cases hv.1
    · rw [List.filter_cons, if_neg hv]
      exact ih.trans hsub

/-- C64, the part that holds (partial): after any history, if every visible option and flag has a long identifier, none of them is called like a
positional option, and no flag is visible, then the tool description can be used to run the tool. Missing: flags, options with a short identifier
only, the long identifiers `positional_0`, `positional_1`, ..., see below. -/
theorem C64_usable_partial (env : Env W) (i : Init) (st : Store) (w : W) (as : List (Action W)) (te : TypeEnv) (m : Meta) (appName : Str)
    (names : List Str) (st' : Store) (ops : List (Entry W)) (hops : ops = (runActions env as (start i st w)).parser.operations)
    (hlong : ∀ e ∈ ops, hasIds e = true → isHidden e = false → longId e ≠ [])
    (hpos : ∀ e ∈ ops, ∀ n, longId e ≠ "positional_".toList ++ showNat n) :
    ((parameters (toolInfo te m appName names ops st').params).map (·.name)).Nodup ∧
    [] ∉ (parameters (toolInfo te m appName names ops st').params).map (·.name) ∧
    ((toolInfo te m appName names ops st').cliMapping.map (·.1)).Nodup ∧
    ((∀ e ∈ ops, hasIds e = true → isHidden e = false → visibleOption e = true) → Runnable ops (toolInfo te m appName names ops st')) := by
  have hnd : (entryIds ops).Nodup := hops ▸ (inv_history env as (start i st w) (inv_start i)).nodup
  have h1 : ((parameters (toolInfo te m appName names ops st').params).map (·.name)).Nodup := by
    rw [toolInfo_names, List.nodup_append]
    refine ⟨?_, (longIds_sublist ops hlong).nodup hnd, ?_⟩
    · refine List.Pairwise.map _ (fun a b hab h => hab ?_) List.nodup_range
      exact showNat_injective (List.append_cancel_left h)
    · rintro a ha b hb rfl
      obtain ⟨n, _, rfl⟩ := List.mem_map.1 ha
      obtain ⟨e, he, h⟩ := List.mem_map.1 hb
      exact hpos e (List.mem_filter.1 he |>.1) n h
  have h2 : [] ∉ (parameters (toolInfo te m appName names ops st').params).map (·.name) := by
    rw [toolInfo_names]
    intro h
    rcases List.mem_append.1 h with h | h
    · obtain ⟨n, _, h⟩ := List.mem_map.1 h
      cases h
    · obtain ⟨e, he, h⟩ := List.mem_map.1 h
      rw [List.mem_filter, Bool.and_eq_true, Bool.not_eq_true'] at he
      exact hlong e he.1 he.2.1 he.2.2 h
  have hvis : ∀ e : Entry W, visibleOption e = true → (hasIds e && !isHidden e) = true := by
    intro e h
    cases e <;> first | exact h | cases h
  refine ⟨h1, h2, ?_, fun hall => ⟨h1, h2, fun e he hi hh => ?_⟩⟩
  · rw [C64_mapping_exact, List.map_map]
    have hs : ((ops.filter visibleOption).map longId).Nodup := by
      refine List.Sublist.nodup ?_ ((longIds_sublist ops hlong).nodup hnd)
      refine List.Sublist.map _ ?_
      have : ops.filter visibleOption = (ops.filter fun e => hasIds e && !isHidden e).filter visibleOption := by
        rw [List.filter_filter]
        congr 1
        funext e
        cases hv : visibleOption e with
        | true => rw [hvis e hv]; rfl
        | false => rfl
      rw [this]
      exact List.filter_sublist
    have : (Prod.fst ∘ fun e : Entry W => ('-' :: '-' :: longId e, longId e)) = (fun s => '-' :: '-' :: s) ∘ longId := rfl
    rw [this, ← List.map_map]
    exact List.Pairwise.map _ (fun a b h h' => h (by simpa using h')) hs
  · have hv := hall e he hi hh
    have hl := hlong e he hi hh
    refine ⟨('-' :: '-' :: longId e, longId e), ?_, ?_⟩
    · rw [C64_mapping_exact]
      exact List.mem_map.2 ⟨e, List.mem_filter.2 ⟨he, hv⟩, rfl⟩
    · cases e with
      | option cfg x l ty v =>
        show _ ∈ _ ++ (if cfg.long = [] then [] else ['-' :: '-' :: cfg.long])
        rw [if_neg (show ¬ cfg.long = [] from hl)]
        exact List.mem_append_right _ (List.mem_singleton.2 rfl)
      | _ => cases hv

/-- C64 does not hold: flags are parameters of the tool description, but not mapped to the command line; a tool that has a visible flag only (with
whatever identifiers) never has a usable description. -/
theorem C64_flags_are_not_mapped (te : TypeEnv) (m : Meta) (appName : Str) (names : List Str) (ops : List (Entry W)) (st : Store) (cfg : Config)
    (x : VarId) (hf : .flag cfg x ∈ ops) (hh : cfg.hidden = false) (ho : ∀ e ∈ ops, visibleOption e = false) :
    cfg.long ∈ (parameters (toolInfo te m appName names ops st).params).map (·.name) ∧ (toolInfo te m appName names ops st).cliMapping = [] ∧
    ¬ Runnable ops (toolInfo te m appName names ops st) := by
  have h : (toolInfo te m appName names ops st).cliMapping = [] := by
    rw [C64_mapping_exact, List.filter_eq_nil_iff.2 fun e he => by rw [ho e he]; simp]
    rfl
  refine ⟨?_, h, fun hu => ?_⟩
  · rw [toolInfo_names]
    refine List.mem_append_right _ (List.mem_map.2 ⟨.flag cfg x, List.mem_filter.2 ⟨hf, ?_⟩, rfl⟩)
    show (true && !cfg.hidden) = true
    rw [hh]; rfl
  · obtain ⟨e, he, _⟩ := hu.2.2 _ hf rfl hh
    rw [h] at he
    cases he

/-- C64 does not hold: an option without a long identifier is a parameter without a name, and mapped to `--`, which ends the options on the command
line. -/
theorem C64_short_only_is_mapped_to_dashes (te : TypeEnv) (m : Meta) (appName : Str) (names : List Str) (ops : List (Entry W)) (st : Store)
    (cfg : Config) (x : VarId) (l : Bool) (ty : ElemTy) (v : Val → W → Bool × W) (ho : .option cfg x l ty v ∈ ops) (hh : cfg.hidden = false)
    (hl : cfg.long = []) :
    ("--".toList, []) ∈ (toolInfo te m appName names ops st).cliMapping ∧ ¬ Runnable ops (toolInfo te m appName names ops st) := by
  refine ⟨?_, fun hu => hu.2.1 ?_⟩
  · rw [C64_mapping_exact]
    refine List.mem_map.2 ⟨.option cfg x l ty v, List.mem_filter.2 ⟨ho, ?_⟩, ?_⟩
    · show (!cfg.hidden) = true
      rw [hh]; rfl
    · show ('-' :: '-' :: cfg.long, cfg.long) = _
      rw [hl]; rfl
  · rw [toolInfo_names]
    refine List.mem_append_right _ (List.mem_map.2 ⟨.option cfg x l ty v, List.mem_filter.2 ⟨ho, ?_⟩, hl⟩)
    show (true && !cfg.hidden) = true
    rw [hh]; rfl

/-- C64 does not hold: two options with a short identifier only have the same name in the tool description, and so have a positional option and an
option with the long identifier `positional_0`, which is accepted. -/
theorem C64_names_clash (te : TypeEnv) (m : Meta) (appName : Str) (names : List Str) (st : Store) (calls : List (Call Unit))
    (h : calls = [exOption 'i' "", exOption 'j' ""] ∨ calls = [exOption 'i' "positional_0", exPositional false]) :
    accepted exEnv (calls.map .call) exStart = calls ∧
    ¬ ((parameters (toolInfo te m appName names (runActions exEnv (calls.map .call) exStart).parser.operations st).params).map (·.name)).Nodup := by
  rw [toolInfo_names]
  rcases h with rfl | rfl
  · exact ⟨rfl, by decide +kernel⟩
  · exact ⟨rfl, by decide +kernel⟩

/-- A set-up as in `C64_usable_partial`. -/
example (te : TypeEnv) (m : Meta) (st : Store) :
    let ops := (runActions exEnv ([exOption 'i' "int", exPositional false].map .call) exStart).parser.operations
    Runnable ops (toolInfo te m [] [] ops st) := by
  intro ops
  refine (C64_usable_partial exEnv exInit (fun _ => .one (.int 0)) () ([exOption 'i' "int", exPositional false].map .call) te m [] [] st ops rfl
    ?_ ?_).2.2.2 ?_
  · intro e he
    have he : e ∈ [_, _] := he
    rcases List.mem_cons.1 he with rfl | he
    · intro _ _; decide
    · rw [List.mem_singleton] at he; subst he; intro h; cases h
  · intro e he n
    have he : e ∈ [_, _] := he
    rcases List.mem_cons.1 he with rfl | he
    · intro h; cases h
    · rw [List.mem_singleton] at he; subst he; intro h; cases h
  · intro e he
    have he : e ∈ [_, _] := he
    rcases List.mem_cons.1 he with rfl | he
    · intro _ _; rfl
    · rw [List.mem_singleton] at he; subst he; intro h; cases h

/-- C64, meta data: version, name, address and description are those of the parser; the first executable name is the executable, the others are the
commands around the parameters. -/
theorem C64_meta_data (te : TypeEnv) (m : Meta) (appName : Str) (names : List Str) (ops : List (Entry W)) (st : Store) :
    let t := toolInfo te m appName names ops st
    t.version = m.version ∧ t.name = appName ∧ t.docurl = m.url ∧ t.description = (m.description.map fun d => d ++ "\n".toList).flatten ∧
    t.executableName.toList ++ commandPath t.params = names := by
  refine ⟨rfl, rfl, rfl, ?_, ?_⟩
  · show m.description.flatMap _ = _
    rw [List.flatMap_def]; rfl
  · have wrap : ∀ (l : List Str) (ps : List TdlParam), commandPath (wrapCommands l (.params ps)) = l := by
      intro l ps
      induction l with
      | nil => rfl
      | cons a l ih => exact congrArg (a :: ·) ih
    show names.head?.toList ++ commandPath (wrapCommands names.tail (.params _)) = names
    rw [wrap]
    cases names <;> rfl

/-! ### Values and tags -/

/-- C64, values (partial): the value of a parameter for a scalar option that holds a truth value, an integer, a floating
point number or a string (no path) is the default value; other types give `false`. -/
theorem C64_scalar_defaults_partial (te : TypeEnv) (st : Store) (cfg : Config) (x : VarId) (ty : ElemTy) (hp : te.isPath ty = false) :
    (∀ b, ty = .boolean → st x = .one (.bool b) → (tdlOption te st cfg x false ty).value = .bool b) ∧
    (∀ lo hi n, ty = .integer lo hi → st x = .one (.int n) → (tdlOption te st cfg x false ty).value = .int n) ∧
    (∀ s, ty = .string → st x = .one (.str s) → (tdlOption te st cfg x false ty).value = .str s) ∧
    (∀ conv n, ty = .foreign true conv → st x = .one (.other n) → (tdlOption te st cfg x false ty).value = .double n) ∧
    (∀ conv n, ty = .foreign false conv → st x = .one (.other n) → (tdlOption te st cfg x false ty).value = .bool false) ∧
    ∀ names n, ty = .enumeration names → st x = .one (.enumv n) → (tdlOption te st cfg x false ty).value = .bool false := by
  refine ⟨fun b h hv => ?_, fun lo hi n h hv => ?_, fun s h hv => ?_, fun c n h hv => ?_, fun c n h hv => ?_, fun c n h hv => ?_⟩ <;> subst h <;>
    simp only [tdlOption, hp, hv] <;> rfl

/-- C64 does not hold for lists: whatever the default value of the list is, the parameter has the truth value `false`. -/
theorem C64_list_defaults_are_false (te : TypeEnv) (st : Store) (cfg : Config) (x : VarId) (ty : ElemTy) (vs : List Elem) (hv : st x = .many vs) :
    (tdlOption te st cfg x true ty).value = .bool false := by
  simp only [tdlOption, hv]
  rfl

/-- C64, tags of options: `required` and `advanced` tell whether the option is, unless the tags of the validator say otherwise. -/
theorem C64_option_tags (te : TypeEnv) (st : Store) (cfg : Config) (x : VarId) (l : Bool) (ty : ElemTy)
    (ht : "required".toList ∉ cfg.validatorTags ∧ "advanced".toList ∉ cfg.validatorTags) :
    ("required".toList ∈ (tdlOption te st cfg x l ty).tags ↔ cfg.required = true) ∧
    ("advanced".toList ∈ (tdlOption te st cfg x l ty).tags ↔ cfg.advanced = true) := by
  have h1 : "required".toList ≠ "advanced".toList := by decide
  simp only [tdlOption, List.mem_append]
  generalize "required".toList = r at *
  generalize "advanced".toList = a at *
  cases cfg.required <;> cases cfg.advanced <;> cases (!l && te.isPath ty) <;> simp [h1, h1.symm, ht]

/-- C64, tags of options, all of them: besides `required` and `advanced` only scalar paths are tagged, with the tags of their validators. -/
theorem C64_option_tags_exactly (te : TypeEnv) (st : Store) (cfg : Config) (x : VarId) (l : Bool) (ty : ElemTy) (t : Str) :
    t ∈ (tdlOption te st cfg x l ty).tags ↔ (t = "required".toList ∧ cfg.required = true) ∨ (t = "advanced".toList ∧ cfg.advanced = true) ∨
      (l = false ∧ te.isPath ty = true ∧ t ∈ cfg.validatorTags) := by
  simp only [tdlOption, List.mem_append]
  generalize "required".toList = r
  generalize "advanced".toList = a
  cases cfg.required <;> cases cfg.advanced <;> cases l <;> cases te.isPath ty <;> simp [or_assoc]

/-- C64 does not hold for flags and positional options: flags are never tagged as advanced, and positional options never as files or
directories, whatever their validators. -/
theorem C64_other_tags (te : TypeEnv) (st : Store) (n : Nat) (es : List (Entry W)) (cfg : Config) (x : VarId) :
    (tdlFlag st cfg x).tags = [] ∧ ∀ p ∈ tdlPositionals te st n es, p.tags = [] ∨ p.tags = ["required".toList] := by
  refine ⟨rfl, ?_⟩
  induction es generalizing n with
  | nil => intro p hp; cases hp
  | cons e es ih =>
    intro p hp
    cases e with
    | positional cfg x l ty v =>
      rcases List.mem_cons.1 hp with rfl | hp
      · cases l
        · exact Or.inr rfl
        · exact Or.inl rfl
      · exact ih _ p hp
    | _ => exact ih n p hp

end Sharg
