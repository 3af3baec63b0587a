import Verif.Spec.Shown
import Verif.Model.Tdl

/-!
# Specification: tool descriptions that a workflow system can use
-/

namespace Sharg.Spec

variable {W : Type}

/-- An option that is not hidden. -/
def visibleOption : Entry W → Bool
  | .option cfg _ _ _ _ => !cfg.hidden
  | _ => false

/-- A tool description can be used to run the tool: no two parameters have the same name, no name is empty, and each option and flag on it can
be given on the command line, i.e. is mapped to `--` and its long identifier, or `-` and its short one. -/
def Runnable (ops : List (Entry W)) (t : ToolInfo) : Prop :=
  ((parameters t.params).map (·.name)).Nodup ∧ [] ∉ (parameters t.params).map (·.name) ∧
  ∀ e ∈ ops, hasIds e = true → isHidden e = false → ∃ m ∈ t.cliMapping, m.1 ∈
    match e with
    | .option cfg _ _ _ _ | .flag cfg _ =>
      (if cfg.short = '\x00' then [] else ['-' :: [cfg.short]]) ++ (if cfg.long = [] then [] else ['-' :: '-' :: cfg.long])
    | _ => []

/-- The names of the commands around the parameters, the outermost first. -/
def commandPath : TdlTree → List Str
  | .params _ => []
  | .command n t => n :: commandPath t

end Sharg.Spec
