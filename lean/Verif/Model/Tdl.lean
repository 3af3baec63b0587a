import Verif.Model.Page

/-!
# The tool description exports (CTD and CWL)

Models `include/sharg/detail/format_tdl.hpp` up to the call of the external library `tdl`, which turns the data
structure `tdl::ToolInfo` into text.
-/

namespace Sharg

/-- The alternatives of `tdl::Node::value` that are used. `double` is a floating point number, not looked into. -/
inductive TdlValue where
  | bool (b : Bool)
  | int (i : Int)
  | double (n : Nat)
  | str (s : Str)
  | strList
  deriving DecidableEq, Repr

/-- `tdl::Node` with a plain value. `tags` is a set; here in the order of insertion. -/
structure TdlParam where
  name : Str
  description : Str
  tags : List Str
  value : TdlValue
  deriving DecidableEq, Repr

/-- `tdl::Node::Children` as built here: the parameters, or one node for a (sub)command with children (format_tdl.hpp
lines 352-359). -/
inductive TdlTree where
  | params (ps : List TdlParam)
  | command (name : Str) (child : TdlTree)
  deriving DecidableEq, Repr

/-- `tdl::ToolInfo`: the members of `metaInfo` that are set, `params`, `cliMapping`. -/
structure ToolInfo where
  version : Str
  name : Str
  docurl : Str
  description : Str
  executableName : Option Str
  params : TdlTree
  cliMapping : List (Str × Str)
  deriving DecidableEq, Repr

/-- The overload set `to_tdl`, format_tdl.hpp lines 68-95. The last overload, for everything else (lists, enumerations,
foreign types), gives `false`. -/
def toTdl (ty : ElemTy) (v : Val) : TdlValue :=
  match v with
  | .many _ => .bool false
  | .one e => match ty, e with
    | .boolean, .bool b => .bool b
    | .integer _ _, .int i => .int i
    | .foreign true _, .other n => .double n
    | .string, .str s => .str s
    | _, _ => .bool false

/-- `add_option`, format_tdl.hpp lines 167-242. -/
def tdlOption (te : TypeEnv) (st : Store) (cfg : Config) (x : VarId) (isList : Bool) (ty : ElemTy) : TdlParam where
  name := cfg.long
  description := cfg.description
    ++ (if cfg.defaultMessage = [] then (if cfg.required then [] else defaultOfValue te ty (st x))
        else defaultOfMessage te isList ty cfg.defaultMessage)
    ++ validatorPart cfg
  tags := (if cfg.required then ["required".toList] else []) ++ (if cfg.advanced then ["advanced".toList] else [])
    ++ (if !isList && te.isPath ty then cfg.validatorTags else [])
  value :=
    if !isList && te.isPath ty then
      .str (match st x with
        | .one e => toStringElem te ty e
        | .many es => showList (es.map (streamElem te ty)))
    else toTdl ty (st x)

/-- `add_flag`, format_tdl.hpp lines 248-261. -/
def tdlFlag (st : Store) (cfg : Config) (x : VarId) : TdlParam where
  name := cfg.long
  description := cfg.description
  tags := []
  value := toTdl .boolean (st x)

/-- What a deferred call other than `add_positional_option` adds: parameters and entries of `cliMapping`
(format_tdl.hpp lines 167-261, 380-403, 415-420). -/
def tdlCall {W : Type} (te : TypeEnv) (st : Store) : Entry W → List TdlParam × List (Str × Str)
  | .option cfg x l ty _ =>
    if cfg.hidden then ([], [])
    else ([tdlOption te st cfg x l ty], [("--".toList ++ cfg.long, cfg.long)])
  | .flag cfg x => if cfg.hidden then ([], []) else ([tdlFlag st cfg x], [])
  | _ => ([], [])

/-- `add_positional_option`, format_tdl.hpp lines 267-315, numbered from `n` on. -/
def tdlPositionals {W : Type} (te : TypeEnv) (st : Store) (n : Nat) : List (Entry W) → List TdlParam
  | [] => []
  | .positional cfg x l ty _ :: es =>
    { name := "positional_".toList ++ showNat n
      description := cfg.description ++ (if l then defaultOfValue te ty (st x) else []) ++ validatorPart cfg
      tags := if l then [] else ["required".toList]
      value := if l then .strList else .str [] } :: tdlPositionals te st (n + 1) es
  | _ :: es => tdlPositionals te st n es

/-- The loop of format_tdl.hpp lines 352-359: the last name is wrapped first. -/
def wrapCommands (names : List Str) (t : TdlTree) : TdlTree := names.foldr TdlTree.command t

/-- `format_tdl::parse` up to line 360: the data structure that is printed. -/
def toolInfo {W : Type} (te : TypeEnv) (m : Meta) (appName : Str) (executableName : List Str)
    (entries : List (Entry W)) (st : Store) : ToolInfo where
  version := m.version
  name := appName
  docurl := m.url
  description := m.description.flatMap (fun d => d ++ ['\n'])
  executableName := executableName.head?
  params := wrapCommands executableName.tail
    (.params (tdlPositionals te st 0 entries ++ entries.flatMap (fun e => (tdlCall te st e).1)))
  cliMapping := entries.flatMap (fun e => (tdlCall te st e).2)

end Sharg
