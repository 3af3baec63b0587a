import Verif.Model.Parser
import Verif.Model.Text

/-!
# The texts of the exceptions

The command line parser (`include/sharg/detail/format_parse.hpp`) and the scanning of the arguments
(`include/sharg/parser.hpp` lines 808-964) once more, with the texts of the exceptions that they throw. The lemmas in
`Verif.Lemmas.ErrorTexts` prove that these functions are the ones of `Model/FormatParse.lean`, `Model/Scan.lean` and
`Model/Parser.lean` when the texts are forgotten.
-/

namespace Sharg

/-- Result of running code on a state, with the text of the exception (`what()`). For a failed `assert`, undefined
behaviour and exceptions of the standard library the text is not looked into and empty here. -/
inductive TRes (σ α : Type) where
  | ok (a : α) (s : σ)
  | err (e : Exn) (what : Str) (s : σ)

/-- Code that may throw exceptions with texts. -/
def TM (σ α : Type) := σ → TRes σ α

namespace TM

def pure {σ α : Type} (a : α) : TM σ α := fun s => .ok a s

def bind {σ α β : Type} (m : TM σ α) (f : α → TM σ β) : TM σ β := fun s =>
  match m s with
  | .ok a s' => f a s'
  | .err e t s' => .err e t s'

def throw {σ α : Type} (e : Exn) (what : Str) : TM σ α := fun s => .err e what s

def modify {σ : Type} (f : σ → σ) : TM σ Unit := fun s => .ok () (f s)

def forEach {σ α : Type} (f : α → TM σ Unit) : List α → TM σ Unit
  | [] => TM.pure ()
  | a :: l => TM.bind (f a) fun _ => forEach f l

end TM

/-- Texts that depend on C++ types: `get_type_name_as_string(option_type{})` (the flag tells whether the option is a list)
and `std::to_string(std::numeric_limits<T>::max())` of a floating point type. -/
structure Wording where
  typeName : Bool → ElemTy → Str
  maxText : ElemTy → Str

/-- An option with the text of the exception that its validator throws when it rejects the value (in the state of the
world in which it was called). -/
structure TOptDecl (W : Type) where
  decl : OptDecl W
  why : Val → W → Str

/-- The same for a positional option. -/
structure TPosDecl (W : Type) where
  decl : PosDecl W
  why : Val → W → Str

/-- The call lists of `format_parse`. -/
structure TDecls (W : Type) where
  options : List (TOptDecl W)
  flags : List FlagDecl
  positionals : List (TPosDecl W)

/-- Without the texts. -/
def TDecls.forget {W : Type} (D : TDecls W) : Decls W where
  options := D.options.map (·.decl)
  flags := D.flags
  positionals := D.positionals.map (·.decl)

abbrev TFM (W α : Type) := TM (FState W) α

/-- `combine_option_names`, format_parse.hpp lines 232-240. -/
def combineOptionNames (short : Char) (long : Str) : Str :=
  if short = '\x00' then (Id.long long).dashed
  else if long = [] then (Id.short short).dashed
  else (Id.short short).dashed ++ "/".toList ++ (Id.long long).dashed

/-- The entries of the map `enumeration_names` (format_parse.hpp line 316): the first entry of a name counts. -/
def enumEntries (names : List (Str × Int)) : List (Str × Int) :=
  names.foldl (fun acc p => if acc.any (fun q => q.1 == p.1) then acc else acc ++ [p]) []

/-- The comparison of format_parse.hpp lines 320-329: by value, then by name. Simplification: the option type is totally
ordered, and ordered like the numbers of the enumerators. -/
def entryLt (p q : Str × Int) : Bool := if p.2 ≠ q.2 then decide (p.2 < q.2) else strLt p.1 q.1

def insertEntry (x : Str × Int) : List (Str × Int) → List (Str × Int)
  | [] => [x]
  | y :: l => if entryLt y x then y :: insertEntry x l else x :: y :: l

/-- The list of names in the text for an unknown name, format_parse.hpp lines 314-337. Each name is followed by `", "`; the
last two characters are replaced by `"]"`. Simplification: `key.data()` ends where the name ends. -/
def keysText (names : List (Str × Int)) : Str :=
  (((enumEntries names).foldr insertEntry []).foldl (fun t p => t ++ p.1 ++ ", ".toList) "[".toList).dropLast.dropLast
    ++ "]".toList

/-- `parse_option_value` with texts: only the one for enumerations throws (format_parse.hpp lines 308-347). -/
def parseElemT (ty : ElemTy) (s : Str) : Except (Exn × Str) (ParseRes × Option Elem) :=
  match ty with
  | .enumeration names =>
    match names.lookup s with
    | some tag => .ok (.success, some (.enumv tag))
    | none =>
      if names.isEmpty then .error (.outOfRange, [])
      else .error (.userInputError,
        "You have chosen an invalid input value: ".toList ++ s ++ ". Please use one of: ".toList ++ keysText names)
  | ty =>
    match parseElem ty s with
    | .ok r => .ok r
    | .error e => .error (e, [])

/-- `std::to_string(std::numeric_limits<T>::min())` and `max()`, format_parse.hpp lines 466-467. For a floating point type
`min()` is the smallest positive normal number, which `std::to_string` writes (with six digits) as `0.000000`. -/
def limitTexts (wd : Wording) : ElemTy → Str × Str
  | .integer lo hi => (showInt lo, showInt hi)
  | .boolean => ("0".toList, "1".toList)
  | ty => ("0.000000".toList, wd.maxText ty)

/-- `throw_on_input_error<option_type>`, format_parse.hpp lines 448-472, with texts. -/
def throwOnInputErrorT (wd : Wording) (ndebug isList : Bool) (ty : ElemTy) (res : ParseRes) (name text : Str) :
    Option (Exn × Str) :=
  match res with
  | .error => some (.userInputError, "Value parse failed for ".toList ++ name ++ ": ".toList ++ "Argument ".toList ++ text
      ++ " could not be parsed as type ".toList ++ wd.typeName isList ty ++ ".".toList)
  | .overflowError =>
    if !isList && ty.isArithmetic then
      some (.userInputError, "Value parse failed for ".toList ++ name ++ ": ".toList ++ "Numeric argument ".toList ++ text
        ++ " is not in the valid range [".toList ++ (limitTexts wd ty).1 ++ ",".toList ++ (limitTexts wd ty).2 ++ "].".toList)
    else if ndebug then none else some (.assertFailed, [])
  | .success => none

def throwIfT {W : Type} : Option (Exn × Str) → TFM W Unit
  | none => TM.pure ()
  | some (e, t) => TM.throw e t

def setVarT {W : Type} (x : VarId) (v : Val) : TFM W Unit :=
  TM.modify fun s => { s with store := s.store.set x v }

def setPreT {W : Type} (l : List Str) : TFM W Unit := TM.modify fun s => { s with pre := l }

/-- Lines 526-527 and 786-788 of format_parse.hpp for a scalar option; `name` is how the option is called in the text. -/
def assignScalarT {W : Type} (wd : Wording) (ndebug : Bool) (ty : ElemTy) (x : VarId) (name text : Str) : TFM W Unit :=
  match parseElemT ty text with
  | .error (e, t) => TM.throw e t
  | .ok (res, written) =>
    TM.bind (match written with
      | some e => setVarT x (.one e)
      | none => TM.pure ()) fun _ =>
    throwIfT (throwOnInputErrorT wd ndebug false ty res name text)

/-- The same for a container. -/
def appendListT {W : Type} (wd : Wording) (ndebug : Bool) (ty : ElemTy) (x : VarId) (name text : Str) : TFM W Unit :=
  match parseElemT ty text with
  | .error (e, t) => TM.throw e t
  | .ok (res, written) =>
    TM.bind (if res = .success then
      TM.modify fun s => { s with store := s.store.set x ((s.store x).pushBack (written.getD ty.init)) }
      else TM.pure ()) fun _ =>
    throwIfT (throwOnInputErrorT wd ndebug true ty res name text)

/-- The text of lines 506 and 521 of format_parse.hpp. -/
def missingText (id : Id) : Str := "Missing value for option ".toList ++ id.dashed

/-- `get_option_by_id` for non-containers, format_parse.hpp lines 551-564. -/
def getOptionByIdScalarT {W : Type} (wd : Wording) (ndebug : Bool) (ty : ElemTy) (x : VarId) (id : Id) : TFM W Bool :=
  fun s =>
  match findOptionId id s.pre with
  | (_, []) => .ok false s
  | (front, a :: rest) =>
    match retrieve id a rest with
    | .error e => .err e (missingText id) s
    | .ok (text, blanks, rest') =>
      TM.bind (setPreT (front ++ blanks ++ rest')) (fun _ =>
      TM.bind (assignScalarT wd ndebug ty x id.dashed text) (fun _ =>
      match findOptionId id rest' with
      | (_, []) => TM.pure true
      | (_, _ :: _) => TM.throw .optionDeclaredMultipleTimes
          ("Option ".toList ++ id.dashed ++ " is no list/container but declared multiple times.".toList))) s

/-- The loop of `get_option_by_id` for containers, format_parse.hpp lines 586-590. -/
def collectT {W : Type} (wd : Wording) (ndebug : Bool) (ty : ElemTy) (x : VarId) (id : Id) (front : List Str) :
    List Str → TFM W Unit
  | [] => setPreT front
  | a :: rest =>
    if id.hits a then
      if id.dashed.length < a.length then
        match retrieve id a rest with
        | .error e => TM.throw e (missingText id)
        | .ok (text, _, _) =>
          TM.bind (appendListT wd ndebug ty x id.dashed text) fun _ => collectT wd ndebug ty x id (front ++ [[]]) rest
      else
        match rest with
        | [] => TM.throw .tooFewArguments (missingText id)
        | v :: rest' =>
          TM.bind (appendListT wd ndebug ty x id.dashed v) fun _ =>
            collectT wd ndebug ty x id (front ++ [[], []]) rest'
    else collectT wd ndebug ty x id (front ++ [a]) rest

/-- `get_option_by_id` for containers, format_parse.hpp lines 577-593. -/
def getOptionByIdListT {W : Type} (wd : Wording) (ndebug : Bool) (ty : ElemTy) (x : VarId) (id : Id) : TFM W Bool := fun s =>
  match findOptionId id s.pre with
  | (_, []) => .ok false s
  | (_, _ :: _) =>
    TM.bind (setVarT x (.many [])) (fun _ =>
    TM.bind (collectT wd ndebug ty x id [] s.pre) (fun _ => TM.pure true)) s

def getOptionByIdT {W : Type} (wd : Wording) (ndebug : Bool) (d : OptDecl W) (id : Id) : TFM W Bool :=
  if d.isList then getOptionByIdListT wd ndebug d.ty d.var id else getOptionByIdScalarT wd ndebug d.ty d.var id

/-- Calls the validator; its rejection is reported with the name of the option in front (format_parse.hpp lines 690-698 and
793-801). -/
def validateT {W : Type} (validator : Val → W → Bool × W) (why : Val → W → Str) (name : Str) (x : VarId) : TFM W Unit :=
  fun s =>
  match validator (s.store x) s.world with
  | (true, w) => .ok () { s with world := w }
  | (false, w) => .err .validationError
      ("Validation failed for ".toList ++ name ++ ": ".toList ++ why (s.store x) s.world) { s with world := w }

/-- `get_option`, format_parse.hpp lines 677-707. -/
def getOptionT {W : Type} (wd : Wording) (ndebug : Bool) (d : TOptDecl W) : TFM W Unit :=
  TM.bind (getOptionByIdT wd ndebug d.decl (.short d.decl.short)) fun shortSet =>
  TM.bind (getOptionByIdT wd ndebug d.decl (.long d.decl.long)) fun longSet =>
  if shortSet && longSet && !d.decl.isList then
    TM.throw .optionDeclaredMultipleTimes ("Option ".toList ++ combineOptionNames d.decl.short d.decl.long
      ++ " is no list/container but specified multiple times".toList)
  else if shortSet || longSet then
    validateT d.decl.validator d.why ("option ".toList ++ combineOptionNames d.decl.short d.decl.long) d.decl.var
  else if d.decl.required then
    TM.throw .requiredOptionMissing ("Option ".toList ++ combineOptionNames d.decl.short d.decl.long
      ++ " is required but not set.".toList)
  else TM.pure ()

/-- `get_flag` does not throw. -/
def getFlagT {W : Type} (d : FlagDecl) : TFM W Unit := fun s =>
  match getFlag d s with
  | .ok u s' => .ok u s'
  | .err e s' => .err e [] s'

/-- The text for an argument that looks like an identifier, format_parse.hpp lines 619-632. -/
def unknownText (arg : Str) : Except Exn Str :=
  if arg[1]? ≠ some '-' ∧ 2 < arg.length then
    match expandMultipleFlags arg with
    | .error e => .error e
    | .ok flags => .ok ("Unknown flags ".toList ++ flags
        ++ ". In case this is meant to be a non-option/argument/parameter, please specify the start of arguments with '--'. ".toList
        ++ "See -h/--help for program information.".toList)
  else .ok ("Unknown option ".toList ++ arg
    ++ ". In case this is meant to be a non-option/argument/parameter, please specify the start of non-options with '--'. ".toList
    ++ "See -h/--help for program information.".toList)

/-- `check_for_unknown_ids`, format_parse.hpp lines 608-635: the first one is reported. -/
def checkForUnknownIdsT {W : Type} : TFM W Unit := fun s =>
  match s.pre.find? looksLikeId with
  | none => .ok () s
  | some arg =>
    match unknownText arg with
    | .error e => .err e [] s
    | .ok t => .err .unknownOption t s

def blankEndOfOptionsT {W : Type} : TFM W Unit :=
  TM.modify fun s => { s with pre := s.pre ++ blankHead s.post, post := [] }

/-- The loop filling a positional list, format_parse.hpp lines 768-781. `count` is `positional_option_count`, which is
increased behind each element; its last value is the result. -/
def fillListT {W : Type} (wd : Wording) (ndebug : Bool) (ty : ElemTy) (x : VarId) (count : Nat) (front : List Str) :
    List Str → TFM W Nat
  | [] => TM.bind (setPreT front) fun _ => TM.pure count
  | a :: rest =>
    if a = [] then fillListT wd ndebug ty x count (front ++ [a]) rest
    else
      TM.bind (appendListT wd ndebug ty x ("positional option".toList ++ showNat count) a) fun _ =>
      fillListT wd ndebug ty x (count + 1) (front ++ [[]]) rest

/-- `get_positional_option`, format_parse.hpp lines 745-802. `total` is `positional_option_calls.size()`; `count` is
`positional_option_count` behind line 747. The result is its value at the end. -/
def getPositionalT {W : Type} (wd : Wording) (ndebug : Bool) (total count : Nat) (d : TPosDecl W) : TFM W Nat := fun s =>
  match s.pre.dropWhile (fun a => a = []) with
  | [] => .err .tooFewArguments ("Not enough positional arguments provided (Need at least ".toList ++ showNat total
      ++ "). See -h/--help for more information.".toList) s
  | a :: rest =>
    if d.decl.isList then
      if !ndebug && !(count == total) then .err .assertFailed [] s
      else
        TM.bind (setVarT d.decl.var (.many [])) (fun _ =>
        TM.bind (fillListT wd ndebug d.decl.ty d.decl.var count [] s.pre) (fun count' =>
        TM.bind (validateT d.decl.validator d.why ("positional option ".toList ++ showNat count') d.decl.var) (fun _ =>
        TM.pure count'))) s
    else
      TM.bind (assignScalarT wd ndebug d.decl.ty d.decl.var ("positional option".toList ++ showNat count) a) (fun _ =>
      TM.bind (setPreT (s.pre.takeWhile (fun a => a = []) ++ [] :: rest)) (fun _ =>
      TM.bind (validateT d.decl.validator d.why ("positional option ".toList ++ showNat count) d.decl.var) (fun _ =>
      TM.pure count))) s

/-- The loop over the positional options, format_parse.hpp lines 123-124; each call increases the count (line 747). -/
def runPositionalsT {W : Type} (wd : Wording) (ndebug : Bool) (total : Nat) : Nat → List (TPosDecl W) → TFM W Unit
  | _, [] => TM.pure ()
  | count, d :: ds =>
    TM.bind (getPositionalT wd ndebug total (count + 1) d) fun count' => runPositionalsT wd ndebug total count' ds

/-- `check_for_left_over_args`, format_parse.hpp lines 648-658. -/
def checkForLeftOverArgsT {W : Type} : TFM W Unit := fun s =>
  if s.pre.any (fun a => a ≠ []) then
    .err .tooManyArguments "Too many arguments provided. Please see -h/--help for more information.".toList s
  else .ok () s

def parseBodyT {W : Type} (wd : Wording) (ndebug : Bool) (D : TDecls W) : TFM W Unit :=
  TM.bind (TM.forEach (getOptionT wd ndebug) D.options) fun _ =>
  TM.bind (TM.forEach getFlagT D.flags) fun _ =>
  TM.bind checkForUnknownIdsT fun _ =>
  TM.bind blankEndOfOptionsT fun _ =>
  TM.bind (runPositionalsT wd ndebug D.positionals.length 0 D.positionals) fun _ =>
  checkForLeftOverArgsT

/-- `format_parse::parse`, format_parse.hpp lines 106-127. -/
def formatParseT {W : Type} (wd : Wording) (ndebug : Bool) (D : TDecls W) (args : List Str) (st : Store) (w : W) :
    TRes (FState W) Unit :=
  parseBodyT wd ndebug D
    { pre := args.takeWhile (fun a => a ≠ endMarker)
      post := args.dropWhile (fun a => a ≠ endMarker)
      store := st
      world := w }

/-! ### Scanning the arguments -/

/-- Text for an unknown subcommand, parser.hpp lines 855-858: each subcommand is followed by `", "`, the last two characters
are replaced. -/
def unknownSubcommandText (subs : List Str) : Str :=
  (subs.foldl (fun t c => t ++ c ++ ", ".toList)
    "You specified an unknown subcommand! Available subcommands are: [".toList).dropLast.dropLast
    ++ "]. Use -h/--help for more information.".toList

/-- `detail::supported_exports`, to_string.hpp lines 21-26 (with the tool description library). -/
def exportNames : Str := "[html, man, ctd, cwl]".toList

def exportText : Str :=
  "Validation failed for option --export-help: ".toList ++ "Value must be one of ".toList ++ exportNames ++ ".".toList

abbrev TSM (α : Type) := TM ScanState α

def setFormatT (f : Format) : TSM Unit := TM.modify fun s => { s with format := f }

def pushArgT (a : Str) : TSM Unit := TM.modify fun s => { s with formatArguments := s.formatArguments ++ [a] }

/-- The `for` loop of `determine_format_and_subcommand` (parser.hpp lines 869-954) with texts. -/
def scanLoopT (options subs : List Str) : List Str → TSM Unit
  | [] => TM.pure ()
  | a :: rest =>
    if a ∈ options then
      TM.bind (pushArgT a) fun _ =>
      match rest with
      | [] => TM.pure ()
      | v :: rest' => TM.bind (pushArgT v) fun _ => scanLoopT options subs rest'
    else if subs ≠ [] ∧ a ∈ subs then
      TM.modify fun s => { s with sub := some (a :: rest) }
    else if subs ≠ [] ∧ a.head? ≠ some '-' then TM.throw .userInputError (unknownSubcommandText subs)
    else if a = sDashH ∨ a = sHelp then
      TM.bind (setFormatT (.help false)) fun _ => scanLoopT options subs rest
    else if a = sDashHH ∨ a = sAdvancedHelp then
      TM.bind (setFormatT (.help true)) fun _ => scanLoopT options subs rest
    else if a = sVersion then TM.bind (setFormatT .version) fun _ => scanLoopT options subs rest
    else if a = sCopyright then TM.bind (setFormatT .copyright) fun _ => scanLoopT options subs rest
    else if a = sExportHelp then
      match rest with
      | [] => TM.throw .tooFewArguments "Option --export-help must be followed by a value.".toList
      | v :: rest' =>
        match exportFormat v with
        | .error e => TM.throw e exportText
        | .ok f => TM.bind (setFormatT f) fun _ => scanLoopT options subs rest'
    else if (sExportHelp ++ ['=']).isPrefixOf a then
      match exportFormat (a.drop (sExportHelp.length + 1)) with
      | .error e => TM.throw e exportText
      | .ok f => TM.bind (setFormatT f) fun _ => scanLoopT options subs rest
    else if a = sVersionCheck then
      match rest with
      | [] => TM.throw .tooFewArguments "Option --version-check must be followed by a value.".toList
      | v :: rest' =>
        match versionCheckValue v with
        | .error e => TM.throw e "Value for option --version-check must be true (1) or false (0).".toList
        | .ok b =>
          TM.bind (TM.modify fun s => { s with userDecision := some b }) fun _ => scanLoopT options subs rest'
    else TM.bind (pushArgT a) fun _ => scanLoopT options subs rest

/-! ### `parse()` -/

/-- How a call of `parse()` ends; `none` if the exception comes from the version check or from printing a page, whose texts
are not modelled here. -/
inductive TOutcome where
  | returned
  | exited (page : Format)
  | threw (e : Exn) (what : Option Str)

/-- The call lists, with the texts of the validators. -/
def textDeclsOf {W : Type} (why : Entry W → Val → W → Str) (ops : List (Entry W)) : TDecls W where
  options := ops.filterMap fun
    | .option cfg x l ty v => some
        { decl := { short := cfg.short, long := cfg.long, var := x, isList := l, ty := ty,
                    required := cfg.required, validator := v }
          why := why (.option cfg x l ty v) }
    | _ => none
  flags := (declsOf ops).flags
  positionals := ops.filterMap fun
    | .positional cfg x l ty v => some
        { decl := { var := x, isList := l, ty := ty, validator := v }, why := why (.positional cfg x l ty v) }
    | _ => none

/-- `verify_app_and_subcommand_names`, parser.hpp lines 1089-1107. -/
def verifyNamesT {W : Type} (p : Parser W) : TRes (Parser W) Unit :=
  if matchesNameRegex p.appName = false then .err .designError
    ("The application name must only contain alpha-numeric characters or '_' and '-' ".toList
      ++ "(regex: \"^[a-zA-Z0-9_-]+$\").".toList) p
  else if p.subcommands.any (fun s => !matchesNameRegex s) then .err .designError
    ("The subcommand name must only contain alpha-numeric characters or '_' and '-' ".toList
      ++ "(regex: \"^[a-zA-Z0-9_-]+$\").".toList) p
  else .ok () p

/-- `determine_format_and_subcommand`, parser.hpp lines 808-964. -/
def determineFormatT {W : Type} (ndebug : Bool) (p : Parser W) : TRes (Parser W) Format :=
  match p.arguments with
  | [] => .err (if ndebug then .undefinedBehaviour else .assertFailed) [] p
  | exe :: args =>
    let p1 := { p with executableName := p.executableName ++ [exe] }
    let upd (s : ScanState) : Parser W := { p1 with
      formatArguments := s.formatArguments
      userDecision := s.userDecision
      subParser := s.sub.map (subInit p.appName p1.executableName) }
    match scanLoopT p.options p.subcommands args scanInit with
    | .err e t s => .err e t (upd s)
    | .ok _ s => .ok (finalFormat s) (upd s)

/-- `parse_format` and the exit, parser.hpp lines 432-439. -/
def parseFormatT {W : Type} (env : Env W) (wd : Wording) (why : Entry W → Val → W → Str) (f : Format) (g : Prog W) :
    TOutcome × Prog W :=
  match f with
  | .parse =>
    match formatParseT wd env.ndebug (textDeclsOf why g.parser.operations) g.parser.formatArguments g.store g.world with
    | .ok _ s => (.returned, { g with store := s.store, world := s.world })
    | .err e t s => (.threw e (some t), { g with store := s.store, world := s.world })
  | f =>
    match env.printPage f g.parser g.store g.world with
    | (some e, w) => (.threw e none, { g with world := w })
    | (none, w) => (.exited f, { g with world := w })

/-- `run_version_check` followed by `parse_format`, parser.hpp lines 431-439. -/
def checkAndParseT {W : Type} (env : Env W) (wd : Wording) (why : Entry W → Val → W → Str) (f : Format) (g : Prog W) :
    TOutcome × Prog W :=
  match env.versionCheck g.parser.appName g.parser.notify g.parser.userDecision g.world with
  | (some e, w) => (.threw e none, { g with world := w })
  | (none, w) => parseFormatT env wd why f { g with world := w }

/-- `parser::parse`, parser.hpp lines 414-440. `why` gives the text of the exception that the validator of an entry throws. -/
def parseT {W : Type} (env : Env W) (wd : Wording) (why : Entry W → Val → W → Str) (g : Prog W) : TOutcome × Prog W :=
  if g.parser.parseWasCalled then (.threw .designError (some "The function parse() must only be called once!".toList), g)
  else
    match verifyNamesT { g.parser with parseWasCalled := true } with
    | .err e t p => (.threw e (some t), { g with parser := p })
    | .ok _ p =>
      match determineFormatT env.ndebug p with
      | .err e t p' => (.threw e (some t), { g with parser := p' })
      | .ok f p' => checkAndParseT env wd why f { g with parser := p' }

end Sharg
