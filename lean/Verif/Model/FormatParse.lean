import Verif.Model.Value

/-!
# The command line parser proper

Models `include/sharg/detail/format_parse.hpp`, function by function.

Representation: `arguments` is split at `end_of_options_it` into `pre ++ post`. The code never inserts or
erases arguments, it only overwrites them, so the split point stays valid. Used-up arguments are overwritten
with the empty string, as in the code. An iterator into `arguments` is a split of a list.
-/

namespace Sharg

/-- An option identifier, `char` or `std::string`. `'\0'` and `""` mean "none". -/
inductive Id where
  | short (c : Char)
  | long (s : Str)
  deriving DecidableEq, Repr

/-- `is_empty_id`, format_parse.hpp lines 142-149. -/
def Id.isEmpty : Id → Bool
  | .short c => c == '\x00'
  | .long s => s.isEmpty

/-- `prepend_dash`, format_parse.hpp lines 213-225. -/
def Id.dashed : Id → Str
  | .short c => ['-', c]
  | .long s => '-' :: '-' :: s

/-- The predicate inside `find_option_id`, format_parse.hpp lines 180-197. -/
def Id.hits (id : Id) (arg : Str) : Bool :=
  match id with
  | .short _ => arg.take id.dashed.length == id.dashed
  | .long _ =>
    arg.take id.dashed.length == id.dashed
      && (arg.length == id.dashed.length || arg[id.dashed.length]? == some '=')

/-- `find_option_id`, format_parse.hpp lines 173-198: splits the range at the position found (second part
empty: not found). -/
def findOptionId (id : Id) (l : List Str) : List Str × List Str :=
  if id.isEmpty then (l, []) else (l.takeWhile (fun a => !id.hits a), l.dropWhile (fun a => !id.hits a))

/-- A declared option: the variable and the parts of `sharg::config` used for parsing. `W` is the outside
world a validator may read and change. A validator returns whether it accepts the value; every
`std::exception` it throws counts as rejection. Simplification: it cannot change the value. -/
structure OptDecl (W : Type) where
  short : Char
  long : Str
  var : VarId
  isList : Bool
  ty : ElemTy
  required : Bool
  validator : Val → W → Bool × W

/-- A declared flag. -/
structure FlagDecl where
  short : Char
  long : Str
  var : VarId

/-- A declared positional option. -/
structure PosDecl (W : Type) where
  var : VarId
  isList : Bool
  ty : ElemTy
  validator : Val → W → Bool × W

/-- The three call lists of `format_parse` (format_parse.hpp lines 805-809), in order of registration. -/
structure Decls (W : Type) where
  options : List (OptDecl W)
  flags : List FlagDecl
  positionals : List (PosDecl W)

/-- State of a running `format_parse`. -/
structure FState (W : Type) where
  /-- `[arguments.begin(), end_of_options_it)` -/
  pre : List Str
  /-- `[end_of_options_it, arguments.end())` -/
  post : List Str
  store : Store
  world : W

abbrev FM (W α : Type) := M (FState W) α

/-- Lines 498-524 of `identify_and_retrieve_option_value` (format_parse.hpp): `a` is the argument found, `rest`
the arguments behind it up to `end_of_options_it`. Result: the value text, the blanked cells, the arguments
behind them. The value in `-key value` is taken whatever it looks like. -/
def retrieve (id : Id) (a : Str) (rest : List Str) : Except Exn (Str × List Str × List Str) :=
  if id.dashed.length < a.length then
    if a[id.dashed.length]? = some '=' then
      if a.length = id.dashed.length + 1 then .error .tooFewArguments
      else .ok (a.drop (id.dashed.length + 1), [[]], rest)
    else .ok (a.drop id.dashed.length, [[]], rest)
  else
    match rest with
    | [] => .error .tooFewArguments
    | v :: rest' => .ok (v, [[], []], rest')

/-- Writes to a variable. -/
def setVar {W : Type} (x : VarId) (v : Val) : FM W Unit :=
  M.modify fun s => { s with store := s.store.set x v }

/-- `[begin, end_of_options_it)` gets new content of the same length. -/
def setPre {W : Type} (l : List Str) : FM W Unit := M.modify fun s => { s with pre := l }

/-- Throw if there is something to throw. -/
def throwIf {W : Type} : Option Exn → FM W Unit
  | none => M.pure ()
  | some e => M.throw e

/-- Lines 526-527 of format_parse.hpp (and 786-788) for a scalar option: `parse_option_value` writes to the
variable, then `throw_on_input_error`. -/
def assignScalar {W : Type} (ndebug : Bool) (ty : ElemTy) (x : VarId) (text : Str) : FM W Unit :=
  match parseElem ty text with
  | .error e => M.throw e
  | .ok (res, written) => do
    match written with
    | some e => setVar x (.one e)
    | none => M.pure ()
    throwIf (throwOnInputError ndebug ty.isArithmetic res)

/-- `value.push_back(tmp)`. The variable of a list option always holds a list (static typing in C++). -/
def Val.pushBack : Val → Elem → Val
  | .many es, e => .many (es ++ [e])
  | .one _, e => .many [e]

/-- The same for a container: `parse_option_value` of the container, format_parse.hpp lines 369-387, appends
only on success; `throw_on_input_error<container>` (not arithmetic) follows. -/
def appendList {W : Type} (ndebug : Bool) (ty : ElemTy) (x : VarId) (text : Str) : FM W Unit :=
  match parseElem ty text with
  | .error e => M.throw e
  | .ok (res, written) => do
    if res = .success then
      M.modify fun s => { s with store := s.store.set x ((s.store x).pushBack (written.getD ty.init)) }
    throwIf (throwOnInputError ndebug false res)

/-- `get_option_by_id` for non-containers, format_parse.hpp lines 551-564. The second search starts at the
blanked cell, which cannot match, hence effectively behind it. -/
def getOptionByIdScalar {W : Type} (ndebug : Bool) (ty : ElemTy) (x : VarId) (id : Id) : FM W Bool := fun s =>
  match findOptionId id s.pre with
  | (_, []) => .ok false s
  | (front, a :: rest) =>
    match retrieve id a rest with
    | .error e => .err e s
    | .ok (text, blanks, rest') =>
      M.bind (setPre (front ++ blanks ++ rest')) (fun _ =>
      M.bind (assignScalar ndebug ty x text) (fun _ =>
      match findOptionId id rest' with
      | (_, []) => M.pure true
      | (_, _ :: _) => M.throw .optionDeclaredMultipleTimes)) s

/-- The loop of `get_option_by_id` for containers, format_parse.hpp lines 586-590. `front` is what the iterator
has passed. `find_option_id` is unrolled into this recursion (see `collect_unfold` in the lemmas for the form
with `findOptionId`), because a blanked cell never matches again. -/
def collect {W : Type} (ndebug : Bool) (ty : ElemTy) (x : VarId) (id : Id) (front : List Str) :
    List Str → FM W Unit
  | [] => setPre front
  | a :: rest =>
    if id.hits a then
      if id.dashed.length < a.length then
        match retrieve id a rest with
        | .error e => M.throw e
        | .ok (text, _, _) =>
          M.bind (appendList ndebug ty x text) fun _ => collect ndebug ty x id (front ++ [[]]) rest
      else
        match rest with
        | [] => M.throw .tooFewArguments
        | v :: rest' =>
          M.bind (appendList ndebug ty x v) fun _ => collect ndebug ty x id (front ++ [[], []]) rest'
    else collect ndebug ty x id (front ++ [a]) rest

/-- `get_option_by_id` for containers, format_parse.hpp lines 577-593: the container is cleared if the
identifier occurs. -/
def getOptionByIdList {W : Type} (ndebug : Bool) (ty : ElemTy) (x : VarId) (id : Id) : FM W Bool := fun s =>
  match findOptionId id s.pre with
  | (_, []) => .ok false s
  | (_, _ :: _) =>
    M.bind (setVar x (.many [])) (fun _ =>
    M.bind (collect ndebug ty x id [] s.pre) (fun _ => M.pure true)) s

/-- Overload resolution between the two. -/
def getOptionById {W : Type} (ndebug : Bool) (d : OptDecl W) (id : Id) : FM W Bool :=
  if d.isList then getOptionByIdList ndebug d.ty d.var id else getOptionByIdScalar ndebug d.ty d.var id

/-- Calls the validator with the current content of the variable; rejection becomes `validation_error`
(format_parse.hpp lines 688-697 and 793-801). -/
def validate {W : Type} (validator : Val → W → Bool × W) (x : VarId) : FM W Unit := fun s =>
  match validator (s.store x) s.world with
  | (true, w) => .ok () { s with world := w }
  | (false, w) => .err .validationError { s with world := w }

/-- `get_option`, format_parse.hpp lines 677-707. -/
def getOption {W : Type} (ndebug : Bool) (d : OptDecl W) : FM W Unit :=
  M.bind (getOptionById ndebug d (.short d.short)) fun shortSet =>
  M.bind (getOptionById ndebug d (.long d.long)) fun longSet =>
  if shortSet && longSet && !d.isList then M.throw .optionDeclaredMultipleTimes
  else if shortSet || longSet then validate d.validator d.var
  else if d.required then M.throw .requiredOptionMissing
  else M.pure ()

/-- Body of the loop in `flag_is_set(char)`, format_parse.hpp lines 263-276: `some` new content if the
argument contains the flag. `std::string::find` + `erase(pos, 1)` is `List.erase`. -/
def flagCell (c : Char) (arg : Str) : Option Str :=
  match arg with
  | '-' :: y :: _ =>
    if y ≠ '-' ∧ c ∈ arg then
      some (if arg.erase c = ['-'] then [] else arg.erase c)
    else none
  | _ => none

/-- The loop of `flag_is_set(char)`, format_parse.hpp lines 258-279: stops at the first argument with the
flag; `none` if there is none. -/
def flagShort (c : Char) : List Str → Option (List Str)
  | [] => none
  | a :: l =>
    match flagCell c a with
    | some a' => some (a' :: l)
    | none => (flagShort c l).map (a :: ·)

/-- `flag_is_set(std::string)`, format_parse.hpp lines 245-253, on `[begin, end_of_options_it)`. -/
def flagLong (s : Str) : List Str → Option (List Str)
  | [] => none
  | a :: l => if a = (Id.long s).dashed then some ([] :: l) else (flagLong s l).map (a :: ·)

/-- `get_flag`, format_parse.hpp lines 716-721. The short search runs over all of `arguments`, also behind
`--`; the long one only up to `end_of_options_it`, and only if the short one failed. -/
def getFlag {W : Type} (d : FlagDecl) : FM W Unit := fun s =>
  match flagShort d.short s.pre with
  | some pre' => .ok () { s with pre := pre', store := s.store.set d.var (.one (.bool true)) }
  | none =>
    match flagShort d.short s.post with
    | some post' => .ok () { s with post := post', store := s.store.set d.var (.one (.bool true)) }
    | none =>
      match flagLong d.long s.pre with
      | some pre' => .ok () { s with pre := pre', store := s.store.set d.var (.one (.bool true)) }
      | none => .ok () s

/-- The condition in `check_for_unknown_ids`, format_parse.hpp lines 610-634: both branches throw
`unknown_option`. -/
def looksLikeId (arg : Str) : Bool :=
  match arg with
  | '-' :: _ :: _ => true
  | _ => false

/-- `check_for_unknown_ids`, format_parse.hpp lines 608-635. -/
def checkForUnknownIds {W : Type} : FM W Unit := fun s =>
  if s.pre.any looksLikeId then .err .unknownOption s else .ok () s

/-- The first argument, if there is one, becomes empty. -/
def blankHead : List Str → List Str
  | [] => []
  | _ :: l => [] :: l

/-- `*end_of_options_it = ""`, format_parse.hpp lines 120-121. From here on the split is no longer needed; all
arguments are kept in `pre`. -/
def blankEndOfOptions {W : Type} : FM W Unit :=
  M.modify fun s => { s with pre := s.pre ++ blankHead s.post, post := [] }

/-- The loop filling a positional list, format_parse.hpp lines 768-781: every remaining non-empty argument is
parsed, then blanked. -/
def fillList {W : Type} (ndebug : Bool) (ty : ElemTy) (x : VarId) (front : List Str) : List Str → FM W Unit
  | [] => setPre front
  | a :: rest =>
    if a = [] then fillList ndebug ty x (front ++ [a]) rest
    else M.bind (appendList ndebug ty x a) fun _ => fillList ndebug ty x (front ++ [[]]) rest

/-- `get_positional_option`, format_parse.hpp lines 745-802. `last`: whether
`positional_option_count == positional_option_calls.size()` (the `assert` at line 764). -/
def getPositional {W : Type} (ndebug : Bool) (last : Bool) (d : PosDecl W) : FM W Unit := fun s =>
  match s.pre.dropWhile (fun a => a = []) with
  | [] => .err .tooFewArguments s
  | a :: rest =>
    if d.isList then
      if !ndebug && !last then .err .assertFailed s
      else
        M.bind (setVar d.var (.many [])) (fun _ =>
        M.bind (fillList ndebug d.ty d.var [] s.pre) (fun _ =>
        validate d.validator d.var)) s
    else
      M.bind (assignScalar ndebug d.ty d.var a) (fun _ =>
      M.bind (setPre (s.pre.takeWhile (fun a => a = []) ++ [] :: rest)) (fun _ =>
      validate d.validator d.var)) s

/-- `for (auto && f : positional_option_calls) f();`, format_parse.hpp lines 123-124. -/
def runPositionals {W : Type} (ndebug : Bool) : List (PosDecl W) → FM W Unit
  | [] => M.pure ()
  | d :: ds => M.bind (getPositional ndebug ds.isEmpty d) fun _ => runPositionals ndebug ds

/-- `check_for_left_over_args`, format_parse.hpp lines 648-658. -/
def checkForLeftOverArgs {W : Type} : FM W Unit := fun s =>
  if s.pre.any (fun a => a ≠ []) then .err .tooManyArguments s else .ok () s

/-- The end-of-options marker `--`. -/
def endMarker : Str := ['-', '-']

/-- `format_parse::parse` behind the first line, format_parse.hpp lines 108-126. -/
def parseBody {W : Type} (ndebug : Bool) (D : Decls W) : FM W Unit :=
  M.bind (M.forEach (getOption ndebug) D.options) fun _ =>
  M.bind (M.forEach getFlag D.flags) fun _ =>
  M.bind checkForUnknownIds fun _ =>
  M.bind blankEndOfOptions fun _ =>
  M.bind (runPositionals ndebug D.positionals) fun _ =>
  checkForLeftOverArgs

/-- `format_parse::parse`, format_parse.hpp lines 106-127: `end_of_options_it` is the first `--`. -/
def formatParse {W : Type} (ndebug : Bool) (D : Decls W) (args : List Str) (st : Store) (w : W) :
    Res (FState W) Unit :=
  parseBody ndebug D
    { pre := args.takeWhile (fun a => a ≠ endMarker)
      post := args.dropWhile (fun a => a ≠ endMarker)
      store := st
      world := w }

end Sharg
