import Verif.Model.Parser

/-!
# Parser objects that are moved and destroyed

Models the defaulted move constructor and move assignment of `sharg::parser` (`include/sharg/parser.hpp` lines 160-163) and the deferred
operations, which hold a pointer to the object on which they were registered (the captured `this` in lines 246-254, 281-290, 331-339,
534-639): when `parse()` runs the operations (lines 428-429), each of them adds its entry to the `format` member of that object, not to
the one of the object that is parsing.

An object is known by its number (its address). Simplifications: addresses are not used again; set-up calls and `parse()` on an object that
was moved from (allowed in C++, its state is unspecified) and the assignment of an object to itself (which leaves an unspecified state)
are not modelled, they do nothing; an entry added to the `format` of another object
is forgotten (only such calls could show it, and `parse()` of an object that was moved from, got a new value, and prints the short help page).
-/

namespace Sharg

/-- A parser object: its members, and for each of its operations the object on which it was registered. -/
structure Object (W : Type) where
  parser : Parser W
  owners : List Nat

/-- What is at an address. -/
inductive Slot (W : Type) where
  | object (o : Object W)
  | movedFrom
  | destroyed

/-- A program with several parser objects. -/
structure Objects (W : Type) where
  slots : List (Slot W)
  store : Store
  world : W

/-- What a program can do with parser objects. -/
inductive ObjectAction (W : Type) where
  /-- `parser{...}`: the next free address -/
  | construct (i : Init)
  | call (k : Nat) (c : Call W)
  | parse (k : Nat)
  /-- `parser q{std::move(p)}` with `p` at `k`: the next free address -/
  | move (k : Nat)
  /-- `q = std::move(p)` with `p` at `k` and `q` at `l` -/
  | assign (k l : Nat)
  | destroy (k : Nat)

/-- The operations that were registered on object `k` itself. -/
def Object.ownOperations {W : Type} (k : Nat) (o : Object W) : List (Entry W) :=
  (o.owners.zip o.parser.operations).filterMap fun e => if e.1 = k then some e.2 else none

/-- An operation refers to an object that does not exist any more. -/
def Object.dangling {W : Type} (slots : List (Slot W)) (o : Object W) : Bool :=
  o.owners.any fun k => match slots[k]? with
    | some .destroyed => true
    | _ => false

/-- `parse()` of the object `o` at address `k`: as `Sharg.parse`, but only the own operations reach its format, and an operation of a
destroyed object is undefined behaviour. -/
def Object.parse {W : Type} (env : Env W) (slots : List (Slot W)) (k : Nat) (o : Object W) (st : Store) (w : W) : Outcome × Prog W :=
  let g : Prog W := { parser := o.parser, store := st, world := w }
  if o.parser.parseWasCalled then (.threw .designError, g)
  else
    match verifyAppAndSubcommandNames { o.parser with parseWasCalled := true } with
    | .err e p => (.threw e, { g with parser := p })
    | .ok _ p =>
      match determineFormatAndSubcommand env.ndebug p with
      | .err e p' => (.threw e, { g with parser := p' })
      | .ok f p' =>
        if o.dangling slots then (.threw .undefinedBehaviour, { g with parser := p' })
        else
          let r := checkAndParse env f { g with parser := { p' with operations := o.ownOperations k } }
          (r.1, { r.2 with parser := { r.2.parser with operations := o.parser.operations } })

/-- The object after a call: new operations refer to it. -/
def Object.afterCall {W : Type} (k : Nat) (o : Object W) (p : Parser W) : Object W :=
  { parser := p, owners := o.owners ++ List.replicate (p.operations.length - o.parser.operations.length) k }

/-- One action. -/
def ObjectAction.run {W : Type} (env : Env W) (a : ObjectAction W) (s : Objects W) : Outcome × Objects W :=
  match a with
  | .construct i => (.returned, { s with slots := s.slots ++ [.object { parser := mkParser i, owners := [] }] })
  | .call k c =>
    match s.slots[k]? with
    | some (.object o) =>
      match c.run o.parser with
      | .ok _ p => (.returned, { s with slots := s.slots.set k (.object (o.afterCall k p)) })
      | .err e p => (.threw e, { s with slots := s.slots.set k (.object (o.afterCall k p)) })
    | _ => (.returned, s)
  | .parse k =>
    match s.slots[k]? with
    | some (.object o) =>
      let r := o.parse env s.slots k s.store s.world
      (r.1, { slots := s.slots.set k (.object { o with parser := r.2.parser }), store := r.2.store, world := r.2.world })
    | _ => (.returned, s)
  | .move k =>
    match s.slots[k]? with
    | some (.object o) => (.returned, { s with slots := s.slots.set k .movedFrom ++ [.object o] })
    | _ => (.returned, s)
  | .assign k l =>
    match s.slots[k]?, s.slots[l]? with
    | some (.object _), some .destroyed => (.returned, s)
    | some (.object o), some _ =>
      if k = l then (.returned, s) else (.returned, { s with slots := (s.slots.set k .movedFrom).set l (.object o) })
    | _, _ => (.returned, s)
  | .destroy k => (.returned, { s with slots := s.slots.set k .destroyed })

/-- A history of actions. -/
def runObjects {W : Type} (env : Env W) : List (ObjectAction W) → Objects W → Objects W
  | [], s => s
  | a :: as, s => runObjects env as (a.run env s).2

end Sharg
