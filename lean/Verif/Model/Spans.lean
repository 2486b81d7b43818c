import Verif.Model.Validate
/-
The validator's main loop once more, with the source positions that `Model/Validate` leaves out: V:10-24, V:522-863, V:1458-1676.
What it does otherwise is the same (`Props/Spans`), so the pattern operations are those of `Model/Deriv`.
-/
namespace Verif.Loc
open Verif

/-- `xmlparser::StrSpan`: a part of the text and the position (in bytes) where it begins -/
structure Sp where
  start : Nat
  s : Str
  deriving DecidableEq, Repr

/-- `StrSpan::end` -/
def Sp.stop (p : Sp) : Nat := p.start + byteLen p.s

/-- `StrSpan::from("")` -/
def Sp.none : Sp := ⟨0, []⟩

/-- `xmlparser::ElementEnd` -/
inductive End where
  | open
  | close (pre loc : Sp)
  | empty
  deriving DecidableEq, Repr

/-- `xmlparser::EntityDefinition` -/
inductive EntityDef where
  | entityValue (v : Sp)
  | externalId
  deriving DecidableEq, Repr

/-- `xmlparser::Token`; payloads the validator never reads are dropped. -/
inductive Token where
  | declaration (span : Sp)
  | processingInstruction (span : Sp)
  | comment (span : Sp)
  | dtdStart (span : Sp)
  | emptyDtd (span : Sp)
  | dtdEnd (span : Sp)
  | entityDeclaration (name : Sp) (definition : EntityDef) (span : Sp)
  | elementStart (pre loc span : Sp)
  | attribute (pre loc value span : Sp)
  | elementEnd (e : End) (span : Sp)
  | text (s : Sp)
  | cdata (s span : Sp)
  deriving DecidableEq, Repr

/-- V:10-24 `ValidatorError`; of `xmlparser::Error` the row and column (which count from one). -/
inductive Err where
  | xml (row col : Nat)
  | notAllowed (t : Token)
  | undefinedNamespacePrefix (pre : Sp)
  | undefinedEntity (name : Str) (b e : Nat)
  | invalidOrUnclosedEntity (b e : Nat)
  deriving DecidableEq, Repr

/-- V:1649-1654 `UnresolvedAttr`. -/
structure UAttr where
  pre : Sp
  loc : Sp
  value : Sp
  span : Sp

/-- V:1655-1660 `ElementState`, V:1673-1676 `Ns`. -/
structure Elem where
  pre : Sp
  loc : Sp
  namespaces : List (Sp × Sp)
  attributes : List UAttr

/-- V:509-520 `QualifiedName`, `Attr`. -/
structure LAttr where
  ns : Option Sp
  loc : Sp
  value : Sp
  span : Sp

/-- without the positions -/
def LAttr.plain (a : LAttr) : Attr := ⟨⟨a.ns.map (·.s), a.loc.s⟩, a.value.s⟩

/-- V:1663-1670 `ElementState::lookup_namespace_uri`. -/
def Elem.lookup (e : Elem) (pre : Str) : Option Sp := (e.namespaces.find? fun n => n.1.s == pre).map (·.2)

/-- V:1559-1564 `lookup_namespace_uri`. -/
def lookupNs : List Elem → Str → Option Sp
  | [], _ => none
  | e :: es, pre =>
    match e.lookup pre with
    | some u => some u
    | none => lookupNs es pre

/-- V:1566-1577 `try_lookup_namespace_uri`. -/
def tryLookupNs (st : List Elem) (pre : Sp) : Except Err (Option Sp) :=
  if pre.s = [] then .ok none
  else match lookupNs st pre.s with
    | some u => .ok (some u)
    | none => .error (.undefinedNamespacePrefix pre)

/-- V:1587-1618 `add_attr` on the top element. -/
def Elem.addAttr (e : Elem) (pre loc value span : Sp) : Elem :=
  if pre.s = xmlnsStr then { e with namespaces := e.namespaces ++ [(loc, value)] }
  else if pre.s = [] ∧ loc.s = xmlnsStr then { e with namespaces := e.namespaces ++ [(pre, value)] }
  else { e with attributes := e.attributes ++ [⟨pre, loc, value, span⟩] }

/-- V:1619-1626 `current_element`: namespace and local name; the `unwrap` on an empty stack is the outer `none`. -/
def currentElement (st : List Elem) : Option (Except Err (Option Sp × Sp)) :=
  match st with
  | [] => none
  | e :: _ =>
    match tryLookupNs st e.pre with
    | .ok ns => some (.ok (ns, e.loc))
    | .error err => some (.error err)

/-- V:1634-1645 the closure of `current_attributes`. -/
def resolveAttr (st : List Elem) (a : UAttr) : Except Err LAttr :=
  if a.pre.s = [] then .ok ⟨none, a.loc, a.value, a.span⟩
  else match tryLookupNs st a.pre with
    | .ok ns => .ok ⟨ns, a.loc, a.value, a.span⟩
    | .error e => .error e

/-- `Iterator::collect` into a `Result` -/
def resolveAttrs (st : List Elem) : List UAttr → Except Err (List LAttr)
  | [] => .ok []
  | a :: as =>
    match resolveAttr st a with
    | .error e => .error e
    | .ok x =>
      match resolveAttrs st as with
      | .error e => .error e
      | .ok xs => .ok (x :: xs)

/-- V:1627-1647 `current_attributes`. -/
def currentAttributes (st : List Elem) : Option (Except Err (List LAttr)) :=
  match st with
  | [] => none
  | e :: _ => some (resolveAttrs st e.attributes)

/-- V:1458-1463 `Txt`. -/
inductive Txt where
  | text (pos : Nat) (s : Str)
  | entity (pos : Nat) (name : Str)
  | char (pos : Nat) (c : Char)

/-- V:1514-1536 `numeric_entity`; the error is the range reported. -/
def numericEntity (pos : Nat) (text : Str) : Except (Nat × Nat) Char :=
  match text with
  | [] => .error (pos, pos)
  | 'x' :: rest =>
    match rest with
    | [] => .error (pos + 1, pos + 1)
    | _ =>
      match parseU 16 0xFFFFFFFF rest with
      | none => .error (pos + 1, pos + 1)
      | some n =>
        match charFromU32 n with
        | none => .error (pos, pos)
        | some c => .ok c
  | _ =>
    match parseU 10 0xFFFFFFFF text with
    | none => .error (pos, pos)
    | some n =>
      match charFromU32 n with
      | none => .error (pos, pos)
      | some c => .ok c

/-- V:1484-1493: the result for the reference `&name;`, whose name is `off` bytes into a text that begins at `pos`.  A character
reference is given `off` as its position, not `off + pos` (V:1489). -/
def reference (pos off : Nat) (name : Str) : Except (Nat × Nat) Txt :=
  match name with
  | '#' :: digits =>
    (match numericEntity off digits with
    | .error r => .error r
    | .ok c => .ok (.char off c))
  | _ => .ok (.entity (off + pos) name)

/-- V:1465-1513 `parse_entities`: the results of `next()` for the rest `s` of a text that begins at `pos`, `off` bytes into it. -/
def entitiesGo (pos off : Nat) (inEntity : Bool) (s : Str) : List (Except (Nat × Nat) Txt) :=
  if s = [] then []
  else if inEntity then
    match _h : splitAtChar ';' s with
    | none => [.error (pos + off - 1, pos + off)]
    | some (name, rest) =>
      reference pos off name :: entitiesGo pos (off + byteLen name + 1) false rest
  else
    match _h : splitAtChar '&' s with
    | none => [.ok (.text (off + pos) s)]
    | some (pre, rest) => .ok (.text (off + pos) pre) :: entitiesGo pos (off + byteLen pre + 1) true rest
termination_by s.length
decreasing_by
  · exact splitAtChar_length (by assumption)
  · exact splitAtChar_length (by assumption)

/-- V:732-760 the loop decoding a text token. -/
def decodeLoop (ents : List (Str × Str)) (raw : Str) : List (Except (Nat × Nat) Txt) → Str → Except Err Str
  | [], buf => .ok buf
  | .error r :: _, _ => .error (.invalidOrUnclosedEntity r.1 r.2)
  | .ok (.char _ c) :: rest, buf => decodeLoop ents raw rest (buf ++ [c])
  | .ok (.text _ t) :: rest, buf =>
    if byteLen t = byteLen raw then .ok buf else decodeLoop ents raw rest (buf ++ t)
  | .ok (.entity pos name) :: rest, buf =>
    match ents.lookup name with
    | none => .error (.undefinedEntity name pos (pos + byteLen name))
    | some t =>
      if byteLen t = byteLen raw then .ok buf else decodeLoop ents raw rest (buf ++ t)

/-- V:730-766: the data a text token is validated as. -/
def decodeText (ents : List (Str × Str)) (t : Sp) : Except Err Str :=
  match decodeLoop ents t.s (entitiesGo t.start 0 false t.s) [] with
  | .error e => .error e
  | .ok buf => .ok (if buf = [] then t.s else buf)

/-- V:522-529 `Validator`. -/
structure State (D V : Type) where
  store : Store D V
  cur : Nat
  lastWasStart : Bool
  stack : List Elem
  entities : List (Str × Str)

section
variable {D V : Type} [DecidableEq D] [DecidableEq V] (L : Lib D V)

omit [DecidableEq D] [DecidableEq V] in
/-- run a schema method on `self.schema` -/
def liftS {α : Type} (x : SM D V α) : ST (State D V) α := fun s =>
  match x s.store with
  | .ok (a, st) => .ok (a, { s with store := st })
  | .error e => .error e

/-- V:838-850 the loop over the attributes. -/
def attsLoop (n : Nat) : Nat → List LAttr → SM D V (Except Err Nat)
  | pat, [] => pure (.ok pat)
  | pat, att :: rest => do
    let r ← attDeriv L n [] pat att.plain
    let p ← patt r.1
    if p.isNotAllowed then pure (.error (.notAllowed (.attribute (att.ns.getD .none) att.loc att.value att.span)))
    else attsLoop n r.1 rest

/-- V:820-863 `close_element_start`. -/
def closeElementStart (n : Nat) (stack : List Elem) (evt : Token) (pat : Pat D V) : SM D V (Except Err Nat) :=
  match currentElement stack with
  | none => ST.fault .unwrapNone
  | some (.error e) => pure (.error e)
  | some (.ok name) => do
    let d ← startTagOpenDeriv n pat ⟨name.1.map (·.s), name.2.s⟩
    let dp ← patt d
    if dp.isNotAllowed then pure (.error (.notAllowed (.elementStart (name.1.getD .none) name.2 name.2)))
    else
      match currentAttributes stack with
      | none => ST.fault .unwrapNone
      | some (.error e) => pure (.error e)
      | some (.ok atts) => do
        match ← attsLoop L n d atts with
        | .error e => pure (.error e)
        | .ok d2 => do
          let p2 ← patt d2
          if p2.isNotAllowed then pure (.error (.notAllowed evt))
          else do
            let d3 ← startTagCloseDeriv n d2
            let p3 ← patt d3
            if p3.isNotAllowed then pure (.error (.notAllowed evt)) else pure (.ok d3)

/-- V:806-817 what follows the `match` in `validate`. -/
def finish (evt : Token) (new : Nat) : ST (State D V) (Except Err Unit) := do
  let s ← ST.get
  ST.set { s with lastWasStart := match evt with
    | .elementStart _ _ _ => true
    | _ => false }
  let p ← liftS (patt new)
  if p.isNotAllowed then pure (.error (.notAllowed evt))
  else do
    let s ← ST.get
    ST.set { s with cur := new }
    pure (.ok ())

/-- V:642-818 `Validator::validate`. -/
def validate (n : Nat) (evt : Token) : ST (State D V) (Except Err Unit) := do
  let s ← ST.get
  let pat ← liftS (patt s.cur)
  match evt with
  | .emptyDtd _ => pure (.ok ())
  | .comment _ => pure (.ok ())
  | .processingInstruction _ => pure (.ok ())
  | .elementStart pre loc _ => do
    ST.set { s with stack := ⟨pre, loc, [], []⟩ :: s.stack }
    pure (.ok ())
  | .attribute pre loc value span =>
    match s.stack with
    | [] => ST.fault .unwrapNone
    | e :: es => do
      ST.set { s with stack := e.addAttr pre loc value span :: es }
      pure (.ok ())
  | .elementEnd .open _ => do
    match ← liftS (closeElementStart L n s.stack evt pat) with
    | .error e => pure (.error e)
    | .ok new => finish evt new
  | .elementEnd (.close _ _) _ => do
    let new ← liftS (endTagStep L n s.lastWasStart pat)
    finish evt new
  | .elementEnd .empty _ => do
    match ← liftS (closeElementStart L n s.stack evt pat) with
    | .error e => pure (.error e)
    | .ok id => do
      let pat ← liftS (patt id)
      let new ← liftS (endTagStep L n s.lastWasStart pat)
      finish evt new
  | .cdata t _ => do
    let new ← liftS (textDeriv L n pat t.s)
    finish evt new
  | .text t =>
    match decodeText s.entities t with
    | .error e => pure (.error e)
    | .ok data => do
      let new ← liftS (textDeriv L n pat data)
      let p ← liftS (patt new)
      if p.isNotAllowed then pure (.error (.notAllowed (.text t)))
      else finish evt new
  | .entityDeclaration name (.entityValue v) _ => do
    ST.set { s with entities := (name.s, v.s) :: s.entities }
    pure (.ok ())
  | .entityDeclaration _ .externalId _ => pure (.error (.notAllowed evt))
  | .declaration _ => pure (.ok ())
  | .dtdStart _ => pure (.ok ())
  | .dtdEnd _ => pure (.ok ())

/-- V:532-555 `Validator::new`. -/
def newValidator (env : Env D V) (n : Nat) (start : Pattern D V) : Except Fault (State D V) :=
  match compile env n start Store.init with
  | .error e => .error e
  | .ok (id, st) => .ok { store := st, cur := id, lastWasStart := false, stack := [], entities := predefined }

/-- One item of the tokenizer: a token, or an error at a row and column. -/
inductive Event where
  | token (t : Token)
  | error (row col : Nat)

/-- V:617-623 `validate_next` on a tokenizer item. -/
def validateEvent (n : Nat) : Event → ST (State D V) (Except Err Unit)
  | .token t => validate L n t
  | .error row col => pure (.error (.xml row col))

/-- V:617-623: a caller that goes on calling `validate_next` after errors; all results in order. -/
def runEvents (n : Nat) : List Event → ST (State D V) (List (Except Err Unit))
  | [] => pure []
  | e :: es => do
    let r ← validateEvent L n e
    let rs ← runEvents n es
    pure (r :: rs)

end
end Verif.Loc
