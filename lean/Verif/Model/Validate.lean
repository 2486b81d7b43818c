import Verif.Model.Deriv
import Verif.Model.Compile
import Verif.Model.Entities
/-
The validator's main loop and its element stack: V:522-863, V:1553-1676.
-/
namespace Verif

/-- `xmlparser::ElementEnd` -/
inductive ElementEnd where
  | open
  | close (pre loc : Str)
  | empty
  deriving DecidableEq, Repr

/-- `xmlparser::EntityDefinition` (the external id itself is dropped: the code ignores it) -/
inductive EntityDef where
  | entityValue (v : Str)
  | externalId
  deriving DecidableEq, Repr

/-- `xmlparser::Token`; source spans and the payloads the validator never reads are dropped. -/
inductive Token where
  | declaration
  | processingInstruction
  | comment
  | dtdStart
  | emptyDtd
  | dtdEnd
  | entityDeclaration (name : Str) (definition : EntityDef)
  | elementStart (pre loc : Str)
  | attribute (pre loc value : Str)
  | elementEnd (e : ElementEnd)
  | text (s : Str)
  | cdata (s : Str)
  deriving DecidableEq, Repr

/-- V:10-24 `ValidatorError` without spans. -/
inductive VErr where
  | xml
  | notAllowed (t : Token)
  | undefinedNamespacePrefix (pre : Str)
  | undefinedEntity (name : Str)
  | invalidOrUnclosedEntity
  deriving DecidableEq, Repr

/-- V:1649-1660 `UnresolvedAttr`. -/
structure UnresolvedAttr where
  pre : Str
  loc : Str
  value : Str
  deriving DecidableEq, Repr

/-- V:1656-1661 `ElementState`; `namespaces` are (prefix, uri) pairs in document order. -/
structure ElementState where
  pre : Str
  loc : Str
  namespaces : List (Str × Str)
  attributes : List UnresolvedAttr
  deriving DecidableEq, Repr

/-- V:1663-1670 `ElementState::lookup_namespace_uri`: the first matching declaration. -/
def ElementState.lookup (e : ElementState) (pre : Str) : Option Str :=
  e.namespaces.lookup pre

/-- V:1553-1556 `ElementStack`; the last vector element (the most recent) is the list's head. -/
abbrev ElementStack := List ElementState

/-- V:1559-1564 `lookup_namespace_uri`. -/
def lookupNs : ElementStack → Str → Option Str
  | [], _ => none
  | e :: es, pre =>
    match e.lookup pre with
    | some u => some u
    | none => lookupNs es pre

/-- V:1566-1577 `try_lookup_namespace_uri`. -/
def tryLookupNs (st : ElementStack) (pre : Str) : Except VErr (Option Str) :=
  if pre = [] then .ok none
  else match lookupNs st pre with
    | some u => .ok (some u)
    | none => .error (.undefinedNamespacePrefix pre)

/-- the literal "xmlns" -/
def xmlnsStr : Str := ['x', 'm', 'l', 'n', 's']

/-- V:1587-1618 `add_attr` on the top element. -/
def ElementState.addAttr (e : ElementState) (pre loc value : Str) : ElementState :=
  if pre = xmlnsStr then { e with namespaces := e.namespaces ++ [(loc, value)] }
  else if pre = [] ∧ loc = xmlnsStr then { e with namespaces := e.namespaces ++ [(pre, value)] }
  else { e with attributes := e.attributes ++ [⟨pre, loc, value⟩] }

/-- V:1619-1626 `current_element`; the `unwrap` on an empty stack is the outer `none`. -/
def currentElement (st : ElementStack) : Option (Except VErr QName) :=
  match st with
  | [] => none
  | e :: _ =>
    match tryLookupNs st e.pre with
    | .ok ns => some (.ok ⟨ns, e.loc⟩)
    | .error err => some (.error err)

/-- V:1634-1645 the closure of `current_attributes`. -/
def resolveAttr (st : ElementStack) (a : UnresolvedAttr) : Except VErr Attr :=
  if a.pre = [] then .ok ⟨⟨none, a.loc⟩, a.value⟩
  else match tryLookupNs st a.pre with
    | .ok ns => .ok ⟨⟨ns, a.loc⟩, a.value⟩
    | .error e => .error e

/-- `Iterator::collect` into a `Result`: the first error wins. -/
def resolveAttrs (st : ElementStack) : List UnresolvedAttr → Except VErr (List Attr)
  | [] => .ok []
  | a :: as =>
    match resolveAttr st a with
    | .error e => .error e
    | .ok x =>
      match resolveAttrs st as with
      | .error e => .error e
      | .ok xs => .ok (x :: xs)

/-- V:1627-1647 `current_attributes`. -/
def currentAttributes (st : ElementStack) : Option (Except VErr (List Attr)) :=
  match st with
  | [] => none
  | e :: _ => some (resolveAttrs st e.attributes)

/-- V:732-760 the loop decoding a text token; `buf` is `buffer`, `raw` the token's text. -/
def decodeLoop (ents : List (Str × Str)) (raw : Str) : List (Option Txt) → Str → Except VErr Str
  | [], buf => .ok buf
  | none :: _, _ => .error .invalidOrUnclosedEntity
  | some (.char c) :: rest, buf => decodeLoop ents raw rest (buf ++ [c])
  | some (.text t) :: rest, buf =>
    if byteLen t = byteLen raw then .ok buf else decodeLoop ents raw rest (buf ++ t)
  | some (.entity name) :: rest, buf =>
    match ents.lookup name with
    | none => .error (.undefinedEntity name)
    | some t =>
      if byteLen t = byteLen raw then .ok buf else decodeLoop ents raw rest (buf ++ t)

/-- V:730-766: the data a text token is validated as. -/
def decodeText (ents : List (Str × Str)) (raw : Str) : Except VErr Str :=
  match decodeLoop ents raw (parseEntities raw) [] with
  | .error e => .error e
  | .ok buf => .ok (if buf = [] then raw else buf)

/-- V:541-546 the predefined entities. -/
def predefined : List (Str × Str) :=
  [(['q','u','o','t'], ['"']), (['a','p','o','s'], ['\'']), (['a','m','p'], ['&']),
   (['g','t'], ['>']), (['l','t'], ['<'])]

/-- V:522-529 `Validator` (the tokenizer is the token list fed to it). -/
structure VState (D V : Type) where
  store : Store D V
  cur : Nat
  lastWasStart : Bool
  stack : ElementStack
  entities : List (Str × Str)

section
variable {D V : Type} [DecidableEq D] [DecidableEq V] (L : Lib D V)

omit [DecidableEq D] [DecidableEq V] in
/-- run a schema method on `self.schema` -/
def liftS {α : Type} (x : SM D V α) : ST (VState D V) α := fun s =>
  match x s.store with
  | .ok (a, st) => .ok (a, { s with store := st })
  | .error e => .error e

/-- V:838-850 the loop over the attributes. -/
def attsLoop (n : Nat) : Nat → List Attr → SM D V (Except VErr Nat)
  | pat, [] => pure (.ok pat)
  | pat, att :: rest => do
    let r ← attDeriv L n [] pat att
    let p ← patt r.1
    if p.isNotAllowed then
      pure (.error (.notAllowed (.attribute (att.name.ns.getD []) att.name.loc att.value)))
    else attsLoop n r.1 rest

/-- V:820-863 `close_element_start`. -/
def closeElementStart (n : Nat) (stack : ElementStack) (evt : Token) (pat : Pat D V) :
    SM D V (Except VErr Nat) :=
  match currentElement stack with
  | none => ST.fault .unwrapNone
  | some (.error e) => pure (.error e)
  | some (.ok name) => do
    let d ← startTagOpenDeriv n pat name
    let dp ← patt d
    if dp.isNotAllowed then
      pure (.error (.notAllowed (.elementStart (name.ns.getD []) name.loc)))
    else
      match currentAttributes stack with
      | none => ST.fault .unwrapNone
      | some (.error e) => pure (.error e)
      | some (.ok atts) => do
        match ← attsLoop L n d atts with
        | .error e => pure (.error e)
        | .ok d2 => do
          let p2 ← patt d2
          if p2.isNotAllowed then pure (.error (.notAllowed evt))
          else do
            let d3 ← startTagCloseDeriv n d2
            let p3 ← patt d3
            if p3.isNotAllowed then pure (.error (.notAllowed evt)) else pure (.ok d3)

/-- V:697-711 (and 714-731): the fake empty text node before an end tag. -/
def endTagStep (n : Nat) (lastWasStart : Bool) (pat : Pat D V) : SM D V Nat :=
  if lastWasStart then do
    let i ← textDeriv L n pat []
    let next ← patt i
    endTagDeriv n next
  else endTagDeriv n pat

/-- V:806-817 what follows the `match` in `validate`. -/
def finish (evt : Token) (new : Nat) : ST (VState D V) (Except VErr Unit) := do
  let s ← ST.get
  ST.set { s with lastWasStart := match evt with
    | .elementStart _ _ => true
    | _ => false }
  let p ← liftS (patt new)
  if p.isNotAllowed then pure (.error (.notAllowed evt))
  else do
    let s ← ST.get
    ST.set { s with cur := new }
    pure (.ok ())

/-- V:642-818 `Validator::validate`. -/
def validate (n : Nat) (evt : Token) : ST (VState D V) (Except VErr Unit) := do
  let s ← ST.get
  let pat ← liftS (patt s.cur)
  match evt with
  | .emptyDtd => pure (.ok ())
  | .comment => pure (.ok ())
  | .processingInstruction => pure (.ok ())
  | .elementStart pre loc => do
    ST.set { s with stack := ⟨pre, loc, [], []⟩ :: s.stack }
    pure (.ok ())
  | .attribute pre loc value =>
    match s.stack with
    | [] => ST.fault .unwrapNone
    | e :: es => do
      ST.set { s with stack := e.addAttr pre loc value :: es }
      pure (.ok ())
  | .elementEnd .open => do
    match ← liftS (closeElementStart L n s.stack evt pat) with
    | .error e => pure (.error e)
    | .ok new => finish evt new
  | .elementEnd (.close _ _) => do
    let new ← liftS (endTagStep L n s.lastWasStart pat)
    finish evt new
  | .elementEnd .empty => do
    match ← liftS (closeElementStart L n s.stack evt pat) with
    | .error e => pure (.error e)
    | .ok id => do
      let pat ← liftS (patt id)
      let new ← liftS (endTagStep L n s.lastWasStart pat)
      finish evt new
  | .cdata t => do
    let new ← liftS (textDeriv L n pat t)
    finish evt new
  | .text t =>
    match decodeText s.entities t with
    | .error e => pure (.error e)
    | .ok data => do
      let new ← liftS (textDeriv L n pat data)
      let p ← liftS (patt new)
      if p.isNotAllowed then pure (.error (.notAllowed (.text t)))
      else finish evt new
  | .entityDeclaration name (.entityValue v) => do
    ST.set { s with entities := (name, v) :: s.entities }
    pure (.ok ())
  | .entityDeclaration _ .externalId => pure (.error (.notAllowed evt))
  | .declaration => pure (.ok ())
  | .dtdStart => pure (.ok ())
  | .dtdEnd => pure (.ok ())

/-- V:532-555 `Validator::new`; `start` is the pattern of the start rule. -/
def newValidator (env : Env D V) (n : Nat) (start : Pattern D V) : Except Fault (VState D V) :=
  match compile env n start Store.init with
  | .error e => .error e
  | .ok (id, st) => .ok { store := st, cur := id, lastWasStart := false, stack := [],
                          entities := predefined }

/-- One item of the tokenizer: a token or a tokenizer error (`xmlparser::Error`). -/
abbrev Event := Option Token

/-- V:617-623 `validate_next` on a tokenizer item. -/
def validateEvent (n : Nat) : Event → ST (VState D V) (Except VErr Unit)
  | some t => validate L n t
  | none => pure (.error .xml)

/-- Reading a token list until the first error, as every caller does (e.g. main.rs:42-54). -/
def runToks (n : Nat) : List Token → ST (VState D V) (Except VErr Unit)
  | [] => pure (.ok ())
  | t :: ts => do
    match ← validate L n t with
    | .error e => pure (.error e)
    | .ok () => runToks n ts

/-- V:617-623: a caller that goes on calling `validate_next` after errors; all results in order. -/
def runEvents (n : Nat) : List Event → ST (VState D V) (List (Except VErr Unit))
  | [] => pure []
  | e :: es => do
    let r ← validateEvent L n e
    let rs ← runEvents n es
    pure (r :: rs)

end
end Verif
