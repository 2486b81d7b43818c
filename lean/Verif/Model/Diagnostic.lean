import Verif.Model.Spans
/-
The diagnostics of the validator: V:1200-1455 `heads`, `head`, `describe_expected`, `describe_nameclass`, `diagnostic`, and what
they use of the crate codemap (version 0.1.3).
-/
namespace Verif.Loc
open Verif

/-! ### what is expected -/
section
variable {D V : Type} [DecidableEq D] [DecidableEq V]

/-- `HashSet::insert`: the set is a list without repetitions, in no particular order -/
def insertHead (p : Pat D V) (result : List (Pat D V)) : List (Pat D V) := if p ∈ result then result else p :: result

/-- V:1208-1250 `head`. -/
def head : Nat → List (Pat D V) → Nat → SM D V (List (Pat D V))
  | 0, _, _ => ST.fault .fuel
  | n + 1, result, p => do
    let pat ← patt p
    match pat with
    | .choice p1 p2 _ => do
      let r ← head n result p1
      head n r p2
    | .interleave p1 p2 _ => do
      let r ← head n result p1
      head n r p2
    | .group p1 p2 _ => do
      let l ← patt p1
      if l.nullable then head n result p1
      else do
        let r ← head n result p1
        head n r p2
    | .oneOrMore p _ => head n result p
    | .empty => pure result
    | .text => pure result
    | .notAllowed => pure result
    | .attr _ _ => pure (insertHead pat result)
    | .element _ _ => pure (insertHead pat result)
    | .datatype _ => pure (insertHead pat result)
    | .datatypeValue _ => pure (insertHead pat result)
    | .datatypeExcept _ _ => pure (insertHead pat result)
    | .list p => head n result p
    | .placeholder _ => ST.fault .placeholder
    | .after p _ => head n result p

/-- V:1200-1206 `heads`. -/
def heads (n : Nat) (p : Nat) : SM D V (List (Pat D V)) := head n [] p

/-- V:1292-1324 `describe_nameclass`: what it appends. -/
def describeNameclass : NameClass → Str
  | .named _ name => name
  | .nsName ns => ns ++ ":*".toList
  | .nsNameExcept ns ex => ns ++ ":*".toList ++ ['-'] ++ describeNameclass ex
  | .anyName => ['*']
  | .anyNameExcept ex => ['*'] ++ ['-'] ++ describeNameclass ex
  | .alt a b => describeNameclass a ++ ['|'] ++ describeNameclass b

/-- V:1259-1266 the closure of `filter_map`. -/
def elementName : Pat D V → Option NameClass
  | .element nc _ => some nc
  | _ => none

/-- V:1258-1284 the loop of `describe_expected`: the result and `rest`; `i` is the number of the element. -/
def describeLoop : List NameClass → Nat → Nat → Str → Str × Nat
  | [], _, rest, result => (result, rest)
  | nc :: ncs, i, rest, result =>
    let result := if i = 0 then result ++ "Element ".toList else result
    if i ≥ 4 then describeLoop ncs (i + 1) (rest + 1) result
    else
      let result := if i > 0 then result ++ [' '] else result
      describeLoop ncs (i + 1) rest (result ++ describeNameclass nc)

/-- V:1252-1290 `describe_expected`, after `heads`.  `order` is the order in which the hash set is iterated. -/
def describeExpected (order : List (Pat D V) → List (Pat D V)) (hs : List (Pat D V)) : Str :=
  let r := describeLoop ((order hs).filterMap elementName) 0 0 []
  if r.2 > 0 then r.1 ++ " .. or one of ".toList ++ (toString r.2).toList ++ " more".toList else r.1
end

/-! ### codemap -/

/-- codemap `CodeMap::add_file`, `File::lines`: the lines of a file with their ends.  After a final line feed there is one more,
empty, line. -/
def fileLines : Str → List Str
  | [] => [[]]
  | c :: cs =>
    if c = '\n' then [c] :: fileLines cs
    else
      match fileLines cs with
      | [] => [[c]]
      | l :: ls => (c :: l) :: ls

/-- codemap `File::line_span` (an assertion is `none`): beginning and end of the line with this number, counting from zero -/
def lineSpan (text : Str) (line : Nat) : Option (Nat × Nat) :=
  match (fileLines text)[line]? with
  | none => none
  | some l =>
    let low := byteLen ((fileLines text).take line).flatten
    some (low, low + byteLen l)

/-- codemap `Span::subspan` (an assertion is `none`) -/
def subspan (s : Nat × Nat) (b e : Nat) : Option (Nat × Nat) :=
  if b ≤ e ∧ s.1 + e ≤ s.2 then some (s.1 + b, s.1 + e) else none

/-! ### diagnostics -/

/-- `codemap_diagnostic::Level` -/
inductive Level where
  | error
  | help
  deriving DecidableEq, Repr

/-- The messages; how they are turned into text is left out (also how `xmlparser::Error` is displayed). -/
inductive Msg where
  | xmlError
  | notExpectedHere (name : Str)
  | removeThis
  | expected (desc : Str)
  | prefixNotDefined (pre : Str)
  | entityNotDefined (name : Str)
  | invalidEntity
  deriving DecidableEq, Repr

/-- `codemap_diagnostic::Diagnostic`: the text of the label is left out, as are `code` and `style` (always primary) -/
structure Diag where
  level : Level
  message : Msg
  span : Option (Nat × Nat)
  deriving DecidableEq, Repr

/-- V:1354-1368 the position of a token. -/
def Token.at : Token → Sp
  | .declaration s => s
  | .processingInstruction s => s
  | .comment s => s
  | .dtdStart s => s
  | .emptyDtd s => s
  | .entityDeclaration _ _ s => s
  | .dtdEnd s => s
  | .elementStart _ _ s => s
  | .attribute _ _ _ s => s
  | .elementEnd _ s => s
  | .cdata _ s => s
  | .text s => s

/-- V:1369-1382 the name of a token. -/
def Token.name : Token → Str
  | .declaration _ => "declaration".toList
  | .processingInstruction _ => "processing-instruction".toList
  | .comment _ => "comment".toList
  | .dtdStart _ => "dtd-start".toList
  | .emptyDtd _ => "empty-dtd".toList
  | .entityDeclaration _ _ _ => "entity-declaration".toList
  | .dtdEnd _ => "dtd-end".toList
  | .elementStart _ _ _ => "element-start".toList
  | .attribute _ _ _ _ => "attribute".toList
  | .elementEnd _ _ => "element-end".toList
  | .text _ => "text".toList
  | .cdata _ _ => "cdata".toList

/-- V:1326-1455 `Validator::diagnostic`; `none`: an assertion of codemap fails. -/
def diagnostic {D V : Type} [DecidableEq D] [DecidableEq V] (order : List (Pat D V) → List (Pat D V)) (n : Nat) (source : Str) (err : Err)
    : ST (State D V) (Option (List Diag)) :=
  let file := (0, byteLen source)
  match err with
  | .xml row _ =>
    match lineSpan source row with
    | none => pure none
    | some line =>
      match subspan line row row with
      | none => pure none
      | some span => pure (some [⟨.error, .xmlError, some span⟩])
  | .notAllowed tok =>
    match subspan file tok.at.start tok.at.stop with
    | none => pure none
    | some span => do
      let s ← ST.get
      let hs ← liftS (heads n s.cur)
      let desc := describeExpected order hs
      let message := if desc = [] then Msg.removeThis else .expected desc
      pure (some [⟨.error, .notExpectedHere tok.name, some span⟩, ⟨.help, message, none⟩])
  | .undefinedNamespacePrefix pre =>
    match subspan file pre.start pre.stop with
    | none => pure none
    | some span => pure (some [⟨.error, .prefixNotDefined pre.s, some span⟩])
  | .undefinedEntity name b e =>
    match subspan file b e with
    | none => pure none
    | some span => pure (some [⟨.error, .entityNotDefined name, some span⟩])
  | .invalidOrUnclosedEntity b e =>
    match subspan file b e with
    | none => pure none
    | some span => pure (some [⟨.error, .invalidEntity, some span⟩])

end Verif.Loc
