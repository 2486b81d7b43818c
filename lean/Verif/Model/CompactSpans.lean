import Verif.Model.Compact
import Verif.Model.SchemaSpans
/-
The parser of the compact schema syntax once more, with the source positions that `Model/Compact` leaves out:
relaxng-syntax/src/compact.rs (cited as K:n).  The parsers that yield strings and no positions are those of `Model/Compact`.

A position is `location_offset()` of nom_locate's `LocatedSpan`: the number of bytes before the rest of the input.  Here it is got as
the length of the whole text, `total`, less that of the rest.  Positions that nothing reads are left out, as in
`Model/SchemaSpans`.
-/
namespace Verif.LCompact
open Verif Verif.At Verif.Compact Verif.Compact.P

/-- nom_locate `position`: the offset of the rest of the input -/
def position (total : Nat) : P Nat := fun i => .ok i (total - byteLen i)

/-- K:191-196 `span`: a parser with the range of what it reads -/
def ranged {α : Type} (total : Nat) (p : P α) : P (Rg × α) := do
  let s ← position total
  let a ← p
  let e ← position total
  pure (⟨s, e⟩, a)

section
variable (total : Nat)

/-- K:692-699 `cname`, with the ranges of its two names (K:210-222). -/
def cname : P ((Rg × Str) × (Rg × Str)) := do
  let p ← ranged total pNcName
  tag [':']
  let n ← ranged total pNcName
  pure (p, n)

/-- K:630-636 `name`. -/
def pName : P LNameClass :=
  alt (do
    let (p, n) ← cname total
    pure (.cname p.1 p.2 n.2))
  (do
    let i ← identifierOrKeyword
    pure (.ident i))

/-! ### name classes -/

/-- K:641, K:657: `opt((space_comment0, tag("-"), space_comment0, name_class))` -/
def exceptNc (nc : P LNameClass) : P (Option LNameClass) := opt (do space0; tag ['-']; space0; nc)

/-- K:638-651 `ns_name_nc`. -/
def nsNameNc (nc : P LNameClass) : P LNameClass := do
  let p ← ranged total pNcName
  tag [':', '*']
  match ← exceptNc nc with
  | none => pure (.nsName (.pre p.1 p.2))
  | some e => pure (.nsNameExcept (.pre p.1 p.2) e)

/-- K:653-664 `any_name_nc`. -/
def anyNameNc (nc : P LNameClass) : P LNameClass := do
  tag ['*']
  match ← exceptNc nc with
  | none => pure .anyName
  | some e => pure (.anyNameExcept e)

/-- K:674-688 `paren_nc`. -/
def parenNc (nc : P LNameClass) : P LNameClass := do
  tag ['(']
  space0
  let a ← nc
  space0
  tag [')']
  pure (.paren a)

/-- K:666-672 `alt_nc`. -/
def altNc (nc : P LNameClass) : P LNameClass := do
  space0
  tag ['|']
  space0
  nc

/-- K:620-627: `if let Ok(..) = alt_nc(input)`, whatever the error is. -/
def altTail (nc : P LNameClass) (left : LNameClass) : P LNameClass := fun i =>
  match altNc nc i with
  | .ok r right => .ok r (.alt left right)
  | .panic => .panic
  | .fuel => .fuel
  | _ => .ok i left

/-- K:598-628 `name_class`. -/
def nameClass : Nat → P LNameClass
  | 0, _ => .fuel
  | n + 1, i => (do
    let initial ← maybeInitialAnnotation n
    let left ← alt (nsNameNc total (nameClass n)) (alt (pName total) (alt (anyNameNc (nameClass n)) (parenNc (nameClass n))))
    let follow ← followAnnotationList n
    checkFollow initial follow
    altTail (nameClass n) left : P LNameClass) i

/-! ### patterns -/

/-- K:586-594 `datatype_name`. -/
def datatypeName : P LDtName :=
  alt (do tag "string".toList; pure .string)
  (alt (do tag "token".toList; pure .token)
    (do let (p, n) ← cname total; pure (.cname p.1 p.2 n.1 n.2)))

/-- K:514-520 `datatype_value_pattern`. -/
def datatypeValuePattern : P LPat := do
  let ty ← opt (datatypeName total)
  space0
  let v ← literal
  pure (.value ty v)

/-- K:552-574 `param`: the range begins before the annotation. -/
def param (n : Nat) : P LParam := do
  let s ← position total
  let _ ← maybeInitialAnnotation n
  space0
  let name ← identifierOrKeyword
  space0
  tag ['=']
  space0
  let v ← literal
  let e ← position total
  pure ⟨⟨s, e⟩, name, v⟩

/-- K:524-532 -/
def params (n : Nat) : P (List LParam) := do
  space0
  tag ['{']
  space0
  let ps ← sepList0 space1 (param total n)
  space0
  cut (tag ['}'])
  pure ps

/-- K:523-544 `datatype_param_pattern` and K:577-583 `except_pattern`. -/
def datatypeParamPattern (n : Nat) (pat : P LPat) : P LPat := do
  let ty ← datatypeName total
  let ps ← opt (params total n)
  let ex ← opt (do space0; tag ['-']; space0; pat)
  match ex with
  | none => pure (.data ty (ps.getD []))
  | some e => pure (.dataExcept ty (ps.getD []) e)

/-- K:448-452 and the like: `"{" pattern "}"` -/
def braced (pat : P LPat) : P LPat := do
  space0
  tag ['{']
  space0
  let p ← cut pat
  space0
  cut (tag ['}'])
  pure p

/-- K:387-410 `element_pattern`, K:413-436 `attribute_pattern` without the constructor. -/
def namedPattern (kw : Str) (nc : P LNameClass) (pat : P LPat) : P (Rg × (LNameClass × LPat)) := ranged total (do
  tag kw
  space1
  let c ← nc
  let p ← braced pat
  pure (c, p))

/-- K:845-857 `inherit`, with the range of the name. -/
def inherit : P (Rg × Str) := do
  tag "inherit".toList
  space0
  tag ['=']
  space0
  ranged total identifierOrKeyword

/-- K:471-482 `external_pattern`, with the range of the literal (K:159-168). -/
def externalPattern : P LPat := do
  tag "external".toList
  space1
  let l ← ranged total literal
  let i ← opt (do space1; inherit total)
  pure (.external l.1 l.2 (i.map (·.2)))

/-- K:485-504 `grammar_pattern`. -/
def grammarPattern (item : P LItem) : P LPat := do
  let s ← position total
  tag "grammar".toList
  space0
  tag ['{']
  space0
  let is ← sepList0 space1 item
  space0
  cut (tag ['}'])
  let e ← position total
  pure (.grammar ⟨s, e⟩ is)

/-- K:506-512 `group_pattern`. -/
def groupPattern (pat : P LPat) : P LPat := do
  tag ['(']
  space0
  let p ← pat
  space0
  tag [')']
  pure (.paren p)

/-- K:319-338: the alternatives of `pattern`. -/
def primary (n : Nat) (pat : P LPat) (item : P LItem) : P LPat :=
  alt (do let x ← namedPattern total "element".toList (nameClass total n) pat; pure (.element x.1 x.2.1 x.2.2)) <|
  alt (do let x ← namedPattern total "attribute".toList (nameClass total n) pat; pure (.attribute x.1 x.2.1 x.2.2)) <|
  alt (do tag "list".toList; let p ← braced pat; pure (.list p)) <|
  alt (do tag "mixed".toList; let p ← braced pat; pure (.mixed p)) <|
  alt (datatypeValuePattern total) <|
  alt (datatypeParamPattern total n pat) <|
  alt (do let i ← ranged total identifier; pure (.ident i.1 i.2)) <|
  alt (do tag "parent".toList; space1; let i ← ranged total identifier; pure (.parent i.1 i.2)) <|
  alt (do tag "empty".toList; pure .empty) <|
  alt (do tag "text".toList; pure .text) <|
  alt (do tag "notAllowed".toList; pure .notAllowed) <|
  alt (externalPattern total) <|
  alt (grammarPattern total item) <|
  groupPattern pat

/-- K:345-383: the operators after a pattern; `n` bounds the number of rounds. -/
def operators (pat : P LPat) : Nat → LPat → P LPat
  | 0, _, _ => .fuel
  | n + 1, left, i =>
    match space0 i with
    | .ok (',' :: r) _ => (do space0; let right ← pat; operators pat n (.seq left right) : P LPat) r
    | .ok ('&' :: r) _ => (do space0; let right ← pat; operators pat n (.inter left right) : P LPat) r
    | .ok ('|' :: r) _ => (do space0; let right ← pat; operators pat n (.choice left right) : P LPat) r
    | .ok ('?' :: r) _ => operators pat n (.optional left) r
    | .ok ('*' :: r) _ => operators pat n (.zeroOrMore left) r
    | .ok ('+' :: r) _ => operators pat n (.oneOrMore left) r
    | .ok _ _ => .ok i left
    | .err => .err
    | .fail => .fail
    | .incomplete => .incomplete
    | .panic => .panic
    | .fuel => .fuel

/-- K:724-751 `start`: the name `start` has the empty range at the beginning of the rule (`span(start_tag, start_tag)`). -/
def startRule (pat : P LPat) : P (Rg × Str × AssignMethod × LPat) := do
  let s ← position total
  tag "start".toList
  space0
  let how ← assignMethod
  space0
  let p ← cut pat
  pure (⟨s, s⟩, "start".toList, how, p)

/-- K:754-776 `define`, with the range of the name. -/
def defineItem (pat : P LPat) : P (Rg × Str × AssignMethod × LPat) := do
  let id ← ranged total identifier
  space0
  let how ← assignMethod
  space0
  let p ← cut pat
  pure (id.1, id.2, how, p)

/-- K:859-878 `include_content`, `div_include_content`. -/
def includeContent (pat : P LPat) : Nat → P LOverride
  | 0, _ => .fuel
  | n + 1, i => (do
    let _ ← maybeInitialAnnotation n
    alt (do annotationElement n; pure .annotation) <|
    alt (do let (r, id, how, p) ← defineItem total pat; pure (.define r id how p)) <|
    alt (do let (r, id, how, p) ← startRule total pat; pure (.define r id how p)) <|
    (do
      tag "div".toList
      space0
      tag ['{']
      space0
      let _ ← sepList0 space1 (includeContent pat n)
      space0
      cut (tag ['}'])
      pure .div) : P LOverride) i

/-- K:811-818: the overrides of an include -/
def overrideBlock (n : Nat) (pat : P LPat) : P (List LOverride) := do
  space0
  tag ['{']
  space0
  let os ← sepList0 space1 (includeContent total pat n)
  space0
  cut (tag ['}'])
  pure os

/-- K:804-835 `include`, with the range of the literal. -/
def includeItem (n : Nat) (pat : P LPat) : P LItem := do
  tag "include".toList
  space1
  let l ← ranged total literal
  let i ← opt (do space1; inherit total)
  let os ← opt (overrideBlock total n pat)
  pure (.include l.1 l.2 i (os.getD []))

/-- K:787-801 `div_grammar_content`. -/
def divItem (item : P LItem) : P LItem := do
  tag "div".toList
  space0
  tag ['{']
  space0
  let is ← sepList0 space1 item
  space0
  cut (tag ['}'])
  pure (.div is)

mutual
/-- K:314-385 `pattern`. -/
def pattern : Nat → P LPat
  | 0, _ => .fuel
  | n + 1, i => (do
    let _ ← maybeInitialAnnotation n
    let p ← primary total n (pattern n) (grammarContent n)
    let _ ← followAnnotationList n
    operators (pattern n) (n + 1) p : P LPat) i
/-- K:711-721 `grammar_content`. -/
def grammarContent : Nat → P LItem
  | 0, _ => .fuel
  | n + 1, i => (
    alt (do let (r, id, how, p) ← startRule total (pattern n); pure (.define r id how p)) <|
    alt (do let (r, id, how, p) ← defineItem total (pattern n); pure (.define r id how p)) <|
    alt (divItem (grammarContent n)) <|
    alt (includeItem total n (pattern n)) <|
    (do annotationElement n; pure .annotation) : P LItem) i
end

/-! ### schemas -/

/-- K:41-64 `top_level`.  (The grammar gets the range 0..0, which nothing reads.) -/
def topLevel (n : Nat) : P LSchema := do
  let ds ← sepList0 space1 decl
  space0
  let b ← alt (do let is ← sepList1 space1 (grammarContent total n); pure (.grammar is)) (do let p ← pattern total n; pure (.pattern p))
  pure ⟨ds, b⟩

end

/-- K:34-38 `schema`. -/
def compactSchema (n : Nat) (text : Str) : PRes LSchema := allConsuming (do
  space0
  let s ← topLevel (byteLen text) n
  space0
  pure s) text

/-- What loading a schema in the compact syntax does with the text. -/
inductive LParseOutcome where
  | ok (s : LSchema)
  | error
  | panic
  | fuel

def LParseOutcome.plain : LParseOutcome → ParseOutcome
  | .ok s => .ok s.plain
  | .error => .error
  | .panic => .panic
  | .fuel => .fuel

/-- M:65-86 `Syntax::Compact`: `Incomplete` is an `unimplemented!`. -/
def parseCompact (n : Nat) (text : Str) : LParseOutcome :=
  match compactSchema n text with
  | .ok _ s => .ok s
  | .err => .error
  | .fail => .error
  | .incomplete => .panic
  | .panic => .panic
  | .fuel => .fuel

/-- `parseCompact` with a recursion budget that is enough, see `C58_parser_terminates` -/
def readCompact (t : Str) : LParseOutcome := parseCompact (t.length + 2) t

/-- The files of a schema in the compact syntax: M:647-663 `Files::load`, M:65-86 `Syntax::parse`, with their lengths. -/
def compactFiles (text : Str → Option Str) (join : Str → Str → Option Str) : LFiles where
  load f := match text f with
    | none => .error .io
    | some t => match readCompact t with
      | .ok s => .ok s
      | .panic => .error .panic
      | _ => .error .parse
  join := join
  size f := match text f with
    | none => 0
    | some t => byteLen t

end Verif.LCompact
