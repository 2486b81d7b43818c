import Verif.Model.Compact
/-
The parser of the compact schema syntax once more, with the places of its errors, which `Model/Compact` leaves out:
relaxng-syntax/src/compact.rs (cited as K:n) and nom 8, M:65-86 (relaxng-model/src/lib.rs).

An error of nom (`nom::error::Error`) holds the rest of the input at which it arose; `LocatedSpan::location_offset` of that rest is the
place of the error.  The rules of nom, after its documentation and source: `tag`, `satisfy`, `char`, `take_until`, `not` and the first
round of `fold_many1` put their errors at their own input; `alt` yields the error of the last branch (`ParseError::or`, `append` of
`nom::error::Error`); `cut` keeps the place; `all_consuming` puts its error at the rest.  Nothing else makes errors, but for the checks
of `separated_list0`/`1` and `fold_many0` against endless loops.
-/
namespace Verif.ECompact
open Verif

/-- The outcome of a nom parser, see `PRes`; errors and failures have the rest of the input at which they arose. -/
inductive ERes (α : Type) where
  | ok (rest : Str) (a : α)
  | err (place : Str)
  | fail (place : Str)
  | incomplete
  | panic
  | fuel
  deriving DecidableEq, Repr

/-- A parser: `Fn(Span) -> IResult<Span, α>`. -/
def EP (α : Type) : Type := Str → ERes α

namespace EP
variable {α β : Type}

/-- one parser after the other, see `P.bind` -/
def bind (p : EP α) (f : α → EP β) : EP β := fun i =>
  match p i with
  | .ok r a => f a r
  | .err l => .err l
  | .fail l => .fail l
  | .incomplete => .incomplete
  | .panic => .panic
  | .fuel => .fuel

instance : Monad EP where
  pure := fun a i => .ok i a
  bind := EP.bind

/-- A parser of nom, or a combination of them, that has its errors at its own input. -/
def here (p : Compact.P α) : EP α := fun i =>
  match p i with
  | .ok r a => .ok r a
  | .err => .err i
  | .fail => .fail i
  | .incomplete => .incomplete
  | .panic => .panic
  | .fuel => .fuel

/-- nom `alt` with two branches: the error is that of the second. -/
def alt (p q : EP α) : EP α := fun i =>
  match p i with
  | .err _ => q i
  | r => r

/-- nom `opt`. -/
def opt (p : EP α) : EP (Option α) := fun i =>
  match p i with
  | .ok r a => .ok r (some a)
  | .err _ => .ok i none
  | .fail l => .fail l
  | .incomplete => .incomplete
  | .panic => .panic
  | .fuel => .fuel

/-- nom `cut`: an error becomes final, in the same place. -/
def cut (p : EP α) : EP α := fun i =>
  match p i with
  | .err l => .fail l
  | r => r

/-- nom `tag` (complete). -/
def tag (t : Str) : EP Unit := here (Compact.P.tag t)

/-- The loop of nom's `separated_list0`/`separated_list1`, see `P.sepLoop`. -/
def sepLoop (sep : EP Unit) (p : EP α) : Nat → EP (List α)
  | 0, _ => .fuel
  | n + 1, i =>
    match sep i with
    | .err _ => .ok i []
    | .fail l => .fail l
    | .incomplete => .incomplete
    | .panic => .panic
    | .fuel => .fuel
    | .ok i1 _ =>
      match p i1 with
      | .err _ => .ok i []
      | .fail l => .fail l
      | .incomplete => .incomplete
      | .panic => .panic
      | .fuel => .fuel
      | .ok i2 a =>
        if i2.length = i.length then .err i
        else
          match sepLoop sep p n i2 with
          | .ok r as => .ok r (a :: as)
          | e => e

/-- nom `separated_list0`. -/
def sepList0 (sep : EP Unit) (p : EP α) : EP (List α) := fun i =>
  match p i with
  | .err _ => .ok i []
  | .fail l => .fail l
  | .incomplete => .incomplete
  | .panic => .panic
  | .fuel => .fuel
  | .ok r a =>
    match sepLoop sep p (r.length + 1) r with
    | .ok r as => .ok r (a :: as)
    | e => e

/-- nom `separated_list1`. -/
def sepList1 (sep : EP Unit) (p : EP α) : EP (List α) := fun i =>
  match p i with
  | .err l => .err l
  | .fail l => .fail l
  | .incomplete => .incomplete
  | .panic => .panic
  | .fuel => .fuel
  | .ok r a =>
    match sepLoop sep p (r.length + 1) r with
    | .ok r as => .ok r (a :: as)
    | e => e

end EP

open EP

/-! ### white space and comments -/

/-- K:880-882 `space_comment0`: an error of a round is the end of the loop. -/
def space0 : EP Unit := here Compact.space0

/-- K:883-885 `space_comment1`: `fold_many1` drops the error of its first round and makes its own. -/
def space1 : EP Unit := here Compact.space1

/-! ### names -/

/-- K:210-222 `nc_name`. -/
def pNcName : EP Str := here Compact.pNcName

/-- K:261-281: the last of the tags has its error at the input. -/
def keywordTag : EP Str := here (Compact.keywordTag Compact.keywords)

/-- K:283 `peek(not(nc_name_char))`: the error is after the keyword. -/
def notNameChar : EP Unit := here Compact.notNameChar

/-- `not(peek(keyword))`, K:203 -/
def notKeyword : EP Unit := here Compact.notKeyword

/-- nom `take_until` (complete). -/
def takeUntil3 (q : Char) : EP Str := here (Compact.takeUntil3 q)

/-- K:178-179: nom `recognize(opt(is_not(..)))`, which does not fail. -/
def upToQuote (q : Char) : EP Str := here (Compact.upToQuote q)

/-- K:613-618: a follow annotation without an initial annotation panics. -/
def checkFollow (initial : Option Unit) (follow : List Unit) : EP Unit := here (Compact.checkFollow initial follow)

/-- K:259-291 `keyword`. -/
def keyword : EP Str := do
  let k ← keywordTag
  notNameChar
  pure k

/-- K:200-208 `identifier`: the text read, with the backslash of a quoted identifier. -/
def identifier : EP Str :=
  alt (do
    tag ['\\']
    let k ← keyword
    pure ('\\' :: k))
  (do
    notKeyword
    pNcName)

/-- K:140-146 `identifier_or_keyword`, as a string (types.rs:209-216). -/
def identifierOrKeyword : EP Str := alt identifier keyword

/-- K:692-699 `cname`. -/
def cname : EP (Str × Str) := do
  let p ← pNcName
  tag [':']
  let n ← pNcName
  pure (p, n)

/-- K:630-636 `name`. -/
def pName : EP SNameClass :=
  alt (do
    let (p, n) ← cname
    pure (.cname p n))
  (do
    let i ← identifierOrKeyword
    pure (.ident i))

/-! ### literals -/

/-- K:176-177 -/
def tripleQuoted (q : Char) : EP Str := do
  tag [q, q, q]
  let s ← takeUntil3 q
  tag [q, q, q]
  pure s

/-- K:178-179 -/
def quoted (q : Char) : EP Str := do
  tag [q]
  let s ← upToQuote q
  tag [q]
  pure s

/-- K:174-189 `literal_segment`. -/
def literalSegment : EP Str :=
  alt (tripleQuoted '"') (alt (tripleQuoted '\'') (alt (quoted '"') (quoted '\'')))

/-- K:159-168 `literal`, as a string (types.rs:237-247). -/
def literal : EP Str := do
  let segs ← sepList1 (do space0; tag ['~']; space0) literalSegment
  pure segs.flatten

/-- K:150-156 `namespace_uri_literal`. -/
def namespaceUriLiteral : EP (Option Str) :=
  alt (do tag "inherit".toList; pure none) (do let l ← literal; pure (some l))

/-! ### annotations -/

/-- K:932-946 `annotation_attribute`. -/
def annotationAttribute : EP Unit := do
  let _ ← pName
  space0
  tag ['=']
  space0
  let _ ← literal
  pure ()

/-- K:948-987 `annotation_element`, `annotation_element_or_literal`. -/
def annotationElement : Nat → EP Unit
  | 0, _ => .fuel
  | n + 1, i => (do
    let _ ← pName
    space0
    tag ['[']
    space0
    let _ ← sepList0 space1 annotationAttribute
    space0
    let _ ← sepList0 space1 (alt (annotationElement n) (do let _ ← literal; pure ()))
    space0
    tag [']'] : EP Unit) i

/-- K:894-917 `initial_annotation`. -/
def initialAnnotation (n : Nat) : EP Unit := do
  tag ['[']
  space0
  let _ ← sepList0 space1 annotationAttribute
  space0
  let _ ← sepList0 space1 (annotationElement n)
  space0
  tag [']']

/-- K:890-892 `maybe_initial_annotation`: is there one? -/
def maybeInitialAnnotation (n : Nat) : EP (Option Unit) := opt (do initialAnnotation n; space0)

/-- K:923-929 `follow_annotation`. -/
def followAnnotation (n : Nat) : EP Unit := do
  space0
  tag ['>', '>']
  space0
  annotationElement n

/-- K:919-921 `follow_annotation_list`. -/
def followAnnotationList (n : Nat) : EP (List Unit) := sepList0 space0 (followAnnotation n)

/-! ### name classes -/

/-- K:641, K:657: `opt((space_comment0, tag("-"), space_comment0, name_class))` -/
def exceptNc (nc : EP SNameClass) : EP (Option SNameClass) := opt (do space0; tag ['-']; space0; nc)

/-- K:638-651 `ns_name_nc`. -/
def nsNameNc (nc : EP SNameClass) : EP SNameClass := do
  let p ← pNcName
  tag [':', '*']
  match ← exceptNc nc with
  | none => pure (.nsName (.pre p))
  | some e => pure (.nsNameExcept (.pre p) e)

/-- K:653-664 `any_name_nc`. -/
def anyNameNc (nc : EP SNameClass) : EP SNameClass := do
  tag ['*']
  match ← exceptNc nc with
  | none => pure .anyName
  | some e => pure (.anyNameExcept e)

/-- K:674-688 `paren_nc`. -/
def parenNc (nc : EP SNameClass) : EP SNameClass := do
  tag ['(']
  space0
  let a ← nc
  space0
  tag [')']
  pure (.paren a)

/-- K:666-672 `alt_nc`. -/
def altNc (nc : EP SNameClass) : EP SNameClass := do
  space0
  tag ['|']
  space0
  nc

/-- K:620-627: `if let Ok(..) = alt_nc(input)`, whatever the error is. -/
def altTail (nc : EP SNameClass) (left : SNameClass) : EP SNameClass := fun i =>
  match altNc nc i with
  | .ok r right => .ok r (.alt left right)
  | .panic => .panic
  | .fuel => .fuel
  | _ => .ok i left

/-- K:598-628 `name_class`. -/
def nameClass : Nat → EP SNameClass
  | 0, _ => .fuel
  | n + 1, i => (do
    let initial ← maybeInitialAnnotation n
    let left ← alt (nsNameNc (nameClass n)) (alt pName (alt (anyNameNc (nameClass n)) (parenNc (nameClass n))))
    let follow ← followAnnotationList n
    checkFollow initial follow
    altTail (nameClass n) left : EP SNameClass) i

/-! ### patterns -/

/-- K:586-594 `datatype_name`. -/
def datatypeName : EP SDtName :=
  alt (do tag "string".toList; pure .string)
  (alt (do tag "token".toList; pure .token)
    (do let (p, n) ← cname; pure (.cname p n)))

/-- K:514-520 `datatype_value_pattern`. -/
def datatypeValuePattern : EP SPattern := do
  let ty ← opt datatypeName
  space0
  let v ← literal
  pure (.value ty v)

/-- K:552-574 `param`. -/
def param (n : Nat) : EP Param := do
  let _ ← maybeInitialAnnotation n
  space0
  let name ← identifierOrKeyword
  space0
  tag ['=']
  space0
  let v ← literal
  pure ⟨name, v⟩

/-- K:524-532 -/
def params (n : Nat) : EP (List Param) := do
  space0
  tag ['{']
  space0
  let ps ← sepList0 space1 (param n)
  space0
  cut (tag ['}'])
  pure ps

/-- K:523-544 `datatype_param_pattern` and K:577-583 `except_pattern`. -/
def datatypeParamPattern (n : Nat) (pat : EP SPattern) : EP SPattern := do
  let ty ← datatypeName
  let ps ← opt (params n)
  let ex ← opt (do space0; tag ['-']; space0; pat)
  match ex with
  | none => pure (.data ty (ps.getD []))
  | some e => pure (.dataExcept ty (ps.getD []) e)

/-- K:448-452 and the like: `"{" pattern "}"` -/
def braced (pat : EP SPattern) : EP SPattern := do
  space0
  tag ['{']
  space0
  let p ← cut pat
  space0
  cut (tag ['}'])
  pure p

/-- K:387-410 `element_pattern`, K:413-436 `attribute_pattern` without the constructor. -/
def namedPattern (kw : Str) (nc : EP SNameClass) (pat : EP SPattern) : EP (SNameClass × SPattern) := do
  tag kw
  space1
  let c ← nc
  let p ← braced pat
  pure (c, p)

/-- K:845-857 `inherit`. -/
def inherit : EP Str := do
  tag "inherit".toList
  space0
  tag ['=']
  space0
  identifierOrKeyword

/-- K:471-482 `external_pattern`. -/
def externalPattern : EP SPattern := do
  tag "external".toList
  space1
  let l ← literal
  let i ← opt (do space1; inherit)
  pure (.external l i)

/-- K:485-504 `grammar_pattern`. -/
def grammarPattern (item : EP SItem) : EP SPattern := do
  tag "grammar".toList
  space0
  tag ['{']
  space0
  let is ← sepList0 space1 item
  space0
  cut (tag ['}'])
  pure (.grammar is)

/-- K:506-512 `group_pattern`. -/
def groupPattern (pat : EP SPattern) : EP SPattern := do
  tag ['(']
  space0
  let p ← pat
  space0
  tag [')']
  pure (.paren p)

/-- K:319-338: the alternatives of `pattern`. -/
def primary (n : Nat) (pat : EP SPattern) (item : EP SItem) : EP SPattern :=
  alt (do let (c, p) ← namedPattern "element".toList (nameClass n) pat; pure (.element c p)) <|
  alt (do let (c, p) ← namedPattern "attribute".toList (nameClass n) pat; pure (.attribute c p)) <|
  alt (do tag "list".toList; let p ← braced pat; pure (.list p)) <|
  alt (do tag "mixed".toList; let p ← braced pat; pure (.mixed p)) <|
  alt datatypeValuePattern <|
  alt (datatypeParamPattern n pat) <|
  alt (do let i ← identifier; pure (.ident i)) <|
  alt (do tag "parent".toList; space1; let i ← identifier; pure (.parent i)) <|
  alt (do tag "empty".toList; pure .empty) <|
  alt (do tag "text".toList; pure .text) <|
  alt (do tag "notAllowed".toList; pure .notAllowed) <|
  alt externalPattern <|
  alt (grammarPattern item) <|
  groupPattern pat

/-- K:345-383: the operators after a pattern; `n` bounds the number of rounds. -/
def operators (pat : EP SPattern) : Nat → SPattern → EP SPattern
  | 0, _, _ => .fuel
  | n + 1, left, i =>
    match space0 i with
    | .ok (',' :: r) _ => (do space0; let right ← pat; operators pat n (.seq left right) : EP SPattern) r
    | .ok ('&' :: r) _ => (do space0; let right ← pat; operators pat n (.inter left right) : EP SPattern) r
    | .ok ('|' :: r) _ => (do space0; let right ← pat; operators pat n (.choice left right) : EP SPattern) r
    | .ok ('?' :: r) _ => operators pat n (.optional left) r
    | .ok ('*' :: r) _ => operators pat n (.zeroOrMore left) r
    | .ok ('+' :: r) _ => operators pat n (.oneOrMore left) r
    | .ok _ _ => .ok i left
    | .err l => .err l
    | .fail l => .fail l
    | .incomplete => .incomplete
    | .panic => .panic
    | .fuel => .fuel

/-- K:778-785 `assign_method`. -/
def assignMethod : EP AssignMethod :=
  alt (do tag ['=']; pure .assign) (alt (do tag ['|', '=']; pure .choice) (do tag ['&', '=']; pure .interleave))

/-- K:724-751 `start`. -/
def startRule (pat : EP SPattern) : EP (Str × AssignMethod × SPattern) := do
  tag "start".toList
  space0
  let how ← assignMethod
  space0
  let p ← cut pat
  pure ("start".toList, how, p)

/-- K:754-776 `define`. -/
def defineItem (pat : EP SPattern) : EP (Str × AssignMethod × SPattern) := do
  let id ← identifier
  space0
  let how ← assignMethod
  space0
  let p ← cut pat
  pure (id, how, p)

/-- K:859-878 `include_content`, `div_include_content`. -/
def includeContent (pat : EP SPattern) : Nat → EP SOverride
  | 0, _ => .fuel
  | n + 1, i => (do
    let _ ← maybeInitialAnnotation n
    alt (do annotationElement n; pure .annotation) <|
    alt (do let (id, how, p) ← defineItem pat; pure (.define id how p)) <|
    alt (do let (id, how, p) ← startRule pat; pure (.define id how p)) <|
    (do
      tag "div".toList
      space0
      tag ['{']
      space0
      let _ ← sepList0 space1 (includeContent pat n)
      space0
      cut (tag ['}'])
      pure .div) : EP SOverride) i

/-- K:811-818: the overrides of an include -/
def overrideBlock (n : Nat) (pat : EP SPattern) : EP (List SOverride) := do
  space0
  tag ['{']
  space0
  let os ← sepList0 space1 (includeContent pat n)
  space0
  cut (tag ['}'])
  pure os

/-- K:804-835 `include`. -/
def includeItem (n : Nat) (pat : EP SPattern) : EP SItem := do
  tag "include".toList
  space1
  let l ← literal
  let i ← opt (do space1; inherit)
  let os ← opt (overrideBlock n pat)
  pure (.include l i (os.getD []))

/-- K:787-801 `div_grammar_content`. -/
def divItem (item : EP SItem) : EP SItem := do
  tag "div".toList
  space0
  tag ['{']
  space0
  let is ← sepList0 space1 item
  space0
  cut (tag ['}'])
  pure (.div is)

mutual
/-- K:314-385 `pattern`. -/
def pattern : Nat → EP SPattern
  | 0, _ => .fuel
  | n + 1, i => (do
    let _ ← maybeInitialAnnotation n
    let p ← primary n (pattern n) (grammarContent n)
    let _ ← followAnnotationList n
    operators (pattern n) (n + 1) p : EP SPattern) i
/-- K:711-721 `grammar_content`. -/
def grammarContent : Nat → EP SItem
  | 0, _ => .fuel
  | n + 1, i => (
    alt (do let (id, how, p) ← startRule (pattern n); pure (.define id how p)) <|
    alt (do let (id, how, p) ← defineItem (pattern n); pure (.define id how p)) <|
    alt (divItem (grammarContent n)) <|
    alt (includeItem n (pattern n)) <|
    (do annotationElement n; pure .annotation) : EP SItem) i
end

/-! ### schemas -/

/-- K:78-97 `decl_namespace`. -/
def declNamespace : EP SDecl := do
  tag "namespace".toList
  space1
  let p ← identifierOrKeyword
  space0
  tag ['=']
  space0
  let u ← namespaceUriLiteral
  pure (.namespace p u)

/-- K:98-119 `decl_default_namespace`. -/
def declDefaultNamespace : EP SDecl := do
  tag "default".toList
  space1
  tag "namespace".toList
  space1
  let p ← opt identifierOrKeyword
  space0
  tag ['=']
  space0
  let u ← namespaceUriLiteral
  pure (.defaultNamespace p u)

/-- K:120-136 `decl_datatypes`. -/
def declDatatypes : EP SDecl := do
  tag "datatypes".toList
  space1
  let p ← identifierOrKeyword
  space0
  tag ['=']
  space0
  let u ← literal
  pure (.datatypes p u)

/-- K:69-77 `decl`. -/
def decl : EP SDecl := alt declNamespace (alt declDefaultNamespace declDatatypes)

/-- K:41-64 `top_level`. -/
def topLevel (n : Nat) : EP SSchema := do
  let ds ← sepList0 space1 decl
  space0
  let b ← alt (do let is ← sepList1 space1 (grammarContent n); pure (.grammar is)) (do let p ← pattern n; pure (.pattern p))
  pure ⟨ds, b⟩

/-- nom `all_consuming`: the error is at the rest. -/
def allConsuming {α : Type} (p : EP α) : EP α := fun i =>
  match p i with
  | .ok [] a => .ok [] a
  | .ok r _ => .err r
  | e => e

/-- K:34-38 `schema`. -/
def compactSchema (n : Nat) : EP SSchema := allConsuming (do
  space0
  let s ← topLevel n
  space0
  pure s)

/-- What loading a schema in the compact syntax does with the text: `error k`, an error at the offset `k` (in bytes). -/
inductive EOutcome where
  | ok (s : SSchema)
  | error (offset : Nat)
  | panic
  | fuel

/-- M:65-86 `Syntax::Compact`: errors and failures alike are reported from `location_offset()` on to the end of the file. -/
def parseCompact (n : Nat) (text : Str) : EOutcome :=
  match compactSchema n text with
  | .ok _ s => .ok s
  | .err l => .error (byteLen text - byteLen l)
  | .fail l => .error (byteLen text - byteLen l)
  | .incomplete => .panic
  | .panic => .panic
  | .fuel => .fuel

/-- `parseCompact` with a recursion budget that is enough -/
def readCompact (t : Str) : EOutcome := parseCompact (t.length + 2) t

/-- where the parser gives up on a text (0 if it does not) -/
def givesUpAt (t : Str) : Nat :=
  match readCompact t with
  | .error k => k
  | _ => 0

end Verif.ECompact
