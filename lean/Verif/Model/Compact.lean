import Verif.Model.Lex
import Verif.Model.Source
/-
The parser of the compact schema syntax: relaxng-syntax/src/compact.rs (cited as K:n), which is written with the
parser combinators of nom 8.  The combinators used are modelled here after nom's documentation and source; nom itself
is not part of /repo (Cargo.toml: nom = "8.0").

Simplifications.  Source positions and error values are dropped, so are `println!`s.  A literal is its
`as_string_value()`, annotations carry no data (as in Model/Source).  The contents of a `div` among the overrides of an
include are read and dropped.  Recursion is bounded by fuel, see `C58_parser_terminates`.
-/
namespace Verif.Compact
open Verif

/-- The outcome of a nom parser: `Ok((rest, value))`, `Err::Error`, `Err::Failure`, `Err::Incomplete`; or a panic; `fuel`:
the model's recursion budget ran out. -/
inductive PRes (α : Type) where
  | ok (rest : Str) (a : α)
  | err
  | fail
  | incomplete
  | panic
  | fuel
  deriving DecidableEq, Repr

/-- A parser: `Fn(Span) -> IResult<Span, α>`. -/
def P (α : Type) : Type := Str → PRes α

namespace P
variable {α β : Type}

/-- one parser after the other: tuples of parsers, `?`, `preceded`, `delimited` -/
def bind (p : P α) (f : α → P β) : P β := fun i =>
  match p i with
  | .ok r a => f a r
  | .err => .err
  | .fail => .fail
  | .incomplete => .incomplete
  | .panic => .panic
  | .fuel => .fuel

instance : Monad P where
  pure := fun a i => .ok i a
  bind := P.bind

/-- nom `alt` with two branches: only `Err::Error` leads to the second. -/
def alt (p q : P α) : P α := fun i =>
  match p i with
  | .err => q i
  | r => r

/-- nom `opt`. -/
def opt (p : P α) : P (Option α) := fun i =>
  match p i with
  | .ok r a => .ok r (some a)
  | .err => .ok i none
  | .fail => .fail
  | .incomplete => .incomplete
  | .panic => .panic
  | .fuel => .fuel

/-- nom `cut`: an error becomes final. -/
def cut (p : P α) : P α := fun i =>
  match p i with
  | .err => .fail
  | r => r

/-- always an error -/
def error : P α := fun _ => .err

/-- nom `tag` (complete): the input begins with the given text. -/
def tag : Str → P Unit
  | [], i => .ok i ()
  | _ :: _, [] => .err
  | t :: ts, c :: cs => if c = t then tag ts cs else .err

/-- The loop of nom's `separated_list0`/`separated_list1` (multi/mod.rs): `n` bounds the number of rounds, each of which
has to consume something. -/
def sepLoop (sep : P Unit) (p : P α) : Nat → P (List α)
  | 0, _ => .fuel
  | n + 1, i =>
    match sep i with
    | .err => .ok i []
    | .fail => .fail
    | .incomplete => .incomplete
    | .panic => .panic
    | .fuel => .fuel
    | .ok i1 _ =>
      match p i1 with
      | .err => .ok i []
      | .fail => .fail
      | .incomplete => .incomplete
      | .panic => .panic
      | .fuel => .fuel
      | .ok i2 a =>
        if i2.length = i.length then .err
        else
          match sepLoop sep p n i2 with
          | .ok r as => .ok r (a :: as)
          | e => e

/-- nom `separated_list0`. -/
def sepList0 (sep : P Unit) (p : P α) : P (List α) := fun i =>
  match p i with
  | .err => .ok i []
  | .fail => .fail
  | .incomplete => .incomplete
  | .panic => .panic
  | .fuel => .fuel
  | .ok r a =>
    match sepLoop sep p (r.length + 1) r with
    | .ok r as => .ok r (a :: as)
    | e => e

/-- nom `separated_list1`. -/
def sepList1 (sep : P Unit) (p : P α) : P (List α) := fun i =>
  match p i with
  | .err => .err
  | .fail => .fail
  | .incomplete => .incomplete
  | .panic => .panic
  | .fuel => .fuel
  | .ok r a =>
    match sepLoop sep p (r.length + 1) r with
    | .ok r as => .ok r (a :: as)
    | e => e

end P

open P

/-! ### white space and comments -/

/-- nom `multispace1` takes these. -/
def isMultispace (c : Char) : Bool := c == ' ' || c == '\t' || c == '\r' || c == '\n'

/-- nom `multispace1` (complete). -/
def multispace1 : P Unit
  | [] => .err
  | c :: cs => if isMultispace c then .ok (cs.dropWhile isMultispace) () else .err

/-- nom `character::streaming::not_line_ending`: no line ending at all is `Incomplete`. -/
def notLineEnding : P Unit := fun i =>
  match i.dropWhile (fun c => c != '\r' && c != '\n') with
  | [] => .incomplete
  | '\r' :: '\n' :: r => .ok ('\r' :: '\n' :: r) ()
  | ['\r'] => .incomplete
  | '\r' :: _ => .err
  | r => .ok r ()

/-- K:886-888 `comment`. -/
def comment : P Unit := do
  tag ['#']
  notLineEnding

/-- K:881, K:884: nom `fold_many0(alt((multispace1, comment)), ..)`; `n` bounds the number of rounds. -/
def spaceLoop : Nat → P Unit
  | 0, _ => .fuel
  | n + 1, i =>
    match alt multispace1 comment i with
    | .ok r _ => if r.length = i.length then .err else spaceLoop n r
    | .err => .ok i ()
    | e => e

/-- K:880-882 `space_comment0`. -/
def space0 : P Unit := fun i => spaceLoop (i.length + 1) i

/-- K:883-885 `space_comment1`. -/
def space1 : P Unit := do
  alt multispace1 comment
  space0

/-! ### names -/

/-- K:210-222 `nc_name`. -/
def pNcName : P Str := fun i =>
  match ncName i with
  | some (n, r) => .ok r n
  | none => .err

/-- K:262-280 -/
def keywords : List Str :=
  ["attribute".toList, "default".toList, "datatypes".toList, "div".toList, "element".toList, "empty".toList,
   "external".toList, "grammar".toList, "include".toList, "inherit".toList, "list".toList, "mixed".toList,
   "namespace".toList, "notAllowed".toList, "parent".toList, "start".toList, "string".toList, "text".toList,
   "token".toList]

/-- K:261-281: the first of the tags that matches. -/
def keywordTag : List Str → P Str
  | [], _ => .err
  | k :: ks, i =>
    match tag k i with
    | .ok r _ => .ok r k
    | _ => keywordTag ks i

/-- K:283 `peek(not(nc_name_char))`. -/
def notNameChar : P Unit
  | [] => .ok [] ()
  | c :: cs => if ncNameChar c then .err else .ok (c :: cs) ()

/-- K:259-291 `keyword`. -/
def keyword : P Str := do
  let k ← keywordTag keywords
  notNameChar
  pure k

/-- `not(peek(keyword))`, K:203 -/
def notKeyword : P Unit := fun i =>
  match keyword i with
  | .ok _ _ => .err
  | .err => .ok i ()
  | .fail => .fail
  | .incomplete => .incomplete
  | .panic => .panic
  | .fuel => .fuel

/-- K:200-208 `identifier`: the text read, with the backslash of a quoted identifier. -/
def identifier : P Str :=
  alt (do
    tag ['\\']
    let k ← keyword
    pure ('\\' :: k))
  (do
    notKeyword
    pNcName)

/-- K:140-146 `identifier_or_keyword`, as a string (types.rs:209-216). -/
def identifierOrKeyword : P Str := alt identifier keyword

/-- K:692-699 `cname`. -/
def cname : P (Str × Str) := do
  let p ← pNcName
  tag [':']
  let n ← pNcName
  pure (p, n)

/-- K:630-636 `name`. -/
def pName : P SNameClass :=
  alt (do
    let (p, n) ← cname
    pure (.cname p n))
  (do
    let i ← identifierOrKeyword
    pure (.ident i))

/-! ### literals -/

/-- nom `take_until` (complete), for a text of three equal characters. -/
def takeUntil3 (q : Char) : P Str
  | [] => .err
  | c :: cs =>
    match tag [q, q, q] (c :: cs) with
    | .ok _ _ => .ok (c :: cs) []
    | _ =>
      match takeUntil3 q cs with
      | .ok r s => .ok r (c :: s)
      | e => e

/-- K:176-177 -/
def tripleQuoted (q : Char) : P Str := do
  tag [q, q, q]
  let s ← takeUntil3 q
  tag [q, q, q]
  pure s

/-- K:178-179: nom `recognize(opt(is_not(..)))` takes up to the first quote or newline. -/
def upToQuote (q : Char) : P Str := fun i =>
  .ok (i.dropWhile (fun c => c != q && c != '\n')) (i.takeWhile (fun c => c != q && c != '\n'))

/-- K:178-179 -/
def quoted (q : Char) : P Str := do
  tag [q]
  let s ← upToQuote q
  tag [q]
  pure s

/-- K:174-189 `literal_segment`. -/
def literalSegment : P Str :=
  alt (tripleQuoted '"') (alt (tripleQuoted '\'') (alt (quoted '"') (quoted '\'')))

/-- K:159-168 `literal`, as a string (types.rs:237-247). -/
def literal : P Str := do
  let segs ← sepList1 (do space0; tag ['~']; space0) literalSegment
  pure segs.flatten

/-- K:150-156 `namespace_uri_literal`. -/
def namespaceUriLiteral : P (Option Str) :=
  alt (do tag "inherit".toList; pure none) (do let l ← literal; pure (some l))

/-! ### annotations -/

/-- K:932-946 `annotation_attribute`. -/
def annotationAttribute : P Unit := do
  let _ ← pName
  space0
  tag ['=']
  space0
  let _ ← literal
  pure ()

/-- K:948-987 `annotation_element`, `annotation_element_or_literal`. -/
def annotationElement : Nat → P Unit
  | 0, _ => .fuel
  | n + 1, i => (do
    let _ ← pName
    space0
    tag ['[']
    space0
    let _ ← sepList0 space1 annotationAttribute
    space0
    let _ ← sepList0 space1 (alt (annotationElement n) (do let _ ← literal; pure ()))
    space0
    tag [']'] : P Unit) i

/-- K:894-917 `initial_annotation`. -/
def initialAnnotation (n : Nat) : P Unit := do
  tag ['[']
  space0
  let _ ← sepList0 space1 annotationAttribute
  space0
  let _ ← sepList0 space1 (annotationElement n)
  space0
  tag [']']

/-- K:890-892 `maybe_initial_annotation`: is there one? -/
def maybeInitialAnnotation (n : Nat) : P (Option Unit) := opt (do initialAnnotation n; space0)

/-- K:923-929 `follow_annotation`. -/
def followAnnotation (n : Nat) : P Unit := do
  space0
  tag ['>', '>']
  space0
  annotationElement n

/-- K:919-921 `follow_annotation_list`. -/
def followAnnotationList (n : Nat) : P (List Unit) := sepList0 space0 (followAnnotation n)

/-! ### name classes -/

/-- K:641, K:657: `opt((space_comment0, tag("-"), space_comment0, name_class))` -/
def exceptNc (nc : P SNameClass) : P (Option SNameClass) := opt (do space0; tag ['-']; space0; nc)

/-- K:638-651 `ns_name_nc`. -/
def nsNameNc (nc : P SNameClass) : P SNameClass := do
  let p ← pNcName
  tag [':', '*']
  match ← exceptNc nc with
  | none => pure (.nsName (.pre p))
  | some e => pure (.nsNameExcept (.pre p) e)

/-- K:653-664 `any_name_nc`. -/
def anyNameNc (nc : P SNameClass) : P SNameClass := do
  tag ['*']
  match ← exceptNc nc with
  | none => pure .anyName
  | some e => pure (.anyNameExcept e)

/-- K:674-688 `paren_nc`. -/
def parenNc (nc : P SNameClass) : P SNameClass := do
  tag ['(']
  space0
  let a ← nc
  space0
  tag [')']
  pure (.paren a)

/-- K:666-672 `alt_nc`. -/
def altNc (nc : P SNameClass) : P SNameClass := do
  space0
  tag ['|']
  space0
  nc

/-- K:613-618: a follow annotation without an initial annotation panics (`annotation.unwrap()`). -/
def checkFollow (initial : Option Unit) (follow : List Unit) : P Unit := fun i =>
  if follow.isEmpty then .ok i ()
  else match initial with
    | some _ => .ok i ()
    | none => .panic

/-- K:620-627: `if let Ok(..) = alt_nc(input)`, whatever the error is. -/
def altTail (nc : P SNameClass) (left : SNameClass) : P SNameClass := fun i =>
  match altNc nc i with
  | .ok r right => .ok r (.alt left right)
  | .panic => .panic
  | .fuel => .fuel
  | _ => .ok i left

/-- K:598-628 `name_class`. -/
def nameClass : Nat → P SNameClass
  | 0, _ => .fuel
  | n + 1, i => (do
    let initial ← maybeInitialAnnotation n
    let left ← alt (nsNameNc (nameClass n)) (alt pName (alt (anyNameNc (nameClass n)) (parenNc (nameClass n))))
    let follow ← followAnnotationList n
    checkFollow initial follow
    altTail (nameClass n) left : P SNameClass) i

/-! ### patterns -/

/-- K:586-594 `datatype_name`. -/
def datatypeName : P SDtName :=
  alt (do tag "string".toList; pure .string)
  (alt (do tag "token".toList; pure .token)
    (do let (p, n) ← cname; pure (.cname p n)))

/-- K:514-520 `datatype_value_pattern`. -/
def datatypeValuePattern : P SPattern := do
  let ty ← opt datatypeName
  space0
  let v ← literal
  pure (.value ty v)

/-- K:552-574 `param`. -/
def param (n : Nat) : P Param := do
  let _ ← maybeInitialAnnotation n
  space0
  let name ← identifierOrKeyword
  space0
  tag ['=']
  space0
  let v ← literal
  pure ⟨name, v⟩

/-- K:524-532 -/
def params (n : Nat) : P (List Param) := do
  space0
  tag ['{']
  space0
  let ps ← sepList0 space1 (param n)
  space0
  cut (tag ['}'])
  pure ps

/-- K:523-544 `datatype_param_pattern` and K:577-583 `except_pattern`. -/
def datatypeParamPattern (n : Nat) (pat : P SPattern) : P SPattern := do
  let ty ← datatypeName
  let ps ← opt (params n)
  let ex ← opt (do space0; tag ['-']; space0; pat)
  match ex with
  | none => pure (.data ty (ps.getD []))
  | some e => pure (.dataExcept ty (ps.getD []) e)

/-- K:448-452 and the like: `"{" pattern "}"` -/
def braced (pat : P SPattern) : P SPattern := do
  space0
  tag ['{']
  space0
  let p ← cut pat
  space0
  cut (tag ['}'])
  pure p

/-- K:387-410 `element_pattern`, K:413-436 `attribute_pattern` without the constructor. -/
def namedPattern (kw : Str) (nc : P SNameClass) (pat : P SPattern) : P (SNameClass × SPattern) := do
  tag kw
  space1
  let c ← nc
  let p ← braced pat
  pure (c, p)

/-- K:845-857 `inherit`. -/
def inherit : P Str := do
  tag "inherit".toList
  space0
  tag ['=']
  space0
  identifierOrKeyword

/-- K:471-482 `external_pattern`. -/
def externalPattern : P SPattern := do
  tag "external".toList
  space1
  let l ← literal
  let i ← opt (do space1; inherit)
  pure (.external l i)

/-- K:485-504 `grammar_pattern`. -/
def grammarPattern (item : P SItem) : P SPattern := do
  tag "grammar".toList
  space0
  tag ['{']
  space0
  let is ← sepList0 space1 item
  space0
  cut (tag ['}'])
  pure (.grammar is)

/-- K:506-512 `group_pattern`. -/
def groupPattern (pat : P SPattern) : P SPattern := do
  tag ['(']
  space0
  let p ← pat
  space0
  tag [')']
  pure (.paren p)

/-- K:319-338: the alternatives of `pattern`. -/
def primary (n : Nat) (pat : P SPattern) (item : P SItem) : P SPattern :=
  alt (do let (c, p) ← namedPattern "element".toList (nameClass n) pat; pure (.element c p)) <|
  alt (do let (c, p) ← namedPattern "attribute".toList (nameClass n) pat; pure (.attribute c p)) <|
  alt (do tag "list".toList; let p ← braced pat; pure (.list p)) <|
  alt (do tag "mixed".toList; let p ← braced pat; pure (.mixed p)) <|
  alt datatypeValuePattern <|
  alt (datatypeParamPattern n pat) <|
  alt (do let i ← identifier; pure (.ident i)) <|
  alt (do tag "parent".toList; space1; let i ← identifier; pure (.parent i)) <|
  alt (do tag "empty".toList; pure .empty) <|
  alt (do tag "text".toList; pure .text) <|
  alt (do tag "notAllowed".toList; pure .notAllowed) <|
  alt externalPattern <|
  alt (grammarPattern item) <|
  groupPattern pat

/-- K:345-383: the operators after a pattern; `n` bounds the number of rounds. -/
def operators (pat : P SPattern) : Nat → SPattern → P SPattern
  | 0, _, _ => .fuel
  | n + 1, left, i =>
    match space0 i with
    | .ok (',' :: r) _ => (do space0; let right ← pat; operators pat n (.seq left right) : P SPattern) r
    | .ok ('&' :: r) _ => (do space0; let right ← pat; operators pat n (.inter left right) : P SPattern) r
    | .ok ('|' :: r) _ => (do space0; let right ← pat; operators pat n (.choice left right) : P SPattern) r
    | .ok ('?' :: r) _ => operators pat n (.optional left) r
    | .ok ('*' :: r) _ => operators pat n (.zeroOrMore left) r
    | .ok ('+' :: r) _ => operators pat n (.oneOrMore left) r
    | .ok _ _ => .ok i left
    | .err => .err
    | .fail => .fail
    | .incomplete => .incomplete
    | .panic => .panic
    | .fuel => .fuel

/-- K:778-785 `assign_method`. -/
def assignMethod : P AssignMethod :=
  alt (do tag ['=']; pure .assign) (alt (do tag ['|', '=']; pure .choice) (do tag ['&', '=']; pure .interleave))

/-- K:724-751 `start`. -/
def startRule (pat : P SPattern) : P (Str × AssignMethod × SPattern) := do
  tag "start".toList
  space0
  let how ← assignMethod
  space0
  let p ← cut pat
  pure ("start".toList, how, p)

/-- K:754-776 `define`. -/
def defineItem (pat : P SPattern) : P (Str × AssignMethod × SPattern) := do
  let id ← identifier
  space0
  let how ← assignMethod
  space0
  let p ← cut pat
  pure (id, how, p)

/-- K:859-878 `include_content`, `div_include_content`. -/
def includeContent (pat : P SPattern) : Nat → P SOverride
  | 0, _ => .fuel
  | n + 1, i => (do
    let _ ← maybeInitialAnnotation n
    alt (do annotationElement n; pure .annotation) <|
    alt (do let (id, how, p) ← defineItem pat; pure (.define id how p)) <|
    alt (do let (id, how, p) ← startRule pat; pure (.define id how p)) <|
    (do
      tag "div".toList
      space0
      tag ['{']
      space0
      let _ ← sepList0 space1 (includeContent pat n)
      space0
      cut (tag ['}'])
      pure .div) : P SOverride) i

/-- K:811-818: the overrides of an include -/
def overrideBlock (n : Nat) (pat : P SPattern) : P (List SOverride) := do
  space0
  tag ['{']
  space0
  let os ← sepList0 space1 (includeContent pat n)
  space0
  cut (tag ['}'])
  pure os

/-- K:804-835 `include`. -/
def includeItem (n : Nat) (pat : P SPattern) : P SItem := do
  tag "include".toList
  space1
  let l ← literal
  let i ← opt (do space1; inherit)
  let os ← opt (overrideBlock n pat)
  pure (.include l i (os.getD []))

/-- K:787-801 `div_grammar_content`. -/
def divItem (item : P SItem) : P SItem := do
  tag "div".toList
  space0
  tag ['{']
  space0
  let is ← sepList0 space1 item
  space0
  cut (tag ['}'])
  pure (.div is)

mutual
/-- K:314-385 `pattern`. -/
def pattern : Nat → P SPattern
  | 0, _ => .fuel
  | n + 1, i => (do
    let _ ← maybeInitialAnnotation n
    let p ← primary n (pattern n) (grammarContent n)
    let _ ← followAnnotationList n
    operators (pattern n) (n + 1) p : P SPattern) i
/-- K:711-721 `grammar_content`. -/
def grammarContent : Nat → P SItem
  | 0, _ => .fuel
  | n + 1, i => (
    alt (do let (id, how, p) ← startRule (pattern n); pure (.define id how p)) <|
    alt (do let (id, how, p) ← defineItem (pattern n); pure (.define id how p)) <|
    alt (divItem (grammarContent n)) <|
    alt (includeItem n (pattern n)) <|
    (do annotationElement n; pure .annotation) : P SItem) i
end

/-! ### schemas -/

/-- K:78-97 `decl_namespace`. -/
def declNamespace : P SDecl := do
  tag "namespace".toList
  space1
  let p ← identifierOrKeyword
  space0
  tag ['=']
  space0
  let u ← namespaceUriLiteral
  pure (.namespace p u)

/-- K:98-119 `decl_default_namespace`. -/
def declDefaultNamespace : P SDecl := do
  tag "default".toList
  space1
  tag "namespace".toList
  space1
  let p ← opt identifierOrKeyword
  space0
  tag ['=']
  space0
  let u ← namespaceUriLiteral
  pure (.defaultNamespace p u)

/-- K:120-136 `decl_datatypes`. -/
def declDatatypes : P SDecl := do
  tag "datatypes".toList
  space1
  let p ← identifierOrKeyword
  space0
  tag ['=']
  space0
  let u ← literal
  pure (.datatypes p u)

/-- K:69-77 `decl`. -/
def decl : P SDecl := alt declNamespace (alt declDefaultNamespace declDatatypes)

/-- K:41-64 `top_level`. -/
def topLevel (n : Nat) : P SSchema := do
  let ds ← sepList0 space1 decl
  space0
  let b ← alt (do let is ← sepList1 space1 (grammarContent n); pure (.grammar is)) (do let p ← pattern n; pure (.pattern p))
  pure ⟨ds, b⟩

/-- nom `all_consuming`. -/
def allConsuming {α : Type} (p : P α) : P α := fun i =>
  match p i with
  | .ok [] a => .ok [] a
  | .ok _ _ => .err
  | e => e

/-- K:34-38 `schema`. -/
def compactSchema (n : Nat) : P SSchema := allConsuming (do
  space0
  let s ← topLevel n
  space0
  pure s)

/-- What loading a schema in the compact syntax does with the text. -/
inductive ParseOutcome where
  | ok (s : SSchema)
  | error
  | panic
  | fuel

/-- M:65-86 `Syntax::Compact`: `Incomplete` is an `unimplemented!`. -/
def parseCompact (n : Nat) (text : Str) : ParseOutcome :=
  match compactSchema n text with
  | .ok _ s => .ok s
  | .err => .error
  | .fail => .error
  | .incomplete => .panic
  | .panic => .panic
  | .fuel => .fuel

end Verif.Compact
