import Verif.Model.XmlSyntax
import Verif.Model.SchemaSpans
/-
The reader of the XML schema syntax once more, with the source positions and the errors that `Model/XmlSyntax` leaves out:
relaxng-syntax/src/xml.rs (cited as X:n).  The positions come from roxmltree: `Node::range`, `Attribute::range`,
`Attribute::range_value`.  The order of the checks is that of the program.

As before the check of a datatype library URI is a parameter.  Positions that nothing reads are left out, as in `Model/SchemaSpans`.
-/
namespace Verif.LXml
open Verif Verif.At Verif.XS

/-- roxmltree `Attribute`: `at_` is `range()`, `valueAt` is `range_value()` (between the quotes). -/
structure LAttr where
  at_ : Rg
  valueAt : Rg
  ns : Option Str
  name : Str
  value : Str
  deriving DecidableEq, Repr

/-- roxmltree `Node`, with `range()`; see `XS.TNode`. -/
inductive LNode where
  | element (at_ : Rg) (ns : Option Str) (name : Str) (scope : List (Option Str × Str)) (atts : List LAttr) (kids : List LNode)
  | text (at_ : Rg) (s : Str)
  | comment (at_ : Rg) (s : Str)
  | pi (at_ : Rg) (target : Str) (value : Str)
  deriving Repr

/-- roxmltree `Node::range` -/
def LNode.at_ : LNode → Rg
  | .element r _ _ _ _ _ => r
  | .text r _ => r
  | .comment r _ => r
  | .pi r _ _ => r

/-- the attributes of a node and of its ancestors, nearest first -/
abbrev LAnc := List (List LAttr)

/-! ### without the positions -/

def LAttr.plain (a : LAttr) : TAttr := ⟨a.ns, a.name, a.value⟩

mutual
def LNode.plain : LNode → TNode
  | .element _ ns name sc as kids => .element ns name sc (as.map LAttr.plain) (plainNodes kids)
  | .text _ s => .text s
  | .comment _ s => .comment s
  | .pi _ t v => .pi t v
def plainNodes : List LNode → List TNode
  | [] => []
  | k :: ks => k.plain :: plainNodes ks
end

def plainAnc (cx : LAnc) : Anc := cx.map (·.map LAttr.plain)

/-! ### errors -/

/-- X:6-15 `Error`, but for `Xml` (see `readXml`) and `Todo` (which is never made). -/
inductive XErr where
  | expected (at_ : Rg) (msg : String)
  | unexpected (at_ : Rg) (msg : String)
  deriving DecidableEq, Repr

/-- the position of an error -/
def XErr.at_ : XErr → Rg
  | .expected r _ => r
  | .unexpected r _ => r

/-- X:53 `Result` -/
abbrev R (α : Type) := Except XErr α

/-- `ok_or` -/
def orErr {α : Type} (e : XErr) : Option α → R α
  | some a => .ok a
  | none => .error e

/-- what fluent_uri makes of the URI of a datatype library -/
inductive UriKind where
  | invalid
  | fragment
  | fine
  deriving DecidableEq, Repr

/-! ### attributes and names -/

/-- X:961-963 `is_rng_node`. -/
def isRng : LNode → Bool
  | .element _ ns _ _ _ _ => isRngNs ns
  | _ => false

/-- roxmltree `Node::is_element`. -/
def isElem : LNode → Bool
  | .element _ _ _ _ _ _ => true
  | _ => false

/-- X:965-972 `is_rng_att`. -/
def rngAtt (a : LAttr) : Bool := a.ns.isNone || isRngNs a.ns

/-- roxmltree `Node::attribute_node` with an unprefixed name. -/
def attr (k : Str) (as : List LAttr) : Option LAttr := as.find? fun a => a.ns == none && a.name == k

/-- X:161-169 `no_attrs_except`, X:978-984 `no_attrs`, X:512-517, X:664-669. -/
def noAttrsExcept (names : List Str) (as : List LAttr) : R Unit :=
  match as.find? fun a => rngAtt a && !names.contains a.name with
  | some a => .error (.unexpected a.at_ "Unexpected attribute")
  | none => .ok ()

/-- X:270-279 `get_ns_att`, X:287-296 `get_dt_lib_att`. -/
def nearestAttr (k : Str) : LAnc → Option LAttr
  | [] => none
  | as :: up =>
    match attr k as with
    | some a => some a
    | none => nearestAttr k up

/-- X:264-266 `get_ns`; the positions of namespaces are not read. -/
def nsOf (cx : LAnc) : Str :=
  match nearestAttr "ns".toList cx with
  | some a => a.value
  | none => []

/-- X:281-283 `get_datatype_lib`, X:459, X:494: the range and the URI; without attribute 0..0 and the empty string. -/
def libOf (cx : LAnc) : Rg × Str :=
  match nearestAttr "datatypeLibrary".toList cx with
  | some a => (a.valueAt, a.value)
  | none => (⟨0, 0⟩, [])

/-- X:86-113 `check_standard_attrs`. -/
def checkStdAttrs (uri : Str → UriKind) (as : List LAttr) : R Unit :=
  match attr "datatypeLibrary".toList as with
  | some a =>
    if a.value = [] then .ok ()
    else
      match uri a.value with
      | .fine => .ok ()
      | .fragment => .error (.unexpected a.valueAt "Datatype library URI must not include a fragment identifier")
      | .invalid => .error (.unexpected a.valueAt "Invalid datatype library URI")
  | none => .ok ()

/-- X:986-992 `no_rng_element_children`. -/
def noRngChildren (kids : List LNode) : R Unit :=
  match kids.find? isRng with
  | some k => .error (.unexpected k.at_ "Unexpected child element")
  | none => .ok ()

/-- X:994-1000 `no_element_children`. -/
def noElemChildren (kids : List LNode) : R Unit :=
  match kids.find? isElem with
  | some k => .error (.unexpected k.at_ "Unexpected child element")
  | none => .ok ()

/-- X:872-886, X:909-923: the characters of a name; `i` is the number of bytes before. -/
def scanName (msg : String) (lo : Nat) : Nat → Str → R Unit
  | _, [] => .ok ()
  | i, c :: cs =>
    if (if i = 0 then xmlNcNameStartChar c else xmlNcNameChar c) then scanName msg lo (i + c.utf8Size) cs
    else .error (.unexpected ⟨lo + i, lo + i + 1⟩ msg)

/-- X:867-889 `ncname`, X:904-926 `ident`: they differ in the message only.  The range is not that of the trimmed name. -/
def ncname (msg : String) (r : Rg) (v : Str) : R Str :=
  if trim v = [] then .error (.expected r "Expected identifier")
  else do
    scanName msg r.lo 0 (trim v)
    .ok (trim v)

/-- the message of X:867-889 -/
def ncMsg : String := "Unexpected character for NcName"
/-- the message of X:904-926 -/
def idMsg : String := "Unexpected character within identifier"

/-- X:728-735 `attr_ncname`. -/
def attrName (a : LAttr) : R Str :=
  if a.value.contains ':' then .error (.unexpected a.valueAt "Colon in NCName") else ncname idMsg a.valueAt (trim a.value)

/-- X:820-843 `qname_att`. -/
def qnameAttr (scope : List (Option Str × Str)) (cx : LAnc) (a : LAttr) : R LNameClass :=
  match splitColon a.value with
  | some (pre, loc) => do
    let lo := a.valueAt.lo
    let u ← orErr (.unexpected ⟨lo, lo + byteLen pre⟩ "Unknown namespace prefix") (lookupNs scope (trim pre))
    let l ← ncname ncMsg ⟨lo + byteLen pre + 1, a.valueAt.hi⟩ loc
    .ok (.namespaced u l)
  | none => do
    let l ← ncname ncMsg a.valueAt a.value
    .ok (.namespaced (nsOf cx) l)

/-- roxmltree `Node::text` of an element, with the range of its first child. -/
def elemText : List LNode → Option (Rg × Str)
  | .text r s :: _ => some (r, s)
  | _ => none

/-- roxmltree `Node::text` of a child. -/
def textOf : LNode → Option Str
  | .text _ s => some s
  | .comment _ s => some s
  | .pi _ _ _ => none
  | .element _ _ _ _ _ kids => (elemText kids).map Prod.snd

/-- X:845-865 `qname_el`.  With a prefix the positions are counted from the beginning of the element, X:849. -/
def qnameElem (r : Rg) (cx : LAnc) (kids : List LNode) : R LNameClass := do
  noElemChildren kids
  match elemText kids with
  | none => .error (.expected r "Text contents")
  | some (tr, v) =>
    match splitColon v with
    | some (pre, loc) => do
      let p ← ncname ncMsg ⟨r.lo, r.lo + byteLen pre⟩ (trim pre)
      let l ← ncname ncMsg ⟨r.lo + byteLen pre + 1, r.hi⟩ (trim loc)
      .ok (.cname ⟨r.lo, r.lo + byteLen pre⟩ p l)
    | none => do
      let l ← ncname ncMsg tr v
      .ok (.namespaced (nsOf cx) l)

/-! ### patterns without children -/

/-- X:427-443 `ref_patt`, `parent_ref`: the name and its range. -/
def refTo (r : Rg) (as : List LAttr) (kids : List LNode) : R (Rg × Str) := do
  noRngChildren kids
  let a ← orErr (.expected r "name attribute") (attr "name".toList as)
  let n ← attrName a
  .ok (a.valueAt, n)

/-- X:445-455 `empty`, `text`, X:596-600 `not_allowed`. -/
def bareP (p : LPat) (as : List LAttr) (kids : List LNode) : R LPat := do
  noAttrsExcept [] as
  noRngChildren kids
  .ok p

/-- X:466-481: the text of a `value`. -/
def valueOf (r : Rg) : List LNode → R Str
  | [] => .ok []
  | k :: _ => orErr (.expected r "Text content") (textOf k)

/-- X:457-490 `value`. -/
def valueP (r : Rg) (cx : LAnc) (as : List LAttr) (kids : List LNode) : R LPat := do
  noElemChildren kids
  match attr "type".toList as with
  | none => do
    let lit ← valueOf r kids
    .ok (.value none lit)
  | some a => do
    let n ← ncname ncMsg a.valueAt a.value
    let lit ← valueOf r kids
    .ok (.value (some (.namespaced (libOf cx).1 (libOf cx).2 a.valueAt n)) lit)

/-- X:494-511: the type of a `data`. -/
def typeOf (r : Rg) (cx : LAnc) (as : List LAttr) : R LDtName := do
  let a ← orErr (.expected r "type attribute") (attr "type".toList as)
  if trim a.value = "token".toList then .ok .token
  else do
    let n ← ncname ncMsg a.valueAt (trim a.value)
    .ok (.namespaced (libOf cx).1 (libOf cx).2 a.valueAt n)

/-- X:571-594 `param`. -/
def paramOf (r : Rg) (as : List LAttr) (kids : List LNode) : R LParam := do
  let a ← orErr (.expected r "name attribute") (attr "name".toList as)
  let n ← attrName a
  match kids with
  | [] => .error (.expected r "Text content")
  | k :: _ => do
    let v ← orErr (.expected r "Text content") (textOf k)
    .ok ⟨r, n, v⟩

/-- X:602-615 `external_ref`, X:768-776: the path and the range of the attribute value. -/
def hrefOf (r : Rg) (cx : LAnc) (as : List LAttr) : R (Rg × Str) := do
  let a ← orErr (.expected r "href attribute") (attr "href".toList as)
  .ok (a.valueAt, rebasePath (plainAnc cx) a.value)

/-- X:654-663 and X:691-700: the combine method. -/
def combineOf (as : List LAttr) : R AssignMethod :=
  match attr "combine".toList as with
  | none => .ok .assign
  | some a =>
    if trim a.value = "choice".toList then .ok .choice
    else if trim a.value = "interleave".toList then .ok .interleave
    else .error (.expected a.valueAt "Expected either \"choice\" or \"interleave\"")

/-- X:319-332: the checks on an attribute with a `name`. -/
def checkXmlns (cx : LAnc) (a : LAttr) : R Unit :=
  if a.value = "xmlns".toList ∧ nsOf cx = [] then .error (.unexpected a.valueAt "Schemas may not define the xmlns attribute")
  else if (nearestAttr "ns".toList cx).map LAttr.value = some "http://www.w3.org/2000/xmlns".toList then
    .error (.unexpected a.at_ "Attributes may not use the http://www.w3.org/2000/xmlns namespace")
  else .ok ()

/-! ### name classes -/

/-- an optional exception -/
def lAnyNameOf : Option LNameClass → LNameClass
  | none => .anyName
  | some e => .anyNameExcept e

/-- an optional exception -/
def lNsNameOf (u : Str) : Option LNameClass → LNameClass
  | none => .nsName (.uri u)
  | some e => .nsNameExcept (.uri u) e

/-- X:115-125, X:127-137: no RELAX NG element is left -/
def noMore (msg : String) (ks : List LNode) : R Unit :=
  match ks.find? isRng with
  | some k => .error (.unexpected k.at_ msg)
  | none => .ok ()

/-- the message of X:191-194 and X:199-202 -/
def ncExpected : String := "Either <name> <anyName> <nsName> or <choice>"

mutual
/-- X:177-205 `name_class`. -/
def nameClassOf (cx : LAnc) (inEx : Bool) : LNode → R LNameClass
  | .element r ns name _ as kids =>
    if isRngNs ns then
      match ncTags.lookup name with
      | some .name => qnameElem r (as :: cx) kids
      | some .anyName =>
        if inEx then .error (.unexpected r "<anyName> not allowed in <except>")
        else do
          let ex ← exceptOf (as :: cx) kids
          .ok (lAnyNameOf ex)
      | some .nsName => do
        let ex ← exceptOf (as :: cx) kids
        .ok (lNsNameOf (nsOf (as :: cx)) ex)
      | some .choice => do
        let ns ← nameClassesOf (as :: cx) inEx kids
        orErr (.expected r "pattern child") (foldl1 .alt ns)
      | none => .error (.expected r ncExpected)
    else .error (.expected r ncExpected)
  | k => .error (.expected k.at_ ncExpected)
/-- X:298-307 `name_class_choice`, X:226-237 `except_nameclass`. -/
def nameClassesOf (cx : LAnc) (inEx : Bool) : List LNode → R (List LNameClass)
  | [] => .ok []
  | k :: ks =>
    if isRng k then do
      let n ← nameClassOf cx inEx k
      let ns ← nameClassesOf cx inEx ks
      .ok (n :: ns)
    else nameClassesOf cx inEx ks
/-- X:207-224 `any_name`, X:239-262 `ns_name`: at most one RELAX NG child, an `except`. -/
def exceptOf (cx : LAnc) : List LNode → R (Option LNameClass)
  | [] => .ok none
  | .element r ns name _ as kids :: ks =>
    if isRngNs ns then
      if name = "except".toList then do
        noMore "No other elements allowed here" ks
        let l ← nameClassesOf (as :: cx) true kids
        let e ← orErr (.expected r "Expected name-class child") (foldl1 .alt l)
        .ok (some e)
      else .error (.unexpected r "Only <except> allowed here")
    else exceptOf cx ks
  | _ :: ks => exceptOf cx ks
end

/-- X:145-147, X:334-337: the first RELAX NG child is a name class. -/
def nameChildOf (r : Rg) (cx : LAnc) : List LNode → R LNameClass
  | [] => .error (.expected r "name and pattern children")
  | k :: ks => if isRng k then nameClassOf cx false k else nameChildOf r cx ks

/-! ### patterns -/

/-- X:535-540 `DatatypeNamePattern`. -/
def lDataOf (t : LDtName) : List LParam × Option LPat → LPat
  | (ps, none) => .data t ps
  | (ps, some e) => .dataExcept t ps e

/-- X:155, X:356, X:675: a range of the length of the local name, after the `<` -/
def afterLt (r : Rg) (n : Nat) : Rg := ⟨r.lo + 1, r.lo + 1 + n⟩

/-- the message of X:641-643 -/
def itemExpected : String := "Expected <start> <define> <div> or <include> element"
/-- the message of X:797-799 -/
def overrideExpected : String := "Expected <start> <define> or <div> element"

section
variable (uri : Str → UriKind)

mutual
/-- X:56-84 `pattern` and the functions it dispatches to. -/
def patternOf (cx : LAnc) : LNode → R LPat
  | .element r ns name scope as kids =>
    if isRngNs ns then do
      checkStdAttrs uri as
      match patternTags.lookup name with
      | some .element => do
        noAttrsExcept ["name".toList, "ns".toList, "datatypeLibrary".toList] as
        match attr "name".toList as with
        | some a => do
          let nc ← qnameAttr scope (as :: cx) a
          let ps ← patternsOf (as :: cx) kids
          let p ← orErr (.expected r "pattern child") (foldl1 .seq ps)
          .ok (.element (afterLt r 7) nc p)
        | none => do
          let nc ← nameChildOf r (as :: cx) kids
          let ps ← afterNameOf (as :: cx) kids
          let p ← orErr (.expected r "pattern child") (foldl1 .seq ps)
          .ok (.element (afterLt r 7) nc p)
      | some .attribute => do
        noAttrsExcept ["name".toList, "ns".toList, "datatypeLibrary".toList] as
        match attr "name".toList as with
        | some a => do
          checkXmlns (as :: cx) a
          let nc ← qnameAttr scope (as :: cx) a
          let p ← singleOf (as :: cx) "Unexpected additional child element of <attribute>" kids
          .ok (.attribute (afterLt r 9) nc (p.getD .text))
        | none => do
          let nc ← nameChildOf r (as :: cx) kids
          let p ← afterNameSingle (as :: cx) "Unexpected additional child element of <attribute>" kids
          .ok (.attribute (afterLt r 9) nc (p.getD .text))
      | some .group => do
        let ps ← patternsOf (as :: cx) kids
        let p ← orErr (.expected r "pattern child") (foldl1 .seq ps)
        .ok (.paren p)
      | some .interleave => do
        let ps ← patternsOf (as :: cx) kids
        orErr (.expected r "pattern child") (foldl1 .inter ps)
      | some .choice => do
        let ps ← patternsOf (as :: cx) kids
        orErr (.expected r "pattern child") (foldl1 .choice ps)
      | some .optional => do
        let ps ← patternsOf (as :: cx) kids
        let p ← orErr (.expected r "pattern child") (foldl1 .seq ps)
        .ok (.optional p)
      | some .zeroOrMore => do
        let ps ← patternsOf (as :: cx) kids
        let p ← orErr (.expected r "pattern child") (foldl1 .seq ps)
        .ok (.zeroOrMore p)
      | some .oneOrMore => do
        let ps ← patternsOf (as :: cx) kids
        let p ← orErr (.expected r "pattern child") (foldl1 .seq ps)
        .ok (.oneOrMore p)
      | some .list => do
        let ps ← patternsOf (as :: cx) kids
        let p ← orErr (.expected r "pattern child") (foldl1 .seq ps)
        .ok (.list p)
      | some .mixed => do
        let ps ← patternsOf (as :: cx) kids
        let p ← orErr (.expected r "pattern child") (foldl1 .seq ps)
        .ok (.mixed p)
      | some .ref => do
        let n ← refTo r as kids
        .ok (.ident n.1 n.2)
      | some .parentRef => do
        let n ← refTo r as kids
        .ok (.parent n.1 n.2)
      | some .empty => bareP .empty as kids
      | some .text => bareP .text as kids
      | some .notAllowed => bareP .notAllowed as kids
      | some .value => valueP r (as :: cx) as kids
      | some .data => do
        let t ← typeOf r (as :: cx) as
        noAttrsExcept ["type".toList, "datatypeLibrary".toList] as
        let d ← dataRestOf (as :: cx) kids
        .ok (lDataOf t d)
      | some .externalRef => do
        let h ← hrefOf r (as :: cx) as
        .ok (.external h.1 h.2 none)
      | some .grammar => do
        let is ← itemsOf (as :: cx) kids
        .ok (.grammar r is)
      | none => .error (.expected r "pattern")
    else .error (.expected r "pattern")
  | k => .error (.expected k.at_ "pattern")
/-- X:115-137, X:309-317: the patterns of all RELAX NG children. -/
def patternsOf (cx : LAnc) : List LNode → R (List LPat)
  | [] => .ok []
  | k :: ks =>
    if isRng k then do
      let p ← patternOf cx k
      let ps ← patternsOf cx ks
      .ok (p :: ps)
    else patternsOf cx ks
/-- X:148-150: the patterns after the first RELAX NG child. -/
def afterNameOf (cx : LAnc) : List LNode → R (List LPat)
  | [] => .ok []
  | k :: ks => if isRng k then patternsOf cx ks else afterNameOf cx ks
/-- X:340-352, X:678-683: at most one pattern; a second one is not read. -/
def singleOf (cx : LAnc) (msg : String) : List LNode → R (Option LPat)
  | [] => .ok none
  | k :: ks =>
    if isRng k then do
      let p ← patternOf cx k
      noMore msg ks
      .ok (some p)
    else singleOf cx msg ks
/-- X:338: the same after the first RELAX NG child. -/
def afterNameSingle (cx : LAnc) (msg : String) : List LNode → R (Option LPat)
  | [] => .ok none
  | k :: ks => if isRng k then singleOf cx msg ks else afterNameSingle cx msg ks
/-- X:519-534 and X:555-569 `params`: parameters, then at most one `except`, then nothing. -/
def dataRestOf (cx : LAnc) : List LNode → R (List LParam × Option LPat)
  | [] => .ok ([], none)
  | .element r ns name _ as kids :: ks =>
    if isRngNs ns then
      if name = "param".toList then do
        let q ← paramOf r as kids
        let d ← dataRestOf cx ks
        .ok (q :: d.1, d.2)
      else if name = "except".toList then do
        let ps ← patternsOf (as :: cx) kids
        let e ← orErr (.expected r "child pattern element") (foldl1 .choice ps)
        noMore "Unexpected element" ks
        .ok ([], some e)
      else .error (.unexpected r "Unexpected element")
    else dataRestOf cx ks
  | _ :: ks => dataRestOf cx ks
/-- X:631-651 `grammar_content`; X:653-688 `start`, X:690-715 `define`, X:717-726 `div_grammar_content`, X:768-786
`include`. -/
def itemOf (cx : LAnc) : LNode → R LItem
  | .element r ns name _ as kids =>
    if isRngNs ns then
      match itemTags.lookup name with
      | some .start => do
        let how ← combineOf as
        noAttrsExcept ["combine".toList] as
        let p ← singleOf (as :: cx) "Unexpected element" kids
        let p ← orErr (.expected r "Child pattern element") p
        .ok (.define (afterLt r 5) "start".toList how p)
      | some .define => do
        let how ← combineOf as
        let a ← orErr (.expected r "name attribute") (attr "name".toList as)
        let n ← attrName a
        let ps ← patternsOf (as :: cx) kids
        let p ← orErr (.expected r "Child pattern element") (foldl1 .seq ps)
        .ok (.define a.valueAt n how p)
      | some .div => do
        let is ← itemsOf (as :: cx) kids
        .ok (.div is)
      | some .include => do
        let h ← hrefOf r (as :: cx) as
        let os ← overridesOf (as :: cx) kids
        .ok (.include h.1 h.2 none os)
      | none => .error (.expected r itemExpected)
    else .error (.expected r itemExpected)
  | k => .error (.expected k.at_ itemExpected)
/-- X:617-629 `grammar`. -/
def itemsOf (cx : LAnc) : List LNode → R (List LItem)
  | [] => .ok []
  | k :: ks =>
    if isRng k then do
      let i ← itemOf cx k
      let is ← itemsOf cx ks
      .ok (i :: is)
    else itemsOf cx ks
/-- X:788-807 `include_content`, X:809-818 `div_include_content`. -/
def overrideOf (cx : LAnc) : LNode → R LOverride
  | .element r ns name _ as kids =>
    if isRngNs ns then
      match itemTags.lookup name with
      | some .start => do
        let how ← combineOf as
        noAttrsExcept ["combine".toList] as
        let p ← singleOf (as :: cx) "Unexpected element" kids
        let p ← orErr (.expected r "Child pattern element") p
        .ok (.define (afterLt r 5) "start".toList how p)
      | some .define => do
        let how ← combineOf as
        let a ← orErr (.expected r "name attribute") (attr "name".toList as)
        let n ← attrName a
        let ps ← patternsOf (as :: cx) kids
        let p ← orErr (.expected r "Child pattern element") (foldl1 .seq ps)
        .ok (.define a.valueAt n how p)
      | some .div => do
        let _ ← overridesOf (as :: cx) kids
        .ok .div
      | _ => .error (.expected r overrideExpected)
    else .error (.expected r overrideExpected)
  | k => .error (.expected k.at_ overrideExpected)
/-- X:777-782: the overrides of an include. -/
def overridesOf (cx : LAnc) : List LNode → R (List LOverride)
  | [] => .ok []
  | k :: ks =>
    if isRng k then do
      let o ← overrideOf cx k
      let os ← overridesOf cx ks
      .ok (o :: os)
    else overridesOf cx ks
end

/-- the message of X:46-49 -/
def rootExpected : String := "Expected root element with http://relaxng.org/ns/structure/1.0 namespace"

/-- X:17-34 `parse` after the XML parser, X:36-51 `pattern_or_grammar`. -/
def parse (root : LNode) : R LSchema :=
  match root with
  | .element r ns name _ as kids =>
    if isRngNs ns then
      if name = "grammar".toList then do
        let is ← itemsOf uri [as] kids
        .ok ⟨[], .grammar is⟩
      else do
        let p ← patternOf uri [] root
        .ok ⟨[], .pattern p⟩
    else .error (.expected r rootExpected)
  | k => .error (.expected k.at_ rootExpected)

/-! ### reading a file -/

/-- what roxmltree makes of a text, see `XS.SchemaDoc` -/
inductive LDoc where
  | tree (root : LNode)
  | illFormed (row col : Nat)

/-- the outcome of reading a file in the XML syntax; an error of the reader with its position, one of roxmltree with the range made of
its row and column -/
inductive LXOutcome where
  | ok (s : LSchema)
  | error (e : XErr)
  | xmlError (at_ : Rg)
  | panic

/-- M:49-64 `Syntax::parse` for the XML syntax, X:17-34 `parse`: every position of an error goes through `subspan`. -/
def readXml (text : Str) : LDoc → LXOutcome
  | .tree root =>
    match parse uri root with
    | .ok s => .ok s
    | .error e =>
      match subspan (byteLen text) e.at_.lo e.at_.hi with
      | none => .panic
      | some _ => .error e
  | .illFormed row col =>
    match errorSpan text row col with
    | none => .panic
    | some (b, e) =>
      match subspan (byteLen text) b e with
      | none => .panic
      | some _ => .xmlError ⟨b, e⟩

/-- The files of a schema in the XML syntax: M:647-663 `Files::load`, M:48-65 `Syntax::parse`, with their lengths. -/
def xmlFiles (text : Str → Option (Str × LDoc)) : LFiles where
  load f := match text f with
    | none => .error .io
    | some (t, d) => match readXml uri t d with
      | .ok s => .ok s
      | .panic => .error .panic
      | .error _ => .error .parse
      | .xmlError _ => .error .parse
  join := joinPath
  size f := match text f with
    | none => 0
    | some (t, _) => byteLen t

end
end Verif.LXml
