import Verif.Model.Lex
import Verif.Model.Source
/-
The reader of the XML schema syntax: relaxng-syntax/src/xml.rs (cited as X:n).  It works on the tree built by the
library roxmltree, which is not part of /repo (Cargo.toml: roxmltree): the model begins at that tree.

Simplifications.  Source positions are dropped, and so is the error value: a function that fails returns `none`.
(As the errors are not told apart, the order of two checks that can both fail does not show.)  The check of a datatype
library URI is done by the library fluent_uri; here it is a parameter `ok : Str → Bool`, "a URI without fragment".
The contents of a `div` among the overrides of an include are read and dropped (as in Model/Source).
-/
namespace Verif.XS
open Verif

/-- roxmltree `Attribute`: the namespace (none if unprefixed), the local name, the value. -/
structure TAttr where
  ns : Option Str
  name : Str
  value : Str
  deriving DecidableEq, Repr

/-- roxmltree `Node`.  `scope` is what `namespaces()` iterates over: the namespaces in scope at the element, each with
its prefix (none for the default namespace). -/
inductive TNode where
  | element (ns : Option Str) (name : Str) (scope : List (Option Str × Str)) (atts : List TAttr) (kids : List TNode)
  | text (s : Str)
  | comment (s : Str)
  | pi (target : Str) (value : Str)
  deriving Repr

/-- The attributes of a node and of its ancestors, nearest first (`Node::parent_element`, `Node::ancestors`). -/
abbrev Anc := List (List TAttr)

/-- X:54 `NS`. -/
def rngNs : Str := "http://relaxng.org/ns/structure/1.0".toList

/-- X:974-976 `is_rng`. -/
def isRngNs : Option Str → Bool
  | some u => u == rngNs
  | none => false

/-- X:961-963 `is_rng_node`, on an element (`tag_name().namespace()` is none for all other nodes). -/
def isRngNode : TNode → Bool
  | .element ns _ _ _ _ => isRngNs ns
  | _ => false

/-- roxmltree `Node::is_element`. -/
def isElement : TNode → Bool
  | .element _ _ _ _ _ => true
  | _ => false

/-- X:965-972 `is_rng_att`. -/
def isRngAtt (a : TAttr) : Bool := a.ns.isNone || isRngNs a.ns

/-- roxmltree `Node::attribute_node` with an unprefixed name: the value of the attribute. -/
def att (k : Str) (as : List TAttr) : Option Str :=
  (as.find? fun a => a.ns == none && a.name == k).map TAttr.value

/-- X:161-169 `no_attrs_except`; X:978-984 `no_attrs` is the case of no exception; X:664-669 and X:512-517 are the same
loop. -/
def noAttsExcept (names : List Str) (as : List TAttr) : Option Unit :=
  if as.any fun a => isRngAtt a && !names.contains a.name then none else some ()

/-- X:270-279 `get_ns_att`, X:287-296 `get_dt_lib_att`. -/
def nearest (k : Str) : Anc → Option Str
  | [] => none
  | as :: up =>
    match att k as with
    | some v => some v
    | none => nearest k up

/-- X:264-266 `get_ns(..).unwrap_or("")`. -/
def getNs (cx : Anc) : Str := (nearest "ns".toList cx).getD []

/-- X:281-283 `get_datatype_lib(..).unwrap_or("")`. -/
def getLib (cx : Anc) : Str := (nearest "datatypeLibrary".toList cx).getD []

/-- X:86-113 `check_standard_attrs`. -/
def checkStandardAttrs (ok : Str → Bool) (as : List TAttr) : Option Unit :=
  match att "datatypeLibrary".toList as with
  | some [] => some ()
  | some v => if ok v then some () else none
  | none => some ()

/-- X:986-992 `no_rng_element_children`. -/
def noRngKids (kids : List TNode) : Option Unit := if kids.any isRngNode then none else some ()

/-- X:994-1000 `no_element_children`. -/
def noElementKids (kids : List TNode) : Option Unit := if kids.any isElement then none else some ()

/-- X:728-735 `attr_ncname`. -/
def attrNcname (v : Str) : Option Str := if v.contains ':' then none else xmlNcname (trim v)

/-- `str::find(':')`, then the text before and after. -/
def splitColon (v : Str) : Option (Str × Str) :=
  if v.contains ':' then some (v.takeWhile (· != ':'), (v.dropWhile (· != ':')).drop 1) else none

/-- X:891-902 `lookup_namespace_def`. -/
def lookupNs (scope : List (Option Str × Str)) (pre : Str) : Option Str :=
  if pre = "xml".toList then some "http://www.w3.org/XML/1998/namespace".toList
  else (scope.find? fun d => d.1 == some pre).map Prod.snd

/-- X:820-843 `qname_att`. -/
def qnameAtt (scope : List (Option Str × Str)) (cx : Anc) (v : Str) : Option SNameClass :=
  match splitColon v with
  | some (pre, loc) => do
    let u ← lookupNs scope (trim pre)
    let l ← xmlNcname loc
    some (.namespaced u l)
  | none => do
    let l ← xmlNcname v
    some (.namespaced (getNs cx) l)

/-- roxmltree `Node::text` of an element: the text of its first child, if that is a text node. -/
def elementText : List TNode → Option Str
  | .text s :: _ => some s
  | _ => none

/-- roxmltree `Node::text` of a child. -/
def nodeText : TNode → Option Str
  | .text s => some s
  | .comment s => some s
  | .pi _ _ => none
  | .element _ _ _ _ kids => elementText kids

/-- X:845-865 `qname_el`. -/
def qnameEl (cx : Anc) (kids : List TNode) : Option SNameClass := do
  noElementKids kids
  let v ← elementText kids
  match splitColon v with
  | some (pre, loc) =>
    let p ← xmlNcname (trim pre)
    let l ← xmlNcname (trim loc)
    some (.cname p l)
  | none =>
    let l ← xmlNcname v
    some (.namespaced (getNs cx) l)

/-! ### paths -/

/-- the last component of a path, and what is before it (std `Components::parse_next_component_back`): `(rest, comp)`,
where the separator before the component belongs to neither. -/
def splitBack (p : Str) : Str × Str :=
  let comp := (p.reverse.takeWhile (· != '/')).reverse
  ((p.take (p.length - comp.length)).dropLast, comp)

/-- std `Components::parse_single_component` on Unix: empty components and `.` do not count. -/
def realComponent (c : Str) : Bool := c != [] && c != ['.']

/-- std `Components::len_before_body` on Unix: the length of a leading `/`, or of a leading `.` that is a component of
its own. -/
def lenBeforeBody : Str → Nat
  | '/' :: _ => 1
  | ['.'] => 1
  | '.' :: '/' :: _ => 1
  | _ => 0

/-- std `Components::trim_right`: drop trailing components that do not count.  `n` bounds the rounds; the length of the
path is enough. -/
def trimRight : Nat → Str → Str
  | 0, p => p
  | n + 1, p =>
    let k := lenBeforeBody p
    if p.length ≤ k then p
    else
      let (rest, comp) := splitBack (p.drop k)
      if realComponent comp then p else trimRight n (p.take k ++ rest)

/-- std `Path::parent` on Unix. -/
def parentPath (p : Str) : Option Str :=
  let q := trimRight (p.length + 1) p
  let k := lenBeforeBody q
  if q.length ≤ k then
    match q with
    | '.' :: _ => some []
    | _ => none
  else
    let rest := q.take k ++ (splitBack (q.drop k)).1
    some (trimRight (rest.length + 1) rest)

/-- std `PathBuf::pop`. -/
def popPath (p : Str) : Str := (parentPath p).getD p

/-- std `PathBuf::push` on Unix. -/
def pushPath (p new : Str) : Str :=
  if new.head? = some '/' then new
  else if p = [] ∨ p.getLast? = some '/' then p ++ new
  else p ++ '/' :: new

/-- X:751-766 `resolve`. -/
def resolve (result : Option Str) (new : Str) : Str :=
  if new.head? = some '/' then new
  else
    match result with
    | some old => pushPath (if old.getLast? = some '/' then old else popPath old) new
    | none => new

/-- the value of `xml:base`, X:740 -/
def baseAtt (as : List TAttr) : Option Str :=
  (as.find? fun a => a.ns == some "http://www.w3.org/XML/1998/namespace".toList && a.name == "base".toList).map TAttr.value

/-- X:737-749 `rebase_path`. -/
def rebasePath (cx : Anc) (href : Str) : Str :=
  resolve ((cx.filterMap baseAtt).reverse.foldl (fun r b => some (resolve r b)) none) href

/-- M:1300-1304, M:1609-1613: `Path::new(f).parent()?.join(h)`. -/
def joinPath (f h : Str) : Option Str := (parentPath f).map fun d => pushPath d h

/-! ### patterns without children -/

/-- X:309-317 `single_pattern_or_group`, X:370-390, X:545-553: a non-empty list, folded from the left. -/
def foldl1 {α : Type} (op : α → α → α) : List α → Option α
  | [] => none
  | a :: as => some (as.foldl op a)

/-- X:427-443 `ref_patt`, `parent_ref`. -/
def refName (as : List TAttr) (kids : List TNode) : Option Str := do
  noRngKids kids
  let n ← att "name".toList as
  attrNcname n

/-- X:445-455 `empty`, `text`, X:596-600 `not_allowed`. -/
def bare (p : SPattern) (as : List TAttr) (kids : List TNode) : Option SPattern := do
  noAttsExcept [] as
  noRngKids kids
  some p

/-- X:466-481: the text of a `value` is that of its first child. -/
def valueText : List TNode → Option Str
  | [] => some []
  | k :: _ => nodeText k

/-- X:457-490 `value`. -/
def value (cx : Anc) (as : List TAttr) (kids : List TNode) : Option SPattern := do
  noElementKids kids
  let lit ← valueText kids
  match att "type".toList as with
  | none => some (.value none lit)
  | some t => do
    let n ← xmlNcname t
    some (.value (some (.namespaced (getLib cx) n)) lit)

/-- X:498-511: the type of a `data`. -/
def dataType (cx : Anc) (as : List TAttr) : Option SDtName := do
  let t ← att "type".toList as
  if trim t = "token".toList then some .token
  else
    let n ← xmlNcname (trim t)
    some (.namespaced (getLib cx) n)

/-- X:571-594 `param`. -/
def param (as : List TAttr) (kids : List TNode) : Option Param := do
  let n ← att "name".toList as
  let name ← attrNcname n
  match kids with
  | [] => none
  | k :: _ =>
    let v ← nodeText k
    some ⟨name, v⟩

/-- X:602-615 `external_ref`, X:768-776: the path. -/
def href (cx : Anc) (as : List TAttr) : Option Str := do
  let h ← att "href".toList as
  some (rebasePath cx h)

/-- X:654-663 and X:691-700: the combine method. -/
def combine (as : List TAttr) : Option AssignMethod :=
  match att "combine".toList as with
  | none => some .assign
  | some v =>
    if trim v = "choice".toList then some .choice
    else if trim v = "interleave".toList then some .interleave
    else none

/-- X:59-79: the names of the pattern elements. -/
inductive Tag where
  | element | attribute | group | interleave | choice | optional | zeroOrMore | oneOrMore | list | mixed | ref | parentRef
  | empty | text | value | data | notAllowed | externalRef | grammar
  deriving DecidableEq, Repr

/-- X:59-79. -/
def patternTags : List (Str × Tag) :=
  [("element".toList, .element), ("attribute".toList, .attribute), ("group".toList, .group),
   ("interleave".toList, .interleave), ("choice".toList, .choice), ("optional".toList, .optional),
   ("zeroOrMore".toList, .zeroOrMore), ("oneOrMore".toList, .oneOrMore), ("list".toList, .list),
   ("mixed".toList, .mixed), ("ref".toList, .ref), ("parentRef".toList, .parentRef), ("empty".toList, .empty),
   ("text".toList, .text), ("value".toList, .value), ("data".toList, .data), ("notAllowed".toList, .notAllowed),
   ("externalRef".toList, .externalRef), ("grammar".toList, .grammar)]

/-- X:319-332: the checks on an attribute with a `name`. -/
def xmlnsCheck (cx : Anc) (name : Str) : Option Unit :=
  if name = "xmlns".toList ∧ (nearest "ns".toList cx).getD [] = [] then none
  else if nearest "ns".toList cx = some "http://www.w3.org/2000/xmlns".toList then none
  else some ()

/-! ### name classes -/

/-- X:186-194: the names of the name class elements. -/
inductive NcTag where
  | name | anyName | nsName | choice
  deriving DecidableEq, Repr

/-- X:186-194. -/
def ncTags : List (Str × NcTag) :=
  [("name".toList, .name), ("anyName".toList, .anyName), ("nsName".toList, .nsName), ("choice".toList, .choice)]

/-- an optional exception -/
def anyNameOf : Option SNameClass → SNameClass
  | none => .anyName
  | some e => .anyNameExcept e

/-- an optional exception -/
def nsNameOf (u : Str) : Option SNameClass → SNameClass
  | none => .nsName (.uri u)
  | some e => .nsNameExcept (.uri u) e

mutual
/-- X:177-205 `name_class`; `inEx`: `InExcept::InsideExcept`. -/
def nameClass (cx : Anc) (inEx : Bool) : TNode → Option SNameClass
  | .element ns name _ as kids =>
    if isRngNs ns then
      match ncTags.lookup name with
      | some .name => qnameEl (as :: cx) kids
      | some .anyName =>
        if inEx then none
        else do
          let ex ← exceptNc (as :: cx) kids
          some (anyNameOf ex)
      | some .nsName => do
        let ex ← exceptNc (as :: cx) kids
        some (nsNameOf (getNs (as :: cx)) ex)
      | some .choice => do
        let ns ← nameClasses (as :: cx) inEx kids
        foldl1 .alt ns
      | none => none
    else none
  | _ => none
/-- X:298-307 `name_class_choice`, X:226-237 `except_nameclass`: the name classes of the RELAX NG children. -/
def nameClasses (cx : Anc) (inEx : Bool) : List TNode → Option (List SNameClass)
  | [] => some []
  | k :: ks =>
    if isRngNode k then do
      let n ← nameClass cx inEx k
      let ns ← nameClasses cx inEx ks
      some (n :: ns)
    else nameClasses cx inEx ks
/-- X:207-224 `any_name`, X:239-262 `ns_name`: at most one RELAX NG child, an `except`. -/
def exceptNc (cx : Anc) : List TNode → Option (Option SNameClass)
  | [] => some none
  | .element ns name _ as kids :: ks =>
    if isRngNs ns then
      if name = "except".toList then do
        noRngKids ks
        let l ← nameClasses (as :: cx) true kids
        let e ← foldl1 .alt l
        some (some e)
      else none
    else exceptNc cx ks
  | _ :: ks => exceptNc cx ks
end

/-- X:145-151, X:334-338: the first RELAX NG child is a name class; the children after it. -/
def nameChild (cx : Anc) : List TNode → Option SNameClass
  | [] => none
  | k :: ks => if isRngNode k then nameClass cx false k else nameChild cx ks

/-! ### patterns -/

/-- X:631-651 `grammar_content`: the names of the elements of a grammar. -/
inductive ItemTag where
  | start | define | div | include
  deriving DecidableEq, Repr

/-- X:635-640. -/
def itemTags : List (Str × ItemTag) :=
  [("start".toList, .start), ("define".toList, .define), ("div".toList, .div), ("include".toList, .include)]

/-- X:341-352: at most one pattern, `text` by default. -/
def attContent : List SPattern → Option SPattern
  | [] => some .text
  | [p] => some p
  | _ => none

/-- exactly one pattern, X:678-682 -/
def only : List SPattern → Option SPattern
  | [p] => some p
  | _ => none

/-- X:535-540 `DatatypeNamePattern`. -/
def dataOf (t : SDtName) : List Param × Option SPattern → SPattern
  | (ps, none) => .data t ps
  | (ps, some e) => .dataExcept t ps e

section
variable (ok : Str → Bool)

mutual
/-- X:56-84 `pattern` and the functions it dispatches to.  (`element` and `attribute` without a `name` attribute: the
name class is read first and then the pattern children after it.) -/
def pattern (cx : Anc) : TNode → Option SPattern
  | .element ns name scope as kids =>
    if isRngNs ns then do
      checkStandardAttrs ok as
      match patternTags.lookup name with
      | some .element => do
        noAttsExcept ["name".toList, "ns".toList, "datatypeLibrary".toList] as
        match att "name".toList as with
        | some v => do
          let nc ← qnameAtt scope (as :: cx) v
          let ps ← patterns (as :: cx) kids
          let p ← foldl1 .seq ps
          some (.element nc p)
        | none => do
          let nc ← nameChild (as :: cx) kids
          let ps ← afterName (as :: cx) kids
          let p ← foldl1 .seq ps
          some (.element nc p)
      | some .attribute => do
        noAttsExcept ["name".toList, "ns".toList, "datatypeLibrary".toList] as
        match att "name".toList as with
        | some v => do
          xmlnsCheck (as :: cx) v
          let nc ← qnameAtt scope (as :: cx) v
          let ps ← patterns (as :: cx) kids
          let p ← attContent ps
          some (.attribute nc p)
        | none => do
          let nc ← nameChild (as :: cx) kids
          let ps ← afterName (as :: cx) kids
          let p ← attContent ps
          some (.attribute nc p)
      | some .group => do
        let ps ← patterns (as :: cx) kids
        let p ← foldl1 .seq ps
        some (.paren p)
      | some .interleave => do
        let ps ← patterns (as :: cx) kids
        foldl1 .inter ps
      | some .choice => do
        let ps ← patterns (as :: cx) kids
        foldl1 .choice ps
      | some .optional => do
        let ps ← patterns (as :: cx) kids
        let p ← foldl1 .seq ps
        some (.optional p)
      | some .zeroOrMore => do
        let ps ← patterns (as :: cx) kids
        let p ← foldl1 .seq ps
        some (.zeroOrMore p)
      | some .oneOrMore => do
        let ps ← patterns (as :: cx) kids
        let p ← foldl1 .seq ps
        some (.oneOrMore p)
      | some .list => do
        let ps ← patterns (as :: cx) kids
        let p ← foldl1 .seq ps
        some (.list p)
      | some .mixed => do
        let ps ← patterns (as :: cx) kids
        let p ← foldl1 .seq ps
        some (.mixed p)
      | some .ref => do
        let n ← refName as kids
        some (.ident n)
      | some .parentRef => do
        let n ← refName as kids
        some (.parent n)
      | some .empty => bare .empty as kids
      | some .text => bare .text as kids
      | some .notAllowed => bare .notAllowed as kids
      | some .value => value (as :: cx) as kids
      | some .data => do
        let t ← dataType (as :: cx) as
        noAttsExcept ["type".toList, "datatypeLibrary".toList] as
        let r ← dataRest (as :: cx) kids
        some (dataOf t r)
      | some .externalRef => do
        let h ← href (as :: cx) as
        some (.external h none)
      | some .grammar => do
        let is ← items (as :: cx) kids
        some (.grammar is)
      | none => none
    else none
  | _ => none
/-- X:115-137 `first_rng_child`, `next_rng_sibling`: the patterns of all RELAX NG children. -/
def patterns (cx : Anc) : List TNode → Option (List SPattern)
  | [] => some []
  | k :: ks =>
    if isRngNode k then do
      let p ← pattern cx k
      let ps ← patterns cx ks
      some (p :: ps)
    else patterns cx ks
/-- X:148-150, X:338: the patterns after the first RELAX NG child. -/
def afterName (cx : Anc) : List TNode → Option (List SPattern)
  | [] => some []
  | k :: ks => if isRngNode k then patterns cx ks else afterName cx ks
/-- X:519-534 and X:555-569 `params`: parameters, then at most one `except`, then nothing. -/
def dataRest (cx : Anc) : List TNode → Option (List Param × Option SPattern)
  | [] => some ([], none)
  | .element ns name _ as kids :: ks =>
    if isRngNs ns then
      if name = "param".toList then do
        let q ← param as kids
        let r ← dataRest cx ks
        some (q :: r.1, r.2)
      else if name = "except".toList then do
        let ps ← patterns (as :: cx) kids
        let e ← foldl1 .choice ps
        noRngKids ks
        some ([], some e)
      else none
    else dataRest cx ks
  | _ :: ks => dataRest cx ks
/-- X:631-651 `grammar_content`; X:653-688 `start`, X:690-715 `define`, X:717-726 `div_grammar_content`, X:768-786
`include`. -/
def item (cx : Anc) : TNode → Option SItem
  | .element ns name _ as kids =>
    if isRngNs ns then
      match itemTags.lookup name with
      | some .start => do
        let how ← combine as
        noAttsExcept ["combine".toList] as
        let ps ← patterns (as :: cx) kids
        let p ← only ps
        some (.define "start".toList how p)
      | some .define => do
        let how ← combine as
        let n ← att "name".toList as
        let n ← attrNcname n
        let ps ← patterns (as :: cx) kids
        let p ← foldl1 .seq ps
        some (.define n how p)
      | some .div => do
        let is ← items (as :: cx) kids
        some (.div is)
      | some .include => do
        let h ← href (as :: cx) as
        let os ← overrides (as :: cx) kids
        some (.include h none os)
      | none => none
    else none
  | _ => none
/-- X:617-629 `grammar`. -/
def items (cx : Anc) : List TNode → Option (List SItem)
  | [] => some []
  | k :: ks =>
    if isRngNode k then do
      let i ← item cx k
      let is ← items cx ks
      some (i :: is)
    else items cx ks
/-- X:788-807 `include_content`, X:809-818 `div_include_content`. -/
def override (cx : Anc) : TNode → Option SOverride
  | .element ns name _ as kids =>
    if isRngNs ns then
      match itemTags.lookup name with
      | some .start => do
        let how ← combine as
        noAttsExcept ["combine".toList] as
        let ps ← patterns (as :: cx) kids
        let p ← only ps
        some (.define "start".toList how p)
      | some .define => do
        let how ← combine as
        let n ← att "name".toList as
        let n ← attrNcname n
        let ps ← patterns (as :: cx) kids
        let p ← foldl1 .seq ps
        some (.define n how p)
      | some .div => do
        let _ ← overrides (as :: cx) kids
        some .div
      | _ => none
    else none
  | _ => none
/-- X:777-782: the overrides of an include. -/
def overrides (cx : Anc) : List TNode → Option (List SOverride)
  | [] => some []
  | k :: ks =>
    if isRngNode k then do
      let o ← override cx k
      let os ← overrides cx ks
      some (o :: os)
    else overrides cx ks
end

/-- X:17-34 `parse` after the XML parser, X:36-51 `pattern_or_grammar`. -/
def parseXml (root : TNode) : Option SSchema :=
  match root with
  | .element ns name _ as kids =>
    if isRngNs ns then
      if name = "grammar".toList then do
        let is ← items ok [as] kids
        some ⟨[], .grammar is⟩
      else do
        let p ← pattern ok [] root
        some ⟨[], .pattern p⟩
    else none
  | _ => none


/-! ### reading a file -/

/-- std `str::lines`: the lines without their ends, a final line feed does not begin another line. -/
def textLines : Str → List Str
  | [] => []
  | c :: cs =>
    if c = '\n' then [] :: textLines cs
    else
      match textLines cs with
      | [] => [[c]]
      | l :: ls => (c :: l) :: ls

/-- the carriage return before a line feed is not part of the line (std `str::lines`) -/
def stripCr (l : Str) : Str := if l.getLast? = some '\r' then l.dropLast else l

/-- X:18-27: the place of an error of the XML parser; `none`: the subtraction underflows (a panic, or, without overflow
checks, a number larger than any file). -/
def errorSpan (text : Str) (row col : Nat) : Option (Nat × Nat) :=
  let (off, len) := ((textLines text).take row).foldl (fun a l => (a.1 + byteLen (stripCr l), byteLen (stripCr l))) (0, 0)
  if col ≤ len then some (off + col, len - col) else none

/-- codemap `Span::subspan` on the span of a file of `len` bytes: the two assertions. -/
def subspan (len b e : Nat) : Option (Nat × Nat) := if b ≤ e ∧ e ≤ len then some (b, e) else none

/-- what roxmltree makes of a text: a tree, or an error at a row and column (both count from one) -/
inductive SchemaDoc where
  | tree (root : TNode)
  | illFormed (row col : Nat)

/-- the outcome of reading a file in the XML syntax -/
inductive XOutcome where
  | ok (s : SSchema)
  | error
  | panic

/-- M:48-65 `Syntax::parse` for the XML syntax, X:17-34 `parse`.  Errors of the reader itself carry the range of a node, which lies
within the text: there `subspan` does not fail (a property of roxmltree, not modelled). -/
def readXml (text : Str) : SchemaDoc → XOutcome
  | .tree root =>
    match parseXml ok root with
    | some s => .ok s
    | none => .error
  | .illFormed row col =>
    match errorSpan text row col with
    | none => .panic
    | some (b, e) =>
      match subspan (byteLen text) b e with
      | none => .panic
      | some _ => .error

end
end Verif.XS
