import Verif.Model.XmlSyntax
import Verif.Spec.Datatype
/-
The XML syntax of schemas, as a relation between elements of a document and what they stand for.  Written after the
schema for the full syntax in the RELAX NG specification, with the deviations of this reader (see `C63`).  Of the model
only the tree type (`XS.TNode`) and the namespace name are used.

A context `cx` is the list of the attribute lists of an element and its ancestors, nearest first.
-/
namespace Verif.Rng
open Verif Verif.XS

/-- a RELAX NG element -/
abbrev el (name : Str) (sc : List (Option Str × Str)) (as : List TAttr) (kids : List TNode) : TNode :=
  .element (some "http://relaxng.org/ns/structure/1.0".toList) name sc as kids

def IsRng (k : TNode) : Prop := ∃ name sc as kids, k = el name sc as kids

def IsElement (k : TNode) : Prop := ∃ ns name sc as kids, k = TNode.element ns name sc as kids

/-! ### attributes -/

/-- no unprefixed attribute of that name -/
def NoAttr (k : Str) (as : List TAttr) : Prop := ∀ a ∈ as, a.ns = none → a.name ≠ k

/-- the unprefixed attribute `k` has the value `v` (well-formed elements have at most one) -/
def HasAttr (k : Str) (as : List TAttr) (v : Str) : Prop :=
  ∃ pre post, as = pre ++ ⟨none, k, v⟩ :: post ∧ NoAttr k pre

/-- apart from attributes of foreign namespaces only the given ones -/
def OnlyAttrs (names : List Str) (as : List TAttr) : Prop :=
  ∀ a ∈ as, a.ns = none ∨ a.ns = some "http://relaxng.org/ns/structure/1.0".toList → a.name ∈ names

/-- the value of attribute `k` on the nearest element that has one, or the empty string -/
inductive Nearest (k : Str) : Anc → Str → Prop
  | here {as up v} : HasAttr k as v → Nearest k (as :: up) v
  | up {as up v} : NoAttr k as → Nearest k up v → Nearest k (as :: up) v
  | none : Nearest k [] []

/-! ### names -/

/-- Unicode White_Space -/
def White (c : Char) : Prop :=
  c.toNat ∈ [0x9, 0xA, 0xB, 0xC, 0xD, 0x20, 0x85, 0xA0, 0x1680, 0x2000, 0x2001, 0x2002, 0x2003, 0x2004, 0x2005, 0x2006,
    0x2007, 0x2008, 0x2009, 0x200A, 0x2028, 0x2029, 0x202F, 0x205F, 0x3000]

/-- `t` is `s` without the white space around it -/
def Trimmed (s t : Str) : Prop :=
  ∃ a b, s = a ++ t ++ b ∧ (∀ c ∈ a, White c) ∧ (∀ c ∈ b, White c) ∧
    (∀ c r, t = c :: r → ¬ White c) ∧ ∀ r c, t = r ++ [c] → ¬ White c

/-- `s` is the name `n`, perhaps with white space around it -/
def NameIn (s n : Str) : Prop := Trimmed s n ∧ NCName n

/-- the namespace a prefix stands for -/
inductive PrefixIn (sc : List (Option Str × Str)) : Str → Str → Prop
  | xml : PrefixIn sc "xml".toList "http://www.w3.org/XML/1998/namespace".toList
  | declared {p u pre post} : p ≠ "xml".toList → sc = pre ++ (some p, u) :: post → (∀ d ∈ pre, d.1 ≠ some p) → PrefixIn sc p u

/-- the value of a `name` attribute of an `element` or `attribute` -/
inductive NameAttr (sc : List (Option Str × Str)) (cx : Anc) : Str → SNameClass → Prop
  | plain {v n u} : NameIn v n → Nearest "ns".toList cx u → NameAttr sc cx v (.namespaced u n)
  | prefixed {v w p n u} : ':' ∉ v → Trimmed v p → PrefixIn sc p u → NameIn w n →
      NameAttr sc cx (v ++ ':' :: w) (.namespaced u n)

/-- the content of a `name` element -/
inductive NameElem (cx : Anc) : List TNode → SNameClass → Prop
  | plain {v n u rest} : (∀ k ∈ rest, ¬ IsElement k) → NameIn v n → Nearest "ns".toList cx u →
      NameElem cx (.text v :: rest) (.namespaced u n)
  | prefixed {v w p n rest} : (∀ k ∈ rest, ¬ IsElement k) → NameIn v p → NameIn w n →
      NameElem cx (.text (v ++ ':' :: w) :: rest) (.cname p n)

/-! ### name classes -/

/-- a non-empty list joined from the left: `((a op b) op c) ..` -/
inductive Joined {α : Type} (op : α → α → α) : List α → α → Prop
  | one {a} : Joined op [a] a
  | more {as x a} : Joined op as x → Joined op (as ++ [a]) (op x a)

/-- no RELAX NG element among the children -/
def NoRng (kids : List TNode) : Prop := ∀ k ∈ kids, ¬ IsRng k

/-- no element among the children -/
def NoElement (kids : List TNode) : Prop := ∀ k ∈ kids, ¬ IsElement k

mutual
/-- `Nc cx b n c`: the element `n`, child of the elements of `cx`, is the name class `c`.  `b`: it is a child of `except` (or of a
`choice` that is). -/
inductive Nc : Anc → Bool → TNode → SNameClass → Prop
  | name {cx b sc as kids c} : NameElem (as :: cx) kids c → Nc cx b (el "name".toList sc as kids) c
  | anyName {cx sc as kids} : NoRng kids → Nc cx false (el "anyName".toList sc as kids) .anyName
  | anyNameExcept {cx sc as kids e} : Exc (as :: cx) kids e → Nc cx false (el "anyName".toList sc as kids) (.anyNameExcept e)
  | nsName {cx b sc as kids u} : Nearest "ns".toList (as :: cx) u → NoRng kids →
      Nc cx b (el "nsName".toList sc as kids) (.nsName (.uri u))
  | nsNameExcept {cx b sc as kids u e} : Nearest "ns".toList (as :: cx) u → Exc (as :: cx) kids e →
      Nc cx b (el "nsName".toList sc as kids) (.nsNameExcept (.uri u) e)
  | choice {cx b sc as kids cs c} : Ncs (as :: cx) b kids cs → Joined .alt cs c → Nc cx b (el "choice".toList sc as kids) c
/-- the RELAX NG children are these name classes -/
inductive Ncs : Anc → Bool → List TNode → List SNameClass → Prop
  | nil {cx b} : Ncs cx b [] []
  | cons {cx b k ks c cs} : Nc cx b k c → Ncs cx b ks cs → Ncs cx b (k :: ks) (c :: cs)
  | skip {cx b k ks cs} : ¬ IsRng k → Ncs cx b ks cs → Ncs cx b (k :: ks) cs
/-- the only RELAX NG child is an `except` with this name class -/
inductive Exc : Anc → List TNode → SNameClass → Prop
  | mk {cx pre sc as kids post cs c} : NoRng pre → NoRng post → Ncs (as :: cx) true kids cs → Joined .alt cs c →
      Exc cx (pre ++ el "except".toList sc as kids :: post) c
end

/-! ### patterns -/

/-- the literal in a `value` element or a `param`: its first child -/
inductive Literal : List TNode → Str → Prop
  | text {s rest} : Literal (.text s :: rest) s
  | comment {s rest} : Literal (.comment s :: rest) s
  | element {ns name sc as s more rest} : Literal (.element ns name sc as (.text s :: more) :: rest) s

/-- the type of a `value` element -/
inductive ValueType (cx : Anc) (as : List TAttr) : Option SDtName → Prop
  | none : NoAttr "type".toList as → ValueType cx as none
  | some {t n u} : HasAttr "type".toList as t → NameIn t n → Nearest "datatypeLibrary".toList cx u →
      ValueType cx as (some (.namespaced u n))

/-- the type of a `data` element -/
inductive DataType (cx : Anc) (as : List TAttr) : SDtName → Prop
  | token {t} : HasAttr "type".toList as t → Trimmed t "token".toList → DataType cx as .token
  | other {t n u} : HasAttr "type".toList as t → NameIn t n → n ≠ "token".toList → Nearest "datatypeLibrary".toList cx u →
      DataType cx as (.namespaced u n)

/-- the `combine` attribute -/
inductive Combine (as : List TAttr) : AssignMethod → Prop
  | none : NoAttr "combine".toList as → Combine as .assign
  | choice {v} : HasAttr "combine".toList as v → Trimmed v "choice".toList → Combine as .choice
  | interleave {v} : HasAttr "combine".toList as v → Trimmed v "interleave".toList → Combine as .interleave

/-- a reference to the definition `n` -/
inductive RefTo : List TAttr → List TNode → Str → Prop
  | mk {as kids v n} : HasAttr "name".toList as v → NameIn v n → NoRng kids → RefTo as kids n

/-- `xmlns` is no name for an attribute -/
def NotXmlns (cx : Anc) (v : Str) : Prop :=
  (v = "xmlns".toList → ¬ Nearest "ns".toList cx []) ∧ ¬ Nearest "ns".toList cx "http://www.w3.org/2000/xmlns".toList

/-- the patterns inside an `attribute` -/
inductive AttContent : List SPattern → SPattern → Prop
  | default : AttContent [] .text
  | one {p} : AttContent [p] p

/-- the RELAX NG children are these parameters -/
inductive Params : List TNode → List Param → Prop
  | nil : Params [] []
  | cons {sc as kids ks v n s ps} : HasAttr "name".toList as v → NameIn v n → Literal kids s → Params ks ps →
      Params (el "param".toList sc as kids :: ks) (⟨n, s⟩ :: ps)
  | skip {k ks ps} : ¬ IsRng k → Params ks ps → Params (k :: ks) ps

section
variable (ok : Str → Prop) (path : Anc → Str → Str → Prop)

/-- The library named by the element is acceptable (`ok`: a URI without fragment). -/
def LibOk (as : List TAttr) : Prop := ∀ v, HasAttr "datatypeLibrary".toList as v → v = [] ∨ ok v

mutual
/-- `Pat cx n p`: the element `n`, child of the elements of `cx`, is the pattern `p`. -/
inductive Pat : Anc → TNode → SPattern → Prop
  | mk {cx name sc as kids p} : LibOk ok as → Body (as :: cx) name sc as kids p → Pat cx (el name sc as kids) p
/-- the pattern elements, one by one; here the context includes the element itself -/
inductive Body : Anc → Str → List (Option Str × Str) → List TAttr → List TNode → SPattern → Prop
  | element {cx sc as kids v c ps p} : OnlyAttrs ["name".toList, "ns".toList, "datatypeLibrary".toList] as →
      HasAttr "name".toList as v → NameAttr sc cx v c → Pats cx kids ps → Joined .seq ps p →
      Body cx "element".toList sc as kids (.element c p)
  | elementNc {cx sc as pre k post c ps p} : OnlyAttrs ["name".toList, "ns".toList, "datatypeLibrary".toList] as →
      NoAttr "name".toList as → NoRng pre → Nc cx false k c → Pats cx post ps → Joined .seq ps p →
      Body cx "element".toList sc as (pre ++ k :: post) (.element c p)
  | attribute {cx sc as kids v c ps p} : OnlyAttrs ["name".toList, "ns".toList, "datatypeLibrary".toList] as →
      HasAttr "name".toList as v → NotXmlns cx v → NameAttr sc cx v c → Pats cx kids ps → AttContent ps p →
      Body cx "attribute".toList sc as kids (.attribute c p)
  | attributeNc {cx sc as pre k post c ps p} : OnlyAttrs ["name".toList, "ns".toList, "datatypeLibrary".toList] as →
      NoAttr "name".toList as → NoRng pre → Nc cx false k c → Pats cx post ps → AttContent ps p →
      Body cx "attribute".toList sc as (pre ++ k :: post) (.attribute c p)
  | group {cx sc as kids ps p} : Pats cx kids ps → Joined .seq ps p → Body cx "group".toList sc as kids (.paren p)
  | interleave {cx sc as kids ps p} : Pats cx kids ps → Joined .inter ps p → Body cx "interleave".toList sc as kids p
  | choice {cx sc as kids ps p} : Pats cx kids ps → Joined .choice ps p → Body cx "choice".toList sc as kids p
  | optional {cx sc as kids ps p} : Pats cx kids ps → Joined .seq ps p → Body cx "optional".toList sc as kids (.optional p)
  | zeroOrMore {cx sc as kids ps p} : Pats cx kids ps → Joined .seq ps p → Body cx "zeroOrMore".toList sc as kids (.zeroOrMore p)
  | oneOrMore {cx sc as kids ps p} : Pats cx kids ps → Joined .seq ps p → Body cx "oneOrMore".toList sc as kids (.oneOrMore p)
  | list {cx sc as kids ps p} : Pats cx kids ps → Joined .seq ps p → Body cx "list".toList sc as kids (.list p)
  | mixed {cx sc as kids ps p} : Pats cx kids ps → Joined .seq ps p → Body cx "mixed".toList sc as kids (.mixed p)
  | ref {cx sc as kids n} : RefTo as kids n → Body cx "ref".toList sc as kids (.ident n)
  | parentRef {cx sc as kids n} : RefTo as kids n → Body cx "parentRef".toList sc as kids (.parent n)
  | empty {cx sc as kids} : OnlyAttrs [] as → NoRng kids → Body cx "empty".toList sc as kids .empty
  | text {cx sc as kids} : OnlyAttrs [] as → NoRng kids → Body cx "text".toList sc as kids .text
  | notAllowed {cx sc as kids} : OnlyAttrs [] as → NoRng kids → Body cx "notAllowed".toList sc as kids .notAllowed
  | value {cx sc as kids t s} : NoElement kids → ValueType cx as t → Literal kids s → Body cx "value".toList sc as kids (.value t s)
  | valueEmpty {cx sc as t} : ValueType cx as t → Body cx "value".toList sc as [] (.value t [])
  | data {cx sc as kids t ps} : OnlyAttrs ["type".toList, "datatypeLibrary".toList] as → DataType cx as t → Params kids ps →
      Body cx "data".toList sc as kids (.data t ps)
  | dataExcept {cx sc as pre esc eas ekids post t ps es e} : OnlyAttrs ["type".toList, "datatypeLibrary".toList] as →
      DataType cx as t → Params pre ps → Pats (eas :: cx) ekids es → Joined .choice es e → NoRng post →
      Body cx "data".toList sc as (pre ++ el "except".toList esc eas ekids :: post) (.dataExcept t ps e)
  | externalRef {cx sc as kids h r} : HasAttr "href".toList as h → path cx h r →
      Body cx "externalRef".toList sc as kids (.external r none)
  | grammar {cx sc as kids is} : Items cx kids is → Body cx "grammar".toList sc as kids (.grammar is)
/-- the RELAX NG children are these patterns -/
inductive Pats : Anc → List TNode → List SPattern → Prop
  | nil {cx} : Pats cx [] []
  | cons {cx k ks p ps} : Pat cx k p → Pats cx ks ps → Pats cx (k :: ks) (p :: ps)
  | skip {cx k ks ps} : ¬ IsRng k → Pats cx ks ps → Pats cx (k :: ks) ps
/-- an element of a grammar -/
inductive Item : Anc → TNode → SItem → Prop
  | start {cx sc as kids m p} : Combine as m → OnlyAttrs ["combine".toList] as → Pats (as :: cx) kids [p] →
      Item cx (el "start".toList sc as kids) (.define "start".toList m p)
  | define {cx sc as kids m v n ps p} : Combine as m → HasAttr "name".toList as v → NameIn v n → Pats (as :: cx) kids ps →
      Joined .seq ps p → Item cx (el "define".toList sc as kids) (.define n m p)
  | div {cx sc as kids is} : Items (as :: cx) kids is → Item cx (el "div".toList sc as kids) (.div is)
  | include {cx sc as kids h r os} : HasAttr "href".toList as h → path (as :: cx) h r → Overrides (as :: cx) kids os →
      Item cx (el "include".toList sc as kids) (.include r none os)
/-- the RELAX NG children are these elements of a grammar -/
inductive Items : Anc → List TNode → List SItem → Prop
  | nil {cx} : Items cx [] []
  | cons {cx k ks i is} : Item cx k i → Items cx ks is → Items cx (k :: ks) (i :: is)
  | skip {cx k ks is} : ¬ IsRng k → Items cx ks is → Items cx (k :: ks) is
/-- an element of an include -/
inductive Override : Anc → TNode → SOverride → Prop
  | start {cx sc as kids m p} : Combine as m → OnlyAttrs ["combine".toList] as → Pats (as :: cx) kids [p] →
      Override cx (el "start".toList sc as kids) (.define "start".toList m p)
  | define {cx sc as kids m v n ps p} : Combine as m → HasAttr "name".toList as v → NameIn v n → Pats (as :: cx) kids ps →
      Joined .seq ps p → Override cx (el "define".toList sc as kids) (.define n m p)
  | div {cx sc as kids os} : Overrides (as :: cx) kids os → Override cx (el "div".toList sc as kids) .div
/-- the RELAX NG children are these overrides -/
inductive Overrides : Anc → List TNode → List SOverride → Prop
  | nil {cx} : Overrides cx [] []
  | cons {cx k ks o os} : Override cx k o → Overrides cx ks os → Overrides cx (k :: ks) (o :: os)
  | skip {cx k ks os} : ¬ IsRng k → Overrides cx ks os → Overrides cx (k :: ks) os
end

/-- a schema document -/
inductive Schema : TNode → SSchema → Prop
  | grammar {sc as kids is} : Items ok path [as] kids is → Schema (el "grammar".toList sc as kids) ⟨[], .grammar is⟩
  | pattern {name sc as kids p} : name ≠ "grammar".toList → Pat ok path [] (el name sc as kids) p →
      Schema (el name sc as kids) ⟨[], .pattern p⟩
end

/-! ### what a schema document may contain besides -/

/-- an attribute the schema language knows; all others are foreign -/
def Known (a : TAttr) : Prop :=
  a.ns = none ∨ a.ns = some "http://relaxng.org/ns/structure/1.0".toList ∨
    (a.ns = some "http://www.w3.org/XML/1998/namespace".toList ∧ a.name = "base".toList)

/-- well-formed: no two attributes of the same name -/
def Distinct (as : List TAttr) : Prop := as.Pairwise fun a b => ¬ (a.ns = b.ns ∧ a.name = b.name)

/-- the same attributes, in any order, foreign ones aside -/
def SameAttrs (as as' : List TAttr) : Prop := Distinct as ∧ Distinct as' ∧ ∀ a, Known a → (a ∈ as ↔ a ∈ as')

/-- elements with text content -/
def TextOnly (name : Str) : Prop := name = "value".toList ∨ name = "param".toList ∨ name = "name".toList

/-- The prefix declarations in scope do not matter unless the element has a `name` attribute with a colon; then each prefix
stands for the same namespace. -/
def SameScope (as : List TAttr) (sc sc' : List (Option Str × Str)) : Prop :=
  ∀ v, HasAttr "name".toList as v → ':' ∈ v → ∀ p u, PrefixIn sc p u ↔ PrefixIn sc' p u

/-- The same children but for foreign elements, comments, processing instructions, character data (outside the elements with
text content), foreign attributes, the order of attributes and unused prefix declarations. -/
inductive SameBut : List TNode → List TNode → Prop
  | nil : SameBut [] []
  | element {name sc sc' as as' kids kids' ks ks'} : ¬ TextOnly name → SameAttrs as as' → SameScope as sc sc' → SameBut kids kids' →
      SameBut ks ks' → SameBut (el name sc as kids :: ks) (el name sc' as' kids' :: ks')
  | textOnly {name sc sc' as as' kids ks ks'} : TextOnly name → SameAttrs as as' → SameBut ks ks' →
      SameBut (el name sc as kids :: ks) (el name sc' as' kids :: ks')
  | left {k ks ks'} : ¬ IsRng k → SameBut ks ks' → SameBut (k :: ks) ks'
  | right {k ks ks'} : ¬ IsRng k → SameBut ks ks' → SameBut ks (k :: ks')

/-! ### paths -/

/-- a directory: components that are neither empty nor `.`, each followed by a slash, perhaps after `/` or `./` -/
inductive Dir : Str → Prop
  | none : Dir []
  | root : Dir ['/']
  | here : Dir ['.', '/']
  | step {d c} : Dir d → '/' ∉ c → c ≠ [] → c ≠ ['.'] → Dir (d ++ c ++ ['/'])

/-- RFC 3986 5.2.3: all but the last segment of the base, then the reference -/
inductive Merged : Str → Str → Str → Prop
  | mk {dir last ref} : Dir dir → '/' ∉ last → last ≠ ['.'] → Merged (dir ++ last) ref (dir ++ ref)

/-- begins with a slash -/
def Absolute (p : Str) : Prop := ∃ r, p = '/' :: r

/-- the attribute `xml:base` -/
def HasBase (as : List TAttr) (v : Str) : Prop :=
  ∃ pre post, as = pre ++ ⟨some "http://www.w3.org/XML/1998/namespace".toList, "base".toList, v⟩ :: post ∧
    ∀ a ∈ pre, a.ns = some "http://www.w3.org/XML/1998/namespace".toList → a.name ≠ "base".toList

def NoBase (as : List TAttr) : Prop :=
  ∀ a ∈ as, a.ns = some "http://www.w3.org/XML/1998/namespace".toList → a.name ≠ "base".toList

/-- the base path in force at an element -/
inductive Base : Anc → Option Str → Prop
  | none : Base [] none
  | inherit {as up b} : NoBase as → Base up b → Base (as :: up) b
  | first {as up v} : HasBase as v → Base up none → Base (as :: up) (some v)
  | absolute {as up v b} : HasBase as v → Absolute v → Base up b → Base (as :: up) (some v)
  | relative {as up v b r} : HasBase as v → ¬ Absolute v → Base up (some b) → Merged b v r → Base (as :: up) (some r)

/-- the path an `href` stands for -/
inductive Href (cx : Anc) (h : Str) : Str → Prop
  | plain : Base cx none → Href cx h h
  | absolute {b} : Base cx b → Absolute h → Href cx h h
  | relative {b r} : Base cx (some b) → ¬ Absolute h → Merged b h r → Href cx h r

end Verif.Rng
