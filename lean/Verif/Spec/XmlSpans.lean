import Verif.Model.XmlSpans
import Verif.Spec.XmlSyntax
import Verif.Spec.CompactSpans
/-
Specification: where the parts of an XML schema document stand in its text, what a fault of such a document is, and where it is.  Of
the model only the tree type (`LXml.LNode`, the tree of roxmltree with its ranges) and the type of errors are used.
-/
namespace Verif.RngAt
open Verif Verif.At Verif.LXml Verif.Rng

/-- a RELAX NG element -/
abbrev lel (r : Rg) (name : Str) (sc : List (Option Str × Str)) (as : List LAttr) (kids : List LNode) : LNode :=
  .element r (some "http://relaxng.org/ns/structure/1.0".toList) name sc as kids

def LRng (k : LNode) : Prop := ∃ r name sc as kids, k = lel r name sc as kids

def LElement (k : LNode) : Prop := ∃ r ns name sc as kids, k = LNode.element r ns name sc as kids

/-! ### documents and their texts -/

/-- `Decodes raw v`: the characters `raw` between the quotes of an attribute stand for `v`: references for characters, white space for
spaces.  (There are no entities but the predefined ones: roxmltree refuses documents with a DTD.) -/
inductive Decodes : Str → Str → Prop
  | nil : Decodes [] []
  | char {c s v} : c ≠ '&' → Decodes s v → Decodes (c :: s) (c :: v)
  | space {c s v} : c ∈ ['\t', '\n', '\r'] → Decodes s v → Decodes (c :: s) (' ' :: v)
  | lineEnd {s v} : Decodes s v → Decodes ('\r' :: '\n' :: s) (' ' :: v)
  /-- `&lt;`, `&#60;`, .. : at least two characters between `&` and `;` -/
  | ref {a b name c s v} : Decodes s v → Decodes ('&' :: a :: b :: name ++ ';' :: s) (c :: v)

/-- the attribute `a` is written `key="raw"` (with a prefix and spaces perhaps) -/
def Written (text : Str) (a : LAttr) : Prop :=
  ∃ pre eq quote raw, Cut text a.at_ (pre ++ a.name ++ eq ++ quote :: raw ++ [quote]) ∧ (pre = [] ∨ ∃ p, pre = p ++ [':']) ∧
    a.valueAt = ⟨a.at_.lo + byteLen (pre ++ a.name ++ eq) + byteLen [quote], a.at_.lo + byteLen (pre ++ a.name ++ eq ++ quote :: raw)⟩ ∧
    Decodes raw a.value

/-- one range lies in the other -/
def Within (r r' : Rg) : Prop := r'.lo ≤ r.lo ∧ r.hi ≤ r'.hi

/-- `Depicts text n`: the ranges of `n` are those of its parts in `text`.  (A run of characters and CDATA sections is one node; how much
of it the range covers is left open, but it begins where they begin, and what they stand for is not longer than what is left of the
element.) -/
inductive Depicts (text : Str) : LNode → Prop
  | element {r ns name sc as kids pre rest} : Cut text r ('<' :: pre ++ name ++ rest) → (pre = [] ∨ ∃ p, pre = p ++ [':']) →
      (∀ a ∈ as, Written text a ∧ Within a.at_ r) → (∀ k ∈ kids, Depicts text k) → (∀ k ∈ kids, Within k.at_ r) →
      (∀ tr s, .text tr s ∈ kids → tr.lo + byteLen s ≤ r.hi) → Depicts text (.element r ns name sc as kids)
  | text {r s w} : Cut text r w → Depicts text (.text r s)
  | comment {r s w} : Cut text r w → Depicts text (.comment r s)
  | pi {r t v w} : Cut text r w → Depicts text (.pi r t v)

/-! ### attributes and children -/

/-- no unprefixed attribute of that name -/
def LNoAttr (k : Str) (as : List LAttr) : Prop := ∀ a ∈ as, a.ns = none → a.name ≠ k

/-- `a` is the unprefixed attribute `k` -/
def LHasAttr (k : Str) (as : List LAttr) (a : LAttr) : Prop :=
  ∃ pre post, as = pre ++ a :: post ∧ a.ns = none ∧ a.name = k ∧ LNoAttr k pre

/-- the attribute `k` on the nearest element that has one -/
inductive LNearest (k : Str) : LAnc → LAttr → Prop
  | here {as up a} : LHasAttr k as a → LNearest k (as :: up) a
  | up {as up a} : LNoAttr k as → LNearest k up a → LNearest k (as :: up) a

/-- an attribute that the schema language would have to know -/
def Own (a : LAttr) : Prop := a.ns = none ∨ a.ns = some "http://relaxng.org/ns/structure/1.0".toList

def LNoRng (kids : List LNode) : Prop := ∀ k ∈ kids, ¬ LRng k

/-- `k` is the first RELAX NG element among the children, `post` are those after it -/
def First (kids : List LNode) (k : LNode) (post : List LNode) : Prop := ∃ pre, kids = pre ++ k :: post ∧ LNoRng pre ∧ LRng k

/-- the RELAX NG elements are parameters -/
def OnlyParams (kids : List LNode) : Prop := ∀ k ∈ kids, LRng k → ∃ r sc as ks, k = lel r "param".toList sc as ks

/-! ### what is expected where -/

/-- what an element is to be -/
inductive Role where
  | pattern
  /-- a name class; `true`: inside an `except` -/
  | nameClass (inExcept : Bool)
  /-- an element of a grammar -/
  | item
  /-- an element of an include -/
  | override
  | param

/-- the elements whose children are patterns -/
def containers : List Str :=
  ["group".toList, "interleave".toList, "choice".toList, "optional".toList, "zeroOrMore".toList, "oneOrMore".toList, "list".toList,
   "mixed".toList]

/-- `Asks role cx n role' cx' n'`: if the element `n`, child of the elements with the attributes `cx`, is to be a `role`, then its child `n'` is to be
a `role'`. -/
inductive Asks : Role → LAnc → LNode → Role → LAnc → LNode → Prop
  | inContainer {cx r name sc as kids k} : name ∈ containers → k ∈ kids → LRng k → Asks .pattern cx (lel r name sc as kids) .pattern (as :: cx) k
  /-- `<element name="..">` -/
  | inElement {cx r sc as kids a k} : LHasAttr "name".toList as a → k ∈ kids → LRng k →
      Asks .pattern cx (lel r "element".toList sc as kids) .pattern (as :: cx) k
  /-- `<element>` or `<attribute>` without the name: the first child is a name class -/
  | nameChild {cx r name sc as kids k post} : name = "element".toList ∨ name = "attribute".toList → LNoAttr "name".toList as →
      First kids k post → Asks .pattern cx (lel r name sc as kids) (.nameClass false) (as :: cx) k
  | afterName {cx r sc as kids k post k'} : LNoAttr "name".toList as → First kids k post → k' ∈ post → LRng k' →
      Asks .pattern cx (lel r "element".toList sc as kids) .pattern (as :: cx) k'
  | inAttribute {cx r sc as kids a k post} : LHasAttr "name".toList as a → First kids k post →
      Asks .pattern cx (lel r "attribute".toList sc as kids) .pattern (as :: cx) k
  | afterAttributeName {cx r sc as kids k post k' post'} : LNoAttr "name".toList as → First kids k post → First post k' post' →
      Asks .pattern cx (lel r "attribute".toList sc as kids) .pattern (as :: cx) k'
  | param {cx r sc as pre r' sc' as' kids' post} : OnlyParams pre →
      Asks .pattern cx (lel r "data".toList sc as (pre ++ lel r' "param".toList sc' as' kids' :: post)) .param (as :: cx)
        (lel r' "param".toList sc' as' kids')
  | dataExcept {cx r sc as pre r' sc' as' kids' post k} : OnlyParams pre → k ∈ kids' → LRng k →
      Asks .pattern cx (lel r "data".toList sc as (pre ++ lel r' "except".toList sc' as' kids' :: post)) .pattern (as' :: as :: cx) k
  | inGrammar {cx r sc as kids k} : k ∈ kids → LRng k → Asks .pattern cx (lel r "grammar".toList sc as kids) .item (as :: cx) k
  | inStart {role cx r sc as kids k post} : role = .item ∨ role = .override → First kids k post →
      Asks role cx (lel r "start".toList sc as kids) .pattern (as :: cx) k
  | inDefine {role cx r sc as kids k} : role = .item ∨ role = .override → k ∈ kids → LRng k →
      Asks role cx (lel r "define".toList sc as kids) .pattern (as :: cx) k
  | inDiv {role cx r sc as kids k} : role = .item ∨ role = .override → k ∈ kids → LRng k →
      Asks role cx (lel r "div".toList sc as kids) role (as :: cx) k
  | inInclude {cx r sc as kids k} : k ∈ kids → LRng k → Asks .item cx (lel r "include".toList sc as kids) .override (as :: cx) k
  | inChoice {b cx r sc as kids k} : k ∈ kids → LRng k → Asks (.nameClass b) cx (lel r "choice".toList sc as kids) (.nameClass b) (as :: cx) k
  | nameExcept {b cx r name sc as kids r' sc' as' kids' post k} : (name = "anyName".toList ∧ b = false) ∨ name = "nsName".toList →
      First kids (lel r' "except".toList sc' as' kids') post → LNoRng post → k ∈ kids' → LRng k →
      Asks (.nameClass b) cx (lel r name sc as kids) (.nameClass true) (as' :: as :: cx) k

/-- `Expects root role cx n`: the element `n` of the document, child of the elements with the attributes `cx`, is to be a `role`. -/
inductive Expects (root : LNode) : Role → LAnc → LNode → Prop
  | root {r name sc as kids} : root = lel r name sc as kids → name ≠ "grammar".toList → Expects root .pattern [] root
  | grammar {r sc as kids k} : root = lel r "grammar".toList sc as kids → k ∈ kids → LRng k → Expects root .item [as] k
  | inside {role cx n role' cx' n'} : Expects root role cx n → Asks role cx n role' cx' n' → Expects root role' cx' n'

/-! ### faults -/

/-- `BadName msg r v e`: `v`, which stands at `r`, is no name.  A wrong character is looked for at `r` from the beginning, although the
white space around the name does not count. -/
inductive BadName (msg : String) (r : Rg) (v : Str) : XErr → Prop
  | empty : Trimmed v [] → BadName msg r v (.expected r "Expected identifier")
  | char {a c b} : Trimmed v (a ++ c :: b) → (a = [] ∧ ¬ NameStart c) ∨ (NCName a ∧ ¬ NameChar c) →
      BadName msg r v (.unexpected ⟨r.lo + byteLen a, r.lo + byteLen a + 1⟩ msg)

/-- the attribute is not the name of a definition -/
inductive BadIdent (a : LAttr) : XErr → Prop
  | colon : ':' ∈ a.value → BadIdent a (.unexpected a.valueAt "Colon in NCName")
  | name {e} : BadName "Unexpected character within identifier" a.valueAt a.value e → BadIdent a e

/-- the attribute is not the name of an element or attribute -/
inductive BadQName (sc : List (Option Str × Str)) (a : LAttr) : XErr → Prop
  | pre {v w p} : a.value = v ++ ':' :: w → ':' ∉ v → Trimmed v p → (∀ u, ¬ PrefixIn sc p u) →
      BadQName sc a (.unexpected ⟨a.valueAt.lo, a.valueAt.lo + byteLen v⟩ "Unknown namespace prefix")
  | loc {v w e} : a.value = v ++ ':' :: w → ':' ∉ v →
      BadName "Unexpected character for NcName" ⟨a.valueAt.lo + byteLen v + 1, a.valueAt.hi⟩ w e → BadQName sc a e
  | plain {e} : ':' ∉ a.value → BadName "Unexpected character for NcName" a.valueAt a.value e → BadQName sc a e

/-- the child of a `param` or `value` has no text -/
inductive NoText : LNode → Prop
  | pi {r t v} : NoText (.pi r t v)
  | empty {r ns name sc as} : NoText (.element r ns name sc as [])
  | other {r ns name sc as k ks} : (∀ r s, k ≠ .text r s) → NoText (.element r ns name sc as (k :: ks))

/-- the names of the elements that are patterns -/
def patternNames : List Str :=
  containers ++ ["element".toList, "attribute".toList, "ref".toList, "parentRef".toList, "empty".toList, "text".toList, "value".toList,
    "data".toList, "notAllowed".toList, "externalRef".toList, "grammar".toList]

/-- the elements that do not take all attributes, with those they take -/
def takesOnly : List (Str × List Str) :=
  [("element".toList, ["name".toList, "ns".toList, "datatypeLibrary".toList]),
   ("attribute".toList, ["name".toList, "ns".toList, "datatypeLibrary".toList]),
   ("data".toList, ["type".toList, "datatypeLibrary".toList]), ("empty".toList, []), ("text".toList, []), ("notAllowed".toList, [])]

/-- an include must not contain an include -/
def Role.expected : Role → List Str × String
  | .item => (["start".toList, "define".toList, "div".toList, "include".toList], "Expected <start> <define> <div> or <include> element")
  | _ => (["start".toList, "define".toList, "div".toList], "Expected <start> <define> or <div> element")

/-- `Wrong uri role cx n e`: the element `n`, which is to be a `role`, has a fault, and `e` is the error that names it and says where it is.
`uri` tells the URIs of datatype libraries that are acceptable. -/
inductive Wrong (uri : Str → UriKind) : Role → LAnc → LNode → XErr → Prop
  /- patterns -/
  | library {cx r name sc as kids a} : LHasAttr "datatypeLibrary".toList as a → a.value ≠ [] → uri a.value = .invalid →
      Wrong uri .pattern cx (lel r name sc as kids) (.unexpected a.valueAt "Invalid datatype library URI")
  | fragment {cx r name sc as kids a} : LHasAttr "datatypeLibrary".toList as a → a.value ≠ [] → uri a.value = .fragment →
      Wrong uri .pattern cx (lel r name sc as kids) (.unexpected a.valueAt "Datatype library URI must not include a fragment identifier")
  | notPattern {cx r name sc as kids} : name ∉ patternNames → Wrong uri .pattern cx (lel r name sc as kids) (.expected r "pattern")
  | attr {cx r name sc as kids names a} : (name, names) ∈ takesOnly → a ∈ as → Own a → a.name ∉ names →
      Wrong uri .pattern cx (lel r name sc as kids) (.unexpected a.at_ "Unexpected attribute")
  | noPattern {cx r name sc as kids} : name ∈ containers → LNoRng kids →
      Wrong uri .pattern cx (lel r name sc as kids) (.expected r "pattern child")
  | noContent {cx r sc as kids a} : LHasAttr "name".toList as a → LNoRng kids →
      Wrong uri .pattern cx (lel r "element".toList sc as kids) (.expected r "pattern child")
  | noContentAfterName {cx r sc as kids k post} : LNoAttr "name".toList as → First kids k post → LNoRng post →
      Wrong uri .pattern cx (lel r "element".toList sc as kids) (.expected r "pattern child")
  | noName {cx r name sc as kids} : name = "element".toList ∨ name = "attribute".toList → LNoAttr "name".toList as → LNoRng kids →
      Wrong uri .pattern cx (lel r name sc as kids) (.expected r "name and pattern children")
  | badName {cx r name sc as kids a e} : name = "element".toList ∨ name = "attribute".toList → LHasAttr "name".toList as a →
      BadQName sc a e → Wrong uri .pattern cx (lel r name sc as kids) e
  | xmlns {cx r sc as kids a} : LHasAttr "name".toList as a → a.value = "xmlns".toList →
      (∀ b, LNearest "ns".toList (as :: cx) b → b.value = []) →
      Wrong uri .pattern cx (lel r "attribute".toList sc as kids) (.unexpected a.valueAt "Schemas may not define the xmlns attribute")
  | xmlnsNs {cx r sc as kids a b} : LHasAttr "name".toList as a → LNearest "ns".toList (as :: cx) b →
      b.value = "http://www.w3.org/2000/xmlns".toList →
      Wrong uri .pattern cx (lel r "attribute".toList sc as kids)
        (.unexpected a.at_ "Attributes may not use the http://www.w3.org/2000/xmlns namespace")
  | moreInAttribute {cx r sc as kids a k post k' post'} : LHasAttr "name".toList as a → First kids k post → First post k' post' →
      Wrong uri .pattern cx (lel r "attribute".toList sc as kids) (.unexpected k'.at_ "Unexpected additional child element of <attribute>")
  | moreAfterAttributeName {cx r sc as kids k post k' post' k'' post''} : LNoAttr "name".toList as → First kids k post → First post k' post' →
      First post' k'' post'' →
      Wrong uri .pattern cx (lel r "attribute".toList sc as kids) (.unexpected k''.at_ "Unexpected additional child element of <attribute>")
  | child {cx r name sc as kids k post} : name ∈ ["ref".toList, "parentRef".toList, "empty".toList, "text".toList, "notAllowed".toList] →
      First kids k post → Wrong uri .pattern cx (lel r name sc as kids) (.unexpected k.at_ "Unexpected child element")
  | refNoName {cx r name sc as kids} : name = "ref".toList ∨ name = "parentRef".toList → LNoAttr "name".toList as →
      Wrong uri .pattern cx (lel r name sc as kids) (.expected r "name attribute")
  | refName {cx r name sc as kids a e} : name = "ref".toList ∨ name = "parentRef".toList → LHasAttr "name".toList as a → BadIdent a e →
      Wrong uri .pattern cx (lel r name sc as kids) e
  | valueChild {cx r sc as pre k post} : (∀ k' ∈ pre, ¬ LElement k') → LElement k →
      Wrong uri .pattern cx (lel r "value".toList sc as (pre ++ k :: post)) (.unexpected k.at_ "Unexpected child element")
  | valueText {cx r sc as k ks} : NoText k →
      Wrong uri .pattern cx (lel r "value".toList sc as (k :: ks)) (.expected r "Text content")
  | typeName {cx r name sc as kids a e} : name = "value".toList ∨ name = "data".toList → LHasAttr "type".toList as a →
      BadName "Unexpected character for NcName" a.valueAt a.value e → Wrong uri .pattern cx (lel r name sc as kids) e
  | noType {cx r sc as kids} : LNoAttr "type".toList as →
      Wrong uri .pattern cx (lel r "data".toList sc as kids) (.expected r "type attribute")
  | notParam {cx r sc as pre r' name' sc' as' kids' post} : OnlyParams pre → name' ≠ "param".toList → name' ≠ "except".toList →
      Wrong uri .pattern cx (lel r "data".toList sc as (pre ++ lel r' name' sc' as' kids' :: post)) (.unexpected r' "Unexpected element")
  | noException {cx r sc as pre r' sc' as' kids' post} : OnlyParams pre → LNoRng kids' →
      Wrong uri .pattern cx (lel r "data".toList sc as (pre ++ lel r' "except".toList sc' as' kids' :: post))
        (.expected r' "child pattern element")
  | afterException {cx r sc as pre r' sc' as' kids' post k post'} : OnlyParams pre → First post k post' →
      Wrong uri .pattern cx (lel r "data".toList sc as (pre ++ lel r' "except".toList sc' as' kids' :: post))
        (.unexpected k.at_ "Unexpected element")
  | noHref {cx r sc as kids} : LNoAttr "href".toList as →
      Wrong uri .pattern cx (lel r "externalRef".toList sc as kids) (.expected r "href attribute")
  /- elements of a grammar and of an include -/
  | notItem {role cx r name sc as kids} : role = .item ∨ role = .override → name ∉ role.expected.1 →
      Wrong uri role cx (lel r name sc as kids) (.expected r role.expected.2)
  | combine {role cx r name sc as kids a t} : role = .item ∨ role = .override → name = "start".toList ∨ name = "define".toList →
      LHasAttr "combine".toList as a → Trimmed a.value t → t ≠ "choice".toList → t ≠ "interleave".toList →
      Wrong uri role cx (lel r name sc as kids) (.expected a.valueAt "Expected either \"choice\" or \"interleave\"")
  | startAttr {role cx r sc as kids a} : role = .item ∨ role = .override → a ∈ as → Own a → a.name ≠ "combine".toList →
      Wrong uri role cx (lel r "start".toList sc as kids) (.unexpected a.at_ "Unexpected attribute")
  | noBody {role cx r name sc as kids} : role = .item ∨ role = .override → name = "start".toList ∨ name = "define".toList → LNoRng kids →
      Wrong uri role cx (lel r name sc as kids) (.expected r "Child pattern element")
  | moreInStart {role cx r sc as kids k post k' post'} : role = .item ∨ role = .override → First kids k post → First post k' post' →
      Wrong uri role cx (lel r "start".toList sc as kids) (.unexpected k'.at_ "Unexpected element")
  | defineNoName {role cx r sc as kids} : role = .item ∨ role = .override → LNoAttr "name".toList as →
      Wrong uri role cx (lel r "define".toList sc as kids) (.expected r "name attribute")
  | defineName {role cx r sc as kids a e} : role = .item ∨ role = .override → LHasAttr "name".toList as a → BadIdent a e →
      Wrong uri role cx (lel r "define".toList sc as kids) e
  | includeNoHref {cx r sc as kids} : LNoAttr "href".toList as →
      Wrong uri .item cx (lel r "include".toList sc as kids) (.expected r "href attribute")
  /- parameters -/
  | paramNoName {cx r sc as kids} : LNoAttr "name".toList as → Wrong uri .param cx (lel r "param".toList sc as kids) (.expected r "name attribute")
  | paramName {cx r sc as kids a e} : LHasAttr "name".toList as a → BadIdent a e → Wrong uri .param cx (lel r "param".toList sc as kids) e
  | paramEmpty {cx r sc as} : Wrong uri .param cx (lel r "param".toList sc as []) (.expected r "Text content")
  | paramText {cx r sc as k ks} : NoText k → Wrong uri .param cx (lel r "param".toList sc as (k :: ks)) (.expected r "Text content")
  /- name classes -/
  | notNameClass {b cx r name sc as kids} : name ∉ ["name".toList, "anyName".toList, "nsName".toList, "choice".toList] →
      Wrong uri (.nameClass b) cx (lel r name sc as kids) (.expected r "Either <name> <anyName> <nsName> or <choice>")
  | anyNameInExcept {cx r sc as kids} :
      Wrong uri (.nameClass true) cx (lel r "anyName".toList sc as kids) (.unexpected r "<anyName> not allowed in <except>")
  | nameElement {b cx r sc as pre k post} : (∀ k' ∈ pre, ¬ LElement k') → LElement k →
      Wrong uri (.nameClass b) cx (lel r "name".toList sc as (pre ++ k :: post)) (.unexpected k.at_ "Unexpected child element")
  | nameEmpty {b cx r sc as} : Wrong uri (.nameClass b) cx (lel r "name".toList sc as []) (.expected r "Text contents")
  | nameText {b cx r sc as k ks} : (∀ r s, k ≠ .text r s) →
      Wrong uri (.nameClass b) cx (lel r "name".toList sc as (k :: ks)) (.expected r "Text contents")
  /-- **not** where the prefix is: the positions are counted from the `<` of the element -/
  | namePrefix {b cx r sc as tr v w ks e} : ':' ∉ v →
      BadName "Unexpected character for NcName" ⟨r.lo, r.lo + byteLen v⟩ v e →
      Wrong uri (.nameClass b) cx (lel r "name".toList sc as (.text tr (v ++ ':' :: w) :: ks)) e
  /-- **not** where the name is -/
  | nameLocal {b cx r sc as tr v w ks e} : ':' ∉ v →
      BadName "Unexpected character for NcName" ⟨r.lo + byteLen v + 1, r.hi⟩ w e →
      Wrong uri (.nameClass b) cx (lel r "name".toList sc as (.text tr (v ++ ':' :: w) :: ks)) e
  | namePlain {b cx r sc as tr v ks e} : ':' ∉ v → BadName "Unexpected character for NcName" tr v e →
      Wrong uri (.nameClass b) cx (lel r "name".toList sc as (.text tr v :: ks)) e
  | noNames {b cx r sc as kids} : LNoRng kids →
      Wrong uri (.nameClass b) cx (lel r "choice".toList sc as kids) (.expected r "pattern child")
  | notExcept {b cx r name sc as kids r' name' sc' as' kids' post} : (name = "anyName".toList ∧ b = false) ∨ name = "nsName".toList →
      First kids (lel r' name' sc' as' kids') post → name' ≠ "except".toList →
      Wrong uri (.nameClass b) cx (lel r name sc as kids) (.unexpected r' "Only <except> allowed here")
  | afterExcept {b cx r name sc as kids r' sc' as' kids' post k post'} : (name = "anyName".toList ∧ b = false) ∨ name = "nsName".toList →
      First kids (lel r' "except".toList sc' as' kids') post → First post k post' →
      Wrong uri (.nameClass b) cx (lel r name sc as kids) (.unexpected k.at_ "No other elements allowed here")
  | noExcept {b cx r name sc as kids r' sc' as' kids' post} : (name = "anyName".toList ∧ b = false) ∨ name = "nsName".toList →
      First kids (lel r' "except".toList sc' as' kids') post → LNoRng post → LNoRng kids' →
      Wrong uri (.nameClass b) cx (lel r name sc as kids) (.expected r' "Expected name-class child")

/-- `Fault uri root e`: the document has a fault, and `e` is the error that names it and says where it is. -/
inductive Fault (uri : Str → UriKind) (root : LNode) : XErr → Prop
  | root : ¬ LRng root → Fault uri root (.expected root.at_ "Expected root element with http://relaxng.org/ns/structure/1.0 namespace")
  | inside {role cx n e} : Expects root role cx n → Wrong uri role cx n e → Fault uri root e

/-! ### what stands where -/

/-- `Descends root cx n`: `n` is a node of the document, inside the elements with the attributes `cx` (the nearest first). -/
inductive Descends (root : LNode) : LAnc → LNode → Prop
  | root : Descends root [] root
  | kid {cx r ns name sc as kids k} : Descends root cx (.element r ns name sc as kids) → k ∈ kids → Descends root (as :: cx) k

/-- `n` bytes after the first one -/
def tagRange (r : Rg) (n : Nat) : Rg := ⟨r.lo + 1, r.lo + 1 + n⟩

/-- the path that an `href` stands for -/
def PathOf (cx : LAnc) (a : LAttr) (path : Str) : Prop := ∀ q, Rng.Href (plainAnc cx) a.value q → q = path

/-- `Stands root m r`: `m` stands at `r` in the document.  The position of an element pattern and of an attribute pattern, and of a
definition of `start`, is that of the name of the tag, provided it has no prefix.  That of a prefix in a name class is **not** where the
prefix stands: it begins with the `<` of the element `name`. -/
inductive Stands (root : LNode) : Mark → Rg → Prop
  | element {cx r sc as kids} : Descends root cx (lel r "element".toList sc as kids) → Stands root .element (tagRange r 7)
  | attribute {cx r sc as kids} : Descends root cx (lel r "attribute".toList sc as kids) → Stands root .attribute (tagRange r 9)
  | grammar {cx r sc as kids} : Descends root cx (lel r "grammar".toList sc as kids) → Stands root .grammar r
  | ref {cx r sc as kids a id} : Descends root cx (lel r "ref".toList sc as kids) → LHasAttr "name".toList as a → NameIn a.value id →
      Stands root (.ref id) a.valueAt
  | parent {cx r sc as kids a id} : Descends root cx (lel r "parentRef".toList sc as kids) → LHasAttr "name".toList as a →
      NameIn a.value id → Stands root (.parent id) a.valueAt
  | external {cx r sc as kids a path} : Descends root cx (lel r "externalRef".toList sc as kids) → LHasAttr "href".toList as a →
      PathOf (as :: cx) a path → Stands root (.external path) a.valueAt
  | define {cx r sc as kids a id} : Descends root cx (lel r "define".toList sc as kids) → LHasAttr "name".toList as a → NameIn a.value id →
      Stands root (.define id) a.valueAt
  | start {cx r sc as kids} : Descends root cx (lel r "start".toList sc as kids) → Stands root (.define "start".toList) (tagRange r 5)
  | include {cx r sc as kids a path} : Descends root cx (lel r "include".toList sc as kids) → LHasAttr "href".toList as a →
      PathOf (as :: cx) a path → Stands root (.include path) a.valueAt
  | nsPrefix {cx r sc as tr v w ks pre} : Descends root cx (lel r "name".toList sc as (.text tr (v ++ ':' :: w) :: ks)) → ':' ∉ v →
      NameIn v pre → Stands root (.nsPrefix pre) ⟨r.lo, r.lo + byteLen v⟩
  | library {cx r name sc as kids a} : name = "data".toList ∨ name = "value".toList → Descends root cx (lel r name sc as kids) →
      LNearest "datatypeLibrary".toList (as :: cx) a → Stands root .library a.valueAt
  | noLibrary {cx r name sc as kids} : name = "data".toList ∨ name = "value".toList → Descends root cx (lel r name sc as kids) →
      (∀ a, ¬ LNearest "datatypeLibrary".toList (as :: cx) a) → Stands root .library ⟨0, 0⟩
  | typeName {cx r name sc as kids a} : name = "data".toList ∨ name = "value".toList → Descends root cx (lel r name sc as kids) →
      LHasAttr "type".toList as a → Stands root .typeName a.valueAt
  | param {cx r sc as kids a before q} : Descends root cx (lel r "param".toList sc as kids) → LHasAttr "name".toList as a →
      NameIn a.value q.name → Stands root (.param before q) r

/-- the words of an error -/
def msgOf : XErr → String
  | .expected _ m => m
  | .unexpected _ m => m

/-- no tag of the document has a prefix -/
def Unprefixed (text : Str) (root : LNode) : Prop :=
  ∀ cx r ns name sc as kids, Descends root cx (.element r ns name sc as kids) → ∃ rest, Cut text r ('<' :: name ++ rest)

/-- `Shows text m r`: what the text shows at `r` is `m`: the name of a tag, an element from `<` on, or what is between the quotes of an
attribute.  At the position of a prefix, it is **not** the prefix, but what begins with a `<`. -/
inductive Shows (text : Str) : Mark → Rg → Prop
  | element {r} : Cut text r "element".toList → Shows text .element r
  | attribute {r} : Cut text r "attribute".toList → Shows text .attribute r
  | start {r} : Cut text r "start".toList → Shows text (.define "start".toList) r
  | grammar {r s} : Cut text r ("<grammar".toList ++ s) → Shows text .grammar r
  | param {r before q s} : Cut text r ("<param".toList ++ s) → Shows text (.param before q) r
  | ref {r raw v id} : Cut text r raw → Decodes raw v → NameIn v id → Shows text (.ref id) r
  | parent {r raw v id} : Cut text r raw → Decodes raw v → NameIn v id → Shows text (.parent id) r
  | define {r raw v id} : Cut text r raw → Decodes raw v → NameIn v id → Shows text (.define id) r
  /-- the path that the value stands for, see `Rng.Href` -/
  | external {r raw v cx path} : Cut text r raw → Decodes raw v → (∀ q, Rng.Href cx v q → q = path) → Shows text (.external path) r
  | include {r raw v cx path} : Cut text r raw → Decodes raw v → (∀ q, Rng.Href cx v q → q = path) → Shows text (.include path) r
  | library {r raw v} : Cut text r raw → Decodes raw v → Shows text .library r
  | noLibrary : Shows text .library ⟨0, 0⟩
  | typeName {r raw v} : Cut text r raw → Decodes raw v → Shows text .typeName r
  | nsPrefix {r pre} : Cut text ⟨r.lo, r.lo + 1⟩ "<".toList → pre ≠ [] → '<' ∉ pre → Shows text (.nsPrefix pre) r

end Verif.RngAt
