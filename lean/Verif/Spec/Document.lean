import Verif.Spec.Grammar
import Verif.Model.Validate
/-
Specification: XML documents as trees, what they look like to the validator (`toks`), and what they
mean (`Resolves`): namespace prefixes resolved by nearest enclosing declaration, references in
character data replaced, comments and processing instructions dropped, adjacent character data
joined.  Nothing here mentions the validator's stack or its decoding loop; from the model only the
type `Token` is used.
-/
namespace Verif

/-- an attribute as written, `pre:loc="value"` (`pre = []`: no prefix) -/
structure RawAttr where
  pre : Str
  loc : Str
  value : Str
  deriving DecidableEq, Repr

/-- a piece of element content as written -/
inductive XNode where
  | text (s : Str)
  | cdata (s : Str)
  | comment
  | pi
  /-- `selfClose` is the form `<a/>` (then there are no children) -/
  | elem (pre loc : Str) (atts : List RawAttr) (selfClose : Bool) (kids : List XNode)

/-- attribute tokens -/
def RawAttr.tok (a : RawAttr) : Token := .attribute a.pre a.loc a.value

mutual
/-- the tokens of a piece of content -/
def XNode.toks : XNode → List Token
  | .text s => [.text s]
  | .cdata s => [.cdata s]
  | .comment => [.comment]
  | .pi => [.processingInstruction]
  | .elem pre loc atts true _ => .elementStart pre loc :: (atts.map RawAttr.tok ++ [.elementEnd .empty])
  | .elem pre loc atts false kids =>
    .elementStart pre loc :: (atts.map RawAttr.tok ++
      .elementEnd .open :: (toksL kids ++ [.elementEnd (.close pre loc)]))
/-- the tokens of a list of pieces -/
def toksL : List XNode → List Token
  | [] => []
  | x :: xs => x.toks ++ toksL xs
end

/-! ### references in character data -/

/-- value of a decimal digit -/
def decDigit (c : Char) : Option Nat := if '0' ≤ c ∧ c ≤ '9' then some (c.toNat - 48) else none
/-- value of a hexadecimal digit -/
def hexDigit (c : Char) : Option Nat :=
  if '0' ≤ c ∧ c ≤ '9' then some (c.toNat - 48)
  else if 'a' ≤ c ∧ c ≤ 'f' then some (c.toNat - 87)
  else if 'A' ≤ c ∧ c ≤ 'F' then some (c.toNat - 55)
  else none

/-- `Number radix dig s n`: `s` is a non-empty digit string with value `n` -/
inductive Number (radix : Nat) (dig : Char → Option Nat) : Str → Nat → Prop
  | one {c d} : dig c = some d → Number radix dig [c] d
  | snoc {s n c d} : Number radix dig s n → dig c = some d → Number radix dig (s ++ [c]) (n * radix + d)

/-- what may stand between `&` and `;`, and what it stands for -/
inductive RefMeans (ents : Str → Option Str) : Str → Str → Prop
  | entity {name v} : name.head? ≠ some '#' → ';' ∉ name → ents name = some v → RefMeans ents name v
  | dec {ds n c} : Number 10 decDigit ds n → c.toNat = n → RefMeans ents ('#' :: ds) [c]
  | hex {ds n c} : Number 16 hexDigit ds n → c.toNat = n → RefMeans ents ('#' :: 'x' :: ds) [c]

/-- `Decodes ents s t`: replacing every reference in `s` gives `t` -/
inductive Decodes (ents : Str → Option Str) : Str → Str → Prop
  | nil : Decodes ents [] []
  | char {c s t} : c ≠ '&' → Decodes ents s t → Decodes ents (c :: s) (c :: t)
  | ref {r v s t} : RefMeans ents r v → Decodes ents s t →
      Decodes ents ('&' :: (r ++ ';' :: s)) (v ++ t)

/-! ### namespaces -/

/-- namespace declarations among the attributes of a start tag (`[]` is the default namespace) -/
def nsDecls : List RawAttr → List (Str × Str)
  | [] => []
  | a :: as =>
    if a.pre = xmlnsStr then (a.loc, a.value) :: nsDecls as
    else if a.pre = [] ∧ a.loc = xmlnsStr then ([], a.value) :: nsDecls as
    else nsDecls as

/-- the attributes that are not namespace declarations -/
def plainAtts : List RawAttr → List RawAttr
  | [] => []
  | a :: as =>
    if a.pre = xmlnsStr then plainAtts as
    else if a.pre = [] ∧ a.loc = xmlnsStr then plainAtts as
    else a :: plainAtts as

/-- element name, given the declarations in scope (nearest first) -/
def elemName (scope : List (Str × Str)) (pre loc : Str) : Option QName :=
  if pre = [] then some ⟨scope.lookup [], loc⟩
  else (scope.lookup pre).map fun u => ⟨some u, loc⟩

/-- attribute name: no prefix means no namespace -/
def attrName (scope : List (Str × Str)) (pre loc : Str) : Option QName :=
  if pre = [] then some ⟨none, loc⟩
  else (scope.lookup pre).map fun u => ⟨some u, loc⟩

/-- attributes with resolved names and replaced references -/
inductive AttsMean (ents : Str → Option Str) (scope : List (Str × Str)) :
    List RawAttr → List Attr → Prop
  | nil : AttsMean ents scope [] []
  | cons {a nm v as bs} : attrName scope a.pre a.loc = some nm → Decodes ents a.value v →
      AttsMean ents scope as bs → AttsMean ents scope (a :: as) (⟨nm, v⟩ :: bs)

/-- join adjacent character data -/
def joinText : List Node → List Node
  | [] => []
  | .text s :: ns =>
    match joinText ns with
    | .text t :: r => .text (s ++ t) :: r
    | r => .text s :: r
  | n :: ns => n :: joinText ns

/-- the nodes a piece of content stands for (adjacent character data not yet joined at this level) -/
inductive Resolves (ents : Str → Option Str) : List (Str × Str) → List XNode → List Node → Prop
  | nil {scope} : Resolves ents scope [] []
  | text {scope s t xs ns} : Decodes ents s t → Resolves ents scope xs ns →
      Resolves ents scope (.text s :: xs) (.text t :: ns)
  | cdata {scope s xs ns} : Resolves ents scope xs ns →
      Resolves ents scope (.cdata s :: xs) (.text s :: ns)
  | comment {scope xs ns} : Resolves ents scope xs ns → Resolves ents scope (.comment :: xs) ns
  | pi {scope xs ns} : Resolves ents scope xs ns → Resolves ents scope (.pi :: xs) ns
  | elem {scope pre loc atts sc kids kns nm as xs ns} :
      elemName (nsDecls atts ++ scope) pre loc = some nm →
      AttsMean ents (nsDecls atts ++ scope) (plainAtts atts) as →
      Resolves ents (nsDecls atts ++ scope) kids kns → (sc = true → kids = []) →
      Resolves ents scope xs ns →
      Resolves ents scope (.elem pre loc atts sc kids :: xs) (.elem nm as (joinText kns) :: ns)

/-! ### documents -/

/-- what may stand before the root element -/
inductive Prolog where
  | declaration
  | comment
  | pi
  | dtdStart
  | dtdEnd
  | emptyDtd
  | entity (name value : Str)

def Prolog.tok : Prolog → Token
  | .declaration => .declaration
  | .comment => .comment
  | .pi => .processingInstruction
  | .dtdStart => .dtdStart
  | .dtdEnd => .dtdEnd
  | .emptyDtd => .emptyDtd
  | .entity n v => .entityDeclaration n (.entityValue v)

/-- entities declared in the prolog -/
def declared : List Prolog → List (Str × Str)
  | [] => []
  | .entity n v :: ps => (n, v) :: declared ps
  | _ :: ps => declared ps

/-- a document: prolog, root element, trailing comments and processing instructions (`true` is a
comment) -/
structure XDoc where
  prolog : List Prolog
  pre : Str
  loc : Str
  atts : List RawAttr
  selfClose : Bool
  kids : List XNode
  epilog : List Bool

/-- the root element -/
def XDoc.root (d : XDoc) : XNode := .elem d.pre d.loc d.atts d.selfClose d.kids

def XDoc.toks (d : XDoc) : List Token :=
  d.prolog.map Prolog.tok ++ (d.root.toks ++
    d.epilog.map fun b => if b then Token.comment else .processingInstruction)

/-- the five predefined entities of XML -/
def xmlEntities : List (Str × Str) :=
  [("lt".toList, "<".toList), ("gt".toList, ">".toList), ("amp".toList, "&".toList),
   ("apos".toList, "'".toList), ("quot".toList, "\"".toList)]

/-- entities usable in the document; the first declaration of a name counts -/
def XDoc.entities (d : XDoc) (name : Str) : Option Str :=
  (declared d.prolog ++ xmlEntities).lookup name

/-- the namespace name bound to the prefix `xml` -/
def xmlUri : Str := "http://www.w3.org/XML/1998/namespace".toList

/-- the meaning of a document is an element -/
def XDoc.Means (d : XDoc) (n : Node) : Prop :=
  Resolves d.entities [("xml".toList, xmlUri)] [d.root] [n]

/-! ### documents the validator's XML layer treats faithfully

The validator deviates from the meaning above in a few known ways (each has its own theorem); `Tame`
excludes exactly those. -/

mutual
/-- all attributes in a piece of content -/
def XNode.allAtts : XNode → List RawAttr
  | .elem _ _ atts _ kids => atts ++ allAttsL kids
  | .text _ => []
  | .cdata _ => []
  | .comment => []
  | .pi => []
def allAttsL : List XNode → List RawAttr
  | [] => []
  | x :: xs => x.allAtts ++ allAttsL xs
end

mutual
/-- prefixes of all element names in a piece of content -/
def XNode.allPres : XNode → List Str
  | .elem pre _ _ _ kids => pre :: allPresL kids
  | .text _ => []
  | .cdata _ => []
  | .comment => []
  | .pi => []
def allPresL : List XNode → List Str
  | [] => []
  | x :: xs => x.allPres ++ allPresL xs
end

mutual
/-- all character data (as written) in a piece of content, CDATA sections excepted -/
def XNode.allTexts : XNode → List Str
  | .elem _ _ _ _ kids => allTextsL kids
  | .text s => [s]
  | .cdata _ => []
  | .comment => []
  | .pi => []
def allTextsL : List XNode → List Str
  | [] => []
  | x :: xs => x.allTexts ++ allTextsL xs
end

mutual
/-- no element content in `x` has a run of character data in several tokens -/
def XNode.unsplit : XNode → Prop
  | .elem _ _ _ _ kids => unsplitL false kids
  | .text _ => True
  | .cdata _ => True
  | .comment => True
  | .pi => True
/-- no run of character data is made of several tokens (comments and processing instructions do not
end a run); `prev`: character data precedes -/
def unsplitL : Bool → List XNode → Prop
  | _, [] => True
  | prev, .text _ :: xs => prev = false ∧ unsplitL true xs
  | prev, .cdata _ :: xs => prev = false ∧ unsplitL true xs
  | prev, .comment :: xs => unsplitL prev xs
  | prev, .pi :: xs => unsplitL prev xs
  | _, .elem _ _ _ _ kids :: xs => unsplitL false kids ∧ unsplitL false xs
end

/-- character data whose decoding the implementation gets right: without references, or such that no
replacement text has the byte length of the data as written, and the data does not decode to nothing -/
def TextOK (ents : Str → Option Str) (s : Str) : Prop :=
  '&' ∉ s ∨ ((∀ name v, ents name = some v → byteLen v ≠ byteLen s) ∧ ∀ t, Decodes ents s t → t ≠ [])

mutual
/-- the namespace declarations in a piece of content, those of later start tags first -/
def XNode.decls : XNode → List (Str × Str)
  | .elem _ _ atts _ kids => declsL kids ++ nsDecls atts
  | .text _ => []
  | .cdata _ => []
  | .comment => []
  | .pi => []
def declsL : List XNode → List (Str × Str)
  | [] => []
  | x :: xs => declsL xs ++ x.decls
end

mutual
/-- Wherever a prefix is used, the last declaration of it that has been read says the same as the nearest one in scope (so no
prefix is used again after a different declaration in an element that has been closed); no start tag declares a prefix twice,
differently.  `scope`: the declarations in scope, nearest first; `read`: the declarations read so far, last start tag first. -/
def XNode.inScope (scope read : List (Str × Str)) : XNode → Prop
  | .elem pre _ atts _ kids =>
    (∀ p ∈ pre :: (plainAtts atts).map (·.pre), p ≠ [] → (nsDecls atts ++ read).lookup p = (nsDecls atts ++ scope).lookup p) ∧
    (∀ d ∈ nsDecls atts, ∀ e ∈ nsDecls atts, d.1 = e.1 → d.2 = e.2) ∧
    inScopeL (nsDecls atts ++ scope) (nsDecls atts ++ read) kids
  | .text _ => True
  | .cdata _ => True
  | .comment => True
  | .pi => True
def inScopeL (scope read : List (Str × Str)) : List XNode → Prop
  | [] => True
  | x :: xs => x.inScope scope read ∧ inScopeL scope (x.decls ++ read) xs
end

mutual
/-- the condition can be checked -/
def XNode.decInScope : (scope read : List (Str × Str)) → (x : XNode) → Decidable (x.inScope scope read)
  | scope, read, .elem pre _ atts _ kids =>
    have : Decidable (inScopeL (nsDecls atts ++ scope) (nsDecls atts ++ read) kids) := decInScopeL _ _ kids
    inferInstanceAs (Decidable ((∀ p ∈ pre :: (plainAtts atts).map (·.pre), p ≠ [] →
      (nsDecls atts ++ read).lookup p = (nsDecls atts ++ scope).lookup p) ∧ (∀ d ∈ nsDecls atts, ∀ e ∈ nsDecls atts, d.1 = e.1 → d.2 = e.2) ∧
      inScopeL (nsDecls atts ++ scope) (nsDecls atts ++ read) kids))
  | _, _, .text _ => .isTrue trivial
  | _, _, .cdata _ => .isTrue trivial
  | _, _, .comment => .isTrue trivial
  | _, _, .pi => .isTrue trivial
def decInScopeL : (scope read : List (Str × Str)) → (xs : List XNode) → Decidable (inScopeL scope read xs)
  | _, _, [] => .isTrue trivial
  | scope, read, x :: xs =>
    have : Decidable (x.inScope scope read) := x.decInScope scope read
    have : Decidable (inScopeL scope (x.decls ++ read) xs) := decInScopeL _ _ xs
    inferInstanceAs (Decidable (x.inScope scope read ∧ inScopeL scope (x.decls ++ read) xs))
end

instance (scope read : List (Str × Str)) (xs : List XNode) : Decidable (inScopeL scope read xs) := decInScopeL scope read xs

structure TameL (ents : Str → Option Str) (xs : List XNode) : Prop where
  /-- prefixes mean what their last declaration says; in particular the prefix `xml` is not used without being declared -/
  inScope : inScopeL [("xml".toList, xmlUri)] [] xs
  /-- no default namespace declaration -/
  noDefault : ∀ d ∈ nsDecls (allAttsL xs), d.1 ≠ []
  /-- no references in attribute values -/
  noRef : ∀ a ∈ allAttsL xs, '&' ∉ a.value
  /-- character data decodes correctly -/
  text : ∀ s ∈ allTextsL xs, TextOK ents s
  /-- character data is not split over several tokens -/
  unsplit : unsplitL false xs

/-- conditions on a document -/
structure XDoc.Tame (d : XDoc) : Prop where
  body : TameL d.entities [d.root]
  /-- no entity is declared twice or redeclares a predefined one -/
  names : ((declared d.prolog ++ xmlEntities).map Prod.fst).Nodup

end Verif
