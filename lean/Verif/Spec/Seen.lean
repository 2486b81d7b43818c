import Verif.Spec.Split
/-
Specification for C83: how the validator reads a document, for every document.  Where this differs from what the document means
(`Resolves`), the comments say so.
-/
namespace Verif

/-! ### character data -/

/-- a number between `&#` and `;`: digits, which may have a plus sign before them (not allowed in XML) -/
inductive CharRef : Str → Char → Prop
  | dec {sg ds c} : sg = [] ∨ sg = ['+'] → Number 10 decDigit ds c.toNat → CharRef (sg ++ ds) c
  | hex {sg ds c} : sg = [] ∨ sg = ['+'] → Number 16 hexDigit ds c.toNat → CharRef ('x' :: (sg ++ ds)) c

/-- `Taken ents len s t`: text `s`, part of character data of `len` bytes, is taken for `t` -/
inductive Taken (ents : Str → Option Str) (len : Nat) : Str → Str → Prop
  | nil : Taken ents len [] []
  | char {c s t} : c ≠ '&' → Taken ents len s t → Taken ents len (c :: s) (c :: t)
  /-- a single `&` at the end is dropped (not allowed in XML) -/
  | bare : Taken ents len ['&'] []
  | number {ds c s t} : CharRef ds c → Taken ents len s t → Taken ents len ('&' :: '#' :: (ds ++ ';' :: s)) (c :: t)
  | entity {name v s t} : name.head? ≠ some '#' → ';' ∉ name → ents name = some v → byteLen v ≠ len → Taken ents len s t →
      Taken ents len ('&' :: (name ++ ';' :: s)) (v ++ t)
  /-- at an entity whose value has as many bytes as the whole data, the rest is dropped -/
  | cut {name v s} : name.head? ≠ some '#' → ';' ∉ name → ents name = some v → byteLen v = len →
      Taken ents len ('&' :: (name ++ ';' :: s)) []

/-- character data `s` is read as `t`; if nothing is left it is read as written -/
def TextSeen (ents : Str → Option Str) (s t : Str) : Prop := ∃ u, Taken ents (byteLen s) s u ∧ t = if u = [] then s else u

/-! ### names -/

/-- a name: without a prefix it has no namespace (default namespaces are ignored); `read`: the declarations read so far, those of
later start tags first -/
def seenName (read : List (Str × Str)) (pre loc : Str) : Option QName :=
  if pre = [] then some ⟨none, loc⟩ else (read.lookup pre).map fun u => ⟨some u, loc⟩

/-- attributes: values are read as written -/
inductive SeenAtts (read : List (Str × Str)) : List RawAttr → List Attr → Prop
  | nil : SeenAtts read [] []
  | cons {a nm as bs} : seenName read a.pre a.loc = some nm → SeenAtts read as bs → SeenAtts read (a :: as) (⟨nm, a.value⟩ :: bs)

/-! ### content and documents -/

/-- how a piece of content is read after the declarations `read` (those of elements that have been closed included) -/
inductive Seen (ents : Str → Option Str) : List (Str × Str) → List XNode → List Node → Prop
  | nil {read} : Seen ents read [] []
  | text {read s t xs ns} : TextSeen ents s t → Seen ents read xs ns → Seen ents read (.text s :: xs) (.text t :: ns)
  | cdata {read s xs ns} : Seen ents read xs ns → Seen ents read (.cdata s :: xs) (.text s :: ns)
  | comment {read xs ns} : Seen ents read xs ns → Seen ents read (.comment :: xs) ns
  | pi {read xs ns} : Seen ents read xs ns → Seen ents read (.pi :: xs) ns
  | elem {read pre loc atts sc kids kns nm as xs ns} : seenName (nsDecls atts ++ read) pre loc = some nm →
      SeenAtts (nsDecls atts ++ read) (plainAtts atts) as → Seen ents (nsDecls atts ++ read) kids kns →
      Seen ents (declsL kids ++ (nsDecls atts ++ read)) xs ns →
      Seen ents read (.elem pre loc atts sc kids :: xs) (.elem nm as (joinText kns) :: ns)

/-- the entities: of several declarations of a name the last counts (in XML the first) -/
def XDoc.lastEntities (d : XDoc) (name : Str) : Option Str := ((declared d.prolog).reverse ++ xmlEntities).lookup name

/-- how a document is read; no prefix is declared at the beginning, not even `xml` -/
def XDoc.Seen (d : XDoc) (n : Node) : Prop := Verif.Seen d.lastEntities [] [d.root] [n]

mutual
/-- elements written `<a/>` have no content -/
def XNode.proper : XNode → Prop
  | .elem _ _ _ sc kids => (sc = true → kids = []) ∧ properL kids
  | .text _ => True
  | .cdata _ => True
  | .comment => True
  | .pi => True
def properL : List XNode → Prop
  | [] => True
  | x :: xs => x.proper ∧ properL xs
end

def XDoc.Proper (d : XDoc) : Prop := properL [d.root]

/-- among the pieces there is an element read with this name whose character data is broken -/
inductive SeenBroken : List (Str × Str) → List XNode → QName → Prop
  | here {read pre loc atts sc kids xs nm} : seenName (nsDecls atts ++ read) pre loc = some nm → brokenText false kids →
      SeenBroken read (.elem pre loc atts sc kids :: xs) nm
  | inside {read pre loc atts sc kids xs nm} : SeenBroken (nsDecls atts ++ read) kids nm →
      SeenBroken read (.elem pre loc atts sc kids :: xs) nm
  | later {read x xs nm} : SeenBroken (x.decls ++ read) xs nm → SeenBroken read (x :: xs) nm

/-- wherever character data is broken, the schema asks for nothing but text -/
def XDoc.SeenBreaksOnlyText {D V : Type} (env : Env D V) (start : Pattern D V) (d : XDoc) : Prop :=
  ∀ nm nc q, SeenBroken [] [d.root] nm → ElemIn env start nc q → nc.Has nm.expanded → OnlyText env q

end Verif
