import Verif.Spec.Document
import Verif.Spec.WellFormed
/-
Specification for C82: documents in which comments, processing instructions and CDATA sections stand inside character data, and
the elements for which this can make a difference.
-/
namespace Verif
variable {D V : Type}

section
variable (env : Env D V)

/-- `element nc { q }` stands somewhere in `p`, at any depth, references followed -/
inductive ElemIn : Pattern D V → NameClass → Pattern D V → Prop
  | here {nc q} : ElemIn (.element nc q) nc q
  | element {nc q nc' q'} : ElemIn q nc' q' → ElemIn (.element nc q) nc' q'
  | choice {p ps nc q} : p ∈ ps → ElemIn p nc q → ElemIn (.choice ps) nc q
  | group {p ps nc q} : p ∈ ps → ElemIn p nc q → ElemIn (.group ps) nc q
  | interleave {p ps nc q} : p ∈ ps → ElemIn p nc q → ElemIn (.interleave ps) nc q
  | mixed {p nc q} : ElemIn p nc q → ElemIn (.mixed p) nc q
  | optional {p nc q} : ElemIn p nc q → ElemIn (.optional p) nc q
  | zeroOrMore {p nc q} : ElemIn p nc q → ElemIn (.zeroOrMore p) nc q
  | oneOrMore {p nc q} : ElemIn p nc q → ElemIn (.oneOrMore p) nc q
  | attr {nc p nc' q} : ElemIn p nc' q → ElemIn (.attr nc p) nc' q
  | list {p nc q} : ElemIn p nc q → ElemIn (.list p) nc q
  | ref {n p nc q} : env[n]? = some p → ElemIn p nc q → ElemIn (.ref n) nc q

/-- character data in `p`, outside its attributes and child elements, is described by nothing but `text` and `mixed`: no
datatypes, values or lists -/
inductive OnlyText : Pattern D V → Prop
  | empty : OnlyText .empty
  | text : OnlyText .text
  | notAllowed : OnlyText .notAllowed
  | choice {ps} : (∀ p ∈ ps, OnlyText p) → OnlyText (.choice ps)
  | group {ps} : (∀ p ∈ ps, OnlyText p) → OnlyText (.group ps)
  | interleave {ps} : (∀ p ∈ ps, OnlyText p) → OnlyText (.interleave ps)
  | mixed {p} : OnlyText p → OnlyText (.mixed p)
  | optional {p} : OnlyText p → OnlyText (.optional p)
  | zeroOrMore {p} : OnlyText p → OnlyText (.zeroOrMore p)
  | oneOrMore {p} : OnlyText p → OnlyText (.oneOrMore p)
  | attr {nc p} : OnlyText (.attr nc p)
  | element {nc p} : OnlyText (.element nc p)
  | ref {n p} : env[n]? = some p → OnlyText p → OnlyText (.ref n)
end

/-! ### documents -/

/-- a run of character data among these pieces is written in several tokens (comments and processing instructions do not end a
run); `prev`: character data precedes -/
def brokenText : Bool → List XNode → Prop
  | _, [] => False
  | prev, .text _ :: xs => prev = true ∨ brokenText true xs
  | prev, .cdata _ :: xs => prev = true ∨ brokenText true xs
  | prev, .comment :: xs => brokenText prev xs
  | prev, .pi :: xs => brokenText prev xs
  | _, .elem _ _ _ _ _ :: xs => brokenText false xs

/-- among the pieces (and everything in them) there is an element of this name whose character data is broken -/
inductive BrokenIn : List (Str × Str) → List XNode → QName → Prop
  | here {scope pre loc atts sc kids xs nm} : elemName (nsDecls atts ++ scope) pre loc = some nm → brokenText false kids →
      BrokenIn scope (.elem pre loc atts sc kids :: xs) nm
  | inside {scope pre loc atts sc kids xs nm} : BrokenIn (nsDecls atts ++ scope) kids nm →
      BrokenIn scope (.elem pre loc atts sc kids :: xs) nm
  | later {scope x xs nm} : BrokenIn scope xs nm → BrokenIn scope (x :: xs) nm

/-- the document has an element of this name whose character data is broken -/
def XDoc.Broken (d : XDoc) (nm : QName) : Prop := BrokenIn [("xml".toList, xmlUri)] [d.root] nm

/-- wherever character data is broken, the schema asks for nothing but text -/
def XDoc.BreaksOnlyText (env : Env D V) (start : Pattern D V) (d : XDoc) : Prop :=
  ∀ nm nc q, d.Broken nm → ElemIn env start nc q → nc.Has nm.expanded → OnlyText env q

/-- the conditions on a document of `Tame`, except that character data may be broken -/
structure XDoc.MostlyTame (d : XDoc) : Prop where
  inScope : inScopeL [("xml".toList, xmlUri)] [] [d.root]
  noDefault : ∀ e ∈ nsDecls (allAttsL [d.root]), e.1 ≠ []
  noRef : ∀ a ∈ allAttsL [d.root], '&' ∉ a.value
  text : ∀ s ∈ allTextsL [d.root], TextOK d.entities s
  names : ((declared d.prolog ++ xmlEntities).map Prod.fst).Nodup

end Verif
