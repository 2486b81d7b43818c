import Verif.Model.Spans
import Verif.Spec.Document
/-
Specification: where the things an error speaks of are in the text of a document.
-/
namespace Verif.Loc
open Verif

/-! ### without positions -/

def End.plain : End → ElementEnd
  | .open => .open
  | .close p l => .close p.s l.s
  | .empty => .empty

def EntityDef.plain : EntityDef → Verif.EntityDef
  | .entityValue v => .entityValue v.s
  | .externalId => .externalId

def Token.plain : Token → Verif.Token
  | .declaration _ => .declaration
  | .processingInstruction _ => .processingInstruction
  | .comment _ => .comment
  | .dtdStart _ => .dtdStart
  | .emptyDtd _ => .emptyDtd
  | .dtdEnd _ => .dtdEnd
  | .entityDeclaration n d _ => .entityDeclaration n.s d.plain
  | .elementStart p l _ => .elementStart p.s l.s
  | .attribute p l v _ => .attribute p.s l.s v.s
  | .elementEnd e _ => .elementEnd e.plain
  | .text s => .text s.s
  | .cdata s _ => .cdata s.s

def Err.plain : Err → VErr
  | .xml _ _ => .xml
  | .notAllowed t => .notAllowed t.plain
  | .undefinedNamespacePrefix p => .undefinedNamespacePrefix p.s
  | .undefinedEntity n _ _ => .undefinedEntity n
  | .invalidOrUnclosedEntity _ _ => .invalidOrUnclosedEntity

def Event.plain : Event → Verif.Event
  | .token t => some t.plain
  | .error _ _ => none

def UAttr.plain (a : UAttr) : UnresolvedAttr := ⟨a.pre.s, a.loc.s, a.value.s⟩

def Elem.plain (e : Elem) : ElementState :=
  ⟨e.pre.s, e.loc.s, e.namespaces.map fun n => (n.1.s, n.2.s), e.attributes.map (·.plain)⟩

def State.plain {D V : Type} (s : State D V) : VState D V := ⟨s.store, s.cur, s.lastWasStart, s.stack.map (·.plain), s.entities⟩

/-- a result, without positions -/
def plainResult {α : Type} : Except Err α → Except VErr α
  | .ok a => .ok a
  | .error e => .error e.plain

/-! ### positions -/

/-- `p` is the part of `text` that begins `p.start` bytes into it. -/
def Within (text : Str) (p : Sp) : Prop := ∃ a b, text = a ++ p.s ++ b ∧ p.start = byteLen a

def End.spans : End → List Sp
  | .close p l => [p, l]
  | _ => []

def EntityDef.spans : EntityDef → List Sp
  | .entityValue v => [v]
  | .externalId => []

/-- the parts of the text a token speaks of -/
def Token.spans : Token → List Sp
  | .declaration s => [s]
  | .processingInstruction s => [s]
  | .comment s => [s]
  | .dtdStart s => [s]
  | .emptyDtd s => [s]
  | .dtdEnd s => [s]
  | .entityDeclaration n d s => n :: s :: d.spans
  | .elementStart p l s => [p, l, s]
  | .attribute p l v s => [p, l, v, s]
  | .elementEnd e s => s :: e.spans
  | .text s => [s]
  | .cdata s s' => [s, s']

/-- the tokens of a document with this text -/
def TokensIn (text : Str) (es : List Event) : Prop := ∀ t, .token t ∈ es → ∀ p ∈ t.spans, Within text p

/-- no start tag begins here -/
def NoStart (es : List Event) : Prop := ∀ p l s, .token (.elementStart p l s) ∉ es

/-- `>` or `/>` -/
def End.ofStart : End → Prop
  | .close _ _ => False
  | _ => True

/-- the prefix is declared somewhere -/
def Declares (es : List Event) (pre : Str) : Prop := ∃ p l v s, .token (.attribute p l v s) ∈ es ∧ p.s = "xmlns".toList ∧ l.s = pre

/-- the entity is predefined, or declared somewhere -/
def DeclaresEntity (es : List Event) (name : Str) : Prop :=
  name ∈ ["quot".toList, "apos".toList, "amp".toList, "gt".toList, "lt".toList] ∨
    ∃ n v s, .token (.entityDeclaration n (.entityValue v) s) ∈ es ∧ n.s = name

/-- `Blames before x e`: the error `e` may be reported for `x`, which comes after `before`.  The positions in the error are
those of
* the token itself,
* the name of the element whose start tag ends here, or an attribute of that start tag, or a prefix in it,
* a reference in the text. -/
inductive Blames (before : List Event) : Event → Err → Prop
  | syntax {r c} : Blames before (.error r c) (.xml r c)
  | token {t} : Blames before (.token t) (.notAllowed t)
  | element {a b pre loc span ns e s} : before = a ++ .token (.elementStart pre loc span) :: b → NoStart b → e.ofStart →
      Blames before (.token (.elementEnd e s)) (.notAllowed (.elementStart ns loc loc))
  | attribute {a b pre loc span p l v s' ns e s} : before = a ++ .token (.elementStart pre loc span) :: b → NoStart b →
      .token (.attribute p l v s') ∈ b → e.ofStart →
      Blames before (.token (.elementEnd e s)) (.notAllowed (.attribute ns l v s'))
  | elementPrefix {a b pre loc span e s} : before = a ++ .token (.elementStart pre loc span) :: b → NoStart b →
      pre.s ≠ [] → ¬ Declares before pre.s → e.ofStart →
      Blames before (.token (.elementEnd e s)) (.undefinedNamespacePrefix pre)
  | attributePrefix {a b pre loc span p l v s' e s} : before = a ++ .token (.elementStart pre loc span) :: b → NoStart b →
      .token (.attribute p l v s') ∈ b → p.s ≠ [] → ¬ Declares before p.s → e.ofStart →
      Blames before (.token (.elementEnd e s)) (.undefinedNamespacePrefix p)
  | entity {t a name b} : t.s = a ++ '&' :: name ++ ';' :: b → ';' ∉ name → ¬ DeclaresEntity before name →
      Blames before (.token (.text t)) (.undefinedEntity name (t.start + byteLen a + 1) (t.start + byteLen a + 1 + byteLen name))
  | unclosed {t a b} : t.s = a ++ '&' :: b → ';' ∉ b →
      Blames before (.token (.text t)) (.invalidOrUnclosedEntity (t.start + byteLen a) (t.start + byteLen a + 1))
  /-- here the position is not that of the reference: it counts from the beginning of the text instead of the document -/
  | number {t a digits b k} : t.s = a ++ '&' :: '#' :: digits ++ ';' :: b → ';' ∉ digits → (∀ t, ¬ RefMeans (fun _ => none) ('#' :: digits) t) →
      (k = byteLen a + 1 ∨ k = byteLen a + 2) →
      Blames before (.token (.text t)) (.invalidOrUnclosedEntity k k)

/-! ### what an error shows -/

/-- the part of the text a token is shown as -/
def Token.shown : Token → Sp
  | .declaration s => s
  | .processingInstruction s => s
  | .comment s => s
  | .dtdStart s => s
  | .emptyDtd s => s
  | .dtdEnd s => s
  | .entityDeclaration _ _ s => s
  | .elementStart _ _ s => s
  | .attribute _ _ _ s => s
  | .elementEnd _ s => s
  | .text s => s
  | .cdata _ s => s

/-- the range of bytes an error reports -/
def Err.range : Err → Option (Nat × Nat)
  | .xml _ _ => none
  | .notAllowed t => some (t.shown.start, t.shown.stop)
  | .undefinedNamespacePrefix p => some (p.start, p.stop)
  | .undefinedEntity _ b e => some (b, e)
  | .invalidOrUnclosedEntity b e => some (b, e)

/-- `Shows text b e l x r`: the bytes from `b` to `e` of the text are the whole characters `x`, which follow `l` and are followed by
`r`. -/
def Shows (text : Str) (b e : Nat) (l x r : Str) : Prop := text = l ++ x ++ r ∧ b = byteLen l ∧ e = byteLen l + byteLen x

/-- an error about a character reference -/
def BadNumber : Event → Err → Prop
  | .token (.text t), .invalidOrUnclosedEntity b e => ∃ a digits r, t.s = a ++ '&' :: '#' :: digits ++ ';' :: r ∧ ';' ∉ digits ∧
      (∀ t, ¬ RefMeans (fun _ => none) ('#' :: digits) t) ∧ b = e ∧ (b = byteLen a + 1 ∨ b = byteLen a + 2)
  | _, _ => False

/-- what an error of the kind `e` has to show: `x`, which is followed by `r`, after `l` -/
def Err.about (l x r : Str) : Err → Prop
  | .xml _ _ => False
  | .notAllowed t => x = t.shown.s
  | .undefinedNamespacePrefix p => x = p.s ∧ x ≠ []
  | .undefinedEntity name _ _ => x = name ∧ (∃ l', l = l' ++ ['&']) ∧ ∃ r', r = ';' :: r'
  | .invalidOrUnclosedEntity _ _ => x = ['&']

end Verif.Loc
