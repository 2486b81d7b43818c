import Verif.Spec.Document
import Verif.Spec.WellFormed
/-
Specification for C77: schemas all of whose parts can be used, and documents with distinct attribute names.
-/
namespace Verif.Viable
open Verif
variable {D V : Type}

/-! ### documents -/

mutual
/-- no start tag has two attributes written with the same name -/
def Written : XNode → Prop
  | .elem _ _ atts _ kids => (atts.map fun a => (a.pre, a.loc)).Nodup ∧ WrittenL kids
  | .text _ => True
  | .cdata _ => True
  | .comment => True
  | .pi => True
def WrittenL : List XNode → Prop
  | [] => True
  | x :: xs => Written x ∧ WrittenL xs
end

mutual
/-- no element has two attributes with the same expanded name -/
def Distinct : Node → Prop
  | .elem _ as kids => (as.map fun a => a.name.expanded).Nodup ∧ DistinctL kids
  | .text _ => True
def DistinctL : List Node → Prop
  | [] => True
  | x :: xs => Distinct x ∧ DistinctL xs
end

/-- an element or attribute name that can be written with a prefix: no empty namespace name (only none at all), and no
reference-like characters in it -/
def NameOK (n : QName) : Prop := ∀ u, n.ns = some u → u ≠ [] ∧ '&' ∉ u

mutual
/-- a node that can be written down: text is not empty and not next to other text; attributes are distinct, none looks like
a namespace declaration, and none needs a reference in its value -/
def Proper : Node → Prop
  | .text s => s ≠ []
  | .elem nm as kids => NameOK nm ∧ (∀ a ∈ as, NameOK a.name ∧ a.name ≠ ⟨none, xmlnsStr⟩ ∧ '&' ∉ a.value) ∧
      (as.map fun a => a.name.expanded).Nodup ∧ ProperL kids
def ProperL : List Node → Prop
  | [] => True
  | x :: xs => Proper x ∧ ProperL xs ∧ (∀ s, x = .text s → ∀ t rest, xs ≠ .text t :: rest)
end

/-! ### schemas -/

/-- patterns for a whole string -/
def IsString : Pattern D V → Prop
  | .datatypeValue _ => True
  | .datatypeName _ => True
  | .datatypeNameExcept _ _ => True
  | .list _ => True
  | _ => False

section
variable (L : Lib D V) (env : Env D V)

/-- `notAllowed`, or a name for it (an extension point not in use) -/
inductive Void : Pattern D V → Prop
  | notAllowed : Void .notAllowed
  | ref {n p} : env[n]? = some p → Void p → Void (.ref n)

/-- an attribute or a choice of attributes -/
inductive AttsOnly : Pattern D V → Prop
  | attr {nc p} : AttsOnly (.attr nc p)
  | choice {ps} : (∀ p ∈ ps, AttsOnly p) → AttsOnly (.choice ps)
  | ref {n p} : env[n]? = some p → AttsOnly p → AttsOnly (.ref n)

/-- Every part of the pattern can be used, down to (not into) its elements.  `a`: attributes may occur here; the number is the
kind of content allowed here: 0 none, 1 elements and text, 2 also strings (`data`, `value`, `list`), which RELAX NG 7.2 does not
allow next to other content.  Repeated attributes occur under `zeroOrMore` only. -/
inductive Usable (Q : NameClass → Pattern D V → Prop) : Bool → Nat → Pattern D V → Prop
  | empty {a t} : Usable Q a t .empty
  | text {a t} : 1 ≤ t → Usable Q a t .text
  /-- the choices of `ps` other than those in `us` are not in use; there are some in use -/
  | choice {a t} {ps us : List (Pattern D V)} : (∀ p ∈ ps, p ∈ us ∨ Void env p) → (∃ p ∈ ps, p ∈ us) → (∀ p ∈ us, Usable Q a t p) → Usable Q a t (.choice ps)
  | group {a t ps} : (∀ p ∈ ps, Usable Q a (min t 1) p) → Usable Q a t (.group ps)
  | interleave {a t ps} : (∀ p ∈ ps, Usable Q a (min t 1) p) → Usable Q a t (.interleave ps)
  | groupString {a xs p ys} : Usable Q a 2 p → (∀ q ∈ xs, Usable Q a 0 q) → (∀ q ∈ ys, Usable Q a 0 q) → Usable Q a 2 (.group (xs ++ p :: ys))
  | interleaveString {a xs p ys} : Usable Q a 2 p → (∀ q ∈ xs, Usable Q a 0 q) → (∀ q ∈ ys, Usable Q a 0 q) →
      Usable Q a 2 (.interleave (xs ++ p :: ys))
  | mixed {a t p} : 1 ≤ t → Usable Q a 1 p → Usable Q a t (.mixed p)
  | optional {a t p} : Usable Q a t p → Usable Q a t (.optional p)
  | zeroOrMore {a t p} : Usable Q false (min t 1) p → Usable Q a t (.zeroOrMore p)
  | zeroOrMoreAtts {a t p} : AttsOnly env p → Usable Q a t (.zeroOrMore p)
  | oneOrMore {a t p} : Usable Q false (min t 1) p → Usable Q a t (.oneOrMore p)
  | attr {t nc p} : Usable Q true t (.attr nc p)
  | element {a t nc p} : 1 ≤ t → Q nc p → Usable Q a t (.element nc p)
  | ref {a t n p} : env[n]? = some p → Usable Q a t p → Usable Q a t (.ref n)
  | string {a p s} : IsString p → s ≠ [] → Match L env p [] [.text s] → Usable Q a 2 p

/-- Every part of the schema can be used: each element pattern in it matches some element. -/
def SchemaUsable (start : Pattern D V) : Prop :=
  ∃ Q : NameClass → Pattern D V → Prop,
    (∀ nc p, Q nc p → Usable L env Q true 2 p ∧ ∃ x, Proper x ∧ Match L env (.element nc p) [] [x]) ∧ Usable L env Q false 1 start

end
end Verif.Viable
