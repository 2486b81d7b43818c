import Verif.Spec.Split
/-
Specification for C98: content in which character data may stand anywhere.
-/
namespace Verif.Mixed
variable {D V : Type}

section
variable (env : Env D V)

/-- only attributes -/
inductive Attributes : Pattern D V → Prop
  | empty : Attributes .empty
  | notAllowed : Attributes .notAllowed
  | attr {nc p} : Attributes (.attr nc p)
  | choice {ps} : (∀ p ∈ ps, Attributes p) → Attributes (.choice ps)
  | group {ps} : (∀ p ∈ ps, Attributes p) → Attributes (.group ps)
  | interleave {ps} : (∀ p ∈ ps, Attributes p) → Attributes (.interleave ps)
  | optional {p} : Attributes p → Attributes (.optional p)
  | zeroOrMore {p} : Attributes p → Attributes (.zeroOrMore p)
  | oneOrMore {p} : Attributes p → Attributes (.oneOrMore p)
  | ref {n p} : env[n]? = some p → Attributes p → Attributes (.ref n)

/-- attributes and mixed content (`text` or `mixed { .. }`, in which nothing but text is asked for as character data) -/
inductive Mixes : Pattern D V → Prop
  | text : Mixes .text
  | mixed {p} : OnlyText env p → Mixes (.mixed p)
  | group {as p bs} : (∀ q ∈ as, Attributes env q) → Mixes p → (∀ q ∈ bs, Attributes env q) → Mixes (.group (as ++ p :: bs))
  | interleave {as p bs} : (∀ q ∈ as, Attributes env q) → Mixes p → (∀ q ∈ bs, Attributes env q) → Mixes (.interleave (as ++ p :: bs))
  | choice {ps} : (∀ p ∈ ps, Mixes p) → Mixes (.choice ps)
  | ref {n p} : env[n]? = some p → Mixes p → Mixes (.ref n)
end

/-- the elements among some nodes -/
def elems : List Node → List Node
  | [] => []
  | .text _ :: c => elems c
  | .elem nm as k :: c => .elem nm as k :: elems c

/-- in some elements `nm`, at any depth, character data has been added, removed or changed; the child elements are the same (or have been
edited in this way) -/
inductive Edited (nm : QName) : List Node → List Node → Prop
  | nil : Edited nm [] []
  | same {n c c'} : Edited nm c c' → Edited nm (n :: c) (n :: c')
  | inside {m as k k' c c'} : Edited nm k k' → Edited nm c c' → Edited nm (.elem m as k :: c) (.elem m as k' :: c')
  | here {as k k' k'' c c'} : Edited nm k k' → elems k'' = elems k' → Edited nm c c' → Edited nm (.elem nm as k :: c) (.elem nm as k'' :: c')

/-- wherever the schema describes an element `nm`, its content is mixed -/
def MixedIn (env : Env D V) (start : Pattern D V) (nm : QName) : Prop :=
  ∀ nc q, ElemIn env start nc q → nc.Has nm.expanded → Mixes env q

end Verif.Mixed
