import Verif.Spec.Records
/-
Specification for C102: content whose child nodes may stand in any order.
-/
namespace Verif.AnyOrder
variable {D V : Type} (env : Env D V)

/-- content that does not prescribe an order: made of `interleave`, and repetition only of what is always one element; a `group` has
only attributes beside one such content -/
inductive Unordered : Pattern D V → Prop
  | empty : Unordered .empty
  | text : Unordered .text
  | notAllowed : Unordered .notAllowed
  | value {v} : Unordered (.datatypeValue v)
  | data {d} : Unordered (.datatypeName d)
  | dataExcept {d e} : Unordered (.datatypeNameExcept d e)
  | list {p} : Unordered (.list p)
  | attr {nc p} : Unordered (.attr nc p)
  | element {nc p} : Unordered (.element nc p)
  | choice {ps} : (∀ p ∈ ps, Unordered p) → Unordered (.choice ps)
  | interleave {ps} : (∀ p ∈ ps, Unordered p) → Unordered (.interleave ps)
  | mixed {p} : Unordered p → Unordered (.mixed p)
  | optional {p} : Unordered p → Unordered (.optional p)
  | zeroOrMore {p} : Records.Record env p → Unordered (.zeroOrMore p)
  | oneOrMore {p} : Records.Record env p → Unordered (.oneOrMore p)
  | group {as p bs} : (∀ q ∈ as, Mixed.Attributes env q) → Unordered p → (∀ q ∈ bs, Mixed.Attributes env q) → Unordered (.group (as ++ p :: bs))
  | ref {n p} : env[n]? = some p → Unordered p → Unordered (.ref n)

/-- in some elements `nm`, at any depth, the child nodes have been put in another order -/
inductive Permuted (nm : QName) : List Node → List Node → Prop
  | nil : Permuted nm [] []
  | same {n c c'} : Permuted nm c c' → Permuted nm (n :: c) (n :: c')
  | inside {m as k k' c c'} : Permuted nm k k' → Permuted nm c c' → Permuted nm (.elem m as k :: c) (.elem m as k' :: c')
  | here {as k k' k'' c c'} : Permuted nm k k' → k'.Perm k'' → Permuted nm c c' → Permuted nm (.elem nm as k :: c) (.elem nm as k'' :: c')

/-- wherever the schema describes an element `nm`, its content is unordered -/
def UnorderedIn (start : Pattern D V) (nm : QName) : Prop := ∀ nc q, ElemIn env start nc q → nc.Has nm.expanded → Unordered env q

end Verif.AnyOrder
