import Verif.Spec.Split
/-
Specification for C103: content that may be anything.
-/
namespace Verif.Wild
variable {D V : Type} (env : Env D V)

/-- the definition `n` is the usual one for "anything": `anything = (element * { anything } | attribute * { text } | text)*`, with the
alternatives in any order, and perhaps more of them -/
def Anything (n : Nat) : Prop := ∃ ps : List (Pattern D V), env[n]? = some (.zeroOrMore (.choice ps)) ∧
  .element .anyName (.ref n) ∈ ps ∧ .attr .anyName .text ∈ ps ∧ .text ∈ ps

/-- in some elements `nm`, at any depth, the attributes and the content have been replaced by others -/
inductive Changed (nm : QName) : List Node → List Node → Prop
  | nil : Changed nm [] []
  | same {n c c'} : Changed nm c c' → Changed nm (n :: c) (n :: c')
  | inside {m as k k' c c'} : Changed nm k k' → Changed nm c c' → Changed nm (.elem m as k :: c) (.elem m as k' :: c')
  | here {as as' k k' c c'} : Changed nm c c' → Changed nm (.elem nm as k :: c) (.elem nm as' k' :: c')

/-- wherever the schema describes an element `nm`, anything may be in it -/
def AnythingIn (start : Pattern D V) (nm : QName) : Prop :=
  ∀ nc q, ElemIn env start nc q → nc.Has nm.expanded → ∃ n, q = .ref n ∧ Anything env n

end Verif.Wild
