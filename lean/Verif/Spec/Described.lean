import Verif.Spec.Split
/-
Specification for C99: documents in which everything is described by the schema, at the place where it stands.
-/
namespace Verif.Described
variable {D V : Type}

section
variable (env : Env D V)

/-- `p` stands in `q`, not inside an attribute, a child element or a list -/
inductive At : Pattern D V → Pattern D V → Prop
  | here {p} : At p p
  | choice {q qs p} : q ∈ qs → At q p → At (.choice qs) p
  | group {q qs p} : q ∈ qs → At q p → At (.group qs) p
  | interleave {q qs p} : q ∈ qs → At q p → At (.interleave qs) p
  | mixed {q p} : At q p → At (.mixed q) p
  | optional {q p} : At q p → At (.optional q) p
  | zeroOrMore {q p} : At q p → At (.zeroOrMore q) p
  | oneOrMore {q p} : At q p → At (.oneOrMore q) p
  | ref {n q p} : env[n]? = some q → At q p → At (.ref n) p

/-- patterns for character data -/
inductive ForText : Pattern D V → Prop
  | text : ForText .text
  | mixed {p} : ForText (.mixed p)
  | value {v} : ForText (.datatypeValue v)
  | data {d} : ForText (.datatypeName d)
  | dataExcept {d e} : ForText (.datatypeNameExcept d e)
  | list {p} : ForText (.list p)

variable (L : Lib D V)

/-- in `q` there stands an `attribute` of this name which the value matches -/
def DescribedAttr (q : Pattern D V) (a : Attr) : Prop :=
  ∃ nc p, At env q (.attr nc p) ∧ nc.Has a.name.expanded ∧ Match L env (.attr nc p) [a] []

/-- for each of the elements among the nodes, there stands in `q` an `element` of its name which it matches, and whose content describes
its attributes and its child nodes likewise; and if there is character data other than white space, there stands in `q` a pattern for it -/
inductive DescribedNodes : Pattern D V → List Node → Prop
  | nil {q} : DescribedNodes q []
  | space {q s c} : WsText s → DescribedNodes q c → DescribedNodes q (.text s :: c)
  | text {q p s c} : At env q p → ForText p → DescribedNodes q c → DescribedNodes q (.text s :: c)
  | elem {q nc r nm as k c} : At env q (.element nc r) → nc.Has nm.expanded → Match L env (.element nc r) [] [.elem nm as k] →
      (∀ a ∈ as, DescribedAttr env L r a) → DescribedNodes r k → DescribedNodes q c → DescribedNodes q (.elem nm as k :: c)
end

/-- an element with this name, these attributes and these child nodes occurs among the nodes, at any depth -/
inductive ElementIn (nm : QName) (as : List Attr) (kids : List Node) : List Node → Prop
  | here {c} : ElementIn nm as kids (.elem nm as kids :: c)
  | inside {m bs k c} : ElementIn nm as kids k → ElementIn nm as kids (.elem m bs k :: c)
  | later {n c} : ElementIn nm as kids c → ElementIn nm as kids (n :: c)

end Verif.Described
