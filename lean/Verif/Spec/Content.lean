import Verif.Spec.WellFormed
/-
Specification for C21: which attributes a pattern offers and which it insists on.
-/
namespace Verif
variable {D V : Type} (L : Lib D V) (env : Env D V)

/-- the attribute pattern `attribute nc { q }` occurs in `p` outside its child elements -/
inductive Offers : Pattern D V → NameClass → Pattern D V → Prop
  | attr {nc q} : Offers (.attr nc q) nc q
  | choice {p ps nc q} : p ∈ ps → Offers p nc q → Offers (.choice ps) nc q
  | group {p ps nc q} : p ∈ ps → Offers p nc q → Offers (.group ps) nc q
  | interleave {p ps nc q} : p ∈ ps → Offers p nc q → Offers (.interleave ps) nc q
  | mixed {p nc q} : Offers p nc q → Offers (.mixed p) nc q
  | optional {p nc q} : Offers p nc q → Offers (.optional p) nc q
  | zeroOrMore {p nc q} : Offers p nc q → Offers (.zeroOrMore p) nc q
  | oneOrMore {p nc q} : Offers p nc q → Offers (.oneOrMore p) nc q
  | ref {n p nc q} : env[n]? = some p → Offers p nc q → Offers (.ref n) nc q

/-- an attribute with a name in `X` is required by `p`: no way to choose alternatives avoids it -/
inductive Requires (X : NameClass → Prop) : Pattern D V → Prop
  | attr {nc q} : X nc → Requires X (.attr nc q)
  | choice {ps} : (∀ p ∈ ps, Requires X p) → Requires X (.choice ps)
  | group {p ps} : p ∈ ps → Requires X p → Requires X (.group ps)
  | interleave {p ps} : p ∈ ps → Requires X p → Requires X (.interleave ps)
  | mixed {p} : Requires X p → Requires X (.mixed p)
  | oneOrMore {p} : Requires X p → Requires X (.oneOrMore p)
  | ref {n p} : env[n]? = some p → Requires X p → Requires X (.ref n)

/-- the attribute `x` satisfies `attribute nc { q }` -/
def Attr.Fits (x : Attr) (nc : NameClass) (q : Pattern D V) : Prop :=
  nc.Has x.name.expanded ∧ ∃ c, Weak [.text x.value] c ∧ Match L env q [] c

/-- `xs` satisfy the listed attribute patterns one by one -/
inductive FitsAll : List Attr → List (NameClass × Pattern D V) → Prop
  | nil : FitsAll [] []
  | cons {x xs nc q ps} : x.Fits L env nc q → FitsAll xs ps → FitsAll (x :: xs) ((nc, q) :: ps)

end Verif
