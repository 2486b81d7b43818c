import Verif.Spec.Mixed
/-
Specification for C101: documents that are lists of records.
-/
namespace Verif.Records
variable {D V : Type} (env : Env D V)

/-- always exactly one element: one of several kinds of records -/
inductive Record : Pattern D V → Prop
  | element {nc q} : Record (.element nc q)
  | choice {ps} : (∀ p ∈ ps, Record p) → Record (.choice ps)
  | ref {n p} : env[n]? = some p → Record p → Record (.ref n)

/-- any number of records -/
inductive Repeated : Pattern D V → Prop
  | zeroOrMore {p} : Record env p → Repeated (.zeroOrMore p)
  | ref {n p} : env[n]? = some p → Repeated p → Repeated (.ref n)

/-- attributes and any number of records -/
inductive Listing : Pattern D V → Prop
  | records {p} : Repeated env p → Listing p
  | group {as p} : (∀ q ∈ as, Mixed.Attributes env q) → Repeated env p → Listing (.group (as ++ [p]))
  | ref {n p} : env[n]? = some p → Listing p → Listing (.ref n)

/-- an element whose content is attributes and any number of records -/
inductive Root : Pattern D V → Prop
  | element {nc q} : Listing env q → Root (.element nc q)
  | ref {n p} : env[n]? = some p → Root p → Root (.ref n)

end Verif.Records
