import Verif.Spec.Described
/-
Specification for C100: what a schema requires.
-/
namespace Verif.Required
variable {D V : Type}

/-- whatever matches the pattern has to match one of the patterns `t` in it -/
inductive Demands (env : Env D V) (t : Pattern D V → Prop) : Pattern D V → Prop
  | here {p} : t p → Demands env t p
  | notAllowed : Demands env t .notAllowed
  | choice {ps} : (∀ p ∈ ps, Demands env t p) → Demands env t (.choice ps)
  | group {p ps} : p ∈ ps → Demands env t p → Demands env t (.group ps)
  | interleave {p ps} : p ∈ ps → Demands env t p → Demands env t (.interleave ps)
  | mixed {p} : Demands env t p → Demands env t (.mixed p)
  | oneOrMore {p} : Demands env t p → Demands env t (.oneOrMore p)
  | ref {n p} : env[n]? = some p → Demands env t p → Demands env t (.ref n)

/-- an `attribute` whose name is one of `N` -/
def AttributeOf (N : Str × Str → Prop) (p : Pattern D V) : Prop := ∃ nc q, p = .attr nc q ∧ ∀ x, nc.Has x → N x
/-- an `element` whose name is one of `N` -/
def ElementOf (N : Str × Str → Prop) (p : Pattern D V) : Prop := ∃ nc q, p = .element nc q ∧ ∀ x, nc.Has x → N x

end Verif.Required
