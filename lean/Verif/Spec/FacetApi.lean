import Verif.Spec.Facets
import Verif.Model.FacetApi
/-
Specification of what the accessors of facets report (C75).
-/
namespace Verif

/-- the numbers that the lower bounds among the parameters allow -/
def AboveAll {T : Type} [LE T] [LT T] (Val : Str → T → Prop) (ps : List Param) (w : T) : Prop := ∀ p ∈ ps, p.isLower = true → p.Range Val w

/-- the numbers that the upper bounds among the parameters allow -/
def BelowAll {T : Type} [LE T] [LT T] (Val : Str → T → Prop) (ps : List Param) (w : T) : Prop := ∀ p ∈ ps, p.isUpper = true → p.Range Val w

/-- the last `pattern` among the parameters -/
def LastPattern (ps : List Param) (src : Str) : Prop :=
  ∃ a p b, ps = a ++ p :: b ∧ p.name = "pattern".toList ∧ p.value = src ∧ ∀ q ∈ b, q.name ≠ "pattern".toList

/-- the parameter says how short a text may be -/
def Param.saysMin (p : Param) : Prop := p.name = "minLength".toList ∨ p.name = "length".toList
/-- the parameter says how long a text may be -/
def Param.saysMax (p : Param) : Prop := p.name = "maxLength".toList ∨ p.name = "length".toList

end Verif
