import Verif.Model.Validate
/-
Specification: the states a caller of the API can get a validator into.
-/
namespace Verif
variable {D V : Type} [DecidableEq D] [DecidableEq V]

/-- `s` is reached by building a validator for some schema and feeding it some items, going on after
any errors. -/
def Reach (L : Lib D V) (s : VState D V) : Prop :=
  ∃ env start fuel s0 n es rs, newValidator env fuel start = .ok s0 ∧ runEvents L n es s0 = .ok (rs, s)

end Verif
