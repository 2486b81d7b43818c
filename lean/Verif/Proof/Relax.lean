import Verif.Spec.WellFormed
namespace Verif

/-- what only completeness needs can be dropped -/
theorem WF.relax {D V : Type} {L : Lib D V} {env : Env D V} {Q c s l p} (h : WF L env Q c s l p) :
    WF L env Q false s l p := by
  induction h with
  | empty => exact .empty
  | text => exact .text
  | notAllowed => exact .notAllowed
  | choice h1 _ ih => exact .choice h1 ih
  | group h1 _ ih => exact .group h1 ih
  | interleave h1 _ h3 ih => exact .interleave h1 ih h3
  | mixed _ h2 ih => exact .mixed ih h2
  | optional _ ih => exact .optional ih
  | zeroOrMore _ _ ih => exact .zeroOrMore ih (by simp)
  | oneOrMore _ _ ih => exact .oneOrMore ih (by simp)
  | attr _ ih => exact .attr ih
  | element h => exact .element h
  | ref h1 _ _ ih => exact .ref h1 ih (by simp)
  | value => exact .value
  | data => exact .data
  | dataExcept h => exact .dataExcept h
  | list _ ih => exact .list ih

theorem SchemaOK.relax {D V : Type} {L : Lib D V} {env : Env D V} {start : Pattern D V} {c : Bool}
    (h : SchemaOK L env start c) : SchemaOK L env start false := by
  obtain ⟨Q, hQ, hw⟩ := h
  exact ⟨Q, fun p hp => (hQ p hp).relax, hw.relax⟩

end Verif
