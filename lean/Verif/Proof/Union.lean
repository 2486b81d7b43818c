import Verif.Spec.Split
import Verif.Spec.Seen
/-
Schemas put together as alternatives.
-/
namespace Verif.Union
variable {D V : Type} {L : Lib D V} {env : Env D V}

theorem wf_mono {Q R : Pattern D V → Prop} {c s l p} (hQ : ∀ p, Q p → R p) (h : WF L env Q c s l p) : WF L env R c s l p := by
  induction h with
  | empty => exact .empty
  | text => exact .text
  | notAllowed => exact .notAllowed
  | choice h1 _ ih => exact .choice h1 ih
  | group h1 _ ih => exact .group h1 ih
  | interleave h1 _ h3 ih => exact .interleave h1 ih h3
  | mixed _ h2 ih => exact .mixed ih h2
  | optional _ ih => exact .optional ih
  | zeroOrMore _ h ih => exact .zeroOrMore ih h
  | oneOrMore _ h ih => exact .oneOrMore ih h
  | attr _ ih => exact .attr ih
  | element h => exact .element (hQ _ h)
  | ref h1 _ h ih => exact .ref h1 ih h
  | value => exact .value
  | data => exact .data
  | dataExcept h => exact .dataExcept h
  | list _ ih => exact .list ih

theorem schemaOK {ps : List (Pattern D V)} {c : Bool} (hne : ps ≠ []) (h : ∀ p ∈ ps, SchemaOK L env p c) : SchemaOK L env (.choice ps) c := by
  refine ⟨fun q => ∃ Q : Pattern D V → Prop, (∀ p, Q p → WF L env Q c false true p) ∧ Q q, ?_, .choice hne fun p hp => ?_⟩
  · rintro q ⟨Q, hQ, hq⟩
    exact wf_mono (fun _ hp => ⟨Q, hQ, hp⟩) (hQ q hq)
  · obtain ⟨Q, hQ, hw⟩ := h p hp
    exact wf_mono (fun _ hp => ⟨Q, hQ, hp⟩) hw

theorem breaks {ps : List (Pattern D V)} {d : XDoc} (h : ∀ p ∈ ps, d.SeenBreaksOnlyText env p) : d.SeenBreaksOnlyText env (.choice ps) := by
  intro nm nc q hb he hn
  cases he with
  | choice hp he => exact h _ hp nm nc q hb he hn

end Verif.Union
