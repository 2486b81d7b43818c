import Verif.Proof.LiveTop
/-
C77: the validator accepts a tag exactly when the document read so far can still become a valid one.
-/
namespace Verif
open Viable
variable {D V : Type} [DecidableEq D] [DecidableEq V] {L : Lib D V} {env : Env D V}
  {start : Pattern D V} {fuel n : Nat} {s0 : VState D V} {d : XDoc} {node : Node}

/-- C77.  Let every part of the schema be usable (`SchemaUsable`).  If the validator has read the beginning of a document, up to
and including a tag, without an error, then there is a document beginning with the same tokens which matches the schema.  If the
given document has no start tag with two attributes of the same name, neither has the other one. -/
theorem C77_accepted_beginnings_can_be_completed {s' : VState D V} {ts rest : List Token} {e : ElementEnd}
    (hs : SchemaOK L env start false) (h0 : StartOK env start) (hu : SchemaUsable L env start)
    (ht : d.Tame) (hm : d.Means node) (hts : d.toks = ts ++ [.elementEnd e] ++ rest)
    (hnew : newValidator env fuel start = .ok s0) (hrun : runToks L n (ts ++ [.elementEnd e]) s0 = .ok (.ok (), s')) :
    ∃ (d' : XDoc) (node' : Node) (more : List Token), d'.toks = ts ++ [.elementEnd e] ++ more ∧ d'.Tame ∧ d'.Means node' ∧
      Match L env start [] [node'] ∧ (Written d.root → Written d'.root) ∧ (Distinct node → Distinct node') :=
  beginning_viable hs h0 hu ht hm hts hnew hrun

/-- C77, with C03: at a tag, the validator reports an error exactly if no document beginning with what has been read matches
the schema.  So the first error is reported at the first tag after which nothing can make the document valid. -/
theorem C77_error_iff_not_completable {s' : VState D V} {ts rest : List Token} {e : ElementEnd} {r : Except VErr Unit}
    (hs : SchemaOK L env start true) (h0 : StartOK env start) (hu : SchemaUsable L env start)
    (ht : d.Tame) (hm : d.Means node) (hts : d.toks = ts ++ [.elementEnd e] ++ rest)
    (hnew : newValidator env fuel start = .ok s0) (hrun : runToks L n (ts ++ [.elementEnd e]) s0 = .ok (r, s')) :
    r = .ok () ↔ ∃ (d' : XDoc) (node' : Node) (more : List Token), d'.toks = ts ++ [.elementEnd e] ++ more ∧ d'.Tame ∧ d'.Means node' ∧
      Match L env start [] [node'] := by
  constructor
  · rintro rfl
    obtain ⟨d', node', more, h1, h2, h3, h4, _⟩ := C77_accepted_beginnings_can_be_completed hs.relax h0 hu ht hm hts hnew hrun
    exact ⟨d', node', more, h1, h2, h3, h4⟩
  · rintro ⟨d', node', more, h1, h2, h3, h4⟩
    cases r with
    | ok => rfl
    | error er => exact absurd h4 (C03_rejection_is_final hs h0 hnew hrun h1 h2 h3)

end Verif
