import Verif.Proof.Prefix
import Verif.Props.Opaque
/-
C96: the choice of prefixes.  Replacing the prefixes in a document one-to-one changes no verdict.
-/
namespace Verif
open Prefix
section
variable {D V : Type} {L : Lib D V} {env : Env D V} {start : Pattern D V} {d : XDoc} (π : Change)

/-- C96.  The document with other prefixes is read as the same. -/
theorem C96_read_the_same {node : Node} : (doc π d).Seen node ↔ d.Seen node :=
  ⟨fun h => by have h' := seen_doc (π := π.inv) h; rwa [doc_back] at h', seen_doc⟩

variable [DecidableEq D] [DecidableEq V] {fuel fuel' n n' : Nat} {s0 t0 s' t' : VState D V} {r r' : Except VErr Unit}

/-- C96.  It is accepted if and only if the document is. -/
theorem C96_same_verdict (hs : SchemaOK L env start true) (h0 : StartOK env start) (hg : d.Proper) (hb : d.SeenBreaksOnlyText env start)
    (hnew : newValidator env fuel start = .ok s0) (hrun : runToks L n d.toks s0 = .ok (r, s'))
    (hrun' : runToks L n' (doc π d).toks s0 = .ok (r', t')) : r = .ok () ↔ r' = .ok () := by
  rw [C83_accepted_iff hs h0 hg hb hnew hrun, C83_accepted_iff hs h0 (proper_doc hg) (breaks_ren hb) hnew hrun']
  simp only [C96_read_the_same]
end

/-! ### a case -/
namespace PrefixEx
open OpaqueEx (exchange exchange_exchange)

/-- the prefixes `p` and `ns1` exchanged -/
def π : Change where
  to := exchange ['p'] "ns1".toList
  back := exchange ['p'] "ns1".toList
  to_back := exchange_exchange _ _
  back_to := exchange_exchange _ _
  none := by decide
  xmlns := by decide

/-- the document of Props/Example now begins `<ns1:doc id="7" xmlns:ns1="u">` -/
theorem C96_case : (doc π Ex.doc).pre = "ns1".toList ∧
    (doc π Ex.doc).atts = [⟨[], "id".toList, ['7']⟩, ⟨"xmlns".toList, "ns1".toList, ['u']⟩] := ⟨rfl, rfl⟩

/-- and is accepted -/
theorem C96_case_accepted {m : Nat} {t' : VState Unit Str} {r : Except VErr Unit}
    (hrun : runToks Ex.lib m (doc π Ex.doc).toks Ex.v0 = .ok (r, t')) : r = .ok () := by
  obtain ⟨s, h⟩ := Ex.accepted
  exact (C96_same_verdict π Ex.schemaOK Ex.startOK (by simp [XDoc.Proper, XDoc.root, Ex.doc, Ex.item, properL, XNode.proper])
    (Check.whole_breaks (by decide)) Ex.new_ok h hrun).1 rfl

end PrefixEx
end Verif
