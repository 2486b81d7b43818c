import Verif.Props.Example
/-
C01, C02, C03: the validator's verdict is the schema's.
-/
namespace Verif
variable {D V : Type} [DecidableEq D] [DecidableEq V] {L : Lib D V} {env : Env D V}
  {start : Pattern D V} {fuel n : Nat} {s0 : VState D V} {d : XDoc} {node : Node}

/-- C01.  A document the validator reads to its end without an error matches the schema. -/
theorem C01_accepted_documents_match {s' : VState D V}
    (hs : SchemaOK L env start false) (h0 : StartOK env start) (ht : d.Tame) (hm : d.Means node)
    (hnew : newValidator env fuel start = .ok s0) (hrun : runToks L n d.toks s0 = .ok (.ok (), s')) :
    Match L env start [] [node] := by
  obtain ⟨hc, hl, hst, he⟩ := newValidator_ok hnew
  have hf := doc_follows (L := L) (n := n) hm ht hl (newValidator_valid hs hnew) hst he
  obtain ⟨nm, as, kids, rfl⟩ := hm.elem
  cases h : runR L n s0.cur (Node.elem nm as kids).events s0.store with
  | error e => rw [h] at hf; rw [hf] at hrun; cases hrun
  | ok r =>
    obtain ⟨o, st'⟩ := r
    cases o with
    | none => rw [h] at hf; obtain ⟨err, s', hf⟩ := hf; rw [hf] at hrun; cases hrun
    | some c => exact tree_sound hs h0 hc (hm.noAdj ht) h

example : Match Ex.lib Ex.env Ex.start [] [Ex.node] := by
  obtain ⟨s, h⟩ := Ex.accepted
  exact C01_accepted_documents_match Ex.schemaOK.relax Ex.startOK Ex.tame
    Ex.means Ex.new_ok h

/-- C02.  A document that matches the schema is read without an error. -/
theorem C02_matching_documents_accepted {s' : VState D V} {r : Except VErr Unit}
    (hs : SchemaOK L env start true) (h0 : StartOK env start) (ht : d.Tame) (hm : d.Means node)
    (hnew : newValidator env fuel start = .ok s0) (hrun : runToks L n d.toks s0 = .ok (r, s'))
    (hmatch : Match L env start [] [node]) : r = .ok () := by
  obtain ⟨hc, hl, hst, he⟩ := newValidator_ok hnew
  have hf := doc_follows (L := L) (n := n) hm ht hl (newValidator_valid hs hnew) hst he
  obtain ⟨nm, as, kids, rfl⟩ := hm.elem
  cases h : runR L n s0.cur (Node.elem nm as kids).events s0.store with
  | error e => rw [h] at hf; rw [hf] at hrun; cases hrun
  | ok x =>
    obtain ⟨o, st'⟩ := x
    obtain ⟨c, rfl⟩ := tree_complete hs h0 hc (hm.noAdj ht) h hmatch
    rw [h] at hf
    obtain ⟨s'', hf, _⟩ := hf
    rw [hf] at hrun
    cases hrun
    rfl

example : ∃ s, runToks Ex.lib 50 Ex.doc.toks Ex.v0 = .ok (.ok (), s) ∧ Match Ex.lib Ex.env Ex.start [] [Ex.node] := by
  obtain ⟨s, h⟩ := Ex.accepted
  exact ⟨s, h, C01_accepted_documents_match Ex.schemaOK.relax Ex.startOK
    Ex.tame Ex.means Ex.new_ok h⟩

/-- C03.  If the validator reports an error after some of a document's tokens, then no document
continuing with any other tokens matches: whatever tokens `ts` have been read and however the
document `d` goes on after them. -/
theorem C03_rejection_is_final {s' : VState D V} {e : VErr} {ts more : List Token}
    (hs : SchemaOK L env start true) (h0 : StartOK env start)
    (hnew : newValidator env fuel start = .ok s0) (hrun : runToks L n ts s0 = .ok (.error e, s'))
    (hd : d.toks = ts ++ more) (ht : d.Tame) (hm : d.Means node) : ¬ Match L env start [] [node] := by
  intro hmatch
  have hall : runToks L n d.toks s0 = .ok (.error e, s') := by
    rw [hd, runToks_append, hrun]
  have := C02_matching_documents_accepted hs h0 ht hm hnew hall hmatch
  cases this

/-- the example document with the second item replaced by a `p:doc`: rejected at its start tag -/
def Ex.badDoc : XDoc := { Ex.doc with
  kids := [Ex.item true [], .elem ['p'] ['d', 'o', 'c'] [] true []] }

def Ex.badNode : Node :=
  .elem ⟨some ['u'], ['d', 'o', 'c']⟩ [⟨⟨none, ['i', 'd']⟩, ['7']⟩]
    [Ex.itemNode [], .elem ⟨some ['u'], ['d', 'o', 'c']⟩ [] []]

theorem Ex.badRejected : ∃ e s, runToks Ex.lib 50 (Ex.badDoc.toks.take 14) Ex.v0 = .ok (.error e, s) := by
  have : (match runToks Ex.lib 50 (Ex.badDoc.toks.take 14) Ex.v0 with
    | .ok (.error _, _) => true | _ => false) = true := by decide +kernel
  split at this
  · rename_i h; exact ⟨_, _, h⟩
  · cases this

example : ¬ Match Ex.lib Ex.env Ex.start [] [Ex.badNode] := by
  obtain ⟨e, s, h⟩ := Ex.badRejected
  refine C03_rejection_is_final (more := Ex.badDoc.toks.drop 14) (d := Ex.badDoc) Ex.schemaOK Ex.startOK
    Ex.new_ok h (List.take_append_drop 14 _).symm ?_ ?_
  · refine ⟨⟨by decide, by decide, by decide, ?_, ?_⟩, by decide⟩
    · simp [XDoc.root, Ex.badDoc, Ex.doc, allTextsL, XNode.allTexts, Ex.item]
    · simp [XDoc.root, Ex.badDoc, Ex.doc, unsplitL, Ex.item]
  · refine Resolves.elem (kns := [Ex.itemNode [], .elem ⟨some ['u'], ['d', 'o', 'c']⟩ [] []])
      (by decide) (.cons (by simp [attrName]) (Ex.plainDec (by decide)) .nil) ?_ (by simp [Ex.badDoc, Ex.doc]) .nil
    have hs : (nsDecls Ex.badDoc.atts ++ [("xml".toList, xmlUri)]).lookup ['p'] = some ['u'] := by decide
    refine Ex.itemMeans hs .nil rfl (by simp) ?_
    exact Resolves.elem (kns := []) (by decide) .nil .nil (by simp) .nil

end Verif
