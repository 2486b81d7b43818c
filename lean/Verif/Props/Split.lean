import Verif.Proof.SplitDoc
import Verif.Props.Validation
/-
C82: comments, processing instructions and CDATA sections inside character data make no difference where the schema asks for
nothing but text there.
-/
namespace Verif
section
variable {D V : Type} [DecidableEq D] [DecidableEq V] {L : Lib D V} {env : Env D V}
  {start : Pattern D V} {fuel n : Nat} {s0 : VState D V} {d : XDoc} {node : Node}

theorem XDoc.BreaksOnlyText.onlyIn (h : d.BreaksOnlyText env start) : Split.OnlyIn env d.Broken start :=
  fun nc q hq nm hn hb => h nm nc q hb hq hn

/-- C82.  A document the validator reads to its end without an error matches the schema, even if its character data is broken. -/
theorem C82_accepted_documents_match {s' : VState D V} (hs : SchemaOK L env start false) (h0 : StartOK env start)
    (ht : d.MostlyTame) (hb : d.BreaksOnlyText env start) (hm : d.Means node)
    (hnew : newValidator env fuel start = .ok s0) (hrun : runToks L n d.toks s0 = .ok (.ok (), s')) :
    Match L env start [] [node] := by
  obtain ⟨hc, hl, hst, he⟩ := newValidator_ok hnew
  obtain ⟨nm, as, kids, rfl⟩ := hm.elem
  obtain ⟨k, b, hp, h1, h2⟩ := Split.root_pieces hm
  have hf := doc_follows' (L := L) (n := n) hp ht hl (newValidator_valid hs hnew) hst he
  cases h : runR L n s0.cur (Node.elem nm as k).events s0.store with
  | error e => rw [h] at hf; rw [hf] at hrun; cases hrun
  | ok r =>
    obtain ⟨o, st'⟩ := r
    cases o with
    | none => rw [h] at hf; obtain ⟨err, s', hf⟩ := hf; rw [hf] at hrun; cases hrun
    | some c => exact Split.sound hs h0 hb.onlyIn hc h1 h2 h

/-- C82.  A document that matches the schema is read without an error, even if its character data is broken. -/
theorem C82_matching_documents_accepted {s' : VState D V} {r : Except VErr Unit} (hs : SchemaOK L env start true)
    (h0 : StartOK env start) (ht : d.MostlyTame) (hb : d.BreaksOnlyText env start) (hm : d.Means node)
    (hnew : newValidator env fuel start = .ok s0) (hrun : runToks L n d.toks s0 = .ok (r, s'))
    (hmatch : Match L env start [] [node]) : r = .ok () := by
  obtain ⟨hc, hl, hst, he⟩ := newValidator_ok hnew
  obtain ⟨nm, as, kids, rfl⟩ := hm.elem
  obtain ⟨k, b, hp, h1, h2⟩ := Split.root_pieces hm
  have hf := doc_follows' (L := L) (n := n) hp ht hl (newValidator_valid hs.relax hnew) hst he
  cases h : runR L n s0.cur (Node.elem nm as k).events s0.store with
  | error e => rw [h] at hf; rw [hf] at hrun; cases hrun
  | ok x =>
    obtain ⟨o, st'⟩ := x
    obtain ⟨c, rfl⟩ := Split.complete hs h0 hb.onlyIn hc h1 h2 h hmatch
    rw [h] at hf
    obtain ⟨s'', hf, _⟩ := hf
    rw [hf] at hrun
    cases hrun
    rfl

/-- C82.  If the validator reports an error after some of a document's tokens, the document does not match, however it goes on. -/
theorem C82_rejection_is_final {s' : VState D V} {e : VErr} {ts more : List Token} (hs : SchemaOK L env start true)
    (h0 : StartOK env start) (hnew : newValidator env fuel start = .ok s0) (hrun : runToks L n ts s0 = .ok (.error e, s'))
    (hd : d.toks = ts ++ more) (ht : d.MostlyTame) (hb : d.BreaksOnlyText env start) (hm : d.Means node) :
    ¬ Match L env start [] [node] := by
  intro hmatch
  have hall : runToks L n d.toks s0 = .ok (.error e, s') := by rw [hd, runToks_append, hrun]
  have := C82_matching_documents_accepted hs h0 ht hb hm hnew hall hmatch
  cases this

/-- C82.  Of two documents that mean the same — one may have comments, processing instructions and CDATA sections in its character
data where the other has none — one is accepted exactly when the other is. -/
theorem C82_breaks_make_no_difference {d' : XDoc} {s1 s2 : VState D V} {r1 r2 : Except VErr Unit} (hs : SchemaOK L env start true)
    (h0 : StartOK env start) (ht : d.MostlyTame) (hb : d.BreaksOnlyText env start) (hm : d.Means node)
    (ht' : d'.MostlyTame) (hb' : d'.BreaksOnlyText env start) (hm' : d'.Means node) (hnew : newValidator env fuel start = .ok s0)
    (hrun : runToks L n d.toks s0 = .ok (r1, s1)) (hrun' : runToks L n d'.toks s0 = .ok (r2, s2)) : r1 = .ok () ↔ r2 = .ok () := by
  constructor
  · rintro rfl
    exact C82_matching_documents_accepted hs h0 ht' hb' hm' hnew hrun' (C82_accepted_documents_match hs.relax h0 ht hb hm hnew hrun)
  · rintro rfl
    exact C82_matching_documents_accepted hs h0 ht hb hm hnew hrun (C82_accepted_documents_match hs.relax h0 ht' hb' hm' hnew hrun')

/-! ### documents without breaks -/

mutual
theorem unsplit_not_broken : ∀ (x : XNode) {scope nm}, x.unsplit → ¬ BrokenIn scope [x] nm
  | .text _, _, _, _, h => by cases h with | later h => cases h
  | .cdata _, _, _, _, h => by cases h with | later h => cases h
  | .comment, _, _, _, h => by cases h with | later h => cases h
  | .pi, _, _, _, h => by cases h with | later h => cases h
  | .elem _ _ _ _ kids, _, _, hu, h => by
    simp only [XNode.unsplit] at hu
    cases h with
    | later h => cases h
    | here _ h => exact unsplitL_not_brokenText kids hu h
    | inside h => exact unsplitL_not_broken kids hu h
theorem unsplitL_not_broken : ∀ (xs : List XNode) {prev scope nm}, unsplitL prev xs → ¬ BrokenIn scope xs nm
  | [], _, _, _, _, h => by cases h
  | .text _ :: xs, _, _, _, hu, h => by
    simp only [unsplitL] at hu
    cases h with | later h => exact unsplitL_not_broken xs hu.2 h
  | .cdata _ :: xs, _, _, _, hu, h => by
    simp only [unsplitL] at hu
    cases h with | later h => exact unsplitL_not_broken xs hu.2 h
  | .comment :: xs, _, _, _, hu, h => by
    simp only [unsplitL] at hu
    cases h with | later h => exact unsplitL_not_broken xs hu h
  | .pi :: xs, _, _, _, hu, h => by
    simp only [unsplitL] at hu
    cases h with | later h => exact unsplitL_not_broken xs hu h
  | .elem _ _ _ _ kids :: xs, _, _, _, hu, h => by
    simp only [unsplitL] at hu
    cases h with
    | later h => exact unsplitL_not_broken xs hu.2 h
    | here _ h => exact unsplitL_not_brokenText kids hu.1 h
    | inside h => exact unsplitL_not_broken kids hu.1 h
theorem unsplitL_not_brokenText : ∀ (xs : List XNode) {prev}, unsplitL prev xs → ¬ brokenText prev xs
  | [], _, _, h => by simp [brokenText] at h
  | .text _ :: xs, _, hu, h => by
    simp only [unsplitL] at hu; simp only [brokenText, hu.1, Bool.false_eq_true, false_or] at h
    exact unsplitL_not_brokenText xs hu.2 h
  | .cdata _ :: xs, _, hu, h => by
    simp only [unsplitL] at hu; simp only [brokenText, hu.1, Bool.false_eq_true, false_or] at h
    exact unsplitL_not_brokenText xs hu.2 h
  | .comment :: xs, _, hu, h => by
    simp only [unsplitL] at hu; simp only [brokenText] at h; exact unsplitL_not_brokenText xs hu h
  | .pi :: xs, _, hu, h => by
    simp only [unsplitL] at hu; simp only [brokenText] at h; exact unsplitL_not_brokenText xs hu h
  | .elem _ _ _ _ _ :: xs, _, hu, h => by
    simp only [unsplitL] at hu; simp only [brokenText] at h; exact unsplitL_not_brokenText xs hu.2 h
end

/-- the documents of C01–C03 are among those of C82, with every schema -/
theorem XDoc.Tame.breaks (ht : d.Tame) : d.MostlyTame ∧ d.BreaksOnlyText env start := by
  refine ⟨ht.mostly, fun nm nc q h => ?_⟩
  exact absurd h (unsplitL_not_broken _ ht.body.unsplit)

end

/-! ### an example -/

namespace SplitEx
/-- `element b { data }` -/
def bBody : Pattern Unit Str := .datatypeName ()
/-- `mixed { element b { data }* }` -/
def aBody : Pattern Unit Str := .mixed (.zeroOrMore (.element (.named [] ['b']) bBody))
/-- `start = element a { mixed { element b { data }* } }` -/
def start : Pattern Unit Str := .element (.named [] ['a']) aBody

theorem startOK : StartOK [] start := .element

theorem schemaOK : SchemaOK Ex.lib [] start true := by
  refine ⟨fun p => p = aBody ∨ p = bBody, ?_, .element (Or.inl rfl)⟩
  rintro p (rfl | rfl)
  · exact .mixed (.zeroOrMore (.element (Or.inr rfl)) fun _ => .free .element) (.zeroOrMore .element)
  · exact .data

/-- `<a>x<!-- -->y<b>z</b><![CDATA[&]]>w</a>` -/
def doc : XDoc := ⟨[], [], ['a'], [], false,
  [.text ['x'], .comment, .text ['y'], .elem [] ['b'] [] false [.text ['z']], .cdata ['&'], .text ['w']], []⟩
def node : Node := .elem ⟨none, ['a']⟩ [] [.text ['x', 'y'], .elem ⟨none, ['b']⟩ [] [.text ['z']], .text ['&', 'w']]

theorem means : doc.Means node := by
  refine Resolves.elem (ents := doc.entities) (scope := [("xml".toList, xmlUri)]) (pre := []) (loc := ['a']) (atts := []) (sc := false)
    (kns := [.text ['x'], .text ['y'], .elem ⟨none, ['b']⟩ [] [.text ['z']], .text ['&'], .text ['w']])
    (by decide) .nil ?_ (fun h => by cases h) .nil
  refine .text (Ex.plainDec (by decide)) (.comment (.text (Ex.plainDec (by decide)) ?_))
  refine .elem (kns := [.text ['z']]) (by decide) .nil (.text (Ex.plainDec (by decide)) .nil) (fun h => by cases h) ?_
  exact .cdata (.text (Ex.plainDec (by decide)) .nil)

theorem mostlyTame : doc.MostlyTame := by
  refine ⟨by decide, by decide, by decide, ?_, by decide⟩
  simp [XDoc.root, doc, allTextsL, XNode.allTexts, TextOK]

/-- only the content of `a` is broken, -/
theorem broken {nm} (h : doc.Broken nm) : nm = ⟨none, ['a']⟩ := by
  unfold XDoc.Broken XDoc.root doc at h
  cases h with
  | here h _ => simp [elemName, nsDecls] at h; rw [← h]
  | later h => cases h
  | inside h =>
    cases h with | later h =>
    cases h with | later h =>
    cases h with | later h =>
    cases h with
    | here _ h => simp [brokenText] at h
    | inside h => cases h with | later h => cases h
    | later h =>
      cases h with | later h =>
      cases h with | later h => cases h

/-- where the schema asks for text -/
theorem breaks : doc.BreaksOnlyText [] start := by
  intro nm nc q h1 h2 h3
  rw [broken h1] at h3
  cases h2 with
  | here => exact .mixed (.zeroOrMore .element)
  | element h =>
    cases h with | mixed h =>
    cases h with | zeroOrMore h =>
    cases h with
    | here => simp [NameClass.Has, QName.expanded] at h3
    | element h => cases h

def v0 : VState Unit Str :=
  match newValidator [] 50 start with
  | .ok s => s
  | .error _ => ⟨Store.init, 0, false, [], []⟩

theorem new_ok : newValidator [] 50 start = .ok v0 := by
  have : (match newValidator [] 50 start with | .ok _ => true | .error _ => false) = true := by decide +kernel
  unfold v0
  split at this
  · rename_i h; rw [h]
  · cases this

theorem accepted : ∃ s, runToks Ex.lib 50 doc.toks v0 = .ok (.ok (), s) := by
  have : (match runToks Ex.lib 50 doc.toks v0 with | .ok (.ok (), _) => true | _ => false) = true := by decide +kernel
  split at this
  · rename_i h; exact ⟨_, h⟩
  · cases this

/-- the hypotheses are met by a document whose character data is broken twice -/
example : doc.Broken ⟨none, ['a']⟩ ∧ Match Ex.lib [] start [] [node] := by
  refine ⟨.here (kids := doc.kids) (by decide) (by simp [doc, brokenText]), ?_⟩
  obtain ⟨s, h⟩ := accepted
  exact C82_accepted_documents_match schemaOK.relax startOK mostlyTame breaks means new_ok h

/-! ### the condition is needed -/

/-- `<a><b>x<!-- -->y</b></a>` -/
def bad : XDoc := ⟨[], [], ['a'], [], false, [.elem [] ['b'] [] false [.text ['x'], .comment, .text ['y']]], []⟩
def badNode : Node := .elem ⟨none, ['a']⟩ [] [.elem ⟨none, ['b']⟩ [] [.text ['x', 'y']]]

theorem badRejected : ∃ e s, runToks Ex.lib 50 bad.toks v0 = .ok (.error e, s) := by
  have : (match runToks Ex.lib 50 bad.toks v0 with | .ok (.error _, _) => true | _ => false) = true := by decide +kernel
  split at this
  · rename_i h; exact ⟨_, _, h⟩
  · cases this

/-- C82.  Where the schema asks for data, a comment in the data makes a difference: the document matches and is rejected. -/
theorem C82_condition_needed : bad.MostlyTame ∧ bad.Means badNode ∧ Match Ex.lib [] start [] [badNode] ∧
    ∃ e s, runToks Ex.lib 50 bad.toks v0 = .ok (.error e, s) := by
  refine ⟨⟨by decide, by decide, by decide, ?_, by decide⟩, ?_, ?_, badRejected⟩
  · simp [XDoc.root, bad, allTextsL, XNode.allTexts, TextOK]
  · refine Resolves.elem (ents := bad.entities) (scope := [("xml".toList, xmlUri)]) (pre := []) (loc := ['a']) (atts := []) (sc := false)
      (kns := [.elem ⟨none, ['b']⟩ [] [.text ['x', 'y']]]) (by decide) .nil ?_ (fun h => by cases h) .nil
    exact .elem (kns := [.text ['x'], .text ['y']]) (by decide) .nil
      (.text (Ex.plainDec (by decide)) (.comment (.text (Ex.plainDec (by decide)) .nil))) (fun h => by cases h) .nil
  · have hk : ∀ c, Weak c c := fun c => by induction c with | nil => exact .nil | cons _ _ ih => exact .keep ih
    refine .element rfl (hk _) (.mixed (c1 := [.elem ⟨none, ['b']⟩ [] [.text ['x', 'y']]]) (c2 := []) ?_ (by simp) (.left .nil))
    exact .zeroOrMoreCons (a1 := []) (a2 := []) (c1 := [.elem ⟨none, ['b']⟩ [] [.text ['x', 'y']]]) (c2 := [])
      (.element rfl (hk _) (.data rfl)) .zeroOrMoreNil .nil
end SplitEx
end Verif
