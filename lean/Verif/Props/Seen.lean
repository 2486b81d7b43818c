import Verif.Proof.SeenDoc
import Verif.Props.Split
/-
C83: what the validator accepts, for every document: those that can be read, and match the schema as they are read.
-/
namespace Verif
section
variable {D V : Type} [DecidableEq D] [DecidableEq V] {L : Lib D V} {env : Env D V}
  {start : Pattern D V} {fuel n : Nat} {s0 : VState D V} {d : XDoc} {node : Node}

theorem XDoc.SeenBreaksOnlyText.onlyIn (h : d.SeenBreaksOnlyText env start) : Split.OnlyIn env (SeenBroken [] [d.root]) start :=
  fun nc q hq nm hn hb => h nm nc q hb hq hn

/-- C83.  A document is read in at most one way. -/
theorem C83_read_in_one_way {node' : Node} (h : d.Seen node) (h' : d.Seen node') : node = node' := Look.seen_unique_doc h h'

/-- C83.  Whatever the schema, a document whose tokens are all read without an error can be read: its prefixes have been declared
before they are used and its references can be replaced. -/
theorem C83_accepted_documents_can_be_read {c : Bool} {s' : VState D V} (hs : SchemaOK L env start c) (hg : d.Proper)
    (hnew : newValidator env fuel start = .ok s0) (hrun : runToks L n d.toks s0 = .ok (.ok (), s')) : ∃ node, d.Seen node := by
  obtain ⟨hc, hl, hst, he⟩ := newValidator_ok hnew
  obtain ⟨nm, as, k, hk⟩ := Look.doc_read hg hl (newValidator_valid hs hnew) hst he hrun
  obtain ⟨_, kids, h, _⟩ := Look.root_join hk
  exact ⟨_, h⟩

/-- C83.  A document that is accepted matches the schema as it is read. -/
theorem C83_accepted_documents_match {s' : VState D V} (hs : SchemaOK L env start false) (h0 : StartOK env start)
    (hg : d.Proper) (hb : d.SeenBreaksOnlyText env start)
    (hnew : newValidator env fuel start = .ok s0) (hrun : runToks L n d.toks s0 = .ok (.ok (), s')) :
    ∃ node, d.Seen node ∧ Match L env start [] [node] := by
  obtain ⟨hc, hl, hst, he⟩ := newValidator_ok hnew
  have hv := newValidator_valid hs hnew
  obtain ⟨nm, as, k, hk⟩ := Look.doc_read hg hl hv hst he hrun
  obtain ⟨b, kids, hm, h1, h2⟩ := Look.root_join hk
  refine ⟨_, hm, ?_⟩
  have hf := Look.doc_follows (L := L) (n := n) hk hg hl hv hst he
  cases h : runR L n s0.cur (Node.elem nm as k).events s0.store with
  | error e => rw [h] at hf; rw [hf] at hrun; cases hrun
  | ok r =>
    obtain ⟨o, st'⟩ := r
    cases o with
    | none => rw [h] at hf; obtain ⟨err, s', hf⟩ := hf; rw [hf] at hrun; cases hrun
    | some c => exact Split.sound hs h0 hb.onlyIn hc h1 h2 h

/-- C83.  A document that matches the schema as it is read is accepted. -/
theorem C83_documents_matching_as_read_accepted {s' : VState D V} {r : Except VErr Unit} (hs : SchemaOK L env start true)
    (h0 : StartOK env start) (hg : d.Proper) (hb : d.SeenBreaksOnlyText env start) (hm : d.Seen node)
    (hnew : newValidator env fuel start = .ok s0) (hrun : runToks L n d.toks s0 = .ok (r, s'))
    (hmatch : Match L env start [] [node]) : r = .ok () := by
  obtain ⟨hc, hl, hst, he⟩ := newValidator_ok hnew
  obtain ⟨rs, hk⟩ := Look.seen_pieces hm
  obtain ⟨nm, as, k, rfl⟩ := Look.root_elem hk
  obtain ⟨b, kids, hm', h1, h2⟩ := Look.root_join hk
  obtain rfl := C83_read_in_one_way hm hm'
  have hf := Look.doc_follows (L := L) (n := n) hk hg hl (newValidator_valid hs.relax hnew) hst he
  cases h : runR L n s0.cur (Node.elem nm as k).events s0.store with
  | error e => rw [h] at hf; rw [hf] at hrun; cases hrun
  | ok x =>
    obtain ⟨o, st'⟩ := x
    obtain ⟨c, rfl⟩ := Split.complete hs h0 hb.onlyIn hc h1 h2 h hmatch
    rw [h] at hf
    obtain ⟨s'', hf, _⟩ := hf
    rw [hf] at hrun
    cases hrun
    rfl

/-- C83.  Exactly: a document is accepted if and only if it can be read and matches the schema as it is read. -/
theorem C83_accepted_iff {s' : VState D V} {r : Except VErr Unit} (hs : SchemaOK L env start true)
    (h0 : StartOK env start) (hg : d.Proper) (hb : d.SeenBreaksOnlyText env start)
    (hnew : newValidator env fuel start = .ok s0) (hrun : runToks L n d.toks s0 = .ok (r, s')) :
    r = .ok () ↔ ∃ node, d.Seen node ∧ Match L env start [] [node] := by
  constructor
  · rintro rfl; exact C83_accepted_documents_match hs.relax h0 hg hb hnew hrun
  · rintro ⟨node, hm, h⟩; exact C83_documents_matching_as_read_accepted hs h0 hg hb hm hnew hrun h

/-- C83.  After an error, however the document goes on: it cannot be read, or does not match the schema as it is read. -/
theorem C83_rejection_is_final {s' : VState D V} {e : VErr} {ts more : List Token} (hs : SchemaOK L env start true)
    (h0 : StartOK env start) (hnew : newValidator env fuel start = .ok s0) (hrun : runToks L n ts s0 = .ok (.error e, s'))
    (hd : d.toks = ts ++ more) (hg : d.Proper) (hb : d.SeenBreaksOnlyText env start) :
    ¬ ∃ node, d.Seen node ∧ Match L env start [] [node] := by
  intro h
  have hall : runToks L n d.toks s0 = .ok (.error e, s') := by rw [hd, runToks_append, hrun]
  have := (C83_accepted_iff hs h0 hg hb hnew hall).mpr h
  cases this

/-- C83.  Documents in which each of the things that are read differently is absent are read as they mean. -/
theorem C83_usual_documents_read_as_they_mean (ht : d.MostlyTame) (hm : d.Means node) : d.Seen node ∧ d.Proper := by
  refine ⟨?_, Look.proper_of hm⟩
  have hg : Good d.entities [d.root] := ⟨ht.noDefault, ht.noRef, ht.text⟩
  unfold XDoc.Seen
  rw [Look.entities_of ht.names]
  exact Look.seen_of (fun nm => entities_ok ht.names nm) hm hg (by decide) ht.inScope

/-- C83.  For them, the condition on broken character data is that of C82. -/
theorem C83_usual_documents_break_alike (ht : d.MostlyTame) (hb : d.BreaksOnlyText env start) : d.SeenBreaksOnlyText env start :=
  fun nm nc q h => hb nm nc q (Look.broken_of (f := d.entities) h ⟨ht.noDefault, ht.noRef, ht.text⟩ (by decide) ht.inScope)
end
end Verif

/-! ### an example -/

namespace Verif.SeenEx
open Verif

/-- `attribute x { "&lt;" }, element b { empty }, element {v}c { "2" }, element d { "ab" }` -/
def body : Pattern Unit Str := .group [.attr (.named [] ['x']) (.datatypeValue "&lt;".toList), .element (.named [] ['b']) .empty,
  .element (.named ['v'] ['c']) (.datatypeValue ['2']), .element (.named [] ['d']) (.datatypeValue ['a', 'b'])]
/-- `start = element a { body }` -/
def start : Pattern Unit Str := .element (.named [] ['a']) body

theorem startOK : StartOK [] start := .element

theorem schemaOK : SchemaOK Ex.lib [] start true := by
  refine ⟨fun p => p = body ∨ p = .empty ∨ ∃ v, p = .datatypeValue v, ?_, .element (Or.inl rfl)⟩
  rintro p (rfl | rfl | ⟨v, rfl⟩)
  · refine .group (by simp) ?_
    intro p hp
    simp only [List.mem_cons, List.not_mem_nil, or_false] at hp
    rcases hp with rfl | rfl | rfl | rfl
    · exact .attr .value
    · exact .element (Or.inr (Or.inl rfl))
    · exact .element (Or.inr (Or.inr ⟨_, rfl⟩))
    · exact .element (Or.inr (Or.inr ⟨_, rfl⟩))
  · exact .empty
  · exact .value

/-- `<!DOCTYPE a [<!ENTITY e "1"><!ENTITY e "2"><!ENTITY f "1234567">]>
<a xmlns="u" xmlns:p="w" x="&lt;"><b xmlns:p="v"/><p:c>&e;</p:c><d>ab&f;cd</d></a>` -/
def doc : XDoc := ⟨[.dtdStart, .entity ['e'] ['1'], .entity ['e'] ['2'], .entity ['f'] "1234567".toList, .dtdEnd], [], ['a'],
  [⟨[], xmlnsStr, ['u']⟩, ⟨xmlnsStr, ['p'], ['w']⟩, ⟨[], ['x'], "&lt;".toList⟩], false,
  [.elem [] ['b'] [⟨xmlnsStr, ['p'], ['v']⟩] true [], .elem ['p'] ['c'] [] false [.text "&e;".toList],
   .elem [] ['d'] [] false [.text "ab&f;cd".toList]], []⟩

/-- the document as read: the default namespace is ignored, the attribute value kept as written, the prefix `p` means what the
element that has been closed says, the second declaration of `e` counts and the data of `d` is cut at the reference -/
def seen : Node := .elem ⟨none, ['a']⟩ [⟨⟨none, ['x']⟩, "&lt;".toList⟩]
  [.elem ⟨none, ['b']⟩ [] [], .elem ⟨some ['v'], ['c']⟩ [] [.text ['2']], .elem ⟨none, ['d']⟩ [] [.text ['a', 'b']]]

/-- what the document means -/
def meant : Node := .elem ⟨some ['u'], ['a']⟩ [⟨⟨none, ['x']⟩, ['<']⟩]
  [.elem ⟨some ['u'], ['b']⟩ [] [], .elem ⟨some ['w'], ['c']⟩ [] [.text ['1']],
   .elem ⟨some ['u'], ['d']⟩ [] [.text "ab1234567cd".toList]]

theorem proper : doc.Proper := by simp [XDoc.Proper, XDoc.root, doc, properL, XNode.proper]

theorem docSeen : doc.Seen seen := by
  refine Seen.elem (ents := doc.lastEntities) (read := []) (pre := []) (loc := ['a']) (atts := doc.atts) (sc := false) (kids := doc.kids)
    (kns := [.elem ⟨none, ['b']⟩ [] [], .elem ⟨some ['v'], ['c']⟩ [] [.text ['2']], .elem ⟨none, ['d']⟩ [] [.text ['a', 'b']]])
    (by decide) (.cons (by decide) .nil) ?_ .nil
  refine .elem (kns := []) (by decide) .nil .nil ?_
  refine .elem (kns := [.text ['2']]) (by decide) .nil (.text ⟨['2'], ?_, rfl⟩ .nil) ?_
  · exact .entity (name := ['e']) (v := ['2']) (s := []) (by decide) (by decide) (by decide) (by decide) .nil
  refine .elem (kns := [.text ['a', 'b']]) (by decide) .nil (.text ⟨['a', 'b'], ?_, rfl⟩ .nil) .nil
  exact .char (by decide) (.char (by decide)
    (.cut (name := ['f']) (v := "1234567".toList) (s := ['c', 'd']) (by decide) (by decide) (by decide) (by decide)))

theorem docMeans : doc.Means meant := by
  refine Resolves.elem (ents := doc.entities) (scope := [("xml".toList, xmlUri)]) (pre := []) (loc := ['a']) (atts := doc.atts) (sc := false)
    (kids := doc.kids)
    (kns := [.elem ⟨some ['u'], ['b']⟩ [] [], .elem ⟨some ['w'], ['c']⟩ [] [.text ['1']],
      .elem ⟨some ['u'], ['d']⟩ [] [.text "ab1234567cd".toList]])
    (by decide) (.cons (by decide) ?_ .nil) ?_ (fun h => by cases h) .nil
  · exact .ref (r := "lt".toList) (v := ['<']) (s := []) (.entity (by decide) (by decide) (by decide)) .nil
  refine .elem (kns := []) (by decide) .nil .nil (fun _ => rfl) ?_
  refine .elem (kns := [.text ['1']]) (by decide) .nil (.text ?_ .nil) (fun h => by cases h) ?_
  · exact .ref (r := ['e']) (v := ['1']) (s := []) (.entity (by decide) (by decide) (by decide)) .nil
  refine .elem (kns := [.text "ab1234567cd".toList]) (by decide) .nil (.text ?_ .nil) (fun h => by cases h) .nil
  exact .char (by decide) (.char (by decide) (.ref (r := ['f']) (v := "1234567".toList) (s := ['c', 'd'])
    (.entity (by decide) (by decide) (by decide)) (Ex.plainDec (by decide))))

theorem notBroken {nm} : ¬ SeenBroken [] [doc.root] nm := by
  intro h
  unfold XDoc.root doc at h
  cases h with
  | here _ h => simp [brokenText] at h
  | later h => cases h
  | inside h =>
    cases h with
    | here _ h => simp [brokenText] at h
    | inside h => cases h
    | later h =>
      cases h with
      | here _ h => simp [brokenText] at h
      | inside h => cases h with | later h => cases h
      | later h =>
        cases h with
        | here _ h => simp [brokenText] at h
        | inside h => cases h with | later h => cases h
        | later h => cases h

theorem breaks : doc.SeenBreaksOnlyText [] start := fun _ _ _ h => absurd h notBroken

def v0 : VState Unit Str :=
  match newValidator [] 50 start with
  | .ok s => s
  | .error _ => ⟨Store.init, 0, false, [], []⟩

theorem new_ok : newValidator [] 50 start = .ok v0 := by
  have : (match newValidator [] 50 start with | .ok _ => true | .error _ => false) = true := by decide +kernel
  unfold v0
  split at this
  · rename_i h; rw [h]
  · cases this

theorem accepted : ∃ s, runToks Ex.lib 50 doc.toks v0 = .ok (.ok (), s) := by
  have : (match runToks Ex.lib 50 doc.toks v0 with | .ok (.ok (), _) => true | _ => false) = true := by decide +kernel
  split at this
  · rename_i h; exact ⟨_, h⟩
  · cases this

/-- C83.  The differences matter: this document is accepted, as it matches the way it is read, and does not match the way it is
meant. -/
theorem C83_differences_matter : doc.Seen seen ∧ doc.Means meant ∧ Match Ex.lib [] start [] [seen] ∧
    ¬ Match Ex.lib [] start [] [meant] ∧ ∃ s, runToks Ex.lib 50 doc.toks v0 = .ok (.ok (), s) := by
  refine ⟨docSeen, docMeans, ?_, ?_, accepted⟩
  · obtain ⟨s, h⟩ := accepted
    obtain ⟨node, h1, h2⟩ := C83_accepted_documents_match schemaOK.relax startOK proper breaks new_ok h
    rw [C83_read_in_one_way docSeen h1]; exact h2
  · intro h
    unfold start meant at h
    cases h with
    | element h => simp [NameClass.Has, QName.expanded] at h

/-- the hypotheses of the theorems about documents that are read as they mean -/
example : SplitEx.doc.Seen SplitEx.node ∧ SplitEx.doc.Proper ∧ SplitEx.doc.SeenBreaksOnlyText [] SplitEx.start := by
  obtain ⟨h1, h2⟩ := C83_usual_documents_read_as_they_mean SplitEx.mostlyTame SplitEx.means
  exact ⟨h1, h2, C83_usual_documents_break_alike SplitEx.mostlyTame SplitEx.breaks⟩

/-! ### documents that cannot be read -/

/-- `<p:a/>` cannot be read, so no schema accepts it -/
theorem C83_undeclared_prefix_never_accepted {D V : Type} [DecidableEq D] [DecidableEq V] {L : Lib D V} {env : Env D V}
    {start : Pattern D V} {fuel n : Nat} {c : Bool} {s0 s' : VState D V} {d : XDoc} (hs : SchemaOK L env start c) (hg : d.Proper)
    (hpre : d.pre ≠ []) (hd : ∀ u, (d.pre, u) ∉ nsDecls d.atts) (hnew : newValidator env fuel start = .ok s0) :
    runToks L n d.toks s0 ≠ .ok (.ok (), s') := by
  intro h
  obtain ⟨node, hm⟩ := C83_accepted_documents_can_be_read hs hg hnew h
  unfold XDoc.Seen XDoc.root at hm
  cases hm with
  | elem h =>
    simp only [seenName, if_neg hpre, List.append_nil] at h
    cases hl : (nsDecls d.atts).lookup d.pre with
    | none => rw [hl] at h; cases h
    | some u => exact hd u (lookup_mem hl)

end Verif.SeenEx
