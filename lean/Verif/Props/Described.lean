import Verif.Proof.Described
import Verif.Props.Swap
/-
C99: nothing that the schema does not describe is accepted.
-/
namespace Verif
open Described
section
variable {D V : Type} {L : Lib D V} {env : Env D V} {start : Pattern D V} {nm : QName} {as : List Attr} {kids : List Node} {node : Node}

/-- C99.  In a matching document every element, at any depth, matches by itself an `element` that stands in the content described for its
parent, every attribute an `attribute` that stands in the content described for its element, and character data other than white space is
only where a pattern for it stands. -/
theorem C99_matching_documents_described (h : Match L env start [] [node]) : DescribedNodes env L start [node] := (match_both h).2

variable [DecidableEq D] [DecidableEq V] {fuel n : Nat} {s0 s' : VState D V} {d : XDoc} {r : Except VErr Unit}

/-- C99.  And that is so in every document that the validator accepts. -/
theorem C99_accepted_documents_described (hs : SchemaOK L env start false) (h0 : StartOK env start) (hg : d.Proper)
    (hb : d.SeenBreaksOnlyText env start) (hnew : newValidator env fuel start = .ok s0)
    (hrun : runToks L n d.toks s0 = .ok (.ok (), s')) : ∃ node, d.Seen node ∧ DescribedNodes env L start [node] := by
  obtain ⟨x, h1, h2⟩ := C83_accepted_documents_match hs h0 hg hb hnew hrun
  exact ⟨x, h1, C99_matching_documents_described h2⟩

/-- C99.  A document is refused if an element occurs in it, at any depth, whose name no `element` of the schema has. -/
theorem C99_unknown_elements_refused (hs : SchemaOK L env start false) (h0 : StartOK env start) (hg : d.Proper)
    (hb : d.SeenBreaksOnlyText env start) (hd : d.Seen node) (hnew : newValidator env fuel start = .ok s0)
    (hrun : runToks L n d.toks s0 = .ok (r, s')) (ho : ElementIn nm as kids [node])
    (hno : ∀ nc q, ElemIn env start nc q → ¬ nc.Has nm.expanded) : r ≠ .ok () := by
  rintro rfl
  obtain ⟨x, h1, h2⟩ := C99_accepted_documents_described hs h0 hg hb hnew hrun
  obtain rfl := C83_read_in_one_way hd h1
  obtain ⟨nc, q, h3, h4, _⟩ := occurs_described h2 ho
  exact hno nc q h3 h4

/-- C99.  And if an element in it has an attribute that no `element` of that name in the schema has, or none that the value matches. -/
theorem C99_unknown_attributes_refused (hs : SchemaOK L env start false) (h0 : StartOK env start) (hg : d.Proper)
    (hb : d.SeenBreaksOnlyText env start) (hd : d.Seen node) (hnew : newValidator env fuel start = .ok s0)
    (hrun : runToks L n d.toks s0 = .ok (r, s')) (ho : ElementIn nm as kids [node]) {a : Attr} (ha : a ∈ as)
    (hno : ∀ nc q, ElemIn env start nc q → nc.Has nm.expanded →
      ∀ nc' p, At env q (.attr nc' p) → nc'.Has a.name.expanded → ¬ Match L env (.attr nc' p) [a] []) : r ≠ .ok () := by
  rintro rfl
  obtain ⟨x, h1, h2⟩ := C99_accepted_documents_described hs h0 hg hb hnew hrun
  obtain rfl := C83_read_in_one_way hd h1
  obtain ⟨nc, q, h3, h4, h5, _⟩ := occurs_described h2 ho
  obtain ⟨nc', p, h6, h7, h8⟩ := h5 a ha
  exact hno nc q h3 h4 nc' p h6 h7 h8
end

/-! ### a case -/
namespace DescribedEx
open SwapEx

/-- the elements of the schema `element r { element a { text }* }` -/
theorem elements {nc q} (h : ElemIn [] start nc q) : nc = .named [] ['r'] ∧ q = .zeroOrMore a ∨ nc = .named [] ['a'] ∧ q = .text := by
  cases h with
  | here => exact .inl ⟨rfl, rfl⟩
  | element h =>
    cases h with
    | zeroOrMore h =>
      cases h with
      | here => exact .inr ⟨rfl, rfl⟩
      | element h => cases h

/-- `<r><a/><a><b/></a></r>` is refused: no `element` is called `b` -/
theorem C99_case_element {fuel n : Nat} {s0 s' : VState Unit Str} {r : Except VErr Unit}
    (hnew : newValidator [] fuel start = .ok s0)
    (hrun : runToks Ex.lib n (doc [.elem [] ['b'] [] true []]).toks s0 = .ok (r, s')) : r ≠ .ok () := by
  obtain ⟨hs, h0⟩ := Check.schema_sound (L := Ex.lib) (env := []) (k := 10) (start := start) (by decide)
  refine C99_unknown_elements_refused (nm := ⟨none, ['b']⟩) (as := []) (kids := []) hs.relax h0 ?_ (Check.whole_breaks (by decide))
    (docSeen (ns := [el 'b' []]) (.elem (by decide) .nil .nil .nil) rfl) hnew hrun ?_ ?_
  · simp [XDoc.Proper, XDoc.root, doc, properL, XNode.proper]
  · exact .inside (.later (.inside .here))
  · intro nc q h hn
    rcases elements h with ⟨rfl, _⟩ | ⟨rfl, _⟩
    · have hn : (([] : Str), ['b']) = ([], ['r']) := hn; exact absurd hn (by decide)
    · have hn : (([] : Str), ['b']) = ([], ['a']) := hn; exact absurd hn (by decide)

/-- `<r><a x="1"/></r>` -/
def doc1 : XDoc := ⟨[], [], ['r'], [], false, [.elem [] ['a'] [⟨[], ['x'], ['1']⟩] true []], []⟩

/-- it is refused: `a` has no attributes -/
theorem C99_case_attribute {fuel n : Nat} {s0 s' : VState Unit Str} {r : Except VErr Unit}
    (hnew : newValidator [] fuel start = .ok s0) (hrun : runToks Ex.lib n doc1.toks s0 = .ok (r, s')) : r ≠ .ok () := by
  obtain ⟨hs, h0⟩ := Check.schema_sound (L := Ex.lib) (env := []) (k := 10) (start := start) (by decide)
  have hseen : doc1.Seen (el 'r' [.elem ⟨none, ['a']⟩ [⟨⟨none, ['x']⟩, ['1']⟩] []]) := by
    have h2 := Seen.elem (ents := doc1.lastEntities) (read := []) (pre := []) (loc := ['a']) (atts := [⟨[], ['x'], ['1']⟩]) (sc := true)
      (kids := []) (nm := ⟨none, ['a']⟩) (as := [⟨⟨none, ['x']⟩, ['1']⟩]) (by decide) (.cons (by decide) .nil) .nil .nil
    exact Seen.elem (read := []) (pre := []) (loc := ['r']) (atts := []) (sc := false) (nm := ⟨none, ['r']⟩) (by decide) .nil h2 .nil
  refine C99_unknown_attributes_refused (nm := ⟨none, ['a']⟩) (a := ⟨⟨none, ['x']⟩, ['1']⟩) hs.relax h0 ?_ (Check.whole_breaks (by decide))
    hseen hnew hrun (.inside .here) (.head _) ?_
  · simp [XDoc.Proper, XDoc.root, doc1, properL, XNode.proper]
  · intro nc q h hn nc' p hat _
    rcases elements h with ⟨rfl, rfl⟩ | ⟨rfl, rfl⟩
    · have hn : (([] : Str), ['a']) = ([], ['r']) := hn; exact absurd hn (by decide)
    · cases hat

/-- and the document of Props/Example is described by its schema -/
theorem C99_case_described : DescribedNodes Ex.env Ex.lib Ex.start [Ex.node] := by
  obtain ⟨s, h⟩ := Ex.accepted
  exact C99_matching_documents_described (C01_accepted_documents_match Ex.schemaOK.relax Ex.startOK Ex.tame Ex.means Ex.new_ok h)
end DescribedEx
end Verif
