import Verif.Proof.Required
import Verif.Props.Described
/-
C100: what the schema requires is there in every document that is accepted.
-/
namespace Verif
open Described Required
section
variable {D V : Type} {L : Lib D V} {env : Env D V} {start : Pattern D V} {nm : QName} {as : List Attr} {kids : List Node} {node : Node}
  {N : Str × Str → Prop}

/-- C100.  If everywhere the schema describes an element `nm` it requires an attribute with one of the names `N`, then in a matching
document every element `nm`, at any depth, has such an attribute. -/
theorem C100_required_attributes (hm : Match L env start [] [node]) (ho : ElementIn nm as kids [node])
    (h : ∀ nc q, ElemIn env start nc q → nc.Has nm.expanded → Demands env (AttributeOf N) q) : ∃ a ∈ as, N a.name.expanded := by
  obtain ⟨nc, q, h1, h2, _, h3⟩ := occurs_described (match_both hm).2 ho
  exact attr_there (element_there (h nc q h1 h2) h3)

/-- C100.  Likewise, if it requires a child element with one of the names `N`, then every element `nm` has such a child. -/
theorem C100_required_elements (hm : Match L env start [] [node]) (ho : ElementIn nm as kids [node])
    (h : ∀ nc q, ElemIn env start nc q → nc.Has nm.expanded → Demands env (ElementOf N) q) :
    ∃ m bs k, Node.elem m bs k ∈ kids ∧ N m.expanded := by
  obtain ⟨nc, q, h1, h2, _, h3⟩ := occurs_described (match_both hm).2 ho
  exact elem_there (element_there (h nc q h1 h2) h3)

variable [DecidableEq D] [DecidableEq V] {fuel n : Nat} {s0 s' : VState D V} {d : XDoc} {r : Except VErr Unit}

/-- C100.  A document is refused if a required attribute is missing anywhere in it. -/
theorem C100_missing_attribute_refused (hs : SchemaOK L env start false) (h0 : StartOK env start) (hg : d.Proper)
    (hb : d.SeenBreaksOnlyText env start) (hd : d.Seen node) (hnew : newValidator env fuel start = .ok s0)
    (hrun : runToks L n d.toks s0 = .ok (r, s')) (ho : ElementIn nm as kids [node])
    (h : ∀ nc q, ElemIn env start nc q → nc.Has nm.expanded → Demands env (AttributeOf N) q)
    (hno : ∀ a ∈ as, ¬ N a.name.expanded) : r ≠ .ok () := by
  rintro rfl
  obtain ⟨x, h1, h2⟩ := C83_accepted_documents_match hs h0 hg hb hnew hrun
  obtain rfl := C83_read_in_one_way hd h1
  obtain ⟨a, ha, hn⟩ := C100_required_attributes h2 ho h
  exact hno a ha hn

/-- C100.  And if a required child element is. -/
theorem C100_missing_element_refused (hs : SchemaOK L env start false) (h0 : StartOK env start) (hg : d.Proper)
    (hb : d.SeenBreaksOnlyText env start) (hd : d.Seen node) (hnew : newValidator env fuel start = .ok s0)
    (hrun : runToks L n d.toks s0 = .ok (r, s')) (ho : ElementIn nm as kids [node])
    (h : ∀ nc q, ElemIn env start nc q → nc.Has nm.expanded → Demands env (ElementOf N) q)
    (hno : ∀ m bs k, Node.elem m bs k ∈ kids → ¬ N m.expanded) : r ≠ .ok () := by
  rintro rfl
  obtain ⟨x, h1, h2⟩ := C83_accepted_documents_match hs h0 hg hb hnew hrun
  obtain rfl := C83_read_in_one_way hd h1
  obtain ⟨m, bs, k, hk, hn⟩ := C100_required_elements h2 ho h
  exact hno m bs k hk hn
end

/-! ### a case -/
namespace RequiredEx
open SwapEx (el)

/-- `element r { element a { attribute x { text } }+ }` -/
def body : Pattern Unit Str := .oneOrMore (.element (.named [] ['a']) (.attr (.named [] ['x']) .text))
def start : Pattern Unit Str := .element (.named [] ['r']) body

theorem elements {nc q} (h : ElemIn [] start nc q) :
    nc = .named [] ['r'] ∧ q = body ∨ nc = .named [] ['a'] ∧ q = .attr (.named [] ['x']) .text := by
  cases h with
  | here => exact .inl ⟨rfl, rfl⟩
  | element h =>
    cases h with
    | oneOrMore h =>
      cases h with
      | here => exact .inr ⟨rfl, rfl⟩
      | element h => cases h with | attr h => cases h

/-- `<r><a/><a></a></r>` is refused: `x` is missing -/
theorem C100_case_attribute {fuel n : Nat} {s0 s' : VState Unit Str} {r : Except VErr Unit}
    (hnew : newValidator [] fuel start = .ok s0) (hrun : runToks Ex.lib n (SwapEx.doc []).toks s0 = .ok (r, s')) : r ≠ .ok () := by
  obtain ⟨hs, h0⟩ := Check.schema_sound (L := Ex.lib) (env := []) (k := 10) (start := start) (by decide)
  refine C100_missing_attribute_refused (nm := ⟨none, ['a']⟩) (as := []) (kids := []) (N := fun x => x = ([], ['x'])) hs.relax h0 ?_
    (Check.whole_breaks (by decide)) (SwapEx.docSeen .nil rfl) hnew hrun (.inside .here) ?_ nofun
  · simp [XDoc.Proper, XDoc.root, SwapEx.doc, properL, XNode.proper]
  · intro nc q h hn
    rcases elements h with ⟨rfl, _⟩ | ⟨_, rfl⟩
    · have hn : (([] : Str), ['a']) = ([], ['r']) := hn; exact absurd hn (by decide)
    · exact .here ⟨_, _, rfl, fun x hx => hx⟩

/-- `<r></r>` -/
def doc0 : XDoc := ⟨[], [], ['r'], [], false, [], []⟩

/-- it is refused: `a` is missing -/
theorem C100_case_element {fuel n : Nat} {s0 s' : VState Unit Str} {r : Except VErr Unit}
    (hnew : newValidator [] fuel start = .ok s0) (hrun : runToks Ex.lib n doc0.toks s0 = .ok (r, s')) : r ≠ .ok () := by
  obtain ⟨hs, h0⟩ := Check.schema_sound (L := Ex.lib) (env := []) (k := 10) (start := start) (by decide)
  have hseen : doc0.Seen (el 'r' []) :=
    Seen.elem (read := []) (pre := []) (loc := ['r']) (atts := []) (sc := false) (nm := ⟨none, ['r']⟩) (by decide) .nil .nil .nil
  refine C100_missing_element_refused (nm := ⟨none, ['r']⟩) (as := []) (kids := []) (N := fun x => x = ([], ['a'])) hs.relax h0 ?_
    (Check.whole_breaks (by decide)) hseen hnew hrun .here ?_ nofun
  · simp [XDoc.Proper, XDoc.root, doc0, properL, XNode.proper]
  · intro nc q h hn
    rcases elements h with ⟨_, rfl⟩ | ⟨rfl, _⟩
    · exact .oneOrMore (.here ⟨_, _, rfl, fun x hx => hx⟩)
    · have hn : (([] : Str), ['r']) = ([], ['a']) := hn; exact absurd hn (by decide)
end RequiredEx
end Verif
