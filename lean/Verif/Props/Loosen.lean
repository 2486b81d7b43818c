import Verif.Proof.Loosen
import Verif.Props.Checked
/-
C92: loosening a schema.  What is valid stays valid.
-/
namespace Verif
open Loosen
section
variable {D V : Type} {L : Lib D V} {env env' : Env D V} {start start' : Pattern D V} {ρ : Nat → Nat}

/-- C92.  What matches a schema matches every loosened version of it. -/
theorem C92_loosened_schemas_match {a : List Attr} {c : List Node} (h : Loosened env env' start start' ρ)
    (hm : Match L env start a c) : Match L env' start' a c := Looser.match h.defs hm h.start

variable [DecidableEq D] [DecidableEq V] {fuel fuel' n n' : Nat} {s0 t0 s' t' : VState D V} {d : XDoc} {r : Except VErr Unit}

/-- C92.  A document the validator accepts it accepts with every loosened version of the schema. -/
theorem C92_accepted_stays_accepted (h : Loosened env env' start start' ρ)
    (hs : SchemaOK L env start false) (h0 : StartOK env start) (hs' : SchemaOK L env' start' true) (h0' : StartOK env' start')
    (hg : d.Proper) (hb : d.SeenBreaksOnlyText env start) (hb' : d.SeenBreaksOnlyText env' start')
    (hnew : newValidator env fuel start = .ok s0) (hrun : runToks L n d.toks s0 = .ok (.ok (), s'))
    (hnew' : newValidator env' fuel' start' = .ok t0) (hrun' : runToks L n' d.toks t0 = .ok (r, t')) : r = .ok () := by
  obtain ⟨node, h1, h2⟩ := C83_accepted_documents_match hs h0 hg hb hnew hrun
  exact C83_documents_matching_as_read_accepted hs' h0' hg hb' h1 hnew' hrun' (C92_loosened_schemas_match h h2)

/-- C92.  Contrapositively: a document that a loosened version refuses, the schema itself refuses. -/
theorem C92_refused_was_refused {e : VErr} (h : Loosened env env' start start' ρ)
    (hs : SchemaOK L env start false) (h0 : StartOK env start) (hs' : SchemaOK L env' start' true) (h0' : StartOK env' start')
    (hg : d.Proper) (hb : d.SeenBreaksOnlyText env start) (hb' : d.SeenBreaksOnlyText env' start')
    (hnew : newValidator env fuel start = .ok s0) (hrun : runToks L n d.toks s0 = .ok (r, s'))
    (hnew' : newValidator env' fuel' start' = .ok t0) (hrun' : runToks L n' d.toks t0 = .ok (.error e, t')) : ∃ e', r = .error e' := by
  cases r with
  | error e' => exact ⟨e', rfl⟩
  | ok u => cases C92_accepted_stays_accepted h hs h0 hs' h0' hg hb hb' hnew hrun hnew' hrun'

/-- C92.  With conditions that a machine can test. -/
theorem C92_checked {k k' : Nat} (h : Loosened env env' start start' ρ) (hs : Check.schema env k start = true)
    (hs' : Check.schema env' k' start' = true)
    (hb : (Check.textSchema env k start && Check.textSchema env' k' start' || Check.whole d.root) = true) (hg : d.Proper)
    (hnew : newValidator env fuel start = .ok s0) (hrun : runToks L n d.toks s0 = .ok (.ok (), s'))
    (hnew' : newValidator env' fuel' start' = .ok t0) (hrun' : runToks L n' d.toks t0 = .ok (r, t')) : r = .ok () := by
  obtain ⟨h1, h2⟩ := Check.schema_sound (L := L) hs
  obtain ⟨h3, h4⟩ := Check.schema_sound (L := L) hs'
  have hb2 : d.SeenBreaksOnlyText env start ∧ d.SeenBreaksOnlyText env' start' := by
    rcases Bool.or_eq_true _ _ ▸ hb with h | h
    · exact ⟨Check.textSchema_sound (Bool.and_eq_true _ _ ▸ h).1 d, Check.textSchema_sound (Bool.and_eq_true _ _ ▸ h).2 d⟩
    · exact ⟨Check.whole_breaks h, Check.whole_breaks h⟩
  exact C92_accepted_stays_accepted h h1.relax h2 h3 h4 hg hb2.1 hb2.2 hnew hrun hnew' hrun'
end

/-! ### a case -/
namespace LoosenEx
def noteName : NameClass := .named ['u'] ['n', 'o', 't', 'e']
def langAttr : Pattern Unit Str := .optional (.attr (.named [] ['l', 'a', 'n', 'g']) .text)
/-- the schema of Props/Example, loosened: a document may now be called `p:note`, have a `lang`, and contain `p:b` elements; an item's
`k` may be anything, and the definitions have been reordered -/
def docBody : Pattern Unit Str :=
  .group [langAttr, .attr (.named [] ['i', 'd']) .text,
    .mixed (.zeroOrMore (.choice [.ref 0, .element (.named ['u'] ['b']) .text]))]
def itemBody : Pattern Unit Str := .group [.attr (.named [] ['k']) .text, .zeroOrMore (.ref 0)]
def env : Env Unit Str := [.element Ex.itemName itemBody, .element (.alt Ex.docName noteName) docBody]
def start : Pattern Unit Str := .ref 1
def ρ : Nat → Nat := fun n => 1 - n

theorem nth_two {α : Type} {a b c d : α} {P : α → α → Prop} (h0 : P a c) (h1 : P b d) :
    ∀ (i : Nat) p q, [a, b][i]? = some p → [c, d][i]? = some q → P p q
  | 0, _, _, rfl, rfl => h0
  | 1, _, _, rfl, rfl => h1
  | _ + 2, _, _, h, _ => by cases h

theorem C92_case : Loosened Ex.env env Ex.start start ρ where
  start := .ref .refl
  defs := by
    intro n p h
    match n, h with
    | 0, h =>
      cases h
      refine ⟨_, rfl, .element (nc' := .alt Ex.docName noteName) (q := docBody) (fun _ => Or.inl)
        (.group (qs := [.attr (.named [] ['i', 'd']) .text, .mixed (.zeroOrMore (.choice [.ref 0, .element (.named ['u'] ['b']) .text]))])
        rfl (nth_two (.attr (fun _ => id) (.text .refl) .refl)
        (.mixed (.zeroOrMore (.ref (.choice .refl (.head _))) .refl) .refl)) (.member (as := []) .refl .optional)) .refl⟩
    | 1, h =>
      cases h
      exact ⟨_, rfl, .element (q := itemBody) (fun _ => id) (.group (qs := [.attr (.named [] ['k']) .text, .zeroOrMore (.ref 0)])
        rfl (nth_two (.attr (fun _ => id) (.value (.textValue .refl)) .refl)
        (.zeroOrMore (.ref .refl) .refl)) .refl) .refl⟩
    | n + 2, h => cases h

/-- both schemas pass the tests, and so does the document of Props/Example -/
theorem C92_case_checked : Check.schema Ex.env 10 Ex.start = true ∧ Check.schema env 10 start = true ∧ Check.whole Ex.doc.root = true ∧
    Check.textSchema Ex.env 10 Ex.start = true ∧ Check.textSchema env 10 start = true := by
  refine ⟨?_, ?_, ?_, ?_, ?_⟩ <;> decide

/-- the document of Props/Example matches the loosened schema -/
theorem C92_case_matches : Match Ex.lib env start [] [Ex.node] := by
  obtain ⟨s, h⟩ := Ex.accepted
  exact C92_loosened_schemas_match C92_case (C01_accepted_documents_match Ex.schemaOK.relax Ex.startOK Ex.tame Ex.means Ex.new_ok h)

/-- and the validator accepts it with the loosened schema, as it does with the schema -/
theorem C92_case_accepted {n m : Nat} {t0 t' : VState Unit Str} {r : Except VErr Unit}
    (hnew : newValidator env n start = .ok t0) (hrun : runToks Ex.lib m Ex.doc.toks t0 = .ok (r, t')) : r = .ok () := by
  obtain ⟨s, h⟩ := Ex.accepted
  obtain ⟨h1, h2, h3, h4, h5⟩ := C92_case_checked
  exact C92_checked C92_case h1 h2 (by rw [h3, Bool.or_true])
    (by simp [XDoc.Proper, XDoc.root, Ex.doc, Ex.item, properL, XNode.proper]) Ex.new_ok h hnew hrun

/-- the other way round it does not hold: `<p:note id="7"/>` matches the loosened schema only -/
theorem C92_case_stricter : ∃ node, Match Ex.lib env start [] [node] ∧ ¬ Match Ex.lib Ex.env Ex.start [] [node] := by
  refine ⟨.elem ⟨some ['u'], ['n', 'o', 't', 'e']⟩ [⟨⟨none, ['i', 'd']⟩, ['7']⟩] [], ?_, ?_⟩
  · refine .ref rfl (.element (.inr rfl) .nil ?_)
    exact .groupCons (c1 := []) .optionalNone (.groupCons (c1 := []) (a := [⟨⟨none, ['i', 'd']⟩, ['7']⟩]) (a2 := []) (.attr (name := ⟨none, ['i', 'd']⟩) (v := ['7']) rfl (.keep .nil) (.text fun x hx => ⟨_, List.mem_singleton.1 hx⟩))
      (.groupCons (c1 := []) (a1 := []) (.mixed (c2 := []) .zeroOrMoreNil nofun .nil) .groupNil (by simp)) (by simp)) (by simp)
  · intro h
    cases h with
    | ref h1 h2 =>
      cases h1
      generalize hc : [Node.elem ⟨some ['u'], ['n', 'o', 't', 'e']⟩ [⟨⟨none, ['i', 'd']⟩, ['7']⟩] []] = c at h2
      cases h2 with
      | element hn => cases hc; have hn : (['u'], ['n', 'o', 't', 'e']) = (['u'], ['d', 'o', 'c']) := hn; exact absurd hn (by decide)

end LoosenEx
end Verif
