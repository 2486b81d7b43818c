import Verif.Proof.OpaqueWF
import Verif.Props.Checked
/-
C95: names are opaque.  Replacing names one-to-one in a schema and a document changes no verdict.
-/
namespace Verif
open Opaque
section
variable {D V : Type} {L : Lib D V} {env : Env D V} {start : Pattern D V} {d : XDoc} (ρ : Renaming)

/-- C95.  A document matches a schema if and only if it does after names have been replaced in both. -/
theorem C95_same_matches {p : Pattern D V} {a : List Attr} {c : List Node} :
    Match L env p a c → Match L (env.map (pattern ρ)) (pattern ρ p) (a.map (att ρ)) (nodes ρ c) := match_ren

/-- C95.  The schema with other names is well-formed if the schema is. -/
theorem C95_well_formed_alike {c : Bool} (hs : SchemaOK L env start c) (h0 : StartOK env start) :
    SchemaOK L (env.map (pattern ρ)) (pattern ρ start) c ∧ StartOK (env.map (pattern ρ)) (pattern ρ start) :=
  ⟨schemaOK_ren hs, startOK_ren h0⟩

/-- C95.  The document with other names is read as it was, with the other names. -/
theorem C95_read_alike {n : Node} : d.Seen n → (doc ρ d).Seen (node ρ n) := seen_doc

variable [DecidableEq D] [DecidableEq V] {fuel fuel' n n' : Nat} {s0 t0 s' t' : VState D V} {r r' : Except VErr Unit}

/-- C95.  The validator for the schema with other names accepts the document with the other names if and only if the validator for the
schema accepts the document. -/
theorem C95_same_verdict (hs : SchemaOK L env start true) (h0 : StartOK env start)
    (hg : d.Proper) (hb : d.SeenBreaksOnlyText env start)
    (hnew : newValidator env fuel start = .ok s0) (hrun : runToks L n d.toks s0 = .ok (r, s'))
    (hnew' : newValidator (env.map (pattern ρ)) fuel' (pattern ρ start) = .ok t0)
    (hrun' : runToks L n' (doc ρ d).toks t0 = .ok (r', t')) : r = .ok () ↔ r' = .ok () := by
  rw [C83_accepted_iff hs h0 hg hb hnew hrun, C83_accepted_iff (schemaOK_ren hs) (startOK_ren h0) (proper_doc hg) (breaks_ren hb) hnew' hrun']
  constructor
  · rintro ⟨x, h1, h2⟩
    have h3 := match_ren (ρ := ρ) h2
    rw [nodes, nodes] at h3
    exact ⟨_, seen_doc h1, h3⟩
  · rintro ⟨x, h1, h2⟩
    have h3 := match_ren (ρ := ρ.back) h2
    have h4 := seen_doc (ρ := ρ.back) h1
    rw [nodes, nodes, env_back, pattern_back] at h3
    rw [doc_back] at h4
    exact ⟨_, h4, h3⟩

/-- C95.  With conditions that a machine can test. -/
theorem C95_checked {k : Nat} (hs : Check.schema env k start = true) (hg : d.Proper)
    (hb : (Check.textSchema env k start || Check.whole d.root) = true)
    (hnew : newValidator env fuel start = .ok s0) (hrun : runToks L n d.toks s0 = .ok (r, s'))
    (hnew' : newValidator (env.map (pattern ρ)) fuel' (pattern ρ start) = .ok t0)
    (hrun' : runToks L n' (doc ρ d).toks t0 = .ok (r', t')) : r = .ok () ↔ r' = .ok () := by
  obtain ⟨h1, h2⟩ := Check.schema_sound (L := L) hs
  refine C95_same_verdict ρ h1 h2 hg ?_ hnew hrun hnew' hrun'
  rcases Bool.or_eq_true _ _ ▸ hb with h | h
  · exact Check.textSchema_sound h d
  · exact Check.whole_breaks h
end

/-! ### a case -/
namespace OpaqueEx

/-- `a` instead of `b` and the other way round -/
def exchange (a b s : Str) : Str := if s = a then b else if s = b then a else s

theorem exchange_exchange (a b s : Str) : exchange a b (exchange a b s) = s := by
  unfold exchange
  by_cases h1 : s = a
  · by_cases h2 : b = a
    · simp [h1, h2]
    · simp [h1, h2]
  · by_cases h2 : s = b
    · simp [h2]
    · simp [h1, h2]

/-- the namespaces `u` and `urn:v`, and the local names `item` and `row`, exchanged -/
def ρ : Renaming where
  uri := exchange ['u'] "urn:v".toList
  loc := exchange "item".toList "row".toList
  uriBack := exchange ['u'] "urn:v".toList
  locBack := exchange "item".toList "row".toList
  uri_back := exchange_exchange _ _
  back_uri := exchange_exchange _ _
  loc_back := exchange_exchange _ _
  back_loc := exchange_exchange _ _
  uri_none := by decide
  loc_xmlns := by decide

/-- the schema of Props/Example now reads `namespace p = "urn:v"`, `doc = element p:doc { attribute id { text }, mixed { item* } }`,
`item = element p:row { attribute k { "a" }, item* }` -/
theorem C95_case : Ex.env.map (pattern ρ) = [
      .element (.named "urn:v".toList "doc".toList) (.group [.attr (.named [] "id".toList) .text, .mixed (.zeroOrMore (.ref 1))]),
      .element (.named "urn:v".toList "row".toList) (.group [.attr (.named [] "k".toList) (.datatypeValue ['a']), .zeroOrMore (.ref 1)])] ∧
    (doc ρ Ex.doc).atts = [⟨[], "id".toList, ['7']⟩, ⟨"xmlns".toList, ['p'], "urn:v".toList⟩] := by
  refine ⟨?_, rfl⟩
  simp [Ex.env, Ex.docBody, Ex.itemBody, Ex.docName, Ex.itemName, pattern, patterns, names, ρ, exchange]

/-- the theorem applied: with these names the validator accepts the document -/
theorem C95_case_accepted {n m : Nat} {t0 t' : VState Unit Str} {r : Except VErr Unit}
    (hnew : newValidator (Ex.env.map (pattern ρ)) n (pattern ρ Ex.start) = .ok t0)
    (hrun : runToks Ex.lib m (doc ρ Ex.doc).toks t0 = .ok (r, t')) : r = .ok () := by
  obtain ⟨s, h⟩ := Ex.accepted
  refine (C95_checked ρ (k := 10) (by decide)
    (by simp [XDoc.Proper, XDoc.root, Ex.doc, Ex.item, properL, XNode.proper]) (by decide) Ex.new_ok h hnew hrun).1 rfl

end OpaqueEx
end Verif
