import Verif.Props.SeenTool
import Verif.Props.Viable
/-
C85: the tool stops at the first place where the document can no longer be mended.
-/
namespace Verif
open Loc Tool Viable

/-- the tokens of some document that matches the schema as written begin with these -/
def Completable (F : Files) (x : Ext) (schema : Str) (ts : List Verif.Token) : Prop :=
  ∃ (d : XDoc) (node : Node) (more : List Verif.Token), d.toks = ts ++ more ∧ d.Tame ∧ d.Means node ∧ SchemaMatches F x schema node

theorem accepted_before {D V : Type} [DecidableEq D] [DecidableEq V] {L : Lib D V} {n : Nat} {i : Loc.Event} {e : Err} {s' : Loc.State D V} :
    ∀ {a b : List Loc.Event} {s : Loc.State D V},
    Loc.runEvents L n (a ++ b ++ [i]) s = .ok (List.replicate (a ++ b).length (.ok ()) ++ [.error e], s') →
    ∃ s1, itemLoop L n a s = .ok (none, s1)
  | [], _, s, _ => ⟨s, rfl⟩
  | y :: a, b, s, h => by
    obtain ⟨r, s1, rs', h1, h2, h3⟩ := runEvents_cons h
    simp only [List.cons_append, List.length_cons, List.replicate_succ, List.cons.injEq] at h3
    obtain ⟨rfl, rfl⟩ := h3
    obtain ⟨s2, h4⟩ := accepted_before (a := a) (b := b) h2
    exact ⟨s2, by rw [itemLoop_cons, h1]; exact h4⟩

section
variable {x : Ext} {order : List (Pat Datatypes DatatypeValues) → List (Pat Datatypes DatatypeValues)}
  {emits : Str → List Diag → Bool} {fuel n : Nat} {schema : Str} {xmls : List XmlFile} {F : Files}

/-- C85.  If the tool exits with 2, then it is for a token of some document such that
(1) up to and including any tag before this token, the document could still be completed to one that matches the schema as written;
(2) with this token, it cannot;
(3) what is printed are the diagnostics of an error about this token. -/
theorem C85_stops_at_the_first_hopeless_token (h : Tool.run F x order emits fuel n schema xmls = .exit 2)
    (hok : ∀ k st r, compileFile F x fuel fuel schema CState.init = .ok (k, st) → st.cell k = some r →
      SchemaOK (stdLib x) st.env r.pattern true ∧ StartOK st.env r.pattern ∧ SchemaUsable (stdLib x) st.env r.pattern)
    (hdocs : ∀ f ∈ xmls, ∃ d node, IsDocument f d ∧ d.Tame ∧ d.Means node) :
    ∃ txt before i after, XmlFile.doc txt (before ++ i :: after) ∈ xmls ∧ ∃ toks t, before.map (·.plain) = toks.map some ∧ i.plain = some t ∧
      (∀ ts e rest, toks = ts ++ .elementEnd e :: rest → Completable F x schema (ts ++ [.elementEnd e])) ∧
      ¬ Completable F x schema (toks ++ [t]) ∧
      ∃ e ds, Blames before i e ∧ (∃ s s', Loc.diagnostic order n txt e s = .ok (some ds, s')) ∧ emits txt ds = true := by
  obtain ⟨k, st, r, pre, txt, items, rest, s0, before, i, e, s, ds, s', hc, hr, rfl, _, hnew, href, hdiag, hemit⟩ := C45_exit_two_iff.1 h
  have hmem : XmlFile.doc txt items ∈ pre ++ XmlFile.doc txt items :: rest := by simp
  obtain ⟨d, node, hdoc, ht, hm⟩ := hdocs _ hmem
  obtain ⟨hs, h0, hu⟩ := hok k st r hc hr
  obtain ⟨txt', items', heq, hi⟩ := hdoc
  cases heq
  obtain ⟨⟨after, rfl⟩, hrun⟩ := href
  have hnew' : Verif.newValidator st.env fuel r.pattern = .ok s0.plain := by rw [newValidator_plain, hnew]; rfl
  obtain ⟨r', hr', hiff⟩ := C53_compiled_schema_means_its_source (l := []) (fun _ _ h => by cases h) hc
  rw [hr] at hr'; cases hr'
  rw [List.map_append, List.map_cons] at hi
  obtain ⟨bts, rts, hd, hb, hrest⟩ := List.map_eq_append_iff.1 hi.symm
  obtain ⟨t, ats, rfl, htok, hafter⟩ := List.map_eq_cons_iff.1 hrest
  refine ⟨txt, before, i, after, hmem, bts, t, hb.symm, htok.symm, ?_, ?_, e, ds,
    C64_errors_are_about_their_item hnew hrun (after := []) rfl (by simp), ⟨_, _, hdiag⟩, hemit⟩
  · rintro ts el rest rfl
    rw [show ts ++ Verif.Token.elementEnd el :: rest = (ts ++ [.elementEnd el]) ++ rest by simp, List.map_append] at hb
    obtain ⟨a, b, rfl, ha, hb'⟩ := List.map_eq_append_iff.1 hb.symm
    obtain ⟨s1, h1⟩ := accepted_before hrun
    have hp := itemLoop_plain (L := stdLib x) (n := n) (s := s0) ha
    rw [h1] at hp
    obtain ⟨d', node', more, g1, g2, g3, g4, _⟩ := C77_accepted_beginnings_can_be_completed hs.relax h0 hu ht hm
      (rest := rest ++ t :: ats) (by rw [hd]; simp) hnew' hp
    exact ⟨d', node', more, g1, g2, g3, (hiff node').mp g4⟩
  · rintro ⟨d', node', more, g1, g2, g3, g4⟩
    have hp := itemLoop_plain (L := stdLib x) (n := n) (s := s0) (items := before ++ [i]) (ts := bts ++ [t]) (by simp [hb, htok])
    rw [itemLoop_some.2 ⟨before, i, ⟨[], rfl⟩, hrun⟩] at hp
    exact C03_rejection_is_final hs h0 hnew' hp g1 g2 g3 ((hiff node').mpr g4)
end

/-! ### a case -/
namespace EarliestEx
open Verif.Ex

theorem usable {x : Ext} {env : Env Datatypes DatatypeValues} : SchemaUsable (stdLib x) env raPattern := by
  have ha : Match (stdLib x) env (.element (.named [] ['a']) .empty) [] [.elem ⟨none, ['a']⟩ [] []] := .element rfl .nil .empty
  refine ⟨fun nc p => .element nc p = raPattern ∨ .element nc p = Pattern.element (D := Datatypes) (V := DatatypeValues) (.named [] ['a']) .empty, ?_,
    .element (Nat.le_refl _) (.inl rfl)⟩
  rintro nc p (h | h)
  · cases h
    exact ⟨.element (by decide) (.inr rfl), .elem ⟨none, ['r']⟩ [] [.elem ⟨none, ['a']⟩ [] []], by simp [Proper, ProperL, NameOK],
      .element rfl (.keep .nil) ha⟩
  · cases h
    exact ⟨.empty, .elem ⟨none, ['a']⟩ [] [], by simp [Proper, ProperL, NameOK], ha⟩

set_option maxRecDepth 100000 in
/-- the tool with the schema `element r { element a { empty } }` and the documents `<r><a/></r>` and `<r><b/></r>` -/
theorem C85_case : ∃ txt before i after, XmlFile.doc txt (before ++ i :: after) ∈ [rDoc 'a', rDoc 'b'] ∧
    ∃ toks t, before.map (·.plain) = toks.map some ∧ i.plain = some t ∧
      (∀ ts e rest, toks = ts ++ .elementEnd e :: rest → Completable (one' ra) ext "s".toList (ts ++ [.elementEnd e])) ∧
      ¬ Completable (one' ra) ext "s".toList (toks ++ [t]) ∧
      ∃ e ds, Blames before i e ∧ (∃ s s' : Loc.State Datatypes DatatypeValues, Loc.diagnostic id 30 txt e s = .ok (some ds, s')) := by
  have h : Tool.run (one' ra) ext id (fun _ _ => true) 30 30 "s".toList [rDoc 'a', rDoc 'b'] = .exit 2 := by decide +kernel
  obtain ⟨txt, before, i, after, h1, toks, t, h2, h3, h4, h5, e, ds, h6, h7, _⟩ := C85_stops_at_the_first_hopeless_token h
    (fun k st r hc hr => by rw [ra_hok hc hr]; exact ⟨(ra_ok true).1, (ra_ok (x := ext) true).2.1, usable⟩)
    (fun f hf => by
      simp only [List.mem_cons, List.not_mem_nil, or_false] at hf
      rcases hf with rfl | rfl
      · exact ⟨_, _, rX_ok (.inl rfl)⟩
      · exact ⟨_, _, rX_ok (.inr rfl)⟩)
  exact ⟨txt, before, i, after, h1, toks, t, h2, h3, h4, h5, e, ds, h6, h7⟩

end EarliestEx
end Verif
