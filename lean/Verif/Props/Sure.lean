import Verif.Proof.Sure
import Verif.Props.Checked
import Verif.Props.ToolTotal
/-
C89: every document is judged.  A schema that passes the tests, and asks for no datatype without a check, ends for every document, and
unless the pattern limit is hit the verdict is whether the document matches.
-/
namespace Verif
open XS Sure

section
variable {D V : Type} [DecidableEq D] [DecidableEq V] {L : Lib D V} {env : Env D V} {start : Pattern D V}

/-- C89.  If the datatype library answers for all datatypes and values the schema asks for, then nothing but the pattern limit
aborts the validator, whatever items the tokenizer produces. -/
theorem C89_only_the_limit_aborts (hs : SchemaOK L env start false) (ha : NoAlias env start) (hL : Answered L env start) (fuel : Nat) :
    (∀ e, newValidator env fuel start = .error e → e = .fuel ∨ e = .capacity) ∧
    ∀ s0, newValidator env fuel start = .ok s0 → ∀ es : List Event, Framed es → ∀ n e,
      runEvents L n es s0 = .error e → e = .fuel ∨ e = .capacity := by
  obtain ⟨h1, h2⟩ := C06_no_internal_panic (L := L) hs ha fuel
  refine ⟨h1, fun s0 hn es hf n e he => ?_⟩
  rcases h2 s0 hn es hf n e he with h | h | ⟨rfl, _⟩
  · exact .inl h
  · exact .inr h
  · exact absurd he (events_sure hL hn es)

/-- C89.  The same in the words of C07: building the validator comes to an end, and then so does validating any items; both end without
aborting, or because of the pattern limit. -/
theorem C89_ends (hs : SchemaOK L env start false) (ha : NoAlias env start) (hL : Answered L env start) :
    ∃ N r0, (∀ n, N ≤ n → newValidator env n start = r0) ∧ (r0 = .error .capacity ∨ ∃ s0, r0 = .ok s0 ∧
      ∀ es : List Event, Framed es → ∃ M r, (∀ m, M ≤ m → runEvents L m es s0 = r) ∧
        (r = .error .capacity ∨ ∃ rs s', r = .ok (rs, s') ∧ rs.length = es.length)) := by
  obtain ⟨N, r0, h1, h2⟩ := C07_building_terminates env start
  refine ⟨N, r0, h2, ?_⟩
  obtain ⟨p1, p2⟩ := C89_only_the_limit_aborts hs ha hL N
  have hN := h2 N (Nat.le_refl _)
  cases r0 with
  | error e =>
    rcases p1 e hN with rfl | rfl
    · exact absurd rfl h1
    · exact .inl rfl
  | ok s0 =>
    refine .inr ⟨s0, rfl, fun es hf => ?_⟩
    obtain ⟨M, r, h3, h4, h5⟩ := C07_validation_terminates (L := L) hs hN hf
    refine ⟨M, r, h4, ?_⟩
    cases r with
    | error e =>
      rcases p2 s0 hN es hf M e (h4 M (Nat.le_refl _)) with rfl | rfl
      · exact absurd rfl h3
      · exact .inl rfl
    | ok r => exact .inr ⟨r.1, r.2, rfl, h5 _ _ rfl⟩

theorem toks_end (hs : SchemaOK L env start false) (ha : NoAlias env start) (hL : Answered L env start) {N : Nat} {s0 : VState D V}
    (hn : newValidator env N start = .ok s0) (d : XDoc) :
    ∃ M r, (∀ m, M ≤ m → runToks L m d.toks s0 = r) ∧ (r = .error .capacity ∨ ∃ v s', r = .ok (v, s')) := by
  obtain ⟨M, r, h3, h4, _⟩ := C07_validation_terminates (L := L) hs hn d.framed
  have hM : runToks L M d.toks s0 ≠ .error .fuel := fun h => h3 ((h4 M (Nat.le_refl _)).symm.trans (toks_events h))
  have fm : FM (fun n => runToks L n d.toks) := fun n => fa_runToks L n _
  refine ⟨M, runToks L M d.toks s0, fun m hm => fm.stable hM hm, ?_⟩
  cases hr : runToks L M d.toks s0 with
  | error e =>
    rcases (C89_only_the_limit_aborts hs ha hL N).2 s0 hn _ d.framed M e (toks_events hr) with rfl | rfl
    · exact absurd hr hM
    · exact .inl rfl
  | ok r => exact .inr ⟨r.1, r.2, rfl⟩
end

/-! ### the libraries of the validator -/
section
variable {x : Ext} {env : Env Datatypes DatatypeValues} {start : Pattern Datatypes DatatypeValues}

/-- C89.  The datatypes and values the built-in libraries answer for, whatever the string: all but xsd:NMTOKEN, xsd:NMTOKENS, xsd:token
and values of xsd:QName. -/
theorem C89_answers_iff (a : Datatypes ⊕ DatatypeValues) : written a = true ↔ Answers (stdLib x) a := written_iff x a

/-- C89.  The test decides whether a schema asks for nothing else. -/
theorem C89_test_decides :
    allWritten env (4 * env.length + (refsL env).length + 2) start = true ↔ Answered (stdLib x) env start := by
  refine ⟨allWritten_sound x, fun h => ?_⟩
  simp only [allWritten, Bool.and_eq_true]
  refine ⟨⟨Check.closed_at ?_, List.all_eq_true.2 fun a ha => (written_iff x a).2 (h.1 a ha)⟩, List.all_eq_true.2 fun n hn => ?_⟩
  · have := Check.missing_le (env := env) start.refs
    omega
  · have hu := Check.reach_uses (env := env) _ (fun n hn => Uses.here hn) n hn
    cases he : env[n]? with
    | none => rfl
    | some q => exact List.all_eq_true.2 fun a ha => (written_iff x a).2 (h.2 n hu q he a ha)

/-- C89.  For a schema that passes the tests the validator's only abort is the pattern limit. -/
theorem C89_checked_schemas_never_panic {k : Nat} (h : Check.schema env k start = true) (ha : Check.noAlias env k start = true)
    (hw : allWritten env k start = true) (fuel : Nat) :
    (∀ e, newValidator env fuel start = .error e → e = .fuel ∨ e = .capacity) ∧
    ∀ s0, newValidator env fuel start = .ok s0 → ∀ es : List Event, Framed es → ∀ n e,
      runEvents (stdLib x) n es s0 = .error e → e = .fuel ∨ e = .capacity :=
  C89_only_the_limit_aborts (Check.schema_sound h).1.relax (Check.noAlias_sound ha) (allWritten_sound x hw) fuel

end

section
variable {x : Ext} {fuel m k j : Nat} {name : Str} {F : Files} {st : CState} {rule : DefineRule}

/-- what is said of a schema: a validator for it can be built, unless it has too many patterns; and any document, unless too many patterns
come up, is accepted if it matches the schema as its files say, and refused if not -/
def Judges (x : Ext) (st : CState) (rule : DefineRule) (F : Files) (name : Str) (Covered : XDoc → Prop) : Prop :=
  ∃ N r0, (∀ n, N ≤ n → newValidator st.env n rule.pattern = r0) ∧ (r0 = .error .capacity ∨ ∃ s0, r0 = .ok s0 ∧
    ∀ d : XDoc, d.Proper → Covered d → ∃ M r, (∀ m, M ≤ m → runToks (stdLib x) m d.toks s0 = r) ∧
      (r = .error .capacity ∨
        (∃ s', r = .ok (.ok (), s')) ∧ ReadMatches F x name d ∨
        (∃ e s', r = .ok (.error e, s')) ∧ ¬ ReadMatches F x name d))

/-- C89.  Every document is judged: if the compiled schema passes the tests, then for every document (whose character data is nowhere
interrupted, unless no element asks for data) validation ends, and unless the pattern limit is hit it ends with the right verdict. -/
theorem C89_every_document_is_judged (hc : compileFile F x fuel m name (.fresh []) = .ok (k, st)) (hk : st.cell k = some rule)
    (hs : Check.schema st.env j rule.pattern = true) (ha : Check.noAlias st.env j rule.pattern = true)
    (hw : allWritten st.env j rule.pattern = true) :
    Judges x st rule F name fun d => (Check.textSchema st.env j rule.pattern || Check.whole d.root) = true := by
  obtain ⟨N, r0, h1, h2⟩ := C89_ends (Check.schema_sound (L := stdLib x) hs).1.relax (Check.noAlias_sound ha) (allWritten_sound x hw)
  refine ⟨N, r0, h1, ?_⟩
  rcases h2 with h | ⟨s0, rfl, _⟩
  · exact .inl h
  · refine .inr ⟨s0, rfl, fun d hg hb => ?_⟩
    have hnew := h1 N (Nat.le_refl _)
    obtain ⟨M, r, h3, h4⟩ := toks_end (Check.schema_sound (L := stdLib x) hs).1.relax (Check.noAlias_sound ha) (allWritten_sound x hw) hnew d
    refine ⟨M, r, h3, ?_⟩
    rcases h4 with h | ⟨v, s', rfl⟩
    · exact .inl h
    · have hiff := C88_accepted_iff hc hk hs hb hg hnew (h3 M (Nat.le_refl _))
      cases v with
      | error e => exact .inr (.inr ⟨⟨e, s', rfl⟩, fun h => by have := hiff.2 h; cases this⟩)
      | ok u => exact .inr (.inl ⟨⟨s', rfl⟩, hiff.1 rfl⟩)

/-- C89.  The same for schemas written in the compact syntax. -/
theorem C89_every_document_is_judged_compact {text : Str → Option Str} {sch : Str → Except LoadErr SSchema} {join : Str → Str → Option Str}
    (hw' : Written text sch) (hc : compileFile (compactFiles text join) x fuel m name (.fresh []) = .ok (k, st)) (hk : st.cell k = some rule)
    (hs : Check.schema st.env j rule.pattern = true) (ha : Check.noAlias st.env j rule.pattern = true)
    (hw : allWritten st.env j rule.pattern = true) :
    Judges x st rule ⟨sch, join⟩ name fun d => (Check.textSchema st.env j rule.pattern || Check.whole d.root) = true := by
  rw [C58_texts_compile_as_schemas hw'] at hc
  exact C89_every_document_is_judged hc hk hs ha hw

/-- C89.  The same for schemas written in the XML syntax. -/
theorem C89_every_document_is_judged_xml {ok : Str → Bool} {text : Str → Option (Str × SchemaDoc)} {sch : Str → Except LoadErr SSchema}
    (hw' : WrittenXml ok text sch) (hc : compileFile (xmlFiles ok text) x fuel m name (.fresh []) = .ok (k, st)) (hk : st.cell k = some rule)
    (hs : Check.schema st.env j rule.pattern = true) (ha : Check.noAlias st.env j rule.pattern = true)
    (hw : allWritten st.env j rule.pattern = true) :
    Judges x st rule ⟨sch, joinPath⟩ name fun d => (Check.textSchema st.env j rule.pattern || Check.whole d.root) = true := by
  rw [C59_documents_compile_as_schemas hw'] at hc
  exact C89_every_document_is_judged hc hk hs ha hw
end

/-! ### cases -/
namespace SureEx
open Needed

/-- the datatypes of `element r { attribute k { xsd:boolean }, list { string "a", (string "b" | xsd:language)+ } }` are all answered for -/
def asking : Pattern Datatypes DatatypeValues :=
  mel 'r' (.group [.attr (.named [] ['k']) (.datatypeName (.xsd (.boolean none))),
    .list (.group [token 'a', .oneOrMore (.choice [token 'b', .datatypeName (.xsd (.language none))])])])

/-- `asking` passes all tests -/
theorem C89_case : Check.schema [] 2 asking = true ∧ Check.noAlias [] 2 asking = true ∧ allWritten [] 2 asking = true ∧ (asks asking).length = 4 := by
  refine ⟨?_, ?_, ?_, ?_⟩ <;> decide

/-- `element r { a }`, `a = xsd:token` does not -/
theorem C89_case_refused : allWritten [.datatypeName (.xsd (.token .unbounded))] 7 (mel 'r' (.ref 0)) = false := by decide

/-- a library that does not know its only datatype -/
def dumb : Lib Unit Unit := ⟨fun _ _ => none, fun _ _ => none⟩

/-- what the condition is for: `element r { data }` and the document `<r>x</r>`, if the library does not answer -/
theorem C89_unanswered_aborts : ∃ s0, newValidator [] 5 (.element (.named [] ['r']) (.datatypeName ()) : Pattern Unit Unit) = .ok s0 ∧
    runToks dumb 9 [.elementStart [] ['r'], .elementEnd .open, .text ['x'], .elementEnd (.close [] ['r'])] s0 = .error .unimplemented := by
  have key : (match newValidator [] 5 (.element (.named [] ['r']) (.datatypeName ()) : Pattern Unit Unit) with
      | .error _ => false
      | .ok s0 => match runToks dumb 9 [.elementStart [] ['r'], .elementEnd .open, .text ['x'], .elementEnd (.close [] ['r'])] s0 with
        | .error .unimplemented => true
        | _ => false) = true := by decide +kernel
  cases hn : newValidator [] 5 (.element (.named [] ['r']) (.datatypeName ()) : Pattern Unit Unit) with
  | error e => rw [hn] at key; cases key
  | ok s0 =>
    rw [hn] at key
    refine ⟨s0, rfl, ?_⟩
    simp only at key
    split at key
    · assumption
    · cases key

/-- the theorem applied: `element r { element a { empty } }`, as an XML document -/
theorem C89_case_applied : ∃ st, compileFile (xmlFiles Ex.anyLib SeenSourceEx.texts) Ex.ext 30 30 "s".toList (.fresh []) = .ok (0, st) ∧
    Judges Ex.ext st (.assignCombine none SeenSourceEx.pattern) ⟨SeenSourceEx.said, joinPath⟩ "s".toList fun _ => True := by
  obtain ⟨st, hc, hcells⟩ := SeenSourceEx.compiled
  have hk : st.cell 0 = some (.assignCombine none SeenSourceEx.pattern) := by simp only [CState.cell, hcells]; rfl
  have he : st.env = [SeenSourceEx.pattern] := by simp [CState.env, hcells, DefineRule.pattern]
  have ht : Check.textSchema st.env 10 SeenSourceEx.pattern = true := by rw [he]; decide
  obtain ⟨N, r0, h1, h2⟩ := C89_every_document_is_judged_xml (j := 10) SeenSourceEx.written hc hk (by rw [he]; decide) (by rw [he]; decide) (by rw [he]; decide)
  refine ⟨st, hc, N, r0, h1, h2.imp id fun ⟨s0, a, b⟩ => ⟨s0, a, fun d hd _ => b d hd ?_⟩⟩
  rw [DefineRule.pattern, ht]; rfl

end SureEx
end Verif
