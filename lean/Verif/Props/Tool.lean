import Verif.Proof.Tool
import Verif.Props.SchemaExact
import Verif.Props.SchemaTerm
/-
C45: the exit status of the command line tool.
-/
namespace Verif
open Loc Tool
variable {F : Files} {x : Ext} {order : List (Pat Datatypes DatatypeValues) → List (Pat Datatypes DatatypeValues)}
  {emits : Str → List Diag → Bool} {fuel n : Nat} {schema : Str} {xmls : List XmlFile}

/-- the outcome for a schema that compiles -/
theorem run_compiled {k : Nat} {st : CState} (h : compileFile F x fuel fuel schema CState.init = .ok (k, st)) :
    ∃ r, st.cell k = some r ∧ Tool.run F x order emits fuel n schema xmls = documents (stdLib x) order emits fuel n st.env r.pattern xmls := by
  obtain ⟨r, hr, _⟩ := C53_compiled_schema_means_its_source (l := []) (fun _ _ h => by cases h) h
  refine ⟨r, hr, ?_⟩
  unfold Tool.run
  simp only [h, hr]

theorem run_refused {e : CFault} (h : compileFile F x fuel fuel schema CState.init = .error e) :
    (Tool.run F x order emits fuel n schema xmls = .exit 1 ∧ ∃ err, e = .err err ∧ panicked err = false ∧ diagnosable err = true) ∨
    Tool.run F x order emits fuel n schema xmls = .panic ∧ (∀ err, e = .err err → panicked err = true ∨ diagnosable err = false) ∧ e ≠ .fuel ∨
    Tool.run F x order emits fuel n schema xmls = .fuel ∧ e = .fuel := by
  unfold Tool.run
  simp only [h]
  cases e with
  | fuel => exact .inr (.inr ⟨rfl, rfl⟩)
  | panic p => exact .inr (.inl ⟨rfl, nofun, nofun⟩)
  | err err =>
    cases h1 : panicked err with
    | true => exact .inr (.inl ⟨by simp [h1], (fun _ h => by cases h; exact .inl h1), nofun⟩)
    | false =>
      cases h2 : diagnosable err with
      | true => exact .inl ⟨by simp [h1, h2], err, rfl, h1, h2⟩
      | false => exact .inr (.inl ⟨by simp [h1, h2], (fun _ h => by cases h; exact .inr h2), nofun⟩)

/-- **C45**: there are three exit codes. -/
theorem C45_exit_codes {c : Nat} (h : Tool.run F x order emits fuel n schema xmls = .exit c) : c = 0 ∨ c = 1 ∨ c = 2 := by
  cases hc : compileFile F x fuel fuel schema CState.init with
  | error e =>
    rcases run_refused (order := order) (emits := emits) (n := n) (xmls := xmls) hc with ⟨h', _⟩ | ⟨h', _⟩ | ⟨h', _⟩ <;> rw [h] at h' <;> cases h'
    exact .inr (.inl rfl)
  | ok r =>
    obtain ⟨r', _, hr⟩ := run_compiled (order := order) (emits := emits) (n := n) (xmls := xmls) hc
    rw [hr] at h
    rcases documents_cases (L := stdLib x) (order := order) (emits := emits) (fuel := fuel) (n := n) (env := r.2.env) (start := r'.pattern) xmls with
      ⟨h', _⟩ | ⟨_, _, _, _, _, _, _, _, _, _, _, h', _⟩ | ⟨_, h' | h'⟩ <;> rw [h] at h' <;> cases h'
    · exact .inl rfl
    · exact .inr (.inr rfl)

/-- **C45**: the tool exits with 0 exactly if the schema compiles and, for each of the documents, the file can be read and every item
of it is accepted. -/
theorem C45_exit_zero_iff : Tool.run F x order emits fuel n schema xmls = .exit 0 ↔
    ∃ k st r, compileFile F x fuel fuel schema CState.init = .ok (k, st) ∧ st.cell k = some r ∧
      ∀ f ∈ xmls, AcceptsFile (stdLib x) fuel n st.env r.pattern f := by
  constructor
  · intro h
    cases hc : compileFile F x fuel fuel schema CState.init with
    | error e =>
      rcases run_refused (order := order) (emits := emits) (n := n) (xmls := xmls) hc with ⟨h', _⟩ | ⟨h', _⟩ | ⟨h', _⟩ <;> rw [h] at h' <;> cases h'
    | ok r =>
      obtain ⟨k, st⟩ := r
      obtain ⟨r, hr1, hr⟩ := run_compiled (order := order) (emits := emits) (n := n) (xmls := xmls) hc
      rw [hr] at h
      rcases documents_cases (L := stdLib x) (order := order) (emits := emits) (fuel := fuel) (n := n) (env := st.env) (start := r.pattern) xmls with
        ⟨h', h2⟩ | ⟨_, _, _, _, _, _, _, _, _, _, _, h', _⟩ | ⟨_, h' | h'⟩
      · exact ⟨k, st, r, rfl, hr1, h2⟩
      all_goals rw [h] at h'; cases h'
  · rintro ⟨k, st, r, hc, hr, h⟩
    obtain ⟨r', hr1, hr'⟩ := run_compiled (order := order) (emits := emits) (n := n) (xmls := xmls) hc
    rw [hr] at hr1; cases hr1
    rw [hr']
    have := documents_accepts (order := order) (emits := emits) (rest := []) h
    rw [List.append_nil] at this
    rw [this]; rfl

/-- **C45**: the tool exits with 1 exactly if compiling the schema ends with an error for which there is a message. -/
theorem C45_exit_one_iff : Tool.run F x order emits fuel n schema xmls = .exit 1 ↔
    ∃ e, compileFile F x fuel fuel schema CState.init = .error (.err e) ∧ panicked e = false ∧ diagnosable e = true := by
  cases hc : compileFile F x fuel fuel schema CState.init with
  | error e =>
    rcases run_refused (order := order) (emits := emits) (n := n) (xmls := xmls) hc with ⟨h', err, rfl, h⟩ | ⟨h', h, _⟩ | ⟨h', rfl⟩
    · exact ⟨fun _ => ⟨err, rfl, h⟩, fun _ => h'⟩
    · rw [h']
      refine ⟨nofun, ?_⟩
      rintro ⟨err, h1, h2, h3⟩
      cases h1
      rcases h err rfl with h | h
      · rw [h2] at h; cases h
      · rw [h3] at h; cases h
    · rw [h']; exact ⟨nofun, by rintro ⟨_, h, _⟩; cases h⟩
  | ok r =>
    obtain ⟨r', _, hr⟩ := run_compiled (order := order) (emits := emits) (n := n) (xmls := xmls) hc
    rw [hr]
    refine ⟨fun h => ?_, by rintro ⟨_, h, _⟩; cases h⟩
    rcases documents_cases (L := stdLib x) (order := order) (emits := emits) (fuel := fuel) (n := n) (env := r.2.env) (start := r'.pattern) xmls with
      ⟨h', _⟩ | ⟨_, _, _, _, _, _, _, _, _, _, _, h', _⟩ | ⟨_, h' | h'⟩ <;> rw [h] at h' <;> cases h'

/-- **C45**: the tool exits with 2 exactly if the schema compiles, some document has an item that is not accepted, with all the
items before it, and all the documents before it, accepted, and the diagnostics of the error can be made and printed. -/
theorem C45_exit_two_iff : Tool.run F x order emits fuel n schema xmls = .exit 2 ↔
    ∃ k st r pre text items rest s0 before i e s ds s', compileFile F x fuel fuel schema CState.init = .ok (k, st) ∧ st.cell k = some r ∧
      xmls = pre ++ .doc text items :: rest ∧ (∀ f ∈ pre, AcceptsFile (stdLib x) fuel n st.env r.pattern f) ∧
      Loc.newValidator st.env fuel r.pattern = .ok s0 ∧ RefusesAt (stdLib x) n s0 items before i e s ∧
      Loc.diagnostic order n text e s = .ok (some ds, s') ∧ emits text ds = true := by
  constructor
  · intro h
    cases hc : compileFile F x fuel fuel schema CState.init with
    | error e =>
      rcases run_refused (order := order) (emits := emits) (n := n) (xmls := xmls) hc with ⟨h', _⟩ | ⟨h', _⟩ | ⟨h', _⟩ <;> rw [h] at h' <;> cases h'
    | ok r =>
      obtain ⟨k, st⟩ := r
      obtain ⟨r, hr1, hr⟩ := run_compiled (order := order) (emits := emits) (n := n) (xmls := xmls) hc
      rw [hr] at h
      rcases documents_cases (L := stdLib x) (order := order) (emits := emits) (fuel := fuel) (n := n) (env := st.env) (start := r.pattern) xmls with
        ⟨h', h2⟩ | ⟨a1, a2, a3, a4, a5, a6, a7, a8, a9, a10, a11, h', h2⟩ | ⟨_, h' | h'⟩
      · rw [h] at h'; cases h'
      · exact ⟨k, st, r, a1, a2, a3, a4, a5, a6, a7, a8, a9, a10, a11, rfl, hr1, h2⟩
      all_goals rw [h] at h'; cases h'
  · rintro ⟨k, st, r, pre, text, items, rest, s0, before, i, e, s, ds, s', hc, hr, h1, h2, h3, h4, h5, h6⟩
    obtain ⟨r', hr1, hr'⟩ := run_compiled (order := order) (emits := emits) (n := n) (xmls := xmls) hc
    rw [hr] at hr1; cases hr1
    rw [hr', h1, documents_accepts h2]
    unfold documents
    simp only [h3, itemLoop_some.2 ⟨before, i, h4⟩, h5, h6, if_true]

/-- **C45**, C57: with a faulty schema no document is looked at; with a schema without faults the tool does not exit with 1. -/
theorem C45_exit_code_and_schema_faults (h : Tool.run F x order emits fuel n schema xmls ≠ .fuel) :
    (Tool.run F x order emits fuel n schema xmls = .exit 1 → ∃ e, SchemaFault F x schema e) ∧
    (∀ e, SchemaFault F x schema e → Tool.run F x order emits fuel n schema xmls = .exit 1 ∨ Tool.run F x order emits fuel n schema xmls = .panic) := by
  have hl : Faithful F ([] : List (Str × SSchema)) := fun _ _ h => by cases h
  constructor
  · intro h1
    obtain ⟨e, he, _⟩ := C45_exit_one_iff.1 h1
    rcases C57_outcome_is_the_fault (F := F) (x := x) (n := fuel) (m := fuel) (name := schema) (l := []) hl (by show compileFile F x fuel fuel schema CState.init ≠ _; rw [he]; nofun) with ⟨⟨k, st, hk⟩, _⟩ | ⟨e', _, h'⟩
    · have hk : compileFile F x fuel fuel schema CState.init = .ok (k, st) := hk
      rw [he] at hk; cases hk
    · exact ⟨_, h'⟩
  · intro e he
    cases hc : compileFile F x fuel fuel schema CState.init with
    | error e =>
      rcases run_refused (order := order) (emits := emits) (n := n) (xmls := xmls) hc with ⟨h', _⟩ | ⟨h', _⟩ | ⟨h', _⟩
      · exact .inl h'
      · exact .inr h'
      · exact absurd h' h
    | ok r => exact absurd he (C57_compiled_schemas_are_faultless (l := []) (k := r.1) (st := r.2) hl hc e)

theorem tokensIn_take {text : Str} {items before after : List Loc.Event} {i : Loc.Event} (h : TokensIn text items) (he : items = before ++ i :: after) :
    TokensIn text (before ++ [i]) := by
  intro t ht
  refine h t ?_
  rw [he]
  rcases List.mem_append.1 ht with h | h
  · exact List.mem_append_left _ h
  · rw [List.mem_singleton.1 h]; simp

/-- the diagnostics of an error at which the tool stops -/
theorem refusal_diagnosed {D V : Type} [DecidableEq D] [DecidableEq V] {L : Lib D V} {env : Env D V} {start : Pattern D V} {c : Bool} {order : List (Pat D V) → List (Pat D V)}
    (hok : SchemaOK L env start c) (horder : ∀ l, (order l).Perm l) (hprints : Prints emits)
    {s0 s : Loc.State D V} {text : Str} {items before : List Loc.Event} {i : Loc.Event} {e : Err}
    (hnew : Loc.newValidator env fuel start = .ok s0) (href : RefusesAt L n s0 items before i e s) (hin : TokensIn text items)
    (hx : ∀ row col, e ≠ .xml row col) (hb : ¬ BadNumber i e) :
    ∃ N ds, emits text ds = true ∧ ∀ m, N ≤ m → Loc.diagnostic order m text e s = .ok (some ds, s) := by
  obtain ⟨⟨after, he⟩, hrun⟩ := href
  have hin' := tokensIn_take hin he
  have hget : (List.replicate before.length (Except.ok () : Except Err Unit) ++ [.error e])[before.length]? = some (.error e) := by
    rw [List.getElem?_append_right (by simp)]; simp
  obtain ⟨N, p, names, help, _, _, h3, h4⟩ := C65_errors_are_diagnosed (order := order) (after := []) hok
    ⟨fuel, n, s0, _, _, hnew, hrun⟩ horder hnew hrun rfl hin' hget hx
  refine ⟨N, _, hprints _ _ ?_, h4⟩
  intro d hd b k hbk
  rcases List.mem_cons.1 hd with rfl | hd
  · rcases C64_ranges_show_the_fault (after := []) hnew hrun rfl hin' hget with ⟨row, col, _, h⟩ | h | ⟨b', k', h1, l, m, r, h2, _⟩
    · exact absurd h (hx row col)
    · exact absurd h hb
    · rw [show e.range = some (b, k) from hbk] at h1
      cases h1; exact ⟨l, m, r, h2⟩
  · exfalso
    rw [h3] at hd
    cases e with
    | notAllowed t =>
      rcases List.mem_singleton.1 hd with rfl
      cases hbk
    | _ => cases hd

/-- **C45**: a document with an item that is not accepted makes the tool exit with 2, if the schema is well-formed, the documents
before it are accepted, and the error is neither one of the tokenizer nor about a character reference. -/
theorem C45_refused_document_exits_two {k : Nat} {st : CState} {r : DefineRule} {c : Bool}
    (hc : compileFile F x fuel fuel schema CState.init = .ok (k, st)) (hr : st.cell k = some r)
    (hok : SchemaOK (stdLib x) st.env r.pattern c) (horder : ∀ l, (order l).Perm l) (hprints : Prints emits)
    {pre rest : List XmlFile} {text : Str} {items before : List Loc.Event} {i : Loc.Event} {e : Err} {s0 s : Loc.State Datatypes DatatypeValues}
    (hxs : xmls = pre ++ .doc text items :: rest) (hpre : ∀ f ∈ pre, AcceptsFile (stdLib x) fuel n st.env r.pattern f)
    (hnew : Loc.newValidator st.env fuel r.pattern = .ok s0) (href : RefusesAt (stdLib x) n s0 items before i e s) (hin : TokensIn text items)
    (hx : ∀ row col, e ≠ .xml row col) (hb : ¬ BadNumber i e) :
    ∃ N, ∀ m, N ≤ m → Tool.run F x order emits fuel m schema xmls = .exit 2 := by
  obtain ⟨N, ds, h1, h2⟩ := refusal_diagnosed hok horder hprints hnew href hin hx hb
  refine ⟨max N n, fun m hm => C45_exit_two_iff.2 ⟨k, st, r, pre, text, items, rest, s0, before, i, e, s, ds, s, hc, hr, hxs,
    fun f hf => (hpre f hf).more (Nat.le_refl _) (by omega), hnew, ⟨href.1, runEvents_more href.2 (by omega)⟩, h2 m (by omega), h1⟩⟩

/-! ### what the documents are -/

theorem itemLoop_plain {D V : Type} [DecidableEq D] [DecidableEq V] {L : Lib D V} : ∀ {items : List Loc.Event} {ts : List Verif.Token} {s : Loc.State D V},
    items.map (·.plain) = ts.map some → Verif.runToks L n ts s.plain = match itemLoop L n items s with
      | .error f => .error f
      | .ok (none, s') => .ok (.ok (), s'.plain)
      | .ok (some e, s') => .ok (.error e.plain, s'.plain)
  | [], [], s, _ => rfl
  | [], _ :: _, s, h => by cases h
  | _ :: _, [], s, h => by cases h
  | .error _ _ :: _, _ :: _, s, h => by simp [Loc.Event.plain] at h
  | .token t :: items, t' :: ts, s, h => by
    simp only [List.map_cons, List.cons.injEq, Loc.Event.plain, Option.some.injEq] at h
    obtain ⟨rfl, h⟩ := h
    rw [itemLoop_cons]
    show (Verif.validate L n t.plain >>= _) s.plain = _
    rw [ST.bind_run, validate_plain]
    rw [show Loc.validateEvent L n (.token t) s = Loc.validate L n t s from rfl]
    cases Loc.validate L n t s with
    | error f => rfl
    | ok r =>
      obtain ⟨r, s1⟩ := r
      cases r with
      | error e => rfl
      | ok u => exact itemLoop_plain h

/-- the file is a document: its items are the tokens of `d` -/
def IsDocument (f : XmlFile) (d : XDoc) : Prop := ∃ text items, f = .doc text items ∧ items.map (·.plain) = d.toks.map some

/-- **C45**, C53: if the tool exits with 0, then each document matches the schema as written (for well-formed schemas, and documents
with the contents given). -/
theorem C45_exit_zero_documents_match (h : Tool.run F x order emits fuel n schema xmls = .exit 0)
    (hok : ∀ k st r, compileFile F x fuel fuel schema CState.init = .ok (k, st) → st.cell k = some r →
      SchemaOK (stdLib x) st.env r.pattern false ∧ StartOK st.env r.pattern)
    {f : XmlFile} (hf : f ∈ xmls) {d : XDoc} (hd : IsDocument f d) {node : Node} (ht : d.Tame) (hm : d.Means node) : SchemaMatches F x schema node := by
  obtain ⟨k, st, r, hc, hr, hall⟩ := C45_exit_zero_iff.1 h
  obtain ⟨hs, h0⟩ := hok k st r hc hr
  obtain ⟨text, items, rfl, hi⟩ := hd
  obtain ⟨s0, hnew, s, hrun⟩ := hall _ hf
  have hp := itemLoop_plain (L := stdLib x) (n := n) (s := s0) hi
  rw [itemLoop_none.2 hrun] at hp
  have hnew' : Verif.newValidator st.env fuel r.pattern = .ok s0.plain := by rw [newValidator_plain, hnew]; rfl
  exact C53_accepted_documents_match_source (l := []) (fun _ _ h => by cases h) hc hr hs h0 ht hm hnew' hp

/-- **C45**, C53: if the tool exits with 2, then not every document matches the schema as written (for well-formed schemas, and
documents with the contents given). -/
theorem C45_exit_two_some_document_does_not_match (h : Tool.run F x order emits fuel n schema xmls = .exit 2)
    (hok : ∀ k st r, compileFile F x fuel fuel schema CState.init = .ok (k, st) → st.cell k = some r →
      SchemaOK (stdLib x) st.env r.pattern true ∧ StartOK st.env r.pattern)
    (hd : ∀ f ∈ xmls, ∃ d node, IsDocument f d ∧ d.Tame ∧ d.Means node) :
    ∃ f ∈ xmls, ∃ d node, IsDocument f d ∧ d.Tame ∧ d.Means node ∧ ¬ SchemaMatches F x schema node := by
  obtain ⟨k, st, r, pre, text, items, rest, s0, before, i, e, s, ds, s', hc, hr, rfl, _, hnew, href, _⟩ := C45_exit_two_iff.1 h
  obtain ⟨hs, h0⟩ := hok k st r hc hr
  have hmem : XmlFile.doc text items ∈ pre ++ XmlFile.doc text items :: rest := by simp
  obtain ⟨d, node, hdoc, ht, hm⟩ := hd _ hmem
  refine ⟨_, hmem, d, node, hdoc, ht, hm, fun hmatch => ?_⟩
  obtain ⟨text', items', heq, hi⟩ := hdoc
  cases heq
  have hp := itemLoop_plain (L := stdLib x) (n := n) (s := s0) hi
  rw [itemLoop_some.2 ⟨before, i, href⟩] at hp
  have hnew' : Verif.newValidator st.env fuel r.pattern = .ok s0.plain := by rw [newValidator_plain, hnew]; rfl
  have := C53_matching_documents_accepted (l := []) (fun _ _ h => by cases h) hc hr hs h0 ht hm hnew' hp hmatch
  cases this

end Verif
