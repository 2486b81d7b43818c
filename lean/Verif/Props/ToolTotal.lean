import Verif.Props.Tool
/-
C45: the command line tool ends, and when it panics.
-/
namespace Verif
open Loc Tool

section
variable {D V : Type} [DecidableEq D] [DecidableEq V] {L : Lib D V} {order : List (Pat D V) → List (Pat D V)} {emits : Str → List Diag → Bool}
  {env : Env D V} {start : Pattern D V}

theorem fa_itemLoop (n : Nat) : ∀ es : List Loc.Event, FA (itemLoop L n es) (itemLoop L (n + 1) es)
  | [] => FA.refl
  | e :: es => by
    unfold itemLoop
    refine FA.bind (x := Loc.validateEvent L n e) (y := Loc.validateEvent L (n + 1) e) ?_ fun r => ?_
    · cases e with
      | token t => exact fa_validate' n t
      | error _ _ => exact FA.refl
    · cases r with
      | ok u => exact fa_itemLoop n es
      | error err => exact FA.refl

theorem itemLoop_fault {n : Nat} {f : Fault} : ∀ {items : List Loc.Event} {s : Loc.State D V}, itemLoop L n items s = .error f →
    Loc.runEvents L n items s = .error f
  | [], s, h => by cases h
  | e :: es, s, h => by
    rw [itemLoop_cons] at h
    unfold Loc.runEvents
    rw [ST.bind_run]
    cases hv : Loc.validateEvent L n e s with
    | error f' => rw [hv] at h; cases h; rfl
    | ok r =>
      obtain ⟨r, s1⟩ := r
      rw [hv] at h
      cases r with
      | ok u =>
        simp only
        exact ST.bind_of_error (itemLoop_fault (items := es) h)
      | error err => cases h

theorem diagnostic_total {s : Loc.State D V} (hi : VInv s.plain) (text : Str) (e : Err) :
    ∃ N o, ∀ m, N ≤ m → Loc.diagnostic order m text e s = .ok (o, s) := by
  unfold Loc.diagnostic
  cases e with
  | xml row col =>
    simp only
    cases lineSpan text row with
    | none => exact ⟨0, _, fun _ _ => rfl⟩
    | some line =>
      simp only
      cases Loc.subspan line row row with
      | none => exact ⟨0, _, fun _ _ => rfl⟩
      | some span => exact ⟨0, _, fun _ _ => rfl⟩
  | notAllowed t =>
    simp only
    cases Loc.subspan (0, byteLen text) t.at.start t.at.stop with
    | none => exact ⟨0, none, fun _ _ => rfl⟩
    | some span =>
      obtain ⟨N, p, hs, _, h, _⟩ := heads_ok hi
      refine ⟨N, some [⟨.error, .notExpectedHere t.name, some span⟩,
        ⟨.help, if describeExpected order hs = [] then Msg.removeThis else .expected (describeExpected order hs), none⟩], fun m hm => ?_⟩
      simp only [ST.bind_run, ST.get, Loc.liftS, h m hm]
      rfl
  | undefinedNamespacePrefix p =>
    simp only
    cases Loc.subspan (0, byteLen text) p.start p.stop with
    | none => exact ⟨0, _, fun _ _ => rfl⟩
    | some span => exact ⟨0, _, fun _ _ => rfl⟩
  | undefinedEntity _ b k =>
    simp only
    cases Loc.subspan (0, byteLen text) b k with
    | none => exact ⟨0, _, fun _ _ => rfl⟩
    | some span => exact ⟨0, _, fun _ _ => rfl⟩
  | invalidOrUnclosedEntity b k =>
    simp only
    cases Loc.subspan (0, byteLen text) b k with
    | none => exact ⟨0, _, fun _ _ => rfl⟩
    | some span => exact ⟨0, _, fun _ _ => rfl⟩

theorem fa_diagnostic (n : Nat) (text : Str) (e : Err) : FA (Loc.diagnostic order n text e) (Loc.diagnostic order (n + 1) text e) := by
  unfold Loc.diagnostic
  cases e with
  | notAllowed t =>
    simp only
    cases Loc.subspan (0, byteLen text) t.at.start t.at.stop with
    | none => exact FA.refl
    | some span => exact FA.refl.bind fun s => (FA.lift' (headFM n _ _)).bind fun _ => FA.refl
  | _ => exact FA.refl

/-- attributes and ends of tags come after the beginning of some tag -/
def FramedFile : XmlFile → Prop
  | .unreadable => True
  | .doc _ items => Framed (items.map (·.plain))

theorem itemLoop_total (hok : SchemaOK L env start false) {fuel : Nat} {s0 : Loc.State D V} (hnew : Loc.newValidator env fuel start = .ok s0)
    {items : List Loc.Event} (hf : Framed (items.map (·.plain))) : ∃ N r, r ≠ .error .fuel ∧ ∀ n, N ≤ n → itemLoop L n items s0 = r := by
  have hnew' : Verif.newValidator env fuel start = .ok s0.plain := by rw [newValidator_plain, hnew]; rfl
  obtain ⟨N, r, h1, h2, _⟩ := C07_validation_terminates hok hnew' hf
  have hne : itemLoop L N items s0 ≠ .error .fuel := fun h => by
    have := itemLoop_fault h
    have hp := runEvents_plain (L := L) N items s0
    rw [this, h2 N (Nat.le_refl _)] at hp
    exact h1 hp
  have fm : FM (fun n => itemLoop L n items) := fun n => fa_itemLoop n items
  exact ⟨N, _, hne, fun n hn => fm.stable hne hn⟩

theorem newValidator_total (env : Env D V) (start : Pattern D V) :
    ∃ N r, r ≠ .error .fuel ∧ ∀ n, N ≤ n → Loc.newValidator env n start = r := by
  obtain ⟨N, r, h1, h2⟩ := compile_terminates env start Store.init
  refine ⟨N, Loc.newValidator env N start, ?_, fun n hn => ?_⟩
  · intro h
    unfold Loc.newValidator at h
    split at h
    · rename_i e he
      cases h
      rw [h1 N (Nat.le_refl _)] at he
      exact h2 he
    · cases h
  · simp only [Loc.newValidator, h1 n hn, h1 N (Nat.le_refl _)]

theorem documents_total (hok : SchemaOK L env start false) : ∀ {xmls : List XmlFile}, (∀ f ∈ xmls, FramedFile f) →
    ∃ N out, out ≠ .fuel ∧ ∀ fuel, N ≤ fuel → ∀ n, N ≤ n → documents L order emits fuel n env start xmls = out
  | [], _ => ⟨0, .exit 0, nofun, fun _ _ _ _ => rfl⟩
  | .unreadable :: _, _ => ⟨0, .panic, nofun, fun _ _ _ _ => rfl⟩
  | .doc text items :: rest, hf => by
    obtain ⟨N1, r1, h1, h2⟩ := newValidator_total env start
    cases r1 with
    | error f =>
      refine ⟨N1, .panic, nofun, fun fuel hfu n _ => ?_⟩
      unfold documents
      rw [h2 fuel hfu]
      cases f with
      | fuel => exact absurd rfl h1
      | _ => rfl
    | ok s0 =>
      have hnew := h2 N1 (Nat.le_refl _)
      obtain ⟨N2, r2, h3, h4⟩ := itemLoop_total hok hnew (hf _ (.head _))
      cases r2 with
      | error f =>
        refine ⟨max N1 N2, .panic, nofun, fun fuel hfu n hn => ?_⟩
        unfold documents
        rw [h2 fuel (by omega)]
        simp only [h4 n (by omega)]
        cases f with
        | fuel => exact absurd rfl h3
        | _ => rfl
      | ok r =>
        obtain ⟨o, s⟩ := r
        cases o with
        | none =>
          obtain ⟨N3, out, h5, h6⟩ := documents_total hok (xmls := rest) fun f h => hf f (.tail _ h)
          refine ⟨max N1 (max N2 N3), out, h5, fun fuel hfu n hn => ?_⟩
          unfold documents
          rw [h2 fuel (by omega)]
          simp only [h4 n (by omega)]
          exact h6 fuel (by omega) n (by omega)
        | some e =>
          have hi : VInv s.plain := by
            obtain ⟨before, x, _, hrun⟩ := itemLoop_some.1 (h4 N2 (Nat.le_refl _))
            exact reached_inv hok ⟨N1, N2, s0, _, _, hnew, hrun⟩
          obtain ⟨N3, o, h7⟩ := diagnostic_total (order := order) hi text e
          refine ⟨max N1 (max N2 N3), match o with
            | none => .panic
            | some ds => if emits text ds then .exit 2 else .panic, ?_, fun fuel hfu n hn => ?_⟩
          · cases o with
            | none => nofun
            | some ds => simp only; split <;> nofun
          · unfold documents
            rw [h2 fuel (by omega)]
            simp only [h4 n (by omega), h7 n (by omega)]
            cases o <;> rfl
end

section
variable {F : Files} {x : Ext} {order : List (Pat Datatypes DatatypeValues) → List (Pat Datatypes DatatypeValues)}
  {emits : Str → List Diag → Bool} {schema : Str} {xmls : List XmlFile}

/-- **C45**: the tool comes to an end, and with one and the same outcome whatever the model's budgets, if compiling the schema does
(see `C38_terminates_unless_endless`), the schema is well-formed, and the documents are framed. -/
theorem C45_tool_terminates (hne : ¬ Endless F schema)
    (hok : ∀ fuel k st r, compileFile F x fuel fuel schema CState.init = .ok (k, st) → st.cell k = some r → SchemaOK (stdLib x) st.env r.pattern false)
    (hf : ∀ f ∈ xmls, FramedFile f) :
    ∃ N out, out ≠ .fuel ∧ ∀ fuel, N ≤ fuel → ∀ n, N ≤ n → Tool.run F x order emits fuel n schema xmls = out := by
  obtain ⟨N1, R, h1, h2⟩ := C38_terminates_unless_endless (l := []) (F := F) (x := x) (name := schema) (fun _ _ h => by cases h) hne
  have h2 : ∀ n, N1 ≤ n → compileFile F x n n schema CState.init = R := fun n hn => h2 n hn n hn
  cases R with
  | error e =>
    refine ⟨N1, Tool.run F x order emits N1 0 schema xmls, ?_, fun fuel hfu n _ => ?_⟩
    · rcases run_refused (order := order) (emits := emits) (n := 0) (xmls := xmls) (h2 N1 (Nat.le_refl _)) with ⟨h', _⟩ | ⟨h', _⟩ | ⟨h', he⟩
      · rw [h']; nofun
      · rw [h']; nofun
      · rw [he] at h1; exact absurd rfl h1
    · unfold Tool.run
      rw [h2 fuel hfu, h2 N1 (Nat.le_refl _)]
      cases e <;> rfl
  | ok r =>
    obtain ⟨k, st⟩ := r
    obtain ⟨r, hr, _⟩ := run_compiled (order := order) (emits := emits) (n := 0) (xmls := xmls) (h2 N1 (Nat.le_refl _))
    obtain ⟨N2, out, h3, h4⟩ := documents_total (order := order) (emits := emits) (hok N1 k st r (h2 N1 (Nat.le_refl _)) hr) hf
    refine ⟨max N1 N2, out, h3, fun fuel hfu n hn => ?_⟩
    obtain ⟨r', hr', h5⟩ := run_compiled (order := order) (emits := emits) (n := n) (xmls := xmls) (h2 fuel (by omega))
    rw [hr] at hr'; cases hr'
    rw [h5, h4 fuel (by omega) n (by omega)]

/-- the ways a file that is not accepted may make the tool panic -/
inductive Trouble (L : Lib Datatypes DatatypeValues) (fuel n : Nat) (env : Env Datatypes DatatypeValues) (start : Pattern Datatypes DatatypeValues) : XmlFile → Prop
  /-- it cannot be read -/
  | unreadable : Trouble L fuel n env start .unreadable
  /-- the schema has too many patterns -/
  | schemaLimit {text items} : Loc.newValidator env fuel start = .error .capacity → Trouble L fuel n env start (.doc text items)
  /-- too many patterns come up during validation, or the datatype library gives up -/
  | limit {text items s0 f} : Loc.newValidator env fuel start = .ok s0 → Loc.runEvents L n items s0 = .error f →
      f = .capacity ∨ (f = .unimplemented ∧ ¬ L.Total) → Trouble L fuel n env start (.doc text items)
  /-- it is not well-formed -/
  | «syntax» {text items s0 before i s row col} : Loc.newValidator env fuel start = .ok s0 →
      RefusesAt L n s0 items before i (.xml row col) s → Trouble L fuel n env start (.doc text items)
  /-- it has a malformed character reference -/
  | number {text items s0 before i e s} : Loc.newValidator env fuel start = .ok s0 → RefusesAt L n s0 items before i e s → BadNumber i e →
      Trouble L fuel n env start (.doc text items)

/-- **C45**: if the tool panics, then compiling the schema panics, or ends with an error there is no message for, or there is `Trouble`
with a document and the documents before it are accepted. -/
theorem C45_panics_explained {fuel n : Nat} (h : Tool.run F x order emits fuel n schema xmls = .panic)
    (hok : ∀ k st r, compileFile F x fuel fuel schema CState.init = .ok (k, st) → st.cell k = some r →
      SchemaOK (stdLib x) st.env r.pattern false ∧ NoAlias st.env r.pattern)
    (horder : ∀ l, (order l).Perm l) (hprints : Prints emits)
    (hf : ∀ f ∈ xmls, FramedFile f) (hin : ∀ text items, .doc text items ∈ xmls → TokensIn text items) :
    (∃ e, compileFile F x fuel fuel schema CState.init = .error e ∧ e ≠ .fuel ∧ ∀ err, e = .err err → panicked err = true ∨ diagnosable err = false) ∨
    ∃ k st r pre f rest, compileFile F x fuel fuel schema CState.init = .ok (k, st) ∧ st.cell k = some r ∧ xmls = pre ++ f :: rest ∧
      (∀ f ∈ pre, AcceptsFile (stdLib x) fuel n st.env r.pattern f) ∧ Trouble (stdLib x) fuel n st.env r.pattern f := by
  cases hc : compileFile F x fuel fuel schema CState.init with
  | error e =>
    rcases run_refused (order := order) (emits := emits) (n := n) (xmls := xmls) hc with ⟨h', _⟩ | ⟨h', h1, h2⟩ | ⟨h', he⟩
    · rw [h] at h'; cases h'
    · exact .inl ⟨e, rfl, h2, h1⟩
    · rw [h] at h'; cases h'
  | ok r =>
    obtain ⟨k, st⟩ := r
    obtain ⟨r, hr, hrun⟩ := run_compiled (order := order) (emits := emits) (n := n) (xmls := xmls) hc
    obtain ⟨hs, ha⟩ := hok k st r hc hr
    rw [hrun] at h
    refine .inr ?_
    rcases documents_cases (L := stdLib x) (order := order) (emits := emits) (fuel := fuel) (n := n) (env := st.env) (start := r.pattern) xmls with
      ⟨h', _⟩ | ⟨_, _, _, _, _, _, _, _, _, _, _, h', _⟩ | ⟨⟨pre, f, rest, hx, h1, h2⟩, _⟩
    · rw [h] at h'; cases h'
    · rw [h] at h'; cases h'
    · refine ⟨k, st, r, pre, f, rest, rfl, hr, hx, h1, ?_⟩
      rw [hx, documents_accepts h1] at h
      have hmem : f ∈ xmls := by rw [hx]; simp
      cases f with
      | unreadable => exact .unreadable
      | doc text items =>
        obtain ⟨p1, p2⟩ := C06_no_internal_panic hs ha fuel
        cases hnew : Loc.newValidator st.env fuel r.pattern with
        | error e =>
          rcases p1 e (by rw [newValidator_plain, hnew]; rfl) with rfl | rfl
          · unfold documents at h; rw [hnew] at h; cases h
          · exact .schemaLimit hnew
        | ok s0 =>
          cases hi : itemLoop (stdLib x) n items s0 with
          | error e =>
            have hrun := itemLoop_fault hi
            rcases p2 s0.plain (by rw [newValidator_plain, hnew]; rfl) _ (hf _ hmem) n e (by rw [runEvents_plain, hrun]; rfl) with rfl | h'
            · unfold documents at h; simp only [hnew, hi] at h; cases h
            · exact .limit hnew hrun h'
          | ok o =>
            obtain ⟨o, s⟩ := o
            cases o with
            | none => exact absurd ⟨s0, hnew, s, itemLoop_none.1 hi⟩ h2
            | some e =>
              obtain ⟨before, i, href⟩ := itemLoop_some.1 hi
              by_cases hxml : ∃ row col, e = .xml row col
              · obtain ⟨row, col, rfl⟩ := hxml
                exact .syntax hnew href
              · by_cases hb : BadNumber i e
                · exact .number hnew href hb
                · exfalso
                  obtain ⟨N, ds, e1, e2⟩ := refusal_diagnosed hs horder hprints hnew href (hin _ _ hmem) (fun row col h => hxml ⟨row, col, h⟩) hb
                  unfold documents at h
                  simp only [hnew, hi] at h
                  have fm : FM (fun n => Loc.diagnostic order n text e) := fun n => fa_diagnostic n text e
                  by_cases hfu : Loc.diagnostic order n text e s = .error .fuel
                  · rw [hfu] at h; cases h
                  · have := (fm.stable hfu (Nat.le_max_left n N)).symm.trans (e2 _ (Nat.le_max_right n N))
                    have this : Loc.diagnostic order n text e s = .ok (some ds, s) := this
                    rw [this] at h
                    simp only [e1, if_true] at h
                    cases h
end
end Verif
