import Verif.Proof.TotalEvents
import Verif.Props.Validation
/-
C06, C07: the validator does not abort for internal reasons, and it terminates; C02 with both.
-/
namespace Verif
variable {D V : Type} [DecidableEq D] [DecidableEq V] {L : Lib D V} {env : Env D V}
  {start : Pattern D V}

/-- C07, building.  Whatever the schema (recursive or not, with or without dangling references),
building the validator terminates. -/
theorem C07_building_terminates (env : Env D V) (start : Pattern D V) :
    ∃ N r, r ≠ .error .fuel ∧ ∀ n, N ≤ n → newValidator env n start = r := by
  obtain ⟨N, r, h1, h2⟩ := compile_terminates env start Store.init
  refine ⟨N, newValidator env N start, ?_, fun n hn => ?_⟩
  · intro h
    unfold newValidator at h
    split at h
    · rename_i e he
      cases h
      rw [h1 N (Nat.le_refl _)] at he
      exact h2 he
    · cases h
  · simp only [newValidator, h1 n hn, h1 N (Nat.le_refl _)]

theorem events_total (hs : SchemaOK L env start false) {fuel : Nat} {s0 : VState D V}
    (hnew : newValidator env fuel start = .ok s0) {es : List Event} (hf : Framed es) :
    Total (fun n => runEvents L n es) s0 (fun rs _ => rs.length = es.length) := by
  obtain ⟨_, _, hst, _⟩ := newValidator_ok hnew
  exact total_events L es s0 false (newValidator_inv L hs hnew) (by simp) fun b t a h1 h2 => Or.inr (hf b t a h1 h2)

/-- C07, validating.  Any number of items from the tokenizer, errors included, is processed in
finitely many steps, and the caller gets a result for each of them (or the run aborts). -/
theorem C07_validation_terminates (hs : SchemaOK L env start false) {fuel : Nat} {s0 : VState D V}
    (hnew : newValidator env fuel start = .ok s0) {es : List Event} (hf : Framed es) :
    ∃ N r, r ≠ .error .fuel ∧ (∀ n, N ≤ n → runEvents L n es s0 = r) ∧
      ∀ rs s', r = .ok (rs, s') → rs.length = es.length := by
  obtain ⟨N, r, h1, h2, h3⟩ := events_total (L := L) hs hnew hf
  refine ⟨N, r, ?_, h1, h3⟩
  intro h
  rcases h2 _ h with h | h <;> cases h

/-- C06.  Building the validator for a well-formed schema, and validating any items a tokenizer can
produce, aborts only with the documented pattern limit, or because the datatype library aborts
(`fuel` is the model's own recursion budget, see C07). -/
theorem C06_no_internal_panic (hs : SchemaOK L env start false) (ha : NoAlias env start) (fuel : Nat) :
    (∀ e, newValidator env fuel start = .error e → e = .fuel ∨ e = .capacity) ∧
    ∀ s0, newValidator env fuel start = .ok s0 → ∀ es : List Event, Framed es → ∀ n e,
      runEvents L n es s0 = .error e → e = .fuel ∨ e = .capacity ∨ (e = .unimplemented ∧ ¬ L.Total) := by
  constructor
  · intro e he
    unfold newValidator at he
    split at he
    · rename_i e' hc
      cases he
      exact compile_fault hs ha hc
    · cases he
  · intro s0 hnew es hf n e he
    by_cases hfu : e = .fuel
    · exact Or.inl hfu
    · obtain ⟨N, r, h1, h2, _⟩ := events_total (L := L) hs hnew hf
      have hst := FM.stable (x := fun n => runEvents L n es) (fun n => fa_runEvents L n es) (n := n)
        (m := max n N) (s := s0) (by simp only [he]; intro h; cases h; exact hfu rfl) (by omega)
      simp only [he] at hst
      have h1' : runEvents L (max n N) es s0 = r := h1 _ (by omega)
      rw [h1'] at hst
      rcases h2 e hst with h | h
      · exact Or.inr (Or.inl h)
      · subst h
        exact Or.inr (Or.inr ⟨rfl, fun hL => nu_runEvents hL n es s0 he⟩)

/-- reading until the first error, from reading everything -/
theorem runToks_of_events {n : Nat} : ∀ {ts : List Token} {s s' : VState D V} {rs},
    runEvents L n (ts.map some) s = .ok (rs, s') → ∃ r s'', runToks L n ts s = .ok (r, s'')
  | [], s, s', rs, _ => ⟨_, _, rfl⟩
  | t :: ts, s, s', rs, h => by
    simp only [List.map_cons, runEvents, ST.bind_ok] at h
    obtain ⟨r, s1, h1, rs', s2, h2, _⟩ := h
    obtain ⟨r', s3, h3⟩ := runToks_of_events h2
    have h1' : validate L n t s = .ok (r, s1) := h1
    cases r with
    | error e => exact ⟨_, _, ST.bind_of_ok h1'⟩
    | ok u => exact ⟨r', s3, (ST.bind_of_ok h1').trans h3⟩

theorem runToks_fault_of_events {n : Nat} : ∀ {ts : List Token} {s : VState D V} {e},
    runEvents L n (ts.map some) s = .error e →
      runToks L n ts s = .error e ∨ ∃ r s'', runToks L n ts s = .ok (r, s'')
  | [], s, e, h => by simp [runEvents] at h
  | t :: ts, s, e, h => by
    simp only [List.map_cons, runEvents] at h
    have hv : validateEvent L n (some t) s = validate L n t s := rfl
    cases h1 : validate L n t s with
    | error e' =>
      have := (ST.bind_of_error (hv.trans h1)).symm.trans h
      cases this
      exact Or.inl (ST.bind_of_error h1)
    | ok q =>
      obtain ⟨r, s1⟩ := q
      have h := (ST.bind_of_ok (hv.trans h1)).symm.trans h
      cases r with
      | error e' => exact Or.inr ⟨_, _, ST.bind_of_ok h1⟩
      | ok u =>
        cases h2 : runEvents L n (ts.map some) s1 with
        | ok q =>
          obtain ⟨rs, s2⟩ := q
          have := (ST.bind_of_ok h2).symm.trans h
          simp at this
        | error e2 =>
          have := (ST.bind_of_error h2).symm.trans h
          cases this
          rcases runToks_fault_of_events h2 with h3 | ⟨r, s'', h3⟩
          · exact Or.inl ((ST.bind_of_ok h1).trans h3)
          · exact Or.inr ⟨r, s'', (ST.bind_of_ok h1).trans h3⟩


theorem framed_of {ts : List Token} : (∀ t ∈ ts, t.needsElement = false) → ∀ (p l : Str) (rest : List Token),
    Framed ((ts ++ .elementStart p l :: rest).map some) := by
  intro h p l rest before t after he ht
  rw [List.map_append, List.map_cons] at he
  rcases List.append_eq_append_iff.mp he with ⟨as, h1, h2⟩ | ⟨bs, h1, h2⟩
  · rw [h1]
    cases as with
    | nil =>
      simp at h2
      rw [← h2.1] at ht; cases ht
    | cons a as =>
      simp at h2
      exact ⟨p, l, by rw [← h2.1]; simp⟩
  · cases bs with
    | nil =>
      simp at h2
      rw [h2.1] at ht; cases ht
    | cons b bs =>
      simp at h2
      have : some t ∈ ts.map some := by rw [h1, h2.1]; simp
      simp at this
      rw [h t this] at ht; cases ht

/-- the tokens of a document are framed -/
theorem XDoc.framed (d : XDoc) : Framed (d.toks.map some) := by
  unfold XDoc.toks XDoc.root
  have hp : ∀ t ∈ d.prolog.map Prolog.tok, t.needsElement = false := by
    intro t ht
    simp only [List.mem_map] at ht
    obtain ⟨p, _, rfl⟩ := ht
    cases p <;> rfl
  cases hsc : d.selfClose with
  | true => simp only [XNode.toks, List.cons_append]; exact framed_of hp _ _ _
  | false => simp only [XNode.toks, List.cons_append]; exact framed_of hp _ _ _

/-- C02, with C06 and C07: a matching document is accepted, unless the pattern limit is hit. -/
theorem C02_matching_documents_accepted_total {d : XDoc} {node : Node} (hs : SchemaOK L env start true)
    (h0 : StartOK env start) (ha : NoAlias env start) (hL : L.Total) (ht : d.Tame) (hm : d.Means node)
    (hmatch : Match L env start [] [node]) :
    ∃ N, ∀ n, N ≤ n → newValidator env n start = .error .capacity ∨
      ∃ s0, newValidator env n start = .ok s0 ∧ ∃ M, ∀ m, M ≤ m →
        runToks L m d.toks s0 = .error .capacity ∨ ∃ s', runToks L m d.toks s0 = .ok (.ok (), s') := by
  obtain ⟨N, r, h1, h2⟩ := C07_building_terminates env start
  refine ⟨N, fun n hn => ?_⟩
  obtain ⟨g1, g2⟩ := C06_no_internal_panic (L := L) hs.relax ha n
  cases hr : newValidator env n start with
  | error e =>
    rcases g1 e hr with rfl | rfl
    · rw [h2 n hn] at hr; exact absurd hr h1
    · exact Or.inl rfl
  | ok s0 =>
    refine Or.inr ⟨s0, rfl, ?_⟩
    obtain ⟨M, q, k1, k2, _⟩ := C07_validation_terminates (L := L) hs.relax hr d.framed
    refine ⟨M, fun m hm' => ?_⟩
    have acc : ∀ r s', runToks L m d.toks s0 = .ok (r, s') → ∃ s', runToks L m d.toks s0 = .ok (.ok (), s') := by
      intro r s' hrun
      have := C02_matching_documents_accepted hs h0 ht hm hr hrun hmatch
      subst this
      exact ⟨s', hrun⟩
    have hev := k2 m hm'
    cases q with
    | ok q =>
      obtain ⟨rs, s'⟩ := q
      obtain ⟨r, s'', h⟩ := runToks_of_events hev
      exact Or.inr (acc _ _ h)
    | error e =>
      rcases runToks_fault_of_events hev with h | ⟨r, s'', h⟩
      · rcases g2 s0 hr _ d.framed m e hev with rfl | rfl | h
        · exact absurd rfl k1
        · exact Or.inl h
        · exact absurd hL h.2
      · exact Or.inr (acc _ _ h)

theorem Ex.noAlias : NoAlias Ex.env Ex.start := by
  intro n _ q m b h1 h2 h3 _
  match n, h1 with
  | 0, h1 => simp [Ex.env] at h1; subst h1; simp [Pattern.aliases] at h2
  | 1, h1 => simp [Ex.env] at h1; subst h1; simp [Pattern.aliases] at h2
  | n + 2, h1 => simp [Ex.env] at h1

theorem Ex.libTotal : Ex.lib.Total := ⟨fun _ _ => by simp [Ex.lib], fun _ _ => by simp [Ex.lib]⟩

/-- broken documents too: an unclosed element, a mismatched end tag, a tokenizer error, more tokens -/
def Ex.brokenEvents : List Event :=
  [some (.elementStart ['p'] ['x']), some (.attribute ['q'] ['y'] []), some (.elementEnd .open), none,
   some (.elementEnd (.close [] [])), some (.elementEnd .empty), some (.text ['&'])]

theorem Ex.brokenFramed : Framed Ex.brokenEvents := by
  have h := framed_of (ts := []) (by simp) ['p'] ['x'] [.attribute ['q'] ['y'] [], .elementEnd .open]
  intro before t after he ht
  unfold Ex.brokenEvents at he
  cases before with
  | nil => simp at he; rw [← he.1] at ht; cases ht
  | cons a before =>
    simp at he
    exact ⟨_, _, by rw [← he.1]; exact List.mem_cons_self⟩

example : ∃ N r, r ≠ .error .fuel ∧ (∀ n, N ≤ n → runEvents Ex.lib n Ex.brokenEvents Ex.v0 = r) ∧
    ∀ rs s', r = .ok (rs, s') → rs.length = 7 :=
  C07_validation_terminates Ex.schemaOK.relax Ex.new_ok Ex.brokenFramed

example (n e) (h : runEvents Ex.lib n Ex.brokenEvents Ex.v0 = .error e) : e = .fuel ∨ e = .capacity := by
  rcases (C06_no_internal_panic Ex.schemaOK.relax Ex.noAlias 50).2 _ Ex.new_ok _ Ex.brokenFramed n e h with h | h | h
  · exact Or.inl h
  · exact Or.inr h
  · exact absurd Ex.libTotal h.2

/-! ### each hypothesis is needed -/

/-- `start = m; m = element x { n? }; n = m` satisfies every RELAX NG restriction, and building its
validator aborts in `resolve_ref` ("can't resolve placeholder with another placeholder"). -/
def Ex.aliasEnv : Env Unit Str := [.element (.named [] ['x']) (.optional (.ref 1)), .ref 0]

theorem Ex.alias_schemaOK : SchemaOK Ex.lib Ex.aliasEnv (.ref 0) true := by
  refine ⟨fun p => p = .optional (.ref 1), ?_, ?_⟩
  · rintro p rfl
    exact .optional (.ref (p := .ref 0) rfl (.ref (p := .element _ _) rfl (.element rfl) (by simp)) (by simp))
  · exact .ref (p := .element _ _) rfl (.element rfl) (by simp)

theorem Ex.alias_at6 : (match newValidator Ex.aliasEnv 6 (.ref 0) with
    | .error .resolveTarget => true | _ => false) = true := by decide +kernel

theorem C06_alias_recursion_aborts (n : Nat) (hn : 6 ≤ n) :
    newValidator Ex.aliasEnv n (.ref 0) = .error .resolveTarget := by
  have h6 := Ex.alias_at6
  unfold newValidator at h6 ⊢
  cases hc : compile Ex.aliasEnv 6 (.ref 0) Store.init with
  | ok r => rw [hc] at h6; simp at h6
  | error e =>
    rw [hc] at h6
    have he : e = .resolveTarget := by cases e <;> simp_all
    subst he
    have := FM.stable (x := fun n => compile Ex.aliasEnv n (.ref 0)) (fun n => fa_compile _ n _) (n := 6) (m := n)
      (s := Store.init) (by simp only [hc]; nofun) hn
    have this : compile Ex.aliasEnv n (.ref 0) Store.init = _ := this
    rw [this, hc]

/-- an attribute token before any start tag aborts (`unwrap` on the empty element stack) -/
theorem C06_unframed_tokens_abort (n : Nat) (pre loc v : Str) {s : VState D V} {p : Pat D V}
    (hp : s.store.pats[s.cur]? = some p) (hs : s.stack = []) :
    validate L n (.attribute pre loc v) s = .error .unwrapNone := by
  have h1 : patt s.cur s.store = .ok (p, s.store) := by simp only [patt, hp]
  have h2 : liftS (patt s.cur) s = .ok (p, s) := by simp only [liftS, h1]
  unfold validate
  rw [ST.bind_of_ok (a := s) (s' := s) rfl, ST.bind_of_ok h2]
  simp [hs]

/-- `a = b | empty; b = a | empty` (accepted by the schema compiler, which detects only direct
self-reference): the validator is built, and the first character data recurses without end. -/
def Ex.loopEnv : Env Unit Str := [.choice [.ref 1, .empty], .choice [.ref 0, .empty]]

def Ex.loop0 : VState Unit Str :=
  match newValidator Ex.loopEnv 20 (.ref 0) with
  | .ok s => s
  | .error _ => ⟨Store.init, 0, false, [], []⟩

theorem Ex.loop_new : newValidator Ex.loopEnv 20 (.ref 0) = .ok Ex.loop0 := by
  have : (match newValidator Ex.loopEnv 20 (.ref 0) with | .ok _ => true | .error _ => false) = true := by decide +kernel
  unfold Ex.loop0
  split at this
  · rename_i h; rw [h]
  · cases this

theorem loop_text {L : Lib D V} {st : Store D V} {f g : Bool} (h0 : st.pats[0]? = some (.choice 2 1 f))
    (h2 : st.pats[2]? = some (.choice 0 1 g)) (h1 : st.pats[1]? = some .empty) (t : Str) : ∀ n,
    textDeriv L n (.choice 2 1 f) t st = .error .fuel ∧ textDeriv L n (.choice 0 1 g) t st = .error .fuel
  | 0 => ⟨rfl, rfl⟩
  | n + 1 => by
    obtain ⟨i1, i2⟩ := loop_text (L := L) h0 h2 h1 t n
    have p0 : patt 0 st = .ok (.choice 2 1 f, st) := by simp only [patt, h0]
    have p1 : patt 1 st = .ok (.empty, st) := by simp only [patt, h1]
    have p2 : patt 2 st = .ok (.choice 0 1 g, st) := by simp only [patt, h2]
    exact ⟨(ST.bind_of_ok p2).trans ((ST.bind_of_ok p1).trans (ST.bind_of_error i2)),
      (ST.bind_of_ok p0).trans ((ST.bind_of_ok p1).trans (ST.bind_of_error i1))⟩

theorem C07_unguarded_recursion_diverges (t : Str) (n : Nat) :
    validate Ex.lib n (.cdata t) Ex.loop0 = .error .fuel := by
  have hp : Ex.loop0.store.pats = [.choice 2 1 true, .empty, .choice 0 1 true, .choice 0 1 true, .choice 2 1 true] ∧
    Ex.loop0.cur = 0 := by decide +kernel
  have h := (loop_text (L := Ex.lib) (st := Ex.loop0.store) (f := true) (g := true) (by rw [hp.1]; rfl)
    (by rw [hp.1]; rfl) (by rw [hp.1]; rfl) t n).1
  have h1 : patt Ex.loop0.cur Ex.loop0.store = .ok (.choice 2 1 true, Ex.loop0.store) := by
    simp only [patt, hp.1, hp.2]; rfl
  have h2 : liftS (patt Ex.loop0.cur) Ex.loop0 = .ok (.choice 2 1 true, Ex.loop0) := by simp only [liftS, h1]
  have h3 : liftS (textDeriv Ex.lib n (.choice 2 1 true) t) Ex.loop0 = .error .fuel := by simp only [liftS, h]
  exact (ST.bind_of_ok (a := Ex.loop0) (s' := Ex.loop0) rfl).trans ((ST.bind_of_ok h2).trans (ST.bind_of_error h3))

end Verif
