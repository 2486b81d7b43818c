import Verif.Proof.SchemaComp
/-
The whole schema compiler.
-/
namespace Verif

variable {F : Files} {x : Ext} {st st' st1 st2 : CState} {G G' G1 G2 : Nat → List Nat → List Defn → Prop}

theorem PSpec.two {cp} (hcp : PSpec F x cp) {c : SCtx} {e : NEnv} {p1 p2 : SPattern} {q1 q2 : MPattern}
    (h1 : cp c p1 st = .ok (q1, st1)) (h2 : cp c p2 st1 = .ok (q2, st2)) (g : GoodS F x st G)
    (hc : ∀ s ∈ c.chain, s < st.scopes.length) (ha : c.Agrees e) :
    ∃ G', GoodS F x st2 G' ∧ Grow none [] st G st2 G' ∧ Tr F x st2.look G' c.chain e p1 q1 ∧
      Tr F x st2.look G' c.chain e p2 q2 := by
  obtain ⟨G1, g1, gr1, t1⟩ := hcp _ _ _ _ _ e G h1 g hc ha
  obtain ⟨G2, g2, gr2, t2⟩ := hcp _ _ _ _ _ e G1 h2 g1 (fun s hs => Nat.lt_of_lt_of_le (hc s hs) gr1.scopes) ha
  exact ⟨G2, g2, gr1.trans g1.toWFS gr2, t1.mono gr2.mono gr2.gMono, t2⟩

theorem compile_spec : ∀ n, PSpec F x (compilePattern F x n) ∧ ISpec F x (compileItem F x n)
  | 0 => ⟨fun _ _ _ _ _ _ _ h => (nomatch h), fun _ _ _ _ _ _ _ h => (nomatch h)⟩
  | n + 1 => by
    obtain ⟨hcp, hci⟩ := compile_spec n
    constructor
    · intro c p st q st' e G h g hc ha
      cases p with
      | element nc p =>
        obtain ⟨nc', _, h1, h⟩ := CM.bind_ok h
        obtain ⟨hn, rfl⟩ := CM.lift_ok h1
        split at h
        · cases h
        · obtain ⟨q', st1, h2, h⟩ := CM.bind_ok h
          obtain ⟨rfl, rfl⟩ := CM.pure_ok h
          obtain ⟨G', a, b, t⟩ := hcp _ _ _ _ _ e G h2 g hc ha.element
          exact ⟨G', a, b, .element (compileNameclass_spec ha hn) t⟩
      | «attribute» nc p =>
        obtain ⟨nc', _, h1, h⟩ := CM.bind_ok h
        obtain ⟨hn, rfl⟩ := CM.lift_ok h1
        obtain ⟨q', st1, h2, h⟩ := CM.bind_ok h
        obtain ⟨rfl, rfl⟩ := CM.pure_ok h
        obtain ⟨G', a, b, t⟩ := hcp _ _ _ _ _ e G h2 g hc ha.attribute
        exact ⟨G', a, b, .attribute (compileNameclass_spec ha hn) t⟩
      | list p =>
        obtain ⟨q', st1, h2, h⟩ := CM.bind_ok h
        obtain ⟨rfl, rfl⟩ := CM.pure_ok h
        obtain ⟨G', a, b, t⟩ := hcp _ _ _ _ _ e G h2 g hc ha
        exact ⟨G', a, b, .list t⟩
      | mixed p =>
        obtain ⟨q', st1, h2, h⟩ := CM.bind_ok h
        obtain ⟨rfl, rfl⟩ := CM.pure_ok h
        obtain ⟨G', a, b, t⟩ := hcp _ _ _ _ _ e G h2 g hc ha
        exact ⟨G', a, b, .mixed t⟩
      | ident id =>
        obtain ⟨k, st1, h2, h⟩ := CM.bind_ok h
        obtain ⟨rfl, rfl⟩ := CM.pure_ok h
        obtain ⟨a, b, t⟩ := acquireRef_spec g (hc _ (by rw [SCtx.chain_eq]; simp)) h2
        refine ⟨G, a, b, ?_⟩
        rw [SCtx.chain_eq]
        exact .ident t
      | parent id =>
        obtain ⟨k, st1, h2, h⟩ := CM.bind_ok h
        obtain ⟨rfl, rfl⟩ := CM.pure_ok h
        obtain ⟨a, b, t, s, ss, hch, hk⟩ := acquireParentRef_spec g hc h2
        refine ⟨G, a, b, ?_⟩
        rw [hch]
        exact .parent hk
      | empty => cases h; exact ⟨G, g, .refl _ _, .empty⟩
      | text => cases h; exact ⟨G, g, .refl _ _, .text⟩
      | notAllowed => cases h; exact ⟨G, g, .refl _ _, .notAllowed⟩
      | external path i => exact compileExternal_spec hcp hci ha g hc h
      | grammar items => exact compileGrammarPattern_spec hci ha g hc h
      | paren p =>
        obtain ⟨G', a, b, t⟩ := hcp _ _ _ _ _ e G h g hc ha
        exact ⟨G', a, b, .paren t⟩
      | seq p1 p2 =>
        obtain ⟨q1, st1, h1, h⟩ := CM.bind_ok h
        obtain ⟨q2, st2, h2, h⟩ := CM.bind_ok h
        obtain ⟨rfl, rfl⟩ := CM.pure_ok h
        obtain ⟨G', a, b, t1, t2⟩ := hcp.two h1 h2 g hc ha
        exact ⟨G', a, b, .seq t1 t2⟩
      | inter p1 p2 =>
        obtain ⟨q1, st1, h1, h⟩ := CM.bind_ok h
        obtain ⟨q2, st2, h2, h⟩ := CM.bind_ok h
        obtain ⟨rfl, rfl⟩ := CM.pure_ok h
        obtain ⟨G', a, b, t1, t2⟩ := hcp.two h1 h2 g hc ha
        exact ⟨G', a, b, .inter t1 t2⟩
      | choice p1 p2 =>
        obtain ⟨q1, st1, h1, h⟩ := CM.bind_ok h
        obtain ⟨q2, st2, h2, h⟩ := CM.bind_ok h
        obtain ⟨rfl, rfl⟩ := CM.pure_ok h
        obtain ⟨G', a, b, t1, t2⟩ := hcp.two h1 h2 g hc ha
        exact ⟨G', a, b, .choice t1 t2⟩
      | optional p =>
        obtain ⟨q', st1, h2, h⟩ := CM.bind_ok h
        obtain ⟨rfl, rfl⟩ := CM.pure_ok h
        obtain ⟨G', a, b, t⟩ := hcp _ _ _ _ _ e G h2 g hc ha
        exact ⟨G', a, b, .optional t⟩
      | zeroOrMore p =>
        obtain ⟨q', st1, h2, h⟩ := CM.bind_ok h
        obtain ⟨rfl, rfl⟩ := CM.pure_ok h
        obtain ⟨G', a, b, t⟩ := hcp _ _ _ _ _ e G h2 g hc ha
        exact ⟨G', a, b, .zeroOrMore t⟩
      | oneOrMore p =>
        obtain ⟨q', st1, h2, h⟩ := CM.bind_ok h
        obtain ⟨rfl, rfl⟩ := CM.pure_ok h
        obtain ⟨G', a, b, t⟩ := hcp _ _ _ _ _ e G h2 g hc ha
        exact ⟨G', a, b, .oneOrMore t⟩
      | value ty lit =>
        obtain ⟨nm, _, h1, h⟩ := CM.bind_ok h
        obtain ⟨hn, rfl⟩ := CM.lift_ok h1
        obtain ⟨v, _, h2, h⟩ := CM.bind_ok h
        obtain ⟨hv, rfl⟩ := CM.lift_ok h2
        obtain ⟨rfl, rfl⟩ := CM.pure_ok h
        exact ⟨G, g, .refl _ _, .value (dtName_spec ha hn) (dtRes_ok hv)⟩
      | data ty ps =>
        obtain ⟨nm, _, h1, h⟩ := CM.bind_ok h
        obtain ⟨hn, rfl⟩ := CM.lift_ok h1
        obtain ⟨v, _, h2, h⟩ := CM.bind_ok h
        obtain ⟨hv, rfl⟩ := CM.lift_ok h2
        obtain ⟨rfl, rfl⟩ := CM.pure_ok h
        exact ⟨G, g, .refl _ _, .data (dtName_spec ha hn) (dtRes_ok hv)⟩
      | dataExcept ty ps ex =>
        obtain ⟨nm, _, h1, h⟩ := CM.bind_ok h
        obtain ⟨hn, rfl⟩ := CM.lift_ok h1
        obtain ⟨v, _, h2, h⟩ := CM.bind_ok h
        obtain ⟨hv, rfl⟩ := CM.lift_ok h2
        obtain ⟨q', st1, h3, h⟩ := CM.bind_ok h
        obtain ⟨rfl, rfl⟩ := CM.pure_ok h
        obtain ⟨G', a, b, t⟩ := hcp _ _ _ _ _ e G h3 g hc ha
        exact ⟨G', a, b, .dataExcept (dtName_spec ha hn) (dtRes_ok hv) t⟩
    · intro c i st st' e G D h h0 ha
      cases i with
      | define id how body =>
        obtain ⟨G', p⟩ := compileDefine_spec hcp ha h h0
        exact ⟨G', _, .define .nil, p⟩
      | div items =>
        obtain ⟨G', ds, hex, p⟩ := compileContents_spec hci ha h h0
        exact ⟨G', ds, by simpa using Expands.div hex .nil, p⟩
      | «include» path i os => exact compileInclude_spec hcp hci ha h h0
      | «annotation» => cases h; exact ⟨G, [], .annotation .nil, .nil h0 h0.good (.refl _ _)⟩

/-! ### the final checks -/

theorem checkAll_spec {f : List Nat → MPattern → Except CFault (List Nat)} {R : MPattern → List Nat → Prop}
    {Q : List Nat → List Nat → Prop}
    (hmono : ∀ p s s', R p s → (∀ k ∈ s, k ∈ s') → R p s')
    (hrefl : ∀ s, Q s s) (htrans : ∀ a b c, (∀ k ∈ b, k ∈ c) → Q a b → Q b c → Q a c) :
    ∀ {ps : List MPattern} {seen seen' : List Nat},
    (∀ p ∈ ps, ∀ s s', f s p = .ok s' → (∀ k ∈ s, k ∈ s') ∧ R p s' ∧ Q s s') → checkAll f seen ps = .ok seen' →
    (∀ k ∈ seen, k ∈ seen') ∧ (∀ p ∈ ps, R p seen') ∧ Q seen seen'
  | [], seen, seen', _, h => by cases h; exact ⟨fun _ h => h, nofun, hrefl _⟩
  | p :: ps, seen, seen', hf, h => by
    obtain ⟨s1, h1, h2⟩ := except_bind_ok h
    obtain ⟨a1, a2, a3⟩ := hf p (by simp) _ _ h1
    obtain ⟨b1, b2, b3⟩ := checkAll_spec hmono hrefl htrans (fun q hq => hf q (by simp [hq])) h2
    refine ⟨fun k hk => b1 k (a1 k hk), fun q hq => ?_, htrans _ _ _ b1 a3 b3⟩
    rcases List.mem_cons.mp hq with rfl | hq
    · exact hmono _ _ _ a2 b1
    · exact b2 q hq

/-- the cells newly seen are defined and mention only cells seen -/
def SeenOK (cells : List (Option DefineRule)) (seen seen' : List Nat) : Prop :=
  ∀ k ∈ seen', k ∈ seen ∨ ∃ r, cells.getD k none = some r ∧ ∀ j ∈ r.pattern.refs, j ∈ seen'

theorem SeenOK.refl (cells) (s : List Nat) : SeenOK cells s s := fun _ h => .inl h
theorem SeenOK.trans {cells} {a b c : List Nat} (hs : ∀ k ∈ b, k ∈ c) (h1 : SeenOK cells a b) (h2 : SeenOK cells b c) :
    SeenOK cells a c := by
  intro k hk
  rcases h2 k hk with h | h
  · rcases h1 k h with h | ⟨r, h, h'⟩
    · exact .inl h
    · exact .inr ⟨r, h, fun j hj => hs j (h' j hj)⟩
  · exact .inr h

theorem check_spec {cells : List (Option DefineRule)} : ∀ {n : Nat} {p : MPattern} {seen seen' : List Nat},
    check cells n seen p = .ok seen' →
    (∀ k ∈ seen, k ∈ seen') ∧ (∀ k ∈ p.refs, k ∈ seen') ∧ SeenOK cells seen seen'
  | 0, _, _, _, h => nomatch h
  | n + 1, p, seen, seen', h => by
    have hall : ∀ {ps : List MPattern}, checkAll (check cells n) seen ps = .ok seen' →
        (∀ k ∈ seen, k ∈ seen') ∧ (∀ k ∈ refsL ps, k ∈ seen') ∧ SeenOK cells seen seen' := by
      intro ps h
      obtain ⟨a, b, c⟩ := checkAll_spec (R := fun p s => ∀ k ∈ p.refs, k ∈ s) (Q := SeenOK cells)
        (fun p s s' h hs k hk => hs k (h k hk)) (SeenOK.refl cells) (fun _ _ _ => SeenOK.trans)
        (fun p _ s s' h => check_spec h) h
      refine ⟨a, fun k hk => ?_, c⟩
      obtain ⟨p, hp, hk⟩ := mem_refsL.mp hk
      exact b p hp k hk
    cases p with
    | choice v => exact hall h
    | interleave v => exact hall h
    | group v => exact hall h
    | mixed p => exact check_spec (n := n) (p := p) h
    | optional p => exact check_spec (n := n) (p := p) h
    | zeroOrMore p => exact check_spec (n := n) (p := p) h
    | oneOrMore p => exact check_spec (n := n) (p := p) h
    | attr _ p => exact check_spec (n := n) (p := p) h
    | element _ p => exact check_spec (n := n) (p := p) h
    | list p => exact check_spec (n := n) (p := p) h
    | datatypeNameExcept _ p => exact check_spec (n := n) (p := p) h
    | empty => cases h; exact ⟨fun _ h => h, nofun, .refl _ _⟩
    | text => cases h; exact ⟨fun _ h => h, nofun, .refl _ _⟩
    | notAllowed => cases h; exact ⟨fun _ h => h, nofun, .refl _ _⟩
    | datatypeValue _ => cases h; exact ⟨fun _ h => h, nofun, .refl _ _⟩
    | datatypeName _ => cases h; exact ⟨fun _ h => h, nofun, .refl _ _⟩
    | ref k =>
      simp only [check] at h
      split at h
      · rename_i hk
        cases h
        exact ⟨fun _ h => h, fun j hj => by rw [Pattern.refs, List.mem_singleton] at hj; exact hj ▸ hk, .refl _ _⟩
      · split at h
        · rename_i r hr
          obtain ⟨a, b, c⟩ := check_spec h
          refine ⟨fun j hj => a j (by simp [hj]), fun j hj => ?_, fun j hj => ?_⟩
          · rw [Pattern.refs, List.mem_singleton] at hj
            exact a j (by simp [hj])
          · rcases c j hj with h | h
            · rcases List.mem_cons.mp h with rfl | h
              · exact .inr ⟨r, hr, b⟩
              · exact .inl h
            · exact .inr h
        · cases h

/-! ### a whole file -/

theorem env_getElem {st : CState} {k : Nat} {r : DefineRule} (h : st.cell k = some r) : st.env[k]? = some r.pattern := by
  simp only [CState.cell, List.getD_eq_getElem?_getD] at h
  cases hk : st.cells[k]? with
  | none => rw [hk] at h; cases h
  | some c =>
    rw [hk] at h
    cases h
    simp [CState.env, List.getElem?_map, hk]

/-- what holds of the final state -/
structure FileDone (F : Files) (x : Ext) (name : Str) (s : SSchema) (k : Nat) (st : CState) : Prop where
  out : ∃ G sc ds r S, GoodS F x st G ∧ F.load name = .ok s ∧ FileDefs F name s ds ∧ G sc [] ds ∧
    st.look sc "start".toList = some k ∧ st.cell k = some r ∧ DefdSet st.cell st.env S ∧ S k

theorem checkedSet {st : CState} {m k : Nat} {r : DefineRule} {seen : List Nat} (hr : st.cell k = some r)
    (h : check st.cells m [] r.pattern = .ok seen) : DefdSet st.cell st.env fun j => j = k ∨ j ∈ seen := by
  obtain ⟨_, b, c⟩ := check_spec h
  constructor
  rintro j (rfl | hj)
  · exact ⟨r, hr, env_getElem hr, fun i hi => .inr (b i hi)⟩
  · rcases c j hj with h | ⟨r', hr', h'⟩
    · cases h
    · exact ⟨r', hr', env_getElem hr', fun i hi => .inr (h' i hi)⟩

theorem newRoot_spec {f : Str} {c' : SCtx} (g : GoodS F x st G) (h : newRoot f st = .ok (c', st')) :
    c' = .root f st.scopes.length [("xml".toList, xmlNs)] [("xsd".toList, xsdUri)] ∧ GoodS F x st' G ∧
      Grow none [] st G st' G ∧ st'.scopes.length = st.scopes.length + 1 ∧ ∀ id, st'.look st.scopes.length id = none := by
  obtain ⟨_, a, b, c, d⟩ := newGrammar_spec (c := .root f 0 [] []) (c' := .grammar (.root f 0 [] []) st.scopes.length)
    (st' := { st with scopes := st.scopes ++ [[]] }) g rfl
  unfold newRoot at h
  cases h
  exact ⟨rfl, a, b, c, d⟩

theorem compileFile_spec {n m : Nat} {name : Str} {k : Nat} (g : GoodS F x st G)
    (h : compileFile F x n m name st = .ok (k, st')) : ∃ s, FileDone F x name s k st' := by
  obtain ⟨hcp, hci⟩ := compile_spec (F := F) (x := x) n
  obtain ⟨s, st1, h1, h⟩ := CM.bind_ok h
  obtain ⟨hs, g1, gr1, _⟩ := getSchema_spec g h1
  obtain ⟨c, st2, h2, h⟩ := CM.bind_ok h
  obtain ⟨rfl, g2, gr2, hl, hlook⟩ := newRoot_spec g1 h2
  obtain ⟨_, st3, h3, h⟩ := CM.bind_ok h
  refine ⟨s, ?_⟩
  obtain ⟨c1, _, h4, h5⟩ := CM.bind_ok h3
  obtain ⟨h4', rfl⟩ := CM.lift_ok h4
  have key : ∃ G' ds, FileDefs F name s ds ∧ GoodS F x st3 G' ∧ st1.scopes.length < st3.scopes.length ∧
      OpenG F x st3 G' [] st1.scopes.length ds := by
    cases compileDeclarations_root h4' with
    | root a b =>
      rename_i ns dts
      have h0 : DefPre F x st2 G (.root name st1.scopes.length ns dts) [] := by
        refine ⟨g2, fun s hs => ?_, trivial, trivial, fun ss ds hg => Nat.lt_irrefl _ (g1.gb _ _ _ hg), fun id => ⟨?_, fun _ => rfl⟩⟩
        · cases List.mem_singleton.mp hs; omega
        · intro k r hk; simp only [SCtx.cur] at hk; rw [hlook] at hk; cases hk
      have ha : (SCtx.root name st1.scopes.length ns dts).Agrees (rootEnv name s.decls) := rootEnv_agrees a b
      obtain ⟨decls, body⟩ := s
      dsimp only at h5 ha
      cases body with
      | grammar items =>
        obtain ⟨G', ds, hex, p⟩ := compileContents_spec hci ha h5 h0
        exact ⟨G', ds, .grammar rfl hex, p.good, by have := p.grow.scopes; omega, p.opn⟩
      | pattern p =>
        obtain ⟨q, st4, h6, h7⟩ := CM.bind_ok h5
        obtain ⟨G1, g4, gr4, t⟩ := hcp _ _ _ _ _ _ G h6 g2 h0.chainB ha
        have p1 := DefPost.nil (ovs := SCtx.ovPath (.root name st1.scopes.length ns dts)) h0 g4 gr4
        have p2 := defineRule_spec (d := ⟨"start".toList, .assign, p, rootEnv name decls⟩) (p1.pre h0) t h7
        have p := p1.trans p2
        exact ⟨G1, _, .pattern rfl, p.good, by have := p.grow.scopes; omega, p.opn⟩
  obtain ⟨G', ds, hd, g3, hb, ho⟩ := key
  dsimp only at h
  unfold finishCompile at h
  split at h
  · cases h
  · split at h
    · cases h
    · rename_i k' hk
      split at h
      · cases h
      · rename_i r hr
        split at h
        · cases h
        · rename_i seen hck
          cases h
          exact ⟨_, _, ds, r, _, g3.addG hb (fun id k r hl hr => (ho id).1 k r hl hr) (fun id hn => .inl ((ho id).2 hn)) (fun h => absurd rfl h), hs, hd, .inr ⟨rfl, rfl, rfl⟩, hk, hr,
            checkedSet hr hck, .inl rfl⟩

theorem FileDefs.det {name : Str} {s : SSchema} {ds ds' : List Defn} (h : FileDefs F name s ds) (h' : FileDefs F name s ds') :
    ds = ds' := by
  cases h with
  | pattern h =>
    cases h' with
    | pattern h' => rw [h] at h'; cases h'; rfl
    | grammar h' => rw [h] at h'; cases h'
  | grammar h e =>
    cases h' with
    | pattern h' => rw [h] at h'; cases h'
    | grammar h' e' => rw [h] at h'; cases h'; exact e.det e'

/-- the start cell means what the schema file says -/
theorem FileDone.same {name : Str} {s : SSchema} {k : Nat} (h : FileDone F x name s k st) (node : Node) :
    ∃ r, st.cell k = some r ∧ (Match (stdLib x) st.env r.pattern [] [node] ↔ SchemaMatches F x name node) := by
  obtain ⟨G, sc, ds, r, S, g, hs, hd, hg, hk, hr, hS, hSk⟩ := h
  refine ⟨r, hr, ?_⟩
  have hsame := Tr.same (a := []) (c := [node]) (e := rootEnv name s.decls) g.closed hS (.ident hk)
    (Chain.cons hg .nil) (fun j hj => by rw [Pattern.refs, List.mem_singleton] at hj; exact hj ▸ hSk)
  have href : Match (stdLib x) st.env (.ref k) [] [node] ↔ Match (stdLib x) st.env r.pattern [] [node] := by
    constructor
    · intro h
      cases h with
      | ref h1 h2 => rw [env_getElem hr] at h1; cases h1; exact h2
    · intro h; exact .ref (env_getElem hr) h
  rw [← href, hsame]
  constructor
  · intro h; exact ⟨s, ds, hs, hd, h⟩
  · rintro ⟨s', ds', hs', hd', h⟩
    rw [hs] at hs'; cases hs'
    rw [hd.det hd']; exact h

end Verif
