import Verif.Proof.SchemaReject
import Verif.Props.SchemaOverrides
/-
A schema with a fault does not compile.
-/
namespace Verif
variable {F : Files} {x : Ext}

/-! ### clashes -/

theorem named_sub {ds ds' : List Defn} (h : ds.Sublist ds') (id : Str) : (named ds id).Sublist (named ds' id) := h.filter _

theorem Clash.sub {ds ds' : List Defn} {e : CFault} (h : ds.Sublist ds') (hc : Clash ds e) : Clash ds' e := by
  cases hc with
  | twice hn => exact .twice (Nat.le_trans hn (named_sub h _).countP_le)
  | mixed a b =>
    obtain ⟨d, hd, a⟩ := a
    obtain ⟨d', hd', b⟩ := b
    exact .mixed ⟨d, (named_sub h _).mem hd, a⟩ ⟨d', (named_sub h _).mem hd', b⟩

theorem Expands.split {e : NEnv} {i : SItem} {is : List SItem} {ds : List Defn} (h : Expands F e (i :: is) ds) :
    ∃ d1 d2, Expands F e [i] d1 ∧ Expands F e is d2 ∧ ds = d1 ++ d2 := by
  cases h with
  | define h => exact ⟨_, _, .define .nil, h, rfl⟩
  | div a b => exact ⟨_, _, .div a .nil, b, by simp⟩
  | «annotation» a => exact ⟨_, _, .annotation .nil, a, rfl⟩
  | «include» a b c d f g => exact ⟨_, _, .include a b c d f .nil, g, by simp⟩

theorem Begins.sub {e : NEnv} {is : List SItem} {ds : List Defn} (h : Begins F e is ds) : ∀ {ds'}, Expands F e is ds' → ds.Sublist ds' := by
  induction h with
  | stop => intro _ _; exact List.nil_sublist _
  | define _ ih =>
    intro ds' h
    cases h with
    | define h => exact (ih h).cons_cons _
  | divIn _ ih =>
    intro ds' h
    cases h with
    | div a b => exact (ih a).trans (List.sublist_append_left _ _)
  | div hd _ ih =>
    intro ds' h
    cases h with
    | div a b => rw [hd.det a]; exact (ih b).append_left _
  | «annotation» _ ih =>
    intro ds' h
    cases h with
    | «annotation» h => exact ih h
  | overrides =>
    intro ds' h
    cases h with
    | «include» a b c d f g =>
      rw [overrideDefs_append, List.append_assoc, List.append_assoc]
      exact List.sublist_append_left _ _
  | includeIn hj hl hg _ ih =>
    intro ds' h
    cases h with
    | «include» a b c d f g =>
      rw [hj] at a; cases a
      rw [hl] at b; cases b
      cases hg.det c
      exact ((((ih d).filter _).append_left _)).trans (List.sublist_append_left _ _)
  | «include» hi _ ih =>
    intro ds' h
    obtain ⟨d1, d2, a, b, rfl⟩ := h.split
    rw [hi.det a]
    exact (ih b).append_left _

theorem TrRule.clash {look G} {ss : List Nat} {ds : List Defn} {r : DefineRule} (h : TrRule F x look G ss ds r) :
    ds ≠ [] ∧ (ds.countP fun d => d.how = .assign) ≤ 1 ∧ ¬ ((∃ d ∈ ds, d.how = .choice) ∧ ∃ d ∈ ds, d.how = .interleave) := by
  obtain ⟨bs, rfl, _, hm⟩ := h
  have hc := hm.compatible
  refine ⟨fun e => hm.ne_nil ?_, ?_, ?_⟩
  · cases bs with
    | nil => rfl
    | cons => cases e
  · have := hc.1
    rw [List.countP_map] at this ⊢
    exact this
  · rintro ⟨⟨d, hd, a⟩, d', hd', b⟩
    obtain ⟨p, hp, rfl⟩ := List.mem_map.mp hd
    obtain ⟨p', hp', rfl⟩ := List.mem_map.mp hd'
    exact hc.2 ⟨⟨_, List.mem_map.mpr ⟨p, hp, rfl⟩, a⟩, _, List.mem_map.mpr ⟨p', hp', rfl⟩, b⟩

theorem OpenG.rule {st : CState} {G ss s D} (h : OpenG F x st G ss s D) {id : Str} (hn : named D id ≠ []) :
    ∃ k r, st.look s id = some k ∧ st.cell k = some r ∧ TrRule F x st.look G (s :: ss) (named D id) r := by
  refine Classical.byContradiction fun hno => hn ((h id).2 fun k hk => ?_)
  cases hc : st.cell k with
  | none => rfl
  | some r => exact absurd ⟨k, r, hk, hc, (h id).1 k r hk hc⟩ hno

theorem OpenG.noClash {st : CState} {G ss s D} (h : OpenG F x st G ss s D) (e : CFault) : ¬ Clash D e := by
  intro hc
  cases hc with
  | twice hn =>
    rename_i id
    by_cases he : named D id = []
    · rw [he] at hn; simp at hn
    · obtain ⟨k, r, _, _, ht⟩ := h.rule he
      have := ht.clash.2.1
      omega
  | mixed a b =>
    obtain ⟨d, hd, ha⟩ := a
    obtain ⟨k, r, _, _, ht⟩ := h.rule (id := _) (List.ne_nil_of_mem hd)
    exact ht.clash.2.2 ⟨⟨d, hd, ha⟩, b⟩

/-! ### dangling references -/

theorem Dangling.false {st : CState} {G} (g : GoodS F x st G) {S : Nat → Prop}
    (hS : ∀ k, S k → ∃ r, st.cell k = some r ∧ ∀ j ∈ r.pattern.refs, S j) {gs e p} (h : Dangling F gs e p) :
    ∀ {ss q}, Chain G ss gs → Tr F x st.look G ss e p q → (∀ j ∈ q.refs, S j) → False := by
  induction h with
  | missing hn =>
    intro ss q hc ht hq
    cases hc with
    | cons hg hc =>
      cases ht with
      | ident hl =>
        obtain ⟨r, hr, _⟩ := hS _ (hq _ (List.mem_singleton.mpr rfl))
        exact (g.closed _ _ _ hg _ _ _ hl hr).clash.1 hn
  | innerStart hgs =>
    intro ss q hc ht hq
    cases hc with
    | cons hg hc =>
      cases ht with
      | ident hl =>
        obtain ⟨r, hr, _⟩ := hS _ (hq _ (List.mem_singleton.mpr rfl))
        rw [g.took _ _ _ hg (fun e => by subst e; cases hc; exact hgs rfl) _ hl] at hr
        cases hr
  | follow hd _ ih =>
    intro ss q hc ht hq
    cases hc with
    | cons hg hc =>
      cases ht with
      | ident hl =>
        obtain ⟨r, hr, hj⟩ := hS _ (hq _ (List.mem_singleton.mpr rfl))
        obtain ⟨bs, hbs, htr, hm⟩ := g.closed _ _ _ hg _ _ _ hl hr
        rw [← hbs] at hd
        obtain ⟨b, hb, rfl⟩ := List.mem_map.mp hd
        exact ih (.cons hg hc) (htr b hb) fun j hj' => hj j (hm.refs _ (List.mem_map.mpr ⟨b, hb, rfl⟩) j hj')
  | parent _ ih =>
    intro ss q hc ht hq
    cases hc with
    | cons hg hc =>
      cases ht with
      | parent hl => exact ih hc (.ident hl) hq
  | grammar hex hd _ ih =>
    intro ss q hc ht hq
    cases ht with
    | grammar hg hex' hbs htr hm =>
      cases hex.det hex'
      rw [← hbs] at hd
      obtain ⟨b, hb, rfl⟩ := List.mem_map.mp hd
      exact ih (.cons hg hc) (htr b hb) fun j hj' => hq j (hm.refs _ (List.mem_map.mpr ⟨b, hb, rfl⟩) j hj')
  | externalPattern hj hl hb _ ih =>
    intro ss q hc ht hq
    cases ht with
    | externalPattern hj' hl' hb' ht =>
      rw [hj] at hj'; cases hj'
      rw [hl] at hl'; cases hl'
      rw [hb] at hb'; cases hb'
      exact ih hc ht hq
    | externalGrammar hj' hl' hb' ht =>
      rw [hj] at hj'; cases hj'
      rw [hl] at hl'; cases hl'
      rw [hb] at hb'; cases hb'
  | externalGrammar hj hl hb _ ih =>
    intro ss q hc ht hq
    cases ht with
    | externalPattern hj' hl' hb' ht =>
      rw [hj] at hj'; cases hj'
      rw [hl] at hl'; cases hl'
      rw [hb] at hb'; cases hb'
    | externalGrammar hj' hl' hb' ht =>
      rw [hj] at hj'; cases hj'
      rw [hl] at hl'; cases hl'
      rw [hb] at hb'; cases hb'
      exact ih hc ht hq
  | element _ ih => intro ss q hc ht hq; cases ht with | element _ ht => exact ih hc ht hq
  | «attribute» _ ih => intro ss q hc ht hq; cases ht with | «attribute» _ ht => exact ih hc ht hq
  | list _ ih => intro ss q hc ht hq; cases ht with | list ht => exact ih hc ht hq
  | mixed _ ih => intro ss q hc ht hq; cases ht with | mixed ht => exact ih hc ht hq
  | paren _ ih => intro ss q hc ht hq; cases ht with | paren ht => exact ih hc ht hq
  | optional _ ih => intro ss q hc ht hq; cases ht with | optional ht => exact ih hc ht hq
  | zeroOrMore _ ih => intro ss q hc ht hq; cases ht with | zeroOrMore ht => exact ih hc ht hq
  | oneOrMore _ ih => intro ss q hc ht hq; cases ht with | oneOrMore ht => exact ih hc ht hq
  | seqLeft _ ih =>
    intro ss q hc ht hq
    cases ht with
    | seq h1 h2 =>
      rw [Pattern.refs, refsL_append, refsL_groupMembers, refsL_groupMembers] at hq
      exact ih hc h1 fun j hj => hq j (List.mem_append_left _ hj)
  | seqRight _ ih =>
    intro ss q hc ht hq
    cases ht with
    | seq h1 h2 =>
      rw [Pattern.refs, refsL_append, refsL_groupMembers, refsL_groupMembers] at hq
      exact ih hc h2 fun j hj => hq j (List.mem_append_right _ hj)
  | interLeft _ ih =>
    intro ss q hc ht hq
    cases ht with
    | inter h1 h2 =>
      rw [Pattern.refs, refsL_append, refsL_interleaveMembers, refsL_interleaveMembers] at hq
      exact ih hc h1 fun j hj => hq j (List.mem_append_left _ hj)
  | interRight _ ih =>
    intro ss q hc ht hq
    cases ht with
    | inter h1 h2 =>
      rw [Pattern.refs, refsL_append, refsL_interleaveMembers, refsL_interleaveMembers] at hq
      exact ih hc h2 fun j hj => hq j (List.mem_append_right _ hj)
  | choiceLeft _ ih =>
    intro ss q hc ht hq
    cases ht with
    | choice h1 h2 =>
      rw [Pattern.refs, refsL_append, refsL_choiceMembers, refsL_choiceMembers] at hq
      exact ih hc h1 fun j hj => hq j (List.mem_append_left _ hj)
  | choiceRight _ ih =>
    intro ss q hc ht hq
    cases ht with
    | choice h1 h2 =>
      rw [Pattern.refs, refsL_append, refsL_choiceMembers, refsL_choiceMembers] at hq
      exact ih hc h2 fun j hj => hq j (List.mem_append_right _ hj)
  | except _ ih => intro ss q hc ht hq; cases ht with | dataExcept _ _ ht => exact ih hc ht hq

/-! ### overrides given twice -/

theorem overrides_nodup {cp} (hcp : PSpec F x cp) {c : SCtx} {e : NEnv} {f : Str} {o : Nat} {ns dts}
    (ha : (SCtx.inclOverrides (.incl c f o ns dts)).Agrees e) :
    ∀ {os : List SOverride} {st : CState} {G D done st'},
      compileOverrides cp (.inclOverrides (.incl c f o ns dts)) os st = .ok ((), st') →
      DefPre F x st G c D → c.OvOK o → o < st.overrides.length → TableIs st o (overrideDefs e done) → (overrideNames done).Nodup →
      (overrideNames (done ++ os)).Nodup
  | [], st, G, D, done, st', h, h0, ho, hl, ht, hn => by simpa using hn
  | .div :: os, st, G, D, done, st', h, h0, ho, hl, ht, hn => by
    obtain ⟨_, st1, h1, h2⟩ := CM.bind_ok h
    cases h1
  | .annotation :: os, st, G, D, done, st', h, h0, ho, hl, ht, hn => by
    have := overrides_nodup (os := os) hcp ha h h0 ho hl ht hn
    simpa [overrideNames_append, overrideNames] using this
  | .define id how body :: os, st, G, D, done, st', h, h0, ho, hl, ht, hn => by
    obtain ⟨_, st1, h1, h2⟩ := CM.bind_ok h
    have hone : compileOverrides cp (.inclOverrides (.incl c f o ns dts)) [.define id how body] st = .ok ((), st1) :=
      CM.bind_of_ok h1
    obtain ⟨G1, p1, t1⟩ := compileOverrides_spec (e := e) hcp ha hone h0 ho hl ht
    have hnew : id ∉ overrideNames done := by
      intro hid
      obtain ⟨q, sta, ha1, ha2⟩ := CM.bind_ok (CM.inInclude_ok h1)
      obtain ⟨Ga, ga, gra, ta⟩ := hcp _ _ _ _ _ e G ha1 h0.good h0.chainB (ha.define id)
      rw [defineRule_inclOverrides] at ha2
      dsimp only at ha2
      rw [← overrideNames_defs e] at hid
      obtain ⟨d, hd, hdn⟩ := List.mem_map.mp hid
      rw [gra.ovEq o hl nofun, ht id, if_pos (by simpa using ⟨d, hd, hdn⟩)] at ha2
      cases ha2
    have t1' : TableIs st1 o (overrideDefs e (done ++ [.define id how body])) := by
      rw [overrideDefs_append]; exact t1
    have := overrides_nodup (os := os) hcp ha h2 (p1.pre h0) ho (Nat.lt_of_lt_of_le hl p1.grow.ovsLen) t1' (by
      rw [overrideNames_append]
      refine List.nodup_append.mpr ⟨hn, by simp [overrideNames], fun a hmem b hb => ?_⟩
      simp only [overrideNames, List.mem_singleton] at hb
      rintro rfl; subst hb; exact hnew hmem)
    simpa using this

theorem include_nodup {cp ci} (hcp : PSpec F x cp) {c : SCtx} {w : Where} (hw : c.Fits w) {lit : Str} {i : Option Str}
    {os : List SOverride} {st st' : CState} {G D} (h0 : DefPre F x st G c D)
    (h : compileInclude F cp ci c lit i os st = .ok ((), st')) : (overrideNames os).Nodup := by
  have ha := hw.env
  obtain ⟨path, _, h1, h⟩ := CM.bind_ok h
  obtain ⟨hp, rfl⟩ := CM.lift_ok h1
  obtain ⟨s, st1, h2, h⟩ := CM.bind_ok h
  obtain ⟨hs, g1, gr1, _⟩ := getSchema_spec h0.good (CM.inInclude_ok h2)
  obtain ⟨inc, st2, h3, h⟩ := CM.bind_ok h
  obtain ⟨rfl, g2, gr2, hol, hov⟩ := newInclude_spec g1 h3
  obtain ⟨inc', _, h4, h⟩ := CM.bind_ok h
  obtain ⟨h4', rfl⟩ := CM.lift_ok h4
  obtain ⟨ns, rfl, hns⟩ := inheritCtx_spec ha h4'
  obtain ⟨_, st3, h5, h⟩ := CM.bind_ok h
  have gr12 := gr1.trans g1.toWFS gr2
  have hoc : c.OvOK st1.overrides.length := h0.ov.mono gr1.ovsLen
  have p0 := DefPost.nil (ovs := st1.overrides.length :: c.ovPath) h0 g2 gr12
  have ho2 : st1.overrides.length < st2.overrides.length := by omega
  have ht2 : TableIs st2 st1.overrides.length [] := fun id => by rw [hov]; rfl
  exact overrides_nodup (done := []) hcp (overrides_agrees ha hns) h5 (p0.pre h0) hoc ho2 ht2 (by simp [overrideNames])

/-! ### grammars inside patterns -/

/-- what compiling the contents of a grammar inside a pattern leaves -/
theorem child_ran {n : Nat} {c child : SCtx} {w : Where} (hw : c.Fits w) {is : List SItem} {st st1 stc : CState} {G}
    (g : GoodS F x st G) (hc : ∀ s ∈ c.chain, s < st.scopes.length) (h1 : newGrammar c st = .ok (child, st1))
    (h2 : compileContents (compileItem F x n) child is st1 = .ok ((), stc)) :
    ∃ G2 ds, GoodS F x stc G2 ∧ Expands F w.env is ds ∧ OpenG F x stc G2 c.chain st.scopes.length ds ∧
      Ran F x stc (st.scopes.length :: c.chain) (.items w.grammar is) := by
  obtain ⟨hf, h0⟩ := newGrammar_at hw g hc h1
  obtain ⟨_, b, c', d⟩ := newGrammar_ran hw g.cache hc h1
  obtain ⟨G2, ds, hex, p⟩ := compileContents_spec (compile_spec n).2 hf.env h2 h0
  have ho := p.opn
  obtain ⟨rfl, _⟩ := newGrammar_spec g h1
  refine ⟨G2, ds, p.good, hex, ?_, n, _, st1, stc, hf, c', b, d, h2, .refl _⟩
  simpa [survive, SCtx.outer, SCtx.cur] using ho

theorem takeStart_ok {s : Nat} {ss : List Nat} {ds : List Defn} {q : MPattern} {st st' : CState} {G} (ho : OpenG F x st G ss s ds)
    (h : takeStart s st = .ok (q, st')) : named ds "start".toList ≠ [] := by
  unfold takeStart at h
  split at h
  · cases h
  · rename_i k hk
    split at h
    · cases h
    · rename_i r hr
      exact ((ho _).1 k r hk hr).clash.1

theorem checkDefined_all {st : CState} : ∀ {l : List (Str × Nat)}, checkDefined st l = .ok () → ∀ id k, l.lookup id = some k → st.cell k ≠ none
  | [], _, _, _, h => nomatch h
  | (n, k') :: l, h, id, k, hl => by
    unfold checkDefined at h
    split at h
    · cases h
    · rename_i r hr
      rw [lookup_cons_ite] at hl
      split at hl
      · cases hl; rw [hr]; exact nofun
      · exact checkDefined_all h id k hl

/-- a checked grammar defines everything it refers to -/
theorem OpenG.defined {st : CState} {G ss s D} (h : OpenG F x st G ss s D) (hc : checkDefined st (st.refs s) = .ok ())
    {pl : Place} {id : Str} (hr : Ran F x st (s :: ss) pl) (hi : Refers F 0 pl id) : named D id ≠ [] := by
  obtain ⟨s', k, hs, hk⟩ := hi.look hr
  cases hs
  have := checkDefined_all hc id k hk
  cases hcell : st.cell k with
  | none => exact absurd hcell this
  | some r => exact ((h id).1 k r hk hcell).clash.1

theorem externalGrammar_ok {w : Where} {path f : Str} {s : SSchema} {is : List SItem} (hj : F.join w.env.file path = some f)
    (hl : F.load f = .ok s) (hb : s.body = .grammar is) (h : Passed F x (.pat w (.external path none))) :
    ∃ ds, Expands F w.env is ds ∧ named ds "start".toList ≠ [] ∧ (∀ e, ¬ Clash ds e) ∧ ∀ id, Refers F 0 (.items w.grammar is) id → named ds id ≠ [] := by
  obtain ⟨n, c, st, q, st', G, hf, g, hc, h⟩ := h
  cases n with
  | zero => cases h
  | succ n =>
    obtain ⟨path, _, h1, h⟩ := CM.bind_ok h
    obtain ⟨hp, rfl⟩ := CM.lift_ok h1
    obtain ⟨s, st1, h2, h⟩ := CM.bind_ok h
    obtain ⟨hs, g1, gr1, _⟩ := getSchema_spec g (CM.inInclude_ok h2)
    obtain ⟨inc, st2, h3, h⟩ := CM.bind_ok h
    obtain ⟨rfl, g2, gr2, hol, hov⟩ := newInclude_spec g1 h3
    rw [includePath_spec hf.env hp] at hj; cases hj
    rw [hs] at hl; cases hl
    obtain ⟨ds, body⟩ := s
    cases hb
    obtain ⟨child, st3, h4, h⟩ := CM.bind_ok h
    obtain ⟨_, stc, h5, h'⟩ := CM.bind_ok h
    obtain ⟨G2, ds, _, he, ho, hran⟩ := child_ran hf g2 (fun s h => Nat.lt_of_lt_of_le (hc s h) (Nat.le_trans gr1.scopes gr2.scopes)) h4 h5
    unfold newGrammar at h4; cases h4
    obtain ⟨_, std, h6, h7⟩ := CM.bind_ok h'
    unfold checkScope at h6
    split at h6
    · rename_i hck
      cases h6; exact ⟨ds, he, takeStart_ok ho h7, ho.noClash, fun id hi => ho.defined hck hran hi⟩
    · cases h6

theorem grammarAt_ok {w : Where} {p : SPattern} {is : List SItem} (hg : GrammarAt F w p is) (h : Passed F x (.pat w p)) :
    ∃ ds, Expands F w.env is ds ∧ named ds "start".toList ≠ [] ∧ ∀ e, ¬ Clash ds e := by
  have h' := h
  obtain ⟨n, c, st, q, st', G, hf, g, hc, h⟩ := h
  cases n with
  | zero => cases h
  | succ n =>
    cases hg with
    | grammar =>
      obtain ⟨ch, st1, h1, h⟩ := CM.bind_ok h
      obtain ⟨_, st2, h2, h4⟩ := CM.bind_ok h
      obtain ⟨G2, ds, _, he, ho, _⟩ := child_ran hf g hc h1 h2
      unfold newGrammar at h1; cases h1
      exact ⟨ds, he, takeStart_ok ho h4, ho.noClash⟩
    | external hj hl hb =>
      obtain ⟨ds, h1, h2, h3, _⟩ := externalGrammar_ok hj hl hb h'
      exact ⟨ds, h1, h2, h3⟩

/-! ### no place has a fault -/

theorem SNameClass.Declared.known {w : Where} {pre : Str} (hk : w.known.lookup pre = none) :
    ∀ {nc : SNameClass}, nc.Declared w.names → pre ∉ nc.prefixes
  | .ident _, _ => nofun
  | .namespaced _ _, _ => nofun
  | .anyName, _ => nofun
  | .cname p _, h => by
    obtain ⟨u, h⟩ := h
    simp only [SNameClass.prefixes, List.mem_singleton]
    rintro rfl
    rw [show w.names.ns.lookup pre = w.known.lookup pre from rfl, hk] at h; cases h
  | .nsName (.uri _), _ => nofun
  | .nsName (.pre p), h => by
    obtain ⟨u, h⟩ := h
    simp only [SNameClass.prefixes, NsRef.prefixes, List.mem_singleton]
    rintro rfl
    rw [show w.names.nsRef (.pre pre) = w.known.lookup pre from rfl, hk] at h; cases h
  | .nsNameExcept (.uri _) ex, h => by simpa [SNameClass.prefixes, NsRef.prefixes] using Declared.known hk h.2
  | .nsNameExcept (.pre p) ex, h => by
    obtain ⟨⟨u, h⟩, h2⟩ := h
    simp only [SNameClass.prefixes, NsRef.prefixes, List.mem_append, List.mem_singleton, not_or]
    refine ⟨?_, Declared.known hk h2⟩
    rintro rfl
    rw [show w.names.nsRef (.pre pre) = w.known.lookup pre from rfl, hk] at h; cases h
  | .anyNameExcept ex, h => Declared.known (nc := ex) hk h
  | .alt a b, h => by
    simp only [SNameClass.prefixes, List.mem_append, not_or]
    exact ⟨Declared.known hk h.1, Declared.known hk h.2⟩
  | .paren a, h => Declared.known (nc := a) hk h

theorem DeclsOK.noFault {ds : List SDecl} (h : DeclsOK ds) (e : CFault) : ¬ DeclFault ds e := by
  intro hf
  cases hf with
  | inheritPrefix hm => exact h.1 _ hm
  | inheritDefault hm => exact h.2.1 _ hm
  | datatypePrefix he hp =>
    rename_i ds1 ds2 p u
    subst he
    have hd : ∀ a b : List SDecl, declDts (a ++ b) = declDts a ++ declDts b := by
      intro a b
      induction a with
      | nil => rfl
      | cons d a ih => cases d <;> simp [declDts, ih]
    have hn := h.2.2
    rw [hd, List.map_append, ← List.cons_append] at hn
    exact (List.nodup_append.mp hn).2.2 p hp p (by simp [declDts]) rfl

theorem dt_none {e : NEnv} {pre t : Str} (h : e.dts.lookup pre = none) : e.dt (.cname pre t) = none := by
  simp [NEnv.dt, h]

theorem noFault {pl : Place} (hp : Passed F x pl) (hok : pl.OK F x) (e : CFault) : ¬ pl.Fault F x e := by
  cases pl with
  | pat w p =>
    intro hf
    cases hf with
    | elementName hm hk => exact SNameClass.Declared.known hk hok.2.2 hm
    | attributeName hm hk => exact SNameClass.Declared.known hk hok.2 hm
    | elementInAttribute ha => rw [hok.1] at ha; cases ha
    | selfReference hs => exact hok hs
    | noParent hn => obtain ⟨s, hs, _⟩ := hok; rw [hn] at hs; cases hs
    | parentSelfReference hn => obtain ⟨s, hs, h⟩ := hok; rw [hn] at hs; cases hs; exact h rfl
    | externalInherit => cases hok.1
    | externalPath hj => obtain ⟨_, f, s, hj', _⟩ := hok; rw [hj] at hj'; cases hj'
    | externalLoad hj hl => obtain ⟨_, f, s, hj', hl', _⟩ := hok; rw [hj] at hj'; cases hj'; rw [hl] at hl'; cases hl'
    | externalLoop hj hm => obtain ⟨_, f, s, hj', hl', hn⟩ := hok; rw [hj] at hj'; cases hj'; exact hn hm
    | externalUndefined hj hl hb he hr hn =>
      obtain ⟨ds', he', h⟩ := externalGrammar_ok hj hl hb hp
      cases he.det he'
      exact h.2.2 _ hr hn
    | noStart hg he hn =>
      obtain ⟨ds', he', h, _⟩ := grammarAt_ok hg hp
      cases he.det he'
      exact h hn
    | clash hg hb hc =>
      obtain ⟨ds', he', _, h⟩ := grammarAt_ok hg hp
      exact h _ (hc.sub (hb.sub he'))
    | valuePrefix hn => obtain ⟨m, v, hm, _⟩ := hok; exact nomatch (dt_none hn).symm.trans hm
    | value ht hv => obtain ⟨m, v, hm, hv'⟩ := hok; rw [ht] at hm; cases hm; rw [hv] at hv'; cases hv'
    | valuePanic ht hv => obtain ⟨m, v, hm, hv'⟩ := hok; rw [ht] at hm; cases hm; rw [hv] at hv'; cases hv'
    | dataPrefix hn => obtain ⟨m, v, hm, _⟩ := hok; rw [dt_none hn] at hm; cases hm
    | data ht hv => obtain ⟨m, v, hm, hv'⟩ := hok; rw [ht] at hm; cases hm; rw [hv] at hv'; cases hv'
    | dataPanic ht hv => obtain ⟨m, v, hm, hv'⟩ := hok; rw [ht] at hm; cases hm; rw [hv] at hv'; cases hv'
    | exceptPrefix hn => obtain ⟨m, v, hm, _⟩ := hok; rw [dt_none hn] at hm; cases hm
    | except ht hv => obtain ⟨m, v, hm, hv'⟩ := hok; rw [ht] at hm; cases hm; rw [hv] at hv'; cases hv'
    | exceptPanic ht hv => obtain ⟨m, v, hm, hv'⟩ := hok; rw [ht] at hm; cases hm; rw [hv] at hv'; cases hv'
  | items w is =>
    rintro ⟨i, hi, hf⟩
    have hiok := hok i hi
    cases hf with
    | path hj => obtain ⟨f, s, is, hj', _⟩ := hiok; rw [hj] at hj'; cases hj'
    | load hj hl => obtain ⟨f, s, is, hj', hl', _⟩ := hiok; rw [hj] at hj'; cases hj'; rw [hl] at hl'; cases hl'
    | loop hj hm => obtain ⟨f, s, is, hj', _, _, hn, _⟩ := hiok; rw [hj] at hj'; cases hj'; exact hn hm
    | inheritPrefix hk => obtain ⟨f, s, is, _, _, _, _, _, h, _⟩ := hiok; obtain ⟨u, _, hu⟩ := h _ rfl; rw [hk] at hu; cases hu
    | decls hj hl hd =>
      obtain ⟨f, s, is, hj', hl', _, _, h, _⟩ := hiok; rw [hj] at hj'; cases hj'; rw [hl] at hl'; cases hl'
      exact h.noFault _ hd
    | notGrammar hj hl hn =>
      obtain ⟨f, s, is, hj', hl', hg, _⟩ := hiok; rw [hj] at hj'; cases hj'; rw [hl] at hl'; cases hl'
      exact hn _ hg
    | overrideDiv hm => obtain ⟨f, s, is, _, _, _, _, _, _, h⟩ := hiok; exact h hm
    | overrideTwice hn =>
      obtain ⟨n, c, st, st', G, D, hf, hs, h⟩ := hp
      cases n with
      | zero => obtain ⟨_, _, _, _, _, h⟩ := contents_at (compile_spec 0).2 hf.env hs h hi; cases h
      | succ n =>
        obtain ⟨st1, st2, G1, D1, hs1, h⟩ := contents_at (compile_spec (n + 1)).2 hf.env hs h hi
        exact hn (include_nodup (compile_spec n).1 hf hs1 h)
    | overrideMissing hj hl hg he hm hn =>
      obtain ⟨ds, hex⟩ := hp.expands
      obtain ⟨rest, D', hex⟩ := expands_mem hi hex
      cases hex with
      | «include» a b c d f g =>
        rw [hj] at a; cases a
        rw [hl] at b; cases b
        cases hg.det c
        cases he.det d
        rw [← overrideNames_defs w.env] at hm
        obtain ⟨o, ho, rfl⟩ := List.mem_map.mp hm
        obtain ⟨d', hd', hdn⟩ := f o ho
        have : d' ∈ named _ o.name := List.mem_filter.mpr ⟨hd', by simpa using hdn⟩
        rw [hn] at this; cases this

/-! ### the whole schema -/

/-- the end of a compilation that succeeds -/
theorem compileFile_end {n m k : Nat} {name : Str} {st0 st : CState} {G} (g : GoodS F x st0 G)
    (h : compileFile F x n m name st0 = .ok (k, st)) : ∃ s ds sc G', F.load name = .ok s ∧ FileDefs F name s ds ∧
      OpenG F x st G' [] sc ds ∧ checkDefined st (st.refs sc) = .ok () ∧ ∀ pl, FilePlace F name pl → Ran F x st [sc] pl := by
  obtain ⟨s, st1, h1, h⟩ := CM.bind_ok h
  obtain ⟨hload, g1, gr1, _⟩ := getSchema_spec g h1
  obtain ⟨c, st2, h2, h⟩ := CM.bind_ok h
  obtain ⟨rfl, g2, gr2, hl, hlook⟩ := newRoot_spec g1 h2
  obtain ⟨_, st3, h3, h⟩ := CM.bind_ok h
  obtain ⟨c1, _, h4, h5⟩ := CM.bind_ok h3
  obtain ⟨h4', rfl⟩ := CM.lift_ok h4
  have hfin : st = st3 ∧ checkDefined st3 (st3.refs st1.scopes.length) = .ok () := by
    dsimp only at h
    unfold finishCompile at h
    split at h
    · cases h
    · rename_i hck
      split at h
      · cases h
      · split at h
        · cases h
        · split at h
          · cases h
          · cases h; exact ⟨rfl, hck⟩
  obtain ⟨rfl, hck⟩ := hfin
  cases compileDeclarations_root h4' with
  | root ha hb =>
    rename_i ns dts
    have hfit : (SCtx.root name st1.scopes.length ns dts).Fits (.top name s.decls) :=
      .root ha hb
    have h0 : DefPre F x st2 G (.root name st1.scopes.length ns dts) [] := by
      refine ⟨g2, fun s hs => ?_, trivial, trivial, fun ss ds hg => Nat.lt_irrefl _ (g1.gb _ _ _ hg), fun id => ⟨?_, fun _ => rfl⟩⟩
      · cases List.mem_singleton.mp hs; omega
      · intro k r hk; simp only [SCtx.cur] at hk; rw [hlook] at hk; cases hk
    obtain ⟨decls, body⟩ := s
    cases body with
    | grammar items =>
      obtain ⟨G', ds, hex, p⟩ := compileContents_spec (compile_spec n).2 hfit.env h5 h0
      refine ⟨_, ds, _, G', hload, .grammar rfl hex, p.opn, hck, fun pl hpl => ?_⟩
      cases hpl with
      | pattern hl' hbody => rw [hload] at hl'; cases hl'; cases hbody
      | grammar hl' hbody =>
        rw [hload] at hl'; cases hl'; cases hbody
        exact ⟨n, _, st2, st, hfit, g2.cache, rfl, h0.chainB, h5, .refl _⟩
    | pattern p =>
      obtain ⟨q, st4, h6, h7⟩ := CM.bind_ok h5
      obtain ⟨G1, g4, gr4, t⟩ := (compile_spec n).1 _ _ _ _ _ _ G h6 g2 h0.chainB hfit.env
      have p1 := DefPost.nil (ovs := SCtx.ovPath (.root name st1.scopes.length ns dts)) h0 g4 gr4
      have p2 := defineRule_spec (d := ⟨"start".toList, .assign, p, rootEnv name decls⟩) (p1.pre h0) t h7
      refine ⟨_, _, _, G1, hload, .pattern rfl, (p1.trans p2).opn, hck, fun pl hpl => ?_⟩
      cases hpl with
      | pattern hl' hbody =>
        rw [hload] at hl'; cases hl'; cases hbody
        exact ⟨n, _, st2, q, st4, hfit, g2.cache, rfl, h0.chainB, h6, adds_defineRule _ _ _ _ _ _ h7⟩
      | grammar hl' hbody => rw [hload] at hl'; cases hl'; cases hbody

theorem compileFile_faultless {n m k : Nat} {name : Str} {st0 st : CState} {G} (g : GoodS F x st0 G)
    (h : compileFile F x n m name st0 = .ok (k, st)) (e : CFault) : ¬ SchemaFault F x name e := by
  obtain ⟨⟨s0, hs0, hd0⟩, hok⟩ := compileFile_places g.cache rfl h
  obtain ⟨s, ds, sc, G', hs, hfd, ho, hck, hran⟩ := compileFile_end g h
  obtain ⟨s', hdone⟩ := compileFile_spec g h
  obtain ⟨G1, sc1, ds1, r1, S, g1, hs1, hfd1, hg1, hk1, hr1, hS, hSk⟩ := hdone.out
  intro hf
  cases hf with
  | load hl => rw [hs] at hl; cases hl
  | decls hl hd => rw [hs0] at hl; cases hl; exact hd0.noFault _ hd
  | place hoc hpf => exact noFault (compileFile_passed g h _ hoc) (hok _ hoc) _ hpf
  | clash hl hb hbg hc =>
    rw [hs] at hl; cases hl
    cases hfd with
    | pattern hb' => rw [hb] at hb'; cases hb'
    | grammar hb' he => rw [hb] at hb'; cases hb'; exact ho.noClash _ (hc.sub (hbg.sub he))
  | noStart hl hfd' hn =>
    rw [hs1] at hl; cases hl
    cases hfd1.det hfd'
    exact (g1.closed _ _ _ hg1 _ _ _ hk1 hr1).clash.1 hn
  | undefined hl hfd' hpl hr hn =>
    rw [hs] at hl; cases hl
    cases hfd.det hfd'
    exact ho.defined hck (hran _ hpl) hr hn
  | dangling hl hfd' hdg =>
    rw [hs1] at hl; cases hl
    cases hfd1.det hfd'
    refine hdg.false g1 (S := S) (fun k hk => ?_) (.cons hg1 .nil) (.ident hk1) (fun j hj => ?_)
    · obtain ⟨r, a, _, b⟩ := hS.defd k hk; exact ⟨r, a, b⟩
    · cases List.mem_singleton.mp hj; exact hSk

end Verif
