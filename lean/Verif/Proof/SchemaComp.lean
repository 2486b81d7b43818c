import Verif.Proof.SchemaNames
/-
Compiling patterns and grammar contents.
-/
namespace Verif

variable {F : Files} {x : Ext} {st st' st1 st2 : CState} {G G' G1 G2 : Nat → List Nat → List Defn → Prop}

variable (F x) in
/-- compiling a pattern gives a pattern that corresponds to it -/
def PSpec (cp : SCtx → SPattern → CM MPattern) : Prop :=
  ∀ c p st q st' e G, cp c p st = .ok (q, st') → GoodS F x st G → (∀ s ∈ c.chain, s < st.scopes.length) → c.Agrees e →
    ∃ G', GoodS F x st' G' ∧ Grow none [] st G st' G' ∧ Tr F x st'.look G' c.chain e p q

variable (F x) in
/-- compiling a grammar item makes its definitions -/
def ISpec (ci : SCtx → SItem → CM Unit) : Prop :=
  ∀ c i st st' e G D, ci c i st = .ok ((), st') → DefPre F x st G c D → c.Agrees e →
    ∃ G' ds, Expands F e [i] ds ∧ DefPost F x c.ovPath st G c D ds st' G'

theorem Expands.cons {e : NEnv} {i : SItem} {is : List SItem} {ds ds' : List Defn} (h : Expands F e [i] ds)
    (h' : Expands F e is ds') : Expands F e (i :: is) (ds ++ ds') := by
  cases h with
  | define h => cases h; exact .define h'
  | div h h0 => cases h0; rw [List.append_nil]; exact .div h h'
  | «annotation» h => cases h; exact .annotation h'
  | «include» a b c d f h => cases h; rw [List.append_nil]; exact .include a b c d f h'

/-! ### references -/

theorem acquireRefImpl_eq (id : Str) : ∀ c : SCtx, c.acquireRefImpl id = SCtx.acquireRefImpl.acquireIn c.cur id
  | .root _ _ _ _ => rfl
  | .grammar _ _ => rfl
  | .incl p _ _ _ _ => acquireRefImpl_eq id p
  | .inclOverrides p => acquireRefImpl_eq id p
  | .define p _ => acquireRefImpl_eq id p
  | .element p => acquireRefImpl_eq id p
  | .attribute p => acquireRefImpl_eq id p

theorem acquireRef_spec {c : SCtx} {id : Str} {k : Nat} (g : GoodS F x st G) (hs : c.cur < st.scopes.length)
    (h : c.acquireRef id st = .ok (k, st')) :
    GoodS F x st' G ∧ Grow none [] st G st' G ∧ st'.look c.cur id = some k := by
  obtain ⟨_, _, h1, h2⟩ := CM.bind_ok h
  obtain ⟨_, rfl⟩ := CM.lift_ok h1
  rw [acquireRefImpl_eq] at h2
  exact acquireIn_spec g hs h2

theorem acquireParentRef_spec {id : Str} {k : Nat} (g : GoodS F x st G) : ∀ {c : SCtx},
    (∀ s ∈ c.chain, s < st.scopes.length) → c.acquireParentRef id st = .ok (k, st') →
    GoodS F x st' G ∧ Grow none [] st G st' G ∧ ∃ t s ss, c.chain = t :: s :: ss ∧ st'.look s id = some k
  | .root _ _ _ _, _, h => nomatch h
  | .incl p _ _ _ _, hs, h => acquireParentRef_spec (c := p) g hs h
  | .inclOverrides p, hs, h => acquireParentRef_spec (c := p) g hs h
  | .define p _, hs, h => acquireParentRef_spec (c := p) g hs h
  | .element p, hs, h => acquireParentRef_spec (c := p) g hs h
  | .attribute p, hs, h => acquireParentRef_spec (c := p) g hs h
  | .grammar p s, hs, h => by
    obtain ⟨a, b, d⟩ := acquireRef_spec (c := p) g (hs _ (by simp [SCtx.chain, SCtx.chain_eq p])) h
    exact ⟨a, b, s, p.cur, p.outer, by simp [SCtx.chain, SCtx.chain_eq p], d⟩

/-! ### grammar contents -/

theorem compileContents_spec {ci} (hci : ISpec F x ci) {c : SCtx} {e : NEnv} (ha : c.Agrees e) :
    ∀ {is : List SItem} {st G D st'}, compileContents ci c is st = .ok ((), st') → DefPre F x st G c D →
    ∃ G' ds, Expands F e is ds ∧ DefPost F x c.ovPath st G c D ds st' G'
  | [], st, G, D, st', h, h0 => by
    cases h
    exact ⟨G, [], .nil, .nil h0 h0.good (.refl _ _)⟩
  | i :: is, st, G, D, st', h, h0 => by
    obtain ⟨_, st1, h1, h2⟩ := CM.bind_ok h
    obtain ⟨G1, ds1, e1, p1⟩ := hci c i st st1 e G D h1 h0 ha
    obtain ⟨G2, ds2, e2, p2⟩ := compileContents_spec hci ha h2 (p1.pre h0)
    exact ⟨G2, ds1 ++ ds2, e1.cons e2, p1.trans p2⟩

theorem DefPre.grow {c D} (h0 : DefPre F x st G c D) (g : GoodS F x st' G') (gr : Grow none [] st G st' G') :
    DefPre F x st' G' c D := by
  have := (DefPost.nil (ovs := []) h0 g gr).pre h0
  rwa [survive_nil, List.append_nil] at this

theorem compileDefine_spec {cp} (hcp : PSpec F x cp) {c : SCtx} {e : NEnv} {id how body D} (ha : c.Agrees e)
    (h : compileDefine cp c id how body st = .ok ((), st')) (h0 : DefPre F x st G c D) :
    ∃ G', DefPost F x c.ovPath st G c D [⟨id, how, body, e⟩] st' G' := by
  obtain ⟨q, st1, h1, h2⟩ := CM.bind_ok h
  obtain ⟨G1, g1, gr1, t1⟩ := hcp _ _ _ _ _ e G h1 h0.good h0.chainB (ha.define id)
  have p1 := DefPost.nil (ovs := c.ovPath) h0 g1 gr1
  have := defineRule_spec (d := ⟨id, how, body, e⟩) (p1.pre h0) t1 h2
  exact ⟨G1, p1.trans this⟩

/-! ### include -/

/-- the override table `o` has exactly the names of `ods`, none met yet -/
def TableIs (st : CState) (o : Nat) (ods : List Defn) : Prop :=
  ∀ id, (st.ov o).lookup id = if ods.any (fun d => d.name = id) then some false else none

theorem Flags.onInclude {c : SCtx} {ds} {o : Nat} (h : Flags st c ds st1) (ho : ∀ o' ∈ c.ovPath, st1.ov o' = st'.ov o') :
    Flags st c ds st' := by
  intro o' ho' id
  rw [← ho o' ho']; exact h o' ho' id

theorem compileOverrides_spec {cp} (hcp : PSpec F x cp) {c : SCtx} {e : NEnv} {f : Str} {o : Nat} {ns dts}
    (ha : (SCtx.inclOverrides (.incl c f o ns dts)).Agrees e) :
    ∀ {os : List SOverride} {st G D done st'}, compileOverrides cp (.inclOverrides (.incl c f o ns dts)) os st = .ok ((), st') →
      DefPre F x st G c D → c.OvOK o → o < st.overrides.length → TableIs st o done →
    ∃ G', DefPost F x (o :: c.ovPath) st G c D (overrideDefs e os) st' G' ∧ TableIs st' o (done ++ overrideDefs e os)
  | [], st, G, D, done, st', h, h0, ho, hl, ht => by
    cases h
    exact ⟨G, .nil h0 h0.good (.refl _ _), by simpa [overrideDefs] using ht⟩
  | .div :: os, st, G, D, done, st', h, h0, ho, hl, ht => by
    obtain ⟨_, st1, h1, h2⟩ := CM.bind_ok h
    cases h1
  | .annotation :: os, st, G, D, done, st', h, h0, ho, hl, ht => by
    exact compileOverrides_spec (os := os) hcp ha h h0 ho hl ht
  | .define id how body :: os, st, G, D, done, st', h, h0, ho, hl, ht => by
    obtain ⟨_, st1, h1, h2⟩ := CM.bind_ok h
    obtain ⟨q, sta, ha1, ha2⟩ := CM.bind_ok (CM.inInclude_ok h1)
    obtain ⟨G1, g1, gr1, t1⟩ := hcp _ _ _ _ _ e G ha1 h0.good h0.chainB (ha.define id)
    have p1 := DefPost.nil (ovs := o :: c.ovPath) h0 g1 gr1
    have p1' := p1.pre h0
    have hla : o < sta.overrides.length := Nat.lt_of_lt_of_le hl gr1.ovsLen
    have hta : TableIs sta o done := fun id => by rw [gr1.ovEq o hl nofun]; exact ht id
    rw [defineRule_inclOverrides] at ha2
    dsimp only at ha2
    split at ha2
    · cases ha2
    · rename_i hnot
      obtain ⟨g2, gr2⟩ := ovSet_spec g1 hla ((id, false) :: sta.ov o) (by
        refine List.nodup_cons.mpr ⟨lookup_none_of_keys.mp ?_, g1.ovn o⟩
        cases hl' : (sta.ov o).lookup id with
        | none => rfl
        | some b => rw [hl'] at hnot; exact absurd rfl hnot)
      have hov : ∀ o' ∈ c.ovPath, o' ≠ o := fun o' h' e => by subst e; exact ovPath_lt ho h'
      have p2 : DefPost F x (o :: c.ovPath) sta G1 c (D ++ survive st c []) []
          { sta with overrides := sta.overrides.set o ((id, false) :: sta.ov o) } G1 := by
        refine ⟨g2, ?_, ?_, .ofEq fun o' h' => by rw [ov_set hla, if_neg (hov o' h')]⟩
        · exact { gr2 (some c.cur) with
            ovEq := fun o' ho' hn => (gr2 (some c.cur)).ovEq o' ho' (by
              simp only [List.mem_cons, not_or] at hn
              simp [hn.1]) }
        · rw [survive_nil (st := sta), List.append_nil]; exact p1'.opn
      have p2' := p2.pre p1'
      have p3 := defineRule_spec (d := ⟨id, how, body, e⟩) p2' t1 ha2
      have hl3 : o < st1.overrides.length := Nat.lt_of_lt_of_le (by simpa using hla) p3.grow.ovsLen
      have ht3 : TableIs st1 o (done ++ [⟨id, how, body, e⟩]) := by
        intro id'
        rw [p3.grow.ovEq o (by simpa using hla) (ovPath_lt ho), ov_set hla, if_pos rfl, lookup_cons_ite, hta id']
        by_cases hid : id' = id
        · subst hid; simp
        · rw [if_neg hid]
          simp [Ne.symm hid]
      have p3' : DefPost F x (o :: c.ovPath) _ _ c _ _ _ _ := { p3 with grow := p3.grow.addOv }
      have p123 := (p1.trans p2).trans (by simpa [survive_nil] using p3')
      obtain ⟨G4, p4, t4⟩ := compileOverrides_spec hcp ha h2 (p123.pre h0) ho hl3 ht3
      exact ⟨G4, by simpa [overrideDefs] using p123.trans p4, by simpa [overrideDefs] using t4⟩

theorem checkOverrides_ok : ∀ {t : List (Str × Bool)}, checkOverrides t = .ok () → ∀ id b, t.lookup id = some b → b = true
  | [], _, _, _, h => nomatch h
  | (n, d) :: t, h, id, b, hl => by
    unfold checkOverrides at h
    split at h
    · rename_i hd
      rw [lookup_cons_ite] at hl
      split at hl
      · cases hl; exact hd
      · exact checkOverrides_ok h id b hl
    · cases h

/-- an included grammar file -/
theorem compileSchema_incl_spec {cp ci} (hci : ISpec F x ci) {c : SCtx} {e : NEnv} (ha : c.Agrees e) {f : Str} {o : Nat} {ns}
    {i : Option Str} {s : SSchema} {D : List Defn} (hns : LookEq ns ([("xml".toList, xmlNs)] ++ inheritedNs e i))
    (h : compileSchema cp ci (.incl c f o ns [("xsd".toList, xsdUri)]) s st = .ok ((), st'))
    (h0 : DefPre F x st G (.incl c f o ns [("xsd".toList, xsdUri)]) D) :
    ∃ G' items ds, s.Grammar items ∧ Expands F (includeEnv e f i s.decls) items ds ∧
      DefPost F x (o :: c.ovPath) st G (.incl c f o ns [("xsd".toList, xsdUri)]) D ds st' G' := by
  obtain ⟨c1, st1, h1, h2⟩ := CM.bind_ok h
  obtain ⟨h1', rfl⟩ := CM.lift_ok h1
  cases compileDeclarations_incl h1' with
  | incl a b =>
    rename_i ns' dts'
    have ha' : (SCtx.incl c f o ns' dts').Agrees (includeEnv e f i s.decls) :=
      includeEnv_agrees ha (a.trans hns.append) b
    have h0' : DefPre F x st G (.incl c f o ns' dts') D := ⟨h0.good, h0.chainB, h0.isDef, h0.ov, h0.hG, h0.opn⟩
    obtain ⟨decls, body⟩ := s
    dsimp only at h2 ha'
    cases body with
    | grammar items =>
      obtain ⟨G', ds, e1, p⟩ := compileContents_spec hci ha' h2 h0'
      exact ⟨G', items, ds, .grammar, e1, p.good, p.grow, p.opn, p.flags⟩
    | pattern p =>
      cases p with
      | grammar items =>
        obtain ⟨G', ds, e1, p⟩ := compileContents_spec hci ha' h2 h0'
        exact ⟨G', items, ds, .pattern, e1, p.good, p.grow, p.opn, p.flags⟩
      | _ => cases h2

theorem inheritCtx_spec {c c' : SCtx} {e : NEnv} (ha : c.Agrees e) {f : Str} {o : Nat} {i : Option Str}
    (h : inheritNs c (.incl c f o [("xml".toList, xmlNs)] [("xsd".toList, xsdUri)]) i = .ok c') :
    ∃ ns, c' = .incl c f o ns [("xsd".toList, xsdUri)] ∧ LookEq ns ([("xml".toList, xmlNs)] ++ inheritedNs e i) := by
  cases i with
  | none => cases h; exact ⟨_, rfl, .refl _⟩
  | some pre =>
    unfold inheritNs at h
    dsimp only at h
    split at h
    · cases h
    · rename_i u hu
      obtain ⟨ns', rfl, h'⟩ := declareNamespace_incl h
      refine ⟨ns', rfl, ?_⟩
      simp only [inheritedNs, ha.ns _ _ hu]
      exact h'

theorem filter_notOverridden {o : Nat} {ods : List Defn} (ht : TableIs st o ods) (ds : List Defn) :
    (ds.filter fun d => ((st.ov o).lookup d.name).isNone) = notOverridden ods ds := by
  unfold notOverridden
  congr 1
  funext d
  rw [ht d.name]
  cases ods.any fun o => o.name = d.name <;> rfl

/-- `compile_include` -/
theorem compileInclude_spec {cp ci} (hcp : PSpec F x cp) (hci : ISpec F x ci) {c : SCtx} {e : NEnv} (ha : c.Agrees e)
    {lit : Str} {i : Option Str} {os : List SOverride} {D : List Defn}
    (h : compileInclude F cp ci c lit i os st = .ok ((), st')) (h0 : DefPre F x st G c D) :
    ∃ G' ds, Expands F e [.include lit i os] ds ∧ DefPost F x c.ovPath st G c D ds st' G' := by
  obtain ⟨path, _, h1, h⟩ := CM.bind_ok h
  obtain ⟨hp, rfl⟩ := CM.lift_ok h1
  obtain ⟨s, st1, h2, h⟩ := CM.bind_ok h
  obtain ⟨hs, g1, gr1, _⟩ := getSchema_spec h0.good (CM.inInclude_ok h2)
  obtain ⟨inc, st2, h3, h⟩ := CM.bind_ok h
  obtain ⟨rfl, g2, gr2, hol, hov⟩ := newInclude_spec g1 h3
  obtain ⟨inc', _, h4, h⟩ := CM.bind_ok h
  obtain ⟨h4', rfl⟩ := CM.lift_ok h4
  obtain ⟨ns, rfl, hns⟩ := inheritCtx_spec ha h4'
  obtain ⟨_, st3, h5, h⟩ := CM.bind_ok h
  obtain ⟨_, st4, h6, h⟩ := CM.bind_ok h
  dsimp only at h
  have gr12 := gr1.trans g1.toWFS gr2
  have hoc : c.OvOK st1.overrides.length := h0.ov.mono gr1.ovsLen
  have p0 := DefPost.nil (ovs := st1.overrides.length :: c.ovPath) h0 g2 gr12
  have ho2 : st1.overrides.length < st2.overrides.length := by omega
  have ht2 : TableIs st2 st1.overrides.length [] := fun id => by rw [hov]; rfl
  obtain ⟨G3, p1, t3⟩ := compileOverrides_spec hcp (overrides_agrees ha hns) h5 (p0.pre h0) hoc ho2 ht2
  rw [List.nil_append] at t3
  have p01 := p0.trans p1
  have p01' := p01.pre h0
  have h0i : DefPre F x st3 G3 (.incl c path st1.overrides.length ns [("xsd".toList, xsdUri)]) _ :=
    ⟨p01'.good, p01'.chainB, p01'.isDef, ⟨Nat.lt_of_lt_of_le ho2 p1.grow.ovsLen, hoc⟩, p01'.hG, p01'.opn⟩
  obtain ⟨G4, items, ds, hg, hex, p2⟩ := compileSchema_incl_spec hci ha hns (CM.inInclude_ok h6) h0i
  have hfil := filter_notOverridden t3 ds
  have p2' : DefPost F x (st1.overrides.length :: c.ovPath) st3 G3 c (D ++ survive st c ([] ++ overrideDefs e os))
      (notOverridden (overrideDefs e os) ds) st4 G4 := by
    refine ⟨p2.good, p2.grow, ?_, fun o' ho' id => ?_⟩
    · have := p2.opn; simp only [survive, hfil] at this; exact this
    · have hne : o' ≠ st1.overrides.length := fun e => by subst e; exact ovPath_lt hoc ho'
      have := p2.flags o' (by simp [SCtx.ovPath, ho']) id
      simp only [hit, hfil, if_neg hne] at this
      exact this
  have p := p01.trans p2'
  unfold checkOvs at h
  split at h
  · rename_i hck
    cases h
    refine ⟨G4, _, ?_, p.good, p.grow.dropOv gr1.ovsLen, p.opn, p.flags⟩
    have := Expands.include (includePath_spec ha hp) hs hg hex ?_ .nil (os := os)
    · simpa using this
    · intro d hd
      have hf := p2.flags st1.overrides.length (by simp [SCtx.ovPath]) d.name
      rw [t3 d.name, if_pos (List.any_eq_true.mpr ⟨d, hd, by simp⟩)] at hf
      have := checkOverrides_ok hck _ _ hf
      simp only [hit, if_pos, Bool.false_or] at this
      obtain ⟨d', h1, h2⟩ := List.any_eq_true.mp this
      exact ⟨d', h1, by simpa using h2⟩
  · cases h

/-! ### nested grammars -/

/-- one more finished grammar -/
def addG (G : Nat → List Nat → List Defn → Prop) (s : Nat) (ss : List Nat) (ds : List Defn) : Nat → List Nat → List Defn → Prop :=
  fun s' ss' ds' => G s' ss' ds' ∨ (s' = s ∧ ss' = ss ∧ ds' = ds)

theorem Grow.addG {cur ovs s ss ds} (h : Grow cur ovs st G st' G') (hs : st.scopes.length ≤ s) :
    Grow cur ovs st G st' (addG G' s ss ds) :=
  { h with
    gMono := fun _ _ _ hg => .inl (h.gMono _ _ _ hg)
    gNew := fun s' ss' ds' hg => by
      rcases hg with hg | ⟨rfl, _, _⟩
      · exact h.gNew _ _ _ hg
      · exact .inr hs }

theorem GoodS.addG {s ss ds} (g : GoodS F x st G) (hs : s < st.scopes.length)
    (h : ∀ id k r, st.look s id = some k → st.cell k = some r → TrRule F x st.look G (s :: ss) (named ds id) r)
    (hf : ∀ id, (∀ k, st.look s id = some k → st.cell k = none) → named ds id = [] ∨ (id = "start".toList ∧ ss ≠ []))
    (ht : ss ≠ [] → ∀ k, st.look s "start".toList = some k → st.cell k = none) :
    GoodS F x st (addG G s ss ds) where
  toWFS := g.toWFS
  gb s' ss' ds' hg := by
    rcases hg with hg | ⟨rfl, _, _⟩
    · exact g.gb _ _ _ hg
    · exact hs
  closed s' ss' ds' hg id k r hl hr := by
    rcases hg with hg | ⟨rfl, rfl, rfl⟩
    · exact (g.closed _ _ _ hg id k r hl hr).mono (fun _ _ _ h => h) fun _ _ _ h => .inl h
    · exact (h id k r hl hr).mono (fun _ _ _ h => h) fun _ _ _ h => .inl h
  full s' ss' ds' hg := by
    rcases hg with hg | ⟨rfl, rfl, rfl⟩
    · exact g.full _ _ _ hg
    · exact hf
  took s' ss' ds' hg := by
    rcases hg with hg | ⟨rfl, rfl, rfl⟩
    · exact g.took _ _ _ hg
    · exact ht

/-- the pattern of a grammar's start rule -/
theorem takeStart_spec {s : Nat} {ss : List Nat} {ds : List Defn} {q : MPattern} (g : GoodS F x st G)
    (hs : s < st.scopes.length) (hG : ∀ ss ds, ¬ G s ss ds) (ho : OpenG F x st G ss s ds)
    (hss : ss ≠ []) (h : takeStart s st = .ok (q, st')) :
    GoodS F x st' (addG G s ss ds) ∧ Grow (some s) [] st G st' G ∧
      ∃ r, q = r.pattern ∧ TrRule F x st'.look (addG G s ss ds) (s :: ss) (named ds "start".toList) r := by
  unfold takeStart at h
  split at h
  · cases h
  · rename_i k hk
    split at h
    · cases h
    · rename_i r hr
      cases h
      have hk' : st.look s "start".toList = some k := hk
      have gr := grow_set (G := G) g.toWFS hk' none
      have hne : ∀ s' ss ds, G s' ss ds → (some s : Option Nat) ≠ some s' := by
        intro s' ss ds hg e; cases e; exact hG _ _ hg
      refine ⟨(gr.good g (wfs_set g.toWFS k none) hne).addG hs (fun id k' r' hl hr' => ?_) (fun id hn => ?_) fun _ k' hl => ?_, gr, r, rfl, ?_⟩
      · rw [cell_set (g.bound _ _ _ hk')] at hr'
        split at hr'
        · cases hr'
        · exact (ho id).1 k' r' hl hr'
      · by_cases hid : id = "start".toList
        · exact .inr ⟨hid, hss⟩
        · refine .inl ((ho id).2 fun k' hl => ?_)
          have := hn k' hl
          rw [cell_set (g.bound _ _ _ hk'), if_neg] at this
          · exact this
          · rintro rfl; exact hid (g.inj _ _ _ _ _ hl hk').2
      · have hl' : st.look s "start".toList = some k' := hl
        rw [hk'] at hl'; cases hl'
        rw [cell_set (g.bound _ _ _ hk'), if_pos rfl]
      · exact ((ho _).1 k r hk' hr).mono (fun _ _ _ h => h) fun _ _ _ h => .inl h

/-- a grammar inside a pattern -/
theorem grammar_spec {ci} (hci : ISpec F x ci) {c : SCtx} {e : NEnv} (ha : c.Agrees e) {items : List SItem} {q : MPattern}
    {stc : CState} (g : GoodS F x st G) (hc : ∀ s ∈ c.chain, s < st.scopes.length) {child : SCtx}
    (h1 : newGrammar c st = .ok (child, st1)) (h2 : compileContents ci child items st1 = .ok ((), stc))
    (h3 : takeStart st.scopes.length stc = .ok (q, st')) :
    ∃ G', GoodS F x st' G' ∧ Grow none [] st G st' G' ∧ Tr F x st'.look G' c.chain e (.grammar items) q := by
  obtain ⟨rfl, g1, gr1, hl, hlook⟩ := newGrammar_spec g h1
  have h0 : DefPre F x st1 G (.grammar c st.scopes.length) [] := by
    refine ⟨g1, fun s hs => ?_, trivial, trivial, fun ss ds hg => Nat.lt_irrefl _ (g.gb _ _ _ hg), fun id => ⟨?_, fun _ => rfl⟩⟩
    · simp only [SCtx.chain, List.mem_cons] at hs
      rcases hs with rfl | hs
      · omega
      · have := hc s hs; omega
    · intro k r hk; simp only [SCtx.cur] at hk; rw [hlook] at hk; cases hk
  obtain ⟨G2, ds, hex, p⟩ := compileContents_spec hci (ha.grammar _) h2 h0
  have p' := p.pre h0
  obtain ⟨g3, gr3, r, rfl, t⟩ := takeStart_spec p.good p'.curB p'.hG p'.opn (by simp [SCtx.outer, SCtx.chain_eq]) h3
  simp only [survive, List.nil_append, SCtx.outer] at g3 t
  refine ⟨_, g3, ?_, ?_⟩
  · have a : Grow (some st.scopes.length) [] st G stc G2 := gr1.weaken.trans g1.toWFS p.grow
    exact ((a.trans p.good.toWFS gr3).addG (Nat.le_refl _)).ofNew (Nat.le_refl _)
  · obtain ⟨bs, b1, b2, b3⟩ := t
    exact .grammar (.inr ⟨rfl, rfl, rfl⟩) hex b1 b2 b3

theorem compileGrammarPattern_spec {ci} (hci : ISpec F x ci) {c : SCtx} {e : NEnv} (ha : c.Agrees e) {items : List SItem}
    {q : MPattern} (g : GoodS F x st G) (hc : ∀ s ∈ c.chain, s < st.scopes.length)
    (h : compileGrammarPattern ci c items st = .ok (q, st')) :
    ∃ G', GoodS F x st' G' ∧ Grow none [] st G st' G' ∧ Tr F x st'.look G' c.chain e (.grammar items) q := by
  obtain ⟨child, st1, h1, h⟩ := CM.bind_ok h
  obtain ⟨_, stc, h2, h⟩ := CM.bind_ok h
  obtain ⟨rfl, _⟩ := newGrammar_spec g h1
  exact grammar_spec hci ha g hc h1 h2 h

/-- `external` -/
theorem compileExternal_spec {cp ci} (hcp : PSpec F x cp) (hci : ISpec F x ci) {c : SCtx} {e : NEnv} (ha : c.Agrees e)
    {lit : Str} {i : Option Str} {q : MPattern} (g : GoodS F x st G) (hc : ∀ s ∈ c.chain, s < st.scopes.length)
    (h : compileExternal F cp ci c lit i st = .ok (q, st')) :
    ∃ G', GoodS F x st' G' ∧ Grow none [] st G st' G' ∧ Tr F x st'.look G' c.chain e (.external lit i) q := by
  cases i with
  | some _ => cases h
  | none =>
    obtain ⟨path, _, h1, h⟩ := CM.bind_ok h
    obtain ⟨hp, rfl⟩ := CM.lift_ok h1
    obtain ⟨s, st1, h2, h⟩ := CM.bind_ok h
    obtain ⟨hs, g1, gr1, _⟩ := getSchema_spec g (CM.inInclude_ok h2)
    obtain ⟨inc, st2, h3, h⟩ := CM.bind_ok h
    obtain ⟨rfl, g2, gr2, _, _⟩ := newInclude_spec g1 h3
    have gr12 := gr1.trans g1.toWFS gr2
    have hc2 : ∀ s ∈ c.chain, s < st2.scopes.length := fun s hs => Nat.lt_of_lt_of_le (hc s hs) gr12.scopes
    obtain ⟨decls, body⟩ := s
    cases body with
    | pattern p =>
      have hb : SSchema.body ⟨decls, .pattern p⟩ = .pattern p := rfl
      obtain ⟨G', a, b, t⟩ := hcp _ _ _ _ _ _ G (CM.inInclude_ok h) g2 hc2 (externalEnv_agrees ha)
      exact ⟨G', a, gr12.trans g2.toWFS b, .externalPattern (includePath_spec ha hp) hs hb t⟩
    | grammar items =>
      have hb : SSchema.body ⟨decls, .grammar items⟩ = .grammar items := rfl
      obtain ⟨child, st3, h4, h⟩ := CM.bind_ok h
      obtain ⟨_, stc, h5, h⟩ := CM.bind_ok h
      obtain ⟨rfl, _⟩ := newGrammar_spec g2 h4
      obtain ⟨_, _, h6, h⟩ := CM.bind_ok h
      unfold checkScope at h6
      split at h6
      · cases h6
        obtain ⟨G', a, b, t⟩ := grammar_spec hci ha g2 hc2 h4 h5 h
        exact ⟨G', a, gr12.trans g2.toWFS b, .externalGrammar (includePath_spec ha hp) hs hb t⟩
      · cases h6

end Verif
