import Verif.Proof.SchemaFail
/-
Why the schema compiler fails: every failure has its reason at a place of the source.
-/
namespace Verif
variable {F : Files} {x : Ext} {st st' st1 st2 : CState} {G G' G1 G2 : Nat → List Nat → List Defn → Prop}

variable (F x) in
/-- the fuel ran out, or something inside `pl` is wrong -/
def Why (pl : Place) (e : CFault) : Prop := e = .fuel ∨ ∃ pl', Inside F pl pl' ∧ pl'.Fault F x e.core

theorem Why.up {pl pl' : Place} {e : CFault} (hw : Within F pl pl') (h : Why F x pl' e) : Why F x pl e := by
  rcases h with h | ⟨p, h1, h2⟩
  · exact .inl h
  · exact .inr ⟨p, .step hw h1, h2⟩

theorem Why.here {pl : Place} {e : CFault} (h : pl.Fault F x e.core) : Why F x pl e := .inr ⟨pl, .refl, h⟩

theorem Why.outer {pl : Place} {e e' : CFault} (h : Why F x pl e') (hc : e'.core = e.core) (hf : e' = .fuel → e = .fuel) :
    Why F x pl e := by
  rcases h with h | ⟨p, h1, h2⟩
  · exact .inl (hf h)
  · exact .inr ⟨p, h1, hc ▸ h2⟩

theorem Why.item {w : Where} {is : List SItem} {i : SItem} {e : CFault} (hm : i ∈ is) (h : ItemFault F w i e.core) :
    Why F x (.items w is) e := .here ⟨i, hm, h⟩

variable (F x) in
/-- why a pattern does not compile -/
def PFail (cp : SCtx → SPattern → CM MPattern) : Prop :=
  ∀ c p st e w G, cp c p st = .error e → GoodS F x st G → (∀ s ∈ c.chain, s < st.scopes.length) → c.Fits w →
    Why F x (.pat w p) e

variable (F x) in
/-- why a grammar item does not compile -/
def IFail (ci : SCtx → SItem → CM Unit) : Prop :=
  ∀ c i is st e w G D, i ∈ is → ci c i st = .error e → DefPre F x st G c D → c.Fits w →
    Why F x (.items w is) e ∨ ∃ ds, Begins F w.env [i] ds ∧ Clash (D ++ survive st c ds) e.core

theorem Begins.mono {e : NEnv} {i : SItem} {is : List SItem} {ds : List Defn} (h : Begins F e [i] ds) :
    Begins F e (i :: is) ds := by
  cases h with
  | stop => exact .stop
  | define h => cases h with | stop => exact .define .stop
  | divIn h => exact .divIn h
  | div h h' => cases h' with | stop => exact .div h .stop
  | «annotation» h => cases h with | stop => exact .annotation .stop
  | overrides => exact .overrides
  | includeIn a b c d => exact .includeIn a b c d
  | «include» h h' => cases h' with | stop => exact .include h .stop

theorem Begins.cons {e : NEnv} {i : SItem} {is : List SItem} {ds ds' : List Defn} (h : Expands F e [i] ds)
    (h' : Begins F e is ds') : Begins F e (i :: is) (ds ++ ds') := by
  cases i with
  | define id how body => cases h with | define h => cases h; exact .define h'
  | div items => cases h with | div h h0 => cases h0; rw [List.append_nil]; exact .div h h'
  | «annotation» => cases h with | «annotation» h => cases h; exact .annotation h'
  | «include» path i os => exact .include h h'

theorem contents_fail {ci} (hI : ISpec F x ci) (hci : IFail F x ci) {c : SCtx} {w : Where} (hw : c.Fits w) {is0 : List SItem}
    {e : CFault} :
    ∀ {is : List SItem} {st G D}, (∀ i ∈ is, i ∈ is0) → compileContents ci c is st = .error e → DefPre F x st G c D →
      Why F x (.items w is0) e ∨ ∃ ds, Begins F w.env is ds ∧ Clash (D ++ survive st c ds) e.core
  | [], st, G, D, _, h, h0 => nomatch h
  | i :: is, st, G, D, hi, h, h0 => by
    rcases CM.bind_err h with h | ⟨_, st1, h1, h2⟩
    · rcases hci c i is0 st e w G D (hi i (by simp)) h h0 hw with h | ⟨ds, hb, hc⟩
      · exact .inl h
      · exact .inr ⟨ds, hb.mono, hc⟩
    · obtain ⟨G1, ds1, e1, p1⟩ := hI c i st st1 w.env G D h1 h0 hw.env
      rcases contents_fail hI hci hw (fun j hj => hi j (by simp [hj])) h2 (p1.pre h0) with h | ⟨ds, hb, hc⟩
      · exact .inl h
      · refine .inr ⟨ds1 ++ ds, hb.cons e1, ?_⟩
        rw [survive_congr p1.flags.keys, List.append_assoc, ← survive_append] at hc
        exact hc

theorem define_fail {cp} (hP : PSpec F x cp) (hcp : PFail F x cp) {c : SCtx} {w : Where} (hw : c.Fits w) {id how body D} {pl : Place}
    (hin : Within F pl (.pat (w.define id) body)) {e : CFault}
    (h : compileDefine cp c id how body st = .error e) (h0 : DefPre F x st G c D) :
    Why F x pl e ∨ Clash (D ++ survive st c [⟨id, how, body, w.env⟩]) e.core := by
  rcases CM.bind_err h with h | ⟨q, st1, h1, h2⟩
  · exact .inl ((hcp _ _ _ _ _ G h h0.good h0.chainB (hw.define id)).up hin)
  · obtain ⟨G1, g1, gr1, t1⟩ := hP _ _ _ _ _ w.env G h1 h0.good h0.chainB (hw.env.define id)
    have p1 := DefPost.nil (ovs := c.ovPath) h0 g1 gr1
    have := defineRule_err (d := ⟨id, how, body, w.env⟩) (p1.pre h0) h2
    rw [survive_congr p1.flags.keys, survive_nil, List.append_nil] at this
    exact .inr this

/-- what can be wrong with the overrides of an include -/
inductive OvWhy (F : Files) (x : Ext) (w : Where) (f : Str) (i : Option Str) (D : List Defn) (st : CState) (c : SCtx) (pl : Place)
    (pre os : List SOverride) (e : CFault) : Prop
  | div : .div ∈ os → e.core = .panic .includeDiv → OvWhy F x w f i D st c pl pre os e
  | twice : ¬ (overrideNames (pre ++ os)).Nodup → e.core = .panic .redefinedOverride → OvWhy F x w f i D st c pl pre os e
  | body : Why F x pl e → OvWhy F x w f i D st c pl pre os e
  | clash {os1 os2} : os = os1 ++ os2 → Clash (D ++ survive st c (overrideDefs w.env os1)) e.core → OvWhy F x w f i D st c pl pre os e

theorem overrideNames_append (a b : List SOverride) : overrideNames (a ++ b) = overrideNames a ++ overrideNames b := by
  induction a with
  | nil => rfl
  | cons o a ih => cases o <;> simp [overrideNames, ih]

theorem overrideNames_defs (e : NEnv) (os : List SOverride) : (overrideDefs e os).map (·.name) = overrideNames os := by
  induction os with
  | nil => rfl
  | cons o a ih => cases o <;> simp [overrideNames, overrideDefs, ih]

theorem overrideDefs_append (e : NEnv) (a b : List SOverride) : overrideDefs e (a ++ b) = overrideDefs e a ++ overrideDefs e b := by
  induction a with
  | nil => rfl
  | cons o a ih => cases o <;> simp [overrideDefs, ih]

theorem overrides_fail {cp} (hP : PSpec F x cp) (hcp : PFail F x cp) {c : SCtx} {w : Where} {f : Str} {o : Nat} {ns dts} {i : Option Str}
    {pl : Place} (hw : (SCtx.inclOverrides (.incl c f o ns dts)).Fits (w.override f i)) {os0 : List SOverride}
    (hin : ∀ id how body, .define id how body ∈ os0 → Within F pl (.pat ((w.override f i).define id) body)) {e : CFault} :
    ∀ {os pre : List SOverride} {st G D}, (∀ i ∈ os, i ∈ os0) →
      compileOverrides cp (.inclOverrides (.incl c f o ns dts)) os st = .error e → DefPre F x st G c D → c.OvOK o →
      o < st.overrides.length → TableIs st o (overrideDefs w.env pre) → OvWhy F x w f i D st c pl pre os e
  | [], _, st, G, D, _, h, h0, _, _, _ => nomatch h
  | .div :: os, pre, st, G, D, _, h, h0, _, _, _ => by
    rcases CM.bind_err h with h | ⟨_, st1, h1, h2⟩
    · cases h; exact .div (by simp) rfl
    · cases h1
  | .annotation :: os, pre, st, G, D, hi, h, h0, ho, hl, ht => by
    have := overrides_fail (os := os) (pre := pre) hP hcp hw hin (fun j hj => hi j (by simp [hj])) h h0 ho hl ht
    cases this with
    | div a b => exact .div (by simp [a]) b
    | twice a b => exact .twice (by simpa [overrideNames_append, overrideNames] using a) b
    | body a => exact .body a
    | clash a b => exact .clash (os1 := .annotation :: _) (by rw [a]; rfl) b
  | .define id how body :: os, pre, st, G, D, hi, h, h0, ho, hl, ht => by
    rcases CM.bind_err h with h | ⟨_, st1, h1, h2⟩
    · obtain ⟨e', h, hc, hf⟩ := CM.inInclude_err h
      rcases CM.bind_err h with h | ⟨q, sta, ha1, ha2⟩
      · exact .body (((hcp _ _ _ _ _ G h h0.good h0.chainB (hw.define id)).up (hin id how body (hi _ (by simp)))).outer hc hf)
      · obtain ⟨Ga, ga, gra, ta⟩ := hP _ _ _ _ _ w.env G ha1 h0.good h0.chainB (hw.env.define id)
        have p1 := DefPost.nil (ovs := c.ovPath) h0 ga gra
        have pa := p1.pre h0
        have hla : o < sta.overrides.length := Nat.lt_of_lt_of_le hl gra.ovsLen
        have hta : TableIs sta o (overrideDefs w.env pre) := fun id => by rw [gra.ovEq o hl nofun]; exact ht id
        rw [defineRule_inclOverrides] at ha2
        dsimp only at ha2
        split at ha2
        · rename_i hs
          cases ha2
          refine .twice ?_ hc.symm
          rw [hta id] at hs
          split at hs
          · rename_i ha
            obtain ⟨d, hd, hdn⟩ := List.any_eq_true.mp ha
            intro hnd
            rw [overrideNames_append] at hnd
            have : id ∈ overrideNames pre := by
              rw [← overrideNames_defs w.env]; exact List.mem_map.mpr ⟨d, hd, by simpa using hdn⟩
            exact (List.nodup_append.mp hnd).2.2 id this id (by simp [overrideNames]) rfl
          · cases hs
        · rename_i hnot
          obtain ⟨g2, gr2⟩ := ovSet_spec ga hla ((id, false) :: sta.ov o) (by
            refine List.nodup_cons.mpr ⟨lookup_none_of_keys.mp ?_, ga.ovn o⟩
            cases hl' : (sta.ov o).lookup id with
            | none => rfl
            | some b => rw [hl'] at hnot; exact absurd rfl hnot)
          have hov : ∀ o' ∈ c.ovPath, o' ≠ o := fun o' h' e => by subst e; exact ovPath_lt ho h'
          have p2 : DefPost F x (o :: c.ovPath) sta Ga c (D ++ survive st c []) []
              { sta with overrides := sta.overrides.set o ((id, false) :: sta.ov o) } Ga := by
            refine ⟨g2, ?_, ?_, .ofEq fun o' h' => by rw [ov_set hla, if_neg (hov o' h')]⟩
            · exact { gr2 (some c.cur) with
                ovEq := fun o' ho' hn => (gr2 (some c.cur)).ovEq o' ho' (by
                  simp only [List.mem_cons, not_or] at hn
                  simp [hn.1]) }
            · rw [survive_nil (st := sta), List.append_nil]; exact pa.opn
          have := defineRule_err (d := ⟨id, how, body, w.env⟩) (p2.pre pa) ha2
          rw [survive_congr p2.flags.keys, survive_congr p1.flags.keys, hc] at this
          simp only [survive_nil, List.append_nil] at this
          rw [survive_congr p1.flags.keys] at this
          exact .clash (os1 := [.define id how body]) (os2 := os) rfl this
    · have hone : compileOverrides cp (.inclOverrides (.incl c f o ns dts)) [.define id how body] st = .ok ((), st1) :=
        CM.bind_of_ok h1
      obtain ⟨G1, p1, t1⟩ := compileOverrides_spec (e := w.env) hP hw.env hone h0 ho hl ht
      have t1' : TableIs st1 o (overrideDefs w.env (pre ++ [.define id how body])) := by
        rw [overrideDefs_append]; exact t1
      have := overrides_fail (os := os) hP hcp hw hin (fun j hj => hi j (by simp [hj])) h2 (p1.pre h0) ho
        (Nat.lt_of_lt_of_le hl p1.grow.ovsLen) t1'
      cases this with
      | div a b => exact .div (by simp [a]) b
      | twice a b => exact .twice (by simpa using a) b
      | body a => exact .body a
      | clash a b =>
        rename_i os1 os2
        refine .clash (os1 := .define id how body :: os1) (os2 := os2) (by rw [a]; rfl) ?_
        rw [survive_congr p1.flags.keys, List.append_assoc, ← survive_append] at b
        exact b

theorem checkOverrides_err {e : CFault} : ∀ {t : List (Str × Bool)}, checkOverrides t = .error e → (t.map (·.1)).Nodup →
    ∃ id, t.lookup id = some false ∧ e = .err (.overrideMissingFromInclude id)
  | [], h, _ => nomatch h
  | (n, d) :: t, h, hn => by
    unfold checkOverrides at h
    split at h
    · obtain ⟨id, a, b⟩ := checkOverrides_err h (List.nodup_cons.mp hn).2
      refine ⟨id, ?_, b⟩
      rw [lookup_cons_ite, if_neg]
      · exact a
      · rintro rfl
        rw [lookup_none_of_keys.mpr (List.nodup_cons.mp hn).1] at a
        cases a
    · rename_i hd
      cases h
      refine ⟨n, ?_, rfl⟩
      rw [lookup_cons_ite, if_pos rfl]
      cases d
      · rfl
      · exact absurd rfl hd

theorem include_fail {cp ci} (hP : PSpec F x cp) (hI : ISpec F x ci) (hcp : PFail F x cp) (hci : IFail F x ci) {c : SCtx} {w : Where}
    (hw : c.Fits w) {lit : Str} {i : Option Str} {os : List SOverride} {D : List Defn} {is : List SItem} {e : CFault}
    (hm : .include lit i os ∈ is) (h : compileInclude F cp ci c lit i os st = .error e) (h0 : DefPre F x st G c D) :
    Why F x (.items w is) e ∨ ∃ ds, Begins F w.env [.include lit i os] ds ∧ Clash (D ++ survive st c ds) e.core := by
  have ha := hw.env
  rcases CM.bind_err h with h | ⟨path, _, h1, h⟩
  · obtain ⟨a, rfl⟩ := includePath_err ha (CM.lift_err h)
    exact .inl (.item hm (.path a))
  obtain ⟨hp, rfl⟩ := CM.lift_ok h1
  have hj := includePath_spec ha hp
  rcases CM.bind_err h with h | ⟨s, st1, h2, h⟩
  · obtain ⟨e', h, hc, hf⟩ := CM.inInclude_err h
    obtain ⟨l, hl, rfl⟩ := getSchema_err h
    exact .inl (.item hm (by rw [← hc]; exact .load hj hl))
  obtain ⟨hs, g1, gr1, _⟩ := getSchema_spec h0.good (CM.inInclude_ok h2)
  rcases CM.bind_err h with h | ⟨inc, st2, h3, h⟩
  · obtain ⟨a, rfl⟩ := newInclude_err h
    exact .inl (.item hm (.loop hj (hw.files ▸ a)))
  obtain ⟨rfl, g2, gr2, hol, hov⟩ := newInclude_spec g1 h3
  rcases CM.bind_err h with h | ⟨inc', _, h4, h⟩
  · have h := CM.lift_err h
    cases i with
    | none => cases h
    | some pre =>
      unfold inheritNs at h
      dsimp only at h
      split at h
      · rename_i hn
        cases h
        exact .inl (.item hm (.inheritPrefix (by rw [← hw.known]; exact hn)))
      · cases h
  obtain ⟨h4', rfl⟩ := CM.lift_ok h4
  obtain ⟨ns, rfl, hns⟩ := inheritCtx_spec ha h4'
  have gr12 := gr1.trans g1.toWFS gr2
  have hoc : c.OvOK st1.overrides.length := h0.ov.mono gr1.ovsLen
  have p0 := DefPost.nil (ovs := st1.overrides.length :: c.ovPath) h0 g2 gr12
  have ho2 : st1.overrides.length < st2.overrides.length := by omega
  have ht2 : TableIs st2 st1.overrides.length [] := fun id => by rw [hov]; rfl
  rcases CM.bind_err h with h | ⟨_, st3, h5, h⟩
  · have := overrides_fail (pre := []) hP hcp (hw.override path st1.overrides.length hns) (os0 := os) (pl := .items w is)
      (fun id how body hm' => .override hm hj hm') (fun _ h => h) h (p0.pre h0) hoc ho2 ht2
    cases this with
    | div a b => exact .inl (.item hm (by rw [b]; exact .overrideDiv a))
    | twice a b => exact .inl (.item hm (by rw [b]; exact .overrideTwice a))
    | body a => exact .inl a
    | clash a b =>
      subst a
      refine .inr ⟨_, .overrides, ?_⟩
      rw [survive_congr p0.flags.keys, List.append_assoc, ← survive_append] at b
      exact b
  obtain ⟨G3, p1, t3⟩ := compileOverrides_spec hP (overrides_agrees ha hns) h5 (p0.pre h0) hoc ho2 ht2
  rw [List.nil_append] at t3
  have p01 := p0.trans p1
  have p01' := p01.pre h0
  have h0i : ∀ ns dts, DefPre F x st3 G3 (.incl c path st1.overrides.length ns dts) _ := fun _ _ =>
    ⟨p01'.good, p01'.chainB, p01'.isDef, ⟨Nat.lt_of_lt_of_le ho2 p1.grow.ovsLen, hoc⟩, p01'.hG, p01'.opn⟩
  rcases CM.bind_err h with h | ⟨_, st4, h6, h⟩
  · obtain ⟨e', h, hc, hf⟩ := CM.inInclude_err h
    rcases CM.bind_err h with h | ⟨c1, st5, h7, h8⟩
    · exact .inl (.item hm (.decls hj hs (hc ▸ decls_fault (CM.lift_err h) rfl (.inr ⟨_, _, _, _, _, rfl⟩))))
    obtain ⟨h7', rfl⟩ := CM.lift_ok h7
    cases compileDeclarations_incl h7' with
    | incl a b =>
      rename_i ns' dts'
      have hcs : (SCtx.incl c path st1.overrides.length ns' dts').Fits (w.included path i s.decls) :=
        hw.included _ _ (a.trans hns.append) b
      have : (∃ is, s.Grammar is ∧ compileContents ci (SCtx.incl c path st1.overrides.length ns' dts') is st3 = .error e') ∨
          ((∀ is, ¬ s.Grammar is) ∧ e' = .err .includedFileMustBeGrammar) := by
        obtain ⟨decls, body⟩ := s
        cases body with
        | grammar items => exact .inl ⟨items, .grammar, h8⟩
        | pattern p =>
          cases p with
          | grammar items => exact .inl ⟨items, .pattern, h8⟩
          | _ => cases h8; exact .inr ⟨fun is h => (by cases h), rfl⟩
      rcases this with ⟨is', hg, hcc⟩ | ⟨hn, rfl⟩
      · rcases contents_fail hI hci hcs (fun _ h => h) hcc (h0i _ _) with h | ⟨ds, hb, hcl⟩
        · exact .inl ((h.up (.included hm hj hs hg)).outer hc hf)
        · refine .inr ⟨_, .includeIn hj hs hg hb, ?_⟩
          rw [hc] at hcl
          simp only [survive, filter_notOverridden t3 ds] at hcl
          rw [survive_congr p01.flags.keys, List.append_assoc, ← survive_append, List.nil_append] at hcl
          exact hcl
      · exact .inl (.item hm (by rw [← hc]; exact .notGrammar hj hs hn))
  · dsimp only at h
    obtain ⟨G4, items, ds, hg, hex, p2⟩ := compileSchema_incl_spec hI ha hns (CM.inInclude_ok h6) (h0i _ _)
    unfold checkOvs at h
    split at h
    · cases h
    · rename_i e' hck
      cases h
      obtain ⟨id, hid, rfl⟩ := checkOverrides_err hck (p2.good.ovn _)
      have hf := p2.flags st1.overrides.length (by simp [SCtx.ovPath]) id
      rw [hid, t3 id] at hf
      split at hf
      · rename_i ha'
        obtain ⟨d, hd, hdn⟩ := List.any_eq_true.mp ha'
        simp only [hit, if_pos, Option.map_some, Bool.false_or, Option.some.injEq] at hf
        refine .inl (.item hm (.overrideMissing hj hs hg hex (id := id) ?_ ?_))
        · rw [← overrideNames_defs w.env]; exact List.mem_map.mpr ⟨d, hd, by simpa using hdn⟩
        · unfold named
          rw [List.filter_eq_nil_iff]
          intro d' hd' hn
          have := List.any_eq_false.mp hf.symm d' hd'
          exact this hn
      · cases hf

theorem checkDefined_fails {e : CFault} : ∀ {l : List (Str × Nat)}, checkDefined st l = .error e →
    ∃ id k, (id, k) ∈ l ∧ st.cell k = none ∧ e = .err (.undefinedReference id)
  | [], h => nomatch h
  | (n, k) :: l, h => by
    unfold checkDefined at h
    split at h
    · rename_i hk; cases h; exact ⟨n, k, by simp, hk, rfl⟩
    · obtain ⟨id, k', a, b⟩ := checkDefined_fails h
      exact ⟨id, k', by simp [a], b⟩

theorem takeStart_err {s : Nat} {ss : List Nat} {ds : List Defn} {e : CFault} (ho : OpenG F x st G ss s ds)
    (h : takeStart s st = .error e) : named ds "start".toList = [] ∧ e = .err .startRuleNotDefined := by
  unfold takeStart at h
  split at h
  · rename_i hn
    cases h
    refine ⟨(ho _).2 fun k hk => ?_, rfl⟩
    have hk' : (st.refs s).lookup "start".toList = some k := hk
    rw [hn] at hk'; cases hk'
  · rename_i k hk
    split at h
    · rename_i hc
      cases h
      refine ⟨(ho _).2 fun k' hk' => ?_, rfl⟩
      have hk'' : (st.refs s).lookup "start".toList = some k' := hk'
      rw [hk] at hk''; cases hk''; exact hc
    · cases h

theorem external_fail {cp ci} (hP : PSpec F x cp) (hI : ISpec F x ci) (hcp : PFail F x cp) (hci : IFail F x ci) (hN : INamed F x ci)
    {c : SCtx} {w : Where} (hw : c.Fits w)
    {lit : Str} {i : Option Str} {e : CFault} (g : GoodS F x st G) (hc : ∀ s ∈ c.chain, s < st.scopes.length)
    (h : compileExternal F cp ci c lit i st = .error e) : Why F x (.pat w (.external lit i)) e := by
  have ha := hw.env
  cases i with
  | some _ => cases h; exact .here (pl := .pat _ _) .externalInherit
  | none =>
    rcases CM.bind_err h with h | ⟨path, _, h1, h⟩
    · obtain ⟨a, rfl⟩ := includePath_err ha (CM.lift_err h)
      exact .here (pl := .pat _ _) (.externalPath a)
    obtain ⟨hp, rfl⟩ := CM.lift_ok h1
    have hj := includePath_spec ha hp
    rcases CM.bind_err h with h | ⟨s, st1, h2, h⟩
    · obtain ⟨e', h, hce, hf⟩ := CM.inInclude_err h
      obtain ⟨l, hl, rfl⟩ := getSchema_err h
      refine .here (pl := .pat _ _) ?_
      rw [← hce]; exact .externalLoad hj hl
    obtain ⟨hs, g1, gr1, _⟩ := getSchema_spec g (CM.inInclude_ok h2)
    rcases CM.bind_err h with h | ⟨inc, st2, h3, h⟩
    · obtain ⟨a, rfl⟩ := newInclude_err h
      exact .here (pl := .pat _ _) (.externalLoop hj (hw.files ▸ a))
    obtain ⟨rfl, g2, gr2, _, _⟩ := newInclude_spec g1 h3
    have gr12 := gr1.trans g1.toWFS gr2
    have hc2 : ∀ s ∈ c.chain, s < st2.scopes.length := fun s hs => Nat.lt_of_lt_of_le (hc s hs) gr12.scopes
    obtain ⟨decls, body⟩ := s
    cases body with
    | pattern p =>
      obtain ⟨e', h, hce, hf⟩ := CM.inInclude_err h
      exact ((hcp _ _ _ _ _ G h g2 hc2 (hw.external path st1.overrides.length)).up (.externalPattern hj hs rfl)).outer hce hf
    | grammar items =>
      have hga : GrammarAt F w (.external lit none) items := .external hj hs rfl
      rcases CM.bind_err h with h | ⟨child, st3, h4, h⟩
      · cases h
      have h0 := DefPre.child g2 hc2 h4
      have h4' := h4
      obtain ⟨rfl, g3, gr3, hl3, hlook⟩ := newGrammar_spec g2 h4
      rcases CM.bind_err h with h | ⟨_, stc, h5, h⟩
      · rcases contents_fail hI hci (hw.grammar st2.scopes.length) (fun _ h => h) h h0 with h | ⟨ds, hb, hcl⟩
        · exact h.up (.externalGrammar hj hs rfl)
        · exact .here (pl := .pat _ _) (.clash hga hb (by simpa [survive] using hcl))
      obtain ⟨G4, ds, hex, pp⟩ := compileContents_spec hI (hw.grammar st2.scopes.length).env h5 h0
      have hop := pp.opn
      simp only [survive, List.nil_append] at hop
      rcases CM.bind_err h with h | ⟨_, std, h6, h⟩
      · unfold checkScope at h
        split at h
        · cases h
        · rename_i e' hck
          cases h
          obtain ⟨id, k, hmem, hk, rfl⟩ := checkDefined_fails hck
          have hlk := pp.good.mem _ _ _ hmem
          have hr := (blank_child hI hN hw g2 hc2 h4' h5).1 id ⟨k, hlk, hk⟩
          refine .here (pl := .pat _ _) (.externalUndefined hj hs rfl hex hr ((hop id).2 fun k' hk' => ?_))
          rw [show stc.look st2.scopes.length id = some k' from hk'] at hlk
          cases hlk; exact hk
      · unfold checkScope at h6
        split at h6
        · cases h6
          obtain ⟨a, rfl⟩ := takeStart_err hop h
          exact .here (pl := .pat _ _) (.noStart hga hex a)
        · cases h6

theorem grammar_fail {ci} (hI : ISpec F x ci) (hci : IFail F x ci) {c : SCtx} {w : Where} (hw : c.Fits w) {items : List SItem}
    {e : CFault} (g : GoodS F x st G) (hc : ∀ s ∈ c.chain, s < st.scopes.length)
    (h : compileGrammarPattern ci c items st = .error e) : Why F x (.pat w (.grammar items)) e := by
  rcases CM.bind_err h with h | ⟨child, st3, h4, h⟩
  · cases h
  have h0 := DefPre.child g hc h4
  obtain ⟨rfl, g3, gr3, hl3, hlook⟩ := newGrammar_spec g h4
  rcases CM.bind_err h with h | ⟨_, stc, h5, h⟩
  · rcases contents_fail hI hci (hw.grammar st.scopes.length) (fun _ h => h) h h0 with h | ⟨ds, hb, hcl⟩
    · exact h.up .grammar
    · exact .here (pl := .pat _ _) (.clash .grammar hb (by simpa [survive] using hcl))
  obtain ⟨G4, ds, hex, pp⟩ := compileContents_spec hI (hw.grammar st.scopes.length).env h5 h0
  have hop := pp.opn
  simp only [survive, List.nil_append] at hop
  obtain ⟨a, rfl⟩ := takeStart_err hop h
  exact .here (pl := .pat _ _) (.noStart .grammar hex a)

theorem PFail.two {cp} (hP : PSpec F x cp) (h : PFail F x cp) {c : SCtx} {w : Where} (hw : c.Fits w) {p1 p2 : SPattern} {pl : Place}
    {e : CFault} {f : MPattern → MPattern → MPattern}
    (g : GoodS F x st G) (hc : ∀ s ∈ c.chain, s < st.scopes.length) (hl : Within F pl (.pat w p1)) (hr : Within F pl (.pat w p2))
    (he : (cp c p1 >>= fun a => cp c p2 >>= fun b => (pure (f a b) : CM MPattern)) st = .error e) : Why F x pl e := by
  rcases CM.bind_err he with he | ⟨q1, st1, h1, he⟩
  · exact (h _ _ _ _ _ G he g hc hw).up hl
  obtain ⟨G1, g1, gr1, _⟩ := hP _ _ _ _ _ w.env G h1 g hc hw.env
  rcases CM.bind_err he with he | ⟨q2, st2, h2, he⟩
  · exact (h _ _ _ _ _ G1 he g1 (fun s hs => Nat.lt_of_lt_of_le (hc s hs) gr1.scopes) hw).up hr
  · cases he

theorem PFail.one {cp} (h : PFail F x cp) {c : SCtx} {w : Where} (hw : c.Fits w) {p : SPattern} {pl : Place} {e : CFault}
    {f : MPattern → MPattern} (g : GoodS F x st G) (hc : ∀ s ∈ c.chain, s < st.scopes.length) (hl : Within F pl (.pat w p))
    (he : (cp c p >>= fun a => (pure (f a) : CM MPattern)) st = .error e) : Why F x pl e := by
  rcases CM.bind_err he with he | ⟨q1, st1, h1, he⟩
  · exact (h _ _ _ _ _ G he g hc hw).up hl
  · cases he

theorem fail_compile : ∀ n, PFail F x (compilePattern F x n) ∧ IFail F x (compileItem F x n)
  | 0 => ⟨fun _ _ _ _ _ _ h _ _ _ => by cases h; exact .inl rfl, fun _ _ _ _ _ _ _ _ _ h _ _ => by cases h; exact .inl (.inl rfl)⟩
  | n + 1 => by
    obtain ⟨hP, hI⟩ := compile_spec (F := F) (x := x) n
    obtain ⟨hcp, hci⟩ := fail_compile n
    constructor
    · intro c p st e w G h g hc hw
      cases p with
      | element nc p =>
        rcases CM.bind_err h with h | ⟨nc', _, h1, h⟩
        · obtain ⟨pre, hp, hn, rfl⟩ := compileNameclass_err (CM.lift_err h)
          exact .here (pl := .pat _ _) (.elementName hp (by rw [← hw.known]; exact hn))
        obtain ⟨hn, rfl⟩ := CM.lift_ok h1
        split at h
        · rename_i hattr
          cases h
          exact .here (pl := .pat _ _) (.elementInAttribute (by rw [← hw.attr]; exact hattr))
        · exact hcp.one hw.element g hc .element h
      | «attribute» nc p =>
        rcases CM.bind_err h with h | ⟨nc', _, h1, h⟩
        · obtain ⟨pre, hp, hn, rfl⟩ := compileNameclass_err (CM.lift_err h)
          exact .here (pl := .pat _ _) (.attributeName hp (by rw [← hw.known]; exact hn))
        obtain ⟨hn, rfl⟩ := CM.lift_ok h1
        exact hcp.one hw.attribute g hc .attribute h
      | list p => exact hcp.one hw g hc .list h
      | mixed p => exact hcp.one hw g hc .mixed h
      | ident id =>
        rcases CM.bind_err h with h | ⟨k, st1, h2, h⟩
        · obtain ⟨a, rfl⟩ := acquireRef_err h
          exact .here (pl := .pat _ _) (.selfReference (by rw [← hw.self]; exact a))
        · cases h
      | parent id =>
        rcases CM.bind_err h with h | ⟨k, st1, h2, h⟩
        · rcases acquireParent_err h with ⟨a, rfl⟩ | ⟨a, rfl⟩
          · exact .here (pl := .pat _ _) (.noParent (by rw [← hw.outer]; exact a))
          · exact .here (pl := .pat _ _) (.parentSelfReference (by rw [← hw.outer]; exact a))
        · cases h
      | empty => cases h
      | text => cases h
      | notAllowed => cases h
      | external path i => exact external_fail hP hI hcp hci (named_compile n).2 hw g hc h
      | grammar items => exact grammar_fail hI hci hw g hc h
      | paren p => exact (hcp _ _ _ _ _ G h g hc hw).up .paren
      | seq p1 p2 => exact hcp.two hP hw g hc .seqLeft .seqRight h
      | inter p1 p2 => exact hcp.two hP hw g hc .interLeft .interRight h
      | choice p1 p2 => exact hcp.two hP hw g hc .choiceLeft .choiceRight h
      | optional p => exact hcp.one hw g hc .optional h
      | zeroOrMore p => exact hcp.one hw g hc .zeroOrMore h
      | oneOrMore p => exact hcp.one hw g hc .oneOrMore h
      | value ty lit =>
        rcases CM.bind_err h with h | ⟨nm, _, h1, h⟩
        · obtain ⟨pre, t, ht, hn, rfl⟩ := dtName_err (CM.lift_err h)
          have : ty = some (.cname pre t) := by
            cases ty with
            | none => cases ht
            | some ty => exact congrArg some ht
          subst this
          exact .here (pl := .pat _ _) (.valuePrefix (by rw [← hw.dts]; exact hn))
        obtain ⟨hn, rfl⟩ := CM.lift_ok h1
        rcases CM.bind_err h with h | ⟨v, _, h2, h⟩
        · rcases dtRes_err (CM.lift_err h) with ⟨d, hd, rfl⟩ | ⟨hd, rfl⟩
          · exact .here (pl := .pat _ _) (.value (dtName_spec hw.env hn) hd)
          · exact .here (pl := .pat _ _) (.valuePanic (dtName_spec hw.env hn) hd)
        · cases h
      | data ty ps =>
        rcases CM.bind_err h with h | ⟨nm, _, h1, h⟩
        · obtain ⟨pre, t, rfl, hn, rfl⟩ := dtName_err (CM.lift_err h)
          exact .here (pl := .pat _ _) (.dataPrefix (by rw [← hw.dts]; exact hn))
        obtain ⟨hn, rfl⟩ := CM.lift_ok h1
        rcases CM.bind_err h with h | ⟨v, _, h2, h⟩
        · rcases dtRes_err (CM.lift_err h) with ⟨d, hd, rfl⟩ | ⟨hd, rfl⟩
          · exact .here (pl := .pat _ _) (.data (dtName_spec hw.env hn) hd)
          · exact .here (pl := .pat _ _) (.dataPanic (dtName_spec hw.env hn) hd)
        · cases h
      | dataExcept ty ps ex =>
        rcases CM.bind_err h with h | ⟨nm, _, h1, h⟩
        · obtain ⟨pre, t, rfl, hn, rfl⟩ := dtName_err (CM.lift_err h)
          exact .here (pl := .pat _ _) (.exceptPrefix (by rw [← hw.dts]; exact hn))
        obtain ⟨hn, rfl⟩ := CM.lift_ok h1
        rcases CM.bind_err h with h | ⟨v, _, h2, h⟩
        · rcases dtRes_err (CM.lift_err h) with ⟨d, hd, rfl⟩ | ⟨hd, rfl⟩
          · exact .here (pl := .pat _ _) (.except (dtName_spec hw.env hn) hd)
          · exact .here (pl := .pat _ _) (.exceptPanic (dtName_spec hw.env hn) hd)
        obtain ⟨_, rfl⟩ := CM.lift_ok h2
        exact hcp.one hw g hc .except h
    · intro c i is st e w G D hm h h0 hw
      cases i with
      | define id how body =>
        rcases define_fail hP hcp hw (.define hm) h h0 with h | h
        · exact .inl h
        · exact .inr ⟨_, .define .stop, h⟩
      | div items =>
        rcases contents_fail hI hci hw (fun _ h => h) h h0 with h | ⟨ds, hb, h⟩
        · exact .inl (h.up (.div hm))
        · exact .inr ⟨ds, .divIn hb, h⟩
      | «include» path i os => exact include_fail hP hI hcp hci hw hm h h0
      | «annotation» => cases h

/-- why a schema file does not compile -/
theorem compileFile_fail {n m : Nat} {name : Str} {e : CFault} (g : GoodS F x st G)
    (h : compileFile F x n m name st = .error e) : e = .fuel ∨ SchemaFault F x name e.core := by
  obtain ⟨hP, hI⟩ := compile_spec (F := F) (x := x) n
  obtain ⟨hcp, hci⟩ := fail_compile (F := F) (x := x) n
  rcases CM.bind_err h with h | ⟨s, st1, h1, h⟩
  · obtain ⟨l, hl, rfl⟩ := getSchema_err h
    exact .inr (.load hl)
  obtain ⟨hs, g1, gr1, _⟩ := getSchema_spec g h1
  rcases CM.bind_err h with h | ⟨c, st2, h2, h⟩
  · cases h
  obtain ⟨rfl, g2, gr2, hl, hlook⟩ := newRoot_spec g1 h2
  have place : ∀ {pl}, FilePlace F name pl → Why F x pl e → e = .fuel ∨ SchemaFault F x name e.core := by
    intro pl hp hwy
    rcases hwy with h | ⟨pl', h1, h2⟩
    · exact .inl h
    · exact .inr (.place ⟨pl, hp, h1⟩ h2)
  have h0 : ∀ ns dts, DefPre F x st2 G (.root name st1.scopes.length ns dts) [] := by
    intro ns dts
    refine ⟨g2, fun s hs => ?_, trivial, trivial, fun ss ds hg => Nat.lt_irrefl _ (g1.gb _ _ _ hg), fun id => ⟨?_, fun _ => rfl⟩⟩
    · cases List.mem_singleton.mp hs; omega
    · intro k r hk; simp only [SCtx.cur] at hk; rw [hlook] at hk; cases hk
  rcases CM.bind_err h with h | ⟨_, st3, h3, h⟩
  · rcases CM.bind_err h with h | ⟨c1, _, h4, h5⟩
    · exact .inr (.decls hs (decls_fault (CM.lift_err h) rfl (.inl ⟨_, _, _, _, rfl⟩)))
    obtain ⟨h4', rfl⟩ := CM.lift_ok h4
    cases compileDeclarations_root h4' with
    | root a b =>
      rename_i ns dts
      have hfit : (SCtx.root name st1.scopes.length ns dts).Fits (.top name s.decls) := .root a b
      obtain ⟨decls, body⟩ := s
      cases body with
      | grammar items =>
        rcases contents_fail hI hci hfit (fun _ h => h) h5 (h0 _ _) with h | ⟨ds, hb, hcl⟩
        · exact place (.grammar hs rfl) h
        · exact .inr (.clash hs rfl hb (by simpa [survive] using hcl))
      | pattern p =>
        rcases CM.bind_err h5 with h | ⟨q, st4, h6, h7⟩
        · exact place (.pattern hs rfl) (hcp _ _ _ _ _ G h g2 (h0 ns dts).chainB hfit)
        · exfalso
          obtain ⟨G1, g4, gr4, t⟩ := hP _ _ _ _ _ _ G h6 g2 (h0 ns dts).chainB hfit.env
          have p1 := (DefPost.nil (ovs := []) (h0 ns dts) g4 gr4).pre (h0 ns dts)
          have := defineRule_err (d := ⟨"start".toList, .assign, p, rootEnv name decls⟩) p1 h7
          rw [survive_nil] at this
          simp only [survive, List.nil_append] at this
          generalize e.core = e' at this
          cases this with
          | @twice id h =>
            have : (named [(⟨"start".toList, .assign, p, rootEnv name decls⟩ : Defn)] id).countP (fun d => d.how = .assign) ≤ 1 :=
              Nat.le_trans (List.countP_le_length ..) (List.length_filter_le ..)
            omega
          | mixed h h' =>
            obtain ⟨d, hd, he⟩ := h
            have := (List.mem_filter.mp hd).1
            cases List.mem_singleton.mp this
            cases he
  · obtain ⟨c1, _, h4, h5⟩ := CM.bind_ok h3
    obtain ⟨h4', rfl⟩ := CM.lift_ok h4
    have key : ∃ G' ds pl, FileDefs F name s ds ∧ GoodS F x st3 G' ∧ st1.scopes.length < st3.scopes.length ∧
        OpenG F x st3 G' [] st1.scopes.length ds ∧ FilePlace F name pl ∧ 
        ∀ id, Blank st3 st1.scopes.length id → Refers F 0 pl id := by
      have hno : ∀ id, ¬ Blank st2 st1.scopes.length id := by
        rintro id ⟨k, hk, _⟩; rw [hlook] at hk; cases hk
      cases compileDeclarations_root h4' with
      | root a b =>
        rename_i ns dts
        have hfit : (SCtx.root name st1.scopes.length ns dts).Fits (.top name s.decls) := .root a b
        have hr : ∀ {pl}, Named F (SCtx.root name st1.scopes.length ns dts) pl st2 st3 → ∀ id, Blank st3 st1.scopes.length id → Refers F 0 pl id := by
          intro pl hn id hb
          rcases hn _ id (by omega) hb with h | ⟨d, hd, hr⟩
          · exact absurd h (hno id)
          · cases d with
            | zero => exact hr
            | succ d => simp [SCtx.chain] at hd
        obtain ⟨decls, body⟩ := s
        cases body with
        | grammar items =>
          obtain ⟨G', ds, hex, p⟩ := compileContents_spec hI hfit.env h5 (h0 _ _)
          exact ⟨G', ds, _, .grammar rfl hex, p.good, by have := p.grow.scopes; omega, p.opn, .grammar hs rfl,
            hr (named_contents hI (named_compile n).2 hfit (fun _ h => h) h5 (h0 _ _))⟩
        | pattern p =>
          obtain ⟨q, st4, h6, h7⟩ := CM.bind_ok h5
          obtain ⟨G1, g4, gr4, t⟩ := hP _ _ _ _ _ _ G h6 g2 (h0 ns dts).chainB hfit.env
          have p1 := DefPost.nil (ovs := SCtx.ovPath (.root name st1.scopes.length ns dts)) (h0 ns dts) g4 gr4
          have p1' := p1.pre (h0 ns dts)
          have p2 := defineRule_spec (d := ⟨"start".toList, .assign, p, rootEnv name decls⟩) p1' t h7
          have pp := p1.trans p2
          exact ⟨G1, _, _, .pattern rfl, pp.good, by have := pp.grow.scopes; omega, pp.opn, .pattern hs rfl,
            hr (((named_compile n).1 _ _ _ _ _ _ G h6 g2 (h0 ns dts).chainB hfit).trans gr4.scopes
              (named_defineRule p1'.isDef p1'.curB g4.toWFS h7))⟩
    obtain ⟨G', ds, pl, hd, g3, hb, ho, hpl, hblank⟩ := key
    dsimp only at h
    unfold finishCompile at h
    split at h
    · rename_i e' hck
      cases h
      obtain ⟨id, k, hmem, hk, rfl⟩ := checkDefined_fails hck
      have hlk := g3.mem _ _ _ hmem
      refine .inr (.undefined hs hd hpl (hblank id ⟨k, hlk, hk⟩) ((ho id).2 fun k' hk' => ?_))
      rw [hk'] at hlk; cases hlk; exact hk
    · rename_i hck
      split at h
      · rename_i hn
        cases h
        refine .inr (.noStart hs hd ((ho _).2 fun k hk => ?_))
        rw [show st3.look st1.scopes.length "start".toList = none from hn] at hk; cases hk
      · rename_i k hk
        have hk' : st3.look st1.scopes.length "start".toList = some k := hk
        have gg : GoodS F x st3 (addG G' st1.scopes.length [] ds) :=
          g3.addG hb (fun id k r hl hr => (ho id).1 k r hl hr) (fun id hn => .inl ((ho id).2 hn)) (fun h => absurd rfl h)
        split at h
        · rename_i hc
          exfalso
          have : ∀ l : List (Str × Nat), checkDefined st3 l = .ok () → ∀ id, l.lookup id ≠ some k := by
            intro l
            induction l with
            | nil => intro _ id h; cases h
            | cons a l ih =>
              obtain ⟨n', k'⟩ := a
              intro h id hl
              unfold checkDefined at h
              split at h
              · cases h
              · rename_i r hr
                rw [lookup_cons_ite] at hl
                split at hl
                · cases hl; rw [hc] at hr; cases hr
                · exact ih h id hl
          exact this _ hck _ hk
        · rename_i r hr
          split at h
          · rename_i e' hcheck
            cases h
            rcases check_err gg hcheck with h | ⟨rfl, j, hj, hbad⟩
            · exact .inl h
            · exact .inr (.dangling hs hd (gg.badRef hr hj hbad _ _ _ _ _ (.inr ⟨rfl, rfl, rfl⟩) .nil hk' _))
          · cases h

end Verif
