import Verif.Proof.SchemaRefers
import Verif.Proof.SchemaDangling
import Verif.Proof.MergeAll
/-
Why the schema compiler fails: the parts.
-/
namespace Verif
variable {F : Files} {x : Ext} {st st' st1 st2 : CState} {G G' G1 G2 : Nat → List Nat → List Defn → Prop}

/-! ### errors of the monad -/

theorem CM.bind_err {α β : Type} {m : CM α} {f : α → CM β} {st : CState} {e : CFault} (h : (m >>= f) st = .error e) :
    m st = .error e ∨ ∃ a st', m st = .ok (a, st') ∧ f a st' = .error e := by
  change CM.bind m f st = _ at h
  unfold CM.bind at h
  split at h
  · rename_i a s' hx; exact .inr ⟨a, s', hx, h⟩
  · rename_i e' hx; cases h; exact .inl hx

theorem CM.lift_err {α : Type} {r : Except CFault α} {st : CState} {e : CFault} (h : CM.lift r st = .error e) : r = .error e := by
  unfold CM.lift at h
  split at h <;> cases h
  rfl

theorem CM.pure_err {α : Type} {a : α} {st : CState} {e : CFault} (h : (pure a : CM α) st = .error e) : False := by cases h

theorem CM.inInclude_err {α : Type} {m : CM α} {st : CState} {e : CFault} (h : CM.inInclude m st = .error e) :
    ∃ e', m st = .error e' ∧ e'.core = e.core ∧ (e' = .fuel → e = .fuel) := by
  unfold CM.inInclude at h
  split at h
  · cases h
  · rename_i e' hx; cases h; exact ⟨_, hx, rfl, nofun⟩
  · rename_i e' _ hx; cases h; exact ⟨_, hx, rfl, id⟩

theorem except_bind_err {α β : Type} {m : Except CFault α} {f : α → Except CFault β} {e : CFault} (h : (m >>= f) = .error e) :
    m = .error e ∨ ∃ a, m = .ok a ∧ f a = .error e := by
  cases m with
  | error e' => cases h; exact .inl rfl
  | ok a => exact .inr ⟨a, rfl, h⟩

/-! ### names -/

theorem nsUriE_err {c : SCtx} {pre : Str} {e : CFault} (h : c.nsUriE pre = .error e) :
    c.nsUri pre = none ∧ e = .err (.undefinedNamespacePrefix pre) := by
  unfold SCtx.nsUriE at h
  split at h
  · cases h
  · rename_i hn; cases h; exact ⟨hn, rfl⟩

theorem dtUriE_err {c : SCtx} {pre : Str} {e : CFault} (h : c.dtUriE pre = .error e) :
    c.dtUri pre = none ∧ e = .err (.undefinedDatatypePrefix pre) := by
  unfold SCtx.dtUriE at h
  split at h
  · cases h
  · rename_i hn; cases h; exact ⟨hn, rfl⟩

theorem nsRef_err {c : SCtx} {n : NsRef} {e : CFault} (h : c.nsRef n = .error e) :
    ∃ pre ∈ n.prefixes, c.nsUri pre = none ∧ e = .err (.undefinedNamespacePrefix pre) := by
  cases n with
  | uri _ => cases h
  | pre p => exact ⟨p, by simp [NsRef.prefixes], nsUriE_err h⟩

theorem compileNameclass_err {c : SCtx} {el : Bool} {e : CFault} : ∀ {nc : SNameClass}, compileNameclass c el nc = .error e →
    ∃ pre ∈ nc.prefixes, c.nsUri pre = none ∧ e = .err (.undefinedNamespacePrefix pre)
  | .ident _, h => nomatch h
  | .namespaced _ _, h => nomatch h
  | .anyName, h => nomatch h
  | .cname p l, h => by
    rcases except_bind_err h with h | ⟨_, _, h⟩
    · exact ⟨p, by simp [SNameClass.prefixes], nsUriE_err h⟩
    · cases h
  | .nsName n, h => by
    rcases except_bind_err h with h | ⟨_, _, h⟩
    · exact nsRef_err h
    · cases h
  | .nsNameExcept n ex, h => by
    rcases except_bind_err h with h | ⟨_, _, h⟩
    · obtain ⟨pre, hp, h⟩ := compileNameclass_err h
      exact ⟨pre, by simp [SNameClass.prefixes, hp], h⟩
    · rcases except_bind_err h with h | ⟨_, _, h⟩
      · obtain ⟨pre, hp, h⟩ := nsRef_err h
        exact ⟨pre, by simp [SNameClass.prefixes, hp], h⟩
      · cases h
  | .anyNameExcept ex, h => by
    rcases except_bind_err h with h | ⟨_, _, h⟩
    · exact compileNameclass_err (nc := ex) h
    · cases h
  | .alt a b, h => by
    rcases except_bind_err h with h | ⟨_, _, h⟩
    · obtain ⟨pre, hp, h⟩ := compileNameclass_err h
      exact ⟨pre, by simp [SNameClass.prefixes, hp], h⟩
    · rcases except_bind_err h with h | ⟨_, _, h⟩
      · obtain ⟨pre, hp, h⟩ := compileNameclass_err h
        exact ⟨pre, by simp [SNameClass.prefixes, hp], h⟩
      · cases h
  | .paren a, h => compileNameclass_err (nc := a) h

theorem dtName_err {c : SCtx} {t : SDtName} {e : CFault} (h : c.dtName t = .error e) :
    ∃ pre n, t = .cname pre n ∧ c.dtUri pre = none ∧ e = .err (.undefinedDatatypePrefix pre) := by
  cases t with
  | string => cases h
  | token => cases h
  | cname pre n =>
    rcases except_bind_err h with h | ⟨_, _, h⟩
    · exact ⟨pre, n, rfl, dtUriE_err h⟩
    · cases h
  | «namespaced» u n => cases h

theorem dtRes_err {α : Type} {r : Res DtErr α} {e : CFault} (h : dtRes r = .error e) :
    (∃ d, r = .err d ∧ e = .err (.datatype d)) ∨ (r = .panic ∧ e = .panic .datatype) := by
  cases r with
  | ok a => cases h
  | err d => cases h; exact .inl ⟨d, rfl, rfl⟩
  | panic => cases h; exact .inr ⟨rfl, rfl⟩

theorem checkRef_err {c : SCtx} {id : Str} {e : CFault} (h : c.checkRefRecursion id = .error e) :
    c.selfOf = some id ∧ e = .err (.recursiveReference id) := by
  induction c with
  | define p i =>
    simp only [SCtx.checkRefRecursion] at h
    split at h
    · rename_i hid; cases h; exact ⟨by rw [SCtx.selfOf, hid], rfl⟩
    · cases h
  | «attribute» p ih => exact ih h
  | _ => cases h

theorem acquireRef_err {c : SCtx} {id : Str} {e : CFault} (h : c.acquireRef id st = .error e) :
    c.selfOf = some id ∧ e = .err (.recursiveReference id) := by
  rcases CM.bind_err h with h | ⟨_, st1, _, h⟩
  · exact checkRef_err (CM.lift_err h)
  · rw [acquireRefImpl_eq] at h
    unfold SCtx.acquireRefImpl.acquireIn at h
    split at h <;> cases h

theorem acquireParent_err {id : Str} {e : CFault} : ∀ {c : SCtx}, c.acquireParentRef id st = .error e →
    (c.outerOf = none ∧ e = .err .noParentAvailable) ∨ (c.outerOf = some (some id) ∧ e = .err (.recursiveReference id))
  | .root _ _ _ _, h => by cases h; exact .inl ⟨rfl, rfl⟩
  | .incl p _ _ _ _, h => acquireParent_err (c := p) h
  | .inclOverrides p, h => acquireParent_err (c := p) h
  | .define p _, h => acquireParent_err (c := p) h
  | .element p, h => acquireParent_err (c := p) h
  | .attribute p, h => acquireParent_err (c := p) h
  | .grammar p s, h => by
    obtain ⟨a, b⟩ := acquireRef_err h
    exact .inr ⟨by rw [SCtx.outerOf, a], b⟩

theorem includePath_err {c : SCtx} {w : NEnv} (ha : c.Agrees w) {lit : Str} {e : CFault} (h : includePath F c lit = .error e) :
    F.join w.file lit = none ∧ e = .panic .noParentDir := by
  unfold includePath at h
  rw [ha.file] at h
  dsimp only at h
  split at h
  · cases h
  · rename_i hp; cases h; exact ⟨hp, rfl⟩

theorem getSchema_err {name : Str} {e : CFault} (h : getSchema F name st = .error e) :
    ∃ l, F.load name = .error l ∧ e = .err (.load l) := by
  unfold getSchema at h
  split at h
  · cases h
  · split at h
    · cases h
    · rename_i l hl; cases h; exact ⟨l, hl, rfl⟩

theorem newInclude_err {c : SCtx} {f : Str} {e : CFault} (h : newInclude c f st = .error e) :
    f ∈ c.filesOf ∧ e = .err (.recursiveInclude f) := by
  unfold newInclude at h
  split at h
  · rename_i e' hc
    cases h
    refine ⟨?_, SCtx.checkInclude_err hc⟩
    rcases Classical.em (f ∈ c.filesOf) with h | h
    · exact h
    · rw [SCtx.checkInclude_ok.mpr h] at hc; cases hc
  · cases h

/-! ### declarations -/

theorem decls_err {e : CFault} : ∀ {ds : List SDecl} {c : SCtx}, compileDeclarations c ds = .error e →
    ((∃ f s ns dts, c = .root f s ns dts) ∨ ∃ p f o ns dts, c = .incl p f o ns dts) →
    (e = .panic .inheritNamespace ∧ ∃ p, .namespace p none ∈ ds) ∨
    (e = .panic .inheritNamespace ∧ ∃ p, .defaultNamespace p none ∈ ds) ∨
    ∃ ds1 ds2 p u, ds = ds1 ++ .datatypes p u :: ds2 ∧ e = .err (.datatypePrefixAlreadyDefined p) ∧
      p ∈ (declDts ds1).map (·.1) ++ c.dtsOf.map (·.1)
  | [], c, h, _ => nomatch h
  | d :: ds, c, h, hc => by
    have kind : ∀ c1, compileDeclaration c d = .ok c1 →
        ((∃ f s ns dts, c1 = .root f s ns dts) ∨ ∃ p f o ns dts, c1 = .incl p f o ns dts) := by
      intro c1 h1
      rcases hc with ⟨f, s, ns, dts, rfl⟩ | ⟨p, f, o, ns, dts, rfl⟩
      · cases compileDeclaration_root h1; exact .inl ⟨_, _, _, _, rfl⟩
      · cases compileDeclaration_incl h1; exact .inr ⟨_, _, _, _, _, rfl⟩
    have lift : ∀ c1, compileDeclaration c d = .ok c1 → compileDeclarations c1 ds = .error e →
        (∀ q, q ∈ c1.dtsOf.map (·.1) → q ∈ (declDts [d]).map (·.1) ++ c.dtsOf.map (·.1)) →
        (e = .panic .inheritNamespace ∧ ∃ p, .namespace p none ∈ d :: ds) ∨
        (e = .panic .inheritNamespace ∧ ∃ p, .defaultNamespace p none ∈ d :: ds) ∨
        ∃ ds1 ds2 p u, d :: ds = ds1 ++ .datatypes p u :: ds2 ∧ e = .err (.datatypePrefixAlreadyDefined p) ∧
          p ∈ (declDts ds1).map (·.1) ++ c.dtsOf.map (·.1) := by
      intro c1 h1 h2 hd
      rcases decls_err h2 (kind c1 h1) with ⟨a, p, b⟩ | ⟨a, p, b⟩ | ⟨ds1, ds2, p, u, a, b, hm⟩
      · exact .inl ⟨a, p, by simp [b]⟩
      · exact .inr (.inl ⟨a, p, by simp [b]⟩)
      · refine .inr (.inr ⟨d :: ds1, ds2, p, u, by rw [a]; rfl, b, ?_⟩)
        rw [declDts_cons, List.map_append]
        rcases List.mem_append.mp hm with hm | hm
        · simp only [List.mem_append]; exact .inl (.inr hm)
        · have := hd _ hm
          simp only [List.mem_append] at this ⊢
          exact this.imp .inl id
    cases d with
    | «namespace» p u =>
      cases u with
      | none =>
        have : e = .panic .inheritNamespace := by
          rcases except_bind_err h with h | ⟨_, h, _⟩ <;> cases h
          rfl
        exact .inl ⟨this, p, by simp⟩
      | some u =>
        rcases except_bind_err h with h | ⟨c1, h1, h2⟩
        · rcases hc with ⟨f, s, ns, dts, rfl⟩ | ⟨p, f, o, ns, dts, rfl⟩ <;> cases h
        · exact lift c1 h1 h2 fun q hq => by rw [declareNamespace_dts h1] at hq; simpa [declDts] using hq
    | defaultNamespace p u =>
      cases u with
      | none =>
        have : e = .panic .inheritNamespace := by
          rcases except_bind_err h with h | ⟨_, h, _⟩
          · cases p <;> cases h <;> rfl
          · cases p <;> cases h
        exact .inr (.inl ⟨this, p, by simp⟩)
      | some u =>
        rcases except_bind_err h with h | ⟨c1, h1, h2⟩
        · cases p with
          | none => cases h
          | some p => rcases hc with ⟨f, s, ns, dts, rfl⟩ | ⟨p, f, o, ns, dts, rfl⟩ <;> cases h
        · refine lift c1 h1 h2 fun q hq => ?_
          cases p with
          | none => cases h1; simpa [declDts] using hq
          | some p => rw [declareNamespace_dts h1] at hq; simpa [declDts] using hq
    | datatypes p u =>
      rcases except_bind_err h with h | ⟨c1, h1, h2⟩
      · refine .inr (.inr ⟨[], ds, p, u, rfl, ?_⟩)
        simp only [declDts, List.map_nil, List.nil_append]
        rcases hc with ⟨f, s, ns, dts, rfl⟩ | ⟨q, f, o, ns, dts, rfl⟩
        · simp only [compileDeclaration, SCtx.declareDatatype] at h
          split at h
          · rename_i hs
            cases h
            refine ⟨rfl, ?_⟩
            rcases Classical.em (p ∈ dts.map (·.1)) with h | h
            · exact h
            · rw [lookup_none_iff.mpr h] at hs; cases hs
          · cases h
        · simp only [compileDeclaration, SCtx.declareDatatype] at h
          split at h
          · rename_i hs
            cases h
            refine ⟨rfl, ?_⟩
            rcases Classical.em (p ∈ dts.map (·.1)) with h | h
            · exact h
            · rw [lookup_none_iff.mpr h] at hs; cases hs
          · cases h
      · refine lift c1 h1 h2 fun q hq => ?_
        rw [(declareDatatype_dts h1).1] at hq
        simpa [declDts] using hq

theorem decls_fault {e : CFault} {ds : List SDecl} {c : SCtx} (h : compileDeclarations c ds = .error e)
    (hd : c.dtsOf = [("xsd".toList, xsdUri)])
    (hc : (∃ f s ns dts, c = .root f s ns dts) ∨ ∃ p f o ns dts, c = .incl p f o ns dts) : DeclFault ds e.core := by
  rcases decls_err h hc with ⟨rfl, p, h⟩ | ⟨rfl, p, h⟩ | ⟨ds1, ds2, p, u, hds, rfl, hm⟩
  · exact .inheritPrefix h
  · exact .inheritDefault h
  · refine .datatypePrefix hds ?_
    rw [hd] at hm
    simp only [List.mem_append, List.map_cons, List.map_nil, List.mem_cons, List.not_mem_nil, or_false] at hm ⊢
    exact hm.symm

/-! ### definitions -/

theorem defineIn_err {s : Nat} {ss : List Nat} {d : Defn} {q : MPattern} {D : List Defn} {e : CFault}
    (ho : OpenG F x st G ss s D) (h : defineIn s d.name (ruleOf d.how q) st = .error e) : Clash (D ++ [d]) e.core := by
  unfold defineIn at h
  split at h
  · rename_i k hk
    have hk' : st.look s d.name = some k := hk
    split at h
    · cases h
    · rename_i e' hm
      cases h
      cases hr : st.cell k with
      | none => rw [hr] at hm; cases hm
      | some r =>
        rw [hr] at hm
        obtain ⟨bs, hb, _, hM⟩ := (ho d.name).1 k r hk' hr
        have hm1 : merge1 d.name r (ruleOf d.how q) = .error e := by
          rcases except_bind_err (show (merge1 d.name r (ruleOf d.how q) >>= fun r => pure (some r)) = .error e from hm) with h | ⟨_, _, h⟩
          · exact h
          · cases h
        have hn : named (D ++ [d]) d.name = bs.map (·.1) ++ [d] := by
          rw [named_append, named_cons_self, hb]
        have hin : ∀ b ∈ bs.map (fun b => (b.1.how, b.2)), ∃ d' ∈ named (D ++ [d]) d.name, d'.how = b.1 := by
          intro b hb1
          obtain ⟨b', hb', rfl⟩ := List.mem_map.mp hb1
          exact ⟨b'.1, by rw [hn]; exact List.mem_append_left _ (List.mem_map.mpr ⟨b', hb', rfl⟩), rfl⟩
        have hlast : ∃ d' ∈ named (D ++ [d]) d.name, d'.how = d.how := ⟨d, by rw [hn]; simp, rfl⟩
        have hcount : ((named (D ++ [d]) d.name).countP fun d => d.how = .assign) =
            ((bs.map fun b => (b.1.how, b.2)).countP fun b => b.1 = .assign) + [d].countP fun d => d.how = .assign := by
          rw [hn, List.countP_append, List.countP_map, List.countP_map]; rfl
        have twice : ((bs.map fun b => (b.1.how, b.2)).countP fun b => b.1 = .assign) = 1 → d.how = .assign →
            e = .err (.duplicateDefinition d.name) → Clash (D ++ [d]) e.core := by
          rintro h1 h2 rfl
          refine .twice (id := d.name) ?_
          rw [hcount, h1]; simp [h2]
        cases hM.kind with
        | plain p hbs hp =>
          subst hp
          cases hh : d.how with
          | assign =>
            rw [hh] at hm1; cases hm1
            exact twice (by rw [hbs]; simp) hh rfl
          | choice =>
            rw [hh] at hm1
            obtain ⟨r, hr⟩ := joinChoice_total p (.choice [q])
            simp [ruleOf, merge1, hr, bind, Except.bind, pure, Except.pure] at hm1
          | interleave =>
            rw [hh] at hm1
            obtain ⟨r, hr⟩ := joinInterleave_total p (.interleave [q])
            simp [ruleOf, merge1, hr, bind, Except.bind, pure, Except.pure] at hm1
        | choice l hn he hk =>
          obtain ⟨b, hb', hbe⟩ := he
          obtain ⟨d1, hd1, hd1e⟩ := hin b hb'
          rw [hbe] at hd1e
          cases hh : d.how with
          | assign =>
            rw [hh] at hm1
            rcases hk with ⟨rfl, _⟩ | ⟨rfl, hc⟩
            · obtain ⟨r, hr⟩ := joinChoice_total (.choice l) q
              simp [ruleOf, merge1, hr, bind, Except.bind, pure, Except.pure] at hm1
            · cases hm1; exact twice hc hh rfl
          | choice =>
            rw [hh] at hm1
            rcases hk with ⟨rfl, _⟩ | ⟨rfl, hc⟩ <;>
            · simp [ruleOf, merge1, appendChoice, joinChoice, bind, Except.bind, pure, Except.pure] at hm1
          | interleave =>
            rw [hh] at hm1 hlast
            have : e = .err .mixesChoiceAndInterleave := by rcases hk with ⟨rfl, _⟩ | ⟨rfl, hc⟩ <;> cases hm1 <;> rfl
            subst this
            exact .mixed ⟨d1, hd1, hd1e⟩ hlast
        | inter l hn he hk =>
          obtain ⟨b, hb', hbe⟩ := he
          obtain ⟨d1, hd1, hd1e⟩ := hin b hb'
          rw [hbe] at hd1e
          cases hh : d.how with
          | assign =>
            rw [hh] at hm1
            rcases hk with ⟨rfl, _⟩ | ⟨rfl, hc⟩
            · obtain ⟨r, hr⟩ := joinInterleave_total (.interleave l) q
              simp [ruleOf, merge1, hr, bind, Except.bind, pure, Except.pure] at hm1
            · cases hm1; exact twice hc hh rfl
          | interleave =>
            rw [hh] at hm1
            rcases hk with ⟨rfl, _⟩ | ⟨rfl, hc⟩ <;>
            · simp [ruleOf, merge1, appendInterleave, joinInterleave, bind, Except.bind, pure, Except.pure] at hm1
          | choice =>
            rw [hh] at hm1 hlast
            have : e = .err .mixesChoiceAndInterleave := by rcases hk with ⟨rfl, _⟩ | ⟨rfl, hc⟩ <;> cases hm1 <;> rfl
            subst this
            exact .mixed hlast ⟨d1, hd1, hd1e⟩
  · cases h

theorem defineRule_err {d : Defn} {q : MPattern} {e : CFault} : ∀ {c : SCtx} {D : List Defn} {st : CState},
    DefPre F x st G c D → c.defineRule d.name (ruleOf d.how q) st = .error e → Clash (D ++ survive st c [d]) e.core := by
  intro c
  induction c with
  | root f s ns dts => intro D st h0 h; rw [defineRule_root] at h; exact defineIn_err h0.opn h
  | grammar p s _ => intro D st h0 h; rw [defineRule_grammar] at h; exact defineIn_err h0.opn h
  | incl p f o ns dts ih =>
    intro D st h0 h
    have hov : o < st.overrides.length ∧ p.OvOK o := h0.ov
    rw [defineRule_incl] at h
    dsimp only at h
    split at h
    · cases h
    · rename_i hs
      have hs' : (st.ov o).lookup d.name = none := by
        cases hl : (st.ov o).lookup d.name with
        | none => rfl
        | some b => rw [hl] at hs; exact absurd rfl hs
      have hf : ([d].filter fun d => ((st.ov o).lookup d.name).isNone) = [d] := by simp [hs']
      have hp : DefPre F x st G p D :=
        ⟨h0.good, h0.chainB, h0.isDef, hov.2.mono (by have := hov.1; omega), h0.hG, h0.opn⟩
      simp only [survive, hf]
      exact ih hp h
  | _ => intro D st h0; exact absurd h0.isDef id

end Verif
