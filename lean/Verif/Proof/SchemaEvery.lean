import Verif.Proof.SchemaPlaces
/-
At every place of a schema that compiles the definitions of the grammar there are determined, and every override
replaces something.
-/
namespace Verif
variable {F : Files} {x : Ext} {G : Nat → List Nat → List Defn → Prop}

/-- the compiler got through this place, in a state as the specification of the compiler describes it -/
def Passed (F : Files) (x : Ext) : Place → Prop
  | .pat w p => ∃ n c st q st' G, c.Fits w ∧ GoodS F x st G ∧ (∀ s ∈ c.chain, s < st.scopes.length) ∧
      compilePattern F x n c p st = .ok (q, st')
  | .items w is => ∃ n c st st' G D, c.Fits w ∧ DefPre F x st G c D ∧ compileContents (compileItem F x n) c is st = .ok ((), st')

theorem contents_at {ci : SCtx → SItem → CM Unit} (hci : ISpec F x ci) {c : SCtx} {e : NEnv} (ha : c.Agrees e) {i : SItem} :
    ∀ {is : List SItem} {st st' : CState} {G D}, DefPre F x st G c D → compileContents ci c is st = .ok ((), st') → i ∈ is →
    ∃ st1 st2 G1 D1, DefPre F x st1 G1 c D1 ∧ ci c i st1 = .ok ((), st2)
  | [], _, _, _, _, _, _, h => nomatch h
  | j :: is, st, st', G, D, hs, h, hi => by
    obtain ⟨_, st1, h1, h2⟩ := CM.bind_ok h
    rcases List.mem_cons.mp hi with rfl | hi
    · exact ⟨st, st1, G, D, hs, h1⟩
    · obtain ⟨G1, ds1, _, p1⟩ := hci c j st st1 e G D h1 hs ha
      exact contents_at hci ha (p1.pre hs) h2 hi

theorem CM.bind_of_ok {α β : Type} {m : CM α} {f : α → CM β} {st st' : CState} {a : α} (h : m st = .ok (a, st')) : (m >>= f) st = f a st' := by
  show CM.bind m f st = _
  simp only [CM.bind, h]

theorem compileOverrides_append {cp : SCtx → SPattern → CM MPattern} {c : SCtx} : ∀ {os os' : List SOverride} {st st' : CState},
    compileOverrides cp c (os ++ os') st = .ok ((), st') →
    ∃ st1, compileOverrides cp c os st = .ok ((), st1) ∧ compileOverrides cp c os' st1 = .ok ((), st')
  | [], _, st, _, h => ⟨st, rfl, h⟩
  | .define id how p :: os, os', st, st', h => by
    obtain ⟨_, st1, h1, h2⟩ := CM.bind_ok h
    obtain ⟨st2, h3, h4⟩ := compileOverrides_append h2
    exact ⟨st2, (CM.bind_of_ok h1).trans h3, h4⟩
  | .div :: os, os', st, st', h => by
    obtain ⟨_, st1, h1, h2⟩ := CM.bind_ok h
    cases h1
  | .annotation :: os, os', st, st', h => compileOverrides_append (os := os) h

theorem overrides_at {cp} (hcp : PSpec F x cp) {c : SCtx} {e : NEnv} {f : Str} {o : Nat} {ns dts}
    (ha : (SCtx.inclOverrides (.incl c f o ns dts)).Agrees e) {os : List SOverride} {st st' : CState} {G D}
    (h : compileOverrides cp (.inclOverrides (.incl c f o ns dts)) os st = .ok ((), st'))
    (h0 : DefPre F x st G c D) (ho : c.OvOK o) (hl : o < st.overrides.length) (ht : TableIs st o [])
    {id how p} (hm : .define id how p ∈ os) :
    ∃ st1 st2 G1, GoodS F x st1 G1 ∧ (∀ s ∈ c.chain, s < st1.scopes.length) ∧
      compileDefine cp (.inclOverrides (.incl c f o ns dts)) id how p st1 = .ok ((), st2) := by
  obtain ⟨pre, post, rfl⟩ := List.append_of_mem hm
  obtain ⟨st1, h1, h2⟩ := compileOverrides_append h
  obtain ⟨G1, p1, _⟩ := compileOverrides_spec hcp ha h1 h0 ho hl ht
  obtain ⟨_, st2, h3, _⟩ := CM.bind_ok h2
  exact ⟨st1, st2, G1, p1.good, (p1.pre h0).chainB, CM.inInclude_ok h3⟩

/-- what an `include` that compiles went through -/
theorem include_at {cp ci} (hcp : PSpec F x cp) (hci : ISpec F x ci)
    {c : SCtx} {w : Where} (hw : c.Fits w) {lit : Str} {i : Option Str} {os : List SOverride} {st st' : CState} {D}
    (h0 : DefPre F x st G c D) (h : compileInclude F cp ci c lit i os st = .ok ((), st')) :
    ∃ f s is, F.join w.env.file lit = some f ∧ F.load f = .ok s ∧ s.Grammar is ∧
      (∀ id how p, .define id how p ∈ os → ∃ co sto sto' Go, co.Fits (w.override f i) ∧ GoodS F x sto Go ∧ (∀ s ∈ co.chain, s < sto.scopes.length) ∧
        compileDefine cp co id how p sto = .ok ((), sto')) ∧
      (∃ cs sts sts' Gs Ds, cs.Fits (w.included f i s.decls) ∧ DefPre F x sts Gs cs Ds ∧ compileContents ci cs is sts = .ok ((), sts')) := by
  have ha := hw.env
  obtain ⟨path, _, h1, h⟩ := CM.bind_ok h
  obtain ⟨hp, rfl⟩ := CM.lift_ok h1
  obtain ⟨s, st1, h2, h⟩ := CM.bind_ok h
  obtain ⟨hs, g1, gr1, _⟩ := getSchema_spec h0.good (CM.inInclude_ok h2)
  obtain ⟨inc, st2, h3, h⟩ := CM.bind_ok h
  obtain ⟨rfl, g2, gr2, hol, hov⟩ := newInclude_spec g1 h3
  obtain ⟨inc', _, h4, h⟩ := CM.bind_ok h
  obtain ⟨h4', rfl⟩ := CM.lift_ok h4
  obtain ⟨ns, rfl, hns⟩ := inheritCtx_spec ha h4'
  obtain ⟨_, st3, h5, h⟩ := CM.bind_ok h
  obtain ⟨_, st4, h6, h⟩ := CM.bind_ok h
  dsimp only at h
  have gr12 := gr1.trans g1.toWFS gr2
  have hoc : c.OvOK st1.overrides.length := h0.ov.mono gr1.ovsLen
  have p0 := DefPost.nil (ovs := st1.overrides.length :: c.ovPath) h0 g2 gr12
  have ho2 : st1.overrides.length < st2.overrides.length := by omega
  have ht2 : TableIs st2 st1.overrides.length [] := fun id => by rw [hov]; rfl
  have hfo : (SCtx.inclOverrides (.incl c path st1.overrides.length ns [("xsd".toList, xsdUri)])).Fits (w.override path i) :=
    hw.override _ _ hns
  obtain ⟨G3, p1, t3⟩ := compileOverrides_spec hcp (overrides_agrees ha hns) h5 (p0.pre h0) hoc ho2 ht2
  have p01 := p0.trans p1
  have p01' := p01.pre h0
  have h0i : ∀ ns dts, DefPre F x st3 G3 (.incl c path st1.overrides.length ns dts) _ := fun _ _ =>
    ⟨p01'.good, p01'.chainB, p01'.isDef, ⟨Nat.lt_of_lt_of_le ho2 p1.grow.ovsLen, hoc⟩, p01'.hG, p01'.opn⟩
  obtain ⟨c1, st5, h7, h8⟩ := CM.bind_ok (CM.inInclude_ok h6)
  obtain ⟨h7', rfl⟩ := CM.lift_ok h7
  cases compileDeclarations_incl h7' with
  | incl a b =>
    rename_i ns' dts'
    have hcs : (SCtx.incl c path st1.overrides.length ns' dts').Fits (w.included path i s.decls) :=
      hw.included _ _ (a.trans hns.append) b
    have : ∃ is, s.Grammar is ∧ compileContents ci (SCtx.incl c path st1.overrides.length ns' dts') is st3 = .ok ((), st4) := by
      obtain ⟨decls, body⟩ := s
      cases body with
      | grammar items => exact ⟨items, .grammar, h8⟩
      | pattern p =>
        cases p with
        | grammar items => exact ⟨items, .pattern, h8⟩
        | _ => cases h8
    obtain ⟨is, hg, hc⟩ := this
    refine ⟨path, s, is, includePath_spec ha hp, hs, hg, fun id how p hm => ?_, _, st3, st4, G3, _, hcs, h0i _ _, hc⟩
    obtain ⟨sta, stb, Ga, a1, a2, a3⟩ := overrides_at hcp (overrides_agrees ha hns) h5 (p0.pre h0) hoc ho2 ht2 hm
    exact ⟨_, sta, stb, Ga, hfo, a1, a2, a3⟩

/-- a grammar inside a pattern -/
theorem newGrammar_at {c child : SCtx} {w : Where} (hw : c.Fits w) {st st1 : CState} (g : GoodS F x st G) (hc : ∀ s ∈ c.chain, s < st.scopes.length)
    (h1 : newGrammar c st = .ok (child, st1)) : child.Fits w.grammar ∧ DefPre F x st1 G child [] := by
  obtain ⟨rfl, g1, gr1, hl, hlook⟩ := newGrammar_spec g h1
  refine ⟨hw.grammar _, g1, fun s hs => ?_, trivial, trivial, fun ss ds hg => Nat.lt_irrefl _ (g.gb _ _ _ hg), fun id => ⟨?_, fun _ => rfl⟩⟩
  · simp only [SCtx.chain, List.mem_cons] at hs
    rcases hs with rfl | hs
    · omega
    · have := hc s hs; omega
  · intro k r hk; simp only [SCtx.cur] at hk; rw [hlook] at hk; cases hk

theorem external_at {cp : SCtx → SPattern → CM MPattern} {ci : SCtx → SItem → CM Unit}
    {c : SCtx} {w : Where} (hw : c.Fits w) {lit : Str} {i : Option Str} {st st' : CState} {q : MPattern}
    (g : GoodS F x st G) (hc : ∀ s ∈ c.chain, s < st.scopes.length) (h : compileExternal F cp ci c lit i st = .ok (q, st')) :
    ∃ f s, F.join w.env.file lit = some f ∧ F.load f = .ok s ∧
      (∀ p, s.body = .pattern p → ∃ c1 st1 G1, c1.Fits (w.external f) ∧ GoodS F x st1 G1 ∧ (∀ s ∈ c1.chain, s < st1.scopes.length) ∧
        cp c1 p st1 = .ok (q, st')) ∧
      (∀ is, s.body = .grammar is → ∃ c1 st1 st2 G1 D1, c1.Fits w.grammar ∧ DefPre F x st1 G1 c1 D1 ∧
        compileContents ci c1 is st1 = .ok ((), st2)) := by
  cases i with
  | some _ => cases h
  | none =>
    obtain ⟨path, _, h1, h⟩ := CM.bind_ok h
    obtain ⟨hp, rfl⟩ := CM.lift_ok h1
    obtain ⟨s, st1, h2, h⟩ := CM.bind_ok h
    obtain ⟨hs, g1, gr1, _⟩ := getSchema_spec g (CM.inInclude_ok h2)
    obtain ⟨inc, st2, h3, h⟩ := CM.bind_ok h
    obtain ⟨rfl, g2, gr2, _, _⟩ := newInclude_spec g1 h3
    have gr12 := gr1.trans g1.toWFS gr2
    have hc2 : ∀ s ∈ c.chain, s < st2.scopes.length := fun s hs => Nat.lt_of_lt_of_le (hc s hs) gr12.scopes
    refine ⟨path, s, includePath_spec hw.env hp, hs, ?_, ?_⟩
    · intro p hb
      obtain ⟨ds, body⟩ := s
      cases hb
      exact ⟨_, st2, G, hw.external _ _, g2, hc2, CM.inInclude_ok h⟩
    · intro is hb
      obtain ⟨ds, body⟩ := s
      cases hb
      obtain ⟨child, st3, h4, h⟩ := CM.bind_ok h
      obtain ⟨_, stc, h5, h⟩ := CM.bind_ok h
      obtain ⟨a, b⟩ := newGrammar_at hw g2 hc2 h4
      exact ⟨child, st3, stc, G, [], a, b, h5⟩

theorem Passed.within {a b : Place} (h : Passed F x a) (hw : Within F a b) : Passed F x b := by
  cases hw with
  | define hi =>
    obtain ⟨n, c, st, st', G, D, hf, hs, h⟩ := h
    cases n with
    | zero => obtain ⟨_, _, _, _, _, h⟩ := contents_at (compile_spec 0).2 hf.env hs h hi; cases h
    | succ n =>
      obtain ⟨st1, st2, G1, D1, hs1, h⟩ := contents_at (compile_spec (n + 1)).2 hf.env hs h hi
      obtain ⟨q, st3, h1, _⟩ := CM.bind_ok h
      exact ⟨n, _, st1, q, st3, G1, hf.define _, hs1.good, hs1.chainB, h1⟩
  | div hi =>
    obtain ⟨n, c, st, st', G, D, hf, hs, h⟩ := h
    cases n with
    | zero => obtain ⟨_, _, _, _, _, h⟩ := contents_at (compile_spec 0).2 hf.env hs h hi; cases h
    | succ n =>
      obtain ⟨st1, st2, G1, D1, hs1, h⟩ := contents_at (compile_spec (n + 1)).2 hf.env hs h hi
      exact ⟨n, c, st1, st2, G1, D1, hf, hs1, h⟩
  | included hi hj hl hg =>
    obtain ⟨n, c, st, st', G, D, hf, hs, h⟩ := h
    cases n with
    | zero => obtain ⟨_, _, _, _, _, h⟩ := contents_at (compile_spec 0).2 hf.env hs h hi; cases h
    | succ n =>
      obtain ⟨st1, st2, G1, D1, hs1, h⟩ := contents_at (compile_spec (n + 1)).2 hf.env hs h hi
      obtain ⟨f, s, is, hj', hl', hg', _, cs, sts, sts', Gs, Ds, a, b, d⟩ := include_at (compile_spec n).1 (compile_spec n).2 hf hs1 h
      rw [hj] at hj'; cases hj'
      rw [hl] at hl'; cases hl'
      rw [hg.det hg']
      exact ⟨n, cs, sts, sts', Gs, Ds, a, b, d⟩
  | override hi hj ho =>
    obtain ⟨n, c, st, st', G, D, hf, hs, h⟩ := h
    cases n with
    | zero => obtain ⟨_, _, _, _, _, h⟩ := contents_at (compile_spec 0).2 hf.env hs h hi; cases h
    | succ n =>
      obtain ⟨st1, st2, G1, D1, hs1, h⟩ := contents_at (compile_spec (n + 1)).2 hf.env hs h hi
      obtain ⟨f, s, is, hj', _, _, hov, _⟩ := include_at (compile_spec n).1 (compile_spec n).2 hf hs1 h
      rw [hj] at hj'; cases hj'
      obtain ⟨co, sto, sto', Go, a, b, d, e⟩ := hov _ _ _ ho
      obtain ⟨q, st5, h1, _⟩ := CM.bind_ok e
      exact ⟨n, _, sto, q, st5, Go, a.define _, b, d, h1⟩
  | grammar =>
    obtain ⟨n, c, st, q, st', G, hf, hs, hc, h⟩ := h
    cases n with
    | zero => cases h
    | succ n =>
      obtain ⟨ch, st1, h1, h⟩ := CM.bind_ok h
      obtain ⟨_, st2, h2, _⟩ := CM.bind_ok h
      obtain ⟨a, b⟩ := newGrammar_at hf hs hc h1
      exact ⟨n, _, st1, st2, G, [], a, b, h2⟩
  | externalPattern hj hl hb =>
    obtain ⟨n, c, st, q, st', G, hf, hs, hc, h⟩ := h
    cases n with
    | zero => cases h
    | succ n =>
      obtain ⟨f, s, hj', hl', h1, _⟩ := external_at hf hs hc h
      rw [hj] at hj'; cases hj'
      rw [hl] at hl'; cases hl'
      obtain ⟨c1, st1, G1, a, b, d, e⟩ := h1 _ hb
      exact ⟨n, c1, st1, q, st', G1, a, b, d, e⟩
  | externalGrammar hj hl hb =>
    obtain ⟨n, c, st, q, st', G, hf, hs, hc, h⟩ := h
    cases n with
    | zero => cases h
    | succ n =>
      obtain ⟨f, s, hj', hl', _, h1⟩ := external_at hf hs hc h
      rw [hj] at hj'; cases hj'
      rw [hl] at hl'; cases hl'
      obtain ⟨c1, st1, st2, G1, D1, a, b, d⟩ := h1 _ hb
      exact ⟨n, c1, st1, st2, G1, D1, a, b, d⟩
  | element =>
    obtain ⟨n, c, st, q, st', G, hf, hs, hc, h⟩ := h
    cases n with
    | zero => cases h
    | succ n =>
      obtain ⟨nc', _, h1, h⟩ := CM.bind_ok h
      obtain ⟨hn, rfl⟩ := CM.lift_ok h1
      split at h
      · cases h
      · obtain ⟨q', st1, h2, h⟩ := CM.bind_ok h
        exact ⟨n, _, st, q', st1, G, hf.element, hs, hc, h2⟩
  | «attribute» =>
    obtain ⟨n, c, st, q, st', G, hf, hs, hc, h⟩ := h
    cases n with
    | zero => cases h
    | succ n =>
      obtain ⟨nc', _, h1, h⟩ := CM.bind_ok h
      obtain ⟨hn, rfl⟩ := CM.lift_ok h1
      obtain ⟨q', st1, h2, h⟩ := CM.bind_ok h
      exact ⟨n, _, st, q', st1, G, hf.attribute, hs, hc, h2⟩
  | except =>
    obtain ⟨n, c, st, q, st', G, hf, hs, hc, h⟩ := h
    cases n with
    | zero => cases h
    | succ n =>
      obtain ⟨_, _, h1, h⟩ := CM.bind_ok h
      obtain ⟨_, rfl⟩ := CM.lift_ok h1
      obtain ⟨_, _, h1, h⟩ := CM.bind_ok h
      obtain ⟨_, rfl⟩ := CM.lift_ok h1
      obtain ⟨q', st1, h2, h⟩ := CM.bind_ok h
      exact ⟨n, _, _, q', st1, G, hf, hs, hc, h2⟩
  | paren =>
    obtain ⟨n, c, st, q, st', G, hf, hs, hc, h⟩ := h
    cases n with
    | zero => cases h
    | succ n => exact ⟨n, _, _, q, st', G, hf, hs, hc, h⟩
  | seqRight | interRight | choiceRight =>
    obtain ⟨n, c, st, q, st', G, hf, hs, hc, h⟩ := h
    cases n with
    | zero => cases h
    | succ n =>
      obtain ⟨q1, st1, h1, h⟩ := CM.bind_ok h
      obtain ⟨q2, st2, h2, h⟩ := CM.bind_ok h
      obtain ⟨G1, g1, gr1, _⟩ := (compile_spec n).1 _ _ _ _ _ _ G h1 hs hc hf.env
      exact ⟨n, _, _, q2, st2, G1, hf, g1, fun s hm => Nat.lt_of_lt_of_le (hc s hm) gr1.scopes, h2⟩
  | _ =>
    obtain ⟨n, c, st, q, st', G, hf, hs, hc, h⟩ := h
    cases n with
    | zero => cases h
    | succ n =>
      obtain ⟨q', st1, h2, h⟩ := CM.bind_ok h
      exact ⟨n, _, _, q', st1, G, hf, hs, hc, h2⟩

theorem Passed.inside {a b : Place} (h : Inside F a b) : Passed F x a → Passed F x b := by
  induction h with
  | refl => exact id
  | step hw _ ih => exact fun h => ih (h.within hw)

/-- the definitions of a grammar that compiles -/
theorem Passed.expands {w : Where} {is : List SItem} (h : Passed F x (.items w is)) : ∃ ds, Expands F w.env is ds := by
  obtain ⟨n, c, st, st', G, D, hf, hs, h⟩ := h
  obtain ⟨_, ds, he, _⟩ := compileContents_spec (compile_spec n).2 hf.env h hs
  exact ⟨ds, he⟩

/-- a schema that compiles has been gone through everywhere -/
theorem compileFile_passed {n m k : Nat} {name : Str} {st0 st : CState} (g : GoodS F x st0 G)
    (h : compileFile F x n m name st0 = .ok (k, st)) : ∀ pl, Occurs F name pl → Passed F x pl := by
  obtain ⟨s, st1, h1, h⟩ := CM.bind_ok h
  obtain ⟨hload, g1, gr1, _⟩ := getSchema_spec g h1
  obtain ⟨c, st2, h2, h⟩ := CM.bind_ok h
  obtain ⟨rfl, g2, gr2, hl, hlook⟩ := newRoot_spec g1 h2
  obtain ⟨_, st3, h3, h⟩ := CM.bind_ok h
  obtain ⟨c1, _, h4, h5⟩ := CM.bind_ok h3
  obtain ⟨h4', rfl⟩ := CM.lift_ok h4
  rintro pl ⟨a, hfp, hin⟩
  refine Passed.inside hin ?_
  cases compileDeclarations_root h4' with
  | root ha hb =>
    rename_i ns dts
    have hfit : (SCtx.root name st1.scopes.length ns dts).Fits (.top name s.decls) :=
      .root ha hb
    have h0 : DefPre F x st2 G (.root name st1.scopes.length ns dts) [] := by
      refine ⟨g2, fun s hs => ?_, trivial, trivial, fun ss ds hg => Nat.lt_irrefl _ (g1.gb _ _ _ hg), fun id => ⟨?_, fun _ => rfl⟩⟩
      · cases List.mem_singleton.mp hs; omega
      · intro k r hk; simp only [SCtx.cur] at hk; rw [hlook] at hk; cases hk
    cases hfp with
    | pattern hl' hbody =>
      rw [hload] at hl'; cases hl'
      obtain ⟨decls, body⟩ := s
      cases hbody
      obtain ⟨q, st4, h6, _⟩ := CM.bind_ok h5
      exact ⟨n, _, st2, q, st4, G, hfit, g2, h0.chainB, h6⟩
    | grammar hl' hbody =>
      rw [hload] at hl'; cases hl'
      obtain ⟨decls, body⟩ := s
      cases hbody
      exact ⟨n, _, st2, st3, G, [], hfit, h0, h5⟩

end Verif
