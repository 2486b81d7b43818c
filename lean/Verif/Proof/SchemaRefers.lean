import Verif.Proof.SchemaEvery
import Verif.Spec.Faults
/-
Every name without a definition was referred to.
-/
namespace Verif
variable {F : Files} {x : Ext} {st st' st1 st2 : CState} {G G' G1 G2 : Nat → List Nat → List Defn → Prop}

/-- a name known but not defined -/
def Blank (st : CState) (s : Nat) (id : Str) : Prop := ∃ k, st.look s id = some k ∧ st.cell k = none

variable (F) in
/-- from `st` to `st'` only names referred to in `pl` became known without being defined -/
def Named (c : SCtx) (pl : Place) (st st' : CState) : Prop :=
  ∀ s id, s < st.scopes.length → Blank st' s id → Blank st s id ∨ ∃ d, c.chain[d]? = some s ∧ Refers F d pl id

variable {c : SCtx} {pl pl' : Place}

theorem Named.refl : Named F c pl st st := fun _ _ _ h => .inl h

theorem Named.trans (h1 : Named F c pl st st1) (hs : st.scopes.length ≤ st1.scopes.length) (h2 : Named F c pl st1 st2) :
    Named F c pl st st2 := by
  intro s id hb h
  rcases h2 s id (by omega) h with h | h
  · exact h1 s id hb h
  · exact .inr h

theorem Named.up {c' : SCtx} (h : Named F c' pl' st st') (hw : Within F pl pl') (ho : ¬ pl.Opens pl') (hc : c'.chain = c.chain) :
    Named F c pl st st' := by
  intro s id hb hn
  rcases h s id hb hn with h | ⟨d, hd, hr⟩
  · exact .inl h
  · exact .inr ⟨d, hc ▸ hd, .same hw ho hr⟩

/-- nothing but cells that hold something and new scopes changed -/
theorem Named.ofBlank (h : ∀ s id, s < st.scopes.length → Blank st' s id → Blank st s id) : Named F c pl st st' :=
  fun s id hs hb => .inl (h s id hs hb)

theorem Blank.same {s id} (h1 : st'.scopes = st.scopes) (h2 : st'.cells = st.cells) (h : Blank st' s id) : Blank st s id := by
  obtain ⟨k, a, b⟩ := h
  refine ⟨k, ?_, ?_⟩
  · simpa [CState.look, CState.refs, h1] using a
  · simpa [CState.cell, h2] using b

theorem named_getSchema {name : Str} {s : SSchema} (h : getSchema F name st = .ok (s, st')) : Named F c pl st st' := by
  refine .ofBlank fun s id _ hb => ?_
  unfold getSchema at h
  split at h
  · cases h; exact hb
  · split at h
    · cases h; exact hb.same rfl rfl
    · cases h

theorem named_newInclude {c0 inc : SCtx} {f : Str} (h : newInclude c0 f st = .ok (inc, st')) : Named F c pl st st' := by
  refine .ofBlank fun s id _ hb => ?_
  unfold newInclude at h
  split at h
  · cases h
  · cases h; exact hb.same rfl rfl

theorem blank_newScope {s : Nat} {id : Str} (hb : Blank { st with scopes := st.scopes ++ [[]] } s id) : Blank st s id := by
  obtain ⟨k, a, b⟩ := hb
  refine ⟨k, ?_, b⟩
  simp only [CState.look, CState.refs, List.getD_eq_getElem?_getD] at a ⊢
  by_cases hs : s < st.scopes.length
  · rwa [List.getElem?_append_left hs] at a
  · by_cases hs' : s = st.scopes.length
    · subst hs'; simp at a
    · rw [List.getElem?_eq_none (by simp; omega)] at a; cases a

theorem named_acquireIn {s0 : Nat} {id0 : Str} {k : Nat} {n : Nat} (hs : s0 < st.scopes.length) (hw : WFS F st)
    (hn : c.chain[n]? = some s0) (hr : Refers F n pl id0)
    (h : SCtx.acquireRefImpl.acquireIn s0 id0 st = .ok (k, st')) : Named F c pl st st' := by
  unfold SCtx.acquireRefImpl.acquireIn at h
  split at h
  · cases h; exact .refl
  · cases h
    rintro s id hb ⟨k, a, b⟩
    rw [look_addCell hs] at a
    split at a
    · rename_i he
      obtain ⟨rfl, rfl⟩ := he
      exact .inr ⟨n, hn, hr⟩
    · rw [cell_addCell _ _ (hw.bound _ _ _ a)] at b
      exact .inl ⟨k, a, b⟩

theorem named_defineIn {s0 : Nat} {id0 : Str} {r : DefineRule} (hs : s0 < st.scopes.length) (hw : WFS F st)
    (h : defineIn s0 id0 r st = .ok ((), st')) : Named F c pl st st' := by
  refine .ofBlank fun s id _ hb => ?_
  obtain ⟨k, a, b⟩ := hb
  unfold defineIn at h
  split at h
  · rename_i k0 hk0
    have hk0' : st.look s0 id0 = some k0 := hk0
    split at h
    · rename_i r' hm
      cases h
      rw [cell_set (hw.bound _ _ _ hk0')] at b
      split at b
      · subst b
        exfalso
        unfold merge at hm
        split at hm
        · rename_i e; cases e
        · rename_i e; cases e
        · cases hm
        · obtain ⟨_, _, e⟩ := except_bind_ok hm; cases e
      · exact ⟨k, a, b⟩
    · cases h
  · cases h
    rw [look_addCell hs] at a
    split at a
    · cases a; rw [CState.addCell_cell] at b; cases b
    · rw [cell_addCell _ _ (hw.bound _ _ _ a)] at b
      exact ⟨k, a, b⟩

theorem named_defineRule {id0 : Str} {r : DefineRule} : ∀ {c0 : SCtx} {st st' : CState}, (c0.isDef) →
    c0.cur < st.scopes.length → WFS F st → c0.defineRule id0 r st = .ok ((), st') → Named F c pl st st' := by
  intro c0
  induction c0 with
  | root f s ns dts => intro st st' _ hs hw h; rw [defineRule_root] at h; exact named_defineIn hs hw h
  | grammar p s _ => intro st st' _ hs hw h; rw [defineRule_grammar] at h; exact named_defineIn hs hw h
  | incl p f o ns dts ih =>
    intro st st' hd hs hw h
    rw [defineRule_incl] at h
    dsimp only at h
    split at h
    · cases h; exact .ofBlank fun s id _ hb => hb.same rfl rfl
    · exact ih hd hs hw h
  | _ => intro st st' hd; exact absurd hd id

variable (F x) in
/-- compiling a pattern makes known what it refers to -/
def PNamed (cp : SCtx → SPattern → CM MPattern) : Prop :=
  ∀ c p st q st' w G, cp c p st = .ok (q, st') → GoodS F x st G → (∀ s ∈ c.chain, s < st.scopes.length) → c.Fits w →
    Named F c (.pat w p) st st'

variable (F x) in
/-- compiling a grammar item makes known what it refers to -/
def INamed (ci : SCtx → SItem → CM Unit) : Prop :=
  ∀ c i is st st' w G D, i ∈ is → ci c i st = .ok ((), st') → DefPre F x st G c D → c.Fits w → Named F c (.items w is) st st'

theorem named_contents {ci} (hI : ISpec F x ci) (hci : INamed F x ci) {w : Where} (hw : c.Fits w) {is0 : List SItem} :
    ∀ {is : List SItem} {st G D st'}, (∀ i ∈ is, i ∈ is0) → compileContents ci c is st = .ok ((), st') → DefPre F x st G c D →
      Named F c (.items w is0) st st'
  | [], st, G, D, st', _, h, h0 => by cases h; exact .refl
  | i :: is, st, G, D, st', hi, h, h0 => by
    obtain ⟨_, st1, h1, h2⟩ := CM.bind_ok h
    obtain ⟨G1, ds1, e1, p1⟩ := hI c i st st1 w.env G D h1 h0 hw.env
    have a := hci c i is0 st st1 w G D (hi i (by simp)) h1 h0 hw
    exact a.trans p1.grow.scopes (named_contents hI hci hw (fun j hj => hi j (by simp [hj])) h2 (p1.pre h0))

theorem named_define {cp} (hP : PSpec F x cp) (hcp : PNamed F x cp) {w : Where} (hw : c.Fits w) {id how body D}
    (hin : Within F pl (.pat (w.define id) body)) (ho : ¬ pl.Opens (.pat (w.define id) body))
    (h : compileDefine cp c id how body st = .ok ((), st')) (h0 : DefPre F x st G c D) : Named F c pl st st' := by
  obtain ⟨q, st1, h1, h2⟩ := CM.bind_ok h
  obtain ⟨G1, g1, gr1, t1⟩ := hP _ _ _ _ _ w.env G h1 h0.good h0.chainB (hw.env.define id)
  have a : Named F c pl st st1 := (hcp _ _ _ _ _ _ G h1 h0.good h0.chainB (hw.define id)).up hin ho rfl
  have p1 := (DefPost.nil (ovs := c.ovPath) h0 g1 gr1).pre h0
  exact a.trans gr1.scopes (named_defineRule p1.isDef p1.curB g1.toWFS h2)

theorem named_overrides {cp} (hP : PSpec F x cp) (hcp : PNamed F x cp) {w : Where} {f : Str} {o : Nat} {ns dts} {i : Option Str}
    (hw : (SCtx.inclOverrides (.incl c f o ns dts)).Fits (w.override f i))
    (hin : ∀ id how body, .define id how body ∈ (os0 : List SOverride) → Within F pl (.pat ((w.override f i).define id) body))
    (hop : ∀ w' p, ¬ pl.Opens (.pat w' p)) :
    ∀ {os : List SOverride} {st G D st' done}, (∀ i ∈ os, i ∈ os0) →
      compileOverrides cp (.inclOverrides (.incl c f o ns dts)) os st = .ok ((), st') → DefPre F x st G c D → c.OvOK o →
      o < st.overrides.length → TableIs st o done → Named F c pl st st'
  | [], st, G, D, st', _, _, h, h0, _, _, _ => by cases h; exact .refl
  | .div :: os, st, G, D, st', _, _, h, h0, _, _, _ => by
    obtain ⟨_, st1, h1, h2⟩ := CM.bind_ok h
    cases h1
  | .annotation :: os, st, G, D, st', _, hi, h, h0, ho, hl, ht =>
    named_overrides (os := os) hP hcp hw hin hop (fun j hj => hi j (by simp [hj])) h h0 ho hl ht
  | .define id how body :: os, st, G, D, st', done, hi, h, h0, ho, hl, ht => by
    obtain ⟨_, st1, h1, h2⟩ := CM.bind_ok h
    have hone : compileOverrides cp (.inclOverrides (.incl c f o ns dts)) [.define id how body] st = .ok ((), st1) :=
      CM.bind_of_ok h1
    obtain ⟨G1, p1, t1⟩ := compileOverrides_spec hP hw.env hone h0 ho hl ht
    obtain ⟨q, sta, ha1, ha2⟩ := CM.bind_ok (CM.inInclude_ok h1)
    obtain ⟨Ga, ga, gra, ta⟩ := hP _ _ _ _ _ (w.override f i).env G ha1 h0.good h0.chainB (hw.env.define id)
    have a : Named F c pl st sta := (hcp _ _ _ _ _ _ G ha1 h0.good h0.chainB (hw.define id)).up
      (hin id how body (hi _ (by simp))) (hop _ _) rfl
    have pa := (DefPost.nil (ovs := c.ovPath) h0 ga gra).pre h0
    have hla : o < sta.overrides.length := Nat.lt_of_lt_of_le hl gra.ovsLen
    rw [defineRule_inclOverrides] at ha2
    dsimp only at ha2
    split at ha2
    · cases ha2
    · rename_i hnot
      obtain ⟨g2, gr2⟩ := ovSet_spec ga hla ((id, false) :: sta.ov o) (by
        refine List.nodup_cons.mpr ⟨lookup_none_of_keys.mp ?_, ga.ovn o⟩
        cases hl' : (sta.ov o).lookup id with
        | none => rfl
        | some b => rw [hl'] at hnot; exact absurd rfl hnot)
      have b : Named F c pl sta { sta with overrides := sta.overrides.set o ((id, false) :: sta.ov o) } :=
        .ofBlank fun s id _ hb => hb.same rfl rfl
      have d : Named F c pl { sta with overrides := sta.overrides.set o ((id, false) :: sta.ov o) } st1 :=
        named_defineRule h0.isDef pa.curB g2.toWFS ha2
      have hs1 : sta.scopes.length ≤ st1.scopes.length := by
        obtain ⟨_, dg, _, _⟩ := defineRule_spec (D := D ++ survive st c []) (d := ⟨id, how, body, (w.override f i).env⟩) (G := Ga)
          ⟨g2, fun s hs => pa.chainB s hs, pa.isDef, by simpa using pa.ov, pa.hG, pa.opn⟩ ta ha2
        exact dg.scopes
      have e := named_overrides hP hcp hw hin hop (fun j hj => hi j (by simp [hj])) h2 (p1.pre h0) ho
        (Nat.lt_of_lt_of_le hl p1.grow.ovsLen) t1
      exact ((a.trans gra.scopes b).trans gra.scopes d).trans (Nat.le_trans gra.scopes hs1) e

theorem named_include {cp ci} (hP : PSpec F x cp) (hI : ISpec F x ci) (hcp : PNamed F x cp) (hci : INamed F x ci) {w : Where}
    (hw : c.Fits w) {lit : Str} {i : Option Str} {os : List SOverride} {D : List Defn} {is : List SItem}
    (hm : .include lit i os ∈ is) (h : compileInclude F cp ci c lit i os st = .ok ((), st')) (h0 : DefPre F x st G c D) :
    Named F c (.items w is) st st' := by
  have ha := hw.env
  obtain ⟨path, _, h1, h⟩ := CM.bind_ok h
  obtain ⟨hp, rfl⟩ := CM.lift_ok h1
  obtain ⟨s, st1, h2, h⟩ := CM.bind_ok h
  obtain ⟨hs, g1, gr1, _⟩ := getSchema_spec h0.good (CM.inInclude_ok h2)
  obtain ⟨inc, st2, h3, h⟩ := CM.bind_ok h
  obtain ⟨rfl, g2, gr2, hol, hov⟩ := newInclude_spec g1 h3
  obtain ⟨inc', _, h4, h⟩ := CM.bind_ok h
  obtain ⟨h4', rfl⟩ := CM.lift_ok h4
  obtain ⟨ns, rfl, hns⟩ := inheritCtx_spec ha h4'
  obtain ⟨_, st3, h5, h⟩ := CM.bind_ok h
  obtain ⟨_, st4, h6, h⟩ := CM.bind_ok h
  dsimp only at h
  have hj := includePath_spec ha hp
  have gr12 := gr1.trans g1.toWFS gr2
  have hoc : c.OvOK st1.overrides.length := h0.ov.mono gr1.ovsLen
  have p0 := DefPost.nil (ovs := st1.overrides.length :: c.ovPath) h0 g2 gr12
  have ho2 : st1.overrides.length < st2.overrides.length := by omega
  have ht2 : TableIs st2 st1.overrides.length [] := fun id => by rw [hov]; rfl
  obtain ⟨G3, p1, t3⟩ := compileOverrides_spec hP (overrides_agrees ha hns) h5 (p0.pre h0) hoc ho2 ht2
  have n1 : Named F c (.items w is) st st1 := named_getSchema (CM.inInclude_ok h2)
  have n2 : Named F c (.items w is) st1 st2 := named_newInclude h3
  have n3 : Named F c (.items w is) st2 st3 := named_overrides hP hcp (hw.override path st1.overrides.length hns)
    (fun id how body hm' => .override hm hj hm') (fun _ _ h => h) (fun _ h => h) h5 (p0.pre h0) hoc ho2 ht2
  have p01 := p0.trans p1
  have p01' := p01.pre h0
  obtain ⟨c1, st5, h7, h8⟩ := CM.bind_ok (CM.inInclude_ok h6)
  obtain ⟨h7', rfl⟩ := CM.lift_ok h7
  have n4 : Named F c (.items w is) st3 st4 := by
    cases compileDeclarations_incl h7' with
    | incl a b =>
      rename_i ns' dts'
      have hcs : (SCtx.incl c path st1.overrides.length ns' dts').Fits (w.included path i s.decls) :=
        hw.included _ _ (a.trans hns.append) b
      have : ∃ is, s.Grammar is ∧ compileContents ci (SCtx.incl c path st1.overrides.length ns' dts') is st3 = .ok ((), st4) := by
        obtain ⟨decls, body⟩ := s
        cases body with
        | grammar items => exact ⟨items, .grammar, h8⟩
        | pattern p =>
          cases p with
          | grammar items => exact ⟨items, .pattern, h8⟩
          | _ => cases h8
      obtain ⟨is', hg, hc⟩ := this
      have h0i : DefPre F x st3 G3 (.incl c path st1.overrides.length ns' dts') _ :=
        ⟨p01'.good, p01'.chainB, p01'.isDef, ⟨Nat.lt_of_lt_of_le ho2 p1.grow.ovsLen, hoc⟩, p01'.hG, p01'.opn⟩
      exact (named_contents hI hci hcs (fun _ h => h) hc h0i).up (.included hm hj hs hg) (fun h => h) rfl
  have n5 : Named F c (.items w is) st4 st' := by
    unfold checkOvs at h
    split at h
    · cases h; exact .refl
    · cases h
  have hsc := p01.grow.scopes
  have hsc4 : st3.scopes.length ≤ st4.scopes.length := by
    have h0i : DefPre F x st3 G3 (.incl c path st1.overrides.length ns [("xsd".toList, xsdUri)]) _ :=
      ⟨p01'.good, p01'.chainB, p01'.isDef, ⟨Nat.lt_of_lt_of_le ho2 p1.grow.ovsLen, hoc⟩, p01'.hG, p01'.opn⟩
    obtain ⟨G4, items, ds, hg, hex, p2⟩ := compileSchema_incl_spec hI ha hns (CM.inInclude_ok h6) h0i
    exact p2.grow.scopes
  exact (((n1.trans gr1.scopes n2).trans gr12.scopes n3).trans hsc n4).trans (by omega) n5

theorem DefPre.child {st1 : CState} {c child : SCtx} (g : GoodS F x st G) (hc : ∀ s ∈ c.chain, s < st.scopes.length)
    (h1 : newGrammar c st = .ok (child, st1)) : DefPre F x st1 G (.grammar c st.scopes.length) [] := by
  obtain ⟨rfl, g1, gr1, hl, hlook⟩ := newGrammar_spec g h1
  refine ⟨g1, fun s hs => ?_, trivial, trivial, fun ss ds hg => Nat.lt_irrefl _ (g.gb _ _ _ hg), fun id => ⟨?_, fun _ => rfl⟩⟩
  · simp only [SCtx.chain, List.mem_cons] at hs
    rcases hs with rfl | hs
    · omega
    · have := hc s hs; omega
  · intro k r hk; simp only [SCtx.cur] at hk; rw [hlook] at hk; cases hk

/-- in a new grammar: what the names without definition are -/
theorem blank_child {ci} (hI : ISpec F x ci) (hci : INamed F x ci) {w : Where} (hw : c.Fits w) {items : List SItem}
    {stc : CState} {child : SCtx} (g : GoodS F x st G) (hc : ∀ s ∈ c.chain, s < st.scopes.length)
    (h1 : newGrammar c st = .ok (child, st1)) (h2 : compileContents ci child items st1 = .ok ((), stc)) :
    (∀ id, Blank stc st.scopes.length id → Refers F 0 (.items w.grammar items) id) ∧
    (∀ s id, s < st.scopes.length → Blank stc s id → Blank st s id ∨ ∃ d, c.chain[d]? = some s ∧ Refers F (d + 1) (.items w.grammar items) id) := by
  have h0 := DefPre.child g hc h1
  obtain ⟨rfl, g1, gr1, hl, hlook⟩ := newGrammar_spec g h1
  have n := named_contents hI hci (hw.grammar st.scopes.length) (fun _ h => h) h2 h0
  have hb1 : ∀ s id, Blank st1 s id → Blank st s id := by
    intro s id hb
    unfold newGrammar at h1
    cases h1
    exact blank_newScope hb
  constructor
  · intro id hb
    rcases n _ id (by omega) hb with ⟨k, a, _⟩ | ⟨d, hd, hr⟩
    · rw [hlook] at a; cases a
    · cases d with
      | zero => exact hr
      | succ d =>
        simp only [SCtx.chain, List.getElem?_cons_succ] at hd
        have := hc _ (List.mem_of_getElem? hd)
        omega
  · intro s id hs hb
    rcases n s id (by omega) hb with h | ⟨d, hd, hr⟩
    · exact .inl (hb1 _ _ h)
    · cases d with
      | zero =>
        simp only [SCtx.chain, List.getElem?_cons_zero, Option.some.injEq] at hd
        omega
      | succ d =>
        simp only [SCtx.chain, List.getElem?_cons_succ] at hd
        exact .inr ⟨d, hd, hr⟩

theorem named_grammar {ci} (hI : ISpec F x ci) (hci : INamed F x ci) {w : Where} (hw : c.Fits w) {p : SPattern} {items : List SItem}
    {stc : CState} {child : SCtx} {q : MPattern} (g : GoodS F x st G) (hc : ∀ s ∈ c.chain, s < st.scopes.length)
    (hin : Within F (.pat w p) (.items w.grammar items))
    (h1 : newGrammar c st = .ok (child, st1)) (h2 : compileContents ci child items st1 = .ok ((), stc))
    (h3 : takeStart st.scopes.length stc = .ok (q, st')) : Named F c (.pat w p) st st' := by
  have h0 := DefPre.child g hc h1
  have hb := (blank_child hI hci hw g hc h1 h2).2
  obtain ⟨rfl, g1, gr1, hl, hlook⟩ := newGrammar_spec g h1
  obtain ⟨G2, ds, hex, pp⟩ := compileContents_spec hI (hw.grammar st.scopes.length).env h2 h0
  rintro s id hs ⟨k, a, b⟩
  unfold takeStart at h3
  split at h3
  · cases h3
  · rename_i k0 hk0
    have hk0' : stc.look st.scopes.length "start".toList = some k0 := hk0
    split at h3
    · cases h3
    · cases h3
      have a' : stc.look s id = some k := a
      rw [cell_set (pp.good.bound _ _ _ hk0')] at b
      split at b
      · rename_i e
        subst e
        have := (pp.good.inj _ _ _ _ _ a' hk0').1
        omega
      · rcases hb s id hs ⟨k, a', b⟩ with h | ⟨d, hd, hr⟩
        · exact .inl h
        · exact .inr ⟨d, hd, .deeper hin trivial hr⟩

theorem named_external {cp ci} (hcp : PNamed F x cp) (hI : ISpec F x ci) (hci : INamed F x ci) {w : Where} (hw : c.Fits w)
    {lit : Str} {i : Option Str} {q : MPattern} (g : GoodS F x st G) (hc : ∀ s ∈ c.chain, s < st.scopes.length)
    (h : compileExternal F cp ci c lit i st = .ok (q, st')) : Named F c (.pat w (.external lit i)) st st' := by
  have ha := hw.env
  cases i with
  | some _ => cases h
  | none =>
    obtain ⟨path, _, h1, h⟩ := CM.bind_ok h
    obtain ⟨hp, rfl⟩ := CM.lift_ok h1
    obtain ⟨s, st1, h2, h⟩ := CM.bind_ok h
    obtain ⟨hs, g1, gr1, _⟩ := getSchema_spec g (CM.inInclude_ok h2)
    obtain ⟨inc, st2, h3, h⟩ := CM.bind_ok h
    obtain ⟨rfl, g2, gr2, _, _⟩ := newInclude_spec g1 h3
    have gr12 := gr1.trans g1.toWFS gr2
    have hc2 : ∀ s ∈ c.chain, s < st2.scopes.length := fun s hs => Nat.lt_of_lt_of_le (hc s hs) gr12.scopes
    have n1 : Named F c (.pat w (.external lit none)) st st1 := named_getSchema (CM.inInclude_ok h2)
    have n2 : Named F c (.pat w (.external lit none)) st1 st2 := named_newInclude h3
    refine (n1.trans gr1.scopes n2).trans gr12.scopes ?_
    obtain ⟨decls, body⟩ := s
    cases body with
    | pattern p =>
      exact (hcp _ _ _ _ _ _ G (CM.inInclude_ok h) g2 hc2 (hw.external path st1.overrides.length)).up
        (.externalPattern (includePath_spec ha hp) hs rfl) (fun h => h) rfl
    | grammar items =>
      obtain ⟨child, st3, h4, h⟩ := CM.bind_ok h
      obtain ⟨_, stc, h5, h⟩ := CM.bind_ok h
      have h4' := h4
      obtain ⟨rfl, _⟩ := newGrammar_spec g2 h4
      obtain ⟨_, _, h6, h⟩ := CM.bind_ok h
      unfold checkScope at h6
      split at h6
      · cases h6
        exact named_grammar hI hci hw g2 hc2 (.externalGrammar (includePath_spec ha hp) hs rfl) h4' h5 h
      · cases h6

theorem getElem?_cur (c : SCtx) : c.chain[0]? = some c.cur := by rw [SCtx.chain_eq]; rfl

theorem named_parent {id : Str} {k : Nat} {w : Where} (g : GoodS F x st G) : ∀ {c : SCtx},
    (∀ s ∈ c.chain, s < st.scopes.length) → c.acquireParentRef id st = .ok (k, st') →
    Named F c (.pat w (.parent id)) st st'
  | .root _ _ _ _, _, h => nomatch h
  | .incl p _ _ _ _, hs, h => named_parent (c := p) g hs h
  | .inclOverrides p, hs, h => named_parent (c := p) g hs h
  | .define p _, hs, h => named_parent (c := p) g hs h
  | .element p, hs, h => named_parent (c := p) g hs h
  | .attribute p, hs, h => named_parent (c := p) g hs h
  | .grammar p s, hs, h => by
    obtain ⟨_, _, h1, h2⟩ := CM.bind_ok h
    obtain ⟨_, rfl⟩ := CM.lift_ok h1
    rw [acquireRefImpl_eq] at h2
    exact named_acquireIn (n := 1) (hs _ (by simp [SCtx.chain, SCtx.chain_eq p])) g.toWFS
      (by simp [SCtx.chain, SCtx.chain_eq p]) .parent h2

theorem named_compile : ∀ n, PNamed F x (compilePattern F x n) ∧ INamed F x (compileItem F x n)
  | 0 => ⟨fun _ _ _ _ _ _ _ h => (nomatch h), fun _ _ _ _ _ _ _ _ _ h => (nomatch h)⟩
  | n + 1 => by
    obtain ⟨hP, hI⟩ := compile_spec (F := F) (x := x) n
    obtain ⟨hcp, hci⟩ := named_compile n
    constructor
    · intro c p st q st' w G h g hc hw
      cases p with
      | element nc p =>
        obtain ⟨nc', _, h1, h⟩ := CM.bind_ok h
        obtain ⟨hn, rfl⟩ := CM.lift_ok h1
        split at h
        · cases h
        · obtain ⟨q', st1, h2, h⟩ := CM.bind_ok h
          obtain ⟨rfl, rfl⟩ := CM.pure_ok h
          exact (hcp _ _ _ _ _ _ G h2 g hc hw.element).up .element (fun h => h) rfl
      | «attribute» nc p =>
        obtain ⟨nc', _, h1, h⟩ := CM.bind_ok h
        obtain ⟨hn, rfl⟩ := CM.lift_ok h1
        obtain ⟨q', st1, h2, h⟩ := CM.bind_ok h
        obtain ⟨rfl, rfl⟩ := CM.pure_ok h
        exact (hcp _ _ _ _ _ _ G h2 g hc hw.attribute).up .attribute (fun h => h) rfl
      | list p =>
        obtain ⟨q', st1, h2, h⟩ := CM.bind_ok h
        obtain ⟨rfl, rfl⟩ := CM.pure_ok h
        exact (hcp _ _ _ _ _ _ G h2 g hc hw).up .list (fun h => h) rfl
      | mixed p =>
        obtain ⟨q', st1, h2, h⟩ := CM.bind_ok h
        obtain ⟨rfl, rfl⟩ := CM.pure_ok h
        exact (hcp _ _ _ _ _ _ G h2 g hc hw).up .mixed (fun h => h) rfl
      | ident id =>
        obtain ⟨k, st1, h2, h⟩ := CM.bind_ok h
        obtain ⟨rfl, rfl⟩ := CM.pure_ok h
        obtain ⟨_, _, h1, h2⟩ := CM.bind_ok h2
        obtain ⟨_, rfl⟩ := CM.lift_ok h1
        rw [acquireRefImpl_eq] at h2
        exact named_acquireIn (n := 0) (hc _ (by rw [SCtx.chain_eq]; simp)) g.toWFS (getElem?_cur c) .ident h2
      | parent id =>
        obtain ⟨k, st1, h2, h⟩ := CM.bind_ok h
        obtain ⟨rfl, rfl⟩ := CM.pure_ok h
        exact named_parent g hc h2
      | empty => cases h; exact .refl
      | text => cases h; exact .refl
      | notAllowed => cases h; exact .refl
      | external path i => exact named_external hcp hI hci hw g hc h
      | grammar items =>
        obtain ⟨child, st1, h1, h⟩ := CM.bind_ok h
        obtain ⟨_, stc, h2, h⟩ := CM.bind_ok h
        have h1' := h1
        obtain ⟨rfl, _⟩ := newGrammar_spec g h1
        exact named_grammar hI hci hw g hc .grammar h1' h2 h
      | paren p => exact (hcp _ _ _ _ _ _ G h g hc hw).up .paren (fun h => h) rfl
      | seq p1 p2 =>
        obtain ⟨q1, st1, h1, h⟩ := CM.bind_ok h
        obtain ⟨q2, st2, h2, h⟩ := CM.bind_ok h
        obtain ⟨rfl, rfl⟩ := CM.pure_ok h
        obtain ⟨G1, g1, gr1, _⟩ := hP _ _ _ _ _ w.env G h1 g hc hw.env
        exact ((hcp _ _ _ _ _ _ G h1 g hc hw).up .seqLeft (fun h => h) rfl).trans gr1.scopes
          ((hcp _ _ _ _ _ _ G1 h2 g1 (fun s hs => Nat.lt_of_lt_of_le (hc s hs) gr1.scopes) hw).up .seqRight (fun h => h) rfl)
      | inter p1 p2 =>
        obtain ⟨q1, st1, h1, h⟩ := CM.bind_ok h
        obtain ⟨q2, st2, h2, h⟩ := CM.bind_ok h
        obtain ⟨rfl, rfl⟩ := CM.pure_ok h
        obtain ⟨G1, g1, gr1, _⟩ := hP _ _ _ _ _ w.env G h1 g hc hw.env
        exact ((hcp _ _ _ _ _ _ G h1 g hc hw).up .interLeft (fun h => h) rfl).trans gr1.scopes
          ((hcp _ _ _ _ _ _ G1 h2 g1 (fun s hs => Nat.lt_of_lt_of_le (hc s hs) gr1.scopes) hw).up .interRight (fun h => h) rfl)
      | choice p1 p2 =>
        obtain ⟨q1, st1, h1, h⟩ := CM.bind_ok h
        obtain ⟨q2, st2, h2, h⟩ := CM.bind_ok h
        obtain ⟨rfl, rfl⟩ := CM.pure_ok h
        obtain ⟨G1, g1, gr1, _⟩ := hP _ _ _ _ _ w.env G h1 g hc hw.env
        exact ((hcp _ _ _ _ _ _ G h1 g hc hw).up .choiceLeft (fun h => h) rfl).trans gr1.scopes
          ((hcp _ _ _ _ _ _ G1 h2 g1 (fun s hs => Nat.lt_of_lt_of_le (hc s hs) gr1.scopes) hw).up .choiceRight (fun h => h) rfl)
      | optional p =>
        obtain ⟨q', st1, h2, h⟩ := CM.bind_ok h
        obtain ⟨rfl, rfl⟩ := CM.pure_ok h
        exact (hcp _ _ _ _ _ _ G h2 g hc hw).up .optional (fun h => h) rfl
      | zeroOrMore p =>
        obtain ⟨q', st1, h2, h⟩ := CM.bind_ok h
        obtain ⟨rfl, rfl⟩ := CM.pure_ok h
        exact (hcp _ _ _ _ _ _ G h2 g hc hw).up .zeroOrMore (fun h => h) rfl
      | oneOrMore p =>
        obtain ⟨q', st1, h2, h⟩ := CM.bind_ok h
        obtain ⟨rfl, rfl⟩ := CM.pure_ok h
        exact (hcp _ _ _ _ _ _ G h2 g hc hw).up .oneOrMore (fun h => h) rfl
      | value ty lit =>
        obtain ⟨nm, _, h1, h⟩ := CM.bind_ok h
        obtain ⟨hn, rfl⟩ := CM.lift_ok h1
        obtain ⟨v, _, h2, h⟩ := CM.bind_ok h
        obtain ⟨hv, rfl⟩ := CM.lift_ok h2
        obtain ⟨rfl, rfl⟩ := CM.pure_ok h
        exact .refl
      | data ty ps =>
        obtain ⟨nm, _, h1, h⟩ := CM.bind_ok h
        obtain ⟨hn, rfl⟩ := CM.lift_ok h1
        obtain ⟨v, _, h2, h⟩ := CM.bind_ok h
        obtain ⟨hv, rfl⟩ := CM.lift_ok h2
        obtain ⟨rfl, rfl⟩ := CM.pure_ok h
        exact .refl
      | dataExcept ty ps ex =>
        obtain ⟨nm, _, h1, h⟩ := CM.bind_ok h
        obtain ⟨hn, rfl⟩ := CM.lift_ok h1
        obtain ⟨v, _, h2, h⟩ := CM.bind_ok h
        obtain ⟨hv, rfl⟩ := CM.lift_ok h2
        obtain ⟨q', st1, h3, h⟩ := CM.bind_ok h
        obtain ⟨rfl, rfl⟩ := CM.pure_ok h
        exact (hcp _ _ _ _ _ _ G h3 g hc hw).up .except (fun h => h) rfl
    · intro c i is st st' w G D hm h h0 hw
      cases i with
      | define id how body => exact named_define hP hcp hw (.define hm) (fun h => h) h h0
      | div items => exact (named_contents hI hci hw (fun _ h => h) h h0).up (.div hm) (fun h => h) rfl
      | «include» path i os => exact named_include hP hI hcp hci hw hm h h0
      | «annotation» => cases h; exact .refl

end Verif
