import Verif.Proof.SchemaFails
import Verif.Props.SchemaFaults
/-
The converse of `Proof/SchemaFails.lean`: a schema with a fault does not compile.
-/
namespace Verif
variable {F : Files} {x : Ext}

/-! ### scopes only grow -/

/-- every name of every grammar stays where it is -/
structure Later (st st' : CState) : Prop where
  len : st.scopes.length ≤ st'.scopes.length
  look : ∀ s id k, st.look s id = some k → st'.look s id = some k

theorem Later.refl (st : CState) : Later st st := ⟨Nat.le_refl _, fun _ _ _ h => h⟩
theorem Later.trans {a b c : CState} (h : Later a b) (h' : Later b c) : Later a c :=
  ⟨Nat.le_trans h.len h'.len, fun s id k hk => h'.look s id k (h.look s id k hk)⟩
theorem Later.same {st st' : CState} (h : st'.scopes = st.scopes) : Later st st' :=
  ⟨by rw [h]; exact Nat.le_refl _, fun s id k hk => by unfold CState.look CState.refs at *; rw [h]; exact hk⟩

def Adds {α : Type} (m : CM α) : Prop := ∀ st a st', m st = .ok (a, st') → Later st st'

theorem Adds.bind {α β : Type} {m : CM α} {f : α → CM β} (h : Adds m) (hf : ∀ a, Adds (f a)) : Adds (m >>= f) := by
  intro st a st' h'
  obtain ⟨b, st1, h1, h2⟩ := CM.bind_ok h'
  exact (h _ _ _ h1).trans (hf b _ _ _ h2)

theorem Adds.pure {α : Type} (a : α) : Adds (pure a : CM α) := by
  intro st b st' h
  obtain ⟨_, rfl⟩ := CM.pure_ok h
  exact .refl _

theorem Adds.lift {α : Type} (e : Except CFault α) : Adds (CM.lift e) := by
  intro st b st' h
  obtain ⟨_, rfl⟩ := CM.lift_ok h
  exact .refl _

theorem Adds.fail {α : Type} (e : CFault) : Adds (CM.fail e : CM α) := by
  intro st b st' h; cases h

theorem Adds.inInclude {α : Type} {m : CM α} (h : Adds m) : Adds m.inInclude :=
  fun st a st' h' => h st a st' (CM.inInclude_ok h')

theorem Adds.same {α : Type} {m : CM α} (h : ∀ st a st', m st = .ok (a, st') → st'.scopes = st.scopes) : Adds m :=
  fun st a st' h' => .same (h st a st' h')

theorem adds_getSchema (name : Str) : Adds (getSchema F name) := .same fun st a st' h => by
  unfold getSchema at h
  split at h
  · cases h; rfl
  · split at h
    · cases h; rfl
    · cases h

theorem later_addCell {st : CState} {s : Nat} {id : Str} {r : Option DefineRule} (hn : (st.refs s).lookup id = none) :
    Later st (st.addCell s id r) := by
  refine ⟨by simp [CState.addCell], fun s' id' k hk => ?_⟩
  by_cases hs : s < st.scopes.length
  · rw [look_addCell hs, if_neg]
    · exact hk
    · rintro ⟨rfl, rfl⟩
      rw [show st.look s' id' = none from hn] at hk; cases hk
  · rw [← hk]
    unfold CState.look CState.refs CState.addCell
    simp only [List.getD_eq_getElem?_getD]
    rw [List.set_eq_of_length_le (by omega)]

theorem adds_defineIn (s : Nat) (id : Str) (r : DefineRule) : Adds (defineIn s id r) := by
  intro st a st' h
  unfold defineIn at h
  split at h
  · split at h
    · cases h; exact .same rfl
    · cases h
  · rename_i hn
    cases h; exact later_addCell hn

theorem adds_defineRule : ∀ (c : SCtx) (id : Str) (r : DefineRule), Adds (c.defineRule id r)
  | .root _ s _ _, id, r => by rw [defineRule_root]; exact adds_defineIn s id r
  | .grammar _ s, id, r => by rw [defineRule_grammar]; exact adds_defineIn s id r
  | .incl p f o ns dts, id, r => by
    intro st a st' h
    rw [defineRule_incl] at h
    dsimp only at h
    split at h
    · cases h; exact .same rfl
    · exact adds_defineRule p id r _ _ _ h
  | .inclOverrides (.incl p f o ns dts), id, r => by
    intro st a st' h
    rw [defineRule_inclOverrides] at h
    dsimp only at h
    split at h
    · cases h
    · exact Later.trans (Later.same (st' := { st with overrides := st.overrides.set o ((id, false) :: st.ov o) }) rfl) (adds_defineRule p id r _ _ _ h)
  | .inclOverrides (.root ..), _, _ => .fail _
  | .inclOverrides (.grammar ..), _, _ => .fail _
  | .inclOverrides (.inclOverrides ..), _, _ => .fail _
  | .inclOverrides (.define ..), _, _ => .fail _
  | .inclOverrides (.element ..), _, _ => .fail _
  | .inclOverrides (.attribute ..), _, _ => .fail _
  | .define _ _, _, _ => .fail _
  | .element _, _, _ => .fail _
  | .attribute _, _, _ => .fail _

theorem adds_acquireIn (s : Nat) (id : Str) : Adds (SCtx.acquireRefImpl.acquireIn s id) := fun st a st' h => by
  unfold SCtx.acquireRefImpl.acquireIn at h
  split at h
  · cases h; exact .refl _
  · rename_i hn
    cases h; exact later_addCell hn

theorem adds_acquireRefImpl : ∀ (c : SCtx) (id : Str), Adds (c.acquireRefImpl id)
  | .root _ s _ _, id => adds_acquireIn s id
  | .grammar _ s, id => adds_acquireIn s id
  | .incl p _ _ _ _, id => adds_acquireRefImpl p id
  | .inclOverrides p, id => adds_acquireRefImpl p id
  | .define p _, id => adds_acquireRefImpl p id
  | .element p, id => adds_acquireRefImpl p id
  | .attribute p, id => adds_acquireRefImpl p id

theorem adds_acquireRef (c : SCtx) (id : Str) : Adds (c.acquireRef id) :=
  (Adds.lift _).bind fun _ => adds_acquireRefImpl c id

theorem adds_acquireParentRef : ∀ (c : SCtx) (id : Str), Adds (c.acquireParentRef id)
  | .root _ _ _ _, _ => .fail _
  | .grammar p _, id => adds_acquireRef p id
  | .incl p _ _ _ _, id => adds_acquireParentRef p id
  | .inclOverrides p, id => adds_acquireParentRef p id
  | .define p _, id => adds_acquireParentRef p id
  | .element p, id => adds_acquireParentRef p id
  | .attribute p, id => adds_acquireParentRef p id

theorem adds_newInclude (c : SCtx) (f : Str) : Adds (newInclude c f) := .same fun st a st' h => by
  unfold newInclude at h
  split at h
  · cases h
  · cases h; rfl

theorem later_push {st : CState} : Later st { st with scopes := st.scopes ++ [[]] } := by
  refine ⟨by simp, fun s id k hk => ?_⟩
  rw [← hk]
  unfold CState.look CState.refs
  simp only [List.getD_eq_getElem?_getD, List.getElem?_append]
  split
  · rfl
  · rename_i hs
    rw [List.getElem?_eq_none (l := st.scopes) (by omega)]
    cases s - st.scopes.length <;> simp

theorem adds_newGrammar (c : SCtx) : Adds (newGrammar c) := fun st a st' h => by
  unfold newGrammar at h; cases h; exact later_push

theorem adds_takeStart (s : Nat) : Adds (takeStart s) := .same fun st a st' h => by
  unfold takeStart at h
  split at h
  · cases h
  · split at h
    · cases h
    · cases h; rfl

theorem adds_checkScope (s : Nat) : Adds (checkScope s) := .same fun st a st' h => by
  unfold checkScope at h
  split at h
  · cases h; rfl
  · cases h

theorem adds_checkOvs (s : Nat) : Adds (checkOvs s) := .same fun st a st' h => by
  unfold checkOvs at h
  split at h
  · cases h; rfl
  · cases h

section
variable {cp : SCtx → SPattern → CM MPattern} {ci : SCtx → SItem → CM Unit}
  (hcp : ∀ c p, Adds (cp c p)) (hci : ∀ c i, Adds (ci c i))
include hcp
theorem adds_compileDefine (c : SCtx) (id : Str) (how : AssignMethod) (p : SPattern) : Adds (compileDefine cp c id how p) :=
  (hcp _ _).bind fun _ => adds_defineRule c id _

theorem adds_compileOverrides (c : SCtx) : ∀ os, Adds (compileOverrides cp c os)
  | [] => .pure _
  | .define id how body :: os =>
    Adds.bind (m := (compileDefine cp c id how body).inInclude) (adds_compileDefine hcp c id how body).inInclude
      fun _ => adds_compileOverrides c os
  | .div :: os => Adds.bind (m := CM.fail (.panic .includeDiv)) (.fail _) fun _ => adds_compileOverrides c os
  | .annotation :: os => adds_compileOverrides c os

include hci
omit hcp in
theorem adds_compileContents (c : SCtx) : ∀ is, Adds (compileContents ci c is)
  | [] => .pure _
  | i :: is => (hci c i).bind fun _ => adds_compileContents c is

theorem adds_compileSchema (c : SCtx) (s : SSchema) : Adds (compileSchema cp ci c s) := by
  refine (Adds.lift _).bind fun c => ?_
  obtain ⟨ds, body⟩ := s
  cases body with
  | grammar is => exact adds_compileContents hci c is
  | pattern p =>
    cases c with
    | incl =>
      cases p with
      | grammar is => exact adds_compileContents hci _ is
      | _ => exact .fail _
    | _ => exact (hcp _ _).bind fun _ => adds_defineRule _ _ _

theorem adds_compileInclude (c : SCtx) (lit : Str) (i : Option Str) (os : List SOverride) : Adds (compileInclude F cp ci c lit i os) := by
  refine (Adds.lift _).bind fun path => (adds_getSchema path).inInclude.bind fun s => (adds_newInclude _ _).bind fun inc =>
    (Adds.lift _).bind fun inc => (adds_compileOverrides hcp _ os).bind fun _ => (adds_compileSchema hcp hci inc s).inInclude.bind fun _ => ?_
  cases inc with
  | incl _ _ o _ _ => exact adds_checkOvs o
  | _ => exact .fail _

theorem adds_compileExternal (c : SCtx) (lit : Str) (i : Option Str) : Adds (compileExternal F cp ci c lit i) := by
  cases i with
  | some _ => exact .fail _
  | none =>
    refine (Adds.lift _).bind fun path => (adds_getSchema path).inInclude.bind fun s => (adds_newInclude _ _).bind fun inc => ?_
    obtain ⟨ds, body⟩ := s
    cases body with
    | pattern p => exact (hcp _ _).inInclude
    | grammar is =>
      refine (adds_newGrammar _).bind fun ch => (adds_compileContents hci ch is).bind fun _ => ?_
      cases ch with
      | grammar _ s => exact (adds_checkScope s).bind fun _ => adds_takeStart s
      | _ => exact .fail _

omit hcp in
theorem adds_compileGrammarPattern (c : SCtx) (is : List SItem) : Adds (compileGrammarPattern ci c is) := by
  refine (adds_newGrammar _).bind fun ch => (adds_compileContents hci ch is).bind fun _ => ?_
  cases ch with
  | grammar _ s => exact adds_takeStart s
  | _ => exact .fail _
end

theorem adds_compile : ∀ n, (∀ c p, Adds (compilePattern F x n c p)) ∧ ∀ c i, Adds (compileItem F x n c i)
  | 0 => ⟨fun _ _ => .fail _, fun _ _ => .fail _⟩
  | n + 1 => by
    obtain ⟨hcp, hci⟩ := adds_compile n
    constructor
    · intro c p
      cases p with
      | element nc p =>
        refine (Adds.lift _).bind fun nc => ?_
        split
        · exact .fail _
        · exact (hcp _ _).bind fun _ => .pure _
      | «attribute» nc p => exact (Adds.lift _).bind fun _ => (hcp _ _).bind fun _ => .pure _
      | list p => exact (hcp _ _).bind fun _ => .pure _
      | mixed p => exact (hcp _ _).bind fun _ => .pure _
      | ident id => exact (adds_acquireRef c id).bind fun _ => .pure _
      | parent id => exact (adds_acquireParentRef c id).bind fun _ => .pure _
      | empty => exact .pure _
      | text => exact .pure _
      | notAllowed => exact .pure _
      | external path i => exact adds_compileExternal hcp hci c path i
      | grammar items => exact adds_compileGrammarPattern hci c items
      | paren p => exact hcp c p
      | seq p1 p2 => exact (hcp _ _).bind fun _ => (hcp _ _).bind fun _ => .pure _
      | inter p1 p2 => exact (hcp _ _).bind fun _ => (hcp _ _).bind fun _ => .pure _
      | choice p1 p2 => exact (hcp _ _).bind fun _ => (hcp _ _).bind fun _ => .pure _
      | optional p => exact (hcp _ _).bind fun _ => .pure _
      | zeroOrMore p => exact (hcp _ _).bind fun _ => .pure _
      | oneOrMore p => exact (hcp _ _).bind fun _ => .pure _
      | value ty lit => exact (Adds.lift _).bind fun _ => (Adds.lift _).bind fun _ => .pure _
      | data ty ps => exact (Adds.lift _).bind fun _ => (Adds.lift _).bind fun _ => .pure _
      | dataExcept ty ps ex => exact (Adds.lift _).bind fun _ => (Adds.lift _).bind fun _ => (hcp _ _).bind fun _ => .pure _
    · intro c i
      cases i with
      | define id how body => exact adds_compileDefine hcp c id how body
      | div items => exact adds_compileContents hci c items
      | «include» path i os => exact adds_compileInclude hcp hci c path i os
      | «annotation» => exact .pure _

/-! ### a run through a place, and what it leaves behind -/

/-- the compiler got through this place, in the scopes `ss`, on the way to the state `fin` -/
def Ran (F : Files) (x : Ext) (fin : CState) (ss : List Nat) : Place → Prop
  | .pat w p => ∃ n c st q st', c.Fits w ∧ Faithful F st.loaded ∧ c.chain = ss ∧ (∀ s ∈ c.chain, s < st.scopes.length) ∧
      compilePattern F x n c p st = .ok (q, st') ∧ Later st' fin
  | .items w is => ∃ n c st st', c.Fits w ∧ Faithful F st.loaded ∧ c.chain = ss ∧ (∀ s ∈ c.chain, s < st.scopes.length) ∧
      compileContents (compileItem F x n) c is st = .ok ((), st') ∧ Later st' fin

theorem contents_ran {ci : SCtx → SItem → CM Unit} (hci : ∀ c i, Keeps F (ci c i)) (hca : ∀ c i, Adds (ci c i)) {c : SCtx} {i : SItem} :
    ∀ {is : List SItem} {st st' : CState}, Faithful F st.loaded → compileContents ci c is st = .ok ((), st') → i ∈ is →
    ∃ st1 st2, Faithful F st1.loaded ∧ Later st st1 ∧ ci c i st1 = .ok ((), st2) ∧ Later st2 st'
  | [], _, _, _, _, h => nomatch h
  | j :: is, st, st', hs, h, hi => by
    obtain ⟨_, st1, h1, h2⟩ := CM.bind_ok h
    rcases List.mem_cons.mp hi with rfl | hi
    · exact ⟨st, st1, hs, .refl _, h1, adds_compileContents hca _ _ _ _ _ h2⟩
    · obtain ⟨a, b, c', d, e, f⟩ := contents_ran hci hca (hci _ _ _ _ _ hs h1) h2 hi
      exact ⟨a, b, c', (hca _ _ _ _ _ h1).trans d, e, f⟩

theorem overrides_ran {cp : SCtx → SPattern → CM MPattern} (hcp : ∀ c p, Keeps F (cp c p)) (hca : ∀ c p, Adds (cp c p))
    {c : SCtx} {id : Str} {how : AssignMethod} {p : SPattern} :
    ∀ {os : List SOverride} {st st' : CState}, Faithful F st.loaded → compileOverrides cp c os st = .ok ((), st') → .define id how p ∈ os →
    ∃ st1 st2, Faithful F st1.loaded ∧ Later st st1 ∧ compileDefine cp c id how p st1 = .ok ((), st2) ∧ Later st2 st'
  | [], _, _, _, _, h => nomatch h
  | .define id' how' p' :: os, st, st', hs, h, hi => by
    obtain ⟨_, st1, h1, h2⟩ := CM.bind_ok h
    have h1 := CM.inInclude_ok h1
    rcases List.mem_cons.mp hi with he | hi
    · cases he; exact ⟨st, st1, hs, .refl _, h1, adds_compileOverrides hca _ _ _ _ _ h2⟩
    · obtain ⟨a, b, c', d, e, f⟩ := overrides_ran hcp hca (keeps_compileDefine hcp _ _ _ _ _ _ _ hs h1) h2 hi
      exact ⟨a, b, c', (adds_compileDefine hca _ _ _ _ _ _ _ h1).trans d, e, f⟩
  | .div :: os, st, st', hs, h, hi => by
    obtain ⟨_, st1, h1, h2⟩ := CM.bind_ok h
    cases h1
  | .annotation :: os, st, st', hs, h, hi => by
    rcases List.mem_cons.mp hi with he | hi
    · cases he
    · exact overrides_ran (os := os) hcp hca hs h hi

theorem include_ran {cp : SCtx → SPattern → CM MPattern} {ci : SCtx → SItem → CM Unit} (hcp : ∀ c p, Keeps F (cp c p))
    (hca : ∀ c p, Adds (cp c p)) (hia : ∀ c p, Adds (ci c p))
    {c : SCtx} {w : Where} (hw : c.Fits w) {lit : Str} {i : Option Str} {os : List SOverride} {st st' : CState}
    (hs : Faithful F st.loaded) (h : compileInclude F cp ci c lit i os st = .ok ((), st')) :
    ∃ f s is, F.join w.env.file lit = some f ∧ F.load f = .ok s ∧ s.Grammar is ∧
      (∃ co sto sto', co.Fits (w.override f i) ∧ co.chain = c.chain ∧ Faithful F sto.loaded ∧ Later st sto ∧
        compileOverrides cp co os sto = .ok ((), sto') ∧ Later sto' st') ∧
      (∃ cs sts sts', cs.Fits (w.included f i s.decls) ∧ cs.chain = c.chain ∧ Faithful F sts.loaded ∧ Later st sts ∧
        compileContents ci cs is sts = .ok ((), sts') ∧ Later sts' st') := by
  obtain ⟨path, _, h1, h⟩ := CM.bind_ok h
  obtain ⟨hp, rfl⟩ := CM.lift_ok h1
  obtain ⟨s, st1, h2, h⟩ := CM.bind_ok h
  obtain ⟨hl, hs1⟩ := getSchema_faithful hs (CM.inInclude_ok h2)
  have l1 := adds_getSchema _ _ _ _ (CM.inInclude_ok h2)
  obtain ⟨inc, st2, h3, h⟩ := CM.bind_ok h
  have l2 := l1.trans (adds_newInclude _ _ _ _ _ h3)
  obtain ⟨hck, ⟨o, rfl⟩, hl2⟩ := newInclude_ok h3
  obtain ⟨inc', _, h4, h⟩ := CM.bind_ok h
  obtain ⟨h4', rfl⟩ := CM.lift_ok h4
  obtain ⟨ns, rfl, hns⟩ := inheritCtx_spec hw.env h4'
  obtain ⟨_, st3, h5, h⟩ := CM.bind_ok h
  obtain ⟨_, st4, h6, h⟩ := CM.bind_ok h
  have l3 := adds_compileOverrides hca _ _ _ _ _ h5
  have l4 := adds_compileSchema hca hia _ _ _ _ _ (CM.inInclude_ok h6)
  have l5 : Later st4 st' := adds_checkOvs _ _ _ _ h
  have hs2 : Faithful F st2.loaded := by rw [hl2]; exact hs1
  have hs3 := keeps_compileOverrides hcp _ os _ _ _ hs2 h5
  have hov : (SCtx.inclOverrides (.incl c path o ns [("xsd".toList, xsdUri)])).Fits (w.override path i) :=
    hw.override _ _ hns
  obtain ⟨c1, st5, h7, h8⟩ := CM.bind_ok (CM.inInclude_ok h6)
  obtain ⟨h7', rfl⟩ := CM.lift_ok h7
  cases compileDeclarations_incl h7' with
  | incl a b =>
    rename_i ns' dts'
    have hcs : (SCtx.incl c path o ns' dts').Fits (w.included path i s.decls) :=
      hw.included _ _ (a.trans hns.append) b
    have : ∃ is, s.Grammar is ∧ compileContents ci (SCtx.incl c path o ns' dts') is st3 = .ok ((), st4) := by
      obtain ⟨decls, body⟩ := s
      cases body with
      | grammar items => exact ⟨items, .grammar, h8⟩
      | pattern p =>
        cases p with
        | grammar items => exact ⟨items, .pattern, h8⟩
        | _ => cases h8
    obtain ⟨is, hg, hc⟩ := this
    exact ⟨path, s, is, includePath_spec hw.env hp, hl, hg, ⟨_, st2, st3, hov, rfl, hs2, l2, h5, l4.trans l5⟩,
      _, st3, st4, hcs, rfl, hs3, l2.trans l3, hc, l5⟩

theorem newGrammar_ran {c ch : SCtx} {w : Where} (hw : c.Fits w) {st st' : CState} (hs : Faithful F st.loaded)
    (hb : ∀ s ∈ c.chain, s < st.scopes.length) (h : newGrammar c st = .ok (ch, st')) :
    ch.Fits w.grammar ∧ ch.chain = st.scopes.length :: c.chain ∧ Faithful F st'.loaded ∧ ∀ s ∈ ch.chain, s < st'.scopes.length := by
  unfold newGrammar at h; cases h
  refine ⟨hw.grammar _, rfl, hs, fun s hs => ?_⟩
  simp only [SCtx.chain, List.mem_cons, List.length_append, List.length_singleton] at hs ⊢
  rcases hs with rfl | hs
  · omega
  · have := hb s hs; omega

theorem external_ran {cp : SCtx → SPattern → CM MPattern} {ci : SCtx → SItem → CM Unit} 
    {c : SCtx} {w : Where} (hw : c.Fits w) {lit : Str} {i : Option Str} {st st' : CState} {q : MPattern}
    (hs : Faithful F st.loaded) (hb : ∀ s ∈ c.chain, s < st.scopes.length) (h : compileExternal F cp ci c lit i st = .ok (q, st')) :
    ∃ f s, F.join w.env.file lit = some f ∧ F.load f = .ok s ∧
      (∀ p, s.body = .pattern p → ∃ c1 st1, c1.Fits (w.external f) ∧ c1.chain = c.chain ∧ Faithful F st1.loaded ∧
        (∀ s ∈ c1.chain, s < st1.scopes.length) ∧ cp c1 p st1 = .ok (q, st')) ∧
      (∀ is, s.body = .grammar is → ∃ c1 st1 st2 sc, c1.Fits w.grammar ∧ c1.chain = sc :: c.chain ∧ Faithful F st1.loaded ∧
        (∀ s ∈ c1.chain, s < st1.scopes.length) ∧ compileContents ci c1 is st1 = .ok ((), st2) ∧ Later st2 st' ∧
        checkDefined st2 (st2.refs sc) = .ok ()) := by
  cases i with
  | some _ => cases h
  | none =>
    obtain ⟨path, _, h1, h⟩ := CM.bind_ok h
    obtain ⟨hp, rfl⟩ := CM.lift_ok h1
    obtain ⟨s, st1, h2, h⟩ := CM.bind_ok h
    obtain ⟨hl, hs1⟩ := getSchema_faithful hs (CM.inInclude_ok h2)
    have l1 := adds_getSchema _ _ _ _ (CM.inInclude_ok h2)
    obtain ⟨inc, st2, h3, h⟩ := CM.bind_ok h
    have l2 := l1.trans (adds_newInclude _ _ _ _ _ h3)
    obtain ⟨hck, ⟨o, rfl⟩, hl2⟩ := newInclude_ok h3
    have hs2 : Faithful F st2.loaded := by rw [hl2]; exact hs1
    have hb2 : ∀ s ∈ c.chain, s < st2.scopes.length := fun s h => Nat.lt_of_lt_of_le (hb s h) l2.len
    refine ⟨path, s, includePath_spec hw.env hp, hl, ?_, ?_⟩
    · intro p hbd
      obtain ⟨ds, body⟩ := s
      cases hbd
      exact ⟨_, st2, hw.external _ _, rfl, hs2, hb2, CM.inInclude_ok h⟩
    · intro is hbd
      obtain ⟨ds, body⟩ := s
      cases hbd
      obtain ⟨child, st3, h4, h⟩ := CM.bind_ok h
      obtain ⟨_, stc, h5, h'⟩ := CM.bind_ok h
      obtain ⟨a, b, c', d⟩ := newGrammar_ran hw hs2 hb2 h4
      unfold newGrammar at h4; cases h4
      obtain ⟨_, std, h6, h7⟩ := CM.bind_ok h'
      refine ⟨_, _, stc, _, a, b, c', d, h5, (adds_checkScope _ _ _ _ h6).trans (adds_takeStart _ _ _ _ h7), ?_⟩
      unfold checkScope at h6
      split at h6
      · assumption
      · cases h6

/-- the scopes on the way into a place -/
def Into (a b : Place) (ss ss' : List Nat) : Prop := (a.Opens b ∧ ∃ s, ss' = s :: ss) ∨ (¬ a.Opens b ∧ ss' = ss)

theorem Ran.within {fin : CState} {ss : List Nat} {a b : Place} (h : Ran F x fin ss a) (hw : Within F a b) :
    ∃ ss', Into a b ss ss' ∧ Ran F x fin ss' b := by
  have up : ∀ {c : SCtx} {st st1 : CState}, Later st st1 → (∀ s ∈ c.chain, s < st.scopes.length) →
      ∀ s ∈ c.chain, s < st1.scopes.length := fun l hb s h => Nat.lt_of_lt_of_le (hb s h) l.len
  cases hw with
  | define hi =>
    obtain ⟨n, c, st, st', hf, hs, rfl, hb, h, l⟩ := h
    refine ⟨_, .inr ⟨id, rfl⟩, ?_⟩
    cases n with
    | zero => obtain ⟨_, _, _, _, h, _⟩ := contents_ran (keeps_compile 0).2 (adds_compile 0).2 hs h hi; cases h
    | succ n =>
      obtain ⟨st1, st2, hs1, l1, h, l2⟩ := contents_ran (keeps_compile (n + 1)).2 (adds_compile (n + 1)).2 hs h hi
      obtain ⟨q, st3, h1, h3⟩ := CM.bind_ok h
      exact ⟨n, _, st1, q, st3, hf.define _, hs1, rfl, up l1 hb, h1, ((adds_defineRule _ _ _ _ _ _ h3).trans l2).trans l⟩
  | div hi =>
    obtain ⟨n, c, st, st', hf, hs, rfl, hb, h, l⟩ := h
    refine ⟨_, .inr ⟨id, rfl⟩, ?_⟩
    cases n with
    | zero => obtain ⟨_, _, _, _, h, _⟩ := contents_ran (keeps_compile 0).2 (adds_compile 0).2 hs h hi; cases h
    | succ n =>
      obtain ⟨st1, st2, hs1, l1, h, l2⟩ := contents_ran (keeps_compile (n + 1)).2 (adds_compile (n + 1)).2 hs h hi
      exact ⟨n, c, st1, st2, hf, hs1, rfl, up l1 hb, h, l2.trans l⟩
  | included hi hj hl hg =>
    obtain ⟨n, c, st, st', hf, hs, rfl, hb, h, l⟩ := h
    refine ⟨_, .inr ⟨id, rfl⟩, ?_⟩
    cases n with
    | zero => obtain ⟨_, _, _, _, h, _⟩ := contents_ran (keeps_compile 0).2 (adds_compile 0).2 hs h hi; cases h
    | succ n =>
      obtain ⟨st1, st2, hs1, l1, h, l2⟩ := contents_ran (keeps_compile (n + 1)).2 (adds_compile (n + 1)).2 hs h hi
      obtain ⟨f, s, is, hj', hl', hg', _, cs, sts, sts', a, b, d, e, r, l3⟩ :=
        include_ran (keeps_compile n).1 (adds_compile n).1 (adds_compile n).2 hf hs1 h
      rw [hj] at hj'; cases hj'
      rw [hl] at hl'; cases hl'
      rw [hg.det hg']
      exact ⟨n, cs, sts, sts', a, d, b, by rw [b]; exact up (l1.trans e) hb, r, (l3.trans l2).trans l⟩
  | override hi hj ho =>
    obtain ⟨n, c, st, st', hf, hs, rfl, hb, h, l⟩ := h
    refine ⟨_, .inr ⟨id, rfl⟩, ?_⟩
    cases n with
    | zero => obtain ⟨_, _, _, _, h, _⟩ := contents_ran (keeps_compile 0).2 (adds_compile 0).2 hs h hi; cases h
    | succ n =>
      obtain ⟨st1, st2, hs1, l1, h, l2⟩ := contents_ran (keeps_compile (n + 1)).2 (adds_compile (n + 1)).2 hs h hi
      obtain ⟨f, s, is, hj', _, _, ⟨co, sto, sto', a, b, d, e, r, l3⟩, _⟩ :=
        include_ran (keeps_compile n).1 (adds_compile n).1 (adds_compile n).2 hf hs1 h
      rw [hj] at hj'; cases hj'
      obtain ⟨st3, st4, hs3, l4, h, l5⟩ := overrides_ran (keeps_compile n).1 (adds_compile n).1 d r ho
      obtain ⟨q, st5, h1, h6⟩ := CM.bind_ok h
      refine ⟨n, _, st3, q, st5, a.define _, hs3, b, ?_, h1, ((((adds_defineRule _ _ _ _ _ _ h6).trans l5).trans l3).trans l2).trans l⟩
      show ∀ s ∈ co.chain, _
      rw [b]; exact up ((l1.trans e).trans l4) hb
  | grammar =>
    obtain ⟨n, c, st, q, st', hf, hs, rfl, hb, h, l⟩ := h
    refine ⟨_, .inl ⟨trivial, st.scopes.length, rfl⟩, ?_⟩
    cases n with
    | zero => cases h
    | succ n =>
      obtain ⟨ch, st1, h1, h⟩ := CM.bind_ok h
      obtain ⟨_, st2, h2, h'⟩ := CM.bind_ok h
      obtain ⟨a, b, c', d⟩ := newGrammar_ran hf hs hb h1
      unfold newGrammar at h1; cases h1
      exact ⟨n, _, _, st2, a, c', b, d, h2, (adds_takeStart _ _ _ _ h').trans l⟩
  | externalPattern hj hl hbd =>
    obtain ⟨n, c, st, q, st', hf, hs, rfl, hb, h, l⟩ := h
    refine ⟨_, .inr ⟨id, rfl⟩, ?_⟩
    cases n with
    | zero => cases h
    | succ n =>
      obtain ⟨f, s, hj', hl', h1, _⟩ := external_ran hf hs hb h
      rw [hj] at hj'; cases hj'
      rw [hl] at hl'; cases hl'
      obtain ⟨c1, st1, a, b, d, e, r⟩ := h1 _ hbd
      exact ⟨n, c1, st1, q, st', a, d, b, e, r, l⟩
  | externalGrammar hj hl hbd =>
    obtain ⟨n, c, st, q, st', hf, hs, rfl, hb, h, l⟩ := h
    cases n with
    | zero => cases h
    | succ n =>
      obtain ⟨f, s, hj', hl', _, h1⟩ := external_ran hf hs hb h
      rw [hj] at hj'; cases hj'
      rw [hl] at hl'; cases hl'
      obtain ⟨c1, st1, st2, sc, a, b, d, e, r, l1, _⟩ := h1 _ hbd
      exact ⟨_, .inl ⟨trivial, sc, rfl⟩, n, c1, st1, st2, a, d, b, e, r, l1.trans l⟩
  | element =>
    obtain ⟨n, c, st, q, st', hf, hs, rfl, hb, h, l⟩ := h
    refine ⟨_, .inr ⟨id, rfl⟩, ?_⟩
    cases n with
    | zero => cases h
    | succ n =>
      obtain ⟨nc', _, h1, h⟩ := CM.bind_ok h
      obtain ⟨hn, rfl⟩ := CM.lift_ok h1
      split at h
      · cases h
      · obtain ⟨q', st1, h2, h⟩ := CM.bind_ok h
        cases h
        exact ⟨n, _, st, q', _, hf.element, hs, rfl, hb, h2, l⟩
  | «attribute» =>
    obtain ⟨n, c, st, q, st', hf, hs, rfl, hb, h, l⟩ := h
    refine ⟨_, .inr ⟨id, rfl⟩, ?_⟩
    cases n with
    | zero => cases h
    | succ n =>
      obtain ⟨nc', _, h1, h⟩ := CM.bind_ok h
      obtain ⟨hn, rfl⟩ := CM.lift_ok h1
      obtain ⟨q', st1, h2, h⟩ := CM.bind_ok h
      cases h
      exact ⟨n, _, st, q', _, hf.attribute, hs, rfl, hb, h2, l⟩
  | except =>
    obtain ⟨n, c, st, q, st', hf, hs, rfl, hb, h, l⟩ := h
    refine ⟨_, .inr ⟨id, rfl⟩, ?_⟩
    cases n with
    | zero => cases h
    | succ n =>
      obtain ⟨_, _, h1, h⟩ := CM.bind_ok h
      obtain ⟨_, rfl⟩ := CM.lift_ok h1
      obtain ⟨_, _, h1, h⟩ := CM.bind_ok h
      obtain ⟨_, rfl⟩ := CM.lift_ok h1
      obtain ⟨q', st1, h2, h⟩ := CM.bind_ok h
      cases h
      exact ⟨n, _, _, q', _, hf, hs, rfl, hb, h2, l⟩
  | paren =>
    obtain ⟨n, c, st, q, st', hf, hs, rfl, hb, h, l⟩ := h
    refine ⟨_, .inr ⟨id, rfl⟩, ?_⟩
    cases n with
    | zero => cases h
    | succ n => exact ⟨n, _, _, q, st', hf, hs, rfl, hb, h, l⟩
  | seqRight | interRight | choiceRight =>
    obtain ⟨n, c, st, q, st', hf, hs, rfl, hb, h, l⟩ := h
    refine ⟨_, .inr ⟨id, rfl⟩, ?_⟩
    cases n with
    | zero => cases h
    | succ n =>
      obtain ⟨q1, st1, h1, h⟩ := CM.bind_ok h
      obtain ⟨q2, st2, h2, h⟩ := CM.bind_ok h
      cases h
      exact ⟨n, _, _, q2, _, hf, (keeps_compile n).1 _ _ _ _ _ hs h1, rfl, up ((adds_compile n).1 _ _ _ _ _ h1) hb, h2, l⟩
  | seqLeft | interLeft | choiceLeft =>
    obtain ⟨n, c, st, q, st', hf, hs, rfl, hb, h, l⟩ := h
    refine ⟨_, .inr ⟨id, rfl⟩, ?_⟩
    cases n with
    | zero => cases h
    | succ n =>
      obtain ⟨q1, st1, h1, h⟩ := CM.bind_ok h
      obtain ⟨q2, st2, h2, h⟩ := CM.bind_ok h
      cases h
      exact ⟨n, _, _, q1, _, hf, hs, rfl, hb, h1, ((adds_compile n).1 _ _ _ _ _ h2).trans l⟩
  | _ =>
    obtain ⟨n, c, st, q, st', hf, hs, rfl, hb, h, l⟩ := h
    refine ⟨_, .inr ⟨id, rfl⟩, ?_⟩
    cases n with
    | zero => cases h
    | succ n =>
      obtain ⟨q', st1, h2, h⟩ := CM.bind_ok h
      cases h
      exact ⟨n, _, _, q', _, hf, hs, rfl, hb, h2, l⟩

theorem acquireIn_look {s : Nat} {id : Str} {k : Nat} {st st' : CState} (hs : s < st.scopes.length)
    (h : SCtx.acquireRefImpl.acquireIn s id st = .ok (k, st')) : st'.look s id = some k := by
  unfold SCtx.acquireRefImpl.acquireIn at h
  split at h
  · rename_i hk; cases h; exact hk
  · cases h; simp [look_addCell hs]

theorem acquireRef_look {c : SCtx} {id : Str} {k : Nat} {st st' : CState} (hs : ∀ s ∈ c.chain, s < st.scopes.length)
    (h : c.acquireRef id st = .ok (k, st')) : st'.look c.cur id = some k := by
  obtain ⟨_, _, h1, h2⟩ := CM.bind_ok h
  obtain ⟨_, rfl⟩ := CM.lift_ok h1
  rw [acquireRefImpl_eq] at h2
  exact acquireIn_look (hs _ (by rw [SCtx.chain_eq]; simp)) h2

theorem acquireParentRef_look {id : Str} {k : Nat} {st st' : CState} : ∀ {c : SCtx},
    (∀ s ∈ c.chain, s < st.scopes.length) → c.acquireParentRef id st = .ok (k, st') →
    ∃ t s ss, c.chain = t :: s :: ss ∧ st'.look s id = some k
  | .root _ _ _ _, _, h => nomatch h
  | .incl p _ _ _ _, hs, h => acquireParentRef_look (c := p) hs h
  | .inclOverrides p, hs, h => acquireParentRef_look (c := p) hs h
  | .define p _, hs, h => acquireParentRef_look (c := p) hs h
  | .element p, hs, h => acquireParentRef_look (c := p) hs h
  | .attribute p, hs, h => acquireParentRef_look (c := p) hs h
  | .grammar p s, hs, h =>
    ⟨s, p.cur, p.outer, by rw [SCtx.chain, SCtx.chain_eq], acquireRef_look (fun t ht => hs t (by simp [SCtx.chain, ht])) h⟩

/-- what refers to a name has put it into the grammar's map -/
theorem Refers.look {n : Nat} {pl : Place} {id : Str} (h : Refers F n pl id) : ∀ {fin : CState} {ss : List Nat}, Ran F x fin ss pl →
    ∃ s k, ss[n]? = some s ∧ fin.look s id = some k := by
  induction h with
  | ident =>
    rintro fin ss ⟨n, c, st, q, st', hf, hs, rfl, hb, h, l⟩
    cases n with
    | zero => cases h
    | succ n =>
      obtain ⟨k, st1, h1, h⟩ := CM.bind_ok h
      cases h
      exact ⟨c.cur, k, by rw [SCtx.chain_eq]; rfl, l.look _ _ _ (acquireRef_look hb h1)⟩
  | parent =>
    rintro fin ss ⟨n, c, st, q, st', hf, hs, rfl, hb, h, l⟩
    cases n with
    | zero => cases h
    | succ n =>
      obtain ⟨k, st1, h1, h⟩ := CM.bind_ok h
      cases h
      obtain ⟨t, s, ss, e, hk⟩ := acquireParentRef_look hb h1
      exact ⟨s, k, by rw [e]; rfl, l.look _ _ _ hk⟩
  | same hw ho _ ih =>
    intro fin ss hr
    obtain ⟨ss', hi, hr'⟩ := hr.within hw
    rcases hi with ⟨a, _⟩ | ⟨_, rfl⟩
    · exact absurd a ho
    · exact ih hr'
  | deeper hw ho _ ih =>
    intro fin ss hr
    obtain ⟨ss', hi, hr'⟩ := hr.within hw
    rcases hi with ⟨_, s, rfl⟩ | ⟨a, _⟩
    · obtain ⟨s', k, a, b⟩ := ih hr'
      exact ⟨s', k, by simpa using a, b⟩
    · exact absurd ho a

end Verif
