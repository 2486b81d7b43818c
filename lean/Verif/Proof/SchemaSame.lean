import Verif.Proof.SchemaPlaces
/-
Files that differ only in declarations the compiler does not read compile to the same result, and so do two
compilations that start from different (faithful) caches.
-/
namespace Verif
variable {F F' : Files} {x : Ext} {α β : Type}

/-- the compiler cannot tell the two files apart -/
def SameSchema (s s' : SSchema) : Prop := s'.body = s.body ∧ ∀ c, compileDeclarations c s'.decls = compileDeclarations c s.decls

/-- the results of loading a file -/
def SameLoad : Except LoadErr SSchema → Except LoadErr SSchema → Prop
  | .ok s, .ok s' => SameSchema s s'
  | .error e, .error e' => e' = e
  | _, _ => False

/-- file by file -/
structure SameFiles (F F' : Files) : Prop where
  join : F'.join = F.join
  load : ∀ f, SameLoad (F.load f) (F'.load f)

theorem SameFiles.refl (F : Files) : SameFiles F F := ⟨rfl, fun f => by
  cases F.load f with
  | ok s => exact ⟨rfl, fun _ => rfl⟩
  | error e => exact rfl⟩

/-- the same state up to the cache -/
structure SameState (F F' : Files) (st st' : CState) : Prop where
  cells : st'.cells = st.cells
  scopes : st'.scopes = st.scopes
  overrides : st'.overrides = st.overrides
  left : Faithful F st.loaded
  right : Faithful F' st'.loaded

/-- the same outcome, with values related by `P` -/
def SameOut (F F' : Files) (P : α → α → Prop) : Except CFault (α × CState) → Except CFault (α × CState) → Prop
  | .ok (a, st), .ok (a', st') => P a a' ∧ SameState F F' st st'
  | .error e, .error e' => e' = e
  | _, _ => False

/-- from the same state the same outcome -/
def Same (F F' : Files) (P : α → α → Prop) (m m' : CM α) : Prop := ∀ st st', SameState F F' st st' → SameOut F F' P (m st) (m' st')

theorem Same.bind {P : α → α → Prop} {Q : β → β → Prop} {m m' : CM α} {f f' : α → CM β} (h : Same F F' P m m')
    (hf : ∀ a a', P a a' → Same F F' Q (f a) (f' a')) : Same F F' Q (m >>= f) (m' >>= f') := by
  intro st st' hs
  have h := h st st' hs
  show SameOut F F' Q (CM.bind m f st) (CM.bind m' f' st')
  unfold CM.bind
  cases h1 : m st with
  | ok r =>
    obtain ⟨a, s⟩ := r
    cases h2 : m' st' with
    | ok r' =>
      obtain ⟨a', s'⟩ := r'
      rw [h1, h2] at h
      exact hf a a' h.1 s s' h.2
    | error e => rw [h1, h2] at h; exact h.elim
  | error e =>
    cases h2 : m' st' with
    | ok r' => rw [h1, h2] at h; exact h.elim
    | error e' => rw [h1, h2] at h; exact h

theorem Same.bindEq {Q : β → β → Prop} {m m' : CM α} {f f' : α → CM β} (h : Same F F' Eq m m')
    (hf : ∀ a, Same F F' Q (f a) (f' a)) : Same F F' Q (m >>= f) (m' >>= f') :=
  h.bind fun a a' e => by cases e; exact hf a

theorem Same.pure (a : α) : Same F F' Eq (pure a : CM α) (pure a) := fun _ _ hs => ⟨rfl, hs⟩
theorem Same.fail (e : CFault) : Same F F' Eq (CM.fail e : CM α) (CM.fail e) := fun _ _ _ => rfl
theorem Same.lift (e : Except CFault α) : Same F F' Eq (CM.lift e) (CM.lift e) := fun st st' hs => by
  unfold CM.lift
  cases e with
  | ok a => exact ⟨rfl, hs⟩
  | error e => exact rfl

theorem Same.inInclude {P : α → α → Prop} {m m' : CM α} (h : Same F F' P m m') : Same F F' P m.inInclude m'.inInclude := by
  intro st st' hs
  have h := h st st' hs
  unfold CM.inInclude
  cases h1 : m st with
  | ok r =>
    cases h2 : m' st' with
    | ok r' => rw [h1, h2] at h; exact h
    | error e => rw [h1, h2] at h; exact h.elim
  | error e =>
    cases h2 : m' st' with
    | ok r' => rw [h1, h2] at h; exact h.elim
    | error e' =>
      rw [h1, h2] at h
      cases (show e' = e from h)
      cases e <;> exact rfl

/-- the same outcome with another cache -/
def reload (l : List (Str × SSchema)) : Except CFault (α × CState) → Except CFault (α × CState)
  | .ok (a, st) => .ok (a, { st with loaded := l })
  | .error e => .error e

/-- does not look at the cache -/
theorem Same.blind {m : CM α} (h : ∀ st l, m { st with loaded := l } = reload l (m st)) : Same F F' Eq m m := by
  intro st st' hs
  have e1 : m st' = reload st'.loaded (m st) := by
    have := h st st'.loaded
    rwa [show ({ st with loaded := st'.loaded } : CState) = st' by rw [← hs.cells, ← hs.scopes, ← hs.overrides]] at this
  have e2 := h st st.loaded
  rw [show ({ st with loaded := st.loaded } : CState) = st from rfl] at e2
  rw [e1]
  cases hm : m st with
  | error e => exact rfl
  | ok r =>
    obtain ⟨a, st1⟩ := r
    rw [hm] at e2
    simp only [reload, Except.ok.injEq, Prod.mk.injEq, true_and] at e2
    have : st1.loaded = st.loaded := by rw [e2]
    exact ⟨rfl, rfl, rfl, rfl, by rw [this]; exact hs.left, hs.right⟩

theorem same_getSchema (hF : SameFiles F F') (f : Str) : Same F F' SameSchema (getSchema F f) (getSchema F' f) := by
  intro st st' hs
  have hl := hF.load f
  cases h1 : getSchema F f st with
  | ok r =>
    obtain ⟨s, st1⟩ := r
    obtain ⟨a1, a2⟩ := getSchema_faithful hs.left h1
    cases h2 : getSchema F' f st' with
    | ok r' =>
      obtain ⟨s', st1'⟩ := r'
      obtain ⟨b1, b2⟩ := getSchema_faithful hs.right h2
      rw [a1, b1] at hl
      have e1 : st1.cells = st.cells ∧ st1.scopes = st.scopes ∧ st1.overrides = st.overrides := by
        unfold getSchema at h1
        split at h1
        · cases h1; exact ⟨rfl, rfl, rfl⟩
        · split at h1 <;> cases h1; exact ⟨rfl, rfl, rfl⟩
      have e2 : st1'.cells = st'.cells ∧ st1'.scopes = st'.scopes ∧ st1'.overrides = st'.overrides := by
        unfold getSchema at h2
        split at h2
        · cases h2; exact ⟨rfl, rfl, rfl⟩
        · split at h2 <;> cases h2; exact ⟨rfl, rfl, rfl⟩
      exact ⟨hl, by rw [e1.1, e2.1, hs.cells], by rw [e1.2.1, e2.2.1, hs.scopes], by rw [e1.2.2, e2.2.2, hs.overrides], a2, b2⟩
    | error e =>
      unfold getSchema at h2
      split at h2
      · cases h2
      · split at h2
        · cases h2
        · rename_i e' he; rw [a1, he] at hl; exact hl.elim
  | error e =>
    unfold getSchema at h1
    split at h1
    · cases h1
    · rename_i hn
      split at h1
      · cases h1
      · rename_i e' he
        cases h1
        rw [he] at hl
        cases h2 : F'.load f with
        | ok s => rw [h2] at hl; exact hl.elim
        | error e2 =>
          rw [h2] at hl
          cases (show e2 = e' from hl)
          unfold getSchema
          cases h3 : st'.loaded.lookup f with
          | some s => rw [hs.right f s h3] at h2; cases h2
          | none => simp only [h2]; exact rfl

theorem same_newRoot (f : Str) : Same F F' Eq (newRoot f) (newRoot f) := .blind fun st l => rfl
theorem same_newGrammar (c : SCtx) : Same F F' Eq (newGrammar c) (newGrammar c) := .blind fun st l => rfl
theorem same_newInclude (c : SCtx) (f : Str) : Same F F' Eq (newInclude c f) (newInclude c f) := .blind fun st l => by
  unfold newInclude
  cases c.checkInclude f <;> rfl

theorem same_takeStart (s : Nat) : Same F F' Eq (takeStart s) (takeStart s) := .blind fun st l => by
  unfold takeStart
  show (match (st.refs s).lookup _ with | none => _ | some k => match st.cell k with | none => _ | some r => _) = _
  cases (st.refs s).lookup "start".toList with
  | none => rfl
  | some k =>
    dsimp only
    cases st.cell k <;> rfl

theorem checkDefined_blind (st : CState) (l : List (Str × SSchema)) : ∀ r, checkDefined { st with loaded := l } r = checkDefined st r
  | [] => rfl
  | (n, k) :: r => by
    unfold checkDefined
    rw [checkDefined_blind st l r]
    rfl

theorem same_checkScope (s : Nat) : Same F F' Eq (checkScope s) (checkScope s) := .blind fun st l => by
  unfold checkScope
  rw [checkDefined_blind]
  show (match checkDefined st (st.refs s) with | .ok () => _ | .error e => _) = _
  cases checkDefined st (st.refs s) <;> rfl

theorem same_checkOvs (s : Nat) : Same F F' Eq (checkOvs s) (checkOvs s) := .blind fun st l => by
  unfold checkOvs
  show (match checkOverrides (st.ov s) with | .ok () => _ | .error e => _) = _
  cases checkOverrides (st.ov s) <;> rfl

theorem defineIn_blind (s : Nat) (id : Str) (r : DefineRule) (st : CState) (l : List (Str × SSchema)) : defineIn s id r { st with loaded := l } =
    reload l (defineIn s id r st) := by
  unfold defineIn
  show (match (st.refs s).lookup id with | some k => (match merge id (st.cell k) (some r) with | .ok r => _ | .error e => _) | none => _) = _
  cases (st.refs s).lookup id with
  | none => rfl
  | some k =>
    dsimp only
    cases merge id (st.cell k) (some r) <;> rfl

theorem defineRule_blind : ∀ (c : SCtx) (id : Str) (r : DefineRule) (st : CState) (l : List (Str × SSchema)),
    c.defineRule id r { st with loaded := l } = reload l (c.defineRule id r st)
  | .root _ s _ _, id, r, st, l => defineIn_blind s id r st l
  | .grammar _ s, id, r, st, l => defineIn_blind s id r st l
  | .incl p f o ns dts, id, r, st, l => by
    rw [defineRule_incl]
    show (if ((st.ov o).lookup id).isSome then _ else p.defineRule id r { st with loaded := l }) = _
    dsimp only
    split
    · rfl
    · exact defineRule_blind p id r st l
  | .inclOverrides (.incl p f o ns dts), id, r, st, l => by
    rw [defineRule_inclOverrides]
    show (if ((st.ov o).lookup id).isSome then _ else
      p.defineRule id r { ({ st with overrides := st.overrides.set o ((id, false) :: st.ov o) } : CState) with loaded := l }) = _
    dsimp only
    split
    · rfl
    · exact defineRule_blind p id r { st with overrides := st.overrides.set o ((id, false) :: st.ov o) } l
  | .inclOverrides (.root ..), _, _, _, _ => rfl
  | .inclOverrides (.grammar ..), _, _, _, _ => rfl
  | .inclOverrides (.inclOverrides ..), _, _, _, _ => rfl
  | .inclOverrides (.define ..), _, _, _, _ => rfl
  | .inclOverrides (.element ..), _, _, _, _ => rfl
  | .inclOverrides (.attribute ..), _, _, _, _ => rfl
  | .define _ _, _, _, _, _ => rfl
  | .element _, _, _, _, _ => rfl
  | .attribute _, _, _, _, _ => rfl

theorem same_defineRule (c : SCtx) (id : Str) (r : DefineRule) : Same F F' Eq (c.defineRule id r) (c.defineRule id r) :=
  .blind (defineRule_blind c id r)

theorem same_acquireIn (s : Nat) (id : Str) : Same F F' Eq (SCtx.acquireRefImpl.acquireIn s id) (SCtx.acquireRefImpl.acquireIn s id) := .blind fun st l => by
  unfold SCtx.acquireRefImpl.acquireIn
  show (match (st.refs s).lookup id with | some k => _ | none => _) = _
  cases (st.refs s).lookup id <;> rfl

theorem same_acquireRefImpl : ∀ (c : SCtx) (id : Str), Same F F' Eq (c.acquireRefImpl id) (c.acquireRefImpl id)
  | .root _ s _ _, id => same_acquireIn s id
  | .grammar _ s, id => same_acquireIn s id
  | .incl p _ _ _ _, id => same_acquireRefImpl p id
  | .inclOverrides p, id => same_acquireRefImpl p id
  | .define p _, id => same_acquireRefImpl p id
  | .element p, id => same_acquireRefImpl p id
  | .attribute p, id => same_acquireRefImpl p id

theorem same_acquireRef (c : SCtx) (id : Str) : Same F F' Eq (c.acquireRef id) (c.acquireRef id) :=
  (Same.lift _).bindEq fun _ => same_acquireRefImpl c id

theorem same_acquireParentRef : ∀ (c : SCtx) (id : Str), Same F F' Eq (c.acquireParentRef id) (c.acquireParentRef id)
  | .root _ _ _ _, _ => .fail _
  | .grammar p _, id => same_acquireRef p id
  | .incl p _ _ _ _, id => same_acquireParentRef p id
  | .inclOverrides p, id => same_acquireParentRef p id
  | .define p _, id => same_acquireParentRef p id
  | .element p, id => same_acquireParentRef p id
  | .attribute p, id => same_acquireParentRef p id

section
variable {cp cp' : SCtx → SPattern → CM MPattern} {ci ci' : SCtx → SItem → CM Unit}
  (hcp : ∀ c p, Same F F' Eq (cp c p) (cp' c p)) (hci : ∀ c i, Same F F' Eq (ci c i) (ci' c i))
include hcp

theorem same_compileDefine (c : SCtx) (id : Str) (how : AssignMethod) (p : SPattern) :
    Same F F' Eq (compileDefine cp c id how p) (compileDefine cp' c id how p) :=
  (hcp _ _).bindEq fun _ => same_defineRule c id _

theorem same_compileOverrides (c : SCtx) : ∀ os, Same F F' Eq (compileOverrides cp c os) (compileOverrides cp' c os)
  | [] => .pure _
  | .define id how body :: os =>
    Same.bindEq (m := (compileDefine cp c id how body).inInclude) (m' := (compileDefine cp' c id how body).inInclude)
      (same_compileDefine hcp c id how body).inInclude fun _ => same_compileOverrides c os
  | .div :: os => Same.bindEq (m := CM.fail (.panic .includeDiv)) (m' := CM.fail (.panic .includeDiv)) (.fail _) fun _ => same_compileOverrides c os
  | .annotation :: os => same_compileOverrides c os

include hci
omit hcp in
theorem same_compileContents (c : SCtx) : ∀ is, Same F F' Eq (compileContents ci c is) (compileContents ci' c is)
  | [] => .pure _
  | i :: is => (hci c i).bindEq fun _ => same_compileContents c is

theorem same_compileSchema (c : SCtx) {s s' : SSchema} (hs : SameSchema s s') : Same F F' Eq (compileSchema cp ci c s) (compileSchema cp' ci' c s') := by
  obtain ⟨hb, hd⟩ := hs
  unfold compileSchema
  rw [hd c]
  refine (Same.lift _).bindEq fun c => ?_
  rw [hb]
  obtain ⟨ds, body⟩ := s
  cases body with
  | grammar is => exact same_compileContents hci c is
  | pattern p =>
    cases c with
    | incl =>
      cases p with
      | grammar is => exact same_compileContents hci _ is
      | _ => exact .fail _
    | _ => exact (hcp _ _).bindEq fun _ => same_defineRule _ _ _

theorem includePath_same (hF : SameFiles F F') (c : SCtx) (lit : Str) : includePath F' c lit = includePath F c lit := by
  unfold includePath; rw [hF.join]

theorem same_compileInclude (hF : SameFiles F F') (c : SCtx) (lit : Str) (i : Option Str) (os : List SOverride) :
    Same F F' Eq (compileInclude F cp ci c lit i os) (compileInclude F' cp' ci' c lit i os) := by
  unfold compileInclude
  rw [includePath_same hcp hci hF]
  refine (Same.lift _).bindEq fun path => (same_getSchema hF path).inInclude.bind fun s s' hs => (same_newInclude _ _).bindEq fun inc =>
    (Same.lift _).bindEq fun inc => (same_compileOverrides hcp _ os).bindEq fun _ => (same_compileSchema hcp hci inc hs).inInclude.bindEq fun _ => ?_
  cases inc with
  | incl _ _ o _ _ => exact same_checkOvs o
  | _ => exact .fail _

theorem same_compileExternal (hF : SameFiles F F') (c : SCtx) (lit : Str) (i : Option Str) :
    Same F F' Eq (compileExternal F cp ci c lit i) (compileExternal F' cp' ci' c lit i) := by
  cases i with
  | some _ => exact .fail _
  | none =>
    unfold compileExternal
    rw [includePath_same hcp hci hF]
    refine (Same.lift _).bindEq fun path => (same_getSchema hF path).inInclude.bind fun s s' hs => (same_newInclude _ _).bindEq fun inc => ?_
    rw [hs.1]
    obtain ⟨ds, body⟩ := s
    cases body with
    | pattern p => exact (hcp _ _).inInclude
    | grammar is =>
      refine (same_newGrammar _).bindEq fun ch => (same_compileContents hci ch is).bindEq fun _ => ?_
      cases ch with
      | grammar _ s => exact (same_checkScope s).bindEq fun _ => same_takeStart s
      | _ => exact .fail _

omit hcp in
theorem same_compileGrammarPattern (c : SCtx) (is : List SItem) : Same F F' Eq (compileGrammarPattern ci c is) (compileGrammarPattern ci' c is) := by
  refine (same_newGrammar _).bindEq fun ch => (same_compileContents hci ch is).bindEq fun _ => ?_
  cases ch with
  | grammar _ s => exact same_takeStart s
  | _ => exact .fail _
end

theorem same_compile (hF : SameFiles F F') : ∀ n, (∀ c p, Same F F' Eq (compilePattern F x n c p) (compilePattern F' x n c p)) ∧
    ∀ c i, Same F F' Eq (compileItem F x n c i) (compileItem F' x n c i)
  | 0 => ⟨fun _ _ => .fail _, fun _ _ => .fail _⟩
  | n + 1 => by
    obtain ⟨hcp, hci⟩ := same_compile hF n
    constructor
    · intro c p
      cases p with
      | element nc p =>
        refine (Same.lift _).bindEq fun nc => ?_
        split
        · exact .fail _
        · exact (hcp _ _).bindEq fun _ => .pure _
      | «attribute» nc p => exact (Same.lift _).bindEq fun _ => (hcp _ _).bindEq fun _ => .pure _
      | list p => exact (hcp _ _).bindEq fun _ => .pure _
      | mixed p => exact (hcp _ _).bindEq fun _ => .pure _
      | ident id => exact (same_acquireRef c id).bindEq fun _ => .pure _
      | parent id => exact (same_acquireParentRef c id).bindEq fun _ => .pure _
      | empty => exact .pure _
      | text => exact .pure _
      | notAllowed => exact .pure _
      | external path i => exact same_compileExternal hcp hci hF c path i
      | grammar items => exact same_compileGrammarPattern hci c items
      | paren p => exact hcp c p
      | seq p1 p2 => exact (hcp _ _).bindEq fun _ => (hcp _ _).bindEq fun _ => .pure _
      | inter p1 p2 => exact (hcp _ _).bindEq fun _ => (hcp _ _).bindEq fun _ => .pure _
      | choice p1 p2 => exact (hcp _ _).bindEq fun _ => (hcp _ _).bindEq fun _ => .pure _
      | optional p => exact (hcp _ _).bindEq fun _ => .pure _
      | zeroOrMore p => exact (hcp _ _).bindEq fun _ => .pure _
      | oneOrMore p => exact (hcp _ _).bindEq fun _ => .pure _
      | value ty lit => exact (Same.lift _).bindEq fun _ => (Same.lift _).bindEq fun _ => .pure _
      | data ty ps => exact (Same.lift _).bindEq fun _ => (Same.lift _).bindEq fun _ => .pure _
      | dataExcept ty ps ex => exact (Same.lift _).bindEq fun _ => (Same.lift _).bindEq fun _ => (hcp _ _).bindEq fun _ => .pure _
    · intro c i
      cases i with
      | define id how body => exact same_compileDefine hcp c id how body
      | div items => exact same_compileContents hci c items
      | «include» path i os => exact same_compileInclude hcp hci hF c path i os
      | «annotation» => exact .pure _

theorem same_finishCompile (m s : Nat) : Same F F' Eq (finishCompile m s) (finishCompile m s) := .blind fun st l => by
  unfold finishCompile
  rw [checkDefined_blind]
  show (match checkDefined st (st.refs s) with
    | .error e => _
    | .ok () => match (st.refs s).lookup _ with
      | none => _
      | some k => match st.cell k with
        | none => _
        | some r => match check st.cells m [] r.pattern with | .error e => _ | .ok _ => _) = _
  cases checkDefined st (st.refs s) with
  | error e => rfl
  | ok _ =>
    dsimp only
    cases (st.refs s).lookup "start".toList with
    | none => rfl
    | some k =>
      dsimp only
      cases st.cell k with
      | none => rfl
      | some r =>
        dsimp only
        cases check st.cells m [] r.pattern <;> rfl

theorem same_compileFile (hF : SameFiles F F') (n m : Nat) (name : Str) :
    Same F F' Eq (compileFile F x n m name) (compileFile F' x n m name) := by
  refine (same_getSchema hF name).bind fun s s' hs => (same_newRoot name).bindEq fun c =>
    (same_compileSchema (same_compile hF n).1 (same_compile hF n).2 c hs).bindEq fun _ => ?_
  cases c with
  | root _ scope _ _ => exact same_finishCompile m scope
  | _ => exact .fail _

end Verif
