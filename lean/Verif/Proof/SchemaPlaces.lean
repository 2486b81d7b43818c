import Verif.Spec.Places
import Verif.Proof.SchemaMain
/-
A schema that compiles passes the checks at every place.
-/
namespace Verif
variable {F : Files} {x : Ext}

/-! ### the cache -/

/-- the files in the compiler's cache are as they would be loaded now -/
def Faithful (F : Files) (l : List (Str × SSchema)) : Prop := ∀ f s, l.lookup f = some s → F.load f = .ok s

/-- keeps the cache faithful -/
def Keeps (F : Files) {α : Type} (m : CM α) : Prop := ∀ st a st', Faithful F st.loaded → m st = .ok (a, st') → Faithful F st'.loaded

theorem Keeps.bind {α β : Type} {m : CM α} {f : α → CM β} (h : Keeps F m) (hf : ∀ a, Keeps F (f a)) : Keeps F (m >>= f) := by
  intro st a st' hs h'
  obtain ⟨b, st1, h1, h2⟩ := CM.bind_ok h'
  exact hf b _ _ _ (h _ _ _ hs h1) h2

theorem Keeps.pure {α : Type} (a : α) : Keeps F (pure a : CM α) := by
  intro st b st' hs h
  obtain ⟨_, rfl⟩ := CM.pure_ok h
  exact hs

theorem Keeps.lift {α : Type} (e : Except CFault α) : Keeps F (CM.lift e) := by
  intro st b st' hs h
  obtain ⟨_, rfl⟩ := CM.lift_ok h
  exact hs

theorem Keeps.fail {α : Type} (e : CFault) : Keeps F (CM.fail e : CM α) := by
  intro st b st' hs h; cases h

theorem Keeps.inInclude {α : Type} {m : CM α} (h : Keeps F m) : Keeps F m.inInclude :=
  fun st a st' hs h' => h st a st' hs (CM.inInclude_ok h')

/-- does not touch the cache -/
theorem Keeps.same {α : Type} {m : CM α} (h : ∀ st a st', m st = .ok (a, st') → st'.loaded = st.loaded) : Keeps F m :=
  fun st a st' hs h' => by rw [h st a st' h']; exact hs

theorem keeps_getSchema (name : Str) : Keeps F (getSchema F name) := by
  intro st s st' hs h
  unfold getSchema at h
  split at h
  · cases h; exact hs
  · rename_i hn
    split at h
    · rename_i s' hl
      cases h
      intro f s hf
      rw [lookup_cons_ite] at hf
      split at hf
      · rename_i he; cases hf; rw [he]; exact hl
      · exact hs f s hf
    · cases h

theorem keeps_defineRule : ∀ (c : SCtx) (id : Str) (r : DefineRule), Keeps F (c.defineRule id r)
  | .root _ s _ _, id, r => .same fun st a st' h => by
    rw [defineRule_root] at h; unfold defineIn at h
    split at h
    · split at h
      · cases h; rfl
      · cases h
    · cases h; rfl
  | .grammar _ s, id, r => .same fun st a st' h => by
    rw [defineRule_grammar] at h; unfold defineIn at h
    split at h
    · split at h
      · cases h; rfl
      · cases h
    · cases h; rfl
  | .incl p f o ns dts, id, r => by
    intro st a st' hs h
    rw [defineRule_incl] at h
    dsimp only at h
    split at h
    · cases h; exact hs
    · exact keeps_defineRule p id r _ _ _ hs h
  | .inclOverrides (.incl p f o ns dts), id, r => by
    intro st a st' hs h
    rw [defineRule_inclOverrides] at h
    dsimp only at h
    split at h
    · cases h
    · refine keeps_defineRule p id r _ _ _ ?_ h
      exact hs
  | .inclOverrides (.root ..), _, _ => .fail _
  | .inclOverrides (.grammar ..), _, _ => .fail _
  | .inclOverrides (.inclOverrides ..), _, _ => .fail _
  | .inclOverrides (.define ..), _, _ => .fail _
  | .inclOverrides (.element ..), _, _ => .fail _
  | .inclOverrides (.attribute ..), _, _ => .fail _
  | .define _ _, _, _ => .fail _
  | .element _, _, _ => .fail _
  | .attribute _, _, _ => .fail _

theorem keeps_acquireIn (s : Nat) (id : Str) : Keeps F (SCtx.acquireRefImpl.acquireIn s id) := .same fun st a st' h => by
  unfold SCtx.acquireRefImpl.acquireIn at h
  split at h <;> cases h <;> rfl

theorem keeps_acquireRefImpl : ∀ (c : SCtx) (id : Str), Keeps F (c.acquireRefImpl id)
  | .root _ s _ _, id => keeps_acquireIn s id
  | .grammar _ s, id => keeps_acquireIn s id
  | .incl p _ _ _ _, id => keeps_acquireRefImpl p id
  | .inclOverrides p, id => keeps_acquireRefImpl p id
  | .define p _, id => keeps_acquireRefImpl p id
  | .element p, id => keeps_acquireRefImpl p id
  | .attribute p, id => keeps_acquireRefImpl p id

theorem keeps_acquireRef (c : SCtx) (id : Str) : Keeps F (c.acquireRef id) :=
  (Keeps.lift _).bind fun _ => keeps_acquireRefImpl c id

theorem keeps_acquireParentRef : ∀ (c : SCtx) (id : Str), Keeps F (c.acquireParentRef id)
  | .root _ _ _ _, _ => .fail _
  | .grammar p _, id => keeps_acquireRef p id
  | .incl p _ _ _ _, id => keeps_acquireParentRef p id
  | .inclOverrides p, id => keeps_acquireParentRef p id
  | .define p _, id => keeps_acquireParentRef p id
  | .element p, id => keeps_acquireParentRef p id
  | .attribute p, id => keeps_acquireParentRef p id

theorem keeps_newInclude (c : SCtx) (f : Str) : Keeps F (newInclude c f) := .same fun st a st' h => by
  unfold newInclude at h
  split at h
  · cases h
  · cases h; rfl

theorem keeps_newGrammar (c : SCtx) : Keeps F (newGrammar c) := .same fun st a st' h => by
  unfold newGrammar at h; cases h; rfl

theorem keeps_takeStart (s : Nat) : Keeps F (takeStart s) := .same fun st a st' h => by
  unfold takeStart at h
  split at h
  · cases h
  · split at h
    · cases h
    · cases h; rfl

theorem keeps_checkScope (s : Nat) : Keeps F (checkScope s) := .same fun st a st' h => by
  unfold checkScope at h
  split at h
  · cases h; rfl
  · cases h

theorem keeps_checkOvs (s : Nat) : Keeps F (checkOvs s) := .same fun st a st' h => by
  unfold checkOvs at h
  split at h
  · cases h; rfl
  · cases h

section
variable {cp : SCtx → SPattern → CM MPattern} {ci : SCtx → SItem → CM Unit}
  (hcp : ∀ c p, Keeps F (cp c p)) (hci : ∀ c i, Keeps F (ci c i))
include hcp
theorem keeps_compileDefine (c : SCtx) (id : Str) (how : AssignMethod) (p : SPattern) : Keeps F (compileDefine cp c id how p) :=
  (hcp _ _).bind fun _ => keeps_defineRule c id _

theorem keeps_compileOverrides (c : SCtx) : ∀ os, Keeps F (compileOverrides cp c os)
  | [] => .pure _
  | .define id how body :: os =>
    Keeps.bind (m := (compileDefine cp c id how body).inInclude) (keeps_compileDefine hcp c id how body).inInclude
      fun _ => keeps_compileOverrides c os
  | .div :: os => Keeps.bind (m := CM.fail (.panic .includeDiv)) (.fail _) fun _ => keeps_compileOverrides c os
  | .annotation :: os => keeps_compileOverrides c os

include hci
omit hcp in
theorem keeps_compileContents (c : SCtx) : ∀ is, Keeps F (compileContents ci c is)
  | [] => .pure _
  | i :: is => (hci c i).bind fun _ => keeps_compileContents c is

theorem keeps_compileSchema (c : SCtx) (s : SSchema) : Keeps F (compileSchema cp ci c s) := by
  refine (Keeps.lift _).bind fun c => ?_
  obtain ⟨ds, body⟩ := s
  cases body with
  | grammar is => exact keeps_compileContents hci c is
  | pattern p =>
    cases c with
    | incl =>
      cases p with
      | grammar is => exact keeps_compileContents hci _ is
      | _ => exact .fail _
    | _ => exact (hcp _ _).bind fun _ => keeps_defineRule _ _ _

theorem keeps_compileInclude (c : SCtx) (lit : Str) (i : Option Str) (os : List SOverride) : Keeps F (compileInclude F cp ci c lit i os) := by
  refine (Keeps.lift _).bind fun path => (keeps_getSchema path).inInclude.bind fun s => (keeps_newInclude _ _).bind fun inc =>
    (Keeps.lift _).bind fun inc => (keeps_compileOverrides hcp _ os).bind fun _ => (keeps_compileSchema hcp hci inc s).inInclude.bind fun _ => ?_
  cases inc with
  | incl _ _ o _ _ => exact keeps_checkOvs o
  | _ => exact .fail _

theorem keeps_compileExternal (c : SCtx) (lit : Str) (i : Option Str) : Keeps F (compileExternal F cp ci c lit i) := by
  cases i with
  | some _ => exact .fail _
  | none =>
    refine (Keeps.lift _).bind fun path => (keeps_getSchema path).inInclude.bind fun s => (keeps_newInclude _ _).bind fun inc => ?_
    obtain ⟨ds, body⟩ := s
    cases body with
    | pattern p => exact (hcp _ _).inInclude
    | grammar is =>
      refine (keeps_newGrammar _).bind fun ch => (keeps_compileContents hci ch is).bind fun _ => ?_
      cases ch with
      | grammar _ s => exact (keeps_checkScope s).bind fun _ => keeps_takeStart s
      | _ => exact .fail _

omit hcp in
theorem keeps_compileGrammarPattern (c : SCtx) (is : List SItem) : Keeps F (compileGrammarPattern ci c is) := by
  refine (keeps_newGrammar _).bind fun ch => (keeps_compileContents hci ch is).bind fun _ => ?_
  cases ch with
  | grammar _ s => exact keeps_takeStart s
  | _ => exact .fail _
end

theorem keeps_compile : ∀ n, (∀ c p, Keeps F (compilePattern F x n c p)) ∧ ∀ c i, Keeps F (compileItem F x n c i)
  | 0 => ⟨fun _ _ => .fail _, fun _ _ => .fail _⟩
  | n + 1 => by
    obtain ⟨hcp, hci⟩ := keeps_compile n
    constructor
    · intro c p
      cases p with
      | element nc p =>
        refine (Keeps.lift _).bind fun nc => ?_
        split
        · exact .fail _
        · exact (hcp _ _).bind fun _ => .pure _
      | «attribute» nc p => exact (Keeps.lift _).bind fun _ => (hcp _ _).bind fun _ => .pure _
      | list p => exact (hcp _ _).bind fun _ => .pure _
      | mixed p => exact (hcp _ _).bind fun _ => .pure _
      | ident id => exact (keeps_acquireRef c id).bind fun _ => .pure _
      | parent id => exact (keeps_acquireParentRef c id).bind fun _ => .pure _
      | empty => exact .pure _
      | text => exact .pure _
      | notAllowed => exact .pure _
      | external path i => exact keeps_compileExternal hcp hci c path i
      | grammar items => exact keeps_compileGrammarPattern hci c items
      | paren p => exact hcp c p
      | seq p1 p2 => exact (hcp _ _).bind fun _ => (hcp _ _).bind fun _ => .pure _
      | inter p1 p2 => exact (hcp _ _).bind fun _ => (hcp _ _).bind fun _ => .pure _
      | choice p1 p2 => exact (hcp _ _).bind fun _ => (hcp _ _).bind fun _ => .pure _
      | optional p => exact (hcp _ _).bind fun _ => .pure _
      | zeroOrMore p => exact (hcp _ _).bind fun _ => .pure _
      | oneOrMore p => exact (hcp _ _).bind fun _ => .pure _
      | value ty lit => exact (Keeps.lift _).bind fun _ => (Keeps.lift _).bind fun _ => .pure _
      | data ty ps => exact (Keeps.lift _).bind fun _ => (Keeps.lift _).bind fun _ => .pure _
      | dataExcept ty ps ex => exact (Keeps.lift _).bind fun _ => (Keeps.lift _).bind fun _ => (hcp _ _).bind fun _ => .pure _
    · intro c i
      cases i with
      | define id how body => exact keeps_compileDefine hcp c id how body
      | div items => exact keeps_compileContents hci c items
      | «include» path i os => exact keeps_compileInclude hcp hci c path i os
      | «annotation» => exact .pure _

/-! ### contexts and places -/

namespace SCtx
/-- the definition `check_ref_recursion` finds -/
def selfOf : SCtx → Option Str
  | .define _ id => some id
  | .attribute p => p.selfOf
  | _ => none
/-- the same for the enclosing grammar pattern -/
def outerOf : SCtx → Option (Option Str)
  | .root _ _ _ _ => none
  | .grammar p _ => some p.selfOf
  | .incl p _ _ _ _ => p.outerOf
  | .inclOverrides p => p.outerOf
  | .define p _ => p.outerOf
  | .element p => p.outerOf
  | .attribute p => p.outerOf
/-- the included files -/
def filesOf : SCtx → List Str
  | .root _ _ _ _ => []
  | .grammar p _ => p.filesOf
  | .incl p f _ _ _ => f :: p.filesOf
  | .inclOverrides p => p.filesOf
  | .define p _ => p.filesOf
  | .element p => p.filesOf
  | .attribute p => p.filesOf

/-- the compiler knows where it is -/
structure Fits (c : SCtx) (w : Where) : Prop where
  env : c.Agrees w.env
  attr : c.parentAttribute = w.attr
  self : c.selfOf = w.self
  outer : c.outerOf = w.outer
  files : c.filesOf = w.files
  known : ∀ p, c.nsUri p = w.known.lookup p
  dts : ∀ p, c.dtUri p = w.env.dts.lookup p

variable {c : SCtx} {w : Where}
theorem Fits.define (h : c.Fits w) (id : Str) : (SCtx.define c id).Fits (w.define id) := ⟨h.env.define id, h.attr, rfl, h.outer, h.files, h.known, h.dts⟩
theorem Fits.element (h : c.Fits w) : (SCtx.element c).Fits w.element := ⟨h.env.element, h.attr, rfl, h.outer, h.files, h.known, h.dts⟩
theorem Fits.attribute (h : c.Fits w) : (SCtx.attribute c).Fits w.attribute := ⟨h.env.attribute, rfl, h.self, h.outer, h.files, h.known, h.dts⟩
theorem Fits.grammar (h : c.Fits w) (s : Nat) : (SCtx.grammar c s).Fits w.grammar :=
  ⟨h.env.grammar s, rfl, rfl, by simp only [outerOf, h.self, Where.grammar], h.files, h.known, h.dts⟩

theorem Fits.root {f : Str} {s : Nat} {ds : List SDecl} {ns dts : List (Str × Str)}
    (h1 : LookEq ns ([("xml".toList, xmlNs)] ++ declNs ds)) (h2 : LookEq dts ([("xsd".toList, xsdUri)] ++ declDts ds)) :
    (SCtx.root f s ns dts).Fits (.top f ds) :=
  ⟨rootEnv_agrees h1 h2, rfl, rfl, rfl, rfl, h1, h2⟩

theorem Fits.external (h : c.Fits w) (f : Str) (o : Nat) :
    (SCtx.incl c f o [("xml".toList, xmlNs)] [("xsd".toList, xsdUri)]).Fits (w.external f) :=
  ⟨externalEnv_agrees h.env, h.attr, rfl, h.outer, by simp only [filesOf, h.files, Where.external], fun _ => rfl, fun p => by
    show (match List.lookup p [("xsd".toList, xsdUri)] with | some u => some u | none => c.dtUri p) =
      List.lookup p (("xsd".toList, xsdUri) :: w.env.dts)
    rw [h.dts p, lookup_cons_ite, lookup_cons_ite]
    by_cases hp : p = "xsd".toList
    · rw [if_pos hp, if_pos hp]
    · rw [if_neg hp, if_neg hp]; rfl⟩

theorem Fits.override (h : c.Fits w) (f : Str) (o : Nat) {i : Option Str} {ns : List (Str × Str)}
    (h1 : LookEq ns ([("xml".toList, xmlNs)] ++ inheritedNs w.env i)) :
    (SCtx.inclOverrides (.incl c f o ns [("xsd".toList, xsdUri)])).Fits (w.override f i) :=
  ⟨overrides_agrees h.env h1, h.attr, rfl, h.outer, by simp only [filesOf, h.files, Where.override], h1, fun p => by
    show (match List.lookup p [("xsd".toList, xsdUri)] with | some u => some u | none => c.dtUri p) = w.env.dts.lookup p
    rw [h.dts p, lookup_cons_ite]
    by_cases hp : p = "xsd".toList
    · rw [if_pos hp, hp, h.env.xsd]
    · rw [if_neg hp]; rfl⟩

theorem Fits.included (h : c.Fits w) (f : Str) (o : Nat) {i : Option Str} {ds : List SDecl} {ns dts : List (Str × Str)}
    (h1 : LookEq ns ([("xml".toList, xmlNs)] ++ inheritedNs w.env i ++ declNs ds))
    (h2 : LookEq dts ([("xsd".toList, xsdUri)] ++ declDts ds)) :
    (SCtx.incl c f o ns dts).Fits (w.included f i ds) :=
  ⟨includeEnv_agrees h.env h1 h2, h.attr, rfl, h.outer, by simp only [filesOf, h.files, Where.included], h1, fun p => by
    show (match List.lookup p dts with | some u => some u | none => c.dtUri p) =
      List.lookup p ([("xsd".toList, xsdUri)] ++ (declDts ds ++ w.env.dts))
    rw [h.dts p, ← List.append_assoc, lookup_append_pair, ← h2 p]
    cases List.lookup p dts <;> rfl⟩

theorem checkRef_ok {id : Str} : c.checkRefRecursion id = .ok () ↔ c.selfOf ≠ some id := by
  induction c with
  | define p i => by_cases hid : i = id <;> simp [checkRefRecursion, selfOf, hid]
  | «attribute» p ih => simpa [checkRefRecursion, selfOf] using ih
  | _ => simp [checkRefRecursion, selfOf]

theorem checkInclude_ok {f : Str} : c.checkInclude f = .ok () ↔ f ∉ c.filesOf := by
  induction c with
  | root => simp [checkInclude, filesOf]
  | incl p g o ns dts ih =>
    by_cases hf : f = g
    · simp [checkInclude, filesOf, hf]
    · simp [checkInclude, filesOf, hf, ih]
  | inclOverrides p ih => simpa [checkInclude, filesOf] using ih
  | grammar p s ih => simpa [checkInclude, filesOf] using ih
  | define p i ih => simpa [checkInclude, filesOf] using ih
  | element p ih => simpa [checkInclude, filesOf] using ih
  | «attribute» p ih => simpa [checkInclude, filesOf] using ih

theorem checkInclude_err {f : Str} {e : CFault} (h : c.checkInclude f = .error e) : e = .err (.recursiveInclude f) := by
  induction c with
  | root => cases h
  | incl p g o ns dts ih =>
    by_cases hf : f = g
    · simp [checkInclude, hf] at h; rw [← h, hf]
    · simp [checkInclude, hf] at h; exact ih h
  | inclOverrides p ih => exact ih h
  | grammar p s ih => exact ih h
  | define p i ih => exact ih h
  | element p ih => exact ih h
  | «attribute» p ih => exact ih h

theorem acquireParent_ok {id : Str} {st st' : CState} {k : Nat} (h' : c.acquireParentRef id st = .ok (k, st')) :
    ∃ s, c.outerOf = some s ∧ s ≠ some id := by
  induction c with
  | root => cases h'
  | grammar p s =>
    obtain ⟨_, _, h1, _⟩ := CM.bind_ok h'
    obtain ⟨h1', _⟩ := CM.lift_ok h1
    refine ⟨_, rfl, ?_⟩
    exact checkRef_ok.mp h1'
  | incl p g o ns dts ih => exact ih h'
  | inclOverrides p ih => exact ih h'
  | define p i ih => exact ih h'
  | element p ih => exact ih h'
  | «attribute» p ih => exact ih h'
end SCtx

/-! ### declarations and names -/

theorem nsRef_ok' {c : SCtx} {e : NEnv} (ha : ∀ p u, c.nsUri p = some u → e.ns.lookup p = some u) {n : NsRef} {u : Str}
    (h : c.nsRef n = .ok u) : e.nsRef n = some u := by
  cases n with
  | uri _ => cases h; rfl
  | pre _ => exact ha _ _ (nsUriE_ok h)

theorem declared_ok {c : SCtx} {e : NEnv} (ha : ∀ p u, c.nsUri p = some u → e.ns.lookup p = some u) {el : Bool} : ∀ {nc : SNameClass} {nc' : NameClass},
    compileNameclass c el nc = .ok nc' → nc.Declared e
  | .ident _, _, _ => trivial
  | .namespaced _ _, _, _ => trivial
  | .anyName, _, _ => trivial
  | .cname p l, _, h => by
    obtain ⟨u, h1, _⟩ := except_bind_ok h
    exact ⟨u, ha _ _ (nsUriE_ok h1)⟩
  | .nsName n, _, h => by
    obtain ⟨u, h1, _⟩ := except_bind_ok h
    exact ⟨u, nsRef_ok' ha h1⟩
  | .nsNameExcept n ex, _, h => by
    obtain ⟨ex', h1, h⟩ := except_bind_ok h
    obtain ⟨u, h2, _⟩ := except_bind_ok h
    exact ⟨⟨u, nsRef_ok' ha h2⟩, declared_ok ha h1⟩
  | .anyNameExcept ex, _, h => by
    obtain ⟨ex', h1, h⟩ := except_bind_ok h
    exact declared_ok (nc := ex) ha h1
  | .alt a b, _, h => by
    obtain ⟨_, h1, h⟩ := except_bind_ok h
    obtain ⟨_, h2, _⟩ := except_bind_ok h
    exact ⟨declared_ok ha h1, declared_ok ha h2⟩
  | .paren a, _, h => declared_ok (nc := a) ha h

/-- the datatype prefixes declared in this very file -/
def SCtx.dtsOf : SCtx → List (Str × Str)
  | .root _ _ _ dts => dts
  | .incl _ _ _ _ dts => dts
  | _ => []

theorem lookup_none_iff {α : Type} {l : List (Str × α)} {p : Str} : l.lookup p = none ↔ p ∉ l.map (·.1) := by
  induction l with
  | nil => simp
  | cons a l ih =>
    obtain ⟨k, v⟩ := a
    rw [lookup_cons_ite]
    by_cases h : p = k
    · simp [h]
    · simp [h, ih]

theorem declareNamespace_dts {c c' : SCtx} {p u : Str} (h : c.declareNamespace p u = .ok c') : c'.dtsOf = c.dtsOf := by
  cases c with
  | root => simp only [SCtx.declareNamespace] at h; cases h; split <;> rfl
  | incl => simp only [SCtx.declareNamespace] at h; cases h; split <;> rfl
  | _ => cases h

theorem declareDatatype_dts {c c' : SCtx} {p u : Str} (h : c.declareDatatype p u = .ok c') :
    c'.dtsOf = (p, u) :: c.dtsOf ∧ p ∉ c.dtsOf.map (·.1) := by
  cases c with
  | root f s ns dts =>
    simp only [SCtx.declareDatatype] at h
    split at h
    · cases h
    · rename_i hn; cases h
      exact ⟨rfl, lookup_none_iff.mp (by cases hl : List.lookup p dts with | none => exact hl | some v => rw [hl] at hn; exact absurd rfl hn)⟩
  | incl q f o ns dts =>
    simp only [SCtx.declareDatatype] at h
    split at h
    · cases h
    · rename_i hn; cases h
      exact ⟨rfl, lookup_none_iff.mp (by cases hl : List.lookup p dts with | none => exact hl | some v => rw [hl] at hn; exact absurd rfl hn)⟩
  | _ => cases h

theorem decls_ok : ∀ {ds : List SDecl} {c c' : SCtx}, compileDeclarations c ds = .ok c' → (c.dtsOf.map (·.1)).Nodup →
    (∀ p, .namespace p none ∉ ds) ∧ (∀ p, .defaultNamespace p none ∉ ds) ∧
      (c.dtsOf.map (·.1) ++ (declDts ds).map (·.1)).Nodup
  | [], c, c', h, hn => by simpa [declDts] using hn
  | d :: ds, c, c', h, hn => by
    obtain ⟨c1, h1, h2⟩ := except_bind_ok h
    cases d with
    | «namespace» p u =>
      cases u with
      | none => cases h1
      | some u =>
        have hd := declareNamespace_dts h1
        obtain ⟨a, b, d⟩ := decls_ok h2 (by rw [hd]; exact hn)
        rw [hd] at d
        exact ⟨by simpa using a, by simpa using b, d⟩
    | defaultNamespace p u =>
      cases u with
      | none => cases h1
      | some u =>
        have hd : c1.dtsOf = c.dtsOf := by
          cases p with
          | none => cases h1; rfl
          | some p => exact declareNamespace_dts h1
        obtain ⟨a, b, d⟩ := decls_ok h2 (by rw [hd]; exact hn)
        rw [hd] at d
        exact ⟨by simpa using a, by simpa using b, d⟩
    | datatypes p u =>
      obtain ⟨hd, hp⟩ := declareDatatype_dts h1
      obtain ⟨a, b, d⟩ := decls_ok h2 (by rw [hd]; exact List.nodup_cons.mpr ⟨hp, hn⟩)
      rw [hd] at d
      refine ⟨by simpa using a, by simpa using b, ?_⟩
      simp only [declDts, List.map_cons, List.cons_append] at d ⊢
      exact (List.perm_middle.nodup_iff).mpr d

/-! ### every place -/

/-- the compiler got through this place, with the budget `n` -/
def DoneAt (F : Files) (x : Ext) (n : Nat) : Place → Prop
  | .pat w p => ∃ c st q st', c.Fits w ∧ Faithful F st.loaded ∧ compilePattern F x n c p st = .ok (q, st')
  | .items w is => ∃ c st st', c.Fits w ∧ Faithful F st.loaded ∧ compileContents (compileItem F x n) c is st = .ok ((), st')

/-- the compiler got through this place -/
def Done (F : Files) (x : Ext) (pl : Place) : Prop := ∃ n, DoneAt F x n pl

theorem contents_mem {ci : SCtx → SItem → CM Unit} (hci : ∀ c i, Keeps F (ci c i)) {c : SCtx} {i : SItem} :
    ∀ {is : List SItem} {st st' : CState}, Faithful F st.loaded → compileContents ci c is st = .ok ((), st') → i ∈ is →
    ∃ st1 st2, Faithful F st1.loaded ∧ ci c i st1 = .ok ((), st2)
  | [], _, _, _, _, h => nomatch h
  | j :: is, st, st', hs, h, hi => by
    obtain ⟨_, st1, h1, h2⟩ := CM.bind_ok h
    rcases List.mem_cons.mp hi with rfl | hi
    · exact ⟨st, st1, hs, h1⟩
    · exact contents_mem hci (hci _ _ _ _ _ hs h1) h2 hi

theorem overrides_mem {cp : SCtx → SPattern → CM MPattern} (hcp : ∀ c p, Keeps F (cp c p)) {c : SCtx} {id : Str} {how : AssignMethod} {p : SPattern} :
    ∀ {os : List SOverride} {st st' : CState}, Faithful F st.loaded → compileOverrides cp c os st = .ok ((), st') → .define id how p ∈ os →
    ∃ st1 st2, Faithful F st1.loaded ∧ compileDefine cp c id how p st1 = .ok ((), st2)
  | [], _, _, _, _, h => nomatch h
  | .define id' how' p' :: os, st, st', hs, h, hi => by
    obtain ⟨_, st1, h1, h2⟩ := CM.bind_ok h
    have h1 := CM.inInclude_ok h1
    rcases List.mem_cons.mp hi with he | hi
    · cases he; exact ⟨st, st1, hs, h1⟩
    · exact overrides_mem hcp (keeps_compileDefine hcp _ _ _ _ _ _ _ hs h1) h2 hi
  | .div :: os, st, st', hs, h, hi => by
    obtain ⟨_, st1, h1, h2⟩ := CM.bind_ok h
    cases h1
  | .annotation :: os, st, st', hs, h, hi => by
    rcases List.mem_cons.mp hi with he | hi
    · cases he
    · exact overrides_mem (os := os) hcp hs h hi

theorem overrides_noDiv {cp : SCtx → SPattern → CM MPattern} {c : SCtx} :
    ∀ {os : List SOverride} {st st' : CState}, compileOverrides cp c os st = .ok ((), st') → .div ∉ os
  | [], _, _, _, h => nomatch h
  | .define id' how' p' :: os, st, st', h, hi => by
    obtain ⟨_, st1, h1, h2⟩ := CM.bind_ok h
    rcases List.mem_cons.mp hi with he | hi
    · cases he
    · exact overrides_noDiv h2 hi
  | .div :: os, st, st', h, hi => by
    obtain ⟨_, st1, h1, h2⟩ := CM.bind_ok h
    cases h1
  | .annotation :: os, st, st', h, hi => by
    rcases List.mem_cons.mp hi with he | hi
    · cases he
    · exact overrides_noDiv (os := os) h hi

theorem getSchema_faithful {name : Str} {st st' : CState} {s : SSchema} (hs : Faithful F st.loaded)
    (h : getSchema F name st = .ok (s, st')) : F.load name = .ok s ∧ Faithful F st'.loaded := by
  refine ⟨?_, keeps_getSchema name _ _ _ hs h⟩
  unfold getSchema at h
  split at h
  · rename_i hl; cases h; exact hs _ _ hl
  · split at h
    · rename_i hl; cases h; exact hl
    · cases h

theorem newInclude_ok {c inc : SCtx} {f : Str} {st st' : CState} (h : newInclude c f st = .ok (inc, st')) :
    c.checkInclude f = .ok () ∧ (∃ o, inc = .incl c f o [("xml".toList, xmlNs)] [("xsd".toList, xsdUri)]) ∧ st'.loaded = st.loaded := by
  unfold newInclude at h
  split at h
  · cases h
  · rename_i hc; cases h; exact ⟨hc, ⟨_, rfl⟩, rfl⟩

theorem newGrammar_ok {c ch : SCtx} {st st' : CState} (h : newGrammar c st = .ok (ch, st')) :
    (∃ s, ch = .grammar c s) ∧ st'.loaded = st.loaded := by
  unfold newGrammar at h; cases h; exact ⟨⟨_, rfl⟩, rfl⟩

/-- what an `include` that compiles went through -/
theorem include_parts {cp : SCtx → SPattern → CM MPattern} {ci : SCtx → SItem → CM Unit} (hcp : ∀ c p, Keeps F (cp c p))
    {c : SCtx} {w : Where} (hw : c.Fits w) {lit : Str} {i : Option Str} {os : List SOverride} {st st' : CState}
    (hs : Faithful F st.loaded) (h : compileInclude F cp ci c lit i os st = .ok ((), st')) :
    ∃ f s is, F.join w.env.file lit = some f ∧ F.load f = .ok s ∧ s.Grammar is ∧ f ∉ w.files ∧ DeclsOK s.decls ∧
      (∀ p, i = some p → ∃ u, w.env.ns.lookup p = some u ∧ w.known.lookup p = some u) ∧
      (∃ co sto sto', co.Fits (w.override f i) ∧ Faithful F sto.loaded ∧ compileOverrides cp co os sto = .ok ((), sto')) ∧
      (∃ cs sts sts', cs.Fits (w.included f i s.decls) ∧ Faithful F sts.loaded ∧ compileContents ci cs is sts = .ok ((), sts')) := by
  obtain ⟨path, _, h1, h⟩ := CM.bind_ok h
  obtain ⟨hp, rfl⟩ := CM.lift_ok h1
  obtain ⟨s, st1, h2, h⟩ := CM.bind_ok h
  obtain ⟨hl, hs1⟩ := getSchema_faithful hs (CM.inInclude_ok h2)
  obtain ⟨inc, st2, h3, h⟩ := CM.bind_ok h
  obtain ⟨hck, ⟨o, rfl⟩, hl2⟩ := newInclude_ok h3
  obtain ⟨inc', _, h4, h⟩ := CM.bind_ok h
  obtain ⟨h4', rfl⟩ := CM.lift_ok h4
  obtain ⟨ns, rfl, hns⟩ := inheritCtx_spec hw.env h4'
  obtain ⟨_, st3, h5, h⟩ := CM.bind_ok h
  obtain ⟨_, st4, h6, h⟩ := CM.bind_ok h
  have hnot : path ∉ w.files := by rw [← hw.files]; exact SCtx.checkInclude_ok.mp hck
  have hs2 : Faithful F st2.loaded := by rw [hl2]; exact hs1
  have hinh : ∀ p, i = some p → ∃ u, w.env.ns.lookup p = some u ∧ w.known.lookup p = some u := by
    rintro p rfl
    unfold inheritNs at h4'
    dsimp only at h4'
    split at h4'
    · cases h4'
    · rename_i u hu; exact ⟨u, hw.env.ns _ _ hu, (hw.known _).symm.trans hu⟩
  have hs3 := keeps_compileOverrides hcp _ os _ _ _ hs2 h5
  have hov : (SCtx.inclOverrides (.incl c path o ns [("xsd".toList, xsdUri)])).Fits (w.override path i) :=
    hw.override _ _ hns
  obtain ⟨c1, st5, h7, h8⟩ := CM.bind_ok (CM.inInclude_ok h6)
  obtain ⟨h7', rfl⟩ := CM.lift_ok h7
  have hdk : DeclsOK s.decls := by
    obtain ⟨a, b, d⟩ := decls_ok h7' (by simp [SCtx.dtsOf])
    exact ⟨a, b, d⟩
  have hdecl := compileDeclarations_incl h7'
  cases hdecl with
  | incl a b =>
    rename_i ns' dts'
    have hcs : (SCtx.incl c path o ns' dts').Fits (w.included path i s.decls) :=
      hw.included _ _ (a.trans hns.append) b
    have : ∃ is, s.Grammar is ∧ compileContents ci (SCtx.incl c path o ns' dts') is st3 = .ok ((), st4) := by
      obtain ⟨decls, body⟩ := s
      cases body with
      | grammar items => exact ⟨items, .grammar, h8⟩
      | pattern p =>
        cases p with
        | grammar items => exact ⟨items, .pattern, h8⟩
        | _ => cases h8
    obtain ⟨is, hg, hc⟩ := this
    exact ⟨path, s, is, includePath_spec hw.env hp, hl, hg, hnot, hdk, hinh, ⟨_, st2, st3, hov, hs2, h5⟩, _, st3, st4, hcs, hs3, hc⟩

/-- what an `external` that compiles went through -/
theorem external_parts {cp : SCtx → SPattern → CM MPattern} {ci : SCtx → SItem → CM Unit}
    {c : SCtx} {w : Where} (hw : c.Fits w) {lit : Str} {i : Option Str} {st st' : CState} {q : MPattern}
    (hs : Faithful F st.loaded) (h : compileExternal F cp ci c lit i st = .ok (q, st')) :
    i = none ∧ ∃ f s, F.join w.env.file lit = some f ∧ F.load f = .ok s ∧ f ∉ w.files ∧
      (∀ p, s.body = .pattern p → ∃ c1 st1, c1.Fits (w.external f) ∧ Faithful F st1.loaded ∧ cp c1 p st1 = .ok (q, st')) ∧
      (∀ is, s.body = .grammar is → ∃ c1 st1 st2, c1.Fits w.grammar ∧ Faithful F st1.loaded ∧ compileContents ci c1 is st1 = .ok ((), st2)) := by
  cases i with
  | some _ => cases h
  | none =>
    obtain ⟨path, _, h1, h⟩ := CM.bind_ok h
    obtain ⟨hp, rfl⟩ := CM.lift_ok h1
    obtain ⟨s, st1, h2, h⟩ := CM.bind_ok h
    obtain ⟨hl, hs1⟩ := getSchema_faithful hs (CM.inInclude_ok h2)
    obtain ⟨inc, st2, h3, h⟩ := CM.bind_ok h
    obtain ⟨hck, ⟨o, rfl⟩, hl2⟩ := newInclude_ok h3
    have hs2 : Faithful F st2.loaded := by rw [hl2]; exact hs1
    refine ⟨rfl, path, s, includePath_spec hw.env hp, hl, by rw [← hw.files]; exact SCtx.checkInclude_ok.mp hck, ?_, ?_⟩
    · intro p hb
      obtain ⟨ds, body⟩ := s
      cases hb
      exact ⟨_, st2, hw.external _ _, hs2, CM.inInclude_ok h⟩
    · intro is hb
      obtain ⟨ds, body⟩ := s
      cases hb
      obtain ⟨child, st3, h4, h⟩ := CM.bind_ok h
      obtain ⟨_, stc, h5, h⟩ := CM.bind_ok h
      obtain ⟨⟨sc, rfl⟩, hl3⟩ := newGrammar_ok h4
      exact ⟨_, st3, stc, hw.grammar sc, by rw [hl3]; exact hs2, h5⟩

theorem DoneAt.within {n : Nat} {a b : Place} (h : DoneAt F x n a) (hw : Within F a b) : ∃ n', n' < n ∧ DoneAt F x n' b := by
  cases hw with
  | define hi =>
    obtain ⟨c, st, st', hf, hs, h⟩ := h
    cases n with
    | zero => obtain ⟨_, _, _, h⟩ := contents_mem (keeps_compile 0).2 hs h hi; cases h
    | succ n =>
      obtain ⟨st1, st2, hs1, h⟩ := contents_mem (keeps_compile (n + 1)).2 hs h hi
      obtain ⟨q, st3, h1, _⟩ := CM.bind_ok h
      exact ⟨n, Nat.lt_succ_self _, _, st1, q, st3, hf.define _, hs1, h1⟩
  | div hi =>
    obtain ⟨c, st, st', hf, hs, h⟩ := h
    cases n with
    | zero => obtain ⟨_, _, _, h⟩ := contents_mem (keeps_compile 0).2 hs h hi; cases h
    | succ n =>
      obtain ⟨st1, st2, hs1, h⟩ := contents_mem (keeps_compile (n + 1)).2 hs h hi
      exact ⟨n, Nat.lt_succ_self _, c, st1, st2, hf, hs1, h⟩
  | included hi hj hl hg =>
    obtain ⟨c, st, st', hf, hs, h⟩ := h
    cases n with
    | zero => obtain ⟨_, _, _, h⟩ := contents_mem (keeps_compile 0).2 hs h hi; cases h
    | succ n =>
      obtain ⟨st1, st2, hs1, h⟩ := contents_mem (keeps_compile (n + 1)).2 hs h hi
      obtain ⟨f, s, is, hj', hl', hg', _, _, _, _, cs, sts, sts', a, b, d⟩ := include_parts (keeps_compile n).1 hf hs1 h
      rw [hj] at hj'; cases hj'
      rw [hl] at hl'; cases hl'
      rw [hg.det hg']
      exact ⟨n, Nat.lt_succ_self _, cs, sts, sts', a, b, d⟩
  | override hi hj ho =>
    obtain ⟨c, st, st', hf, hs, h⟩ := h
    cases n with
    | zero => obtain ⟨_, _, _, h⟩ := contents_mem (keeps_compile 0).2 hs h hi; cases h
    | succ n =>
      obtain ⟨st1, st2, hs1, h⟩ := contents_mem (keeps_compile (n + 1)).2 hs h hi
      obtain ⟨f, s, is, hj', _, _, _, _, _, ⟨co, sto, sto', a, b, d⟩, _⟩ := include_parts (keeps_compile n).1 hf hs1 h
      rw [hj] at hj'; cases hj'
      obtain ⟨st3, st4, hs3, h⟩ := overrides_mem (keeps_compile n).1 b d ho
      obtain ⟨q, st5, h1, _⟩ := CM.bind_ok h
      exact ⟨n, Nat.lt_succ_self _, _, st3, q, st5, a.define _, hs3, h1⟩
  | grammar =>
    obtain ⟨c, st, q, st', hf, hs, h⟩ := h
    cases n with
    | zero => cases h
    | succ n =>
      obtain ⟨ch, st1, h1, h⟩ := CM.bind_ok h
      obtain ⟨_, st2, h2, _⟩ := CM.bind_ok h
      obtain ⟨⟨s, rfl⟩, hl⟩ := newGrammar_ok h1
      exact ⟨n, Nat.lt_succ_self _, _, st1, st2, hf.grammar s, by rw [hl]; exact hs, h2⟩
  | externalPattern hj hl hb =>
    obtain ⟨c, st, q, st', hf, hs, h⟩ := h
    cases n with
    | zero => cases h
    | succ n =>
      obtain ⟨_, f, s, hj', hl', _, h1, _⟩ := external_parts hf hs h
      rw [hj] at hj'; cases hj'
      rw [hl] at hl'; cases hl'
      obtain ⟨c1, st1, a, b, d⟩ := h1 _ hb
      exact ⟨n, Nat.lt_succ_self _, c1, st1, q, st', a, b, d⟩
  | externalGrammar hj hl hb =>
    obtain ⟨c, st, q, st', hf, hs, h⟩ := h
    cases n with
    | zero => cases h
    | succ n =>
      obtain ⟨_, f, s, hj', hl', _, _, h1⟩ := external_parts hf hs h
      rw [hj] at hj'; cases hj'
      rw [hl] at hl'; cases hl'
      obtain ⟨c1, st1, st2, a, b, d⟩ := h1 _ hb
      exact ⟨n, Nat.lt_succ_self _, c1, st1, st2, a, b, d⟩
  | element =>
    obtain ⟨c, st, q, st', hf, hs, h⟩ := h
    cases n with
    | zero => cases h
    | succ n =>
      obtain ⟨nc', _, h1, h⟩ := CM.bind_ok h
      obtain ⟨hn, rfl⟩ := CM.lift_ok h1
      split at h
      · cases h
      · obtain ⟨q', st1, h2, h⟩ := CM.bind_ok h
        exact ⟨n, Nat.lt_succ_self _, _, st, q', st1, hf.element, hs, h2⟩
  | «attribute» =>
    obtain ⟨c, st, q, st', hf, hs, h⟩ := h
    cases n with
    | zero => cases h
    | succ n =>
      obtain ⟨nc', _, h1, h⟩ := CM.bind_ok h
      obtain ⟨hn, rfl⟩ := CM.lift_ok h1
      obtain ⟨q', st1, h2, h⟩ := CM.bind_ok h
      exact ⟨n, Nat.lt_succ_self _, _, st, q', st1, hf.attribute, hs, h2⟩
  | except =>
    obtain ⟨c, st, q, st', hf, hs, h⟩ := h
    cases n with
    | zero => cases h
    | succ n =>
      obtain ⟨_, _, h1, h⟩ := CM.bind_ok h
      obtain ⟨_, rfl⟩ := CM.lift_ok h1
      obtain ⟨_, _, h1, h⟩ := CM.bind_ok h
      obtain ⟨_, rfl⟩ := CM.lift_ok h1
      obtain ⟨q', st1, h2, h⟩ := CM.bind_ok h
      exact ⟨n, Nat.lt_succ_self _, _, _, q', st1, hf, hs, h2⟩
  | paren =>
    obtain ⟨c, st, q, st', hf, hs, h⟩ := h
    cases n with
    | zero => cases h
    | succ n => exact ⟨n, Nat.lt_succ_self _, _, _, q, st', hf, hs, h⟩
  | seqRight | interRight | choiceRight =>
    obtain ⟨c, st, q, st', hf, hs, h⟩ := h
    cases n with
    | zero => cases h
    | succ n =>
      obtain ⟨q1, st1, h1, h⟩ := CM.bind_ok h
      obtain ⟨q2, st2, h2, h⟩ := CM.bind_ok h
      exact ⟨n, Nat.lt_succ_self _, _, _, q2, st2, hf, (keeps_compile n).1 _ _ _ _ _ hs h1, h2⟩
  | _ =>
    obtain ⟨c, st, q, st', hf, hs, h⟩ := h
    cases n with
    | zero => cases h
    | succ n =>
      obtain ⟨q', st1, h2, h⟩ := CM.bind_ok h
      exact ⟨n, Nat.lt_succ_self _, _, _, q', st1, hf, hs, h2⟩

theorem Done.within {a b : Place} (h : Done F x a) (hw : Within F a b) : Done F x b :=
  let ⟨_, h⟩ := h
  let ⟨n', _, h'⟩ := h.within hw
  ⟨n', h'⟩

theorem Done.ok {a : Place} (h : Done F x a) : a.OK F x := by
  cases a with
  | items w is =>
    intro i hi
    obtain ⟨n, c, st, st', hf, hs, h⟩ := h
    cases i with
    | «include» path inh os =>
      cases n with
      | zero => obtain ⟨_, _, _, h⟩ := contents_mem (keeps_compile 0).2 hs h hi; cases h
      | succ n =>
        obtain ⟨st1, st2, hs1, h⟩ := contents_mem (keeps_compile (n + 1)).2 hs h hi
        obtain ⟨f, s, is, a1, a2, a3, a4, a5, a6, ⟨_, _, _, _, _, a7⟩, _⟩ := include_parts (keeps_compile n).1 hf hs1 h
        exact ⟨f, s, is, a1, a2, a3, a4, a5, a6, overrides_noDiv a7⟩
    | _ => trivial
  | pat w p =>
    obtain ⟨n, c, st, q, st', hf, hs, h⟩ := h
    cases n with
    | zero => cases h
    | succ n =>
      cases p with
      | element nc p =>
        obtain ⟨nc', _, h1, h⟩ := CM.bind_ok h
        obtain ⟨hn, rfl⟩ := CM.lift_ok h1
        split at h
        · cases h
        · rename_i hattr
          exact ⟨by rw [← hf.attr]; simpa using hattr, declared_ok hf.env.ns hn, declared_ok (fun p u h => (hf.known p).symm.trans h) hn⟩
      | «attribute» nc p =>
        obtain ⟨nc', _, h1, h⟩ := CM.bind_ok h
        obtain ⟨hn, rfl⟩ := CM.lift_ok h1
        exact ⟨declared_ok hf.env.ns hn, declared_ok (fun p u h => (hf.known p).symm.trans h) hn⟩
      | ident id =>
        obtain ⟨k, st1, h1, h⟩ := CM.bind_ok h
        obtain ⟨_, _, h2, _⟩ := CM.bind_ok h1
        obtain ⟨h2', _⟩ := CM.lift_ok h2
        show w.self ≠ some id
        rw [← hf.self]; exact SCtx.checkRef_ok.mp h2'
      | parent id =>
        obtain ⟨k, st1, h1, h⟩ := CM.bind_ok h
        show ∃ s, w.outer = some s ∧ s ≠ some id
        rw [← hf.outer]; exact SCtx.acquireParent_ok h1
      | external path i =>
        obtain ⟨a, f, s, b, d, e, _⟩ := external_parts hf hs h
        exact ⟨a, f, s, b, d, e⟩
      | value ty lit =>
        obtain ⟨nm, _, h1, h⟩ := CM.bind_ok h
        obtain ⟨hn, rfl⟩ := CM.lift_ok h1
        obtain ⟨v, _, h2, h⟩ := CM.bind_ok h
        obtain ⟨hv, rfl⟩ := CM.lift_ok h2
        exact ⟨nm, v, dtName_spec hf.env hn, dtRes_ok hv⟩
      | data ty ps =>
        obtain ⟨nm, _, h1, h⟩ := CM.bind_ok h
        obtain ⟨hn, rfl⟩ := CM.lift_ok h1
        obtain ⟨v, _, h2, h⟩ := CM.bind_ok h
        obtain ⟨hv, rfl⟩ := CM.lift_ok h2
        exact ⟨nm, v, dtName_spec hf.env hn, dtRes_ok hv⟩
      | dataExcept ty ps ex =>
        obtain ⟨nm, _, h1, h⟩ := CM.bind_ok h
        obtain ⟨hn, rfl⟩ := CM.lift_ok h1
        obtain ⟨v, _, h2, h⟩ := CM.bind_ok h
        obtain ⟨hv, rfl⟩ := CM.lift_ok h2
        exact ⟨nm, v, dtName_spec hf.env hn, dtRes_ok hv⟩
      | _ => trivial

theorem Done.inside {a b : Place} (h : Inside F a b) : Done F x a → Done F x b := by
  induction h with
  | refl => exact id
  | step hw _ ih => exact fun h => ih (h.within hw)

theorem Inside.trans {a b c : Place} (h : Inside F a b) (h' : Inside F b c) : Inside F a c := by
  induction h with
  | refl => exact h'
  | step hw _ ih => exact .step hw (ih h')

theorem Occurs.inside {name : Str} {a b : Place} (h : Occurs F name a) (h' : Inside F a b) : Occurs F name b := by
  obtain ⟨r, h1, h2⟩ := h
  exact ⟨r, h1, h2.trans h'⟩

/-- the compiler got through the top-level file -/
theorem compileFile_done {l : List (Str × SSchema)} (hl : Faithful F l) {n m k : Nat} {name : Str} {st0 st : CState}
    (h0 : st0.loaded = l) (h : compileFile F x n m name st0 = .ok (k, st)) :
    (∃ s, F.load name = .ok s ∧ DeclsOK s.decls) ∧ ∀ pl, FilePlace F name pl → DoneAt F x n pl := by
  obtain ⟨s, st1, h1, h⟩ := CM.bind_ok h
  obtain ⟨hload, hs1⟩ := getSchema_faithful (by rw [h0]; exact hl) h1
  obtain ⟨c, st2, h2, h⟩ := CM.bind_ok h
  unfold newRoot at h2
  cases h2
  obtain ⟨_, st3, h3, _⟩ := CM.bind_ok h
  obtain ⟨c1, _, h4, h5⟩ := CM.bind_ok h3
  obtain ⟨h4', rfl⟩ := CM.lift_ok h4
  refine ⟨⟨s, hload, decls_ok h4' (by simp [SCtx.dtsOf])⟩, ?_⟩
  intro a hfp
  cases compileDeclarations_root h4' with
  | root ha hb =>
    have hfit : (SCtx.root name st1.scopes.length _ _).Fits (.top name s.decls) :=
      .root ha hb
    cases hfp with
    | pattern hl' hbody =>
      rw [hload] at hl'; cases hl'
      obtain ⟨decls, body⟩ := s
      cases hbody
      obtain ⟨q, st4, h6, _⟩ := CM.bind_ok h5
      exact ⟨_, { st1 with scopes := st1.scopes ++ [[]] }, q, st4, hfit, hs1, h6⟩
    | grammar hl' hbody =>
      rw [hload] at hl'; cases hl'
      obtain ⟨decls, body⟩ := s
      cases hbody
      exact ⟨_, { st1 with scopes := st1.scopes ++ [[]] }, st3, hfit, hs1, h5⟩

/-- a schema that compiles is fine everywhere -/
theorem compileFile_places {l : List (Str × SSchema)} (hl : Faithful F l) {n m k : Nat} {name : Str} {st0 st : CState}
    (h0 : st0.loaded = l) (h : compileFile F x n m name st0 = .ok (k, st)) :
    (∃ s, F.load name = .ok s ∧ DeclsOK s.decls) ∧ ∀ pl, Occurs F name pl → pl.OK F x := by
  obtain ⟨h1, h2⟩ := compileFile_done hl h0 h
  refine ⟨h1, ?_⟩
  rintro pl ⟨a, hfp, hin⟩
  exact (Done.inside hin ⟨n, h2 a hfp⟩).ok

end Verif
