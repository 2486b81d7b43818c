import Verif.Spec.Alike
import Verif.Proof.SchemaMore
/-
Schemas that say the same compile alike.
-/
namespace Verif
variable {F F' : Files} {x : Ext} {α β : Type}

/-! ### contexts that differ in prefixes only -/

/-- the same context but for the prefixes -/
inductive Sk : SCtx → SCtx → Prop
  | root {f s ns dts ns' dts'} : Sk (.root f s ns dts) (.root f s ns' dts')
  | incl {p p' f o ns dts ns' dts'} : Sk p p' → Sk (.incl p f o ns dts) (.incl p' f o ns' dts')
  | inclOverrides {p p'} : Sk p p' → Sk (.inclOverrides p) (.inclOverrides p')
  | grammar {p p' s} : Sk p p' → Sk (.grammar p s) (.grammar p' s)
  | define {p p' id} : Sk p p' → Sk (.define p id) (.define p' id)
  | element {p p'} : Sk p p' → Sk (.element p) (.element p')
  | attribute {p p'} : Sk p p' → Sk (.attribute p) (.attribute p')

theorem Sk.file : ∀ {c c' : SCtx}, Sk c c' → c'.file = c.file
  | _, _, .root => rfl
  | _, _, .incl _ => rfl
  | _, _, .grammar h => h.file
  | _, _, .define h => h.file
  | _, _, .element h => h.file
  | _, _, .attribute h => h.file
  | _, _, .inclOverrides (.incl h) => h.file
  | _, _, .inclOverrides .root => rfl
  | _, _, .inclOverrides (.inclOverrides _) => rfl
  | _, _, .inclOverrides (.grammar _) => rfl
  | _, _, .inclOverrides (.define _) => rfl
  | _, _, .inclOverrides (.element _) => rfl
  | _, _, .inclOverrides (.attribute _) => rfl

theorem Sk.defineRule : ∀ {c c' : SCtx}, Sk c c' → ∀ id r, c'.defineRule id r = c.defineRule id r
  | _, _, .root, _, _ => rfl
  | _, _, .grammar _, _, _ => rfl
  | _, _, .incl h, id, r => by
    rw [defineRule_incl, defineRule_incl]
    funext st
    rw [h.defineRule id r]
  | _, _, .define _, _, _ => rfl
  | _, _, .element _, _, _ => rfl
  | _, _, .attribute _, _, _ => rfl
  | _, _, .inclOverrides (.incl h), id, r => by
    rw [defineRule_inclOverrides, defineRule_inclOverrides]
    funext st
    rw [h.defineRule id r]
  | _, _, .inclOverrides .root, _, _ => rfl
  | _, _, .inclOverrides (.inclOverrides _), _, _ => rfl
  | _, _, .inclOverrides (.grammar _), _, _ => rfl
  | _, _, .inclOverrides (.define _), _, _ => rfl
  | _, _, .inclOverrides (.element _), _, _ => rfl
  | _, _, .inclOverrides (.attribute _), _, _ => rfl

theorem Sk.acquireRefImpl : ∀ {c c' : SCtx}, Sk c c' → ∀ id, c'.acquireRefImpl id = c.acquireRefImpl id
  | _, _, .root, _ => rfl
  | _, _, .grammar _, _ => rfl
  | _, _, .incl h, id => h.acquireRefImpl id
  | _, _, .inclOverrides h, id => h.acquireRefImpl id
  | _, _, .define h, id => h.acquireRefImpl id
  | _, _, .element h, id => h.acquireRefImpl id
  | _, _, .attribute h, id => h.acquireRefImpl id

theorem Sk.checkRefRecursion : ∀ {c c' : SCtx}, Sk c c' → ∀ id, c'.checkRefRecursion id = c.checkRefRecursion id
  | _, _, .root, _ => rfl
  | _, _, .grammar _, _ => rfl
  | _, _, .incl _, _ => rfl
  | _, _, .inclOverrides _, _ => rfl
  | _, _, .define _, _ => rfl
  | _, _, .element _, _ => rfl
  | _, _, .attribute h, id => h.checkRefRecursion id

theorem Sk.acquireRef {c c' : SCtx} (h : Sk c c') (id : Str) : c'.acquireRef id = c.acquireRef id := by
  unfold SCtx.acquireRef
  rw [h.checkRefRecursion, h.acquireRefImpl]

theorem Sk.acquireParentRef : ∀ {c c' : SCtx}, Sk c c' → ∀ id, c'.acquireParentRef id = c.acquireParentRef id
  | _, _, .root, _ => rfl
  | _, _, .grammar h, id => h.acquireRef id
  | _, _, .incl h, id => h.acquireParentRef id
  | _, _, .inclOverrides h, id => h.acquireParentRef id
  | _, _, .define h, id => h.acquireParentRef id
  | _, _, .element h, id => h.acquireParentRef id
  | _, _, .attribute h, id => h.acquireParentRef id

theorem Sk.parentAttribute : ∀ {c c' : SCtx}, Sk c c' → c'.parentAttribute = c.parentAttribute
  | _, _, .root => rfl
  | _, _, .grammar _ => rfl
  | _, _, .incl h => h.parentAttribute
  | _, _, .inclOverrides h => h.parentAttribute
  | _, _, .define h => h.parentAttribute
  | _, _, .element h => h.parentAttribute
  | _, _, .attribute _ => rfl

theorem Sk.checkInclude : ∀ {c c' : SCtx}, Sk c c' → ∀ f, c'.checkInclude f = c.checkInclude f
  | _, _, .root, _ => rfl
  | _, _, .grammar h, f => h.checkInclude f
  | _, _, @Sk.incl _ _ g _ _ _ _ _ h, f => by
    unfold SCtx.checkInclude
    rw [h.checkInclude f]
  | _, _, .inclOverrides h, f => h.checkInclude f
  | _, _, .define h, f => h.checkInclude f
  | _, _, .element h, f => h.checkInclude f
  | _, _, .attribute h, f => h.checkInclude f

/-! ### names -/

/-- in the context names mean what the environment says -/
structure Sees (c : SCtx) (e : NEnv) : Prop where
  ns : ∀ p, c.nsUri p = e.ns.lookup p
  dts : ∀ p u, e.dts.lookup p = some u → c.dtUri p = some u
  xsd : e.dts.lookup "xsd".toList = some xsdUri

theorem Sees.nsRef {c : SCtx} {e : NEnv} (h : Sees c e) {n : NsRef} {u : Str} (hn : e.nsRef n = some u) : c.nsRef n = .ok u := by
  cases n with
  | uri v => cases hn; rfl
  | pre p =>
    unfold SCtx.nsRef SCtx.nsUriE
    simp only [h.ns, show e.ns.lookup p = some u from hn]

theorem Sees.name {c : SCtx} {e : NEnv} (h : Sees c e) (b : Bool) : ∀ {n : SNameClass} {k : NameClass}, e.name n = some k →
    compileNameclass c b n = .ok k
  | .ident n, k, hk => by
    cases hk
    unfold compileNameclass SCtx.defaultNamespaceUri
    cases b <;> rfl
  | .cname p l, k, hk => by
    simp only [NEnv.name, Option.map_eq_some_iff] at hk
    obtain ⟨u, hu, rfl⟩ := hk
    unfold compileNameclass SCtx.nsUriE
    rw [h.ns, hu]
    rfl
  | .namespaced u l, k, hk => by cases hk; rfl
  | .nsName n, k, hk => by
    simp only [NEnv.name, Option.map_eq_some_iff] at hk
    obtain ⟨u, hu, rfl⟩ := hk
    unfold compileNameclass
    rw [h.nsRef hu]
    rfl
  | .nsNameExcept n ex, k, hk => by
    unfold NEnv.name at hk
    split at hk
    · rename_i u d hu hd
      cases hk
      unfold compileNameclass
      rw [h.name b hd, h.nsRef hu]
      rfl
    · cases hk
  | .anyName, k, hk => by cases hk; rfl
  | .anyNameExcept ex, k, hk => by
    simp only [NEnv.name, Option.map_eq_some_iff] at hk
    obtain ⟨d, hd, rfl⟩ := hk
    unfold compileNameclass
    rw [h.name b hd]
    rfl
  | .alt a d, k, hk => by
    unfold NEnv.name at hk
    split at hk
    · rename_i u d hu hd
      cases hk
      unfold compileNameclass
      rw [h.name b hu, h.name b hd]
      rfl
    · cases hk
  | .paren a, k, hk => by
    unfold compileNameclass
    exact h.name b (n := a) hk

theorem Sees.dt {c : SCtx} {e : NEnv} (h : Sees c e) {t : SDtName} {n : DtName} (ht : e.dt t = some n) : c.dtName t = .ok n := by
  cases t with
  | string => cases ht; rfl
  | token => cases ht; rfl
  | namespaced => cases ht; rfl
  | cname p k =>
    simp only [NEnv.dt, Option.map_eq_some_iff] at ht
    obtain ⟨u, hu, rfl⟩ := ht
    show (do let u ← c.dtUriE p; pure (DtName.cname u k)) = _
    unfold SCtx.dtUriE
    rw [h.dts p u hu]
    rfl

theorem datatypeNameOf_canon (n : DtName) (ps : List Param) : datatypeNameOf x n.canon ps = datatypeNameOf x n ps := by
  cases n with
  | string => unfold datatypeNameOf dtNameIn relaxName; rfl
  | token => unfold datatypeNameOf dtNameIn relaxName; rfl
  | _ => rfl

theorem datatypeValueOf_canon (n : DtName) (s : Str) : datatypeValueOf n.canon s = datatypeValueOf n s := by
  cases n <;> rfl

theorem Sees.grammar {c e s} (h : Sees c e) : Sees (.grammar c s) e := ⟨h.ns, h.dts, h.xsd⟩
theorem Sees.define {c e id} (h : Sees c e) : Sees (.define c id) e := ⟨h.ns, h.dts, h.xsd⟩
theorem Sees.element {c e} (h : Sees c e) : Sees (.element c) e := ⟨h.ns, h.dts, h.xsd⟩
theorem Sees.attribute {c e} (h : Sees c e) : Sees (.attribute c) e := ⟨h.ns, h.dts, h.xsd⟩

theorem Sees.override {c e f o} (h : Sees c e) :
    Sees (.inclOverrides (.incl c f o [("xml".toList, xmlNs)] [("xsd".toList, xsdUri)])) e.inOverride := by
  refine ⟨fun p => rfl, fun p u hp => ?_, h.xsd⟩
  show (match ([("xsd".toList, xsdUri)] : List (Str × Str)).lookup p with | some u => some u | none => c.dtUri p) = some u
  cases hl : ([("xsd".toList, xsdUri)] : List (Str × Str)).lookup p with
  | none => exact h.dts p u hp
  | some v =>
    rw [List.lookup_cons] at hl
    split at hl
    · rename_i hx
      cases hl
      rw [beq_iff_eq] at hx
      subst hx
      have : e.inOverride.dts.lookup "xsd".toList = some xsdUri := h.xsd
      rw [this] at hp
      exact hp
    · cases hl

/-! ### declarations -/

/-- contexts that can be given declarations -/
inductive Opens : SCtx → List (Str × Str) → Prop
  | root {f s ns dts} : Opens (.root f s ns dts) dts
  | incl {p f o ns dts} : Opens (.incl p f o ns dts) dts

theorem Opens.namespace {c dts} (h : Opens c dts) (p u : Str) : ∃ c', c.declareNamespace p u = .ok c' ∧ Opens c' dts := by
  cases h with
  | @root f s ns _ =>
    by_cases hs : (ns.lookup p).isSome = true
    · exact ⟨.root f s ns dts, by simp only [SCtx.declareNamespace, hs, if_true], .root⟩
    · exact ⟨_, by simp only [SCtx.declareNamespace]; rw [if_neg hs], .root⟩
  | @incl q f s ns _ =>
    by_cases hs : (ns.lookup p).isSome = true
    · exact ⟨.incl q f s ns dts, by simp only [SCtx.declareNamespace, hs, if_true], .incl⟩
    · exact ⟨_, by simp only [SCtx.declareNamespace]; rw [if_neg hs], .incl⟩

theorem Opens.datatype {c dts} (h : Opens c dts) {p u : Str} (hp : dts.lookup p = none) :
    ∃ c', c.declareDatatype p u = .ok c' ∧ Opens c' ((p, u) :: dts) := by
  cases h with
  | @root f s ns _ => exact ⟨_, by simp only [SCtx.declareDatatype, hp]; rfl, .root⟩
  | @incl q f s ns _ => exact ⟨_, by simp only [SCtx.declareDatatype, hp]; rfl, .incl⟩

theorem declsOk_opens : ∀ {ds : List SDecl} {c dts}, Opens c dts → (∀ d ∈ ds, (∀ p, d ≠ .namespace p none) ∧ ∀ p, d ≠ .defaultNamespace p none) →
    (∀ p ∈ (declDts ds).map (·.1), dts.lookup p = none) → ((declDts ds).map (·.1)).Nodup →
    ∃ c', compileDeclarations c ds = .ok c'
  | [], c, dts, _, _, _, _ => ⟨_, rfl⟩
  | d :: ds, c, dts, hc, h1, h2, h3 => by
    have ho := h1 d (.head _)
    have h1' := fun d hd => h1 d (.tail _ hd)
    have step : ∀ {c1 dts1}, compileDeclaration c d = .ok c1 → Opens c1 dts1 →
        (∀ p ∈ (declDts ds).map (·.1), dts1.lookup p = none) → ((declDts ds).map (·.1)).Nodup →
        ∃ c', compileDeclarations c (d :: ds) = .ok c' := by
      intro c1 dts1 hd hc h2 h3
      obtain ⟨c', h⟩ := declsOk_opens hc h1' h2 h3
      exact ⟨c', by unfold compileDeclarations; rw [hd]; exact h⟩
    cases d with
    | «namespace» p u =>
      cases u with
      | none => exact absurd rfl (ho.1 p)
      | some u =>
        obtain ⟨c1, hd, hc1⟩ := hc.namespace p u
        exact step hd hc1 h2 h3
    | defaultNamespace p u =>
      cases u with
      | none => exact absurd rfl (ho.2 p)
      | some u =>
        cases p with
        | none => exact step rfl hc h2 h3
        | some p =>
          obtain ⟨c1, hd, hc1⟩ := hc.namespace p u
          exact step hd hc1 h2 h3
    | datatypes p u =>
      have hn : dts.lookup p = none := h2 p (by simp [declDts])
      simp only [declDts, List.map_cons, List.nodup_cons] at h3
      obtain ⟨c1, hd, hc1⟩ := hc.datatype (u := u) hn
      refine step hd hc1 (fun q hq => ?_) h3.2
      rw [List.lookup_cons]
      split
      · rename_i he
        rw [beq_iff_eq] at he
        subst he
        exact absurd hq h3.1
      · exact h2 q (by simp only [declDts, List.map_cons]; exact .tail _ hq)

theorem DeclsOk.opens {ds : List SDecl} (h : DeclsOk ds) {c} (hc : Opens c [("xsd".toList, xsdUri)]) : ∃ c', compileDeclarations c ds = .ok c' := by
  have := List.nodup_cons.mp h.once
  refine declsOk_opens hc h.own (fun p hp => ?_) this.2
  rw [List.lookup_cons]
  split
  · rename_i he
    rw [beq_iff_eq] at he
    subst he
    exact absurd hp this.1
  · rfl

theorem LookEq.sees_dts {l m : List (Str × Str)} (h : LookEq l m) {p u} (hp : m.lookup p = some u) : l.lookup p = some u := (h p).trans hp

theorem DeclsOk.root {ds : List SDecl} (h : DeclsOk ds) (f : Str) (s : Nat) :
    ∃ ns dts, compileDeclarations (.root f s [("xml".toList, xmlNs)] [("xsd".toList, xsdUri)]) ds = .ok (.root f s ns dts) ∧
      Sees (.root f s ns dts) (rootEnv f ds) := by
  obtain ⟨c', hc⟩ := h.opens (c := .root f s [("xml".toList, xmlNs)] [("xsd".toList, xsdUri)]) .root
  cases compileDeclarations_root hc with
  | root a b => exact ⟨_, _, hc, a, fun p u hp => (b p).trans hp, rfl⟩

theorem DeclsOk.incl {ds : List SDecl} (h : DeclsOk ds) (c : SCtx) (f : Str) (o : Nat) :
    ∃ ns dts, compileDeclarations (.incl c f o [("xml".toList, xmlNs)] [("xsd".toList, xsdUri)]) ds = .ok (.incl c f o ns dts) ∧
      Sees (.incl c f o ns dts) (rootEnv f ds) := by
  obtain ⟨c', hc⟩ := h.opens (c := .incl c f o [("xml".toList, xmlNs)] [("xsd".toList, xsdUri)]) .incl
  cases compileDeclarations_incl hc with
  | @incl _ _ _ _ _ ns' dts' a b =>
    refine ⟨_, _, hc, a, fun p u hp => ?_, rfl⟩
    show (match dts'.lookup p with | some u => some u | none => c.dtUri p) = some u
    rw [b p, show List.lookup p ([("xsd".toList, xsdUri)] ++ declDts ds) = some u from hp]

/-! ### simulation -/

/-- what the left program does with its budget, the right one does with enough budget -/
def Sim (F F' : Files) (P : α → α → Prop) (m : CM α) (g : Nat → CM α) : Prop := ∀ st st', SameState F F' st st' → m st ≠ .error .fuel →
  ∃ r', SameOut F F' P (m st) r' ∧ ∃ N, ∀ n, N ≤ n → g n st' = r'

theorem Same.sim {P : α → α → Prop} {m m' : CM α} (h : Same F F' P m m') : Sim F F' P m fun _ => m' :=
  fun st st' hs _ => ⟨_, h st st' hs, 0, fun _ _ => rfl⟩

theorem Sim.bind {P : α → α → Prop} {Q : β → β → Prop} {m : CM α} {g : Nat → CM α} {f : α → CM β} {f' : Nat → α → CM β} (h : Sim F F' P m g)
    (hf : ∀ a a', P a a' → Sim F F' Q (f a) (fun n => f' n a')) : Sim F F' Q (m >>= f) (fun n => g n >>= f' n) := by
  intro st st' hs hne
  have hb : ∀ n, (g n >>= f' n) st' = CM.bind (g n) (f' n) st' := fun _ => rfl
  change CM.bind m f st ≠ _ at hne
  show ∃ r', SameOut F F' Q (CM.bind m f st) r' ∧ ∃ N, ∀ n, N ≤ n → CM.bind (g n) (f' n) st' = r'
  unfold CM.bind at hne ⊢
  cases h1 : m st with
  | error e =>
    rw [h1] at hne
    obtain ⟨r', ho, N, hN⟩ := h st st' hs (by rw [h1]; intro h; cases h; exact hne rfl)
    rw [h1] at ho
    cases r' with
    | ok r => exact ho.elim
    | error e' => exact ⟨.error e', ho, N, fun n hn => by rw [hN n hn]⟩
  | ok r =>
    obtain ⟨a, s⟩ := r
    rw [h1] at hne
    obtain ⟨r', ho, N, hN⟩ := h st st' hs (by rw [h1]; exact fun h => nomatch h)
    rw [h1] at ho
    cases r' with
    | error e => exact ho.elim
    | ok r' =>
      obtain ⟨a', s'⟩ := r'
      obtain ⟨r2, ho2, N2, hN2⟩ := hf a a' ho.1 s s' ho.2 hne
      refine ⟨r2, ho2, max N N2, fun n hn => ?_⟩
      rw [hN n (Nat.le_trans (Nat.le_max_left ..) hn)]
      exact hN2 n (Nat.le_trans (Nat.le_max_right ..) hn)

theorem Sim.bindEq {Q : β → β → Prop} {m : CM α} {g : Nat → CM α} {f : α → CM β} {f' : Nat → α → CM β} (h : Sim F F' Eq m g)
    (hf : ∀ a, Sim F F' Q (f a) (fun n => f' n a)) : Sim F F' Q (m >>= f) (fun n => g n >>= f' n) :=
  h.bind fun a a' e => by cases e; exact hf a

theorem Sim.inInclude {P : α → α → Prop} {m : CM α} {g : Nat → CM α} (h : Sim F F' P m g) : Sim F F' P m.inInclude (fun n => (g n).inInclude) := by
  intro st st' hs hne
  unfold CM.inInclude at hne ⊢
  dsimp only
  cases h1 : m st with
  | ok r =>
    obtain ⟨r', ho, N, hN⟩ := h st st' hs (by rw [h1]; exact fun h => nomatch h)
    rw [h1] at ho
    cases r' with
    | error e => exact ho.elim
    | ok r' => exact ⟨.ok r', ho, N, fun n hn => by rw [hN n hn]⟩
  | error e =>
    rw [h1] at hne
    obtain ⟨r', ho, N, hN⟩ := h st st' hs (by rw [h1]; intro h; cases h; exact hne rfl)
    rw [h1] at ho
    cases r' with
    | ok r => exact ho.elim
    | error e' =>
      cases (show e' = e from ho)
      cases e with
      | err e => exact ⟨.error (.err (.inInclude e)), rfl, N, fun n hn => by rw [hN n hn]⟩
      | panic e => exact ⟨.error (.panic e), rfl, N, fun n hn => by rw [hN n hn]⟩
      | fuel => exact absurd rfl hne

/-- one more unit of budget on the right -/
theorem Sim.succ {P : α → α → Prop} {m : CM α} {g g' : Nat → CM α} (h : Sim F F' P m g) (hg : ∀ n, g' (n + 1) = g n) : Sim F F' P m g' := by
  intro st st' hs hne
  obtain ⟨r', ho, N, hN⟩ := h st st' hs hne
  refine ⟨r', ho, N + 1, fun n hn => ?_⟩
  obtain ⟨k, rfl⟩ : ∃ k, n = k + 1 := ⟨n - 1, by omega⟩
  rw [hg]
  exact hN k (by omega)

theorem Sim.pure (a : α) : Sim F F' Eq (pure a : CM α) (fun _ => pure a) := (Same.pure a).sim
theorem Sim.fail (e : CFault) : Sim F F' Eq (CM.fail e : CM α) (fun _ => CM.fail e) := (Same.fail e).sim

theorem Sim.liftOk {f : α → CM β} {f' : Nat → α → CM β} {Q : β → β → Prop} {r r' : Except CFault α} {a a' : α} (h : r = .ok a) (h' : r' = .ok a')
    (hf : Sim F F' Q (f a) (fun n => f' n a')) : Sim F F' Q (CM.lift r >>= f) (fun n => CM.lift r' >>= f' n) := by
  subst h h'
  exact hf

/-- no budget: nothing to show -/
theorem Sim.noFuel {P : α → α → Prop} {g : Nat → CM α} : Sim F F' P (CM.fail .fuel) g := fun _ _ _ h => absurd rfl h

theorem alike_getSchema (hF : AlikeFiles F F') (f : Str) : Same F F' (AlikeSchema f) (getSchema F f) (getSchema F' f) := by
  intro st st' hs
  have hl := hF.load f
  have frame : ∀ {F : Files} {st st1 : CState} {s}, getSchema F f st = .ok (s, st1) →
      st1.cells = st.cells ∧ st1.scopes = st.scopes ∧ st1.overrides = st.overrides := by
    intro F st st1 s h1
    unfold getSchema at h1
    split at h1
    · cases h1; exact ⟨rfl, rfl, rfl⟩
    · split at h1 <;> cases h1; exact ⟨rfl, rfl, rfl⟩
  have err : ∀ {F : Files} {st : CState} {e}, getSchema F f st = .error e → ∃ e', e = .err (.load e') ∧ F.load f = .error e' := by
    intro F st e h1
    unfold getSchema at h1
    split at h1
    · cases h1
    · split at h1
      · cases h1
      · rename_i e' he
        cases h1
        exact ⟨e', rfl, he⟩
  cases h1 : getSchema F f st with
  | ok r =>
    obtain ⟨s, st1⟩ := r
    obtain ⟨a1, a2⟩ := getSchema_faithful hs.left h1
    cases h2 : getSchema F' f st' with
    | ok r' =>
      obtain ⟨s', st1'⟩ := r'
      obtain ⟨b1, b2⟩ := getSchema_faithful hs.right h2
      rw [a1, b1] at hl
      cases hl with
      | ok hl =>
        have e1 := frame h1
        have e2 := frame h2
        exact ⟨hl, by rw [e1.1, e2.1, hs.cells], by rw [e1.2.1, e2.2.1, hs.scopes], by rw [e1.2.2, e2.2.2, hs.overrides], a2, b2⟩
    | error e =>
      obtain ⟨e', rfl, he⟩ := err h2
      rw [a1, he] at hl
      cases hl
  | error e =>
    obtain ⟨e1, rfl, he1⟩ := err h1
    cases h2 : getSchema F' f st' with
    | ok r' =>
      obtain ⟨s', st1'⟩ := r'
      obtain ⟨b1, b2⟩ := getSchema_faithful hs.right h2
      rw [he1, b1] at hl
      cases hl
    | error e =>
      obtain ⟨e2, rfl, he2⟩ := err h2
      rw [he1, he2] at hl
      cases hl
      exact rfl

/-- the contexts of the two compilations correspond -/
structure Agree (e e' : NEnv) (c c' : SCtx) : Prop where
  sk : Sk c c'
  left : Sees c e
  right : Sees c' e'

theorem Agree.define {e e' c c'} (h : Agree e e' c c') (id : Str) : Agree e e' (.define c id) (.define c' id) := ⟨.define h.sk, h.left.define, h.right.define⟩
theorem Agree.element {e e' c c'} (h : Agree e e' c c') : Agree e e' (.element c) (.element c') := ⟨.element h.sk, h.left.element, h.right.element⟩
theorem Agree.attribute {e e' c c'} (h : Agree e e' c c') : Agree e e' (.attribute c) (.attribute c') := ⟨.attribute h.sk, h.left.attribute, h.right.attribute⟩
theorem Agree.grammar {e e' c c'} (h : Agree e e' c c') (s : Nat) : Agree e e' (.grammar c s) (.grammar c' s) := ⟨.grammar h.sk, h.left.grammar, h.right.grammar⟩
theorem Agree.override {e e' c c'} (h : Agree e e' c c') (f : Str) (o : Nat) : Agree e.inOverride e'.inOverride
    (.inclOverrides (.incl c f o [("xml".toList, xmlNs)] [("xsd".toList, xsdUri)]))
    (.inclOverrides (.incl c' f o [("xml".toList, xmlNs)] [("xsd".toList, xsdUri)])) := ⟨.inclOverrides (.incl h.sk), h.left.override, h.right.override⟩

section
variable {cp : SCtx → SPattern → CM MPattern} {cp' : Nat → SCtx → SPattern → CM MPattern} {ci : SCtx → SItem → CM Unit}
  {ci' : Nat → SCtx → SItem → CM Unit}
  (hcp : ∀ {e e' c c' p q}, Agree e e' c c' → AlikePat e e' p q → Sim F F' Eq (cp c p) (fun n => cp' n c' q))
  (hci : ∀ {e e' c c' i j}, Agree e e' c c' → AlikeItem e e' i j → Sim F F' Eq (ci c i) (fun n => ci' n c' j))
  (han : ∀ c, (ci c .annotation = pure ()) ∨ ci c .annotation = CM.fail .fuel)
  (han' : ∀ n c, ci' (n + 1) c .annotation = pure ())

include hcp in
theorem alike_compileDefine {e e' c c' p q} (h : Agree e e' c c') (hp : AlikePat e e' p q) (id : Str) (how : AssignMethod) :
    Sim F F' Eq (compileDefine cp c id how p) (fun n => compileDefine (cp' n) c' id how q) := by
  refine (hcp (h.define id) hp).bindEq fun r => ?_
  rw [h.sk.defineRule]
  exact (same_defineRule c id _).sim

include hcp in
theorem alike_compileOverrides : ∀ {e e' os os'} {c c' : SCtx}, AlikeOverrides e e' os os' → Agree e e' c c' →
    Sim F F' Eq (compileOverrides cp c os) (fun n => compileOverrides (cp' n) c' os')
  | _, _, _, _, _, _, .nil, _ => .pure _
  | _, _, _, _, c, c', @AlikeOverrides.define _ _ id how p q os os' hp ho, h =>
    Sim.bindEq (m := (compileDefine cp c id how p).inInclude) (g := fun n => (compileDefine (cp' n) c' id how q).inInclude)
      (alike_compileDefine hcp h hp id how).inInclude fun _ => alike_compileOverrides ho h
  | _, _, _, _, c, c', @AlikeOverrides.div _ _ os os' ho, h =>
    Sim.bindEq (m := CM.fail (.panic .includeDiv)) (g := fun _ => CM.fail (.panic .includeDiv)) (.fail _) fun _ => alike_compileOverrides ho h
  | _, _, _, _, c, c', @AlikeOverrides.annotationLeft _ _ os os' ho, h =>
    (alike_compileOverrides ho h : Sim F F' Eq (compileOverrides cp c os) (fun n => compileOverrides (cp' n) c' os'))
  | _, _, _, _, c, c', @AlikeOverrides.annotationRight _ _ os os' ho, h =>
    (alike_compileOverrides ho h : Sim F F' Eq (compileOverrides cp c os) (fun n => compileOverrides (cp' n) c' os'))

include hci han han' in
theorem alike_compileContents : ∀ {e e' is js} {c c' : SCtx}, AlikeItems e e' is js → Agree e e' c c' →
    Sim F F' Eq (compileContents ci c is) (fun n => compileContents (ci' n) c' js)
  | _, _, _, _, _, _, .nil, _ => .pure _
  | _, _, _, _, c, c', .cons hi ho, h => (hci h hi).bindEq fun _ => alike_compileContents ho h
  | _, _, _, _, c, _, @AlikeItems.annotationLeft _ _ is js ho, h => by
    cases han c with
    | inl hc =>
      have : compileContents ci c (.annotation :: is) = compileContents ci c is := by
        conv => lhs; unfold compileContents
        rw [hc]; rfl
      rw [this]
      exact alike_compileContents ho h
    | inr hc =>
      have : compileContents ci c (.annotation :: is) = CM.fail .fuel := by
        unfold compileContents
        rw [hc]; rfl
      rw [this]
      exact .noFuel
  | _, _, _, _, _, c', @AlikeItems.annotationRight _ _ is js ho, h => by
    have ih := alike_compileContents (c := _) (c' := c') ho h
    intro st st' hs hne
    obtain ⟨r', ho, N, hN⟩ := ih st st' hs hne
    refine ⟨r', ho, N + 1, fun n hn => ?_⟩
    obtain ⟨k, rfl⟩ : ∃ k, n = k + 1 := ⟨n - 1, by omega⟩
    rw [← hN (k + 1) (by omega)]
    show (ci' (k + 1) c' .annotation >>= fun _ => compileContents (ci' (k + 1)) c' js) st' = _
    rw [han']; rfl

include hcp hci han han' in
theorem alike_compileSchema {f : Str} {s s' : SSchema} (hs : AlikeSchema f s s') {c c' c1 c1' : SCtx}
    (hd : compileDeclarations c s.decls = .ok c1) (hd' : compileDeclarations c' s'.decls = .ok c1')
    (h : Agree (rootEnv f s.decls) (rootEnv f s'.decls) c1 c1') :
    Sim F F' Eq (compileSchema cp ci c s) (fun n => compileSchema (cp' n) (ci' n) c' s') := by
  obtain ⟨ds, body⟩ := s
  obtain ⟨ds', body'⟩ := s'
  refine Sim.liftOk hd hd' ?_
  have hb := hs.body
  dsimp only at hb h ⊢
  have top : ∀ {p q}, AlikePat (rootEnv f ds) (rootEnv f ds') p q → Sim F F' Eq (do let rule ← cp c1 p; c1.defineRule "start".toList (.assignCombine none rule))
      (fun n => do let rule ← cp' n c1' q; c1'.defineRule "start".toList (.assignCombine none rule)) := by
    intro p q hp
    refine (hcp h hp).bindEq fun r => ?_
    rw [h.sk.defineRule]
    exact (same_defineRule c1 _ _).sim
  cases hb with
  | grammar hi => exact alike_compileContents hci han han' hi h
  | grammarPattern hi =>
    have ha := h
    have hsk := h.sk
    cases hsk with
    | incl _ => exact alike_compileContents hci han han' hi ha
    | _ => exact top (.grammar hi)
  | @pattern p q hp h1 h2 =>
    have hsk := h.sk
    cases hsk with
    | @incl p0 p0' f0 o0 n0 d0 n0' d0' hh =>
      have e1 : ∀ a : List SItem → CM Unit, (match p with | .grammar items => a items | _ => CM.fail (.err .includedFileMustBeGrammar)) =
          CM.fail (.err .includedFileMustBeGrammar) := by
        intro a
        cases p with
        | grammar is => exact absurd rfl (h1 is)
        | _ => rfl
      have e2 : ∀ a : List SItem → CM Unit, (match q with | .grammar items => a items | _ => CM.fail (.err .includedFileMustBeGrammar)) =
          CM.fail (.err .includedFileMustBeGrammar) := by
        intro a
        cases q with
        | grammar is => exact absurd rfl (h2 is)
        | _ => rfl
      intro st st' hst hne
      refine ⟨.error (.err .includedFileMustBeGrammar), ?_, 0, fun n _ => ?_⟩
      · have := congrArg (fun r => r st) (e1 (fun items => compileContents ci (.incl p0 f0 o0 n0 d0) items))
        exact (congrArg (fun r => SameOut F F' Eq r (.error (.err .includedFileMustBeGrammar))) this).mpr rfl
      · exact congrArg (fun r => r st') (e2 _)
    | _ => exact top hp

include hcp hci han han' in
theorem alike_compileInclude (hF : AlikeFiles F F') {e e' : NEnv} {c c' : SCtx} (h : Agree e e' c c') (lit : Str) {os os' : List SOverride}
    (ho : AlikeOverrides e.inOverride e'.inOverride os os') :
    Sim F F' Eq (compileInclude F cp ci c lit none os) (fun n => compileInclude F' (cp' n) (ci' n) c' lit none os') := by
  have hp : includePath F' c' lit = includePath F c lit := by
    unfold includePath; rw [hF.join, h.sk.file]
  unfold compileInclude
  rw [hp]
  refine (Same.lift _).sim.bindEq fun path => (alike_getSchema hF path).inInclude.sim.bind fun s s' hs => ?_
  have hn : Same F F' (fun i i' => ∃ o, i = .incl c path o [("xml".toList, xmlNs)] [("xsd".toList, xsdUri)] ∧
      i' = .incl c' path o [("xml".toList, xmlNs)] [("xsd".toList, xsdUri)]) (newInclude c path) (newInclude c' path) := by
    intro st st' hs
    unfold newInclude
    rw [h.sk.checkInclude]
    cases c.checkInclude path with
    | error e => exact rfl
    | ok _ =>
      refine ⟨⟨st.overrides.length, rfl, ?_⟩, hs.cells, hs.scopes, ?_, hs.left, hs.right⟩
      · rw [hs.overrides]
      · show st'.overrides ++ [[]] = _
        rw [hs.overrides]
  refine hn.sim.bind fun inc inc' hi => ?_
  obtain ⟨o, rfl, rfl⟩ := hi
  refine Sim.liftOk rfl rfl ?_
  obtain ⟨ns, dts, hd, hsee⟩ := hs.left.incl c path o
  obtain ⟨ns', dts', hd', hsee'⟩ := hs.right.incl c' path o
  refine (alike_compileOverrides hcp ho (h.override path o)).bindEq fun _ => ?_
  refine (alike_compileSchema hcp hci han han' hs hd hd' ⟨.incl h.sk, hsee, hsee'⟩).inInclude.bindEq fun _ => ?_
  exact (same_checkOvs o).sim

include hci han han' in
theorem alike_compileGrammarPattern {e e' : NEnv} {c c' : SCtx} (h : Agree e e' c c') {is js} (hi : AlikeItems e e' is js) :
    Sim F F' Eq (compileGrammarPattern ci c is) (fun n => compileGrammarPattern (ci' n) c' js) := by
  unfold compileGrammarPattern
  have hn : Same F F' (fun i i' => ∃ s, i = .grammar c s ∧ i' = .grammar c' s) (newGrammar c) (newGrammar c') := by
    intro st st' hs
    refine ⟨⟨st.scopes.length, rfl, ?_⟩, hs.cells, ?_, hs.overrides, hs.left, hs.right⟩
    · rw [hs.scopes]
    · show st'.scopes ++ [[]] = _
      rw [hs.scopes]
  refine hn.sim.bind fun g g' hg => ?_
  obtain ⟨s, rfl, rfl⟩ := hg
  exact (alike_compileContents hci han han' hi (h.grammar s)).bindEq fun _ => (same_takeStart s).sim
end

theorem Sim.less {P : α → α → Prop} {m m1 : CM α} {g g1 : Nat → CM α} (h : Sim F F' P m1 g1) (hm : LeF m m1) (k : Nat)
    (hg : ∀ n, LeF (g1 n) (g (n + k))) : Sim F F' P m g := by
  intro st st' hs hne
  have e := hm st hne
  obtain ⟨r', ho, N, hN⟩ := h st st' hs (by rw [e]; exact hne)
  rw [e] at ho
  refine ⟨r', ho, N + k, fun n hn => ?_⟩
  obtain ⟨j, rfl⟩ : ∃ j, n = j + k := ⟨n - k, by omega⟩
  have hj := hN j (by omega)
  rw [hg j st', hj]
  rw [hj]
  intro h
  subst h
  cases h1 : m st with
  | ok r => rw [h1] at ho; exact ho
  | error e => rw [h1] at ho; cases (show _ = e from ho); exact hne h1

theorem AlikePats.length {e e' : NEnv} : ∀ {ps qs : List SPattern}, AlikePats e e' ps qs → ps.length = qs.length
  | [], [], _ => rfl
  | _ :: _, _ :: _, .cons _ h => by rw [List.length_cons, List.length_cons, h.length]

theorem alike_chain {cp : SCtx → SPattern → CM MPattern} {cp' : Nat → SCtx → SPattern → CM MPattern}
    (hcp : ∀ {e e' c c' p q}, Agree e e' c c' → AlikePat e e' p q → Sim F F' Eq (cp c p) (fun n => cp' n c' q)) (o : SOp) {e e' c c'} :
    ∀ {ps qs}, AlikePats e e' ps qs → Agree e e' c c' → Sim F F' Eq (chain (cp c) o ps) (fun n => chain (cp' n c') o qs)
  | [], [], _, _ => .pure _
  | _ :: _, _ :: _, .cons hp hs, h => (hcp h hp).bindEq fun _ => (alike_chain hcp o hs h).bindEq fun _ => .pure _

theorem alike_item {n : Nat} (hF : AlikeFiles F F')
    (hcp : ∀ {e e' c c' p q}, Agree e e' c c' → AlikePat e e' p q → Sim F F' Eq (compilePattern F x n c p) (fun n => compilePattern F' x n c' q))
    (hci : ∀ {e e' c c' i j}, Agree e e' c c' → AlikeItem e e' i j → Sim F F' Eq (compileItem F x n c i) (fun n => compileItem F' x n c' j))
    (han : ∀ c, (compileItem F x n c .annotation = pure ()) ∨ compileItem F x n c .annotation = CM.fail .fuel)
    {e e' c c' i j} (h : Agree e e' c c') (hi : AlikeItem e e' i j) :
    Sim F F' Eq (compileItem F x (n + 1) c i) (fun n => compileItem F' x n c' j) := by
  have han' : ∀ n c, compileItem F' x (n + 1) c .annotation = pure () := fun _ _ => rfl
  cases hi with
  | define hp => exact (alike_compileDefine hcp h hp _ _).succ fun _ => rfl
  | div hs => exact (alike_compileContents hci han han' hs h).succ fun _ => rfl
  | «include» ho => exact (alike_compileInclude hcp hci han han' hF h _ ho).succ fun _ => rfl

theorem alike_pattern {n : Nat}
    (hcp : ∀ {e e' c c' p q}, Agree e e' c c' → AlikePat e e' p q → Sim F F' Eq (compilePattern F x n c p) (fun n => compilePattern F' x n c' q))
    (hci : ∀ {e e' c c' i j}, Agree e e' c c' → AlikeItem e e' i j → Sim F F' Eq (compileItem F x n c i) (fun n => compileItem F' x n c' j))
    (han : ∀ c, (compileItem F x n c .annotation = pure ()) ∨ compileItem F x n c .annotation = CM.fail .fuel) :
    ∀ {e e' : NEnv} {c c' : SCtx} {p q : SPattern}, AlikePat e e' p q → Agree e e' c c' →
    Sim F F' Eq (compilePattern F x (n + 1) c p) (fun n => compilePattern F' x n c' q)
  | _, _, _, _, _, _, .parenLeft hp, h => hcp h hp
  | _, _, c, c', p, _, @AlikePat.parenRight _ _ _ q hp, h =>
    (alike_pattern hcp hci han hp h : Sim F F' Eq (compilePattern F x (n + 1) c p) (fun n => compilePattern F' x n c' q)).succ fun _ => rfl
  | _, _, c, c', _, _, @AlikePat.element _ _ a b p q ⟨k, ha, hb⟩ hp, h => by
    have : Sim F F' Eq (do
        let nc ← CM.lift (compileNameclass c true a)
        if c.parentAttribute then CM.fail (.err .elementAsChildOfAttribute)
        else do
          let p ← compilePattern F x n (.element c) p
          Pure.pure (Pattern.element nc p)) (fun n => do
        let nc ← CM.lift (compileNameclass c' true b)
        if c'.parentAttribute then CM.fail (.err .elementAsChildOfAttribute)
        else do
          let p ← compilePattern F' x n (.element c') q
          Pure.pure (Pattern.element nc p)) := by
      refine Sim.liftOk (h.left.name true ha) (h.right.name true hb) ?_
      rw [h.sk.parentAttribute]
      cases c.parentAttribute with
      | true => exact .fail _
      | false => exact (hcp h.element hp).bindEq fun _ => .pure _
    exact this.succ fun _ => rfl
  | _, _, c, c', _, _, @AlikePat.attribute _ _ a b p q ⟨k, ha, hb⟩ hp, h =>
    (Sim.liftOk (h.left.name false ha) (h.right.name false hb) ((hcp h.attribute hp).bindEq fun r => .pure (Pattern.attr k r))).succ fun _ => rfl
  | _, _, _, _, _, _, .list hp, h => ((hcp h hp).bindEq fun r => .pure (Pattern.list r)).succ fun _ => rfl
  | _, _, _, _, _, _, .mixed hp, h => ((hcp h hp).bindEq fun r => .pure (Pattern.mixed r)).succ fun _ => rfl
  | _, _, c, _, _, _, @AlikePat.ident _ _ id, h => by
    have := (same_acquireRef (F := F) (F' := F') c id).bindEq fun k => .pure (Pattern.ref k : MPattern)
    refine Sim.succ this.sim fun n => ?_
    show (SCtx.acquireRef _ id >>= fun k => Pure.pure (Pattern.ref k)) = _
    rw [h.sk.acquireRef]
  | _, _, c, _, _, _, @AlikePat.parent _ _ id, h => by
    have := (same_acquireParentRef (F := F) (F' := F') c id).bindEq fun k => .pure (Pattern.ref k : MPattern)
    refine Sim.succ this.sim fun n => ?_
    show (SCtx.acquireParentRef _ id >>= fun k => Pure.pure (Pattern.ref k)) = _
    rw [h.sk.acquireParentRef]
  | _, _, _, _, _, _, .empty, _ => (Sim.pure Pattern.empty).succ fun _ => rfl
  | _, _, _, _, _, _, .text, _ => (Sim.pure Pattern.text).succ fun _ => rfl
  | _, _, _, _, _, _, .notAllowed, _ => (Sim.pure Pattern.notAllowed).succ fun _ => rfl
  | _, _, _, _, _, _, .grammar hi, h => (alike_compileGrammarPattern hci han (fun _ _ => rfl) h hi).succ fun _ => rfl
  | _, _, _, _, _, _, @AlikePat.op _ _ o p q ps qs h1 h2 hl hp, h => by
    have hl' : 2 ≤ qs.length := by rw [← hp.length]; exact hl
    obtain ⟨k, hk⟩ := parts_right' (F := F') (x := x) h2 hl'
    exact (Sim.bindEq (alike_chain hcp o hp h) fun as => .pure (o.wrap as)).less (parts_left' h1 hl n) k hk
  | _, _, _, _, _, _, .optional hp, h => ((hcp h hp).bindEq fun r => .pure (Pattern.optional r)).succ fun _ => rfl
  | _, _, _, _, _, _, .zeroOrMore hp, h => ((hcp h hp).bindEq fun r => .pure (Pattern.zeroOrMore r)).succ fun _ => rfl
  | _, _, _, _, _, _, .oneOrMore hp, h => ((hcp h hp).bindEq fun r => .pure (Pattern.oneOrMore r)).succ fun _ => rfl
  | _, _, _, _, _, _, @AlikePat.value _ _ t t' s ⟨k, k', ha, hb, hk⟩, h => by
    have hv : datatypeValueOf k' s = datatypeValueOf k s := by rw [← datatypeValueOf_canon, ← hk, datatypeValueOf_canon]
    have := Sim.liftOk (F := F) (F' := F') (f := fun k => CM.lift (dtRes (datatypeValueOf k s)) >>= fun v => (Pure.pure (.datatypeValue v) : CM MPattern))
      (f' := fun _ k => CM.lift (dtRes (datatypeValueOf k s)) >>= fun v => (Pure.pure (.datatypeValue v) : CM MPattern)) (Q := Eq)
      (h.left.dt ha) (h.right.dt hb) (by rw [hv]; exact ((Same.lift _).bindEq fun _ => .pure _).sim)
    exact this.succ fun _ => rfl
  | _, _, _, _, _, _, @AlikePat.data _ _ t t' ps ⟨k, k', ha, hb, hk⟩, h => by
    have hv : datatypeNameOf x k' ps = datatypeNameOf x k ps := by rw [← datatypeNameOf_canon, ← hk, datatypeNameOf_canon]
    have := Sim.liftOk (F := F) (F' := F') (f := fun k => CM.lift (dtRes (datatypeNameOf x k ps)) >>= fun v => (Pure.pure (.datatypeName v) : CM MPattern))
      (f' := fun _ k => CM.lift (dtRes (datatypeNameOf x k ps)) >>= fun v => (Pure.pure (.datatypeName v) : CM MPattern)) (Q := Eq)
      (h.left.dt ha) (h.right.dt hb) (by rw [hv]; exact ((Same.lift _).bindEq fun _ => .pure _).sim)
    exact this.succ fun _ => rfl
  | _, _, c, c', _, _, @AlikePat.dataExcept _ _ t t' ps p q ⟨k, k', ha, hb, hk⟩ hp, h => by
    have hv : datatypeNameOf x k' ps = datatypeNameOf x k ps := by rw [← datatypeNameOf_canon, ← hk, datatypeNameOf_canon]
    have := Sim.liftOk (F := F) (F' := F') (f := fun k => CM.lift (dtRes (datatypeNameOf x k ps)) >>= fun v => compilePattern F x n c p >>= fun r =>
        (Pure.pure (.datatypeNameExcept v r) : CM MPattern))
      (f' := fun n k => CM.lift (dtRes (datatypeNameOf x k ps)) >>= fun v => compilePattern F' x n c' q >>= fun r =>
        (Pure.pure (.datatypeNameExcept v r) : CM MPattern)) (Q := Eq)
      (h.left.dt ha) (h.right.dt hb) (by rw [hv]; exact (Same.lift _).sim.bindEq fun _ => (hcp h hp).bindEq fun _ => .pure _)
    exact this.succ fun _ => rfl

theorem alike_compile (hF : AlikeFiles F F') : ∀ n,
    (∀ {e e' c c' p q}, Agree e e' c c' → AlikePat e e' p q → Sim F F' Eq (compilePattern F x n c p) (fun n => compilePattern F' x n c' q)) ∧
    (∀ {e e' c c' i j}, Agree e e' c c' → AlikeItem e e' i j → Sim F F' Eq (compileItem F x n c i) (fun n => compileItem F' x n c' j)) ∧
    ∀ c, (compileItem F x n c .annotation = pure ()) ∨ compileItem F x n c .annotation = CM.fail .fuel
  | 0 => ⟨fun _ _ => .noFuel, fun _ _ => .noFuel, fun _ => .inr rfl⟩
  | n + 1 => by
    obtain ⟨hcp, hci, han⟩ := alike_compile hF n
    exact ⟨fun h hp => alike_pattern hcp hci han hp h, fun h hi => alike_item hF hcp hci han h hi, fun _ => .inl rfl⟩

theorem alike_compileFile (hF : AlikeFiles F F') (n m : Nat) (name : Str) :
    Sim F F' Eq (compileFile F x n m name) (fun n => compileFile F' x n m name) := by
  obtain ⟨hcp, hci, han⟩ := alike_compile (x := x) hF n
  refine (alike_getSchema hF name).sim.bind fun s s' hs => ?_
  have hn : Same F F' (fun i i' => ∃ o, i = .root name o [("xml".toList, xmlNs)] [("xsd".toList, xsdUri)] ∧
      i' = .root name o [("xml".toList, xmlNs)] [("xsd".toList, xsdUri)]) (newRoot name) (newRoot name) := by
    intro st st' hs
    refine ⟨⟨st.scopes.length, rfl, ?_⟩, hs.cells, ?_, hs.overrides, hs.left, hs.right⟩
    · rw [hs.scopes]
    · show st'.scopes ++ [[]] = _
      rw [hs.scopes]
  refine hn.sim.bind fun i i' hi => ?_
  obtain ⟨o, rfl, rfl⟩ := hi
  obtain ⟨ns, dts, hd, hsee⟩ := hs.left.root name o
  obtain ⟨ns', dts', hd', hsee'⟩ := hs.right.root name o
  refine (alike_compileSchema hcp hci han (fun _ _ => rfl) hs hd hd' ⟨.root, hsee, hsee'⟩).bindEq fun _ => ?_
  exact (same_finishCompile m o).sim

end Verif
