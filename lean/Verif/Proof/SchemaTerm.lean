import Verif.Proof.SchemaPlaces
import Verif.Props.SchemaChecks
/-
The schema compiler comes to an end.
-/
namespace Verif
variable {F : Files} {x : Ext} {α β : Type}

variable (F) in
/-- settles from every state with a faithful cache -/
def CSett (f : Nat → CM α) : Prop := ∀ st, Faithful F st.loaded → Sett fun n => f n st

theorem CSett.bind {f : Nat → CM α} {g : Nat → α → CM β} (hf : CSett F f) (hk : ∀ n, Keeps F (f n))
    (hg : ∀ a, (∃ n st st', Faithful F st.loaded ∧ f n st = .ok (a, st')) → CSett F fun n => g n a) :
    CSett F fun n => f n >>= g n := by
  intro st hs
  obtain ⟨N, R, hR, h⟩ := hf st hs
  dsimp only at h
  cases R with
  | error e =>
    refine ⟨N, .error e, fun h => hR (by cases h; rfl), fun m hm => ?_⟩
    show CM.bind (f m) (g m) st = _
    simp only [CM.bind, h m hm]
  | ok r =>
    obtain ⟨a, st'⟩ := r
    obtain ⟨N', R', hR', h'⟩ := hg a ⟨N, st, st', hs, h N (Nat.le_refl _)⟩ st' (hk N _ _ _ hs (h N (Nat.le_refl _)))
    refine ⟨max N N', R', hR', fun m hm => ?_⟩
    show CM.bind (f m) (g m) st = _
    simp only [CM.bind, h m (by omega)]
    exact h' m (by omega)

/-- the same without knowing where `a` comes from -/
theorem CSett.bind' {f : Nat → CM α} {g : Nat → α → CM β} (hf : CSett F f) (hk : ∀ n, Keeps F (f n))
    (hg : ∀ a, CSett F fun n => g n a) : CSett F fun n => f n >>= g n := hf.bind hk fun a _ => hg a

/-- does not use fuel -/
def NoFuel (m : CM α) : Prop := ∀ st, m st ≠ .error .fuel

theorem CSett.const {m : CM α} (h : NoFuel m) : CSett F fun _ => m := fun st _ => .const _ (h st)

theorem CSett.inInclude {f : Nat → CM α} (h : CSett F f) : CSett F fun n => (f n).inInclude := by
  intro st hs
  obtain ⟨N, R, hR, h⟩ := h st hs
  dsimp only at h
  cases R with
  | ok r => exact ⟨N, .ok r, nofun, fun m hm => by simp only [CM.inInclude, h m hm]⟩
  | error e =>
    cases e with
    | fuel => exact absurd rfl hR
    | err e => exact ⟨N, .error (.err (.inInclude e)), nofun, fun m hm => by simp only [CM.inInclude, h m hm]⟩
    | panic e => exact ⟨N, .error (.panic e), nofun, fun m hm => by simp only [CM.inInclude, h m hm]⟩

theorem CSett.shift {f : Nat → CM α} (h : CSett F fun n => f (n + 1)) : CSett F f := fun st hs => (h st hs).shift

theorem NoFuel.lift {e : Except CFault α} (h : e ≠ .error .fuel) : NoFuel (CM.lift e) := by
  intro st h'
  unfold CM.lift at h'
  cases e with
  | ok a => cases h'
  | error e => cases h'; exact h rfl

theorem NoFuel.pure (a : α) : NoFuel (pure a : CM α) := fun st h => nomatch h
theorem NoFuel.fail {e : CFault} (h : e ≠ .fuel) : NoFuel (CM.fail e : CM α) := fun st h' => by cases h'; exact h rfl

/-! ### what does not use fuel -/

theorem except_bind_ne {ε γ δ : Type} {e : Except ε γ} {f : γ → Except ε δ} {z : ε} (h1 : e ≠ .error z) (h2 : ∀ a, f a ≠ .error z) :
    (e >>= f) ≠ .error z := by
  cases e with
  | error y => intro h; cases h; exact h1 rfl
  | ok a => exact h2 a

theorem nf_nsUriE (c : SCtx) (p : Str) : c.nsUriE p ≠ .error .fuel := by
  unfold SCtx.nsUriE; split <;> simp

theorem nf_dtUriE (c : SCtx) (p : Str) : c.dtUriE p ≠ .error .fuel := by
  unfold SCtx.dtUriE; split <;> simp

theorem nf_nsRef (c : SCtx) (p : NsRef) : c.nsRef p ≠ .error .fuel := by
  cases p with
  | uri u => simp [SCtx.nsRef]
  | pre p => exact nf_nsUriE c p

theorem nf_nameclass (c : SCtx) (el : Bool) : ∀ nc, compileNameclass c el nc ≠ .error .fuel
  | .ident _ => by simp [compileNameclass]
  | .namespaced _ _ => by simp [compileNameclass]
  | .anyName => by simp [compileNameclass]
  | .cname p l => except_bind_ne (nf_nsUriE c p) fun _ => by simp [pure, Except.pure]
  | .nsName n => except_bind_ne (nf_nsRef c n) fun _ => by simp [pure, Except.pure]
  | .nsNameExcept n ex => except_bind_ne (nf_nameclass c el ex) fun _ => except_bind_ne (nf_nsRef c n) fun _ => by simp [pure, Except.pure]
  | .anyNameExcept ex => except_bind_ne (nf_nameclass c el ex) fun _ => by simp [pure, Except.pure]
  | .alt a b => except_bind_ne (nf_nameclass c el a) fun _ => except_bind_ne (nf_nameclass c el b) fun _ => by simp [pure, Except.pure]
  | .paren a => nf_nameclass c el a

theorem nf_dtName (c : SCtx) (t : SDtName) : c.dtName t ≠ .error .fuel := by
  cases t with
  | cname p n => exact except_bind_ne (nf_dtUriE c p) fun _ => by simp [pure, Except.pure]
  | _ => simp [SCtx.dtName]

theorem nf_dtRes (r : Res DtErr α) : dtRes r ≠ .error .fuel := by cases r <;> simp [dtRes]

theorem nf_declareNamespace (c : SCtx) (p u : Str) : c.declareNamespace p u ≠ .error .fuel := by
  unfold SCtx.declareNamespace; split <;> simp

theorem nf_declareDatatype (c : SCtx) (p u : Str) : c.declareDatatype p u ≠ .error .fuel := by
  unfold SCtx.declareDatatype
  split
  · split <;> simp
  · split <;> simp
  · simp

theorem nf_declaration (c : SCtx) (d : SDecl) : compileDeclaration c d ≠ .error .fuel := by
  unfold compileDeclaration
  split
  · simp
  · exact nf_declareNamespace _ _ _
  · simp
  · simp
  · exact nf_declareNamespace _ _ _
  · exact nf_declareDatatype _ _ _

theorem nf_declarations : ∀ (ds : List SDecl) (c : SCtx), compileDeclarations c ds ≠ .error .fuel
  | [], c => by simp [compileDeclarations]
  | d :: ds, c => except_bind_ne (nf_declaration c d) fun c' => nf_declarations ds c'

theorem nf_includePath (c : SCtx) (l : Str) : includePath F c l ≠ .error .fuel := by
  unfold includePath
  split
  · simp
  · split <;> simp

theorem nf_inheritNs (c inc : SCtx) (i : Option Str) : inheritNs c inc i ≠ .error .fuel := by
  unfold inheritNs
  split
  · simp
  · split
    · simp
    · exact nf_declareNamespace _ _ _

theorem nf_getSchema (f : Str) : NoFuel (getSchema F f) := by
  intro st h
  unfold getSchema at h
  split at h
  · cases h
  · split at h <;> cases h

theorem nf_newInclude (c : SCtx) (f : Str) : NoFuel (newInclude c f) := by
  intro st h
  unfold newInclude at h
  split at h
  · rename_i e he; cases h; cases SCtx.checkInclude_err he
  · cases h

theorem nf_newGrammar (c : SCtx) : NoFuel (newGrammar c) := fun st h => nomatch h

theorem nf_takeStart (s : Nat) : NoFuel (takeStart s) := by
  intro st h
  unfold takeStart at h
  split at h
  · cases h
  · split at h <;> cases h

theorem nf_checkDefined {st : CState} : ∀ l, checkDefined st l ≠ .error .fuel
  | [] => by simp [checkDefined]
  | (n, k) :: rest => by
    unfold checkDefined
    split
    · simp
    · exact nf_checkDefined rest

theorem nf_checkScope (s : Nat) : NoFuel (checkScope s) := by
  intro st h
  unfold checkScope at h
  split at h
  · cases h
  · rename_i e he; cases h; exact nf_checkDefined _ he

theorem nf_checkOverrides : ∀ l, checkOverrides l ≠ .error .fuel
  | [] => by simp [checkOverrides]
  | (n, b) :: rest => by
    unfold checkOverrides
    split
    · exact nf_checkOverrides rest
    · simp

theorem nf_checkOvs (o : Nat) : NoFuel (checkOvs o) := by
  intro st h
  unfold checkOvs at h
  split at h
  · cases h
  · rename_i e he; cases h; exact nf_checkOverrides _ he

theorem nf_appendChoice (a b : MPattern) : appendChoice a b ≠ .error .fuel := by
  unfold appendChoice
  split
  · split <;> simp
  · simp

theorem nf_appendInterleave (a b : MPattern) : appendInterleave a b ≠ .error .fuel := by
  unfold appendInterleave
  split
  · split <;> simp
  · simp

theorem nf_joinChoice (a b : MPattern) : joinChoice a b ≠ .error .fuel := by
  unfold joinChoice
  split
  · exact nf_appendChoice _ _
  · simp

theorem nf_joinInterleave (a b : MPattern) : joinInterleave a b ≠ .error .fuel := by
  unfold joinInterleave
  split
  · exact nf_appendInterleave _ _
  · simp

theorem nf_merge1 (id : Str) (a b : DefineRule) : merge1 id a b ≠ .error .fuel := by
  unfold merge1
  split
  all_goals first
    | exact except_bind_ne (nf_appendChoice _ _) fun _ => by simp [pure, Except.pure]
    | exact except_bind_ne (nf_joinChoice _ _) fun _ => by simp [pure, Except.pure]
    | exact except_bind_ne (nf_appendInterleave _ _) fun _ => by simp [pure, Except.pure]
    | exact except_bind_ne (nf_joinInterleave _ _) fun _ => by simp [pure, Except.pure]
    | (simp; done)

theorem nf_merge (id : Str) (a b : Option DefineRule) : merge id a b ≠ .error .fuel := by
  unfold merge
  split
  · simp
  · simp
  · simp
  · exact except_bind_ne (nf_merge1 _ _ _) fun _ => by simp [pure, Except.pure]

theorem nf_defineIn (s : Nat) (id : Str) (r : DefineRule) : NoFuel (defineIn s id r) := by
  intro st h
  unfold defineIn at h
  split at h
  · split at h
    · cases h
    · rename_i e he; cases h; exact nf_merge _ _ _ he
  · cases h

theorem nf_defineRule : ∀ (c : SCtx) (id : Str) (r : DefineRule), NoFuel (c.defineRule id r)
  | .root _ s _ _, id, r => by rw [defineRule_root]; exact nf_defineIn s id r
  | .grammar _ s, id, r => by rw [defineRule_grammar]; exact nf_defineIn s id r
  | .incl p f o ns dts, id, r => by
    intro st h
    rw [defineRule_incl] at h
    dsimp only at h
    split at h
    · cases h
    · exact nf_defineRule p id r _ h
  | .inclOverrides (.incl p f o ns dts), id, r => by
    intro st h
    rw [defineRule_inclOverrides] at h
    dsimp only at h
    split at h
    · cases h
    · exact nf_defineRule p id r _ h
  | .inclOverrides (.root ..), _, _ => .fail nofun
  | .inclOverrides (.grammar ..), _, _ => .fail nofun
  | .inclOverrides (.inclOverrides ..), _, _ => .fail nofun
  | .inclOverrides (.define ..), _, _ => .fail nofun
  | .inclOverrides (.element ..), _, _ => .fail nofun
  | .inclOverrides (.attribute ..), _, _ => .fail nofun
  | .define _ _, _, _ => .fail nofun
  | .element _, _, _ => .fail nofun
  | .attribute _, _, _ => .fail nofun

theorem nf_acquireRefImpl : ∀ (c : SCtx) (id : Str), NoFuel (c.acquireRefImpl id)
  | .root _ s _ _, id => fun st h => by
    unfold SCtx.acquireRefImpl SCtx.acquireRefImpl.acquireIn at h; split at h <;> cases h
  | .grammar _ s, id => fun st h => by
    unfold SCtx.acquireRefImpl SCtx.acquireRefImpl.acquireIn at h; split at h <;> cases h
  | .incl p _ _ _ _, id => nf_acquireRefImpl p id
  | .inclOverrides p, id => nf_acquireRefImpl p id
  | .define p _, id => nf_acquireRefImpl p id
  | .element p, id => nf_acquireRefImpl p id
  | .attribute p, id => nf_acquireRefImpl p id

theorem nf_checkRef : ∀ (c : SCtx) (id : Str), c.checkRefRecursion id ≠ .error .fuel
  | .define _ i, id => by unfold SCtx.checkRefRecursion; split <;> simp
  | .attribute p, id => nf_checkRef p id
  | .root _ _ _ _, _ => nofun
  | .grammar _ _, _ => nofun
  | .incl _ _ _ _ _, _ => nofun
  | .inclOverrides _, _ => nofun
  | .element _, _ => nofun

theorem NoFuel.bind {m : CM α} {f : α → CM β} (h : NoFuel m) (hf : ∀ a, NoFuel (f a)) : NoFuel (m >>= f) := by
  intro st h'
  have h' : CM.bind m f st = _ := h'
  unfold CM.bind at h'
  split at h'
  · exact hf _ _ h'
  · rename_i e he; cases h'; exact h _ he

theorem nf_acquireRef (c : SCtx) (id : Str) : NoFuel (c.acquireRef id) :=
  (NoFuel.lift (nf_checkRef c id)).bind fun _ => nf_acquireRefImpl c id

theorem nf_acquireParentRef : ∀ (c : SCtx) (id : Str), NoFuel (c.acquireParentRef id)
  | .root _ _ _ _, _ => .fail nofun
  | .grammar p _, id => nf_acquireRef p id
  | .incl p _ _ _ _, id => nf_acquireParentRef p id
  | .inclOverrides p, id => nf_acquireParentRef p id
  | .define p _, id => nf_acquireParentRef p id
  | .element p, id => nf_acquireParentRef p id
  | .attribute p, id => nf_acquireParentRef p id

/-! ### the recursion -/

section
variable (F x) in
/-- `compile_pattern` settles at a place, and so does compiling a list of grammar contents -/
def Settles : Place → Prop
  | .pat w p => ∀ c : SCtx, c.Fits w → CSett F fun n => compilePattern F x n c p
  | .items w is => ∀ c : SCtx, c.Fits w → CSett F fun n => compileContents (compileItem F x n) c is

variable {c : SCtx} {w : Where}

theorem kp (n : Nat) (c : SCtx) (p : SPattern) : Keeps F (compilePattern F x n c p) := (keeps_compile n).1 c p
theorem ki (n : Nat) (c : SCtx) (i : SItem) : Keeps F (compileItem F x n c i) := (keeps_compile n).2 c i

theorem settles_contents (hc : ∀ i ∈ is, CSett F fun n => compileItem F x n c i) :
    CSett F fun n => compileContents (compileItem F x n) c is := by
  induction is with
  | nil => exact .const (.pure _)
  | cons i is ih =>
    exact (hc i (by simp)).bind' (fun n => ki n c i) fun _ => ih fun j hj => hc j (by simp [hj])

theorem settles_define {p : SPattern} {id : Str} {how : AssignMethod} (h : CSett F fun n => compilePattern F x n (.define c id) p) :
    CSett F fun n => compileDefine (compilePattern F x n) c id how p :=
  h.bind' (fun n => kp n _ _) fun _ => .const (nf_defineRule _ _ _)

theorem settles_overrides (hc : ∀ id how p, .define id how p ∈ os → CSett F fun n => compilePattern F x n (.define c id) p) :
    CSett F fun n => compileOverrides (compilePattern F x n) c os := by
  induction os with
  | nil => exact .const (.pure _)
  | cons o os ih =>
    have ih := ih fun id how p h => hc id how p (by simp [h])
    cases o with
    | define id how body =>
      exact CSett.bind' (f := fun n => (compileDefine (compilePattern F x n) c id how body).inInclude)
        (settles_define (hc id how body (by simp))).inInclude
        (fun n => (keeps_compileDefine (kp n) c id how body).inInclude) fun _ => ih
    | div => exact CSett.bind' (f := fun _ => CM.fail (.panic .includeDiv)) (.const (.fail nofun)) (fun _ => .fail _) fun _ => ih
    | «annotation» => exact ih

/-- a grammar pattern -/
theorem settles_grammar (hw : c.Fits w) (h : Settles F x (.items w.grammar is)) {k : Nat → CM MPattern} (hk : ∀ s, NoFuel (k s)) :
    CSett F fun n => newGrammar c >>= fun child => compileContents (compileItem F x n) child is >>= fun _ =>
      match child with
      | .grammar _ scope => k scope
      | _ => CM.fail (.panic .unreachable) := by
  refine (CSett.const (nf_newGrammar c)).bind (fun _ => keeps_newGrammar c) fun ch hch => ?_
  obtain ⟨_, _, _, _, hch⟩ := hch
  obtain ⟨⟨s, rfl⟩, _⟩ := newGrammar_ok hch
  exact (h _ (hw.grammar s)).bind' (fun n => keeps_compileContents (ki n) _ _) fun _ => .const (hk s)

theorem settles_external (hw : c.Fits w) {lit : Str} {i : Option Str}
    (hp : ∀ f s p, F.join w.env.file lit = some f → F.load f = .ok s → s.body = .pattern p → f ∉ w.files → Settles F x (.pat (w.external f) p))
    (hg : ∀ f s is, F.join w.env.file lit = some f → F.load f = .ok s → s.body = .grammar is → f ∉ w.files → Settles F x (.items w.grammar is)) :
    CSett F fun n => compileExternal F (compilePattern F x n) (compileItem F x n) c lit i := by
  cases i with
  | some _ => exact .const (.fail nofun)
  | none =>
    refine (CSett.const (.lift (nf_includePath c lit))).bind (fun _ => .lift _) fun path hpath => ?_
    obtain ⟨_, _, _, _, hpath⟩ := hpath
    have hj := includePath_spec hw.env (CM.lift_ok hpath).1
    refine (CSett.const (nf_getSchema path)).inInclude.bind (fun _ => (keeps_getSchema path).inInclude) fun s hs => ?_
    obtain ⟨_, _, _, hf, hs⟩ := hs
    have hl := (getSchema_faithful hf (CM.inInclude_ok hs)).1
    refine (CSett.const (nf_newInclude c path)).bind (fun _ => keeps_newInclude c path) fun inc hinc => ?_
    obtain ⟨_, _, _, _, hinc⟩ := hinc
    obtain ⟨hck, ⟨o, rfl⟩, _⟩ := newInclude_ok hinc
    have hnot : path ∉ w.files := by rw [← hw.files]; exact SCtx.checkInclude_ok.mp hck
    obtain ⟨ds, body⟩ := s
    cases body with
    | pattern p =>
      exact (hp _ _ _ hj hl rfl hnot _ (hw.external _ _)).inInclude
    | grammar is =>
      exact settles_grammar (k := fun s => checkScope s >>= fun _ => takeStart s) hw (hg _ _ _ hj hl rfl hnot)
        fun s => (nf_checkScope s).bind fun _ => nf_takeStart s

theorem settles_include (hw : c.Fits w) {lit : Str} {i : Option Str} {os : List SOverride}
    (ho : ∀ f s id how p, F.join w.env.file lit = some f → F.load f = .ok s → f ∉ w.files → .define id how p ∈ os →
      Settles F x (.pat ((w.override f i).define id) p))
    (hg : ∀ f s is, F.join w.env.file lit = some f → F.load f = .ok s → s.Grammar is → f ∉ w.files → Settles F x (.items (w.included f i s.decls) is)) :
    CSett F fun n => compileInclude F (compilePattern F x n) (compileItem F x n) c lit i os := by
  refine (CSett.const (.lift (nf_includePath c lit))).bind (fun _ => .lift _) fun path hpath => ?_
  obtain ⟨_, _, _, _, hpath⟩ := hpath
  have hj := includePath_spec hw.env (CM.lift_ok hpath).1
  refine (CSett.const (nf_getSchema path)).inInclude.bind (fun _ => (keeps_getSchema path).inInclude) fun s hs => ?_
  obtain ⟨_, _, _, hf, hs⟩ := hs
  have hl := (getSchema_faithful hf (CM.inInclude_ok hs)).1
  refine (CSett.const (nf_newInclude c path)).bind (fun _ => keeps_newInclude c path) fun inc hinc => ?_
  obtain ⟨_, _, _, _, hinc⟩ := hinc
  obtain ⟨hck, ⟨o, rfl⟩, _⟩ := newInclude_ok hinc
  have hnot : path ∉ w.files := by rw [← hw.files]; exact SCtx.checkInclude_ok.mp hck
  refine (CSett.const (.lift (nf_inheritNs c _ i))).bind (fun _ => .lift _) fun inc' hinc' => ?_
  obtain ⟨_, _, _, _, hinc'⟩ := hinc'
  obtain ⟨ns, rfl, hns⟩ := inheritCtx_spec hw.env (CM.lift_ok hinc').1
  have hov : (SCtx.inclOverrides (.incl c path o ns [("xsd".toList, xsdUri)])).Fits (w.override path i) :=
    hw.override _ _ hns
  refine CSett.bind' (settles_overrides fun id how p hm => ho _ _ id how p hj hl hnot hm _ (hov.define id))
    (fun n => keeps_compileOverrides (kp n) _ os) fun _ => ?_
  refine CSett.bind' (CSett.inInclude ?_) (fun n => (keeps_compileSchema (kp n) (ki n) _ s).inInclude) fun _ => .const (nf_checkOvs o)
  refine (CSett.const (.lift (nf_declarations _ _))).bind (fun _ => .lift _) fun c1 hc1 => ?_
  obtain ⟨_, _, _, _, hc1⟩ := hc1
  cases compileDeclarations_incl (CM.lift_ok hc1).1 with
  | incl a b =>
    rename_i ns' dts'
    have hcs : (SCtx.incl c path o ns' dts').Fits (w.included path i s.decls) :=
      hw.included _ _ (a.trans hns.append) b
    obtain ⟨ds, body⟩ := s
    cases body with
    | grammar items => exact hg _ _ items hj hl .grammar hnot _ hcs
    | pattern p =>
      cases p with
      | grammar items => exact hg _ _ items hj hl .pattern hnot _ hcs
      | _ => exact .const (.fail nofun)

/-- inside an element etc.: every step needs one more fuel -/
theorem settles_wrap {p : SPattern} {f : MPattern → CM MPattern} (h : CSett F fun n => compilePattern F x n c p) (hf : ∀ q, NoFuel (f q)) :
    CSett F fun n => compilePattern F x n c p >>= f :=
  h.bind' (fun n => kp n c p) fun q => .const (hf q)

theorem settles_wrap2 {p q : SPattern} {f : MPattern → MPattern → CM MPattern} (h : CSett F fun n => compilePattern F x n c p)
    (h' : CSett F fun n => compilePattern F x n c q) (hf : ∀ a b, NoFuel (f a b)) :
    CSett F fun n => compilePattern F x n c p >>= fun a => compilePattern F x n c q >>= f a :=
  h.bind' (fun n => kp n c p) fun a => h'.bind' (fun n => kp n c q) fun b => .const (hf a b)

theorem nf_newRoot (name : Str) : NoFuel (newRoot name) := fun st h => nomatch h
theorem keeps_newRoot (name : Str) : Keeps F (newRoot name) := .same fun st a st' h => by
  unfold newRoot at h; cases h; rfl

/-- `compile` without the checks at its end -/
def compileBody (F : Files) (x : Ext) (n : Nat) (name : Str) : CM SCtx :=
  getSchema F name >>= fun s => newRoot name >>= fun c =>
      compileSchema (compilePattern F x n) (compileItem F x n) c s >>= fun _ => (pure c : CM SCtx)

/-- what follows it -/
def compileEnd (m : Nat) : SCtx → CM Nat
  | .root _ scope _ _ => finishCompile m scope
  | _ => CM.fail (.panic .unreachable)

theorem compileFile_body {n m : Nat} {name : Str} {st : CState} : compileFile F x n m name st =
    CM.bind (compileBody F x n name) (compileEnd m) st := by
  unfold compileFile compileBody
  simp only [Bind.bind, CM.bind, newRoot]
  cases getSchema F name st with
  | error e => rfl
  | ok r =>
    obtain ⟨s, st1⟩ := r
    dsimp only
    cases compileSchema (compilePattern F x n) (compileItem F x n) _ s _ <;> rfl

/-- how the compiler goes on from a place -/
abbrev Down (F : Files) (b a : Place) : Prop := Deeper F a b

theorem settles_acc {pl : Place} (h : Acc (Down F) pl) : Settles F x pl := by
  induction h with
  | intro a _ ih =>
    cases a with
    | pat w p =>
      intro c hc
      apply CSett.shift
      cases p with
      | element nc p =>
        have := ih (.pat w.element p) (.inner .element rfl nofun) _ hc.element
        refine CSett.bind' (.const (.lift (nf_nameclass _ _ _))) (fun _ => .lift _) fun nc => ?_
        cases c.parentAttribute with
        | true => exact .const (.fail nofun)
        | false => exact settles_wrap this fun _ => .pure _
      | «attribute» nc p =>
        have := ih (.pat w.attribute p) (.inner .attribute rfl nofun) _ hc.attribute
        exact CSett.bind' (.const (.lift (nf_nameclass _ _ _))) (fun _ => .lift _) fun nc => settles_wrap this fun _ => .pure _
      | list p => exact settles_wrap (ih (.pat w p) (.inner .list rfl nofun) _ hc) fun _ => .pure _
      | mixed p => exact settles_wrap (ih (.pat w p) (.inner .mixed rfl nofun) _ hc) fun _ => .pure _
      | optional p => exact settles_wrap (ih (.pat w p) (.inner .optional rfl nofun) _ hc) fun _ => .pure _
      | zeroOrMore p => exact settles_wrap (ih (.pat w p) (.inner .zeroOrMore rfl nofun) _ hc) fun _ => .pure _
      | oneOrMore p => exact settles_wrap (ih (.pat w p) (.inner .oneOrMore rfl nofun) _ hc) fun _ => .pure _
      | paren p => exact ih (.pat w p) (.inner .paren rfl nofun) _ hc
      | seq p q =>
        exact settles_wrap2 (ih (.pat w p) (.inner .seqLeft rfl nofun) _ hc) (ih (.pat w q) (.inner .seqRight rfl nofun) _ hc) fun _ _ => .pure _
      | inter p q =>
        exact settles_wrap2 (ih (.pat w p) (.inner .interLeft rfl nofun) _ hc) (ih (.pat w q) (.inner .interRight rfl nofun) _ hc) fun _ _ => .pure _
      | choice p q =>
        exact settles_wrap2 (ih (.pat w p) (.inner .choiceLeft rfl nofun) _ hc) (ih (.pat w q) (.inner .choiceRight rfl nofun) _ hc) fun _ _ => .pure _
      | empty => exact .const (.pure _)
      | text => exact .const (.pure _)
      | notAllowed => exact .const (.pure _)
      | ident id => exact .const ((nf_acquireRef c id).bind fun _ => .pure _)
      | parent id => exact .const ((nf_acquireParentRef c id).bind fun _ => .pure _)
      | value ty lit => exact .const ((NoFuel.lift (nf_dtName _ _)).bind fun _ => (NoFuel.lift (nf_dtRes _)).bind fun _ => .pure _)
      | data ty ps => exact .const ((NoFuel.lift (nf_dtName _ _)).bind fun _ => (NoFuel.lift (nf_dtRes _)).bind fun _ => .pure _)
      | dataExcept ty ps ex =>
        have := ih (.pat w ex) (.inner .except rfl nofun) _ hc
        exact CSett.bind' (.const (.lift (nf_dtName _ _))) (fun _ => .lift _) fun _ =>
          CSett.bind' (.const (.lift (nf_dtRes _))) (fun _ => .lift _) fun _ => settles_wrap this fun _ => .pure _
      | grammar is =>
        exact settles_grammar (k := takeStart) hc (ih (.items w.grammar is) (.inner .grammar rfl nofun)) nf_takeStart
      | external path i =>
        exact settles_external hc (fun f s p hj hl hb hn => ih _ (.opens (.externalPattern hj hl hb) rfl hl hn))
          fun f s is hj hl hb hn => ih _ (.grammar hj hl hb hn)
    | items w is =>
      intro c hc
      refine settles_contents fun i hi => CSett.shift ?_
      cases i with
      | define id how p => exact settles_define (ih (.pat (w.define id) p) (.inner (.define hi) rfl nofun) _ (hc.define id))
      | div is' => exact ih (.items w is') (.inner (.div hi) rfl nofun) _ hc
      | «annotation» => exact .const (.pure _)
      | «include» path inh os =>
        exact settles_include hc (fun f s id how p hj hl hn hm => ih _ (.opens (.override hi hj hm) rfl hl hn))
          fun f s is' hj hl hg hn => ih _ (.opens (.included hi hj hl hg) rfl hl hn)

/-- a place that is not the end of all ways has an endless one -/
theorem way_of_not_acc {α : Type} {R : α → α → Prop} {a : α} (h : ¬ Acc (fun b a => R a b) a) :
    ∃ way : Nat → α, way 0 = a ∧ ∀ i, R (way i) (way (i + 1)) := by
  have next : ∀ a : {a : α // ¬ Acc (fun b a => R a b) a}, ∃ b : {a : α // ¬ Acc (fun b a => R a b) a}, R a.1 b.1 := by
    intro a
    apply Classical.byContradiction
    intro hn
    refine a.2 ⟨_, fun b hb => Classical.byContradiction fun hb' => hn ⟨⟨b, hb'⟩, hb⟩⟩
  let step := fun a => Classical.choose (next a)
  let way : Nat → {a : α // ¬ Acc (fun b a => R a b) a} := fun n => Nat.rec ⟨a, h⟩ (fun _ a => step a) n
  exact ⟨fun n => (way n).1, rfl, fun i => Classical.choose_spec (next (way i))⟩

theorem not_endless {name : Str} (hne : ¬ Endless F name) {pl : Place} (hp : FilePlace F name pl) : Acc (Down F) pl :=
  Classical.byContradiction fun h =>
    let ⟨way, h0, hs⟩ := way_of_not_acc h
    hne ⟨way, h0 ▸ hp, hs⟩

end

/-- a place is never done if there is an endless way from it -/
theorem DoneAt.no_way {n : Nat} {way : Nat → Place} (hs : ∀ i, Within F (way i) (way (i + 1))) : ∀ i, ¬ DoneAt F x n (way i) := by
  induction n using Nat.strongRecOn with
  | ind n ih =>
    intro i h
    obtain ⟨n', hn, h'⟩ := h.within (hs i)
    exact ih n' hn _ h'

theorem Deeper.within {a b : Place} (h : Deeper F a b) : Within F a b := by
  cases h with
  | inner h => exact h
  | opens h => exact h
  | grammar h1 h2 h3 => exact .externalGrammar h1 h2 h3

/-! ### finitely many files, no grammars used by `external` -/

/-- how many of the files `U` are not being included yet -/
def togo (U : List Str) (w : Where) : Nat := (U.filter fun f => decide (f ∉ w.files)).length

theorem togo_lt {U : List Str} {w w' : Where} {f : Str} (hU : f ∈ U) (hf : f ∉ w.files) (h : w'.files = f :: w.files) :
    togo U w' < togo U w := by
  unfold togo
  rw [h]
  induction U with
  | nil => cases hU
  | cons g U ih =>
    have hle : (U.filter fun a => decide (a ∉ f :: w.files)).length ≤ (U.filter fun a => decide (a ∉ w.files)).length := by
      clear ih hU
      induction U with
      | nil => exact Nat.le_refl _
      | cons b U ih =>
        by_cases h1 : b ∈ w.files
        · have h2 : b ∈ f :: w.files := .tail _ h1
          simpa [List.filter_cons, h1, h2] using ih
        · by_cases h2 : b ∈ f :: w.files <;> simp only [List.filter_cons, h1, h2, not_true_eq_false, not_false_eq_true, decide_true, decide_false, if_true, Bool.false_eq_true, if_false, List.length_cons] <;> omega
    rcases List.mem_cons.mp hU with rfl | hU
    · simp only [List.filter_cons, hf, List.mem_cons, true_or, not_true_eq_false, not_false_eq_true, decide_true, decide_false, if_true, Bool.false_eq_true, if_false, List.length_cons]
      simp only [List.mem_cons] at hle
      omega
    · have ih := ih hU
      by_cases h1 : g ∈ w.files
      · have h2 : g ∈ f :: w.files := .tail _ h1
        simpa [List.filter_cons, h1, h2] using ih
      · by_cases h2 : g ∈ f :: w.files <;> simp only [List.filter_cons, h1, h2, not_true_eq_false, not_false_eq_true, decide_true, decide_false, if_true, Bool.false_eq_true, if_false, List.length_cons] <;> omega


/-- what is smaller after every step -/
noncomputable def Place.measure (U : List Str) : Place → Nat × Nat
  | .pat w p => (togo U w, sizeOf p)
  | .items w is => (togo U w, sizeOf is)

theorem togo_same {U : List Str} {w w' : Where} (h : w'.files = w.files) : togo U w' = togo U w := by
  unfold togo; rw [h]

theorem measure_lt {U : List Str} {a b : Place} (hU : ∀ f s, F.load f = .ok s → f ∈ U) (h : Deeper F a b)
    (hext : ∀ w path i f s is, a = .pat w (.external path i) → F.join w.env.file path = some f → F.load f = .ok s → s.body ≠ .grammar is) :
    Prod.Lex (· < ·) (· < ·) (b.measure U) (a.measure U) := by
  have mk : ∀ {p q r s : Nat}, p < q ∨ (p = q ∧ r < s) → Prod.Lex (· < ·) (· < ·) (p, r) (q, s) := by
    rintro p q r s (h | ⟨rfl, h⟩)
    · exact .left _ _ h
    · exact .right _ h
  cases h with
  | grammar h1 h2 h3 _ => exact absurd h3 (hext _ _ _ _ _ _ rfl h1 h2)
  | @opens a b f s _ hf hl hn =>
    cases a <;> cases b <;> exact mk (.inl (togo_lt (hU _ _ hl) hn hf))
  | inner hw hf hx =>
    cases hw with
    | externalPattern | externalGrammar => exact absurd rfl (hx _ _ _)
    | included | override => exact absurd hf (fun h => by have := congrArg List.length h; simp [Place.files, Where.included, Where.override, Where.define] at this)
    | define hi =>
      have := List.sizeOf_lt_of_mem hi
      exact mk (.inr ⟨togo_same hf, by simp +arith at this ⊢; omega⟩)
    | div hi =>
      have := List.sizeOf_lt_of_mem hi
      exact mk (.inr ⟨togo_same hf, by simp +arith at this ⊢; omega⟩)
    | _ => exact mk (.inr ⟨togo_same hf, by simp +arith⟩)

/-- an endless way into finitely many files uses grammars by `external` over and over again -/
theorem way_uses_grammars {way : Nat → Place} (hs : ∀ i, Deeper F (way i) (way (i + 1))) {U : List Str} (hU : ∀ f s, F.load f = .ok s → f ∈ U)
    (i : Nat) : ∃ j, i ≤ j ∧ ∃ w path inh f s is, way j = .pat w (.external path inh) ∧ F.join w.env.file path = some f ∧ F.load f = .ok s ∧
      s.body = .grammar is := by
  apply Classical.byContradiction
  intro hno
  have wf : WellFounded (Prod.Lex (· < ·) (· < ·) : Nat × Nat → Nat × Nat → Prop) := (Prod.lex ⟨_, Nat.lt_wfRel.wf⟩ ⟨_, Nat.lt_wfRel.wf⟩).wf
  have key : ∀ m : Nat × Nat, ∀ j, i ≤ j → (way j).measure U ≠ m := by
    intro m
    induction m using wf.induction with
    | h m ih =>
      intro j hj hm
      exact ih _ (hm ▸ measure_lt hU (hs j) (fun w path inh f s is ha h1 h2 h3 => hno ⟨j, hj, w, path, inh, f, s, is, ha, h1, h2, h3⟩))
        (j + 1) (Nat.le_succ_of_le hj) rfl
  exact key _ i (Nat.le_refl _) rfl

theorem way_occurs {name : Str} {way : Nat → Place} (h0 : FilePlace F name (way 0)) (hs : ∀ i, Deeper F (way i) (way (i + 1))) :
    ∀ i, Occurs F name (way i) := by
  intro i
  induction i with
  | zero => exact ⟨_, h0, .refl⟩
  | succ i ih => exact ih.inside (.step (hs i).within .refl)

/-- the top-level file -/
theorem settles_file {name : Str} (hne : ¬ Endless F name) (st : CState) (hs : Faithful F st.loaded) :
    ∃ N R, R ≠ .error .fuel ∧ ∀ n, N ≤ n → ∀ m, N ≤ m → compileFile F x n m name st = R := by
  have hcs : CSett F fun n => compileBody F x n name := by
    refine (CSett.const (nf_getSchema name)).bind (fun _ => keeps_getSchema name) fun s hs => ?_
    obtain ⟨_, _, _, hf, hs⟩ := hs
    have hl := (getSchema_faithful hf hs).1
    refine (CSett.const (nf_newRoot name)).bind (fun _ => keeps_newRoot name) fun c hc => ?_
    obtain ⟨_, st1, _, _, hc⟩ := hc
    unfold newRoot at hc
    cases hc
    refine CSett.bind' ?_ (fun n => keeps_compileSchema (kp n) (ki n) _ s) fun _ => .const (.pure _)
    refine (CSett.const (.lift (nf_declarations _ _))).bind (fun _ => .lift _) fun c1 hc1 => ?_
    obtain ⟨_, _, _, _, hc1⟩ := hc1
    cases compileDeclarations_root (CM.lift_ok hc1).1 with
    | root ha hb =>
      have hfit : (SCtx.root name st1.scopes.length _ _).Fits (.top name s.decls) :=
        .root ha hb
      obtain ⟨ds, body⟩ := s
      cases body with
      | grammar items => exact settles_acc (not_endless hne (.grammar hl rfl)) _ hfit
      | pattern p =>
        exact CSett.bind' (settles_acc (not_endless hne (.pattern hl rfl)) _ hfit) (fun n => kp n _ _)
          fun _ => .const (nf_defineRule _ _ _)
  obtain ⟨N, R, hR, h⟩ := hcs st hs
  dsimp only at h
  cases R with
  | error e =>
    refine ⟨N, .error e, fun h => hR (by cases h; rfl), fun n hn m _ => ?_⟩
    simp only [compileFile_body, CM.bind, h n hn, compileEnd]; try rfl
  | ok r =>
    obtain ⟨c, st'⟩ := r
    cases c with
    | root f scope ns dts =>
      obtain ⟨N', R', h1, _, h3⟩ := C34_final_checks st' scope
      refine ⟨max N N', R', fun e => ?_, fun n hn m hm => ?_⟩
      · rcases h3 _ e with ⟨_, h⟩ | h <;> cases h
      · simp only [compileFile_body, CM.bind, h n (by omega), compileEnd]
        exact h1 m (by omega)
    | _ =>
      refine ⟨N, .error (.panic .unreachable), nofun, fun n hn m _ => ?_⟩
      simp only [compileFile_body, CM.bind, h n hn, compileEnd]; try rfl

end Verif
