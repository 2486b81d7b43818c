import Verif.Model.Source
/-
The schema compiler: relaxng-model/src/lib.rs (cited as M:n), relaxng-model/src/model.rs.

Simplifications.  Source positions and message texts are dropped.  The shared mutable cells
(`Rc<RefCell<Option<DefineRule>>>`) are numbered: `cells[k]`, and `Pattern.ref k` points to cell `k`.  The
`refs` map of a `Root`/`Grammar` context and the `overrides` map of an `Include` context live in the state,
under the number stored in the context.  Hash maps are association lists; where the code iterates over a hash
map it stops at the first offending entry, so only which of several offenders is named depends on the order.
Namespace and datatype declarations are all made before a child context is created, so the two maps of a
context are part of the (immutable) context value.
-/
namespace Verif

/-- The patterns the schema compiler produces. -/
abbrev MPattern := Pattern Datatypes DatatypeValues

/-- model.rs:27-31 `CombineRule`. -/
inductive CombineRule where
  | choice
  | interleave
  deriving DecidableEq, Repr

/-- model.rs:8-14 `DefineRule`. -/
inductive DefineRule where
  | assignCombine (c : Option CombineRule) (p : MPattern)
  | combineOnly (c : CombineRule) (p : MPattern)

/-- model.rs:16-20 `DefineRule::pattern`. -/
def DefineRule.pattern : DefineRule → MPattern
  | .assignCombine _ p => p
  | .combineOnly _ p => p

/-- What `Files::load` and the parser can fail with (M:97-103).  `panic`: reading the text panics; nothing handles errors of
loading, so that it does no harm to treat this as one of them and tell them apart at the end (`Model/Tool`). -/
inductive LoadErr where
  | io
  | parse
  | panic
  deriving DecidableEq, Repr

/-- M:96-168 `RelaxError` without positions. -/
inductive SErr where
  | load (e : LoadErr)
  | inInclude (e : SErr)
  | duplicateDefinition (name : Str)
  | undefinedNamespacePrefix (pre : Str)
  | undefinedReference (id : Str)
  | undefinedDatatypePrefix (pre : Str)
  | datatypePrefixAlreadyDefined (pre : Str)
  | startRuleNotDefined
  | mixesChoiceAndInterleave
  | noParentAvailable
  | datatype (e : DtErr)
  | recursiveReference (id : Str)
  | elementAsChildOfAttribute
  | recursiveInclude (name : Str)
  | includedFileMustBeGrammar
  | overrideMissingFromInclude (name : Str)
  deriving DecidableEq, Repr

/-- The panics of the schema compiler. -/
inductive SPanic where
  /-- M:1303, M:1612 "TODO: no parent?" -/
  | noParentDir
  /-- M:1847, M:1857 "Can't inherit namespace at top level" -/
  | inheritNamespace
  /-- M:1294 `compile_include_div` -/
  | includeDiv
  /-- M:1608 `unimplemented!("inherit")` -/
  | externalInherit
  /-- M:476 "TODO: redefined override" -/
  | redefinedOverride
  /-- panics and `unimplemented!` of the datatype libraries -/
  | datatype
  /-- M:1240, M:1251 "Not a Choice pattern", "Not an Interleave pattern" -/
  | notCombinable
  /-- `unreachable!` and internal panics: M:269, M:312, M:360, M:404, M:482, M:487-497, M:522, M:541 -/
  | unreachable
  deriving DecidableEq, Repr

/-- How a run of the compiler can fail; `fuel`: the model's recursion budget ran out. -/
inductive CFault where
  | err (e : SErr)
  | panic (p : SPanic)
  | fuel
  deriving DecidableEq, Repr

/-- The files: `load` is `Files::load` followed by parsing (M:647-663, M:48-89), `join f lit` is
`Path::new(f).parent()?.join(lit)` (std; `none` when `f` has no parent).  Nothing is assumed about either.  Names are
compared as strings; Rust's cache is keyed by `Path`, which ignores `/./` and `//`: `join` returns one representative. -/
structure Files where
  load : Str → Except LoadErr SSchema
  join : Str → Str → Option Str

/-- The mutable state of a compilation: the cells, the `refs` maps, the `overrides` maps (name, defined in the
included grammar?), and `Compiler::loaded` (M:665-670). -/
structure CState where
  cells : List (Option DefineRule)
  scopes : List (List (Str × Nat))
  overrides : List (List (Str × Bool))
  loaded : List (Str × SSchema)

/-- a new compiler (M:676-684) with nothing compiled yet -/
def CState.init : CState := ⟨[], [], [], []⟩

/-- state with errors and panics -/
def CM (α : Type) : Type := CState → Except CFault (α × CState)

namespace CM
variable {α β : Type}
def bind (x : CM α) (f : α → CM β) : CM β := fun s =>
  match x s with
  | .ok (a, s') => f a s'
  | .error e => .error e
instance : Monad CM where
  pure := fun a s => .ok (a, s)
  bind := CM.bind
/-- fail -/
def fail (e : CFault) : CM α := fun _ => .error e
/-- a result without state -/
def lift (x : Except CFault α) : CM α := fun s =>
  match x with
  | .ok a => .ok (a, s)
  | .error e => .error e
/-- `.map_err(|e| RelaxError::IncludeError(span, Box::new(e)))` -/
def inInclude (x : CM α) : CM α := fun s =>
  match x s with
  | .ok r => .ok r
  | .error (.err e) => .error (.err (.inInclude e))
  | .error e => .error e
end CM

/-- "http://www.w3.org/XML/1998/namespace", M:220 -/
def xmlNs : Str := "http://www.w3.org/XML/1998/namespace".toList

/-- M:170-214 `Context`.  `default_namespace` is the empty string in every context (M:231, M:258): no code
changes it. -/
inductive SCtx where
  | root (file : Str) (scope : Nat) (namespaces datatypes : List (Str × Str))
  | incl (parent : SCtx) (file : Str) (ov : Nat) (namespaces datatypes : List (Str × Str))
  | inclOverrides (parent : SCtx)
  | grammar (parent : SCtx) (scope : Nat)
  | define (parent : SCtx) (id : Str)
  | element (parent : SCtx)
  | attribute (parent : SCtx)

namespace SCtx

/-- M:306-324 `file`. -/
def file : SCtx → Option Str
  | .root f _ _ _ => some f
  | .incl _ f _ _ _ => some f
  | .inclOverrides (.incl p _ _ _ _) => p.file
  | .inclOverrides _ => none
  | .grammar p _ => p.file
  | .define p _ => p.file
  | .element p => p.file
  | .attribute p => p.file

/-- M:332-346 `default_namespace_uri`. -/
def defaultNamespaceUri : SCtx → Str
  | _ => []

/-- M:379-391 `namespace_uri_for_prefix_str`. -/
def nsUri : SCtx → Str → Option Str
  | .root _ _ ns _, pre => ns.lookup pre
  | .incl _ _ _ ns _, pre => ns.lookup pre
  | .inclOverrides p, pre => p.nsUri pre
  | .grammar p _, pre => p.nsUri pre
  | .define p _, pre => p.nsUri pre
  | .element p, pre => p.nsUri pre
  | .attribute p, pre => p.nsUri pre

/-- M:423-445 `datatype_uri_for_prefix`. -/
def dtUri : SCtx → Str → Option Str
  | .root _ _ _ dts, pre => dts.lookup pre
  | .incl p _ _ _ dts, pre =>
    match dts.lookup pre with
    | some u => some u
    | none => p.dtUri pre
  | .inclOverrides p, pre => p.dtUri pre
  | .grammar p _, pre => p.dtUri pre
  | .define p _, pre => p.dtUri pre
  | .element p, pre => p.dtUri pre
  | .attribute p, pre => p.dtUri pre

/-- M:348-367 `declare_namespace`: the first declaration of a prefix stays. -/
def declareNamespace : SCtx → Str → Str → Except CFault SCtx
  | .root f s ns dts, pre, uri =>
    .ok (if (ns.lookup pre).isSome then .root f s ns dts else .root f s ((pre, uri) :: ns) dts)
  | .incl p f o ns dts, pre, uri =>
    .ok (if (ns.lookup pre).isSome then .incl p f o ns dts else .incl p f o ((pre, uri) :: ns) dts)
  | _, _, _ => .error (.panic .unreachable)

/-- M:392-413 `declare_datatype`. -/
def declareDatatype : SCtx → Str → Str → Except CFault SCtx
  | .root f s ns dts, pre, uri =>
    if (dts.lookup pre).isSome then .error (.err (.datatypePrefixAlreadyDefined pre))
    else .ok (.root f s ns ((pre, uri) :: dts))
  | .incl p f o ns dts, pre, uri =>
    if (dts.lookup pre).isSome then .error (.err (.datatypePrefixAlreadyDefined pre))
    else .ok (.incl p f o ns ((pre, uri) :: dts))
  | _, _, _ => .error (.panic .unreachable)

/-- M:613-622 `parent_attribute` (is there one?). -/
def parentAttribute : SCtx → Bool
  | .root _ _ _ _ => false
  | .grammar _ _ => false
  | .attribute _ => true
  | .incl p _ _ _ _ => p.parentAttribute
  | .inclOverrides p => p.parentAttribute
  | .define p _ => p.parentAttribute
  | .element p => p.parentAttribute

/-- M:588-609 `check_ref_recursion`. -/
def checkRefRecursion : SCtx → Str → Except CFault Unit
  | .define _ id, r => if id = r then .error (.err (.recursiveReference r)) else .ok ()
  | .attribute p, r => p.checkRefRecursion r
  | _, _ => .ok ()

/-- M:624-646 `check_include`. -/
def checkInclude : SCtx → Str → Except CFault Unit
  | .root _ _ _ _, _ => .ok ()
  | .grammar p _, f => p.checkInclude f
  | .inclOverrides p, f => p.checkInclude f
  | .define p _, f => p.checkInclude f
  | .element p, f => p.checkInclude f
  | .attribute p, f => p.checkInclude f
  | .incl p g _ _ _, f => if f = g then .error (.err (.recursiveInclude f)) else p.checkInclude f

end SCtx

/-! ### definitions -/

/-- M:1232-1242 `append_choice`. -/
def appendChoice (a c : MPattern) : Except CFault MPattern :=
  match a with
  | .choice this =>
    match c with
    | .choice other => .ok (.choice (this ++ other))
    | c => .ok (.choice (this ++ [c]))
  | _ => .error (.panic .notCombinable)

/-- M:1243-1253 `append_interleave`. -/
def appendInterleave (a c : MPattern) : Except CFault MPattern :=
  match a with
  | .interleave this =>
    match c with
    | .interleave other => .ok (.interleave (this ++ other))
    | c => .ok (.interleave (this ++ [c]))
  | _ => .error (.panic .notCombinable)

/-- M:1425-1432: `if let Pattern::Choice(_) = patt_a {..} else {..}`. -/
def joinChoice (a b : MPattern) : Except CFault MPattern :=
  match a with
  | .choice _ => appendChoice a b
  | _ => .ok (.choice [a, b])

/-- M:1464-1471. -/
def joinInterleave (a b : MPattern) : Except CFault MPattern :=
  match a with
  | .interleave _ => appendInterleave a b
  | _ => .ok (.interleave [a, b])

/-- M:1382-1501 `merge1`, case by case. -/
def merge1 (name : Str) (a b : DefineRule) : Except CFault DefineRule :=
  match a, b with
  | .assignCombine _ _, .assignCombine _ _ => .error (.err (.duplicateDefinition name))
  | .combineOnly .choice pa, .combineOnly .choice pb => do
    let p ← appendChoice pa pb
    pure (.combineOnly .choice p)
  | .assignCombine (some .choice) pa, .combineOnly .choice pb => do
    let p ← joinChoice pa pb
    pure (.assignCombine (some .choice) p)
  | .combineOnly .choice pa, .assignCombine (some .choice) pb => do
    let p ← joinChoice pa pb
    pure (.assignCombine (some .choice) p)
  | .assignCombine none pa, .combineOnly .choice pb => do
    let p ← joinChoice pa pb
    pure (.assignCombine (some .choice) p)
  | .combineOnly .choice pa, .assignCombine none pb => do
    let p ← joinChoice pa pb
    pure (.assignCombine (some .choice) p)
  | .combineOnly .interleave pa, .combineOnly .interleave pb => do
    let p ← appendInterleave pa pb
    pure (.combineOnly .interleave p)
  | .assignCombine (some .interleave) pa, .combineOnly .interleave pb => do
    let p ← joinInterleave pa pb
    pure (.assignCombine (some .interleave) p)
  | .combineOnly .interleave pa, .assignCombine (some .interleave) pb => do
    let p ← joinInterleave pa pb
    pure (.assignCombine (some .interleave) p)
  | .assignCombine none pa, .combineOnly .interleave pb => do
    let p ← joinInterleave pa pb
    pure (.assignCombine (some .interleave) p)
  | .combineOnly .interleave pa, .assignCombine none pb => do
    let p ← joinInterleave pa pb
    pure (.assignCombine (some .interleave) p)
  | .combineOnly .choice _, .combineOnly .interleave _ => .error (.err .mixesChoiceAndInterleave)
  | .combineOnly .interleave _, .combineOnly .choice _ => .error (.err .mixesChoiceAndInterleave)
  | .assignCombine (some .choice) _, .combineOnly .interleave _ => .error (.err .mixesChoiceAndInterleave)
  | .assignCombine (some .interleave) _, .combineOnly .choice _ => .error (.err .mixesChoiceAndInterleave)
  | .combineOnly .choice _, .assignCombine (some .interleave) _ => .error (.err .mixesChoiceAndInterleave)
  | .combineOnly .interleave _, .assignCombine (some .choice) _ => .error (.err .mixesChoiceAndInterleave)

/-- M:1367-1381 `merge`. -/
def merge (name : Str) (a b : Option DefineRule) : Except CFault (Option DefineRule) :=
  match a, b with
  | none, none => .ok none
  | some a, none => .ok (some a)
  | none, some b => .ok (some b)
  | some a, some b => do
    let r ← merge1 name a b
    pure (some r)

/-- the `refs` map of a scope -/
def CState.refs (st : CState) (scope : Nat) : List (Str × Nat) := st.scopes.getD scope []

/-- what a cell holds -/
def CState.cell (st : CState) (k : Nat) : Option DefineRule := st.cells.getD k none

/-- the `overrides` map of an include -/
def CState.ov (st : CState) (o : Nat) : List (Str × Bool) := st.overrides.getD o []

/-- `refs.insert(id, Rc::new(RefCell::new(rule)))`: a new cell under a new name. -/
def CState.addCell (st : CState) (scope : Nat) (id : Str) (rule : Option DefineRule) : CState :=
  { st with cells := st.cells ++ [rule],
            scopes := st.scopes.set scope ((id, st.cells.length) :: st.refs scope) }

/-- M:448-457: the `Root`/`Grammar` arm of `define`. -/
def defineIn (scope : Nat) (id : Str) (rule : DefineRule) : CM Unit := fun st =>
  match (st.refs scope).lookup id with
  | some k =>
    match merge id (st.cell k) (some rule) with
    | .ok r => .ok ((), { st with cells := st.cells.set k r })
    | .error e => .error e
  | none => .ok ((), st.addCell scope id (some rule))

/-- `overrides.get_mut(id).unwrap().1 = true` -/
def markOverride (id : Str) : List (Str × Bool) → List (Str × Bool)
  | [] => []
  | (n, b) :: rest => if n = id then (n, true) :: rest else (n, b) :: markOverride id rest

/-- M:446-502 `Context::define`. -/
def SCtx.defineRule : SCtx → Str → DefineRule → CM Unit
  | .root _ s _ _, id, rule => defineIn s id rule
  | .grammar _ s, id, rule => defineIn s id rule
  | .incl p _ o _ _, id, rule => fun st =>
    if ((st.ov o).lookup id).isSome then
      .ok ((), { st with overrides := st.overrides.set o (markOverride id (st.ov o)) })
    else p.defineRule id rule st
  | .inclOverrides (.incl p _ o _ _), id, rule => fun st =>
    if ((st.ov o).lookup id).isSome then .error (.panic .redefinedOverride)
    else p.defineRule id rule { st with overrides := st.overrides.set o ((id, false) :: st.ov o) }
  | _, _, _ => CM.fail (.panic .unreachable)

/-- M:549-567 `acquire_ref_impl`. -/
def SCtx.acquireRefImpl : SCtx → Str → CM Nat
  | .root _ s _ _, id => acquireIn s id
  | .grammar _ s, id => acquireIn s id
  | .incl p _ _ _ _, id => p.acquireRefImpl id
  | .inclOverrides p, id => p.acquireRefImpl id
  | .define p _, id => p.acquireRefImpl id
  | .element p, id => p.acquireRefImpl id
  | .attribute p, id => p.acquireRefImpl id
where
  /-- M:551-559 -/
  acquireIn (scope : Nat) (id : Str) : CM Nat := fun st =>
    match (st.refs scope).lookup id with
    | some k => .ok (k, st)
    | none => .ok (st.cells.length, st.addCell scope id none)

/-- M:545-548 `acquire_ref`. -/
def SCtx.acquireRef (c : SCtx) (id : Str) : CM Nat := do
  CM.lift (c.checkRefRecursion id)
  c.acquireRefImpl id

/-- M:569-582 `acquire_parent_ref`. -/
def SCtx.acquireParentRef : SCtx → Str → CM Nat
  | .root _ _ _ _, _ => CM.fail (.err .noParentAvailable)
  | .incl p _ _ _ _, id => p.acquireParentRef id
  | .inclOverrides p, id => p.acquireParentRef id
  | .define p _, id => p.acquireParentRef id
  | .element p, id => p.acquireParentRef id
  | .attribute p, id => p.acquireParentRef id
  | .grammar p _, id => p.acquireRef id

/-! ### names, datatypes, declarations -/

/-- M:369-378 `namespace_uri_for_prefix`. -/
def SCtx.nsUriE (c : SCtx) (pre : Str) : Except CFault Str :=
  match c.nsUri pre with
  | some u => .ok u
  | none => .error (.err (.undefinedNamespacePrefix pre))

/-- M:415-422 `try_datatype_uri_for_prefix`. -/
def SCtx.dtUriE (c : SCtx) (pre : Str) : Except CFault Str :=
  match c.dtUri pre with
  | some u => .ok u
  | none => .error (.err (.undefinedDatatypePrefix pre))

/-- M:1914-1919: the namespace an `NsName` names. -/
def SCtx.nsRef (c : SCtx) : NsRef → Except CFault Str
  | .uri u => .ok u
  | .pre p => c.nsUriE p

/-- M:1873-1932 `compile_nameclass`. -/
def compileNameclass (c : SCtx) (isElement : Bool) : SNameClass → Except CFault NameClass
  | .ident id => .ok (.named (if isElement then c.defaultNamespaceUri else []) id)
  | .cname pre loc => do
    let u ← c.nsUriE pre
    pure (.named u loc)
  | .namespaced uri loc => .ok (.named uri loc)
  | .nsName n => do
    let u ← c.nsRef n
    pure (.nsName u)
  | .nsNameExcept n ex => do
    let ex ← compileNameclass c isElement ex
    let u ← c.nsRef n
    pure (.nsNameExcept u ex)
  | .anyName => .ok .anyName
  | .anyNameExcept ex => do
    let ex ← compileNameclass c isElement ex
    pure (.anyNameExcept ex)
  | .alt a b => do
    let a ← compileNameclass c isElement a
    let b ← compileNameclass c isElement b
    pure (.alt a b)
  | .paren n => compileNameclass c isElement n

/-- M:1772-1789 and M:1806-1823: prefixes of datatype names become library URIs; both syntaxes' qualified
names become `CName`. -/
def SCtx.dtName (c : SCtx) : SDtName → Except CFault DtName
  | .string => .ok .string
  | .token => .ok .token
  | .cname pre name => do
    let u ← c.dtUriE pre
    pure (.cname u name)
  | .namespaced uri name => .ok (.cname uri name)

/-- `.map_err(RelaxError::DatatypeError)` -/
def dtRes {α : Type} : Res DtErr α → Except CFault α
  | .ok a => .ok a
  | .err e => .error (.err (.datatype e))
  | .panic => .error (.panic .datatype)

/-- M:1838-1870 `compile_declaration`. -/
def compileDeclaration (c : SCtx) : SDecl → Except CFault SCtx
  | .defaultNamespace _ none => .error (.panic .inheritNamespace)
  | .defaultNamespace (some p) (some uri) => c.declareNamespace p uri
  | .defaultNamespace none (some _) => .ok c
  | .namespace _ none => .error (.panic .inheritNamespace)
  | .namespace p (some uri) => c.declareNamespace p uri
  | .datatypes p uri => c.declareDatatype p uri

/-- M:1196-1198: all declarations, in order. -/
def compileDeclarations (c : SCtx) : List SDecl → Except CFault SCtx
  | [] => .ok c
  | d :: ds => do
    let c ← compileDeclaration c d
    compileDeclarations c ds

/-! ### patterns -/

/-- the members of a pattern to be spliced into a group, M:1713-1720 -/
def groupMembers : MPattern → List MPattern
  | .group v => v
  | p => [p]

/-- M:1732-1739 -/
def interleaveMembers : MPattern → List MPattern
  | .interleave v => v
  | p => [p]

/-- M:1751-1758 -/
def choiceMembers : MPattern → List MPattern
  | .choice v => v
  | p => [p]

section
variable (F : Files) (x : Ext)

/-- M:1180-1193 `get_schema`: each file is loaded once. -/
def getSchema (name : Str) : CM SSchema := fun st =>
  match st.loaded.lookup name with
  | some s => .ok (s, st)
  | none =>
    match F.load name with
    | .ok s => .ok (s, { st with loaded := (name, s) :: st.loaded })
    | .error e => .error (.err (.load e))

/-- M:1300-1304, M:1610-1613: the path of an included file. -/
def includePath (c : SCtx) (lit : Str) : Except CFault Str :=
  match c.file with
  | none => .error (.panic .unreachable)
  | some f =>
    match F.join f lit with
    | some p => .ok p
    | none => .error (.panic .noParentDir)

/-- M:238-262 `new_include`: fails on recursion, otherwise a context with an empty override table. -/
def newInclude (c : SCtx) (file : Str) : CM SCtx := fun st =>
  match c.checkInclude file with
  | .error e => .error e
  | .ok () =>
    .ok (.incl c file st.overrides.length [("xml".toList, xmlNs)] [("xsd".toList, xsdUri)],
      { st with overrides := st.overrides ++ [[]] })

/-- M:275-280 `new_grammar`. -/
def newGrammar (c : SCtx) : CM SCtx := fun st =>
  .ok (.grammar c st.scopes.length, { st with scopes := st.scopes ++ [[]] })

/-- M:1262-1276: the rule made of one definition. -/
def ruleOf (how : AssignMethod) (q : MPattern) : DefineRule :=
  match how with
  | .assign => .assignCombine none q
  | .choice => .combineOnly .choice (.choice [q])
  | .interleave => .combineOnly .interleave (.interleave [q])

/-- M:1254-1278 `compile_define`; `cp` is `compile_pattern`. -/
def compileDefine (cp : SCtx → SPattern → CM MPattern) (c : SCtx) (id : Str) (how : AssignMethod) (body : SPattern) :
    CM Unit := do
  let rule ← cp (.define c id) body
  c.defineRule id (ruleOf how rule)

/-- M:1680-1690 `compile_grammar_contents`; `ci` is `compile_grammar_content_item`. -/
def compileContents (ci : SCtx → SItem → CM Unit) (c : SCtx) : List SItem → CM Unit
  | [] => pure ()
  | i :: is => do
    ci c i
    compileContents ci c is

/-- M:1195-1229 `compile_schema`. -/
def compileSchema (cp : SCtx → SPattern → CM MPattern) (ci : SCtx → SItem → CM Unit) (c : SCtx) (s : SSchema) :
    CM Unit := do
  let c ← CM.lift (compileDeclarations c s.decls)
  match s.body with
  | .pattern p =>
    match c with
    | .incl _ _ _ _ _ =>
      match p with
      | .grammar items => compileContents ci c items
      | _ => CM.fail (.err .includedFileMustBeGrammar)
    | c => do
      let rule ← cp c p
      c.defineRule "start".toList (.assignCombine none rule)
  | .grammar items => compileContents ci c items

/-- M:1328-1343: the overrides of an include. -/
def compileOverrides (cp : SCtx → SPattern → CM MPattern) (c : SCtx) : List SOverride → CM Unit
  | [] => pure ()
  | o :: os => do
    match o with
    | .define id how body => (compileDefine cp c id how body).inInclude
    | .div => CM.fail (.panic .includeDiv)
    | .annotation => pure ()
    compileOverrides cp c os

/-- M:1348-1361: every override must have been defined by the included grammar. -/
def checkOverrides : List (Str × Bool) → Except CFault Unit
  | [] => .ok ()
  | (name, defined) :: rest =>
    if defined then checkOverrides rest else .error (.err (.overrideMissingFromInclude name))

/-- M:1348-1361, on the include's own table. -/
def checkOvs (o : Nat) : CM Unit := fun st =>
  match checkOverrides (st.ov o) with
  | .ok () => .ok ((), st)
  | .error e => .error e

/-- M:1314-1325: `inherit = pre` declares the prefix in the included file as well. -/
def inheritNs (c inc : SCtx) : Option Str → Except CFault SCtx
  | none => .ok inc
  | some pre =>
    match c.nsUri pre with
    | none => .error (.err (.undefinedNamespacePrefix pre))
    | some u => inc.declareNamespace pre u

/-- M:1296-1364 `compile_include`. -/
def compileInclude (cp : SCtx → SPattern → CM MPattern) (ci : SCtx → SItem → CM Unit) (c : SCtx) (lit : Str)
    (inherit : Option Str) (overrides : List SOverride) : CM Unit := do
  let path ← CM.lift (includePath F c lit)
  let s ← (getSchema F path).inInclude
  let inc ← newInclude c path
  let inc ← CM.lift (inheritNs c inc inherit)
  compileOverrides cp (.inclOverrides inc) overrides
  (compileSchema cp ci inc s).inInclude
  match inc with
  | .incl _ _ o _ _ => checkOvs o
  | _ => CM.fail (.panic .unreachable)

/-- M:1637-1647, M:1662-1677: the pattern of the grammar's start rule is moved out of its cell. -/
def takeStart (scope : Nat) : CM MPattern := fun st =>
  match (st.refs scope).lookup "start".toList with
  | none => .error (.err .startRuleNotDefined)
  | some k =>
    match st.cell k with
    | none => .error (.err .startRuleNotDefined)
    | some r => .ok (r.pattern, { st with cells := st.cells.set k none })

/-- M:697-708, M:1628-1636: is every name of the scope defined? -/
def checkDefined (st : CState) : List (Str × Nat) → Except CFault Unit
  | [] => .ok ()
  | (name, k) :: rest =>
    match st.cell k with
    | none => .error (.err (.undefinedReference name))
    | some _ => checkDefined st rest

/-- M:1628-1636. -/
def checkScope (scope : Nat) : CM Unit := fun st =>
  match checkDefined st (st.refs scope) with
  | .ok () => .ok ((), st)
  | .error e => .error e

/-- M:1602-1653 `compile_external`.  Note that the grammar case goes on with `c`, not with the context of the
included file. -/
def compileExternal (cp : SCtx → SPattern → CM MPattern) (ci : SCtx → SItem → CM Unit) (c : SCtx) (lit : Str)
    (inherit : Option Str) : CM MPattern :=
  match inherit with
  | some _ => CM.fail (.panic .externalInherit)
  | none => do
    let path ← CM.lift (includePath F c lit)
    let s ← (getSchema F path).inInclude
    let inc ← newInclude c path
    match s.body with
    | .pattern p => (cp inc p).inInclude
    | .grammar items => do
      let child ← newGrammar c
      compileContents ci child items
      match child with
      | .grammar _ scope => do
        checkScope scope
        takeStart scope
      | _ => CM.fail (.panic .unreachable)

/-- M:1654-1678 `compile_grammar_pattern`. -/
def compileGrammarPattern (ci : SCtx → SItem → CM Unit) (c : SCtx) (items : List SItem) : CM MPattern := do
  let child ← newGrammar c
  compileContents ci child items
  match child with
  | .grammar _ scope => takeStart scope
  | _ => CM.fail (.panic .unreachable)

mutual
/-- M:1503-1538 `compile_pattern` and the functions it dispatches to, M:1539-1836. -/
def compilePattern : Nat → SCtx → SPattern → CM MPattern
  | 0, _, _ => CM.fail .fuel
  | n + 1, c, pat =>
    match pat with
    | .element nc p => do
      let nc ← CM.lift (compileNameclass c true nc)
      if c.parentAttribute then CM.fail (.err .elementAsChildOfAttribute)
      else do
        let p ← compilePattern n (.element c) p
        pure (.element nc p)
    | .attribute nc p => do
      let nc ← CM.lift (compileNameclass c false nc)
      let p ← compilePattern n (.attribute c) p
      pure (.attr nc p)
    | .list p => do
      let p ← compilePattern n c p
      pure (.list p)
    | .mixed p => do
      let p ← compilePattern n c p
      pure (.mixed p)
    | .ident id => do
      let k ← c.acquireRef id
      pure (.ref k)
    | .parent id => do
      let k ← c.acquireParentRef id
      pure (.ref k)
    | .empty => pure .empty
    | .text => pure .text
    | .notAllowed => pure .notAllowed
    | .external path inherit => compileExternal F (compilePattern n) (compileItem n) c path inherit
    | .grammar items => compileGrammarPattern (compileItem n) c items
    | .paren p => compilePattern n c p
    | .seq a b => do
      let a ← compilePattern n c a
      let b ← compilePattern n c b
      pure (.group (groupMembers a ++ groupMembers b))
    | .inter a b => do
      let a ← compilePattern n c a
      let b ← compilePattern n c b
      pure (.interleave (interleaveMembers a ++ interleaveMembers b))
    | .choice a b => do
      let a ← compilePattern n c a
      let b ← compilePattern n c b
      pure (.choice (choiceMembers a ++ choiceMembers b))
    | .optional p => do
      let p ← compilePattern n c p
      pure (.optional p)
    | .zeroOrMore p => do
      let p ← compilePattern n c p
      pure (.zeroOrMore p)
    | .oneOrMore p => do
      let p ← compilePattern n c p
      pure (.oneOrMore p)
    | .value ty lit => do
      let name ← CM.lift (c.dtName (ty.getD .token))
      let v ← CM.lift (dtRes (datatypeValueOf name lit))
      pure (.datatypeValue v)
    | .data ty params => do
      let name ← CM.lift (c.dtName ty)
      let d ← CM.lift (dtRes (datatypeNameOf x name params))
      pure (.datatypeName d)
    | .dataExcept ty params ex => do
      let name ← CM.lift (c.dtName ty)
      let d ← CM.lift (dtRes (datatypeNameOf x name params))
      let ex ← compilePattern n c ex
      pure (.datatypeNameExcept d ex)
/-- M:1691-1703 `compile_grammar_content_item`, M:1279-1288 `compile_grammar_div`. -/
def compileItem : Nat → SCtx → SItem → CM Unit
  | 0, _, _ => CM.fail .fuel
  | n + 1, c, item =>
    match item with
    | .define id how body => compileDefine (compilePattern n) c id how body
    | .div items => compileContents (compileItem n) c items
    | .include path inherit overrides =>
      compileInclude F (compilePattern n) (compileItem n) c path inherit overrides
    | .annotation => pure ()
end

/-! ### the whole schema -/

/-- `for p in v { self.check(seen, p)? }` -/
def checkAll (f : List Nat → MPattern → Except CFault (List Nat)) : List Nat → List MPattern →
    Except CFault (List Nat)
  | seen, [] => .ok seen
  | seen, p :: ps => do
    let seen ← f seen p
    checkAll f seen ps

/-- M:722-761 `check`; the result is the new `seen`.  The identifier in the error is dropped. -/
def check (cells : List (Option DefineRule)) : Nat → List Nat → MPattern → Except CFault (List Nat)
  | 0, _, _ => .error .fuel
  | n + 1, seen, p =>
    match p with
    | .choice v => checkAll (check cells n) seen v
    | .interleave v => checkAll (check cells n) seen v
    | .group v => checkAll (check cells n) seen v
    | .mixed p => check cells n seen p
    | .optional p => check cells n seen p
    | .zeroOrMore p => check cells n seen p
    | .oneOrMore p => check cells n seen p
    | .attr _ p => check cells n seen p
    | .element _ p => check cells n seen p
    | .list p => check cells n seen p
    | .empty => .ok seen
    | .text => .ok seen
    | .notAllowed => .ok seen
    | .datatypeValue _ => .ok seen
    | .ref k =>
      if k ∈ seen then .ok seen
      else match cells.getD k none with
        | some r => check cells n (k :: seen) r.pattern
        | none => .error (.err (.undefinedReference []))
    | .datatypeName _ => .ok seen
    | .datatypeNameExcept _ e => check cells n seen e

/-- M:216-236 `Context::new`. -/
def newRoot (file : Str) : CM SCtx := fun st =>
  .ok (.root file st.scopes.length [("xml".toList, xmlNs)] [("xsd".toList, xsdUri)],
    { st with scopes := st.scopes ++ [[]] })

/-- M:697-719: the checks at the end of `compile`. -/
def finishCompile (m scope : Nat) : CM Nat := fun st =>
  match checkDefined st (st.refs scope) with
  | .error e => .error e
  | .ok () =>
    match (st.refs scope).lookup "start".toList with
    | none => .error (.err .startRuleNotDefined)
    | some k =>
      match st.cell k with
      | none => .error (.panic .unreachable)
      | some r =>
        match check st.cells m [] r.pattern with
        | .error e => .error e
        | .ok _ => .ok (k, st)

/-- M:693-719 `Compiler::compile`: the number of the start rule's cell.  Two fuels: one for compiling, one for
`check`. -/
def compileFile (n m : Nat) (name : Str) : CM Nat := do
  let s ← getSchema F name
  let c ← newRoot name
  compileSchema (compilePattern F x n) (compileItem F x n) c s
  match c with
  | .root _ scope _ _ => finishCompile m scope
  | _ => CM.fail (.panic .unreachable)

end

/-- What the references of a compiled schema point to: `PatRef` (model.rs:62) dereferenced, as the validator does at
V:593-606.  An empty cell is a reference to nothing. -/
def CState.env (st : CState) : Env Datatypes DatatypeValues :=
  st.cells.map fun
    | some r => r.pattern
    | none => .ref st.cells.length

end Verif
