import Verif.Model.Schema
/-
The schema compiler once more, with the source positions that `Model/Source` and `Model/Schema` leave out: relaxng-syntax/src/types.rs,
relaxng-model/src/lib.rs (cited as M:n), relaxng-model/src/datatype/*.rs.

A position in a syntax tree is a range of bytes of "the file"; the compiler makes a `codemap::Span` of it by
`ctx.file().span.subspan(start, end)`, which panics if the range does not lie within the file of the context.  The two agree
only if the tree comes from that file.  What the compiler does otherwise is the same (`Proof/SchemaSpans`).

Positions the compiler never reads are still left out (those of operators, of names without prefix, of declarations).
-/
namespace Verif.At
open Verif

/-- types.rs:3 `Span`: a range of bytes -/
structure Rg where
  lo : Nat
  hi : Nat
  deriving DecidableEq, Repr

/-- `codemap::Span`: a range of bytes of one of the files.  (A `CodeMap` numbers the bytes of all its files consecutively; a
file that was loaded is never loaded again, M:1181, so that its name will do.) -/
structure Span where
  file : Str
  lo : Nat
  hi : Nat
  deriving DecidableEq, Repr

/-! ### the syntax tree, see `Model/Source` -/

/-- types.rs:288-301 `NamespaceOrPrefix`. -/
inductive LNsRef where
  | pre (at_ : Rg) (p : Str)
  | uri (u : Str)

/-- types.rs:259-314 `NameClass`. -/
inductive LNameClass where
  | ident (name : Str)
  | cname (at_ : Rg) (pre loc : Str)
  | namespaced (uri loc : Str)
  | nsName (ns : LNsRef)
  | nsNameExcept (ns : LNsRef) (ex : LNameClass)
  | anyName
  | anyNameExcept (ex : LNameClass)
  | alt (a b : LNameClass)
  | paren (a : LNameClass)

/-- types.rs:113-122 `DatatypeName`; `at_` is the range of the prefix or of the URI, `nameAt` that of the local name. -/
inductive LDtName where
  | string
  | token
  | cname (at_ : Rg) (pre : Str) (nameAt : Rg) (name : Str)
  | namespaced (at_ : Rg) (uri : Str) (nameAt : Rg) (name : Str)

/-- types.rs:138-143 `Param`. -/
structure LParam where
  at_ : Rg
  name : Str
  value : Str

mutual
/-- types.rs:37-63 `Pattern`. -/
inductive LPat where
  | element (at_ : Rg) (nc : LNameClass) (p : LPat)
  | attribute (at_ : Rg) (nc : LNameClass) (p : LPat)
  | list (p : LPat)
  | mixed (p : LPat)
  | ident (at_ : Rg) (id : Str)
  | parent (at_ : Rg) (id : Str)
  | empty
  | text
  | notAllowed
  | external (at_ : Rg) (path : Str) (inherit : Option Str)
  | grammar (at_ : Rg) (items : List LItem)
  | paren (p : LPat)
  | seq (a b : LPat)
  | inter (a b : LPat)
  | choice (a b : LPat)
  | optional (p : LPat)
  | zeroOrMore (p : LPat)
  | oneOrMore (p : LPat)
  | value (ty : Option LDtName) (lit : Str)
  | data (ty : LDtName) (params : List LParam)
  | dataExcept (ty : LDtName) (params : List LParam) (ex : LPat)
/-- types.rs:155-161 `GrammarContent`; the range of a definition is that of its name, of an include that of its literal. -/
inductive LItem where
  | define (at_ : Rg) (id : Str) (how : AssignMethod) (body : LPat)
  | div (items : List LItem)
  | include (at_ : Rg) (path : Str) (inherit : Option (Rg × Str)) (overrides : List LOverride)
  | annotation
/-- types.rs:183-188 `IncludeContent`. -/
inductive LOverride where
  | define (at_ : Rg) (id : Str) (how : AssignMethod) (body : LPat)
  | div
  | annotation
end

/-- types.rs:148-152 `PatternOrGrammar`. -/
inductive LBody where
  | pattern (p : LPat)
  | grammar (items : List LItem)

/-- types.rs:5-9 `Schema`. -/
structure LSchema where
  decls : List SDecl
  body : LBody

/-! ### without the positions -/

def LNsRef.plain : LNsRef → NsRef
  | .pre _ p => .pre p
  | .uri u => .uri u

def LNameClass.plain : LNameClass → SNameClass
  | .ident n => .ident n
  | .cname _ p n => .cname p n
  | .namespaced u n => .namespaced u n
  | .nsName r => .nsName r.plain
  | .nsNameExcept r e => .nsNameExcept r.plain e.plain
  | .anyName => .anyName
  | .anyNameExcept e => .anyNameExcept e.plain
  | .alt a b => .alt a.plain b.plain
  | .paren a => .paren a.plain

def LDtName.plain : LDtName → SDtName
  | .string => .string
  | .token => .token
  | .cname _ p _ n => .cname p n
  | .namespaced _ u _ n => .namespaced u n

def LParam.plain (p : LParam) : Param := ⟨p.name, p.value⟩

mutual
def LPat.plain : LPat → SPattern
  | .element _ nc p => .element nc.plain p.plain
  | .attribute _ nc p => .attribute nc.plain p.plain
  | .list p => .list p.plain
  | .mixed p => .mixed p.plain
  | .ident _ id => .ident id
  | .parent _ id => .parent id
  | .empty => .empty
  | .text => .text
  | .notAllowed => .notAllowed
  | .external _ path i => .external path i
  | .grammar _ items => .grammar (plainItems items)
  | .paren p => .paren p.plain
  | .seq a b => .seq a.plain b.plain
  | .inter a b => .inter a.plain b.plain
  | .choice a b => .choice a.plain b.plain
  | .optional p => .optional p.plain
  | .zeroOrMore p => .zeroOrMore p.plain
  | .oneOrMore p => .oneOrMore p.plain
  | .value ty lit => .value (ty.map LDtName.plain) lit
  | .data ty ps => .data ty.plain (ps.map LParam.plain)
  | .dataExcept ty ps ex => .dataExcept ty.plain (ps.map LParam.plain) ex.plain
def LItem.plain : LItem → SItem
  | .define _ id how body => .define id how body.plain
  | .div items => .div (plainItems items)
  | .include _ path i os => .include path (i.map (·.2)) (plainOverrides os)
  | .annotation => .annotation
def LOverride.plain : LOverride → SOverride
  | .define _ id how body => .define id how body.plain
  | .div => .div
  | .annotation => .annotation
def plainItems : List LItem → List SItem
  | [] => []
  | i :: is => i.plain :: plainItems is
def plainOverrides : List LOverride → List SOverride
  | [] => []
  | o :: os => o.plain :: plainOverrides os
end

def LBody.plain : LBody → SBody
  | .pattern p => .pattern p.plain
  | .grammar is => .grammar (plainItems is)

def LSchema.plain (s : LSchema) : SSchema := ⟨s.decls, s.body.plain⟩

/-! ### compiled patterns, errors, state -/

/-- model.rs:33-60 `Pattern`: `Ref` carries the position and the name of the reference. -/
inductive CPat where
  | choice (ps : List CPat)
  | interleave (ps : List CPat)
  | group (ps : List CPat)
  | mixed (p : CPat)
  | empty
  | text
  | notAllowed
  | optional (p : CPat)
  | zeroOrMore (p : CPat)
  | oneOrMore (p : CPat)
  | attr (nc : NameClass) (p : CPat)
  | element (nc : NameClass) (p : CPat)
  | ref (at_ : Span) (id : Str) (n : Nat)
  | datatypeValue (v : DatatypeValues)
  | datatypeName (d : Datatypes)
  | datatypeNameExcept (d : Datatypes) (ex : CPat)
  | list (p : CPat)

mutual
def CPat.plain : CPat → MPattern
  | .choice ps => .choice (plainPats ps)
  | .interleave ps => .interleave (plainPats ps)
  | .group ps => .group (plainPats ps)
  | .mixed p => .mixed p.plain
  | .empty => .empty
  | .text => .text
  | .notAllowed => .notAllowed
  | .optional p => .optional p.plain
  | .zeroOrMore p => .zeroOrMore p.plain
  | .oneOrMore p => .oneOrMore p.plain
  | .attr nc p => .attr nc p.plain
  | .element nc p => .element nc p.plain
  | .ref _ _ n => .ref n
  | .datatypeValue v => .datatypeValue v
  | .datatypeName d => .datatypeName d
  | .datatypeNameExcept d ex => .datatypeNameExcept d ex.plain
  | .list p => .list p.plain
def plainPats : List CPat → List MPattern
  | [] => []
  | p :: ps => p.plain :: plainPats ps
end

/-- model.rs:8-14 `DefineRule`, with the position of the name defined. -/
inductive CRule where
  | assignCombine (at_ : Span) (c : Option CombineRule) (p : CPat)
  | combineOnly (at_ : Span) (c : CombineRule) (p : CPat)

/-- model.rs:16-20 `DefineRule::pattern`. -/
def CRule.pattern : CRule → CPat
  | .assignCombine _ _ p => p
  | .combineOnly _ _ p => p

/-- model.rs:21-25 `DefineRule::span`. -/
def CRule.at_ : CRule → Span
  | .assignCombine s _ _ => s
  | .combineOnly s _ _ => s

def CRule.plain : CRule → DefineRule
  | .assignCombine _ c p => .assignCombine c p.plain
  | .combineOnly _ c p => .combineOnly c p.plain

/-- M:96-168 `RelaxError`.  Positions of syntax errors are left out. -/
inductive LErr where
  | load (file : Str) (e : LoadErr)
  | inInclude (at_ : Span) (e : LErr)
  | duplicateDefinition (name : Str) (duplicate original : Span)
  | undefinedNamespacePrefix (at_ : Span) (pre : Str)
  | undefinedReference (at_ : Span) (id : Str)
  | undefinedDatatypePrefix (at_ : Span) (pre : Str)
  | datatypePrefixAlreadyDefined (pre : Str)
  | startRuleNotDefined (at_ : Span)
  | mixesChoiceAndInterleave (this that : Span)
  | noParentAvailable (at_ : Span)
  | datatype (at_ : Option Span) (e : DtErr)
  | recursiveReference (id : Str) (refAt defAt : Span)
  | elementAsChildOfAttribute (attributeAt elementAt : Span)
  | recursiveInclude (name : Str) (at_ : Span)
  | includedFileMustBeGrammar (at_ : Span)
  | overrideMissingFromInclude (name : Str) (overrideAt includeAt : Span)
  deriving DecidableEq, Repr

def LErr.plain : LErr → SErr
  | .load _ e => .load e
  | .inInclude _ e => .inInclude e.plain
  | .duplicateDefinition n _ _ => .duplicateDefinition n
  | .undefinedNamespacePrefix _ p => .undefinedNamespacePrefix p
  | .undefinedReference _ id => .undefinedReference id
  | .undefinedDatatypePrefix _ p => .undefinedDatatypePrefix p
  | .datatypePrefixAlreadyDefined p => .datatypePrefixAlreadyDefined p
  | .startRuleNotDefined _ => .startRuleNotDefined
  | .mixesChoiceAndInterleave _ _ => .mixesChoiceAndInterleave
  | .noParentAvailable _ => .noParentAvailable
  | .datatype _ e => .datatype e
  | .recursiveReference id _ _ => .recursiveReference id
  | .elementAsChildOfAttribute _ _ => .elementAsChildOfAttribute
  | .recursiveInclude n _ => .recursiveInclude n
  | .includedFileMustBeGrammar _ => .includedFileMustBeGrammar
  | .overrideMissingFromInclude n _ _ => .overrideMissingFromInclude n

/-- How a run can fail.  `subspan`: the assertion of `codemap::Span::subspan` fails; `reporting` tells whether the position was
wanted for an error that had been found (it makes no difference to the program). -/
inductive LFault where
  | err (e : LErr)
  | panic (p : SPanic)
  | subspan (reporting : Bool)
  | fuel
  deriving DecidableEq, Repr

/-- The files, see `Verif.Files`; `size` is the length of a file in bytes. -/
structure LFiles where
  load : Str → Except LoadErr LSchema
  join : Str → Str → Option Str
  size : Str → Nat

def LFiles.plain (F : LFiles) : Files := ⟨fun f =>
  match F.load f with
  | .ok s => .ok s.plain
  | .error e => .error e, F.join⟩

/-- The mutable state of a compilation, see `CState`; an override carries the position of its name. -/
structure LState where
  cells : List (Option CRule)
  scopes : List (List (Str × Nat))
  overrides : List (List (Str × Span × Bool))
  loaded : List (Str × LSchema)

/-- a compiler that has loaded some files before -/
def LState.fresh (loaded : List (Str × LSchema)) : LState := ⟨[], [], [], loaded⟩

def plainOv (o : Str × Span × Bool) : Str × Bool := (o.1, o.2.2)

def LState.plain (st : LState) : CState :=
  ⟨st.cells.map (Option.map CRule.plain), st.scopes, st.overrides.map (List.map plainOv),
    st.loaded.map fun f => (f.1, f.2.plain)⟩

/-- state with errors and panics -/
def LM (α : Type) : Type := LState → Except LFault (α × LState)

namespace LM
variable {α β : Type}
def bind (x : LM α) (f : α → LM β) : LM β := fun s =>
  match x s with
  | .ok (a, s') => f a s'
  | .error e => .error e
instance : Monad LM where
  pure := fun a s => .ok (a, s)
  bind := LM.bind
/-- fail -/
def fail (e : LFault) : LM α := fun _ => .error e
/-- a result without state -/
def lift (x : Except LFault α) : LM α := fun s =>
  match x with
  | .ok a => .ok (a, s)
  | .error e => .error e
/-- `.map_err(|e| RelaxError::IncludeError(span, Box::new(e)))` -/
def inInclude (at_ : Span) (x : LM α) : LM α := fun s =>
  match x s with
  | .ok r => .ok r
  | .error (.err e) => .error (.err (.inInclude at_ e))
  | .error e => .error e
end LM

/-! ### contexts -/

/-- M:170-214 `Context`. -/
inductive LCtx where
  | root (file : Str) (scope : Nat) (namespaces datatypes : List (Str × Str))
  | incl (parent : LCtx) (file : Str) (ov : Nat) (namespaces datatypes : List (Str × Str))
  | inclOverrides (parent : LCtx)
  | grammar (parent : LCtx) (scope : Nat)
  | define (parent : LCtx) (at_ : Rg) (id : Str)
  | element (parent : LCtx)
  | attribute (parent : LCtx) (at_ : Span)

namespace LCtx

def plain : LCtx → SCtx
  | .root f s ns dts => .root f s ns dts
  | .incl p f o ns dts => .incl p.plain f o ns dts
  | .inclOverrides p => .inclOverrides p.plain
  | .grammar p s => .grammar p.plain s
  | .define p _ id => .define p.plain id
  | .element p => .element p.plain
  | .attribute p _ => .attribute p.plain

/-- M:306-324 `file`. -/
def file : LCtx → Option Str
  | .root f _ _ _ => some f
  | .incl _ f _ _ _ => some f
  | .inclOverrides (.incl p _ _ _ _) => p.file
  | .inclOverrides _ => none
  | .grammar p _ => p.file
  | .define p _ _ => p.file
  | .element p => p.file
  | .attribute p _ => p.file

/-- M:327-329 `convert_span`, codemap `Span::subspan`.  `size` is the length of the files.  For `reporting` see `LFault`. -/
def convert (size : Str → Nat) (c : LCtx) (r : Rg) (reporting : Bool := false) : Except LFault Span :=
  match c.file with
  | none => .error (.panic .unreachable)
  | some f => if r.lo ≤ r.hi ∧ r.hi ≤ size f then .ok ⟨f, r.lo, r.hi⟩ else .error (.subspan reporting)

/-- M:379-391 `namespace_uri_for_prefix_str`. -/
def nsUri : LCtx → Str → Option Str
  | .root _ _ ns _, pre => ns.lookup pre
  | .incl _ _ _ ns _, pre => ns.lookup pre
  | .inclOverrides p, pre => p.nsUri pre
  | .grammar p _, pre => p.nsUri pre
  | .define p _ _, pre => p.nsUri pre
  | .element p, pre => p.nsUri pre
  | .attribute p _, pre => p.nsUri pre

/-- M:423-445 `datatype_uri_for_prefix`. -/
def dtUri : LCtx → Str → Option Str
  | .root _ _ _ dts, pre => dts.lookup pre
  | .incl p _ _ _ dts, pre =>
    match dts.lookup pre with
    | some u => some u
    | none => p.dtUri pre
  | .inclOverrides p, pre => p.dtUri pre
  | .grammar p _, pre => p.dtUri pre
  | .define p _ _, pre => p.dtUri pre
  | .element p, pre => p.dtUri pre
  | .attribute p _, pre => p.dtUri pre

/-- M:348-367 `declare_namespace`: the first declaration of a prefix stays. -/
def declareNamespace : LCtx → Str → Str → Except LFault LCtx
  | .root f s ns dts, pre, uri =>
    .ok (if (ns.lookup pre).isSome then .root f s ns dts else .root f s ((pre, uri) :: ns) dts)
  | .incl p f o ns dts, pre, uri =>
    .ok (if (ns.lookup pre).isSome then .incl p f o ns dts else .incl p f o ((pre, uri) :: ns) dts)
  | _, _, _ => .error (.panic .unreachable)

/-- M:392-413 `declare_datatype`. -/
def declareDatatype : LCtx → Str → Str → Except LFault LCtx
  | .root f s ns dts, pre, uri =>
    if (dts.lookup pre).isSome then .error (.err (.datatypePrefixAlreadyDefined pre))
    else .ok (.root f s ns ((pre, uri) :: dts))
  | .incl p f o ns dts, pre, uri =>
    if (dts.lookup pre).isSome then .error (.err (.datatypePrefixAlreadyDefined pre))
    else .ok (.incl p f o ns ((pre, uri) :: dts))
  | _, _, _ => .error (.panic .unreachable)

/-- M:613-622 `parent_attribute`. -/
def parentAttribute : LCtx → Option Span
  | .root _ _ _ _ => none
  | .grammar _ _ => none
  | .attribute _ s => some s
  | .incl p _ _ _ _ => p.parentAttribute
  | .inclOverrides p => p.parentAttribute
  | .define p _ _ => p.parentAttribute
  | .element p => p.parentAttribute

/-- M:588-609 `check_ref_recursion`: both positions are converted with the file of the definition. -/
def checkRefRecursion (size : Str → Nat) : LCtx → Rg → Str → Except LFault Unit
  | .define p dat id, rat, r =>
    if id = r then do
      let refAt ← convert size (.define p dat id) rat true
      let defAt ← convert size (.define p dat id) dat true
      .error (.err (.recursiveReference r refAt defAt))
    else .ok ()
  | .attribute p _, rat, r => p.checkRefRecursion size rat r
  | _, _, _ => .ok ()

/-- M:624-646 `check_include`. -/
def checkInclude : LCtx → Span → Str → Except LFault Unit
  | .root _ _ _ _, _, _ => .ok ()
  | .grammar p _, s, f => p.checkInclude s f
  | .inclOverrides p, s, f => p.checkInclude s f
  | .define p _ _, s, f => p.checkInclude s f
  | .element p, s, f => p.checkInclude s f
  | .attribute p _, s, f => p.checkInclude s f
  | .incl p g _ _ _, s, f => if f = g then .error (.err (.recursiveInclude f s)) else p.checkInclude s f

end LCtx

/-! ### definitions -/

/-- M:1232-1242 `append_choice`. -/
def appendChoice (a c : CPat) : Except LFault CPat :=
  match a with
  | .choice this =>
    match c with
    | .choice other => .ok (.choice (this ++ other))
    | c => .ok (.choice (this ++ [c]))
  | _ => .error (.panic .notCombinable)

/-- M:1243-1253 `append_interleave`. -/
def appendInterleave (a c : CPat) : Except LFault CPat :=
  match a with
  | .interleave this =>
    match c with
    | .interleave other => .ok (.interleave (this ++ other))
    | c => .ok (.interleave (this ++ [c]))
  | _ => .error (.panic .notCombinable)

/-- M:1425-1432. -/
def joinChoice (a b : CPat) : Except LFault CPat :=
  match a with
  | .choice _ => appendChoice a b
  | _ => .ok (.choice [a, b])

/-- M:1464-1471. -/
def joinInterleave (a b : CPat) : Except LFault CPat :=
  match a with
  | .interleave _ => appendInterleave a b
  | _ => .ok (.interleave [a, b])

/-- M:1382-1501 `merge1`; `a` is the rule that is already there, `b` the one to be added (M:452).  Note that a second definition by
`=` is reported with `a` as the duplicate and `b` as the original. -/
def merge1 (name : Str) (a b : CRule) : Except LFault CRule :=
  match a, b with
  | .assignCombine this _ _, .assignCombine that _ _ => .error (.err (.duplicateDefinition name this that))
  | .combineOnly this .choice pa, .combineOnly _ .choice pb => do
    let p ← appendChoice pa pb
    pure (.combineOnly this .choice p)
  | .assignCombine this (some .choice) pa, .combineOnly _ .choice pb => do
    let p ← joinChoice pa pb
    pure (.assignCombine this (some .choice) p)
  | .combineOnly this .choice pa, .assignCombine _ (some .choice) pb => do
    let p ← joinChoice pa pb
    pure (.assignCombine this (some .choice) p)
  | .assignCombine this none pa, .combineOnly _ .choice pb => do
    let p ← joinChoice pa pb
    pure (.assignCombine this (some .choice) p)
  | .combineOnly this .choice pa, .assignCombine _ none pb => do
    let p ← joinChoice pa pb
    pure (.assignCombine this (some .choice) p)
  | .combineOnly this .interleave pa, .combineOnly _ .interleave pb => do
    let p ← appendInterleave pa pb
    pure (.combineOnly this .interleave p)
  | .assignCombine this (some .interleave) pa, .combineOnly _ .interleave pb => do
    let p ← joinInterleave pa pb
    pure (.assignCombine this (some .interleave) p)
  | .combineOnly this .interleave pa, .assignCombine _ (some .interleave) pb => do
    let p ← joinInterleave pa pb
    pure (.assignCombine this (some .interleave) p)
  | .assignCombine this none pa, .combineOnly _ .interleave pb => do
    let p ← joinInterleave pa pb
    pure (.assignCombine this (some .interleave) p)
  | .combineOnly this .interleave pa, .assignCombine _ none pb => do
    let p ← joinInterleave pa pb
    pure (.assignCombine this (some .interleave) p)
  | .combineOnly this .choice _, .combineOnly that .interleave _ => .error (.err (.mixesChoiceAndInterleave this that))
  | .combineOnly this .interleave _, .combineOnly that .choice _ => .error (.err (.mixesChoiceAndInterleave this that))
  | .assignCombine this (some .choice) _, .combineOnly that .interleave _ => .error (.err (.mixesChoiceAndInterleave this that))
  | .assignCombine this (some .interleave) _, .combineOnly that .choice _ => .error (.err (.mixesChoiceAndInterleave this that))
  | .combineOnly this .choice _, .assignCombine that (some .interleave) _ => .error (.err (.mixesChoiceAndInterleave this that))
  | .combineOnly this .interleave _, .assignCombine that (some .choice) _ => .error (.err (.mixesChoiceAndInterleave this that))

/-- M:1367-1381 `merge`. -/
def merge (name : Str) (a b : Option CRule) : Except LFault (Option CRule) :=
  match a, b with
  | none, none => .ok none
  | some a, none => .ok (some a)
  | none, some b => .ok (some b)
  | some a, some b => do
    let r ← merge1 name a b
    pure (some r)

/-- the `refs` map of a scope -/
def LState.refs (st : LState) (scope : Nat) : List (Str × Nat) := st.scopes.getD scope []

/-- what a cell holds -/
def LState.cell (st : LState) (k : Nat) : Option CRule := st.cells.getD k none

/-- the `overrides` map of an include -/
def LState.ov (st : LState) (o : Nat) : List (Str × Span × Bool) := st.overrides.getD o []

/-- `refs.insert(id, Rc::new(RefCell::new(rule)))`: a new cell under a new name. -/
def LState.addCell (st : LState) (scope : Nat) (id : Str) (rule : Option CRule) : LState :=
  { st with cells := st.cells ++ [rule],
            scopes := st.scopes.set scope ((id, st.cells.length) :: st.refs scope) }

/-- M:448-457: the `Root`/`Grammar` arm of `define`. -/
def defineIn (scope : Nat) (id : Str) (rule : CRule) : LM Unit := fun st =>
  match (st.refs scope).lookup id with
  | some k =>
    match merge id (st.cell k) (some rule) with
    | .ok r => .ok ((), { st with cells := st.cells.set k r })
    | .error e => .error e
  | none => .ok ((), st.addCell scope id (some rule))

/-- `overrides.get_mut(id).unwrap().1 = true` -/
def markOverride (id : Str) : List (Str × Span × Bool) → List (Str × Span × Bool)
  | [] => []
  | (n, s, b) :: rest => if n = id then (n, s, true) :: rest else (n, s, b) :: markOverride id rest

/-- M:446-502 `Context::define`. -/
def LCtx.defineRule : LCtx → Str → CRule → LM Unit
  | .root _ s _ _, id, rule => defineIn s id rule
  | .grammar _ s, id, rule => defineIn s id rule
  | .incl p _ o _ _, id, rule => fun st =>
    if ((st.ov o).lookup id).isSome then
      .ok ((), { st with overrides := st.overrides.set o (markOverride id (st.ov o)) })
    else p.defineRule id rule st
  | .inclOverrides (.incl p _ o _ _), id, rule => fun st =>
    if ((st.ov o).lookup id).isSome then .error (.panic .redefinedOverride)
    else p.defineRule id rule { st with overrides := st.overrides.set o ((id, rule.at_, false) :: st.ov o) }
  | _, _, _ => LM.fail (.panic .unreachable)

/-- M:549-567 `acquire_ref_impl`. -/
def LCtx.acquireRefImpl : LCtx → Str → LM Nat
  | .root _ s _ _, id => acquireIn s id
  | .grammar _ s, id => acquireIn s id
  | .incl p _ _ _ _, id => p.acquireRefImpl id
  | .inclOverrides p, id => p.acquireRefImpl id
  | .define p _ _, id => p.acquireRefImpl id
  | .element p, id => p.acquireRefImpl id
  | .attribute p _, id => p.acquireRefImpl id
where
  /-- M:551-559 -/
  acquireIn (scope : Nat) (id : Str) : LM Nat := fun st =>
    match (st.refs scope).lookup id with
    | some k => .ok (k, st)
    | none => .ok (st.cells.length, st.addCell scope id none)

/-- M:545-548 `acquire_ref`. -/
def LCtx.acquireRef (size : Str → Nat) (c : LCtx) (at_ : Rg) (id : Str) : LM Nat := do
  LM.lift (c.checkRefRecursion size at_ id)
  c.acquireRefImpl id

/-- M:569-582 `acquire_parent_ref`: at the root the position is converted with the root's file. -/
def LCtx.acquireParentRef (size : Str → Nat) : LCtx → Rg → Str → LM Nat
  | .root f s ns dts, r, _ => do
    let at_ ← LM.lift (convert size (.root f s ns dts) r true)
    LM.fail (.err (.noParentAvailable at_))
  | .incl p _ _ _ _, r, id => p.acquireParentRef size r id
  | .inclOverrides p, r, id => p.acquireParentRef size r id
  | .define p _ _, r, id => p.acquireParentRef size r id
  | .element p, r, id => p.acquireParentRef size r id
  | .attribute p _, r, id => p.acquireParentRef size r id
  | .grammar p _, r, id => p.acquireRef size r id

/-! ### names, datatypes, declarations -/

section
variable (size : Str → Nat)

/-- M:369-378 `namespace_uri_for_prefix`. -/
def LCtx.nsUriE (c : LCtx) (r : Rg) (pre : Str) : Except LFault Str :=
  match c.nsUri pre with
  | some u => .ok u
  | none => do
    let at_ ← c.convert size r true
    .error (.err (.undefinedNamespacePrefix at_ pre))

/-- M:415-422 `try_datatype_uri_for_prefix`. -/
def LCtx.dtUriE (c : LCtx) (r : Rg) (pre : Str) : Except LFault Str :=
  match c.dtUri pre with
  | some u => .ok u
  | none => do
    let at_ ← c.convert size r true
    .error (.err (.undefinedDatatypePrefix at_ pre))

/-- M:1914-1919: the namespace an `NsName` names. -/
def LCtx.nsRef (c : LCtx) : LNsRef → Except LFault Str
  | .uri u => .ok u
  | .pre r p => c.nsUriE size r p

/-- M:1873-1932 `compile_nameclass`.  The default namespace is empty, see `SCtx.defaultNamespaceUri`. -/
def compileNameclass (c : LCtx) : LNameClass → Except LFault NameClass
  | .ident id => .ok (.named [] id)
  | .cname r pre loc => do
    let u ← c.nsUriE size r pre
    pure (.named u loc)
  | .namespaced uri loc => .ok (.named uri loc)
  | .nsName n => do
    let u ← c.nsRef size n
    pure (.nsName u)
  | .nsNameExcept n ex => do
    let ex ← compileNameclass c ex
    let u ← c.nsRef size n
    pure (.nsNameExcept u ex)
  | .anyName => .ok .anyName
  | .anyNameExcept ex => do
    let ex ← compileNameclass c ex
    pure (.anyNameExcept ex)
  | .alt a b => do
    let a ← compileNameclass c a
    let b ← compileNameclass c b
    pure (.alt a b)
  | .paren n => compileNameclass c n

/-- M:1772-1789 and M:1806-1823. -/
def LCtx.dtName (c : LCtx) : LDtName → Except LFault DtName
  | .string => .ok .string
  | .token => .ok .token
  | .cname r pre _ name => do
    let u ← c.dtUriE size r pre
    pure (.cname u name)
  | .namespaced _ uri _ name => .ok (.cname uri name)

/-- where the library is named, as M:1776-1788 passes it on for a value -/
def LDtName.valueNsAt : LDtName → Rg
  | .cname r _ _ _ => r
  | .namespaced r _ _ _ => r
  | _ => ⟨0, 0⟩

/-- where the library is named, as M:1808-1822 passes it on for a datatype: `0..0` instead of the prefix -/
def LDtName.dataNsAt : LDtName → Rg
  | .cname _ _ _ _ => ⟨0, 0⟩
  | .namespaced r _ _ _ => r
  | _ => ⟨0, 0⟩

/-- where the local name is -/
def LDtName.nameAt : LDtName → Rg
  | .cname _ _ r _ => r
  | .namespaced _ _ r _ => r
  | _ => ⟨0, 0⟩

/-- The parameter a datatype's loop over its parameters stops at, datatype/xsd.rs:788-1314: the loops handle the parameters one by one,
so that it is the first with which they fail.  (`Proof/SchemaSpans` shows that what follows it does not matter.) -/
def faultyParam (x : Ext) (name : DtName) : List Param → List LParam → Rg
  | _, [] => ⟨0, 0⟩
  | done, p :: ps =>
    match datatypeNameOf x name (done ++ [p.plain]) with
    | .err _ => p.at_
    | _ => faultyParam x name (done ++ [p.plain]) ps

/-- the position an error of the datatype libraries carries: datatype/mod.rs:153-157, 179-183, relax.rs:86-97, 108-133,
xsd.rs:759-763, 776-782 and the facets, xsd.rs:788-1444 (`ConflictingFacet` has none) -/
def dtErrAt (nsAt nameAt paramAt firstAt : Rg) : DtErr → Option Rg
  | .unsupportedLibrary => some nsAt
  | .relax .nameUnknown => some nameAt
  | .relax .paramNotAllowed => some firstAt
  | .xsd .unsupported => some nameAt
  | .xsd .invalidValue => some nameAt
  | .xsd (.facet .conflicting) => none
  | .xsd (.facet _) => some paramAt

/-- `.map_err(RelaxError::DatatypeError)`, with the position converted -/
def dtRes {α : Type} (c : LCtx) (at_ : DtErr → Option Rg) : Res DtErr α → Except LFault α
  | .ok a => .ok a
  | .err e =>
    match at_ e with
    | none => .error (.err (.datatype none e))
    | some r => do
      let s ← c.convert size r true
      .error (.err (.datatype (some s) e))
  | .panic => .error (.panic .datatype)

/-- M:1761-1795 `compile_datatype_value_pattern`. -/
def datatypeValue (c : LCtx) (ty : LDtName) (lit : Str) : Except LFault DatatypeValues := do
  let name ← c.dtName size ty
  dtRes size c (dtErrAt ty.valueNsAt ty.nameAt ⟨0, 0⟩ ⟨0, 0⟩) (datatypeValueOf name lit)

/-- M:1796-1828 `compile_datatype_name_pattern` up to the exception. -/
def datatypeName (x : Ext) (c : LCtx) (ty : LDtName) (params : List LParam) : Except LFault Datatypes := do
  let name ← c.dtName size ty
  dtRes size c (dtErrAt ty.dataNsAt ty.nameAt (faultyParam x name [] params) ((params.head?.map (·.at_)).getD ⟨0, 0⟩))
    (datatypeNameOf x name (params.map LParam.plain))

/-- M:1838-1870 `compile_declaration`. -/
def compileDeclaration (c : LCtx) : SDecl → Except LFault LCtx
  | .defaultNamespace _ none => .error (.panic .inheritNamespace)
  | .defaultNamespace (some p) (some uri) => c.declareNamespace p uri
  | .defaultNamespace none (some _) => .ok c
  | .namespace _ none => .error (.panic .inheritNamespace)
  | .namespace p (some uri) => c.declareNamespace p uri
  | .datatypes p uri => c.declareDatatype p uri

/-- M:1196-1198: all declarations, in order. -/
def compileDeclarations (c : LCtx) : List SDecl → Except LFault LCtx
  | [] => .ok c
  | d :: ds => do
    let c ← compileDeclaration c d
    compileDeclarations c ds
end

/-! ### patterns -/

/-- M:1713-1720 -/
def groupMembers : CPat → List CPat
  | .group v => v
  | p => [p]

/-- M:1732-1739 -/
def interleaveMembers : CPat → List CPat
  | .interleave v => v
  | p => [p]

/-- M:1751-1758 -/
def choiceMembers : CPat → List CPat
  | .choice v => v
  | p => [p]

section
variable (F : LFiles) (x : Ext)

/-- M:1180-1193 `get_schema`: each file is loaded once. -/
def getSchema (name : Str) : LM LSchema := fun st =>
  match st.loaded.lookup name with
  | some s => .ok (s, st)
  | none =>
    match F.load name with
    | .ok s => .ok (s, { st with loaded := (name, s) :: st.loaded })
    | .error e => .error (.err (.load name e))

/-- M:1300-1304, M:1610-1613: the path of an included file. -/
def includePath (c : LCtx) (lit : Str) : Except LFault Str :=
  match c.file with
  | none => .error (.panic .unreachable)
  | some f =>
    match F.join f lit with
    | some p => .ok p
    | none => .error (.panic .noParentDir)

/-- `file.span`: the whole file -/
def fileSpan (f : Str) : Span := ⟨f, 0, F.size f⟩

/-- M:238-262 `new_include`. -/
def newInclude (c : LCtx) (at_ : Span) (file : Str) : LM LCtx := fun st =>
  match c.checkInclude at_ file with
  | .error e => .error e
  | .ok () =>
    .ok (.incl c file st.overrides.length [("xml".toList, xmlNs)] [("xsd".toList, xsdUri)],
      { st with overrides := st.overrides ++ [[]] })

/-- M:275-280 `new_grammar`. -/
def newGrammar (c : LCtx) : LM LCtx := fun st =>
  .ok (.grammar c st.scopes.length, { st with scopes := st.scopes ++ [[]] })

/-- M:1262-1276: the rule made of one definition. -/
def ruleOf (at_ : Span) (how : AssignMethod) (q : CPat) : CRule :=
  match how with
  | .assign => .assignCombine at_ none q
  | .choice => .combineOnly at_ .choice (.choice [q])
  | .interleave => .combineOnly at_ .interleave (.interleave [q])

/-- M:1254-1278 `compile_define`; `cp` is `compile_pattern`. -/
def compileDefine (cp : LCtx → LPat → LM CPat) (c : LCtx) (r : Rg) (id : Str) (how : AssignMethod) (body : LPat) :
    LM Unit := do
  let rule ← cp (.define c r id) body
  let at_ ← LM.lift (c.convert F.size r)
  c.defineRule id (ruleOf at_ how rule)

/-- M:1680-1690 `compile_grammar_contents`; `ci` is `compile_grammar_content_item`. -/
def compileContents (ci : LCtx → LItem → LM Unit) (c : LCtx) : List LItem → LM Unit
  | [] => pure ()
  | i :: is => do
    ci c i
    compileContents ci c is

/-- M:1195-1229 `compile_schema`. -/
def compileSchema (cp : LCtx → LPat → LM CPat) (ci : LCtx → LItem → LM Unit) (c : LCtx) (s : LSchema) :
    LM Unit := do
  let c ← LM.lift (compileDeclarations c s.decls)
  match s.body with
  | .pattern p =>
    match c with
    | .incl _ _ _ _ _ =>
      match p with
      | .grammar _ items => compileContents ci c items
      | _ => do
        let at_ ← LM.lift (c.convert F.size ⟨0, 0⟩)
        LM.fail (.err (.includedFileMustBeGrammar at_))
    | c => do
      let rule ← cp c p
      let at_ ← LM.lift (c.convert F.size ⟨0, 0⟩)
      c.defineRule "start".toList (.assignCombine at_ none rule)
  | .grammar items => compileContents ci c items

/-- M:1328-1343: the overrides of an include; `at_` is the include's position. -/
def compileOverrides (cp : LCtx → LPat → LM CPat) (at_ : Span) (c : LCtx) : List LOverride → LM Unit
  | [] => pure ()
  | o :: os => do
    match o with
    | .define r id how body => (compileDefine F cp c r id how body).inInclude at_
    | .div => LM.fail (.panic .includeDiv)
    | .annotation => pure ()
    compileOverrides cp at_ c os

/-- M:1348-1361: every override must have been defined by the included grammar. -/
def checkOverrides (includeAt : Span) : List (Str × Span × Bool) → Except LFault Unit
  | [] => .ok ()
  | (name, s, defined) :: rest =>
    if defined then checkOverrides includeAt rest else .error (.err (.overrideMissingFromInclude name s includeAt))

/-- M:1348-1361, on the include's own table. -/
def checkOvs (includeAt : Span) (o : Nat) : LM Unit := fun st =>
  match checkOverrides includeAt (st.ov o) with
  | .ok () => .ok ((), st)
  | .error e => .error e

/-- M:1314-1325: `inherit = pre`. -/
def inheritNs (c inc : LCtx) : Option (Rg × Str) → Except LFault LCtx
  | none => .ok inc
  | some (r, pre) =>
    match c.nsUri pre with
    | none => do
      let at_ ← c.convert F.size r true
      .error (.err (.undefinedNamespacePrefix at_ pre))
    | some u => inc.declareNamespace pre u

/-- M:1296-1364 `compile_include`. -/
def compileInclude (cp : LCtx → LPat → LM CPat) (ci : LCtx → LItem → LM Unit) (c : LCtx) (r : Rg) (lit : Str)
    (inherit : Option (Rg × Str)) (overrides : List LOverride) : LM Unit := do
  let path ← LM.lift (includePath F c lit)
  let at_ ← LM.lift (c.convert F.size r)
  let s ← (getSchema F path).inInclude at_
  let inc ← newInclude c at_ path
  let inc ← LM.lift (inheritNs F c inc inherit)
  compileOverrides F cp at_ (.inclOverrides inc) overrides
  (compileSchema F cp ci inc s).inInclude at_
  match inc with
  | .incl _ _ o _ _ => checkOvs (fileSpan F path) o
  | _ => LM.fail (.panic .unreachable)

/-- M:1637-1647, M:1662-1677: the pattern of the grammar's start rule is moved out of its cell; `at_` is reported if there is none. -/
def takeStart (at_ : Except LFault Span) (scope : Nat) : LM CPat := fun st =>
  match (st.refs scope).lookup "start".toList with
  | none =>
    match at_ with
    | .ok s => .error (.err (.startRuleNotDefined s))
    | .error e => .error e
  | some k =>
    match st.cell k with
    | none =>
      match at_ with
      | .ok s => .error (.err (.startRuleNotDefined s))
      | .error e => .error e
    | some r => .ok (r.pattern, { st with cells := st.cells.set k none })

/-- M:697-708, M:1628-1636: is every name of the scope defined?  `at_` is not where the name is used. -/
def checkDefined (st : LState) (at_ : Span) : List (Str × Nat) → Except LFault Unit
  | [] => .ok ()
  | (name, k) :: rest =>
    match st.cell k with
    | none => .error (.err (.undefinedReference at_ name))
    | some _ => checkDefined st at_ rest

/-- M:1628-1636. -/
def checkScope (at_ : Span) (scope : Nat) : LM Unit := fun st =>
  match checkDefined st at_ (st.refs scope) with
  | .ok () => .ok ((), st)
  | .error e => .error e

/-- M:1602-1653 `compile_external`.  The grammar case goes on with `c`, so that all positions of the grammar file are taken for
positions of the file of `c`. -/
def compileExternal (cp : LCtx → LPat → LM CPat) (ci : LCtx → LItem → LM Unit) (c : LCtx) (r : Rg) (lit : Str)
    (inherit : Option Str) : LM CPat :=
  match inherit with
  | some _ => LM.fail (.panic .externalInherit)
  | none => do
    let path ← LM.lift (includePath F c lit)
    let at_ ← LM.lift (c.convert F.size r)
    let s ← (getSchema F path).inInclude at_
    let inc ← newInclude c at_ path
    match s.body with
    | .pattern p => (cp inc p).inInclude at_
    | .grammar items => do
      let child ← newGrammar c
      compileContents ci child items
      match child with
      | .grammar _ scope => do
        let zero ← LM.lift (child.convert F.size ⟨0, 0⟩)
        checkScope zero scope
        takeStart (.ok (fileSpan F path)) scope
      | _ => LM.fail (.panic .unreachable)

/-- M:1654-1678 `compile_grammar_pattern`. -/
def compileGrammarPattern (ci : LCtx → LItem → LM Unit) (c : LCtx) (r : Rg) (items : List LItem) : LM CPat := do
  let child ← newGrammar c
  compileContents ci child items
  match child with
  | .grammar _ scope => takeStart (c.convert F.size r true) scope
  | _ => LM.fail (.panic .unreachable)

mutual
/-- M:1503-1538 `compile_pattern` and the functions it dispatches to, M:1539-1836. -/
def compilePattern : Nat → LCtx → LPat → LM CPat
  | 0, _, _ => LM.fail .fuel
  | n + 1, c, pat =>
    match pat with
    | .element r nc p => do
      let nc ← LM.lift (compileNameclass F.size c nc)
      let at_ ← LM.lift (c.convert F.size r)
      match c.parentAttribute with
      | some a => LM.fail (.err (.elementAsChildOfAttribute a at_))
      | none => do
        let p ← compilePattern n (.element c) p
        pure (.element nc p)
    | .attribute r nc p => do
      let nc ← LM.lift (compileNameclass F.size c nc)
      let at_ ← LM.lift (c.convert F.size r)
      let p ← compilePattern n (.attribute c at_) p
      pure (.attr nc p)
    | .list p => do
      let p ← compilePattern n c p
      pure (.list p)
    | .mixed p => do
      let p ← compilePattern n c p
      pure (.mixed p)
    | .ident r id => do
      let at_ ← LM.lift (c.convert F.size r)
      let k ← c.acquireRef F.size r id
      pure (.ref at_ id k)
    | .parent r id => do
      let at_ ← LM.lift (c.convert F.size r)
      let k ← c.acquireParentRef F.size r id
      pure (.ref at_ id k)
    | .empty => pure .empty
    | .text => pure .text
    | .notAllowed => pure .notAllowed
    | .external r path inherit => compileExternal F (compilePattern n) (compileItem n) c r path inherit
    | .grammar r items => compileGrammarPattern F (compileItem n) c r items
    | .paren p => compilePattern n c p
    | .seq a b => do
      let a ← compilePattern n c a
      let b ← compilePattern n c b
      pure (.group (groupMembers a ++ groupMembers b))
    | .inter a b => do
      let a ← compilePattern n c a
      let b ← compilePattern n c b
      pure (.interleave (interleaveMembers a ++ interleaveMembers b))
    | .choice a b => do
      let a ← compilePattern n c a
      let b ← compilePattern n c b
      pure (.choice (choiceMembers a ++ choiceMembers b))
    | .optional p => do
      let p ← compilePattern n c p
      pure (.optional p)
    | .zeroOrMore p => do
      let p ← compilePattern n c p
      pure (.zeroOrMore p)
    | .oneOrMore p => do
      let p ← compilePattern n c p
      pure (.oneOrMore p)
    | .value ty lit => do
      let v ← LM.lift (datatypeValue F.size c (ty.getD .token) lit)
      pure (.datatypeValue v)
    | .data ty params => do
      let d ← LM.lift (datatypeName F.size x c ty params)
      pure (.datatypeName d)
    | .dataExcept ty params ex => do
      let d ← LM.lift (datatypeName F.size x c ty params)
      let ex ← compilePattern n c ex
      pure (.datatypeNameExcept d ex)
/-- M:1691-1703 `compile_grammar_content_item`, M:1279-1288 `compile_grammar_div`. -/
def compileItem : Nat → LCtx → LItem → LM Unit
  | 0, _, _ => LM.fail .fuel
  | n + 1, c, item =>
    match item with
    | .define r id how body => compileDefine F (compilePattern n) c r id how body
    | .div items => compileContents (compileItem n) c items
    | .include r path inherit overrides =>
      compileInclude F (compilePattern n) (compileItem n) c r path inherit overrides
    | .annotation => pure ()
end

/-! ### the whole schema -/

/-- `for p in v { self.check(seen, p)? }` -/
def checkAll (f : List Nat → CPat → Except LFault (List Nat)) : List Nat → List CPat → Except LFault (List Nat)
  | seen, [] => .ok seen
  | seen, p :: ps => do
    let seen ← f seen p
    checkAll f seen ps

/-- M:722-761 `check`; the result is the new `seen`. -/
def check (cells : List (Option CRule)) : Nat → List Nat → CPat → Except LFault (List Nat)
  | 0, _, _ => .error .fuel
  | n + 1, seen, p =>
    match p with
    | .choice v => checkAll (check cells n) seen v
    | .interleave v => checkAll (check cells n) seen v
    | .group v => checkAll (check cells n) seen v
    | .mixed p => check cells n seen p
    | .optional p => check cells n seen p
    | .zeroOrMore p => check cells n seen p
    | .oneOrMore p => check cells n seen p
    | .attr _ p => check cells n seen p
    | .element _ p => check cells n seen p
    | .list p => check cells n seen p
    | .empty => .ok seen
    | .text => .ok seen
    | .notAllowed => .ok seen
    | .datatypeValue _ => .ok seen
    | .ref at_ id k =>
      if k ∈ seen then .ok seen
      else match cells.getD k none with
        | some r => check cells n (k :: seen) r.pattern
        | none => .error (.err (.undefinedReference at_ id))
    | .datatypeName _ => .ok seen
    | .datatypeNameExcept _ e => check cells n seen e

/-- M:216-236 `Context::new`. -/
def newRoot (file : Str) : LM LCtx := fun st =>
  .ok (.root file st.scopes.length [("xml".toList, xmlNs)] [("xsd".toList, xsdUri)],
    { st with scopes := st.scopes ++ [[]] })

/-- M:697-719: the checks at the end of `compile`. -/
def finishCompile (m : Nat) (file : Str) (scope : Nat) : LM Nat := fun st =>
  match checkDefined st ⟨file, 0, 0⟩ (st.refs scope) with
  | .error e => .error e
  | .ok () =>
    match (st.refs scope).lookup "start".toList with
    | none => .error (.err (.startRuleNotDefined (fileSpan F file)))
    | some k =>
      match st.cell k with
      | none => .error (.panic .unreachable)
      | some r =>
        match check st.cells m [] r.pattern with
        | .error e => .error e
        | .ok _ => .ok (k, st)

/-- M:693-719 `Compiler::compile`: the number of the start rule's cell. -/
def compileFile (n m : Nat) (name : Str) : LM Nat := do
  let s ← getSchema F name
  let c ← newRoot name
  compileSchema F (compilePattern F x n) (compileItem F x n) c s
  match c with
  | .root f scope _ _ => finishCompile F m f scope
  | _ => LM.fail (.panic .unreachable)

end
end Verif.At
