import Verif.Spec.Places
/-
Specification: what can be wrong with a schema, and which error or panic stands for it.  Nothing here mentions
contexts, cells or states.
-/
namespace Verif

/-- the error itself, without "in include" around it -/
def SErr.core : SErr → SErr
  | .inInclude e => e.core
  | e => e

/-- the same for any failure -/
def CFault.core : CFault → CFault
  | .err e => .err e.core
  | e => e

/-- the prefix of a namespace reference -/
def NsRef.prefixes : NsRef → List Str
  | .pre p => [p]
  | .uri _ => []

/-- the namespace prefixes in a name class -/
def SNameClass.prefixes : SNameClass → List Str
  | .ident _ => []
  | .cname p _ => [p]
  | .namespaced _ _ => []
  | .nsName n => n.prefixes
  | .nsNameExcept n ex => n.prefixes ++ ex.prefixes
  | .anyName => []
  | .anyNameExcept ex => ex.prefixes
  | .alt a b => a.prefixes ++ b.prefixes
  | .paren a => a.prefixes

/-- the names an override block defines -/
def overrideNames : List SOverride → List Str
  | [] => []
  | .define id _ _ :: os => id :: overrideNames os
  | _ :: os => overrideNames os

/-- the declarations of a file: an `inherit`, or a datatype prefix that is taken already -/
inductive DeclFault (ds : List SDecl) : CFault → Prop
  | inheritPrefix {p} : .namespace p none ∈ ds → DeclFault ds (.panic .inheritNamespace)
  | inheritDefault {p} : .defaultNamespace p none ∈ ds → DeclFault ds (.panic .inheritNamespace)
  | datatypePrefix {ds1 ds2 p u} : ds = ds1 ++ .datatypes p u :: ds2 → p ∈ "xsd".toList :: (declDts ds1).map (·.1) →
      DeclFault ds (.err (.datatypePrefixAlreadyDefined p))

/-- two definitions of one name that do not go together -/
inductive Clash (ds : List Defn) : CFault → Prop
  | twice {id} : 2 ≤ (named ds id).countP (fun d => d.how = .assign) → Clash ds (.err (.duplicateDefinition id))
  | mixed {id} : (∃ d ∈ named ds id, d.how = .choice) → (∃ d ∈ named ds id, d.how = .interleave) →
      Clash ds (.err .mixesChoiceAndInterleave)

section
variable (F : Files) (x : Ext)

/-- `Begins e items ds`: reading the grammar contents `items` from the beginning, up to some point, gives the definitions
`ds`; what comes after that point may be in any condition. -/
inductive Begins : NEnv → List SItem → List Defn → Prop
  | stop {e items} : Begins e items []
  | define {e id how body rest ds} : Begins e rest ds → Begins e (.define id how body :: rest) (⟨id, how, body, e⟩ :: ds)
  | divIn {e items rest ds} : Begins e items ds → Begins e (.div items :: rest) ds
  | div {e items rest ds ds'} : Expands F e items ds → Begins e rest ds' → Begins e (.div items :: rest) (ds ++ ds')
  | annotation {e rest ds} : Begins e rest ds → Begins e (.annotation :: rest) ds
  | overrides {e path inherit os os' rest} : Begins e (.include path inherit (os ++ os') :: rest) (overrideDefs e os)
  | includeIn {e path f s inherit os items rest ds} : F.join e.file path = some f → F.load f = .ok s → s.Grammar items →
      Begins (includeEnv e f inherit s.decls) items ds →
      Begins e (.include path inherit os :: rest) (overrideDefs e os ++ notOverridden (overrideDefs e os) ds)
  | include {e path inherit os rest ds ds'} : Expands F e [.include path inherit os] ds → Begins e rest ds' →
      Begins e (.include path inherit os :: rest) (ds ++ ds')

/-- a step into a place leads into a new grammar -/
def Place.Opens : Place → Place → Prop
  | .pat _ _, .items _ _ => True
  | _, _ => False

/-- `Refers n pl id`: something in `pl` refers to the name `id` of the `n`-th grammar around `pl` (0: the innermost) -/
inductive Refers : Nat → Place → Str → Prop
  | ident {w id} : Refers 0 (.pat w (.ident id)) id
  | parent {w id} : Refers 1 (.pat w (.parent id)) id
  | same {n a b id} : Within F a b → ¬ a.Opens b → Refers n b id → Refers n a id
  | deeper {n a b id} : Within F a b → a.Opens b → Refers (n + 1) b id → Refers n a id

/-- the contents of a grammar pattern, written out or in a file used by `external` -/
inductive GrammarAt (w : Where) : SPattern → List SItem → Prop
  | grammar {is} : GrammarAt w (.grammar is) is
  | external {path f s is} : F.join w.env.file path = some f → F.load f = .ok s → s.body = .grammar is →
      GrammarAt w (.external path none) is

/-- what is wrong with a pattern -/
inductive PatFault (w : Where) : SPattern → CFault → Prop
  | elementName {nc p pre} : pre ∈ nc.prefixes → w.known.lookup pre = none →
      PatFault w (.element nc p) (.err (.undefinedNamespacePrefix pre))
  | attributeName {nc p pre} : pre ∈ nc.prefixes → w.known.lookup pre = none →
      PatFault w (.attribute nc p) (.err (.undefinedNamespacePrefix pre))
  | elementInAttribute {nc p} : w.attr = true → PatFault w (.element nc p) (.err .elementAsChildOfAttribute)
  | selfReference {id} : w.self = some id → PatFault w (.ident id) (.err (.recursiveReference id))
  | noParent {id} : w.outer = none → PatFault w (.parent id) (.err .noParentAvailable)
  | parentSelfReference {id} : w.outer = some (some id) → PatFault w (.parent id) (.err (.recursiveReference id))
  | externalInherit {path i} : PatFault w (.external path (some i)) (.panic .externalInherit)
  | externalPath {path} : F.join w.env.file path = none → PatFault w (.external path none) (.panic .noParentDir)
  | externalLoad {path f e} : F.join w.env.file path = some f → F.load f = .error e →
      PatFault w (.external path none) (.err (.load e))
  | externalLoop {path f} : F.join w.env.file path = some f → f ∈ w.files →
      PatFault w (.external path none) (.err (.recursiveInclude f))
  | externalUndefined {path f s is ds id} : F.join w.env.file path = some f → F.load f = .ok s → s.body = .grammar is →
      Expands F w.env is ds → Refers F 0 (.items w.grammar is) id → named ds id = [] →
      PatFault w (.external path none) (.err (.undefinedReference id))
  | noStart {p is ds} : GrammarAt F w p is → Expands F w.env is ds → named ds "start".toList = [] →
      PatFault w p (.err .startRuleNotDefined)
  | clash {p is ds e} : GrammarAt F w p is → Begins F w.env is ds → Clash ds e → PatFault w p e
  | valuePrefix {pre t lit} : w.env.dts.lookup pre = none →
      PatFault w (.value (some (.cname pre t)) lit) (.err (.undefinedDatatypePrefix pre))
  | value {ty lit n e} : w.env.dt (ty.getD .token) = some n → datatypeValueOf n lit = .err e →
      PatFault w (.value ty lit) (.err (.datatype e))
  | valuePanic {ty lit n} : w.env.dt (ty.getD .token) = some n → datatypeValueOf n lit = .panic →
      PatFault w (.value ty lit) (.panic .datatype)
  | dataPrefix {pre t ps} : w.env.dts.lookup pre = none →
      PatFault w (.data (.cname pre t) ps) (.err (.undefinedDatatypePrefix pre))
  | data {ty ps n e} : w.env.dt ty = some n → datatypeNameOf x n ps = .err e →
      PatFault w (.data ty ps) (.err (.datatype e))
  | dataPanic {ty ps n} : w.env.dt ty = some n → datatypeNameOf x n ps = .panic → PatFault w (.data ty ps) (.panic .datatype)
  | exceptPrefix {pre t ps ex} : w.env.dts.lookup pre = none →
      PatFault w (.dataExcept (.cname pre t) ps ex) (.err (.undefinedDatatypePrefix pre))
  | except {ty ps ex n e} : w.env.dt ty = some n → datatypeNameOf x n ps = .err e →
      PatFault w (.dataExcept ty ps ex) (.err (.datatype e))
  | exceptPanic {ty ps ex n} : w.env.dt ty = some n → datatypeNameOf x n ps = .panic →
      PatFault w (.dataExcept ty ps ex) (.panic .datatype)

/-- what is wrong with an entry of a grammar -/
inductive ItemFault (w : Where) : SItem → CFault → Prop
  | path {path i os} : F.join w.env.file path = none → ItemFault w (.include path i os) (.panic .noParentDir)
  | load {path i os f e} : F.join w.env.file path = some f → F.load f = .error e →
      ItemFault w (.include path i os) (.err (.load e))
  | loop {path i os f} : F.join w.env.file path = some f → f ∈ w.files →
      ItemFault w (.include path i os) (.err (.recursiveInclude f))
  | inheritPrefix {path pre os} : w.known.lookup pre = none →
      ItemFault w (.include path (some pre) os) (.err (.undefinedNamespacePrefix pre))
  | decls {path i os f s e} : F.join w.env.file path = some f → F.load f = .ok s → DeclFault s.decls e →
      ItemFault w (.include path i os) e
  | notGrammar {path i os f s} : F.join w.env.file path = some f → F.load f = .ok s → (∀ is, ¬ s.Grammar is) →
      ItemFault w (.include path i os) (.err .includedFileMustBeGrammar)
  | overrideDiv {path i os} : .div ∈ os → ItemFault w (.include path i os) (.panic .includeDiv)
  | overrideTwice {path i os} : ¬ (overrideNames os).Nodup → ItemFault w (.include path i os) (.panic .redefinedOverride)
  | overrideMissing {path i os f s is ds id} : F.join w.env.file path = some f → F.load f = .ok s → s.Grammar is →
      Expands F (includeEnv w.env f i s.decls) is ds → id ∈ overrideNames os → named ds id = [] →
      ItemFault w (.include path i os) (.err (.overrideMissingFromInclude id))

/-- what is wrong at a place -/
def Place.Fault : Place → CFault → Prop
  | .pat w p, e => PatFault F x w p e
  | .items w is, e => ∃ i ∈ is, ItemFault F w i e

/-- `Dangling gs e p`: following the references in `p` leads to a name that is not defined, or to the `start` of a
grammar inside a pattern; `gs` are the definitions of the enclosing grammars, innermost first, and names mean `e`. -/
inductive Dangling : List (List Defn) → NEnv → SPattern → Prop
  | missing {g gs e id} : named g id = [] → Dangling (g :: gs) e (.ident id)
  | innerStart {g gs e} : gs ≠ [] → Dangling (g :: gs) e (.ident "start".toList)
  | follow {g gs e id d} : d ∈ named g id → Dangling (g :: gs) d.env d.body → Dangling (g :: gs) e (.ident id)
  | parent {g gs e id} : Dangling gs e (.ident id) → Dangling (g :: gs) e (.parent id)
  | grammar {gs e is ds d} : Expands F e is ds → d ∈ named ds "start".toList → Dangling (ds :: gs) d.env d.body →
      Dangling gs e (.grammar is)
  | externalPattern {gs e path f s p} : F.join e.file path = some f → F.load f = .ok s → s.body = .pattern p →
      Dangling gs (externalEnv e f) p → Dangling gs e (.external path none)
  | externalGrammar {gs e path f s is} : F.join e.file path = some f → F.load f = .ok s → s.body = .grammar is →
      Dangling gs e (.grammar is) → Dangling gs e (.external path none)
  | element {gs e nc p} : Dangling gs e p → Dangling gs e (.element nc p)
  | attribute {gs e nc p} : Dangling gs e p → Dangling gs e (.attribute nc p)
  | list {gs e p} : Dangling gs e p → Dangling gs e (.list p)
  | mixed {gs e p} : Dangling gs e p → Dangling gs e (.mixed p)
  | paren {gs e p} : Dangling gs e p → Dangling gs e (.paren p)
  | optional {gs e p} : Dangling gs e p → Dangling gs e (.optional p)
  | zeroOrMore {gs e p} : Dangling gs e p → Dangling gs e (.zeroOrMore p)
  | oneOrMore {gs e p} : Dangling gs e p → Dangling gs e (.oneOrMore p)
  | seqLeft {gs e p q} : Dangling gs e p → Dangling gs e (.seq p q)
  | seqRight {gs e p q} : Dangling gs e q → Dangling gs e (.seq p q)
  | interLeft {gs e p q} : Dangling gs e p → Dangling gs e (.inter p q)
  | interRight {gs e p q} : Dangling gs e q → Dangling gs e (.inter p q)
  | choiceLeft {gs e p q} : Dangling gs e p → Dangling gs e (.choice p q)
  | choiceRight {gs e p q} : Dangling gs e q → Dangling gs e (.choice p q)
  | except {gs e ty ps ex} : Dangling gs e ex → Dangling gs e (.dataExcept ty ps ex)

/-- what is wrong with the schema in a file -/
inductive SchemaFault (file : Str) : CFault → Prop
  | load {e} : F.load file = .error e → SchemaFault file (.err (.load e))
  | decls {s e} : F.load file = .ok s → DeclFault s.decls e → SchemaFault file e
  | place {pl e} : Occurs F file pl → pl.Fault F x e → SchemaFault file e
  | clash {s is ds e} : F.load file = .ok s → s.body = .grammar is → Begins F (rootEnv file s.decls) is ds → Clash ds e →
      SchemaFault file e
  | noStart {s ds} : F.load file = .ok s → FileDefs F file s ds → named ds "start".toList = [] →
      SchemaFault file (.err .startRuleNotDefined)
  | undefined {s ds pl id} : F.load file = .ok s → FileDefs F file s ds → FilePlace F file pl → Refers F 0 pl id →
      named ds id = [] → SchemaFault file (.err (.undefinedReference id))
  | dangling {s ds} : F.load file = .ok s → FileDefs F file s ds →
      Dangling F [ds] (rootEnv file s.decls) (.ident "start".toList) → SchemaFault file (.err (.undefinedReference []))

end
end Verif
