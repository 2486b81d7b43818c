import Verif.Spec.Grammar
import Verif.Model.Schema
/-
Specification: what the schema files say.  `SMatch` gives the meaning of the syntax tree directly: names are
looked up in the definitions of the enclosing grammars, `|=` and `&=` combine definitions, `include` brings in
another file's definitions except those it overrides.  Nothing here mentions cells, contexts, merging or flattening.

Where the implementation is known to differ from the RELAX NG standard, this specification follows the
implementation, and says so: the default namespace is ignored, a datatype prefix that an included file does not
declare is looked up in the including file, the declarations of a file used by `external` are ignored.
-/
namespace Verif

/-- What names mean at some place of a file: the file, the namespace prefixes, the datatype prefixes; an earlier
entry for a prefix hides a later one. -/
structure NEnv where
  file : Str
  ns : List (Str × Str)
  dts : List (Str × Str)

/-- the namespace prefixes a list of declarations declares, in order -/
def declNs : List SDecl → List (Str × Str)
  | [] => []
  | .namespace p (some u) :: ds => (p, u) :: declNs ds
  | .defaultNamespace (some p) (some u) :: ds => (p, u) :: declNs ds
  | _ :: ds => declNs ds

/-- the datatype prefixes a list of declarations declares, in order -/
def declDts : List SDecl → List (Str × Str)
  | [] => []
  | .datatypes p u :: ds => (p, u) :: declDts ds
  | _ :: ds => declDts ds

/-- the top-level file: `xml` and `xsd` are predeclared -/
def rootEnv (file : Str) (ds : List SDecl) : NEnv :=
  ⟨file, ("xml".toList, xmlNs) :: declNs ds, ("xsd".toList, xsdUri) :: declDts ds⟩

/-- the prefix an `include .. inherit = p` passes on -/
def inheritedNs (e : NEnv) : Option Str → List (Str × Str)
  | none => []
  | some p => match e.ns.lookup p with
    | some u => [(p, u)]
    | none => []

/-- a file included from a place where names mean `e` -/
def includeEnv (e : NEnv) (file : Str) (inherit : Option Str) (ds : List SDecl) : NEnv :=
  ⟨file, ("xml".toList, xmlNs) :: (inheritedNs e inherit ++ declNs ds),
    ("xsd".toList, xsdUri) :: (declDts ds ++ e.dts)⟩

/-- a pattern file used by `external` (its own declarations are ignored) -/
def externalEnv (e : NEnv) (file : Str) : NEnv :=
  ⟨file, [("xml".toList, xmlNs)], ("xsd".toList, xsdUri) :: e.dts⟩

/-- the namespace named by a prefix or a literal -/
def NEnv.nsRef (e : NEnv) : NsRef → Option Str
  | .uri u => some u
  | .pre p => e.ns.lookup p

/-- The expanded names a name class stands for.  Names without a prefix are in no namespace. -/
def SNameClass.Has (e : NEnv) : SNameClass → Str × Str → Prop
  | .ident n, x => x = ([], n)
  | .cname p l, x => e.ns.lookup p = some x.1 ∧ x.2 = l
  | .namespaced u l, x => x = (u, l)
  | .nsName n, x => e.nsRef n = some x.1
  | .nsNameExcept n ex, x => e.nsRef n = some x.1 ∧ ¬ ex.Has e x
  | .anyName, _ => True
  | .anyNameExcept ex, x => ¬ ex.Has e x
  | .alt a b, x => a.Has e x ∨ b.Has e x
  | .paren a, x => a.Has e x

/-- The datatype a name stands for: prefixes are replaced by the library they stand for. -/
def NEnv.dt (e : NEnv) : SDtName → Option DtName
  | .string => some .string
  | .token => some .token
  | .cname p n => (e.dts.lookup p).map fun u => .cname u n
  | .namespaced u n => some (.cname u n)

/-- One definition in a grammar: its name, `=`/`|=`/`&=`, its body, and what names mean in the body. -/
structure Defn where
  name : Str
  how : AssignMethod
  body : SPattern
  env : NEnv

/-- the definitions of one name -/
def named (ds : List Defn) (x : Str) : List Defn := ds.filter fun d => d.name = x

/-- the definitions an `include` gives as overrides -/
def overrideDefs (e : NEnv) : List SOverride → List Defn
  | [] => []
  | .define id how body :: os => ⟨id, how, body, e⟩ :: overrideDefs e os
  | _ :: os => overrideDefs e os

/-- the definitions of an included file that are not overridden -/
def notOverridden (os ds : List Defn) : List Defn := ds.filter fun d => !os.any fun o => o.name = d.name

/-- the grammar a file consists of -/
inductive SSchema.Grammar : SSchema → List SItem → Prop
  | grammar {ds items} : SSchema.Grammar ⟨ds, .grammar items⟩ items
  | pattern {ds items} : SSchema.Grammar ⟨ds, .pattern (.grammar items)⟩ items

section
variable (F : Files)

/-- `Expands e items ds`: with `div` groups dissolved and included files brought in, the grammar contents `items`,
at a place where names mean `e`, are the definitions `ds`.  An `include` may only override what the included file
defines. -/
inductive Expands : NEnv → List SItem → List Defn → Prop
  | nil {e} : Expands e [] []
  | define {e id how body rest ds} : Expands e rest ds →
      Expands e (.define id how body :: rest) (⟨id, how, body, e⟩ :: ds)
  | div {e items rest ds ds'} : Expands e items ds → Expands e rest ds' → Expands e (.div items :: rest) (ds ++ ds')
  | annotation {e rest ds} : Expands e rest ds → Expands e (.annotation :: rest) ds
  | include {e path f s inherit os items rest ds ds'} :
      F.join e.file path = some f → F.load f = .ok s → s.Grammar items →
      Expands (includeEnv e f inherit s.decls) items ds → (∀ o ∈ overrideDefs e os, ∃ d ∈ ds, d.name = o.name) →
      Expands e rest ds' →
      Expands e (.include path inherit os :: rest)
        (overrideDefs e os ++ notOverridden (overrideDefs e os) ds ++ ds')

/-- What is to be matched: a pattern where names mean `e`; all definitions `ds` of one name together; the
interleaving of the bodies of `ds`; the alternatives `ds`. -/
inductive Goal where
  | pat (e : NEnv) (p : SPattern)
  | defs (ds : List Defn)
  | inter (ds : List Defn)
  | alts (ds : List Defn)

variable (x : Ext)

/-- Truth value of an exception on a string; `gs` are the definitions of the enclosing grammars, innermost first. -/
inductive SEx : List (List Defn) → Goal → Str → Bool → Prop
  | value {gs e ty lit n v s b} : e.dt (ty.getD .token) = some n → datatypeValueOf n lit = .ok v →
      (stdLib x).validV v s = some b → SEx gs (.pat e (.value ty lit)) s b
  | data {gs e ty ps n d s b} : e.dt ty = some n → datatypeNameOf x n ps = .ok d →
      (stdLib x).validD d s = some b → SEx gs (.pat e (.data ty ps)) s b
  | dataExcept {gs e ty ps ex n d s b1 b2} : e.dt ty = some n → datatypeNameOf x n ps = .ok d →
      (stdLib x).validD d s = some b1 → SEx gs (.pat e ex) s b2 → SEx gs (.pat e (.dataExcept ty ps ex)) s (b1 && !b2)
  | notAllowed {gs e s} : SEx gs (.pat e .notAllowed) s false
  | choice {gs e p q s b1 b2} : SEx gs (.pat e p) s b1 → SEx gs (.pat e q) s b2 →
      SEx gs (.pat e (.choice p q)) s (b1 || b2)
  | paren {gs e p s b} : SEx gs (.pat e p) s b → SEx gs (.pat e (.paren p)) s b
  | ident {g gs e id s b} : SEx (g :: gs) (.defs (named g id)) s b → SEx (g :: gs) (.pat e (.ident id)) s b
  | parent {g gs e id s b} : SEx gs (.pat e (.ident id)) s b → SEx (g :: gs) (.pat e (.parent id)) s b
  | grammar {gs e items ds s b} : Expands F e items ds → SEx (ds :: gs) (.defs (named ds "start".toList)) s b →
      SEx gs (.pat e (.grammar items)) s b
  | externalPattern {gs e path f sch p s b} : F.join e.file path = some f → F.load f = .ok sch →
      sch.body = .pattern p → SEx gs (.pat (externalEnv e f) p) s b → SEx gs (.pat e (.external path none)) s b
  | externalGrammar {gs e path f sch items s b} : F.join e.file path = some f → F.load f = .ok sch →
      sch.body = .grammar items → SEx gs (.pat e (.grammar items)) s b → SEx gs (.pat e (.external path none)) s b
  | defs {gs ds s b} : ds ≠ [] → (∀ d ∈ ds, d.how ≠ .interleave) → SEx gs (.alts ds) s b → SEx gs (.defs ds) s b
  | altsNil {gs s} : SEx gs (.alts []) s false
  | altsCons {gs d ds s b1 b2} : SEx gs (.pat d.env d.body) s b1 → SEx gs (.alts ds) s b2 →
      SEx gs (.alts (d :: ds)) s (b1 || b2)

/-- `SMatch gs goal a c`: the attributes `a` (in any order) and the child nodes `c` together match `goal`; `gs` are
the definitions of the enclosing grammars, innermost first. -/
inductive SMatch : List (List Defn) → Goal → List Attr → List Node → Prop
  | empty {gs e} : SMatch gs (.pat e .empty) [] []
  | text {gs e c} : (∀ n ∈ c, ∃ s, n = Node.text s) → SMatch gs (.pat e .text) [] c
  | choiceLeft {gs e p q a c} : SMatch gs (.pat e p) a c → SMatch gs (.pat e (.choice p q)) a c
  | choiceRight {gs e p q a c} : SMatch gs (.pat e q) a c → SMatch gs (.pat e (.choice p q)) a c
  | seq {gs e p q a a1 a2 c1 c2} : SMatch gs (.pat e p) a1 c1 → SMatch gs (.pat e q) a2 c2 → a.Perm (a1 ++ a2) →
      SMatch gs (.pat e (.seq p q)) a (c1 ++ c2)
  | inter {gs e p q a a1 a2 c c1 c2} : SMatch gs (.pat e p) a1 c1 → SMatch gs (.pat e q) a2 c2 → a.Perm (a1 ++ a2) →
      Shuffle c1 c2 c → SMatch gs (.pat e (.inter p q)) a c
  | mixed {gs e p a c c1 c2} : SMatch gs (.pat e p) a c1 → (∀ n ∈ c2, ∃ s, n = Node.text s) → Shuffle c1 c2 c →
      SMatch gs (.pat e (.mixed p)) a c
  | paren {gs e p a c} : SMatch gs (.pat e p) a c → SMatch gs (.pat e (.paren p)) a c
  | optionalNone {gs e p} : SMatch gs (.pat e (.optional p)) [] []
  | optionalSome {gs e p a c} : SMatch gs (.pat e p) a c → SMatch gs (.pat e (.optional p)) a c
  | zeroOrMoreNil {gs e p} : SMatch gs (.pat e (.zeroOrMore p)) [] []
  | zeroOrMoreCons {gs e p a a1 a2 c1 c2} : SMatch gs (.pat e p) a1 c1 → SMatch gs (.pat e (.zeroOrMore p)) a2 c2 →
      a.Perm (a1 ++ a2) → SMatch gs (.pat e (.zeroOrMore p)) a (c1 ++ c2)
  | oneOrMore {gs e p a a1 a2 c1 c2} : SMatch gs (.pat e p) a1 c1 → SMatch gs (.pat e (.zeroOrMore p)) a2 c2 →
      a.Perm (a1 ++ a2) → SMatch gs (.pat e (.oneOrMore p)) a (c1 ++ c2)
  | attribute {gs e nc p name v c} : nc.Has e name.expanded → Weak [.text v] c → SMatch gs (.pat e p) [] c →
      SMatch gs (.pat e (.attribute nc p)) [⟨name, v⟩] []
  | element {gs e nc p name a kids c} : nc.Has e name.expanded → Weak kids c → SMatch gs (.pat e p) a c →
      SMatch gs (.pat e (.element nc p)) [] [.elem name a kids]
  | value {gs e ty lit n v s} : e.dt (ty.getD .token) = some n → datatypeValueOf n lit = .ok v →
      (stdLib x).validV v s = some true → SMatch gs (.pat e (.value ty lit)) [] [.text s]
  | data {gs e ty ps n d s} : e.dt ty = some n → datatypeNameOf x n ps = .ok d →
      (stdLib x).validD d s = some true → SMatch gs (.pat e (.data ty ps)) [] [.text s]
  | dataExcept {gs e ty ps ex n d s} : e.dt ty = some n → datatypeNameOf x n ps = .ok d →
      (stdLib x).validD d s = some true → SEx F x gs (.pat e ex) s false →
      SMatch gs (.pat e (.dataExcept ty ps ex)) [] [.text s]
  | list {gs e p s ws} : Words s ws → SMatch gs (.pat e p) [] (ws.map Node.text) → SMatch gs (.pat e (.list p)) [] [.text s]
  | ident {g gs e id a c} : SMatch (g :: gs) (.defs (named g id)) a c → SMatch (g :: gs) (.pat e (.ident id)) a c
  | parent {g gs e id a c} : SMatch gs (.pat e (.ident id)) a c → SMatch (g :: gs) (.pat e (.parent id)) a c
  | grammar {gs e items ds a c} : Expands F e items ds → SMatch (ds :: gs) (.defs (named ds "start".toList)) a c →
      SMatch gs (.pat e (.grammar items)) a c
  | externalPattern {gs e path f sch p a c} : F.join e.file path = some f → F.load f = .ok sch →
      sch.body = .pattern p → SMatch gs (.pat (externalEnv e f) p) a c → SMatch gs (.pat e (.external path none)) a c
  | externalGrammar {gs e path f sch items a c} : F.join e.file path = some f → F.load f = .ok sch →
      sch.body = .grammar items → SMatch gs (.pat e (.grammar items)) a c → SMatch gs (.pat e (.external path none)) a c
  | defsChoice {gs ds d a c} : (∀ d ∈ ds, d.how ≠ .interleave) → d ∈ ds → SMatch gs (.pat d.env d.body) a c →
      SMatch gs (.defs ds) a c
  | defsInterleave {gs ds a c} : (∃ d ∈ ds, d.how = .interleave) → SMatch gs (.inter ds) a c → SMatch gs (.defs ds) a c
  | interNil {gs} : SMatch gs (.inter []) [] []
  | interCons {gs d ds a a1 a2 c c1 c2} : SMatch gs (.pat d.env d.body) a1 c1 → SMatch gs (.inter ds) a2 c2 →
      a.Perm (a1 ++ a2) → Shuffle c1 c2 c → SMatch gs (.inter (d :: ds)) a c

/-- the definitions of a top-level schema file: a pattern file is a grammar that defines only `start` -/
inductive FileDefs (file : Str) (s : SSchema) : List Defn → Prop
  | pattern {p} : s.body = .pattern p → FileDefs file s [⟨"start".toList, .assign, p, rootEnv file s.decls⟩]
  | grammar {items ds} : s.body = .grammar items → Expands F (rootEnv file s.decls) items ds → FileDefs file s ds

/-- a document element matches the schema in the file `file` -/
def SchemaMatches (file : Str) (node : Node) : Prop :=
  ∃ s ds, F.load file = .ok s ∧ FileDefs F file s ds ∧
    SMatch F x [ds] (.pat (rootEnv file s.decls) (.ident "start".toList)) [] [node]

end
end Verif
