import Verif.Spec.Source
/-
Specification: the places of a schema, and what the compiler checks at each of them.  A place is a pattern or a list
of grammar contents occurring anywhere in the schema's files, together with where it stands.  Nothing here mentions
contexts, cells or states.
-/
namespace Verif

/-- where something stands in a schema -/
structure Where where
  /-- what names mean there -/
  env : NEnv
  /-- inside an attribute of the same grammar (files used by `external` included) -/
  attr : Bool
  /-- the definition whose body this is, with no element, grammar or file boundary in between -/
  self : Option Str
  /-- inside a grammar pattern: the same for that grammar pattern -/
  outer : Option (Option Str)
  /-- the included files this is in, innermost first; the top-level file is not one of them -/
  files : List Str
  /-- the namespace prefixes that can be used: all those declared, but in the overrides of an include only `xml` and
  the inherited one -/
  known : List (Str × Str)

/-- the prefixes as the compiler knows them there -/
def Where.names (w : Where) : NEnv := { w.env with ns := w.known }

/-- the top level of the file the schema consists of -/
def Where.top (file : Str) (ds : List SDecl) : Where := ⟨rootEnv file ds, false, none, none, [], (rootEnv file ds).ns⟩

/-- inside the definition of `id` -/
def Where.define (w : Where) (id : Str) : Where := { w with self := some id }
/-- directly inside an element -/
def Where.element (w : Where) : Where := { w with self := none }
/-- directly inside an attribute -/
def Where.attribute (w : Where) : Where := { w with attr := true }
/-- directly inside a grammar pattern -/
def Where.grammar (w : Where) : Where := { w with attr := false, self := none, outer := some w.self }
/-- in a pattern file used by `external` -/
def Where.external (w : Where) (f : Str) : Where :=
  { w with env := externalEnv w.env f, self := none, files := f :: w.files, known := (externalEnv w.env f).ns }
/-- in an included file -/
def Where.included (w : Where) (f : Str) (inherit : Option Str) (ds : List SDecl) : Where :=
  { w with env := includeEnv w.env f inherit ds, self := none, files := f :: w.files,
           known := (includeEnv w.env f inherit ds).ns }
/-- among the overrides of an include of `f` -/
def Where.override (w : Where) (f : Str) (inherit : Option Str) : Where :=
  { w with self := none, files := f :: w.files, known := ("xml".toList, xmlNs) :: inheritedNs w.env inherit }

/-- a pattern or grammar contents, and where it stands -/
inductive Place where
  | pat (w : Where) (p : SPattern)
  | items (w : Where) (is : List SItem)

section
variable (F : Files)

/-- `Within a b`: `b` is directly inside `a`. -/
inductive Within : Place → Place → Prop
  | element {w nc p} : Within (.pat w (.element nc p)) (.pat w.element p)
  | attribute {w nc p} : Within (.pat w (.attribute nc p)) (.pat w.attribute p)
  | list {w p} : Within (.pat w (.list p)) (.pat w p)
  | mixed {w p} : Within (.pat w (.mixed p)) (.pat w p)
  | paren {w p} : Within (.pat w (.paren p)) (.pat w p)
  | optional {w p} : Within (.pat w (.optional p)) (.pat w p)
  | zeroOrMore {w p} : Within (.pat w (.zeroOrMore p)) (.pat w p)
  | oneOrMore {w p} : Within (.pat w (.oneOrMore p)) (.pat w p)
  | seqLeft {w p q} : Within (.pat w (.seq p q)) (.pat w p)
  | seqRight {w p q} : Within (.pat w (.seq p q)) (.pat w q)
  | interLeft {w p q} : Within (.pat w (.inter p q)) (.pat w p)
  | interRight {w p q} : Within (.pat w (.inter p q)) (.pat w q)
  | choiceLeft {w p q} : Within (.pat w (.choice p q)) (.pat w p)
  | choiceRight {w p q} : Within (.pat w (.choice p q)) (.pat w q)
  | except {w ty ps ex} : Within (.pat w (.dataExcept ty ps ex)) (.pat w ex)
  | grammar {w is} : Within (.pat w (.grammar is)) (.items w.grammar is)
  | externalPattern {w path inherit f s p} : F.join w.env.file path = some f → F.load f = .ok s → s.body = .pattern p →
      Within (.pat w (.external path inherit)) (.pat (w.external f) p)
  | externalGrammar {w path inherit f s is} : F.join w.env.file path = some f → F.load f = .ok s → s.body = .grammar is →
      Within (.pat w (.external path inherit)) (.items w.grammar is)
  | define {w is id how p} : .define id how p ∈ is → Within (.items w is) (.pat (w.define id) p)
  | div {w is is'} : .div is' ∈ is → Within (.items w is) (.items w is')
  | included {w is path inherit os f s is'} : .include path inherit os ∈ is → F.join w.env.file path = some f →
      F.load f = .ok s → s.Grammar is' → Within (.items w is) (.items (w.included f inherit s.decls) is')
  | override {w is path inherit os f id how p} : .include path inherit os ∈ is → F.join w.env.file path = some f →
      .define id how p ∈ os → Within (.items w is) (.pat ((w.override f inherit).define id) p)

/-- `b` is somewhere inside `a`, or `a` itself -/
inductive Inside : Place → Place → Prop
  | refl {a} : Inside a a
  | step {a b c} : Within F a b → Inside b c → Inside a c

/-- the top-level file as a place -/
inductive FilePlace (file : Str) : Place → Prop
  | pattern {s p} : F.load file = .ok s → s.body = .pattern p → FilePlace file (.pat (.top file s.decls) p)
  | grammar {s is} : F.load file = .ok s → s.body = .grammar is →
      FilePlace file (.items (.top file s.decls) is)

/-- a place of the schema in the file `file` -/
def Occurs (file : Str) (pl : Place) : Prop := ∃ a, FilePlace F file a ∧ Inside F a pl

/-- the files that are open at a place, apart from the top-level file -/
def Place.files : Place → List Str
  | .pat w _ => w.files
  | .items w _ => w.files

/-- The way of the compiler from a place to one directly inside it.  It goes into a file only if that can be loaded and is not open already
(otherwise the schema is refused). -/
inductive Deeper : Place → Place → Prop
  /-- in the same file -/
  | inner {a b} : Within F a b → b.files = a.files → (∀ w path i, a ≠ .pat w (.external path i)) → Deeper a b
  /-- into the file `f`, or into the overrides of an include of `f`; it is open there -/
  | opens {a b f s} : Within F a b → b.files = f :: a.files → F.load f = .ok s → f ∉ a.files → Deeper a b
  /-- into a grammar used by `external`; it does **not** count as open there -/
  | grammar {w path inherit f s is} : F.join w.env.file path = some f → F.load f = .ok s → s.body = .grammar is → f ∉ w.files →
      Deeper (.pat w (.external path inherit)) (.items w.grammar is)

/-- there is an endless way into the schema -/
def Endless (file : Str) : Prop :=
  ∃ way : Nat → Place, FilePlace F file (way 0) ∧ ∀ i, Deeper F (way i) (way (i + 1))

end

/-- every prefix in a name class is declared -/
def SNameClass.Declared (e : NEnv) : SNameClass → Prop
  | .cname p _ => ∃ u, e.ns.lookup p = some u
  | .nsName n => ∃ u, e.nsRef n = some u
  | .nsNameExcept n ex => (∃ u, e.nsRef n = some u) ∧ ex.Declared e
  | .anyNameExcept ex => ex.Declared e
  | .alt a b => a.Declared e ∧ b.Declared e
  | .paren a => a.Declared e
  | .ident _ => True
  | .namespaced _ _ => True
  | .anyName => True

/-- the declarations of a file: no `inherit`, no datatype prefix declared twice or clashing with `xsd` -/
def DeclsOK (ds : List SDecl) : Prop :=
  (∀ p, .namespace p none ∉ ds) ∧ (∀ p, .defaultNamespace p none ∉ ds) ∧
    ("xsd".toList :: (declDts ds).map (·.1)).Nodup

/-- What the compiler makes sure of at a pattern. -/
def PatOK (F : Files) (x : Ext) (w : Where) : SPattern → Prop
  | .element nc _ => w.attr = false ∧ nc.Declared w.env ∧ nc.Declared w.names
  | .attribute nc _ => nc.Declared w.env ∧ nc.Declared w.names
  | .ident id => w.self ≠ some id
  | .parent id => ∃ s, w.outer = some s ∧ s ≠ some id
  | .external path inherit => inherit = none ∧ ∃ f s, F.join w.env.file path = some f ∧ F.load f = .ok s ∧ f ∉ w.files
  | .value ty lit => ∃ n v, w.env.dt (ty.getD .token) = some n ∧ datatypeValueOf n lit = .ok v
  | .data ty ps => ∃ n d, w.env.dt ty = some n ∧ datatypeNameOf x n ps = .ok d
  | .dataExcept ty ps _ => ∃ n d, w.env.dt ty = some n ∧ datatypeNameOf x n ps = .ok d
  | _ => True

/-- What the compiler makes sure of at an entry of a grammar. -/
def ItemOK (F : Files) (w : Where) : SItem → Prop
  | .include path inherit os =>
    ∃ f s is, F.join w.env.file path = some f ∧ F.load f = .ok s ∧ s.Grammar is ∧ f ∉ w.files ∧ DeclsOK s.decls ∧
      (∀ p, inherit = some p → ∃ u, w.env.ns.lookup p = some u ∧ w.known.lookup p = some u) ∧ .div ∉ os
  | _ => True

/-- What the compiler makes sure of at a place. -/
def Place.OK (F : Files) (x : Ext) : Place → Prop
  | .pat w p => PatOK F x w p
  | .items w is => ∀ i ∈ is, ItemOK F w i

/-- `p` mentions `id` with no element, grammar or file boundary in between -/
inductive SPattern.Mentions (id : Str) : SPattern → Prop
  | here : Mentions id (.ident id)
  | attribute {nc p} : p.Mentions id → Mentions id (.attribute nc p)
  | list {p} : p.Mentions id → Mentions id (.list p)
  | mixed {p} : p.Mentions id → Mentions id (.mixed p)
  | paren {p} : p.Mentions id → Mentions id (.paren p)
  | optional {p} : p.Mentions id → Mentions id (.optional p)
  | zeroOrMore {p} : p.Mentions id → Mentions id (.zeroOrMore p)
  | oneOrMore {p} : p.Mentions id → Mentions id (.oneOrMore p)
  | seqLeft {p q} : p.Mentions id → Mentions id (.seq p q)
  | seqRight {p q} : q.Mentions id → Mentions id (.seq p q)
  | interLeft {p q} : p.Mentions id → Mentions id (.inter p q)
  | interRight {p q} : q.Mentions id → Mentions id (.inter p q)
  | choiceLeft {p q} : p.Mentions id → Mentions id (.choice p q)
  | choiceRight {p q} : q.Mentions id → Mentions id (.choice p q)
  | except {ty ps ex} : ex.Mentions id → Mentions id (.dataExcept ty ps ex)

/-- `p` contains an element, not counting references and nested grammars -/
inductive SPattern.HasElement : SPattern → Prop
  | here {nc p} : HasElement (.element nc p)
  | attribute {nc p} : p.HasElement → HasElement (.attribute nc p)
  | list {p} : p.HasElement → HasElement (.list p)
  | mixed {p} : p.HasElement → HasElement (.mixed p)
  | paren {p} : p.HasElement → HasElement (.paren p)
  | optional {p} : p.HasElement → HasElement (.optional p)
  | zeroOrMore {p} : p.HasElement → HasElement (.zeroOrMore p)
  | oneOrMore {p} : p.HasElement → HasElement (.oneOrMore p)
  | seqLeft {p q} : p.HasElement → HasElement (.seq p q)
  | seqRight {p q} : q.HasElement → HasElement (.seq p q)
  | interLeft {p q} : p.HasElement → HasElement (.inter p q)
  | interRight {p q} : q.HasElement → HasElement (.inter p q)
  | choiceLeft {p q} : p.HasElement → HasElement (.choice p q)
  | choiceRight {p q} : q.HasElement → HasElement (.choice p q)
  | except {ty ps ex} : ex.HasElement → HasElement (.dataExcept ty ps ex)

end Verif
