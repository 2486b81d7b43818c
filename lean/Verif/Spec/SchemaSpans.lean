import Verif.Model.SchemaSpans
/-
Specification: what stands where in the files of a schema, and what an error of the schema compiler may point at.  Nothing here
mentions contexts, cells or states.
-/
namespace Verif.At
open Verif

/-! ### what stands where -/

/-- what can be found at a position of a schema -/
inductive Mark where
  | element
  | attribute
  /-- a reference by name -/
  | ref (id : Str)
  /-- a reference to the parent grammar -/
  | parent (id : Str)
  /-- the literal of an `external` -/
  | external (path : Str)
  | grammar
  /-- the name that is defined -/
  | define (id : Str)
  /-- the literal of an `include` -/
  | include (path : Str)
  /-- a prefix of a name, or in `inherit = ` -/
  | nsPrefix (pre : Str)
  /-- a prefix of a datatype -/
  | dtPrefix (pre : Str)
  /-- the prefix or URI that names the library of a datatype -/
  | library
  /-- the local name of a datatype -/
  | typeName
  /-- a parameter of a datatype, with those before it -/
  | param (before : List LParam) (q : LParam)

/-- the prefixes in a name class -/
inductive LNameClass.Uses : LNameClass → Rg → Str → Prop
  | cname {r pre loc} : Uses (.cname r pre loc) r pre
  | nsName {r pre} : Uses (.nsName (.pre r pre)) r pre
  | nsNameExcept {r pre ex} : Uses (.nsNameExcept (.pre r pre) ex) r pre
  | nsExcept {n ex r pre} : ex.Uses r pre → Uses (.nsNameExcept n ex) r pre
  | anyExcept {ex r pre} : ex.Uses r pre → Uses (.anyNameExcept ex) r pre
  | left {a b r pre} : a.Uses r pre → Uses (.alt a b) r pre
  | right {a b r pre} : b.Uses r pre → Uses (.alt a b) r pre
  | paren {a r pre} : a.Uses r pre → Uses (.paren a) r pre

/-- what stands where in the name of a datatype -/
inductive LDtName.Has : LDtName → Mark → Rg → Prop
  | prefix {r pre nr n} : Has (.cname r pre nr n) (.dtPrefix pre) r
  | library {r pre nr n} : Has (.cname r pre nr n) .library r
  | uri {r u nr n} : Has (.namespaced r u nr n) .library r
  | name {r pre nr n} : Has (.cname r pre nr n) .typeName nr
  | uriName {r u nr n} : Has (.namespaced r u nr n) .typeName nr

/-- a pattern or the contents of a grammar -/
inductive LTree where
  | pat (p : LPat)
  | items (is : List LItem)

/-- what stands where in a pattern or among the contents of a grammar, not counting what is deeper inside -/
inductive LTree.Has : LTree → Mark → Rg → Prop
  | element {r nc p} : Has (.pat (.element r nc p)) .element r
  | elementName {r nc p r' pre} : nc.Uses r' pre → Has (.pat (.element r nc p)) (.nsPrefix pre) r'
  | attribute {r nc p} : Has (.pat (.attribute r nc p)) .attribute r
  | attributeName {r nc p r' pre} : nc.Uses r' pre → Has (.pat (.attribute r nc p)) (.nsPrefix pre) r'
  | ref {r id} : Has (.pat (.ident r id)) (.ref id) r
  | parent {r id} : Has (.pat (.parent r id)) (.parent id) r
  | external {r path i} : Has (.pat (.external r path i)) (.external path) r
  | grammar {r is} : Has (.pat (.grammar r is)) .grammar r
  | valueType {ty lit m r} : ty.Has m r → Has (.pat (.value (some ty) lit)) m r
  | dataType {ty ps m r} : ty.Has m r → Has (.pat (.data ty ps)) m r
  | dataParam {ty before q after} : Has (.pat (.data ty (before ++ q :: after))) (.param before q) q.at_
  | exceptType {ty ps ex m r} : ty.Has m r → Has (.pat (.dataExcept ty ps ex)) m r
  | exceptParam {ty before q after ex} : Has (.pat (.dataExcept ty (before ++ q :: after) ex)) (.param before q) q.at_
  | define {is r id how p} : .define r id how p ∈ is → Has (.items is) (.define id) r
  | include {is r path i os} : .include r path i os ∈ is → Has (.items is) (.include path) r
  | inherit {is r path r' pre os} : .include r path (some (r', pre)) os ∈ is → Has (.items is) (.nsPrefix pre) r'
  | override {is r path i os r' id how p} : .include r path i os ∈ is → .define r' id how p ∈ os →
      Has (.items is) (.define id) r'

/-- A part of the file `src`.  Its positions are taken for positions of `file`, and paths in it are relative to `file`. -/
structure LPlace where
  file : Str
  src : Str
  tree : LTree

/-- the contents of a grammar file -/
inductive LSchema.Grammar : LSchema → List LItem → Prop
  | grammar {ds items} : LSchema.Grammar ⟨ds, .grammar items⟩ items
  | pattern {ds r items} : LSchema.Grammar ⟨ds, .pattern (.grammar r items)⟩ items

section
variable (F : LFiles)

/-- `LWithin a b`: `b` is directly inside `a`.  Note `externalGrammar`: there the positions of one file are taken for positions
of the other. -/
inductive LWithin : LPlace → LPlace → Prop
  | element {f g r nc p} : LWithin ⟨f, g, .pat (.element r nc p)⟩ ⟨f, g, .pat p⟩
  | attribute {f g r nc p} : LWithin ⟨f, g, .pat (.attribute r nc p)⟩ ⟨f, g, .pat p⟩
  | list {f g p} : LWithin ⟨f, g, .pat (.list p)⟩ ⟨f, g, .pat p⟩
  | mixed {f g p} : LWithin ⟨f, g, .pat (.mixed p)⟩ ⟨f, g, .pat p⟩
  | paren {f g p} : LWithin ⟨f, g, .pat (.paren p)⟩ ⟨f, g, .pat p⟩
  | optional {f g p} : LWithin ⟨f, g, .pat (.optional p)⟩ ⟨f, g, .pat p⟩
  | zeroOrMore {f g p} : LWithin ⟨f, g, .pat (.zeroOrMore p)⟩ ⟨f, g, .pat p⟩
  | oneOrMore {f g p} : LWithin ⟨f, g, .pat (.oneOrMore p)⟩ ⟨f, g, .pat p⟩
  | seqLeft {f g p q} : LWithin ⟨f, g, .pat (.seq p q)⟩ ⟨f, g, .pat p⟩
  | seqRight {f g p q} : LWithin ⟨f, g, .pat (.seq p q)⟩ ⟨f, g, .pat q⟩
  | interLeft {f g p q} : LWithin ⟨f, g, .pat (.inter p q)⟩ ⟨f, g, .pat p⟩
  | interRight {f g p q} : LWithin ⟨f, g, .pat (.inter p q)⟩ ⟨f, g, .pat q⟩
  | choiceLeft {f g p q} : LWithin ⟨f, g, .pat (.choice p q)⟩ ⟨f, g, .pat p⟩
  | choiceRight {f g p q} : LWithin ⟨f, g, .pat (.choice p q)⟩ ⟨f, g, .pat q⟩
  | except {f g ty ps ex} : LWithin ⟨f, g, .pat (.dataExcept ty ps ex)⟩ ⟨f, g, .pat ex⟩
  | grammar {f g r is} : LWithin ⟨f, g, .pat (.grammar r is)⟩ ⟨f, g, .items is⟩
  | externalPattern {f g r path i h s p} : F.join f path = some h → F.load h = .ok s → s.body = .pattern p →
      LWithin ⟨f, g, .pat (.external r path i)⟩ ⟨h, h, .pat p⟩
  | externalGrammar {f g r path i h s is} : F.join f path = some h → F.load h = .ok s → s.body = .grammar is →
      LWithin ⟨f, g, .pat (.external r path i)⟩ ⟨f, h, .items is⟩
  | define {f g is r id how p} : .define r id how p ∈ is → LWithin ⟨f, g, .items is⟩ ⟨f, g, .pat p⟩
  | div {f g is is'} : .div is' ∈ is → LWithin ⟨f, g, .items is⟩ ⟨f, g, .items is'⟩
  | included {f g is r path i os h s is'} : .include r path i os ∈ is → F.join f path = some h → F.load h = .ok s →
      s.Grammar is' → LWithin ⟨f, g, .items is⟩ ⟨h, h, .items is'⟩
  | override {f g is r path i os r' id how p} : .include r path i os ∈ is → .define r' id how p ∈ os →
      LWithin ⟨f, g, .items is⟩ ⟨f, g, .pat p⟩

/-- a place of the schema in the file `name` -/
inductive LOccurs (name : Str) : LPlace → Prop
  | pattern {s p} : F.load name = .ok s → s.body = .pattern p → LOccurs name ⟨name, name, .pat p⟩
  | grammar {s is} : F.load name = .ok s → s.body = .grammar is → LOccurs name ⟨name, name, .items is⟩
  | inside {a b} : LOccurs name a → LWithin F a b → LOccurs name b

/-- `m` stands at `r`, in a part of the schema whose positions are taken for positions of `f`. -/
def Marked (name : Str) (m : Mark) (f : Str) (r : Rg) : Prop := ∃ src t, LOccurs F name ⟨f, src, t⟩ ∧ t.Has m r

/-- the range lies in the file -/
def InFile (f : Str) (r : Rg) : Prop := r.lo ≤ r.hi ∧ r.hi ≤ F.size f

/-- `m` stands at `s`. -/
def Shown (name : Str) (m : Mark) (s : Span) : Prop := Marked F name m s.file ⟨s.lo, s.hi⟩ ∧ InFile F s.file ⟨s.lo, s.hi⟩

/-- `id` is defined at `s`.  A schema that is a pattern defines `start`, at no particular position. -/
def Defines (name id : Str) (s : Span) : Prop :=
  Shown F name (.define id) s ∨ id = "start".toList ∧ s = ⟨name, 0, 0⟩ ∧ ∃ sch p, F.load name = .ok sch ∧ sch.body = .pattern p

/-- the file can be read -/
def Readable (f : Str) : Prop := ∃ s, F.load f = .ok s

/-- the whole of a file -/
def whole (f : Str) : Span := ⟨f, 0, F.size f⟩

/-- what an error of the datatype libraries points at -/
inductive DtMark (x : Ext) : DtErr → Mark → Prop
  | library : DtMark x .unsupportedLibrary .library
  | unknown : DtMark x (.relax .nameUnknown) .typeName
  | noParams {q} : DtMark x (.relax .paramNotAllowed) (.param [] q)
  | unsupported : DtMark x (.xsd .unsupported) .typeName
  | invalidValue : DtMark x (.xsd .invalidValue) .typeName
  /-- the parameters before `q` are all right, with `q` they are not -/
  | facet {e before q n d} : datatypeNameOf x n (before.map LParam.plain) = .ok d →
      datatypeNameOf x n ((before ++ [q]).map LParam.plain) = .err (.xsd (.facet e)) → DtMark x (.xsd (.facet e)) (.param before q)

/-- `Blames F x name g e`: the positions of the error `e`, met in the file `g`, are where they should be. -/
inductive Blames (x : Ext) (name : Str) : Str → LErr → Prop
  | load {g e} : F.load g = .error e → Blames x name g (.load g e)
  | included {g lit h s e} : s.file = g → Shown F name (.include lit) s → F.join g lit = some h → Blames x name h e →
      Blames x name g (.inInclude s e)
  | external {g lit h s e} : s.file = g → Shown F name (.external lit) s → F.join g lit = some h → Blames x name h e →
      Blames x name g (.inInclude s e)
  /-- in an override the error is in the including file -/
  | override {g lit s e} : s.file = g → Shown F name (.include lit) s → Blames x name g e → Blames x name g (.inInclude s e)
  | duplicateDefinition {g id s s'} : Defines F name id s → Defines F name id s' → Blames x name g (.duplicateDefinition id s s')
  | nsPrefix {g s pre} : s.file = g → Shown F name (.nsPrefix pre) s → Blames x name g (.undefinedNamespacePrefix s pre)
  | undefinedReference {g s id} : Shown F name (.ref id) s ∨ Shown F name (.parent id) s →
      Blames x name g (.undefinedReference s id)
  /-- **not** where the name is used, but the beginning of the file -/
  | undefinedInGrammar {g id} : Readable F g → Blames x name g (.undefinedReference ⟨g, 0, 0⟩ id)
  | dtPrefix {g s pre} : s.file = g → Shown F name (.dtPrefix pre) s → Blames x name g (.undefinedDatatypePrefix s pre)
  | datatypePrefix {g pre} : Blames x name g (.datatypePrefixAlreadyDefined pre)
  | noStart : Readable F name → Blames x name name (.startRuleNotDefined (whole F name))
  | noStartExternal {g s lit h} : s.file = g → Shown F name (.external lit) s → F.join g lit = some h → Readable F h →
      Blames x name g (.startRuleNotDefined (whole F h))
  | noStartGrammar {g s} : s.file = g → Shown F name .grammar s → Blames x name g (.startRuleNotDefined s)
  | mixes {g id s s'} : Defines F name id s → Defines F name id s' → Blames x name g (.mixesChoiceAndInterleave s s')
  /-- the position of the reference, but in the file `name` instead of `g` -/
  | noParent {g id r} : Marked F name (.parent id) g r → InFile F name r → Blames x name g (.noParentAvailable ⟨name, r.lo, r.hi⟩)
  | datatype {g s e m} : s.file = g → DtMark x e m → Shown F name m s → Blames x name g (.datatype (some s) e)
  /-- **not** the prefix of the library, but the beginning of the file -/
  | datatypeLibrary {g} : Readable F g → Blames x name g (.datatype (some ⟨g, 0, 0⟩) .unsupportedLibrary)
  | conflictingFacet {g} : Blames x name g (.datatype none (.xsd (.facet .conflicting)))
  | recursiveReference {g id s s'} : s.file = g → s'.file = g → Shown F name (.ref id) s → Shown F name (.define id) s' →
      Blames x name g (.recursiveReference id s s')
  /-- the position of the reference in `g`, but in the file of the definition -/
  | recursiveParent {g id s s'} : Marked F name (.parent id) g ⟨s.lo, s.hi⟩ → s.file = s'.file → Shown F name (.define id) s' →
      Blames x name g (.recursiveReference id s s')
  | elementInAttribute {g s s'} : Shown F name .attribute s → s'.file = g → Shown F name .element s' →
      Blames x name g (.elementAsChildOfAttribute s s')
  | recursiveInclude {g lit f s} : s.file = g → Shown F name (.include lit) s ∨ Shown F name (.external lit) s →
      F.join g lit = some f → Blames x name g (.recursiveInclude f s)
  | notGrammar {g} : Readable F g → Blames x name g (.includedFileMustBeGrammar ⟨g, 0, 0⟩)
  | overrideMissing {g id s lit s' h} : Shown F name (.define id) s → s'.file = g → Shown F name (.include lit) s' →
      F.join g lit = some h → Readable F h → Blames x name g (.overrideMissingFromInclude id s (whole F h))

/-- A position does not lie in the file it is taken for.  That is the file `g` of its surroundings, but for a faulty reference to a
parent grammar it is the file of the whole schema (if there is no such grammar), or the one that defines the name (if the reference
stands within that definition). -/
def Misplaced (name : Str) : Prop :=
  ∃ m g r f, Marked F name m g r ∧ (f = g ∨ ∃ id, m = .parent id ∧ (f = name ∨ ∃ r', Marked F name (.define id) f r')) ∧
    ¬ InFile F f r

/-- the positions that are used even if nothing is wrong -/
inductive Mark.Recorded : Mark → Prop
  | element : Recorded .element
  | attribute : Recorded .attribute
  | ref {id} : Recorded (.ref id)
  | parent {id} : Recorded (.parent id)
  | external {path} : Recorded (.external path)
  | define {id} : Recorded (.define id)
  | include {path} : Recorded (.include path)

/-- every position that is used lies in the file it is taken for -/
def AllPlaced (name : Str) : Prop := ∀ m f r, m.Recorded → Marked F name m f r → InFile F f r

/-- every position lies in the file it stands in: what a parser sees to -/
def OwnPlaced (name : Str) : Prop := ∀ f src t m r, LOccurs F name ⟨f, src, t⟩ → t.Has m r → InFile F src r

/-- no `external` leads to a file with definitions (those lead to a file with a pattern) -/
def NoExternalGrammar (name : Str) : Prop :=
  ∀ f src r path i h s is, LOccurs F name ⟨f, src, .pat (.external r path i)⟩ → F.join f path = some h → F.load h = .ok s →
    s.body ≠ .grammar is

/-- `parent` is used in the file of the schema only, and only for names that are defined there -/
def ParentsAtHome (name : Str) : Prop :=
  ∀ f src r id, LOccurs F name ⟨f, src, .pat (.parent r id)⟩ → src = name ∧ ∀ g r', Marked F name (.define id) g r' → g = name

end
end Verif.At
