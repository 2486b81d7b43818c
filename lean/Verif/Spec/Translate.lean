import Verif.Spec.Alike
import Verif.Spec.XmlSyntax
/-
The translation of schemas into the XML syntax: one document for each schema that can be written there.
-/
namespace Verif.ToXml
open Verif Verif.XS Verif.Rng

/-- an attribute without prefix -/
def att (k : String) (v : Str) : TAttr := ⟨none, k.toList, v⟩

/-- an element without prefix declarations -/
abbrev elem (name : String) (as : List TAttr) (kids : List TNode) : TNode := el name.toList [] as kids

/-! ### the translation -/

/-- name classes; each name with its own `ns` -/
def nc (e : NEnv) : SNameClass → TNode
  | .ident n => elem "name" [att "ns" []] [.text n]
  | .cname p l => elem "name" [att "ns" ((e.ns.lookup p).getD [])] [.text l]
  | .namespaced u l => elem "name" [att "ns" u] [.text l]
  | .nsName n => elem "nsName" [att "ns" ((e.nsRef n).getD [])] []
  | .nsNameExcept n ex => elem "nsName" [att "ns" ((e.nsRef n).getD [])] [elem "except" [] [nc e ex]]
  | .anyName => elem "anyName" [] []
  | .anyNameExcept ex => elem "anyName" [] [elem "except" [] [nc e ex]]
  | .alt a b => elem "choice" [] [nc e a, nc e b]
  | .paren a => nc e a

/-- library and name of a datatype -/
def library (e : NEnv) : SDtName → Str × Str
  | .string => ([], "string".toList)
  | .token => ([], "token".toList)
  | .cname p n => ((e.dts.lookup p).getD [], n)
  | .namespaced u n => (u, n)

def dtAtts (e : NEnv) (t : SDtName) : List TAttr := [att "type" (library e t).2, att "datatypeLibrary" (library e t).1]

/-- character data; there are no empty text nodes -/
def chars (s : Str) : List TNode := if s = [] then [] else [.text s]

def param (p : Param) : TNode := elem "param" [att "name" p.name] (chars p.value)

def combine : AssignMethod → List TAttr
  | .assign => []
  | .choice => [att "combine" "choice".toList]
  | .interleave => [att "combine" "interleave".toList]

def definition (id : Str) (how : AssignMethod) (n : TNode) : TNode :=
  if id = "start".toList then elem "start" (combine how) [n] else elem "define" (att "name" id :: combine how) [n]

mutual
def pat (e : NEnv) : SPattern → TNode
  | .element c p => elem "element" [] [nc e c, pat e p]
  | .attribute c p => elem "attribute" [] [nc e c, pat e p]
  | .list p => elem "list" [] [pat e p]
  | .mixed p => elem "mixed" [] [pat e p]
  | .ident id => elem "ref" [att "name" id] []
  | .parent id => elem "parentRef" [att "name" id] []
  | .empty => elem "empty" [] []
  | .text => elem "text" [] []
  | .notAllowed => elem "notAllowed" [] []
  | .external path _ => elem "externalRef" [att "href" path] []
  | .grammar is => elem "grammar" [] (items e is)
  | .paren p => pat e p
  | .seq p q => elem "group" [] [pat e p, pat e q]
  | .inter p q => elem "interleave" [] [pat e p, pat e q]
  | .choice p q => elem "choice" [] [pat e p, pat e q]
  | .optional p => elem "optional" [] [pat e p]
  | .zeroOrMore p => elem "zeroOrMore" [] [pat e p]
  | .oneOrMore p => elem "oneOrMore" [] [pat e p]
  | .value none s => elem "value" [] (chars s)
  | .value (some t) s => elem "value" (dtAtts e t) (chars s)
  | .data t ps => elem "data" (dtAtts e t) (ps.map param)
  | .dataExcept t ps p => elem "data" (dtAtts e t) (ps.map param ++ [elem "except" [] [pat e p]])
def items (e : NEnv) : List SItem → List TNode
  | [] => []
  | i :: is => item e i ++ items e is
def item (e : NEnv) : SItem → List TNode
  | .define id how p => [definition id how (pat e p)]
  | .div is => [elem "div" [] (items e is)]
  | .include path _ os => [elem "include" [att "href" path] (overrides e.inOverride os)]
  | .annotation => []
def overrides (e : NEnv) : List SOverride → List TNode
  | [] => []
  | o :: os => override e o ++ overrides e os
def override (e : NEnv) : SOverride → List TNode
  | .define id how p => [definition id how (pat e p)]
  | .div => [elem "div" [] []]
  | .annotation => []
end

/-- the file `f`; a pattern is put in a `group` of its own -/
def schema (f : Str) (s : SSchema) : TNode :=
  match s.body with
  | .grammar is => elem "grammar" [] (items (rootEnv f s.decls) is)
  | .pattern p => elem "group" [] [pat (rootEnv f s.decls) p]

/-! ### what can be translated -/

/-- a name; around names white space is dropped, and U+1680 is both a name character and white space -/
def Plain (n : Str) : Prop := NameIn n n

/-- Names are names, and prefixes are declared; `anyName` does not occur in exceptions (`b`). -/
def NcOk (e : NEnv) : Bool → SNameClass → Prop
  | _, .ident n => Plain n
  | _, .cname p l => (e.ns.lookup p).isSome ∧ Plain l
  | _, .namespaced _ l => Plain l
  | _, .nsName n => (e.nsRef n).isSome
  | _, .nsNameExcept n ex => (e.nsRef n).isSome ∧ NcOk e true ex
  | b, .anyName => b = false
  | b, .anyNameExcept ex => b = false ∧ NcOk e true ex
  | b, .alt c d => NcOk e b c ∧ NcOk e b d
  | b, .paren c => NcOk e b c

section
variable (ok : Str → Prop)

/-- The prefix is declared, the library has an acceptable URI (`ok`). -/
def DtOk (e : NEnv) (t : SDtName) : Prop :=
  (e.dt t).isSome ∧ Plain (library e t).2 ∧ ((library e t).1 = [] ∨ ok (library e t).1)

/-- In `data`, the only type called `token` that can be named is the built-in one (see C63). -/
def DataOk (e : NEnv) (t : SDtName) (ps : List Param) : Prop :=
  DtOk ok e t ∧ ((library e t).2 = "token".toList → (library e t).1 = []) ∧ ∀ p ∈ ps, Plain p.name ∧ p.value ≠ []

mutual
/-- no `external`, no `inherit` -/
def PatOk (e : NEnv) : SPattern → Prop
  | .element c p => NcOk e false c ∧ PatOk e p
  | .attribute c p => NcOk e false c ∧ PatOk e p
  | .list p => PatOk e p
  | .mixed p => PatOk e p
  | .ident id => Plain id
  | .parent id => Plain id
  | .empty => True
  | .text => True
  | .notAllowed => True
  | .external _ _ => False
  | .grammar is => ItemsOk e is
  | .paren p => PatOk e p
  | .seq p q => PatOk e p ∧ PatOk e q
  | .inter p q => PatOk e p ∧ PatOk e q
  | .choice p q => PatOk e p ∧ PatOk e q
  | .optional p => PatOk e p
  | .zeroOrMore p => PatOk e p
  | .oneOrMore p => PatOk e p
  | .value none _ => True
  | .value (some t) _ => DtOk ok e t
  | .data t ps => DataOk ok e t ps
  | .dataExcept t ps p => DataOk ok e t ps ∧ PatOk e p
def ItemsOk (e : NEnv) : List SItem → Prop
  | [] => True
  | i :: is => ItemOk e i ∧ ItemsOk e is
def ItemOk (e : NEnv) : SItem → Prop
  | .define id _ p => Plain id ∧ PatOk e p
  | .div is => ItemsOk e is
  | .include _ inherit os => inherit = none ∧ OverridesOk e.inOverride os
  | .annotation => True
def OverridesOk (e : NEnv) : List SOverride → Prop
  | [] => True
  | o :: os => OverrideOk e o ∧ OverridesOk e os
def OverrideOk (e : NEnv) : SOverride → Prop
  | .define id _ p => Plain id ∧ PatOk e p
  | .div => True
  | .annotation => True
end

/-- The file can be translated.  A file that consists of `grammar { .. }` has no counterpart: the element `grammar` is read as
the grammar of the file itself (see `Ex.C61_grammar_keyword`). -/
structure SchemaOk (f : Str) (s : SSchema) : Prop where
  decls : DeclsOk s.decls
  body : match s.body with
    | .grammar is => ItemsOk ok (rootEnv f s.decls) is
    | .pattern p => PatOk ok (rootEnv f s.decls) p ∧ ∀ is, p ≠ .grammar is
end

end Verif.ToXml
