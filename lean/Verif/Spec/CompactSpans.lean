import Verif.Spec.SchemaSpans
import Verif.Spec.Compact
/-
Specification: what the text of a schema shows at the positions of its syntax tree.  Nothing here mentions parsers.
-/
namespace Verif.At
open Verif

/-- `s` is the part of `text` at the range `r` (in bytes). -/
def Cut (text : Str) (r : Rg) (s : Str) : Prop :=
  ∃ pre post, text = pre ++ s ++ post ∧ r.lo = byteLen pre ∧ r.hi = byteLen pre + byteLen s

/-- the text at a position -/
def Quotes (text : Str → Option Str) (s : Span) (w : Str) : Prop := ∃ txt, text s.file = some txt ∧ Cut txt ⟨s.lo, s.hi⟩ w

/-- `Inside a b`: `b` is directly inside `a`, in the same file -/
inductive Inside : LTree → LTree → Prop
  | element {r nc p} : Inside (.pat (.element r nc p)) (.pat p)
  | attribute {r nc p} : Inside (.pat (.attribute r nc p)) (.pat p)
  | list {p} : Inside (.pat (.list p)) (.pat p)
  | mixed {p} : Inside (.pat (.mixed p)) (.pat p)
  | paren {p} : Inside (.pat (.paren p)) (.pat p)
  | optional {p} : Inside (.pat (.optional p)) (.pat p)
  | zeroOrMore {p} : Inside (.pat (.zeroOrMore p)) (.pat p)
  | oneOrMore {p} : Inside (.pat (.oneOrMore p)) (.pat p)
  | seqLeft {p q} : Inside (.pat (.seq p q)) (.pat p)
  | seqRight {p q} : Inside (.pat (.seq p q)) (.pat q)
  | interLeft {p q} : Inside (.pat (.inter p q)) (.pat p)
  | interRight {p q} : Inside (.pat (.inter p q)) (.pat q)
  | choiceLeft {p q} : Inside (.pat (.choice p q)) (.pat p)
  | choiceRight {p q} : Inside (.pat (.choice p q)) (.pat q)
  | except {ty ps ex} : Inside (.pat (.dataExcept ty ps ex)) (.pat ex)
  | grammar {r is} : Inside (.pat (.grammar r is)) (.items is)
  | define {is r id how p} : .define r id how p ∈ is → Inside (.items is) (.pat p)
  | div {is is'} : .div is' ∈ is → Inside (.items is) (.items is')
  | override {is r path i os r' id how p} : .include r path i os ∈ is → .define r' id how p ∈ os → Inside (.items is) (.pat p)

/-- `b` is a part of `a`, or all of it -/
inductive PartOf : LTree → LTree → Prop
  | refl {a} : PartOf a a
  | step {a b c} : Inside a b → PartOf b c → PartOf a c

/-- the whole schema -/
def LSchema.root (s : LSchema) : LTree :=
  match s.body with
  | .pattern p => .pat p
  | .grammar is => .items is

/-- the datatype of a pattern -/
inductive LTree.OfType : LTree → LDtName → Prop
  | value {ty lit} : OfType (.pat (.value (some ty) lit)) ty
  | data {ty ps} : OfType (.pat (.data ty ps)) ty
  | dataExcept {ty ps ex} : OfType (.pat (.dataExcept ty ps ex)) ty

/-- `Reads text t m r`: what the text shows at `r` is the thing `m` of the tree `t`: an element or attribute with its name and contents, a
grammar with its contents, an identifier, a literal, a prefix, a parameter. -/
inductive Reads (text : Str) : LTree → Mark → Rg → Prop
  | element {r nc p s} : Cut text r s → Rnc.Prim False (.element nc.plain p.plain) s → Reads text (.pat (.element r nc p)) .element r
  | attribute {r nc p s} : Cut text r s → Rnc.Prim False (.attribute nc.plain p.plain) s → Reads text (.pat (.attribute r nc p)) .attribute r
  | grammar {r is s} : Cut text r s → Rnc.Prim False (.grammar (plainItems is)) s → Reads text (.pat (.grammar r is)) .grammar r
  | ref {t r id} : Cut text r id → Rnc.Ident id → Reads text t (.ref id) r
  | parent {t r id} : Cut text r id → Rnc.Ident id → Reads text t (.parent id) r
  | external {t r path s} : Cut text r s → Rnc.Literal path s → Reads text t (.external path) r
  | define {t r id} : Cut text r id → Rnc.Ident id → Reads text t (.define id) r
  /-- the position of `start` is the one before it -/
  | start {t r r'} : Cut text r [] → Cut text r' "start".toList → r'.lo = r.lo → Reads text t (.define "start".toList) r
  | include {t r path s} : Cut text r s → Rnc.Literal path s → Reads text t (.include path) r
  | nsPrefix {t r pre} : Cut text r pre → Reads text t (.nsPrefix pre) r
  | dtPrefix {t r pre} : Cut text r pre → Reads text t (.dtPrefix pre) r
  | library {t r pre nr n} : t.OfType (.cname r pre nr n) → Cut text r pre → Reads text t .library r
  | typeName {t r pre nr n} : t.OfType (.cname r pre nr n) → Cut text nr n → Reads text t .typeName nr
  /-- an annotation of the parameter is included -/
  | param {t r before q s} : Cut text r s → Rnc.Par False q.plain s → Reads text t (.param before q) r

end Verif.At
