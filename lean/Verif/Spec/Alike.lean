import Verif.Spec.Source
/-
When two schemas say the same: the same structure, with names and datatypes that stand for the same things, perhaps written
with other prefixes, with additional parentheses or annotations, with `a, (b, c)` for `(a, b), c`.
-/
namespace Verif

/-- the name class written `n`, with its prefixes replaced by what they stand for; names without prefix are in no namespace -/
def NEnv.name (e : NEnv) : SNameClass → Option NameClass
  | .ident n => some (.named [] n)
  | .cname p l => (e.ns.lookup p).map fun u => .named u l
  | .namespaced u l => some (.named u l)
  | .nsName n => (e.nsRef n).map .nsName
  | .nsNameExcept n ex =>
    match e.nsRef n, e.name ex with
    | some u, some c => some (.nsNameExcept u c)
    | _, _ => none
  | .anyName => some .anyName
  | .anyNameExcept ex => (e.name ex).map .anyNameExcept
  | .alt a b =>
    match e.name a, e.name b with
    | some c, some d => some (.alt c d)
    | _, _ => none
  | .paren a => e.name a

/-- `string` and `token` are the types of the library without a name -/
def DtName.canon : DtName → DtName
  | .string => .cname [] "string".toList
  | .token => .cname [] "token".toList
  | n => n

/-- both stand for the same name class -/
def AlikeNc (e e' : NEnv) (a b : SNameClass) : Prop := ∃ c, e.name a = some c ∧ e'.name b = some c

/-- both stand for the same datatype -/
def AlikeDt (e e' : NEnv) (t t' : SDtName) : Prop := ∃ n n', e.dt t = some n ∧ e'.dt t' = some n' ∧ n.canon = n'.canon

/-- what names mean in the overrides of an include: of the namespace prefixes only `xml` is known there (see C39, C55) -/
def NEnv.inOverride (e : NEnv) : NEnv := { e with ns := [("xml".toList, xmlNs)] }

/-- the operators `,`, `&` and `|` -/
inductive SOp where
  | seq
  | inter
  | choice

def SOp.mk : SOp → SPattern → SPattern → SPattern
  | .seq => .seq
  | .inter => .inter
  | .choice => .choice

/-- `Parts o p ps`: `p` is made of the patterns `ps` with the operator `o`, in whatever grouping -/
inductive Parts (o : SOp) : SPattern → List SPattern → Prop
  | one {p} : Parts o p [p]
  | op {p ps q qs} : Parts o p ps → Parts o q qs → Parts o (o.mk p q) (ps ++ qs)
  | paren {p ps} : Parts o p ps → Parts o (.paren p) ps

mutual
/-- `AlikePat e e' p q`: the pattern `p`, where names mean `e`, says the same as `q`, where names mean `e'`. -/
inductive AlikePat : NEnv → NEnv → SPattern → SPattern → Prop
  | parenLeft {e e' p q} : AlikePat e e' p q → AlikePat e e' (.paren p) q
  | parenRight {e e' p q} : AlikePat e e' p q → AlikePat e e' p (.paren q)
  | element {e e' a b p q} : AlikeNc e e' a b → AlikePat e e' p q → AlikePat e e' (.element a p) (.element b q)
  | attribute {e e' a b p q} : AlikeNc e e' a b → AlikePat e e' p q → AlikePat e e' (.attribute a p) (.attribute b q)
  | list {e e' p q} : AlikePat e e' p q → AlikePat e e' (.list p) (.list q)
  | mixed {e e' p q} : AlikePat e e' p q → AlikePat e e' (.mixed p) (.mixed q)
  | ident {e e' id} : AlikePat e e' (.ident id) (.ident id)
  | parent {e e' id} : AlikePat e e' (.parent id) (.parent id)
  | empty {e e'} : AlikePat e e' .empty .empty
  | text {e e'} : AlikePat e e' .text .text
  | notAllowed {e e'} : AlikePat e e' .notAllowed .notAllowed
  | grammar {e e' is js} : AlikeItems e e' is js → AlikePat e e' (.grammar is) (.grammar js)
  | op {e e' o p q ps qs} : Parts o p ps → Parts o q qs → 2 ≤ ps.length → AlikePats e e' ps qs → AlikePat e e' p q
  | optional {e e' p q} : AlikePat e e' p q → AlikePat e e' (.optional p) (.optional q)
  | zeroOrMore {e e' p q} : AlikePat e e' p q → AlikePat e e' (.zeroOrMore p) (.zeroOrMore q)
  | oneOrMore {e e' p q} : AlikePat e e' p q → AlikePat e e' (.oneOrMore p) (.oneOrMore q)
  | value {e e' t t' s} : AlikeDt e e' (t.getD .token) (t'.getD .token) → AlikePat e e' (.value t s) (.value t' s)
  | data {e e' t t' ps} : AlikeDt e e' t t' → AlikePat e e' (.data t ps) (.data t' ps)
  | dataExcept {e e' t t' ps p q} : AlikeDt e e' t t' → AlikePat e e' p q → AlikePat e e' (.dataExcept t ps p) (.dataExcept t' ps q)
/-- one by one -/
inductive AlikePats : NEnv → NEnv → List SPattern → List SPattern → Prop
  | nil {e e'} : AlikePats e e' [] []
  | cons {e e' p q ps qs} : AlikePat e e' p q → AlikePats e e' ps qs → AlikePats e e' (p :: ps) (q :: qs)
/-- the contents of grammars -/
inductive AlikeItems : NEnv → NEnv → List SItem → List SItem → Prop
  | nil {e e'} : AlikeItems e e' [] []
  | cons {e e' i j is js} : AlikeItem e e' i j → AlikeItems e e' is js → AlikeItems e e' (i :: is) (j :: js)
  | annotationLeft {e e' is js} : AlikeItems e e' is js → AlikeItems e e' (.annotation :: is) js
  | annotationRight {e e' is js} : AlikeItems e e' is js → AlikeItems e e' is (.annotation :: js)
/-- one item -/
inductive AlikeItem : NEnv → NEnv → SItem → SItem → Prop
  | define {e e' id how p q} : AlikePat e e' p q → AlikeItem e e' (.define id how p) (.define id how q)
  | div {e e' is js} : AlikeItems e e' is js → AlikeItem e e' (.div is) (.div js)
  | include {e e' path os os'} : AlikeOverrides e.inOverride e'.inOverride os os' → AlikeItem e e' (.include path none os) (.include path none os')
/-- the overrides of an include -/
inductive AlikeOverrides : NEnv → NEnv → List SOverride → List SOverride → Prop
  | nil {e e'} : AlikeOverrides e e' [] []
  | define {e e' id how p q os os'} : AlikePat e e' p q → AlikeOverrides e e' os os' →
      AlikeOverrides e e' (.define id how p :: os) (.define id how q :: os')
  | div {e e' os os'} : AlikeOverrides e e' os os' → AlikeOverrides e e' (.div :: os) (.div :: os')
  | annotationLeft {e e' os os'} : AlikeOverrides e e' os os' → AlikeOverrides e e' (.annotation :: os) os'
  | annotationRight {e e' os os'} : AlikeOverrides e e' os os' → AlikeOverrides e e' os (.annotation :: os')
end

/-- The declarations of a file are in order: no URI is inherited, no datatype prefix is declared twice. -/
structure DeclsOk (ds : List SDecl) : Prop where
  own : ∀ d ∈ ds, (∀ p, d ≠ .namespace p none) ∧ ∀ p, d ≠ .defaultNamespace p none
  once : ("xsd".toList :: (declDts ds).map (·.1)).Nodup

/-- the contents of files -/
inductive AlikeBody (e e' : NEnv) : SBody → SBody → Prop
  | pattern {p q} : AlikePat e e' p q → (∀ is, p ≠ .grammar is) → (∀ is, q ≠ .grammar is) → AlikeBody e e' (.pattern p) (.pattern q)
  | grammarPattern {is js} : AlikeItems e e' is js → AlikeBody e e' (.pattern (.grammar is)) (.pattern (.grammar js))
  | grammar {is js} : AlikeItems e e' is js → AlikeBody e e' (.grammar is) (.grammar js)

/-- the file `f` says the same in both versions -/
structure AlikeSchema (f : Str) (s s' : SSchema) : Prop where
  left : DeclsOk s.decls
  right : DeclsOk s'.decls
  body : AlikeBody (rootEnv f s.decls) (rootEnv f s'.decls) s.body s'.body

/-- the results of loading a file -/
inductive AlikeLoad (f : Str) : Except LoadErr SSchema → Except LoadErr SSchema → Prop
  | ok {s s'} : AlikeSchema f s s' → AlikeLoad f (.ok s) (.ok s')
  | error {e} : AlikeLoad f (.error e) (.error e)

/-- file by file -/
structure AlikeFiles (F F' : Files) : Prop where
  join : F'.join = F.join
  load : ∀ f, AlikeLoad f (F.load f) (F'.load f)

/-- what a compilation returns, without the cache of files: an error, or the start rule and all rules -/
def outcomeOf : Except CFault (Nat × CState) → Except CFault (Nat × List (Option DefineRule))
  | .ok (k, st) => .ok (k, st.cells)
  | .error e => .error e

end Verif
