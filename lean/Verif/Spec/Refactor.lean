import Verif.Spec.Alike
/-
Specification: refactoring a schema.  Two versions of a schema, perhaps split into different files, are related if one
is obtained from the other by steps that do not change what is said: definitions are put in another order, renamed, put
into a `div` or an included file, dropped if nothing refers to them, merged if they say the same; a reference is
replaced by the body of its definition; a file used by `external` is pasted in; `a = p | q` becomes `a = p`, `a |= q`,
and `a = p & q` becomes `a &= p`, `a &= q`; alternatives and the parts of an interleave are put in another order or
regrouped; names are written with other prefixes.
-/
namespace Verif.Refac
open Verif

/-- A grammar of the first version and the grammar of the second that corresponds to it: their definitions (with `div`
dissolved and included files brought in), and which names of the first correspond to which names of the second. -/
structure Frame where
  left : List Defn
  right : List Defn
  same : Str → Str → Prop

/-- both are name classes of the same names -/
def SameNames (e e' : NEnv) (a b : SNameClass) : Prop := ∀ n, a.Has e n ↔ b.Has e' n

/-- both stand for the same datatype, or for none -/
def SameType (e e' : NEnv) (t t' : SDtName) : Prop := (e.dt t).map DtName.canon = (e'.dt t').map DtName.canon

/-- there is a definition with `&=` -/
def Interleaved (ds : List Defn) : Prop := ∃ d ∈ ds, d.how = .interleave

section
variable (F F' : Files)

/-- `Refac F F' frs g g'`: inside the grammars `frs` (innermost first) of the two versions, with files `F` and `F'`, the
goal `g` of the first version says the same as the goal `g'` of the second. -/
inductive Refac : List Frame → Goal → Goal → Prop
  -- the same pattern, with parts that say the same
  | element {frs e e' a b p q} : SameNames e e' a b → Refac frs (.pat e p) (.pat e' q) →
      Refac frs (.pat e (.element a p)) (.pat e' (.element b q))
  | attribute {frs e e' a b p q} : SameNames e e' a b → Refac frs (.pat e p) (.pat e' q) →
      Refac frs (.pat e (.attribute a p)) (.pat e' (.attribute b q))
  | list {frs e e' p q} : Refac frs (.pat e p) (.pat e' q) → Refac frs (.pat e (.list p)) (.pat e' (.list q))
  | mixed {frs e e' p q} : Refac frs (.pat e p) (.pat e' q) → Refac frs (.pat e (.mixed p)) (.pat e' (.mixed q))
  | optional {frs e e' p q} : Refac frs (.pat e p) (.pat e' q) → Refac frs (.pat e (.optional p)) (.pat e' (.optional q))
  | zeroOrMore {frs e e' p q} : Refac frs (.pat e p) (.pat e' q) → Refac frs (.pat e (.zeroOrMore p)) (.pat e' (.zeroOrMore q))
  | oneOrMore {frs e e' p q} : Refac frs (.pat e p) (.pat e' q) → Refac frs (.pat e (.oneOrMore p)) (.pat e' (.oneOrMore q))
  | empty {frs e e'} : Refac frs (.pat e .empty) (.pat e' .empty)
  | text {frs e e'} : Refac frs (.pat e .text) (.pat e' .text)
  | notAllowed {frs e e'} : Refac frs (.pat e .notAllowed) (.pat e' .notAllowed)
  | value {frs e e' t t' s} : SameType e e' (t.getD .token) (t'.getD .token) → Refac frs (.pat e (.value t s)) (.pat e' (.value t' s))
  | data {frs e e' t t' ps} : SameType e e' t t' → Refac frs (.pat e (.data t ps)) (.pat e' (.data t' ps))
  | dataExcept {frs e e' t t' ps p q} : SameType e e' t t' → Refac frs (.pat e p) (.pat e' q) →
      Refac frs (.pat e (.dataExcept t ps p)) (.pat e' (.dataExcept t' ps q))
  | seq {frs e e' p p' q q'} : Refac frs (.pat e p) (.pat e' p') → Refac frs (.pat e q) (.pat e' q') →
      Refac frs (.pat e (.seq p q)) (.pat e' (.seq p' q'))
  | inter {frs e e' p p' q q'} : Refac frs (.pat e p) (.pat e' p') → Refac frs (.pat e q) (.pat e' q') →
      Refac frs (.pat e (.inter p q)) (.pat e' (.inter p' q'))
  | choice {frs e e' p p' q q'} : Refac frs (.pat e p) (.pat e' p') → Refac frs (.pat e q) (.pat e' q') →
      Refac frs (.pat e (.choice p q)) (.pat e' (.choice p' q'))
  -- another order or grouping
  | interSwap {frs e e' p p' q q'} : Refac frs (.pat e p) (.pat e' p') → Refac frs (.pat e q) (.pat e' q') →
      Refac frs (.pat e (.inter p q)) (.pat e' (.inter q' p'))
  | choiceSwap {frs e e' p p' q q'} : Refac frs (.pat e p) (.pat e' p') → Refac frs (.pat e q) (.pat e' q') →
      Refac frs (.pat e (.choice p q)) (.pat e' (.choice q' p'))
  | parenLeft {frs e p g} : Refac frs (.pat e p) g → Refac frs (.pat e (.paren p)) g
  | parenRight {frs e' q g} : Refac frs g (.pat e' q) → Refac frs g (.pat e' (.paren q))
  | seqLeft {frs e p q r g} : Refac frs (.pat e (.seq p (.seq q r))) g → Refac frs (.pat e (.seq (.seq p q) r)) g
  | seqRight {frs e' p q r g} : Refac frs g (.pat e' (.seq p (.seq q r))) → Refac frs g (.pat e' (.seq (.seq p q) r))
  | interLeft {frs e p q r g} : Refac frs (.pat e (.inter p (.inter q r))) g → Refac frs (.pat e (.inter (.inter p q) r)) g
  | interRight {frs e' p q r g} : Refac frs g (.pat e' (.inter p (.inter q r))) → Refac frs g (.pat e' (.inter (.inter p q) r))
  | choiceLeft {frs e p q r g} : Refac frs (.pat e (.choice p (.choice q r))) g → Refac frs (.pat e (.choice (.choice p q) r)) g
  | choiceRight {frs e' p q r g} : Refac frs g (.pat e' (.choice p (.choice q r))) → Refac frs g (.pat e' (.choice (.choice p q) r))
  -- references to definitions that correspond
  | ident {fr frs e e' y z} : fr.same y z → Refac (fr :: frs) (.pat e (.ident y)) (.pat e' (.ident z))
  | parent {fr frs e e' y z} : Refac frs (.pat e (.ident y)) (.pat e' (.ident z)) → Refac (fr :: frs) (.pat e (.parent y)) (.pat e' (.parent z))
  -- a reference replaced by what it refers to
  | inlineLeft {fr frs e y d g} : named fr.left y = [d] → d.how ≠ .interleave → Refac (fr :: frs) (.pat d.env d.body) g →
      Refac (fr :: frs) (.pat e (.ident y)) g
  | inlineRight {fr frs e' z d g} : named fr.right z = [d] → d.how ≠ .interleave → Refac (fr :: frs) g (.pat d.env d.body) →
      Refac (fr :: frs) g (.pat e' (.ident z))
  -- a file pasted in
  | pasteLeft {frs e path f sch p g} : F.join e.file path = some f → F.load f = .ok sch → sch.body = .pattern p →
      Refac frs (.pat (externalEnv e f) p) g → Refac frs (.pat e (.external path none)) g
  | pasteRight {frs e' path f sch q g} : F'.join e'.file path = some f → F'.load f = .ok sch → sch.body = .pattern q →
      Refac frs g (.pat (externalEnv e' f) q) → Refac frs g (.pat e' (.external path none))
  | pasteGrammarLeft {frs e path f sch items g} : F.join e.file path = some f → F.load f = .ok sch → sch.body = .grammar items →
      Refac frs (.pat e (.grammar items)) g → Refac frs (.pat e (.external path none)) g
  | pasteGrammarRight {frs e' path f sch items g} : F'.join e'.file path = some f → F'.load f = .ok sch → sch.body = .grammar items →
      Refac frs g (.pat e' (.grammar items)) → Refac frs g (.pat e' (.external path none))
  -- grammars: what corresponds says the same, and `start` corresponds to `start`
  | grammar {frs e e' is js fr} : Expands F e is fr.left → Expands F' e' js fr.right → fr.same "start".toList "start".toList →
      (∀ y z, fr.same y z → Refac (fr :: frs) (.defs (named fr.left y)) (.defs (named fr.right z))) →
      Refac frs (.pat e (.grammar is)) (.pat e' (.grammar js))
  -- all definitions of one name: alternatives, in any order, with repetitions
  | defsChoice {frs ds ds'} (m m' : Defn → Defn) : ¬ Interleaved ds → ¬ Interleaved ds' →
      (∀ d ∈ ds, m d ∈ ds') → (∀ d ∈ ds', m' d ∈ ds) →
      (∀ d ∈ ds, Refac frs (.pat d.env d.body) (.pat (m d).env (m d).body)) →
      (∀ d ∈ ds', Refac frs (.pat (m' d).env (m' d).body) (.pat d.env d.body)) → Refac frs (.defs ds) (.defs ds')
  -- `a = p | q` for `a = p`, `a |= q`
  | splitLeft {frs l r n how e p q g} : ¬ Interleaved (l ++ ⟨n, how, .choice p q, e⟩ :: r) →
      Refac frs (.defs (l ++ ⟨n, how, p, e⟩ :: ⟨n, how, q, e⟩ :: r)) g → Refac frs (.defs (l ++ ⟨n, how, .choice p q, e⟩ :: r)) g
  | splitRight {frs l r n how e p q g} : ¬ Interleaved (l ++ ⟨n, how, .choice p q, e⟩ :: r) →
      Refac frs g (.defs (l ++ ⟨n, how, p, e⟩ :: ⟨n, how, q, e⟩ :: r)) → Refac frs g (.defs (l ++ ⟨n, how, .choice p q, e⟩ :: r))
  -- interleaved definitions: in any order
  | defsInter {frs ds ds'} : Interleaved ds → Interleaved ds' → Refac frs (.inter ds) (.inter ds') → Refac frs (.defs ds) (.defs ds')
  -- `a = p & q` for `a &= p`, `a &= q`
  | oneLeft {frs n how e p q ds'} : Interleaved ds' → Refac frs (.inter [⟨n, how, p, e⟩, ⟨n, how, q, e⟩]) (.inter ds') →
      Refac frs (.defs [⟨n, how, .inter p q, e⟩]) (.defs ds')
  | oneRight {frs n how e p q ds} : Interleaved ds → Refac frs (.inter ds) (.inter [⟨n, how, p, e⟩, ⟨n, how, q, e⟩]) →
      Refac frs (.defs ds) (.defs [⟨n, how, .inter p q, e⟩])
  | interNil {frs} : Refac frs (.inter []) (.inter [])
  | interPick {frs l r l' r'} {d d' : Defn} : Refac frs (.pat d.env d.body) (.pat d'.env d'.body) → Refac frs (.inter (l ++ r)) (.inter (l' ++ r')) →
      Refac frs (.inter (l ++ d :: r)) (.inter (l' ++ d' :: r'))
  | interSplitLeft {frs l r n how e p q g} : Refac frs (.inter (l ++ ⟨n, how, p, e⟩ :: ⟨n, how, q, e⟩ :: r)) g →
      Refac frs (.inter (l ++ ⟨n, how, .inter p q, e⟩ :: r)) g
  | interSplitRight {frs l r n how e p q g} : Refac frs g (.inter (l ++ ⟨n, how, p, e⟩ :: ⟨n, how, q, e⟩ :: r)) →
      Refac frs g (.inter (l ++ ⟨n, how, .inter p q, e⟩ :: r))

/-- `Refactored F F' f f'`: the schema in the file `f` of `F` and the schema in the file `f'` of `F'` are two versions of
one schema: `start` corresponds to `start`, and names that correspond have definitions that say the same. -/
inductive Refactored (f f' : Str) : Prop
  | mk {s s' : SSchema} {fr : Frame} : F.load f = .ok s → F'.load f' = .ok s' → FileDefs F f s fr.left → FileDefs F' f' s' fr.right →
      fr.same "start".toList "start".toList →
      (∀ y z, fr.same y z → Refac F F' [fr] (.defs (named fr.left y)) (.defs (named fr.right z))) → Refactored f f'

end

/-! ### moving, reordering and renaming definitions -/

/-- the names a pattern refers to, if it contains no grammars and mentions no other files or enclosing grammars -/
def uses : SPattern → Option (List Str)
  | .ident id => some [id]
  | .empty | .text | .notAllowed | .value .. | .data .. => some []
  | .element _ p | .attribute _ p | .list p | .mixed p | .optional p | .zeroOrMore p | .oneOrMore p | .paren p
  | .dataExcept _ _ p => uses p
  | .seq p q | .inter p q | .choice p q =>
    match uses p, uses q with
    | some a, some b => some (a ++ b)
    | _, _ => none
  | _ => none

/-- the pattern with the names it refers to replaced -/
def rename (ρ : Str → Str) : SPattern → SPattern
  | .ident id => .ident (ρ id)
  | .element n p => .element n (rename ρ p)
  | .attribute n p => .attribute n (rename ρ p)
  | .list p => .list (rename ρ p)
  | .mixed p => .mixed (rename ρ p)
  | .optional p => .optional (rename ρ p)
  | .zeroOrMore p => .zeroOrMore (rename ρ p)
  | .oneOrMore p => .oneOrMore (rename ρ p)
  | .paren p => .paren (rename ρ p)
  | .dataExcept t ps p => .dataExcept t ps (rename ρ p)
  | .seq p q => .seq (rename ρ p) (rename ρ q)
  | .inter p q => .inter (rename ρ p) (rename ρ q)
  | .choice p q => .choice (rename ρ p) (rename ρ q)
  | p => p

/-- a definition, without its name: `=`, `|=` or `&=`, the body, and what prefixes stand for in it -/
abbrev Said := AssignMethod × SPattern × (Str → Option Str) × (Str → Option Str)

/-- what a definition says, whatever file it is in -/
def said (d : Defn) : Said := (d.how, d.body, (d.env.ns.lookup ·), (d.env.dts.lookup ·))

/-- what it says after the names in its body are replaced -/
def saidRenamed (ρ : Str → Str) (d : Defn) : Said := (d.how, rename ρ d.body, (d.env.ns.lookup ·), (d.env.dts.lookup ·))

/-- `Moved F F' ρ f f'`: the second version is obtained from the first by moving, reordering and renaming definitions and
by adding or dropping definitions that are not used: `used` are names closed under references that include `start`, and
for each of them the definitions of `y`, renamed, are, in some order, the definitions of `ρ y`. -/
inductive Moved (F F' : Files) (ρ : Str → Str) (f f' : Str) : Prop
  | mk {s s' : SSchema} {ds ds' : List Defn} (used : Str → Prop) : F.load f = .ok s → F'.load f' = .ok s' →
      FileDefs F f s ds → FileDefs F' f' s' ds' → used "start".toList → ρ "start".toList = "start".toList →
      (∀ d ∈ ds, used d.name → ∃ l, uses d.body = some l ∧ ∀ y ∈ l, used y) →
      (∀ y, used y → ((named ds y).map (saidRenamed ρ)).Perm ((named ds' (ρ y)).map said)) → Moved F F' ρ f f'

end Verif.Refac
