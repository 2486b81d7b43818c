import Verif.Model.Pattern
import Verif.Model.Store
import Verif.Model.Deriv
/-
Specification: what it means for a document to match a schema.  Nothing here mentions derivatives,
pattern identities, nullability flags or the store.  `Lib` (datatypes) and `Pattern` (schemas) are
the only pieces of the model used.
-/
namespace Verif

/-- An XML document fragment after reference expansion: text and elements. -/
inductive Node where
  | text (s : Str)
  | elem (name : QName) (atts : List Attr) (kids : List Node)

/-- Expanded name of a document name: no namespace is the empty namespace. -/
def QName.expanded (t : QName) : Str × Str := (t.ns.getD [], t.loc)

/-- The set of expanded names a name class stands for. -/
def NameClass.Has : NameClass → Str × Str → Prop
  | .named uri name, x => x = (uri, name)
  | .nsName uri, x => x.1 = uri
  | .nsNameExcept uri ex, x => x.1 = uri ∧ ¬ ex.Has x
  | .anyName, _ => True
  | .anyNameExcept ex, x => ¬ ex.Has x
  | .alt a b, x => a.Has x ∨ b.Has x

/-- `c` is a merge of `a` and `b` that keeps the order inside each. -/
inductive Shuffle {α : Type} : List α → List α → List α → Prop
  | nil : Shuffle [] [] []
  | left {x a b c} : Shuffle a b c → Shuffle (x :: a) b (x :: c)
  | right {x a b c} : Shuffle a b c → Shuffle a (x :: b) (x :: c)

/-- XML 1.0 production 3: white space -/
def XmlSpace (c : Char) : Prop := c = ' ' ∨ c = '\t' ∨ c = '\r' ∨ c = '\n'

/-- the 25 characters with the Unicode property White_Space -/
def UniSpace (c : Char) : Prop :=
  c.toNat ∈ [0x9, 0xA, 0xB, 0xC, 0xD, 0x20, 0x85, 0xA0, 0x1680,
    0x2000, 0x2001, 0x2002, 0x2003, 0x2004, 0x2005, 0x2006, 0x2007, 0x2008, 0x2009, 0x200A, 0x2028, 0x2029, 0x202F, 0x205F, 0x3000]

instance (c : Char) : Decidable (XmlSpace c) := by unfold XmlSpace; infer_instance
instance (c : Char) : Decidable (UniSpace c) := by unfold UniSpace; infer_instance

/-- whitespace-only text (XML whitespace) -/
def WsText (s : Str) : Prop := ∀ c ∈ s, XmlSpace c

/-- `c'` is `c` with some (any) whitespace-only text nodes left out. -/
inductive Weak : List Node → List Node → Prop
  | nil : Weak [] []
  | keep {x c c'} : Weak c c' → Weak (x :: c) (x :: c')
  | drop {s c c'} : WsText s → Weak c c' → Weak (.text s :: c) c'

/-- `ws` are the whitespace-separated words of `s`. -/
inductive Words : Str → List Str → Prop
  | nil {s} : (∀ c ∈ s, UniSpace c) → Words s []
  | cons {pre w rest ws} :
      (∀ c ∈ pre, UniSpace c) → w ≠ [] → (∀ c ∈ w, ¬ UniSpace c) →
      (rest = [] ∨ ∃ c r, rest = c :: r ∧ UniSpace c) →
      Words rest ws → Words (pre ++ w ++ rest) (w :: ws)

section
variable {D V : Type} (L : Lib D V) (env : Env D V)

/-- Truth value of an exception pattern (a choice of values and datatypes) on a string. -/
inductive ExMatch : Pattern D V → Str → Bool → Prop
  | value {v s b} : L.validV v s = some b → ExMatch (.datatypeValue v) s b
  | data {d s b} : L.validD d s = some b → ExMatch (.datatypeName d) s b
  | dataExcept {d e s b1 b2} : L.validD d s = some b1 → ExMatch e s b2 →
      ExMatch (.datatypeNameExcept d e) s (b1 && !b2)
  | notAllowed {s} : ExMatch .notAllowed s false
  | choiceNil {s} : ExMatch (.choice []) s false
  | choiceCons {p ps s b1 b2} : ExMatch p s b1 → ExMatch (.choice ps) s b2 →
      ExMatch (.choice (p :: ps)) s (b1 || b2)
  | ref {n p s b} : env[n]? = some p → ExMatch p s b → ExMatch (.ref n) s b

/-- `Match p a c`: the attributes `a` (in any order) and the child nodes `c` together match `p`. -/
inductive Match : Pattern D V → List Attr → List Node → Prop
  | empty : Match .empty [] []
  | text {c} : (∀ x ∈ c, ∃ s, x = Node.text s) → Match .text [] c
  | choice {p ps a c} : p ∈ ps → Match p a c → Match (.choice ps) a c
  | groupNil : Match (.group []) [] []
  | groupCons {p ps a a1 a2 c1 c2} :
      Match p a1 c1 → Match (.group ps) a2 c2 → a.Perm (a1 ++ a2) →
      Match (.group (p :: ps)) a (c1 ++ c2)
  | interleaveNil : Match (.interleave []) [] []
  | interleaveCons {p ps a a1 a2 c c1 c2} :
      Match p a1 c1 → Match (.interleave ps) a2 c2 → a.Perm (a1 ++ a2) → Shuffle c1 c2 c →
      Match (.interleave (p :: ps)) a c
  | mixed {p a c c1 c2} :
      Match p a c1 → (∀ x ∈ c2, ∃ s, x = Node.text s) → Shuffle c1 c2 c → Match (.mixed p) a c
  | optionalNone {p} : Match (.optional p) [] []
  | optionalSome {p a c} : Match p a c → Match (.optional p) a c
  | zeroOrMoreNil {p} : Match (.zeroOrMore p) [] []
  | zeroOrMoreCons {p a a1 a2 c1 c2} :
      Match p a1 c1 → Match (.zeroOrMore p) a2 c2 → a.Perm (a1 ++ a2) →
      Match (.zeroOrMore p) a (c1 ++ c2)
  | oneOrMore {p a a1 a2 c1 c2} :
      Match p a1 c1 → Match (.zeroOrMore p) a2 c2 → a.Perm (a1 ++ a2) →
      Match (.oneOrMore p) a (c1 ++ c2)
  | attr {nc p name v c} :
      nc.Has name.expanded → Weak [.text v] c → Match p [] c →
      Match (.attr nc p) [⟨name, v⟩] []
  | element {nc p name a kids c} :
      nc.Has name.expanded → Weak kids c → Match p a c →
      Match (.element nc p) [] [.elem name a kids]
  | ref {n p a c} : env[n]? = some p → Match p a c → Match (.ref n) a c
  | value {v s} : L.validV v s = some true → Match (.datatypeValue v) [] [.text s]
  | data {d s} : L.validD d s = some true → Match (.datatypeName d) [] [.text s]
  | dataExcept {d e s} : L.validD d s = some true → ExMatch L env e s false →
      Match (.datatypeNameExcept d e) [] [.text s]
  | list {p s ws} : Words s ws → Match p [] (ws.map Node.text) → Match (.list p) [] [.text s]

end
end Verif
