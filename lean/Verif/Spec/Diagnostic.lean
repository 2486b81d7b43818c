import Verif.Model.Diagnostic
import Verif.Spec.Spans
/-
Specification: which elements may come next, and what a diagnostic has to say.
-/
namespace Verif.Loc
open Verif

section
variable {D V : Type} (lk : Nat → Option (Pat D V))

/-- `Next lk p nc i`: where the pattern `p` is expected, an element may come next whose name is in `nc` and whose contents are the
pattern with the number `i`.  `lk` gives the patterns their numbers stand for. -/
inductive Next : Pat D V → NameClass → Nat → Prop
  | element {nc i} : Next (.element nc i) nc i
  | choiceL {l r f p nc i} : lk l = some p → Next p nc i → Next (.choice l r f) nc i
  | choiceR {l r f p nc i} : lk r = some p → Next p nc i → Next (.choice l r f) nc i
  | interleaveL {l r f p nc i} : lk l = some p → Next p nc i → Next (.interleave l r f) nc i
  | interleaveR {l r f p nc i} : lk r = some p → Next p nc i → Next (.interleave l r f) nc i
  | groupL {l r f p nc i} : lk l = some p → Next p nc i → Next (.group l r f) nc i
  /-- past the left side only if that may be empty -/
  | groupR {l r f p q nc i} : lk l = some p → p.nullable = true → lk r = some q → Next q nc i → Next (.group l r f) nc i
  | oneOrMore {j f p nc i} : lk j = some p → Next p nc i → Next (.oneOrMore j f) nc i
  | after {l r p nc i} : lk l = some p → Next p nc i → Next (.after l r) nc i

/-- `Offered lk p nc i`: the element is among those the code looks for.  (Compare `groupR` with that of `Next`: the condition is
the opposite.) -/
inductive Offered : Pat D V → NameClass → Nat → Prop
  | element {nc i} : Offered (.element nc i) nc i
  | choiceL {l r f p nc i} : lk l = some p → Offered p nc i → Offered (.choice l r f) nc i
  | choiceR {l r f p nc i} : lk r = some p → Offered p nc i → Offered (.choice l r f) nc i
  | interleaveL {l r f p nc i} : lk l = some p → Offered p nc i → Offered (.interleave l r f) nc i
  | interleaveR {l r f p nc i} : lk r = some p → Offered p nc i → Offered (.interleave l r f) nc i
  | groupL {l r f p nc i} : lk l = some p → Offered p nc i → Offered (.group l r f) nc i
  | groupR {l r f p q nc i} : lk l = some p → p.nullable = false → lk r = some q → Offered q nc i → Offered (.group l r f) nc i
  | oneOrMore {j f p nc i} : lk j = some p → Offered p nc i → Offered (.oneOrMore j f) nc i
  | list {j p nc i} : lk j = some p → Offered p nc i → Offered (.list j) nc i
  | after {l r p nc i} : lk l = some p → Offered p nc i → Offered (.after l r) nc i

/-- `Part lk p q`: `q` is a part of `p` that is not within an element or an attribute, nor awaited after the end of the current
element -/
inductive Part : Pat D V → Pat D V → Prop
  | refl {p} : Part p p
  | choiceL {l r f p q} : lk l = some p → Part p q → Part (.choice l r f) q
  | choiceR {l r f p q} : lk r = some p → Part p q → Part (.choice l r f) q
  | interleaveL {l r f p q} : lk l = some p → Part p q → Part (.interleave l r f) q
  | interleaveR {l r f p q} : lk r = some p → Part p q → Part (.interleave l r f) q
  | groupL {l r f p q} : lk l = some p → Part p q → Part (.group l r f) q
  | groupR {l r f p q} : lk r = some p → Part p q → Part (.group l r f) q
  | oneOrMore {j f p q} : lk j = some p → Part p q → Part (.oneOrMore j f) q
  | list {j p q} : lk j = some p → Part p q → Part (.list j) q
  | after {l r p q} : lk l = some p → Part p q → Part (.after l r) q

/-- an element with this name, and contents that are not refused outright, may come next -/
def Can (nm : QName) (p : Pat D V) : Prop :=
  ∃ nc j q, Next lk p nc j ∧ contains nc nm = true ∧ lk j = some q ∧ q ≠ .notAllowed
end

/-- the patterns of a validator and their numbers -/
def State.numbered {D V : Type} (s : State D V) : Nat → Option (Pat D V) := fun i => s.store.pats[i]?

/-- `s` is the state of a validator for the schema `start` after some items, of which some may have been refused -/
def Reached {D V : Type} [DecidableEq D] [DecidableEq V] (L : Lib D V) (env : Env D V) (start : Pattern D V) (s : State D V) : Prop :=
  ∃ fuel n s0 es rs, newValidator env fuel start = .ok s0 ∧ runEvents L n es s0 = .ok (rs, s)

/-- how a set of names is to be shown: as in the compact syntax, with namespace URIs for prefixes and nothing for the namespace of a
single name -/
def shown : NameClass → Str
  | .named _ name => name
  | .nsName uri => uri ++ [':', '*']
  | .nsNameExcept uri except => uri ++ [':', '*', '-'] ++ shown except
  | .anyName => ['*']
  | .anyNameExcept except => '*' :: '-' :: shown except
  | .alt left right => shown left ++ '|' :: shown right

/-- what `Expected …` says about these name classes -/
def expectation (names : List NameClass) : Str :=
  if names = [] then []
  else "Element ".toList ++ [' '].intercalate ((names.take 4).map shown) ++
    if names.length ≤ 4 then [] else " .. or one of ".toList ++ (toString (names.length - 4)).toList ++ " more".toList

/-- the message an error is to be given -/
def Err.message : Err → Msg
  | .xml _ _ => .xmlError
  | .notAllowed t => .notExpectedHere t.name
  | .undefinedNamespacePrefix p => .prefixNotDefined p.s
  | .undefinedEntity name _ _ => .entityNotDefined name
  | .invalidOrUnclosedEntity _ _ => .invalidEntity

/-- `Line text k a l b`: `l` is a line of the text, with the line feed that ends it; `a` is what comes before, with `k` line feeds,
and `b` what follows -/
def Line (text : Str) (k : Nat) (a l b : Str) : Prop :=
  text = a ++ l ++ b ∧ a.count '\n' = k ∧ (a = [] ∨ ∃ a', a = a' ++ ['\n']) ∧
    ((∃ x, l = x ++ ['\n'] ∧ '\n' ∉ x) ∨ '\n' ∉ l ∧ b = [])

end Verif.Loc
