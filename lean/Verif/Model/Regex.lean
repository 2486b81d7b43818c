import Verif.Basic
/-
The part of the `regex` crate that the three fixed expressions of relaxng-model/src/datatype/xsd.rs:31-35
use: sequence, alternation, repetition, character classes and the anchors `^` `$` (not in multi-line mode).
`Regex::is_match` searches: it asks whether some part of the text matches.
-/
namespace Verif

/-- regular expressions with anchors -/
inductive Re where
  | eps
  | cls (p : Char → Bool)
  | seq (a b : Re)
  | alt (a b : Re)
  | star (a : Re)
  | bol
  | eol

namespace Re

/-- `r?` -/
def opt (r : Re) : Re := .alt r .eps
/-- `r+` -/
def plus (r : Re) : Re := .seq r (.star r)
/-- one given character -/
def chr (c : Char) : Re := .cls (· == c)
/-- `r{n}` -/
def rep (r : Re) : Nat → Re
  | 0 => .eps
  | n + 1 => .seq r (rep r n)
/-- `r{0,n}` -/
def upTo (r : Re) : Nat → Re
  | 0 => .eps
  | n + 1 => .alt (.seq r (upTo r n)) .eps
/-- a sequence -/
def seqs : List Re → Re
  | [] => .eps
  | [r] => r
  | r :: rs => .seq r (seqs rs)
/-- an alternation -/
def alts : List Re → Re
  | [] => .cls (fun _ => false)
  | [r] => r
  | r :: rs => .alt r (alts rs)
/-- the characters of a literal -/
def lit : Str → Re
  | [] => .eps
  | [c] => chr c
  | c :: cs => .seq (chr c) (lit cs)

/-- repetition, at most `fuel` rounds, each of which must consume something -/
def starGo (f : Str → List Str) : Nat → Str → List Str
  | 0, s => [s]
  | n + 1, s => s :: ((f s).filter (fun t => t.length < s.length)).flatMap (starGo f n)

/-- All the ways to match `r` at the position before `s` in a text of `n` characters: what is left of the
text afterwards. -/
def run (n : Nat) : Re → Str → List Str
  | .eps, s => [s]
  | .cls p, s => match s with
    | c :: cs => if p c then [cs] else []
    | [] => []
  | .seq a b, s => (run n a s).flatMap (run n b)
  | .alt a b, s => run n a s ++ run n b s
  | .star a, s => starGo (run n a) s.length s
  | .bol, s => if s.length = n then [s] else []
  | .eol, s => if s = [] then [s] else []

/-- the text from each position on -/
def tails : Str → List Str
  | [] => [[]]
  | c :: cs => (c :: cs) :: tails cs

/-- `Regex::is_match`: does the expression match anywhere in the text? -/
def isMatch (r : Re) (s : Str) : Bool := (tails s).any fun t => !(run s.length r t).isEmpty

end Re
end Verif
