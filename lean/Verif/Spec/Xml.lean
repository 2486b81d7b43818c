import Verif.Spec.Document
/-
Specification for C14-C19 and C47: what precedes a start tag, malformed references.
-/
namespace Verif

/-! ### what precedes a point in a document (C14) -/

/-- an element that is still open: its start tag and the content completed so far -/
structure OpenElem where
  pre : Str
  loc : Str
  atts : List RawAttr
  done : List XNode

/-- the tokens read so far inside the open elements, outermost first -/
def openToks : List OpenElem → List Token
  | [] => []
  | o :: os => .elementStart o.pre o.loc :: (o.atts.map RawAttr.tok ++
      .elementEnd .open :: (toksL o.done ++ openToks os))

/-- a start tag up to its last attribute -/
def startToks (pre loc : Str) (atts : List RawAttr) : List Token :=
  .elementStart pre loc :: atts.map RawAttr.tok

/-- the declarations in scope inside the open elements (outermost first), nearest first -/
def openScope : List OpenElem → List (Str × Str)
  | [] => []
  | o :: os => openScope os ++ nsDecls o.atts

/-- the token declares the namespace prefix `p` -/
def Token.Declares (t : Token) (p : Str) : Prop := ∃ v, t = .attribute xmlnsStr p v

/-! ### malformed references (C17) -/

/-- the values listed for names -/
abbrev valueIn (l : List (Str × Str)) : Str → Option Str := fun nm => l.lookup nm

/-- `s` ends in a bare `&` -/
def EndsBare (s : Str) : Prop := ∃ a, s = a ++ ['&']

/-- `s` has a character reference whose number is written with a plus sign -/
def HasPlus (s : Str) : Prop :=
  (∃ a b, s = a ++ ['&', '#', '+'] ++ b) ∨ ∃ a b, s = a ++ ['&', '#', 'x', '+'] ++ b

end Verif
