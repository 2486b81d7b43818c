import Verif.Model.Validate
/-
Specification: the order of tokens the tokenizer guarantees, however broken the document is.
-/
namespace Verif

/-- the tokens that belong to a start tag: attributes and the `>` or `/>` that ends it -/
def Token.needsElement : Token → Bool
  | .attribute _ _ _ => true
  | .elementEnd .open => true
  | .elementEnd .empty => true
  | _ => false

/-- Attributes, `>` and `/>` occur only after some start tag has begun.  (Nothing else is asked:
end tags need not match, elements need not be closed, errors may be interspersed.) -/
def Framed (es : List Event) : Prop :=
  ∀ before t after, es = before ++ some t :: after → t.needsElement = true →
    ∃ p l, some (Token.elementStart p l) ∈ before

end Verif
