import Verif.Spec.XmlSyntax
/-
The XML syntax depends on the notion of path monotonically.
-/
namespace Verif.Rng
open Verif Verif.XS

section
variable {okP : Str → Prop} {P Q : Anc → Str → Str → Prop} (hPQ : ∀ cx h r, P cx h r → Q cx h r)
include hPQ

mutual
theorem Pat.mono : ∀ {cx n p}, Pat okP P cx n p → Pat okP Q cx n p
  | _, _, _, .mk h0 h1 => .mk h0 (Body.mono h1)
theorem Body.mono : ∀ {cx n sc as ks p}, Body okP P cx n sc as ks p → Body okP Q cx n sc as ks p
  | _, _, _, _, _, _, .element h0 h1 h2 h3 h4 => .element h0 h1 h2 (Pats.mono h3) h4
  | _, _, _, _, _, _, .elementNc h0 h1 h2 h3 h4 h5 => .elementNc h0 h1 h2 h3 (Pats.mono h4) h5
  | _, _, _, _, _, _, .«attribute» h0 h1 h2 h3 h4 h5 => .«attribute» h0 h1 h2 h3 (Pats.mono h4) h5
  | _, _, _, _, _, _, .attributeNc h0 h1 h2 h3 h4 h5 => .attributeNc h0 h1 h2 h3 (Pats.mono h4) h5
  | _, _, _, _, _, _, .group h0 h1 => .group (Pats.mono h0) h1
  | _, _, _, _, _, _, .interleave h0 h1 => .interleave (Pats.mono h0) h1
  | _, _, _, _, _, _, .choice h0 h1 => .choice (Pats.mono h0) h1
  | _, _, _, _, _, _, .optional h0 h1 => .optional (Pats.mono h0) h1
  | _, _, _, _, _, _, .zeroOrMore h0 h1 => .zeroOrMore (Pats.mono h0) h1
  | _, _, _, _, _, _, .oneOrMore h0 h1 => .oneOrMore (Pats.mono h0) h1
  | _, _, _, _, _, _, .list h0 h1 => .list (Pats.mono h0) h1
  | _, _, _, _, _, _, .mixed h0 h1 => .mixed (Pats.mono h0) h1
  | _, _, _, _, _, _, .ref h0 => .ref h0
  | _, _, _, _, _, _, .parentRef h0 => .parentRef h0
  | _, _, _, _, _, _, .empty h0 h1 => .empty h0 h1
  | _, _, _, _, _, _, .text h0 h1 => .text h0 h1
  | _, _, _, _, _, _, .notAllowed h0 h1 => .notAllowed h0 h1
  | _, _, _, _, _, _, .value h0 h1 h2 => .value h0 h1 h2
  | _, _, _, _, _, _, .valueEmpty h0 => .valueEmpty h0
  | _, _, _, _, _, _, .data h0 h1 h2 => .data h0 h1 h2
  | _, _, _, _, _, _, .dataExcept h0 h1 h2 h3 h4 h5 => .dataExcept h0 h1 h2 (Pats.mono h3) h4 h5
  | _, _, _, _, _, _, .externalRef h0 h1 => .externalRef h0 (hPQ _ _ _ h1)
  | _, _, _, _, _, _, .grammar h0 => .grammar (Items.mono h0)
theorem Pats.mono : ∀ {cx ks ps}, Pats okP P cx ks ps → Pats okP Q cx ks ps
  | _, _, _, .nil => .nil
  | _, _, _, .cons h0 h1 => .cons (Pat.mono h0) (Pats.mono h1)
  | _, _, _, .skip h0 h1 => .skip h0 (Pats.mono h1)
theorem Item.mono : ∀ {cx n i}, Item okP P cx n i → Item okP Q cx n i
  | _, _, _, .start h0 h1 h2 => .start h0 h1 (Pats.mono h2)
  | _, _, _, .define h0 h1 h2 h3 h4 => .define h0 h1 h2 (Pats.mono h3) h4
  | _, _, _, .div h0 => .div (Items.mono h0)
  | _, _, _, .«include» h0 h1 h2 => .«include» h0 (hPQ _ _ _ h1) (Overrides.mono h2)
theorem Items.mono : ∀ {cx ks is}, Items okP P cx ks is → Items okP Q cx ks is
  | _, _, _, .nil => .nil
  | _, _, _, .cons h0 h1 => .cons (Item.mono h0) (Items.mono h1)
  | _, _, _, .skip h0 h1 => .skip h0 (Items.mono h1)
theorem Override.mono : ∀ {cx n o}, Override okP P cx n o → Override okP Q cx n o
  | _, _, _, .start h0 h1 h2 => .start h0 h1 (Pats.mono h2)
  | _, _, _, .define h0 h1 h2 h3 h4 => .define h0 h1 h2 (Pats.mono h3) h4
  | _, _, _, .div h0 => .div (Overrides.mono h0)
theorem Overrides.mono : ∀ {cx ks os}, Overrides okP P cx ks os → Overrides okP Q cx ks os
  | _, _, _, .nil => .nil
  | _, _, _, .cons h0 h1 => .cons (Override.mono h0) (Overrides.mono h1)
  | _, _, _, .skip h0 h1 => .skip h0 (Overrides.mono h1)
end

theorem Schema.mono {root : TNode} {s : SSchema} (h : Schema okP P root s) : Schema okP Q root s := by
  cases h with
  | grammar h => exact .grammar (h.mono hPQ)
  | pattern h0 h => exact .pattern h0 (h.mono hPQ)

end
end Verif.Rng
