import Verif.Spec.Datatype
/-
Specification of what happens to the parameters of a datatype (C74): which parameter is objected to, given the ones
before it, and with which error.  `none` in place of an error is a panic.
-/
namespace Verif

/-- the bound `p` excludes everything that an opposite bound given before it allows -/
def Contradicts {T : Type} [LE T] [LT T] (Val : Str → T → Prop) (before : List Param) (p : Param) : Prop :=
  ∃ q ∈ before, ∃ u v, Val q.value u ∧ Val p.value v ∧
    ((p.isLower = true ∧ q.name = "maxInclusive".toList ∧ u < v) ∨
     (p.isLower = true ∧ q.name = "maxExclusive".toList ∧ u ≤ v) ∨
     (p.isUpper = true ∧ q.name = "minInclusive".toList ∧ v < u) ∨
     (p.isUpper = true ∧ q.name = "minExclusive".toList ∧ v ≤ u))

/-- the parameter is a bound, and another bound of the same side but of the other kind was given before -/
def OtherKind (before : List Param) (p : Param) : Prop :=
  ∃ q ∈ before, q.name ≠ p.name ∧ ((p.isLower = true ∧ q.isLower = true) ∨ (p.isUpper = true ∧ q.isUpper = true))

/-- the objections to a parameter of a type with range facets whose bounds are read by `Val`; `digits`: the type has
`fractionDigits` and `totalDigits` -/
inductive RangeObjection {T : Type} [LE T] [LT T] (x : Ext) (Val : Str → T → Prop) (unread : FacetErr) (digits : Bool)
    (before : List Param) (p : Param) : Option FacetErr → Prop
  | unknown : p.isLower = false → p.isUpper = false → p.name ≠ "pattern".toList → (digits = true → p.isDigits = false) →
      RangeObjection x Val unread digits before p (some .invalidFacet)
  | unreadable : p.isLower = true ∨ p.isUpper = true → (∀ v, ¬ Val p.value v) → RangeObjection x Val unread digits before p (some unread)
  | notDigits : digits = true → p.isDigits = true → (∀ n : Nat, UNumeral p.value n → 65535 < n) →
      RangeObjection x Val unread digits before p (some .invalidInt)
  | badPattern : p.name = "pattern".toList → x.reNew p.value = false → RangeObjection x Val unread digits before p (some .invalidPattern)
  | clash : Contradicts Val before p → RangeObjection x Val unread digits before p (some .conflicting)
  | otherKind {v} : Val p.value v → OtherKind before p → RangeObjection x Val unread digits before p (some .conflicting)
  | repeated {v q} : Val p.value v → ¬ Contradicts Val before p → p.isLower = true ∨ p.isUpper = true → q ∈ before → q.name = p.name →
      RangeObjection x Val unread digits before p none

/-- the objections to a parameter of a type with length facets; `patterns`: the type has `pattern` too -/
inductive LengthObjection (x : Ext) (patterns : Bool) (before : List Param) (p : Param) : Option FacetErr → Prop
  | unknown : p.isLen = false → (patterns = true → p.name ≠ "pattern".toList) → LengthObjection x patterns before p (some .invalidFacet)
  | unreadable : p.isLen = true → (∀ n : Nat, UNumeral p.value n → 18446744073709551615 < n) →
      LengthObjection x patterns before p (some .invalidInt)
  | badPattern : patterns = true → p.name = "pattern".toList → x.reNew p.value = false →
      LengthObjection x patterns before p (some .invalidPattern)
  /-- after `minLength`, only a `maxLength` that is not less -/
  | afterMin {n : Nat} {q : Param} : p.isLen = true → UNumeral p.value n → n ≤ 18446744073709551615 →
      q ∈ before → q.name = "minLength".toList → (∀ q' ∈ before, q'.isLen = true → q'.name = "minLength".toList) →
      (p.name = "maxLength".toList → ∃ m : Nat, UNumeral q.value m ∧ n < m) →
      LengthObjection x patterns before p (some .conflicting)
  /-- after `length` or `maxLength`, nothing -/
  | afterOther {n : Nat} {q : Param} : p.isLen = true → UNumeral p.value n → n ≤ 18446744073709551615 →
      q ∈ before → q.isLen = true → q.name ≠ "minLength".toList → LengthObjection x patterns before p none

/-- the objections to a parameter of a type with `pattern` only -/
inductive PatternObjection (x : Ext) (p : Param) : Option FacetErr → Prop
  | unknown : p.name ≠ "pattern".toList → PatternObjection x p (some .invalidFacet)
  | badPattern : p.name = "pattern".toList → x.reNew p.value = false → PatternObjection x p (some .invalidPattern)

/-- the types of the XML Schema library that are supported, and the objections to their parameters -/
inductive TypeRule (x : Ext) : Str → (List Param → Param → Option FacetErr → Prop) → Prop
  | integer {name Val} : IntType name Val → TypeRule x name (RangeObjection x Val .invalidInt false)
  | decimal : TypeRule x "decimal".toList (RangeObjection x (DecVal x) .invalidInt true)
  | double : TypeRule x "double".toList (RangeObjection (T := Rat) x (fun s v => x.parseF64 s = some (some v)) .invalidFloat false)
  | string {name} : name ∈ ["string".toList, "normalizedString".toList] → TypeRule x name (LengthObjection x true)
  | name {name} : name ∈ ["NCName".toList, "NMTOKEN".toList, "NMTOKENS".toList, "token".toList] →
      TypeRule x name (LengthObjection x false)
  | other {name} : name ∈ ["duration".toList, "date".toList, "dateTime".toList, "anyURI".toList, "language".toList,
      "boolean".toList, "ID".toList, "IDREF".toList] → TypeRule x name (fun _ => PatternObjection x)

/-- nothing is objected to any of the parameters -/
def Unobjected (Obj : List Param → Param → Option FacetErr → Prop) (ps : List Param) : Prop :=
  ∀ before p after, ps = before ++ p :: after → ∀ o, ¬ Obj before p o

/-- the first parameter that is objected to is objected to with `o` -/
def FirstObjection (Obj : List Param → Param → Option FacetErr → Prop) (ps : List Param) (o : Option FacetErr) : Prop :=
  ∃ before p after, ps = before ++ p :: after ∧ Unobjected Obj before ∧ Obj before p o

end Verif
