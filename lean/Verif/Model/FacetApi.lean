import Verif.Model.Datatype
/-
The public accessors of compiled facets: relaxng-model/src/datatype/xsd.rs ("X:n"), used by callers of
`Compiler::compile` who look into the compiled model (code generators).
-/
namespace Verif

/-- The Rust type that holds the bounds of an integer type: its least and greatest value, if it has such.
`i16`, `u16`, `i32`, `u32`, `i64`, `u64`, `BigInt` (no limits), `BigUint` (no greatest value). -/
structure Machine where
  lo : Option Int
  hi : Option Int
  deriving DecidableEq, Repr

/-- the bounds of an integer type and the Rust type that holds them, X:39-69 -/
def XsdDatatype.intFacet : XsdDatatype → Option (MinMax Int × Machine)
  | .short m _ => some (m, ⟨some (-0x8000), some 0x7fff⟩)
  | .unsignedShort m _ => some (m, ⟨some 0, some 0xffff⟩)
  | .int m _ => some (m, ⟨some (-0x80000000), some 0x7fffffff⟩)
  | .unsignedInt m _ => some (m, ⟨some 0, some 0xffffffff⟩)
  | .long m _ => some (m, ⟨some (-0x8000000000000000), some 0x7fffffffffffffff⟩)
  | .unsignedLong m _ => some (m, ⟨some 0, some 0xffffffffffffffff⟩)
  | .integer m _ => some (m, ⟨none, none⟩)
  | .positiveInteger m _ => some (m, ⟨some 0, none⟩)
  | _ => none

/-- `v + T::from(1)`: a panic on overflow (in builds without overflow checks the machine types wrap around) -/
def Machine.succ (t : Machine) (v : Int) : Res Unit Int :=
  match t.hi with
  | some h => if v + 1 ≤ h then .ok (v + 1) else .panic
  | none => .ok (v + 1)

/-- `v - T::from(1)`; `BigUint` panics below zero -/
def Machine.pred (t : Machine) (v : Int) : Res Unit Int :=
  match t.lo with
  | some l => if l ≤ v - 1 then .ok (v - 1) else .panic
  | none => .ok (v - 1)

/-- X:357-363 `MinMaxFacet::min` and X:385-391 `min_cloned` -/
def MinMax.minVal (m : MinMax Int) (t : Machine) : Res Unit (Option Int) :=
  match m.min with
  | .unbounded => .ok none
  | .inclusive v => .ok (some v)
  | .exclusive v => (t.succ v).bind fun w => .ok (some w)

/-- X:371-377 `MinMaxFacet::max` and X:399-405 `max_cloned` -/
def MinMax.maxVal (m : MinMax Int) (t : Machine) : Res Unit (Option Int) :=
  match m.max with
  | .unbounded => .ok none
  | .inclusive v => .ok (some v)
  | .exclusive v => (t.pred v).bind fun w => .ok (some w)

/-- X:385-391 `min_cloned` of a decimal -/
def MinMax.minDec (m : MinMax Rat) : Option Rat :=
  match m.min with
  | .unbounded => none
  | .inclusive v => some v
  | .exclusive v => some (v + 1)

/-- X:399-405 `max_cloned` of a decimal -/
def MinMax.maxDec (m : MinMax Rat) : Option Rat :=
  match m.max with
  | .unbounded => none
  | .inclusive v => some v
  | .exclusive v => some (v - 1)

/-- X:412-414 `MinMaxFacet::bounded` -/
def MinMax.bounded {T : Type} (m : MinMax T) : Bool :=
  match m.min, m.max with
  | .unbounded, .unbounded => false
  | _, _ => true

/-- the facets of a string type, X:39-69 -/
def XsdDatatype.stringFacets : XsdDatatype → Option StringFacets
  | .string f => some f
  | .normalizedString f => some f
  | _ => none

/-- X:203-205 `StringFacets::bounded` -/
def StringFacets.bounded (f : StringFacets) : Bool :=
  match f.len with
  | .unbounded => false
  | _ => true

/-- X:207-215 `StringFacets::min_len` -/
def StringFacets.minLen (f : StringFacets) : Option Nat :=
  match f.len with
  | .unbounded => none
  | .minLength min => some min
  | .maxLength _ => none
  | .minMaxLength min _ => some min
  | .length len => some len

/-- X:217-225 `StringFacets::max_len` -/
def StringFacets.maxLen (f : StringFacets) : Option Nat :=
  match f.len with
  | .unbounded => none
  | .minLength _ => none
  | .maxLength max => some max
  | .minMaxLength _ max => some max
  | .length len => some len

/-- X:227-229 `StringFacets::regex`: the source text of the expression -/
def StringFacets.regex (f : StringFacets) : Option Str := f.pattern

end Verif
