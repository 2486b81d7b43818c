import Verif.Model.Datatype
/-
The datatypes as they are held in memory, with the two parts that `Model/Datatype` replaces by what they mean: a `pattern` facet
is its source text together with the compiled regular expression (X:539), and a decimal is an integer with a scale.  Equality and
hashing, which the validator's pattern table uses (V:78 `HashMap<Pat, PatId>`), are modelled function by function: `derive(PartialEq,
Hash)` compares and hashes the fields in order, except for `PatternFacet`, whose `eq` and `hash` (X:540-550) look at the source text
only.  "X:n" cites relaxng-model/src/datatype/xsd.rs, "T:n" mod.rs.  `DatatypeValues` and the built-in types hold only strings and
are the same here as in `Model/Datatype`.
-/
namespace Verif.Held

/-- X:539 `PatternFacet(String, regex::Regex)`; of a compiled expression only what it matches can be seen. -/
structure Pattern where
  src : Str
  re : Str → Bool

/-- X:540-544 `PartialEq for PatternFacet`: only the text is compared. -/
def Pattern.eq (a b : Pattern) : Bool := a.src == b.src

/-- X:557-560 `PatternFacet::is_valid`, and `p.1.is_match(value)` elsewhere. -/
def Pattern.isValid (p : Pattern) (value : Str) : Bool := p.re value

/-- `bigdecimal::BigDecimal`: `digits · 10^(-scale)`. -/
structure Dec where
  digits : Int
  scale : Nat

/-- the number -/
def Dec.value (d : Dec) : Rat := (d.digits : Rat) / ((10 ^ d.scale : Nat) : Rat)

/-- crate bigdecimal, `PartialEq`: the numbers are compared, so that 1.0 and 1.00 are equal. -/
def Dec.eq (a b : Dec) : Bool := a.value == b.value

/-- crate bigdecimal, `PartialOrd`. -/
instance : LE Dec := ⟨fun a b => a.value ≤ b.value⟩
instance : LT Dec := ⟨fun a b => a.value < b.value⟩
instance : DecidableRel (α := Dec) (· ≤ ·) := fun a b => inferInstanceAs (Decidable (a.value ≤ b.value))
instance : DecidableRel (α := Dec) (· < ·) := fun a b => inferInstanceAs (Decidable (a.value < b.value))

/-- X:308-313, X:323-328: the derived `PartialEq` of `Min` and `Max`. -/
def boundEq {T : Type} (eq : T → T → Bool) : Bound T → Bound T → Bool
  | .unbounded, .unbounded => true
  | .inclusive a, .inclusive b => eq a b
  | .exclusive a, .exclusive b => eq a b
  | _, _ => false

/-- X:338-342: the derived `PartialEq` of `MinMaxFacet`. -/
def minMaxEq {T : Type} (eq : T → T → Bool) (a b : MinMax T) : Bool := boundEq eq a.min b.min && boundEq eq a.max b.max

/-- `PartialEq` of `Option` -/
def optEq {T : Type} (eq : T → T → Bool) : Option T → Option T → Bool
  | none, none => true
  | some a, some b => eq a b
  | _, _ => false

/-- X:256-263: the derived `PartialEq` of `LengthFacet`. -/
def lengthEq : LengthFacet → LengthFacet → Bool
  | .unbounded, .unbounded => true
  | .minLength a, .minLength b => a == b
  | .maxLength a, .maxLength b => a == b
  | .minMaxLength a b, .minMaxLength c d => a == c && b == d
  | .length a, .length b => a == b
  | _, _ => false

/-- X:189-192 `StringFacets`. -/
structure Strings where
  len : LengthFacet
  pattern : Option Pattern

/-- X:188: its derived `PartialEq`. -/
def Strings.eq (a b : Strings) : Bool := lengthEq a.len b.len && optEq Pattern.eq a.pattern b.pattern

/-- X:39-69 `XsdDatatypes`; machine integers are integers. -/
inductive Xsd where
  | normalizedString (f : Strings)
  | string (f : Strings)
  | short (m : MinMax Int) (p : Option Pattern)
  | unsignedShort (m : MinMax Int) (p : Option Pattern)
  | long (m : MinMax Int) (p : Option Pattern)
  | int (m : MinMax Int) (p : Option Pattern)
  | integer (m : MinMax Int) (p : Option Pattern)
  | positiveInteger (m : MinMax Int) (p : Option Pattern)
  | unsignedInt (m : MinMax Int) (p : Option Pattern)
  | unsignedLong (m : MinMax Int) (p : Option Pattern)
  | decimal (m : MinMax Dec) (p : Option Pattern) (fractionDigits totalDigits : Option Nat)
  | double (p : Option Pattern)
  | nmTokens (l : LengthFacet)
  | nmToken (l : LengthFacet)
  | ncName (l : LengthFacet)
  | token (l : LengthFacet)
  | duration (p : Option Pattern)
  | date (p : Option Pattern)
  | datetime (p : Option Pattern)
  | anyURI (p : Option Pattern)
  | language (p : Option Pattern)
  | boolean (p : Option Pattern)
  | id (p : Option Pattern)
  | idRef (p : Option Pattern)

/-- the fields of the ten numeric types -/
def numEq (m : MinMax Int) (p : Option Pattern) (m' : MinMax Int) (p' : Option Pattern) : Bool :=
  minMaxEq (· == ·) m m' && optEq Pattern.eq p p'

/-- X:38: the derived `PartialEq` of `XsdDatatypes`: the same variant, and equal fields. -/
def Xsd.eq : Xsd → Xsd → Bool
  | .normalizedString f, .normalizedString g => f.eq g
  | .string f, .string g => f.eq g
  | .short m p, .short m' p' => numEq m p m' p'
  | .unsignedShort m p, .unsignedShort m' p' => numEq m p m' p'
  | .long m p, .long m' p' => numEq m p m' p'
  | .int m p, .int m' p' => numEq m p m' p'
  | .integer m p, .integer m' p' => numEq m p m' p'
  | .positiveInteger m p, .positiveInteger m' p' => numEq m p m' p'
  | .unsignedInt m p, .unsignedInt m' p' => numEq m p m' p'
  | .unsignedLong m p, .unsignedLong m' p' => numEq m p m' p'
  | .decimal m p fd td, .decimal m' p' fd' td' =>
    minMaxEq Dec.eq m m' && optEq Pattern.eq p p' && optEq (· == ·) fd fd' && optEq (· == ·) td td'
  | .double p, .double p' => optEq Pattern.eq p p'
  | .nmTokens l, .nmTokens l' => lengthEq l l'
  | .nmToken l, .nmToken l' => lengthEq l l'
  | .ncName l, .ncName l' => lengthEq l l'
  | .token l, .token l' => lengthEq l l'
  | .duration p, .duration p' => optEq Pattern.eq p p'
  | .date p, .date p' => optEq Pattern.eq p p'
  | .datetime p, .datetime p' => optEq Pattern.eq p p'
  | .anyURI p, .anyURI p' => optEq Pattern.eq p p'
  | .language p, .language p' => optEq Pattern.eq p p'
  | .boolean p, .boolean p' => optEq Pattern.eq p p'
  | .id p, .id p' => optEq Pattern.eq p p'
  | .idRef p, .idRef p' => optEq Pattern.eq p p'
  | _, _ => false

/-- T:52-55 `Datatypes`. -/
inductive Types where
  | relax (d : BuiltinDatatype)
  | xsd (d : Xsd)

/-- T:51: its derived `PartialEq`. -/
def Types.eq : Types → Types → Bool
  | .relax a, .relax b => a == b
  | .xsd a, .xsd b => a.eq b
  | _, _ => false

/-! ### acceptance -/

section
variable (x : Ext) (parseDec : Str → Option Dec)

/-- `patt.as_ref().map(|p| p.1.is_match(value)).unwrap_or(true)` -/
def patOk (p : Option Pattern) (value : Str) : Bool :=
  match p with
  | some p => p.isValid value
  | none => true

/-- X:194-201 `StringFacets::is_valid`. -/
def Strings.isValid (f : Strings) (value : Str) : Bool := f.len.isValid value && patOk f.pattern value

/-- `value.parse().ok().is_some_and(|v| min_max.is_valid(&v)) && pattern` -/
def numOk {T : Type} [LE T] [LT T] [DecidableRel (α := T) (· ≤ ·)] [DecidableRel (α := T) (· < ·)]
    (v : Option T) (m : MinMax T) (p : Option Pattern) (value : Str) : Bool :=
  (match v with
    | some v => m.isValid v
    | none => false) && patOk p value

/-- X:70-179 `XsdDatatypes::is_valid`; `none` is `unimplemented!()`.  Of `x` only dates, floats, URIs and digits are used:
decimals are read by `parseDec`, and every pattern brings its own compiled expression. -/
def Xsd.isValid (d : Xsd) (value : Str) : Option Bool :=
  match d with
  | .normalizedString f => some (f.isValid (normalizeWs value))
  | .string f => some (f.isValid value)
  | .short m p => some (numOk (parseS 0x8000 0x7fff value) m p value)
  | .unsignedShort m p => some (numOk (parseUI 0xffff value) m p value)
  | .long m p => some (numOk (parseS 0x8000000000000000 0x7fffffffffffffff value) m p value)
  | .int m p => some (numOk (parseS 0x80000000 0x7fffffff value) m p value)
  | .integer m p => some (numOk (parseBigInt value) m p value)
  | .positiveInteger m p => some (numOk ((parseBigUint value).map fun (n : Nat) => (n : Int)) m p value)
  | .decimal m p _ _ => some (numOk (parseDec value) m p value)
  | .nmTokens _ => none
  | .nmToken _ => none
  | .ncName l => some (l.isValid value && isValidNcname value)
  | .token _ => none
  | .duration p => some ((durationRe x).isMatch value && patOk p value)
  | .date p => some (x.isDate value && patOk p value)
  | .datetime p => some ((datetimeRe x).isMatch value && patOk p value)
  | .double p => some ((x.parseF64 value).isSome && patOk p value)
  | .anyURI p => some (x.isUri value && patOk p value)
  | .language p => some (langRe.isMatch value && patOk p value)
  | .boolean p => some ((value == "true".toList || value == "false".toList || value == "1".toList ||
      value == "0".toList) && patOk p value)
  | .unsignedInt m p => some (numOk (parseUI 0xffffffff value) m p value)
  | .unsignedLong m p => some (numOk (parseUI 0xffffffffffffffff value) m p value)
  | .id p => some (patOk p value)
  | .idRef p => some (patOk p value)

/-- T:57-62. -/
def Types.isValid (d : Types) (value : Str) : Option Bool :=
  match d with
  | .relax d => some (d.isValid value)
  | .xsd d => d.isValid x parseDec value
end

/-! ### hashing -/

/-- What `derive(Hash)` and the hand-written `hash` hand to the hasher, in order: the number of a variant, numbers, texts. -/
inductive Fed where
  | variant (n : Nat)
  | int (i : Int)
  | text (s : Str)
  deriving DecidableEq, Repr

section
variable (decHash : Dec → List Fed)

/-- X:546-550 `Hash for PatternFacet`: only the text. -/
def Pattern.hash (p : Pattern) : List Fed := [.text p.src]

/-- `Hash` of `Option` -/
def optHash {T : Type} (h : T → List Fed) : Option T → List Fed
  | none => [.variant 0]
  | some a => .variant 1 :: h a

/-- X:308-313, X:323-328 -/
def boundHash {T : Type} (h : T → List Fed) : Bound T → List Fed
  | .unbounded => [.variant 0]
  | .inclusive a => .variant 1 :: h a
  | .exclusive a => .variant 2 :: h a

/-- X:338-342 -/
def minMaxHash {T : Type} (h : T → List Fed) (m : MinMax T) : List Fed := boundHash h m.min ++ boundHash h m.max

/-- X:256-263 -/
def lengthHash : LengthFacet → List Fed
  | .unbounded => [.variant 0]
  | .minLength a => [.variant 1, .int a]
  | .maxLength a => [.variant 2, .int a]
  | .minMaxLength a b => [.variant 3, .int a, .int b]
  | .length a => [.variant 4, .int a]

/-- X:188-192 -/
def Strings.hash (f : Strings) : List Fed := lengthHash f.len ++ optHash Pattern.hash f.pattern

/-- the fields of the ten numeric types -/
def numHash (m : MinMax Int) (p : Option Pattern) : List Fed :=
  minMaxHash (fun i => [.int i]) m ++ optHash Pattern.hash p

/-- X:38-69; `decHash` is what crate bigdecimal feeds for a decimal. -/
def Xsd.hash : Xsd → List Fed
  | .normalizedString f => .variant 0 :: f.hash
  | .string f => .variant 1 :: f.hash
  | .short m p => .variant 2 :: numHash m p
  | .unsignedShort m p => .variant 3 :: numHash m p
  | .long m p => .variant 4 :: numHash m p
  | .int m p => .variant 5 :: numHash m p
  | .integer m p => .variant 6 :: numHash m p
  | .positiveInteger m p => .variant 7 :: numHash m p
  | .unsignedInt m p => .variant 8 :: numHash m p
  | .unsignedLong m p => .variant 9 :: numHash m p
  | .decimal m p fd td =>
    .variant 10 :: (minMaxHash decHash m ++ optHash Pattern.hash p ++ optHash (fun n => [.int n]) fd ++
      optHash (fun n => [.int n]) td)
  | .double p => .variant 11 :: optHash Pattern.hash p
  | .nmTokens l => .variant 12 :: lengthHash l
  | .nmToken l => .variant 13 :: lengthHash l
  | .ncName l => .variant 14 :: lengthHash l
  | .token l => .variant 15 :: lengthHash l
  | .duration p => .variant 16 :: optHash Pattern.hash p
  | .date p => .variant 17 :: optHash Pattern.hash p
  | .datetime p => .variant 18 :: optHash Pattern.hash p
  | .anyURI p => .variant 19 :: optHash Pattern.hash p
  | .language p => .variant 20 :: optHash Pattern.hash p
  | .boolean p => .variant 21 :: optHash Pattern.hash p
  | .id p => .variant 22 :: optHash Pattern.hash p
  | .idRef p => .variant 23 :: optHash Pattern.hash p

/-- T:51-55 -/
def Types.hash : Types → List Fed
  | .relax d => [.variant 0, .variant (match d with | .token => 0 | .string => 1)]
  | .xsd d => .variant 1 :: d.hash decHash
end

/-! ### how they come about, and what `Model/Datatype` makes of them -/

/-- X:1439-1443 `pattern`, the only place where a `PatternFacet` is made (its fields are private): the expression is compiled from
the text that is stored. -/
def Pattern.new (x : Ext) (src : Str) : Option Pattern := if x.reNew src then some ⟨src, x.reMatch src⟩ else none

/-- the patterns within a datatype -/
def Xsd.patterns : Xsd → Option Pattern
  | .normalizedString f => f.pattern
  | .string f => f.pattern
  | .short _ p => p
  | .unsignedShort _ p => p
  | .long _ p => p
  | .int _ p => p
  | .integer _ p => p
  | .positiveInteger _ p => p
  | .unsignedInt _ p => p
  | .unsignedLong _ p => p
  | .decimal _ p _ _ => p
  | .double p => p
  | .nmTokens _ => none
  | .nmToken _ => none
  | .ncName _ => none
  | .token _ => none
  | .duration p => p
  | .date p => p
  | .datetime p => p
  | .anyURI p => p
  | .language p => p
  | .boolean p => p
  | .id p => p
  | .idRef p => p

/-- A datatype whose pattern, if it has one, was made by `Pattern.new`. -/
def Types.Built (x : Ext) : Types → Prop
  | .relax _ => True
  | .xsd d => ∀ p, d.patterns = some p → ∃ src, Pattern.new x src = some p

/-- a bound on decimals as a bound on rationals -/
def boundPlain : Bound Dec → Bound Rat
  | .unbounded => .unbounded
  | .inclusive d => .inclusive d.value
  | .exclusive d => .exclusive d.value

def minMaxPlain (m : MinMax Dec) : MinMax Rat := ⟨boundPlain m.min, boundPlain m.max⟩

def patPlain (p : Option Pattern) : Option PatternFacet := p.map Pattern.src

def Strings.plain (f : Strings) : StringFacets := ⟨f.len, patPlain f.pattern⟩

/-- What `Model/Datatype` keeps of a datatype. -/
def Xsd.plain : Xsd → XsdDatatype
  | .normalizedString f => .normalizedString f.plain
  | .string f => .string f.plain
  | .short m p => .short m (patPlain p)
  | .unsignedShort m p => .unsignedShort m (patPlain p)
  | .long m p => .long m (patPlain p)
  | .int m p => .int m (patPlain p)
  | .integer m p => .integer m (patPlain p)
  | .positiveInteger m p => .positiveInteger m (patPlain p)
  | .unsignedInt m p => .unsignedInt m (patPlain p)
  | .unsignedLong m p => .unsignedLong m (patPlain p)
  | .decimal m p fd td => .decimal (minMaxPlain m) (patPlain p) fd td
  | .double p => .double (patPlain p)
  | .nmTokens l => .nmTokens l
  | .nmToken l => .nmToken l
  | .ncName l => .ncName l
  | .token l => .token l
  | .duration p => .duration (patPlain p)
  | .date p => .date (patPlain p)
  | .datetime p => .datetime (patPlain p)
  | .anyURI p => .anyURI (patPlain p)
  | .language p => .language (patPlain p)
  | .boolean p => .boolean (patPlain p)
  | .id p => .id (patPlain p)
  | .idRef p => .idRef (patPlain p)

def Types.plain : Types → Datatypes
  | .relax d => .relax d
  | .xsd d => .xsd d.plain

/-! ### the pattern table -/

/-- V:35-53: the derived `PartialEq` of `Pat`, which uses the equality of the datatypes. -/
def patEq : Pat Types DatatypeValues → Pat Types DatatypeValues → Bool
  | .choice a b n, .choice c d m => a == c && b == d && n == m
  | .interleave a b n, .interleave c d m => a == c && b == d && n == m
  | .group a b n, .group c d m => a == c && b == d && n == m
  | .oneOrMore a n, .oneOrMore b m => a == b && n == m
  | .empty, .empty => true
  | .text, .text => true
  | .notAllowed, .notAllowed => true
  | .attr nc a, .attr nd b => nc == nd && a == b
  | .element nc a, .element nd b => nc == nd && a == b
  | .datatype d, .datatype e => d.eq e
  | .datatypeValue v, .datatypeValue w => v == w
  | .datatypeExcept d a, .datatypeExcept e b => d.eq e && a == b
  | .list a, .list b => a == b
  | .placeholder a, .placeholder b => a == b
  | .after a b, .after c d => a == c && b == d
  | _, _ => false

/-- V:77-82 `Inner`, with the datatypes as they are held. -/
structure Table where
  pats : List (Pat Types DatatypeValues)
  memo : List (Pat Types DatatypeValues × Nat)
  refs : List (Nat × Nat)

/-- V:88-101 `Schema::push`: `memo.get(&p)` finds an entry that compares equal. -/
def Table.push (p : Pat Types DatatypeValues) (t : Table) : Except Fault (Nat × Table) :=
  if t.pats.length > 0xffff then .error .capacity
  else match t.memo.find? fun e => patEq e.1 p with
    | some e => .ok (e.2, t)
    | none => .ok (t.pats.length, { t with memo := (p, t.pats.length) :: t.memo, pats := t.pats ++ [p] })

/-- What `Model/Store` keeps of a pattern. -/
def patOf : Pat Types DatatypeValues → Pat Datatypes DatatypeValues
  | .choice a b n => .choice a b n
  | .interleave a b n => .interleave a b n
  | .group a b n => .group a b n
  | .oneOrMore a n => .oneOrMore a n
  | .empty => .empty
  | .text => .text
  | .notAllowed => .notAllowed
  | .attr nc a => .attr nc a
  | .element nc a => .element nc a
  | .datatype d => .datatype d.plain
  | .datatypeValue v => .datatypeValue v
  | .datatypeExcept d a => .datatypeExcept d.plain a
  | .list a => .list a
  | .placeholder a => .placeholder a
  | .after a b => .after a b

def Table.plain (t : Table) : Store Datatypes DatatypeValues :=
  ⟨t.pats.map patOf, t.memo.map fun e => (patOf e.1, e.2), t.refs⟩

end Verif.Held
