import Verif.Model.Lex
import Verif.Model.Regex
import Verif.Model.Entities
import Verif.Model.Store
/-
The datatype libraries: relaxng-model/src/datatype/{mod,relax,xsd}.rs.  "X:n" cites xsd.rs, "R:n" relax.rs,
"T:n" mod.rs.  Source positions and error texts are dropped.
-/
namespace Verif

/-- Rust `Result` plus panics. -/
inductive Res (ε α : Type) where
  | ok (a : α)
  | err (e : ε)
  | panic
  deriving DecidableEq, Repr

namespace Res
variable {ε α β : Type}
def bind (x : Res ε α) (f : α → Res ε β) : Res ε β :=
  match x with
  | .ok a => f a
  | .err e => .err e
  | .panic => .panic
instance : Monad (Res ε) where
  pure := .ok
  bind := Res.bind

@[simp] theorem pure_def (a : α) : (Pure.pure a : Res ε α) = .ok a := rfl
@[simp] theorem bind_def (x : Res ε α) (f : α → Res ε β) : (x >>= f) = x.bind f := rfl
@[simp] theorem bind_ok (a : α) (f : α → Res ε β) : (Res.ok a).bind f = f a := rfl
@[simp] theorem bind_err (e : ε) (f : α → Res ε β) : (Res.err e : Res ε α).bind f = .err e := rfl
@[simp] theorem bind_panic (f : α → Res ε β) : (Res.panic : Res ε α).bind f = .panic := rfl
end Res

/-- The parts of the datatype code that other crates implement; nothing is assumed about them.
`reNew`/`reMatch`: crate regex, `Regex::new(src).is_ok()` and `is_match` for user-written patterns;
`parseDec`: crate bigdecimal; `parseF64`: std, `some none` is an infinity or NaN; `isDate`: crate chrono;
`isUri`: crate uriparse; `isNd`: the class `\d` (Unicode decimal digits).  Exact decimals and finite
floats are rationals. -/
structure Ext where
  reNew : Str → Bool
  reMatch : Str → Str → Bool
  parseDec : Str → Option Rat
  parseF64 : Str → Option (Option Rat)
  isDate : Str → Bool
  isUri : Str → Bool
  isNd : Char → Bool

/-! ### white space -/

/-- Rust `char::is_ascii_whitespace`. -/
def isAsciiWs (c : Char) : Bool := c == ' ' || c == '\t' || c == '\n' || c == '\x0C' || c == '\r'

/-- R:13-23 the loop of `normalize_whitespace`; `lastSpace` is the flag, the result is what is pushed. -/
def normGo : Bool → Str → Str
  | _, [] => []
  | lastSpace, c :: cs =>
    if isAsciiWs c then normGo true cs
    else if lastSpace then ' ' :: c :: normGo false cs
    else c :: normGo false cs

/-- R:9-25 `normalize_whitespace`. -/
def normalizeWs (s : Str) : Str := normGo false (s.dropWhile isAsciiWs)

/-! ### numbers -/

/-- Rust std `iN::from_str` (`from_str_radix` 10): optional sign, digits, no overflow.
A '-' makes the digits accumulate downwards from 0. -/
def parseS (min max : Nat) (s : Str) : Option Int :=
  match s with
  | [] => none
  | '-' :: [] => none
  | '+' :: [] => none
  | '-' :: cs => (digitsGo 10 min cs 0).map fun (n : Nat) => -(n : Int)
  | '+' :: cs => (digitsGo 10 max cs 0).map fun (n : Nat) => (n : Int)
  | cs => (digitsGo 10 max cs 0).map fun (n : Nat) => (n : Int)

/-- crate num-bigint `BigUint::from_str_radix` on the digits: '_' is skipped. -/
def bigDigits : Str → Nat → Option Nat
  | [], acc => some acc
  | c :: cs, acc =>
    if c = '_' then bigDigits cs acc
    else match toDigit 10 c with
      | none => none
      | some d => bigDigits cs (acc * 10 + d)

/-- crate num-bigint `BigUint::from_str`, after the sign: a digit first. -/
def bigUnsigned (s : Str) : Option Nat :=
  match s with
  | [] => none
  | '_' :: _ => none
  | cs => bigDigits cs 0

/-- crate num-bigint `BigUint::from_str`: one optional '+'. -/
def parseBigUint (s : Str) : Option Nat :=
  match s with
  | '+' :: tail => bigUnsigned (if tail.head? = some '+' then s else tail)
  | _ => bigUnsigned s

/-- crate num-bigint `BigInt::from_str`. -/
def parseBigInt (s : Str) : Option Int :=
  match s with
  | '-' :: tail =>
    (parseBigUint (if tail.head? = some '+' then s else tail)).map fun (n : Nat) => -(n : Int)
  | _ => (parseBigUint s).map fun (n : Nat) => (n : Int)

/-! ### facets -/

/-- X:248-254 `FacetError`. -/
inductive FacetErr where
  | conflicting
  | invalidInt
  | invalidFloat
  | invalidPattern
  | invalidFacet
  deriving DecidableEq, Repr

/-- X:257-263 `LengthFacet`. -/
inductive LengthFacet where
  | unbounded
  | minLength (min : Nat)
  | maxLength (max : Nat)
  | minMaxLength (min max : Nat)
  | length (len : Nat)
  deriving DecidableEq, Repr

/-- X:265-274 `LengthFacet::is_valid`. -/
def LengthFacet.isValid (f : LengthFacet) (value : Str) : Bool :=
  match f with
  | .unbounded => true
  | .minLength min => min ≤ value.length
  | .maxLength max => value.length ≤ max
  | .minMaxLength min max => min ≤ value.length && value.length ≤ max
  | .length len => value.length == len

/-- X:276-305 `LengthFacet::merge`. -/
def LengthFacet.merge (f other : LengthFacet) : Res FacetErr LengthFacet :=
  match f with
  | .unbounded => .ok other
  | .minLength min =>
    match other with
    | .unbounded => .panic
    | .minMaxLength _ _ => .panic
    | .minLength _ => .err .conflicting
    | .maxLength max => if min > max then .err .conflicting else .ok (.minMaxLength min max)
    | .length _ => .err .conflicting
  | .maxLength _ => .panic
  | .minMaxLength _ _ => .panic
  | .length _ => .panic

/-- X:309-313, X:324-328: `Min` and `Max` are the same enum. -/
inductive Bound (T : Type) where
  | unbounded
  | inclusive (v : T)
  | exclusive (v : T)
  deriving DecidableEq, Repr

/-- X:339-350 `MinMaxFacet` and its default. -/
structure MinMax (T : Type) where
  min : Bound T := .unbounded
  max : Bound T := .unbounded
  deriving DecidableEq, Repr

section
variable {T : Type} [LE T] [LT T] [DecidableRel (α := T) (· ≤ ·)] [DecidableRel (α := T) (· < ·)]

/-- X:315-321 `Min::is_valid`. -/
def Bound.minValid (b : Bound T) (v : T) : Bool :=
  match b with
  | .unbounded => true
  | .inclusive m => decide (m ≤ v)
  | .exclusive m => decide (m < v)

/-- X:330-336 `Max::is_valid`. -/
def Bound.maxValid (b : Bound T) (v : T) : Bool :=
  match b with
  | .unbounded => true
  | .inclusive m => decide (v ≤ m)
  | .exclusive m => decide (v < m)

/-- X:533-535 `MinMaxFacet::is_valid`. -/
def MinMax.isValid (f : MinMax T) (v : T) : Bool := f.min.minValid v && f.max.maxValid v

/-- X:417-433 and X:446-462: does a new lower bound `val` conflict with the upper one? -/
def MinMax.minConflict (f : MinMax T) (val : T) : Bool :=
  match f.max with
  | .unbounded => false
  | .inclusive max => decide (max < val)
  | .exclusive max => decide (max ≤ val)

/-- X:475-491 and X:504-520: does a new upper bound `val` conflict with the lower one? -/
def MinMax.maxConflict (f : MinMax T) (val : T) : Bool :=
  match f.min with
  | .unbounded => false
  | .inclusive min => decide (val < min)
  | .exclusive min => decide (val ≤ min)

/-- X:416-444 `min_inclusive`. -/
def MinMax.minInclusive (f : MinMax T) (val : T) : Res FacetErr (MinMax T) :=
  if f.minConflict val then .err .conflicting
  else match f.min with
    | .unbounded => .ok { f with min := .inclusive val }
    | .inclusive _ => .panic
    | .exclusive _ => .err .conflicting

/-- X:445-473 `min_exclusive`. -/
def MinMax.minExclusive (f : MinMax T) (val : T) : Res FacetErr (MinMax T) :=
  if f.minConflict val then .err .conflicting
  else match f.min with
    | .unbounded => .ok { f with min := .exclusive val }
    | .inclusive _ => .err .conflicting
    | .exclusive _ => .panic

/-- X:474-502 `max_inclusive`. -/
def MinMax.maxInclusive (f : MinMax T) (val : T) : Res FacetErr (MinMax T) :=
  if f.maxConflict val then .err .conflicting
  else match f.max with
    | .unbounded => .ok { f with max := .inclusive val }
    | .inclusive _ => .panic
    | .exclusive _ => .err .conflicting

/-- X:503-531 `max_exclusive`. -/
def MinMax.maxExclusive (f : MinMax T) (val : T) : Res FacetErr (MinMax T) :=
  if f.maxConflict val then .err .conflicting
  else match f.max with
    | .unbounded => .ok { f with max := .exclusive val }
    | .inclusive _ => .err .conflicting
    | .exclusive _ => .panic
end

/-! ### the datatypes -/

/-- X:539 `PatternFacet`: the source text; the compiled expression is `Ext.reMatch src`. -/
abbrev PatternFacet := Str

/-- X:189-192 `StringFacets`. -/
structure StringFacets where
  len : LengthFacet
  pattern : Option PatternFacet
  deriving DecidableEq, Repr

/-- X:39-69 `XsdDatatypes`; machine integers are integers. -/
inductive XsdDatatype where
  | normalizedString (f : StringFacets)
  | string (f : StringFacets)
  | short (m : MinMax Int) (p : Option PatternFacet)
  | unsignedShort (m : MinMax Int) (p : Option PatternFacet)
  | long (m : MinMax Int) (p : Option PatternFacet)
  | int (m : MinMax Int) (p : Option PatternFacet)
  | integer (m : MinMax Int) (p : Option PatternFacet)
  | positiveInteger (m : MinMax Int) (p : Option PatternFacet)
  | unsignedInt (m : MinMax Int) (p : Option PatternFacet)
  | unsignedLong (m : MinMax Int) (p : Option PatternFacet)
  | decimal (m : MinMax Rat) (p : Option PatternFacet) (fractionDigits totalDigits : Option Nat)
  | double (p : Option PatternFacet)
  | nmTokens (l : LengthFacet)
  | nmToken (l : LengthFacet)
  | ncName (l : LengthFacet)
  | token (l : LengthFacet)
  | duration (p : Option PatternFacet)
  | date (p : Option PatternFacet)
  | datetime (p : Option PatternFacet)
  | anyURI (p : Option PatternFacet)
  | language (p : Option PatternFacet)
  | boolean (p : Option PatternFacet)
  | id (p : Option PatternFacet)
  | idRef (p : Option PatternFacet)
  deriving DecidableEq

section
variable (x : Ext)

/-- `patt.as_ref().map(|p| p.1.is_match(value)).unwrap_or(true)` -/
def patOk (p : Option PatternFacet) (value : Str) : Bool :=
  match p with
  | some src => x.reMatch src value
  | none => true

/-- X:194-201 `StringFacets::is_valid`. -/
def StringFacets.isValid (f : StringFacets) (value : Str) : Bool := f.len.isValid value && patOk x f.pattern value

/-- X:181-186 `is_valid_ncname`. -/
def isValidNcname (text : Str) : Bool :=
  match ncName text with
  | some (_, rest) => rest.isEmpty
  | none => false

/-- `u16::from_str` and friends, as an integer. -/
def parseUI (max : Nat) (s : Str) : Option Int := (parseU 10 max s).map fun (n : Nat) => (n : Int)

/-- `value.parse().ok().is_some_and(|v| min_max.is_valid(&v)) && pattern` -/
def numOk {T : Type} [LE T] [LT T] [DecidableRel (α := T) (· ≤ ·)] [DecidableRel (α := T) (· < ·)]
    (v : Option T) (m : MinMax T) (p : Option PatternFacet) (value : Str) : Bool :=
  (match v with
    | some v => m.isValid v
    | none => false) && patOk x p value

/-- the class `[a-zA-Z]` -/
def isAlpha (c : Char) : Bool := inR 0x61 0x7A c || inR 0x41 0x5A c
/-- the class `[0-9]` -/
def isDig (c : Char) : Bool := inR 0x30 0x39 c
/-- the class `[a-zA-Z0-9]` -/
def isAlnum (c : Char) : Bool := isAlpha c || isDig c

/-- X:32 `LANG_RE`: `^[a-zA-Z]{1,8}(-[a-zA-Z0-9]{1,8})*$`. -/
def langRe : Re :=
  .seqs [.bol, .cls isAlpha, .upTo (.cls isAlpha) 7,
    .star (.seqs [.chr '-', .cls isAlnum, .upTo (.cls isAlnum) 7]), .eol]

/-- X:33 `DATETIME_RE`: `^-?\d{4}-\d{2}-\d{2}T\d{2}:\d{2}:\d{2}(?:Z(?:(?:\+|-)\d{2}:\d{2})?)?$`. -/
def datetimeRe : Re :=
  let d (n : Nat) : Re := .rep (.cls x.isNd) n
  .seqs [.bol, .opt (.chr '-'), d 4, .chr '-', d 2, .chr '-', d 2, .chr 'T', d 2, .chr ':', d 2, .chr ':', d 2,
    .opt (.seq (.chr 'Z') (.opt (.seqs [.alt (.chr '+') (.chr '-'), d 2, .chr ':', d 2]))), .eol]

/-- `([0-9]+([.,][0-9]*)?U)?` -/
def durPart (u : Char) : Re :=
  .opt (.seqs [.plus (.cls isDig), .opt (.seq (.cls (fun c => c == '.' || c == ',')) (.star (.cls isDig))), .chr u])

/-- first alternative of X:34: `^P(..)` -/
def durationReA : Re :=
  .seqs [.bol, .chr 'P', durPart 'Y', durPart 'M', durPart 'D', .opt (.chr 'T'), durPart 'H', durPart 'M', durPart 'S']

/-- second alternative of X:34: `\d{4}-?(0[1-9]|11|12)-?(?:[0-2]\d|30|31)T(..|2400|24:00)$` -/
def durationReB : Re :=
  .seqs [.rep (.cls x.isNd) 4, .opt (.chr '-'),
    .alts [.seq (.chr '0') (.cls (inR 0x31 0x39)), .lit ['1', '1'], .lit ['1', '2']], .opt (.chr '-'),
    .alts [.seq (.cls (inR 0x30 0x32)) (.cls x.isNd), .lit ['3', '0'], .lit ['3', '1']], .chr 'T',
    .alts [
      .seqs [.alts [.seq (.cls (inR 0x30 0x31)) (.cls isDig), .seq (.chr '2') (.cls (inR 0x30 0x33))], .opt (.chr ':'),
        .seq (.cls (inR 0x30 0x35)) (.cls isDig), .opt (.chr ':'),
        .alts [.seq (.cls (inR 0x30 0x35)) (.cls isDig), .lit ['6', '0']]],
      .lit ['2', '4', '0', '0'], .lit ['2', '4', ':', '0', '0']], .eol]

/-- X:34 `DURATION_RE`: alternation binds weaker than the anchors, so `^` belongs to the first alternative
and `$` to the second. -/
def durationRe : Re := .alt durationReA (durationReB x)

/-- X:70-179 `XsdDatatypes::is_valid`; `none` is `unimplemented!()`. -/
def XsdDatatype.isValid (d : XsdDatatype) (value : Str) : Option Bool :=
  match d with
  | .normalizedString f => some (f.isValid x (normalizeWs value))
  | .string f => some (f.isValid x value)
  | .short m p => some (numOk x (parseS 0x8000 0x7fff value) m p value)
  | .unsignedShort m p => some (numOk x (parseUI 0xffff value) m p value)
  | .long m p => some (numOk x (parseS 0x8000000000000000 0x7fffffffffffffff value) m p value)
  | .int m p => some (numOk x (parseS 0x80000000 0x7fffffff value) m p value)
  | .integer m p => some (numOk x (parseBigInt value) m p value)
  | .positiveInteger m p => some (numOk x ((parseBigUint value).map fun (n : Nat) => (n : Int)) m p value)
  | .decimal m p _ _ => some (numOk x (x.parseDec value) m p value)
  | .nmTokens _ => none
  | .nmToken _ => none
  | .ncName l => some (l.isValid value && isValidNcname value)
  | .token _ => none
  | .duration p => some ((durationRe x).isMatch value && patOk x p value)
  | .date p => some (x.isDate value && patOk x p value)
  | .datetime p => some ((datetimeRe x).isMatch value && patOk x p value)
  | .double p => some ((x.parseF64 value).isSome && patOk x p value)
  | .anyURI p => some (x.isUri value && patOk x p value)
  | .language p => some (langRe.isMatch value && patOk x p value)
  | .boolean p => some ((value == "true".toList || value == "false".toList || value == "1".toList ||
      value == "0".toList) && patOk x p value)
  | .unsignedInt m p => some (numOk x (parseUI 0xffffffff value) m p value)
  | .unsignedLong m p => some (numOk x (parseUI 0xffffffffffffffff value) m p value)
  | .id p => some (patOk x p value)
  | .idRef p => some (patOk x p value)

/-- X:1450-1469 `QNameVal::try_from_val`; the panic is the `unimplemented!` for prefixed names. -/
def qnameVal (val : Str) : Res Unit Str :=
  match splitAtChar ':' val with
  | some (pre, loc) => if isValidNcname pre && isValidNcname loc then .panic else .err ()
  | none => if isValidNcname val then .ok val else .err ()

/-- X:13-17 `XsdDatatypeValues`. -/
inductive XsdValue where
  | string (s : Str)
  | token (s : Str)
  | qname (s : Str)
  deriving DecidableEq, Repr

/-- X:20-28 `XsdDatatypeValues::is_valid`. -/
def XsdValue.isValid (v : XsdValue) (value : Str) : Option Bool :=
  match v with
  | .string s => some (s == value)
  | .token s => some (s == normalizeWs value)
  | .qname s =>
    match qnameVal value with
    | .ok s' => some (s' == s)
    | .err _ => some false
    | .panic => none

/-- R:41-45 `BuiltinDatatype`. -/
inductive BuiltinDatatype where
  | token
  | string
  deriving DecidableEq, Repr

/-- R:47-55. -/
def BuiltinDatatype.isValid (d : BuiltinDatatype) (_value : Str) : Bool :=
  match d with
  | .token => true
  | .string => true

/-- R:28-31 `BuiltinDatatypeValue`. -/
inductive BuiltinValue where
  | token (s : Str)
  | string (s : Str)
  deriving DecidableEq, Repr

/-- R:33-38. -/
def BuiltinValue.isValid (v : BuiltinValue) (value : Str) : Bool :=
  match v with
  | .token s => s == normalizeWs value
  | .string s => s == value

/-- T:52-55 `Datatypes`. -/
inductive Datatypes where
  | relax (d : BuiltinDatatype)
  | xsd (d : XsdDatatype)
  deriving DecidableEq

/-- T:39-42 `DatatypeValues`. -/
inductive DatatypeValues where
  | relax (v : BuiltinValue)
  | xsd (v : XsdValue)
  deriving DecidableEq, Repr

/-- T:57-62. -/
def Datatypes.isValid (d : Datatypes) (value : Str) : Option Bool :=
  match d with
  | .relax d => some (d.isValid value)
  | .xsd d => d.isValid x value

/-- T:44-49. -/
def DatatypeValues.isValid (v : DatatypeValues) (value : Str) : Option Bool :=
  match v with
  | .relax v => some (v.isValid value)
  | .xsd v => v.isValid value

/-- The datatype library the validator is run with. -/
def stdLib : Lib Datatypes DatatypeValues where
  validD := Datatypes.isValid x
  validV := DatatypeValues.isValid

/-! ### compiling datatype names and parameters -/

/-- types.rs `Param`: facet name and the value of its literal. -/
structure Param where
  name : Str
  value : Str
  deriving DecidableEq, Repr

/-- X:1439-1443 `pattern`. -/
def mkPattern (value : Str) : Res FacetErr PatternFacet :=
  if x.reNew value then .ok value else .err .invalidPattern

/-- `.parse().map_err(|e| FacetError::InvalidInt(..))`, X:1316-1437. -/
def orErr {α : Type} (e : FacetErr) : Option α → Res FacetErr α
  | some a => .ok a
  | none => .err e

/-- X:1429-1437 `usize` (64 bits). -/
def parseUsize (s : Str) : Res FacetErr Nat := orErr .invalidInt (parseU 10 0xffffffffffffffff s)

/-- the loop over the parameters of the types with a length, X:793-809 and X:818-834; `withPattern` is
false for the four types without "pattern", X:1038-1116. -/
def lengthParams (withPattern : Bool) : LengthFacet → Option PatternFacet → List Param →
    Res FacetErr (LengthFacet × Option PatternFacet)
  | len, pat, [] => .ok (len, pat)
  | len, pat, p :: ps =>
    if p.name = "length".toList then do
      let n ← parseUsize p.value
      let len ← len.merge (.length n)
      lengthParams withPattern len pat ps
    else if p.name = "minLength".toList then do
      let n ← parseUsize p.value
      let len ← len.merge (.minLength n)
      lengthParams withPattern len pat ps
    else if p.name = "maxLength".toList then do
      let n ← parseUsize p.value
      let len ← len.merge (.maxLength n)
      lengthParams withPattern len pat ps
    else if withPattern = true ∧ p.name = "pattern".toList then do
      let re ← mkPattern x p.value
      lengthParams withPattern len (some re) ps
    else .err .invalidFacet

section
variable {T : Type} [LE T] [LT T] [DecidableRel (α := T) (· ≤ ·)] [DecidableRel (α := T) (· < ·)]

/-- the loop over the parameters of the numeric types, X:839-982, X:1015-1036, X:1226-1278; `parse` is the
type's own `Self::i16` etc.  `u16` is used for decimal's digit facets. -/
def numParams (parse : Str → Res FacetErr T) : MinMax T → Option PatternFacet → List Param →
    Res FacetErr (MinMax T × Option PatternFacet)
  | m, pat, [] => .ok (m, pat)
  | m, pat, p :: ps =>
    if p.name = "minInclusive".toList then do
      let v ← parse p.value
      let m ← m.minInclusive v
      numParams parse m pat ps
    else if p.name = "minExclusive".toList then do
      let v ← parse p.value
      let m ← m.minExclusive v
      numParams parse m pat ps
    else if p.name = "maxInclusive".toList then do
      let v ← parse p.value
      let m ← m.maxInclusive v
      numParams parse m pat ps
    else if p.name = "maxExclusive".toList then do
      let v ← parse p.value
      let m ← m.maxExclusive v
      numParams parse m pat ps
    else if p.name = "pattern".toList then do
      let re ← mkPattern x p.value
      numParams parse m (some re) ps
    else .err .invalidFacet
end

/-- X:1416-1427 `bigdecimal`. -/
def parseDecP (s : Str) : Res FacetErr Rat := orErr .invalidInt (x.parseDec s)

/-- X:984-1014 the loop of `decimal`. -/
def decParams : MinMax Rat → Option PatternFacet → Option Nat → Option Nat → List Param →
    Res FacetErr (MinMax Rat × Option PatternFacet × Option Nat × Option Nat)
  | m, pat, fd, td, [] => .ok (m, pat, fd, td)
  | m, pat, fd, td, p :: ps =>
    if p.name = "minInclusive".toList then do
      let v ← parseDecP x p.value
      let m ← m.minInclusive v
      decParams m pat fd td ps
    else if p.name = "minExclusive".toList then do
      let v ← parseDecP x p.value
      let m ← m.minExclusive v
      decParams m pat fd td ps
    else if p.name = "maxInclusive".toList then do
      let v ← parseDecP x p.value
      let m ← m.maxInclusive v
      decParams m pat fd td ps
    else if p.name = "maxExclusive".toList then do
      let v ← parseDecP x p.value
      let m ← m.maxExclusive v
      decParams m pat fd td ps
    else if p.name = "pattern".toList then do
      let re ← mkPattern x p.value
      decParams m (some re) fd td ps
    else if p.name = "fractionDigits".toList then do
      let n ← orErr .invalidInt (parseU 10 0xffff p.value)
      decParams m pat (some n) td ps
    else if p.name = "totalDigits".toList then do
      let n ← orErr .invalidInt (parseU 10 0xffff p.value)
      decParams m pat fd (some n) ps
    else .err .invalidFacet

/-- the loop over the parameters of the types with only "pattern", X:1118-1224, X:1280-1314. -/
def patParams : Option PatternFacet → List Param → Res FacetErr (Option PatternFacet)
  | pat, [] => .ok pat
  | _, p :: ps =>
    if p.name = "pattern".toList then do
      let re ← mkPattern x p.value
      patParams (some re) ps
    else .err .invalidFacet

/-- X:1376-1394 `f64`: only finite values. -/
def parseF64P (s : Str) : Res FacetErr Rat :=
  match x.parseF64 s with
  | some (some v) => .ok v
  | _ => .err .invalidFloat

/-- X:233-246 `XsdDatatypeError`. -/
inductive XsdErr where
  | facet (e : FacetErr)
  | unsupported
  | invalidValue
  deriving DecidableEq, Repr

/-- X:609-763: `.map_err(|facet| XsdDatatypeError::Facet{..})` and the constructor applied to the result -/
def facetRes {α : Type} (r : Res FacetErr α) (f : α → XsdDatatype) : Res XsdErr XsdDatatype :=
  match r with
  | .ok a => .ok (f a)
  | .err e => .err (.facet e)
  | .panic => .panic

/-- X:602-764 `compile`. -/
def xsdCompile (name : Str) (ps : List Param) : Res XsdErr XsdDatatype :=
  let str (f : StringFacets → XsdDatatype) := facetRes (lengthParams x true .unbounded none ps) fun r => f ⟨r.1, r.2⟩
  let len (f : LengthFacet → XsdDatatype) := facetRes (lengthParams x false .unbounded none ps) fun r => f r.1
  let num (parse : Str → Option Int) (f : MinMax Int → Option PatternFacet → XsdDatatype) :=
    facetRes (numParams x (fun s => orErr .invalidInt (parse s)) {} none ps) fun r => f r.1 r.2
  let pat (f : Option PatternFacet → XsdDatatype) := facetRes (patParams x none ps) f
  if name = "normalizedString".toList then str .normalizedString
  else if name = "string".toList then str .string
  else if name = "short".toList then num (parseS 0x8000 0x7fff) .short
  else if name = "unsignedShort".toList then num (parseUI 0xffff) .unsignedShort
  else if name = "long".toList then num (parseS 0x8000000000000000 0x7fffffffffffffff) .long
  else if name = "int".toList then num (parseS 0x80000000 0x7fffffff) .int
  else if name = "integer".toList then num parseBigInt .integer
  else if name = "positiveInteger".toList then
    num (fun s => (parseBigUint s).map fun (n : Nat) => (n : Int)) .positiveInteger
  else if name = "decimal".toList then
    facetRes (decParams x {} none none none ps) fun r => .decimal r.1 r.2.1 r.2.2.1 r.2.2.2
  else if name = "double".toList then
    facetRes (numParams x (parseF64P x) {} none ps) fun r => .double r.2
  else if name = "NMTOKENS".toList then len .nmTokens
  else if name = "NMTOKEN".toList then len .nmToken
  else if name = "NCName".toList then len .ncName
  else if name = "token".toList then len .token
  else if name = "duration".toList then pat .duration
  else if name = "date".toList then pat .date
  else if name = "dateTime".toList then pat .datetime
  else if name = "anyURI".toList then pat .anyURI
  else if name = "language".toList then pat .language
  else if name = "boolean".toList then pat .boolean
  else if name = "unsignedInt".toList then num (parseUI 0xffffffff) .unsignedInt
  else if name = "ID".toList then pat .id
  else if name = "IDREF".toList then pat .idRef
  else if name = "unsignedLong".toList then num (parseUI 0xffffffffffffffff) .unsignedLong
  else .err .unsupported

/-- X:766-786 `compile_value`. -/
def xsdCompileValue (name value : Str) : Res XsdErr XsdValue :=
  if name = "string".toList then .ok (.string value)
  else if name = "token".toList then .ok (.token (normalizeWs value))
  else if name = "QName".toList then
    match qnameVal value with
    | .ok s => .ok (.qname s)
    | .err _ => .err .invalidValue
    | .panic => .panic
  else .panic

/-- R:59-62 `relax::Error`. -/
inductive RelaxErr where
  | paramNotAllowed
  | nameUnknown
  deriving DecidableEq, Repr

/-- T:65-72 `Errors`. -/
inductive DtErr where
  | unsupportedLibrary
  | relax (e : RelaxErr)
  | xsd (e : XsdErr)
  deriving DecidableEq, Repr

/-- relaxng-syntax/src/types.rs `DatatypeName`; in `CName(QName(u, name))` the schema compiler has already
replaced the prefix by the library's URI `u` (relaxng-model/src/lib.rs:1761-1836). -/
inductive DtName where
  | string
  | token
  | cname (uri name : Str)
  | namespaced (uri name : Str)
  deriving DecidableEq, Repr

/-- R:71-99 `datatype_value` of the built-in library. -/
def relaxValue (n : DtName) (value : Str) : Res RelaxErr BuiltinValue :=
  match n with
  | .string => .ok (.string value)
  | .token => .ok (.token (normalizeWs value))
  | .cname _ name =>
    if name = "string".toList then .ok (.string value)
    else if name = "token".toList then .ok (.token (normalizeWs value))
    else .err .nameUnknown
  | .namespaced _ _ => .err .nameUnknown

/-- R:101-135 `datatype_name` of the built-in library. -/
def relaxName (n : DtName) (ps : List Param) : Res RelaxErr BuiltinDatatype :=
  if ps ≠ [] then .err .paramNotAllowed
  else match n with
    | .string => .ok .string
    | .token => .ok .token
    | .cname _ name =>
      if name = "string".toList then .ok .string
      else if name = "token".toList then .ok .token
      else .err .nameUnknown
    | .namespaced _ _ => .err .nameUnknown

/-- X:569-584. -/
def xsdValueOf (n : DtName) (value : Str) : Res XsdErr XsdValue :=
  match n with
  | .cname _ name => xsdCompileValue name value
  | _ => .panic

/-- X:586-598. -/
def xsdNameOf (n : DtName) (ps : List Param) : Res XsdErr XsdDatatype :=
  match n with
  | .cname _ name => xsdCompile x name ps
  | _ => .panic

/-- X:10. -/
def xsdUri : Str := "http://www.w3.org/2001/XMLSchema-datatypes".toList

/-- `.map(f).map_err(g)` -/
def Res.mapBoth {ε ε' α β : Type} (r : Res ε α) (f : α → β) (g : ε → ε') : Res ε' β :=
  match r with
  | .ok a => .ok (f a)
  | .err e => .err (g e)
  | .panic => .panic

/-- T:161-185 `dt_value`. -/
def dtValueIn (n : DtName) (value : Str) (ns : Str) : Res DtErr DatatypeValues :=
  if ns = [] then (relaxValue n value).mapBoth .relax .relax
  else if ns = xsdUri then (xsdValueOf n value).mapBoth .xsd .xsd
  else .err .unsupportedLibrary

/-- T:135-159 `dt_name`. -/
def dtNameIn (n : DtName) (ps : List Param) (ns : Str) : Res DtErr Datatypes :=
  if ns = [] then (relaxName n ps).mapBoth .relax .relax
  else if ns = xsdUri then (xsdNameOf x n ps).mapBoth .xsd .xsd
  else .err .unsupportedLibrary

/-- T:85-109 `datatype_value`. -/
def datatypeValueOf (n : DtName) (value : Str) : Res DtErr DatatypeValues :=
  match n with
  | .string => (relaxValue n value).mapBoth .relax .relax
  | .token => (relaxValue n value).mapBoth .relax .relax
  | .cname uri _ => dtValueIn n value uri
  | .namespaced uri _ => dtValueIn n value uri

/-- T:111-131 `datatype_name`. -/
def datatypeNameOf (n : DtName) (ps : List Param) : Res DtErr Datatypes :=
  match n with
  | .string => (relaxName n ps).mapBoth .relax .relax
  | .token => (relaxName n ps).mapBoth .relax .relax
  | .cname uri _ => dtNameIn x n ps uri
  | .namespaced uri _ => dtNameIn x n ps uri

end
end Verif
