import Verif.Spec.Document
import Verif.Model.Datatype
/-
Specification of the datatype libraries (C24-C31, C50-C52): words, numerals, intervals, names, language tags,
durations and time stamps, without reference to the code's parsers.
-/
namespace Verif

/-! ### words -/

/-- white space: space, tab, line feed, form feed, carriage return -/
def SpaceChar (c : Char) : Prop := c = ' ' ∨ c = '\t' ∨ c = '\n' ∨ c = '\x0C' ∨ c = '\r'

/-- `Tokens s ws`: `ws` are the maximal runs of characters other than white space in `s`, in order -/
inductive Tokens : Str → List Str → Prop
  | nil {s} : (∀ c ∈ s, SpaceChar c) → Tokens s []
  | cons {pre w rest ws} : (∀ c ∈ pre, SpaceChar c) → w ≠ [] → (∀ c ∈ w, ¬ SpaceChar c) →
      (rest = [] ∨ ∃ c r, rest = c :: r ∧ SpaceChar c) → Tokens rest ws → Tokens (pre ++ w ++ rest) (w :: ws)

/-- the words separated by single spaces -/
def spaced : List Str → Str
  | [] => []
  | [w] => w
  | w :: ws => w ++ ' ' :: spaced ws

/-! ### numerals -/

/-- a decimal numeral with an optional plus sign -/
inductive UNumeral : Str → Int → Prop
  | plain {ds n} : Number 10 decDigit ds n → UNumeral ds n
  | plus {ds n} : Number 10 decDigit ds n → UNumeral ('+' :: ds) n

/-- a decimal numeral with an optional sign -/
inductive SNumeral : Str → Int → Prop
  | unsigned {s v} : UNumeral s v → SNumeral s v
  | minus {ds n} : Number 10 decDigit ds n → SNumeral ('-' :: ds) (-(n : Int))

/-- `s` without its underscores is a numeral of digits, and `s` begins with a digit -/
def Grouped (s : Str) (n : Nat) : Prop :=
  s.head? ≠ some '_' ∧ Number 10 decDigit (s.filter (· ≠ '_')) n

/-- unsigned numerals of unlimited size, as the big-number library writes them -/
inductive BigUNumeral : Str → Int → Prop
  | plain {s n} : Grouped s n → BigUNumeral s n
  | plus {s n} : Grouped s n → BigUNumeral ('+' :: s) n

inductive BigNumeral : Str → Int → Prop
  | unsigned {s v} : BigUNumeral s v → BigNumeral s v
  | minus {s n} : Grouped s n → BigNumeral ('-' :: s) (-(n : Int))

/-- the numerals of each integer type and its range -/
inductive IntType : Str → (Str → Int → Prop) → Prop
  | short : IntType "short".toList (fun s v => SNumeral s v ∧ -32768 ≤ v ∧ v ≤ 32767)
  | unsignedShort : IntType "unsignedShort".toList (fun s v => UNumeral s v ∧ v ≤ 65535)
  | int : IntType "int".toList (fun s v => SNumeral s v ∧ -2147483648 ≤ v ∧ v ≤ 2147483647)
  | unsignedInt : IntType "unsignedInt".toList (fun s v => UNumeral s v ∧ v ≤ 4294967295)
  | long : IntType "long".toList (fun s v => SNumeral s v ∧ -9223372036854775808 ≤ v ∧ v ≤ 9223372036854775807)
  | unsignedLong : IntType "unsignedLong".toList (fun s v => UNumeral s v ∧ v ≤ 18446744073709551615)
  | integer : IntType "integer".toList BigNumeral
  | positiveInteger : IntType "positiveInteger".toList BigUNumeral

/-! ### facets -/

/-- the value `v` respects a range facet whose bound is read by `num` (other facets say nothing) -/
def Param.Range {T : Type} [LE T] [LT T] (num : Str → T → Prop) (p : Param) (v : T) : Prop :=
  (p.name = "minInclusive".toList → ∃ b, num p.value b ∧ b ≤ v) ∧
  (p.name = "minExclusive".toList → ∃ b, num p.value b ∧ b < v) ∧
  (p.name = "maxInclusive".toList → ∃ b, num p.value b ∧ v ≤ b) ∧
  (p.name = "maxExclusive".toList → ∃ b, num p.value b ∧ v < b)

/-- the last pattern facet, if there is one, matches -/
def PatternsOk (x : Ext) (ps : List Param) (s : Str) : Prop :=
  ∀ a p b, ps = a ++ p :: b → p.name = "pattern".toList → (∀ q ∈ b, q.name ≠ "pattern".toList) →
    x.reMatch p.value s = true

/-- a lower bound -/
def Param.isLower (p : Param) : Bool := p.name == "minInclusive".toList || p.name == "minExclusive".toList
/-- an upper bound -/
def Param.isUpper (p : Param) : Bool := p.name == "maxInclusive".toList || p.name == "maxExclusive".toList

/-- a parameter that only `decimal` has -/
def Param.isDigits (p : Param) : Bool := p.name == "fractionDigits".toList || p.name == "totalDigits".toList

/-- the facets a numeric type knows, with values it can read -/
def Readable (x : Ext) (num : Str → Prop) (p : Param) : Prop :=
  ((p.isLower = true ∨ p.isUpper = true) ∧ num p.value) ∨ (p.name = "pattern".toList ∧ x.reNew p.value = true)

/-- the bounds given, if any, are one lower and one upper bound at most, and the lower is not above the upper -/
def Consistent {T : Type} [LE T] (num : Str → T → Prop) (ps : List Param) : Prop :=
  ps.countP Param.isLower ≤ 1 ∧ ps.countP Param.isUpper ≤ 1 ∧
  ∀ p ∈ ps, ∀ q ∈ ps, p.isLower = true → q.isUpper = true → ∃ a b, num p.value a ∧ num q.value b ∧ a ≤ b

/-- the value of a decimal, as the decimal library reads it -/
def DecVal (x : Ext) (s : Str) (v : Rat) : Prop := x.parseDec s = some v

/-- the string respects a length facet -/
def Param.Length (p : Param) (s : Str) : Prop :=
  (p.name = "length".toList → ∃ n : Nat, UNumeral p.value n ∧ s.length = n) ∧
  (p.name = "minLength".toList → ∃ n : Nat, UNumeral p.value n ∧ n ≤ s.length) ∧
  (p.name = "maxLength".toList → ∃ n : Nat, UNumeral p.value n ∧ s.length ≤ n)

/-- one of the three length facets -/
def Param.isLen (p : Param) : Bool :=
  p.name == "length".toList || p.name == "minLength".toList || p.name == "maxLength".toList

/-- a length facet with a number that fits a 64-bit `usize`, or (if the type has patterns) a pattern that compiles -/
def LenReadable (x : Ext) (patterns : Bool) (p : Param) : Prop :=
  (p.isLen = true ∧ ∃ n : Nat, UNumeral p.value n ∧ n ≤ 18446744073709551615) ∨
  (patterns = true ∧ p.name = "pattern".toList ∧ x.reNew p.value = true)

/-- the combinations of length facets the code can compile: none, one, or `minLength` then `maxLength`, in order -/
def LengthsOk (ls : List Param) : Prop :=
  ls = [] ∨ (∃ p, ls = [p]) ∨
  ∃ p q, ls = [p, q] ∧ p.name = "minLength".toList ∧ q.name = "maxLength".toList ∧
    ∃ a b : Nat, UNumeral p.value a ∧ UNumeral q.value b ∧ a ≤ b

/-! ### names -/

/-- XML 1.0 (5th ed.) production 4, NameStartChar, without ':' -/
def NameStart (c : Char) : Prop :=
  let n := c.toNat
  ('A' ≤ c ∧ c ≤ 'Z') ∨ c = '_' ∨ ('a' ≤ c ∧ c ≤ 'z') ∨ (0xC0 ≤ n ∧ n ≤ 0xD6) ∨ (0xD8 ≤ n ∧ n ≤ 0xF6) ∨
  (0xF8 ≤ n ∧ n ≤ 0x2FF) ∨ (0x370 ≤ n ∧ n ≤ 0x37D) ∨ (0x37F ≤ n ∧ n ≤ 0x1FFF) ∨ (0x200C ≤ n ∧ n ≤ 0x200D) ∨
  (0x2070 ≤ n ∧ n ≤ 0x218F) ∨ (0x2C00 ≤ n ∧ n ≤ 0x2FEF) ∨ (0x3001 ≤ n ∧ n ≤ 0xD7FF) ∨
  (0xF900 ≤ n ∧ n ≤ 0xFDCF) ∨ (0xFDF0 ≤ n ∧ n ≤ 0xFFFD) ∨ (0x10000 ≤ n ∧ n ≤ 0xEFFFF)

/-- production 4a, NameChar, without ':' -/
def NameChar (c : Char) : Prop :=
  let n := c.toNat
  NameStart c ∨ c = '-' ∨ c = '.' ∨ ('0' ≤ c ∧ c ≤ '9') ∨ n = 0xB7 ∨ (0x300 ≤ n ∧ n ≤ 0x36F) ∨
  (0x203F ≤ n ∧ n ≤ 0x2040)

/-- NCName: a name without a colon -/
def NCName (s : Str) : Prop := ∃ c cs, s = c :: cs ∧ NameStart c ∧ ∀ d ∈ cs, NameChar d

/-- a name with a prefix -/
def Prefixed (s : Str) : Prop := ∃ pre loc, s = pre ++ ':' :: loc ∧ NCName pre ∧ NCName loc

/-! ### language tags, time stamps, durations -/

def Letter (c : Char) : Prop := ('a' ≤ c ∧ c ≤ 'z') ∨ ('A' ≤ c ∧ c ≤ 'Z')
def Digit (c : Char) : Prop := '0' ≤ c ∧ c ≤ '9'

/-- `-xxx-yyy..` with subtags of 1 to 8 letters or digits -/
inductive SubTags : Str → Prop
  | nil : SubTags []
  | cons {t rest} : 1 ≤ t.length → t.length ≤ 8 → (∀ c ∈ t, Letter c ∨ Digit c) → SubTags rest →
      SubTags ('-' :: (t ++ rest))

/-- a language tag: 1 to 8 letters, then subtags -/
def LangTag (s : Str) : Prop :=
  ∃ t rest, s = t ++ rest ∧ 1 ≤ t.length ∧ t.length ≤ 8 ∧ (∀ c ∈ t, Letter c) ∧ SubTags rest

/-- exactly `n` characters of a class -/
def Exactly (n : Nat) (p : Char → Prop) (s : Str) : Prop := s.length = n ∧ ∀ c ∈ s, p c

/-- `hh:mm` -/
def HourMinute (d : Char → Prop) (s : Str) : Prop :=
  ∃ h m, s = h ++ ':' :: m ∧ Exactly 2 d h ∧ Exactly 2 d m

/-- the time zones the code knows: none, `Z`, or `Z` followed by an offset -/
def Zone (d : Char → Prop) (s : Str) : Prop :=
  s = [] ∨ s = ['Z'] ∨ ∃ c hm, s = 'Z' :: c :: hm ∧ (c = '+' ∨ c = '-') ∧ HourMinute d hm

/-- `[-]YYYY-MM-DDThh:mm:ss[zone]` -/
def TimeStamp (d : Char → Prop) (s : Str) : Prop :=
  ∃ sign y mo da h mi se z, s = sign ++ y ++ '-' :: mo ++ '-' :: da ++ 'T' :: h ++ ':' :: mi ++ ':' :: se ++ z ∧
    (sign = [] ∨ sign = ['-']) ∧ Exactly 4 d y ∧ Exactly 2 d mo ∧ Exactly 2 d da ∧ Exactly 2 d h ∧
    Exactly 2 d mi ∧ Exactly 2 d se ∧ Zone d z

/-- `hh`, 00 to 23 -/
def Hour (s : Str) : Prop :=
  ∃ a b, s = [a, b] ∧ Digit b ∧ ((a = '0' ∨ a = '1') ∨ (a = '2' ∧ b ≤ '3'))
/-- 00 to 59 -/
def Sixty (s : Str) : Prop := ∃ a b, s = [a, b] ∧ Digit b ∧ '0' ≤ a ∧ a ≤ '5'
/-- an optional character -/
def Maybe (c : Char) (s : Str) : Prop := s = [] ∨ s = [c]
/-- `hh:mm:ss` with optional colons, seconds up to 60; or `2400` or `24:00` -/
def ClockTime (s : Str) : Prop :=
  (∃ h c1 m c2 se, s = h ++ c1 ++ m ++ c2 ++ se ∧ Hour h ∧ Maybe ':' c1 ∧ Sixty m ∧ Maybe ':' c2 ∧
    (Sixty se ∨ se = ['6', '0'])) ∨
  s = ['2', '4', '0', '0'] ∨ s = ['2', '4', ':', '0', '0']
/-- month 01 to 09, 11 or 12 (not 10) -/
def MonthNo (s : Str) : Prop := (∃ b, s = ['0', b] ∧ '1' ≤ b ∧ b ≤ '9') ∨ s = ['1', '1'] ∨ s = ['1', '2']
/-- day 00 to 29 (the second digit of class `d`), 30 or 31 -/
def DayNo (d : Char → Prop) (s : Str) : Prop :=
  (∃ a b, s = [a, b] ∧ '0' ≤ a ∧ a ≤ '2' ∧ d b) ∨ s = ['3', '0'] ∨ s = ['3', '1']
/-- `YYYY-MM-DDThh:mm:ss`, the hyphens and colons optional -/
def CompactStamp (d : Char → Prop) (s : Str) : Prop :=
  ∃ y h1 mo h2 da t, s = y ++ h1 ++ mo ++ h2 ++ da ++ 'T' :: t ∧ Exactly 4 d y ∧ Maybe '-' h1 ∧ MonthNo mo ∧
    Maybe '-' h2 ∧ DayNo d da ∧ ClockTime t

/-- The xsd types whose validity check is not written (`unimplemented!`). -/
def Unwritten (name : Str) : Prop := name = "NMTOKEN".toList ∨ name = "NMTOKENS".toList ∨ name = "token".toList

end Verif
