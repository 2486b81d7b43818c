import Verif.Basic
/-
Entity and character references in text: V:1458-1543 `Txt`, `parse_entities`, `numeric_entity`.
Source positions are dropped.
-/
namespace Verif

/-- V:1458-1463 `Txt`. -/
inductive Txt where
  | text (s : Str)
  | entity (name : Str)
  | char (c : Char)
  deriving DecidableEq, Repr

/-- value of one digit in the given radix (Rust `char::to_digit`) -/
def toDigit (radix : Nat) (c : Char) : Option Nat :=
  let n := c.toNat
  let v :=
    if 48 ≤ n ∧ n ≤ 57 then some (n - 48)
    else if 97 ≤ n ∧ n ≤ 122 then some (n - 97 + 10)
    else if 65 ≤ n ∧ n ≤ 90 then some (n - 65 + 10)
    else none
  match v with
  | some d => if d < radix then some d else none
  | none => none

/-- digits of an unsigned number with overflow checks against `max` -/
def digitsGo (radix max : Nat) : Str → Nat → Option Nat
  | [], acc => some acc
  | c :: cs, acc =>
    match toDigit radix c with
    | none => none
    | some d => if acc * radix + d > max then none else digitsGo radix max cs (acc * radix + d)

/-- Rust std `u32::from_str_radix` / `str::parse::<u32>`: an optional leading '+', then at least one
digit, no overflow. -/
def parseU (radix max : Nat) (s : Str) : Option Nat :=
  match s with
  | [] => none
  | '+' :: [] => none
  | '+' :: cs => digitsGo radix max cs 0
  | cs => digitsGo radix max cs 0

/-- Rust std `char::from_u32`. -/
def charFromU32 (n : Nat) : Option Char :=
  if h : n.isValidChar then some (Char.ofNatAux n h) else none

/-- V:1514-1536 `numeric_entity`; `none` is `InvalidOrUnclosedEntity`. -/
def numericEntity (text : Str) : Option Char :=
  match text with
  | [] => none
  | 'x' :: rest =>
    match rest with
    | [] => none
    | _ => (parseU 16 0xFFFFFFFF rest).bind charFromU32
  | _ => (parseU 10 0xFFFFFFFF text).bind charFromU32

/-- `&text[..i]`, `&text[i+1..]` for the first position `i` of `c`; the `for (i, c) in char_indices`
loop of `Entities::next` V:1482-1506. -/
def splitAtChar (c : Char) : Str → Option (Str × Str)
  | [] => none
  | x :: xs =>
    if x = c then some ([], xs)
    else match splitAtChar c xs with
      | some (a, b) => some (x :: a, b)
      | none => none

theorem splitAtChar_length {c : Char} : ∀ {s a b : Str}, splitAtChar c s = some (a, b) →
    b.length < s.length := by
  intro s
  induction s with
  | nil => intro a b h; simp [splitAtChar] at h
  | cons x xs ih =>
    intro a b h
    unfold splitAtChar at h
    split at h
    · cases h; simp
    · split at h
      · rename_i a' b' h'
        cases h
        have := ih h'
        simp; omega
      · cases h

/-- The whole iteration of `parse_entities` V:1465-1543 over the remaining text, in the state
`in_entity`; each list entry is one `next()` result, `none` is
`Err(InvalidOrUnclosedEntity)`.  After an unclosed entity the Rust iterator would repeat the same
error for ever; its only caller stops at the first error, and so does this list.  After a bad
character reference the iterator could go on, but the caller stops as well. -/
def entitiesGo (inEntity : Bool) (s : Str) : List (Option Txt) :=
  if s = [] then []
  else if inEntity then
    match _h : splitAtChar ';' s with
    | none => [none]
    | some (name, rest) =>
      (match name with
        | '#' :: digits => (numericEntity digits).map Txt.char
        | _ => some (Txt.entity name)) :: entitiesGo false rest
  else
    match _h : splitAtChar '&' s with
    | none => [some (Txt.text s)]
    | some (pre, rest) => some (Txt.text pre) :: entitiesGo true rest
termination_by s.length
decreasing_by
  · exact splitAtChar_length (by assumption)
  · exact splitAtChar_length (by assumption)

/-- V:1465 `parse_entities`. -/
def parseEntities (s : Str) : List (Option Txt) := entitiesGo false s

end Verif
