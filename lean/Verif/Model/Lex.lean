import Verif.Basic
/-
Names in the two schema syntaxes: relaxng-syntax/src/compact.rs:210-257 (nom parsers over the rest of the
input; source positions are dropped) and relaxng-syntax/src/xml.rs:867-955.
-/
namespace Verif

/-- compact.rs:221-ff `char_in(a..=b)` on one character, and Rust range patterns. -/
def inR (a b : Nat) (c : Char) : Bool := a ≤ c.toNat && c.toNat ≤ b

/-- compact.rs:224-244 `nc_name_start_char`: which characters it consumes. -/
def ncNameStartChar (c : Char) : Bool :=
  inR 0x41 0x5A c || c == '_' || inR 0x61 0x7A c || inR 0xC0 0xD6 c || inR 0xD8 0xF6 c ||
  inR 0xF8 0x2FF c || inR 0x370 0x37D c || inR 0x37F 0x1FFF c || inR 0x200C 0x200D c ||
  inR 0x2070 0x218F c || inR 0x2C00 0x2FEF c || inR 0x3001 0xD7FF c || inR 0xF900 0xFDCF c ||
  inR 0xFDF0 0xFFFD c || inR 0x10000 0xEFFFF c

/-- compact.rs:246-257 `nc_name_char`. -/
def ncNameChar (c : Char) : Bool :=
  ncNameStartChar c || c == '-' || c == '.' || inR 0x30 0x39 c || c == '\u00B7' ||
  inR 0x300 0x36F c || inR 0x203F 0x2040 c

/-- compact.rs:210-222 `nc_name`: the name read and the rest of the input; `none` is a parse error. -/
def ncName : Str → Option (Str × Str)
  | [] => none
  | c :: cs =>
    if ncNameStartChar c then some (c :: cs.takeWhile ncNameChar, cs.dropWhile ncNameChar) else none

/-- xml.rs:927-943 `is_nc_name_start_char`. -/
def xmlNcNameStartChar (c : Char) : Bool :=
  inR 0x41 0x5A c || c == '_' || inR 0x61 0x7A c || inR 0xC0 0xD6 c || inR 0xD8 0xF6 c ||
  inR 0xF8 0x2FF c || inR 0x370 0x37D c || inR 0x37F 0x1FFF c || inR 0x200C 0x200D c ||
  inR 0x2070 0x218F c || inR 0x2C00 0x2FEF c || inR 0x3001 0xD7FF c || inR 0xF900 0xFDCF c ||
  inR 0xFDF0 0xFFFD c || inR 0x10000 0xEFFFF c

/-- xml.rs:944-955 `is_nc_name_char`. -/
def xmlNcNameChar (c : Char) : Bool :=
  if xmlNcNameStartChar c then true
  else c == '-' || c == '.' || inR 0x30 0x39 c || c == '\u00B7' || inR 0x300 0x36F c || inR 0x203F 0x2040 c

/-- Rust `char::is_whitespace` as used by `str::trim` (Unicode White_Space). -/
def trimWs (c : Char) : Bool :=
  inR 9 13 c || inR 0x20 0x20 c || inR 0x85 0x85 c || inR 0xA0 0xA0 c || inR 0x1680 0x1680 c ||
  inR 0x2000 0x200A c || inR 0x2028 0x2029 c || inR 0x202F 0x202F c || inR 0x205F 0x205F c ||
  inR 0x3000 0x3000 c

/-- Rust `str::trim`. -/
def trim (s : Str) : Str := ((s.dropWhile trimWs).reverse.dropWhile trimWs).reverse

/-- xml.rs:867-888 `ncname` (and xml.rs:904-925 `ident`, the same test): the name, or an error. -/
def xmlNcname (val : Str) : Option Str :=
  match trim val with
  | [] => none
  | c :: cs => if xmlNcNameStartChar c && cs.all xmlNcNameChar then some (c :: cs) else none

end Verif
