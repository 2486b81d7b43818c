import Verif.Spec.Seen
/-
Specification for C96: prefixes replaced by others throughout a document.
-/
namespace Verif.Prefix

/-- one-to-one replacements of prefixes; "no prefix" and `xmlns` stay -/
structure Change where
  to : Str → Str
  back : Str → Str
  to_back : ∀ s, back (to s) = s
  back_to : ∀ s, to (back s) = s
  none : to [] = []
  xmlns : to "xmlns".toList = "xmlns".toList

/-- attributes: the prefix declared in `xmlns:p="…"`, the prefix of others -/
def attr (π : Change) (a : RawAttr) : RawAttr :=
  if a.pre = "xmlns".toList then ⟨a.pre, π.to a.loc, a.value⟩ else ⟨π.to a.pre, a.loc, a.value⟩

mutual
/-- content -/
def piece (π : Change) : XNode → XNode
  | .text s => .text s
  | .cdata s => .cdata s
  | .comment => .comment
  | .pi => .pi
  | .elem pre loc atts sc kids => .elem (π.to pre) loc (atts.map (attr π)) sc (pieces π kids)
def pieces (π : Change) : List XNode → List XNode
  | [] => []
  | x :: xs => piece π x :: pieces π xs
end

/-- a document -/
def doc (π : Change) (d : XDoc) : XDoc :=
  { d with pre := π.to d.pre, atts := d.atts.map (attr π), kids := pieces π d.kids }

end Verif.Prefix
