import Verif.Spec.Seen
/-
Specification for C95: names replaced by others throughout a schema and a document.
-/
namespace Verif.Opaque
variable {D V : Type}

/-- one-to-one replacements of namespace names and of local names; "no namespace" stays, and so does `xmlns` -/
structure Renaming where
  uri : Str → Str
  loc : Str → Str
  uriBack : Str → Str
  locBack : Str → Str
  uri_back : ∀ s, uriBack (uri s) = s
  back_uri : ∀ s, uri (uriBack s) = s
  loc_back : ∀ s, locBack (loc s) = s
  back_loc : ∀ s, loc (locBack s) = s
  uri_none : uri [] = []
  loc_xmlns : loc "xmlns".toList = "xmlns".toList

/-! ### in schemas -/

/-- a name class -/
def names (ρ : Renaming) : NameClass → NameClass
  | .named ns n => .named (ρ.uri ns) (ρ.loc n)
  | .nsName ns => .nsName (ρ.uri ns)
  | .nsNameExcept ns ex => .nsNameExcept (ρ.uri ns) (names ρ ex)
  | .anyName => .anyName
  | .anyNameExcept ex => .anyNameExcept (names ρ ex)
  | .alt a b => .alt (names ρ a) (names ρ b)

mutual
/-- the names of elements and attributes in a pattern -/
def pattern (ρ : Renaming) : Pattern D V → Pattern D V
  | .choice ps => .choice (patterns ρ ps)
  | .interleave ps => .interleave (patterns ρ ps)
  | .group ps => .group (patterns ρ ps)
  | .mixed p => .mixed (pattern ρ p)
  | .empty => .empty
  | .text => .text
  | .notAllowed => .notAllowed
  | .optional p => .optional (pattern ρ p)
  | .zeroOrMore p => .zeroOrMore (pattern ρ p)
  | .oneOrMore p => .oneOrMore (pattern ρ p)
  | .attr nc p => .attr (names ρ nc) (pattern ρ p)
  | .element nc p => .element (names ρ nc) (pattern ρ p)
  | .ref n => .ref n
  | .datatypeValue v => .datatypeValue v
  | .datatypeName d => .datatypeName d
  | .datatypeNameExcept d e => .datatypeNameExcept d (pattern ρ e)
  | .list p => .list (pattern ρ p)
def patterns (ρ : Renaming) : List (Pattern D V) → List (Pattern D V)
  | [] => []
  | p :: ps => pattern ρ p :: patterns ρ ps
end

/-! ### in documents, as written -/

/-- attributes: the namespaces that are declared, the local names of others -/
def attr (ρ : Renaming) (a : RawAttr) : RawAttr :=
  if a.pre = "xmlns".toList ∨ (a.pre = [] ∧ a.loc = "xmlns".toList) then ⟨a.pre, a.loc, ρ.uri a.value⟩ else ⟨a.pre, ρ.loc a.loc, a.value⟩

mutual
/-- content -/
def piece (ρ : Renaming) : XNode → XNode
  | .text s => .text s
  | .cdata s => .cdata s
  | .comment => .comment
  | .pi => .pi
  | .elem pre loc atts sc kids => .elem pre (ρ.loc loc) (atts.map (attr ρ)) sc (pieces ρ kids)
def pieces (ρ : Renaming) : List XNode → List XNode
  | [] => []
  | x :: xs => piece ρ x :: pieces ρ xs
end

/-- a document -/
def doc (ρ : Renaming) (d : XDoc) : XDoc :=
  { d with loc := ρ.loc d.loc, atts := d.atts.map (attr ρ), kids := pieces ρ d.kids }

/-! ### in documents, as read -/

def qname (ρ : Renaming) (q : QName) : QName := ⟨q.ns.map ρ.uri, ρ.loc q.loc⟩
def att (ρ : Renaming) (a : Attr) : Attr := ⟨qname ρ a.name, a.value⟩
mutual
def node (ρ : Renaming) : Node → Node
  | .text s => .text s
  | .elem nm as k => .elem (qname ρ nm) (as.map (att ρ)) (nodes ρ k)
def nodes (ρ : Renaming) : List Node → List Node
  | [] => []
  | x :: xs => node ρ x :: nodes ρ xs
end

end Verif.Opaque
