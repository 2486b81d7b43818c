import Verif.Model.Datatype
import Verif.Model.Pattern
/-
The syntax tree both schema parsers produce: relaxng-syntax/src/types.rs.  Source positions are dropped, a
`Literal` is its `as_string_value()` (types.rs:234-247), annotations carry no data.
-/
namespace Verif

/-- types.rs:288-301 `NamespaceOrPrefix`. -/
inductive NsRef where
  | pre (p : Str)
  | uri (u : Str)
  deriving DecidableEq, Repr

/-- types.rs:259-314 `NameClass`, `Name`, `NsName`, `AnyName`, `AltName`, `ParenName`.  The optional
exceptions are separate constructors.  `ident` is `Name::Identifier` (identifier or keyword). -/
inductive SNameClass where
  | ident (name : Str)
  | cname (pre loc : Str)
  | namespaced (uri loc : Str)
  | nsName (ns : NsRef)
  | nsNameExcept (ns : NsRef) (ex : SNameClass)
  | anyName
  | anyNameExcept (ex : SNameClass)
  | alt (a b : SNameClass)
  | paren (a : SNameClass)
  deriving DecidableEq, Repr

/-- types.rs:113-122 `DatatypeName`. -/
inductive SDtName where
  | string
  | token
  | cname (pre name : Str)
  | namespaced (uri name : Str)
  deriving DecidableEq, Repr

/-- types.rs:163-168 `AssignMethod`: `=`, `|=`, `&=`. -/
inductive AssignMethod where
  | assign
  | choice
  | interleave
  deriving DecidableEq, Repr

mutual
/-- types.rs:37-63 `Pattern`.  `DatatypeNamePattern`'s optional parameters default to none, its optional
exception is a separate constructor. -/
inductive SPattern where
  | element (nc : SNameClass) (p : SPattern)
  | attribute (nc : SNameClass) (p : SPattern)
  | list (p : SPattern)
  | mixed (p : SPattern)
  | ident (id : Str)
  | parent (id : Str)
  | empty
  | text
  | notAllowed
  | external (path : Str) (inherit : Option Str)
  | grammar (items : List SItem)
  | paren (p : SPattern)
  | seq (a b : SPattern)
  | inter (a b : SPattern)
  | choice (a b : SPattern)
  | optional (p : SPattern)
  | zeroOrMore (p : SPattern)
  | oneOrMore (p : SPattern)
  | value (ty : Option SDtName) (lit : Str)
  | data (ty : SDtName) (params : List Param)
  | dataExcept (ty : SDtName) (params : List Param) (ex : SPattern)
/-- types.rs:155-161 `GrammarContent` with `Define` and `Include` (types.rs:170-178) inlined. -/
inductive SItem where
  | define (id : Str) (how : AssignMethod) (body : SPattern)
  | div (items : List SItem)
  | include (path : Str) (inherit : Option Str) (overrides : List SOverride)
  | annotation
/-- types.rs:183-188 `IncludeContent`. -/
inductive SOverride where
  | define (id : Str) (how : AssignMethod) (body : SPattern)
  | div
  | annotation
end

/-- types.rs:12-34 `Decl`; a `NamespaceUriLiteral` is `none` for `inherit`. -/
inductive SDecl where
  | namespace (pre : Str) (uri : Option Str)
  | defaultNamespace (pre : Option Str) (uri : Option Str)
  | datatypes (pre uri : Str)
  deriving DecidableEq, Repr

/-- types.rs:148-152 `PatternOrGrammar`. -/
inductive SBody where
  | pattern (p : SPattern)
  | grammar (items : List SItem)

/-- types.rs:5-9 `Schema`. -/
structure SSchema where
  decls : List SDecl
  body : SBody

end Verif
