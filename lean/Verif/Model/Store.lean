import Verif.Model.NameClass
/-
The pattern store: relaxng-validator/src/lib.rs `Pat`, `Inner`, `Schema` (V:26-243).
-/
namespace Verif

/-- The datatype library as seen by the validator (relaxng-model/src/datatype/mod.rs `Datatype`):
`validD`/`validV` model `Datatypes::is_valid`/`DatatypeValues::is_valid`; `none` is a panic
(`unimplemented!`).  `D`,`V` stand for `Datatypes`,`DatatypeValues`. -/
structure Lib (D V : Type) where
  validD : D → Str → Option Bool
  validV : V → Str → Option Bool

/-- V:36-53 `Pat`; `PatId(u16)` is a `Nat` (that it always fits 16 bits is a theorem);
`Placeholder`'s raw pointer is the number of the referenced definition. -/
inductive Pat (D V : Type) where
  | choice (l r : Nat) (nullable : Bool)
  | interleave (l r : Nat) (nullable : Bool)
  | group (l r : Nat) (nullable : Bool)
  | oneOrMore (p : Nat) (nullable : Bool)
  | empty
  | text
  | notAllowed
  | attr (nc : NameClass) (p : Nat)
  | element (nc : NameClass) (p : Nat)
  | datatype (d : D)
  | datatypeValue (v : V)
  | datatypeExcept (d : D) (ex : Nat)
  | list (p : Nat)
  | placeholder (n : Nat)
  | after (p q : Nat)
  deriving DecidableEq, Repr

variable {D V : Type}

/-- V:56-74 `Pat::is_nullable`. -/
def Pat.nullable : Pat D V → Bool
  | .choice _ _ b => b
  | .interleave _ _ b => b
  | .group _ _ b => b
  | .oneOrMore _ b => b
  | .empty => true
  | .text => true
  | .notAllowed => false
  | .attr _ _ => false
  | .element _ _ => false
  | .datatype _ => false
  | .datatypeValue _ => false
  | .datatypeExcept _ _ => false
  | .list _ => false
  | .placeholder _ => false
  | .after _ _ => false

/-- `if let Pat::NotAllowed = ..` -/
def Pat.isNotAllowed : Pat D V → Bool
  | .notAllowed => true
  | _ => false

/-- `if let Pat::Empty = ..` -/
def Pat.isEmpty : Pat D V → Bool
  | .empty => true
  | _ => false

/-- V:76-81 `Inner`: `patterns: Vec<Pat>`, `memo: HashMap<Pat,PatId>`,
`refs: HashMap<*const _, PatId>`.  The hash maps are association lists, newest binding first. -/
structure Store (D V : Type) where
  pats : List (Pat D V)
  memo : List (Pat D V × Nat)
  refs : List (Nat × Nat)

/-- `Schema::default()` V:82-85. -/
def Store.init : Store D V := ⟨[], [], []⟩

/-- The Rust methods on `&Schema`/`&mut Schema`: state passing with panics. -/
abbrev SM (D V α : Type) := ST (Store D V) α

variable [DecidableEq D] [DecidableEq V]

/-- V:88-101 `Schema::push`.  The capacity test comes before the memo lookup. -/
def push (p : Pat D V) : SM D V Nat := fun st =>
  if st.pats.length > 0xffff then .error .capacity
  else match st.memo.lookup p with
    | some id => .ok (id, st)
    | none => .ok (st.pats.length,
        { st with memo := (p, st.pats.length) :: st.memo, pats := st.pats ++ [p] })

omit [DecidableEq D] [DecidableEq V] in
/-- V:240-242 `Schema::patt`. -/
def patt (i : Nat) : SM D V (Pat D V) := fun st =>
  match st.pats[i]? with
  | some p => .ok (p, st)
  | none => .error .oob

/-- V:165-167. -/
def mkEmpty : SM D V Nat := push .empty
/-- V:168-170. -/
def mkText : SM D V Nat := push .text
/-- V:171-173. -/
def notAllowed : SM D V Nat := push .notAllowed

/-- V:102-131 `Schema::choice`. -/
def choice (left right : Nat) : SM D V Nat := do
  let l ← patt left
  let r ← patt right
  match l, r with
  | .notAllowed, _ => pure right
  | _, .notAllowed => pure left
  | l, r =>
    if left = right then pure left
    else push (.choice left right (l.nullable || r.nullable))

/-- V:132-144 `Schema::interleave`. -/
def interleave (left right : Nat) : SM D V Nat := do
  let l ← patt left
  let r ← patt right
  match l, r with
  | .notAllowed, _ => notAllowed
  | _, .notAllowed => notAllowed
  | .empty, _ => pure right
  | _, .empty => pure left
  | l, r => push (.interleave left right (l.nullable && r.nullable))

/-- V:145-153 `Schema::group`. -/
def group (left right : Nat) : SM D V Nat := do
  let l ← patt left
  let r ← patt right
  match l, r with
  | .notAllowed, _ => notAllowed
  | _, .notAllowed => notAllowed
  | .empty, _ => pure right
  | _, .empty => pure left
  | l, r => push (.group left right (l.nullable && r.nullable))

/-- V:154-160 `Schema::after` (the code looks at `p1` twice and never at `p2`). -/
def after (p1 p2 : Nat) : SM D V Nat := do
  let a ← patt p1
  let b ← patt p1
  match a, b with
  | _, .notAllowed => notAllowed
  | .notAllowed, _ => notAllowed
  | _, _ => push (.after p1 p2)

/-- V:162-164 `Schema::mixed`: Rust evaluates `self.text()` while building the arguments of
`interleave`. -/
def mixed (p : Nat) : SM D V Nat := do
  let t ← mkText
  interleave p t

/-- V:174-177 `Schema::one_or_more`. -/
def oneOrMore (i : Nat) : SM D V Nat := do
  let p ← patt i
  push (.oneOrMore i p.nullable)

/-- V:178-180. -/
def mkAttribute (nc : NameClass) (p : Nat) : SM D V Nat := push (.attr nc p)
/-- V:181-183. -/
def mkElement (nc : NameClass) (p : Nat) : SM D V Nat := push (.element nc p)
/-- V:184-186. -/
def datatypeValue (v : V) : SM D V Nat := push (.datatypeValue v)
/-- V:187-193. -/
def datatypeName (d : D) (ex : Option Nat) : SM D V Nat :=
  match ex with
  | some e => push (.datatypeExcept d e)
  | none => push (.datatype d)
/-- V:194-196. -/
def mkList (p : Nat) : SM D V Nat := push (.list p)

omit [DecidableEq D] [DecidableEq V] in
/-- V:197-200 `get_ref`. -/
def getRef (n : Nat) : SM D V (Option Nat) := fun st => .ok (st.refs.lookup n, st)

/-- V:207-217 `ref_placeholder`. -/
def refPlaceholder (n : Nat) : SM D V Nat := do
  let id ← push (.placeholder n)
  fun st => .ok (id, { st with refs := (n, id) :: st.refs })

omit [DecidableEq D] [DecidableEq V] in
/-- is this pattern a placeholder -/
def Pat.isPlaceholder : Pat D V → Bool
  | .placeholder _ => true
  | _ => false

omit [DecidableEq D] [DecidableEq V] in
/-- V:218-239 `resolve_ref`. -/
def resolveRef (ph id : Nat) : SM D V Unit :=
  if ph = id then pure ()
  else do
    let target ← patt id
    if target.isPlaceholder then ST.fault .resolveTarget
    else do
      let slot ← patt ph
      if slot.isPlaceholder then
        fun st => .ok ((), { st with pats := st.pats.set ph target })
      else ST.fault .resolveSlot

end Verif
