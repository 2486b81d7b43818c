import Verif.Model.Store
/-
The derivative functions of the validator: relaxng-validator/src/lib.rs V:865-1198.
-/
namespace Verif

/-- `xml::common::is_whitespace_str` (crate xml-rs) and V:1545-1551 `is_whitespace_char`/
`is_whitespace_str`: both are "all characters are one of space, tab, CR, LF". -/
def isXmlWs (c : Char) : Bool := c == ' ' || c == '\t' || c == '\r' || c == '\n'
def isWsStr (s : Str) : Bool := s.all isXmlWs

/-- Rust `char::is_whitespace` (Unicode White_Space), used by `str::split_whitespace` at V:937. -/
def isUniWs (c : Char) : Bool :=
  let n := c.toNat
  (9 ≤ n && n ≤ 13) || n == 0x20 || n == 0x85 || n == 0xA0 || n == 0x1680 ||
  (0x2000 ≤ n && n ≤ 0x200A) || n == 0x2028 || n == 0x2029 || n == 0x202F || n == 0x205F ||
  n == 0x3000

/-- worker of `splitWs`; `acc` is the current word reversed. -/
def splitGo : Str → Str → List Str
  | [], acc => if acc = [] then [] else [acc.reverse]
  | c :: cs, acc =>
    if isUniWs c then
      (if acc = [] then splitGo cs [] else acc.reverse :: splitGo cs [])
    else splitGo cs (c :: acc)

/-- Rust `str::split_whitespace` (std): the maximal runs of non-whitespace characters. -/
def splitWs (s : Str) : List Str := splitGo s []

section
variable {D V : Type} [DecidableEq D] [DecidableEq V] (L : Lib D V)

omit [DecidableEq D] [DecidableEq V] in
/-- `Datatypes::is_valid` with its panics. -/
def checkD (d : D) (s : Str) : SM D V Bool :=
  match L.validD d s with
  | some b => pure b
  | none => ST.fault .unimplemented

omit [DecidableEq D] [DecidableEq V] in
/-- `DatatypeValues::is_valid` with its panics. -/
def checkV (v : V) (s : Str) : SM D V Bool :=
  match L.validV v s with
  | some b => pure b
  | none => ST.fault .unimplemented

omit [DecidableEq D] [DecidableEq V] in
/-- V:936-944 the loop of the `Pat::List` arm; `(id, true)` is the early `return p`. -/
def listLoop (td : Pat D V → Str → SM D V Nat) : Nat → List Str → SM D V (Nat × Bool)
  | p, [] => pure (p, false)
  | p, item :: rest => do
    let pat ← patt p
    let p' ← td pat item
    let q ← patt p'
    if q.isNotAllowed then pure (p', true) else listLoop td p' rest

/-- V:865-984 `text_deriv`. -/
def textDeriv : Nat → Pat D V → Str → SM D V Nat
  | 0, _, _ => ST.fault .fuel
  | n + 1, cur, t =>
    match cur with
    | .choice l r _ => do
      let p1 ← patt l
      let p2 ← patt r
      let a ← textDeriv n p1 t
      let b ← textDeriv n p2 t
      choice a b
    | .interleave l r _ => do
      let pat1 ← patt l
      let pat2 ← patt r
      let d1 ← textDeriv n pat1 t
      let a ← interleave d1 r
      let d2 ← textDeriv n pat2 t
      let b ← interleave l d2
      choice a b
    | .group l r _ => do
      let pat1 ← patt l
      let pat2 ← patt r
      let d1 ← textDeriv n pat1 t
      let p ← group d1 r
      if pat1.nullable then do
        let d2 ← textDeriv n pat2 t
        choice p d2
      else pure p
    | .after l r => do
      let pat1 ← patt l
      let d ← textDeriv n pat1 t
      after d r
    | .oneOrMore i _ => do
      let pat ← patt i
      let d ← textDeriv n pat t
      let o ← oneOrMore i
      let e ← mkEmpty
      let c ← choice o e
      group d c
    | .text => mkText
    | .datatype d => do
      let b ← checkD L d t
      if b then mkEmpty else notAllowed
    | .datatypeValue v => do
      let b ← checkV L v t
      if b then mkEmpty else notAllowed
    | .datatypeExcept d ex => do
      let pat ← patt ex
      let i ← textDeriv n pat t
      let pat2 ← patt i
      let b ← checkD L d t
      if b && !pat2.nullable then mkEmpty else notAllowed
    | .list i => do
      let r ← listLoop (textDeriv n) i (splitWs t)
      if r.2 then pure r.1
      else do
        let last ← patt r.1
        if last.isEmpty then pure r.1
        else if last.nullable then do
          let l ← mkList r.1
          let e ← mkEmpty
          choice l e
        else mkList r.1
    | .empty => if isWsStr t then mkEmpty else notAllowed
    | .notAllowed => notAllowed
    | .attr _ _ => notAllowed
    | .element nc i => if isWsStr t then push (.element nc i) else notAllowed
    | .placeholder _ => ST.fault .placeholder

/-- V:1061-1082 `apply_after`. -/
def applyAfter (f : Nat → SM D V Nat) : Nat → Pat D V → SM D V Nat
  | 0, _ => ST.fault .fuel
  | n + 1, pat =>
    match pat with
    | .after p1 p2 => do
      let p2' ← f p2
      after p1 p2'
    | .choice p1 p2 _ => do
      let a ← patt p1
      let b ← patt p2
      let c1 ← applyAfter f n a
      let c2 ← applyAfter f n b
      choice c1 c2
    | .notAllowed => notAllowed
    | _ => ST.fault .applyAfter

/-- V:986-1057 `start_tag_open_deriv`. -/
def startTagOpenDeriv : Nat → Pat D V → QName → SM D V Nat
  | 0, _, _ => ST.fault .fuel
  | n + 1, cur, name =>
    match cur with
    | .choice l r _ => do
      let left ← patt l
      let right ← patt r
      let d1 ← startTagOpenDeriv n left name
      let d2 ← startTagOpenDeriv n right name
      choice d1 d2
    | .oneOrMore pid _ => do
      let p ← patt pid
      let d ← startTagOpenDeriv n p name
      let dp ← patt d
      applyAfter (fun pat => do
        let o ← oneOrMore pid
        let e ← mkEmpty
        let c ← choice o e
        group pat c) n dp
    | .interleave pid1 pid2 _ => do
      let p1 ← patt pid1
      let p2 ← patt pid2
      let d1 ← startTagOpenDeriv n p1 name
      let dp1 ← patt d1
      let c1 ← applyAfter (fun pat => interleave pat pid2) n dp1
      let d2 ← startTagOpenDeriv n p2 name
      let dp2 ← patt d2
      let c2 ← applyAfter (fun pat => interleave pid1 pat) n dp2
      choice c1 c2
    | .group pid1 pid2 _ => do
      let p1 ← patt pid1
      let _p2 ← patt pid2
      let d1 ← startTagOpenDeriv n p1 name
      let dp1 ← patt d1
      let x ← applyAfter (fun pat => group pat pid2) n dp1
      if p1.nullable then do
        let p2 ← patt pid2
        let d2 ← startTagOpenDeriv n p2 name
        choice x d2
      else pure x
    | .element nc pat =>
      if contains nc name then do
        let e ← mkEmpty
        after pat e
      else notAllowed
    | .after pid1 pid2 => do
      let p1 ← patt pid1
      let d ← startTagOpenDeriv n p1 name
      let dp ← patt d
      applyAfter (fun pat => after pat pid2) n dp
    | .placeholder _ => ST.fault .placeholder
    | _ => notAllowed

/-- V:1139-1146 `value_match`. -/
def valueMatch (n : Nat) (pat : Pat D V) (val : Str) : SM D V Bool :=
  if pat.nullable && isWsStr val then pure true
  else do
    let d ← textDeriv L n pat val
    let p ← patt d
    pure p.nullable

/-- the `memo: &mut HashMap<PatId, PatId>` argument of `att_deriv`, newest binding first -/
abbrev AttMemo := List (Nat × Nat)

/-- V:1118-1123: `if .. { schema.empty() } else { schema.not_allowed() }` -/
def emptyIf (b : Bool) : SM D V Nat := if b then mkEmpty else notAllowed

/-- V:1097-1133 the `match` of `att_deriv`; `rec` is the recursive call, the mutable memo is
returned with the result. -/
def attArm (rec : AttMemo → Nat → SM D V (Nat × AttMemo)) (n : Nat) (memo : AttMemo) (pid : Nat)
    (pat : Pat D V) (att : Attr) : SM D V (Nat × AttMemo) :=
  match pat with
  | .after p1 p2 => do
    let d ← rec memo p1
    let v ← after d.1 p2
    pure (v, d.2)
  | .choice p1 p2 _ => do
    let c1 ← rec memo p1
    let c2 ← rec c1.2 p2
    let v ← choice c1.1 c2.1
    pure (v, c2.2)
  | .group p1 p2 _ => do
    let d1 ← rec memo p1
    let s1 ← group d1.1 p2
    let d2 ← rec d1.2 p2
    let s2 ← group p1 d2.1
    let v ← choice s1 s2
    pure (v, d2.2)
  | .interleave p1 p2 _ => do
    let d1 ← rec memo p1
    let i1 ← interleave d1.1 p2
    let d2 ← rec d1.2 p2
    let i2 ← interleave p1 d2.1
    let v ← choice i1 i2
    pure (v, d2.2)
  | .oneOrMore p _ => do
    let s1 ← rec memo p
    let e ← mkEmpty
    let s2 ← choice pid e
    let v ← group s1.1 s2
    pure (v, s1.2)
  | .attr nc p => do
    let attPat ← patt p
    if contains nc att.name then do
      let b ← valueMatch L n attPat att.value
      let v ← emptyIf b
      pure (v, memo)
    else do
      let v ← notAllowed
      pure (v, memo)
  | _ => do
    let v ← notAllowed
    pure (v, memo)

/-- V:1084-1137 `att_deriv`. -/
def attDeriv : Nat → AttMemo → Nat → Attr → SM D V (Nat × AttMemo)
  | 0, _, _, _ => ST.fault .fuel
  | n + 1, memo, pid, att =>
    match memo.lookup pid with
    | some r => pure (r, memo)
    | none => do
      let pat ← patt pid
      let r ← attArm L (fun m p => attDeriv n m p att) n memo pid pat att
      pure (r.1, (pid, r.1) :: r.2)

/-- V:1148-1177 `start_tag_close_deriv`. -/
def startTagCloseDeriv : Nat → Nat → SM D V Nat
  | 0, _ => ST.fault .fuel
  | n + 1, pid => do
    let pat ← patt pid
    match pat with
    | .after p1 p2 => do
      let a1 ← startTagCloseDeriv n p1
      after a1 p2
    | .choice p1 p2 _ => do
      let c1 ← startTagCloseDeriv n p1
      let c2 ← startTagCloseDeriv n p2
      choice c1 c2
    | .group p1 p2 _ => do
      let c1 ← startTagCloseDeriv n p1
      let c2 ← startTagCloseDeriv n p2
      group c1 c2
    | .interleave p1 p2 _ => do
      let c1 ← startTagCloseDeriv n p1
      let c2 ← startTagCloseDeriv n p2
      interleave c1 c2
    | .oneOrMore p _ => do
      let _o ← startTagCloseDeriv n p
      oneOrMore p
    | .attr _ _ => notAllowed
    | _ => pure pid

/-- V:1179-1198 `end_tag_deriv`. -/
def endTagDeriv : Nat → Pat D V → SM D V Nat
  | 0, _ => ST.fault .fuel
  | n + 1, pat =>
    match pat with
    | .choice p1 p2 _ => do
      let a ← patt p1
      let b ← patt p2
      let c1 ← endTagDeriv n a
      let c2 ← endTagDeriv n b
      choice c1 c2
    | .after p1 p2 => do
      let a ← patt p1
      if a.nullable then pure p2 else notAllowed
    | _ => notAllowed

end
end Verif
