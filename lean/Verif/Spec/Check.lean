import Verif.Spec.WellFormed
import Verif.Spec.Seen
/-
A mechanical test of the conditions on schemas that C01, C02 and what follows from them ask for (Spec/WellFormed): functions that can
be run on any schema.  The test is sufficient, not necessary; references are followed to the depth `k`.
-/
namespace Verif.Check
variable {D V : Type}

mutual
/-- may the pattern match nothing at all?  `o` answers for references. -/
def mayEmpty (o : Nat → Bool) : Pattern D V → Bool
  | .empty => true
  | .text => true
  | .optional _ => true
  | .zeroOrMore _ => true
  | .choice ps => mayEmptyAny o ps
  | .group ps => mayEmptyAll o ps
  | .interleave ps => mayEmptyAll o ps
  | .mixed p => mayEmpty o p
  | .oneOrMore p => mayEmpty o p
  | .ref n => o n
  | _ => false
def mayEmptyAny (o : Nat → Bool) : List (Pattern D V) → Bool
  | [] => false
  | p :: ps => mayEmpty o p || mayEmptyAny o ps
def mayEmptyAll (o : Nat → Bool) : List (Pattern D V) → Bool
  | [] => true
  | p :: ps => mayEmpty o p && mayEmptyAll o ps
end

/-- the same for a definition -/
def refEmpty (env : Env D V) : Nat → Nat → Bool
  | 0, _ => true
  | k + 1, n => match env[n]? with
    | none => false
    | some p => mayEmpty (refEmpty env k) p

mutual
/-- exceptions are choices of values and datatypes -/
def exOK (o : Nat → Bool) : Pattern D V → Bool
  | .datatypeValue _ => true
  | .datatypeName _ => true
  | .datatypeNameExcept _ e => exOK o e
  | .notAllowed => true
  | .choice ps => !ps.isEmpty && exOKAll o ps
  | .ref n => o n
  | _ => false
def exOKAll (o : Nat → Bool) : List (Pattern D V) → Bool
  | [] => true
  | p :: ps => exOK o p && exOKAll o ps
end

mutual
/-- no `list` outside the attributes and child elements -/
def listFree (o : Nat → Bool) : Pattern D V → Bool
  | .choice ps => listFreeAll o ps
  | .group ps => listFreeAll o ps
  | .interleave ps => listFreeAll o ps
  | .mixed p => listFree o p
  | .optional p => listFree o p
  | .zeroOrMore p => listFree o p
  | .oneOrMore p => listFree o p
  | .list _ => false
  | .ref n => o n
  | _ => true
def listFreeAll (o : Nat → Bool) : List (Pattern D V) → Bool
  | [] => true
  | p :: ps => listFree o p && listFreeAll o ps
end

mutual
/-- no attribute outside the child elements -/
def attrFree (o : Nat → Bool) : Pattern D V → Bool
  | .choice ps => attrFreeAll o ps
  | .group ps => attrFreeAll o ps
  | .interleave ps => attrFreeAll o ps
  | .mixed p => attrFree o p
  | .optional p => attrFree o p
  | .zeroOrMore p => attrFree o p
  | .oneOrMore p => attrFree o p
  | .attr _ _ => false
  | .ref n => o n
  | _ => true
def attrFreeAll (o : Nat → Bool) : List (Pattern D V) → Bool
  | [] => true
  | p :: ps => attrFree o p && attrFreeAll o ps
end

mutual
/-- attributes inside a repeated pattern are not grouped or interleaved with anything; `f` tests for no attributes -/
def repeatOK (f : Pattern D V → Bool) (o : Nat → Bool) : Pattern D V → Bool
  | .choice ps => repeatOKAll f o ps
  | .optional p => repeatOK f o p
  | .zeroOrMore p => repeatOK f o p
  | .oneOrMore p => repeatOK f o p
  | .attr _ _ => true
  | .ref n => o n
  | p => f p
def repeatOKAll (f : Pattern D V → Bool) (o : Nat → Bool) : List (Pattern D V) → Bool
  | [] => true
  | p :: ps => repeatOK f o p && repeatOKAll f o ps
end

/-- follows references to the depth `k`, there the answer is no -/
def deep (env : Env D V) (test : (Nat → Bool) → Pattern D V → Bool) : Nat → Nat → Bool
  | 0, _ => false
  | k + 1, n => match env[n]? with
    | none => false
    | some p => test (deep env test k) p

/-- the definitions mentioned in those numbered `ns`, to the depth `k` -/
def reach (env : Env D V) : Nat → List Nat → List Nat
  | 0, ns => ns
  | k + 1, ns => reach env k (ns ++ (ns.flatMap fun n => match env[n]? with | none => [] | some p => p.refs.filter (! ns.contains ·)).eraseDups)

/-- `q` does not use definition `n`: there is a set of definitions that contains all those it mentions and all those these mention,
but not `n` -/
def notUses (env : Env D V) (k : Nat) (q : Pattern D V) (n : Nat) : Bool :=
  let S := reach env k q.refs
  q.refs.all S.contains && (S.all fun m => match env[m]? with | none => true | some p => p.refs.all S.contains) && ! S.contains n

/-- definition `n` does not use itself -/
def notRecursive (env : Env D V) (k n : Nat) : Bool :=
  match env[n]? with
  | none => true
  | some q => notUses env k q n

/-- the set contains all definitions mentioned in `q` and in its members -/
def closed (env : Env D V) (S : List Nat) (q : Pattern D V) : Bool :=
  q.refs.all S.contains && S.all fun m => match env[m]? with | none => true | some p => p.refs.all S.contains

/-- no definition that `start` uses is just another name for one that uses it -/
def noAlias (env : Env D V) (k : Nat) (start : Pattern D V) : Bool :=
  closed env (reach env k start.refs) start && (reach env k start.refs).all fun n => match env[n]? with
    | none => true
    | some q => q.aliases.all fun m => match env[m]? with
      | none => true
      | some b => notUses env k b n

/-- a reference to `n` may stand inside a repetition, attribute or list -/
def fresh (env : Env D V) (k n : Nat) : Bool := ! refEmpty env k n || notRecursive env k n

mutual
/-- the pattern down to its elements; `lf`, `rp`, `ex`, `fr` are the tests above, `o` answers for references -/
def wf (lf rp ex : Pattern D V → Bool) (fr : Nat → Bool) (o : Bool → Bool → Nat → Bool) : Bool → Bool → Pattern D V → Bool
  | s, l, .choice ps => ! ps.isEmpty && wfAll lf rp ex fr o s l ps
  | s, l, .group ps => ! ps.isEmpty && wfAll lf rp ex fr o s l ps
  | s, l, .interleave ps => ! ps.isEmpty && wfAll lf rp ex fr o s l ps && ps.all lf
  | s, l, .mixed p => wf lf rp ex fr o s l p && lf p
  | s, l, .optional p => wf lf rp ex fr o s l p
  | _, l, .zeroOrMore p => wf lf rp ex fr o true l p && rp p
  | _, l, .oneOrMore p => wf lf rp ex fr o true l p && rp p
  | _, _, .attr _ p => wf lf rp ex fr o true true p
  | s, l, .ref n => o s l n && (! s || fr n)
  | _, _, .datatypeNameExcept _ e => ex e
  | _, l, .list p => l && wf lf rp ex fr o true false p
  | _, _, _ => true
def wfAll (lf rp ex : Pattern D V → Bool) (fr : Nat → Bool) (o : Bool → Bool → Nat → Bool) : Bool → Bool → List (Pattern D V) → Bool
  | _, _, [] => true
  | s, l, p :: ps => wf lf rp ex fr o s l p && wfAll lf rp ex fr o s l ps
end

section
variable (env : Env D V) (k : Nat)

def listFreeIn : Pattern D V → Bool := listFree (deep env listFree k)
def attrFreeIn : Pattern D V → Bool := attrFree (deep env attrFree k)
def repeatOKIn : Pattern D V → Bool := repeatOK (attrFreeIn env k) (deep env (repeatOK (attrFreeIn env k)) k)
def exOKIn : Pattern D V → Bool := exOK (deep env exOK k)

/-- the same for a definition -/
def refWf : Nat → Bool → Bool → Nat → Bool
  | 0, _, _, _ => false
  | j + 1, s, l, n => match env[n]? with
    | none => false
    | some p => wf (listFreeIn env k) (repeatOKIn env k) (exOKIn env k) (fresh env k) (refWf j) s l p

def wfIn (s l : Bool) : Pattern D V → Bool := wf (listFreeIn env k) (repeatOKIn env k) (exOKIn env k) (fresh env k) (refWf env k k) s l
end

mutual
/-- the contents of all elements in the pattern, at any depth -/
def contents : Pattern D V → List (Pattern D V)
  | .choice ps => contentsL ps
  | .interleave ps => contentsL ps
  | .group ps => contentsL ps
  | .mixed p => contents p
  | .optional p => contents p
  | .zeroOrMore p => contents p
  | .oneOrMore p => contents p
  | .attr _ p => contents p
  | .element _ p => p :: contents p
  | .datatypeNameExcept _ p => contents p
  | .list p => contents p
  | _ => []
def contentsL : List (Pattern D V) → List (Pattern D V)
  | [] => []
  | p :: ps => contents p ++ contentsL ps
end

mutual
/-- the start pattern is a choice of elements -/
def startOK (o : Nat → Bool) : Pattern D V → Bool
  | .element _ _ => true
  | .notAllowed => true
  | .choice ps => ! ps.isEmpty && startOKAll o ps
  | .ref n => o n
  | _ => false
def startOKAll (o : Nat → Bool) : List (Pattern D V) → Bool
  | [] => true
  | p :: ps => startOK o p && startOKAll o ps
end

/-- `start` and the definitions it uses -/
def bodies (env : Env D V) (k : Nat) (start : Pattern D V) : List (Pattern D V) := start :: (reach env k start.refs).filterMap (env[·]?)

/-- The test: the start pattern is a choice of elements, and it and the contents of all elements are well-formed. -/
def schema (env : Env D V) (k : Nat) (start : Pattern D V) : Bool :=
  startOK (deep env startOK k) start && closed env (reach env k start.refs) start && wfIn env k false true start &&
    (contentsL (bodies env k start)).all (wfIn env k false true)

/-- how far references have to be followed -/
def depth (env : Env D V) : Nat := 4 * env.length + (refsL env).length + 2

mutual
/-- character data outside the attributes and child elements is described by nothing but `text` and `mixed` -/
def onlyText (o : Nat → Bool) : Pattern D V → Bool
  | .choice ps => onlyTextAll o ps
  | .group ps => onlyTextAll o ps
  | .interleave ps => onlyTextAll o ps
  | .mixed p => onlyText o p
  | .optional p => onlyText o p
  | .zeroOrMore p => onlyText o p
  | .oneOrMore p => onlyText o p
  | .ref n => o n
  | .list _ => false
  | .datatypeValue _ => false
  | .datatypeName _ => false
  | .datatypeNameExcept _ _ => false
  | _ => true
def onlyTextAll (o : Nat → Bool) : List (Pattern D V) → Bool
  | [] => true
  | p :: ps => onlyText o p && onlyTextAll o ps
end

/-- no element of the schema asks for data -/
def textSchema (env : Env D V) (k : Nat) (start : Pattern D V) : Bool :=
  closed env (reach env k start.refs) start && (contentsL (bodies env k start)).all (onlyText (deep env onlyText k))

/-- character data among these pieces is written in several tokens -/
def broken : Bool → List XNode → Bool
  | _, [] => false
  | prev, .text _ :: xs => prev || broken true xs
  | prev, .cdata _ :: xs => prev || broken true xs
  | prev, .comment :: xs => broken prev xs
  | prev, .pi :: xs => broken prev xs
  | _, .elem _ _ _ _ _ :: xs => broken false xs

mutual
/-- character data is nowhere broken -/
def whole : XNode → Bool
  | .elem _ _ _ _ kids => ! broken false kids && wholeAll kids
  | _ => true
def wholeAll : List XNode → Bool
  | [] => true
  | x :: xs => whole x && wholeAll xs
end

end Verif.Check
