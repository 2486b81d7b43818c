import Verif.Model.XmlSpans
import Verif.Proof.XmlLeaf
/-
The XML reader with positions reads the same as the one without.
-/
namespace Verif.LXml
open Verif Verif.At Verif.XS

/-- what is left of an outcome without positions and error -/
def pl {α β : Type} (g : α → β) : R α → Option β
  | .ok a => some (g a)
  | .error _ => none

@[simp] theorem pl_ok {α β : Type} (g : α → β) (a : α) : pl g (.ok a : R α) = some (g a) := rfl
@[simp] theorem pl_error {α β : Type} (g : α → β) (e : XErr) : pl g (.error e : R α) = none := rfl

theorem pl_bind {α β α' β' : Type} {g : α → β} {h : α' → β'} {x : R α} {f : α → R α'} {x' : Option β} {f' : β → Option β'}
    (hx : pl g x = x') (hf : ∀ a, pl h (f a) = f' (g a)) : pl h (x >>= f) = x' >>= f' := by
  subst hx
  cases x with
  | ok a => exact hf a
  | error e => rfl

theorem pl_orErr {α β : Type} {g : α → β} {e : XErr} {x : Option α} {x' : Option β} (h : x.map g = x') : pl g (orErr e x) = x' := by
  subst h; cases x <;> rfl

theorem foldl1_map {α β : Type} {g : α → β} {op : α → α → α} {op' : β → β → β} (h : ∀ a b, g (op a b) = op' (g a) (g b)) (l : List α) :
    (foldl1 op l).map g = foldl1 op' (l.map g) := by
  cases l with
  | nil => rfl
  | cons a l =>
    simp only [foldl1, Option.map_some, List.map_cons]
    congr 1
    induction l generalizing a with
    | nil => rfl
    | cons b l ih => simp only [List.foldl_cons, List.map_cons]; rw [ih, h]

def okOf (uri : Str → UriKind) (v : Str) : Bool := decide (uri v = .fine)

theorem isRng_plain (k : LNode) : isRngNode k.plain = isRng k := by cases k <;> rfl
theorem isElem_plain (k : LNode) : isElement k.plain = isElem k := by cases k <;> rfl

theorem plainNodes_map (ks : List LNode) : plainNodes ks = ks.map LNode.plain := by
  induction ks with
  | nil => rfl
  | cons k ks ih => simp only [plainNodes, List.map_cons, ih]

theorem find_any {α : Type} (p : α → Bool) (l : List α) : l.any p = (l.find? p).isSome := by
  induction l with
  | nil => rfl
  | cons a l ih =>
    simp only [List.any_cons, List.find?_cons]
    cases p a <;> simp [ih]

theorem any_plain (l : List LNode) : (plainNodes l).any isRngNode = (l.find? isRng).isSome := by
  rw [plainNodes_map, List.any_map, ← find_any]
  congr 1
  funext k
  exact isRng_plain k

theorem attr_plain (k : Str) (as : List LAttr) : att k (as.map LAttr.plain) = (attr k as).map LAttr.value := by
  unfold att attr
  induction as with
  | nil => rfl
  | cons a as ih =>
    simp only [List.map_cons, List.find?_cons]
    have e : (a.plain.ns == none && a.plain.name == k) = (a.ns == none && a.name == k) := rfl
    rw [e]
    cases (a.ns == none && a.name == k) with
    | true => rfl
    | false => exact ih

theorem noAttrsExcept_plain (names : List Str) (as : List LAttr) : pl id (noAttrsExcept names as) = noAttsExcept names (as.map LAttr.plain) := by
  unfold noAttrsExcept noAttsExcept
  rw [List.any_map, find_any]
  have e : (fun a => rngAtt a && !names.contains a.name) = ((fun a => isRngAtt a && !names.contains a.name) ∘ LAttr.plain) := rfl
  rw [← e]
  cases as.find? fun a => rngAtt a && !names.contains a.name <;> rfl

theorem nearestAttr_plain (k : Str) (cx : LAnc) : nearest k (plainAnc cx) = (nearestAttr k cx).map LAttr.value := by
  induction cx with
  | nil => rfl
  | cons as up ih =>
    have e : plainAnc (as :: up) = as.map LAttr.plain :: plainAnc up := rfl
    rw [e]
    unfold nearest nearestAttr
    rw [attr_plain]
    cases attr k as with
    | some a => rfl
    | none => exact ih

theorem nsOf_plain (cx : LAnc) : getNs (plainAnc cx) = nsOf cx := by
  unfold getNs nsOf
  rw [nearestAttr_plain]
  cases nearestAttr "ns".toList cx <;> rfl

theorem libOf_plain (cx : LAnc) : getLib (plainAnc cx) = (libOf cx).2 := by
  unfold getLib libOf
  rw [nearestAttr_plain]
  cases nearestAttr "datatypeLibrary".toList cx <;> rfl

theorem checkStdAttrs_plain (uri : Str → UriKind) (as : List LAttr) :
    pl id (checkStdAttrs uri as) = checkStandardAttrs (okOf uri) (as.map LAttr.plain) := by
  unfold checkStdAttrs checkStandardAttrs
  rw [attr_plain]
  cases attr "datatypeLibrary".toList as with
  | none => rfl
  | some a =>
    simp only [Option.map_some]
    cases hv : a.value with
    | nil => rfl
    | cons c v =>
      simp only [reduceCtorEq, if_false, okOf, decide_eq_true_eq]
      cases uri (c :: v) <;> rfl

theorem noRngChildren_plain (kids : List LNode) : pl id (noRngChildren kids) = noRngKids (plainNodes kids) := by
  unfold noRngChildren noRngKids
  rw [any_plain]
  cases kids.find? isRng <;> rfl

theorem noMore_plain (msg : String) (kids : List LNode) : pl id (noMore msg kids) = noRngKids (plainNodes kids) := by
  unfold noMore noRngKids
  rw [any_plain]
  cases kids.find? isRng <;> rfl

theorem noElemChildren_plain (kids : List LNode) : pl id (noElemChildren kids) = noElementKids (plainNodes kids) := by
  unfold noElemChildren noElementKids
  have : (plainNodes kids).any isElement = (kids.find? isElem).isSome := by
    rw [plainNodes_map, List.any_map, ← find_any]
    congr 1
    funext k
    exact isElem_plain k
  rw [this]
  cases kids.find? isElem <;> rfl

/-- the characters after the first -/
theorem scanName_rest {msg : String} {lo : Nat} : ∀ (s : Str) (i : Nat), 0 < i → ((∃ u, scanName msg lo i s = .ok u) ↔ s.all xmlNcNameChar = true)
  | [], i, h => by simp [scanName]
  | c :: cs, i, h => by
    have hi : i ≠ 0 := by omega
    simp only [scanName, if_neg hi, List.all_cons, Bool.and_eq_true]
    cases hc : xmlNcNameChar c with
    | true => simp only [if_true, true_and]; exact scanName_rest cs _ (by omega)
    | false => simp

theorem ncname_plain (msg : String) (r : Rg) (v : Str) : pl id (ncname msg r v) = xmlNcname v := by
  unfold ncname xmlNcname
  cases trim v with
  | nil => rfl
  | cons c cs =>
    rw [if_neg (by nofun)]
    simp only [scanName, if_true]
    cases hc : xmlNcNameStartChar c with
    | false => rfl
    | true =>
      simp only [if_true, Bool.true_and]
      have := scanName_rest (msg := msg) (lo := r.lo) cs (0 + c.utf8Size) (by have := c.utf8Size_pos; omega)
      cases hs : scanName msg r.lo (0 + c.utf8Size) cs with
      | ok u => rw [if_pos (this.1 ⟨u, hs⟩)]; rfl
      | error e =>
        rw [if_neg]
        · rfl
        · intro h
          obtain ⟨u, hu⟩ := this.2 h
          rw [hs] at hu; cases hu

theorem attrName_plain (a : LAttr) : pl id (attrName a) = attrNcname a.value := by
  unfold attrName attrNcname
  split
  · rfl
  · exact ncname_plain _ _ _

theorem qnameAttr_plain (scope : List (Option Str × Str)) (cx : LAnc) (a : LAttr) :
    pl LNameClass.plain (qnameAttr scope cx a) = qnameAtt scope (plainAnc cx) a.value := by
  unfold qnameAttr qnameAtt
  cases splitColon a.value with
  | some q =>
    obtain ⟨pre, loc⟩ := q
    refine pl_bind (g := id) (pl_orErr (by simp)) fun u => ?_
    refine pl_bind (ncname_plain _ _ _) fun l => rfl
  | none =>
    refine pl_bind (ncname_plain _ _ _) fun l => ?_
    rw [nsOf_plain]; rfl

theorem elemText_plain (kids : List LNode) : elementText (plainNodes kids) = (elemText kids).map Prod.snd := by
  cases kids with
  | nil => rfl
  | cons k ks => cases k <;> rfl

theorem textOf_plain (k : LNode) : nodeText k.plain = textOf k := by
  cases k with
  | element r ns name sc as kids => exact elemText_plain kids
  | _ => rfl

theorem qnameElem_plain (r : Rg) (cx : LAnc) (kids : List LNode) :
    pl LNameClass.plain (qnameElem r cx kids) = qnameEl (plainAnc cx) (plainNodes kids) := by
  unfold qnameElem qnameEl
  refine pl_bind (noElemChildren_plain kids) fun u => ?_
  rw [elemText_plain]
  cases elemText kids with
  | none => rfl
  | some tv =>
    obtain ⟨tr, v⟩ := tv
    simp only [Option.map_some, Option.bind_eq_bind, Option.bind_some]
    cases splitColon v with
    | some q =>
      obtain ⟨pre, loc⟩ := q
      refine pl_bind (ncname_plain _ _ _) fun p => ?_
      refine pl_bind (ncname_plain _ _ _) fun l => rfl
    | none =>
      refine pl_bind (ncname_plain _ _ _) fun l => ?_
      rw [nsOf_plain]; rfl

theorem refTo_plain (r : Rg) (as : List LAttr) (kids : List LNode) : pl Prod.snd (refTo r as kids) = refName (as.map LAttr.plain) (plainNodes kids) := by
  unfold refTo refName
  refine pl_bind (noRngChildren_plain kids) fun u => ?_
  refine pl_bind (g := LAttr.value) (pl_orErr (attr_plain _ _).symm) fun a => ?_
  have := pl_bind (h := Prod.snd) (f := fun n => Except.ok (a.valueAt, n)) (attrName_plain a) (f' := fun n => some n) fun n => rfl
  rw [this]
  show (attrNcname a.value).bind some = _
  cases attrNcname a.value <;> rfl

theorem bareP_plain (p : LPat) (as : List LAttr) (kids : List LNode) : pl LPat.plain (bareP p as kids) = bare p.plain (as.map LAttr.plain) (plainNodes kids) := by
  unfold bareP bare
  refine pl_bind (noAttrsExcept_plain _ _) fun u => ?_
  refine pl_bind (noRngChildren_plain kids) fun u => rfl

theorem valueOf_plain (r : Rg) (kids : List LNode) : pl id (valueOf r kids) = valueText (plainNodes kids) := by
  cases kids with
  | nil => rfl
  | cons k ks => exact pl_orErr (by rw [Option.map_id]; exact (textOf_plain k).symm)

theorem opt_swap {α β γ : Type} {x : Option α} {y : Option β} {f : α → β → Option γ} :
    (do let a ← x; let b ← y; f a b) = (do let b ← y; let a ← x; f a b) := by cases x <;> cases y <;> rfl

theorem valueP_plain (r : Rg) (cx : LAnc) (as : List LAttr) (kids : List LNode) :
    pl LPat.plain (valueP r cx as kids) = value (plainAnc cx) (as.map LAttr.plain) (plainNodes kids) := by
  unfold valueP value
  refine pl_bind (noElemChildren_plain kids) fun u => ?_
  rw [attr_plain]
  cases attr "type".toList as with
  | none => exact pl_bind (valueOf_plain r kids) fun lit => rfl
  | some a =>
    simp only [Option.map_some]
    rw [opt_swap]
    refine pl_bind (ncname_plain _ _ _) fun n => ?_
    refine pl_bind (valueOf_plain r kids) fun lit => ?_
    rw [libOf_plain]; rfl

theorem typeOf_plain (r : Rg) (cx : LAnc) (as : List LAttr) : pl LDtName.plain (typeOf r cx as) = dataType (plainAnc cx) (as.map LAttr.plain) := by
  unfold typeOf dataType
  refine pl_bind (g := LAttr.value) (pl_orErr (attr_plain _ _).symm) fun a => ?_
  split
  · rfl
  · refine pl_bind (ncname_plain _ _ _) fun n => ?_
    rw [libOf_plain]; rfl

theorem paramOf_plain (r : Rg) (as : List LAttr) (kids : List LNode) : pl LParam.plain (paramOf r as kids) = param (as.map LAttr.plain) (plainNodes kids) := by
  unfold paramOf param
  refine pl_bind (g := LAttr.value) (pl_orErr (attr_plain _ _).symm) fun a => ?_
  refine pl_bind (attrName_plain a) fun n => ?_
  cases kids with
  | nil => rfl
  | cons k ks => exact pl_bind (g := id) (pl_orErr (by rw [Option.map_id]; exact (textOf_plain k).symm)) fun v => rfl

theorem hrefOf_plain (r : Rg) (cx : LAnc) (as : List LAttr) : pl Prod.snd (hrefOf r cx as) = href (plainAnc cx) (as.map LAttr.plain) := by
  unfold hrefOf href
  exact pl_bind (g := LAttr.value) (pl_orErr (attr_plain _ _).symm) fun a => rfl

theorem combineOf_plain (as : List LAttr) : pl id (combineOf as) = combine (as.map LAttr.plain) := by
  unfold combineOf combine
  rw [attr_plain]
  cases attr "combine".toList as with
  | none => rfl
  | some a =>
    simp only [Option.map_some]
    split
    · rfl
    · split <;> rfl

theorem checkXmlns_plain (cx : LAnc) (a : LAttr) : pl id (checkXmlns cx a) = xmlnsCheck (plainAnc cx) a.value := by
  unfold checkXmlns xmlnsCheck
  have e : (nearest "ns".toList (plainAnc cx)).getD [] = nsOf cx := nsOf_plain cx
  rw [e, nearestAttr_plain]
  split
  · rfl
  · split <;> rfl

/-! ### name classes -/

theorem lookup_sim {α β γ : Type} {g : α → β} (t : Option γ) {f : Option γ → R α} {f' : Option γ → Option β} (h : ∀ t, pl g (f t) = f' t) :
    pl g (f t) = f' t := h t

mutual
theorem nameClassOf_plain : ∀ (k : LNode) (cx : LAnc) (b : Bool), pl LNameClass.plain (nameClassOf cx b k) = nameClass (plainAnc cx) b k.plain
  | .element r ns name sc as kids, cx, b => by
    unfold nameClassOf
    simp only [LNode.plain]
    unfold nameClass
    split
    · cases ncTags.lookup name with
      | none => rfl
      | some t =>
        cases t with
        | name => exact qnameElem_plain r (as :: cx) kids
        | anyName =>
          cases b with
          | true => rfl
          | false => exact pl_bind (exceptOf_plain kids (as :: cx)) fun e => by cases e <;> rfl
        | nsName =>
          refine pl_bind (exceptOf_plain kids (as :: cx)) fun e => ?_
          have := nsOf_plain (as :: cx)
          rw [show as.map LAttr.plain :: plainAnc cx = plainAnc (as :: cx) from rfl, this]
          cases e <;> rfl
        | choice =>
          refine pl_bind (nameClassesOf_plain kids (as :: cx) b) fun l => ?_
          exact pl_orErr (foldl1_map (fun _ _ => rfl) l)
    · rfl
  | .text _ _, _, _ => rfl
  | .comment _ _, _, _ => rfl
  | .pi _ _ _, _, _ => rfl
theorem nameClassesOf_plain : ∀ (ks : List LNode) (cx : LAnc) (b : Bool),
    pl (List.map LNameClass.plain) (nameClassesOf cx b ks) = nameClasses (plainAnc cx) b (plainNodes ks)
  | [], _, _ => rfl
  | k :: ks, cx, b => by
    unfold nameClassesOf
    simp only [plainNodes]
    unfold nameClasses
    rw [isRng_plain]
    split
    · refine pl_bind (nameClassOf_plain k cx b) fun c => ?_
      exact pl_bind (nameClassesOf_plain ks cx b) fun cs => rfl
    · exact nameClassesOf_plain ks cx b
theorem exceptOf_plain : ∀ (ks : List LNode) (cx : LAnc), pl (Option.map LNameClass.plain) (exceptOf cx ks) = exceptNc (plainAnc cx) (plainNodes ks)
  | [], _ => rfl
  | .element r ns name sc as kids :: ks, cx => by
    unfold exceptOf
    simp only [plainNodes, LNode.plain]
    unfold exceptNc
    split
    · split
      · refine pl_bind (noMore_plain _ ks) fun u => ?_
        refine pl_bind (nameClassesOf_plain kids (as :: cx) true) fun l => ?_
        exact pl_bind (pl_orErr (foldl1_map (fun _ _ => rfl) l)) fun e => rfl
      · rfl
    · exact exceptOf_plain ks cx
  | .text _ _ :: ks, cx => by unfold exceptOf; simp only [plainNodes, LNode.plain]; unfold exceptNc; exact exceptOf_plain ks cx
  | .comment _ _ :: ks, cx => by unfold exceptOf; simp only [plainNodes, LNode.plain]; unfold exceptNc; exact exceptOf_plain ks cx
  | .pi _ _ _ :: ks, cx => by unfold exceptOf; simp only [plainNodes, LNode.plain]; unfold exceptNc; exact exceptOf_plain ks cx
end

theorem nameChildOf_plain (r : Rg) (cx : LAnc) : ∀ ks : List LNode, pl LNameClass.plain (nameChildOf r cx ks) = nameChild (plainAnc cx) (plainNodes ks)
  | [] => rfl
  | k :: ks => by
    unfold nameChildOf
    simp only [plainNodes]
    unfold nameChild
    rw [isRng_plain]
    split
    · exact nameClassOf_plain k cx false
    · exact nameChildOf_plain r cx ks

/-! ### patterns -/

/-- at most one -/
def upToOne {α : Type} : List α → Option (Option α)
  | [] => some none
  | [a] => some (some a)
  | _ => none

theorem attContent_upTo (ps : List SPattern) : attContent ps = (upToOne ps).map (·.getD .text) := by
  match ps with
  | [] => rfl
  | [_] => rfl
  | _ :: _ :: _ => rfl

theorem only_upTo (ps : List SPattern) : only ps = (upToOne ps).bind id := by
  match ps with
  | [] => rfl
  | [_] => rfl
  | _ :: _ :: _ => rfl

theorem patterns_none_rng {ok : Str → Bool} {cx : Anc} : ∀ {ks : List TNode}, ks.any isRngNode = false → patterns ok cx ks = some []
  | [], _ => by simp [patterns]
  | k :: ks, h => by
    simp only [List.any_cons, Bool.or_eq_false_iff] at h
    unfold patterns
    rw [h.1]
    exact patterns_none_rng h.2

theorem patterns_some_rng {ok : Str → Bool} {cx : Anc} : ∀ {ks : List TNode}, ks.any isRngNode = true → patterns ok cx ks ≠ some []
  | [], h => by simp at h
  | k :: ks, h => by
    unfold patterns
    cases hk : isRngNode k with
    | true =>
      intro he
      cases hp : pattern ok cx k with
      | none => rw [hp] at he; cases he
      | some p =>
        cases hq : patterns ok cx ks with
        | none => rw [hp, hq] at he; cases he
        | some ps => rw [hp, hq] at he; cases he
    | false =>
      simp only [List.any_cons, hk, Bool.false_or] at h
      exact patterns_some_rng h

variable (uri : Str → UriKind)

/-- a single pattern, then nothing -/
theorem single_step {ok : Str → Bool} {cx : Anc} {k : TNode} {ks : List TNode} (hk : isRngNode k = true) :
    (patterns ok cx (k :: ks)).bind upToOne = ((pattern ok cx k).bind fun p => (noRngKids ks).bind fun _ => some (some p)) := by
  conv => lhs; unfold patterns
  rw [if_pos hk]
  cases pattern ok cx k with
  | none => rfl
  | some p =>
    unfold noRngKids
    cases hr : ks.any isRngNode with
    | false => rw [patterns_none_rng hr]; rfl
    | true =>
      have := patterns_some_rng (ok := ok) (cx := cx) hr
      cases hq : patterns ok cx ks with
      | none => rfl
      | some ps =>
        cases ps with
        | nil => exact absurd hq this
        | cons q qs => rfl

mutual
theorem patternOf_plain : ∀ (k : LNode) (cx : LAnc), pl LPat.plain (patternOf uri cx k) = pattern (okOf uri) (plainAnc cx) k.plain
  | .element r ns name sc as kids, cx => by
    have hps := patternsOf_plain kids (as :: cx)
    have hseq : ∀ l : List LPat, pl LPat.plain (orErr (.expected r "pattern child") (foldl1 .seq l)) = foldl1 .seq (l.map LPat.plain) :=
      fun l => pl_orErr (foldl1_map (fun _ _ => rfl) l)
    unfold patternOf
    simp only [LNode.plain]
    unfold pattern
    split
    · refine pl_bind (checkStdAttrs_plain uri as) fun u => ?_
      cases patternTags.lookup name with
      | none => rfl
      | some t =>
        cases t with
        | element =>
          refine pl_bind (noAttrsExcept_plain _ _) fun u => ?_
          rw [attr_plain]
          cases attr "name".toList as with
          | some a =>
            refine pl_bind (qnameAttr_plain sc (as :: cx) a) fun nc => ?_
            refine pl_bind hps fun ps => ?_
            exact pl_bind (hseq ps) fun p => rfl
          | none =>
            refine pl_bind (nameChildOf_plain r (as :: cx) kids) fun nc => ?_
            refine pl_bind (afterNameOf_plain kids (as :: cx)) fun ps => ?_
            exact pl_bind (hseq ps) fun p => rfl
        | «attribute» =>
          refine pl_bind (noAttrsExcept_plain _ _) fun u => ?_
          rw [attr_plain]
          cases attr "name".toList as with
          | some a =>
            refine pl_bind (checkXmlns_plain (as :: cx) a) fun u => ?_
            refine pl_bind (qnameAttr_plain sc (as :: cx) a) fun nc => ?_
            have := pl_bind (h := LPat.plain) (f := fun p => Except.ok (.attribute (afterLt r 9) nc (p.getD .text)))
              (singleOf_plain kids (as :: cx) "Unexpected additional child element of <attribute>")
              (f' := fun p => some (.attribute nc.plain (p.getD .text))) fun p => by cases p <;> rfl
            refine this.trans ?_
            show Option.bind (Option.bind (patterns (okOf uri) (plainAnc (as :: cx)) (plainNodes kids)) upToOne) _ = Option.bind (patterns (okOf uri) (plainAnc (as :: cx)) (plainNodes kids)) fun ps => Option.bind (attContent ps) _
            rw [Option.bind_assoc]
            congr 1
            funext ps
            rw [attContent_upTo]
            cases upToOne ps <;> rfl
          | none =>
            refine pl_bind (nameChildOf_plain r (as :: cx) kids) fun nc => ?_
            have := pl_bind (h := LPat.plain) (f := fun p => Except.ok (.attribute (afterLt r 9) nc (p.getD .text)))
              (afterNameSingle_plain kids (as :: cx) "Unexpected additional child element of <attribute>")
              (f' := fun p => some (.attribute nc.plain (p.getD .text))) fun p => by cases p <;> rfl
            refine this.trans ?_
            show Option.bind (Option.bind (afterName (okOf uri) (plainAnc (as :: cx)) (plainNodes kids)) upToOne) _ = Option.bind (afterName (okOf uri) (plainAnc (as :: cx)) (plainNodes kids)) fun ps => Option.bind (attContent ps) _
            rw [Option.bind_assoc]
            congr 1
            funext ps
            rw [attContent_upTo]
            cases upToOne ps <;> rfl
        | group => exact pl_bind hps fun ps => pl_bind (hseq ps) fun p => rfl
        | interleave => exact pl_bind hps fun ps => pl_orErr (foldl1_map (fun _ _ => rfl) ps)
        | choice => exact pl_bind hps fun ps => pl_orErr (foldl1_map (fun _ _ => rfl) ps)
        | «optional» => exact pl_bind hps fun ps => pl_bind (hseq ps) fun p => rfl
        | zeroOrMore => exact pl_bind hps fun ps => pl_bind (hseq ps) fun p => rfl
        | oneOrMore => exact pl_bind hps fun ps => pl_bind (hseq ps) fun p => rfl
        | list => exact pl_bind hps fun ps => pl_bind (hseq ps) fun p => rfl
        | mixed => exact pl_bind hps fun ps => pl_bind (hseq ps) fun p => rfl
        | ref => exact pl_bind (refTo_plain r as kids) fun n => rfl
        | parentRef => exact pl_bind (refTo_plain r as kids) fun n => rfl
        | empty => exact bareP_plain .empty as kids
        | text => exact bareP_plain .text as kids
        | notAllowed => exact bareP_plain .notAllowed as kids
        | value => exact valueP_plain r (as :: cx) as kids
        | data =>
          refine pl_bind (typeOf_plain r (as :: cx) as) fun t => ?_
          refine pl_bind (noAttrsExcept_plain _ _) fun u => ?_
          refine pl_bind (dataRestOf_plain kids (as :: cx)) fun d => ?_
          obtain ⟨ps, e⟩ := d
          cases e <;> rfl
        | externalRef => exact pl_bind (hrefOf_plain r (as :: cx) as) fun h => rfl
        | grammar => exact pl_bind (itemsOf_plain kids (as :: cx)) fun is => rfl
    · rfl
  | .text _ _, _ => rfl
  | .comment _ _, _ => rfl
  | .pi _ _ _, _ => rfl
theorem patternsOf_plain : ∀ (ks : List LNode) (cx : LAnc), pl (List.map LPat.plain) (patternsOf uri cx ks) = patterns (okOf uri) (plainAnc cx) (plainNodes ks)
  | [], _ => rfl
  | k :: ks, cx => by
    unfold patternsOf
    simp only [plainNodes]
    unfold patterns
    rw [isRng_plain]
    split
    · refine pl_bind (patternOf_plain k cx) fun p => ?_
      exact pl_bind (patternsOf_plain ks cx) fun ps => rfl
    · exact patternsOf_plain ks cx
theorem afterNameOf_plain : ∀ (ks : List LNode) (cx : LAnc), pl (List.map LPat.plain) (afterNameOf uri cx ks) = afterName (okOf uri) (plainAnc cx) (plainNodes ks)
  | [], _ => rfl
  | k :: ks, cx => by
    unfold afterNameOf
    simp only [plainNodes]
    unfold afterName
    rw [isRng_plain]
    split
    · exact patternsOf_plain ks cx
    · exact afterNameOf_plain ks cx
theorem singleOf_plain : ∀ (ks : List LNode) (cx : LAnc) (msg : String),
    pl (Option.map LPat.plain) (singleOf uri cx msg ks) = (patterns (okOf uri) (plainAnc cx) (plainNodes ks)).bind upToOne
  | [], _, _ => rfl
  | k :: ks, cx, msg => by
    unfold singleOf
    simp only [plainNodes]
    split
    · next hk =>
      rw [single_step (by rw [isRng_plain]; exact hk)]
      refine pl_bind (patternOf_plain k cx) fun p => ?_
      exact pl_bind (noMore_plain msg ks) fun u => rfl
    · next hk =>
      conv => rhs; unfold patterns
      rw [isRng_plain, if_neg hk]
      exact singleOf_plain ks cx msg
theorem afterNameSingle_plain : ∀ (ks : List LNode) (cx : LAnc) (msg : String),
    pl (Option.map LPat.plain) (afterNameSingle uri cx msg ks) = (afterName (okOf uri) (plainAnc cx) (plainNodes ks)).bind upToOne
  | [], _, _ => rfl
  | k :: ks, cx, msg => by
    unfold afterNameSingle
    simp only [plainNodes]
    conv => rhs; unfold afterName
    rw [isRng_plain]
    split
    · exact singleOf_plain ks cx msg
    · exact afterNameSingle_plain ks cx msg
theorem dataRestOf_plain : ∀ (ks : List LNode) (cx : LAnc),
    pl (fun d => (d.1.map LParam.plain, d.2.map LPat.plain)) (dataRestOf uri cx ks) = dataRest (okOf uri) (plainAnc cx) (plainNodes ks)
  | [], _ => rfl
  | .element r ns name sc as kids :: ks, cx => by
    unfold dataRestOf
    simp only [plainNodes, LNode.plain]
    unfold dataRest
    split
    · split
      · refine pl_bind (paramOf_plain r as kids) fun q => ?_
        exact pl_bind (dataRestOf_plain ks cx) fun d => rfl
      · split
        · refine pl_bind (patternsOf_plain kids (as :: cx)) fun ps => ?_
          refine pl_bind (g := LPat.plain) (pl_orErr (foldl1_map (fun _ _ => rfl) ps)) fun e => ?_
          exact pl_bind (noMore_plain _ ks) fun u => rfl
        · rfl
    · exact dataRestOf_plain ks cx
  | .text _ _ :: ks, cx => by unfold dataRestOf; simp only [plainNodes, LNode.plain]; unfold dataRest; exact dataRestOf_plain ks cx
  | .comment _ _ :: ks, cx => by unfold dataRestOf; simp only [plainNodes, LNode.plain]; unfold dataRest; exact dataRestOf_plain ks cx
  | .pi _ _ _ :: ks, cx => by unfold dataRestOf; simp only [plainNodes, LNode.plain]; unfold dataRest; exact dataRestOf_plain ks cx
theorem itemOf_plain : ∀ (k : LNode) (cx : LAnc), pl LItem.plain (itemOf uri cx k) = item (okOf uri) (plainAnc cx) k.plain
  | .element r ns name sc as kids, cx => by
    have hps := patternsOf_plain kids (as :: cx)
    unfold itemOf
    simp only [LNode.plain]
    unfold item
    split
    · cases itemTags.lookup name with
      | none => rfl
      | some t =>
        cases t with
        | start =>
          refine pl_bind (combineOf_plain as) fun how => ?_
          refine pl_bind (noAttrsExcept_plain _ _) fun u => ?_
          have := pl_bind (h := LItem.plain) (f := fun p => do
              let p ← orErr (.expected r "Child pattern element") p
              .ok (.define (afterLt r 5) "start".toList how p))
            (singleOf_plain kids (as :: cx) "Unexpected element")
            (f' := fun p => p.bind fun p => some (.define "start".toList how p)) fun p => by cases p <;> rfl
          refine this.trans ?_
          show Option.bind (Option.bind (patterns (okOf uri) (plainAnc (as :: cx)) (plainNodes kids)) upToOne) _ = Option.bind (patterns (okOf uri) (plainAnc (as :: cx)) (plainNodes kids)) fun ps => Option.bind (only ps) _
          rw [Option.bind_assoc]
          congr 1
          funext ps
          rw [only_upTo]
          cases upToOne ps <;> rfl
        | define =>
          refine pl_bind (combineOf_plain as) fun how => ?_
          refine pl_bind (g := LAttr.value) (pl_orErr (attr_plain _ _).symm) fun a => ?_
          refine pl_bind (attrName_plain a) fun n => ?_
          refine pl_bind hps fun ps => ?_
          exact pl_bind (pl_orErr (foldl1_map (fun _ _ => rfl) ps)) fun p => rfl
        | div => exact pl_bind (itemsOf_plain kids (as :: cx)) fun is => rfl
        | «include» =>
          refine pl_bind (hrefOf_plain r (as :: cx) as) fun h => ?_
          exact pl_bind (overridesOf_plain kids (as :: cx)) fun os => rfl
    · rfl
  | .text _ _, _ => rfl
  | .comment _ _, _ => rfl
  | .pi _ _ _, _ => rfl
theorem itemsOf_plain : ∀ (ks : List LNode) (cx : LAnc), pl plainItems (itemsOf uri cx ks) = items (okOf uri) (plainAnc cx) (plainNodes ks)
  | [], _ => rfl
  | k :: ks, cx => by
    unfold itemsOf
    simp only [plainNodes]
    unfold items
    rw [isRng_plain]
    split
    · refine pl_bind (itemOf_plain k cx) fun p => ?_
      exact pl_bind (itemsOf_plain ks cx) fun ps => rfl
    · exact itemsOf_plain ks cx
theorem overrideOf_plain : ∀ (k : LNode) (cx : LAnc), pl LOverride.plain (overrideOf uri cx k) = override (okOf uri) (plainAnc cx) k.plain
  | .element r ns name sc as kids, cx => by
    have hps := patternsOf_plain kids (as :: cx)
    unfold overrideOf
    simp only [LNode.plain]
    unfold override
    split
    · cases itemTags.lookup name with
      | none => rfl
      | some t =>
        cases t with
        | start =>
          refine pl_bind (combineOf_plain as) fun how => ?_
          refine pl_bind (noAttrsExcept_plain _ _) fun u => ?_
          have := pl_bind (h := LOverride.plain) (f := fun p => do
              let p ← orErr (.expected r "Child pattern element") p
              .ok (.define (afterLt r 5) "start".toList how p))
            (singleOf_plain kids (as :: cx) "Unexpected element")
            (f' := fun p => p.bind fun p => some (.define "start".toList how p)) fun p => by cases p <;> rfl
          refine this.trans ?_
          show Option.bind (Option.bind (patterns (okOf uri) (plainAnc (as :: cx)) (plainNodes kids)) upToOne) _ = Option.bind (patterns (okOf uri) (plainAnc (as :: cx)) (plainNodes kids)) fun ps => Option.bind (only ps) _
          rw [Option.bind_assoc]
          congr 1
          funext ps
          rw [only_upTo]
          cases upToOne ps <;> rfl
        | define =>
          refine pl_bind (combineOf_plain as) fun how => ?_
          refine pl_bind (g := LAttr.value) (pl_orErr (attr_plain _ _).symm) fun a => ?_
          refine pl_bind (attrName_plain a) fun n => ?_
          refine pl_bind hps fun ps => ?_
          exact pl_bind (pl_orErr (foldl1_map (fun _ _ => rfl) ps)) fun p => rfl
        | div => exact pl_bind (overridesOf_plain kids (as :: cx)) fun is => rfl
        | «include» => rfl
    · rfl
  | .text _ _, _ => rfl
  | .comment _ _, _ => rfl
  | .pi _ _ _, _ => rfl
theorem overridesOf_plain : ∀ (ks : List LNode) (cx : LAnc), pl plainOverrides (overridesOf uri cx ks) = overrides (okOf uri) (plainAnc cx) (plainNodes ks)
  | [], _ => rfl
  | k :: ks, cx => by
    unfold overridesOf
    simp only [plainNodes]
    unfold overrides
    rw [isRng_plain]
    split
    · refine pl_bind (overrideOf_plain k cx) fun p => ?_
      exact pl_bind (overridesOf_plain ks cx) fun ps => rfl
    · exact overridesOf_plain ks cx
end

theorem parse_plain (root : LNode) : pl LSchema.plain (parse uri root) = parseXml (okOf uri) root.plain := by
  cases root with
  | element r ns name sc as kids =>
    unfold parse parseXml
    simp only [LNode.plain]
    split
    · split
      · exact pl_bind (itemsOf_plain uri kids [as]) fun is => rfl
      · have := patternOf_plain uri (.element r ns name sc as kids) []
        simp only [LNode.plain] at this
        exact pl_bind this fun p => rfl
    · rfl
  | _ => rfl

end Verif.LXml
