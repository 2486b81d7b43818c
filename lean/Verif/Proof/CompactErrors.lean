import Verif.Model.CompactErrors
import Verif.Proof.CompactSound3
/-
The parser with the places of errors is the parser without them.
-/
namespace Verif.ECompact
open Verif EP
variable {α β : Type}

/-- the outcome without the place of an error -/
def ERes.plain : ERes α → Compact.PRes α
  | .ok r a => .ok r a
  | .err _ => .err
  | .fail _ => .fail
  | .incomplete => .incomplete
  | .panic => .panic
  | .fuel => .fuel

/-- the parser without the places of errors -/
def EP.plain (p : EP α) : Compact.P α := fun i => (p i).plain

theorem plain_bind (p : EP α) (f : α → EP β) : (p >>= f).plain = p.plain >>= fun a => (f a).plain := by
  funext i
  show (EP.bind p f i).plain = Compact.P.bind p.plain (fun a => (f a).plain) i
  simp only [EP.bind, Compact.P.bind, EP.plain]
  cases p i <;> rfl

theorem plain_pure (a : α) : (pure a : EP α).plain = pure a := rfl

theorem plain_here (p : Compact.P α) : (here p).plain = p := by
  funext i
  simp only [here, EP.plain]
  cases p i <;> rfl

theorem plain_alt (p q : EP α) : (alt p q).plain = Compact.P.alt p.plain q.plain := by
  funext i
  simp only [alt, Compact.P.alt, EP.plain]
  cases p i <;> rfl

theorem plain_opt (p : EP α) : (opt p).plain = Compact.P.opt p.plain := by
  funext i
  simp only [opt, Compact.P.opt, EP.plain]
  cases p i <;> rfl

theorem plain_cut (p : EP α) : (cut p).plain = Compact.P.cut p.plain := by
  funext i
  simp only [cut, Compact.P.cut, EP.plain]
  cases p i <;> rfl

theorem plain_tag (t : Str) : (tag t).plain = Compact.P.tag t := plain_here _

theorem plain_sepLoop (sep : EP Unit) (p : EP α) : ∀ (n : Nat) (i : Str), (sepLoop sep p n i).plain = Compact.P.sepLoop sep.plain p.plain n i
  | 0, _ => rfl
  | n + 1, i => by
    unfold sepLoop Compact.P.sepLoop
    have e : sep.plain i = (sep i).plain := rfl
    rw [e]
    cases sep i with
    | ok i1 u =>
      have e : p.plain i1 = (p i1).plain := rfl
      dsimp only [ERes.plain]
      rw [e]
      cases p i1 with
      | ok i2 a =>
        by_cases hl : i2.length = i.length
        · simp only [ERes.plain, if_pos hl]
        · simp only [if_neg hl]
          have ih := plain_sepLoop sep p n i2
          simp only [ERes.plain, ← ih, if_neg hl]
          cases sepLoop sep p n i2 <;> rfl
      | _ => rfl
    | _ => rfl

theorem plain_sepList0 (sep : EP Unit) (p : EP α) : (sepList0 sep p).plain = Compact.P.sepList0 sep.plain p.plain := by
  funext i
  show (sepList0 sep p i).plain = _
  unfold sepList0 Compact.P.sepList0
  have e : p.plain i = (p i).plain := rfl
  rw [e]
  cases p i with
  | ok r a =>
    dsimp only [ERes.plain]
    rw [← plain_sepLoop]
    cases sepLoop sep p (r.length + 1) r <;> rfl
  | _ => rfl

theorem plain_sepList1 (sep : EP Unit) (p : EP α) : (sepList1 sep p).plain = Compact.P.sepList1 sep.plain p.plain := by
  funext i
  show (sepList1 sep p i).plain = _
  unfold sepList1 Compact.P.sepList1
  have e : p.plain i = (p i).plain := rfl
  rw [e]
  cases p i with
  | ok r a =>
    dsimp only [ERes.plain]
    rw [← plain_sepLoop]
    cases sepLoop sep p (r.length + 1) r <;> rfl
  | _ => rfl

theorem plain_space0 : space0.plain = Compact.space0 := plain_here _
theorem plain_space1 : space1.plain = Compact.space1 := plain_here _
theorem plain_pNcName : pNcName.plain = Compact.pNcName := plain_here _
theorem plain_keyword : keyword.plain = Compact.keyword := by
  simp only [keyword, Compact.keyword, plain_bind, plain_pure, keywordTag, notNameChar, plain_here]
theorem plain_identifier : identifier.plain = Compact.identifier := by
  simp only [identifier, Compact.identifier, plain_alt, plain_bind, plain_pure, plain_tag, plain_keyword, plain_pNcName, notKeyword, plain_here]
theorem plain_identifierOrKeyword : identifierOrKeyword.plain = Compact.identifierOrKeyword := by
  simp only [identifierOrKeyword, Compact.identifierOrKeyword, plain_alt, plain_identifier, plain_keyword]
theorem plain_cname : cname.plain = Compact.cname := by
  simp only [cname, Compact.cname, plain_bind, plain_pure, plain_tag, plain_pNcName]
theorem plain_pName : pName.plain = Compact.pName := by
  simp only [pName, Compact.pName, plain_alt, plain_bind, plain_pure, plain_cname, plain_identifierOrKeyword]
theorem plain_tripleQuoted (q : Char) : (tripleQuoted q).plain = Compact.tripleQuoted q := by
  simp only [tripleQuoted, Compact.tripleQuoted, plain_bind, plain_pure, plain_tag, takeUntil3, plain_here]
theorem plain_quoted (q : Char) : (quoted q).plain = Compact.quoted q := by
  simp only [quoted, Compact.quoted, plain_bind, plain_pure, plain_tag, upToQuote, plain_here]
theorem plain_literalSegment : literalSegment.plain = Compact.literalSegment := by
  simp only [literalSegment, Compact.literalSegment, plain_alt, plain_tripleQuoted, plain_quoted]
theorem plain_literal : literal.plain = Compact.literal := by
  simp only [literal, Compact.literal, plain_bind, plain_pure, plain_sepList1, plain_space0, plain_tag, plain_literalSegment]
theorem plain_namespaceUriLiteral : namespaceUriLiteral.plain = Compact.namespaceUriLiteral := by
  simp only [namespaceUriLiteral, Compact.namespaceUriLiteral, plain_alt, plain_bind, plain_pure, plain_tag, plain_literal]
theorem plain_annotationAttribute : annotationAttribute.plain = Compact.annotationAttribute := by
  simp only [annotationAttribute, Compact.annotationAttribute, plain_bind, plain_pure, plain_pName, plain_space0, plain_tag, plain_literal]

theorem plain_annotationElement : ∀ n, (annotationElement n).plain = Compact.annotationElement n
  | 0 => rfl
  | n + 1 => by
    have ih := plain_annotationElement n
    funext i
    unfold EP.plain annotationElement Compact.annotationElement
    refine congrFun (f := EP.plain _) ?_ i
    simp only [plain_bind, plain_pure, plain_pName, plain_space0, plain_space1, plain_tag, plain_literal, plain_sepList0, plain_alt, plain_annotationAttribute, ih]
    rfl

theorem plain_initialAnnotation (n : Nat) : (initialAnnotation n).plain = Compact.initialAnnotation n := by
  simp only [initialAnnotation, Compact.initialAnnotation, plain_bind, plain_space0, plain_space1, plain_tag, plain_sepList0, plain_annotationAttribute,
    plain_annotationElement]
theorem plain_maybeInitialAnnotation (n : Nat) : (maybeInitialAnnotation n).plain = Compact.maybeInitialAnnotation n := by
  simp only [maybeInitialAnnotation, Compact.maybeInitialAnnotation, plain_opt, plain_bind, plain_space0, plain_initialAnnotation]
theorem plain_followAnnotation (n : Nat) : (followAnnotation n).plain = Compact.followAnnotation n := by
  simp only [followAnnotation, Compact.followAnnotation, plain_bind, plain_space0, plain_tag, plain_annotationElement]
theorem plain_followAnnotationList (n : Nat) : (followAnnotationList n).plain = Compact.followAnnotationList n := by
  simp only [followAnnotationList, Compact.followAnnotationList, plain_sepList0, plain_space0, plain_followAnnotation]

/-! ### name classes -/

theorem plain_exceptNc (nc : EP SNameClass) : (exceptNc nc).plain = Compact.exceptNc nc.plain := by
  simp only [exceptNc, Compact.exceptNc, plain_opt, plain_bind, plain_space0, plain_tag]

theorem plain_nsNameNc (nc : EP SNameClass) : (nsNameNc nc).plain = Compact.nsNameNc nc.plain := by
  simp only [nsNameNc, Compact.nsNameNc, plain_bind, plain_tag, plain_pNcName, plain_exceptNc]
  congr 1; funext p; congr 1; funext _; congr 1; funext o
  cases o <;> rfl

theorem plain_anyNameNc (nc : EP SNameClass) : (anyNameNc nc).plain = Compact.anyNameNc nc.plain := by
  simp only [anyNameNc, Compact.anyNameNc, plain_bind, plain_tag, plain_exceptNc]
  congr 1; funext _; congr 1; funext o
  cases o <;> rfl

theorem plain_parenNc (nc : EP SNameClass) : (parenNc nc).plain = Compact.parenNc nc.plain := by
  simp only [parenNc, Compact.parenNc, plain_bind, plain_pure, plain_tag, plain_space0]

theorem plain_altNc (nc : EP SNameClass) : (altNc nc).plain = Compact.altNc nc.plain := by
  simp only [altNc, Compact.altNc, plain_bind, plain_tag, plain_space0]

theorem plain_altTail (nc : EP SNameClass) (left : SNameClass) : (altTail nc left).plain = Compact.altTail nc.plain left := by
  funext i
  show (altTail nc left i).plain = _
  unfold altTail Compact.altTail
  rw [← plain_altNc]
  have e : (altNc nc).plain i = (altNc nc i).plain := rfl
  rw [e]
  cases altNc nc i <;> rfl

theorem plain_nameClass : ∀ n, (nameClass n).plain = Compact.nameClass n
  | 0 => rfl
  | n + 1 => by
    have ih := plain_nameClass n
    funext i
    unfold EP.plain nameClass Compact.nameClass
    refine congrFun (f := EP.plain _) ?_ i
    simp only [plain_bind, plain_alt, plain_maybeInitialAnnotation, plain_nsNameNc, plain_pName, plain_anyNameNc, plain_parenNc, plain_followAnnotationList,
      checkFollow, plain_here, plain_altTail, ih]
    rfl

/-! ### patterns -/

theorem plain_datatypeName : datatypeName.plain = Compact.datatypeName := by
  simp only [datatypeName, Compact.datatypeName, plain_alt, plain_bind, plain_pure, plain_tag, plain_cname]
theorem plain_datatypeValuePattern : datatypeValuePattern.plain = Compact.datatypeValuePattern := by
  simp only [datatypeValuePattern, Compact.datatypeValuePattern, plain_opt, plain_bind, plain_pure, plain_space0, plain_literal, plain_datatypeName]
theorem plain_param (n : Nat) : (param n).plain = Compact.param n := by
  simp only [param, Compact.param, plain_bind, plain_pure, plain_maybeInitialAnnotation, plain_space0, plain_tag, plain_literal, plain_identifierOrKeyword]
theorem plain_params (n : Nat) : (params n).plain = Compact.params n := by
  simp only [params, Compact.params, plain_bind, plain_pure, plain_space0, plain_space1, plain_tag, plain_cut, plain_sepList0, plain_param]

theorem plain_datatypeParamPattern (n : Nat) (pat : EP SPattern) : (datatypeParamPattern n pat).plain = Compact.datatypeParamPattern n pat.plain := by
  simp only [datatypeParamPattern, Compact.datatypeParamPattern, plain_bind, plain_datatypeName, plain_opt, plain_params, plain_space0, plain_tag]
  congr 1; funext d; congr 1; funext ps; congr 1; funext o
  cases o <;> rfl

theorem plain_braced (pat : EP SPattern) : (braced pat).plain = Compact.braced pat.plain := by
  simp only [braced, Compact.braced, plain_bind, plain_pure, plain_space0, plain_tag, plain_cut]
theorem plain_namedPattern (kw : Str) (nc : EP SNameClass) (pat : EP SPattern) :
    (namedPattern kw nc pat).plain = Compact.namedPattern kw nc.plain pat.plain := by
  simp only [namedPattern, Compact.namedPattern, plain_bind, plain_pure, plain_space1, plain_tag, plain_braced]
theorem plain_inherit : inherit.plain = Compact.inherit := by
  simp only [inherit, Compact.inherit, plain_bind, plain_space0, plain_tag, plain_identifierOrKeyword]
theorem plain_externalPattern : externalPattern.plain = Compact.externalPattern := by
  simp only [externalPattern, Compact.externalPattern, plain_bind, plain_pure, plain_space1, plain_tag, plain_literal, plain_opt, plain_inherit]
theorem plain_grammarPattern (item : EP SItem) : (grammarPattern item).plain = Compact.grammarPattern item.plain := by
  simp only [grammarPattern, Compact.grammarPattern, plain_bind, plain_pure, plain_space0, plain_space1, plain_tag, plain_cut, plain_sepList0]
theorem plain_groupPattern (pat : EP SPattern) : (groupPattern pat).plain = Compact.groupPattern pat.plain := by
  simp only [groupPattern, Compact.groupPattern, plain_bind, plain_pure, plain_space0, plain_tag]

theorem plain_primary (n : Nat) (pat : EP SPattern) (item : EP SItem) : (primary n pat item).plain = Compact.primary n pat.plain item.plain := by
  simp only [primary, Compact.primary, plain_alt, plain_bind, plain_pure, plain_namedPattern, plain_nameClass, plain_tag, plain_braced, plain_datatypeValuePattern,
    plain_datatypeParamPattern, plain_identifier, plain_space1, plain_externalPattern, plain_grammarPattern, plain_groupPattern]

theorem plain_operators (pat : EP SPattern) : ∀ (n : Nat) (left : SPattern), (operators pat n left).plain = Compact.operators pat.plain n left
  | 0, _ => rfl
  | n + 1, left => by
    have ih := fun l => plain_operators pat n l
    funext i
    have bin : ∀ (f : SPattern → SPattern) (r : Str), ((do space0; let right ← pat; operators pat n (f right) : EP SPattern) r).plain =
        (do Compact.space0; let right ← pat.plain; Compact.operators pat.plain n (f right) : Compact.P SPattern) r := by
      intro f r
      refine congrFun (f := EP.plain _) ?_ r
      simp only [plain_bind, plain_space0, ih]
      rfl
    have un : ∀ (l : SPattern) (r : Str), (operators pat n l r).plain = Compact.operators pat.plain n l r := fun l r => congrFun (ih l) r
    show (operators pat (n + 1) left i).plain = _
    unfold operators Compact.operators
    have e : Compact.space0 i = (space0 i).plain := by rw [← plain_space0]; rfl
    rw [e]
    cases space0 i with
    | ok r u =>
      cases r with
      | nil => rfl
      | cons c r =>
        by_cases h1 : c = ','; · subst h1; exact bin (.seq left) r
        by_cases h2 : c = '&'; · subst h2; exact bin (.inter left) r
        by_cases h3 : c = '|'; · subst h3; exact bin (.choice left) r
        by_cases h4 : c = '?'; · subst h4; exact un (.optional left) r
        by_cases h5 : c = '*'; · subst h5; exact un (.zeroOrMore left) r
        by_cases h6 : c = '+'; · subst h6; exact un (.oneOrMore left) r
        split
        · rename_i e; cases e; exact absurd rfl h1
        · rename_i e; cases e; exact absurd rfl h2
        · rename_i e; cases e; exact absurd rfl h3
        · rename_i e; cases e; exact absurd rfl h4
        · rename_i e; cases e; exact absurd rfl h5
        · rename_i e; cases e; exact absurd rfl h6
        · split
          · rename_i e; cases e; exact absurd rfl h1
          · rename_i e; cases e; exact absurd rfl h2
          · rename_i e; cases e; exact absurd rfl h3
          · rename_i e; cases e; exact absurd rfl h4
          · rename_i e; cases e; exact absurd rfl h5
          · rename_i e; cases e; exact absurd rfl h6
          · rfl
          all_goals (rename_i e; cases e)
        all_goals (rename_i e; cases e)
    | _ => rfl

theorem plain_assignMethod : assignMethod.plain = Compact.assignMethod := by
  simp only [assignMethod, Compact.assignMethod, plain_alt, plain_bind, plain_pure, plain_tag]
theorem plain_startRule (pat : EP SPattern) : (startRule pat).plain = Compact.startRule pat.plain := by
  simp only [startRule, Compact.startRule, plain_bind, plain_pure, plain_tag, plain_space0, plain_assignMethod, plain_cut]
theorem plain_defineItem (pat : EP SPattern) : (defineItem pat).plain = Compact.defineItem pat.plain := by
  simp only [defineItem, Compact.defineItem, plain_bind, plain_pure, plain_identifier, plain_space0, plain_assignMethod, plain_cut]

theorem plain_includeContent (pat : EP SPattern) : ∀ n, (includeContent pat n).plain = Compact.includeContent pat.plain n
  | 0 => rfl
  | n + 1 => by
    have ih := plain_includeContent pat n
    funext i
    show (includeContent pat (n + 1) i).plain = _
    rw [includeContent, Compact.includeContent]
    refine congrFun (f := EP.plain _) ?_ i
    simp only [plain_bind, plain_pure, plain_alt, plain_maybeInitialAnnotation, plain_annotationElement, plain_defineItem, plain_startRule, plain_tag, plain_space0,
      plain_space1, plain_sepList0, plain_cut, ih]
    rfl

theorem plain_overrideBlock (n : Nat) (pat : EP SPattern) : (overrideBlock n pat).plain = Compact.overrideBlock n pat.plain := by
  simp only [overrideBlock, Compact.overrideBlock, plain_bind, plain_pure, plain_tag, plain_space0, plain_space1, plain_sepList0, plain_cut, plain_includeContent]
theorem plain_includeItem (n : Nat) (pat : EP SPattern) : (includeItem n pat).plain = Compact.includeItem n pat.plain := by
  simp only [includeItem, Compact.includeItem, plain_bind, plain_pure, plain_tag, plain_space1, plain_literal, plain_opt, plain_inherit, plain_overrideBlock]
theorem plain_divItem (item : EP SItem) : (divItem item).plain = Compact.divItem item.plain := by
  simp only [divItem, Compact.divItem, plain_bind, plain_pure, plain_tag, plain_space0, plain_space1, plain_sepList0, plain_cut]

theorem plain_main : ∀ n, (pattern n).plain = Compact.pattern n ∧ (grammarContent n).plain = Compact.grammarContent n
  | 0 => by
    constructor
    · funext i; unfold EP.plain pattern Compact.pattern; rfl
    · funext i; unfold EP.plain grammarContent Compact.grammarContent; rfl
  | n + 1 => by
    obtain ⟨ih, ih'⟩ := plain_main n
    constructor
    · funext i
      unfold EP.plain
      rw [pattern, Compact.pattern]
      refine congrFun (f := EP.plain _) ?_ i
      simp only [plain_bind, plain_maybeInitialAnnotation, plain_primary, plain_followAnnotationList, plain_operators, ih, ih']
      rfl
    · funext i
      unfold EP.plain
      rw [grammarContent, Compact.grammarContent]
      refine congrFun (f := EP.plain _) ?_ i
      simp only [plain_bind, plain_pure, plain_alt, plain_startRule, plain_defineItem, plain_divItem, plain_includeItem, plain_annotationElement, ih, ih']
      rfl

theorem plain_pattern (n : Nat) : (pattern n).plain = Compact.pattern n := (plain_main n).1
theorem plain_grammarContent (n : Nat) : (grammarContent n).plain = Compact.grammarContent n := (plain_main n).2

/-! ### schemas -/

theorem plain_decl : decl.plain = Compact.decl := by
  simp only [decl, Compact.decl, declNamespace, Compact.declNamespace, declDefaultNamespace, Compact.declDefaultNamespace, declDatatypes, Compact.declDatatypes,
    plain_alt, plain_bind, plain_pure, plain_tag, plain_space0, plain_space1, plain_opt, plain_identifierOrKeyword, plain_namespaceUriLiteral, plain_literal]
theorem plain_topLevel (n : Nat) : (topLevel n).plain = Compact.topLevel n := by
  simp only [topLevel, Compact.topLevel, plain_alt, plain_bind, plain_pure, plain_sepList0, plain_sepList1, plain_space0, plain_space1, plain_decl, plain_pattern,
    plain_grammarContent]

theorem plain_allConsuming (p : EP α) : (allConsuming p).plain = Compact.allConsuming p.plain := by
  funext i
  show (allConsuming p i).plain = _
  unfold allConsuming Compact.allConsuming
  have e : p.plain i = (p i).plain := rfl
  rw [e]
  cases p i with
  | ok r a => cases r <;> rfl
  | _ => rfl

theorem plain_compactSchema (n : Nat) : (compactSchema n).plain = Compact.compactSchema n := by
  simp only [compactSchema, Compact.compactSchema, plain_allConsuming, plain_bind, plain_pure, plain_space0, plain_topLevel]

/-- the outcome without the place of an error -/
def EOutcome.plain : EOutcome → Compact.ParseOutcome
  | .ok s => .ok s
  | .error _ => .error
  | .panic => .panic
  | .fuel => .fuel

theorem plain_parseCompact (n : Nat) (t : Str) : (parseCompact n t).plain = Compact.parseCompact n t := by
  unfold parseCompact Compact.parseCompact
  rw [← plain_compactSchema]
  have e : (compactSchema n).plain t = (compactSchema n t).plain := rfl
  rw [e]
  cases compactSchema n t <;> rfl

end Verif.ECompact
