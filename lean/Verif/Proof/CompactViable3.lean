import Verif.Proof.CompactViable2
/-
Where the parser gives up: annotations that follow never make it give up; name classes.
-/
namespace Verif.ECompact
open Verif EP Rnc
open Verif.Compact (Done)
variable {α β γ : Type}

/-- the parser has no final errors -/
def Soft (p : Compact.P α) : Prop := ∀ i, p i ≠ .fail

theorem Soft.bind {p : Compact.P α} {f : α → Compact.P β} (hp : Soft p) (hf : ∀ a, Soft (f a)) : Soft (p >>= f) := by
  intro i h
  change Compact.P.bind p f i = _ at h
  unfold Compact.P.bind at h
  cases e : p i with
  | ok r a => rw [e] at h; exact hf a r h
  | fail => exact hp i e
  | _ => rw [e] at h; cases h

theorem Soft.pure (a : α) : Soft (Pure.pure a : Compact.P α) := fun i h => by cases h

theorem Soft.alt {p q : Compact.P α} (hp : Soft p) (hq : Soft q) : Soft (Compact.P.alt p q) := by
  intro i h
  unfold Compact.P.alt at h
  cases e : p i with
  | err => rw [e] at h; exact hq i h
  | fail => exact hp i e
  | _ => rw [e] at h; cases h

theorem Soft.tag (t : Str) : Soft (Compact.P.tag t) := by
  intro i h
  rcases Compact.tag_cases t i with e | ⟨r, _, e⟩ <;> rw [e] at h <;> cases h

theorem Soft.sepLoop {sep : Compact.P Unit} {p : Compact.P α} (hs : Soft sep) (hp : Soft p) : ∀ n, Soft (Compact.P.sepLoop sep p n)
  | 0 => fun i h => by cases h
  | n + 1 => by
    intro i h
    unfold Compact.P.sepLoop at h
    cases e : sep i with
    | ok i1 u =>
      rw [e] at h
      dsimp only at h
      cases e' : p i1 with
      | ok i2 a =>
        rw [e'] at h
        dsimp only at h
        split at h
        · cases h
        · cases e'' : Compact.P.sepLoop sep p n i2 with
          | fail => exact Soft.sepLoop hs hp n i2 e''
          | _ => rw [e''] at h; cases h
      | fail => exact hp _ e'
      | _ => rw [e'] at h; cases h
    | fail => exact hs _ e
    | _ => rw [e] at h; cases h

theorem Soft.sepList1 {sep : Compact.P Unit} {p : Compact.P α} (hs : Soft sep) (hp : Soft p) : Soft (Compact.P.sepList1 sep p) := by
  intro i h
  unfold Compact.P.sepList1 at h
  cases e : p i with
  | ok i1 u =>
    rw [e] at h
    dsimp only at h
    cases e' : Compact.P.sepLoop sep p (i1.length + 1) i1 with
    | fail => exact Soft.sepLoop hs hp _ _ e'
    | _ => rw [e'] at h; cases h
  | fail => exact hp _ e
  | _ => rw [e] at h; cases h

theorem Soft.sepList0 {sep : Compact.P Unit} {p : Compact.P α} (hs : Soft sep) (hp : Soft p) : Soft (Compact.P.sepList0 sep p) := by
  intro i h
  unfold Compact.P.sepList0 at h
  cases e : p i with
  | ok i1 u =>
    rw [e] at h
    dsimp only at h
    cases e' : Compact.P.sepLoop sep p (i1.length + 1) i1 with
    | fail => exact Soft.sepLoop hs hp _ _ e'
    | _ => rw [e'] at h; cases h
  | fail => exact hp _ e
  | _ => rw [e] at h; cases h

theorem Soft.spaceStep : Soft (Compact.P.alt Compact.multispace1 Compact.comment) := by
  refine .alt ?_ (.bind (.tag _) fun _ => ?_)
  · intro i h
    cases i with
    | nil => cases h
    | cons c cs =>
      simp only [Compact.multispace1] at h
      split at h <;> cases h
  · intro i h
    unfold Compact.notLineEnding at h
    split at h <;> cases h

theorem Soft.space0 : Soft Compact.space0 := by
  have : ∀ n, Soft (Compact.spaceLoop n) := by
    intro n
    induction n with
    | zero => intro i h; cases h
    | succ n ih =>
      intro i h
      unfold Compact.spaceLoop at h
      cases e : Compact.P.alt Compact.multispace1 Compact.comment i with
      | ok r u =>
        rw [e] at h
        dsimp only at h
        split at h
        · cases h
        · exact ih _ h
      | fail => exact Soft.spaceStep _ e
      | _ => rw [e] at h; cases h
  exact fun i => this _ i

theorem Soft.space1 : Soft Compact.space1 := .bind .spaceStep fun _ => .space0

theorem Soft.pNcName : Soft Compact.pNcName := by
  intro i h
  unfold Compact.pNcName at h
  split at h <;> cases h

theorem Soft.keyword : Soft Compact.keyword := by
  unfold Compact.keyword
  refine .bind ?_ fun k => .bind ?_ fun _ => .pure _
  · intro i h
    rcases Compact.keywordTag_total Compact.keywords i with e | ⟨r, k, e⟩ <;> rw [e] at h <;> cases h
  · intro i h
    cases i with
    | nil => cases h
    | cons c cs =>
      simp only [Compact.notNameChar] at h
      split at h <;> cases h

theorem Soft.identifier : Soft Compact.identifier := by
  unfold Compact.identifier
  refine .alt (.bind (.tag _) fun _ => .bind .keyword fun _ => .pure _) (.bind ?_ fun _ => .pNcName)
  intro i h
  unfold Compact.notKeyword at h
  cases e : Compact.keyword i with
  | fail => exact Soft.keyword _ e
  | _ => rw [e] at h; cases h

theorem Soft.anyIdent : Soft Compact.identifierOrKeyword := .alt .identifier .keyword

theorem Soft.pName : Soft Compact.pName := by
  unfold Compact.pName Compact.cname
  exact .alt (.bind (.bind .pNcName fun _ => .bind (.tag _) fun _ => .bind .pNcName fun _ => .pure _) fun _ => .pure _) (.bind .anyIdent fun _ => .pure _)

theorem Soft.takeUntil3 (q : Char) : ∀ i, Compact.takeUntil3 q i ≠ .fail
  | [] => nofun
  | c :: cs => by
    intro h
    unfold Compact.takeUntil3 at h
    split at h
    · cases h
    · cases e : Compact.takeUntil3 q cs with
      | fail => exact Soft.takeUntil3 q cs e
      | _ => rw [e] at h; cases h

theorem Soft.literal : Soft Compact.literal := by
  unfold Compact.literal
  refine .bind (.sepList1 (.bind .space0 fun _ => .bind (.tag _) fun _ => .space0) ?_) fun _ => .pure _
  unfold Compact.literalSegment Compact.tripleQuoted Compact.quoted
  have t : ∀ q : Char, Soft (do Compact.P.tag [q, q, q]; let s ← Compact.takeUntil3 q; Compact.P.tag [q, q, q]; Pure.pure s : Compact.P Str) :=
    fun q => .bind (.tag _) fun _ => .bind (Soft.takeUntil3 q) fun _ => .bind (.tag _) fun _ => .pure _
  have s : ∀ q : Char, Soft (do Compact.P.tag [q]; let s ← Compact.upToQuote q; Compact.P.tag [q]; Pure.pure s : Compact.P Str) :=
    fun q => .bind (.tag _) fun _ => .bind (fun i h => by cases h) fun _ => .bind (.tag _) fun _ => .pure _
  exact .alt (t _) (.alt (t _) (.alt (s _) (s _)))

theorem Soft.annAttr : Soft Compact.annotationAttribute := by
  unfold Compact.annotationAttribute
  exact .bind .pName fun _ => .bind .space0 fun _ => .bind (.tag _) fun _ => .bind .space0 fun _ => .bind .literal fun _ => .pure _

theorem Soft.annElem : ∀ n, Soft (Compact.annotationElement n)
  | 0 => fun i h => by cases h
  | n + 1 => by
    have ih := Soft.annElem n
    have key : Soft (do
        let _ ← Compact.pName
        Compact.space0
        Compact.P.tag ['[']
        Compact.space0
        let _ ← Compact.P.sepList0 Compact.space1 Compact.annotationAttribute
        Compact.space0
        let _ ← Compact.P.sepList0 Compact.space1 (Compact.P.alt (Compact.annotationElement n) (do let _ ← Compact.literal; Pure.pure ()))
        Compact.space0
        Compact.P.tag [']'] : Compact.P Unit) :=
      .bind .pName fun _ => .bind .space0 fun _ => .bind (.tag _) fun _ => .bind .space0 fun _ => .bind (.sepList0 .space1 .annAttr) fun _ => .bind .space0 fun _ =>
        .bind (.sepList0 .space1 (.alt ih (.bind .literal fun _ => .pure _))) fun _ => .bind .space0 fun _ => .tag _
    intro i h
    rw [Compact.annotationElement] at h
    exact key i h

/-- the annotations that follow something never make the parser give up -/
theorem follow_quiet {n : Nat} {i l : Str} : ¬ (followAnnotationList n i).GaveUp l := by
  intro h
  have plain : ∀ x, followAnnotationList n i = x → Compact.followAnnotationList n i = x.plain := by
    rintro x rfl
    rw [← plain_followAnnotationList]
    rfl
  have soft : Soft (Compact.followAnnotation n) := by
    unfold Compact.followAnnotation
    exact .bind .space0 fun _ => .bind (.tag _) fun _ => .bind .space0 fun _ => .annElem n
  have eats : ∀ {i r : Str} {u : Unit}, Compact.followAnnotation n i = .ok r u → r.length < i.length := by
    intro i r u h
    unfold Compact.followAnnotation at h
    obtain ⟨i1, _, h1, h⟩ := Compact.bind_ok h
    obtain ⟨i2, _, h2, h⟩ := Compact.bind_ok h
    obtain ⟨i3, _, h3, h⟩ := Compact.bind_ok h
    obtain ⟨⟨g, e1, _⟩, _⟩ := Compact.space0_ok h1
    obtain ⟨⟨g', e3, _⟩, _⟩ := Compact.space0_ok h3
    obtain ⟨s, e4, _⟩ := Compact.annElem_inv n h
    rw [e1, Compact.tag_ok h2, e3, e4]
    simp only [List.length_append, List.length_cons, List.length_nil]
    omega
  have noErr : ∀ m i, Compact.P.sepLoop Compact.space0 (Compact.followAnnotation n) m i ≠ .err := by
    intro m
    induction m with
    | zero => intro i h; cases h
    | succ m ih =>
      intro i h
      unfold Compact.P.sepLoop at h
      cases e : Compact.space0 i with
      | ok i1 u =>
        rw [e] at h
        dsimp only at h
        cases e' : Compact.followAnnotation n i1 with
        | ok i2 a =>
          rw [e'] at h
          dsimp only at h
          have l1 := eats e'
          obtain ⟨⟨g, e1, _⟩, _⟩ := Compact.space0_ok e
          have l2 : i1.length ≤ i.length := by rw [e1]; simp
          rw [if_neg (by omega)] at h
          cases e'' : Compact.P.sepLoop Compact.space0 (Compact.followAnnotation n) m i2 with
          | err => exact ih _ e''
          | _ => rw [e''] at h; cases h
        | _ => rw [e'] at h; cases h
      | _ => rw [e] at h; cases h
  have noErr' : Compact.followAnnotationList n i ≠ .err := by
    intro h
    unfold Compact.followAnnotationList Compact.P.sepList0 at h
    cases e : Compact.followAnnotation n i with
    | ok r a =>
      rw [e] at h
      dsimp only at h
      cases e'' : Compact.P.sepLoop Compact.space0 (Compact.followAnnotation n) (r.length + 1) r with
      | err => exact noErr _ _ e''
      | _ => rw [e''] at h; cases h
    | _ => rw [e] at h; cases h
  cases e : followAnnotationList n i with
  | err l' => exact noErr' (plain _ e)
  | fail l' => exact Soft.sepList0 .space0 soft i (plain _ e)
  | _ => rw [e] at h; cases h

theorem V.nameClass {D : Str → Prop} : ∀ n, V D (nameClass n) (Nc False) Left
  | 0 => ⟨(by intro i _ r a h; cases h), (by intro i _ l h; cases h), ⟨_, _, NcLeft.nc (.base .anyName) .none⟩⟩
  | n + 1 => by
    have ih : V Done (ECompact.nameClass n) (Nc False) Left := V.nameClass n
    refine ⟨?_, ?_, ⟨_, _, NcLeft.nc (.base .anyName) .none⟩⟩
    · intro i _ r a h
      have h := plain_ok h
      rw [plain_nameClass] at h
      obtain ⟨t, e, ht, _⟩ := Compact.nameClass_inv _ h
      exact ⟨t, e, ht, trivial⟩
    · intro i hd l h
      rw [ECompact.nameClass] at h
      rcases bind_gaveUp h with h1 | ⟨i1, o, e1, h1⟩
      · obtain ⟨u, v, o, e, hi, _⟩ := (V.init (D := D) n).gives hd h1
        exact ⟨u, v ++ ['*'], _, e, by rw [← List.append_assoc]; exact NcLeft.nc (.base .anyName) hi⟩
      obtain ⟨w, e1, ⟨hi, _⟩, _⟩ := (V.init (D := D) n).sound hd e1
      rcases bind_gaveUp h1 with h2 | ⟨i2, left, e2, h2⟩
      · obtain ⟨u, v, a, e, hl⟩ := (V.ncLeft (D := Any) ih).gives trivial h2
        exact ⟨w ++ u, v, a, by rw [e1, e, List.append_assoc], by rw [List.append_assoc]; exact hl.nc hi⟩
      rcases bind_gaveUp h2 with h3 | ⟨i3, fs, e3, h3⟩
      · exact absurd h3 follow_quiet
      rcases bind_gaveUp h3 with h4 | ⟨i4, _, e4, h4⟩
      · unfold checkFollow EP.here Compact.checkFollow at h4
        cases fs with
        | nil => cases h4
        | cons f fs => cases o <;> cases h4
      · unfold altTail at h4
        cases e : altNc (ECompact.nameClass n) i4 <;> rw [e] at h4 <;> cases h4

end Verif.ECompact
