import Verif.Proof.CompactSound2
/-
The compact syntax: when reading a schema cannot panic.
-/
namespace Verif.Compact
open Verif P
variable {α β : Type}

/-- every comment has an end, and there are no annotations with `>>` -/
def Calm (i : Str) : Prop := (∀ s, '#' :: s <:+ i → '\n' ∈ s) ∧ ∀ s, ¬ '>' :: '>' :: s <:+ i

theorem Calm.suffix {i r : Str} (h : Calm i) (hr : r <:+ i) : Calm r :=
  ⟨fun s hs => h.1 s (hs.trans hr), fun s hs => h.2 s (hs.trans hr)⟩

/-- on a calm text, neither a panic nor a request for more input -/
def Serene (p : P α) : Prop := ∀ i : Str, Calm i → p i ≠ .incomplete ∧ p i ≠ .panic ∧ ∀ r a, p i = .ok r a → r <:+ i

theorem Serene.bind {p : P α} {f : α → P β} (hp : Serene p) (hf : ∀ a, Serene (f a)) : Serene (p >>= f) := by
  intro i hi
  obtain ⟨h1, h2, h3⟩ := hp i hi
  show P.bind p f i ≠ _ ∧ P.bind p f i ≠ _ ∧ ∀ r a, P.bind p f i = _ → _
  unfold P.bind
  cases h : p i with
  | ok r a =>
    have hr := h3 r a h
    obtain ⟨h4, h5, h6⟩ := hf a r (hi.suffix hr)
    exact ⟨h4, h5, fun r' a' e => (h6 r' a' e).trans hr⟩
  | incomplete => exact absurd h h1
  | panic => exact absurd h h2
  | _ => exact ⟨nofun, nofun, nofun⟩

theorem Serene.pure (a : α) : Serene (pure a : P α) := fun i _ => ⟨nofun, nofun, fun r a e => by cases e; exact List.suffix_refl _⟩

theorem Serene.alt {p q : P α} (hp : Serene p) (hq : Serene q) : Serene (alt p q) := by
  intro i hi
  obtain ⟨h1, h2, h3⟩ := hp i hi
  unfold P.alt
  cases h : p i with
  | err => exact hq i hi
  | incomplete => exact absurd h h1
  | panic => exact absurd h h2
  | ok r a => exact ⟨nofun, nofun, fun r' a' e => by cases e; exact h3 _ _ h⟩
  | _ => exact ⟨nofun, nofun, nofun⟩

theorem Serene.opt {p : P α} (hp : Serene p) : Serene (opt p) := by
  intro i hi
  obtain ⟨h1, h2, h3⟩ := hp i hi
  unfold P.opt
  cases h : p i with
  | err => exact ⟨nofun, nofun, fun r' a' e => by cases e; exact List.suffix_refl _⟩
  | incomplete => exact absurd h h1
  | panic => exact absurd h h2
  | ok r a => exact ⟨nofun, nofun, fun r' a' e => by cases e; exact h3 _ _ h⟩
  | _ => exact ⟨nofun, nofun, nofun⟩

theorem Serene.cut {p : P α} (hp : Serene p) : Serene (cut p) := by
  intro i hi
  obtain ⟨h1, h2, h3⟩ := hp i hi
  unfold P.cut
  cases h : p i with
  | incomplete => exact absurd h h1
  | panic => exact absurd h h2
  | ok r a => exact ⟨nofun, nofun, fun r' a' e => by cases e; exact h3 _ _ h⟩
  | _ => exact ⟨nofun, nofun, nofun⟩

theorem Serene.tag {t : Str} : Serene (tag t) := by
  intro i _
  rcases tag_cases t i with h | ⟨r, e, h⟩
  · rw [h]; exact ⟨nofun, nofun, nofun⟩
  · rw [h]; exact ⟨nofun, nofun, fun r' a' e' => by cases e'; rw [e]; exact List.suffix_append _ _⟩

theorem Serene.sepLoop {sep : P Unit} {p : P α} (hs : Serene sep) (hp : Serene p) : ∀ n, Serene (sepLoop sep p n)
  | 0 => fun _ _ => ⟨nofun, nofun, nofun⟩
  | n + 1 => by
    intro i hi
    obtain ⟨h1, h2, h3⟩ := hs i hi
    unfold P.sepLoop
    cases h : sep i with
    | err => exact ⟨nofun, nofun, fun r' a' e => by cases e; exact List.suffix_refl _⟩
    | incomplete => exact absurd h h1
    | panic => exact absurd h h2
    | ok i1 u =>
      have l1 := h3 _ _ h
      obtain ⟨h4, h5, h6⟩ := hp i1 (hi.suffix l1)
      dsimp only
      cases h' : p i1 with
      | err => exact ⟨nofun, nofun, fun r' a' e => by cases e; exact List.suffix_refl _⟩
      | incomplete => exact absurd h' h4
      | panic => exact absurd h' h5
      | ok i2 a =>
        have l2 := (h6 _ _ h').trans l1
        dsimp only
        split
        · exact ⟨nofun, nofun, nofun⟩
        · obtain ⟨h7, h8, h9⟩ := Serene.sepLoop hs hp n i2 (hi.suffix l2)
          cases h'' : P.sepLoop sep p n i2 with
          | incomplete => exact absurd h'' h7
          | panic => exact absurd h'' h8
          | ok r as => exact ⟨nofun, nofun, fun r' a' e => by cases e; exact (h9 _ _ h'').trans l2⟩
          | _ => exact ⟨nofun, nofun, nofun⟩
      | _ => exact ⟨nofun, nofun, nofun⟩
    | _ => exact ⟨nofun, nofun, nofun⟩

theorem Serene.sepList0 {sep : P Unit} {p : P α} (hs : Serene sep) (hp : Serene p) : Serene (sepList0 sep p) := by
  intro i hi
  obtain ⟨h1, h2, h3⟩ := hp i hi
  unfold P.sepList0
  cases h : p i with
  | err => exact ⟨nofun, nofun, fun r' a' e => by cases e; exact List.suffix_refl _⟩
  | incomplete => exact absurd h h1
  | panic => exact absurd h h2
  | ok r a =>
    have l := h3 _ _ h
    obtain ⟨h7, h8, h9⟩ := Serene.sepLoop hs hp (r.length + 1) r (hi.suffix l)
    dsimp only
    cases h'' : P.sepLoop sep p (r.length + 1) r with
    | incomplete => exact absurd h'' h7
    | panic => exact absurd h'' h8
    | ok r' as => exact ⟨nofun, nofun, fun r' a' e => by cases e; exact (h9 _ _ h'').trans l⟩
    | _ => exact ⟨nofun, nofun, nofun⟩
  | _ => exact ⟨nofun, nofun, nofun⟩

theorem Serene.sepList1 {sep : P Unit} {p : P α} (hs : Serene sep) (hp : Serene p) : Serene (sepList1 sep p) := by
  intro i hi
  obtain ⟨h1, h2, h3⟩ := hp i hi
  unfold P.sepList1
  cases h : p i with
  | err => exact ⟨nofun, nofun, nofun⟩
  | incomplete => exact absurd h h1
  | panic => exact absurd h h2
  | ok r a =>
    have l := h3 _ _ h
    obtain ⟨h7, h8, h9⟩ := Serene.sepLoop hs hp (r.length + 1) r (hi.suffix l)
    dsimp only
    cases h'' : P.sepLoop sep p (r.length + 1) r with
    | incomplete => exact absurd h'' h7
    | panic => exact absurd h'' h8
    | ok r' as => exact ⟨nofun, nofun, fun r' a' e => by cases e; exact (h9 _ _ h'').trans l⟩
    | _ => exact ⟨nofun, nofun, nofun⟩
  | _ => exact ⟨nofun, nofun, nofun⟩

/-! ### white space -/

theorem Serene.comment : Serene comment := by
  intro i hi
  unfold Compact.comment
  rcases tag_cases ['#'] i with h | ⟨r, e, h⟩
  · rw [bind_of_err h]; exact ⟨nofun, nofun, nofun⟩
  · rw [bind_of_ok h]
    have hr : r <:+ i := ⟨['#'], e.symm⟩
    have hn : '\n' ∈ r := hi.1 r ⟨[], by rw [e]; rfl⟩
    have hd : '\n' ∈ r.dropWhile (fun c => c != '\r' && c != '\n') := by
      have := List.takeWhile_append_dropWhile (p := fun c => c != '\r' && c != '\n') (l := r)
      rw [← this] at hn
      rcases List.mem_append.mp hn with h | h
      · have := mem_takeWhile h; simp at this
      · exact h
    have hs := (List.dropWhile_suffix (l := r) (fun c => c != '\r' && c != '\n')).trans hr
    unfold notLineEnding
    generalize r.dropWhile (fun c => c != '\r' && c != '\n') = d at hd hs
    split
    · simp at hd
    · exact ⟨nofun, nofun, fun r a e => by cases e; exact hs⟩
    · simp at hd
    · exact ⟨nofun, nofun, nofun⟩
    · exact ⟨nofun, nofun, fun r a e => by cases e; exact hs⟩

theorem Serene.multispace1 : Serene multispace1 := by
  intro i _
  cases i with
  | nil => exact ⟨nofun, nofun, nofun⟩
  | cons c cs =>
    have e : Compact.multispace1 (c :: cs) = if isMultispace c then .ok (cs.dropWhile isMultispace) () else .err := rfl
    rw [e]
    by_cases hc : isMultispace c = true
    · rw [if_pos hc]
      refine ⟨nofun, nofun, fun r a e => ?_⟩
      cases e
      exact (List.dropWhile_suffix _).trans (List.suffix_cons _ _)
    · rw [if_neg hc]; exact ⟨nofun, nofun, nofun⟩

theorem Serene.spaceLoop : ∀ n, Serene (spaceLoop n)
  | 0 => fun _ _ => ⟨nofun, nofun, nofun⟩
  | n + 1 => by
    intro i hi
    obtain ⟨h1, h2, h3⟩ := Serene.alt Serene.multispace1 Serene.comment i hi
    unfold Compact.spaceLoop
    cases h : P.alt Compact.multispace1 Compact.comment i with
    | err => exact ⟨nofun, nofun, fun r' a' e => by cases e; exact List.suffix_refl _⟩
    | incomplete => exact absurd h h1
    | panic => exact absurd h h2
    | ok r a =>
      have l := h3 _ _ h
      dsimp only
      split
      · exact ⟨nofun, nofun, nofun⟩
      · obtain ⟨h4, h5, h6⟩ := Serene.spaceLoop n r (hi.suffix l)
        exact ⟨h4, h5, fun r' a' e => (h6 _ _ e).trans l⟩
    | _ => exact ⟨nofun, nofun, nofun⟩

theorem Serene.space0 : Serene space0 := fun i hi => Serene.spaceLoop (i.length + 1) i hi
theorem Serene.space1 : Serene space1 := Serene.bind (Serene.alt Serene.multispace1 Serene.comment) fun _ => Serene.space0

/-! ### names and literals -/

theorem Serene.pNcName : Serene pNcName := by
  intro i _
  have h : Compact.pNcName i ≠ .incomplete ∧ Compact.pNcName i ≠ .panic := by
    unfold Compact.pNcName
    split <;> exact ⟨nofun, nofun⟩
  exact ⟨h.1, h.2, fun r a e => by rw [(pNcName_inv e).1]; exact List.suffix_append _ _⟩

theorem Serene.keyword : Serene keyword := by
  intro i _
  have h : Compact.keyword i ≠ .incomplete ∧ Compact.keyword i ≠ .panic := by
    unfold Compact.keyword
    rcases keywordTag_total keywords i with h | ⟨r, k, h⟩
    · rw [bind_of_err h]; exact ⟨nofun, nofun⟩
    · rw [bind_of_ok h]
      cases r with
      | nil => exact ⟨nofun, nofun⟩
      | cons c cs =>
        show (P.bind notNameChar _) _ ≠ _ ∧ (P.bind notNameChar _) _ ≠ _
        unfold P.bind notNameChar
        dsimp only
        by_cases hc : ncNameChar c = true
        · rw [if_pos hc]; exact ⟨nofun, nofun⟩
        · rw [if_neg hc]; exact ⟨nofun, nofun⟩
  exact ⟨h.1, h.2, fun r a e => by rw [(keyword_inv e).1]; exact List.suffix_append _ _⟩

theorem Serene.notKeyword : Serene notKeyword := by
  intro i hi
  obtain ⟨h1, h2, _⟩ := Serene.keyword i hi
  unfold Compact.notKeyword
  cases h : Compact.keyword i with
  | incomplete => exact absurd h h1
  | panic => exact absurd h h2
  | err => exact ⟨nofun, nofun, fun r a e => by cases e; exact List.suffix_refl _⟩
  | _ => exact ⟨nofun, nofun, nofun⟩

theorem Serene.takeUntil3 (q : Char) : Serene (takeUntil3 q) := by
  have key : ∀ i : Str, Compact.takeUntil3 q i ≠ .incomplete ∧ Compact.takeUntil3 q i ≠ .panic ∧ ∀ r a, Compact.takeUntil3 q i = .ok r a → r <:+ i := by
    intro i
    induction i with
    | nil => exact ⟨nofun, nofun, nofun⟩
    | cons c cs ih =>
      unfold Compact.takeUntil3
      split
      · exact ⟨nofun, nofun, fun r a e => by cases e; exact List.suffix_refl _⟩
      · cases h : Compact.takeUntil3 q cs with
        | ok r s => exact ⟨nofun, nofun, fun r' a' e => by cases e; exact (ih.2.2 _ _ h).trans (List.suffix_cons _ _)⟩
        | incomplete => exact absurd h ih.1
        | panic => exact absurd h ih.2.1
        | _ => exact ⟨nofun, nofun, nofun⟩
  exact fun i _ => key i

theorem Serene.upToQuote (q : Char) : Serene (upToQuote q) :=
  fun i _ => ⟨nofun, nofun, fun r a e => by cases e; exact List.dropWhile_suffix _⟩

/-- proves `Serene` for a composition of parsers, with the given facts about the others -/
syntax "serene" ("[" term,* "]")? : tactic
macro_rules
  | `(tactic| serene) => `(tactic| serene [])
  | `(tactic| serene [$ts,*]) => `(tactic| repeat' (first
      | with_reducible exact Serene.pure _ | with_reducible exact Serene.space0 | with_reducible exact Serene.space1 | with_reducible exact Serene.pNcName
      | with_reducible exact Serene.keyword | with_reducible exact Serene.notKeyword
      | with_reducible exact Serene.takeUntil3 _ | with_reducible exact Serene.upToQuote _ | with_reducible exact Serene.tag
      $[| with_reducible exact $ts]*
      | with_reducible apply Serene.alt | with_reducible apply Serene.sepList0 | with_reducible apply Serene.sepList1 | with_reducible apply Serene.opt
      | with_reducible apply Serene.cut
      | (with_reducible refine Serene.bind ?_ fun _ => ?_)
      | split))

theorem Serene.identifier : Serene identifier := by unfold Compact.identifier; serene
theorem Serene.identifierOrKeyword : Serene identifierOrKeyword := .alt .identifier .keyword
theorem Serene.cname : Serene cname := by unfold Compact.cname; serene
theorem Serene.pName : Serene pName := by unfold Compact.pName; serene [Serene.cname, Serene.identifierOrKeyword]
theorem Serene.literal : Serene literal := by
  unfold Compact.literal literalSegment tripleQuoted quoted; serene
theorem Serene.namespaceUriLiteral : Serene namespaceUriLiteral := by unfold Compact.namespaceUriLiteral; serene [Serene.literal]
theorem Serene.annotationAttribute : Serene annotationAttribute := by unfold Compact.annotationAttribute; serene [Serene.pName, Serene.literal]

theorem Serene.ann : ∀ n, Serene (annotationElement n)
  | 0 => fun _ _ => ⟨nofun, nofun, nofun⟩
  | n + 1 => by
    intro i hi
    rw [annotationElement]
    revert i
    show Serene _
    serene [Serene.pName, Serene.annotationAttribute, Serene.literal, Serene.ann n]

theorem Serene.initial (n : Nat) : Serene (maybeInitialAnnotation n) := by
  unfold maybeInitialAnnotation initialAnnotation
  serene [Serene.annotationAttribute, Serene.ann n]

/-- no annotation follows anything in a calm text -/
theorem Serene.followBind {n : Nat} {f : List Unit → P β} (h : Serene (f [])) : Serene (followAnnotationList n >>= f) := by
  have none : ∀ i, Calm i → followAnnotation n i = .err ∨ followAnnotation n i = .fail ∨ followAnnotation n i = .fuel := by
    intro i hi
    unfold followAnnotation
    obtain ⟨h1, h2, h3⟩ := Serene.space0 i hi
    show P.bind Compact.space0 _ i = _ ∨ P.bind Compact.space0 _ i = _ ∨ P.bind Compact.space0 _ i = _
    unfold P.bind
    cases e : Compact.space0 i with
    | incomplete => exact absurd e h1
    | panic => exact absurd e h2
    | err => exact .inl rfl
    | fail => exact .inr (.inl rfl)
    | fuel => exact .inr (.inr rfl)
    | ok r u =>
      dsimp only
      have hr := h3 _ _ e
      rcases tag_cases ['>', '>'] r with k | ⟨r', e', k⟩
      · rw [bind_of_err k]; exact .inl rfl
      · exact absurd ⟨[], by rw [e']; rfl⟩ ((hi.suffix hr).2 r')
  intro i hi
  show P.bind _ f i ≠ _ ∧ P.bind _ f i ≠ _ ∧ ∀ r a, P.bind _ f i = _ → _
  unfold followAnnotationList P.bind P.sepList0
  rcases none i hi with e | e | e <;> rw [e]
  · exact h i hi
  · exact ⟨nofun, nofun, nofun⟩
  · exact ⟨nofun, nofun, nofun⟩

theorem Serene.checkFollow (o : Option Unit) : Serene (checkFollow o []) :=
  fun i _ => ⟨nofun, nofun, fun r a e => by cases e; exact List.suffix_refl _⟩

theorem Serene.altTail {nc : P SNameClass} (h : Serene nc) (left : SNameClass) : Serene (altTail nc left) := by
  intro i hi
  have key : Serene (altNc nc) := by unfold altNc; serene [h]
  obtain ⟨h1, h2, h3⟩ := key i hi
  unfold Compact.altTail
  cases e : altNc nc i with
  | panic => exact absurd e h2
  | incomplete => exact absurd e h1
  | ok r a => exact ⟨nofun, nofun, fun r' a' e' => by cases e'; exact h3 _ _ e⟩
  | fuel => exact ⟨nofun, nofun, nofun⟩
  | _ => exact ⟨nofun, nofun, fun r' a' e' => by cases e'; exact List.suffix_refl _⟩

theorem Serene.nameClass : ∀ n, Serene (nameClass n)
  | 0 => fun _ _ => ⟨nofun, nofun, nofun⟩
  | n + 1 => by
    intro i hi
    rw [Compact.nameClass]
    revert i
    show Serene _
    have ih := Serene.nameClass n
    have base : Serene (P.alt (nsNameNc (Compact.nameClass n)) (P.alt Compact.pName (P.alt (anyNameNc (Compact.nameClass n)) (parenNc (Compact.nameClass n))))) := by
      unfold nsNameNc anyNameNc parenNc exceptNc
      serene [ih, Serene.pName]
    exact Serene.bind (Serene.initial n) fun o => Serene.bind base fun left => Serene.followBind (Serene.bind (Serene.checkFollow o) fun _ => Serene.altTail ih left)

theorem Serene.datatypeName : Serene datatypeName := by unfold Compact.datatypeName; serene [Serene.cname]
theorem Serene.params (n : Nat) : Serene (params n) := by
  unfold Compact.params param; serene [Serene.initial n, Serene.identifierOrKeyword, Serene.literal]
theorem Serene.braced {pat : P SPattern} (h : Serene pat) : Serene (braced pat) := by unfold Compact.braced; serene [h]
theorem Serene.inherit : Serene inherit := by unfold Compact.inherit; serene [Serene.identifierOrKeyword]

theorem Serene.primary {n : Nat} {pat : P SPattern} {item : P SItem} (hp : Serene pat) (hi : Serene item) : Serene (primary n pat item) := by
  unfold Compact.primary namedPattern datatypeValuePattern datatypeParamPattern externalPattern grammarPattern groupPattern
  serene [Serene.nameClass n, Serene.datatypeName, Serene.params n, Serene.literal, Serene.identifier, Serene.inherit, Serene.braced hp, hp, hi]

theorem Serene.operators {pat : P SPattern} (hp : Serene pat) : ∀ (n : Nat) (p : SPattern), Serene (operators pat n p)
  | 0, _ => fun _ _ => ⟨nofun, nofun, nofun⟩
  | n + 1, p => by
    intro i hi
    obtain ⟨h1, h2, h3⟩ := Serene.space0 i hi
    have lift : ∀ {q : P SPattern} {r0 r : Str}, r0 <:+ i → r <:+ r0 → Serene q → q r ≠ .incomplete ∧ q r ≠ .panic ∧ ∀ r' a, q r = .ok r' a → r' <:+ i := by
      intro q r0 r h0 h1 hq
      obtain ⟨h4, h5, h6⟩ := hq r (hi.suffix (h1.trans h0))
      exact ⟨h4, h5, fun r' a e => (h6 _ _ e).trans (h1.trans h0)⟩
    have bin : ∀ f : SPattern → SPattern, Serene (do Compact.space0; let right ← pat; Compact.operators pat n (f right) : P SPattern) :=
      fun f => Serene.bind Serene.space0 fun _ => Serene.bind hp fun r => Serene.operators hp n (f r)
    unfold Compact.operators
    split
    · rename_i r _ e; exact lift (h3 _ _ e) (List.suffix_cons _ _) (bin _)
    · rename_i r _ e; exact lift (h3 _ _ e) (List.suffix_cons _ _) (bin _)
    · rename_i r _ e; exact lift (h3 _ _ e) (List.suffix_cons _ _) (bin _)
    · rename_i r _ e; exact lift (h3 _ _ e) (List.suffix_cons _ _) (Serene.operators hp n _)
    · rename_i r _ e; exact lift (h3 _ _ e) (List.suffix_cons _ _) (Serene.operators hp n _)
    · rename_i r _ e; exact lift (h3 _ _ e) (List.suffix_cons _ _) (Serene.operators hp n _)
    · exact ⟨nofun, nofun, fun r a e => by cases e; exact List.suffix_refl _⟩
    · exact ⟨nofun, nofun, nofun⟩
    · exact ⟨nofun, nofun, nofun⟩
    · rename_i e; exact absurd e h1
    · rename_i e; exact absurd e h2
    · exact ⟨nofun, nofun, nofun⟩

theorem Serene.assignMethod : Serene assignMethod := by unfold Compact.assignMethod; serene
theorem Serene.startRule {pat : P SPattern} (h : Serene pat) : Serene (startRule pat) := by unfold Compact.startRule; serene [h, Serene.assignMethod]
theorem Serene.defineItem {pat : P SPattern} (h : Serene pat) : Serene (defineItem pat) := by unfold Compact.defineItem; serene [h, Serene.assignMethod, Serene.identifier]

theorem Serene.includeContent {pat : P SPattern} (h : Serene pat) : ∀ n, Serene (includeContent pat n)
  | 0 => fun _ _ => ⟨nofun, nofun, nofun⟩
  | n + 1 => by
    intro i hi
    rw [Compact.includeContent]
    revert i
    show Serene _
    serene [Serene.initial n, Serene.ann n, Serene.defineItem h, Serene.startRule h, Serene.includeContent h n]

theorem Serene.main : ∀ n, Serene (pattern n) ∧ Serene (grammarContent n)
  | 0 => ⟨fun _ _ => by rw [pattern]; exact ⟨nofun, nofun, nofun⟩, fun _ _ => by rw [grammarContent]; exact ⟨nofun, nofun, nofun⟩⟩
  | n + 1 => by
    obtain ⟨hp, hi⟩ := Serene.main n
    constructor
    · intro i hi'
      rw [pattern]
      revert i
      show Serene _
      exact Serene.bind (Serene.initial n) fun _ => Serene.bind (Serene.primary hp hi) fun p => Serene.followBind (Serene.operators hp _ _)
    · intro i hi'
      rw [grammarContent]
      revert i
      show Serene _
      unfold divItem includeItem overrideBlock
      serene [Serene.startRule hp, Serene.defineItem hp, hi, Serene.includeContent hp n, Serene.literal, Serene.inherit, Serene.ann n]

theorem Serene.decl : Serene decl := by
  unfold Compact.decl declNamespace declDefaultNamespace declDatatypes
  serene [Serene.identifierOrKeyword, Serene.namespaceUriLiteral, Serene.literal]

/-- On a calm text, there is no panic. -/
theorem parse_calm {n : Nat} {t : Str} (h : Calm t) : parseCompact n t ≠ .panic := by
  have key : Serene (do Compact.space0; let s ← topLevel n; Compact.space0; pure s : P SSchema) := by
    unfold topLevel
    serene [Serene.decl, (Serene.main n).1, (Serene.main n).2]
  obtain ⟨h1, h2, _⟩ := key t h
  unfold parseCompact compactSchema allConsuming
  cases e : (do Compact.space0; let s ← topLevel n; Compact.space0; pure s : P SSchema) t with
  | incomplete => exact absurd e h1
  | panic => exact absurd e h2
  | ok r a => cases r <;> exact nofun
  | _ => exact nofun

end Verif.Compact
