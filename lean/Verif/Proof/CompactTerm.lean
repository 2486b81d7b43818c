import Verif.Model.Compact
import Verif.Proof.CompactLex
/-
The compact syntax: the model's recursion budget is enough, and more of it changes nothing.
-/
namespace Verif.Compact
open Verif P
variable {α β : Type}

/-- on inputs of at most `L` characters, the parser stays within the budget and consumes at least `k` characters -/
def Safe (k L : Nat) (p : P α) : Prop := ∀ i : Str, i.length ≤ L → p i ≠ .fuel ∧ ∀ r a, p i = .ok r a → r.length + k ≤ i.length

theorem Safe.mono {k L k' L' : Nat} {p : P α} (h : Safe k L p) (hk : k' ≤ k) (hL : L' ≤ L) : Safe k' L' p :=
  fun i hi => ⟨(h i (by omega)).1, fun r a e => by have := (h i (by omega)).2 r a e; omega⟩

theorem Safe.bind {k L : Nat} {p : P α} {f : α → P β} (hp : Safe k L p) (hf : ∀ a, Safe 0 (L - k) (f a)) : Safe 0 L (p >>= f) := by
  intro i hi
  obtain ⟨h1, h2⟩ := hp i hi
  show P.bind p f i ≠ _ ∧ ∀ r a, P.bind p f i = _ → _
  unfold P.bind
  cases h : p i with
  | ok r a =>
    have := h2 r a h
    obtain ⟨h3, h4⟩ := hf a r (by omega)
    exact ⟨h3, fun r' a' e => by have := h4 r' a' e; omega⟩
  | fuel => exact absurd h h1
  | _ => exact ⟨nofun, nofun⟩

theorem Safe.bind1 {k L : Nat} {p : P α} {f : α → P β} (hp : Safe k L p) (hf : ∀ a, Safe 1 (L - k) (f a)) : Safe 1 L (p >>= f) := by
  intro i hi
  obtain ⟨h1, h2⟩ := hp i hi
  show P.bind p f i ≠ _ ∧ ∀ r a, P.bind p f i = _ → _
  unfold P.bind
  cases h : p i with
  | ok r a =>
    have := h2 r a h
    obtain ⟨h3, h4⟩ := hf a r (by omega)
    exact ⟨h3, fun r' a' e => by have := h4 r' a' e; omega⟩
  | fuel => exact absurd h h1
  | _ => exact ⟨nofun, nofun⟩

theorem Safe.pure {L : Nat} (a : α) : Safe 0 L (pure a : P α) :=
  fun i _ => ⟨nofun, fun r a e => by cases e; exact Nat.le_refl _⟩

theorem Safe.alt {k L : Nat} {p q : P α} (hp : Safe k L p) (hq : Safe k L q) : Safe k L (alt p q) := by
  intro i hi
  obtain ⟨h1, h2⟩ := hp i hi
  unfold P.alt
  cases h : p i with
  | err => exact hq i hi
  | fuel => exact absurd h h1
  | ok r a => exact ⟨nofun, fun r' a' e => by cases e; exact h2 _ _ h⟩
  | _ => exact ⟨nofun, nofun⟩

theorem Safe.opt {k L : Nat} {p : P α} (hp : Safe k L p) : Safe 0 L (opt p) := by
  intro i hi
  obtain ⟨h1, h2⟩ := hp i hi
  unfold P.opt
  cases h : p i with
  | err => exact ⟨nofun, fun r' a' e => by cases e; exact Nat.le_refl _⟩
  | fuel => exact absurd h h1
  | ok r a => exact ⟨nofun, fun r' a' e => by cases e; have := h2 _ _ h; omega⟩
  | _ => exact ⟨nofun, nofun⟩

theorem Safe.cut {k L : Nat} {p : P α} (hp : Safe k L p) : Safe k L (cut p) := by
  intro i hi
  obtain ⟨h1, h2⟩ := hp i hi
  unfold P.cut
  cases h : p i with
  | fuel => exact absurd h h1
  | ok r a => exact ⟨nofun, fun r' a' e => by cases e; exact h2 _ _ h⟩
  | _ => exact ⟨nofun, nofun⟩

theorem Safe.tag {L : Nat} {t : Str} (ht : t ≠ []) : Safe 1 L (tag t) := by
  intro i _
  rcases tag_cases t i with h | ⟨r, e, h⟩
  · rw [h]; exact ⟨nofun, nofun⟩
  · rw [h]; refine ⟨nofun, fun r' a' e' => ?_⟩
    cases e'
    have := List.length_pos_iff.mpr ht
    rw [e, List.length_append]; omega

theorem sepLoop_safe {L : Nat} {sep : P Unit} {p : P α} (hs : Safe 0 L sep) (hp : Safe 0 L p) : ∀ (n : Nat) (i : Str), i.length ≤ L → i.length < n →
    sepLoop sep p n i ≠ .fuel ∧ ∀ r a, sepLoop sep p n i = .ok r a → r.length ≤ i.length
  | 0, _, _, h => absurd h (Nat.not_lt_zero _)
  | n + 1, i, hi, hn => by
    obtain ⟨h1, h2⟩ := hs i hi
    unfold sepLoop
    cases h : sep i with
    | err => exact ⟨nofun, fun r' a' e => by cases e; exact Nat.le_refl _⟩
    | fuel => exact absurd h h1
    | ok i1 u =>
      have l1 := h2 _ _ h
      obtain ⟨h3, h4⟩ := hp i1 (by omega)
      dsimp only
      cases h' : p i1 with
      | err => exact ⟨nofun, fun r' a' e => by cases e; exact Nat.le_refl _⟩
      | fuel => exact absurd h' h3
      | ok i2 a =>
        have l2 := h4 _ _ h'
        dsimp only
        split
        · exact ⟨nofun, nofun⟩
        · obtain ⟨h5, h6⟩ := sepLoop_safe hs hp n i2 (by omega) (by omega)
          cases h'' : sepLoop sep p n i2 with
          | fuel => exact absurd h'' h5
          | ok r as => exact ⟨nofun, fun r' a' e => by cases e; have := h6 _ _ h''; omega⟩
          | _ => exact ⟨nofun, nofun⟩
      | _ => exact ⟨nofun, nofun⟩
    | _ => exact ⟨nofun, nofun⟩

theorem Safe.sepList0 {L : Nat} {sep : P Unit} {p : P α} (hs : Safe 0 L sep) (hp : Safe 0 L p) : Safe 0 L (sepList0 sep p) := by
  intro i hi
  obtain ⟨h1, h2⟩ := hp i hi
  unfold P.sepList0
  cases h : p i with
  | err => exact ⟨nofun, fun r' a' e => by cases e; exact Nat.le_refl _⟩
  | fuel => exact absurd h h1
  | ok r a =>
    have := h2 _ _ h
    obtain ⟨h5, h6⟩ := sepLoop_safe hs hp (r.length + 1) r (by omega) (by omega)
    dsimp only
    cases h'' : sepLoop sep p (r.length + 1) r with
    | fuel => exact absurd h'' h5
    | ok r' as => exact ⟨nofun, fun r' a' e => by cases e; have := h6 _ _ h''; omega⟩
    | _ => exact ⟨nofun, nofun⟩
  | _ => exact ⟨nofun, nofun⟩

theorem Safe.sepList1 {L : Nat} {sep : P Unit} {p : P α} (hs : Safe 0 L sep) (hp : Safe 0 L p) : Safe 0 L (sepList1 sep p) := by
  intro i hi
  obtain ⟨h1, h2⟩ := hp i hi
  unfold P.sepList1
  cases h : p i with
  | err => exact ⟨nofun, nofun⟩
  | fuel => exact absurd h h1
  | ok r a =>
    have := h2 _ _ h
    obtain ⟨h5, h6⟩ := sepLoop_safe hs hp (r.length + 1) r (by omega) (by omega)
    dsimp only
    cases h'' : sepLoop sep p (r.length + 1) r with
    | fuel => exact absurd h'' h5
    | ok r' as => exact ⟨nofun, fun r' a' e => by cases e; have := h6 _ _ h''; omega⟩
    | _ => exact ⟨nofun, nofun⟩
  | _ => exact ⟨nofun, nofun⟩

/-! ### white space -/

theorem dropWhile_le (f : Char → Bool) : ∀ i : Str, (i.dropWhile f).length ≤ i.length
  | [] => Nat.le_refl _
  | c :: cs => by
    rw [List.dropWhile_cons]
    split
    · have := dropWhile_le f cs; simp; omega
    · exact Nat.le_refl _

theorem Safe.multispace1 {L : Nat} : Safe 1 L multispace1 := by
  intro i _
  cases i with
  | nil => exact ⟨nofun, nofun⟩
  | cons c cs =>
    have e : Compact.multispace1 (c :: cs) = if isMultispace c then .ok (cs.dropWhile isMultispace) () else .err := rfl
    rw [e]
    by_cases hc : isMultispace c = true
    · rw [if_pos hc]
      refine ⟨nofun, fun r a e => ?_⟩
      cases e
      have := dropWhile_le isMultispace cs
      simpa using this
    · rw [if_neg hc]; exact ⟨nofun, nofun⟩

theorem Safe.notLineEnding {L : Nat} : Safe 0 L notLineEnding := by
  intro i _
  have h := dropWhile_le (fun c => c != '\r' && c != '\n') i
  unfold Compact.notLineEnding
  generalize i.dropWhile (fun c => c != '\r' && c != '\n') = d at h
  split
  all_goals first
    | exact ⟨nofun, fun r a e => by cases e; exact h⟩
    | exact ⟨nofun, nofun⟩

theorem Safe.comment {L : Nat} : Safe 1 L comment := by
  intro i hi
  unfold Compact.comment
  rcases tag_cases ['#'] i with h | ⟨r, e, h⟩
  · rw [bind_of_err h]; exact ⟨nofun, nofun⟩
  · rw [bind_of_ok h]
    obtain ⟨h1, h2⟩ := Safe.notLineEnding (L := L) r (by rw [e] at hi; simp at hi; omega)
    exact ⟨h1, fun r' a' e' => by have := h2 _ _ e'; rw [e]; simp; omega⟩

theorem Safe.spaceStep {L : Nat} : Safe 1 L (P.alt Compact.multispace1 Compact.comment) := .alt .multispace1 .comment

theorem spaceLoop_safe : ∀ (n : Nat) (i : Str), i.length < n → spaceLoop n i ≠ .fuel ∧ ∀ r a, spaceLoop n i = .ok r a → r.length ≤ i.length
  | 0, _, h => absurd h (Nat.not_lt_zero _)
  | n + 1, i, hn => by
    obtain ⟨h1, h2⟩ := Safe.spaceStep (L := i.length) i (Nat.le_refl _)
    unfold spaceLoop
    cases h : P.alt Compact.multispace1 Compact.comment i with
    | err => exact ⟨nofun, fun r' a' e => by cases e; exact Nat.le_refl _⟩
    | fuel => exact absurd h h1
    | ok r a =>
      have := h2 _ _ h
      dsimp only
      split
      · exact ⟨nofun, nofun⟩
      · obtain ⟨h5, h6⟩ := spaceLoop_safe n r (by omega)
        exact ⟨h5, fun r' a' e => by have := h6 _ _ e; omega⟩
    | _ => exact ⟨nofun, nofun⟩

theorem Safe.space0 {L : Nat} : Safe 0 L space0 := fun i _ => spaceLoop_safe _ i (Nat.lt_succ_self _)

theorem Safe.space1' {L : Nat} : Safe 1 L space1 := by
  intro i hi
  unfold Compact.space1
  obtain ⟨h1, h2⟩ := Safe.spaceStep (L := i.length) i (Nat.le_refl _)
  show P.bind _ _ i ≠ _ ∧ ∀ r a, P.bind _ _ i = _ → _
  unfold P.bind
  cases h : P.alt Compact.multispace1 Compact.comment i with
  | ok r a =>
    have := h2 _ _ h
    obtain ⟨h5, h6⟩ := Safe.space0 (L := r.length) r (Nat.le_refl _)
    exact ⟨h5, fun r' a' e => by have := h6 _ _ e; omega⟩
  | fuel => exact absurd h h1
  | _ => exact ⟨nofun, nofun⟩

theorem Safe.space1 {L : Nat} : Safe 0 L space1 := Safe.space1'.mono (by omega) (Nat.le_refl _)

/-! ### names and literals -/

theorem Safe.pNcName {L : Nat} : Safe 0 L pNcName := by
  intro i _
  unfold Compact.pNcName
  cases i with
  | nil => exact ⟨nofun, nofun⟩
  | cons c cs =>
    unfold ncName
    dsimp only
    split
    · rename_i n r h
      split at h
      · cases h
        refine ⟨nofun, fun r a e => ?_⟩
        cases e
        have := dropWhile_le ncNameChar cs
        simp; omega
      · cases h
    · exact ⟨nofun, nofun⟩

theorem Safe.keyword {L : Nat} : Safe 0 L keyword := by
  intro i _
  unfold Compact.keyword
  rcases keywordTag_total keywords i with h | ⟨r, k, h⟩
  · rw [bind_of_err h]; exact ⟨nofun, nofun⟩
  · rw [bind_of_ok h]
    obtain ⟨_, e⟩ := keywordTag_ok h
    cases r with
    | nil => exact ⟨nofun, fun r a e => by cases e; simp⟩
    | cons c cs =>
      show (P.bind notNameChar _) _ ≠ _ ∧ ∀ r a, (P.bind notNameChar _) _ = _ → _
      unfold P.bind notNameChar
      dsimp only
      by_cases hc : ncNameChar c = true
      · rw [if_pos hc]; exact ⟨nofun, nofun⟩
      · rw [if_neg hc]; exact ⟨nofun, fun r a e' => by cases e'; rw [e]; simp⟩

theorem Safe.notKeyword {L : Nat} : Safe 0 L notKeyword := by
  intro i hi
  obtain ⟨h1, h2⟩ := Safe.keyword (L := L) i hi
  unfold Compact.notKeyword
  cases h : Compact.keyword i with
  | fuel => exact absurd h h1
  | err => exact ⟨nofun, fun r a e => by cases e; exact Nat.le_refl _⟩
  | _ => exact ⟨nofun, nofun⟩

theorem Safe.takeUntil3 {L : Nat} (q : Char) : Safe 0 L (takeUntil3 q) := by
  have key : ∀ i : Str, Compact.takeUntil3 q i ≠ .fuel ∧ ∀ r a, Compact.takeUntil3 q i = .ok r a → r.length ≤ i.length := by
    intro i
    induction i with
    | nil => exact ⟨nofun, nofun⟩
    | cons c cs ih =>
      unfold Compact.takeUntil3
      split
      · exact ⟨nofun, fun r a e => by cases e; exact Nat.le_refl _⟩
      · cases h : Compact.takeUntil3 q cs with
        | ok r s => exact ⟨nofun, fun r' a' e => by cases e; have := ih.2 _ _ h; simp; omega⟩
        | fuel => exact absurd h ih.1
        | _ => exact ⟨nofun, nofun⟩
  exact fun i _ => key i

theorem Safe.upToQuote {L : Nat} (q : Char) : Safe 0 L (upToQuote q) :=
  fun i _ => ⟨nofun, fun r a e => by cases e; exact dropWhile_le _ i⟩

/-- proves `Safe` for a composition of parsers, with the given facts about the recursive ones -/
syntax "safe" ("[" term,* "]")? : tactic
macro_rules
  | `(tactic| safe) => `(tactic| safe [])
  | `(tactic| safe [$ts,*]) => `(tactic| repeat' (first
      | with_reducible exact Safe.pure _ | with_reducible exact Safe.space0 | with_reducible exact Safe.space1 | with_reducible exact Safe.pNcName | with_reducible exact Safe.keyword | with_reducible exact Safe.notKeyword
      | with_reducible exact Safe.takeUntil3 _ | with_reducible exact Safe.upToQuote _
      | with_reducible exact Safe.tag (by decide)
      | with_reducible exact Safe.mono (Safe.tag (by decide)) (by omega) (Nat.le_refl _)
      $[| with_reducible exact $ts]*
      | with_reducible apply Safe.alt | with_reducible apply Safe.sepList0 | with_reducible apply Safe.sepList1 | with_reducible apply Safe.opt
      | with_reducible apply Safe.cut
      | (with_reducible refine Safe.bind (k := 1) (Safe.tag (by decide)) fun _ => ?_)
      | (with_reducible refine Safe.bind (k := 1) (Safe.cut (Safe.tag (by decide))) fun _ => ?_)
      | (with_reducible refine Safe.bind (k := 1) Safe.space1' fun _ => ?_)
      | (with_reducible refine Safe.bind (k := 0) ?_ fun _ => ?_)
      | split))

theorem Safe.identifier {L : Nat} : Safe 0 L identifier := by unfold Compact.identifier; safe
theorem Safe.identifierOrKeyword {L : Nat} : Safe 0 L identifierOrKeyword := .alt .identifier .keyword
theorem Safe.cname {L : Nat} : Safe 0 L cname := by unfold Compact.cname; safe
theorem Safe.pName {L : Nat} : Safe 0 L pName := by unfold Compact.pName; safe [Safe.cname, Safe.identifierOrKeyword]
theorem Safe.tripleQuoted {L : Nat} {q : Char} : Safe 0 L (tripleQuoted q) := by unfold Compact.tripleQuoted; safe [Safe.mono (Safe.tag (by simp)) (Nat.zero_le _) (Nat.le_refl _)]
theorem Safe.quoted {L : Nat} {q : Char} : Safe 0 L (quoted q) := by unfold Compact.quoted; safe [Safe.mono (Safe.tag (by simp)) (Nat.zero_le _) (Nat.le_refl _)]
theorem Safe.literalSegment {L : Nat} : Safe 0 L literalSegment := by unfold Compact.literalSegment; safe [Safe.tripleQuoted, Safe.quoted]
theorem Safe.literal {L : Nat} : Safe 0 L literal := by unfold Compact.literal; safe [Safe.literalSegment]
theorem Safe.namespaceUriLiteral {L : Nat} : Safe 0 L namespaceUriLiteral := by unfold Compact.namespaceUriLiteral; safe [Safe.literal]
theorem Safe.annotationAttribute {L : Nat} : Safe 0 L annotationAttribute := by unfold Compact.annotationAttribute; safe [Safe.pName, Safe.literal]

theorem annotationElement_safe : ∀ (n L : Nat), L + 1 ≤ n → Safe 0 L (annotationElement n)
  | 0, _, h => absurd h (by omega)
  | n + 1, L, h => by
    intro i hi
    rw [annotationElement]
    revert i
    show Safe 0 L _
    have ih : ∀ L', L' + 1 ≤ n → Safe 0 L' (annotationElement n) := fun L' => annotationElement_safe n L'
    by_cases hL : L = 0
    · subst hL
      intro i hi
      have : i = [] := List.length_eq_zero_iff.mp (by omega)
      subst this
      have : Compact.pName [] = .err := rfl
      rw [bind_of_err this]; exact ⟨nofun, nofun⟩
    · safe [Safe.pName, Safe.annotationAttribute, Safe.literal, ih _ (by omega)]

/-! ### the recursive parsers -/

theorem Safe.ann {n L : Nat} (h : L + 1 ≤ n) : Safe 0 L (annotationElement n) := annotationElement_safe n L h

theorem Safe.initial {n L : Nat} (h : L ≤ n) : Safe 0 L (maybeInitialAnnotation n) := by
  by_cases hL : L = 0
  · subst hL
    intro i hi
    have : i = [] := List.length_eq_zero_iff.mp (by omega)
    subst this
    exact ⟨nofun, fun r a e => by cases e; exact Nat.le_refl _⟩
  · unfold maybeInitialAnnotation initialAnnotation
    safe [Safe.annotationAttribute, Safe.ann (by omega)]

theorem Safe.follow {n L : Nat} (h : L ≤ n) : Safe 0 L (followAnnotationList n) := by
  have key : Safe 0 L (followAnnotation n) := by
    by_cases hL : L = 0
    · subst hL
      intro i hi
      have : i = [] := List.length_eq_zero_iff.mp (by omega)
      subst this
      exact ⟨nofun, nofun⟩
    · unfold followAnnotation
      safe [Safe.ann (by omega)]
  unfold followAnnotationList
  safe [key]

theorem Safe.checkFollow {L : Nat} (o : Option Unit) (fs : List Unit) : Safe 0 L (checkFollow o fs) := by
  intro i _
  unfold Compact.checkFollow
  split
  · exact ⟨nofun, fun r a e => by cases e; exact Nat.le_refl _⟩
  · split
    · exact ⟨nofun, fun r a e => by cases e; exact Nat.le_refl _⟩
    · exact ⟨nofun, nofun⟩

theorem Safe.altTail {L : Nat} {nc : P SNameClass} (h : Safe 0 (L - 1) nc) (left : SNameClass) : Safe 0 L (altTail nc left) := by
  intro i hi
  have key : Safe 0 L (altNc nc) := by unfold altNc; safe [h.mono (Nat.le_refl _) (by omega)]
  obtain ⟨h1, h2⟩ := key i hi
  unfold Compact.altTail
  cases e : altNc nc i with
  | fuel => exact absurd e h1
  | ok r a => exact ⟨nofun, fun r' a' e' => by cases e'; exact h2 _ _ e⟩
  | panic => exact ⟨nofun, nofun⟩
  | _ => exact ⟨nofun, fun r' a' e' => by cases e'; exact Nat.le_refl _⟩

theorem nameClass_safe : ∀ (n L : Nat), L + 1 ≤ n → Safe 0 L (nameClass n)
  | 0, _, h => absurd h (by omega)
  | n + 1, L, h => by
    intro i hi
    rw [nameClass]
    revert i
    show Safe 0 L _
    have ih : ∀ L', L' + 1 ≤ n → Safe 0 L' (nameClass n) := fun L' => nameClass_safe n L'
    by_cases hL : L = 0
    · subst hL
      intro i hi
      have : i = [] := List.length_eq_zero_iff.mp (by omega)
      subst this
      exact ⟨nofun, nofun⟩
    · unfold nsNameNc anyNameNc parenNc exceptNc
      safe [Safe.initial (by omega), Safe.follow (by omega), Safe.pName, Safe.checkFollow _ _, Safe.altTail (ih _ (by omega)) _, ih _ (by omega)]

theorem Safe.datatypeName {L : Nat} : Safe 0 L datatypeName := by unfold Compact.datatypeName; safe [Safe.cname]

theorem Safe.params {n L : Nat} (h : L ≤ n) : Safe 0 L (params n) := by
  unfold Compact.params param
  safe [Safe.initial (by omega), Safe.identifierOrKeyword, Safe.literal]

theorem Safe.braced {L : Nat} {pat : P SPattern} (h : Safe 0 L pat) : Safe 0 L (braced pat) := by
  unfold Compact.braced
  safe [h.mono (Nat.le_refl _) (by omega)]

theorem Safe.inherit {L : Nat} : Safe 0 L inherit := by unfold Compact.inherit; safe [Safe.identifierOrKeyword]

theorem Safe.primary {n L : Nat} {pat : P SPattern} {item : P SItem} (h : L ≤ n) (hp : Safe 0 (L - 1) pat) (hi : Safe 0 (L - 2) item) : Safe 0 L (primary n pat item) := by
  unfold Compact.primary namedPattern datatypeValuePattern datatypeParamPattern externalPattern grammarPattern groupPattern
  by_cases hL : L = 0
  · subst hL
    intro i hi
    have : i = [] := List.length_eq_zero_iff.mp (by omega)
    subst this
    exact ⟨nofun, nofun⟩
  · safe [nameClass_safe n _ (by omega), Safe.datatypeName, Safe.params (by omega), Safe.literal, Safe.identifier, Safe.inherit,
      Safe.braced (hp.mono (Nat.le_refl _) (by omega)), hp.mono (Nat.le_refl _) (by omega), hi.mono (Nat.le_refl _) (by omega)]

theorem operators_safe {L : Nat} {pat : P SPattern} (hp : Safe 0 L pat) : ∀ (n : Nat) (p : SPattern) (i : Str), i.length ≤ L + 1 → i.length < n →
    operators pat n p i ≠ .fuel ∧ ∀ r a, operators pat n p i = .ok r a → r.length ≤ i.length
  | 0, _, _, _, h => absurd h (Nat.not_lt_zero _)
  | n + 1, p, i, hi, hn => by
    obtain ⟨h1, h2⟩ := Safe.space0 (L := i.length) i (Nat.le_refl _)
    have bin : ∀ (f : SPattern → SPattern) (r : Str), r.length < i.length →
        (do space0; let right ← pat; operators pat n (f right) : P SPattern) r ≠ .fuel ∧
        ∀ r' a, (do space0; let right ← pat; operators pat n (f right) : P SPattern) r = .ok r' a → r'.length ≤ i.length := by
      intro f r hr
      have key : Safe 0 r.length (do space0; let right ← pat; operators pat n (f right) : P SPattern) := by
        refine Safe.bind (k := 0) Safe.space0 fun _ => Safe.bind (k := 0) (hp.mono (Nat.le_refl _) (by omega)) fun q => ?_
        intro j hj
        exact operators_safe hp n (f q) j (by omega) (by omega)
      obtain ⟨h3, h4⟩ := key r (Nat.le_refl _)
      exact ⟨h3, fun r' a e => by have := h4 _ _ e; omega⟩
    have un : ∀ (q : SPattern) (r : Str), r.length < i.length → operators pat n q r ≠ .fuel ∧ ∀ r' a, operators pat n q r = .ok r' a → r'.length ≤ i.length := by
      intro q r hr
      obtain ⟨h3, h4⟩ := operators_safe hp n q r (by omega) (by omega)
      exact ⟨h3, fun r' a e => by have := h4 _ _ e; omega⟩
    unfold operators
    split
    · rename_i r _ e; have := h2 _ _ e; exact bin _ r (by simp at this; omega)
    · rename_i r _ e; have := h2 _ _ e; exact bin _ r (by simp at this; omega)
    · rename_i r _ e; have := h2 _ _ e; exact bin _ r (by simp at this; omega)
    · rename_i r _ e; have := h2 _ _ e; exact un _ r (by simp at this; omega)
    · rename_i r _ e; have := h2 _ _ e; exact un _ r (by simp at this; omega)
    · rename_i r _ e; have := h2 _ _ e; exact un _ r (by simp at this; omega)
    · exact ⟨nofun, fun r a e => by cases e; exact Nat.le_refl _⟩
    · exact ⟨nofun, nofun⟩
    · exact ⟨nofun, nofun⟩
    · exact ⟨nofun, nofun⟩
    · exact ⟨nofun, nofun⟩
    · rename_i e; exact absurd e h1

theorem Safe.assignMethod {L : Nat} : Safe 0 L assignMethod := by unfold Compact.assignMethod; safe

theorem Safe.startRule {L : Nat} {pat : P SPattern} (h : Safe 0 (L - 1) pat) : Safe 0 L (startRule pat) := by
  unfold Compact.startRule
  safe [Safe.assignMethod, h.mono (Nat.le_refl _) (by omega)]

theorem assignMethod_safe1 {L : Nat} : Safe 1 L assignMethod := by
  intro i _
  have key : ∀ t : Str, t ≠ [] → ∀ a : AssignMethod, Safe 1 i.length (do tag t; pure a : P AssignMethod) := fun t ht a =>
    fun j hj => by
      rcases tag_cases t j with h | ⟨r, e, h⟩
      · rw [bind_of_err h]; exact ⟨nofun, nofun⟩
      · rw [bind_of_ok h]
        have := List.length_pos_iff.mpr ht
        exact ⟨nofun, fun r' a' e' => by cases e'; rw [e, List.length_append]; omega⟩
  exact Safe.alt (key _ (by simp) _) (Safe.alt (key _ (by simp) _) (key _ (by simp) _)) i (Nat.le_refl _)

theorem Safe.defineItem {L : Nat} {pat : P SPattern} (h : Safe 0 (L - 1) pat) : Safe 0 L (defineItem pat) := by
  unfold Compact.defineItem
  refine Safe.bind (k := 0) Safe.identifier fun _ => Safe.bind (k := 0) Safe.space0 fun _ => Safe.bind (k := 1) assignMethod_safe1 fun _ => ?_
  safe [h.mono (Nat.le_refl _) (by omega)]

theorem includeContent_safe {M : Nat} {pat : P SPattern} (hp : Safe 0 (M - 1) pat) : ∀ (n L : Nat), L ≤ M → L + 2 ≤ n → Safe 0 L (includeContent pat n)
  | 0, _, _, h => absurd h (by omega)
  | n + 1, L, hM, h => by
    intro i hi
    rw [includeContent]
    revert i
    show Safe 0 L _
    have ih : ∀ L', L' ≤ M → L' + 2 ≤ n → Safe 0 L' (includeContent pat n) := fun L' => includeContent_safe hp n L'
    by_cases hL : L = 0
    · subst hL
      intro i hi
      have : i = [] := List.length_eq_zero_iff.mp (by omega)
      subst this
      obtain ⟨m, rfl⟩ : ∃ m, n = m + 1 := ⟨n - 1, by omega⟩
      exact ⟨nofun, nofun⟩
    · safe [Safe.initial (by omega), Safe.ann (by omega), Safe.defineItem (hp.mono (Nat.le_refl _) (by omega)),
        Safe.startRule (hp.mono (Nat.le_refl _) (by omega)), ih _ (by omega) (by omega)]

theorem Safe.includeItem {n L : Nat} {pat : P SPattern} (hn : L ≤ n) (hp : Safe 0 (L - 1) pat) : Safe 0 L (includeItem n pat) := by
  unfold Compact.includeItem overrideBlock
  refine Safe.bind (k := 1) (Safe.tag (by decide)) fun _ => Safe.bind (k := 1) Safe.space1' fun _ => ?_
  by_cases hL : L ≤ 1
  · have e : L - 1 - 1 = 0 := by omega
    rw [e]
    intro i hi
    have : i = [] := List.length_eq_zero_iff.mp (by omega)
    subst this
    exact ⟨nofun, nofun⟩
  · safe [Safe.literal, Safe.inherit, includeContent_safe (M := L - 1) (hp.mono (Nat.le_refl _) (by omega)) n _ (by omega) (by omega)]

theorem Safe.divItem {L : Nat} {item : P SItem} (h : Safe 0 (L - 2) item) : Safe 0 L (divItem item) := by
  unfold Compact.divItem
  safe [h.mono (Nat.le_refl _) (by omega)]

theorem main_safe : ∀ n, (∀ L, L + 2 ≤ n → Safe 0 L (pattern n)) ∧ ∀ L, L + 2 ≤ n → Safe 0 L (grammarContent n)
  | 0 => ⟨fun _ h => absurd h (by omega), fun _ h => absurd h (by omega)⟩
  | n + 1 => by
    obtain ⟨hp, hi⟩ := main_safe n
    refine ⟨fun L h => ?_, fun L h => ?_⟩
    · by_cases hL : L = 0
      · subst hL
        intro i hi
        have : i = [] := List.length_eq_zero_iff.mp (by omega)
        subst this
        rw [pattern]
        exact ⟨nofun, nofun⟩
      · intro i hi'
        rw [pattern]
        revert i
        show Safe 0 L _
        refine Safe.bind (k := 0) (Safe.initial (by omega)) fun _ => Safe.bind (k := 0) (Safe.primary (by omega) (hp _ (by omega)) (hi _ (by omega))) fun p =>
          Safe.bind (k := 0) (Safe.follow (by omega)) fun _ => ?_
        intro j hj
        exact operators_safe (hp (L - 1) (by omega)) _ _ j (by omega) (by omega)
    · intro i hi'
      rw [grammarContent]
      revert i
      show Safe 0 L _
      by_cases hL : L = 0
      · subst hL
        intro i hi
        have : i = [] := List.length_eq_zero_iff.mp (by omega)
        subst this
        obtain ⟨m, rfl⟩ : ∃ m, n = m + 1 := ⟨n - 1, by omega⟩
        exact ⟨nofun, nofun⟩
      · safe [Safe.startRule (hp _ (by omega)), Safe.defineItem (hp _ (by omega)), Safe.divItem (hi _ (by omega)), Safe.includeItem (by omega) (hp _ (by omega)),
          Safe.ann (by omega)]

theorem Safe.decl {L : Nat} : Safe 0 L decl := by
  unfold Compact.decl declNamespace declDefaultNamespace declDatatypes
  safe [Safe.identifierOrKeyword, Safe.namespaceUriLiteral, Safe.literal]

theorem Safe.topLevel {n L : Nat} (h : L + 2 ≤ n) : Safe 0 L (topLevel n) := by
  unfold Compact.topLevel
  safe [Safe.decl, (main_safe n).1 _ (by omega), (main_safe n).2 _ (by omega)]

/-- The parser stays within a budget of two more than the length of the text. -/
theorem parse_terminates {n : Nat} {t : Str} (h : t.length + 2 ≤ n) : parseCompact n t ≠ .fuel := by
  have key : Safe 0 t.length (do space0; let s ← topLevel n; space0; pure s : P SSchema) := by
    safe [Safe.topLevel (by omega)]
  have h1 := (key t (Nat.le_refl _)).1
  unfold parseCompact compactSchema allConsuming
  cases e : (do space0; let s ← topLevel n; space0; pure s : P SSchema) t with
  | fuel => exact absurd e h1
  | ok r a => cases r <;> exact nofun
  | _ => exact nofun

/-! ### more budget changes nothing -/

/-- where the first parser stays within its budget, the second does the same -/
def Same (p q : P α) : Prop := ∀ i, p i = .fuel ∨ q i = p i

theorem Same.refl (p : P α) : Same p p := fun _ => .inr rfl

theorem Same.bind {p q : P α} {f g : α → P β} (h : Same p q) (hf : ∀ a, Same (f a) (g a)) : Same (p >>= f) (q >>= g) := by
  intro i
  show P.bind p f i = _ ∨ P.bind q g i = P.bind p f i
  unfold P.bind
  rcases h i with h | h
  · rw [h]; exact .inl rfl
  · rw [h]
    cases p i with
    | ok r a => exact hf a r
    | _ => exact .inr rfl

theorem Same.alt {p q p' q' : P α} (h : Same p q) (h' : Same p' q') : Same (alt p p') (alt q q') := by
  intro i
  unfold P.alt
  rcases h i with h | h
  · rw [h]; exact .inl rfl
  · rw [h]
    cases p i with
    | err => exact h' i
    | _ => exact .inr rfl

theorem Same.opt {p q : P α} (h : Same p q) : Same (opt p) (opt q) := by
  intro i; unfold P.opt
  rcases h i with h | h <;> rw [h]
  · exact .inl rfl
  · exact .inr rfl

theorem Same.cut {p q : P α} (h : Same p q) : Same (cut p) (cut q) := by
  intro i; unfold P.cut
  rcases h i with h | h <;> rw [h]
  · exact .inl rfl
  · exact .inr rfl

theorem Same.sepLoop {sep : P Unit} {p q : P α} (h : Same p q) : ∀ n, Same (sepLoop sep p n) (sepLoop sep q n)
  | 0 => fun _ => .inl rfl
  | n + 1 => by
    intro i
    unfold P.sepLoop
    cases sep i with
    | ok i1 u =>
      dsimp only
      rcases h i1 with h1 | h1
      · rw [h1]; exact .inl rfl
      · rw [h1]
        cases p i1 with
        | ok i2 a =>
          dsimp only
          split
          · exact .inr rfl
          · rcases Same.sepLoop (sep := sep) h n i2 with h2 | h2
            · rw [h2]; exact .inl rfl
            · rw [h2]; exact .inr rfl
        | _ => exact .inr rfl
    | _ => exact .inr rfl

theorem Same.sepList0 {sep : P Unit} {p q : P α} (h : Same p q) : Same (sepList0 sep p) (sepList0 sep q) := by
  intro i
  unfold P.sepList0
  rcases h i with h1 | h1
  · rw [h1]; exact .inl rfl
  · rw [h1]
    cases p i with
    | ok r a =>
      dsimp only
      rcases Same.sepLoop (sep := sep) h (r.length + 1) r with h2 | h2
      · rw [h2]; exact .inl rfl
      · rw [h2]; exact .inr rfl
    | _ => exact .inr rfl

theorem Same.sepList1 {sep : P Unit} {p q : P α} (h : Same p q) : Same (sepList1 sep p) (sepList1 sep q) := by
  intro i
  unfold P.sepList1
  rcases h i with h1 | h1
  · rw [h1]; exact .inl rfl
  · rw [h1]
    cases p i with
    | ok r a =>
      dsimp only
      rcases Same.sepLoop (sep := sep) h (r.length + 1) r with h2 | h2
      · rw [h2]; exact .inl rfl
      · rw [h2]; exact .inr rfl
    | _ => exact .inr rfl

/-- proves `Same` for compositions of parsers -/
syntax "same" ("[" term,* "]")? : tactic
macro_rules
  | `(tactic| same) => `(tactic| same [])
  | `(tactic| same [$ts,*]) => `(tactic| repeat' (first
      | with_reducible exact Same.refl _
      $[| with_reducible exact $ts]*
      | with_reducible apply Same.alt | with_reducible apply Same.sepList0 | with_reducible apply Same.sepList1 | with_reducible apply Same.opt
      | with_reducible apply Same.cut
      | (with_reducible refine Same.bind ?_ fun _ => ?_)
      | split))

theorem annotationElement_same : ∀ n, Same (annotationElement n) (annotationElement (n + 1))
  | 0 => fun _ => .inl rfl
  | n + 1 => by
    intro i
    rw [annotationElement, annotationElement]
    revert i
    show Same _ _
    same [annotationElement_same n]

theorem initial_same (n : Nat) : Same (maybeInitialAnnotation n) (maybeInitialAnnotation (n + 1)) := by
  unfold maybeInitialAnnotation initialAnnotation; same [annotationElement_same n]

theorem follow_same (n : Nat) : Same (followAnnotationList n) (followAnnotationList (n + 1)) := by
  unfold followAnnotationList followAnnotation; same [annotationElement_same n]

theorem altTail_same {p q : P SNameClass} (h : Same p q) (a : SNameClass) : Same (altTail p a) (altTail q a) := by
  have key : Same (altNc p) (altNc q) := by unfold altNc; same [h]
  intro i
  unfold altTail
  rcases key i with h1 | h1
  · rw [h1]; exact .inl rfl
  · rw [h1]; exact .inr rfl

theorem nameClass_same : ∀ n, Same (nameClass n) (nameClass (n + 1))
  | 0 => fun _ => .inl rfl
  | n + 1 => by
    intro i
    rw [nameClass, nameClass]
    revert i
    show Same _ _
    unfold nsNameNc anyNameNc parenNc exceptNc
    same [initial_same n, follow_same n, altTail_same (nameClass_same n) _, nameClass_same n]

theorem params_same (n : Nat) : Same (params n) (params (n + 1)) := by
  unfold params param; same [initial_same n]

theorem braced_same {p q : P SPattern} (h : Same p q) : Same (braced p) (braced q) := by unfold braced; same [h]

theorem primary_same (n : Nat) {p q : P SPattern} {p' q' : P SItem} (h : Same p q) (h' : Same p' q') : Same (primary n p p') (primary (n + 1) q q') := by
  unfold primary namedPattern datatypeParamPattern grammarPattern groupPattern
  same [nameClass_same n, params_same n, braced_same h, h, h']

theorem operators_same {p q : P SPattern} (h : Same p q) : ∀ n a, Same (operators p n a) (operators q (n + 1) a)
  | 0, _ => fun _ => .inl rfl
  | n + 1, a => by
    have bin : ∀ f : SPattern → SPattern, Same (do space0; let right ← p; operators p n (f right) : P SPattern) (do space0; let right ← q; operators q (n + 1) (f right) : P SPattern) :=
      fun f => Same.bind (.refl _) fun _ => Same.bind h fun r => operators_same h n (f r)
    intro i
    unfold operators
    split
    · exact bin _ _
    · exact bin _ _
    · exact bin _ _
    · exact operators_same h n _ _
    · exact operators_same h n _ _
    · exact operators_same h n _ _
    all_goals exact .inr rfl

theorem define_same {p q : P SPattern} (h : Same p q) : Same (defineItem p) (defineItem q) := by unfold defineItem; same [h]
theorem start_same {p q : P SPattern} (h : Same p q) : Same (startRule p) (startRule q) := by unfold startRule; same [h]

theorem includeContent_same {p q : P SPattern} (h : Same p q) : ∀ n, Same (includeContent p n) (includeContent q (n + 1))
  | 0 => fun _ => .inl rfl
  | n + 1 => by
    intro i
    rw [includeContent, includeContent]
    revert i
    show Same _ _
    same [initial_same n, annotationElement_same n, define_same h, start_same h, includeContent_same h n]

theorem includeItem_same {p q : P SPattern} (h : Same p q) (n : Nat) : Same (includeItem n p) (includeItem (n + 1) q) := by
  unfold includeItem overrideBlock; same [includeContent_same h n]

theorem main_same : ∀ n, Same (pattern n) (pattern (n + 1)) ∧ Same (grammarContent n) (grammarContent (n + 1))
  | 0 => ⟨fun i => .inl (by rw [pattern]), fun i => .inl (by rw [grammarContent])⟩
  | n + 1 => by
    obtain ⟨hp, hi⟩ := main_same n
    constructor
    · intro i
      rw [pattern, pattern]
      revert i
      show Same _ _
      refine Same.bind (initial_same n) fun _ => Same.bind (primary_same n hp hi) fun _ => Same.bind (follow_same n) fun _ => operators_same hp _ _
    · intro i
      rw [grammarContent, grammarContent]
      revert i
      show Same _ _
      unfold divItem
      same [define_same hp, start_same hp, includeItem_same hp n, annotationElement_same n, hi]

theorem schema_same (n : Nat) : Same (compactSchema n) (compactSchema (n + 1)) := by
  have key : Same (do space0; let s ← topLevel n; space0; pure s : P SSchema) (do space0; let s ← topLevel (n + 1); space0; pure s : P SSchema) := by
    unfold topLevel; same [(main_same n).1, (main_same n).2]
  intro i
  unfold compactSchema allConsuming
  rcases key i with h | h
  · rw [h]; exact .inl rfl
  · rw [h]; exact .inr rfl

/-- All sufficient budgets give the same outcome. -/
theorem parse_fuel {n : Nat} {t : Str} (h : t.length + 2 ≤ n) : parseCompact n t = parseCompact (t.length + 2) t := by
  induction n with
  | zero => omega
  | succ n ih =>
    by_cases e : t.length + 2 = n + 1
    · rw [e]
    · rw [← ih (by omega)]
      have hn := parse_terminates (n := n) (t := t) (by omega)
      rcases schema_same n t with h | h
      · exact absurd (by unfold parseCompact; rw [h]) hn
      · unfold parseCompact; rw [h]

end Verif.Compact
