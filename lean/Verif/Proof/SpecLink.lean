import Verif.Proof.Rep
import Verif.Spec.Split
/-
The meaning of a compiled pattern in the store is `Match`.
-/
set_option linter.unusedSectionVars false
namespace Verif
variable {D V : Type}

/-! ### name classes and words -/

theorem isNsMatch_iff {uri : Str} {t : Option Str} : isNsMatch uri t = true ↔ t.getD [] = uri := by
  cases t with
  | none => simp only [isNsMatch, List.isEmpty_iff, Option.getD_none]; exact ⟨fun h => h.symm, fun h => h.symm⟩
  | some t => simp [isNsMatch]

theorem contains_iff : ∀ (nc : NameClass) (t : QName), contains nc t = true ↔ nc.Has t.expanded
  | .named uri name, t => by
    obtain ⟨ns, loc⟩ := t
    cases ns with
    | none =>
      simp only [contains, NameClass.Has, QName.expanded, Bool.and_eq_true, List.isEmpty_iff, beq_iff_eq,
        Option.getD_none, Prod.mk.injEq]
      exact ⟨fun h => ⟨h.1.symm, h.2⟩, fun h => ⟨h.1.symm, h.2⟩⟩
    | some ns => simp [contains, NameClass.Has, QName.expanded]
  | .nsName uri, t => by
    simp [contains, NameClass.Has, QName.expanded, isNsMatch_iff]
  | .nsNameExcept uri ex, t => by
    have := contains_iff ex t
    simp only [contains, NameClass.Has]
    have h2 : isNsMatch uri t.ns = true ↔ t.expanded.1 = uri := by
      simpa [QName.expanded] using isNsMatch_iff
    rw [← this, ← h2]
    cases isNsMatch uri t.ns <;> simp
  | .anyName, t => by simp [contains, NameClass.Has]
  | .anyNameExcept ex, t => by simp [contains, NameClass.Has, ← contains_iff ex t]
  | .alt a b, t => by simp [contains, NameClass.Has, contains_iff a t, contains_iff b t]

theorem uniWs_iff {c : Char} : isUniWs c = true ↔ UniSpace c := by
  unfold isUniWs UniSpace
  generalize c.toNat = n
  simp only [Bool.or_eq_true, Bool.and_eq_true, decide_eq_true_eq, beq_iff_eq, List.mem_cons, List.not_mem_nil, or_false]
  omega

theorem uniWs_false {c : Char} : isUniWs c = false ↔ ¬ UniSpace c := by
  rw [← uniWs_iff, Bool.not_eq_true]

theorem splitGo_pre : ∀ (pre t : Str), (∀ c ∈ pre, UniSpace c) →
    splitGo (pre ++ t) [] = splitGo t []
  | [], t, _ => rfl
  | c :: pre, t, h => by
    have := uniWs_iff.mpr (h c (by simp))
    simp [splitGo, this, splitGo_pre pre t (fun c hc => h c (by simp [hc]))]

theorem splitGo_word : ∀ (w rest acc : Str), (∀ c ∈ w, ¬ UniSpace c) →
    splitGo (w ++ rest) acc = splitGo rest (w.reverse ++ acc)
  | [], rest, acc, _ => rfl
  | c :: w, rest, acc, h => by
    have := uniWs_false.mpr (h c (by simp))
    simp [splitGo, this, splitGo_word w rest _ (fun c hc => h c (by simp [hc]))]

theorem splitGo_end {rest acc : Str} (ha : acc ≠ [])
    (h : rest = [] ∨ ∃ c r, rest = c :: r ∧ UniSpace c) :
    splitGo rest acc = acc.reverse :: splitGo rest [] := by
  rcases h with rfl | ⟨c, r, rfl, hc⟩
  · simp [splitGo, ha]
  · simp [splitGo, ha, uniWs_iff.mpr hc]

theorem Words.splitWs {s ws} (h : Words s ws) : splitWs s = ws := by
  unfold Verif.splitWs
  induction h with
  | nil h =>
    have := splitGo_pre _ [] h
    simpa [splitGo] using this
  | cons h1 h2 h3 h4 _ ih =>
    rw [List.append_assoc, splitGo_pre _ _ h1, splitGo_word _ _ _ h3, List.append_nil,
      splitGo_end (by simpa using h2) h4, ih]
    simp

theorem Words.wsCons {c s ws} (hc : UniSpace c) (h : Words s ws) : Words (c :: s) ws := by
  cases h with
  | nil h => exact .nil (by simp [hc]; exact h)
  | @cons pre w rest ws h1 h2 h3 h4 h5 =>
    exact Words.cons (pre := c :: pre) (by simp [hc]; exact h1) h2 h3 h4 h5

theorem words_splitGo : ∀ (s acc : Str), (∀ c ∈ acc, ¬ UniSpace c) →
    Words (acc.reverse ++ s) (splitGo s acc)
  | [], acc, h => by
    by_cases ha : acc = []
    · subst ha; exact .nil (by simp)
    · have := Words.cons (pre := []) (w := acc.reverse) (rest := []) (ws := []) (by simp)
        (by simpa using ha) (by simpa using h) (Or.inl rfl) (.nil (by simp))
      simpa [splitGo, ha] using this
  | c :: s, acc, h => by
    by_cases hc : UniSpace c
    · have ih := (words_splitGo s [] (by simp)).wsCons hc
      simp only [List.reverse_nil, List.nil_append] at ih
      by_cases ha : acc = []
      · subst ha; simpa [splitGo, uniWs_iff.mpr hc] using ih
      · have := Words.cons (pre := []) (w := acc.reverse) (rest := c :: s) (by simp)
          (by simpa using ha) (by simpa using h) (Or.inr ⟨_, _, rfl, hc⟩) ih
        simpa [splitGo, ha, uniWs_iff.mpr hc] using this
    · have := words_splitGo s (c :: acc) (by simp [hc]; exact h)
      simpa [splitGo, uniWs_false.mpr hc] using this

theorem words_iff {s ws} : Words s ws ↔ splitWs s = ws :=
  ⟨Words.splitWs, fun h => h ▸ (by simpa [splitWs] using words_splitGo s [] (by simp))⟩

section
variable {env : Env D V} {w : World D V} {L : Lib D V} {pm : Bool}

/-! ### exceptions -/

theorem ChoiceRep.dm {p q l r i s b1 b2} (h : ChoiceRep env w p q l r i)
    {P P'} (hl : w.lk l = some P) (hr : w.lk r = some P')
    (d1 : DM L w.lk P s b1) (d2 : DM L w.lk P' s b2) :
    ∃ R, w.lk i = some R ∧ DM L w.lk R s (b1 || b2) := by
  obtain ⟨pn, qn, _, _, h⟩ := h
  rcases h with ⟨h1, rfl⟩ | ⟨h1, rfl⟩ | ⟨rfl, rfl⟩ | h
  · rw [h1] at hl; cases hl; cases d1
    exact ⟨_, hr, by simpa using d2⟩
  · rw [h1] at hr; cases hr; cases d2
    exact ⟨_, hl, by simpa using d1⟩
  · rw [hl] at hr; cases hr
    rw [d2.det d1]
    exact ⟨_, hl, by simpa using d1⟩
  · exact ⟨_, h, .choice hl hr d1 d2⟩

theorem ExMatch.dm (hall : AllRef env w) {p s b} (h : ExMatch L env p s b) :
    ∀ {i}, Rep env w p i → ∃ P, w.lk i = some P ∧ DM L w.lk P s b := by
  induction h with
  | value h => intro i hr; cases hr with | value hr => exact ⟨_, hr, .value h⟩
  | data h => intro i hr; cases hr with | data hr => exact ⟨_, hr, .data h⟩
  | dataExcept h1 _ ih =>
    intro i hr
    cases hr with
    | dataExcept g1 g2 =>
      obtain ⟨P, hP, hd⟩ := ih g1
      exact ⟨_, g2, .dataExcept h1 hP hd⟩
  | notAllowed => intro i hr; cases hr with | notAllowed hr => exact ⟨_, hr, .notAllowed⟩
  | choiceNil => intro i hr; cases hr
  | choiceCons h1 h2 ih1 ih2 =>
    intro i hr
    cases hr with
    | choiceOne g1 =>
      cases h2
      simpa using ih1 g1
    | choiceCons g1 g2 g3 =>
      obtain ⟨P, hP, d1⟩ := ih1 g1
      obtain ⟨P', hP', d2⟩ := ih2 g2
      exact g3.dm hP hP' d1 d2
  | ref h1 _ ih =>
    intro i hr
    cases hr with
    | ref hr =>
      obtain ⟨p, j, P, e1, e2, e3, e4, _⟩ := hall _ _ hr
      rw [h1] at e1; cases e1
      obtain ⟨P', hP', hd⟩ := ih e2
      rw [e3] at hP'; cases hP'
      exact ⟨_, e4, hd⟩

/-- an exception has a truth value whenever the store pattern has -/
theorem Rep.exMatch (hall : AllRef env w) {p} (h : ExOK env p) :
    ∀ {i P s b}, Rep env w p i → w.lk i = some P → DM L w.lk P s b →
      (∃ Q, Q = p) → ∃ b', ExMatch L env p s b' := by
  induction h with
  | value =>
    intro i P s b hr hP hd _
    cases hr with
    | value hr => rw [hr] at hP; cases hP; cases hd with | value h => exact ⟨_, .value h⟩
  | data =>
    intro i P s b hr hP hd _
    cases hr with
    | data hr => rw [hr] at hP; cases hP; cases hd with | data h => exact ⟨_, .data h⟩
  | dataExcept _ ih =>
    intro i P s b hr hP hd _
    cases hr with
    | dataExcept g1 g2 =>
      rw [g2] at hP; cases hP
      cases hd with
      | dataExcept h1 h2 h3 =>
        obtain ⟨b', hb⟩ := ih g1 h2 h3 ⟨_, rfl⟩
        exact ⟨_, .dataExcept h1 hb⟩
  | notAllowed => intros; exact ⟨_, .notAllowed⟩
  | @choice ps hne hw ih =>
    clear hne
    induction ps with
    | nil => intros; exact ⟨_, .choiceNil⟩
    | cons p ps ihps =>
      intro i P s b hr hP hd _
      cases hr with
      | choiceOne g1 =>
        obtain ⟨b', hb⟩ := ih p (by simp) g1 hP hd ⟨_, rfl⟩
        exact ⟨_, .choiceCons hb .choiceNil⟩
      | choiceCons g1 g2 g3 =>
        have i1 := @ih p (by simp)
        have i2 := @ihps (fun q hq => hw q (by simp_all)) (fun q hq => ih q (by simp_all))
        obtain ⟨pn, qn, _, _, h⟩ := g3
        rcases h with ⟨h1, rfl⟩ | ⟨h1, rfl⟩ | ⟨rfl, rfl⟩ | h
        · obtain ⟨b1, e1⟩ := i1 (s := s) g1 h1 .notAllowed ⟨_, rfl⟩
          obtain ⟨b2, e2⟩ := i2 g2 hP hd ⟨_, rfl⟩
          exact ⟨_, .choiceCons e1 e2⟩
        · obtain ⟨b1, e1⟩ := i1 g1 hP hd ⟨_, rfl⟩
          obtain ⟨b2, e2⟩ := i2 (s := s) g2 h1 .notAllowed ⟨_, rfl⟩
          exact ⟨_, .choiceCons e1 e2⟩
        · obtain ⟨b1, e1⟩ := i1 g1 hP hd ⟨_, rfl⟩
          obtain ⟨b2, e2⟩ := i2 g2 hP hd ⟨_, rfl⟩
          exact ⟨_, .choiceCons e1 e2⟩
        · rw [h] at hP; cases hP
          cases hd with
          | choice h1 h2 d1 d2 =>
            obtain ⟨b1, e1⟩ := i1 g1 h1 d1 ⟨_, rfl⟩
            obtain ⟨b2, e2⟩ := i2 g2 h2 d2 ⟨_, rfl⟩
            exact ⟨_, .choiceCons e1 e2⟩
  | ref h1 _ ih =>
    intro i P s b hr hP hd _
    cases hr with
    | ref hr =>
      obtain ⟨p, j, P', e1, e2, e3, e4, _⟩ := hall _ _ hr
      rw [h1] at e1; cases e1
      rw [e4] at hP; cases hP
      obtain ⟨b', hb⟩ := ih e2 e3 hd ⟨_, rfl⟩
      exact ⟨_, .ref h1 hb⟩

theorem Rep.exMatch' (hall : AllRef env w) {p i P s b} (h : ExOK env p) (hr : Rep env w p i)
    (hP : w.lk i = some P) (hd : DM L w.lk P s b) : ExMatch L env p s b := by
  obtain ⟨b', hb⟩ := hr.exMatch hall h hP hd ⟨_, rfl⟩
  obtain ⟨P', hP', hd'⟩ := hb.dm hall hr
  rw [hP] at hP'; cases hP'
  rw [hd.det hd']; exact hb

/-! ### from `Match` to the store -/

theorem GroupRep.mk {p q l r i a a1 a2 c1 c2} (h : GroupRep env w p q l r i)
    (h1 : SI L w.lk pm l a1 [c1]) (h2 : SI L w.lk pm r a2 [c2]) (hp : a.Perm (a1 ++ a2)) :
    SI L w.lk pm i a [c1 ++ c2] := by
  obtain ⟨pn, qn, _, _, h⟩ := h
  obtain ⟨x, hx, hs⟩ := h1
  obtain ⟨y, hy, hs'⟩ := h2
  rcases h with ⟨h1, h⟩ | ⟨h2, h⟩ | ⟨h1, rfl⟩ | ⟨h2, rfl⟩ | h
  · exact absurd ⟨x, hx, hs⟩ (SI.notAllowed h1)
  · exact absurd ⟨y, hy, hs'⟩ (SI.notAllowed h2)
  · rw [hx] at h1; cases h1; cases hs
    exact ⟨y, hy, hs'.perm (by simpa using hp.symm)⟩
  · rw [hy] at h2; cases h2; cases hs'
    simp only [List.append_nil] at *
    exact ⟨x, hx, hs.perm hp.symm⟩
  · exact ⟨_, h, .group hx hy hs hs' hp⟩

theorem InterRep.mk {p q l r i a a1 a2 c1 c2 c} (h : InterRep env w p q l r i)
    (h1 : SI L w.lk pm l a1 [c1]) (h2 : SI L w.lk pm r a2 [c2]) (hp : a.Perm (a1 ++ a2))
    (hsh : Shuffle c1 c2 c) : SI L w.lk pm i a [c] := by
  obtain ⟨pn, qn, _, _, h⟩ := h
  obtain ⟨x, hx, hs⟩ := h1
  obtain ⟨y, hy, hs'⟩ := h2
  rcases h with ⟨h1, h⟩ | ⟨h2, h⟩ | ⟨h1, rfl⟩ | ⟨h2, rfl⟩ | h
  · exact absurd ⟨x, hx, hs⟩ (SI.notAllowed h1)
  · exact absurd ⟨y, hy, hs'⟩ (SI.notAllowed h2)
  · rw [hx] at h1; cases h1; cases hs
    obtain rfl := hsh.nil_left
    exact ⟨y, hy, hs'.perm (by simpa using hp.symm)⟩
  · rw [hy] at h2; cases h2; cases hs'
    obtain rfl := hsh.nil_right
    exact ⟨x, hx, hs.perm (by simpa using hp.symm)⟩
  · exact ⟨_, h, .interleave hx hy hs hs' hp hsh⟩

section
variable (L : Lib D V) (env : Env D V)
/-- `Match` with `WeakP pm` in the place of `Weak` -/
inductive MatchP (pm : Bool) : Pattern D V → List Attr → List Node → Prop
  | empty : MatchP pm .empty [] []
  | text {c} : (∀ x ∈ c, ∃ s, x = Node.text s) → MatchP pm .text [] c
  | choice {p ps a c} : p ∈ ps → MatchP pm p a c → MatchP pm (.choice ps) a c
  | groupNil : MatchP pm (.group []) [] []
  | groupCons {p ps a a1 a2 c1 c2} : MatchP pm p a1 c1 → MatchP pm (.group ps) a2 c2 → a.Perm (a1 ++ a2) →
      MatchP pm (.group (p :: ps)) a (c1 ++ c2)
  | interleaveNil : MatchP pm (.interleave []) [] []
  | interleaveCons {p ps a a1 a2 c c1 c2} : MatchP pm p a1 c1 → MatchP pm (.interleave ps) a2 c2 → a.Perm (a1 ++ a2) →
      Shuffle c1 c2 c → MatchP pm (.interleave (p :: ps)) a c
  | mixed {p a c c1 c2} : MatchP pm p a c1 → (∀ x ∈ c2, ∃ s, x = Node.text s) → Shuffle c1 c2 c → MatchP pm (.mixed p) a c
  | optionalNone {p} : MatchP pm (.optional p) [] []
  | optionalSome {p a c} : MatchP pm p a c → MatchP pm (.optional p) a c
  | zeroOrMoreNil {p} : MatchP pm (.zeroOrMore p) [] []
  | zeroOrMoreCons {p a a1 a2 c1 c2} : MatchP pm p a1 c1 → MatchP pm (.zeroOrMore p) a2 c2 → a.Perm (a1 ++ a2) →
      MatchP pm (.zeroOrMore p) a (c1 ++ c2)
  | oneOrMore {p a a1 a2 c1 c2} : MatchP pm p a1 c1 → MatchP pm (.zeroOrMore p) a2 c2 → a.Perm (a1 ++ a2) →
      MatchP pm (.oneOrMore p) a (c1 ++ c2)
  | attr {nc p name v c} : nc.Has name.expanded → Weak [.text v] c → MatchP pm p [] c → MatchP pm (.attr nc p) [⟨name, v⟩] []
  | element {nc p name a kids c} : nc.Has name.expanded → WeakP pm kids c → MatchP pm p a c →
      MatchP pm (.element nc p) [] [.elem name a kids]
  | ref {n p a c} : env[n]? = some p → MatchP pm p a c → MatchP pm (.ref n) a c
  | value {v s} : L.validV v s = some true → MatchP pm (.datatypeValue v) [] [.text s]
  | data {d s} : L.validD d s = some true → MatchP pm (.datatypeName d) [] [.text s]
  | dataExcept {d e s} : L.validD d s = some true → ExMatch L env e s false →
      MatchP pm (.datatypeNameExcept d e) [] [.text s]
  | list {p s ws} : Words s ws → MatchP pm p [] (ws.map Node.text) → MatchP pm (.list p) [] [.text s]
end

theorem MatchP.toMatch {pm p a c} (h : MatchP L env pm p a c) : Match L env p a c := by
  induction h with
  | empty => exact .empty
  | text h => exact .text h
  | choice h _ ih => exact .choice h ih
  | groupNil => exact .groupNil
  | groupCons _ _ h ih1 ih2 => exact .groupCons ih1 ih2 h
  | interleaveNil => exact .interleaveNil
  | interleaveCons _ _ h h' ih1 ih2 => exact .interleaveCons ih1 ih2 h h'
  | mixed _ h h' ih => exact .mixed ih h h'
  | optionalNone => exact .optionalNone
  | optionalSome _ ih => exact .optionalSome ih
  | zeroOrMoreNil => exact .zeroOrMoreNil
  | zeroOrMoreCons _ _ h ih1 ih2 => exact .zeroOrMoreCons ih1 ih2 h
  | oneOrMore _ _ h ih1 ih2 => exact .oneOrMore ih1 ih2 h
  | attr h h' _ ih => exact .attr h h' ih
  | element h h' _ ih => exact .element h h'.weak ih
  | ref h _ ih => exact .ref h ih
  | value h => exact .value h
  | data h => exact .data h
  | dataExcept h h' => exact .dataExcept h h'
  | list h _ ih => exact .list h ih

theorem Match.toP {p a c} (h : Match L env p a c) : MatchP L env true p a c := by
  induction h with
  | empty => exact .empty
  | text h => exact .text h
  | choice h _ ih => exact .choice h ih
  | groupNil => exact .groupNil
  | groupCons _ _ h ih1 ih2 => exact .groupCons ih1 ih2 h
  | interleaveNil => exact .interleaveNil
  | interleaveCons _ _ h h' ih1 ih2 => exact .interleaveCons ih1 ih2 h h'
  | mixed _ h h' ih => exact .mixed ih h h'
  | optionalNone => exact .optionalNone
  | optionalSome _ ih => exact .optionalSome ih
  | zeroOrMoreNil => exact .zeroOrMoreNil
  | zeroOrMoreCons _ _ h ih1 ih2 => exact .zeroOrMoreCons ih1 ih2 h
  | oneOrMore _ _ h ih1 ih2 => exact .oneOrMore ih1 ih2 h
  | attr h h' _ ih => exact .attr h h' ih
  | element h h' _ ih => exact .element h h'.toP ih
  | ref h _ ih => exact .ref h ih
  | value h => exact .value h
  | data h => exact .data h
  | dataExcept h h' => exact .dataExcept h h'
  | list h _ ih => exact .list h ih

/-- a document matching the schema is accepted by the compiled pattern -/
theorem MatchP.si' (hall : AllRef env w) {p a c} (h : MatchP L env pm p a c) :
    (∀ {i}, Rep env w p i → SI L w.lk pm i a [c]) ∧
    (∀ {q l}, p = .zeroOrMore q → Rep env w q l →
      (a = [] ∧ c = []) ∨ S L w.lk pm (.oneOrMore l true) a [c]) := by
  induction h with
  | empty =>
    exact ⟨fun hr => by cases hr with | empty h => exact ⟨_, h, .empty⟩, fun h => by cases h⟩
  | text hc =>
    exact ⟨fun hr => by cases hr with | text h => exact ⟨_, h, .text hc⟩, fun h => by cases h⟩
  | @choice p ps a c hm _ ih =>
    refine ⟨fun {i} hr => ?_, fun h => by cases h⟩
    induction ps generalizing i with
    | nil => cases hm
    | cons q ps ihps =>
      cases hr with
      | choiceOne g =>
        simp at hm; subst hm
        exact ih.1 g
      | choiceCons g1 g2 g3 =>
        refine g3.sem.mpr ?_
        rcases List.mem_cons.mp hm with rfl | hm
        · exact Or.inl (ih.1 g1)
        · exact Or.inr (ihps hm g2)
  | groupNil => exact ⟨fun hr => (by cases hr), fun h => (by cases h)⟩
  | groupCons h1 h2 hp ih1 ih2 =>
    refine ⟨fun hr => ?_, fun h => by cases h⟩
    cases hr with
    | groupOne g =>
      cases h2
      obtain ⟨x, hx, hs⟩ := ih1.1 g
      simp only [List.append_nil] at *
      exact ⟨x, hx, hs.perm hp.symm⟩
    | groupCons g1 g2 g3 => exact g3.mk (ih1.1 g1) (ih2.1 g2) hp
  | interleaveNil => exact ⟨fun hr => (by cases hr), fun h => (by cases h)⟩
  | interleaveCons h1 h2 hp hsh ih1 ih2 =>
    refine ⟨fun hr => ?_, fun h => by cases h⟩
    cases hr with
    | interleaveOne g =>
      cases h2
      obtain ⟨x, hx, hs⟩ := ih1.1 g
      obtain rfl := hsh.nil_right
      exact ⟨x, hx, hs.perm (by simpa using hp.symm)⟩
    | interleaveCons g1 g2 g3 => exact g3.mk (ih1.1 g1) (ih2.1 g2) hp hsh
  | mixed h1 hc hsh ih =>
    refine ⟨fun hr => ?_, fun h => by cases h⟩
    cases hr with
    | mixed g1 g2 g3 => exact g3.mk (ih.1 g1) ⟨_, g2, .text hc⟩ (by simp) hsh
  | optionalNone =>
    refine ⟨fun hr => ?_, fun h => by cases h⟩
    cases hr with
    | optional g1 g2 g3 => exact g3.sem.mpr (Or.inr ⟨_, g2, .empty⟩)
  | optionalSome h1 ih =>
    refine ⟨fun hr => ?_, fun h => by cases h⟩
    cases hr with
    | optional g1 g2 g3 => exact g3.sem.mpr (Or.inl (ih.1 g1))
  | zeroOrMoreNil =>
    refine ⟨fun hr => ?_, fun h _ => Or.inl ⟨rfl, rfl⟩⟩
    cases hr with
    | zeroOrMore g1 g2 g3 g4 => exact g4.sem.mpr (Or.inr ⟨_, g3, .empty⟩)
  | @zeroOrMoreCons p a a1 a2 c1 c2 h1 h2 hp ih1 ih2 =>
    have key : ∀ {l}, Rep env w p l → S L w.lk pm (.oneOrMore l true) a [c1 ++ c2] := by
      intro l hl
      obtain ⟨x, hx, hs⟩ := ih1.1 hl
      rcases ih2.2 rfl hl with ⟨rfl, rfl⟩ | h
      · simp only [List.append_nil] at *
        exact .one hx (hs.perm hp.symm)
      · exact .more hx hs h hp
    refine ⟨fun hr => ?_, fun h hl => by cases h; exact Or.inr (key hl)⟩
    cases hr with
    | zeroOrMore g1 g2 g3 g4 => exact g4.sem.mpr (Or.inl (g2.sem.mpr (key g1)))
  | @oneOrMore p a a1 a2 c1 c2 h1 h2 hp ih1 ih2 =>
    refine ⟨fun hr => ?_, fun h => by cases h⟩
    cases hr with
    | oneOrMore g1 g2 =>
      refine (g2.sem (f := true)).mpr ?_
      obtain ⟨x, hx, hs⟩ := ih1.1 g1
      rcases ih2.2 rfl g1 with ⟨rfl, rfl⟩ | h
      · simp only [List.append_nil] at *
        exact .one hx (hs.perm hp.symm)
      · exact .more hx hs h hp
  | attr hn hw _ ih =>
    refine ⟨fun hr => ?_, fun h => by cases h⟩
    cases hr with
    | attr g1 g2 =>
      obtain ⟨x, hx, hs⟩ := ih.1 g1
      exact ⟨_, g2, .attr ((contains_iff _ _).mpr hn) hx hw hs⟩
  | element hn hw _ ih =>
    refine ⟨fun hr => ?_, fun h => by cases h⟩
    cases hr with
    | element g1 g2 =>
      obtain ⟨x, hx, hs⟩ := ih.1 g1
      exact ⟨_, g2, .element ((contains_iff _ _).mpr hn) hx hw hs⟩
  | ref h1 _ ih =>
    refine ⟨fun hr => ?_, fun h => by cases h⟩
    cases hr with
    | ref hr =>
      obtain ⟨p, j, P, e1, e2, e3, e4, _⟩ := hall _ _ hr
      rw [h1] at e1; cases e1
      exact (SI.of_eq (by rw [e3, e4])).mp (ih.1 e2)
  | value h =>
    exact ⟨fun hr => by cases hr with | value g => exact ⟨_, g, .datatypeValue h⟩, fun h => by cases h⟩
  | data h =>
    exact ⟨fun hr => by cases hr with | data g => exact ⟨_, g, .datatype h⟩, fun h => by cases h⟩
  | dataExcept h he =>
    refine ⟨fun hr => ?_, fun h => by cases h⟩
    cases hr with
    | dataExcept g1 g2 =>
      obtain ⟨P, hP, hd⟩ := he.dm hall g1
      exact ⟨_, g2, .datatypeExcept h hP hd⟩
  | @list p s ws hw _ ih =>
    refine ⟨fun hr => ?_, fun h => by cases h⟩
    cases hr with
    | list g1 g2 =>
      obtain ⟨x, hx, hs⟩ := ih.1 g1
      refine ⟨_, g2, S.list (ss := [s]) hx (by simp) (Or.inr rfl) ?_⟩
      simpa [hw.splitWs] using hs

theorem MatchP.si (hall : AllRef env w) {p a c i} (h : MatchP L env pm p a c) (hr : Rep env w p i) :
    SI L w.lk pm i a [c] := (h.si' hall).1 hr

theorem Match.si (hall : AllRef env w) {p a c i} (h : Match L env p a c) (hr : Rep env w p i) :
    SI L w.lk true i a [c] := h.toP.si hall hr

/-! ### from the store to `Match` -/

mutual
/-- number of elements in a node -/
def Node.sz : Node → Nat
  | .text _ => 0
  | .elem _ _ kids => 1 + szL kids
/-- number of elements in a list of nodes -/
def szL : List Node → Nat
  | [] => 0
  | n :: ns => n.sz + szL ns
end

theorem szL_append : ∀ (a b : List Node), szL (a ++ b) = szL a + szL b
  | [], b => by simp [szL]
  | x :: a, b => by simp [szL, szL_append a b]; omega

theorem Shuffle.szL {a b c : List Node} (h : Shuffle a b c) : szL c = szL a + szL b := by
  induction h with
  | nil => rfl
  | left _ ih => simp only [Verif.szL]; omega
  | right _ ih => simp only [Verif.szL]; omega

theorem Weak.szL {c c'} (h : Weak c c') : szL c' = szL c := by
  induction h with
  | nil => rfl
  | keep _ ih => simp only [Verif.szL]; omega
  | drop _ _ ih => simp only [Verif.szL, Node.sz]; omega

theorem szL_text (ws : List Str) : szL (ws.map Node.text) = 0 := by
  induction ws with
  | nil => rfl
  | cons w ws ih => simp [szL, Node.sz, ih]

/-- no two adjacent text nodes at this level -/
def FlatNA (c : List Node) : Prop := ∀ x s t y, c ≠ x ++ Node.text s :: Node.text t :: y
mutual
/-- no two adjacent text nodes in elements other than those called `Sp` -/
def Node.Fine (Sp : QName → Prop) : Node → Prop
  | .text _ => True
  | .elem nm _ kids => (¬ Sp nm → FlatNA kids) ∧ FineL Sp kids
/-- no two adjacent text nodes in elements other than those called `Sp` -/
def FineL (Sp : QName → Prop) : List Node → Prop
  | [] => True
  | n :: ns => n.Fine Sp ∧ FineL Sp ns
end

theorem FineL.mem {Sp} : ∀ {c}, FineL Sp c → ∀ x ∈ c, x.Fine Sp
  | [], _ => by simp
  | n :: ns, h => by
    simp only [FineL] at h
    intro x hx
    rcases List.mem_cons.mp hx with rfl | hx
    · exact h.1
    · exact FineL.mem h.2 x hx

/-- no two adjacent text nodes below this level -/
def DeepNA (Sp : QName → Prop) (c : List Node) : Prop := ∀ x ∈ c, x.Fine Sp

theorem NoAdjL.flat : ∀ {c}, NoAdjL c → FlatNA c
  | [], _ => by intro x s t y; simp
  | n :: ns, h => by
    simp only [NoAdjL] at h
    intro x s t y he
    cases x with
    | nil => simp at he; exact h.2.2 s he.1 t y he.2
    | cons z x => simp at he; exact NoAdjL.flat h.2.1 x s t y he.2

mutual
theorem Node.NoAdj.fine {Sp} : ∀ {x : Node}, x.NoAdj → x.Fine Sp
  | .text _, _ => by simp [Node.Fine]
  | .elem _ _ kids, h => by
    simp only [Node.NoAdj] at h
    simp only [Node.Fine]
    exact ⟨fun _ => h.flat, h.fineL⟩
theorem NoAdjL.fineL {Sp} : ∀ {c}, NoAdjL c → FineL Sp c
  | [], _ => by simp [FineL]
  | n :: ns, h => by
    simp only [NoAdjL] at h
    simp only [FineL]
    exact ⟨h.1.fine, h.2.1.fineL⟩
end

theorem FlatNA.left {a b} (h : FlatNA (a ++ b)) : FlatNA a :=
  fun x s t y he => h x s t (y ++ b) (by simp [he])
theorem FlatNA.right {a b} (h : FlatNA (a ++ b)) : FlatNA b :=
  fun x s t y he => h (a ++ x) s t y (by simp [he])
theorem DeepNA.left {Sp a b} (h : DeepNA Sp (a ++ b)) : DeepNA Sp a := fun x hx => h x (by simp [hx])
theorem DeepNA.right {Sp a b} (h : DeepNA Sp (a ++ b)) : DeepNA Sp b := fun x hx => h x (by simp [hx])

theorem Shuffle.mem_left {α : Type} {a b c : List α} (h : Shuffle a b c) : ∀ x ∈ a, x ∈ c := by
  induction h with
  | nil => simp
  | left _ ih => intro x hx; simp at hx ⊢; rcases hx with rfl | hx <;> simp_all
  | right _ ih => intro x hx; simp [ih x hx]

theorem DeepNA.shuffle {Sp a b c} (hs : Shuffle a b c) (h : DeepNA Sp c) : DeepNA Sp a ∧ DeepNA Sp b :=
  ⟨fun x hx => h x (hs.mem_left x hx), fun x hx => h x (hs.symm.mem_left x hx)⟩

theorem Weak.mem {c c'} (h : Weak c c') : ∀ x ∈ c', x ∈ c := by
  induction h with
  | nil => simp
  | keep _ ih => intro x hx; simp at hx ⊢; rcases hx with rfl | hx <;> simp_all
  | drop _ _ ih => intro x hx; simp [ih x hx]

theorem Weak.textHead {c c'} (h : Weak c c') : ∀ {t y}, c' = Node.text t :: y →
    ∃ t' y', c = Node.text t' :: y' := by
  induction h with
  | nil => intro t y h; cases h
  | keep _ ih => intro t y h; cases h; exact ⟨_, _, rfl⟩
  | drop _ _ ih => intro t y h; exact ⟨_, _, rfl⟩

theorem NoAdjL.weak {c c'} (h : Weak c c') : NoAdjL c → NoAdjL c' := by
  induction h with
  | nil => exact id
  | keep h1 ih =>
    intro h
    simp only [NoAdjL] at h ⊢
    refine ⟨h.1, ih h.2.1, ?_⟩
    rintro s rfl t rest rfl
    obtain ⟨t', y', he⟩ := h1.textHead rfl
    exact h.2.2 s rfl t' y' he
  | drop _ _ ih =>
    intro h
    simp only [NoAdjL] at h
    exact ih h.2.1

theorem WF.listFree {Q c s l p} (h : WF L env Q c s l p) : l = false → ListFree env p := by
  induction h with
  | empty => intro _; exact .empty
  | text => intro _; exact .text
  | notAllowed => intro _; exact .notAllowed
  | choice _ _ ih => intro h; exact .choice fun p hp => ih p hp h
  | group _ _ ih => intro h; exact .group fun p hp => ih p hp h
  | interleave _ _ hl _ => intro _; exact .interleave hl
  | mixed _ hl _ => intro _; exact .mixed hl
  | optional _ ih => intro h; exact .optional (ih h)
  | zeroOrMore _ _ ih => intro h; exact .zeroOrMore (ih h)
  | oneOrMore _ _ ih => intro h; exact .oneOrMore (ih h)
  | attr _ _ => intro _; exact .attr
  | element _ => intro _; exact .element
  | ref h1 _ _ ih => intro h; exact .ref h1 (ih h)
  | value => intro _; exact .value
  | data => intro _; exact .data
  | dataExcept _ => intro _; exact .dataExcept
  | list _ _ => intro h; cases h

theorem FlatNA.weak {c c'} (h : Weak c c') : FlatNA c → FlatNA c' := by
  induction h with
  | nil => exact id
  | keep h1 ih =>
    intro h x s t y he
    cases x with
    | nil =>
      simp at he
      obtain ⟨rfl, rfl⟩ := he
      obtain ⟨t', y', rfl⟩ := h1.textHead rfl
      exact h [] s t' y' rfl
    | cons z x =>
      simp at he
      exact ih (fun x' s' t' y' e => h (z :: x') s' t' y' (by rw [e, he.1]; rfl)) x s t y he.2
  | drop _ _ ih => exact fun h => ih (fun x' s' t' y' e => h (_ :: x') s' t' y' (by rw [e]; rfl))

/-- elements called `Sp` contain no lists -/
def SpOK (env : Env D V) (Sp : QName → Prop) (p : Pattern D V) : Prop :=
  ∀ nc q, ElemIn env p nc q → ∀ nm, nc.Has nm.expanded → Sp nm → ListFree env q

/-- content on which `list` is fed one text at a time -/
def Calm (env : Env D V) (Sp : QName → Prop) (pm : Bool) (p : Pattern D V) (c : List Node) : Prop :=
  pm = false ∨ (SpOK env Sp p ∧ DeepNA Sp c ∧ (ListFree env p ∨ FlatNA c))

theorem Calm.sub {Sp} {p q : Pattern D V} {c c'} (h : Calm env Sp pm p c) (hi : ∀ {nc r}, ElemIn env q nc r → ElemIn env p nc r)
    (hd : DeepNA Sp c → DeepNA Sp c')
    (hl : ListFree env p → ListFree env q) (hf : FlatNA c → FlatNA c') : Calm env Sp pm q c' := by
  rcases h with h | ⟨h0, h1, h2 | h2⟩
  · exact Or.inl h
  · exact Or.inr ⟨fun nc r h => h0 nc r (hi h), hd h1, Or.inl (hl h2)⟩
  · exact Or.inr ⟨fun nc r h => h0 nc r (hi h), hd h1, Or.inr (hf h2)⟩

theorem Calm.free {Sp} {p q : Pattern D V} {c c'} (h : Calm env Sp pm p c) (hi : ∀ {nc r}, ElemIn env q nc r → ElemIn env p nc r)
    (hd : DeepNA Sp c → DeepNA Sp c')
    (hl : ListFree env q) : Calm env Sp pm q c' := by
  rcases h with h | ⟨h0, h1, _⟩
  · exact Or.inl h
  · exact Or.inr ⟨fun nc r h => h0 nc r (hi h), hd h1, Or.inl hl⟩

theorem ElemIn.choiceTail {p : Pattern D V} {ps nc r} (h : ElemIn env (.choice ps) nc r) : ElemIn env (.choice (p :: ps)) nc r := by
  cases h with | choice h1 h2 => exact .choice (List.mem_cons_of_mem _ h1) h2
theorem ElemIn.groupTail {p : Pattern D V} {ps nc r} (h : ElemIn env (.group ps) nc r) : ElemIn env (.group (p :: ps)) nc r := by
  cases h with | group h1 h2 => exact .group (List.mem_cons_of_mem _ h1) h2
theorem ElemIn.interleaveTail {p : Pattern D V} {ps nc r} (h : ElemIn env (.interleave ps) nc r) :
    ElemIn env (.interleave (p :: ps)) nc r := by
  cases h with | interleave h1 h2 => exact .interleave (List.mem_cons_of_mem _ h1) h2

theorem ListFree.inv_choice {ps : List (Pattern D V)} (h : ListFree env (.choice ps)) :
    ∀ p ∈ ps, ListFree env p := by cases h; assumption
theorem ListFree.inv_group {ps : List (Pattern D V)} (h : ListFree env (.group ps)) :
    ∀ p ∈ ps, ListFree env p := by cases h; assumption

theorem MatchP.perm {p : Pattern D V} {a c} (h : MatchP L env pm p a c) :
    ∀ {a'}, a.Perm a' → MatchP L env pm p a' c := by
  induction h with
  | empty => intro a' h; rw [h.nil_eq.symm]; exact .empty
  | text hc => intro a' h; rw [h.nil_eq.symm]; exact .text hc
  | choice h1 _ ih => intro a' h; exact .choice h1 (ih h)
  | groupNil => intro a' h; rw [h.nil_eq.symm]; exact .groupNil
  | groupCons h1 h2 hp _ _ => intro a' h; exact .groupCons h1 h2 (h.symm.trans hp)
  | interleaveNil => intro a' h; rw [h.nil_eq.symm]; exact .interleaveNil
  | interleaveCons h1 h2 hp hs _ _ => intro a' h; exact .interleaveCons h1 h2 (h.symm.trans hp) hs
  | mixed h1 h2 h3 ih => intro a' h; exact .mixed (ih h) h2 h3
  | optionalNone => intro a' h; rw [h.nil_eq.symm]; exact .optionalNone
  | optionalSome _ ih => intro a' h; exact .optionalSome (ih h)
  | zeroOrMoreNil => intro a' h; rw [h.nil_eq.symm]; exact .zeroOrMoreNil
  | zeroOrMoreCons h1 h2 hp _ _ => intro a' h; exact .zeroOrMoreCons h1 h2 (h.symm.trans hp)
  | oneOrMore h1 h2 hp _ _ => intro a' h; exact .oneOrMore h1 h2 (h.symm.trans hp)
  | attr h1 h2 h3 _ => intro a' h; rw [List.perm_singleton.mp h.symm]; exact .attr h1 h2 h3
  | element h1 h2 h3 _ => intro a' h; rw [h.nil_eq.symm]; exact .element h1 h2 h3
  | ref h1 _ ih => intro a' h; exact .ref h1 (ih h)
  | value h1 => intro a' h; rw [h.nil_eq.symm]; exact .value h1
  | data h1 => intro a' h; rw [h.nil_eq.symm]; exact .data h1
  | dataExcept h1 h2 => intro a' h; rw [h.nil_eq.symm]; exact .dataExcept h1 h2
  | list h1 h2 _ => intro a' h; rw [h.nil_eq.symm]; exact .list h1 h2

/-- a repetition in the store, given what its body means -/
theorem S.oneOrMore_match {p : Pattern D V} {l f a cs}
    (h : S L w.lk pm (.oneOrMore l f) a cs) :
    ∀ {c}, cs = [c] → (∀ a' x c' y, c = x ++ c' ++ y → SI L w.lk pm l a' [c'] → MatchP L env pm p a' c') →
      MatchP L env pm (.oneOrMore p) a c := by
  generalize hp : (Pat.oneOrMore l f : Pat D V) = P at h
  induction h with
  | one h1 h2 _ =>
    cases hp
    intro c hc hb
    cases hc
    have := hb _ [] _ [] (by simp) ⟨_, h1, h2⟩
    simpa using MatchP.oneOrMore (a := _) this .zeroOrMoreNil (by simp)
  | @more i f p' a a1 a2 c1 c2 h1 h2 h3 h4 _ ih =>
    cases hp
    intro c hc hb
    cases hc
    have m1 := hb _ [] _ c2 (by simp) ⟨_, h1, h2⟩
    have m2 := ih rfl rfl (fun a' x c' y hc hs => hb a' (c1 ++ x) c' y (by simp [hc]) hs)
    cases m2 with
    | oneOrMore n1 n2 hp => exact .oneOrMore m1 (.zeroOrMoreCons n1 n2 hp) h4
  | _ => cases hp

theorem MatchP.oneToZero {p : Pattern D V} {a c} (h : MatchP L env pm (.oneOrMore p) a c) :
    MatchP L env pm (.zeroOrMore p) a c := by
  cases h with
  | oneOrMore h1 h2 h3 => exact .zeroOrMoreCons h1 h2 h3

theorem Match.perm {p : Pattern D V} {a c} (h : Match L env p a c) {a'} (hp : a.Perm a') : Match L env p a' c :=
  (h.toP.perm hp).toMatch

theorem Match.oneToZero {p : Pattern D V} {a c} (h : Match L env (.oneOrMore p) a c) : Match L env (.zeroOrMore p) a c :=
  h.toP.oneToZero.toMatch

/-- what the compiled pattern accepts matches the schema -/
theorem Rep.match {Sp : QName → Prop} {Q : Pattern D V → Prop} {cc : Bool} (hall : AllRef env w)
    (hQ : ∀ p, Q p → WF L env Q cc false true p) :
    ∀ (n : Nat) {s l p}, WF L env Q cc s l p → ∀ {i a c}, Rep env w p i → szL c ≤ n →
      Calm env Sp pm p c → SI L w.lk pm i a [c] → MatchP L env pm p a c := by
  intro n
  induction n using Nat.strongRecOn with
  | _ n ihn =>
  intro s l p hwf
  induction hwf with
  | empty =>
    intro i a c hr _ _ hs
    cases hr with
    | empty h =>
      obtain ⟨rfl, hc⟩ := (SI.empty h).mp hs
      cases hc; exact .empty
  | text =>
    intro i a c hr _ _ hs
    cases hr with
    | text h =>
      obtain ⟨x, hx, hs⟩ := hs
      rw [h] at hx; cases hx
      cases hs with | text hc => exact .text hc
  | notAllowed =>
    intro i a c hr _ _ hs
    cases hr with
    | notAllowed h => exact absurd hs (SI.notAllowed h)
  | @choice s l ps hne hw ih =>
    clear hne
    induction ps with
    | nil => intro i a c hr; cases hr
    | cons p ps ihps =>
      intro i a c hr hz hcm hs
      cases hr with
      | choiceOne h =>
        exact .choice (by simp) (ih p (by simp) h hz
          (hcm.sub (.choice (by simp)) id (fun h => h.inv_choice _ (by simp)) id) hs)
      | choiceCons h1 h2 h3 =>
        rcases h3.sem.mp hs with hs | hs
        · exact .choice (by simp) (ih p (by simp) h1 hz
            (hcm.sub (.choice (by simp)) id (fun h => h.inv_choice _ (by simp)) id) hs)
        · have := ihps (fun q hq => hw q (by simp_all)) (fun q hq => ih q (by simp_all)) h2 hz
            (hcm.sub .choiceTail id (fun h => .choice fun q hq => h.inv_choice q (by simp_all)) id) hs
          cases this with
          | choice hm h => exact .choice (by simp_all) h
  | @group s l ps hne hw ih =>
    clear hne
    induction ps with
    | nil => intro i a c hr; cases hr
    | cons p ps ihps =>
      intro i a c hr hz hcm hs
      cases hr with
      | groupOne h =>
        have := ih p (by simp) h hz (hcm.sub (.group (by simp)) id (fun h => h.inv_group _ (by simp)) id) hs
        simpa using MatchP.groupCons (a := a) this .groupNil (by simp)
      | groupCons h1 h2 h3 =>
        have w2 : WF L env Q cc s l (.group _) :=
          .group (ps := _ :: _) (by simp) (fun q hq => hw q (List.mem_cons_of_mem _ hq))
        obtain ⟨a1, a2, c1, c2, hc, s1, s2, hp⟩ := (h3.sem
          (fun h => h.single (h1.tyOff hall (hw p (by simp))))
          (fun h => h.single (h2.tyOff hall w2))).mp hs
        cases hc
        rw [szL_append] at hz
        have m1 := ih p (by simp) h1 (by omega)
          (hcm.sub (.group (by simp)) DeepNA.left (fun h => h.inv_group _ (by simp)) FlatNA.left) s1
        have m2 := ihps (fun q hq => hw q (by simp_all)) (fun q hq => ih q (by simp_all)) h2 (by omega)
          (hcm.sub .groupTail DeepNA.right (fun h => .group fun q hq => h.inv_group q (by simp_all)) FlatNA.right) s2
        exact .groupCons m1 m2 hp
  | @interleave s l ps hne hw hlf ih =>
    clear hne
    induction ps with
    | nil => intro i a c hr; cases hr
    | cons p ps ihps =>
      intro i a c hr hz hcm hs
      cases hr with
      | interleaveOne h =>
        have := ih p (by simp) h hz (hcm.free (.interleave (by simp)) id (hlf p (by simp))) hs
        exact MatchP.interleaveCons (a := a) this .interleaveNil (by simp) (.refl_left _)
      | interleaveCons h1 h2 h3 =>
        have w2 : WF L env Q cc s l (.interleave _) :=
          .interleave (ps := _ :: _) (by simp) (fun q hq => hw q (List.mem_cons_of_mem _ hq))
            (fun q hq => hlf q (List.mem_cons_of_mem _ hq))
        obtain ⟨a1, a2, c1, c2, c', hc, s1, s2, hp, hsh⟩ := (h3.sem
          (fun h => h.single (h1.tyOff hall (hw p (by simp))))
          (fun h => h.single (h2.tyOff hall w2))).mp hs
        cases hc
        rw [hsh.szL] at hz
        have m1 := ih p (by simp) h1 (by omega)
          (hcm.free (.interleave (by simp)) (fun h => (h.shuffle hsh).1) (hlf p (by simp))) s1
        have m2 := ihps (fun q hq => hw q (by simp_all)) (fun q hq => hlf q (by simp_all))
          (fun q hq => ih q (by simp_all)) h2 (by omega)
          (hcm.free .interleaveTail (fun h => (h.shuffle hsh).2)
            (.interleave fun q hq => hlf q (List.mem_cons_of_mem _ hq))) s2
        exact .interleaveCons m1 m2 hp hsh
  | mixed hw hlf ih =>
    intro i a c hr hz hcm hs
    cases hr with
    | mixed h1 h2 h3 =>
      obtain ⟨a1, a2, c1, c2, c', hc, s1, s2, hp, hsh⟩ := (h3.sem
          (fun h => h.single (h1.tyOff hall hw))
          (fun h => h.single (tyI_text (QE := fun _ => True) (QR := fun _ => True) (m := .off)
            (b := true) h2))).mp hs
      cases hc
      rw [hsh.szL] at hz
      have m1 := ih h1 (by omega) (hcm.free .mixed (fun h => (h.shuffle hsh).1) hlf) s1
      obtain ⟨x, hx, s2⟩ := s2
      rw [h2] at hx; cases hx
      cases s2 with
      | text hc => exact .mixed (m1.perm (by simpa using hp.symm)) hc hsh
  | optional hw ih =>
    intro i a c hr hz hcm hs
    cases hr with
    | optional h1 h2 h3 =>
      rcases h3.sem.mp hs with hs | hs
      · exact .optionalSome (ih h1 hz
          (hcm.sub .optional id (fun h => by cases h; assumption) id) hs)
      · obtain ⟨rfl, hc⟩ := (SI.empty h2).mp hs
        cases hc; exact .optionalNone
  | zeroOrMore hw hrep ih =>
    intro i a c hr hz hcm hs
    cases hr with
    | zeroOrMore h1 h2 h3 h4 =>
      rcases h4.sem.mp hs with hs | hs
      · refine ((h2.sem (f := true)).mp hs).oneOrMore_match rfl ?_ |>.oneToZero
        rintro a' x c' y rfl hb
        simp only [szL_append] at hz
        exact ih h1 (by omega) (hcm.sub .zeroOrMore (fun h => h.left.right) (fun h => by cases h; assumption)
          (fun h => h.left.right)) hb
      · obtain ⟨rfl, hc⟩ := (SI.empty h3).mp hs
        cases hc; exact .zeroOrMoreNil
  | oneOrMore hw hrep ih =>
    intro i a c hr hz hcm hs
    cases hr with
    | oneOrMore h1 h2 =>
      refine ((h2.sem (f := true)).mp hs).oneOrMore_match rfl ?_
      rintro a' x c' y rfl hb
      simp only [szL_append] at hz
      exact ih h1 (by omega) (hcm.sub .oneOrMore (fun h => h.left.right) (fun h => by cases h; assumption)
          (fun h => h.left.right)) hb
  | attr hw ih =>
    intro i a c hr hz hcm hs
    cases hr with
    | attr h1 h2 =>
      obtain ⟨x, hx, hs⟩ := hs
      rw [h2] at hx; cases hx
      cases hs with
      | @attr _ _ _ name v c g1 g2 g3 g4 =>
        refine .attr ((contains_iff _ _).mp g1) g3 (ih h1 ?_ ?_ ⟨_, g2, g4⟩)
        · rw [g3.szL]; simp [szL, Node.sz]
        rcases hcm with h | ⟨h0, _⟩
        · exact Or.inl h
        refine Or.inr ⟨fun nc r h => h0 nc r (.attr h), ?_, Or.inr ?_⟩
        · intro x hx
          have := g3.mem x hx
          simp at this; subst this; simp [Node.Fine]
        · exact (NoAdjL.weak g3 (by simp [NoAdjL, Node.NoAdj])).flat
  | @element s l nc p hq =>
    intro i a c hr hz hcm hs
    cases hr with
    | element h1 h2 =>
      obtain ⟨x, hx, hs⟩ := hs
      rw [h2] at hx; cases hx
      cases hs with
      | @element _ _ _ name _ _ _ g1 g2 g3 g4 =>
        simp only [szL, Node.sz] at hz
        refine .element ((contains_iff _ _).mp g1) g3
          (ihn (n - 1) (by omega) (hQ p hq) h1 (by rw [g3.weak.szL]; omega) ?_ ⟨_, g2, g4⟩)
        rcases hcm with h | ⟨h0, h, _⟩
        · exact Or.inl h
        · have hk := h _ (List.mem_singleton.mpr rfl)
          simp only [Node.Fine] at hk
          refine Or.inr ⟨fun nc r h => h0 nc r (.element h), fun x hx => hk.2.mem x (g3.weak.mem x hx), ?_⟩
          cases Classical.em (Sp name) with
          | inl hp => exact Or.inl (h0 _ _ .here _ ((contains_iff _ _).mp g1) hp)
          | inr hp => exact Or.inr ((hk.1 hp).weak g3.weak)
  | ref h1 hw hf ih =>
    intro i a c hr hz hcm hs
    cases hr with
    | ref h =>
      obtain ⟨p, j, P, e1, e2, e3, e4, _⟩ := hall _ _ h
      rw [h1] at e1; cases e1
      refine .ref h1 (ih e2 hz (hcm.sub (.ref h1) id (fun h => ?_) id) ((SI.of_eq (by rw [e3, e4])).mp hs))
      cases h with
      | ref g1 g2 => rw [h1] at g1; cases g1; exact g2
  | value =>
    intro i a c hr hz hcm hs
    cases hr with
    | value h =>
      obtain ⟨x, hx, hs⟩ := hs
      rw [h] at hx; cases hx
      cases hs with | datatypeValue h => exact .value h
  | data =>
    intro i a c hr hz hcm hs
    cases hr with
    | data h =>
      obtain ⟨x, hx, hs⟩ := hs
      rw [h] at hx; cases hx
      cases hs with | datatype h => exact .data h
  | dataExcept he =>
    intro i a c hr hz hcm hs
    cases hr with
    | dataExcept h1 h2 =>
      obtain ⟨x, hx, hs⟩ := hs
      rw [h2] at hx; cases hx
      cases hs with
      | datatypeExcept g1 g2 g3 => exact .dataExcept g1 (h1.exMatch' hall he g2 g3)
  | list hw ih =>
    intro i a c hr hz hcm hs
    cases hr with
    | list h1 h2 =>
      obtain ⟨x, hx, hs⟩ := hs
      rw [h2] at hx; cases hx
      cases hs with
      | @list _ _ ss g1 g2 g3 g4 =>
        have hlen : ss.length = 1 := by
          rcases g3 with h | h
          · rcases hcm with h' | ⟨_, _, h' | h'⟩
            · rw [h'] at h; cases h
            · cases h'
            · match ss, g2 with
              | [s], _ => rfl
              | s :: t :: y, _ => exact absurd rfl (h' [] s t (y.map Node.text))
          · exact h
        match ss, hlen with
        | [s], _ =>
          simp only [List.flatMap_cons, List.flatMap_nil, List.append_nil] at g4
          refine .list (words_iff.mpr rfl) (ih h1 (by rw [szL_text]; omega) ?_ ⟨_, g1, g4⟩)
          rcases hcm with h | ⟨h0, _⟩
          · exact Or.inl h
          refine Or.inr ⟨fun nc r h => h0 nc r (.list h), ?_, Or.inl (hw.listFree rfl)⟩
          intro x hx
          obtain ⟨y, _, rfl⟩ := List.mem_map.mp hx
          simp [Node.Fine]
end
end Verif
