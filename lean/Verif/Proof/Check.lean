import Verif.Spec.Check
/-
The test of Spec/Check is sound.
-/
namespace Verif.Check
variable {D V : Type} {L : Lib D V} {env : Env D V}

theorem mayEmptyAny_mem {o : Nat → Bool} : ∀ {ps : List (Pattern D V)} {p}, p ∈ ps → mayEmpty o p = true → mayEmptyAny o ps = true
  | q :: ps, p, h, h' => by
    rw [mayEmptyAny, Bool.or_eq_true]
    rcases List.mem_cons.1 h with rfl | h
    · exact .inl h'
    · exact .inr (mayEmptyAny_mem h h')

/-- a pattern that matches nothing at all is seen to do so -/
theorem mayEmpty_of {p : Pattern D V} {a c} (h : Match L env p a c) : a = [] → c = [] → ∀ k, mayEmpty (refEmpty env k) p = true := by
  induction h with
  | empty => intro _ _ k; rfl
  | text => intro _ _ k; rfl
  | choice hm _ ih => intro ha hc k; rw [mayEmpty]; exact mayEmptyAny_mem hm (ih ha hc k)
  | groupNil => intro _ _ k; rfl
  | groupCons _ _ hp ih1 ih2 =>
    intro ha hc k
    subst ha
    have hp := List.append_eq_nil_iff.1 hp.nil_eq.symm
    have hc := List.append_eq_nil_iff.1 hc
    have e2 := ih2 hp.2 hc.2 k
    rw [mayEmpty] at e2
    rw [mayEmpty, mayEmptyAll, ih1 hp.1 hc.1 k, e2]; rfl
  | interleaveNil => intro _ _ k; rfl
  | interleaveCons _ _ hp hs ih1 ih2 =>
    intro ha hc k
    subst ha; subst hc
    have hp := List.append_eq_nil_iff.1 hp.nil_eq.symm
    cases hs
    have e2 := ih2 hp.2 rfl k
    rw [mayEmpty] at e2
    rw [mayEmpty, mayEmptyAll, ih1 hp.1 rfl k, e2]; rfl
  | mixed _ _ hs ih => intro ha hc k; subst hc; cases hs; rw [mayEmpty]; exact ih ha rfl k
  | optionalNone => intro _ _ k; rfl
  | optionalSome => intro _ _ k; rfl
  | zeroOrMoreNil => intro _ _ k; rfl
  | zeroOrMoreCons => intro _ _ k; rfl
  | oneOrMore _ _ hp ih1 _ =>
    intro ha hc k
    subst ha
    rw [mayEmpty]
    exact ih1 (List.append_eq_nil_iff.1 hp.nil_eq.symm).1 (List.append_eq_nil_iff.1 hc).1 k
  | attr => intro ha; cases ha
  | element => intro _ hc; cases hc
  | ref h1 _ ih =>
    intro ha hc k
    rw [mayEmpty]
    cases k with
    | zero => rfl
    | succ k => simp only [refEmpty, h1]; exact ih ha hc k
  | value => intro _ hc; cases hc
  | data => intro _ hc; cases hc
  | dataExcept => intro _ hc; cases hc
  | list => intro _ hc; cases hc

theorem reach_mem {S : List Nat} (hS : ∀ m ∈ S, ∀ p, env[m]? = some p → ∀ n ∈ p.refs, n ∈ S) {q : Pattern D V} {n : Nat} (h : Uses env q n) :
    (∀ m ∈ q.refs, m ∈ S) → n ∈ S := by
  induction h with
  | here h => exact fun hq => hq _ h
  | there h1 h2 _ ih => exact fun hq => ih (hS _ (hq _ h1) _ h2)

theorem notUses_sound {k n : Nat} {q : Pattern D V} (h : notUses env k q n = true) : ¬ Uses env q n := by
  intro hu
  simp only [notUses, Bool.and_eq_true, List.all_eq_true, Bool.not_eq_true', List.contains_iff_mem] at h
  obtain ⟨⟨h1, h2⟩, h3⟩ := h
  have := reach_mem (S := reach env k q.refs) (fun m hm p hp n hn => by
    have := h2 m hm
    rw [hp] at this
    simpa using List.all_eq_true.1 this n hn) hu (fun m hm => by simpa using h1 m hm)
  rw [List.contains_eq_mem, decide_eq_false_iff_not] at h3
  exact h3 this

theorem notRecursive_sound {k n : Nat} (h : notRecursive env k n = true) : ¬ Recursive env n := by
  rintro ⟨q, hq, hu⟩
  rw [notRecursive, hq] at h
  exact notUses_sound h hu

theorem closed_sound {S : List Nat} {q : Pattern D V} (h : closed env S q = true) :
    (∀ n ∈ q.refs, n ∈ S) ∧ ∀ m ∈ S, ∀ p, env[m]? = some p → ∀ n ∈ p.refs, n ∈ S := by
  simp only [closed, Bool.and_eq_true, List.all_eq_true, List.contains_iff_mem] at h
  refine ⟨h.1, fun m hm p hp n hn => ?_⟩
  have := h.2 m hm
  rw [hp] at this
  simpa using List.all_eq_true.1 this n hn

theorem noAlias_sound {k : Nat} {start : Pattern D V} (h : noAlias env k start = true) : NoAlias env start := by
  intro n hu q m b hq hm hb
  rw [noAlias, Bool.and_eq_true] at h
  obtain ⟨h1, h2⟩ := closed_sound h.1
  have := List.all_eq_true.1 h.2 n (reach_mem h2 hu h1)
  rw [hq] at this
  have := List.all_eq_true.1 this m hm
  rw [hb] at this
  exact notUses_sound this

theorem fresh_sound {k n : Nat} (h : fresh env k n = true) : Fresh L env n := by
  intro hr hm
  simp only [fresh, Bool.or_eq_true, Bool.not_eq_true'] at h
  rcases h with h | h
  · have := mayEmpty_of hm rfl rfl k
    rw [mayEmpty, h] at this
    cases this
  · exact notRecursive_sound h hr

theorem deep_sound {test : (Nat → Bool) → Pattern D V → Bool} {P : Pattern D V → Prop}
    (ht : ∀ o, (∀ n, o n = true → ∃ p, env[n]? = some p ∧ P p) → ∀ p, test o p = true → P p) :
    ∀ k n, deep env test k n = true → ∃ p, env[n]? = some p ∧ P p
  | 0, _, h => by cases h
  | k + 1, n, h => by
    rw [deep] at h
    cases hn : env[n]? with
    | none => rw [hn] at h; cases h
    | some p => rw [hn] at h; exact ⟨p, rfl, ht _ (deep_sound ht k) p h⟩

section
variable {o : Nat → Bool}

mutual
theorem exOK_sound (ho : ∀ n, o n = true → ∃ p, env[n]? = some p ∧ ExOK env p) : ∀ p : Pattern D V, exOK o p = true → ExOK env p
  | .datatypeValue _, _ => .value
  | .datatypeName _, _ => .data
  | .datatypeNameExcept _ e, h => .dataExcept (exOK_sound ho e (by rwa [exOK] at h))
  | .notAllowed, _ => .notAllowed
  | .choice ps, h => by
    rw [exOK, Bool.and_eq_true] at h
    exact .choice (by rintro rfl; cases h.1) (exOKAll_sound ho ps h.2)
  | .ref n, h => by rw [exOK] at h; obtain ⟨p, h1, h2⟩ := ho n h; exact .ref h1 h2
  | .empty, h => by cases h
  | .text, h => by cases h
  | .group _, h => by cases h
  | .interleave _, h => by cases h
  | .mixed _, h => by cases h
  | .optional _, h => by cases h
  | .zeroOrMore _, h => by cases h
  | .oneOrMore _, h => by cases h
  | .attr _ _, h => by cases h
  | .element _ _, h => by cases h
  | .list _, h => by cases h
theorem exOKAll_sound (ho : ∀ n, o n = true → ∃ p, env[n]? = some p ∧ ExOK env p) : ∀ ps : List (Pattern D V), exOKAll o ps = true →
    ∀ p ∈ ps, ExOK env p
  | [], _, p, hp => by cases hp
  | q :: ps, h, p, hp => by
    rw [exOKAll, Bool.and_eq_true] at h
    rcases List.mem_cons.1 hp with hp | hp
    · rw [hp]; exact exOK_sound ho q h.1
    · exact exOKAll_sound ho ps h.2 p hp
end

mutual
theorem listFree_sound (ho : ∀ n, o n = true → ∃ p, env[n]? = some p ∧ ListFree env p) : ∀ p : Pattern D V, listFree o p = true → ListFree env p
  | .choice ps, h => .choice (listFreeAll_sound ho ps (by rwa [listFree] at h))
  | .group ps, h => .group (listFreeAll_sound ho ps (by rwa [listFree] at h))
  | .interleave ps, h => .interleave (listFreeAll_sound ho ps (by rwa [listFree] at h))
  | .mixed p, h => .mixed (listFree_sound ho p (by rwa [listFree] at h))
  | .optional p, h => .optional (listFree_sound ho p (by rwa [listFree] at h))
  | .zeroOrMore p, h => .zeroOrMore (listFree_sound ho p (by rwa [listFree] at h))
  | .oneOrMore p, h => .oneOrMore (listFree_sound ho p (by rwa [listFree] at h))
  | .ref n, h => by rw [listFree] at h; obtain ⟨p, h1, h2⟩ := ho n h; exact .ref h1 h2
  | .list _, h => by cases h
  | .datatypeValue _, _ => .value
  | .datatypeName _, _ => .data
  | .datatypeNameExcept _ _, _ => .dataExcept
  | .notAllowed, _ => .notAllowed
  | .empty, _ => .empty
  | .text, _ => .text
  | .attr _ _, _ => .attr
  | .element _ _, _ => .element
theorem listFreeAll_sound (ho : ∀ n, o n = true → ∃ p, env[n]? = some p ∧ ListFree env p) : ∀ ps : List (Pattern D V), listFreeAll o ps = true →
    ∀ p ∈ ps, ListFree env p
  | [], _, p, hp => by cases hp
  | q :: ps, h, p, hp => by
    rw [listFreeAll, Bool.and_eq_true] at h
    rcases List.mem_cons.1 hp with hp | hp
    · rw [hp]; exact listFree_sound ho q h.1
    · exact listFreeAll_sound ho ps h.2 p hp
end

mutual
theorem attrFree_sound (ho : ∀ n, o n = true → ∃ p, env[n]? = some p ∧ AttrFree env p) : ∀ p : Pattern D V, attrFree o p = true → AttrFree env p
  | .choice ps, h => .choice (attrFreeAll_sound ho ps (by rwa [attrFree] at h))
  | .group ps, h => .group (attrFreeAll_sound ho ps (by rwa [attrFree] at h))
  | .interleave ps, h => .interleave (attrFreeAll_sound ho ps (by rwa [attrFree] at h))
  | .mixed p, h => .mixed (attrFree_sound ho p (by rwa [attrFree] at h))
  | .optional p, h => .optional (attrFree_sound ho p (by rwa [attrFree] at h))
  | .zeroOrMore p, h => .zeroOrMore (attrFree_sound ho p (by rwa [attrFree] at h))
  | .oneOrMore p, h => .oneOrMore (attrFree_sound ho p (by rwa [attrFree] at h))
  | .ref n, h => by rw [attrFree] at h; obtain ⟨p, h1, h2⟩ := ho n h; exact .ref h1 h2
  | .list _, _ => .list
  | .datatypeValue _, _ => .value
  | .datatypeName _, _ => .data
  | .datatypeNameExcept _ _, _ => .dataExcept
  | .notAllowed, _ => .notAllowed
  | .empty, _ => .empty
  | .text, _ => .text
  | .attr _ _, h => by cases h
  | .element _ _, _ => .element
theorem attrFreeAll_sound (ho : ∀ n, o n = true → ∃ p, env[n]? = some p ∧ AttrFree env p) : ∀ ps : List (Pattern D V), attrFreeAll o ps = true →
    ∀ p ∈ ps, AttrFree env p
  | [], _, p, hp => by cases hp
  | q :: ps, h, p, hp => by
    rw [attrFreeAll, Bool.and_eq_true] at h
    rcases List.mem_cons.1 hp with hp | hp
    · rw [hp]; exact attrFree_sound ho q h.1
    · exact attrFreeAll_sound ho ps h.2 p hp
end

mutual
theorem repeatOK_sound {f : Pattern D V → Bool} (hf : ∀ p, f p = true → AttrFree env p)
    (ho : ∀ n, o n = true → ∃ p, env[n]? = some p ∧ RepeatOK env p) : ∀ p : Pattern D V, repeatOK f o p = true → RepeatOK env p
  | .choice ps, h => .choice (repeatOKAll_sound hf ho ps (by rwa [repeatOK] at h))
  | .group ps, h => .free (hf _ (by simpa only [repeatOK] using h))
  | .interleave ps, h => .free (hf _ (by simpa only [repeatOK] using h))
  | .mixed p, h => .free (hf _ (by simpa only [repeatOK] using h))
  | .optional p, h => .optional (repeatOK_sound hf ho p (by rwa [repeatOK] at h))
  | .zeroOrMore p, h => .zeroOrMore (repeatOK_sound hf ho p (by rwa [repeatOK] at h))
  | .oneOrMore p, h => .oneOrMore (repeatOK_sound hf ho p (by rwa [repeatOK] at h))
  | .ref n, h => by rw [repeatOK] at h; obtain ⟨p, h1, h2⟩ := ho n h; exact .ref h1 h2
  | .list _, _ => .free .list
  | .datatypeValue _, _ => .free .value
  | .datatypeName _, _ => .free .data
  | .datatypeNameExcept _ _, _ => .free .dataExcept
  | .notAllowed, _ => .free .notAllowed
  | .empty, _ => .free .empty
  | .text, _ => .free .text
  | .attr _ _, _ => .attr
  | .element _ _, _ => .free .element
theorem repeatOKAll_sound {f : Pattern D V → Bool} (hf : ∀ p, f p = true → AttrFree env p)
    (ho : ∀ n, o n = true → ∃ p, env[n]? = some p ∧ RepeatOK env p) : ∀ ps : List (Pattern D V), repeatOKAll f o ps = true →
    ∀ p ∈ ps, RepeatOK env p
  | [], _, p, hp => by cases hp
  | q :: ps, h, p, hp => by
    rw [repeatOKAll, Bool.and_eq_true] at h
    rcases List.mem_cons.1 hp with hp | hp
    · rw [hp]; exact repeatOK_sound hf ho q h.1
    · exact repeatOKAll_sound hf ho ps h.2 p hp
end

mutual
theorem startOK_sound (ho : ∀ n, o n = true → ∃ p, env[n]? = some p ∧ StartOK env p) : ∀ p : Pattern D V, startOK o p = true → StartOK env p
  | .choice ps, h => by
    rw [startOK, Bool.and_eq_true] at h
    exact .choice (by rintro rfl; cases h.1) (startOKAll_sound ho ps h.2)
  | .ref n, h => by rw [startOK] at h; obtain ⟨p, h1, h2⟩ := ho n h; exact .ref h1 h2
  | .element _ _, _ => .element
  | .notAllowed, _ => .notAllowed
  | .datatypeValue _, h => by cases h
  | .datatypeName _, h => by cases h
  | .datatypeNameExcept _ e, h => by cases h
  | .empty, h => by cases h
  | .text, h => by cases h
  | .group _, h => by cases h
  | .interleave _, h => by cases h
  | .mixed _, h => by cases h
  | .optional _, h => by cases h
  | .zeroOrMore _, h => by cases h
  | .oneOrMore _, h => by cases h
  | .attr _ _, h => by cases h
  | .list _, h => by cases h
theorem startOKAll_sound (ho : ∀ n, o n = true → ∃ p, env[n]? = some p ∧ StartOK env p) : ∀ ps : List (Pattern D V), startOKAll o ps = true →
    ∀ p ∈ ps, StartOK env p
  | [], _, p, hp => by cases hp
  | q :: ps, h, p, hp => by
    rw [startOKAll, Bool.and_eq_true] at h
    rcases List.mem_cons.1 hp with hp | hp
    · rw [hp]; exact startOK_sound ho q h.1
    · exact startOKAll_sound ho ps h.2 p hp
end
end

theorem listFreeIn_sound {k : Nat} {p : Pattern D V} (h : listFreeIn env k p = true) : ListFree env p :=
  listFree_sound (deep_sound (fun _ ho => listFree_sound ho) k) p h
theorem attrFreeIn_sound {k : Nat} {p : Pattern D V} (h : attrFreeIn env k p = true) : AttrFree env p :=
  attrFree_sound (deep_sound (fun _ ho => attrFree_sound ho) k) p h
theorem repeatOKIn_sound {k : Nat} {p : Pattern D V} (h : repeatOKIn env k p = true) : RepeatOK env p :=
  repeatOK_sound (fun _ => attrFreeIn_sound) (deep_sound (fun _ ho => repeatOK_sound (fun _ => attrFreeIn_sound) ho) k) p h
theorem exOKIn_sound {k : Nat} {p : Pattern D V} (h : exOKIn env k p = true) : ExOK env p :=
  exOK_sound (deep_sound (fun _ ho => exOK_sound ho) k) p h

mutual
theorem contents_trans : ∀ {p q r : Pattern D V}, q ∈ contents p → r ∈ contents q → r ∈ contents p
  | .choice ps, q, r, h, h' => by rw [contents] at h ⊢; exact contentsL_trans h h'
  | .interleave ps, q, r, h, h' => by rw [contents] at h ⊢; exact contentsL_trans h h'
  | .group ps, q, r, h, h' => by rw [contents] at h ⊢; exact contentsL_trans h h'
  | .mixed p, q, r, h, h' => by rw [contents] at h ⊢; exact contents_trans h h'
  | .optional p, q, r, h, h' => by rw [contents] at h ⊢; exact contents_trans h h'
  | .zeroOrMore p, q, r, h, h' => by rw [contents] at h ⊢; exact contents_trans h h'
  | .oneOrMore p, q, r, h, h' => by rw [contents] at h ⊢; exact contents_trans h h'
  | .attr _ p, q, r, h, h' => by rw [contents] at h ⊢; exact contents_trans h h'
  | .element _ p, q, r, h, h' => by
    rw [contents] at h ⊢
    rcases List.mem_cons.1 h with rfl | h
    · exact List.mem_cons_of_mem _ h'
    · exact List.mem_cons_of_mem _ (contents_trans h h')
  | .datatypeNameExcept _ p, q, r, h, h' => by rw [contents] at h ⊢; exact contents_trans h h'
  | .list p, q, r, h, h' => by rw [contents] at h ⊢; exact contents_trans h h'
  | .ref _, q, r, h, h' => by cases h
  | .empty, q, r, h, h' => by cases h
  | .text, q, r, h, h' => by cases h
  | .notAllowed, q, r, h, h' => by cases h
  | .datatypeValue _, q, r, h, h' => by cases h
  | .datatypeName _, q, r, h, h' => by cases h
theorem contentsL_trans : ∀ {ps : List (Pattern D V)} {q r : Pattern D V}, q ∈ contentsL ps → r ∈ contents q → r ∈ contentsL ps
  | [], q, r, h, h' => by cases h
  | p :: ps, q, r, h, h' => by
    rw [contentsL, List.mem_append] at h ⊢
    exact h.imp (fun h => contents_trans h h') (fun h => contentsL_trans h h')
end

theorem contentsL_mem : ∀ {ps : List (Pattern D V)} {p q}, p ∈ ps → q ∈ contents p → q ∈ contentsL ps
  | r :: ps, p, q, h, h' => by
    rw [contentsL, List.mem_append]
    rcases List.mem_cons.1 h with rfl | h
    · exact .inl h'
    · exact .inr (contentsL_mem h h')

section
variable {lf rp ex : Pattern D V → Bool} {fr : Nat → Bool} {o : Bool → Bool → Nat → Bool} {Q : Pattern D V → Prop}
  (hl : ∀ p, lf p = true → ListFree env p) (hr : ∀ p, rp p = true → RepeatOK env p) (he : ∀ p, ex p = true → ExOK env p)
  (hf : ∀ n, fr n = true → Fresh L env n) {S : Nat → Prop} (ho : ∀ s l n, S n → o s l n = true → ∃ p, env[n]? = some p ∧ WF L env Q true s l p)
include hl hr he hf ho

mutual
theorem wf_sound : ∀ (p : Pattern D V) (s l : Bool), wf lf rp ex fr o s l p = true → (∀ n ∈ p.refs, S n) → (∀ q ∈ contents p, Q q) → WF L env Q true s l p
  | .choice ps, s, l, h, hn, hq => by
    rw [wf, Bool.and_eq_true] at h
    exact .choice (by rintro rfl; cases h.1) (wfAll_sound ps s l h.2 (by rwa [Pattern.refs] at hn) (by rwa [contents] at hq))
  | .group ps, s, l, h, hn, hq => by
    rw [wf, Bool.and_eq_true] at h
    exact .group (by rintro rfl; cases h.1) (wfAll_sound ps s l h.2 (by rwa [Pattern.refs] at hn) (by rwa [contents] at hq))
  | .interleave ps, s, l, h, hn, hq => by
    rw [wf, Bool.and_eq_true, Bool.and_eq_true] at h
    exact .interleave (by rintro rfl; cases h.1.1) (wfAll_sound ps s l h.1.2 (by rwa [Pattern.refs] at hn) (by rwa [contents] at hq)) fun p hp => hl p (List.all_eq_true.1 h.2 p hp)
  | .mixed p, s, l, h, hn, hq => by
    rw [wf, Bool.and_eq_true] at h
    exact .mixed (wf_sound p s l h.1 (by rwa [Pattern.refs] at hn) (by rwa [contents] at hq)) (hl _ h.2)
  | .optional p, s, l, h, hn, hq => .optional (wf_sound p s l (by rwa [wf] at h) (by rwa [Pattern.refs] at hn) (by rwa [contents] at hq))
  | .zeroOrMore p, s, l, h, hn, hq => by
    rw [wf, Bool.and_eq_true] at h
    exact .zeroOrMore (wf_sound p true l h.1 (by rwa [Pattern.refs] at hn) (by rwa [contents] at hq)) fun _ => hr _ h.2
  | .oneOrMore p, s, l, h, hn, hq => by
    rw [wf, Bool.and_eq_true] at h
    exact .oneOrMore (wf_sound p true l h.1 (by rwa [Pattern.refs] at hn) (by rwa [contents] at hq)) fun _ => hr _ h.2
  | .attr _ p, s, l, h, hn, hq => .attr (wf_sound p true true (by rwa [wf] at h) (by rwa [Pattern.refs] at hn) (by rwa [contents] at hq))
  | .element _ p, s, l, h, hn, hq => .element (hq p (by rw [contents]; exact List.mem_cons_self))
  | .ref n, s, l, h, hn, hq => by
    rw [wf, Bool.and_eq_true] at h
    obtain ⟨p, h1, h2⟩ := ho s l n (hn n (by rw [Pattern.refs]; exact List.mem_singleton_self n)) h.1
    refine .ref h1 h2 fun _ hs => hf n ?_
    subst hs
    simpa using h.2
  | .datatypeNameExcept _ e, s, l, h, hn, hq => .dataExcept (he _ (by rwa [wf] at h))
  | .list p, s, l, h, hn, hq => by
    rw [wf, Bool.and_eq_true] at h
    obtain ⟨rfl, h⟩ := h
    exact .list (wf_sound p true false h (by rwa [Pattern.refs] at hn) (by rwa [contents] at hq))
  | .empty, s, l, h, hn, hq => .empty
  | .text, s, l, h, hn, hq => .text
  | .notAllowed, s, l, h, hn, hq => .notAllowed
  | .datatypeValue _, s, l, h, hn, hq => .value
  | .datatypeName _, s, l, h, hn, hq => .data
theorem wfAll_sound : ∀ (ps : List (Pattern D V)) (s l : Bool), wfAll lf rp ex fr o s l ps = true → (∀ n ∈ refsL ps, S n) → (∀ q ∈ contentsL ps, Q q) →
    ∀ p ∈ ps, WF L env Q true s l p
  | [], s, l, h, hn, hq, p, hp => by cases hp
  | q :: ps, s, l, h, hn, hq, p, hp => by
    rw [wfAll, Bool.and_eq_true] at h
    rw [contentsL] at hq
    rw [refsL] at hn
    rcases List.mem_cons.1 hp with hp | hp
    · rw [hp]; exact wf_sound q s l h.1 (fun m hm => hn m (List.mem_append_left _ hm)) fun r hr => hq r (List.mem_append_left _ hr)
    · exact wfAll_sound ps s l h.2 (fun m hm => hn m (List.mem_append_right _ hm)) (fun r hr => hq r (List.mem_append_right _ hr)) p hp
end
end

theorem refWf_sound {k : Nat} {Q : Pattern D V → Prop} {S : Nat → Prop}
    (hS : ∀ n, S n → ∀ p, env[n]? = some p → (∀ m ∈ p.refs, S m) ∧ ∀ q ∈ contents p, Q q) :
    ∀ j s l n, S n → refWf env k j s l n = true → ∃ p, env[n]? = some p ∧ WF L env Q true s l p
  | 0, _, _, _, _, h => by cases h
  | j + 1, s, l, n, hn, h => by
    rw [refWf] at h
    cases he : env[n]? with
    | none => rw [he] at h; cases h
    | some p =>
      rw [he] at h
      exact ⟨p, rfl, wf_sound (fun _ => listFreeIn_sound) (fun _ => repeatOKIn_sound) (fun _ => exOKIn_sound) (fun _ => fresh_sound)
        (refWf_sound hS j) p s l h (hS n hn p he).1 (hS n hn p he).2⟩

mutual
theorem contents_refs : ∀ {p q : Pattern D V}, q ∈ contents p → ∀ n ∈ q.refs, n ∈ p.refs
  | .choice ps, q, h, n, hn => by rw [contents] at h; rw [Pattern.refs]; exact contentsL_refs h n hn
  | .interleave ps, q, h, n, hn => by rw [contents] at h; rw [Pattern.refs]; exact contentsL_refs h n hn
  | .group ps, q, h, n, hn => by rw [contents] at h; rw [Pattern.refs]; exact contentsL_refs h n hn
  | .mixed p, q, h, n, hn => by rw [contents] at h; rw [Pattern.refs]; exact contents_refs h n hn
  | .optional p, q, h, n, hn => by rw [contents] at h; rw [Pattern.refs]; exact contents_refs h n hn
  | .zeroOrMore p, q, h, n, hn => by rw [contents] at h; rw [Pattern.refs]; exact contents_refs h n hn
  | .oneOrMore p, q, h, n, hn => by rw [contents] at h; rw [Pattern.refs]; exact contents_refs h n hn
  | .attr _ p, q, h, n, hn => by rw [contents] at h; rw [Pattern.refs]; exact contents_refs h n hn
  | .element _ p, q, h, n, hn => by
    rw [contents] at h
    rw [Pattern.refs]
    rcases List.mem_cons.1 h with h | h
    · rwa [h] at hn
    · exact contents_refs h n hn
  | .datatypeNameExcept _ p, q, h, n, hn => by rw [contents] at h; rw [Pattern.refs]; exact contents_refs h n hn
  | .list p, q, h, n, hn => by rw [contents] at h; rw [Pattern.refs]; exact contents_refs h n hn
  | .ref _, q, h, n, hn => by cases h
  | .empty, q, h, n, hn => by cases h
  | .text, q, h, n, hn => by cases h
  | .notAllowed, q, h, n, hn => by cases h
  | .datatypeValue _, q, h, n, hn => by cases h
  | .datatypeName _, q, h, n, hn => by cases h
theorem contentsL_refs : ∀ {ps : List (Pattern D V)} {q : Pattern D V}, q ∈ contentsL ps → ∀ n ∈ q.refs, n ∈ refsL ps
  | [], q, h, n, hn => by cases h
  | p :: ps, q, h, n, hn => by
    rw [contentsL, List.mem_append] at h
    rw [refsL, List.mem_append]
    exact h.imp (fun h => contents_refs h n hn) (fun h => contentsL_refs h n hn)
end

theorem mem_contentsL : ∀ {ps : List (Pattern D V)} {q}, q ∈ contentsL ps → ∃ p ∈ ps, q ∈ contents p
  | p :: ps, q, h => by
    rw [contentsL] at h
    rcases List.mem_append.1 h with h | h
    · exact ⟨p, List.mem_cons_self, h⟩
    · obtain ⟨p', hp, hq⟩ := mem_contentsL h
      exact ⟨p', List.mem_cons_of_mem _ hp, hq⟩

section
variable {k : Nat} {start : Pattern D V} (h : closed env (reach env k start.refs) start = true)
include h

/-- the definitions used -/
theorem used_sound (n : Nat) (hn : n ∈ reach env k start.refs) (p : Pattern D V) (hp : env[n]? = some p) :
    (∀ m ∈ p.refs, m ∈ reach env k start.refs) ∧ ∀ q ∈ contents p, q ∈ contentsL (bodies env k start) :=
  ⟨(closed_sound h).2 n hn p hp, fun _ hq => contentsL_mem (List.mem_cons_of_mem _ (List.mem_filterMap.2 ⟨n, hn, hp⟩)) hq⟩

theorem bodies_refs {p : Pattern D V} (hp : p ∈ bodies env k start) : ∀ m ∈ p.refs, m ∈ reach env k start.refs := by
  rcases List.mem_cons.1 hp with hp | hp
  · rw [hp]; exact (closed_sound h).1
  · obtain ⟨n, hn, hp⟩ := List.mem_filterMap.1 hp
    exact (closed_sound h).2 n hn p hp
end

/-- a schema that passes the test meets the conditions -/
theorem schema_sound {k : Nat} {start : Pattern D V} (h : schema env k start = true) : SchemaOK L env start true ∧ StartOK env start := by
  simp only [schema, Bool.and_eq_true, List.all_eq_true] at h
  obtain ⟨⟨⟨h1, h0⟩, h2⟩, h3⟩ := h
  refine ⟨⟨(· ∈ contentsL (bodies env k start)), fun p hp => ?_, ?_⟩, startOK_sound (deep_sound (fun _ ho => startOK_sound ho) k) start h1⟩
  · obtain ⟨b, hb, hp'⟩ := mem_contentsL hp
    exact wf_sound (fun _ => listFreeIn_sound) (fun _ => repeatOKIn_sound) (fun _ => exOKIn_sound) (fun _ => fresh_sound)
      (refWf_sound (S := (· ∈ reach env k start.refs)) (used_sound h0) k) p false true (h3 p hp)
      (fun n hn => bodies_refs h0 hb n (contents_refs hp' n hn)) (fun q hq => contentsL_trans hp hq)
  · exact wf_sound (fun _ => listFreeIn_sound) (fun _ => repeatOKIn_sound) (fun _ => exOKIn_sound) (fun _ => fresh_sound)
      (refWf_sound (S := (· ∈ reach env k start.refs)) (used_sound h0) k) start false true h2
      (closed_sound h0).1 (fun q hq => contentsL_mem List.mem_cons_self hq)

mutual
theorem onlyText_sound {o : Nat → Bool} (ho : ∀ n, o n = true → ∃ p, env[n]? = some p ∧ OnlyText env p) : ∀ p : Pattern D V, onlyText o p = true → OnlyText env p
  | .choice ps, h => .choice (onlyTextAll_sound ho ps (by rwa [onlyText] at h))
  | .group ps, h => .group (onlyTextAll_sound ho ps (by rwa [onlyText] at h))
  | .interleave ps, h => .interleave (onlyTextAll_sound ho ps (by rwa [onlyText] at h))
  | .mixed p, h => .mixed (onlyText_sound ho p (by rwa [onlyText] at h))
  | .optional p, h => .optional (onlyText_sound ho p (by rwa [onlyText] at h))
  | .zeroOrMore p, h => .zeroOrMore (onlyText_sound ho p (by rwa [onlyText] at h))
  | .oneOrMore p, h => .oneOrMore (onlyText_sound ho p (by rwa [onlyText] at h))
  | .ref n, h => by rw [onlyText] at h; obtain ⟨p, h1, h2⟩ := ho n h; exact .ref h1 h2
  | .list _, h => by cases h
  | .datatypeValue _, h => by cases h
  | .datatypeName _, h => by cases h
  | .datatypeNameExcept _ _, h => by cases h
  | .notAllowed, _ => .notAllowed
  | .empty, _ => .empty
  | .text, _ => .text
  | .attr _ _, _ => .attr
  | .element _ _, _ => .element
theorem onlyTextAll_sound {o : Nat → Bool} (ho : ∀ n, o n = true → ∃ p, env[n]? = some p ∧ OnlyText env p) : ∀ ps : List (Pattern D V),
    onlyTextAll o ps = true → ∀ p ∈ ps, OnlyText env p
  | [], _, p, hp => by cases hp
  | q :: ps, h, p, hp => by
    rw [onlyTextAll, Bool.and_eq_true] at h
    rcases List.mem_cons.1 hp with hp | hp
    · rw [hp]; exact onlyText_sound ho q h.1
    · exact onlyTextAll_sound ho ps h.2 p hp
end

theorem refsL_of : ∀ {ps : List (Pattern D V)} {p n}, p ∈ ps → n ∈ p.refs → n ∈ refsL ps
  | q :: ps, p, n, h, hn => by
    rw [refsL, List.mem_append]
    rcases List.mem_cons.1 h with rfl | h
    · exact .inl hn
    · exact .inr (refsL_of h hn)

theorem elemIn_contents {T : Pattern D V → Prop} {S : Nat → Prop}
    (hS : ∀ n, S n → ∀ p, env[n]? = some p → (∀ m ∈ p.refs, S m) ∧ ∀ q ∈ contents p, T q) {p : Pattern D V} {nc q} (h : ElemIn env p nc q) :
    (∀ m ∈ p.refs, S m) → (∀ q ∈ contents p, T q) → T q := by
  induction h with
  | here => exact fun _ h => h _ (by rw [contents]; exact List.mem_cons_self)
  | element _ ih => exact fun hr h => ih (by rwa [Pattern.refs] at hr) fun q hq => h q (by rw [contents]; exact List.mem_cons_of_mem _ hq)
  | choice hm _ ih =>
    exact fun hr h => ih (fun m h' => hr m (by rw [Pattern.refs]; exact refsL_of hm h')) fun q hq => h q (by rw [contents]; exact contentsL_mem hm hq)
  | group hm _ ih =>
    exact fun hr h => ih (fun m h' => hr m (by rw [Pattern.refs]; exact refsL_of hm h')) fun q hq => h q (by rw [contents]; exact contentsL_mem hm hq)
  | interleave hm _ ih =>
    exact fun hr h => ih (fun m h' => hr m (by rw [Pattern.refs]; exact refsL_of hm h')) fun q hq => h q (by rw [contents]; exact contentsL_mem hm hq)
  | mixed _ ih => exact fun hr h => ih (by rwa [Pattern.refs] at hr) fun q hq => h q (by rwa [contents])
  | optional _ ih => exact fun hr h => ih (by rwa [Pattern.refs] at hr) fun q hq => h q (by rwa [contents])
  | zeroOrMore _ ih => exact fun hr h => ih (by rwa [Pattern.refs] at hr) fun q hq => h q (by rwa [contents])
  | oneOrMore _ ih => exact fun hr h => ih (by rwa [Pattern.refs] at hr) fun q hq => h q (by rwa [contents])
  | attr _ ih => exact fun hr h => ih (by rwa [Pattern.refs] at hr) fun q hq => h q (by rwa [contents])
  | list _ ih => exact fun hr h => ih (by rwa [Pattern.refs] at hr) fun q hq => h q (by rwa [contents])
  | ref h1 _ ih =>
    exact fun hr _ => ih (hS _ (hr _ (by rw [Pattern.refs]; exact List.mem_singleton_self _)) _ h1).1
      (hS _ (hr _ (by rw [Pattern.refs]; exact List.mem_singleton_self _)) _ h1).2

theorem textSchema_sound {k : Nat} {start : Pattern D V} (h : textSchema env k start = true) (d : XDoc) : d.SeenBreaksOnlyText env start := by
  intro nm nc q _ he _
  rw [textSchema, Bool.and_eq_true] at h
  have h1 := List.all_eq_true.1 h.2
  have : q ∈ contentsL (bodies env k start) := elemIn_contents (T := (· ∈ contentsL (bodies env k start))) (S := (· ∈ reach env k start.refs))
    (used_sound h.1) he (closed_sound h.1).1 (fun q hq => contentsL_mem List.mem_cons_self hq)
  exact onlyText_sound (deep_sound (fun _ ho => onlyText_sound ho) k) q (h1 q this)

theorem broken_of : ∀ {xs : List XNode} {prev : Bool}, brokenText prev xs → broken prev xs = true
  | [], _, h => h.elim
  | .text _ :: xs, prev, h => by
    simp only [brokenText] at h
    rw [broken, Bool.or_eq_true]
    exact h.imp_right broken_of
  | .cdata _ :: xs, prev, h => by
    simp only [brokenText] at h
    rw [broken, Bool.or_eq_true]
    exact h.imp_right broken_of
  | .comment :: xs, prev, h => by simp only [brokenText] at h; rw [broken]; exact broken_of h
  | .pi :: xs, prev, h => by simp only [brokenText] at h; rw [broken]; exact broken_of h
  | .elem _ _ _ _ _ :: xs, prev, h => by simp only [brokenText] at h; rw [broken]; exact broken_of h

theorem whole_sound {read : List (Str × Str)} {xs : List XNode} {nm : QName} (h : SeenBroken read xs nm) : wholeAll xs = false := by
  induction h with
  | here _ hb => simp [wholeAll, whole, broken_of hb]
  | inside _ ih => simp [wholeAll, whole, ih]
  | later _ ih => simp [wholeAll, ih]

theorem whole_breaks {start : Pattern D V} {d : XDoc} (h : whole d.root = true) : d.SeenBreaksOnlyText env start := by
  intro nm nc q hb
  have := whole_sound hb
  simp [wholeAll, h] at this

end Verif.Check
