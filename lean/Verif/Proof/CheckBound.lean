import Verif.Proof.CheckExact
/-
How far references have to be followed: the test of Spec/Check at the depth `depth env` is the test at all greater depths.
-/
namespace Verif.Check
variable {D V : Type} {L : Lib D V} {env : Env D V}

section
variable {o o' : Nat → Bool}

mutual
theorem exOK_mono (h : ∀ n, o n = true → o' n = true) : ∀ p : Pattern D V, exOK o p = true → exOK o' p = true
  | .choice ps, hp => by rw [exOK, Bool.and_eq_true] at hp ⊢; exact ⟨hp.1, exOKAll_mono h ps hp.2⟩
  | .group ps, hp => by simpa only [exOK] using hp
  | .interleave ps, hp => by simpa only [exOK] using hp
  | .mixed p, hp => by simpa only [exOK] using hp
  | .optional p, hp => by simpa only [exOK] using hp
  | .zeroOrMore p, hp => by simpa only [exOK] using hp
  | .oneOrMore p, hp => by simpa only [exOK] using hp
  | .attr _ p, hp => by simpa only [exOK] using hp
  | .element _ p, hp => by simpa only [exOK] using hp
  | .datatypeNameExcept _ p, hp => by rw [exOK] at hp ⊢; exact exOK_mono h p hp
  | .list p, hp => by simpa only [exOK] using hp
  | .ref n, hp => by rw [exOK] at hp ⊢; exact h n hp
  | .empty, hp => by simpa only [exOK] using hp
  | .text, hp => by simpa only [exOK] using hp
  | .notAllowed, hp => by simpa only [exOK] using hp
  | .datatypeValue _, hp => by simpa only [exOK] using hp
  | .datatypeName _, hp => by simpa only [exOK] using hp
theorem exOKAll_mono (h : ∀ n, o n = true → o' n = true) : ∀ ps : List (Pattern D V), exOKAll o ps = true → exOKAll o' ps = true
  | [], hp => by simpa only [exOKAll] using hp
  | p :: ps, hp => by rw [exOKAll, Bool.and_eq_true] at hp ⊢; exact hp.imp (exOK_mono h p) (exOKAll_mono h ps)
end

mutual
theorem listFree_mono (h : ∀ n, o n = true → o' n = true) : ∀ p : Pattern D V, listFree o p = true → listFree o' p = true
  | .choice ps, hp => by rw [listFree] at hp ⊢; exact listFreeAll_mono h ps hp
  | .group ps, hp => by rw [listFree] at hp ⊢; exact listFreeAll_mono h ps hp
  | .interleave ps, hp => by rw [listFree] at hp ⊢; exact listFreeAll_mono h ps hp
  | .mixed p, hp => by rw [listFree] at hp ⊢; exact listFree_mono h p hp
  | .optional p, hp => by rw [listFree] at hp ⊢; exact listFree_mono h p hp
  | .zeroOrMore p, hp => by rw [listFree] at hp ⊢; exact listFree_mono h p hp
  | .oneOrMore p, hp => by rw [listFree] at hp ⊢; exact listFree_mono h p hp
  | .attr _ p, hp => by simpa only [listFree] using hp
  | .element _ p, hp => by simpa only [listFree] using hp
  | .datatypeNameExcept _ p, hp => by simpa only [listFree] using hp
  | .list p, hp => by simpa only [listFree] using hp
  | .ref n, hp => by rw [listFree] at hp ⊢; exact h n hp
  | .empty, hp => by simpa only [listFree] using hp
  | .text, hp => by simpa only [listFree] using hp
  | .notAllowed, hp => by simpa only [listFree] using hp
  | .datatypeValue _, hp => by simpa only [listFree] using hp
  | .datatypeName _, hp => by simpa only [listFree] using hp
theorem listFreeAll_mono (h : ∀ n, o n = true → o' n = true) : ∀ ps : List (Pattern D V), listFreeAll o ps = true → listFreeAll o' ps = true
  | [], hp => by simpa only [listFreeAll] using hp
  | p :: ps, hp => by rw [listFreeAll, Bool.and_eq_true] at hp ⊢; exact hp.imp (listFree_mono h p) (listFreeAll_mono h ps)
end

mutual
theorem attrFree_mono (h : ∀ n, o n = true → o' n = true) : ∀ p : Pattern D V, attrFree o p = true → attrFree o' p = true
  | .choice ps, hp => by rw [attrFree] at hp ⊢; exact attrFreeAll_mono h ps hp
  | .group ps, hp => by rw [attrFree] at hp ⊢; exact attrFreeAll_mono h ps hp
  | .interleave ps, hp => by rw [attrFree] at hp ⊢; exact attrFreeAll_mono h ps hp
  | .mixed p, hp => by rw [attrFree] at hp ⊢; exact attrFree_mono h p hp
  | .optional p, hp => by rw [attrFree] at hp ⊢; exact attrFree_mono h p hp
  | .zeroOrMore p, hp => by rw [attrFree] at hp ⊢; exact attrFree_mono h p hp
  | .oneOrMore p, hp => by rw [attrFree] at hp ⊢; exact attrFree_mono h p hp
  | .attr _ p, hp => by simpa only [attrFree] using hp
  | .element _ p, hp => by simpa only [attrFree] using hp
  | .datatypeNameExcept _ p, hp => by simpa only [attrFree] using hp
  | .list p, hp => by simpa only [attrFree] using hp
  | .ref n, hp => by rw [attrFree] at hp ⊢; exact h n hp
  | .empty, hp => by simpa only [attrFree] using hp
  | .text, hp => by simpa only [attrFree] using hp
  | .notAllowed, hp => by simpa only [attrFree] using hp
  | .datatypeValue _, hp => by simpa only [attrFree] using hp
  | .datatypeName _, hp => by simpa only [attrFree] using hp
theorem attrFreeAll_mono (h : ∀ n, o n = true → o' n = true) : ∀ ps : List (Pattern D V), attrFreeAll o ps = true → attrFreeAll o' ps = true
  | [], hp => by simpa only [attrFreeAll] using hp
  | p :: ps, hp => by rw [attrFreeAll, Bool.and_eq_true] at hp ⊢; exact hp.imp (attrFree_mono h p) (attrFreeAll_mono h ps)
end

mutual
theorem repeatOK_mono {f : Pattern D V → Bool} (h : ∀ n, o n = true → o' n = true) : ∀ p : Pattern D V, repeatOK f o p = true → repeatOK f o' p = true
  | .choice ps, hp => by rw [repeatOK] at hp ⊢; exact repeatOKAll_mono h ps hp
  | .group ps, hp => by simpa only [repeatOK] using hp
  | .interleave ps, hp => by simpa only [repeatOK] using hp
  | .mixed p, hp => by simpa only [repeatOK] using hp
  | .optional p, hp => by rw [repeatOK] at hp ⊢; exact repeatOK_mono h p hp
  | .zeroOrMore p, hp => by rw [repeatOK] at hp ⊢; exact repeatOK_mono h p hp
  | .oneOrMore p, hp => by rw [repeatOK] at hp ⊢; exact repeatOK_mono h p hp
  | .attr _ p, hp => by simpa only [repeatOK] using hp
  | .element _ p, hp => by simpa only [repeatOK] using hp
  | .datatypeNameExcept _ p, hp => by simpa only [repeatOK] using hp
  | .list p, hp => by simpa only [repeatOK] using hp
  | .ref n, hp => by rw [repeatOK] at hp ⊢; exact h n hp
  | .empty, hp => by simpa only [repeatOK] using hp
  | .text, hp => by simpa only [repeatOK] using hp
  | .notAllowed, hp => by simpa only [repeatOK] using hp
  | .datatypeValue _, hp => by simpa only [repeatOK] using hp
  | .datatypeName _, hp => by simpa only [repeatOK] using hp
theorem repeatOKAll_mono {f : Pattern D V → Bool} (h : ∀ n, o n = true → o' n = true) : ∀ ps : List (Pattern D V), repeatOKAll f o ps = true → repeatOKAll f o' ps = true
  | [], hp => by simpa only [repeatOKAll] using hp
  | p :: ps, hp => by rw [repeatOKAll, Bool.and_eq_true] at hp ⊢; exact hp.imp (repeatOK_mono h p) (repeatOKAll_mono h ps)
end

mutual
theorem startOK_mono (h : ∀ n, o n = true → o' n = true) : ∀ p : Pattern D V, startOK o p = true → startOK o' p = true
  | .choice ps, hp => by rw [startOK, Bool.and_eq_true] at hp ⊢; exact ⟨hp.1, startOKAll_mono h ps hp.2⟩
  | .group ps, hp => by simpa only [startOK] using hp
  | .interleave ps, hp => by simpa only [startOK] using hp
  | .mixed p, hp => by simpa only [startOK] using hp
  | .optional p, hp => by simpa only [startOK] using hp
  | .zeroOrMore p, hp => by simpa only [startOK] using hp
  | .oneOrMore p, hp => by simpa only [startOK] using hp
  | .attr _ p, hp => by simpa only [startOK] using hp
  | .element _ p, hp => by simpa only [startOK] using hp
  | .datatypeNameExcept _ p, hp => by simpa only [startOK] using hp
  | .list p, hp => by simpa only [startOK] using hp
  | .ref n, hp => by rw [startOK] at hp ⊢; exact h n hp
  | .empty, hp => by simpa only [startOK] using hp
  | .text, hp => by simpa only [startOK] using hp
  | .notAllowed, hp => by simpa only [startOK] using hp
  | .datatypeValue _, hp => by simpa only [startOK] using hp
  | .datatypeName _, hp => by simpa only [startOK] using hp
theorem startOKAll_mono (h : ∀ n, o n = true → o' n = true) : ∀ ps : List (Pattern D V), startOKAll o ps = true → startOKAll o' ps = true
  | [], hp => by simpa only [startOKAll] using hp
  | p :: ps, hp => by rw [startOKAll, Bool.and_eq_true] at hp ⊢; exact hp.imp (startOK_mono h p) (startOKAll_mono h ps)
end

mutual
theorem mayEmpty_mono (h : ∀ n, o n = true → o' n = true) : ∀ p : Pattern D V, mayEmpty o p = true → mayEmpty o' p = true
  | .choice ps, hp => by rw [mayEmpty] at hp ⊢; exact mayEmptyAny_mono h ps hp
  | .group ps, hp => by rw [mayEmpty] at hp ⊢; exact mayEmptyAll_mono h ps hp
  | .interleave ps, hp => by rw [mayEmpty] at hp ⊢; exact mayEmptyAll_mono h ps hp
  | .mixed p, hp => by rw [mayEmpty] at hp ⊢; exact mayEmpty_mono h p hp
  | .optional p, hp => by simpa only [mayEmpty] using hp
  | .zeroOrMore p, hp => by simpa only [mayEmpty] using hp
  | .oneOrMore p, hp => by rw [mayEmpty] at hp ⊢; exact mayEmpty_mono h p hp
  | .attr _ p, hp => by simpa only [mayEmpty] using hp
  | .element _ p, hp => by simpa only [mayEmpty] using hp
  | .datatypeNameExcept _ p, hp => by simpa only [mayEmpty] using hp
  | .list p, hp => by simpa only [mayEmpty] using hp
  | .ref n, hp => by rw [mayEmpty] at hp ⊢; exact h n hp
  | .empty, hp => by simpa only [mayEmpty] using hp
  | .text, hp => by simpa only [mayEmpty] using hp
  | .notAllowed, hp => by simpa only [mayEmpty] using hp
  | .datatypeValue _, hp => by simpa only [mayEmpty] using hp
  | .datatypeName _, hp => by simpa only [mayEmpty] using hp
theorem mayEmptyAny_mono (h : ∀ n, o n = true → o' n = true) : ∀ ps : List (Pattern D V), mayEmptyAny o ps = true → mayEmptyAny o' ps = true
  | [], hp => by simpa only [mayEmptyAny] using hp
  | p :: ps, hp => by rw [mayEmptyAny, Bool.or_eq_true] at hp ⊢; exact hp.imp (mayEmpty_mono h p) (mayEmptyAny_mono h ps)
theorem mayEmptyAll_mono (h : ∀ n, o n = true → o' n = true) : ∀ ps : List (Pattern D V), mayEmptyAll o ps = true → mayEmptyAll o' ps = true
  | [], hp => by simpa only [mayEmptyAll] using hp
  | p :: ps, hp => by rw [mayEmptyAll, Bool.and_eq_true] at hp ⊢; exact hp.imp (mayEmpty_mono h p) (mayEmptyAll_mono h ps)
end

mutual
theorem onlyText_mono (h : ∀ n, o n = true → o' n = true) : ∀ p : Pattern D V, onlyText o p = true → onlyText o' p = true
  | .choice ps, hp => by rw [onlyText] at hp ⊢; exact onlyTextAll_mono h ps hp
  | .group ps, hp => by rw [onlyText] at hp ⊢; exact onlyTextAll_mono h ps hp
  | .interleave ps, hp => by rw [onlyText] at hp ⊢; exact onlyTextAll_mono h ps hp
  | .mixed p, hp => by rw [onlyText] at hp ⊢; exact onlyText_mono h p hp
  | .optional p, hp => by rw [onlyText] at hp ⊢; exact onlyText_mono h p hp
  | .zeroOrMore p, hp => by rw [onlyText] at hp ⊢; exact onlyText_mono h p hp
  | .oneOrMore p, hp => by rw [onlyText] at hp ⊢; exact onlyText_mono h p hp
  | .attr _ p, hp => by simpa only [onlyText] using hp
  | .element _ p, hp => by simpa only [onlyText] using hp
  | .datatypeNameExcept _ p, hp => by simpa only [onlyText] using hp
  | .list p, hp => by simpa only [onlyText] using hp
  | .ref n, hp => by rw [onlyText] at hp ⊢; exact h n hp
  | .empty, hp => by simpa only [onlyText] using hp
  | .text, hp => by simpa only [onlyText] using hp
  | .notAllowed, hp => by simpa only [onlyText] using hp
  | .datatypeValue _, hp => by simpa only [onlyText] using hp
  | .datatypeName _, hp => by simpa only [onlyText] using hp
theorem onlyTextAll_mono (h : ∀ n, o n = true → o' n = true) : ∀ ps : List (Pattern D V), onlyTextAll o ps = true → onlyTextAll o' ps = true
  | [], hp => by simpa only [onlyTextAll] using hp
  | p :: ps, hp => by rw [onlyTextAll, Bool.and_eq_true] at hp ⊢; exact hp.imp (onlyText_mono h p) (onlyTextAll_mono h ps)
end
end

section
variable {lf rp ex : Pattern D V → Bool} {fr : Nat → Bool} {o o' : Bool → Bool → Nat → Bool} (h : ∀ s l n, o s l n = true → o' s l n = true)
include h
mutual
theorem wf_mono : ∀ (p : Pattern D V) (s l : Bool), wf lf rp ex fr o s l p = true → wf lf rp ex fr o' s l p = true
  | .choice ps, s, l, hp => by rw [wf, Bool.and_eq_true] at hp ⊢; exact ⟨hp.1, wfAll_mono ps s l hp.2⟩
  | .group ps, s, l, hp => by rw [wf, Bool.and_eq_true] at hp ⊢; exact ⟨hp.1, wfAll_mono ps s l hp.2⟩
  | .interleave ps, s, l, hp => by
    rw [wf, Bool.and_eq_true, Bool.and_eq_true] at hp ⊢; exact ⟨⟨hp.1.1, wfAll_mono ps s l hp.1.2⟩, hp.2⟩
  | .mixed p, s, l, hp => by rw [wf, Bool.and_eq_true] at hp ⊢; exact ⟨wf_mono p s l hp.1, hp.2⟩
  | .optional p, s, l, hp => by rw [wf] at hp ⊢; exact wf_mono p s l hp
  | .zeroOrMore p, s, l, hp => by rw [wf, Bool.and_eq_true] at hp ⊢; exact ⟨wf_mono p true l hp.1, hp.2⟩
  | .oneOrMore p, s, l, hp => by rw [wf, Bool.and_eq_true] at hp ⊢; exact ⟨wf_mono p true l hp.1, hp.2⟩
  | .attr _ p, s, l, hp => by rw [wf] at hp ⊢; exact wf_mono p true true hp
  | .element _ p, s, l, hp => by simp only [wf]
  | .datatypeNameExcept _ p, s, l, hp => by rw [wf] at hp ⊢; exact hp
  | .list p, s, l, hp => by rw [wf, Bool.and_eq_true] at hp ⊢; exact ⟨hp.1, wf_mono p true false hp.2⟩
  | .ref n, s, l, hp => by rw [wf, Bool.and_eq_true] at hp ⊢; exact ⟨h s l n hp.1, hp.2⟩
  | .empty, s, l, hp => by simp only [wf]
  | .text, s, l, hp => by simp only [wf]
  | .notAllowed, s, l, hp => by simp only [wf]
  | .datatypeValue _, s, l, hp => by simp only [wf]
  | .datatypeName _, s, l, hp => by simp only [wf]
theorem wfAll_mono : ∀ (ps : List (Pattern D V)) (s l : Bool), wfAll lf rp ex fr o s l ps = true → wfAll lf rp ex fr o' s l ps = true
  | [], s, l, hp => by simp only [wfAll]
  | p :: ps, s, l, hp => by rw [wfAll, Bool.and_eq_true] at hp ⊢; exact ⟨wf_mono p s l hp.1, wfAll_mono ps s l hp.2⟩
end
end

/-- growing answers to finitely many questions, each round determined by the last, stop changing -/
theorem settles {α : Type} (xs : List α) (f : Nat → α → Bool) (hm : ∀ k x, f k x = true → f (k + 1) x = true)
    (hs : ∀ j k, (∀ x ∈ xs, f j x = f k x) → f (j + 1) = f (k + 1)) : ∀ k, xs.length < k → f k = f (xs.length + 1) := by
  have step : ∀ k, (∃ j, j ≤ k ∧ f (j + 1) = f (j + 2)) ∨ k < (xs.filter (f (k + 1))).length := by
    have one : ∀ k, f (k + 1) = f (k + 2) ∨ (xs.filter (f k)).length < (xs.filter (f (k + 1))).length := by
      intro k
      by_cases h : ∀ x ∈ xs, f k x = f (k + 1) x
      · exact .inl (hs _ _ h)
      · refine .inr (filter_lt (fun x _ => hm k x) ?_)
        refine Classical.byContradiction fun hx => h fun x hx' => ?_
        cases h1 : f k x with
        | true => rw [hm k x h1]
        | false =>
          cases h2 : f (k + 1) x with
          | false => rfl
          | true => exact absurd ⟨x, hx', h2, h1⟩ hx
    intro k
    induction k with
    | zero =>
      rcases one 0 with h | h
      · exact .inl ⟨0, Nat.le_refl _, h⟩
      · exact .inr (Nat.lt_of_le_of_lt (Nat.zero_le _) h)
    | succ k ih =>
      rcases ih with ⟨j, hj, h⟩ | h
      · exact .inl ⟨j, by omega, h⟩
      · rcases one (k + 1) with h' | h'
        · exact .inl ⟨k + 1, Nat.le_refl _, h'⟩
        · exact .inr (by omega)
  rcases step xs.length with ⟨j, hj, h⟩ | h
  · have all : ∀ i, f (j + 1 + i) = f (j + 1) := by
      intro i
      induction i with
      | zero => rfl
      | succ i ih =>
        have := hs (j + 1 + i) (j + 1) fun x _ => by rw [ih]
        exact this.trans h.symm
    intro k hk
    have e1 := all (k - (j + 1))
    have e2 := all (xs.length - j)
    rw [show j + 1 + (k - (j + 1)) = k by omega] at e1
    rw [show j + 1 + (xs.length - j) = xs.length + 1 by omega] at e2
    rw [e1, e2]
  · exact absurd (List.length_filter_le (f (xs.length + 1)) xs) (by omega)

/-- the same for tests that follow references -/
theorem deep_settles {test : (Nat → Bool) → Pattern D V → Bool}
    (hm : ∀ o o', (∀ n, o n = true → o' n = true) → ∀ p, test o p = true → test o' p = true) :
    ∀ k, env.length < k → deep env test k = deep env test (env.length + 1) := by
  have out : ∀ k n, env.length ≤ n → deep env test k n = false := by
    intro k n hn
    cases k with
    | zero => rfl
    | succ k => rw [deep, List.getElem?_eq_none hn]
  have mono : ∀ k n, deep env test k n = true → deep env test (k + 1) n = true := by
    intro k
    induction k with
    | zero => intro n h; cases h
    | succ k ih =>
      intro n h
      rw [deep] at h ⊢
      cases he : env[n]? with
      | none => rw [he] at h; cases h
      | some p => rw [he] at h; exact hm _ _ ih p h
  have := settles (List.range env.length) (deep env test) mono (fun j k h => by
    have e : deep env test j = deep env test k := funext fun n => by
      by_cases hn : n < env.length
      · exact h n (List.mem_range.2 hn)
      · rw [out j n (by omega), out k n (by omega)]
    funext n
    rw [deep, deep, e])
  rw [List.length_range] at this
  exact this

theorem deep_settles' {test : (Nat → Bool) → Pattern D V → Bool}
    (hm : ∀ o o', (∀ n, o n = true → o' n = true) → ∀ p, test o p = true → test o' p = true) {k : Nat} (hk : depth env ≤ k) :
    deep env test k = deep env test (depth env) := by
  rw [deep_settles hm k (by unfold depth at hk; omega), deep_settles hm (depth env) (by unfold depth; omega)]

theorem refEmpty_settles : ∀ k, env.length + 1 < k → refEmpty env k = refEmpty env (env.length + 2) := by
  have out : ∀ k n, env.length ≤ n → refEmpty env (k + 1) n = false := by
    intro k n hn
    rw [refEmpty, List.getElem?_eq_none hn]
  have mono : ∀ k n, refEmpty env (k + 1) n = true → refEmpty env k n = true := by
    intro k
    induction k with
    | zero => intro n h; rfl
    | succ k ih =>
      intro n h
      rw [refEmpty] at h ⊢
      cases he : env[n]? with
      | none => rw [he] at h; cases h
      | some p => rw [he] at h; exact mayEmpty_mono ih p h
  have := settles (List.range env.length) (fun k n => ! refEmpty env (k + 1) n) (fun k n h => by
      rw [Bool.not_eq_true'] at h ⊢
      cases h2 : refEmpty env (k + 1 + 1) n with
      | false => rfl
      | true => rw [mono _ _ h2] at h; cases h) (fun j k h => by
    have e : refEmpty env (j + 1) = refEmpty env (k + 1) := funext fun n => by
      by_cases hn : n < env.length
      · exact Bool.not_inj (h n (List.mem_range.2 hn))
      · rw [out j n (by omega), out k n (by omega)]
    funext n
    show (! refEmpty env (j + 1 + 1) n) = ! refEmpty env (k + 1 + 1) n
    rw [refEmpty, refEmpty, e])
  rw [List.length_range] at this
  intro k hk
  obtain ⟨k, rfl⟩ : ∃ j, k = j + 1 := ⟨k - 1, by omega⟩
  funext n
  exact Bool.not_inj (congrFun (this k (by omega)) n)

theorem missing_le (ns : List Nat) : missing env ns ≤ (refsL env).length := List.length_filter_le _ _

/-- far enough, the answer is right -/
theorem notUses_at {k : Nat} (hk : (refsL env).length ≤ k) {q : Pattern D V} {n : Nat} : notUses env k q n = true ↔ ¬ Uses env q n := by
  refine ⟨notUses_sound, fun h => ?_⟩
  have hk := Nat.le_trans (missing_le (env := env) q.refs) hk
  simp only [notUses, Bool.and_eq_true, List.all_eq_true, Bool.not_eq_true', List.contains_iff_mem]
  refine ⟨⟨fun m hm => sub_reach k hm, fun m hm => ?_⟩, ?_⟩
  · cases he : env[m]? with
    | none => rfl
    | some p => exact List.all_eq_true.2 fun x hx => by simpa using reach_closed k hk m hm p he x hx
  · rw [List.contains_eq_mem, decide_eq_false_iff_not]
    exact fun hn => h (reach_uses k (fun m hm => .here hm) n hn)

theorem notUses_settles {j k : Nat} (hj : (refsL env).length ≤ j) (hk : (refsL env).length ≤ k) {q : Pattern D V} {n : Nat} :
    notUses env j q n = notUses env k q n := by
  rw [Bool.eq_iff_iff, notUses_at hj, notUses_at hk]

theorem step_closed {ns : List Nat} (h : Closed env ns) : step env ns = ns := by
  have e : ∀ l : List Nat, l = [] → ns ++ l.eraseDups = ns := by rintro _ rfl; exact List.append_nil _
  refine e _ (List.flatMap_eq_nil_iff.2 fun m hm => ?_)
  cases he : env[m]? with
  | none => rfl
  | some p =>
    refine List.filter_eq_nil_iff.2 fun n hn => ?_
    simpa using h m hm p he n hn

theorem reach_of_closed : ∀ (k : Nat) {ns : List Nat}, Closed env ns → reach env k ns = ns
  | 0, _, _ => rfl
  | k + 1, ns, h => by rw [reach_succ, step_closed h, reach_of_closed k h]

theorem reach_add : ∀ (a b : Nat) (ns : List Nat), reach env (a + b) ns = reach env b (reach env a ns)
  | 0, b, ns => by rw [Nat.zero_add]; rfl
  | a + 1, b, ns => by rw [show a + 1 + b = a + b + 1 by omega, reach_succ, reach_succ, reach_add a b]

section
variable {k : Nat} (hk : depth env ≤ k)
include hk

theorem reach_settles (ns : List Nat) : reach env k ns = reach env (depth env) ns := by
  have := reach_add (env := env) (depth env) (k - depth env) ns
  rw [show depth env + (k - depth env) = k by omega] at this
  rw [this, reach_of_closed]
  exact reach_closed _ (Nat.le_trans (missing_le ns) (by unfold depth; omega))

theorem listFreeIn_settles : listFreeIn env k = listFreeIn env (depth env) := by
  funext p
  rw [listFreeIn, listFreeIn, deep_settles' (fun _ _ => listFree_mono) hk]
theorem attrFreeIn_settles : attrFreeIn env k = attrFreeIn env (depth env) := by
  funext p
  rw [attrFreeIn, attrFreeIn, deep_settles' (fun _ _ => attrFree_mono) hk]
theorem exOKIn_settles : exOKIn env k = exOKIn env (depth env) := by
  funext p
  rw [exOKIn, exOKIn, deep_settles' (fun _ _ => exOK_mono) hk]
theorem repeatOKIn_settles : repeatOKIn env k = repeatOKIn env (depth env) := by
  funext p
  rw [repeatOKIn, repeatOKIn, attrFreeIn_settles hk]
  rw [deep_settles' (test := repeatOK (attrFreeIn env (depth env))) (fun _ _ => repeatOK_mono) hk]
theorem notRecursive_settles : notRecursive env k = notRecursive env (depth env) := by
  unfold depth at *
  funext n
  rw [notRecursive, notRecursive]
  cases env[n]? with
  | none => rfl
  | some q => exact notUses_settles (by omega) (by omega)
theorem fresh_settles : fresh env k = fresh env (depth env) := by
  funext n
  rw [fresh, fresh, notRecursive_settles hk]
  rw [refEmpty_settles k (by unfold depth at hk; omega), refEmpty_settles (depth env) (by unfold depth; omega)]
theorem noAlias_settles (start : Pattern D V) : noAlias env k start = noAlias env (depth env) start := by
  rw [noAlias, noAlias, reach_settles hk]
  unfold depth at *
  congr 2
  funext n
  cases env[n]? with
  | none => rfl
  | some q =>
    show (q.aliases.all _) = q.aliases.all _
    congr 1
    funext m
    cases env[m]? with
    | none => rfl
    | some b => exact notUses_settles (by omega) (by omega)

theorem refWf_tests : ∀ j, refWf env k j = refWf env (depth env) j
  | 0 => rfl
  | j + 1 => by
    funext s l n
    rw [refWf, refWf, listFreeIn_settles hk, repeatOKIn_settles hk, exOKIn_settles hk, fresh_settles hk, refWf_tests j]
end

/-- the questions about definitions -/
def keys (env : Env D V) : List (Bool × Bool × Nat) :=
  (List.range env.length).flatMap fun n => [(false, false, n), (false, true, n), (true, false, n), (true, true, n)]

theorem mem_keys {s l : Bool} {n : Nat} (h : n < env.length) : (s, l, n) ∈ keys env := by
  rw [keys, List.mem_flatMap]
  exact ⟨n, List.mem_range.2 h, by cases s <;> cases l <;> simp⟩

theorem keys_length : (keys env).length = 4 * env.length := by
  have : ∀ xs : List Nat, (xs.flatMap fun n => [(false, false, n), (false, true, n), (true, false, n), (true, true, n)]).length = 4 * xs.length := by
    intro xs
    induction xs with
    | nil => rfl
    | cons x xs ih => rw [List.flatMap_cons, List.length_append, ih, List.length_cons]; simp only [List.length_cons, List.length_nil]; omega
  rw [keys, this, List.length_range]

theorem refWf_settles {k : Nat} : ∀ j, 4 * env.length < j → refWf env k j = refWf env k (4 * env.length + 1) := by
  have out : ∀ j s l n, env.length ≤ n → refWf env k j s l n = false := by
    intro j s l n hn
    cases j with
    | zero => rfl
    | succ j => rw [refWf, List.getElem?_eq_none hn]
  have mono : ∀ j s l n, refWf env k j s l n = true → refWf env k (j + 1) s l n = true := by
    intro j
    induction j with
    | zero => intro s l n h; cases h
    | succ j ih =>
      intro s l n h
      rw [refWf] at h ⊢
      cases he : env[n]? with
      | none => rw [he] at h; cases h
      | some p => rw [he] at h; exact wf_mono ih p s l h
  have := settles (keys env) (fun j (x : Bool × Bool × Nat) => refWf env k j x.1 x.2.1 x.2.2) (fun j x h => mono j _ _ _ h) (fun i j h => by
    have e : refWf env k i = refWf env k j := funext fun s => funext fun l => funext fun n => by
      by_cases hn : n < env.length
      · exact h (s, l, n) (mem_keys hn)
      · rw [out i s l n (by omega), out j s l n (by omega)]
    funext x
    show refWf env k (i + 1) x.1 x.2.1 x.2.2 = refWf env k (j + 1) x.1 x.2.1 x.2.2
    rw [refWf, refWf, e])
  rw [keys_length] at this
  intro j hj
  funext s l n
  exact congrFun (this j hj) (s, l, n)

theorem wfIn_settles {k : Nat} (hk : depth env ≤ k) (s l : Bool) : wfIn env k s l = wfIn env (depth env) s l := by
  unfold wfIn
  rw [listFreeIn_settles hk, repeatOKIn_settles hk, exOKIn_settles hk, fresh_settles hk, refWf_tests hk,
    refWf_settles (k := depth env) k (by unfold depth at hk; omega), refWf_settles (k := depth env) (depth env) (by unfold depth; omega)]

theorem schema_settles {k : Nat} (hk : depth env ≤ k) (start : Pattern D V) : schema env k start = schema env (depth env) start := by
  rw [schema, schema, bodies, bodies, wfIn_settles hk, reach_settles hk, deep_settles' (fun _ _ => startOK_mono) hk]

theorem textSchema_settles {k : Nat} (hk : depth env ≤ k) (start : Pattern D V) : textSchema env k start = textSchema env (depth env) start := by
  rw [textSchema, textSchema, bodies, bodies, reach_settles hk, deep_settles' (fun _ _ => onlyText_mono) hk]

/-- the test decides the conditions -/
theorem schema_decides [DecidableEq D] [DecidableEq V] {start : Pattern D V} :
    schema env (depth env) start = true ↔ SchemaOK L env start true ∧ StartOK env start := by
  refine ⟨schema_sound, fun h => ?_⟩
  obtain ⟨N, hN⟩ := schema_complete h.1 h.2
  rw [← schema_settles (k := depth env + N) (by omega)]
  exact hN _ (by omega)

theorem noAlias_decides {start : Pattern D V} : noAlias env (depth env) start = true ↔ NoAlias env start := by
  refine ⟨noAlias_sound, fun h => ?_⟩
  obtain ⟨N, hN⟩ := noAlias_complete h
  rw [← noAlias_settles (k := depth env + N) (by omega)]
  exact hN _ (by omega)

end Verif.Check
