import Verif.Proof.Sem
/-
Hoare-style triples for the validation phase: stores only grow, and facts established about a
result hold in every later store.
-/
set_option linter.unusedSectionVars false
namespace Verif
variable {D V : Type}

/-- lookup in a store -/
def Store.lk (st : Store D V) : Lk D V := fun i => st.pats[i]?

/-- every binding of `f` is a binding of `g` -/
def Le (f g : Lk D V) : Prop := ∀ i p, f i = some p → g i = some p

theorem Le.refl (f : Lk D V) : Le f f := fun _ _ h => h
theorem Le.trans {f g h : Lk D V} (h1 : Le f g) (h2 : Le g h) : Le f h :=
  fun i p hp => h2 i p (h1 i p hp)

/-- memo entries of real patterns are correct -/
def MemoOK [DecidableEq D] [DecidableEq V] (st : Store D V) : Prop :=
  ∀ p i, st.memo.lookup p = some i → p.isPlaceholder = false → st.pats[i]? = some p

section
variable [DecidableEq D] [DecidableEq V]

/-- `x` only grows the store, and its result satisfies `R` in every later store. -/
def Ok {α : Type} (x : SM D V α) (R : Lk D V → α → Prop) : Prop :=
  ∀ st a st', MemoOK st → x st = .ok (a, st') →
    MemoOK st' ∧ Le st.lk st'.lk ∧ ∀ lk, Le st'.lk lk → R lk a

variable {α β : Type}

theorem Ok.bind {x : SM D V α} {f : α → SM D V β} {R Q} (hx : Ok x R)
    (hf : ∀ a, Ok (f a) (fun lk b => R lk a → Q lk b)) : Ok (x >>= f) Q := by
  intro st b st'' hm h
  obtain ⟨a, st', h1, h2⟩ := ST.bind_ok.mp h
  obtain ⟨hm1, hl1, hr1⟩ := hx _ _ _ hm h1
  obtain ⟨hm2, hl2, hr2⟩ := hf a _ _ _ hm1 h2
  exact ⟨hm2, hl1.trans hl2, fun lk hlk => hr2 lk hlk (hr1 lk (hl2.trans hlk))⟩

theorem Ok.mono {x : SM D V α} {R Q : Lk D V → α → Prop} (hx : Ok x R)
    (h : ∀ lk a, R lk a → Q lk a) : Ok x Q := fun st a st' hm hr =>
  let ⟨h1, h2, h3⟩ := hx st a st' hm hr
  ⟨h1, h2, fun lk hl => h lk a (h3 lk hl)⟩

theorem Ok.pure {a : α} {R : Lk D V → α → Prop} (h : ∀ lk, R lk a) : Ok (Pure.pure a) R := by
  intro st b st' hm hr
  simp at hr
  obtain ⟨rfl, rfl⟩ := hr
  exact ⟨hm, Le.refl _, fun lk _ => h lk⟩

theorem Ok.fault {e : Fault} {R : Lk D V → α → Prop} : Ok (ST.fault e) R := by
  intro st b st' hm hr
  simp at hr

theorem Ok.ite {c : Prop} [Decidable c] {x y : SM D V α} {R : Lk D V → α → Prop}
    (hx : c → Ok x R) (hy : ¬ c → Ok y R) : Ok (if c then x else y) R := by
  split <;> simp_all

theorem ok_patt (i : Nat) : Ok (patt i : SM D V _) (fun lk p => lk i = some p) := by
  intro st p st' hm hr
  unfold patt at hr
  split at hr
  · rename_i q hq
    simp at hr
    obtain ⟨rfl, rfl⟩ := hr
    exact ⟨hm, Le.refl _, fun lk hlk => hlk _ _ hq⟩
  · cases hr

theorem le_push (st : Store D V) (p : Pat D V) :
    ∀ (i : Nat) q, st.pats[i]? = some q → (st.pats ++ [p])[i]? = some q := by
  intro i q h
  have hi : i < st.pats.length := by
    rw [List.getElem?_eq_some_iff] at h; exact h.1
  rw [List.getElem?_append_left hi]; exact h

theorem ok_push (p : Pat D V) (hp : p.isPlaceholder = false) :
    Ok (push p) (fun lk i => lk i = some p) := by
  intro st i st' hm hr
  unfold push at hr
  split at hr
  · cases hr
  · split at hr
    · rename_i id hid
      simp at hr
      obtain ⟨rfl, rfl⟩ := hr
      exact ⟨hm, Le.refl _, fun lk hlk => hlk _ _ (hm _ _ hid hp)⟩
    · rename_i hnone
      simp at hr
      obtain ⟨rfl, rfl⟩ := hr
      refine ⟨?_, ?_, ?_⟩
      · intro q j hq hph
        simp only [List.lookup_cons] at hq
        split at hq
        · rename_i heq
          have : q = p := by simpa using heq
          subst this
          cases hq
          simp
        · exact le_push st p j q (hm q j hq hph)
      · intro j q hq
        exact le_push st p j q hq
      · intro lk hlk
        apply hlk
        simp [Store.lk]

theorem ok_mkEmpty : Ok (mkEmpty : SM D V _) (fun lk i => lk i = some .empty) := ok_push _ rfl
theorem ok_mkText : Ok (mkText : SM D V _) (fun lk i => lk i = some .text) := ok_push _ rfl
theorem ok_notAllowed : Ok (notAllowed : SM D V _) (fun lk i => lk i = some .notAllowed) :=
  ok_push _ rfl

end

/-- `i` is what `choice l r` returns -/
def ChoiceOf (lk : Lk D V) (l r i : Nat) : Prop :=
  ∃ p q, lk l = some p ∧ lk r = some q ∧
    ((p = .notAllowed ∧ i = r) ∨ (q = .notAllowed ∧ i = l) ∨ (l = r ∧ i = l) ∨
      (p ≠ .notAllowed ∧ lk i = some (.choice l r (p.nullable || q.nullable))))

/-- `i` is what `interleave l r` returns -/
def InterOf (lk : Lk D V) (l r i : Nat) : Prop :=
  ∃ p q, lk l = some p ∧ lk r = some q ∧
    ((p = .notAllowed ∧ lk i = some .notAllowed) ∨ (q = .notAllowed ∧ lk i = some .notAllowed) ∨
      (p = .empty ∧ i = r) ∨ (q = .empty ∧ i = l) ∨
      (p ≠ .notAllowed ∧ q ≠ .notAllowed ∧ lk i = some (.interleave l r (p.nullable && q.nullable))))

/-- `i` is what `group l r` returns -/
def GroupOf (lk : Lk D V) (l r i : Nat) : Prop :=
  ∃ p q, lk l = some p ∧ lk r = some q ∧
    ((p = .notAllowed ∧ lk i = some .notAllowed) ∨ (q = .notAllowed ∧ lk i = some .notAllowed) ∨
      (p = .empty ∧ i = r) ∨ (q = .empty ∧ i = l) ∨
      (p ≠ .notAllowed ∧ q ≠ .notAllowed ∧ lk i = some (.group l r (p.nullable && q.nullable))))

/-- `i` is what `after l r` returns -/
def AfterOf (lk : Lk D V) (l r i : Nat) : Prop :=
  ∃ p, lk l = some p ∧
    ((p = .notAllowed ∧ lk i = some .notAllowed) ∨ (p ≠ .notAllowed ∧ lk i = some (.after l r)))

/-- `i` is what `one_or_more l` returns -/
def OneOf (lk : Lk D V) (l i : Nat) : Prop :=
  ∃ p, lk l = some p ∧ lk i = some (.oneOrMore l p.nullable)

section
variable [DecidableEq D] [DecidableEq V]

theorem ok_choice (l r : Nat) : Ok (choice l r : SM D V _) (fun lk i => ChoiceOf lk l r i) := by
  unfold choice
  refine Ok.bind (ok_patt l) fun p => Ok.bind (ok_patt r) fun q => ?_
  split
  · exact Ok.pure fun lk hr hl => ⟨_, _, hl, hr, Or.inl ⟨rfl, rfl⟩⟩
  · exact Ok.pure fun lk hr hl => ⟨_, _, hl, hr, Or.inr (Or.inl ⟨rfl, rfl⟩)⟩
  · rename_i hna _
    refine Ok.ite (fun h => ?_) (fun h => ?_)
    · exact Ok.pure fun lk hr hl => ⟨_, _, hl, hr, Or.inr (Or.inr (Or.inl ⟨h, rfl⟩))⟩
    · exact (ok_push _ rfl).mono fun lk i hi hr hl =>
        ⟨_, _, hl, hr, Or.inr (Or.inr (Or.inr ⟨hna, hi⟩))⟩

theorem ok_interleave (l r : Nat) :
    Ok (interleave l r : SM D V _) (fun lk i => InterOf lk l r i) := by
  unfold interleave
  refine Ok.bind (ok_patt l) fun p => Ok.bind (ok_patt r) fun q => ?_
  split
  · exact ok_notAllowed.mono fun lk i hi hr hl => ⟨_, _, hl, hr, Or.inl ⟨rfl, hi⟩⟩
  · exact ok_notAllowed.mono fun lk i hi hr hl => ⟨_, _, hl, hr, Or.inr (Or.inl ⟨rfl, hi⟩)⟩
  · exact Ok.pure fun lk hr hl => ⟨_, _, hl, hr, Or.inr (Or.inr (Or.inl ⟨rfl, rfl⟩))⟩
  · exact Ok.pure fun lk hr hl => ⟨_, _, hl, hr, Or.inr (Or.inr (Or.inr (Or.inl ⟨rfl, rfl⟩)))⟩
  · exact (ok_push _ rfl).mono fun lk i hi hr hl =>
      ⟨_, _, hl, hr, Or.inr (Or.inr (Or.inr (Or.inr ⟨by rintro rfl; simp_all, by rintro rfl; simp_all, hi⟩)))⟩

theorem ok_group (l r : Nat) : Ok (group l r : SM D V _) (fun lk i => GroupOf lk l r i) := by
  unfold group
  refine Ok.bind (ok_patt l) fun p => Ok.bind (ok_patt r) fun q => ?_
  split
  · exact ok_notAllowed.mono fun lk i hi hr hl => ⟨_, _, hl, hr, Or.inl ⟨rfl, hi⟩⟩
  · exact ok_notAllowed.mono fun lk i hi hr hl => ⟨_, _, hl, hr, Or.inr (Or.inl ⟨rfl, hi⟩)⟩
  · exact Ok.pure fun lk hr hl => ⟨_, _, hl, hr, Or.inr (Or.inr (Or.inl ⟨rfl, rfl⟩))⟩
  · exact Ok.pure fun lk hr hl => ⟨_, _, hl, hr, Or.inr (Or.inr (Or.inr (Or.inl ⟨rfl, rfl⟩)))⟩
  · exact (ok_push _ rfl).mono fun lk i hi hr hl =>
      ⟨_, _, hl, hr, Or.inr (Or.inr (Or.inr (Or.inr ⟨by rintro rfl; simp_all, by rintro rfl; simp_all, hi⟩)))⟩

theorem ok_after (l r : Nat) : Ok (after l r : SM D V _) (fun lk i => AfterOf lk l r i) := by
  unfold after
  refine Ok.bind (ok_patt l) fun p => Ok.bind (ok_patt l) fun q => ?_
  split
  · exact ok_notAllowed.mono fun lk i hi hr hl => ⟨_, hr, Or.inl ⟨rfl, hi⟩⟩
  · exact ok_notAllowed.mono fun lk i hi hr hl => ⟨_, hl, Or.inl ⟨rfl, hi⟩⟩
  · rename_i h _
    exact (ok_push _ rfl).mono fun lk i hi hr hl => ⟨_, hl, Or.inr ⟨fun e => h e, hi⟩⟩

theorem ok_oneOrMore (l : Nat) : Ok (oneOrMore l : SM D V _) (fun lk i => OneOf lk l i) := by
  unfold oneOrMore
  refine Ok.bind (ok_patt l) fun p => ?_
  exact (ok_push _ rfl).mono fun lk i hi hl => ⟨_, hl, hi⟩

end
end Verif
