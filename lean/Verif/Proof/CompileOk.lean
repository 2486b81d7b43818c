import Verif.Proof.Strict
/-
What `compile` leaves in the store.
-/
set_option linter.unusedSectionVars false
namespace Verif
variable {D V : Type} [DecidableEq D] [DecidableEq V]

/-- the world of a store -/
def Store.world (st : Store D V) : World D V := ⟨st.lk, fun n => st.refs.lookup n⟩

/-- later in a compilation: placeholders may get resolved, nothing else changes -/
structure LeC (w w' : World D V) : Prop where
  keep : ∀ i P, w.lk i = some P → P.isPlaceholder = false → w'.lk i = some P
  ph : ∀ i n, w.lk i = some (.placeholder n) →
    ∃ P, w'.lk i = some P ∧ ∀ m, P = .placeholder m → m = n
  refs : ∀ n i, w.refs n = some i → w'.refs n = some i

theorem LeC.refl (w : World D V) : LeC w w :=
  ⟨fun _ _ h _ => h, fun _ _ h => ⟨_, h, fun _ h => by cases h; rfl⟩, fun _ _ h => h⟩

theorem not_ph_cases (P : Pat D V) : P.isPlaceholder = false ∨ ∃ n, P = .placeholder n := by
  cases P <;> simp [Pat.isPlaceholder]

theorem LeC.trans {w1 w2 w3 : World D V} (h1 : LeC w1 w2) (h2 : LeC w2 w3) : LeC w1 w3 := by
  refine ⟨fun i P h hp => h2.keep i P (h1.keep i P h hp) hp, fun i n h => ?_,
    fun n i h => h2.refs n i (h1.refs n i h)⟩
  obtain ⟨P, hP, hm⟩ := h1.ph i n h
  rcases not_ph_cases P with hp | ⟨m, rfl⟩
  · exact ⟨P, h2.keep i P hP hp, fun m hm' => by subst hm'; simp [Pat.isPlaceholder] at hp⟩
  · obtain ⟨P', hP', hm'⟩ := h2.ph i m hP
    exact ⟨P', hP', fun k hk => by rw [hm' k hk, hm m rfl]⟩

theorem LeC.defd {w w' : World D V} (h : LeC w w') {i} (hi : ∃ P, w.lk i = some P) :
    ∃ P, w'.lk i = some P := by
  obtain ⟨P, hP⟩ := hi
  rcases not_ph_cases P with hp | ⟨m, rfl⟩
  · exact ⟨P, h.keep i P hP hp⟩
  · obtain ⟨P', hP', _⟩ := h.ph i m hP
    exact ⟨P', hP'⟩

theorem LeC.back {w w' : World D V} (h : LeC w w') {i n} (hi : ∃ P, w.lk i = some P)
    (hp : w'.lk i = some (.placeholder n)) : w.lk i = some (.placeholder n) := by
  obtain ⟨P, hP⟩ := hi
  rcases not_ph_cases P with hq | ⟨m, rfl⟩
  · rw [h.keep i P hP hq] at hp; cases hp; simp [Pat.isPlaceholder] at hq
  · obtain ⟨P', hP', hm⟩ := h.ph i m hP
    rw [hp] at hP'; cases hP'
    rw [hm n rfl]; exact hP

section
variable (env : Env D V)

/-- state of the store in the middle of a compilation; `stk` are the definitions being compiled -/
structure Inv (stk : List Nat) (st : Store D V) : Prop where
  memo : MemoOK st
  memoPh : ∀ n i, st.memo.lookup (.placeholder n) = some i → st.refs.lookup n ≠ none
  slot : ∀ i n, st.lk i = some (.placeholder n) → n ∈ stk ∧ st.refs.lookup n = some i
  ref : ∀ n i, st.refs.lookup n = some i → n ∈ stk ∨ ∀ w, LeC st.world w → RefOK env w n i
  stack : ∀ n ∈ stk, ∃ i, st.refs.lookup n = some i ∧ st.lk i = some (.placeholder n)

/-- triples for the compilation phase -/
def OkC {α : Type} (stk : List Nat) (Pre : World D V → Prop) (x : SM D V α)
    (R : World D V → α → Prop) : Prop :=
  ∀ st a st', Inv env stk st → (∀ w, LeC st.world w → Pre w) → x st = .ok (a, st') →
    Inv env stk st' ∧ LeC st.world st'.world ∧ ∀ w, LeC st'.world w → R w a

variable {env} {stk : List Nat} {α β : Type}

theorem OkC.bind {Pre : World D V → Prop} {x : SM D V α} {f : α → SM D V β} {R Q}
    (hx : OkC env stk Pre x R) (hf : ∀ a, OkC env stk (fun w => Pre w ∧ R w a) (f a) Q) :
    OkC env stk Pre (x >>= f) Q := by
  intro st b st'' hi hpre h
  obtain ⟨a, st', h1, h2⟩ := ST.bind_ok.mp h
  obtain ⟨hi1, hl1, hr1⟩ := hx _ _ _ hi hpre h1
  obtain ⟨hi2, hl2, hr2⟩ := hf a _ _ _ hi1 (fun w hw => ⟨hpre w (hl1.trans hw), hr1 w hw⟩) h2
  exact ⟨hi2, hl1.trans hl2, hr2⟩

theorem OkC.mono {Pre Pre' : World D V → Prop} {x : SM D V α} {R Q : World D V → α → Prop}
    (hx : OkC env stk Pre x R) (hp : ∀ w, Pre' w → Pre w) (h : ∀ w a, Pre' w → R w a → Q w a) :
    OkC env stk Pre' x Q := by
  intro st a st' hi hpre hr
  obtain ⟨h1, h2, h3⟩ := hx st a st' hi (fun w hw => hp w (hpre w hw)) hr
  exact ⟨h1, h2, fun w hw => h w a (hpre w (h2.trans hw)) (h3 w hw)⟩

theorem OkC.pure {Pre : World D V → Prop} {a : α} {R : World D V → α → Prop}
    (h : ∀ w, Pre w → R w a) : OkC env stk Pre (Pure.pure a) R := by
  intro st b st' hi hpre hr
  simp at hr
  obtain ⟨rfl, rfl⟩ := hr
  exact ⟨hi, LeC.refl _, fun w hw => h w (hpre w hw)⟩

theorem OkC.fault {Pre : World D V → Prop} {e : Fault} {R : World D V → α → Prop} :
    OkC env stk Pre (ST.fault e) R := by
  intro st b st' hi hpre hr
  simp at hr

/-- adding a pattern that is not a placeholder -/
theorem okc_push {Pre : World D V → Prop} (P : Pat D V) (hp : P.isPlaceholder = false) :
    OkC env stk Pre (push P) (fun w i => w.lk i = some P) := by
  intro st i st' hi hpre hr
  obtain ⟨hm', hle, hR⟩ := ok_push P hp st i st' hi.memo hr
  have hrefs : st'.refs = st.refs := by
    unfold push at hr
    split at hr
    · cases hr
    · split at hr
      · simp at hr; rw [hr.2]
      · simp at hr; rw [← hr.2]
  have hback : ∀ j n, st'.lk j = some (.placeholder n) → st.lk j = some (.placeholder n) := by
    intro j n hj
    unfold push at hr
    split at hr
    · cases hr
    · split at hr
      · simp at hr; rw [← hr.2] at hj; exact hj
      · simp at hr
        rw [← hr.2] at hj
        simp only [Store.lk] at hj ⊢
        rw [List.getElem?_append] at hj
        split at hj
        · exact hj
        · rw [List.getElem?_singleton] at hj
          split at hj
          · cases hj; simp [Pat.isPlaceholder] at hp
          · cases hj
  have hmemo : ∀ n j, st'.memo.lookup (.placeholder n) = some j →
      st.memo.lookup (.placeholder n) = some j := by
    intro n j hj
    unfold push at hr
    split at hr
    · cases hr
    · split at hr
      · simp at hr; rw [← hr.2] at hj; exact hj
      · simp at hr
        rw [← hr.2] at hj
        simp only [List.lookup_cons] at hj
        split at hj
        · rename_i heq
          have : (Pat.placeholder n : Pat D V) = P := by simpa using heq
          subst this; simp [Pat.isPlaceholder] at hp
        · exact hj
  have hlec : LeC st.world st'.world :=
    ⟨fun j Q h _ => hle j Q h, fun j n h => ⟨_, hle j _ h, fun m hm => by cases hm; rfl⟩,
      fun n j h => by simp only [Store.world, hrefs] at *; exact h⟩
  refine ⟨⟨hm', ?_, ?_, ?_, ?_⟩, hlec, ?_⟩
  · intro n j hj; rw [hrefs]; exact hi.memoPh n j (hmemo n j hj)
  · intro j n hj; rw [hrefs]; exact hi.slot j n (hback j n hj)
  · intro n j hj
    rw [hrefs] at hj
    rcases hi.ref n j hj with h | h
    · exact Or.inl h
    · exact Or.inr fun w hw => h w (hlec.trans hw)
  · intro n hn
    obtain ⟨j, h1, h2⟩ := hi.stack n hn
    exact ⟨j, by rw [hrefs]; exact h1, hle _ _ h2⟩
  · intro w hw
    exact hw.keep i P (hR _ (Le.refl _)) hp

/-- slot `l` holds a compilation of `p` (or a placeholder it may collapse to) -/
def Slot (p : Pattern D V) (l : Nat) (w : World D V) : Prop :=
  (∃ P, w.lk l = some P) ∧ ∀ n, w.lk l = some (.placeholder n) → n ∈ crefs p

/-- placeholders `p` may collapse to stand for recursive definitions -/
def RecOK (env : Env D V) (stk : List Nat) (p : Pattern D V) : Prop :=
  ∀ n ∈ crefs p, n ∈ stk → Recursive env n

theorem flagWas_later {st : Store D V} (hi : Inv env stk st) {p l P w} (hrec : RecOK env stk p)
    (hl : st.lk l = some P) (hs : Slot p l st.world) (hw : LeC st.world w) :
    FlagWas env w p l P.nullable := by
  rcases not_ph_cases P with hp | ⟨n, rfl⟩
  · exact Or.inl ⟨P, hw.keep l P hl hp, rfl⟩
  · have hn := hs.2 n hl
    obtain ⟨h1, h2⟩ := hi.slot l n hl
    exact Or.inr ⟨rfl, hw.defd ⟨_, hl⟩, n, hn, hw.refs n l h2, hrec n hn h1⟩

theorem slot_of_lk {p : Pattern D V} {l P w} (h : w.lk l = some P) (hp : P.isPlaceholder = false) :
    Slot p l w := ⟨⟨P, h⟩, fun n hn => by rw [h] at hn; cases hn; simp [Pat.isPlaceholder] at hp⟩

theorem Slot.sub {p q : Pattern D V} {l w} (h : Slot p l w) (hs : ∀ n ∈ crefs p, n ∈ crefs q) :
    Slot q l w := ⟨h.1, fun n hn => hs n (h.2 n hn)⟩

theorem patt_run {i : Nat} {st st' : Store D V} {P} (h : patt i st = .ok (P, st')) :
    st.lk i = some P ∧ st' = st := by
  unfold patt at h
  split at h
  · rename_i q hq
    simp at h
    exact ⟨by rw [← h.1]; exact hq, h.2.symm⟩
  · cases h

theorem okc_choice {Pre : World D V → Prop} {p q : Pattern D V} {l r : Nat}
    (h1 : RecOK env stk p) (h2 : RecOK env stk q)
    (hl : ∀ w, Pre w → Slot p l w) (hr : ∀ w, Pre w → Slot q r w) :
    OkC env stk Pre (choice l r) (fun w i => ChoiceRep env w p q l r i ∧
      ((∃ P, w.lk i = some P) ∧ ∀ n, w.lk i = some (.placeholder n) → n ∈ crefs p ∨ n ∈ crefs q)) := by
  intro st i st' hi hpre hrun
  simp only [choice, ST.bind_ok] at hrun
  obtain ⟨P, s1, e1, P', s2, e2, hrun⟩ := hrun
  obtain ⟨e1, rfl⟩ := patt_run e1
  obtain ⟨e2, rfl⟩ := patt_run e2
  have sl := hl _ (hpre _ (LeC.refl _))
  have sr := hr _ (hpre _ (LeC.refl _))
  have f1 := fun w hw => flagWas_later (w := w) hi h1 e1 sl hw
  have f2 := fun w hw => flagWas_later (w := w) hi h2 e2 sr hw
  have getl : ∀ w, LeC s2.world w → (∃ P, w.lk l = some P) ∧
      ∀ n, w.lk l = some (.placeholder n) → n ∈ crefs p ∨ n ∈ crefs q := fun w hw =>
    ⟨hw.defd ⟨_, e1⟩, fun n hn => Or.inl (sl.2 n (hw.back ⟨_, e1⟩ hn))⟩
  have getr : ∀ w, LeC s2.world w → (∃ P, w.lk r = some P) ∧
      ∀ n, w.lk r = some (.placeholder n) → n ∈ crefs p ∨ n ∈ crefs q := fun w hw =>
    ⟨hw.defd ⟨_, e2⟩, fun n hn => Or.inr (sr.2 n (hw.back ⟨_, e2⟩ hn))⟩
  have main : (P = .notAllowed ∧ i = r ∧ st' = s2) ∨ (P' = .notAllowed ∧ i = l ∧ st' = s2) ∨
      (l = r ∧ i = l ∧ st' = s2) ∨
      push (.choice l r (P.nullable || P'.nullable)) s2 = .ok (i, st') := by
    split at hrun
    · simp at hrun; exact Or.inl ⟨rfl, hrun.1.symm, hrun.2.symm⟩
    · simp at hrun; exact Or.inr (Or.inl ⟨rfl, hrun.1.symm, hrun.2.symm⟩)
    · split at hrun
      · simp at hrun; exact Or.inr (Or.inr (Or.inl ⟨by assumption, hrun.1.symm, hrun.2.symm⟩))
      · exact Or.inr (Or.inr (Or.inr hrun))
  clear hrun
  rcases main with ⟨rfl, rfl, rfl⟩ | ⟨rfl, rfl, rfl⟩ | ⟨rfl, rfl, rfl⟩ | hrun
  · exact ⟨hi, LeC.refl _, fun w hw => ⟨⟨_, _, f1 w hw, f2 w hw, Or.inl ⟨hw.keep _ _ e1 rfl, rfl⟩⟩,
      getr w hw⟩⟩
  · exact ⟨hi, LeC.refl _, fun w hw => ⟨⟨_, _, f1 w hw, f2 w hw,
      Or.inr (Or.inl ⟨hw.keep _ _ e2 rfl, rfl⟩)⟩, getl w hw⟩⟩
  · exact ⟨hi, LeC.refl _, fun w hw => ⟨⟨_, _, f1 w hw, f2 w hw,
      Or.inr (Or.inr (Or.inl ⟨rfl, rfl⟩))⟩, getl w hw⟩⟩
  · obtain ⟨g1, g2, g3⟩ := okc_push (env := env) (stk := stk) (Pre := fun _ => True) _ rfl _ _ _ hi
      (fun _ _ => trivial) hrun
    refine ⟨g1, g2, fun w hw => ⟨⟨_, _, f1 w (g2.trans hw), f2 w (g2.trans hw),
      Or.inr (Or.inr (Or.inr (g3 w hw)))⟩, ⟨_, g3 w hw⟩, fun n hn => ?_⟩⟩
    rw [g3 w hw] at hn; cases hn

theorem okc_interleave {Pre : World D V → Prop} {p q : Pattern D V} {l r : Nat}
    (h1 : RecOK env stk p) (h2 : RecOK env stk q)
    (hl : ∀ w, Pre w → Slot p l w) (hr : ∀ w, Pre w → Slot q r w) :
    OkC env stk Pre (interleave l r) (fun w i => InterRep env w p q l r i ∧
      ((∃ P, w.lk i = some P) ∧ ∀ n, w.lk i = some (.placeholder n) → n ∈ crefs p ∨ n ∈ crefs q)) := by
  intro st i st' hi hpre hrun
  simp only [interleave, ST.bind_ok] at hrun
  obtain ⟨P, s1, e1, P', s2, e2, hrun⟩ := hrun
  obtain ⟨e1, rfl⟩ := patt_run e1
  obtain ⟨e2, rfl⟩ := patt_run e2
  have sl := hl _ (hpre _ (LeC.refl _))
  have sr := hr _ (hpre _ (LeC.refl _))
  have f1 := fun w hw => flagWas_later (w := w) hi h1 e1 sl hw
  have f2 := fun w hw => flagWas_later (w := w) hi h2 e2 sr hw
  have getl : ∀ w, LeC s2.world w → (∃ P, w.lk l = some P) ∧
      ∀ n, w.lk l = some (.placeholder n) → n ∈ crefs p ∨ n ∈ crefs q := fun w hw =>
    ⟨hw.defd ⟨_, e1⟩, fun n hn => Or.inl (sl.2 n (hw.back ⟨_, e1⟩ hn))⟩
  have getr : ∀ w, LeC s2.world w → (∃ P, w.lk r = some P) ∧
      ∀ n, w.lk r = some (.placeholder n) → n ∈ crefs p ∨ n ∈ crefs q := fun w hw =>
    ⟨hw.defd ⟨_, e2⟩, fun n hn => Or.inr (sr.2 n (hw.back ⟨_, e2⟩ hn))⟩
  have main : (P = .notAllowed ∧ push .notAllowed s2 = .ok (i, st')) ∨
      (P' = .notAllowed ∧ push .notAllowed s2 = .ok (i, st')) ∨
      (P = .empty ∧ i = r ∧ st' = s2) ∨ (P' = .empty ∧ i = l ∧ st' = s2) ∨
      push (.interleave l r (P.nullable && P'.nullable)) s2 = .ok (i, st') := by
    split at hrun
    · exact Or.inl ⟨rfl, hrun⟩
    · exact Or.inr (Or.inl ⟨rfl, hrun⟩)
    · simp at hrun; exact Or.inr (Or.inr (Or.inl ⟨rfl, hrun.1.symm, hrun.2.symm⟩))
    · simp at hrun; exact Or.inr (Or.inr (Or.inr (Or.inl ⟨rfl, hrun.1.symm, hrun.2.symm⟩)))
    · exact Or.inr (Or.inr (Or.inr (Or.inr hrun)))
  clear hrun
  rcases main with ⟨rfl, hrun⟩ | ⟨rfl, hrun⟩ | ⟨rfl, rfl, rfl⟩ | ⟨rfl, rfl, rfl⟩ | hrun
  · obtain ⟨g1, g2, g3⟩ := okc_push (env := env) (stk := stk) (Pre := fun _ => True) _ rfl _ _ _ hi
      (fun _ _ => trivial) hrun
    refine ⟨g1, g2, fun w hw => ⟨⟨_, _, f1 w (g2.trans hw), f2 w (g2.trans hw),
      Or.inl ⟨(g2.trans hw).keep _ _ e1 rfl, g3 w hw⟩⟩, ⟨_, g3 w hw⟩, fun n hn => ?_⟩⟩
    rw [g3 w hw] at hn; cases hn
  · obtain ⟨g1, g2, g3⟩ := okc_push (env := env) (stk := stk) (Pre := fun _ => True) _ rfl _ _ _ hi
      (fun _ _ => trivial) hrun
    refine ⟨g1, g2, fun w hw => ⟨⟨_, _, f1 w (g2.trans hw), f2 w (g2.trans hw),
      Or.inr (Or.inl ⟨(g2.trans hw).keep _ _ e2 rfl, g3 w hw⟩)⟩, ⟨_, g3 w hw⟩, fun n hn => ?_⟩⟩
    rw [g3 w hw] at hn; cases hn
  · exact ⟨hi, LeC.refl _, fun w hw => ⟨⟨_, _, f1 w hw, f2 w hw,
      Or.inr (Or.inr (Or.inl ⟨hw.keep _ _ e1 rfl, rfl⟩))⟩, getr w hw⟩⟩
  · exact ⟨hi, LeC.refl _, fun w hw => ⟨⟨_, _, f1 w hw, f2 w hw,
      Or.inr (Or.inr (Or.inr (Or.inl ⟨hw.keep _ _ e2 rfl, rfl⟩)))⟩, getl w hw⟩⟩
  · obtain ⟨g1, g2, g3⟩ := okc_push (env := env) (stk := stk) (Pre := fun _ => True) _ rfl _ _ _ hi
      (fun _ _ => trivial) hrun
    refine ⟨g1, g2, fun w hw => ⟨⟨_, _, f1 w (g2.trans hw), f2 w (g2.trans hw),
      Or.inr (Or.inr (Or.inr (Or.inr (g3 w hw))))⟩, ⟨_, g3 w hw⟩, fun n hn => ?_⟩⟩
    rw [g3 w hw] at hn; cases hn

theorem okc_group {Pre : World D V → Prop} {p q : Pattern D V} {l r : Nat}
    (h1 : RecOK env stk p) (h2 : RecOK env stk q)
    (hl : ∀ w, Pre w → Slot p l w) (hr : ∀ w, Pre w → Slot q r w) :
    OkC env stk Pre (group l r) (fun w i => GroupRep env w p q l r i ∧
      ((∃ P, w.lk i = some P) ∧ ∀ n, w.lk i = some (.placeholder n) → n ∈ crefs p ∨ n ∈ crefs q)) := by
  intro st i st' hi hpre hrun
  simp only [group, ST.bind_ok] at hrun
  obtain ⟨P, s1, e1, P', s2, e2, hrun⟩ := hrun
  obtain ⟨e1, rfl⟩ := patt_run e1
  obtain ⟨e2, rfl⟩ := patt_run e2
  have sl := hl _ (hpre _ (LeC.refl _))
  have sr := hr _ (hpre _ (LeC.refl _))
  have f1 := fun w hw => flagWas_later (w := w) hi h1 e1 sl hw
  have f2 := fun w hw => flagWas_later (w := w) hi h2 e2 sr hw
  have getl : ∀ w, LeC s2.world w → (∃ P, w.lk l = some P) ∧
      ∀ n, w.lk l = some (.placeholder n) → n ∈ crefs p ∨ n ∈ crefs q := fun w hw =>
    ⟨hw.defd ⟨_, e1⟩, fun n hn => Or.inl (sl.2 n (hw.back ⟨_, e1⟩ hn))⟩
  have getr : ∀ w, LeC s2.world w → (∃ P, w.lk r = some P) ∧
      ∀ n, w.lk r = some (.placeholder n) → n ∈ crefs p ∨ n ∈ crefs q := fun w hw =>
    ⟨hw.defd ⟨_, e2⟩, fun n hn => Or.inr (sr.2 n (hw.back ⟨_, e2⟩ hn))⟩
  have main : (P = .notAllowed ∧ push .notAllowed s2 = .ok (i, st')) ∨
      (P' = .notAllowed ∧ push .notAllowed s2 = .ok (i, st')) ∨
      (P = .empty ∧ i = r ∧ st' = s2) ∨ (P' = .empty ∧ i = l ∧ st' = s2) ∨
      push (.group l r (P.nullable && P'.nullable)) s2 = .ok (i, st') := by
    split at hrun
    · exact Or.inl ⟨rfl, hrun⟩
    · exact Or.inr (Or.inl ⟨rfl, hrun⟩)
    · simp at hrun; exact Or.inr (Or.inr (Or.inl ⟨rfl, hrun.1.symm, hrun.2.symm⟩))
    · simp at hrun; exact Or.inr (Or.inr (Or.inr (Or.inl ⟨rfl, hrun.1.symm, hrun.2.symm⟩)))
    · exact Or.inr (Or.inr (Or.inr (Or.inr hrun)))
  clear hrun
  rcases main with ⟨rfl, hrun⟩ | ⟨rfl, hrun⟩ | ⟨rfl, rfl, rfl⟩ | ⟨rfl, rfl, rfl⟩ | hrun
  · obtain ⟨g1, g2, g3⟩ := okc_push (env := env) (stk := stk) (Pre := fun _ => True) _ rfl _ _ _ hi
      (fun _ _ => trivial) hrun
    refine ⟨g1, g2, fun w hw => ⟨⟨_, _, f1 w (g2.trans hw), f2 w (g2.trans hw),
      Or.inl ⟨(g2.trans hw).keep _ _ e1 rfl, g3 w hw⟩⟩, ⟨_, g3 w hw⟩, fun n hn => ?_⟩⟩
    rw [g3 w hw] at hn; cases hn
  · obtain ⟨g1, g2, g3⟩ := okc_push (env := env) (stk := stk) (Pre := fun _ => True) _ rfl _ _ _ hi
      (fun _ _ => trivial) hrun
    refine ⟨g1, g2, fun w hw => ⟨⟨_, _, f1 w (g2.trans hw), f2 w (g2.trans hw),
      Or.inr (Or.inl ⟨(g2.trans hw).keep _ _ e2 rfl, g3 w hw⟩)⟩, ⟨_, g3 w hw⟩, fun n hn => ?_⟩⟩
    rw [g3 w hw] at hn; cases hn
  · exact ⟨hi, LeC.refl _, fun w hw => ⟨⟨_, _, f1 w hw, f2 w hw,
      Or.inr (Or.inr (Or.inl ⟨hw.keep _ _ e1 rfl, rfl⟩))⟩, getr w hw⟩⟩
  · exact ⟨hi, LeC.refl _, fun w hw => ⟨⟨_, _, f1 w hw, f2 w hw,
      Or.inr (Or.inr (Or.inr (Or.inl ⟨hw.keep _ _ e2 rfl, rfl⟩)))⟩, getl w hw⟩⟩
  · obtain ⟨g1, g2, g3⟩ := okc_push (env := env) (stk := stk) (Pre := fun _ => True) _ rfl _ _ _ hi
      (fun _ _ => trivial) hrun
    refine ⟨g1, g2, fun w hw => ⟨⟨_, _, f1 w (g2.trans hw), f2 w (g2.trans hw),
      Or.inr (Or.inr (Or.inr (Or.inr (g3 w hw))))⟩, ⟨_, g3 w hw⟩, fun n hn => ?_⟩⟩
    rw [g3 w hw] at hn; cases hn

theorem okc_oneOrMore {Pre : World D V → Prop} {p : Pattern D V} {l : Nat}
    (h1 : RecOK env stk p) (hl : ∀ w, Pre w → Slot p l w) :
    OkC env stk Pre (oneOrMore l) (fun w i => OneRep env w p l i) := by
  intro st i st' hi hpre hrun
  simp only [oneOrMore, ST.bind_ok] at hrun
  obtain ⟨P, s1, e1, hrun⟩ := hrun
  obtain ⟨e1, rfl⟩ := patt_run e1
  have sl := hl _ (hpre _ (LeC.refl _))
  have f1 := fun w hw => flagWas_later (w := w) hi h1 e1 sl hw
  obtain ⟨g1, g2, g3⟩ := okc_push (env := env) (stk := stk) (Pre := fun _ => True) _ rfl _ _ _ hi
      (fun _ _ => trivial) hrun
  exact ⟨g1, g2, fun w hw => ⟨_, f1 w (g2.trans hw), g3 w hw⟩⟩

end
end Verif
