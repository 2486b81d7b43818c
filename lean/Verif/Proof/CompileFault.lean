import Verif.Proof.TotalCompile
/-
On well-formed schemas without aliases of users `compile` can only abort with the pattern limit.
-/
set_option linter.unusedSectionVars false
namespace Verif
variable {D V : Type} [DecidableEq D] [DecidableEq V] {env : Env D V} {stk : List Nat}

/-- what is known of a slot: the references it may stand for, whether it cannot be `notAllowed`,
whether it cannot be `empty` -/
structure SlotG (A : List Nat) (f b : Bool) (i : Nat) (w : World D V) : Prop where
  ex : ∃ P, w.lk i = some P
  al : ∀ n, w.lk i = some (.placeholder n) → n ∈ A
  fi : f = true → w.lk i ≠ some .notAllowed ∧ ∀ n, w.lk i ≠ some (.placeholder n)
  bu : b = true → w.lk i ≠ some .empty ∧ ∀ n, w.lk i ≠ some (.placeholder n)

theorem SlotG.later {A : List Nat} {f b i} {w w' : World D V} (h : SlotG A f b i w) (hw : LeC w w') :
    SlotG A f b i w' := by
  obtain ⟨P, hP⟩ := h.ex
  refine ⟨hw.defd h.ex, fun n hn => h.al n (hw.back h.ex hn), fun hf => ?_, fun hb => ?_⟩
  · have hp : P.isPlaceholder = false := by
      rcases not_ph_cases P with hp | ⟨n, rfl⟩
      · exact hp
      · exact absurd hP ((h.fi hf).2 n)
    have := hw.keep i P hP hp
    refine ⟨fun hn => ?_, fun n hn => (h.fi hf).2 n (hw.back h.ex hn)⟩
    rw [this] at hn; cases hn; exact (h.fi hf).1 hP
  · have hp : P.isPlaceholder = false := by
      rcases not_ph_cases P with hp | ⟨n, rfl⟩
      · exact hp
      · exact absurd hP ((h.bu hb).2 n)
    have := hw.keep i P hP hp
    refine ⟨fun hn => ?_, fun n hn => (h.bu hb).2 n (hw.back h.ex hn)⟩
    rw [this] at hn; cases hn; exact (h.bu hb).1 hP

/-- a slot holding a concrete pattern -/
theorem SlotG.of {A : List Nat} {f b : Bool} {i P} {w : World D V} (h : w.lk i = some P) (hp : P.isPlaceholder = false)
    (hf : f = true → P ≠ .notAllowed) (hb : b = true → P ≠ .empty) : SlotG A f b i w := by
  have ph : ∀ n, w.lk i ≠ some (.placeholder n) := fun n hn => by
    rw [h] at hn; cases hn; simp [Pat.isPlaceholder] at hp
  exact ⟨⟨P, h⟩, fun n hn => absurd hn (ph n),
    fun h1 => ⟨fun hn => hf h1 (by rw [h] at hn; cases hn; rfl), ph⟩,
    fun h1 => ⟨fun hn => hb h1 (by rw [h] at hn; cases hn; rfl), ph⟩⟩

theorem OkC.and {α : Type} {Pre : World D V → Prop} {x : SM D V α} {R Q} (h1 : OkC env stk Pre x R)
    (h2 : OkC env stk Pre x Q) : OkC env stk Pre x (fun w a => R w a ∧ Q w a) := by
  intro st a st' hi hp h
  obtain ⟨a1, a2, a3⟩ := h1 st a st' hi hp h
  obtain ⟨_, _, b3⟩ := h2 st a st' hi hp h
  exact ⟨a1, a2, fun w hw => ⟨a3 w hw, b3 w hw⟩⟩

theorem slotG_push {A : List Nat} {f b : Bool} {P : Pat D V} (hp : P.isPlaceholder = false)
    (hf : f = true → P ≠ .notAllowed) (hb : b = true → P ≠ .empty) {Pre} :
    OkC env stk Pre (push P) (fun w i => SlotG A f b i w) :=
  (okc_push P hp).mono (fun _ h => h) fun _ _ _ h => .of h hp hf hb

theorem slotG_choice {A1 A2 : List Nat} {f1 f2 b1 b2 : Bool} {l r : Nat} {Pre : World D V → Prop}
    (hl : ∀ w, Pre w → SlotG A1 f1 b1 l w) (hr : ∀ w, Pre w → SlotG A2 f2 b2 r w) :
    OkC env stk Pre (choice l r) (fun w i => SlotG (if f1 || f2 then [] else A1 ++ A2) (f1 || f2)
      ((f1 && b1) || (f2 && b2)) i w) := by
  intro st i st' hi hpre hrun
  simp only [choice, ST.bind_ok] at hrun
  obtain ⟨P, s1, e1, P', s2, e2, hrun⟩ := hrun
  obtain ⟨e1, rfl⟩ := patt_run e1
  obtain ⟨e2, rfl⟩ := patt_run e2
  have sl := hl _ (hpre _ (LeC.refl _))
  have sr := hr _ (hpre _ (LeC.refl _))
  have main : (P = .notAllowed ∧ i = r ∧ st' = s2) ∨ (P' = .notAllowed ∧ i = l ∧ st' = s2) ∨
      (l = r ∧ i = l ∧ st' = s2) ∨
      push (.choice l r (P.nullable || P'.nullable)) s2 = .ok (i, st') := by
    split at hrun
    · simp at hrun; exact Or.inl ⟨rfl, hrun.1.symm, hrun.2.symm⟩
    · simp at hrun; exact Or.inr (Or.inl ⟨rfl, hrun.1.symm, hrun.2.symm⟩)
    · split at hrun
      · simp at hrun; exact Or.inr (Or.inr (Or.inl ⟨by assumption, hrun.1.symm, hrun.2.symm⟩))
      · exact Or.inr (Or.inr (Or.inr hrun))
  clear hrun
  have nf1 : P = .notAllowed → f1 = false := fun h => by
    cases f1 with
    | false => rfl
    | true => subst h; exact absurd e1 (sl.fi rfl).1
  have nf2 : P' = .notAllowed → f2 = false := fun h => by
    cases f2 with
    | false => rfl
    | true => subst h; exact absurd e2 (sr.fi rfl).1
  rcases main with ⟨h1, rfl, rfl⟩ | ⟨h1, rfl, rfl⟩ | ⟨rfl, rfl, rfl⟩ | hrun
  · have hf := nf1 h1
    refine ⟨hi, LeC.refl _, fun w hw => SlotG.later (w := st'.world) ?_ hw⟩
    refine ⟨sr.ex, fun n hn => ?_, fun h => sr.fi (by simpa [hf] using h), fun h => sr.bu (by
      simp [hf] at h; exact h.2)⟩
    cases f2 with
    | true => exact absurd hn ((sr.fi rfl).2 n)
    | false => simp [hf, sr.al n hn]
  · have hf := nf2 h1
    refine ⟨hi, LeC.refl _, fun w hw => SlotG.later (w := st'.world) ?_ hw⟩
    refine ⟨sl.ex, fun n hn => ?_, fun h => sl.fi (by simpa [hf] using h), fun h => sl.bu (by
      simp [hf] at h; exact h.2)⟩
    cases f1 with
    | true => exact absurd hn ((sl.fi rfl).2 n)
    | false => simp [hf, sl.al n hn]
  · refine ⟨hi, LeC.refl _, fun w hw => SlotG.later (w := st'.world) ?_ hw⟩
    refine ⟨sl.ex, fun n hn => ?_, fun h => ?_, fun h => ?_⟩
    · cases f1 with
      | true => exact absurd hn ((sl.fi rfl).2 n)
      | false =>
        cases f2 with
        | true => exact absurd hn ((sr.fi rfl).2 n)
        | false => simp [sl.al n hn]
    · rw [Bool.or_eq_true] at h
      rcases h with h | h
      · exact sl.fi h
      · exact sr.fi h
    · simp only [Bool.or_eq_true, Bool.and_eq_true] at h
      rcases h with h | h
      · exact sl.bu h.2
      · exact sr.bu h.2
  · obtain ⟨g1, g2, g3⟩ := okc_push (env := env) (stk := stk) (Pre := fun _ => True) _ rfl _ _ _ hi
      (fun _ _ => trivial) hrun
    exact ⟨g1, g2, fun w hw => .of (g3 w hw) rfl (fun _ => nofun) (fun _ => nofun)⟩

theorem slotG_seq {op : Nat → Nat → SM D V Nat} {mk : Nat → Nat → Bool → Pat D V}
    (hmk : ∀ l r f, (mk l r f).isPlaceholder = false ∧ mk l r f ≠ .notAllowed ∧ mk l r f ≠ .empty)
    (hop : ∀ l r, op l r = (do
      let l' ← patt l
      let r' ← patt r
      match l', r' with
      | .notAllowed, _ => notAllowed
      | _, .notAllowed => notAllowed
      | .empty, _ => pure r
      | _, .empty => pure l
      | l', r' => push (mk l r (l'.nullable && r'.nullable))))
    {A1 A2 : List Nat} {f1 f2 b1 b2 : Bool} {l r : Nat} {Pre : World D V → Prop}
    (hl : ∀ w, Pre w → SlotG A1 f1 b1 l w) (hr : ∀ w, Pre w → SlotG A2 f2 b2 r w) :
    OkC env stk Pre (op l r) (fun w i => SlotG (if b1 || b2 then [] else A1 ++ A2) (f1 && f2) (b1 || b2) i w) := by
  intro st i st' hi hpre hrun
  rw [hop] at hrun
  simp only [ST.bind_ok] at hrun
  obtain ⟨P, s1, e1, P', s2, e2, hrun⟩ := hrun
  obtain ⟨e1, rfl⟩ := patt_run e1
  obtain ⟨e2, rfl⟩ := patt_run e2
  have sl := hl _ (hpre _ (LeC.refl _))
  have sr := hr _ (hpre _ (LeC.refl _))
  have main : (P = .notAllowed ∧ push .notAllowed s2 = .ok (i, st')) ∨
      (P' = .notAllowed ∧ push .notAllowed s2 = .ok (i, st')) ∨
      (P = .empty ∧ i = r ∧ st' = s2) ∨ (P' = .empty ∧ i = l ∧ st' = s2) ∨
      push (mk l r (P.nullable && P'.nullable)) s2 = .ok (i, st') := by
    split at hrun
    · exact Or.inl ⟨rfl, hrun⟩
    · exact Or.inr (Or.inl ⟨rfl, hrun⟩)
    · simp at hrun; exact Or.inr (Or.inr (Or.inl ⟨rfl, hrun.1.symm, hrun.2.symm⟩))
    · simp at hrun; exact Or.inr (Or.inr (Or.inr (Or.inl ⟨rfl, hrun.1.symm, hrun.2.symm⟩)))
    · exact Or.inr (Or.inr (Or.inr (Or.inr hrun)))
  clear hrun
  rcases main with ⟨h1, hrun⟩ | ⟨h1, hrun⟩ | ⟨h1, rfl, rfl⟩ | ⟨h1, rfl, rfl⟩ | hrun
  · obtain ⟨g1, g2, g3⟩ := okc_push (env := env) (stk := stk) (Pre := fun _ => True) _ rfl _ _ _ hi
      (fun _ _ => trivial) hrun
    refine ⟨g1, g2, fun w hw => .of (g3 w hw) rfl (fun hf => ?_) (fun _ => nofun)⟩
    subst h1
    simp at hf
    exact absurd e1 (sl.fi hf.1).1
  · obtain ⟨g1, g2, g3⟩ := okc_push (env := env) (stk := stk) (Pre := fun _ => True) _ rfl _ _ _ hi
      (fun _ _ => trivial) hrun
    refine ⟨g1, g2, fun w hw => .of (g3 w hw) rfl (fun hf => ?_) (fun _ => nofun)⟩
    subst h1
    simp at hf
    exact absurd e2 (sr.fi hf.2).1
  · have hb : b1 = false := by
      cases b1 with
      | false => rfl
      | true => subst h1; exact absurd e1 (sl.bu rfl).1
    refine ⟨hi, LeC.refl _, fun w hw => SlotG.later (w := st'.world) ?_ hw⟩
    refine ⟨sr.ex, fun n hn => ?_, fun h => sr.fi (by simp at h; exact h.2), fun h => sr.bu (by simpa [hb] using h)⟩
    cases b2 with
    | true => exact absurd hn ((sr.bu rfl).2 n)
    | false => simp [hb, sr.al n hn]
  · have hb : b2 = false := by
      cases b2 with
      | false => rfl
      | true => subst h1; exact absurd e2 (sr.bu rfl).1
    refine ⟨hi, LeC.refl _, fun w hw => SlotG.later (w := st'.world) ?_ hw⟩
    refine ⟨sl.ex, fun n hn => ?_, fun h => sl.fi (by simp at h; exact h.1), fun h => sl.bu (by simpa [hb] using h)⟩
    cases b1 with
    | true => exact absurd hn ((sl.bu rfl).2 n)
    | false => simp [hb, sl.al n hn]
  · obtain ⟨q1, q2, q3⟩ := hmk l r (P.nullable && P'.nullable)
    obtain ⟨g1, g2, g3⟩ := okc_push (env := env) (stk := stk) (Pre := fun _ => True) _ q1 _ _ _ hi
      (fun _ _ => trivial) hrun
    exact ⟨g1, g2, fun w hw => .of (g3 w hw) q1 (fun _ => q2) (fun _ => q3)⟩

theorem slotG_interleave {A1 A2 : List Nat} {f1 f2 b1 b2 : Bool} {l r : Nat} {Pre : World D V → Prop}
    (hl : ∀ w, Pre w → SlotG A1 f1 b1 l w) (hr : ∀ w, Pre w → SlotG A2 f2 b2 r w) :
    OkC env stk Pre (interleave l r)
      (fun w i => SlotG (if b1 || b2 then [] else A1 ++ A2) (f1 && f2) (b1 || b2) i w) :=
  slotG_seq (mk := .interleave) (fun _ _ _ => ⟨rfl, nofun, nofun⟩) (fun _ _ => rfl) hl hr

theorem slotG_group {A1 A2 : List Nat} {f1 f2 b1 b2 : Bool} {l r : Nat} {Pre : World D V → Prop}
    (hl : ∀ w, Pre w → SlotG A1 f1 b1 l w) (hr : ∀ w, Pre w → SlotG A2 f2 b2 r w) :
    OkC env stk Pre (group l r)
      (fun w i => SlotG (if b1 || b2 then [] else A1 ++ A2) (f1 && f2) (b1 || b2) i w) :=
  slotG_seq (mk := .group) (fun _ _ _ => ⟨rfl, nofun, nofun⟩) (fun _ _ => rfl) hl hr

theorem slotG_oneOrMore {A : List Nat} {f b : Bool} {l : Nat} {Pre : World D V → Prop} :
    OkC env stk Pre (oneOrMore l) (fun w i => SlotG A f b i w) := by
  intro st i st' hi hpre hrun
  simp only [oneOrMore, ST.bind_ok] at hrun
  obtain ⟨P, s1, e1, hrun⟩ := hrun
  obtain ⟨e1, rfl⟩ := patt_run e1
  exact slotG_push (P := .oneOrMore l P.nullable) (Pre := fun _ => True) rfl (fun _ => nofun) (fun _ => nofun) _ _ _ hi (fun _ _ => trivial) hrun

/-! ### no faults -/

/-- aborts only with the pattern limit (or the model's budget) -/
def NoF {α : Type} (env : Env D V) (stk : List Nat) (Pre : World D V → Prop) (x : SM D V α) : Prop :=
  ∀ st, Inv env stk st → (∀ w, LeC st.world w → Pre w) → ∀ e, x st = .error e → e = .fuel ∨ e = .capacity

theorem NoF.bind {α β : Type} {Pre : World D V → Prop} {x : SM D V α} {f : α → SM D V β} {R}
    (hx : NoF env stk Pre x) (hok : OkC env stk Pre x R)
    (hf : ∀ a, NoF env stk (fun w => Pre w ∧ R w a) (f a)) : NoF env stk Pre (x >>= f) := by
  intro st hi hpre e he
  cases hr : x st with
  | error e' =>
    have := (ST.bind_of_error hr).symm.trans he
    cases this
    exact hx st hi hpre e hr
  | ok r =>
    obtain ⟨a, st'⟩ := r
    have := (ST.bind_of_ok hr).symm.trans he
    obtain ⟨k1, k2, k3⟩ := hok st a st' hi hpre hr
    exact hf a st' k1 (fun w hw => ⟨hpre w (k2.trans hw), k3 w hw⟩) e this

theorem NoF.pure {α : Type} {Pre : World D V → Prop} {a : α} : NoF env stk Pre (Pure.pure a) := by
  intro st _ _ e h; simp at h

theorem NoF.mono {α : Type} {Pre Pre' : World D V → Prop} {x : SM D V α} (h : NoF env stk Pre x)
    (hp : ∀ w, Pre' w → Pre w) : NoF env stk Pre' x :=
  fun st hi hpre => h st hi fun w hw => hp w (hpre w hw)

theorem nof_push {Pre : World D V → Prop} (P : Pat D V) : NoF env stk Pre (push P) := by
  intro st _ _ e h
  unfold push at h
  split at h
  · cases h; exact Or.inr rfl
  · split at h <;> cases h

theorem nof_patt {Pre : World D V → Prop} {i : Nat} (h : ∀ w, Pre w → ∃ P, w.lk i = some P) :
    NoF env stk Pre (patt i) := by
  intro st _ hpre e he
  obtain ⟨P, hP⟩ := h _ (hpre _ (LeC.refl _))
  simp only [Store.world, Store.lk] at hP
  simp only [patt, hP] at he
  cases he

theorem okc_patt {Pre : World D V → Prop} {i : Nat} : OkC env stk Pre (patt i : SM D V (Pat D V)) (fun _ _ => True) := by
  intro st P st' hi hpre h
  obtain ⟨_, rfl⟩ := patt_run h
  exact ⟨hi, LeC.refl _, fun _ _ => trivial⟩

theorem nof_choice {Pre : World D V → Prop} {l r : Nat} (hl : ∀ w, Pre w → ∃ P, w.lk l = some P)
    (hr : ∀ w, Pre w → ∃ P, w.lk r = some P) : NoF env stk Pre (choice l r) := by
  refine .bind (nof_patt hl) okc_patt fun p => .bind (nof_patt fun w h => hr w h.1) okc_patt fun q => ?_
  split
  · exact .pure
  · exact .pure
  · split
    · exact .pure
    · exact nof_push _

theorem nof_interleave {Pre : World D V → Prop} {l r : Nat} (hl : ∀ w, Pre w → ∃ P, w.lk l = some P)
    (hr : ∀ w, Pre w → ∃ P, w.lk r = some P) : NoF env stk Pre (interleave l r) := by
  refine .bind (nof_patt hl) okc_patt fun p => .bind (nof_patt fun w h => hr w h.1) okc_patt fun q => ?_
  split
  · exact nof_push _
  · exact nof_push _
  · exact .pure
  · exact .pure
  · exact nof_push _

theorem nof_group {Pre : World D V → Prop} {l r : Nat} (hl : ∀ w, Pre w → ∃ P, w.lk l = some P)
    (hr : ∀ w, Pre w → ∃ P, w.lk r = some P) : NoF env stk Pre (group l r) := by
  refine .bind (nof_patt hl) okc_patt fun p => .bind (nof_patt fun w h => hr w h.1) okc_patt fun q => ?_
  split
  · exact nof_push _
  · exact nof_push _
  · exact .pure
  · exact .pure
  · exact nof_push _

theorem nof_oneOrMore {Pre : World D V → Prop} {l : Nat} (hl : ∀ w, Pre w → ∃ P, w.lk l = some P) :
    NoF env stk Pre (oneOrMore l) :=
  .bind (nof_patt hl) okc_patt fun _ => nof_push _

/-! ### compile -/

/-- what the compilation of `p` returns and how it may fail -/
structure Safe (env : Env D V) (stk : List Nat) (x : SM D V Nat) (p : Pattern D V) : Prop where
  slot : ∀ Pre, OkC env stk Pre x (fun w i => SlotG p.aliases p.firm p.bulky i w)
  nof : ∀ Pre, NoF env stk Pre x

theorem SlotG.weaken {A A' : List Nat} {f f' b b' : Bool} {i} {w : World D V} (h : SlotG A f b i w)
    (ha : ∀ n ∈ A, n ∈ A') (hf : f' = true → f = true) (hb : b' = true → b = true) : SlotG A' f' b' i w :=
  ⟨h.ex, fun n hn => ha n (h.al n hn), fun h' => h.fi (hf h'), fun h' => h.bu (hb h')⟩

theorem safe_vecChoice {c : Pattern D V → SM D V Nat} : ∀ (ps : List (Pattern D V)), ps ≠ [] →
    (∀ p ∈ ps, Safe env stk (c p) p) → Safe env stk (compileVec c choice ps) (.choice ps)
  | [], h, _ => absurd rfl h
  | [p], _, hc => by
    have h := hc p (by simp)
    refine ⟨fun Pre => (h.slot Pre).mono (fun _ h => h) fun w i _ h => ?_, h.nof⟩
    refine ⟨h.ex, fun n hn => ?_, fun hf => h.fi ?_, fun hb => h.bu ?_⟩
    · have hff : p.firm = false := by
        cases hp : p.firm with
        | false => rfl
        | true => exact absurd hn ((h.fi hp).2 n)
      simp [Pattern.aliases, firmAny, aliasesL, hff, h.al n hn]
    · simpa [Pattern.firm, firmAny] using hf
    · simp [Pattern.bulky, bulkyFirm] at hb; exact hb.2
  | p :: q :: ps, _, hc => by
    have h := hc p (by simp)
    have ih := safe_vecChoice (q :: ps) (by simp) (fun p hp => hc p (by simp_all))
    constructor
    · intro Pre
      simp only [compileVec]
      refine (ih.slot Pre).bind fun r => (h.slot _).bind fun l => ?_
      refine (slotG_choice (fun w hp => hp.2) (fun w hp => hp.1.2)).mono (fun _ h => h) fun w i _ hs => ?_
      refine hs.weaken (fun n hn => ?_) (fun hf => ?_) (fun hb => ?_)
      · have a1 : (Pattern.choice (p :: q :: ps)).aliases =
            if p.firm || firmAny (q :: ps) then [] else p.aliases ++ aliasesL (q :: ps) := by
          rw [Pattern.aliases, firmAny, aliasesL]
        have a2 : (Pattern.choice (q :: ps)).aliases = if firmAny (q :: ps) then [] else aliasesL (q :: ps) := by
          rw [Pattern.aliases]
        have a3 : (Pattern.choice (q :: ps)).firm = firmAny (q :: ps) := by rw [Pattern.firm]
        rw [a1]; rw [a2, a3] at hn
        revert hn
        cases p.firm <;> cases firmAny (q :: ps) <;> simp
      · simpa [Pattern.firm, firmAny] using hf
      · simp only [Pattern.bulky, Pattern.firm] at hb ⊢
        rw [bulkyFirm] at hb
        simp only [Bool.or_eq_true, Bool.and_eq_true] at hb ⊢
        refine hb.imp id fun hb => ⟨?_, hb⟩
        have : ∀ ps : List (Pattern D V), bulkyFirm ps = true → firmAny ps = true := by
          intro ps
          induction ps with
          | nil => simp [bulkyFirm]
          | cons a ps ih => simp only [bulkyFirm, firmAny, Bool.or_eq_true, Bool.and_eq_true]
                            exact fun h => h.imp (fun h => h.1) ih
        exact this _ hb
    · intro Pre
      simp only [compileVec]
      refine .bind (ih.nof Pre) (ih.slot Pre) fun r => .bind (h.nof _) (h.slot _) fun l => ?_
      exact nof_choice (fun w hp => hp.2.ex) (fun w hp => hp.1.2.ex)

theorem safe_vecSeq {op : Nat → Nat → SM D V Nat} {K : List (Pattern D V) → Pattern D V}
    (hK : ∀ ps, (K ps).aliases = (if bulkyAny ps then [] else aliasesL ps) ∧ (K ps).firm = firmAll ps ∧
      (K ps).bulky = bulkyAny ps)
    (hop : ∀ {A1 A2 : List Nat} {f1 f2 b1 b2 : Bool} {l r : Nat} {Pre : World D V → Prop},
      (∀ w, Pre w → SlotG A1 f1 b1 l w) → (∀ w, Pre w → SlotG A2 f2 b2 r w) →
      OkC env stk Pre (op l r)
        (fun w i => SlotG (if b1 || b2 then [] else A1 ++ A2) (f1 && f2) (b1 || b2) i w))
    (hnf : ∀ {Pre : World D V → Prop} {l r : Nat}, (∀ w, Pre w → ∃ P, w.lk l = some P) →
      (∀ w, Pre w → ∃ P, w.lk r = some P) → NoF env stk Pre (op l r))
    {c : Pattern D V → SM D V Nat} : ∀ (ps : List (Pattern D V)), ps ≠ [] →
    (∀ p ∈ ps, Safe env stk (c p) p) → Safe env stk (compileVec c op ps) (K ps)
  | [], h, _ => absurd rfl h
  | [p], _, hc => by
    have h := hc p (by simp)
    obtain ⟨k1, k2, k3⟩ := hK [p]
    refine ⟨fun Pre => (h.slot Pre).mono (fun _ h => h) fun w i _ h => ?_, h.nof⟩
    refine ⟨h.ex, fun n hn => ?_, fun hf => h.fi ?_, fun hb => h.bu ?_⟩
    · have hff : p.bulky = false := by
        cases hp : p.bulky with
        | false => rfl
        | true => exact absurd hn ((h.bu hp).2 n)
      rw [k1]
      simp [bulkyAny, aliasesL, hff, h.al n hn]
    · rw [k2] at hf; simpa [firmAll] using hf
    · rw [k3] at hb; simpa [bulkyAny] using hb
  | p :: q :: ps, _, hc => by
    have h := hc p (by simp)
    have ih := safe_vecSeq hK hop hnf (q :: ps) (by simp) (fun p hp => hc p (by simp_all))
    obtain ⟨k1, k2, k3⟩ := hK (p :: q :: ps)
    obtain ⟨j1, j2, j3⟩ := hK (q :: ps)
    constructor
    · intro Pre
      simp only [compileVec]
      refine (ih.slot Pre).bind fun r => (h.slot _).bind fun l => ?_
      refine (hop (fun w hp => hp.2) (fun w hp => hp.1.2)).mono (fun _ h => h) fun w i _ hs => ?_
      refine hs.weaken (fun n hn => ?_) (fun hf => ?_) (fun hb => ?_)
      · rw [k1]
        rw [j1, j3] at hn
        rw [bulkyAny, aliasesL]
        by_cases h1 : (p.bulky || bulkyAny (q :: ps)) = true
        · rw [if_pos h1] at hn; cases hn
        · rw [if_neg h1] at hn ⊢
          simp only [Bool.or_eq_true, not_or, Bool.not_eq_true] at h1
          rw [h1.2] at hn
          simpa using hn
      · rw [k2] at hf; rw [j2]; simpa [firmAll] using hf
      · rw [k3] at hb; rw [j3]; simpa [bulkyAny] using hb
    · intro Pre
      simp only [compileVec]
      refine .bind (ih.nof Pre) (ih.slot Pre) fun r => .bind (h.nof _) (h.slot _) fun l => ?_
      exact hnf (fun w hp => hp.2.ex) (fun w hp => hp.1.2.ex)

mutual
theorem aliases_crefs : ∀ (p : Pattern D V), ∀ n ∈ p.aliases, n ∈ crefs p
  | .choice ps, n, h => by
    simp only [Pattern.aliases] at h
    split at h
    · cases h
    · simp only [crefs]; exact aliasesL_crefsL ps n h
  | .interleave ps, n, h => by
    simp only [Pattern.aliases] at h
    split at h
    · cases h
    · simp only [crefs]; exact aliasesL_crefsL ps n h
  | .group ps, n, h => by
    simp only [Pattern.aliases] at h
    split at h
    · cases h
    · simp only [crefs]; exact aliasesL_crefsL ps n h
  | .ref m, n, h => by simpa [crefs, Pattern.aliases] using h
  | .mixed _, n, h => by simp [Pattern.aliases] at h
  | .optional _, n, h => by simp [Pattern.aliases] at h
  | .empty, n, h => by simp [Pattern.aliases] at h
  | .text, n, h => by simp [Pattern.aliases] at h
  | .notAllowed, n, h => by simp [Pattern.aliases] at h
  | .zeroOrMore _, n, h => by simp [Pattern.aliases] at h
  | .oneOrMore _, n, h => by simp [Pattern.aliases] at h
  | .attr _ _, n, h => by simp [Pattern.aliases] at h
  | .element _ _, n, h => by simp [Pattern.aliases] at h
  | .datatypeValue _, n, h => by simp [Pattern.aliases] at h
  | .datatypeName _, n, h => by simp [Pattern.aliases] at h
  | .datatypeNameExcept _ _, n, h => by simp [Pattern.aliases] at h
  | .list _, n, h => by simp [Pattern.aliases] at h
theorem aliasesL_crefsL : ∀ (ps : List (Pattern D V)), ∀ n ∈ aliasesL ps, n ∈ crefsL ps
  | [], n, h => by simp [aliasesL] at h
  | p :: ps, n, h => by
    simp only [aliasesL, crefsL, List.mem_append] at *
    exact h.imp (aliases_crefs p n) (aliasesL_crefsL ps n)
end

section
variable {L : Lib D V} {Q : Pattern D V → Prop} {c : Bool}

theorem safe_compile (hQ : ∀ p, Q p → WF L env Q c false true p) : ∀ (fuel : Nat) (p : Pattern D V) (stk : List Nat),
    Pos L env Q c p → Below env stk p → (∀ n, Uses env p n → NotAlias env n) →
    Safe env stk (compile env fuel p) p
  | 0, p, stk, _, _, _ => ⟨fun _ => OkC.fault, fun _ st _ _ e h => by simp [compile] at h; exact Or.inl h.symm⟩
  | fuel + 1, p, stk, hp, hb, ha => by
    have sub : ∀ q : Pattern D V, (∀ m ∈ q.refs, m ∈ p.refs) → Pos L env Q c q →
        Safe env stk (compile env fuel q) q := fun q hs hq =>
      safe_compile hQ fuel q stk hq (hb.sub hs) fun n hn => ha n (hn.sub hs)
    cases p with
    | choice ps =>
      refine safe_vecChoice ps ?_ fun q hq => sub q (fun m hm => by
        simp only [Pattern.refs]; exact refsL_mem hq hm) (hp.sub (fun s l h => ?_) fun h => ?_)
      · rcases hp with ⟨s, l, h⟩ | h
        · cases h with | choice h _ => exact h
        · cases h with | choice h _ => exact h
      · cases h with | choice _ h => exact ⟨_, _, h q hq⟩
      · cases h with | choice _ h => exact h q hq
    | interleave ps =>
      refine safe_vecSeq (K := .interleave) (fun ps => ⟨by simp only [Pattern.aliases], by simp only [Pattern.firm],
        by simp only [Pattern.bulky]⟩) slotG_interleave nof_interleave ps ?_ fun q hq => sub q (fun m hm => by
        simp only [Pattern.refs]; exact refsL_mem hq hm) (hp.sub (fun s l h => ?_) fun h => ?_)
      · rcases hp with ⟨s, l, h⟩ | h
        · cases h with | interleave h _ => exact h
        · cases h
      · cases h with | interleave _ h _ => exact ⟨_, _, h q hq⟩
      · cases h
    | group ps =>
      refine safe_vecSeq (K := .group) (fun ps => ⟨by simp only [Pattern.aliases], by simp only [Pattern.firm],
        by simp only [Pattern.bulky]⟩) slotG_group nof_group ps ?_ fun q hq => sub q (fun m hm => by
        simp only [Pattern.refs]; exact refsL_mem hq hm) (hp.sub (fun s l h => ?_) fun h => ?_)
      · rcases hp with ⟨s, l, h⟩ | h
        · cases h with | group h _ => exact h
        · cases h
      · cases h with | group _ h => exact ⟨_, _, h q hq⟩
      · cases h
    | empty => exact ⟨fun Pre => slotG_push (P := .empty) rfl (fun _ => nofun) (fun h => by simp [Pattern.bulky] at h), fun _ => nof_push _⟩
    | text => exact ⟨fun Pre => slotG_push (P := .text) rfl (fun _ => nofun) (fun _ => nofun), fun _ => nof_push _⟩
    | notAllowed => exact ⟨fun Pre => slotG_push (P := .notAllowed) rfl (fun h => by simp [Pattern.firm] at h) (fun _ => nofun), fun _ => nof_push _⟩
    | datatypeValue v => exact ⟨fun Pre => slotG_push (P := .datatypeValue v) rfl (fun _ => nofun) (fun _ => nofun), fun _ => nof_push _⟩
    | datatypeName d => exact ⟨fun Pre => slotG_push (P := .datatype d) rfl (fun _ => nofun) (fun _ => nofun), fun _ => nof_push _⟩
    | mixed q =>
      have h := sub q (fun m hm => hm) (hp.sub (fun s l h => by
        cases h with | mixed h _ => exact ⟨_, _, h⟩) fun h => by cases h)
      constructor
      · intro Pre
        refine (h.slot Pre).bind fun i => ?_
        unfold mixed
        refine (slotG_push (A := []) (f := true) (b := true) (P := .text) rfl (fun _ => nofun) (fun _ => nofun)).bind
          fun t => ?_
        refine (slotG_interleave (fun w hp => hp.1.2) (fun w hp => hp.2)).mono (fun _ h => h) fun w i _ hs => ?_
        exact hs.weaken (by simp) (by simp [Pattern.firm]) (by simp)
      · intro Pre
        refine .bind (h.nof Pre) (h.slot Pre) fun i => ?_
        unfold mixed
        refine .bind (nof_push _) (okc_push .text rfl) fun t => ?_
        exact nof_interleave (fun w hp => hp.1.2.ex) (fun w hp => ⟨_, hp.2⟩)
    | optional q =>
      have h := sub q (fun m hm => hm) (hp.sub (fun s l h => by
        cases h with | optional h => exact ⟨_, _, h⟩) fun h => by cases h)
      constructor
      · intro Pre
        refine (h.slot Pre).bind fun i => ?_
        refine (slotG_push (A := []) (f := true) (b := false) (P := .empty) rfl (fun _ => nofun)
          (fun h => by cases h)).bind fun t => ?_
        refine (slotG_choice (fun w hp => hp.1.2) (fun w hp => hp.2)).mono (fun _ h => h) fun w i _ hs => ?_
        exact hs.weaken (by simp) (by simp) (by simp [Pattern.bulky])
      · intro Pre
        refine .bind (h.nof Pre) (h.slot Pre) fun i => ?_
        refine .bind (nof_push _) (okc_push .empty rfl) fun t => ?_
        exact nof_choice (fun w hp => hp.1.2.ex) (fun w hp => ⟨_, hp.2⟩)
    | zeroOrMore q =>
      have h := sub q (fun m hm => hm) (hp.sub (fun s l h => by
        cases h with | zeroOrMore h => exact ⟨_, _, h⟩) fun h => by cases h)
      constructor
      · intro Pre
        refine (h.slot Pre).bind fun i => ?_
        refine (slotG_oneOrMore (A := []) (f := true) (b := true)).bind fun o => ?_
        refine (slotG_push (A := []) (f := true) (b := false) (P := .empty) rfl (fun _ => nofun)
          (fun h => by cases h)).bind fun t => ?_
        refine (slotG_choice (fun w hp => hp.1.2) (fun w hp => hp.2)).mono (fun _ h => h) fun w i _ hs => ?_
        exact hs.weaken (by simp) (by simp) (by simp)
      · intro Pre
        refine .bind (h.nof Pre) (h.slot Pre) fun i => ?_
        refine .bind (nof_oneOrMore fun w hp => hp.2.ex) (slotG_oneOrMore (A := []) (f := true) (b := true)) fun o => ?_
        refine .bind (nof_push _) (okc_push .empty rfl) fun t => ?_
        exact nof_choice (fun w hp => hp.1.2.ex) (fun w hp => ⟨_, hp.2⟩)
    | oneOrMore q =>
      have h := sub q (fun m hm => hm) (hp.sub (fun s l h => by
        cases h with | oneOrMore h => exact ⟨_, _, h⟩) fun h => by cases h)
      exact ⟨fun Pre => (h.slot Pre).bind fun i => slotG_oneOrMore,
        fun Pre => .bind (h.nof Pre) (h.slot Pre) fun i => nof_oneOrMore fun w hp => hp.2.ex⟩
    | attr nc q =>
      have h := sub q (fun m hm => hm) (hp.sub (fun s l h => by
        cases h with | attr h => exact ⟨_, _, h⟩) fun h => by cases h)
      exact ⟨fun Pre => (h.slot Pre).bind fun i => slotG_push (P := (.attr nc i)) rfl (fun _ => nofun) (fun _ => nofun),
        fun Pre => .bind (h.nof Pre) (h.slot Pre) fun i => nof_push _⟩
    | element nc q =>
      have h := sub q (fun m hm => hm) (hp.sub (fun s l h => by
        cases h with | element h => exact ⟨_, _, hQ _ h⟩) fun h => by cases h)
      exact ⟨fun Pre => (h.slot Pre).bind fun i => slotG_push (P := (.element nc i)) rfl (fun _ => nofun) (fun _ => nofun),
        fun Pre => .bind (h.nof Pre) (h.slot Pre) fun i => nof_push _⟩
    | list q =>
      have h := sub q (fun m hm => hm) (hp.sub (fun s l h => by
        cases h with | list h => exact ⟨_, _, h⟩) fun h => by cases h)
      exact ⟨fun Pre => (h.slot Pre).bind fun i => slotG_push (P := (.list i)) rfl (fun _ => nofun) (fun _ => nofun),
        fun Pre => .bind (h.nof Pre) (h.slot Pre) fun i => nof_push _⟩
    | datatypeNameExcept d q =>
      have h := sub q (fun m hm => hm) (by
        rcases hp with ⟨s, l, h⟩ | h
        · cases h with | dataExcept h => exact Or.inr h
        · cases h with | dataExcept h => exact Or.inr h)
      exact ⟨fun Pre => (h.slot Pre).bind fun i => slotG_push (P := (.datatypeExcept d i)) rfl (fun _ => nofun) (fun _ => nofun),
        fun Pre => .bind (h.nof Pre) (h.slot Pre) fun i => nof_push _⟩
    | ref r =>
      have hcomp := compile_ok (fuel + 1) (.ref r) stk hb (hp.guarded hQ)
      constructor
      · intro Pre
        refine (hcomp Pre).mono (fun _ h => h) fun w i _ h => ?_
        exact ⟨h.2.1, fun n hn => by have := h.2.2 n hn; simpa [crefs, Pattern.aliases] using this,
          fun h => by simp [Pattern.firm] at h, fun h => by simp [Pattern.bulky] at h⟩
      · intro Pre st hi hpre e herr
        have hg := hp.guarded hQ
        have herr' : (match st.refs.lookup r with
          | some id => Pure.pure id
          | none => do
            let ph ← refPlaceholder r
            match env[r]? with
              | some thing => do
                let id ← compile env fuel thing
                resolveRef ph id
                Pure.pure ph
              | none => ST.fault .missingDef : SM D V Nat) st = .error e := herr
        clear herr
        cases hl : st.refs.lookup r with
        | some id => rw [hl] at herr'; simp at herr'
        | none =>
          rw [hl] at herr'
          simp only at herr'
          cases hx : refPlaceholder r st with
          | error e' =>
            have := (ST.bind_of_error hx).symm.trans herr'
            cases this
            unfold refPlaceholder at hx
            cases hpu : push (.placeholder r) st with
            | error e2 =>
              have := (ST.bind_of_error hpu).symm.trans hx
              cases this
              exact nof_push (env := env) (stk := stk) (Pre := fun _ => True) _ st hi (fun _ _ => trivial) _ hpu
            | ok q =>
              have := (ST.bind_of_ok (a := q.1) (s' := q.2) hpu).symm.trans hx
              simp at this
          | ok q =>
            obtain ⟨ph, s1⟩ := q
            have herr := (ST.bind_of_ok hx).symm.trans herr'
            obtain ⟨i1, l1, r1, p1, hnot⟩ := refPlaceholder_inv hi hl hx
            obtain ⟨thing, he, hgt⟩ : ∃ q, env[r]? = some q ∧ ∀ m ∈ crefs q, Guarded env m := by
              cases hg r (.here (by simp [Pattern.refs])) with | mk h1 h2 => exact ⟨_, h1, h2⟩
            rw [he] at herr
            simp only at herr
            have hsub : ∀ k, Uses env thing k → Uses env (.ref r) k := fun k hk =>
              .there (by simp [Pattern.refs]) he hk
            have hb' : Below env (r :: stk) thing := by
              intro m hm
              rcases List.mem_cons.mp hm with rfl | hm
              · exact ⟨thing, he, fun _ h => h⟩
              · obtain ⟨q, hq, hu⟩ := hb m hm
                exact ⟨q, hq, fun k hk => hu k (hsub k hk)⟩
            have hpt : Pos L env Q c thing := hp.sub (fun s l h => by
              cases h with | ref g1 g2 _ => rw [he] at g1; cases g1; exact ⟨_, _, g2⟩) (fun h => by
              cases h with | ref g1 g2 => rw [he] at g1; cases g1; exact g2)
            have hs := safe_compile hQ fuel thing (r :: stk) hpt hb' fun n hn => ha n (hsub n hn)
            cases h2 : compile env fuel thing s1 with
            | error e2 =>
              have := (ST.bind_of_error h2).symm.trans herr
              cases this
              exact hs.nof (fun _ => True) s1 i1 (fun _ _ => trivial) _ h2
            | ok q2 =>
              obtain ⟨id, s2⟩ := q2
              have herr := (ST.bind_of_ok h2).symm.trans herr
              obtain ⟨i2, l2, c2⟩ := compile_ok fuel thing (r :: stk) hb' (fun n hn => hg n (hsub n hn))
                (fun _ => True) _ _ _ i1 (fun _ _ => trivial) h2
              obtain ⟨_, _, g2⟩ := hs.slot (fun _ => True) _ _ _ i1 (fun _ _ => trivial) h2
              have gs := g2 _ (LeC.refl _)
              have r2 := l2.refs _ _ r1
              simp only [Store.world] at r2
              -- the definition's own slot is still a placeholder
              obtain ⟨ph', e1, e2⟩ := i2.stack r (by simp)
              rw [r2] at e1; cases e1
              -- the body is not a placeholder
              have hnp : ∀ n, s2.lk id ≠ some (.placeholder n) := by
                intro n hn
                have hal := gs.al n hn
                obtain ⟨hmem, hrf⟩ := i2.slot id n hn
                rcases List.mem_cons.mp hmem with rfl | hmem
                · exact (hg n (.here (by simp [Pattern.refs]))).irrefl he (aliases_crefs _ _ hal)
                · obtain ⟨q, hq, hu⟩ := hb n hmem
                  exact ha r (.here (by simp [Pattern.refs])) thing n q he hal hq
                    (hu r (.here (by simp [Pattern.refs])))
              obtain ⟨P, hP⟩ := gs.ex
              have hPid : patt id s2 = .ok (P, s2) := by
                simp only [Store.world, Store.lk] at hP
                simp only [patt, hP]
              have hpp : P.isPlaceholder = false := by
                rcases not_ph_cases P with h | ⟨n, rfl⟩
                · exact h
                · exact absurd hP (hnp n)
              have hslot : patt ph s2 = .ok (.placeholder r, s2) := by
                simp only [Store.lk] at e2
                simp only [patt, e2]
              have hres : ∃ s3, resolveRef ph id s2 = .ok ((), s3) := by
                unfold resolveRef
                by_cases hne : ph = id
                · rw [if_pos hne]; exact ⟨s2, rfl⟩
                · rw [if_neg hne]
                  rw [ST.bind_of_ok hPid, if_neg (by simp [hpp]), ST.bind_of_ok hslot]
                  exact ⟨_, rfl⟩
              obtain ⟨s3, h3⟩ := hres
              have := (ST.bind_of_ok h3).symm.trans herr
              simp at this

/-- on a well-formed schema without aliases of users, compiling can only hit the pattern limit -/
theorem compile_fault {start : Pattern D V} (hs : SchemaOK L env start c) (ha : NoAlias env start)
    {fuel : Nat} {e} (h : compile env fuel start Store.init = .error e) : e = .fuel ∨ e = .capacity := by
  obtain ⟨Q, hQ, hw⟩ := hs
  have hi : Inv env [] (Store.init : Store D V) := by
    refine ⟨?_, ?_, ?_, ?_, ?_⟩ <;> simp [Store.init, MemoOK, Store.lk]
  exact (safe_compile hQ fuel start [] (Or.inl ⟨_, _, hw⟩) (fun m hm => by cases hm) ha).nof (fun _ => True)
    _ hi (fun _ _ => trivial) e h
end
end Verif
