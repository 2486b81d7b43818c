import Verif.Proof.TextD
/-
Correctness of `apply_after` and of the start-tag-open derivative.
-/
set_option linter.unusedSectionVars false
namespace Verif
variable {D V : Type}
variable {lk : Lk D V} {QE QR : Nat → Prop} {L : Lib D V} {pm : Bool}

theorem AA.ty {F p i m b k1 k2} (h : AA lk F p i) (hm : m.up = m)
    (hF : ∀ j i, F j i → TyI lk QE QR m b j k1 → TyI lk QE QR m b i k2) :
    Ty lk QE QR m.lo b p (k1 + 1) → TyI lk QE QR m.lo b i (k2 + 1) := by
  induction h with
  | after h1 h2 =>
    intro ht
    cases ht with
    | after g1 g2 t1 t2 =>
      simp only [Mode.up_lo, hm] at t2
      exact h2.ty ⟨_, g1, t1⟩ (by simp only [Mode.up_lo, hm]; exact hF _ _ h1 ⟨_, g2, t2⟩)
  | choice h1 h2 _ _ h5 ih1 ih2 =>
    intro ht
    cases ht with
    | choice g1 g2 t1 t2 fl =>
      rw [g1] at h1; cases h1; rw [g2] at h2; cases h2
      exact h5.ty (ih1 t1) (ih2 t2)
  | notAllowed h => intro _; exact tyI_notAllowed h

theorem AA.sem {F p i m b k1} {R : List (List Node) → List (List Node) → Prop}
    (h : AA lk F p i) (hm : m.up = m)
    (hF : ∀ j i, F j i → TyI lk QE QR m b j k1 →
      ∀ cs, SI L lk pm i [] cs ↔ ∃ cs', R cs' cs ∧ SI L lk pm j [] cs') :
    Ty lk QE QR m.lo b p (k1 + 1) → ∀ {a c0 cs},
      SI L lk pm i a (c0 :: cs) ↔ ∃ cs', R cs' cs ∧ S L lk pm p a (c0 :: cs') := by
  induction h with
  | after h1 h2 =>
    intro ht a c0 cs
    cases ht with
    | after g1 g2 t1 t2 =>
      simp only [Mode.up_lo, hm] at t2
      rw [h2.sem]
      constructor
      · rintro ⟨c, cs', he, ⟨x, hx, s1⟩, s2⟩
        cases he
        obtain ⟨cs'', hR, y, hy, s2⟩ := (hF _ _ h1 ⟨_, g2, t2⟩ _).mp s2
        exact ⟨cs'', hR, .after hx hy s1 s2⟩
      · rintro ⟨cs', hR, s⟩
        cases s with
        | after e1 e2 s1 s2 =>
          exact ⟨_, _, rfl, ⟨_, e1, s1⟩, (hF _ _ h1 ⟨_, g2, t2⟩ _).mpr ⟨cs', hR, _, e2, s2⟩⟩
  | choice h1 h2 _ _ h5 ih1 ih2 =>
    intro ht a c0 cs
    cases ht with
    | choice g1 g2 t1 t2 fl =>
      rw [g1] at h1; cases h1; rw [g2] at h2; cases h2
      rw [h5.sem, ih1 t1, ih2 t2]
      constructor
      · rintro (⟨cs', hR, s⟩ | ⟨cs', hR, s⟩)
        · exact ⟨cs', hR, .choiceL g1 s⟩
        · exact ⟨cs', hR, .choiceR g2 s⟩
      · rintro ⟨cs', hR, s⟩
        cases s with
        | choiceL e1 s => rw [g1] at e1; cases e1; exact .inl ⟨cs', hR, s⟩
        | choiceR e1 s => rw [g2] at e1; cases e1; exact .inr ⟨cs', hR, s⟩
  | notAllowed h =>
    intro ht a c0 cs
    constructor
    · intro h'; exact absurd h' (SI.notAllowed h)
    · rintro ⟨_, _, h'⟩; exact absurd h' S.notAllowed

/-! ### the four continuations -/

theorem MoreOf.ty {pid j i m b} (h : MoreOf lk pid j i) (hm : m.up = m)
    (hp : TyI lk QE QR m b pid 1) (hq : QR pid) (hj : TyI lk QE QR m b j 1) :
    TyI lk QE QR m b i 1 := by
  obtain ⟨o, e, c, h1, h2, h3, h4⟩ := h
  exact h4.ty hj (h3.ty (h1.ty (by rw [hm]; exact hp) hq) (tyI_empty h2))

theorem MoreOf.sem {pid j i m b f} (h : MoreOf lk pid j i) (hm : m.up = m)
    (hp : TyI lk QE QR m b pid 1) (hq : QR pid) (hj : TyI lk QE QR m b j 1) (cs) :
    SI L lk pm i [] cs ↔ ∃ cs', (∃ c1 c2, cs = [c1 ++ c2] ∧ cs' = [c1] ∧
      (c2 = [] ∨ S L lk pm (.oneOrMore pid f) [] [c2])) ∧ SI L lk pm j [] cs' := by
  obtain ⟨o, e, c, h1, h2, h3, h4⟩ := h
  have tc := h3.ty (h1.ty (by rw [hm]; exact hp) hq) (tyI_empty h2)
  rw [h4.sem hj tc]
  constructor
  · rintro ⟨a1, a2, c1, c2, rfl, s1, s2, hp⟩
    obtain ⟨rfl, rfl⟩ := perm_nil_append hp
    refine ⟨_, ⟨c1, c2, rfl, rfl, ?_⟩, s1⟩
    rcases h3.sem.mp s2 with s2 | s2
    · exact .inr ((OneOf.sem h1).mp s2)
    · obtain ⟨_, he⟩ := (SI.empty h2).mp s2
      simp at he; exact .inl he
  · rintro ⟨_, ⟨c1, c2, rfl, rfl, h⟩, s1⟩
    refine ⟨[], [], c1, c2, rfl, s1, ?_, by simp⟩
    rcases h with rfl | h
    · exact h3.sem.mpr (.inr ((SI.empty h2).mpr ⟨rfl, rfl⟩))
    · exact h3.sem.mpr (.inl ((OneOf.sem h1).mpr h))

theorem GroupOf.contSem {r j i m b} (h : GroupOf lk j r i)
    (hr : TyI lk QE QR m b r 1) (hj : TyI lk QE QR m b j 1) (cs) :
    SI L lk pm i [] cs ↔ ∃ cs', (∃ c1 c2, cs = [c1 ++ c2] ∧ cs' = [c1] ∧
      SI L lk pm r [] [c2]) ∧ SI L lk pm j [] cs' := by
  rw [h.sem hj hr]
  constructor
  · rintro ⟨a1, a2, c1, c2, rfl, s1, s2, hp⟩
    obtain ⟨rfl, rfl⟩ := perm_nil_append hp
    exact ⟨_, ⟨c1, c2, rfl, rfl, s2⟩, s1⟩
  · rintro ⟨_, ⟨c1, c2, rfl, rfl, h⟩, s1⟩
    exact ⟨[], [], c1, c2, rfl, s1, h, by simp⟩

theorem InterOf.contSem {r j i m b} (h : InterOf lk j r i)
    (hr : TyI lk QE QR m b r 1) (hj : TyI lk QE QR m b j 1) (cs) :
    SI L lk pm i [] cs ↔ ∃ cs', (∃ c1 c2 c, cs = [c] ∧ cs' = [c1] ∧ Shuffle c1 c2 c ∧
      SI L lk pm r [] [c2]) ∧ SI L lk pm j [] cs' := by
  rw [h.sem hj hr]
  constructor
  · rintro ⟨a1, a2, c1, c2, c, rfl, s1, s2, hp, hs⟩
    obtain ⟨rfl, rfl⟩ := perm_nil_append hp
    exact ⟨_, ⟨c1, c2, c, rfl, rfl, hs, s2⟩, s1⟩
  · rintro ⟨_, ⟨c1, c2, c, rfl, rfl, hs, h⟩, s1⟩
    exact ⟨[], [], c1, c2, c, rfl, s1, h, by simp, hs⟩

theorem InterOf.contSem' {l j i m b} (h : InterOf lk l j i)
    (hl : TyI lk QE QR m b l 1) (hj : TyI lk QE QR m b j 1) (cs) :
    SI L lk pm i [] cs ↔ ∃ cs', (∃ c1 c2 c, cs = [c] ∧ cs' = [c2] ∧ Shuffle c1 c2 c ∧
      SI L lk pm l [] [c1]) ∧ SI L lk pm j [] cs' := by
  rw [h.sem hl hj]
  constructor
  · rintro ⟨a1, a2, c1, c2, c, rfl, s1, s2, hp, hs⟩
    obtain ⟨rfl, rfl⟩ := perm_nil_append hp
    exact ⟨_, ⟨c1, c2, c, rfl, rfl, hs, s1⟩, s2⟩
  · rintro ⟨_, ⟨c1, c2, c, rfl, rfl, hs, h⟩, s1⟩
    exact ⟨[], [], c1, c2, c, rfl, h, s1, by simp, hs⟩

theorem AfterOf.contSem {r j i m b} (h : AfterOf lk j r i) (_hj : TyI lk QE QR m b j 1) (cs) :
    SI L lk pm i [] cs ↔ ∃ cs', (∃ c' cs0, cs = c' :: cs0 ∧ cs' = [c'] ∧ SI L lk pm r [] cs0) ∧
      SI L lk pm j [] cs' := by
  rw [h.sem]
  constructor
  · rintro ⟨c, cs', rfl, s1, s2⟩
    exact ⟨_, ⟨c, cs', rfl, rfl, s2⟩, s1⟩
  · rintro ⟨_, ⟨c, cs', rfl, rfl, s2⟩, s1⟩
    exact ⟨c, cs', rfl, s1, s2⟩

/-! ### typing -/

theorem STD.ty {nm p i m} (h : STD lk nm p i) (hm : m.up = m)
    (hE : ∀ i, QE i → TyI lk QE QR m.lo true i 1) :
    ∀ {k}, Ty lk QE QR m true p k → TyI lk QE QR m.lo true i (k + 1) := by
  induction h with
  | choice h1 h2 _ _ h5 ih1 ih2 =>
    intro k ht
    cases ht with
    | choice g1 g2 t1 t2 fl =>
      rw [g1] at h1; cases h1; rw [g2] at h2; cases h2
      exact h5.ty (ih1 t1) (ih2 t2)
  | oneOrMore h1 _ h3 h4 ih =>
    intro k ht
    cases ht with
    | oneOrMore g1 t1 hq fl =>
      rw [g1] at h1; cases h1
      rw [hm] at t1
      exact h4.ty hm (fun j i hF hj => hF.ty hm ⟨_, g1, t1⟩ hq hj) ((ih t1).get h3)
  | interleave h1 h2 _ h4 h5 _ h7 h8 h9 ih1 ih2 =>
    intro k ht
    cases ht with
    | interleave g1 g2 t1 t2 fl =>
      rw [g1] at h1; cases h1; rw [g2] at h2; cases h2
      exact h9.ty
        (h5.ty hm (fun j i hF hj => hF.ty hj ⟨_, g2, t2⟩) ((ih1 t1).get h4))
        (h8.ty hm (fun j i hF hj => hF.ty ⟨_, g1, t1⟩ hj) ((ih2 t2).get h7))
  | groupN h1 h2 _ _ h5 h6 _ h8 ih1 ih2 =>
    intro k ht
    cases ht with
    | group g1 g2 t1 t2 fl =>
      rw [g1] at h1; cases h1; rw [g2] at h2; cases h2
      exact h8.ty
        (h6.ty hm (fun j i hF hj => hF.ty hj ⟨_, g2, t2⟩) ((ih1 t1).get h5)) (ih2 t2)
  | group h1 h2 _ _ h5 h6 ih1 =>
    intro k ht
    cases ht with
    | group g1 g2 t1 t2 fl =>
      rw [g1] at h1; cases h1; rw [g2] at h2; cases h2
      exact h6.ty hm (fun j i hF hj => hF.ty hj ⟨_, g2, t2⟩) ((ih1 t1).get h5)
  | element _ h2 h3 =>
    intro k ht
    cases ht with
    | element hq => exact h3.ty (hE _ hq) (tyI_empty h2)
  | elementNo _ h => intro k ht; exact tyI_notAllowed h
  | after h1 _ h3 h4 ih =>
    intro k ht
    cases ht with
    | after g1 g2 t1 t2 =>
      rw [g1] at h1; cases h1
      exact h4.ty hm (fun j i hF hj => hF.ty hj ⟨_, g2, t2⟩) ((ih t1).get h3)
  | other _ h => intro k ht; exact tyI_notAllowed h

/-! ### soundness -/

theorem STD.sound {nm p i m} (h : STD lk nm p i) (hm : m.up = m)
    (hE : ∀ i, QE i → TyI lk QE QR m.lo true i 1) :
    ∀ {k}, Ty lk QE QR m true p k → ∀ {a c0 c cs kids}, SI L lk pm i a (c0 :: c :: cs) →
      WeakP pm kids c0 → S L lk pm p [] ((.elem nm a kids :: c) :: cs) := by
  induction h with
  | choice h1 h2 _ _ h5 ih1 ih2 =>
    intro k ht a c0 c cs kids hs hw
    cases ht with
    | choice g1 g2 t1 t2 fl =>
      rw [g1] at h1; cases h1; rw [g2] at h2; cases h2
      rcases h5.sem.mp hs with hs | hs
      · exact .choiceL g1 (ih1 t1 hs hw)
      · exact .choiceR g2 (ih2 t2 hs hw)
  | @oneOrMore j f p d dp i h1 hd h3 h4 ih =>
    intro k ht a c0 c cs kids hs hw
    cases ht with
    | oneOrMore g1 t1 hq fl =>
      rw [g1] at h1; cases h1
      rw [hm] at t1
      have td := (hd.ty hm hE t1).get h3
      obtain ⟨_, ⟨c1, c2, he, rfl, h2⟩, s⟩ := (h4.sem hm
        (fun j i hF hj => hF.sem (f := f) hm ⟨_, g1, t1⟩ hq hj) td).mp hs
      simp at he; obtain ⟨rfl, rfl⟩ := he
      have s' := ih t1 ⟨_, h3, s⟩ hw
      rcases h2 with rfl | h2
      · simpa using S.one g1 s'
      · exact S.more (c1 := .elem _ _ _ :: c1) g1 s' h2 (by simp)
  | interleave h1 h2 hd1 h4 h5 hd2 h7 h8 h9 ih1 ih2 =>
    intro k ht a c0 c cs kids hs hw
    cases ht with
    | interleave g1 g2 t1 t2 fl =>
      rw [g1] at h1; cases h1; rw [g2] at h2; cases h2
      have td1 := (hd1.ty hm hE t1).get h4
      have td2 := (hd2.ty hm hE t2).get h7
      rcases h9.sem.mp hs with hs | hs
      · obtain ⟨_, ⟨c1, c2, c', he, rfl, hsh, y, hy, s2⟩, s⟩ := (h5.sem hm
          (fun j i hF hj => hF.contSem ⟨_, g2, t2⟩ hj) td1).mp hs
        simp at he; obtain ⟨rfl, rfl⟩ := he
        rw [g2] at hy; cases hy
        exact .interleave g1 g2 (ih1 t1 ⟨_, h4, s⟩ hw) s2 (by simp) (.left hsh)
      · obtain ⟨_, ⟨c1, c2, c', he, rfl, hsh, y, hy, s2⟩, s⟩ := (h8.sem hm
          (fun j i hF hj => hF.contSem' ⟨_, g1, t1⟩ hj) td2).mp hs
        simp at he; obtain ⟨rfl, rfl⟩ := he
        rw [g1] at hy; cases hy
        exact .interleave g1 g2 s2 (ih2 t2 ⟨_, h7, s⟩ hw) (by simp) (.right hsh)
  | groupN h1 h2 hn hd1 h5 h6 hd2 h8 ih1 ih2 =>
    intro k ht a c0 c cs kids hs hw
    cases ht with
    | group g1 g2 t1 t2 fl =>
      rw [g1] at h1; cases h1; rw [g2] at h2; cases h2
      have td1 := (hd1.ty hm hE t1).get h5
      rcases h8.sem.mp hs with hs | hs
      · obtain ⟨_, ⟨c1, c2, he, rfl, y, hy, s2⟩, s⟩ := (h6.sem hm
          (fun j i hF hj => hF.contSem ⟨_, g2, t2⟩ hj) td1).mp hs
        simp at he; obtain ⟨rfl, rfl⟩ := he
        rw [g2] at hy; cases hy
        exact S.group (c1 := .elem _ _ _ :: c1) g1 g2 (ih1 t1 ⟨_, h5, s⟩ hw) s2 (by simp)
      · have hl := hs.len (hd2.ty hm hE t2)
        simp at hl; subst hl
        have hn' := t1.null (L := L) (pm := pm) hn
        exact S.group (c1 := []) g1 g2 hn' (ih2 t2 hs hw) (by simp)
  | group h1 h2 hn hd1 h5 h6 ih1 =>
    intro k ht a c0 c cs kids hs hw
    cases ht with
    | group g1 g2 t1 t2 fl =>
      rw [g1] at h1; cases h1; rw [g2] at h2; cases h2
      have td1 := (hd1.ty hm hE t1).get h5
      obtain ⟨_, ⟨c1, c2, he, rfl, y, hy, s2⟩, s⟩ := (h6.sem hm
          (fun j i hF hj => hF.contSem ⟨_, g2, t2⟩ hj) td1).mp hs
      simp at he; obtain ⟨rfl, rfl⟩ := he
      rw [g2] at hy; cases hy
      exact S.group (c1 := .elem _ _ _ :: c1) g1 g2 (ih1 t1 ⟨_, h5, s⟩ hw) s2 (by simp)
  | element h1 h2 h3 =>
    intro k ht a c0 c cs kids hs hw
    obtain ⟨c', cs', he, ⟨y, hy, s1⟩, s2⟩ := h3.sem.mp hs
    simp at he; obtain ⟨rfl, rfl⟩ := he
    obtain ⟨_, he⟩ := (SI.empty h2).mp s2
    simp at he; obtain ⟨rfl, rfl⟩ := he
    exact .element h1 hy hw s1
  | elementNo _ h => intro k ht a c0 c cs kids hs; exact absurd hs (SI.notAllowed h)
  | after h1 hd h3 h4 ih =>
    intro k ht a c0 c cs kids hs hw
    cases ht with
    | after g1 g2 t1 t2 =>
      rw [g1] at h1; cases h1
      have td1 := (hd.ty hm hE t1).get h3
      obtain ⟨_, ⟨c1, cs0, he, rfl, y, hy, s2⟩, s⟩ := (h4.sem hm
          (fun j i hF hj => hF.contSem hj) td1).mp hs
      simp at he; obtain ⟨rfl, rfl⟩ := he
      exact .after g1 hy (ih t1 ⟨_, h3, s⟩ hw) s2
  | other _ h => intro k ht a c0 c cs kids hs; exact absurd hs (SI.notAllowed h)

/-! ### completeness -/

theorem STD.complete {nm p i} (h : STD lk nm p i)
    (hE : ∀ i, QE i → TyI lk QE QR .loose true i 1) :
    ∀ {k}, Ty lk QE QR .strict true p k → ∀ {a c cs kids},
      S L lk pm p [] ((.elem nm a kids :: c) :: cs) →
      ∃ c0, WeakP pm kids c0 ∧ SI L lk pm i a (c0 :: c :: cs) := by
  induction h with
  | choice h1 h2 _ _ h5 ih1 ih2 =>
    intro k ht a c cs kids hs
    cases ht with
    | choice g1 g2 t1 t2 fl =>
      rw [g1] at h1; cases h1; rw [g2] at h2; cases h2
      cases hs with
      | choiceL e1 s =>
        rw [g1] at e1; cases e1
        obtain ⟨c0, hw, s⟩ := ih1 t1 s
        exact ⟨c0, hw, h5.sem.mpr (.inl s)⟩
      | choiceR e1 s =>
        rw [g2] at e1; cases e1
        obtain ⟨c0, hw, s⟩ := ih2 t2 s
        exact ⟨c0, hw, h5.sem.mpr (.inr s)⟩
  | @oneOrMore j f p d dp i h1 hd h3 h4 ih =>
    intro k ht a c cs kids hs
    have hl := hs.len ht
    cases ht with
    | oneOrMore g1 t1 hq fl =>
      rw [g1] at h1; cases h1
      simp at hl; subst hl
      have td := (hd.ty (m := .strict) rfl hE t1).get h3
      obtain ⟨c1, c2, rfl, s1, s2⟩ := hs.oneOrMore_split g1 rfl rfl
      obtain ⟨c0, hw, y, hy, s⟩ := ih t1 s1
      rw [h3] at hy; cases hy
      exact ⟨c0, hw, (h4.sem (m := .strict) rfl
        (fun j i hF hj => hF.sem (f := f) rfl ⟨_, g1, t1⟩ hq hj) td).mpr
        ⟨_, ⟨c1, c2, rfl, rfl, s2⟩, s⟩⟩
  | interleave h1 h2 hd1 h4 h5 hd2 h7 h8 h9 ih1 ih2 =>
    intro k ht a c cs kids hs
    cases ht with
    | interleave g1 g2 t1 t2 fl =>
      rw [g1] at h1; cases h1; rw [g2] at h2; cases h2
      have td1 := (hd1.ty (m := .strict) rfl hE t1).get h4
      have td2 := (hd2.ty (m := .strict) rfl hE t2).get h7
      cases hs with
      | interleave e1 e2 s1 s2 hp hsh =>
        rw [g1] at e1; cases e1; rw [g2] at e2; cases e2
        obtain ⟨rfl, rfl⟩ := perm_nil_append hp
        cases hsh with
        | left hsh =>
          obtain ⟨c0, hw, y, hy, s⟩ := ih1 t1 s1
          rw [h4] at hy; cases hy
          exact ⟨c0, hw, h9.sem.mpr (.inl ((h5.sem (m := .strict) rfl
            (fun j i hF hj => hF.contSem ⟨_, g2, t2⟩ hj) td1).mpr
            ⟨_, ⟨_, _, c, rfl, rfl, hsh, _, g2, s2⟩, s⟩))⟩
        | right hsh =>
          obtain ⟨c0, hw, y, hy, s⟩ := ih2 t2 s2
          rw [h7] at hy; cases hy
          exact ⟨c0, hw, h9.sem.mpr (.inr ((h8.sem (m := .strict) rfl
            (fun j i hF hj => hF.contSem' ⟨_, g1, t1⟩ hj) td2).mpr
            ⟨_, ⟨_, _, c, rfl, rfl, hsh, _, g1, s1⟩, s⟩))⟩
  | groupN h1 h2 hn hd1 h5 h6 hd2 h8 ih1 ih2 =>
    intro k ht a c cs kids hs
    cases ht with
    | group g1 g2 t1 t2 fl =>
      rw [g1] at h1; cases h1; rw [g2] at h2; cases h2
      have td1 := (hd1.ty (m := .strict) rfl hE t1).get h5
      generalize hcc : (Node.elem nm a kids :: c) :: cs = cc at hs
      cases hs with
      | group e1 e2 s1 s2 hp =>
        rw [g1] at e1; cases e1; rw [g2] at e2; cases e2
        obtain ⟨rfl, rfl⟩ := perm_nil_append hp
        rename_i c1 c2
        simp at hcc
        obtain ⟨hcc, rfl⟩ := hcc
        cases c1 with
        | nil =>
          simp at hcc; subst hcc
          obtain ⟨c0, hw, s⟩ := ih2 t2 s2
          exact ⟨c0, hw, h8.sem.mpr (.inr s)⟩
        | cons y c1 =>
          simp at hcc
          obtain ⟨rfl, rfl⟩ := hcc
          obtain ⟨c0, hw, y, hy, s⟩ := ih1 t1 s1
          rw [h5] at hy; cases hy
          exact ⟨c0, hw, h8.sem.mpr (.inl ((h6.sem (m := .strict) rfl
            (fun j i hF hj => hF.contSem ⟨_, g2, t2⟩ hj) td1).mpr
            ⟨_, ⟨_, _, rfl, rfl, _, g2, s2⟩, s⟩))⟩
  | group h1 h2 hn hd1 h5 h6 ih1 =>
    intro k ht a c cs kids hs
    cases ht with
    | group g1 g2 t1 t2 fl =>
      rw [g1] at h1; cases h1; rw [g2] at h2; cases h2
      have td1 := (hd1.ty (m := .strict) rfl hE t1).get h5
      generalize hcc : (Node.elem nm a kids :: c) :: cs = cc at hs
      cases hs with
      | group e1 e2 s1 s2 hp =>
        rw [g1] at e1; cases e1; rw [g2] at e2; cases e2
        obtain ⟨rfl, rfl⟩ := perm_nil_append hp
        rename_i c1 c2
        simp at hcc
        obtain ⟨hcc, rfl⟩ := hcc
        cases c1 with
        | nil =>
          have := s1.null_flag rfl rfl t1
          rw [hn] at this; cases this
        | cons y c1 =>
          simp at hcc
          obtain ⟨rfl, rfl⟩ := hcc
          obtain ⟨c0, hw, y, hy, s⟩ := ih1 t1 s1
          rw [h5] at hy; cases hy
          exact ⟨c0, hw, (h6.sem (m := .strict) rfl
            (fun j i hF hj => hF.contSem ⟨_, g2, t2⟩ hj) td1).mpr
            ⟨_, ⟨_, _, rfl, rfl, _, g2, s2⟩, s⟩⟩
  | element h1 h2 h3 =>
    intro k ht a c cs kids hs
    cases hs with
    | element e1 e2 e3 s =>
      exact ⟨_, e3, h3.sem.mpr ⟨_, _, rfl, ⟨_, e2, s⟩, (SI.empty h2).mpr ⟨rfl, rfl⟩⟩⟩
  | elementNo h1 h =>
    intro k ht a c cs kids hs
    cases hs with
    | element e1 e2 e3 s => rw [h1] at e1; cases e1
  | after h1 hd h3 h4 ih =>
    intro k ht a c cs kids hs
    cases ht with
    | after g1 g2 t1 t2 =>
      rw [g1] at h1; cases h1
      have td1 := (hd.ty (m := .strict) rfl hE t1).get h3
      cases hs with
      | after e1 e2 s1 s2 =>
        rw [g1] at e1; cases e1
        obtain ⟨c0, hw, y, hy, s⟩ := ih t1 s1
        rw [h3] at hy; cases hy
        exact ⟨c0, hw, (h4.sem (m := .strict) rfl
            (fun j i hF hj => hF.contSem hj) td1).mpr ⟨_, ⟨_, _, rfl, rfl, _, e2, s2⟩, s⟩⟩
  | other h' h =>
    intro k ht a c cs kids hs
    rcases h' with rfl | rfl | rfl | ⟨_, _, rfl⟩ | ⟨_, rfl⟩ | ⟨_, rfl⟩ | ⟨_, _, rfl⟩ | ⟨_, rfl⟩
    · cases hs
    · cases hs with
      | text hc => obtain ⟨s, hs⟩ := hc (.elem nm a kids) (by simp); cases hs
    · cases hs
    · cases hs
    · cases hs
    · cases hs
    · cases hs
    · generalize hcc : (Node.elem nm a kids :: c) :: cs = cc at hs
      cases hs with
      | list e1 e2 e3 s1 =>
        have h0 := (List.cons.inj hcc).1
        have h1 : Node.elem nm a kids ∈ List.map Node.text _ := h0 ▸ List.mem_cons_self
        simp at h1

end Verif
