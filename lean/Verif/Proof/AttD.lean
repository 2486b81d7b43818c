import Verif.Proof.StartD
/-
Correctness of the attribute, start-tag-close and end-tag derivatives.
-/
set_option linter.unusedSectionVars false
namespace Verif
variable {D V : Type}
variable {lk : Lk D V} {QE QR : Nat → Prop} {L : Lib D V} {pm : Bool}

theorem Ty.of_up {m b p k} (h : Ty lk QE QR m.up b p k) : Ty lk QE QR m b p k := by
  cases m with
  | off => exact h
  | loose => exact h.lo
  | strict => exact h

theorem TyI.of_up {m b i k} (h : TyI lk QE QR m.up b i k) : TyI lk QE QR m b i k :=
  let ⟨p, hp, ht⟩ := h; ⟨p, hp, ht.of_up⟩

/-! ### attribute values -/

theorem VM.sound {p m v} (h : VM L lk p v true) (hm : m.up = m) (ht : Ty lk QE QR m true p 1) :
    ∃ c, Weak [.text v] c ∧ S L lk true p [] [c] := by
  rcases h with ⟨hn, hw, _⟩ | ⟨d, q, hd, hq, hb, _⟩
  · exact ⟨[], .drop ((isWsStr_iff _).mp hw) .nil, ht.null hn⟩
  · have td := hd.ty hm true 1 ht
    have hs := (td.get hq).null (L := L) (pm := true) hb.symm
    rcases hd.sound hm true 1 ht [] [] ⟨_, hq, hs⟩ with h | ⟨hw, h⟩
    · exact ⟨_, Weak.refl _, h⟩
    · exact ⟨[], .drop hw .nil, h⟩

theorem VM.complete {p v b c} (h : VM L lk p v b) (ht : Ty lk QE QR .strict true p 1)
    (hw : Weak [.text v] c) (hs : S L lk false p [] [c]) : b = true := by
  cases hw with
  | keep hw =>
    cases hw
    rcases h with ⟨_, _, h⟩ | ⟨d, q, hd, hq, hb, _⟩
    · exact h
    · have td := hd.ty (m := .strict) rfl true 1 ht
      obtain ⟨y, hy, hs'⟩ := (hd.complete true 1 ht [] []).1 hs
      rw [hq] at hy; cases hy
      rw [hb]
      exact hs'.null_flag rfl rfl (td.get hq)
  | drop hw hw' =>
    cases hw'
    have hn := hs.null_flag rfl rfl ht
    rcases h with ⟨_, _, h⟩ | ⟨d, q, hd, hq, hb, h⟩
    · exact h
    · rw [hn, (isWsStr_iff _).mpr hw] at h; cases h

/-! ### the attribute derivative -/

theorem AT.ty {x i r} (h : AT L lk x i r) : ∀ {m b k}, TyI lk QE QR m b i k →
    TyI lk QE QR m b r k := by
  induction h with
  | after h1 _ h3 ih =>
    intro m b k ht
    cases ht.get h1 with
    | after g1 g2 t1 t2 => exact h3.ty (ih ⟨_, g1, t1⟩) ⟨_, g2, t2⟩
  | choice h1 _ _ h4 ih1 ih2 =>
    intro m b k ht
    cases ht.get h1 with
    | choice g1 g2 t1 t2 fl => exact h4.ty (ih1 ⟨_, g1, t1⟩) (ih2 ⟨_, g2, t2⟩)
  | group h1 _ h3 _ h5 h6 ih1 ih2 =>
    intro m b k ht
    cases ht.get h1 with
    | group g1 g2 t1 t2 fl =>
      exact h6.ty (h3.ty (ih1 ⟨_, g1, t1⟩) ⟨_, g2, t2⟩) (h5.ty ⟨_, g1, t1⟩ (ih2 ⟨_, g2, t2⟩))
  | interleave h1 _ h3 _ h5 h6 ih1 ih2 =>
    intro m b k ht
    cases ht.get h1 with
    | interleave g1 g2 t1 t2 fl =>
      exact h6.ty (h3.ty (ih1 ⟨_, g1, t1⟩) ⟨_, g2, t2⟩) (h5.ty ⟨_, g1, t1⟩ (ih2 ⟨_, g2, t2⟩))
  | oneOrMore h1 _ h3 h4 h5 ih =>
    intro m b k ht
    cases ht.get h1 with
    | oneOrMore g1 t1 hq fl =>
      exact h5.ty (ih ⟨_, g1, t1⟩).of_up (h4.ty ht (tyI_empty h3))
  | attr h1 _ _ _ h5 => intro m b k ht; cases ht.get h1; exact tyI_ite h5
  | attrNo h1 _ h3 => intro m b k ht; exact tyI_notAllowed h3
  | other h1 _ h3 => intro m b k ht; exact tyI_notAllowed h3

theorem AT.sound {x i r} (h : AT L lk x i r) : ∀ {m b k a cs}, TyI lk QE QR m b i k →
    SI L lk true r a cs → SI L lk true i (x :: a) cs := by
  induction h with
  | after h1 _ h3 ih =>
    intro m b k a cs ht hs
    cases ht.get h1 with
    | after g1 g2 t1 t2 =>
      obtain ⟨c, cs', rfl, s1, y, hy, s2⟩ := h3.sem.mp hs
      obtain ⟨z, hz, s1⟩ := ih ⟨_, g1, t1⟩ s1
      exact ⟨_, h1, .after hz hy s1 s2⟩
  | choice h1 _ _ h4 ih1 ih2 =>
    intro m b k a cs ht hs
    cases ht.get h1 with
    | choice g1 g2 t1 t2 fl =>
      rcases h4.sem.mp hs with s | s
      · obtain ⟨z, hz, s⟩ := ih1 ⟨_, g1, t1⟩ s
        exact ⟨_, h1, .choiceL hz s⟩
      · obtain ⟨z, hz, s⟩ := ih2 ⟨_, g2, t2⟩ s
        exact ⟨_, h1, .choiceR hz s⟩
  | group h1 hd1 h3 hd2 h5 h6 ih1 ih2 =>
    intro m b k a cs ht hs
    cases ht.get h1 with
    | group g1 g2 t1 t2 fl =>
      have td1 := hd1.ty ⟨_, g1, t1⟩
      have td2 := hd2.ty ⟨_, g2, t2⟩
      rcases h6.sem.mp hs with s | s
      · obtain ⟨a1, a2, c1, c2, rfl, s1, ⟨y, hy, s2⟩, hp⟩ := (h3.sem td1 ⟨_, g2, t2⟩).mp s
        obtain ⟨z, hz, s1⟩ := ih1 ⟨_, g1, t1⟩ s1
        exact ⟨_, h1, .group hz hy s1 s2 (by simpa using hp)⟩
      · obtain ⟨a1, a2, c1, c2, rfl, ⟨y, hy, s1⟩, s2, hp⟩ := (h5.sem ⟨_, g1, t1⟩ td2).mp s
        obtain ⟨z, hz, s2⟩ := ih2 ⟨_, g2, t2⟩ s2
        exact ⟨_, h1, .group hy hz s1 s2 ((hp.cons x).trans List.perm_middle.symm)⟩
  | interleave h1 hd1 h3 hd2 h5 h6 ih1 ih2 =>
    intro m b k a cs ht hs
    cases ht.get h1 with
    | interleave g1 g2 t1 t2 fl =>
      have td1 := hd1.ty ⟨_, g1, t1⟩
      have td2 := hd2.ty ⟨_, g2, t2⟩
      rcases h6.sem.mp hs with s | s
      · obtain ⟨a1, a2, c1, c2, c, rfl, s1, ⟨y, hy, s2⟩, hp, hsh⟩ := (h3.sem td1 ⟨_, g2, t2⟩).mp s
        obtain ⟨z, hz, s1⟩ := ih1 ⟨_, g1, t1⟩ s1
        exact ⟨_, h1, .interleave hz hy s1 s2 (by simpa using hp) hsh⟩
      · obtain ⟨a1, a2, c1, c2, c, rfl, ⟨y, hy, s1⟩, s2, hp, hsh⟩ := (h5.sem ⟨_, g1, t1⟩ td2).mp s
        obtain ⟨z, hz, s2⟩ := ih2 ⟨_, g2, t2⟩ s2
        exact ⟨_, h1, .interleave hy hz s1 s2 ((hp.cons x).trans List.perm_middle.symm) hsh⟩
  | oneOrMore h1 hd h3 h4 h5 ih =>
    intro m b k a cs ht hs
    cases ht.get h1 with
    | oneOrMore g1 t1 hq fl =>
      have td := (hd.ty ⟨_, g1, t1⟩).of_up
      have tc := h4.ty ht (tyI_empty h3)
      obtain ⟨a1, a2, c1, c2, rfl, s1, s2, hp⟩ := (h5.sem td tc).mp hs
      obtain ⟨z, hz, s1⟩ := ih ⟨_, g1, t1⟩ s1
      rcases h4.sem.mp s2 with ⟨y, hy, s2⟩ | s2
      · rw [h1] at hy; cases hy
        exact ⟨_, h1, .more hz s1 s2 (by simpa using hp)⟩
      · obtain ⟨rfl, he⟩ := (SI.empty h3).mp s2
        simp at he; subst he
        simp only [List.append_nil] at *
        exact ⟨_, h1, .one hz (s1.perm (hp.symm.cons x))⟩
  | attr h1 h2 h3 h4 h5 =>
    intro m b k a cs ht hs
    cases ht.get h1 with
    | attr g1 t1 =>
      rw [g1] at h2; cases h2
      split at h5
      · subst_vars
        obtain ⟨rfl, rfl⟩ := (SI.empty h5).mp hs
        obtain ⟨c, hw, s⟩ := h4.sound (by simp) t1
        exact ⟨_, h1, .attr h3 g1 hw s⟩
      · exact absurd hs (SI.notAllowed h5)
  | attrNo h1 _ h3 => intro m b k a cs ht hs; exact absurd hs (SI.notAllowed h3)
  | other h1 _ h3 => intro m b k a cs ht hs; exact absurd hs (SI.notAllowed h3)

/-- a single attribute can be split off a match (needed of the bodies of repetitions) -/
def Splits (L : Lib D V) (lk : Lk D V) (j : Nat) : Prop :=
  ∀ x a c, SI L lk false j (x :: a) [c] →
    SI L lk false j [x] [[]] ∧ (SI L lk false j a [c] ∨ (a = [] ∧ c = []))

theorem perm_cons_split {α : Type} {x : α} {a a1 a2 : List α} (h : (x :: a).Perm (a1 ++ a2)) :
    (∃ a1', a1.Perm (x :: a1') ∧ a.Perm (a1' ++ a2)) ∨
    (∃ a2', a2.Perm (x :: a2') ∧ a.Perm (a1 ++ a2')) := by
  have hx : x ∈ a1 ++ a2 := h.subset (by simp)
  rcases List.mem_append.mp hx with hx | hx
  · obtain ⟨s, t, rfl⟩ := List.append_of_mem hx
    left
    refine ⟨s ++ t, List.perm_middle, ?_⟩
    have : (x :: a).Perm (x :: (s ++ t ++ a2)) := h.trans (by
      simp only [List.append_assoc, List.cons_append]
      exact List.perm_middle)
    exact this.cons_inv
  · obtain ⟨s, t, rfl⟩ := List.append_of_mem hx
    right
    refine ⟨s ++ t, List.perm_middle, ?_⟩
    have : (x :: a).Perm (x :: (a1 ++ (s ++ t))) := h.trans (by
      rw [← List.append_assoc, ← List.append_assoc]
      exact List.perm_middle)
    exact this.cons_inv

theorem S.oneOrMore_attr {j f p a' cs} (hsp : Splits L lk j) (hj : lk j = some p)
    (h : S L lk false (.oneOrMore j f) a' cs) : ∀ {x a c}, a'.Perm (x :: a) → cs = [c] →
    S L lk false p [x] [[]] ∧ (S L lk false (.oneOrMore j f) a [c] ∨ (a = [] ∧ c = [])) := by
  generalize hq : (Pat.oneOrMore j f : Pat D V) = q at h
  induction h with
  | one h1 h2 _ =>
    intro x a c ha hc
    cases hq
    simp at hc; subst hc
    obtain ⟨⟨y, hy, s1⟩, h⟩ := hsp x a _ ⟨_, h1, h2.perm ha⟩
    rw [hj] at hy; cases hy
    refine ⟨s1, ?_⟩
    rcases h with ⟨y, hy, s2⟩ | h
    · exact .inl (.one hy s2)
    · exact .inr h
  | more h1 h2 h3 h4 _ ih =>
    intro x a c ha hc
    cases hq
    simp at hc; subst hc
    rcases perm_cons_split (ha.symm.trans h4) with ⟨a1', hp1, hp2⟩ | ⟨a2', hp1, hp2⟩
    · obtain ⟨⟨y, hy, s1⟩, h⟩ := hsp x a1' _ ⟨_, h1, h2.perm hp1⟩
      rw [hj] at hy; cases hy
      refine ⟨s1, .inl ?_⟩
      rcases h with ⟨y, hy, s2⟩ | ⟨rfl, rfl⟩
      · exact .more hy s2 h3 hp2
      · simp only [List.nil_append] at *
        exact h3.perm hp2.symm
    · obtain ⟨s1, h⟩ := ih rfl hp1 rfl
      refine ⟨s1, .inl ?_⟩
      rcases h with s2 | ⟨rfl, rfl⟩
      · exact .more h1 h2 s2 hp2
      · simp only [List.append_nil] at *
        exact .one h1 (h2.perm hp2.symm)
  | _ => cases hq

theorem AT.complete {x i r} (h : AT L lk x i r) (hR : ∀ j, QR j → Splits L lk j) :
    ∀ {m b k a cs}, m.up = .strict → TyI lk QE QR m b i k →
    SI L lk false i (x :: a) cs → SI L lk false r a cs := by
  induction h with
  | after h1 _ h3 ih =>
    intro m b k a cs hm ht ⟨y, hy, hs⟩
    rw [h1] at hy; cases hy
    cases ht.get h1 with
    | after g1 g2 t1 t2 =>
      cases hs with
      | after e1 e2 s1 s2 =>
        exact h3.sem.mpr ⟨_, _, rfl, ih hm ⟨_, g1, t1⟩ ⟨_, e1, s1⟩, ⟨_, e2, s2⟩⟩
  | choice h1 _ _ h4 ih1 ih2 =>
    intro m b k a cs hm ht ⟨y, hy, hs⟩
    rw [h1] at hy; cases hy
    cases ht.get h1 with
    | choice g1 g2 t1 t2 fl =>
      cases hs with
      | choiceL e1 s => exact h4.sem.mpr (.inl (ih1 hm ⟨_, g1, t1⟩ ⟨_, e1, s⟩))
      | choiceR e1 s => exact h4.sem.mpr (.inr (ih2 hm ⟨_, g2, t2⟩ ⟨_, e1, s⟩))
  | group h1 hd1 h3 hd2 h5 h6 ih1 ih2 =>
    intro m b k a cs hm ht ⟨y, hy, hs⟩
    rw [h1] at hy; cases hy
    cases ht.get h1 with
    | group g1 g2 t1 t2 fl =>
      have td1 := hd1.ty ⟨_, g1, t1⟩
      have td2 := hd2.ty ⟨_, g2, t2⟩
      cases hs with
      | group e1 e2 s1 s2 hp =>
        rcases perm_cons_split hp with ⟨a1', hp1, hp2⟩ | ⟨a2', hp1, hp2⟩
        · exact h6.sem.mpr (.inl ((h3.sem td1 ⟨_, g2, t2⟩).mpr
            ⟨_, _, _, _, rfl, ih1 hm ⟨_, g1, t1⟩ ⟨_, e1, s1.perm hp1⟩, ⟨_, e2, s2⟩, hp2⟩))
        · exact h6.sem.mpr (.inr ((h5.sem ⟨_, g1, t1⟩ td2).mpr
            ⟨_, _, _, _, rfl, ⟨_, e1, s1⟩, ih2 hm ⟨_, g2, t2⟩ ⟨_, e2, s2.perm hp1⟩, hp2⟩))
  | interleave h1 hd1 h3 hd2 h5 h6 ih1 ih2 =>
    intro m b k a cs hm ht ⟨y, hy, hs⟩
    rw [h1] at hy; cases hy
    cases ht.get h1 with
    | interleave g1 g2 t1 t2 fl =>
      have td1 := hd1.ty ⟨_, g1, t1⟩
      have td2 := hd2.ty ⟨_, g2, t2⟩
      cases hs with
      | interleave e1 e2 s1 s2 hp hsh =>
        rcases perm_cons_split hp with ⟨a1', hp1, hp2⟩ | ⟨a2', hp1, hp2⟩
        · exact h6.sem.mpr (.inl ((h3.sem td1 ⟨_, g2, t2⟩).mpr
            ⟨_, _, _, _, _, rfl, ih1 hm ⟨_, g1, t1⟩ ⟨_, e1, s1.perm hp1⟩, ⟨_, e2, s2⟩, hp2, hsh⟩))
        · exact h6.sem.mpr (.inr ((h5.sem ⟨_, g1, t1⟩ td2).mpr
            ⟨_, _, _, _, _, rfl, ⟨_, e1, s1⟩, ih2 hm ⟨_, g2, t2⟩ ⟨_, e2, s2.perm hp1⟩, hp2, hsh⟩))
  | oneOrMore h1 hd h3 h4 h5 ih =>
    intro m b k a cs hm ht ⟨y, hy, hs⟩
    rw [h1] at hy; cases hy
    cases ht.get h1 with
    | oneOrMore g1 t1 hq fl =>
      have td := (hd.ty ⟨_, g1, t1⟩).of_up
      have tc := h4.ty ht (tyI_empty h3)
      obtain ⟨c, rfl⟩ := SI.single ⟨_, h1, hs⟩ ht
      obtain ⟨s1, s2⟩ := hs.oneOrMore_attr (hR _ hq) g1 (List.Perm.refl _) rfl
      refine (h5.sem td tc).mpr ⟨[], a, [], c, rfl,
        ih (by simp [hm]; rfl) ⟨_, g1, t1⟩ ⟨_, g1, s1⟩, ?_, by simp⟩
      rcases s2 with s2 | ⟨rfl, rfl⟩
      · exact h4.sem.mpr (.inl ⟨_, h1, s2⟩)
      · exact h4.sem.mpr (.inr ((SI.empty h3).mpr ⟨rfl, rfl⟩))
  | attr h1 h2 h3 h4 h5 =>
    intro m b k a cs hm ht ⟨y, hy, hs⟩
    rw [h1] at hy; cases hy
    cases ht.get h1 with
    | attr g1 t1 =>
      rw [g1] at h2; cases h2
      rw [hm] at t1
      cases hs with
      | attr e1 e2 e3 s =>
        rw [g1] at e2; cases e2
        have hb := h4.complete t1 e3 s
        subst hb
        exact (SI.empty h5).mpr ⟨rfl, rfl⟩
  | attrNo h1 h2 h3 =>
    intro m b k a cs hm ht ⟨y, hy, hs⟩
    rw [h1] at hy; cases hy
    cases hs with
    | attr e1 e2 e3 s => rw [h2] at e1; cases e1
  | other h1 h2 h3 =>
    intro m b k a cs hm ht ⟨y, hy, hs⟩
    rw [h1] at hy; cases hy
    rcases h2 with rfl | rfl | rfl | ⟨_, _, rfl⟩ | ⟨_, rfl⟩ | ⟨_, rfl⟩ | ⟨_, _, rfl⟩ | ⟨_, rfl⟩ |
      ⟨_, rfl⟩ <;> cases hs

/-! ### the start-tag-close derivative -/

theorem STC.ty {i r} (h : STC lk i r) : ∀ {m b k}, TyI lk QE QR m b i k →
    TyI lk QE QR m.up b r k := by
  induction h with
  | after h1 _ h3 ih =>
    intro m b k ht
    cases ht.get h1 with
    | after g1 g2 t1 t2 => exact h3.ty (ih ⟨_, g1, t1⟩) (by simp only [Mode.up_up]; exact ⟨_, g2, t2⟩)
  | choice h1 _ _ h4 ih1 ih2 =>
    intro m b k ht
    cases ht.get h1 with
    | choice g1 g2 t1 t2 fl => exact h4.ty (ih1 ⟨_, g1, t1⟩) (ih2 ⟨_, g2, t2⟩)
  | group h1 _ _ h4 ih1 ih2 =>
    intro m b k ht
    cases ht.get h1 with
    | group g1 g2 t1 t2 fl => exact h4.ty (ih1 ⟨_, g1, t1⟩) (ih2 ⟨_, g2, t2⟩)
  | interleave h1 _ _ h4 ih1 ih2 =>
    intro m b k ht
    cases ht.get h1 with
    | interleave g1 g2 t1 t2 fl => exact h4.ty (ih1 ⟨_, g1, t1⟩) (ih2 ⟨_, g2, t2⟩)
  | oneOrMore h1 h2 =>
    intro m b k ht
    cases ht.get h1 with
    | oneOrMore g1 t1 hq fl => exact h2.ty (by simp only [Mode.up_up]; exact ⟨_, g1, t1⟩) hq
  | attr h1 h2 => intro m b k ht; exact tyI_notAllowed h2
  | other h1 h2 =>
    intro m b k ht
    have ht' := ht.get h1
    rcases h2 with rfl | rfl | rfl | ⟨_, _, rfl⟩ | ⟨_, rfl⟩ | ⟨_, rfl⟩ | ⟨_, _, rfl⟩ | ⟨_, rfl⟩ |
      ⟨_, rfl⟩
    · cases ht'; exact ⟨_, h1, .empty⟩
    · cases ht'; exact ⟨_, h1, .text⟩
    · exact ⟨_, h1, .notAllowed⟩
    · cases ht' with | element h => exact ⟨_, h1, .element h⟩
    · cases ht'; exact ⟨_, h1, .datatype⟩
    · cases ht'; exact ⟨_, h1, .datatypeValue⟩
    · cases ht' with | datatypeExcept h h' => exact ⟨_, h1, .datatypeExcept h h'⟩
    · cases ht' with | list h h' => exact ⟨_, h1, .list h (by simpa using h')⟩
    · cases ht'

theorem STC.sem {i r} (h : STC lk i r) : ∀ {m b k cs}, TyI lk QE QR m b i k →
    (SI L lk pm r [] cs ↔ SI L lk pm i [] cs) := by
  induction h with
  | after h1 _ h3 ih =>
    intro m b k cs ht
    cases ht.get h1 with
    | after g1 g2 t1 t2 =>
      rw [h3.sem]
      constructor
      · rintro ⟨c, cs', rfl, s1, y, hy, s2⟩
        obtain ⟨z, hz, s1⟩ := (ih ⟨_, g1, t1⟩).mp s1
        exact ⟨_, h1, .after hz hy s1 s2⟩
      · rintro ⟨y, hy, s⟩
        rw [h1] at hy; cases hy
        cases s with
        | after e1 e2 s1 s2 => exact ⟨_, _, rfl, (ih ⟨_, g1, t1⟩).mpr ⟨_, e1, s1⟩, ⟨_, e2, s2⟩⟩
  | choice h1 _ _ h4 ih1 ih2 =>
    intro m b k cs ht
    cases ht.get h1 with
    | choice g1 g2 t1 t2 fl =>
      rw [h4.sem, ih1 ⟨_, g1, t1⟩, ih2 ⟨_, g2, t2⟩]
      constructor
      · rintro (⟨y, hy, s⟩ | ⟨y, hy, s⟩)
        · exact ⟨_, h1, .choiceL hy s⟩
        · exact ⟨_, h1, .choiceR hy s⟩
      · rintro ⟨y, hy, s⟩
        rw [h1] at hy; cases hy
        cases s with
        | choiceL e1 s => exact .inl ⟨_, e1, s⟩
        | choiceR e1 s => exact .inr ⟨_, e1, s⟩
  | group h1 hd1 hd2 h4 ih1 ih2 =>
    intro m b k cs ht
    cases ht.get h1 with
    | group g1 g2 t1 t2 fl =>
      rw [h4.sem (hd1.ty ⟨_, g1, t1⟩) (hd2.ty ⟨_, g2, t2⟩)]
      constructor
      · rintro ⟨a1, a2, c1, c2, rfl, s1, s2, hp⟩
        obtain ⟨rfl, rfl⟩ := perm_nil_append hp
        obtain ⟨y, hy, s1⟩ := (ih1 ⟨_, g1, t1⟩).mp s1
        obtain ⟨z, hz, s2⟩ := (ih2 ⟨_, g2, t2⟩).mp s2
        exact ⟨_, h1, .group hy hz s1 s2 (by simp)⟩
      · rintro ⟨y, hy, s⟩
        rw [h1] at hy; cases hy
        cases s with
        | group e1 e2 s1 s2 hp =>
          obtain ⟨rfl, rfl⟩ := perm_nil_append hp
          exact ⟨[], [], _, _, rfl, (ih1 ⟨_, g1, t1⟩).mpr ⟨_, e1, s1⟩,
            (ih2 ⟨_, g2, t2⟩).mpr ⟨_, e2, s2⟩, by simp⟩
  | interleave h1 hd1 hd2 h4 ih1 ih2 =>
    intro m b k cs ht
    cases ht.get h1 with
    | interleave g1 g2 t1 t2 fl =>
      rw [h4.sem (hd1.ty ⟨_, g1, t1⟩) (hd2.ty ⟨_, g2, t2⟩)]
      constructor
      · rintro ⟨a1, a2, c1, c2, c, rfl, s1, s2, hp, hsh⟩
        obtain ⟨rfl, rfl⟩ := perm_nil_append hp
        obtain ⟨y, hy, s1⟩ := (ih1 ⟨_, g1, t1⟩).mp s1
        obtain ⟨z, hz, s2⟩ := (ih2 ⟨_, g2, t2⟩).mp s2
        exact ⟨_, h1, .interleave hy hz s1 s2 (by simp) hsh⟩
      · rintro ⟨y, hy, s⟩
        rw [h1] at hy; cases hy
        cases s with
        | interleave e1 e2 s1 s2 hp hsh =>
          obtain ⟨rfl, rfl⟩ := perm_nil_append hp
          exact ⟨[], [], _, _, _, rfl, (ih1 ⟨_, g1, t1⟩).mpr ⟨_, e1, s1⟩,
            (ih2 ⟨_, g2, t2⟩).mpr ⟨_, e2, s2⟩, by simp, hsh⟩
  | oneOrMore h1 h2 =>
    intro m b k cs ht
    constructor
    · intro s
      exact ⟨_, h1, (OneOf.sem h2).mp s⟩
    · rintro ⟨y, hy, s⟩
      rw [h1] at hy; cases hy
      exact (OneOf.sem h2).mpr s
  | attr h1 h2 =>
    intro m b k cs ht
    constructor
    · intro s; exact absurd s (SI.notAllowed h2)
    · rintro ⟨y, hy, s⟩
      rw [h1] at hy; cases hy
      cases s
  | other h1 h2 => intros; exact Iff.rfl

/-! ### the end-tag derivative -/

theorem ETD.ty {p r m b} (h : ETD lk p r) (hm : m.up = m) : ∀ {k}, Ty lk QE QR m b p (k + 1) →
    TyI lk QE QR m b r k := by
  induction h with
  | choice h1 h2 _ _ h5 ih1 ih2 =>
    intro k ht
    cases ht with
    | choice g1 g2 t1 t2 fl =>
      rw [g1] at h1; cases h1; rw [g2] at h2; cases h2
      exact h5.ty (ih1 t1) (ih2 t2)
  | after h1 h2 =>
    intro k ht
    cases ht with
    | after g1 g2 t1 t2 => rw [hm] at t2; exact ⟨_, g2, t2⟩
  | afterNo _ _ h => intro k ht; exact tyI_notAllowed h
  | other _ _ h => intro k ht; exact tyI_notAllowed h

theorem ETD.sound {p r m b} (h : ETD lk p r) : ∀ {k cs}, Ty lk QE QR m b p (k + 1) →
    SI L lk pm r [] cs → S L lk pm p [] ([] :: cs) := by
  induction h with
  | choice h1 h2 _ _ h5 ih1 ih2 =>
    intro k cs ht hs
    cases ht with
    | choice g1 g2 t1 t2 fl =>
      rw [g1] at h1; cases h1; rw [g2] at h2; cases h2
      rcases h5.sem.mp hs with s | s
      · exact .choiceL g1 (ih1 t1 s)
      · exact .choiceR g2 (ih2 t2 s)
  | after h1 h2 =>
    intro k cs ht ⟨y, hy, s⟩
    cases ht with
    | after g1 g2 t1 t2 =>
      rw [g1] at h1; cases h1
      exact .after g1 hy (t1.null h2) s
  | afterNo _ _ h => intro k cs ht hs; exact absurd hs (SI.notAllowed h)
  | other _ _ h => intro k cs ht hs; exact absurd hs (SI.notAllowed h)

theorem ETD.complete {p r b} (h : ETD lk p r) : ∀ {k cs}, Ty lk QE QR .strict b p (k + 1) →
    cs ≠ [] → S L lk pm p [] ([] :: cs) → SI L lk pm r [] cs := by
  induction h with
  | choice h1 h2 _ _ h5 ih1 ih2 =>
    intro k cs ht hne hs
    cases ht with
    | choice g1 g2 t1 t2 fl =>
      rw [g1] at h1; cases h1; rw [g2] at h2; cases h2
      cases hs with
      | choiceL e1 s => rw [g1] at e1; cases e1; exact h5.sem.mpr (.inl (ih1 t1 hne s))
      | choiceR e1 s => rw [g2] at e1; cases e1; exact h5.sem.mpr (.inr (ih2 t2 hne s))
  | after h1 h2 =>
    intro k cs ht hne hs
    cases hs with
    | after e1 e2 s1 s2 => exact ⟨_, e2, s2⟩
  | afterNo h1 h2 h =>
    intro k cs ht hne hs
    cases ht with
    | after g1 g2 t1 t2 =>
      rw [g1] at h1; cases h1
      cases hs with
      | after e1 e2 s1 s2 =>
        rw [g1] at e1; cases e1
        have := s1.null_flag rfl rfl t1
        rw [h2] at this; cases this
  | other h1 h2 h =>
    intro k cs ht hne hs
    generalize hcc : ([] : List Node) :: cs = cc at hs
    cases hs with
    | choiceL e1 s => exact absurd rfl (h1 _ _ _)
    | choiceR e1 s => exact absurd rfl (h1 _ _ _)
    | after => exact absurd rfl (h2 _ _)
    | _ => first | (exact absurd (List.cons.inj hcc).2 hne) | (simp at hcc; done) | (simp at hcc; exact absurd (by simp [hcc]) hne)

end Verif
