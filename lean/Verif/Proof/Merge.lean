import Verif.Proof.Algebra
import Verif.Spec.Source
/-
Merging the definitions of one name: `merge1` against the meaning of choice and interleave.
-/
namespace Verif

/-- `bs`, merged one after the other, give the rule -/
inductive Merged : List (AssignMethod × MPattern) → DefineRule → Prop
  | one {how q} : Merged [(how, q)] (ruleOf how q)
  | snoc {bs r how q r' id} : Merged bs r → merge1 id r (ruleOf how q) = .ok r' → Merged (bs ++ [(how, q)]) r'

section
variable (M : MPattern → List Attr → List Node → Prop)

/-- one after the other -/
def SeqAll : List MPattern → List Attr → List Node → Prop
  | [], a, c => a = [] ∧ c = []
  | p :: ps, a, c => ∃ a1 a2 c1 c2, a.Perm (a1 ++ a2) ∧ c = c1 ++ c2 ∧ M p a1 c1 ∧ SeqAll ps a2 c2

/-- interleaved -/
def InterAll : List MPattern → List Attr → List Node → Prop
  | [], a, c => a = [] ∧ c = []
  | p :: ps, a, c => ∃ a1 a2 c1 c2, a.Perm (a1 ++ a2) ∧ Shuffle c1 c2 c ∧ M p a1 c1 ∧ InterAll ps a2 c2

/-- `M` treats choices, groups and interleaves as it should -/
structure Compo : Prop where
  perm : ∀ {p a a' c}, M p a c → a.Perm a' → M p a' c
  choice : ∀ {ps a c}, M (.choice ps) a c ↔ ∃ p ∈ ps, M p a c
  group : ∀ {ps a c}, M (.group ps) a c ↔ SeqAll M ps a c
  inter : ∀ {ps a c}, M (.interleave ps) a c ↔ InterAll M ps a c

variable {M}

theorem SeqAll.perm (h : Compo M) : ∀ {ps a a' c}, SeqAll M ps a c → a.Perm a' → SeqAll M ps a' c
  | [], a, a', c, hs, hp => by obtain ⟨rfl, rfl⟩ := hs; exact ⟨hp.symm.eq_nil, rfl⟩
  | p :: ps, a, a', c, ⟨a1, a2, c1, c2, h1, h2, h3, h4⟩, hp => ⟨a1, a2, c1, c2, hp.symm.trans h1, h2, h3, h4⟩

theorem InterAll.perm (h : Compo M) : ∀ {ps a a' c}, InterAll M ps a c → a.Perm a' → InterAll M ps a' c
  | [], a, a', c, hs, hp => by obtain ⟨rfl, rfl⟩ := hs; exact ⟨hp.symm.eq_nil, rfl⟩
  | p :: ps, a, a', c, ⟨a1, a2, c1, c2, h1, h2, h3, h4⟩, hp => ⟨a1, a2, c1, c2, hp.symm.trans h1, h2, h3, h4⟩

theorem SeqAll.append_iff (h : Compo M) {qs : List MPattern} : ∀ {ps : List MPattern} {a c}, SeqAll M (ps ++ qs) a c ↔
    ∃ a1 a2 c1 c2, a.Perm (a1 ++ a2) ∧ c = c1 ++ c2 ∧ SeqAll M ps a1 c1 ∧ SeqAll M qs a2 c2
  | [], a, c => by
    simp only [List.nil_append]
    constructor
    · intro hs; exact ⟨[], a, [], c, by simp, rfl, ⟨rfl, rfl⟩, hs⟩
    · rintro ⟨a1, a2, c1, c2, h1, rfl, ⟨rfl, rfl⟩, h4⟩
      exact h4.perm h (by simpa using h1.symm)
  | p :: ps, a, c => by
    rw [List.cons_append]
    constructor
    · rintro ⟨a1, a2, c1, c2, h1, rfl, h3, h4⟩
      obtain ⟨b1, b2, d1, d2, k1, rfl, k3, k4⟩ := (SeqAll.append_iff h).mp h4
      refine ⟨a1 ++ b1, b2, c1 ++ d1, d2, ?_, by simp, ⟨a1, b1, c1, d1, .refl _, rfl, h3, k3⟩, k4⟩
      rw [List.append_assoc]
      exact h1.trans (k1.append_left _)
    · rintro ⟨a1, a2, c1, c2, h1, rfl, ⟨b1, b2, d1, d2, k1, rfl, k3, k4⟩, h4⟩
      refine ⟨b1, b2 ++ a2, d1, d2 ++ c2, ?_, by simp, k3,
        (SeqAll.append_iff h).mpr ⟨b2, a2, d2, c2, .refl _, rfl, k4, h4⟩⟩
      rw [← List.append_assoc]
      exact h1.trans (k1.append_right _)

theorem InterAll.append_iff (h : Compo M) {qs : List MPattern} : ∀ {ps : List MPattern} {a c}, InterAll M (ps ++ qs) a c ↔
    ∃ a1 a2 c1 c2, a.Perm (a1 ++ a2) ∧ Shuffle c1 c2 c ∧ InterAll M ps a1 c1 ∧ InterAll M qs a2 c2
  | [], a, c => by
    simp only [List.nil_append]
    constructor
    · intro hs; exact ⟨[], a, [], c, by simp, .refl_right _, ⟨rfl, rfl⟩, hs⟩
    · rintro ⟨a1, a2, c1, c2, h1, h2, ⟨rfl, rfl⟩, h4⟩
      rw [h2.nil_left]
      exact h4.perm h (by simpa using h1.symm)
  | p :: ps, a, c => by
    rw [List.cons_append]
    constructor
    · rintro ⟨a1, a2, c1, c2, h1, hs, h3, h4⟩
      obtain ⟨b1, b2, d1, d2, k1, ks, k3, k4⟩ := (InterAll.append_iff h).mp h4
      obtain ⟨w, w1, w2⟩ := Shuffle.assoc' ks hs
      refine ⟨a1 ++ b1, b2, w, d2, ?_, w2, ⟨a1, b1, c1, d1, .refl _, w1, h3, k3⟩, k4⟩
      rw [List.append_assoc]
      exact h1.trans (k1.append_left _)
    · rintro ⟨a1, a2, c1, c2, h1, hs, ⟨b1, b2, d1, d2, k1, ks, k3, k4⟩, h4⟩
      obtain ⟨w, w1, w2⟩ := Shuffle.assoc ks hs
      refine ⟨b1, b2 ++ a2, d1, w, ?_, w2, k3,
        (InterAll.append_iff h).mpr ⟨b2, a2, d2, c2, .refl _, w1, k4, h4⟩⟩
      rw [← List.append_assoc]
      exact h1.trans (k1.append_right _)

theorem SeqAll.one_iff (h : Compo M) {p : MPattern} {a c} : SeqAll M [p] a c ↔ M p a c := by
  constructor
  · rintro ⟨a1, a2, c1, c2, h1, rfl, h3, rfl, rfl⟩
    simp only [List.append_nil] at h1 ⊢
    exact h.perm h3 h1.symm
  · intro hm; exact ⟨a, [], c, [], by simp, by simp, hm, rfl, rfl⟩

theorem InterAll.one_iff (h : Compo M) {p : MPattern} {a c} : InterAll M [p] a c ↔ M p a c := by
  constructor
  · rintro ⟨a1, a2, c1, c2, h1, hs, h3, rfl, rfl⟩
    simp only [List.append_nil] at h1
    rw [hs.nil_right]
    exact h.perm h3 h1.symm
  · intro hm; exact ⟨a, [], c, [], by simp, .refl_left _, hm, rfl, rfl⟩

theorem seqAll_members (h : Compo M) (p : MPattern) {a c} : SeqAll M (groupMembers p) a c ↔ M p a c := by
  unfold groupMembers
  split
  · exact h.group.symm
  · exact SeqAll.one_iff h

theorem interAll_members (h : Compo M) (p : MPattern) {a c} : InterAll M (interleaveMembers p) a c ↔ M p a c := by
  unfold interleaveMembers
  split
  · exact h.inter.symm
  · exact InterAll.one_iff h

theorem choice_members (h : Compo M) (p : MPattern) {a c} : (∃ q ∈ choiceMembers p, M q a c) ↔ M p a c := by
  unfold choiceMembers
  split
  · exact h.choice.symm
  · simp

theorem InterAll.swap (h : Compo M) {ps qs : List MPattern} {a c} (hi : InterAll M (ps ++ qs) a c) :
    InterAll M (qs ++ ps) a c := by
  obtain ⟨a1, a2, c1, c2, h1, hs, h3, h4⟩ := (InterAll.append_iff h).mp hi
  exact (InterAll.append_iff h).mpr ⟨a2, a1, c2, c1, h1.trans List.perm_append_comm, hs.symm, h4, h3⟩

/-- the truth values of all alternatives, or-ed -/
def ExAll (E : MPattern → Str → Bool → Prop) : List MPattern → Str → Bool → Prop
  | [], _, b => b = false
  | p :: ps, s, b => ∃ b1 b2, b = (b1 || b2) ∧ E p s b1 ∧ ExAll E ps s b2

/-- `E` treats choices and interleaves as it should -/
structure CompoE (E : MPattern → Str → Bool → Prop) : Prop where
  choice : ∀ {ps s b}, E (.choice ps) s b ↔ ExAll E ps s b
  inter : ∀ {ps s b}, ¬ E (.interleave ps) s b

theorem ExAll.append_iff {E : MPattern → Str → Bool → Prop} {qs : List MPattern} : ∀ {ps : List MPattern} {s b},
    ExAll E (ps ++ qs) s b ↔ ∃ b1 b2, b = (b1 || b2) ∧ ExAll E ps s b1 ∧ ExAll E qs s b2
  | [], s, b => by
    simp only [List.nil_append, ExAll]
    constructor
    · intro h; exact ⟨false, b, rfl, rfl, h⟩
    · rintro ⟨b1, b2, rfl, rfl, h⟩; exact h
  | p :: ps, s, b => by
    rw [List.cons_append]
    constructor
    · rintro ⟨b1, b2, rfl, h1, h2⟩
      obtain ⟨b3, b4, rfl, h3, h4⟩ := ExAll.append_iff.mp h2
      exact ⟨b1 || b3, b4, by rw [Bool.or_assoc], ⟨b1, b3, rfl, h1, h3⟩, h4⟩
    · rintro ⟨b1, b2, rfl, ⟨b3, b4, rfl, h3, h4⟩, h2⟩
      exact ⟨b3, b4 || b2, by rw [Bool.or_assoc], h3, ExAll.append_iff.mpr ⟨_, _, rfl, h4, h2⟩⟩

theorem ExAll.one_iff {E : MPattern → Str → Bool → Prop} {p : MPattern} {s b} : ExAll E [p] s b ↔ E p s b := by
  constructor
  · rintro ⟨b1, b2, rfl, h1, rfl⟩; simpa using h1
  · intro h; exact ⟨b, false, by simp, h, rfl⟩

theorem exAll_members {E : MPattern → Str → Bool → Prop} (h : CompoE E) (p : MPattern) {s b} :
    ExAll E (choiceMembers p) s b ↔ E p s b := by
  unfold choiceMembers
  split
  · exact h.choice.symm
  · exact ExAll.one_iff

/-! the compiler's list operations -/

theorem appendChoice_ok {p q r : MPattern} (hr : appendChoice p q = .ok r) :
    ∃ l, p = .choice l ∧ r = .choice (l ++ choiceMembers q) := by
  unfold appendChoice at hr
  split at hr
  · split at hr <;> cases hr
    · exact ⟨_, rfl, rfl⟩
    · rename_i hne
      refine ⟨_, rfl, ?_⟩
      congr 2
      unfold choiceMembers
      split
      · rename_i l; exact absurd rfl (hne l)
      · rfl
  · cases hr

theorem appendInterleave_ok {p q r : MPattern} (hr : appendInterleave p q = .ok r) :
    ∃ l, p = .interleave l ∧ r = .interleave (l ++ interleaveMembers q) := by
  unfold appendInterleave at hr
  split at hr
  · split at hr <;> cases hr
    · exact ⟨_, rfl, rfl⟩
    · rename_i hne
      refine ⟨_, rfl, ?_⟩
      congr 2
      unfold interleaveMembers
      split
      · rename_i l; exact absurd rfl (hne l)
      · rfl
  · cases hr

theorem joinChoice_ok {p q r : MPattern} (hr : joinChoice p q = .ok r) :
    ∃ l, r = .choice l ∧ (∀ M, Compo M → ∀ a c, (∃ s ∈ l, M s a c) ↔ (M p a c ∨ M q a c)) ∧
      ∀ E, CompoE E → ∀ s b, ExAll E l s b ↔ ExAll E [p, q] s b := by
  unfold joinChoice at hr
  split at hr
  · rename_i v
    obtain ⟨l, h0, rfl⟩ := appendChoice_ok hr
    cases h0
    refine ⟨_, rfl, fun M h a c => ?_, fun E h s b => ?_⟩
    rotate_left
    · rw [ExAll.append_iff, show [Pattern.choice v, q] = [.choice v] ++ [q] from rfl, ExAll.append_iff]
      simp only [ExAll.one_iff, exAll_members h, h.choice]
    rw [h.choice, ← choice_members h q]
    simp only [List.mem_append]
    constructor
    · rintro ⟨s, hs | hs, hm⟩
      · exact .inl ⟨s, hs, hm⟩
      · exact .inr ⟨s, hs, hm⟩
    · rintro (⟨s, hs, hm⟩ | ⟨s, hs, hm⟩)
      · exact ⟨s, .inl hs, hm⟩
      · exact ⟨s, .inr hs, hm⟩
  · cases hr; exact ⟨_, rfl, fun M h a c => by simp, fun _ _ _ _ => Iff.rfl⟩

theorem joinInterleave_ok {p q r : MPattern} (hr : joinInterleave p q = .ok r) :
    ∃ l, r = .interleave l ∧ ∀ M, Compo M → ∀ a c, InterAll M l a c ↔ InterAll M [p, q] a c := by
  unfold joinInterleave at hr
  split at hr
  · rename_i v
    obtain ⟨l, h, rfl⟩ := appendInterleave_ok hr
    cases h
    refine ⟨_, rfl, fun M h a c => ?_⟩
    rw [show [Pattern.interleave v, q] = [.interleave v] ++ [q] from rfl, InterAll.append_iff h, InterAll.append_iff h]
    simp only [InterAll.one_iff h, interAll_members h, h.inter]
  · cases hr; exact ⟨_, rfl, fun M h a c => Iff.rfl⟩

theorem except_bind_ok {ε α β : Type} {x : Except ε α} {f : α → Except ε β} {b : β} (h : (x >>= f) = .ok b) :
    ∃ a, x = .ok a ∧ f a = .ok b := by
  cases x with
  | error e => cases h
  | ok a => exact ⟨a, rfl, h⟩

/-- What a merged rule looks like and means. -/
inductive MergedKind (bs : List (AssignMethod × MPattern)) (r : DefineRule) : Prop
  | plain (q : MPattern) : bs = [(.assign, q)] → r = .assignCombine none q → MergedKind bs r
  | choice (l : List MPattern) : (∀ b ∈ bs, b.1 ≠ .interleave) → (∃ b ∈ bs, b.1 = .choice) →
      (r = .combineOnly .choice (.choice l) ∧ (∀ b ∈ bs, b.1 = .choice) ∨
        r = .assignCombine (some .choice) (.choice l) ∧ (bs.countP fun b => b.1 = .assign) = 1) →
      (∀ M, Compo M → ∀ a c, (∃ q ∈ l, M q a c) ↔ ∃ b ∈ bs, M b.2 a c) →
      (∀ E, CompoE E → ∀ s b, ExAll E l s b ↔ ExAll E (bs.map (·.2)) s b) → MergedKind bs r
  | inter (l : List MPattern) : (∀ b ∈ bs, b.1 ≠ .choice) → (∃ b ∈ bs, b.1 = .interleave) →
      (r = .combineOnly .interleave (.interleave l) ∧ (∀ b ∈ bs, b.1 = .interleave) ∨
        r = .assignCombine (some .interleave) (.interleave l) ∧ (bs.countP fun b => b.1 = .assign) = 1) →
      (∀ M, Compo M → ∀ a c, InterAll M l a c ↔ InterAll M (bs.map (·.2)) a c) → MergedKind bs r

theorem countP_zero_of {bs : List (AssignMethod × MPattern)} {m : AssignMethod} (hm : m ≠ .assign)
    (h : ∀ b ∈ bs, b.1 = m) : (bs.countP fun b => b.1 = .assign) = 0 := by
  rw [List.countP_eq_zero]
  intro b hb
  rw [h b hb]
  simpa using hm

theorem Merged.kind {bs r} (h : Merged bs r) : MergedKind bs r := by
  induction h with
  | @one how q =>
    cases how with
    | assign => exact .plain q rfl rfl
    | choice =>
      exact .choice [q] (by simp) ⟨(.choice, q), by simp, rfl⟩ (.inl ⟨rfl, by simp⟩) (fun M h a c => by simp)
        (fun _ _ _ _ => Iff.rfl)
    | interleave => exact .inter [q] (by simp) ⟨(.interleave, q), by simp, rfl⟩ (.inl ⟨rfl, by simp⟩) (fun M h a c => by simp)
  | @snoc bs r how q r' id hr hm ih =>
    cases ih with
    | plain p hb hp =>
      subst hb hp
      cases how with
      | assign => cases hm
      | choice =>
        obtain ⟨s, h1, h2⟩ := except_bind_ok hm
        cases h2
        obtain ⟨l, rfl, hl, hle⟩ := joinChoice_ok h1
        refine .choice l (by simp) ⟨(.choice, q), by simp, rfl⟩ (.inr ⟨rfl, by simp⟩) (fun M h a c => ?_)
          (fun E h s b => ?_)
        · rw [hl M h, h.choice]
          simp
        · rw [hle E h]
          show ExAll E ([p] ++ [.choice [q]]) s b ↔ ExAll E ([p] ++ [q]) s b
          rw [ExAll.append_iff, ExAll.append_iff]
          simp only [ExAll.one_iff, h.choice]
      | interleave =>
        obtain ⟨s, h1, h2⟩ := except_bind_ok hm
        cases h2
        obtain ⟨l, rfl, hl⟩ := joinInterleave_ok h1
        refine .inter l (by simp) ⟨(.interleave, q), by simp, rfl⟩ (.inr ⟨rfl, by simp⟩) (fun M h a c => ?_)
        rw [hl M h]
        show InterAll M ([p] ++ [.interleave [q]]) a c ↔ InterAll M ([p] ++ [q]) a c
        rw [InterAll.append_iff h, InterAll.append_iff h]
        simp only [InterAll.one_iff h, h.inter]
    | choice l hn he hk hl hle =>
      have keyE : ∀ (how : AssignMethod) (l' : List MPattern),
          (∀ E, CompoE E → ∀ s b, ExAll E l' s b ↔ ExAll E (l ++ [q]) s b) →
          ∀ E, CompoE E → ∀ s b, ExAll E l' s b ↔ ExAll E ((bs ++ [(how, q)]).map (·.2)) s b := by
        intro how l' hl' E h s b
        rw [hl' E h, List.map_append, ExAll.append_iff, ExAll.append_iff]
        simp only [hle E h, List.map_cons, List.map_nil]
      cases how with
      | assign =>
        rcases hk with ⟨rfl, hall⟩ | ⟨rfl, _⟩
        · obtain ⟨s, h1, h2⟩ := except_bind_ok hm
          cases h2
          obtain ⟨l', rfl, hl', hle'⟩ := joinChoice_ok h1
          refine .choice l' ?_ ?_ (.inr ⟨rfl, ?_⟩) (fun M h a c => ?_) (keyE .assign l' fun E h s b => ?_)
          rotate_right
          · rw [hle' E h]
            show ExAll E ([.choice l] ++ [q]) s b ↔ _
            rw [ExAll.append_iff, ExAll.append_iff]
            simp only [ExAll.one_iff, h.choice]
          · intro b hb
            rcases List.mem_append.mp hb with hb | hb
            · exact hn b hb
            · simp at hb; subst hb; simp
          · obtain ⟨b, hb, h⟩ := he; exact ⟨b, by simp [hb], h⟩
          · rw [List.countP_append, countP_zero_of (by decide) hall]; simp
          · rw [hl' M h, h.choice, hl M h]
            constructor
            · rintro (⟨b, hb, h⟩ | h)
              · exact ⟨b, by simp [hb], h⟩
              · exact ⟨(.assign, q), by simp, h⟩
            · rintro ⟨b, hb, h⟩
              rcases List.mem_append.mp hb with hb | hb
              · exact .inl ⟨b, hb, h⟩
              · simp at hb; subst hb; exact .inr h
        · cases hm
      | choice =>
        have key : ∀ l' : List MPattern, (∀ M, Compo M → ∀ a c, (∃ s ∈ l', M s a c) ↔ ((∃ s ∈ l, M s a c) ∨ M q a c)) →
            ∀ M, Compo M → ∀ a c, (∃ q ∈ l', M q a c) ↔ ∃ b ∈ bs ++ [(AssignMethod.choice, q)], M b.2 a c := by
          intro l' hl' M h a c
          rw [hl' M h, hl M h]
          constructor
          · rintro (⟨b, hb, h⟩ | h)
            · exact ⟨b, by simp [hb], h⟩
            · exact ⟨(.choice, q), by simp, h⟩
          · rintro ⟨b, hb, h⟩
            rcases List.mem_append.mp hb with hb | hb
            · exact .inl ⟨b, hb, h⟩
            · simp at hb; subst hb; exact .inr h
        have hn' : ∀ b ∈ bs ++ [(AssignMethod.choice, q)], b.1 ≠ .interleave := by
          intro b hb
          rcases List.mem_append.mp hb with hb | hb
          · exact hn b hb
          · simp at hb; subst hb; simp
        rcases hk with ⟨rfl, hall⟩ | ⟨rfl, hone⟩
        · obtain ⟨s, h1, h2⟩ := except_bind_ok hm
          cases h2
          obtain ⟨l0, h0, rfl⟩ := appendChoice_ok h1
          cases h0
          refine .choice _ hn' ⟨(.choice, q), by simp, rfl⟩ (.inl ⟨rfl, ?_⟩) (key _ fun M h a c => ?_)
            (keyE .choice _ fun E h s b => Iff.rfl)
          · intro b hb
            rcases List.mem_append.mp hb with hb | hb
            · exact hall b hb
            · simp at hb; subst hb; rfl
          · simp only [choiceMembers, List.mem_append, List.mem_singleton]
            constructor
            · rintro ⟨s, hs | rfl, hs'⟩
              · exact .inl ⟨s, hs, hs'⟩
              · exact .inr hs'
            · rintro (⟨s, hs, hs'⟩ | hs')
              · exact ⟨s, .inl hs, hs'⟩
              · exact ⟨q, .inr rfl, hs'⟩
        · obtain ⟨s, h1, h2⟩ := except_bind_ok hm
          cases h2
          obtain ⟨l', rfl, hl', hle'⟩ := joinChoice_ok h1
          refine .choice l' hn' ⟨(.choice, q), by simp, rfl⟩ (.inr ⟨rfl, ?_⟩) (key _ fun M h a c => ?_)
            (keyE .choice l' fun E h s b => ?_)
          rotate_right
          · rw [hle' E h]
            show ExAll E ([.choice l] ++ [.choice [q]]) s b ↔ _
            rw [ExAll.append_iff, ExAll.append_iff]
            simp only [ExAll.one_iff, h.choice]
          · rw [List.countP_append, hone]; simp
          · rw [hl' M h, h.choice, h.choice]; simp
      | interleave =>
        rcases hk with ⟨rfl, _⟩ | ⟨rfl, _⟩ <;> cases hm
    | inter l hn he hk hl =>
      have key : ∀ (how : AssignMethod) (l' : List MPattern),
          (∀ M, Compo M → ∀ a c, InterAll M l' a c ↔ InterAll M (l ++ [q]) a c) →
          ∀ M, Compo M → ∀ a c, InterAll M l' a c ↔ InterAll M ((bs ++ [(how, q)]).map (·.2)) a c := by
        intro how l' hl' M h a c
        rw [hl' M h, List.map_append, InterAll.append_iff h, InterAll.append_iff h]
        simp only [hl M h, List.map_cons, List.map_nil]
      cases how with
      | assign =>
        rcases hk with ⟨rfl, hall⟩ | ⟨rfl, _⟩
        · obtain ⟨s, h1, h2⟩ := except_bind_ok hm
          cases h2
          obtain ⟨l', rfl, hl'⟩ := joinInterleave_ok h1
          refine .inter l' ?_ ?_ (.inr ⟨rfl, ?_⟩) (key .assign l' fun M h a c => ?_)
          · intro b hb
            rcases List.mem_append.mp hb with hb | hb
            · exact hn b hb
            · simp at hb; subst hb; simp
          · obtain ⟨b, hb, h⟩ := he; exact ⟨b, by simp [hb], h⟩
          · rw [List.countP_append, countP_zero_of (by decide) hall]; simp
          · rw [hl' M h]
            show InterAll M ([.interleave l] ++ [q]) a c ↔ _
            rw [InterAll.append_iff h, InterAll.append_iff h]
            simp only [InterAll.one_iff h, h.inter]
        · cases hm
      | choice =>
        rcases hk with ⟨rfl, _⟩ | ⟨rfl, _⟩ <;> cases hm
      | interleave =>
        have hn' : ∀ b ∈ bs ++ [(AssignMethod.interleave, q)], b.1 ≠ .choice := by
          intro b hb
          rcases List.mem_append.mp hb with hb | hb
          · exact hn b hb
          · simp at hb; subst hb; simp
        rcases hk with ⟨rfl, hall⟩ | ⟨rfl, hone⟩
        · obtain ⟨s, h1, h2⟩ := except_bind_ok hm
          cases h2
          obtain ⟨l0, h0, rfl⟩ := appendInterleave_ok h1
          cases h0
          refine .inter _ hn' ⟨(.interleave, q), by simp, rfl⟩ (.inl ⟨rfl, ?_⟩) (key .interleave _ fun M h a c => ?_)
          · intro b hb
            rcases List.mem_append.mp hb with hb | hb
            · exact hall b hb
            · simp at hb; subst hb; rfl
          · simp only [interleaveMembers]
        · obtain ⟨s, h1, h2⟩ := except_bind_ok hm
          cases h2
          obtain ⟨l', rfl, hl'⟩ := joinInterleave_ok h1
          refine .inter l' hn' ⟨(.interleave, q), by simp, rfl⟩ (.inr ⟨rfl, ?_⟩) (key .interleave _ fun M h a c => ?_)
          · rw [List.countP_append, hone]; simp
          · rw [hl' M h]
            show InterAll M ([.interleave l] ++ [.interleave [q]]) a c ↔ _
            rw [InterAll.append_iff h, InterAll.append_iff h]
            simp only [InterAll.one_iff h, h.inter]

end

/-! ### `Match` is one such reading -/

theorem Match.compo (L : Lib Datatypes DatatypeValues) (env : Env Datatypes DatatypeValues) : Compo (Match L env) where
  perm h hp := h.perm hp
  choice := Match.choice_iff
  group := by
    intro ps
    induction ps with
    | nil => intro a c; exact Match.group_nil_iff
    | cons p ps ih => intro a c; rw [Match.group_cons_iff]; simp only [SeqAll, ih]
  inter := by
    intro ps
    induction ps with
    | nil => intro a c; exact Match.inter_nil_iff
    | cons p ps ih => intro a c; rw [Match.inter_cons_iff]; simp only [InterAll, ih]

theorem ExMatch.compo (L : Lib Datatypes DatatypeValues) (env : Env Datatypes DatatypeValues) :
    CompoE (ExMatch L env) where
  choice := by
    intro ps
    induction ps with
    | nil =>
      intro s b
      exact ⟨fun h => by cases h; rfl, fun h => by cases h; exact .choiceNil⟩
    | cons p ps ih =>
      intro s b
      constructor
      · intro h
        cases h with
        | choiceCons h1 h2 => exact ⟨_, _, rfl, h1, ih.mp h2⟩
      · rintro ⟨b1, b2, rfl, h1, h2⟩; exact .choiceCons h1 (ih.mpr h2)
  inter := nofun

end Verif
