import Verif.Proof.Ty
/-
Correctness of the text derivative.
-/
set_option linter.unusedSectionVars false
namespace Verif
variable {D V : Type}
variable {lk : Lk D V} {QE QR : Nat → Prop} {L : Lib D V}

theorem isWsStr_iff (t : Str) : isWsStr t = true ↔ WsText t := by
  simp [isWsStr, WsText, isXmlWs, XmlSpace, or_assoc]

theorem tyI_of_ty {m b p i k} (h : lk i = some p) (ht : Ty lk QE QR m b p k) :
    TyI lk QE QR m b i k := ⟨p, h, ht⟩

theorem TyI.get {m b i k p} (h : TyI lk QE QR m b i k) (hp : lk i = some p) :
    Ty lk QE QR m b p k := by
  obtain ⟨q, hq, ht⟩ := h
  rw [hp] at hq; cases hq; exact ht

theorem tyI_ite {m b i} {c : Prop} [Decidable c]
    (h : lk i = some (if c then .empty else .notAllowed)) : TyI lk QE QR m b i 1 := by
  split at h
  · exact tyI_empty h
  · exact tyI_notAllowed h

/-- typing of a text-derivative job -/
def JobTy (lk : Lk D V) (QE QR : Nat → Prop) (m : Mode) (i : Nat) : Job D V → Prop
  | .txt p _ => ∀ b k, Ty lk QE QR m b p k → TyI lk QE QR m b i k
  | .loop j _ => ∀ b, TyI lk QE QR m b j 1 → TyI lk QE QR m b i 1

theorem TD.ty {job i m} (h : TD L lk job i) (hm : m.up = m) : JobTy lk QE QR m i job := by
  induction h with
  | choice h1 h2 _ _ h5 ih1 ih2 =>
    intro b k ht
    cases ht with
    | choice g1 g2 t1 t2 fl =>
      rw [g1] at h1; cases h1; rw [g2] at h2; cases h2
      exact h5.ty (ih1 b k t1) (ih2 b k t2)
  | interleave h1 h2 _ _ h5 h6 h7 ih1 ih2 =>
    intro b k ht
    cases ht with
    | interleave g1 g2 t1 t2 fl =>
      rw [g1] at h1; cases h1; rw [g2] at h2; cases h2
      exact h7.ty (h5.ty (ih1 b 1 t1) ⟨_, g2, t2⟩) (h6.ty ⟨_, g1, t1⟩ (ih2 b 1 t2))
  | groupN h1 h2 _ _ _ h5 h6 ih1 ih2 =>
    intro b k ht
    cases ht with
    | group g1 g2 t1 t2 fl =>
      rw [g1] at h1; cases h1; rw [g2] at h2; cases h2
      exact h6.ty (h5.ty (ih1 b 1 t1) ⟨_, g2, t2⟩) (ih2 b 1 t2)
  | group h1 h2 _ _ h5 ih1 =>
    intro b k ht
    cases ht with
    | group g1 g2 t1 t2 fl =>
      rw [g1] at h1; cases h1; rw [g2] at h2; cases h2
      exact h5.ty (ih1 b 1 t1) ⟨_, g2, t2⟩
  | after h1 _ h3 ih =>
    intro b k ht
    cases ht with
    | after g1 g2 t1 t2 =>
      rw [g1] at h1; cases h1
      exact h3.ty (ih b 1 t1) ⟨_, g2, t2⟩
  | oneOrMore h1 _ h3 h4 h5 h6 ih =>
    intro b k ht
    cases ht with
    | oneOrMore g1 t1 hq fl =>
      rw [g1] at h1; cases h1
      rw [hm] at t1
      exact h6.ty (ih b 1 t1) (h5.ty (h3.ty (by rw [hm]; exact ⟨_, g1, t1⟩) hq) (tyI_empty h4))
  | text h => intro b k ht; cases ht; exact tyI_text h
  | datatype h1 h2 => intro b k ht; cases ht; exact tyI_ite h2
  | datatypeValue h1 h2 => intro b k ht; cases ht; exact tyI_ite h2
  | datatypeExcept h1 h2 h3 h4 h5 => intro b k ht; cases ht; exact tyI_ite h5
  | list h1 h2 ih =>
    intro b k ht
    cases ht with
    | list g1 t1 =>
      rw [hm] at t1
      exact h2.ty (by rw [hm]; exact ih false ⟨_, g1, t1⟩)
  | empty h => intro b k ht; cases ht; exact tyI_ite h
  | notAllowed h => intro b k ht; exact tyI_notAllowed h
  | attr h => intro b k ht; exact tyI_notAllowed h
  | element h =>
    intro b k ht
    cases ht with
    | element hq =>
      split at h
      · exact ⟨_, h, .element hq⟩
      · exact tyI_notAllowed h
  | loopNil => intro b ht; exact ht
  | loopStop h1 _ h3 ih => intro b ht; exact tyI_notAllowed h3
  | loopStep h1 _ _ ih1 ih2 => intro b ht; exact ih2 b (ih1 b 1 (ht.get h1))

/-! ### exceptions -/

theorem ChoiceOf.nullable {l r i p q x} (h : ChoiceOf lk l r i) (hp : lk l = some p)
    (hq : lk r = some q) (hx : lk i = some x) : x.nullable = (p.nullable || q.nullable) := by
  obtain ⟨p', q', h1, h2, h⟩ := h
  rw [hp] at h1; cases h1; rw [hq] at h2; cases h2
  rcases h with ⟨rfl, rfl⟩ | ⟨rfl, rfl⟩ | ⟨rfl, rfl⟩ | ⟨hna, h⟩
  · rw [hq] at hx; cases hx; simp [Pat.nullable]
  · rw [hp] at hx; cases hx; simp [Pat.nullable]
  · rw [hp] at hx hq; cases hx; cases hq; simp
  · rw [h] at hx; cases hx; rfl

theorem ChoiceOf.defined {l r i} (h : ChoiceOf lk l r i) : ∃ x, lk i = some x := by
  obtain ⟨p, q, h1, h2, h⟩ := h
  rcases h with ⟨_, rfl⟩ | ⟨_, rfl⟩ | ⟨_, rfl⟩ | ⟨hna, h⟩
  · exact ⟨_, h2⟩
  · exact ⟨_, h1⟩
  · exact ⟨_, h1⟩
  · exact ⟨_, h⟩

theorem DM.det {p : Pat D V} {s b} (h : DM L lk p s b) : ∀ {b'}, DM L lk p s b' → b = b' := by
  induction h with
  | value h1 => intro b' h; cases h with | value h2 => rw [h1] at h2; cases h2; rfl
  | data h1 => intro b' h; cases h with | data h2 => rw [h1] at h2; cases h2; rfl
  | dataExcept h1 h2 _ ih =>
    intro b' h
    cases h with
    | dataExcept g1 g2 g3 =>
      rw [h1] at g1; cases g1; rw [h2] at g2; cases g2; rw [ih g3]
  | notAllowed => intro b' h; cases h; rfl
  | choice h1 h2 _ _ ih1 ih2 =>
    intro b' h
    cases h with
    | choice g1 g2 g3 g4 =>
      rw [h1] at g1; cases g1; rw [h2] at g2; cases g2; rw [ih1 g3, ih2 g4]

def JobDM (L : Lib D V) (lk : Lk D V) (i : Nat) : Job D V → Prop
  | .txt p t => EX lk p → ∃ q, lk i = some q ∧ DM L lk p t q.nullable
  | .loop _ _ => True

theorem nullable_ite (b : Bool) :
    (if b = true then (.empty : Pat D V) else .notAllowed).nullable = b := by
  cases b <;> rfl

theorem TD.dm {job i} (h : TD L lk job i) : JobDM L lk i job := by
  induction h with
  | choice h1 h2 _ _ h5 ih1 ih2 =>
    intro hx
    cases hx with
    | choice g1 g2 e1 e2 =>
      rw [g1] at h1; cases h1; rw [g2] at h2; cases h2
      obtain ⟨x, hx, dx⟩ := ih1 e1
      obtain ⟨y, hy, dy⟩ := ih2 e2
      obtain ⟨z, hz⟩ := h5.defined
      refine ⟨z, hz, ?_⟩
      rw [h5.nullable hx hy hz]
      exact .choice g1 g2 dx dy
  | datatype h1 h2 =>
    intro _
    exact ⟨_, h2, by rw [nullable_ite]; exact .data h1⟩
  | datatypeValue h1 h2 =>
    intro _
    exact ⟨_, h2, by rw [nullable_ite]; exact .value h1⟩
  | datatypeExcept h1 _ h3 h4 h5 ih =>
    intro hx
    cases hx with
    | dataExcept g1 e1 =>
      rw [g1] at h1; cases h1
      obtain ⟨x, hx, dx⟩ := ih e1
      rw [h3] at hx; cases hx
      exact ⟨_, h5, by rw [nullable_ite]; exact .dataExcept h4 g1 dx⟩
  | notAllowed h => intro _; exact ⟨_, h, .notAllowed⟩
  | list _ _ _ => intro hx; cases hx
  | loopNil => trivial
  | loopStop _ _ _ _ => trivial
  | loopStep _ _ _ _ _ => trivial
  | _ => intro hx; cases hx

/-! ### soundness -/

theorem splitGo_nonws : ∀ (s acc : Str), (∀ c ∈ acc, isUniWs c = false) →
    ∀ w ∈ splitGo s acc, w ≠ [] ∧ ∀ c ∈ w, isUniWs c = false := by
  intro s
  induction s with
  | nil =>
    intro acc hacc w hw
    unfold splitGo at hw
    split at hw
    · cases hw
    · simp at hw; subst hw
      refine ⟨by simpa using ‹¬acc = []›, fun c hc => hacc c (by simpa using hc)⟩
  | cons x xs ih =>
    intro acc hacc w hw
    unfold splitGo at hw
    split at hw
    · split at hw
      · exact ih [] (by simp) w hw
      · simp at hw
        rcases hw with rfl | hw
        · exact ⟨by simpa using ‹¬acc = []›, fun c hc => hacc c (by simpa using hc)⟩
        · exact ih [] (by simp) w hw
    · refine ih (x :: acc) ?_ w hw
      intro c hc
      simp at hc
      rcases hc with rfl | hc
      · simpa using ‹¬isUniWs c = true›
      · exact hacc c hc

theorem xmlWs_uniWs {c : Char} (h : XmlSpace c) : isUniWs c = true := by
  rcases h with h | h | h | h <;> subst h <;> decide

theorem splitWs_not_ws {s w : Str} (hw : w ∈ splitWs s) : ¬ WsText w := by
  obtain ⟨h1, h2⟩ := splitGo_nonws s [] (by simp) w hw
  intro h
  cases w with
  | nil => exact h1 rfl
  | cons c w =>
    have := xmlWs_uniWs (h c (by simp))
    rw [h2 c (by simp)] at this
    cases this

def JobSound (L : Lib D V) (lk : Lk D V) (QE QR : Nat → Prop) (m : Mode) (i : Nat) :
    Job D V → Prop
  | .txt p t => ∀ b k, Ty lk QE QR m b p k → ∀ c cs, SI L lk true i [] (c :: cs) →
      S L lk true p [] ((.text t :: c) :: cs) ∨ (WsText t ∧ S L lk true p [] (c :: cs))
  | .loop j items => ∀ b, TyI lk QE QR m b j 1 → (∀ w ∈ items, ¬ WsText w) →
      ∀ c, SI L lk true i [] [c] → SI L lk true j [] [items.map Node.text ++ c]

theorem perm_nil {α : Type} {a : List α} (h : ([] : List α).Perm a) : a = [] := h.nil_eq.symm

theorem TD.sound {job i m} (h : TD L lk job i) (hm : m.up = m) :
    JobSound L lk QE QR m i job := by
  induction h with
  | choice h1 h2 _ _ h5 ih1 ih2 =>
    intro b k ht c cs hs
    cases ht with
    | choice g1 g2 t1 t2 fl =>
      rw [g1] at h1; cases h1; rw [g2] at h2; cases h2
      rcases h5.sem.mp hs with hs | hs
      · rcases ih1 b k t1 c cs hs with h | ⟨hw, h⟩
        · exact .inl (.choiceL g1 h)
        · exact .inr ⟨hw, .choiceL g1 h⟩
      · rcases ih2 b k t2 c cs hs with h | ⟨hw, h⟩
        · exact .inl (.choiceR g2 h)
        · exact .inr ⟨hw, .choiceR g2 h⟩
  | interleave h1 h2 hd1 hd2 h5 h6 h7 ih1 ih2 =>
    intro b k ht c cs hs
    cases ht with
    | interleave g1 g2 t1 t2 fl =>
      rw [g1] at h1; cases h1; rw [g2] at h2; cases h2
      have td1 := hd1.ty hm b 1 t1
      have td2 := hd2.ty hm b 1 t2
      rcases h7.sem.mp hs with hs | hs
      · obtain ⟨a1, a2, c1, c2, c', he, s1, ⟨y, hy, s2⟩, hp, hsh⟩ := (h5.sem td1 ⟨_, g2, t2⟩).mp hs
        simp at he; obtain ⟨rfl, rfl⟩ := he
        obtain ⟨rfl, rfl⟩ := perm_nil_append hp
        rw [g2] at hy; cases hy
        rcases ih1 b 1 t1 c1 [] s1 with h | ⟨hw, h⟩
        · exact .inl (.interleave g1 g2 h s2 (by simp) (.left hsh))
        · exact .inr ⟨hw, .interleave g1 g2 h s2 (by simp) hsh⟩
      · obtain ⟨a1, a2, c1, c2, c', he, ⟨y, hy, s1⟩, s2, hp, hsh⟩ := (h6.sem ⟨_, g1, t1⟩ td2).mp hs
        simp at he; obtain ⟨rfl, rfl⟩ := he
        obtain ⟨rfl, rfl⟩ := perm_nil_append hp
        rw [g1] at hy; cases hy
        rcases ih2 b 1 t2 c2 [] s2 with h | ⟨hw, h⟩
        · exact .inl (.interleave g1 g2 s1 h (by simp) (.right hsh))
        · exact .inr ⟨hw, .interleave g1 g2 s1 h (by simp) hsh⟩
  | groupN h1 h2 hn hd1 hd2 h5 h6 ih1 ih2 =>
    intro b k ht c cs hs
    cases ht with
    | group g1 g2 t1 t2 fl =>
      rw [g1] at h1; cases h1; rw [g2] at h2; cases h2
      have td1 := hd1.ty hm b 1 t1
      have td2 := hd2.ty hm b 1 t2
      rcases h6.sem.mp hs with hs | hs
      · obtain ⟨a1, a2, c1, c2, he, s1, ⟨y, hy, s2⟩, hp⟩ := (h5.sem td1 ⟨_, g2, t2⟩).mp hs
        simp at he; obtain ⟨rfl, rfl⟩ := he
        obtain ⟨rfl, rfl⟩ := perm_nil_append hp
        rw [g2] at hy; cases hy
        rcases ih1 b 1 t1 c1 [] s1 with h | ⟨hw, h⟩
        · exact .inl (S.group (c1 := .text _ :: c1) g1 g2 h s2 (by simp))
        · exact .inr ⟨hw, .group g1 g2 h s2 (by simp)⟩
      · obtain ⟨c', he⟩ := hs.single td2
        simp at he; obtain ⟨rfl, rfl⟩ := he
        have hn' := t1.null (L := L) (pm := true) hn
        rcases ih2 b 1 t2 _ [] hs with h | ⟨hw, h⟩
        · exact .inl (S.group (c1 := []) g1 g2 hn' h (by simp))
        · exact .inr ⟨hw, S.group (c1 := []) g1 g2 hn' h (by simp)⟩
  | group h1 h2 hn hd1 h5 ih1 =>
    intro b k ht c cs hs
    cases ht with
    | group g1 g2 t1 t2 fl =>
      rw [g1] at h1; cases h1; rw [g2] at h2; cases h2
      have td1 := hd1.ty hm b 1 t1
      obtain ⟨a1, a2, c1, c2, he, s1, ⟨y, hy, s2⟩, hp⟩ := (h5.sem td1 ⟨_, g2, t2⟩).mp hs
      simp at he; obtain ⟨rfl, rfl⟩ := he
      obtain ⟨rfl, rfl⟩ := perm_nil_append hp
      rw [g2] at hy; cases hy
      rcases ih1 b 1 t1 c1 [] s1 with h | ⟨hw, h⟩
      · exact .inl (S.group (c1 := .text _ :: c1) g1 g2 h s2 (by simp))
      · exact .inr ⟨hw, .group g1 g2 h s2 (by simp)⟩
  | after h1 hd h3 ih =>
    intro b k ht c cs hs
    cases ht with
    | after g1 g2 t1 t2 =>
      rw [g1] at h1; cases h1
      obtain ⟨c', cs', he, s1, ⟨y, hy, s2⟩⟩ := h3.sem.mp hs
      simp at he; obtain ⟨rfl, rfl⟩ := he
      rcases ih b 1 t1 _ [] s1 with h | ⟨hw, h⟩
      · exact .inl (.after g1 hy h s2)
      · exact .inr ⟨hw, .after g1 hy h s2⟩
  | oneOrMore h1 hd h3 h4 h5 h6 ih =>
    intro b k ht c cs hs
    cases ht with
    | oneOrMore g1 t1 hq fl =>
      rw [g1] at h1; cases h1
      rw [hm] at t1
      have td := hd.ty hm b 1 t1
      have to : TyI lk QE QR m b _ 1 := h3.ty (by rw [hm]; exact ⟨_, g1, t1⟩) hq
      have tc := h5.ty to (tyI_empty h4)
      obtain ⟨a1, a2, c1, c2, he, s1, s2, hp⟩ := (h6.sem td tc).mp hs
      simp at he; obtain ⟨rfl, rfl⟩ := he
      obtain ⟨rfl, rfl⟩ := perm_nil_append hp
      rcases h5.sem.mp s2 with s2 | s2
      · have s2' := (OneOf.sem (f := false) h3).mp s2
        rcases ih b 1 t1 c1 [] s1 with h | ⟨hw, h⟩
        · exact .inl (S.more (c1 := .text _ :: c1) g1 h s2'.oneOrMore_flag (by simp))
        · exact .inr ⟨hw, .more g1 h s2'.oneOrMore_flag (by simp)⟩
      · obtain ⟨_, he⟩ := (SI.empty h4).mp s2
        simp at he; subst he
        rcases ih b 1 t1 c1 [] s1 with h | ⟨hw, h⟩
        · exact .inl (by simpa using S.one g1 h)
        · exact .inr ⟨hw, by simpa using S.one g1 h⟩
  | text h =>
    intro b k ht c cs hs
    obtain ⟨x, hx, hs⟩ := hs
    rw [h] at hx; cases hx
    cases hs with
    | text hc => exact .inl (.text (by simpa using hc))
  | datatype h1 h2 =>
    intro b k ht c cs hs
    split at h2
    · subst_vars
      obtain ⟨_, he⟩ := (SI.empty h2).mp hs
      simp at he; obtain ⟨rfl, rfl⟩ := he
      simp_all
      exact .inl (.datatype h1)
    · exact absurd hs (SI.notAllowed h2)
  | datatypeValue h1 h2 =>
    intro b k ht c cs hs
    split at h2
    · subst_vars
      obtain ⟨_, he⟩ := (SI.empty h2).mp hs
      simp at he; obtain ⟨rfl, rfl⟩ := he
      simp_all
      exact .inl (.datatypeValue h1)
    · exact absurd hs (SI.notAllowed h2)
  | datatypeExcept h1 hd h3 h4 h5 ih =>
    intro b k ht c cs hs
    cases ht with
    | datatypeExcept g1 e1 =>
      rw [g1] at h1; cases h1
      split at h5
      · rename_i hc
        simp at hc
        obtain ⟨rfl, hq⟩ := hc
        obtain ⟨_, he⟩ := (SI.empty h5).mp hs
        simp at he; obtain ⟨rfl, rfl⟩ := he
        obtain ⟨x, hx, dx⟩ := hd.dm e1
        rw [h3] at hx; cases hx
        rw [hq] at dx
        exact .inl (.datatypeExcept h4 g1 dx)
      · exact absurd hs (SI.notAllowed h5)
  | @list j0 r0 t0 i0 hl h2 ih =>
    intro b k ht c cs hs
    cases ht with
    | list g1 t1 =>
      rw [hm] at t1
      have tr := hl.ty hm false ⟨_, g1, t1⟩
      have hi := ih false ⟨_, g1, t1⟩ (fun w hw => splitWs_not_ws hw)
      have ti : TyI lk QE QR m true _ 1 := h2.ty (by rw [hm]; exact tr)
      obtain ⟨c', he⟩ := hs.single ti
      simp at he; obtain ⟨rfl, rfl⟩ := he
      obtain ⟨q, hq, hcase⟩ := h2
      have key : ∀ (ss : List Str), SI L lk true r0 [] [(ss.flatMap splitWs).map Node.text] →
          S L lk true (.list j0) [] [Node.text t0 :: ss.map Node.text] := by
        intro ss hss
        obtain ⟨y, hy, hs'⟩ := hi _ hss
        have := S.list (L := L) (lk := lk) (pm := true) (ss := t0 :: ss) hy (by simp) (.inl rfl)
          (by simpa [List.flatMap_cons] using hs')
        simpa using this
      rcases hcase with ⟨rfl, rfl⟩ | ⟨rfl, rfl⟩ | ⟨hn, l, e, e1, e2, e3⟩ | ⟨hn, e1⟩
      · exact absurd hs (SI.notAllowed hq)
      · obtain ⟨_, he⟩ := (SI.empty hq).mp hs
        simp at he; subst he
        exact .inl (key [] (by simpa using hs))
      · rcases e3.sem.mp hs with hs | hs
        · obtain ⟨y, hy, hs⟩ := hs
          rw [e1] at hy; cases hy
          generalize hcc : [c] = cc at hs
          cases hs with
          | list y1 y2 y3 y4 =>
            simp at hcc; subst hcc
            exact .inl (key _ ⟨_, y1, y4⟩)
        · obtain ⟨_, he⟩ := (SI.empty e2).mp hs
          simp at he; subst he
          exact .inl (key [] ⟨_, hq, (tr.get hq).null hn⟩)
      · obtain ⟨y, hy, hs⟩ := hs
        rw [e1] at hy; cases hy
        generalize hcc : [c] = cc at hs
        cases hs with
        | list y1 y2 y3 y4 =>
          simp at hcc; subst hcc
          exact .inl (key _ ⟨_, y1, y4⟩)
  | empty h =>
    intro b k ht c cs hs
    split at h
    · rename_i hw
      obtain ⟨_, he⟩ := (SI.empty h).mp hs
      simp at he; obtain ⟨rfl, rfl⟩ := he
      exact .inr ⟨(isWsStr_iff _).mp hw, .empty⟩
    · exact absurd hs (SI.notAllowed h)
  | notAllowed h => intro b k ht c cs hs; exact absurd hs (SI.notAllowed h)
  | attr h => intro b k ht c cs hs; exact absurd hs (SI.notAllowed h)
  | element h =>
    intro b k ht c cs hs
    split at h
    · rename_i hw
      obtain ⟨y, hy, hs⟩ := hs
      rw [h] at hy; cases hy
      exact .inr ⟨(isWsStr_iff _).mp hw, hs⟩
    · exact absurd hs (SI.notAllowed h)
  | loopNil => intro b ht _ c hs; simpa using hs
  | loopStop h1 hd h3 ih => intro b ht _ c hs; exact absurd hs (SI.notAllowed h3)
  | loopStep h1 hd hl ih1 ih2 =>
    intro b ht hw c hs
    have tj := hd.ty hm b 1 (ht.get h1)
    have h2 := ih2 b tj (fun w hw' => hw w (by simp [hw'])) c hs
    rcases ih1 b 1 (ht.get h1) _ [] h2 with h | ⟨hw', _⟩
    · exact ⟨_, h1, by simpa using h⟩
    · exact absurd hw' (hw _ (by simp))

/-! ### completeness -/

theorem noTextHead_nil : NoTextHead [] := by intro s c' h; cases h

theorem NoTextHead.append_left {c1 c2} (h : NoTextHead (c1 ++ c2)) : NoTextHead c1 := by
  intro s c' hc
  subst hc
  exact h s _ rfl

theorem NoTextHead.shuffle {c1 c2 c} (h : NoTextHead c) (hs : Shuffle c1 c2 c) :
    NoTextHead c1 ∨ NoTextHead c2 := by
  cases hs with
  | nil => exact .inl noTextHead_nil
  | left hs =>
    left
    intro s c' hc
    cases hc
    exact h s _ rfl
  | right hs =>
    right
    intro s c' hc
    cases hc
    exact h s _ rfl

/-- the first iteration that consumes something -/
theorem S.oneOrMore_split {pm : Bool} {j f p a cs} (h : S L lk pm (.oneOrMore j f) a cs)
    (hp : lk j = some p) : ∀ {x c}, a = [] → cs = [x :: c] →
    ∃ c1 c2, c = c1 ++ c2 ∧ S L lk pm p [] [x :: c1] ∧
      (c2 = [] ∨ S L lk pm (.oneOrMore j f) [] [c2]) := by
  generalize hq : (Pat.oneOrMore j f : Pat D V) = q at h
  induction h with
  | one h1 h2 _ =>
    intro x c ha hc
    cases hq
    rw [hp] at h1; cases h1
    subst ha; simp at hc; subst hc
    exact ⟨c, [], by simp, h2, .inl rfl⟩
  | more h1 h2 h3 h4 _ ih =>
    intro x c ha hc
    cases hq
    rw [hp] at h1; cases h1
    subst ha
    obtain ⟨rfl, rfl⟩ := perm_nil_append h4
    rename_i c1 c2 _
    cases c1 with
    | nil =>
      simp at hc
      exact ih rfl rfl (by rw [hc])
    | cons y c1 =>
      simp at hc
      obtain ⟨rfl, rfl⟩ := hc
      exact ⟨c1, c2, rfl, h2, .inr h3⟩
  | _ => cases hq

def JobComplete (L : Lib D V) (lk : Lk D V) (QE QR : Nat → Prop) (i : Nat) :
    Job D V → Prop
  | .txt p t => ∀ b k, Ty lk QE QR .strict b p k → ∀ c cs,
      (S L lk false p [] ((.text t :: c) :: cs) → SI L lk false i [] (c :: cs)) ∧
      (WsText t → NoTextHead c → S L lk false p [] (c :: cs) → SI L lk false i [] (c :: cs))
  | .loop j items => ∀ b, TyI lk QE QR .strict b j 1 →
      ∀ c, SI L lk false j [] [items.map Node.text ++ c] → SI L lk false i [] [c]

theorem TD.complete {job i} (h : TD L lk job i) : JobComplete L lk QE QR i job := by
  induction h with
  | choice h1 h2 _ _ h5 ih1 ih2 =>
    intro b k ht c cs
    cases ht with
    | choice g1 g2 t1 t2 fl =>
      rw [g1] at h1; cases h1; rw [g2] at h2; cases h2
      have i1 := ih1 b k t1 c cs
      have i2 := ih2 b k t2 c cs
      constructor
      · intro hs
        cases hs with
        | choiceL e1 s1 => rw [g1] at e1; cases e1; exact h5.sem.mpr (.inl (i1.1 s1))
        | choiceR e1 s1 => rw [g2] at e1; cases e1; exact h5.sem.mpr (.inr (i2.1 s1))
      · intro hw hn hs
        cases hs with
        | choiceL e1 s1 => rw [g1] at e1; cases e1; exact h5.sem.mpr (.inl (i1.2 hw hn s1))
        | choiceR e1 s1 => rw [g2] at e1; cases e1; exact h5.sem.mpr (.inr (i2.2 hw hn s1))
  | interleave h1 h2 hd1 hd2 h5 h6 h7 ih1 ih2 =>
    intro b k ht c cs
    cases ht with
    | interleave g1 g2 t1 t2 fl =>
      rw [g1] at h1; cases h1; rw [g2] at h2; cases h2
      have td1 := hd1.ty (m := .strict) rfl b 1 t1
      have td2 := hd2.ty (m := .strict) rfl b 1 t2
      constructor
      · intro hs
        cases hs with
        | interleave e1 e2 s1 s2 hp hsh =>
          rw [g1] at e1; cases e1; rw [g2] at e2; cases e2
          obtain ⟨rfl, rfl⟩ := perm_nil_append hp
          cases hsh with
          | left hsh =>
            exact h7.sem.mpr (.inl ((h5.sem td1 ⟨_, g2, t2⟩).mpr
              ⟨[], [], _, _, c, rfl, (ih1 b 1 t1 _ []).1 s1, ⟨_, g2, s2⟩, by simp, hsh⟩))
          | right hsh =>
            exact h7.sem.mpr (.inr ((h6.sem ⟨_, g1, t1⟩ td2).mpr
              ⟨[], [], _, _, c, rfl, ⟨_, g1, s1⟩, (ih2 b 1 t2 _ []).1 s2, by simp, hsh⟩))
      · intro hw hn hs
        cases hs with
        | interleave e1 e2 s1 s2 hp hsh =>
          rw [g1] at e1; cases e1; rw [g2] at e2; cases e2
          obtain ⟨rfl, rfl⟩ := perm_nil_append hp
          rcases hn.shuffle hsh with hn | hn
          · exact h7.sem.mpr (.inl ((h5.sem td1 ⟨_, g2, t2⟩).mpr
              ⟨[], [], _, _, c, rfl, (ih1 b 1 t1 _ []).2 hw hn s1, ⟨_, g2, s2⟩, by simp, hsh⟩))
          · exact h7.sem.mpr (.inr ((h6.sem ⟨_, g1, t1⟩ td2).mpr
              ⟨[], [], _, _, c, rfl, ⟨_, g1, s1⟩, (ih2 b 1 t2 _ []).2 hw hn s2, by simp, hsh⟩))
  | groupN h1 h2 hn hd1 hd2 h5 h6 ih1 ih2 =>
    intro b k ht c cs
    cases ht with
    | group g1 g2 t1 t2 fl =>
      rw [g1] at h1; cases h1; rw [g2] at h2; cases h2
      have td1 := hd1.ty (m := .strict) rfl b 1 t1
      constructor
      · intro hs
        generalize hcc : (Node.text _ :: c) :: cs = cc at hs
        cases hs with
        | group e1 e2 s1 s2 hp =>
          rw [g1] at e1; cases e1; rw [g2] at e2; cases e2
          obtain ⟨rfl, rfl⟩ := perm_nil_append hp
          rename_i c1 c2
          simp at hcc
          obtain ⟨hcc, rfl⟩ := hcc
          cases c1 with
          | nil =>
            simp at hcc; subst hcc
            exact h6.sem.mpr (.inr ((ih2 b 1 t2 _ []).1 s2))
          | cons y c1 =>
            simp at hcc
            obtain ⟨rfl, rfl⟩ := hcc
            exact h6.sem.mpr (.inl ((h5.sem td1 ⟨_, g2, t2⟩).mpr
              ⟨[], [], c1, c2, rfl, (ih1 b 1 t1 _ []).1 s1, ⟨_, g2, s2⟩, by simp⟩))
      · intro hw hn hs
        cases hs with
        | group e1 e2 s1 s2 hp =>
          rw [g1] at e1; cases e1; rw [g2] at e2; cases e2
          obtain ⟨rfl, rfl⟩ := perm_nil_append hp
          exact h6.sem.mpr (.inl ((h5.sem td1 ⟨_, g2, t2⟩).mpr
              ⟨[], [], _, _, rfl, (ih1 b 1 t1 _ []).2 hw hn.append_left s1, ⟨_, g2, s2⟩, by simp⟩))
  | group h1 h2 hnn hd1 h5 ih1 =>
    intro b k ht c cs
    cases ht with
    | group g1 g2 t1 t2 fl =>
      rw [g1] at h1; cases h1; rw [g2] at h2; cases h2
      have td1 := hd1.ty (m := .strict) rfl b 1 t1
      constructor
      · intro hs
        generalize hcc : (Node.text _ :: c) :: cs = cc at hs
        cases hs with
        | group e1 e2 s1 s2 hp =>
          rw [g1] at e1; cases e1; rw [g2] at e2; cases e2
          obtain ⟨rfl, rfl⟩ := perm_nil_append hp
          rename_i c1 c2
          simp at hcc
          obtain ⟨hcc, rfl⟩ := hcc
          cases c1 with
          | nil =>
            have := s1.null_flag rfl rfl t1
            rw [hnn] at this; cases this
          | cons y c1 =>
            simp at hcc
            obtain ⟨rfl, rfl⟩ := hcc
            exact (h5.sem td1 ⟨_, g2, t2⟩).mpr
              ⟨[], [], c1, c2, rfl, (ih1 b 1 t1 _ []).1 s1, ⟨_, g2, s2⟩, by simp⟩
      · intro hw hn hs
        cases hs with
        | group e1 e2 s1 s2 hp =>
          rw [g1] at e1; cases e1; rw [g2] at e2; cases e2
          obtain ⟨rfl, rfl⟩ := perm_nil_append hp
          exact (h5.sem td1 ⟨_, g2, t2⟩).mpr
              ⟨[], [], _, _, rfl, (ih1 b 1 t1 _ []).2 hw hn.append_left s1, ⟨_, g2, s2⟩, by simp⟩
  | after h1 hd h3 ih =>
    intro b k ht c cs
    cases ht with
    | after g1 g2 t1 t2 =>
      rw [g1] at h1; cases h1
      constructor
      · intro hs
        cases hs with
        | after e1 e2 s1 s2 =>
          rw [g1] at e1; cases e1
          exact h3.sem.mpr ⟨c, cs, rfl, (ih b 1 t1 _ []).1 s1, ⟨_, e2, s2⟩⟩
      · intro hw hn hs
        cases hs with
        | after e1 e2 s1 s2 =>
          rw [g1] at e1; cases e1
          exact h3.sem.mpr ⟨c, cs, rfl, (ih b 1 t1 _ []).2 hw hn s1, ⟨_, e2, s2⟩⟩
  | oneOrMore h1 hd h3 h4 h5 h6 ih =>
    intro b k ht c cs
    cases ht with
    | oneOrMore g1 t1 hq fl =>
      rw [g1] at h1; cases h1
      have td := hd.ty (m := .strict) rfl b 1 t1
      have to : TyI lk QE QR .strict b _ 1 := h3.ty ⟨_, g1, t1⟩ hq
      have tc := h5.ty to (tyI_empty h4)
      constructor
      · intro hs
        have hl : cs = [] := by
          have := hs.len (Ty.oneOrMore (m := .strict) (b := b) g1 t1 hq fl)
          simpa using this
        subst hl
        obtain ⟨c1, c2, rfl, s1, s2⟩ := hs.oneOrMore_split g1 rfl rfl
        refine (h6.sem td tc).mpr ⟨[], [], c1, c2, rfl, (ih b 1 t1 _ []).1 s1, ?_, by simp⟩
        rcases s2 with rfl | s2
        · exact h5.sem.mpr (.inr ((SI.empty h4).mpr ⟨rfl, rfl⟩))
        · exact h5.sem.mpr (.inl (h3.sem.mpr s2))
      · intro hw hn hs
        cases hs with
        | one e1 s1 =>
          rw [g1] at e1; cases e1
          refine (h6.sem td tc).mpr ⟨[], [], c, [], by simp, (ih b 1 t1 _ []).2 hw hn s1, ?_, by simp⟩
          exact h5.sem.mpr (.inr ((SI.empty h4).mpr ⟨rfl, rfl⟩))
        | more e1 s1 s2 hp =>
          rw [g1] at e1; cases e1
          obtain ⟨rfl, rfl⟩ := perm_nil_append hp
          refine (h6.sem td tc).mpr ⟨[], [], _, _, rfl, (ih b 1 t1 _ []).2 hw hn.append_left s1, ?_,
            by simp⟩
          exact h5.sem.mpr (.inl (h3.sem.mpr s2))
  | text h =>
    intro b k ht c cs
    constructor
    · intro hs
      cases hs with
      | text hc => exact ⟨_, h, .text (fun x hx => hc x (by simp [hx]))⟩
    · intro _ _ hs
      exact ⟨_, h, hs⟩
  | datatype h1 h2 =>
    intro b k ht c cs
    constructor
    · intro hs
      cases hs with
      | datatype hd =>
        rw [hd] at h1; cases h1
        exact (SI.empty h2).mpr ⟨rfl, rfl⟩
    · intro _ hn hs
      cases hs; exact absurd rfl (hn _ _)
  | datatypeValue h1 h2 =>
    intro b k ht c cs
    constructor
    · intro hs
      cases hs with
      | datatypeValue hd =>
        rw [hd] at h1; cases h1
        exact (SI.empty h2).mpr ⟨rfl, rfl⟩
    · intro _ hn hs
      cases hs; exact absurd rfl (hn _ _)
  | datatypeExcept h1 hd h3 h4 h5 ih =>
    intro b k ht c cs
    cases ht with
    | datatypeExcept g1 e1 =>
      rw [g1] at h1; cases h1
      constructor
      · intro hs
        cases hs with
        | datatypeExcept v1 v2 v3 =>
          rw [v1] at h4; cases h4
          rw [g1] at v2; cases v2
          obtain ⟨x, hx, dx⟩ := hd.dm e1
          rw [h3] at hx; cases hx
          have := dx.det v3
          rw [this] at h5
          exact (SI.empty h5).mpr ⟨rfl, rfl⟩
      · intro _ hn hs
        cases hs; exact absurd rfl (hn _ _)
  | list hl h2 ih =>
    intro b k ht c cs
    cases ht with
    | list g1 t1 =>
      have tr := hl.ty (m := .strict) rfl false ⟨_, g1, t1⟩
      have hi := ih false ⟨_, g1, t1⟩
      constructor
      · intro hs
        generalize hcc : (Node.text _ :: c) :: cs = cc at hs
        cases hs with
        | list e1 e2 e3 s1 =>
          rw [g1] at e1; cases e1
          rename_i ss
          match ss, e3 with
          | [s], _ =>
            simp at hcc
            obtain ⟨⟨rfl, rfl⟩, rfl⟩ := hcc
            have hr := hi [] ⟨_, g1, by simpa using s1⟩
            obtain ⟨q, hq, hcase⟩ := h2
            rcases hcase with ⟨rfl, rfl⟩ | ⟨rfl, rfl⟩ | ⟨hn, l, e, e1, e2, e3⟩ | ⟨hn, e1⟩
            · exact absurd hr (SI.notAllowed hq)
            · exact hr
            · exact e3.sem.mpr (.inr ((SI.empty e2).mpr ⟨rfl, rfl⟩))
            · obtain ⟨y, hy, sy⟩ := hr
              rw [hq] at hy; cases hy
              have := sy.null_flag rfl rfl (tr.get hq)
              rw [hn] at this; cases this
      · intro _ hn hs
        generalize hcc : c :: cs = cc at hs
        cases hs with
        | list e1 e2 e3 s1 =>
          rename_i ss
          cases ss with
          | nil => exact absurd rfl e2
          | cons s ss =>
            simp at hcc
            exact absurd hcc.1 (hn _ _)
  | empty h =>
    intro b k ht c cs
    constructor
    · intro hs; cases hs
    · intro hw _ hs
      rw [(isWsStr_iff _).mpr hw] at h
      cases hs
      exact (SI.empty h).mpr ⟨rfl, rfl⟩
  | notAllowed h =>
    intro b k ht c cs
    exact ⟨fun hs => absurd hs S.notAllowed, fun _ _ hs => absurd hs S.notAllowed⟩
  | attr h =>
    intro b k ht c cs
    exact ⟨fun hs => (by cases hs), fun _ _ hs => (by cases hs)⟩
  | element h =>
    intro b k ht c cs
    constructor
    · intro hs; cases hs
    · intro hw _ hs
      rw [(isWsStr_iff _).mpr hw] at h
      exact ⟨_, h, hs⟩
  | loopNil => intro b ht c hs; simpa using hs
  | loopStop h1 hd h3 ih =>
    intro b ht c hs
    obtain ⟨y, hy, hs⟩ := hs
    rw [h1] at hy; cases hy
    exact absurd ((ih b 1 (ht.get h1) _ []).1 (by simpa using hs)) (SI.notAllowed h3)
  | loopStep h1 hd hl ih1 ih2 =>
    intro b ht c hs
    obtain ⟨y, hy, hs⟩ := hs
    rw [h1] at hy; cases hy
    have tj := hd.ty (m := .strict) rfl b 1 (ht.get h1)
    exact ih2 b tj c ((ih1 b 1 (ht.get h1) _ []).1 (by simpa using hs))

end Verif
