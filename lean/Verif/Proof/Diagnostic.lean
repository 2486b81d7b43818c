import Verif.Spec.Diagnostic
import Verif.Proof.TotalEvents
import Verif.Proof.StartD
/-
The elements a diagnostic names, and those that may come next.
-/
set_option linter.unusedSectionVars false
namespace Verif.Loc
open Verif
variable {D V : Type}

/-! ### what may come next is what is accepted -/

/-- an expected element, entered -/
inductive LiveT (lk : Lk D V) : Pat D V → Prop
  | after {l r q} : lk l = some q → q ≠ .notAllowed → LiveT lk (.after l r)
  | choiceL {l r f p} : lk l = some p → LiveT lk p → LiveT lk (.choice l r f)
  | choiceR {l r f p} : lk r = some p → LiveT lk p → LiveT lk (.choice l r f)

section
variable {lk : Lk D V}

theorem LiveT.ne {p : Pat D V} (h : LiveT lk p) : p ≠ .notAllowed := by rintro rfl; cases h

theorem choice_liveL {l r i : Nat} {p : Pat D V} (h : ChoiceOf lk l r i) (hl : lk l = some p) (ht : LiveT lk p) :
    ∃ p', lk i = some p' ∧ LiveT lk p' := by
  obtain ⟨p1, q1, h1, h2, h3⟩ := h
  rw [hl] at h1; cases h1
  rcases h3 with ⟨rfl, _⟩ | ⟨_, rfl⟩ | ⟨_, rfl⟩ | ⟨_, h3⟩
  · exact absurd rfl ht.ne
  · exact ⟨p, hl, ht⟩
  · exact ⟨p, hl, ht⟩
  · exact ⟨_, h3, .choiceL hl ht⟩

theorem choice_liveR {l r i : Nat} {p : Pat D V} (h : ChoiceOf lk l r i) (hr : lk r = some p) (ht : LiveT lk p) :
    ∃ p', lk i = some p' ∧ LiveT lk p' := by
  obtain ⟨p1, q1, h1, h2, h3⟩ := h
  rw [hr] at h2; cases h2
  rcases h3 with ⟨_, rfl⟩ | ⟨rfl, _⟩ | ⟨rfl, rfl⟩ | ⟨_, h3⟩
  · exact ⟨p, hr, ht⟩
  · exact absurd rfl ht.ne
  · exact ⟨p, hr, ht⟩
  · exact ⟨_, h3, .choiceR hr ht⟩

theorem choice_dead {l r i : Nat} (h : ChoiceOf lk l r i) (hl : lk l = some .notAllowed) (hr : lk r = some .notAllowed) :
    lk i = some .notAllowed := by
  obtain ⟨p1, q1, h1, h2, h3⟩ := h
  rw [hl] at h1; cases h1
  rcases h3 with ⟨_, rfl⟩ | ⟨_, rfl⟩ | ⟨rfl, rfl⟩ | ⟨hn, _⟩
  · exact hr
  · exact hl
  · exact hl
  · exact absurd rfl hn

theorem AA.live {F : Nat → Nat → Prop} {p : Pat D V} {i : Nat} (h : AA lk F p i) :
    (p = .notAllowed → lk i = some .notAllowed) ∧ (LiveT lk p → ∃ p', lk i = some p' ∧ LiveT lk p') := by
  induction h with
  | @after p1 p2 j i h1 h2 =>
    refine ⟨nofun, fun h => ?_⟩
    cases h with
    | after g1 g2 =>
      obtain ⟨q, e1, e2⟩ := h2
      rw [g1] at e1; cases e1
      rcases e2 with ⟨rfl, _⟩ | ⟨_, e2⟩
      · exact absurd rfl g2
      · exact ⟨_, e2, .after g1 g2⟩
  | choice h1 h2 _ _ h5 ih1 ih2 =>
    refine ⟨nofun, fun h => ?_⟩
    cases h with
    | choiceL g1 g2 =>
      rw [h1] at g1; cases g1
      obtain ⟨p', k1, k2⟩ := ih1.2 g2
      exact choice_liveL h5 k1 k2
    | choiceR g1 g2 =>
      rw [h2] at g1; cases g1
      obtain ⟨p', k1, k2⟩ := ih2.2 g2
      exact choice_liveR h5 k1 k2
  | notAllowed h => exact ⟨fun _ => h, nofun⟩

def Fate (lk : Lk D V) (b : Prop) (i : Nat) : Prop :=
  (lk i = some .notAllowed ∧ ¬ b) ∨ (∃ p, lk i = some p ∧ LiveT lk p) ∧ b

theorem Fate.iff {a b : Prop} {i : Nat} (h : Fate lk a i) (e : a ↔ b) : Fate lk b i := by
  unfold Fate at h ⊢; rw [← e]; exact h

theorem Fate.choice {a b : Prop} {l r i : Nat} (h : ChoiceOf lk l r i) (h1 : Fate lk a l) (h2 : Fate lk b r) : Fate lk (a ∨ b) i := by
  rcases h1 with ⟨k1, n1⟩ | ⟨⟨p, k1, t1⟩, n1⟩
  · rcases h2 with ⟨k2, n2⟩ | ⟨⟨p, k2, t2⟩, n2⟩
    · exact .inl ⟨choice_dead h k1 k2, fun h => h.elim n1 n2⟩
    · exact .inr ⟨choice_liveR h k2 t2, .inr n2⟩
  · exact .inr ⟨choice_liveL h k1 t1, .inl n1⟩

theorem Fate.aa {a : Prop} {d i : Nat} {dp : Pat D V} {F : Nat → Nat → Prop} (hd : lk d = some dp) (h : AA lk F dp i) (h1 : Fate lk a d) : Fate lk a i := by
  rcases h1 with ⟨k1, n1⟩ | ⟨⟨p, k1, t1⟩, n1⟩
  · rw [hd] at k1; cases k1
    exact .inl ⟨(AA.live h).1 rfl, n1⟩
  · rw [hd] at k1; cases k1
    exact .inr ⟨(AA.live h).2 t1, n1⟩

theorem STD.fate {nm : QName} {p : Pat D V} {i : Nat} (h : STD lk nm p i) : Fate lk (Can lk nm p) i := by
  induction h with
  | choice h1 h2 _ _ h5 ih1 ih2 =>
    refine (Fate.choice h5 ih1 ih2).iff ⟨?_, ?_⟩
    · rintro (⟨nc, j, q, a, b⟩ | ⟨nc, j, q, a, b⟩)
      · exact ⟨nc, j, q, .choiceL h1 a, b⟩
      · exact ⟨nc, j, q, .choiceR h2 a, b⟩
    · rintro ⟨nc, j, q, a, b⟩
      cases a with
      | choiceL g a => rw [h1] at g; cases g; exact .inl ⟨nc, j, q, a, b⟩
      | choiceR g a => rw [h2] at g; cases g; exact .inr ⟨nc, j, q, a, b⟩
  | oneOrMore h1 _ h3 h4 ih =>
    refine (Fate.aa h3 h4 ih).iff ⟨?_, ?_⟩
    · rintro ⟨nc, j, q, a, b⟩
      exact ⟨nc, j, q, .oneOrMore h1 a, b⟩
    · rintro ⟨nc, j, q, a, b⟩
      cases a with
      | oneOrMore g a => rw [h1] at g; cases g; exact ⟨nc, j, q, a, b⟩
  | interleave h1 h2 _ h4 h5 _ h7 h8 h9 ih1 ih2 =>
    refine (Fate.choice h9 (Fate.aa h4 h5 ih1) (Fate.aa h7 h8 ih2)).iff ⟨?_, ?_⟩
    · rintro (⟨nc, j, q, a, b⟩ | ⟨nc, j, q, a, b⟩)
      · exact ⟨nc, j, q, .interleaveL h1 a, b⟩
      · exact ⟨nc, j, q, .interleaveR h2 a, b⟩
    · rintro ⟨nc, j, q, a, b⟩
      cases a with
      | interleaveL g a => rw [h1] at g; cases g; exact .inl ⟨nc, j, q, a, b⟩
      | interleaveR g a => rw [h2] at g; cases g; exact .inr ⟨nc, j, q, a, b⟩
  | groupN h1 h2 h3 _ h5 h6 _ h8 ih1 ih2 =>
    refine (Fate.choice h8 (Fate.aa h5 h6 ih1) ih2).iff ⟨?_, ?_⟩
    · rintro (⟨nc, j, q, a, b⟩ | ⟨nc, j, q, a, b⟩)
      · exact ⟨nc, j, q, .groupL h1 a, b⟩
      · exact ⟨nc, j, q, .groupR h1 h3 h2 a, b⟩
    · rintro ⟨nc, j, q, a, b⟩
      cases a with
      | groupL g a => rw [h1] at g; cases g; exact .inl ⟨nc, j, q, a, b⟩
      | groupR g g' g'' a => rw [h2] at g''; cases g''; exact .inr ⟨nc, j, q, a, b⟩
  | group h1 h2 h3 _ h5 h6 ih1 =>
    refine (Fate.aa h5 h6 ih1).iff ⟨?_, ?_⟩
    · rintro ⟨nc, j, q, a, b⟩
      exact ⟨nc, j, q, .groupL h1 a, b⟩
    · rintro ⟨nc, j, q, a, b⟩
      cases a with
      | groupL g a => rw [h1] at g; cases g; exact ⟨nc, j, q, a, b⟩
      | groupR g g' g'' a => rw [h1] at g; cases g; rw [h3] at g'; cases g'
  | @element nc j e i h1 h2 h3 =>
    obtain ⟨q, e1, e2⟩ := h3
    rcases e2 with ⟨rfl, e2⟩ | ⟨hq, e2⟩
    · refine .inl ⟨e2, ?_⟩
      rintro ⟨nc, j, q, a, _, b, c⟩
      cases a
      rw [e1] at b; cases b; exact c rfl
    · exact .inr ⟨⟨_, e2, .after e1 hq⟩, nc, j, q, .element, h1, e1, hq⟩
  | elementNo h1 h2 =>
    refine .inl ⟨h2, ?_⟩
    rintro ⟨nc, j, q, a, b, _⟩
    cases a
    rw [h1] at b; cases b
  | after h1 _ h3 h4 ih =>
    refine (Fate.aa h3 h4 ih).iff ⟨?_, ?_⟩
    · rintro ⟨nc, j, q, a, b⟩
      exact ⟨nc, j, q, .after h1 a, b⟩
    · rintro ⟨nc, j, q, a, b⟩
      cases a with
      | after g a => rw [h1] at g; cases g; exact ⟨nc, j, q, a, b⟩
  | other h1 h2 =>
    refine .inl ⟨h2, ?_⟩
    rintro ⟨nc, j, q, a, _⟩
    rcases h1 with rfl | rfl | rfl | ⟨_, _, rfl⟩ | ⟨_, rfl⟩ | ⟨_, rfl⟩ | ⟨_, _, rfl⟩ | ⟨_, rfl⟩ <;> cases a


/-! ### later stores -/

theorem Next.mono {lk' : Lk D V} (hle : Le lk lk') {p : Pat D V} {nc : NameClass} {i : Nat} (h : Next lk p nc i) : Next lk' p nc i := by
  induction h with
  | element => exact .element
  | choiceL h1 _ ih => exact .choiceL (hle _ _ h1) ih
  | choiceR h1 _ ih => exact .choiceR (hle _ _ h1) ih
  | interleaveL h1 _ ih => exact .interleaveL (hle _ _ h1) ih
  | interleaveR h1 _ ih => exact .interleaveR (hle _ _ h1) ih
  | groupL h1 _ ih => exact .groupL (hle _ _ h1) ih
  | groupR h1 h2 h3 _ ih => exact .groupR (hle _ _ h1) h2 (hle _ _ h3) ih
  | oneOrMore h1 _ ih => exact .oneOrMore (hle _ _ h1) ih
  | after h1 _ ih => exact .after (hle _ _ h1) ih

theorem next_back {lk' : Lk D V} (hle : Le lk lk') {QE QR : Nat → Prop} {m : Mode} {b : Bool} {p : Pat D V} {k : Nat}
    (ht : Ty lk QE QR m b p k) : ∀ {nc i}, Next lk' p nc i → Next lk p nc i ∧ QE i := by
  have eq : ∀ {i : Nat} {p q : Pat D V}, lk i = some p → lk' i = some q → q = p := fun h1 h2 => by
    rw [hle _ _ h1] at h2; exact (Option.some.inj h2).symm
  induction ht with
  | choice h1 h2 _ _ _ ih1 ih2 =>
    intro nc i h
    cases h with
    | choiceL g a => cases eq h1 g; exact ⟨.choiceL h1 (ih1 a).1, (ih1 a).2⟩
    | choiceR g a => cases eq h2 g; exact ⟨.choiceR h2 (ih2 a).1, (ih2 a).2⟩
  | group h1 h2 _ _ _ ih1 ih2 =>
    intro nc i h
    cases h with
    | groupL g a => cases eq h1 g; exact ⟨.groupL h1 (ih1 a).1, (ih1 a).2⟩
    | groupR g g' g'' a => cases eq h1 g; cases eq h2 g''; exact ⟨.groupR h1 g' h2 (ih2 a).1, (ih2 a).2⟩
  | interleave h1 h2 _ _ _ ih1 ih2 =>
    intro nc i h
    cases h with
    | interleaveL g a => cases eq h1 g; exact ⟨.interleaveL h1 (ih1 a).1, (ih1 a).2⟩
    | interleaveR g a => cases eq h2 g; exact ⟨.interleaveR h2 (ih2 a).1, (ih2 a).2⟩
  | oneOrMore h1 _ _ _ ih =>
    intro nc i h
    cases h with
    | oneOrMore g a => cases eq h1 g; exact ⟨.oneOrMore h1 (ih a).1, (ih a).2⟩
  | element hq => intro nc i h; cases h; exact ⟨.element, hq⟩
  | after h1 _ _ _ ih1 _ =>
    intro nc i h
    cases h with
    | after g a => cases eq h1 g; exact ⟨.after h1 (ih1 a).1, (ih1 a).2⟩
  | empty => intro nc i h; cases h
  | text => intro nc i h; cases h
  | notAllowed => intro nc i h; cases h
  | attr => intro nc i h; cases h
  | datatype => intro nc i h; cases h
  | datatypeValue => intro nc i h; cases h
  | datatypeExcept => intro nc i h; cases h
  | list => intro nc i h; cases h

/-! ### the elements the code names -/

/-- without groups whose left side may be empty, nothing is left out -/
theorem next_offered {p : Pat D V} {nc : NameClass} {i : Nat} (h : Next lk p nc i) :
    (∀ l r f q, Part lk p (.group l r f) → lk l = some q → q.nullable = false) → Offered lk p nc i := by
  induction h with
  | element => exact fun _ => .element
  | choiceL h1 _ ih => exact fun hg => .choiceL h1 (ih fun l r f q hp => hg l r f q (.choiceL h1 hp))
  | choiceR h1 _ ih => exact fun hg => .choiceR h1 (ih fun l r f q hp => hg l r f q (.choiceR h1 hp))
  | interleaveL h1 _ ih => exact fun hg => .interleaveL h1 (ih fun l r f q hp => hg l r f q (.interleaveL h1 hp))
  | interleaveR h1 _ ih => exact fun hg => .interleaveR h1 (ih fun l r f q hp => hg l r f q (.interleaveR h1 hp))
  | groupL h1 _ ih => exact fun hg => .groupL h1 (ih fun l r f q hp => hg l r f q (.groupL h1 hp))
  | groupR h1 h2 h3 _ ih =>
    intro hg
    have := hg _ _ _ _ .refl h1
    rw [h2] at this; cases this
  | oneOrMore h1 _ ih => exact fun hg => .oneOrMore h1 (ih fun l r f q hp => hg l r f q (.oneOrMore h1 hp))
  | after h1 _ ih => exact fun hg => .after h1 (ih fun l r f q hp => hg l r f q (.after h1 hp))

/-- without groups whose left side may not be empty, and lists, nothing else is named -/
theorem offered_next {p : Pat D V} {nc : NameClass} {i : Nat} (h : Offered lk p nc i) :
    (∀ l r f q, Part lk p (.group l r f) → lk l = some q → q.nullable = true) → (∀ j, ¬ Part lk p (.list j)) → Next lk p nc i := by
  induction h with
  | element => exact fun _ _ => .element
  | choiceL h1 _ ih => exact fun hg hl => .choiceL h1 (ih (fun l r f q hp => hg l r f q (.choiceL h1 hp)) fun j hp => hl j (.choiceL h1 hp))
  | choiceR h1 _ ih => exact fun hg hl => .choiceR h1 (ih (fun l r f q hp => hg l r f q (.choiceR h1 hp)) fun j hp => hl j (.choiceR h1 hp))
  | interleaveL h1 _ ih => exact fun hg hl => .interleaveL h1 (ih (fun l r f q hp => hg l r f q (.interleaveL h1 hp)) fun j hp => hl j (.interleaveL h1 hp))
  | interleaveR h1 _ ih => exact fun hg hl => .interleaveR h1 (ih (fun l r f q hp => hg l r f q (.interleaveR h1 hp)) fun j hp => hl j (.interleaveR h1 hp))
  | groupL h1 _ ih => exact fun hg hl => .groupL h1 (ih (fun l r f q hp => hg l r f q (.groupL h1 hp)) fun j hp => hl j (.groupL h1 hp))
  | groupR h1 h2 h3 _ ih =>
    intro hg _
    have := hg _ _ _ _ .refl h1
    rw [h2] at this; cases this
  | oneOrMore h1 _ ih => exact fun hg hl => .oneOrMore h1 (ih (fun l r f q hp => hg l r f q (.oneOrMore h1 hp)) fun j hp => hl j (.oneOrMore h1 hp))
  | list h1 _ _ => exact fun _ hl => absurd .refl (hl _)
  | after h1 _ ih => exact fun hg hl => .after h1 (ih (fun l r f q hp => hg l r f q (.after h1 hp)) fun j hp => hl j (.after h1 hp))

end

section
variable [DecidableEq D] [DecidableEq V]

theorem mem_insertHead {p x : Pat D V} {r : List (Pat D V)} : x ∈ insertHead p r ↔ x ∈ r ∨ x = p := by
  unfold insertHead
  split
  · constructor
    · exact .inl
    · rintro (h | rfl) <;> assumption
  · rw [List.mem_cons]; exact or_comm

theorem nodup_insertHead {p : Pat D V} {r : List (Pat D V)} (h : r.Nodup) : (insertHead p r).Nodup := by
  unfold insertHead
  split
  · exact h
  · exact List.nodup_cons.2 ⟨by assumption, h⟩

/-- what a traversal for the heads of `p` does -/
def HeadOk (st : Store D V) (n : Nat) (i : Nat) (p : Pat D V) : Prop :=
  ∀ r, ∃ r', head n r i st = .ok (r', st) ∧ (r.Nodup → r'.Nodup) ∧
    ∀ nc j, Pat.element nc j ∈ r' ↔ Pat.element nc j ∈ r ∨ Offered st.lk p nc j

theorem patt_run {st : Store D V} {i : Nat} {p : Pat D V} (h : st.lk i = some p) : patt i st = .ok (p, st) := by
  unfold patt; unfold Store.lk at h; rw [h]

theorem headOk_two {st : Store D V} {n i l r : Nat} {p q s : Pat D V}
    (hrun : ∀ res, head (n + 1) res i st = (head n res l >>= fun x => head n x r) st)
    (hO : ∀ nc j, Offered st.lk s nc j ↔ Offered st.lk p nc j ∨ Offered st.lk q nc j)
    (h1 : HeadOk st n l p) (h2 : HeadOk st n r q) : HeadOk st (n + 1) i s := by
  intro res
  obtain ⟨r1, e1, n1, m1⟩ := h1 res
  obtain ⟨r2, e2, n2, m2⟩ := h2 r1
  refine ⟨r2, ?_, fun h => n2 (n1 h), fun nc j => ?_⟩
  · rw [hrun, ST.bind_of_ok e1]; exact e2
  · rw [m2, m1, hO]; exact or_assoc

theorem headOk_one {st : Store D V} {n i l : Nat} {p s : Pat D V}
    (hrun : ∀ res, head (n + 1) res i st = head n res l st)
    (hO : ∀ nc j, Offered st.lk s nc j ↔ Offered st.lk p nc j)
    (h1 : HeadOk st n l p) : HeadOk st (n + 1) i s := by
  intro res
  obtain ⟨r1, e1, n1, m1⟩ := h1 res
  exact ⟨r1, (hrun res).trans e1, n1, fun nc j => by rw [m1, hO]⟩

theorem headOk_none {st : Store D V} {n i : Nat} {s : Pat D V} (hrun : ∀ res, head (n + 1) res i st = .ok (res, st))
    (hO : ∀ nc j, ¬ Offered st.lk s nc j) : HeadOk st (n + 1) i s :=
  fun res => ⟨res, hrun res, id, fun nc j => by simp [hO nc j]⟩

theorem headOk_put {st : Store D V} {n i : Nat} {s : Pat D V} (hrun : ∀ res, head (n + 1) res i st = .ok (insertHead s res, st))
    (hO : ∀ nc j, Offered st.lk s nc j ↔ .element nc j = s) : HeadOk st (n + 1) i s :=
  fun res => ⟨_, hrun res, nodup_insertHead, fun nc j => by rw [mem_insertHead, hO]⟩

def headBody (n : Nat) (res : List (Pat D V)) (p : Pat D V) : SM D V (List (Pat D V)) :=
  match p with
  | .choice p1 p2 _ => head n res p1 >>= fun r => head n r p2
  | .interleave p1 p2 _ => head n res p1 >>= fun r => head n r p2
  | .group p1 p2 _ => patt p1 >>= fun l => if l.nullable then head n res p1 else head n res p1 >>= fun r => head n r p2
  | .oneOrMore p _ => head n res p
  | .empty => pure res
  | .text => pure res
  | .notAllowed => pure res
  | .attr _ _ => pure (insertHead p res)
  | .element _ _ => pure (insertHead p res)
  | .datatype _ => pure (insertHead p res)
  | .datatypeValue _ => pure (insertHead p res)
  | .datatypeExcept _ _ => pure (insertHead p res)
  | .list p => head n res p
  | .placeholder _ => ST.fault .placeholder
  | .after p _ => head n res p

theorem head_step {st : Store D V} {i : Nat} {p : Pat D V} (h : st.lk i = some p) (n : Nat) (res : List (Pat D V)) :
    head (n + 1) res i st = headBody n res p st := by
  conv => lhs; unfold head
  rw [ST.bind_run, patt_run h]
  cases p <;> rfl

theorem head_total {st : Store D V} {QE QR : Nat → Prop} {m : Mode} {b : Bool} {p : Pat D V} {k : Nat} (ht : Ty st.lk QE QR m b p k) :
    ∃ N, ∀ n, N ≤ n → ∀ i, st.lk i = some p → HeadOk st n i p := by
  have two : ∀ {P : Nat → Prop} {N}, (∀ n, N ≤ n → P (n + 1)) → ∃ N, ∀ n, N ≤ n → P n := fun {P N} h =>
    ⟨N + 1, fun n hn => by obtain ⟨k, rfl⟩ := Nat.exists_eq_add_of_le' (Nat.le_of_add_left_le hn); exact h k (by omega)⟩
  induction ht with
  | empty => exact two (N := 0) fun n _ i h => headOk_none (fun res => head_step h n res) nofun
  | text => exact two (N := 0) fun n _ i h => headOk_none (fun res => head_step h n res) nofun
  | notAllowed => exact two (N := 0) fun n _ i h => headOk_none (fun res => head_step h n res) nofun
  | attr => exact two (N := 0) fun n _ i h => headOk_put (fun res => head_step h n res) fun _ _ => ⟨nofun, nofun⟩
  | element => exact two (N := 0) fun n _ i h => headOk_put (fun res => head_step h n res) fun nc j => ⟨fun h => by cases h; rfl, fun e => by cases e; exact .element⟩
  | datatype => exact two (N := 0) fun n _ i h => headOk_put (fun res => head_step h n res) fun _ _ => ⟨nofun, nofun⟩
  | datatypeValue => exact two (N := 0) fun n _ i h => headOk_put (fun res => head_step h n res) fun _ _ => ⟨nofun, nofun⟩
  | datatypeExcept => exact two (N := 0) fun n _ i h => headOk_put (fun res => head_step h n res) fun _ _ => ⟨nofun, nofun⟩
  | choice h1 h2 _ _ _ ih1 ih2 =>
    obtain ⟨N1, ih1⟩ := ih1
    obtain ⟨N2, ih2⟩ := ih2
    refine two (N := N1 + N2) fun n hn i h => headOk_two (fun res => head_step h n res) (fun nc j => ⟨fun o => ?_, ?_⟩) (ih1 n (by omega) _ h1) (ih2 n (by omega) _ h2)
    · cases o with
      | choiceL g a => rw [h1] at g; cases g; exact .inl a
      | choiceR g a => rw [h2] at g; cases g; exact .inr a
    · rintro (o | o)
      · exact .choiceL h1 o
      · exact .choiceR h2 o
  | interleave h1 h2 _ _ _ ih1 ih2 =>
    obtain ⟨N1, ih1⟩ := ih1
    obtain ⟨N2, ih2⟩ := ih2
    refine two (N := N1 + N2) fun n hn i h => headOk_two (fun res => head_step h n res) (fun nc j => ⟨fun o => ?_, ?_⟩) (ih1 n (by omega) _ h1) (ih2 n (by omega) _ h2)
    · cases o with
      | interleaveL g a => rw [h1] at g; cases g; exact .inl a
      | interleaveR g a => rw [h2] at g; cases g; exact .inr a
    · rintro (o | o)
      · exact .interleaveL h1 o
      · exact .interleaveR h2 o
  | @group m b l r f p q h1 h2 _ _ _ ih1 ih2 =>
    obtain ⟨N1, ih1⟩ := ih1
    obtain ⟨N2, ih2⟩ := ih2
    cases hn : p.nullable with
    | true =>
      refine two (N := N1 + N2) fun n hn' i h => headOk_one (l := l) (fun res => ?_) (fun nc j => ⟨fun o => ?_, fun o => .groupL h1 o⟩) (ih1 n (by omega) _ h1)
      · rw [head_step h, headBody, ST.bind_run, patt_run h1]
        simp only [hn, if_true]
      · cases o with
        | groupL g a => rw [h1] at g; cases g; exact a
        | groupR g g' g'' a => rw [h1] at g; cases g; rw [hn] at g'; cases g'
    | false =>
      refine two (N := N1 + N2) fun n hn' i h => headOk_two (l := l) (r := r) (fun res => ?_) (fun nc j => ⟨fun o => ?_, ?_⟩) (ih1 n (by omega) _ h1) (ih2 n (by omega) _ h2)
      · rw [head_step h, headBody, ST.bind_run, patt_run h1]
        simp only [hn, Bool.false_eq_true, if_false]
      · cases o with
        | groupL g a => rw [h1] at g; cases g; exact .inl a
        | groupR g g' g'' a => rw [h2] at g''; cases g''; exact .inr a
      · rintro (o | o)
        · exact .groupL h1 o
        · exact .groupR h1 hn h2 o
  | oneOrMore h1 _ _ _ ih =>
    obtain ⟨N, ih⟩ := ih
    refine two (N := N) fun n hn i h => headOk_one (fun res => head_step h n res) (fun nc j => ⟨fun o => ?_, fun o => .oneOrMore h1 o⟩) (ih n hn _ h1)
    cases o with
    | oneOrMore g a => rw [h1] at g; cases g; exact a
  | list h1 _ ih =>
    obtain ⟨N, ih⟩ := ih
    refine two (N := N) fun n hn i h => headOk_one (fun res => head_step h n res) (fun nc j => ⟨fun o => ?_, fun o => .list h1 o⟩) (ih n hn _ h1)
    cases o with
    | list g a => rw [h1] at g; cases g; exact a
  | after h1 _ _ _ ih _ =>
    obtain ⟨N, ih⟩ := ih
    refine two (N := N) fun n hn i h => headOk_one (fun res => head_step h n res) (fun nc j => ⟨fun o => ?_, fun o => .after h1 o⟩) (ih n hn _ h1)
    cases o with
    | after g a => rw [h1] at g; cases g; exact a

/-! ### the text -/

theorem describeLoop_rest (names : List NameClass) : ∀ (i rest : Nat) (r : Str), 4 ≤ i → describeLoop names i rest r = (r, rest + names.length) := by
  induction names with
  | nil => intro i rest r _; rfl
  | cons nc ncs ih =>
    intro i rest r hi
    have h0 : i ≠ 0 := by omega
    simp only [describeLoop, h0, if_false, hi, ge_iff_le, if_true]
    rw [ih _ _ _ (by omega), List.length_cons]
    congr 1; omega

theorem describeLoop_some (names : List NameClass) : ∀ (i : Nat) (r : Str), 0 < i → i ≤ 4 →
    describeLoop names i 0 r = (r ++ ((names.take (4 - i)).map fun nc => ' ' :: describeNameclass nc).flatten, names.length - (4 - i)) := by
  induction names with
  | nil => intro i r _ _; simp [describeLoop]
  | cons nc ncs ih =>
    intro i r hi h4
    by_cases he : i = 4
    · subst he
      rw [describeLoop_rest _ _ _ _ (Nat.le_refl _)]
      simp
    · have h0 : i ≠ 0 := by omega
      have h1 : ¬ i ≥ 4 := by omega
      simp only [describeLoop, h0, if_false, h1, gt_iff_lt, hi, if_true]
      rw [ih _ _ (by omega) (by omega)]
      obtain ⟨d, hd⟩ : ∃ d, 4 - i = d + 1 := ⟨4 - i - 1, by omega⟩
      have hd' : 4 - (i + 1) = d := by omega
      rw [hd, hd', List.take_succ_cons, List.map_cons, List.flatten_cons, List.length_cons]
      simp

theorem intercalate_cons (a : Str) (as : List Str) : [' '].intercalate (a :: as) = a ++ (as.map fun x => ' ' :: x).flatten := by
  induction as generalizing a with
  | nil => simp [List.intercalate]
  | cons b bs ih =>
    have := ih b
    simp only [List.intercalate, List.intersperse_cons₂, List.flatten_cons, List.map_cons] at this ⊢
    rw [this]; simp

theorem describeNameclass_shown : describeNameclass = shown := by
  funext nc
  induction nc with
  | named => rfl
  | nsName ns => rfl
  | nsNameExcept ns ex ih =>
    show ns ++ [':', '*'] ++ ['-'] ++ describeNameclass ex = ns ++ [':', '*', '-'] ++ shown ex
    rw [ih]; simp
  | anyName => rfl
  | anyNameExcept ex ih => simp [describeNameclass, shown, ih]
  | alt a b iha ihb => simp [describeNameclass, shown, iha, ihb]

theorem describeExpected_eq (order : List (Pat D V) → List (Pat D V)) (hs : List (Pat D V)) :
    describeExpected order hs = expectation ((order hs).filterMap elementName) := by
  unfold describeExpected expectation
  rw [← describeNameclass_shown]
  cases (order hs).filterMap elementName with
  | nil => rfl
  | cons nc ncs =>
    have h1 : ¬ (0 : Nat) ≥ 4 := by omega
    have e : describeLoop (nc :: ncs) 0 0 [] = ("Element ".toList ++ [' '].intercalate (((nc :: ncs).take 4).map describeNameclass), ncs.length - 3) := by
      simp only [describeLoop, if_true, h1, if_false, gt_iff_lt, Nat.lt_irrefl]
      rw [describeLoop_some _ _ _ (by omega) (by omega)]
      rw [List.take_succ_cons, List.map_cons, intercalate_cons]
      simp [Function.comp_def]
    rw [e]
    simp only [List.length_cons, reduceCtorEq, if_false]
    by_cases h : ncs.length + 1 ≤ 4
    · have h' : ¬ (ncs.length - 3 > 0) := by omega
      simp only [h, h', if_true, if_false, List.append_nil]
    · have h' : ncs.length - 3 > 0 := by omega
      have h'' : ncs.length + 1 - 4 = ncs.length - 3 := by omega
      simp only [h, h', h'', if_true, if_false, List.append_assoc]

end
end Verif.Loc
