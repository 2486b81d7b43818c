import Verif.Proof.Top
/-
Totality: from a well-typed pattern every derivative function terminates, and can only abort with the
pattern limit or with a panic of the datatype library.
-/
set_option linter.unusedSectionVars false
namespace Verif
variable {D V : Type} [DecidableEq D] [DecidableEq V]

/-- the two allowed aborts -/
def OkFault (e : Fault) : Prop := e = .capacity ∨ e = .unimplemented

/-- with enough recursion budget `x` has one and the same result, and that is not an internal panic -/
def Conv {α : Type} (x : Nat → SM D V α) (st : Store D V) : Prop :=
  ∃ N r, (∀ n, N ≤ n → x n st = r) ∧ ∀ e, r = .error e → OkFault e

section
variable {α β : Type}

theorem Conv.const {x : SM D V α} {st} (h : ∀ e, x st = .error e → OkFault e) : Conv (fun _ => x) st :=
  ⟨0, x st, fun _ _ => rfl, h⟩

theorem Conv.pure {a : α} {st : Store D V} : Conv (fun _ => (Pure.pure a : SM D V α)) st :=
  Conv.const (by simp)

theorem Conv.shift {x : Nat → SM D V α} {st} (h : Conv (fun n => x (n + 1)) st) : Conv x st := by
  obtain ⟨N, r, h1, h2⟩ := h
  refine ⟨N + 1, r, fun n hn => ?_, h2⟩
  obtain ⟨m, rfl⟩ : ∃ m, n = m + 1 := ⟨n - 1, by omega⟩
  exact h1 m (by omega)

theorem Conv.ite {c : Prop} [Decidable c] {x y : Nat → SM D V α} {st} (hx : c → Conv x st)
    (hy : ¬ c → Conv y st) : Conv (fun n => if c then x n else y n) st := by
  by_cases h : c
  · simp only [h, if_true]; exact hx h
  · simp only [h, if_false]; exact hy h

theorem Conv.bind {x : Nat → SM D V α} {f : Nat → α → SM D V β} {R : Lk D V → α → Prop} {st}
    (hm : MemoOK st) (hx : Conv x st) (hok : ∀ n, Ok (x n) R)
    (hf : ∀ a st', MemoOK st' → Le st.lk st'.lk → R st'.lk a → Conv (fun n => f n a) st') :
    Conv (fun n => x n >>= f n) st := by
  obtain ⟨N, r, h1, h2⟩ := hx
  cases r with
  | error e =>
    exact ⟨N, .error e, fun n hn => ST.bind_of_error (h1 n hn), fun e' he => h2 e' (by cases he; rfl)⟩
  | ok r =>
    obtain ⟨a, st'⟩ := r
    obtain ⟨k1, k2, k3⟩ := hok N st a st' hm (h1 N (Nat.le_refl _))
    obtain ⟨M, r, g1, g2⟩ := hf a st' k1 k2 (k3 _ (Le.refl _))
    refine ⟨max N M, r, fun n hn => ?_, g2⟩
    exact (ST.bind_of_ok (h1 n (by omega))).trans (g1 n (by omega))

/-- as `bind`, the result's property holding in every later store -/
theorem Conv.bind' {x : Nat → SM D V α} {f : Nat → α → SM D V β} {R : Lk D V → α → Prop} {st}
    (hm : MemoOK st) (hx : Conv x st) (hok : ∀ n, Ok (x n) R)
    (hf : ∀ a st', MemoOK st' → Le st.lk st'.lk → (∀ lk, Le st'.lk lk → R lk a) →
      Conv (fun n => f n a) st') :
    Conv (fun n => x n >>= f n) st := by
  obtain ⟨N, r, h1, h2⟩ := hx
  cases r with
  | error e =>
    exact ⟨N, .error e, fun n hn => ST.bind_of_error (h1 n hn), fun e' he => h2 e' (by cases he; rfl)⟩
  | ok r =>
    obtain ⟨a, st'⟩ := r
    obtain ⟨k1, k2, k3⟩ := hok N st a st' hm (h1 N (Nat.le_refl _))
    obtain ⟨M, r, g1, g2⟩ := hf a st' k1 k2 k3
    refine ⟨max N M, r, fun n hn => ?_, g2⟩
    exact (ST.bind_of_ok (h1 n (by omega))).trans (g1 n (by omega))

/-- reading a known identity first -/
theorem Conv.patt {i : Nat} {p : Pat D V} {f : Nat → Pat D V → SM D V β} {st : Store D V}
    (h : st.lk i = some p) (hf : Conv (fun n => f n p) st) :
    Conv (fun n => Verif.patt i >>= f n) st := by
  have : ∀ n, (Verif.patt i >>= f n) st = f n p st := by
    intro n
    have : Verif.patt i st = .ok (p, st) := by simp only [Verif.patt]; unfold Store.lk at h; rw [h]
    rw [ST.bind_of_ok this]
  obtain ⟨N, r, h1, h2⟩ := hf
  exact ⟨N, r, fun n hn => (this n).trans (h1 n hn), h2⟩
end

/-- defined identity -/
def Def (st : Store D V) (i : Nat) : Prop := ∃ p, st.lk i = some p

theorem Def.mono {st st' : Store D V} {i} (h : Def st i) (hle : Le st.lk st'.lk) : Def st' i := by
  obtain ⟨p, hp⟩ := h; exact ⟨p, hle _ _ hp⟩

theorem push_fault {p : Pat D V} {st e} (h : push p st = .error e) : OkFault e := by
  unfold push at h
  split at h
  · cases h; exact Or.inl rfl
  · split at h <;> cases h

theorem conv_push (p : Pat D V) (st) : Conv (fun _ => push p) st := .const fun _ => push_fault
theorem conv_empty (st : Store D V) : Conv (fun _ => mkEmpty) st := conv_push _ _
theorem conv_text0 (st : Store D V) : Conv (fun _ => mkText) st := conv_push _ _
theorem conv_na (st : Store D V) : Conv (fun _ => notAllowed) st := conv_push _ _

theorem conv_choice {l r : Nat} {st : Store D V} (hl : Def st l) (hr : Def st r) :
    Conv (fun _ => choice l r) st := by
  obtain ⟨p, hp⟩ := hl
  obtain ⟨q, hq⟩ := hr
  unfold choice
  refine .patt hp (.patt hq ?_)
  split
  · exact .pure
  · exact .pure
  · exact .ite (fun _ => .pure) fun _ => conv_push _ _

theorem conv_interleave {l r : Nat} {st : Store D V} (hl : Def st l) (hr : Def st r) :
    Conv (fun _ => interleave l r) st := by
  obtain ⟨p, hp⟩ := hl
  obtain ⟨q, hq⟩ := hr
  unfold interleave
  refine .patt hp (.patt hq ?_)
  split
  · exact conv_na _
  · exact conv_na _
  · exact .pure
  · exact .pure
  · exact conv_push _ _

theorem conv_group {l r : Nat} {st : Store D V} (hl : Def st l) (hr : Def st r) :
    Conv (fun _ => group l r) st := by
  obtain ⟨p, hp⟩ := hl
  obtain ⟨q, hq⟩ := hr
  unfold group
  refine .patt hp (.patt hq ?_)
  split
  · exact conv_na _
  · exact conv_na _
  · exact .pure
  · exact .pure
  · exact conv_push _ _

theorem conv_after {l r : Nat} {st : Store D V} (hl : Def st l) : Conv (fun _ => after l r) st := by
  obtain ⟨p, hp⟩ := hl
  unfold after
  refine .patt hp (.patt hp ?_)
  split
  · exact conv_na _
  · exact conv_na _
  · exact conv_push _ _

theorem conv_oneOrMore {l : Nat} {st : Store D V} (hl : Def st l) : Conv (fun _ => oneOrMore l) st := by
  obtain ⟨p, hp⟩ := hl
  unfold oneOrMore
  exact .patt hp (conv_push _ _)

theorem ChoiceOf.defd {lk : Lk D V} {l r i} (h : ChoiceOf lk l r i) : ∃ p, lk i = some p := by
  obtain ⟨p, q, hp, hq, h⟩ := h
  rcases h with ⟨_, rfl⟩ | ⟨_, rfl⟩ | ⟨_, rfl⟩ | ⟨_, h⟩
  · exact ⟨_, hq⟩
  · exact ⟨_, hp⟩
  · exact ⟨_, hp⟩
  · exact ⟨_, h⟩

theorem InterOf.defd {lk : Lk D V} {l r i} (h : InterOf lk l r i) : ∃ p, lk i = some p := by
  obtain ⟨p, q, hp, hq, h⟩ := h
  rcases h with ⟨_, h⟩ | ⟨_, h⟩ | ⟨_, rfl⟩ | ⟨_, rfl⟩ | ⟨_, _, h⟩
  · exact ⟨_, h⟩
  · exact ⟨_, h⟩
  · exact ⟨_, hq⟩
  · exact ⟨_, hp⟩
  · exact ⟨_, h⟩

theorem GroupOf.defd {lk : Lk D V} {l r i} (h : GroupOf lk l r i) : ∃ p, lk i = some p := by
  obtain ⟨p, q, hp, hq, h⟩ := h
  rcases h with ⟨_, h⟩ | ⟨_, h⟩ | ⟨_, rfl⟩ | ⟨_, rfl⟩ | ⟨_, _, h⟩
  · exact ⟨_, h⟩
  · exact ⟨_, h⟩
  · exact ⟨_, hq⟩
  · exact ⟨_, hp⟩
  · exact ⟨_, h⟩

theorem AfterOf.defd {lk : Lk D V} {l r i} (h : AfterOf lk l r i) : ∃ p, lk i = some p := by
  obtain ⟨p, hp, h⟩ := h
  rcases h with ⟨_, h⟩ | ⟨_, h⟩
  · exact ⟨_, h⟩
  · exact ⟨_, h⟩

/-- results are defined identities -/
theorem TD.defd {L : Lib D V} {lk job i} (h : TD L lk job i) : ∀ {p t}, job = .txt p t → ∃ q, lk i = some q := by
  induction h with
  | choice _ _ _ _ h => intros; exact h.defd
  | interleave _ _ _ _ _ _ h => intros; exact h.defd
  | groupN _ _ _ _ _ _ h => intros; exact h.defd
  | group _ _ _ _ h => intros; exact h.defd
  | after _ _ h => intros; exact h.defd
  | oneOrMore _ _ _ _ _ h => intros; exact h.defd
  | text h => intros; exact ⟨_, h⟩
  | datatype _ h => intros; exact ⟨_, h⟩
  | datatypeValue _ h => intros; exact ⟨_, h⟩
  | datatypeExcept _ _ _ _ h => intros; exact ⟨_, h⟩
  | list _ h =>
    intros
    obtain ⟨q, hq, h⟩ := h
    rcases h with ⟨_, rfl⟩ | ⟨_, rfl⟩ | ⟨_, l, e, _, _, h⟩ | ⟨_, h⟩
    · exact ⟨_, hq⟩
    · exact ⟨_, hq⟩
    · exact h.defd
    · exact ⟨_, h⟩
  | empty h => intros; exact ⟨_, h⟩
  | notAllowed h => intros; exact ⟨_, h⟩
  | attr h => intros; exact ⟨_, h⟩
  | element h => intros; exact ⟨_, h⟩
  | loopNil => intro p t h; cases h
  | loopStop => intro p t h; cases h
  | loopStep => intro p t h; cases h

theorem Ty.mono {lk lk' : Lk D V} {QE QR m b p k} (hle : Le lk lk') (h : Ty lk QE QR m b p k) :
    Ty lk' QE QR m b p k := by
  have ex : ∀ {p}, EX lk p → EX lk' p := by
    intro p h
    induction h with
    | value => exact .value
    | data => exact .data
    | dataExcept h1 _ ih => exact .dataExcept (hle _ _ h1) ih
    | notAllowed => exact .notAllowed
    | choice h1 h2 _ _ ih1 ih2 => exact .choice (hle _ _ h1) (hle _ _ h2) ih1 ih2
  induction h with
  | empty => exact .empty
  | text => exact .text
  | notAllowed => exact .notAllowed
  | choice h1 h2 _ _ h5 ih1 ih2 => exact .choice (hle _ _ h1) (hle _ _ h2) ih1 ih2 h5
  | group h1 h2 _ _ h5 ih1 ih2 => exact .group (hle _ _ h1) (hle _ _ h2) ih1 ih2 h5
  | interleave h1 h2 _ _ h5 ih1 ih2 => exact .interleave (hle _ _ h1) (hle _ _ h2) ih1 ih2 h5
  | oneOrMore h1 _ h3 h4 ih => exact .oneOrMore (hle _ _ h1) ih h3 h4
  | attr h1 _ ih => exact .attr (hle _ _ h1) ih
  | element h => exact .element h
  | datatype => exact .datatype
  | datatypeValue => exact .datatypeValue
  | datatypeExcept h1 h2 => exact .datatypeExcept (hle _ _ h1) (ex h2)
  | list h1 _ ih => exact .list (hle _ _ h1) ih
  | after h1 h2 _ _ ih1 ih2 => exact .after (hle _ _ h1) (hle _ _ h2) ih1 ih2

theorem TyI.mono {lk lk' : Lk D V} {QE QR m b i k} (hle : Le lk lk') (h : TyI lk QE QR m b i k) :
    TyI lk' QE QR m b i k := by
  obtain ⟨p, hp, h⟩ := h
  exact ⟨p, hle _ _ hp, h.mono hle⟩

section
variable (L : Lib D V) {QE QR : Nat → Prop}

theorem conv_checkD (d : D) (t : Str) (st : Store D V) : Conv (fun _ => checkD L d t) st := by
  refine .const fun e h => ?_
  cases hv : L.validD d t with
  | none => simp [checkD, hv] at h; exact Or.inr h.symm
  | some b => simp [checkD, hv] at h

theorem conv_checkV (v : V) (t : Str) (st : Store D V) : Conv (fun _ => checkV L v t) st := by
  refine .const fun e h => ?_
  cases hv : L.validV v t with
  | none => simp [checkV, hv] at h; exact Or.inr h.symm
  | some b => simp [checkV, hv] at h

theorem conv_ex {lk : Lk D V} {p} (h : EX lk p) : ∀ (t : Str) (st : Store D V), MemoOK st → Le lk st.lk →
    Conv (fun n => textDeriv L n p t) st := by
  induction h with
  | value =>
    intro t st hm hle
    exact .shift (.bind hm (conv_checkV L _ _ _) (fun _ => ok_checkV L _ _) fun b st' _ _ _ =>
      .ite (fun _ => conv_empty _) fun _ => conv_na _)
  | data =>
    intro t st hm hle
    exact .shift (.bind hm (conv_checkD L _ _ _) (fun _ => ok_checkD L _ _) fun b st' _ _ _ =>
      .ite (fun _ => conv_empty _) fun _ => conv_na _)
  | dataExcept h1 _ ih =>
    intro t st hm hle
    refine .shift (.patt (hle _ _ h1) (.bind hm (ih t st hm hle) (fun n => ok_textDeriv L n _ _)
      fun i st' hm' hle' hr => ?_))
    obtain ⟨q, hq⟩ := hr.defd rfl
    exact .patt hq (.bind hm' (conv_checkD L _ _ _) (fun _ => ok_checkD L _ _) fun b st' _ _ _ =>
      .ite (fun _ => conv_empty _) fun _ => conv_na _)
  | notAllowed => intro t st hm hle; exact .shift (conv_na _)
  | choice h1 h2 _ _ ih1 ih2 =>
    intro t st hm hle
    refine .shift (.patt (hle _ _ h1) (.patt (hle _ _ h2) (.bind hm (ih1 t st hm hle)
      (fun n => ok_textDeriv L n _ _) fun i st' hm' hle' hr => ?_)))
    refine .bind hm' (ih2 t st' hm' (hle.trans hle')) (fun n => ok_textDeriv L n _ _)
      fun j st2 hm2 hle2 hr2 => ?_
    exact conv_choice (Def.mono (st := _) (show Def _ _ from hr.defd rfl) hle2) (hr2.defd rfl)

theorem conv_text_aux {lk : Lk D V} {m b p k} (h : Ty lk QE QR m b p k)
    (hl : b = true → ∀ (m : Mode) i p, lk i = some p → Ty lk QE QR m.up false p 1 → ∀ (t : Str) (st : Store D V),
      MemoOK st → Le lk st.lk → Conv (fun n => textDeriv L n (.list i) t) st) :
    ∀ (t : Str) (st : Store D V), MemoOK st → Le lk st.lk → Conv (fun n => textDeriv L n p t) st := by
  induction h with
  | empty => intro t st hm hle; exact .shift (.ite (fun _ => conv_empty _) fun _ => conv_na _)
  | text => intro t st hm hle; exact .shift (conv_text0 _)
  | notAllowed => intro t st hm hle; exact .shift (conv_na _)
  | choice h1 h2 _ _ _ ih1 ih2 =>
    intro t st hm hle
    refine .shift (.patt (hle _ _ h1) (.patt (hle _ _ h2) (.bind hm (ih1 hl t st hm hle)
      (fun n => ok_textDeriv L n _ _) fun i st' hm' hle' hr => ?_)))
    refine .bind hm' (ih2 hl t st' hm' (hle.trans hle')) (fun n => ok_textDeriv L n _ _)
      fun j st2 hm2 hle2 hr2 => ?_
    exact conv_choice (Def.mono (st := _) (show Def _ _ from hr.defd rfl) hle2) (hr2.defd rfl)
  | group h1 h2 _ _ _ ih1 ih2 =>
    intro t st hm hle
    refine .shift (.patt (hle _ _ h1) (.patt (hle _ _ h2) (.bind hm (ih1 hl t st hm hle)
      (fun n => ok_textDeriv L n _ _) fun i st' hm' hle' hr => ?_)))
    refine .bind hm' (conv_group (hr.defd rfl) ⟨_, hle' _ _ (hle _ _ h2)⟩) (fun _ => ok_group _ _)
      fun a s2 hm2 hle2 hr2 => ?_
    refine .ite (fun _ => ?_) fun _ => .pure
    refine .bind hm2 (ih2 hl t s2 hm2 ((hle.trans hle').trans hle2)) (fun n => ok_textDeriv L n _ _)
      fun j s3 hm3 hle3 hr3 => ?_
    exact conv_choice (Def.mono hr2.defd hle3) (hr3.defd rfl)
  | interleave h1 h2 _ _ _ ih1 ih2 =>
    intro t st hm hle
    refine .shift (.patt (hle _ _ h1) (.patt (hle _ _ h2) (.bind hm (ih1 hl t st hm hle)
      (fun n => ok_textDeriv L n _ _) fun i st' hm' hle' hr => ?_)))
    refine .bind hm' (conv_interleave (hr.defd rfl) ⟨_, hle' _ _ (hle _ _ h2)⟩) (fun _ => ok_interleave _ _)
      fun a s2 hm2 hle2 hr2 => ?_
    refine .bind hm2 (ih2 hl t s2 hm2 ((hle.trans hle').trans hle2)) (fun n => ok_textDeriv L n _ _)
      fun j s3 hm3 hle3 hr3 => ?_
    refine .bind hm3 (conv_interleave ⟨_, hle3 _ _ (hle2 _ _ (hle' _ _ (hle _ _ h1)))⟩ (hr3.defd rfl))
      (fun _ => ok_interleave _ _) fun b s4 hm4 hle4 hr4 => ?_
    exact conv_choice (Def.mono hr2.defd (hle3.trans hle4)) hr4.defd
  | oneOrMore h1 _ _ _ ih =>
    intro t st hm hle
    refine .shift (.patt (hle _ _ h1) (.bind hm (ih hl t st hm hle)
      (fun n => ok_textDeriv L n _ _) fun i st' hm' hle' hr => ?_))
    refine .bind hm' (conv_oneOrMore ⟨_, hle' _ _ (hle _ _ h1)⟩) (fun _ => ok_oneOrMore _)
      fun o s2 hm2 hle2 hr2 => ?_
    refine .bind hm2 (conv_empty _) (fun _ => ok_mkEmpty) fun e s3 hm3 hle3 hr3 => ?_
    obtain ⟨_, _, ho⟩ := hr2
    refine .bind hm3 (conv_choice ⟨_, hle3 _ _ ho⟩ ⟨_, hr3⟩) (fun _ => ok_choice _ _)
      fun c s4 hm4 hle4 hr4 => ?_
    exact conv_group (Def.mono (st := _) (show Def _ _ from hr.defd rfl) ((hle2.trans hle3).trans hle4)) hr4.defd
  | attr => intro t st hm hle; exact .shift (conv_na _)
  | element =>
    intro t st hm hle
    exact .shift (.ite (fun _ => conv_push _ _) fun _ => conv_na _)
  | datatype =>
    intro t st hm hle
    exact .shift (.bind hm (conv_checkD L _ _ _) (fun _ => ok_checkD L _ _) fun b st' _ _ _ =>
      .ite (fun _ => conv_empty _) fun _ => conv_na _)
  | datatypeValue =>
    intro t st hm hle
    exact .shift (.bind hm (conv_checkV L _ _ _) (fun _ => ok_checkV L _ _) fun b st' _ _ _ =>
      .ite (fun _ => conv_empty _) fun _ => conv_na _)
  | datatypeExcept h1 h2 =>
    intro t st hm hle
    refine .shift (.patt (hle _ _ h1) (.bind hm (conv_ex L h2 t st hm hle) (fun n => ok_textDeriv L n _ _)
      fun i st' hm' hle' hr => ?_))
    obtain ⟨q, hq⟩ := hr.defd rfl
    exact .patt hq (.bind hm' (conv_checkD L _ _ _) (fun _ => ok_checkD L _ _) fun b st' _ _ _ =>
      .ite (fun _ => conv_empty _) fun _ => conv_na _)
  | list h1 h2 _ => exact hl rfl _ _ _ h1 h2
  | after h1 h2 _ _ ih1 _ =>
    intro t st hm hle
    refine .shift (.patt (hle _ _ h1) (.bind hm (ih1 hl t st hm hle)
      (fun n => ok_textDeriv L n _ _) fun i st' hm' hle' hr => ?_))
    exact conv_after (hr.defd rfl)

theorem conv_loop {m : Mode} (hm : m.up = m) : ∀ (ws : List Str) (i : Nat) (st : Store D V), MemoOK st →
    TyI st.lk QE QR m false i 1 → Conv (fun n => listLoop (textDeriv L n) i ws) st
  | [], i, st, _, _ => .pure
  | w :: ws, i, st, hmo, ht => by
    obtain ⟨p, hp, ht⟩ := ht
    refine .patt hp (.bind hmo (conv_text_aux L ht (by simp) w st hmo (Le.refl _))
      (fun n => ok_textDeriv L n _ _) fun j st' hm' hle' hr => ?_)
    obtain ⟨q, hq⟩ := hr.defd rfl
    refine .patt hq (.ite (fun _ => .pure) fun _ => ?_)
    exact conv_loop hm ws j st' hm' (hr.ty hm false 1 (ht.mono hle'))

theorem conv_list {lk : Lk D V} {m : Mode} {i p} (h1 : lk i = some p) (h2 : Ty lk QE QR m.up false p 1)
    (t : Str) (st : Store D V) (hm : MemoOK st) (hle : Le lk st.lk) :
    Conv (fun n => textDeriv L n (.list i) t) st := by
  refine .shift (.bind hm (conv_loop L (m := m.up) (by simp) (splitWs t) i st hm
    ⟨p, hle _ _ h1, h2.mono hle⟩) (fun n => ok_listLoop L (ok_textDeriv L n) (splitWs t) i) fun r st' hm' hle' hr => ?_)
  refine .ite (fun _ => .pure) fun _ => ?_
  have hd : TyI st'.lk QE QR m.up false r.1 1 :=
    hr.1.ty (by simp) false ⟨p, hle' _ _ (hle _ _ h1), h2.mono (hle.trans hle')⟩
  obtain ⟨q, hq, _⟩ := hd
  refine .patt hq (.ite (fun _ => .pure) fun _ => .ite (fun _ => ?_) fun _ => conv_push _ _)
  refine .bind hm' (conv_push _ _) (fun _ => ok_push _ rfl) fun l s2 hm2 hle2 hr2 => ?_
  refine .bind hm2 (conv_empty _) (fun _ => ok_mkEmpty) fun e s3 hm3 hle3 hr3 => ?_
  exact conv_choice ⟨_, hle3 _ _ hr2⟩ ⟨_, hr3⟩

theorem conv_text {lk : Lk D V} {m b p k} (h : Ty lk QE QR m b p k) (t : Str) (st : Store D V)
    (hm : MemoOK st) (hle : Le lk st.lk) : Conv (fun n => textDeriv L n p t) st :=
  conv_text_aux L h (fun _ _ _ _ h1 h2 t st hm hle => conv_list L h1 h2 t st hm hle) t st hm hle


theorem AA.defd {lk : Lk D V} {F p i} (h : AA lk F p i) : ∃ q, lk i = some q := by
  cases h with
  | after _ h => exact h.defd
  | choice _ _ _ _ h => exact h.defd
  | notAllowed h => exact ⟨_, h⟩

theorem conv_applyAfter {lk : Lk D V} {f : Nat → SM D V Nat} {F : Lk D V → Nat → Nat → Prop}
    (hof : ∀ j, Ok (f j) (fun lk i => F lk j i))
    (hf : ∀ j (st : Store D V), MemoOK st → Le lk st.lk → Def st j → Conv (fun _ => f j) st)
    {m b p k} (h : Ty lk QE QR m b p k) : 2 ≤ k → ∀ (st : Store D V), MemoOK st → Le lk st.lk →
      Conv (fun n => applyAfter f n p) st := by
  induction h with
  | notAllowed => intro _ st hm hle; exact .shift (conv_na _)
  | choice h1 h2 _ _ _ ih1 ih2 =>
    intro hk st hm hle
    refine .shift (.patt (hle _ _ h1) (.patt (hle _ _ h2) (.bind hm (ih1 hk st hm hle)
      (fun n => ok_applyAfter hof n _) fun i st' hm' hle' hr => ?_)))
    refine .bind hm' (ih2 hk st' hm' (hle.trans hle')) (fun n => ok_applyAfter hof n _)
      fun j st2 hm2 hle2 hr2 => ?_
    exact conv_choice (Def.mono (st := _) (show Def _ _ from hr.defd) hle2) hr2.defd
  | after h1 h2 _ _ ih1 ih2 =>
    intro hk st hm hle
    refine .shift (.bind hm (hf _ st hm hle ⟨_, hle _ _ h2⟩) (fun _ => hof _) fun j s2 hm2 hle2 _ => ?_)
    exact conv_after ⟨_, hle2 _ _ (hle _ _ h1)⟩
  | _ => intro hk; omega

theorem STD.defd {lk : Lk D V} {nm p i} (h : STD lk nm p i) : ∃ q, lk i = some q := by
  cases h with
  | choice _ _ _ _ h => exact h.defd
  | oneOrMore _ _ _ h => exact h.defd
  | interleave _ _ _ _ _ _ _ _ h => exact h.defd
  | groupN _ _ _ _ _ _ _ h => exact h.defd
  | group _ _ _ _ _ h => exact h.defd
  | element _ _ h => exact h.defd
  | elementNo _ h => exact ⟨_, h⟩
  | after _ _ _ h => exact h.defd
  | other _ h => exact ⟨_, h⟩

/-- element contents are well typed -/
def ElemsOK (lk : Lk D V) (QE QR : Nat → Prop) : Prop := ∀ i, QE i → TyI lk QE QR .off true i 1

theorem ElemsOK.mono {lk lk' : Lk D V} (h : ElemsOK lk QE QR) (hle : Le lk lk') : ElemsOK lk' QE QR :=
  fun i hi => (h i hi).mono hle

theorem conv_start (nm : QName) {lk : Lk D V} {m b p k} (h : Ty lk QE QR m b p k) :
    m = .off → b = true → ElemsOK lk QE QR → ∀ (st : Store D V), MemoOK st → Le lk st.lk →
      Conv (fun n => startTagOpenDeriv n p nm) st := by
  induction h with
  | empty => intro _ _ _ st hm hle; exact .shift (conv_na _)
  | text => intro _ _ _ st hm hle; exact .shift (conv_na _)
  | notAllowed => intro _ _ _ st hm hle; exact .shift (conv_na _)
  | attr => intro _ _ _ st hm hle; exact .shift (conv_na _)
  | datatype => intro _ _ _ st hm hle; exact .shift (conv_na _)
  | datatypeValue => intro _ _ _ st hm hle; exact .shift (conv_na _)
  | datatypeExcept => intro _ _ _ st hm hle; exact .shift (conv_na _)
  | list => intro _ _ _ st hm hle; exact .shift (conv_na _)
  | choice h1 h2 _ _ _ ih1 ih2 =>
    intro e1 e2 hE st hm hle
    refine .shift (.patt (hle _ _ h1) (.patt (hle _ _ h2) (.bind hm (ih1 e1 e2 hE st hm hle)
      (fun n => ok_startTagOpenDeriv nm n _) fun i st' hm' hle' hr => ?_)))
    refine .bind hm' (ih2 e1 e2 hE st' hm' (hle.trans hle')) (fun n => ok_startTagOpenDeriv nm n _)
      fun j st2 hm2 hle2 hr2 => ?_
    exact conv_choice (Def.mono (st := _) (show Def _ _ from hr.defd) hle2) hr2.defd
  | element h =>
    intro e1 e2 hE st hm hle
    refine .shift (.ite (fun _ => ?_) fun _ => conv_na _)
    refine .bind hm (conv_empty _) (fun _ => ok_mkEmpty) fun e st' hm' hle' _ => ?_
    obtain ⟨p, hp, _⟩ := hE _ h
    exact conv_after ⟨_, hle' _ _ (hle _ _ hp)⟩
  | @oneOrMore m b pid f p h1 t1 hq _ ih =>
    intro e1 e2 hE st hm hle
    subst e1 e2
    refine .shift (.patt (hle _ _ h1) (.bind hm (ih rfl rfl hE st hm hle)
      (fun n => ok_startTagOpenDeriv nm n _) fun i st' hm' hle' hr => ?_))
    obtain ⟨dp, hdp, td⟩ := hr.ty (m := .off) rfl (hE.mono (hle.trans hle')) (t1.mono (hle.trans hle'))
    refine .patt hdp (conv_applyAfter (F := fun lk => MoreOf lk pid) (fun j => ?_) (fun j s hms hles hd => ?_)
      td (by omega) st' hm' (Le.refl _))
    · exact Ok.bind (ok_oneOrMore pid) fun o => Ok.bind ok_mkEmpty fun e => Ok.bind (ok_choice o e)
        fun c => (ok_group j c).mono fun lk i h0 h1 h2 h3 => ⟨o, e, c, h3, h2, h1, h0⟩
    · refine .bind hms (conv_oneOrMore ⟨_, hles _ _ (hle' _ _ (hle _ _ h1))⟩) (fun _ => ok_oneOrMore _)
        fun o s2 hm2 hle2 hr2 => ?_
      obtain ⟨_, _, ho⟩ := hr2
      refine .bind hm2 (conv_empty _) (fun _ => ok_mkEmpty) fun e s3 hm3 hle3 hr3 => ?_
      refine .bind hm3 (conv_choice ⟨_, hle3 _ _ ho⟩ ⟨_, hr3⟩) (fun _ => ok_choice _ _)
        fun c s4 hm4 hle4 hr4 => ?_
      exact conv_group (((hd.mono hle2).mono hle3).mono hle4) hr4.defd
  | interleave h1 h2 t1 t2 _ ih1 ih2 =>
    intro e1 e2 hE st hm hle
    subst e1 e2
    refine .shift (.patt (hle _ _ h1) (.patt (hle _ _ h2) (.bind hm (ih1 rfl rfl hE st hm hle)
      (fun n => ok_startTagOpenDeriv nm n _) fun i st' hm' hle' hr => ?_)))
    obtain ⟨dp, hdp, td⟩ := hr.ty (m := .off) rfl (hE.mono (hle.trans hle')) (t1.mono (hle.trans hle'))
    refine .patt hdp (.bind hm' (conv_applyAfter (F := fun lk j i => InterOf lk j _ i)
      (fun j => ok_interleave j _) (fun j s hms hles hd => ?_) td (by omega) st' hm' (Le.refl _))
      (fun n => ok_applyAfter (F := fun lk j i => InterOf lk j _ i) (fun j => ok_interleave j _) n _)
      fun c1 s2 hm2 hle2 hr2 => ?_)
    · exact conv_interleave hd ⟨_, hles _ _ (hle' _ _ (hle _ _ h2))⟩
    have l2 := (hle.trans hle').trans hle2
    refine .bind hm2 (ih2 rfl rfl hE s2 hm2 l2) (fun n => ok_startTagOpenDeriv nm n _)
      fun d2 s3 hm3 hle3 hr3 => ?_
    obtain ⟨dp2, hdp2, td2⟩ := hr3.ty (m := .off) rfl (hE.mono (l2.trans hle3)) (t2.mono (l2.trans hle3))
    refine .patt hdp2 (.bind hm3 (conv_applyAfter (F := fun lk j i => InterOf lk _ j i)
      (fun j => ok_interleave _ j) (fun j s hms hles hd => ?_) td2 (by omega) s3 hm3 (Le.refl _))
      (fun n => ok_applyAfter (F := fun lk j i => InterOf lk _ j i) (fun j => ok_interleave _ j) n _)
      fun c2 s4 hm4 hle4 hr4 => ?_)
    · exact conv_interleave ⟨_, hles _ _ (hle3 _ _ (l2 _ _ h1))⟩ hd
    exact conv_choice (Def.mono (st := _) (show Def _ _ from hr2.defd) (hle3.trans hle4)) hr4.defd
  | group h1 h2 t1 t2 _ ih1 ih2 =>
    intro e1 e2 hE st hm hle
    subst e1 e2
    refine .shift (.patt (hle _ _ h1) (.patt (hle _ _ h2) (.bind hm (ih1 rfl rfl hE st hm hle)
      (fun n => ok_startTagOpenDeriv nm n _) fun i st' hm' hle' hr => ?_)))
    obtain ⟨dp, hdp, td⟩ := hr.ty (m := .off) rfl (hE.mono (hle.trans hle')) (t1.mono (hle.trans hle'))
    refine .patt hdp (.bind hm' (conv_applyAfter (F := fun lk j i => GroupOf lk j _ i)
      (fun j => ok_group j _) (fun j s hms hles hd => ?_) td (by omega) st' hm' (Le.refl _))
      (fun n => ok_applyAfter (F := fun lk j i => GroupOf lk j _ i) (fun j => ok_group j _) n _)
      fun c1 s2 hm2 hle2 hr2 => ?_)
    · exact conv_group hd ⟨_, hles _ _ (hle' _ _ (hle _ _ h2))⟩
    have l2 := (hle.trans hle').trans hle2
    refine .ite (fun _ => ?_) fun _ => .pure
    refine .patt (l2 _ _ h2) (.bind hm2 (ih2 rfl rfl hE s2 hm2 l2) (fun n => ok_startTagOpenDeriv nm n _)
      fun d2 s3 hm3 hle3 hr3 => ?_)
    exact conv_choice (Def.mono (st := _) (show Def _ _ from hr2.defd) hle3) hr3.defd
  | after h1 h2 t1 t2 ih1 _ =>
    intro e1 e2 hE st hm hle
    subst e1 e2
    refine .shift (.patt (hle _ _ h1) (.bind hm (ih1 rfl rfl hE st hm hle)
      (fun n => ok_startTagOpenDeriv nm n _) fun i st' hm' hle' hr => ?_))
    obtain ⟨dp, hdp, td⟩ := hr.ty (m := .off) rfl (hE.mono (hle.trans hle')) (t1.mono (hle.trans hle'))
    refine .patt hdp (conv_applyAfter (F := fun lk j i => AfterOf lk j _ i) (fun j => ok_after j _)
      (fun j s hms hles hd => conv_after hd) td (by omega) st' hm' (Le.refl _))

theorem AT.defd {lk : Lk D V} {x i v} (h : AT L lk x i v) : ∃ q, lk v = some q := by
  cases h with
  | after _ _ h => exact h.defd
  | choice _ _ _ h => exact h.defd
  | group _ _ _ _ _ h => exact h.defd
  | interleave _ _ _ _ _ h => exact h.defd
  | oneOrMore _ _ _ _ h => exact h.defd
  | attr _ _ _ _ h => exact ⟨_, h⟩
  | attrNo _ _ h => exact ⟨_, h⟩
  | other _ _ h => exact ⟨_, h⟩

theorem conv_valueMatch {lk : Lk D V} {m b p k} (h : Ty lk QE QR m b p k) (v : Str) (st : Store D V)
    (hm : MemoOK st) (hle : Le lk st.lk) : Conv (fun n => valueMatch L n p v) st := by
  refine .ite (fun _ => .pure) fun _ => ?_
  refine .bind hm (conv_text L h v st hm hle) (fun n => ok_textDeriv L n _ _) fun d s2 _ _ hr => ?_
  obtain ⟨q, hq⟩ := hr.defd rfl
  exact .patt hq .pure

theorem conv_emptyIf (b : Bool) (st : Store D V) : Conv (fun _ => emptyIf b) st :=
  .ite (fun _ => conv_empty _) fun _ => conv_na _

/-- memo entries stay derivatives in every later store -/
def MemoRelA (x : Attr) (st : Store D V) (memo : AttMemo) : Prop :=
  ∀ lk, Le st.lk lk → MemoRel L x lk memo

theorem MemoRelA.mono {x : Attr} {st st' : Store D V} {memo} (h : MemoRelA L x st memo)
    (hle : Le st.lk st'.lk) : MemoRelA L x st' memo := fun lk hlk => h lk (hle.trans hlk)

theorem conv_att (x : Attr) {lk : Lk D V} {m b p k} (h : Ty lk QE QR m b p k) :
    ∀ i, lk i = some p → ∀ (memo : AttMemo) (st : Store D V), MemoOK st → Le lk st.lk →
      MemoRelA L x st memo → Conv (fun n => attDeriv L n memo i x) st := by
  have wrap : ∀ i (p : Pat D V), lk i = some p → (∀ (memo : AttMemo) (st : Store D V), MemoOK st →
      Le lk st.lk → MemoRelA L x st memo → Conv (fun n => attArm L (fun m p => attDeriv L n m p x) n memo i p x) st ) →
      ∀ (memo : AttMemo) (st : Store D V), MemoOK st → Le lk st.lk →
      MemoRelA L x st memo → Conv (fun n => attDeriv L n memo i x) st := by
    intro i p hp harm memo st hm hle hmr
    refine .shift ?_
    simp only [attDeriv]
    cases hl : memo.lookup i with
    | some r => exact .pure
    | none =>
      refine .patt (hle _ _ hp) ?_
      obtain ⟨N, r, h1, h2⟩ := harm memo st hm hle hmr
      cases r with
      | error e =>
        exact ⟨N, .error e, fun n hn => ST.bind_of_error (h1 n hn), fun e' he => h2 e' (by cases he; rfl)⟩
      | ok r =>
        exact ⟨N, .ok ((r.1.1, (i, r.1.1) :: r.1.2), r.2), fun n hn => ST.bind_of_ok (h1 n hn), nofun⟩
  have na : ∀ (memo : AttMemo) (st : Store D V), MemoOK st → Le lk st.lk → MemoRelA L x st memo →
      Conv (fun _ => (do let v ← notAllowed; pure (v, memo) : SM D V (Nat × AttMemo))) st := by
    intro memo st hm _ _
    exact .bind hm (conv_na _) (fun _ => ok_notAllowed) fun _ _ _ _ _ => .pure
  induction h with
  | empty => intro i hi; exact wrap i _ hi na
  | text => intro i hi; exact wrap i _ hi na
  | notAllowed => intro i hi; exact wrap i _ hi na
  | element => intro i hi; exact wrap i _ hi na
  | datatype => intro i hi; exact wrap i _ hi na
  | datatypeValue => intro i hi; exact wrap i _ hi na
  | datatypeExcept => intro i hi; exact wrap i _ hi na
  | list => intro i hi; exact wrap i _ hi na
  | choice h1 h2 _ _ _ ih1 ih2 =>
    intro i hi; refine wrap i _ hi fun memo st hm hle hmr => ?_
    refine .bind' hm (ih1 _ h1 memo st hm hle hmr) (fun n => ok_attDeriv L x n _ _) fun a s1 hm1 hle1 hr1 => ?_
    have g1 := fun lk hlk => hr1 lk hlk (hmr lk (hle1.trans hlk))
    refine .bind' hm1 (ih2 _ h2 a.2 s1 hm1 (hle.trans hle1) fun lk hlk => (g1 lk hlk).2)
      (fun n => ok_attDeriv L x n _ _) fun c s2 hm2 hle2 hr2 => ?_
    have g2 := fun lk hlk => hr2 lk hlk (g1 lk (hle2.trans hlk)).2
    exact .bind hm2 (conv_choice ((g1 _ hle2).1.defd) ((g2 _ (Le.refl _)).1.defd)) (fun _ => ok_choice _ _)
      fun _ _ _ _ _ => .pure
  | group h1 h2 _ _ _ ih1 ih2 =>
    intro i hi; refine wrap i _ hi fun memo st hm hle hmr => ?_
    refine .bind' hm (ih1 _ h1 memo st hm hle hmr) (fun n => ok_attDeriv L x n _ _) fun a s1 hm1 hle1 hr1 => ?_
    have g1 := fun lk hlk => hr1 lk hlk (hmr lk (hle1.trans hlk))
    refine .bind hm1 (conv_group ((g1 _ (Le.refl _)).1.defd) ⟨_, hle1 _ _ (hle _ _ h2)⟩) (fun _ => ok_group _ _)
      fun y s2 hm2 hle2 hr2 => ?_
    refine .bind' hm2 (ih2 _ h2 a.2 s2 hm2 ((hle.trans hle1).trans hle2) fun lk hlk => (g1 lk (hle2.trans hlk)).2)
      (fun n => ok_attDeriv L x n _ _) fun c s3 hm3 hle3 hr3 => ?_
    have g3 := fun lk hlk => hr3 lk hlk (g1 lk (hle2.trans (hle3.trans hlk))).2
    refine .bind hm3 (conv_group ⟨_, hle3 _ _ (hle2 _ _ (hle1 _ _ (hle _ _ h1)))⟩ ((g3 _ (Le.refl _)).1.defd))
      (fun _ => ok_group _ _) fun z s4 hm4 hle4 hr4 => ?_
    exact .bind hm4 (conv_choice (Def.mono hr2.defd (hle3.trans hle4)) hr4.defd) (fun _ => ok_choice _ _)
      fun _ _ _ _ _ => .pure
  | interleave h1 h2 _ _ _ ih1 ih2 =>
    intro i hi; refine wrap i _ hi fun memo st hm hle hmr => ?_
    refine .bind' hm (ih1 _ h1 memo st hm hle hmr) (fun n => ok_attDeriv L x n _ _) fun a s1 hm1 hle1 hr1 => ?_
    have g1 := fun lk hlk => hr1 lk hlk (hmr lk (hle1.trans hlk))
    refine .bind hm1 (conv_interleave ((g1 _ (Le.refl _)).1.defd) ⟨_, hle1 _ _ (hle _ _ h2)⟩)
      (fun _ => ok_interleave _ _) fun y s2 hm2 hle2 hr2 => ?_
    refine .bind' hm2 (ih2 _ h2 a.2 s2 hm2 ((hle.trans hle1).trans hle2) fun lk hlk => (g1 lk (hle2.trans hlk)).2)
      (fun n => ok_attDeriv L x n _ _) fun c s3 hm3 hle3 hr3 => ?_
    have g3 := fun lk hlk => hr3 lk hlk (g1 lk (hle2.trans (hle3.trans hlk))).2
    refine .bind hm3 (conv_interleave ⟨_, hle3 _ _ (hle2 _ _ (hle1 _ _ (hle _ _ h1)))⟩ ((g3 _ (Le.refl _)).1.defd))
      (fun _ => ok_interleave _ _) fun z s4 hm4 hle4 hr4 => ?_
    exact .bind hm4 (conv_choice (Def.mono hr2.defd (hle3.trans hle4)) hr4.defd) (fun _ => ok_choice _ _)
      fun _ _ _ _ _ => .pure
  | oneOrMore h1 _ _ _ ih =>
    intro i hi; refine wrap i _ hi fun memo st hm hle hmr => ?_
    refine .bind' hm (ih _ h1 memo st hm hle hmr) (fun n => ok_attDeriv L x n _ _) fun a s1 hm1 hle1 hr1 => ?_
    have g1 := fun lk hlk => hr1 lk hlk (hmr lk (hle1.trans hlk))
    refine .bind hm1 (conv_empty _) (fun _ => ok_mkEmpty) fun e s2 hm2 hle2 hr2 => ?_
    refine .bind hm2 (conv_choice ⟨_, hle2 _ _ (hle1 _ _ (hle _ _ hi))⟩ ⟨_, hr2⟩) (fun _ => ok_choice _ _)
      fun c s3 hm3 hle3 hr3 => ?_
    exact .bind hm3 (conv_group (g1 _ (hle2.trans hle3)).1.defd hr3.defd) (fun _ => ok_group _ _)
      fun _ _ _ _ _ => .pure
  | attr h1 t1 _ =>
    intro i hi; refine wrap i _ hi fun memo st hm hle hmr => ?_
    refine .patt (hle _ _ h1) (.ite (fun _ => ?_) fun _ => na memo st hm hle hmr)
    refine .bind hm (conv_valueMatch L t1 _ st hm hle) (fun n => ok_valueMatch L n _ _)
      fun b s2 hm2 hle2 _ => ?_
    exact .bind hm2 (conv_emptyIf b _) (fun _ => (show Ok (emptyIf b) fun _ _ => True from by
      cases b
      · exact ok_notAllowed.mono fun _ _ _ => trivial
      · exact ok_mkEmpty.mono fun _ _ _ => trivial)) fun _ _ _ _ _ => .pure
  | after h1 h2 _ _ ih1 _ =>
    intro i hi; refine wrap i _ hi fun memo st hm hle hmr => ?_
    refine .bind' hm (ih1 _ h1 memo st hm hle hmr) (fun n => ok_attDeriv L x n _ _) fun a s1 hm1 hle1 hr1 => ?_
    have g1 := fun lk hlk => hr1 lk hlk (hmr lk (hle1.trans hlk))
    exact .bind hm1 (conv_after (g1 _ (Le.refl _)).1.defd) (fun _ => ok_after _ _) fun _ _ _ _ _ => .pure

theorem STC.defd {lk : Lk D V} {i v} (h : STC lk i v) : ∃ q, lk v = some q := by
  cases h with
  | after _ _ h => exact h.defd
  | choice _ _ _ h => exact h.defd
  | group _ _ _ h => exact h.defd
  | interleave _ _ _ h => exact h.defd
  | oneOrMore _ h => obtain ⟨_, _, h⟩ := h; exact ⟨_, h⟩
  | attr _ h => exact ⟨_, h⟩
  | other h _ => exact ⟨_, h⟩

theorem conv_close {lk : Lk D V} {m b p k} (h : Ty lk QE QR m b p k) :
    ∀ i, lk i = some p → ∀ (st : Store D V), MemoOK st → Le lk st.lk →
      Conv (fun n => startTagCloseDeriv n i) st := by
  induction h with
  | empty => intro i hi st hm hle; exact .shift (.patt (hle _ _ hi) .pure)
  | text => intro i hi st hm hle; exact .shift (.patt (hle _ _ hi) .pure)
  | notAllowed => intro i hi st hm hle; exact .shift (.patt (hle _ _ hi) .pure)
  | element => intro i hi st hm hle; exact .shift (.patt (hle _ _ hi) .pure)
  | datatype => intro i hi st hm hle; exact .shift (.patt (hle _ _ hi) .pure)
  | datatypeValue => intro i hi st hm hle; exact .shift (.patt (hle _ _ hi) .pure)
  | datatypeExcept => intro i hi st hm hle; exact .shift (.patt (hle _ _ hi) .pure)
  | list => intro i hi st hm hle; exact .shift (.patt (hle _ _ hi) .pure)
  | attr => intro i hi st hm hle; exact .shift (.patt (hle _ _ hi) (conv_na _))
  | choice h1 h2 _ _ _ ih1 ih2 =>
    intro i hi st hm hle
    refine .shift (.patt (hle _ _ hi) (.bind hm (ih1 _ h1 st hm hle) (fun n => ok_startTagCloseDeriv n _)
      fun a s1 hm1 hle1 hr1 => ?_))
    refine .bind hm1 (ih2 _ h2 s1 hm1 (hle.trans hle1)) (fun n => ok_startTagCloseDeriv n _)
      fun c s2 hm2 hle2 hr2 => ?_
    exact conv_choice (Def.mono (st := _) (show Def _ _ from hr1.defd) hle2) hr2.defd
  | group h1 h2 _ _ _ ih1 ih2 =>
    intro i hi st hm hle
    refine .shift (.patt (hle _ _ hi) (.bind hm (ih1 _ h1 st hm hle) (fun n => ok_startTagCloseDeriv n _)
      fun a s1 hm1 hle1 hr1 => ?_))
    refine .bind hm1 (ih2 _ h2 s1 hm1 (hle.trans hle1)) (fun n => ok_startTagCloseDeriv n _)
      fun c s2 hm2 hle2 hr2 => ?_
    exact conv_group (Def.mono (st := _) (show Def _ _ from hr1.defd) hle2) hr2.defd
  | interleave h1 h2 _ _ _ ih1 ih2 =>
    intro i hi st hm hle
    refine .shift (.patt (hle _ _ hi) (.bind hm (ih1 _ h1 st hm hle) (fun n => ok_startTagCloseDeriv n _)
      fun a s1 hm1 hle1 hr1 => ?_))
    refine .bind hm1 (ih2 _ h2 s1 hm1 (hle.trans hle1)) (fun n => ok_startTagCloseDeriv n _)
      fun c s2 hm2 hle2 hr2 => ?_
    exact conv_interleave (Def.mono (st := _) (show Def _ _ from hr1.defd) hle2) hr2.defd
  | oneOrMore h1 _ _ _ ih =>
    intro i hi st hm hle
    refine .shift (.patt (hle _ _ hi) (.bind hm (ih _ h1 st hm hle) (fun n => ok_startTagCloseDeriv n _)
      fun a s1 hm1 hle1 hr1 => ?_))
    exact conv_oneOrMore ⟨_, hle1 _ _ (hle _ _ h1)⟩
  | after h1 h2 _ _ ih1 _ =>
    intro i hi st hm hle
    refine .shift (.patt (hle _ _ hi) (.bind hm (ih1 _ h1 st hm hle) (fun n => ok_startTagCloseDeriv n _)
      fun a s1 hm1 hle1 hr1 => ?_))
    exact conv_after hr1.defd

theorem conv_end {lk : Lk D V} {m b p k} (h : Ty lk QE QR m b p k) :
    ∀ (st : Store D V), MemoOK st → Le lk st.lk → Conv (fun n => endTagDeriv n p) st ∧
      ∀ r st' lk', ETD lk' p r → Le lk lk' → lk' = st'.lk → Def st' r := by
  induction h with
  | choice h1 h2 _ _ _ ih1 ih2 =>
    intro st hm hle
    refine ⟨?_, ?_⟩
    · refine .shift (.patt (hle _ _ h1) (.patt (hle _ _ h2) (.bind hm (ih1 st hm hle).1 (fun n => ok_endTagDeriv n _)
        fun a s1 hm1 hle1 hr1 => ?_)))
      refine .bind hm1 (ih2 s1 hm1 (hle.trans hle1)).1 (fun n => ok_endTagDeriv n _)
        fun c s2 hm2 hle2 hr2 => ?_
      exact conv_choice (Def.mono ((ih1 st hm hle).2 _ s1 _ hr1 (hle.trans hle1) rfl) hle2)
        ((ih2 st hm hle).2 _ s2 _ hr2 ((hle.trans hle1).trans hle2) rfl)
    · intro r st' lk' he hl e; subst e
      cases he with
      | choice _ _ _ _ h => exact h.defd
      | other h _ _ => exact absurd rfl (h _ _ _)
  | after h1 h2 _ _ _ _ =>
    intro st hm hle
    refine ⟨.shift (.patt (hle _ _ h1) (.ite (fun _ => .pure) fun _ => conv_na _)), ?_⟩
    intro r st' lk' he hl e; subst e
    cases he with
    | after _ _ => exact ⟨_, hl _ _ h2⟩
    | afterNo _ _ h => exact ⟨_, h⟩
    | other _ h _ => exact absurd rfl (h _ _)
  | _ =>
    intro st hm hle
    refine ⟨.shift (conv_na _), ?_⟩
    intro r st' lk' he hl e; subst e
    cases he with
    | other _ _ h => exact ⟨_, h⟩

end
end Verif
