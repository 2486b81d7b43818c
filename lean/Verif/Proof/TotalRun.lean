import Verif.Proof.Total
import Verif.Spec.Framing
/-
Totality of the validator over arbitrary token sequences.
-/
set_option linter.unusedSectionVars false
namespace Verif
variable {D V : Type} [DecidableEq D] [DecidableEq V]

/-- with enough recursion budget `x` has one result: one satisfying `P`, or an allowed abort -/
def Total {α : Type} (x : Nat → ST (VState D V) α) (s : VState D V) (P : α → VState D V → Prop) : Prop :=
  ∃ N r, (∀ n, N ≤ n → x n s = r) ∧ (∀ e, r = .error e → OkFault e) ∧ ∀ a s', r = .ok (a, s') → P a s'

section
variable {α β : Type} {s : VState D V}

theorem Total.pure {a : α} {P} (h : P a s) : Total (fun _ => (Pure.pure a : ST (VState D V) α)) s P :=
  ⟨0, _, fun _ _ => rfl, by simp, fun a' s' he => by simp at he; obtain ⟨rfl, rfl⟩ := he; exact h⟩

theorem Total.bind {x : Nat → ST (VState D V) α} {f : Nat → α → ST (VState D V) β} {P Q}
    (hx : Total x s P) (hf : ∀ a s', P a s' → Total (fun n => f n a) s' Q) :
    Total (fun n => x n >>= f n) s Q := by
  obtain ⟨N, r, h1, h2, h3⟩ := hx
  cases r with
  | error e =>
    exact ⟨N, .error e, fun n hn => ST.bind_of_error (h1 n hn), fun e' he => h2 e' (by cases he; rfl), nofun⟩
  | ok r =>
    obtain ⟨a, s'⟩ := r
    obtain ⟨M, r, g1, g2, g3⟩ := hf a s' (h3 _ _ rfl)
    exact ⟨max N M, r, fun n hn => (ST.bind_of_ok (h1 n (by omega))).trans (g1 n (by omega)), g2, g3⟩

theorem Total.get {f : Nat → VState D V → ST (VState D V) β} {Q} (h : Total (fun n => f n s) s Q) :
    Total (fun n => ST.get >>= f n) s Q := h

theorem Total.set {t : VState D V} {f : Nat → Unit → ST (VState D V) β} {Q} (h : Total (fun n => f n ()) t Q) :
    Total (fun n => ST.set t >>= f n) s Q := h

theorem Total.mono {x : Nat → ST (VState D V) α} {P Q} (h : Total x s P) (hpq : ∀ a s', P a s' → Q a s') :
    Total x s Q := by
  obtain ⟨N, r, h1, h2, h3⟩ := h
  exact ⟨N, r, h1, h2, fun a s' he => hpq _ _ (h3 a s' he)⟩

/-- a computation on the store -/
theorem Total.lift {x : Nat → SM D V α} {R : Lk D V → α → Prop} (hm : MemoOK s.store) (hc : Conv x s.store)
    (hok : ∀ n, Ok (x n) R) : Total (fun n => liftS (x n)) s (fun a s' => ∃ st', s' = { s with store := st' } ∧
      MemoOK st' ∧ Le s.store.lk st'.lk ∧ R st'.lk a) := by
  obtain ⟨N, r, h1, h2⟩ := hc
  cases r with
  | error e =>
    refine ⟨N, .error e, fun n hn => ?_, fun e' he => h2 e' (by cases he; rfl), nofun⟩
    simp only [liftS, h1 n hn]
  | ok r =>
    obtain ⟨a, st'⟩ := r
    refine ⟨N, .ok (a, { s with store := st' }), fun n hn => by simp only [liftS, h1 n hn], nofun, ?_⟩
    intro a' s' he
    cases he
    obtain ⟨k1, k2, k3⟩ := hok N s.store a st' hm (h1 N (Nat.le_refl _))
    exact ⟨st', rfl, k1, k2, k3 _ (Le.refl _)⟩

theorem Total.patt {i : Nat} {p : Pat D V} {f : Nat → Pat D V → ST (VState D V) β} {Q}
    (h : s.store.lk i = some p) (hf : Total (fun n => f n p) s Q) :
    Total (fun n => liftS (Verif.patt i) >>= f n) s Q := by
  have : ∀ n, (liftS (Verif.patt i) >>= f n) s = f n p s := by
    intro n
    have h1 : Verif.patt i s.store = .ok (p, s.store) := by
      simp only [Verif.patt]; unfold Store.lk at h; rw [h]
    have h2 : liftS (Verif.patt i) s = .ok (p, s) := by simp only [liftS, h1]
    rw [ST.bind_of_ok h2]
  obtain ⟨N, r, h1, h2⟩ := hf
  exact ⟨N, r, fun n hn => (this n).trans (h1 n hn), h2⟩
end

section
variable (L : Lib D V) {QE QR : Nat → Prop}

theorem ETD.ty0 {lk : Lk D V} {p r m b} (h : ETD lk p r) : Ty lk QE QR m b p 0 → TyI lk QE QR m b r 0 := by
  induction h with
  | choice h1 h2 _ _ h5 ih1 ih2 =>
    intro ht
    cases ht with
    | choice g1 g2 t1 t2 fl =>
      rw [g1] at h1; cases h1; rw [g2] at h2; cases h2
      exact h5.ty (ih1 t1) (ih2 t2)
  | after h1 h2 => intro ht; cases ht
  | afterNo _ _ h => intro ht; exact tyI_notAllowed h
  | other _ _ h => intro ht; exact tyI_notAllowed h

theorem ETD.ty' {lk : Lk D V} {p r k} (h : ETD lk p r) (ht : Ty lk QE QR .off true p k) :
    TyI lk QE QR .off true r (k - 1) := by
  cases k with
  | zero => exact h.ty0 ht
  | succ k => exact h.ty rfl ht

/-- the attributes of a start tag -/
theorem conv_attsLoop : ∀ (as : List Attr) (i k : Nat) (st : Store D V), MemoOK st →
    TyI st.lk QE QR .off true i k → Conv (fun n => attsLoop L n i as) st
  | [], _, _, _, _, _ => .pure
  | x :: xs, i, k, st, hm, ⟨p, hp, ht⟩ => by
    refine .bind hm (conv_att L x ht i hp [] st hm (Le.refl _) (fun _ _ _ _ h => by cases h))
      (fun n => ok_attDeriv0 L n i x) fun r s1 hm1 hle1 hr => ?_
    obtain ⟨q, hq, tq⟩ := hr.ty (TyI.mono hle1 ⟨p, hp, ht⟩)
    exact .patt hq (.ite (fun _ => .pure) fun _ => conv_attsLoop xs _ k s1 hm1 ⟨q, hq, tq⟩)

theorem ok_attsLoop (n : Nat) : ∀ (as : List Attr) (i : Nat), Ok (attsLoop L n i as)
    (fun lk r => ∀ j, r = .ok j → ATs L lk as i j)
  | [], i => Ok.pure fun lk j h => by cases h; exact .nil
  | x :: xs, i => by
    refine Ok.bind (ok_attDeriv0 L n i x) fun r => Ok.bind (ok_patt r.1) fun p => Ok.ite (fun _ => ?_) fun _ => ?_
    · exact Ok.pure fun lk _ _ j h => by cases h
    · exact (ok_attsLoop n xs r.1).mono fun lk o h _ h1 j hj => .cons h1 (h j hj)

theorem ok_closeElementStart (n : Nat) (stack : ElementStack) (evt : Token) (pat : Pat D V) :
    Ok (closeElementStart L n stack evt pat) (fun lk r => ∀ j, r = .ok j → ∃ nm as, StartRel L lk pat nm as j) := by
  unfold closeElementStart
  split
  · exact Ok.fault
  · exact Ok.pure fun lk j h => by cases h
  · rename_i name _
    refine Ok.bind (ok_startTagOpenDeriv name n pat) fun d => Ok.bind (ok_patt d) fun dp => Ok.ite (fun _ => ?_) fun _ => ?_
    · exact Ok.pure fun lk _ _ j h => by cases h
    split
    · exact Ok.fault
    · exact Ok.pure fun lk _ _ j h => by cases h
    · rename_i atts _
      refine Ok.bind (ok_attsLoop L n atts d) fun r => ?_
      split
      · exact Ok.pure fun lk _ _ _ j h => by cases h
      · rename_i d2
        refine Ok.bind (ok_patt d2) fun p2 => Ok.ite (fun _ => ?_) fun _ => ?_
        · exact Ok.pure fun lk _ _ _ _ j h => by cases h
        refine Ok.bind (ok_startTagCloseDeriv n d2) fun d3 => Ok.bind (ok_patt d3) fun p3 => Ok.ite (fun _ => ?_) fun _ => ?_
        · exact Ok.pure fun lk _ _ _ _ _ _ j h => by cases h
        · exact Ok.pure fun lk _ h3 _ h2 _ h1 j hj => by
            cases hj; exact ⟨name, atts, d, d2, h1, h2 _ rfl, h3⟩

theorem conv_closeElementStart {stack : ElementStack} (hs : stack ≠ []) (evt : Token) {pat : Pat D V} {k}
    {st : Store D V} (hm : MemoOK st) (hE : ElemsOK st.lk QE QR) (ht : Ty st.lk QE QR .off true pat k) :
    Conv (fun n => closeElementStart L n stack evt pat) st := by
  obtain ⟨e, es, rfl⟩ := List.exists_cons_of_ne_nil hs
  unfold closeElementStart
  have : ∃ x, currentElement (e :: es) = some x := by
    unfold currentElement; simp only; split <;> exact ⟨_, rfl⟩
  obtain ⟨x, hx⟩ := this
  rw [hx]
  cases x with
  | error e => exact .pure
  | ok name =>
    simp only
    refine .bind hm (conv_start name ht rfl rfl hE st hm (Le.refl _)) (fun n => ok_startTagOpenDeriv name n _)
      fun d s1 hm1 hle1 hr1 => ?_
    obtain ⟨dp, hdp, td⟩ := hr1.ty (m := .off) rfl (hE.mono hle1) (ht.mono hle1)
    refine .patt hdp (.ite (fun _ => .pure) fun _ => ?_)
    simp only [currentAttributes]
    cases resolveAttrs (e :: es) e.attributes with
    | error e => exact .pure
    | ok atts =>
      simp only
      refine .bind hm1 (conv_attsLoop L atts d _ s1 hm1 ⟨dp, hdp, td⟩) (fun n => ok_attsLoop L n atts d)
        fun r s2 hm2 hle2 hr2 => ?_
      cases r with
      | error e => exact .pure
      | ok d2 =>
        simp only
        obtain ⟨p2, hp2, t2⟩ := (hr2 _ rfl).ty (TyI.mono hle2 ⟨dp, hdp, td⟩)
        refine .patt hp2 (.ite (fun _ => .pure) fun _ => ?_)
        refine .bind hm2 (conv_close t2 d2 hp2 s2 hm2 (Le.refl _)) (fun n => ok_startTagCloseDeriv n d2)
          fun d3 s3 hm3 hle3 hr3 => ?_
        obtain ⟨p3, hp3⟩ := hr3.defd
        exact .patt hp3 (.ite (fun _ => .pure) fun _ => .pure)

theorem conv_endTagStep {pat : Pat D V} (lws : Bool) {k} {st : Store D V} (hm : MemoOK st)
    (ht : Ty st.lk QE QR .off true pat k) : Conv (fun n => endTagStep L n lws pat) st := by
  refine .ite (fun _ => ?_) fun _ => (conv_end ht st hm (Le.refl _)).1
  refine .bind hm (conv_text L ht [] st hm (Le.refl _)) (fun n => ok_textDeriv L n _ _) fun i s1 hm1 hle1 hr => ?_
  obtain ⟨q, hq, tq⟩ := hr.ty (m := .off) rfl true k (ht.mono hle1)
  exact .patt hq (conv_end tq s1 hm1 (Le.refl _)).1

theorem ok_endTagStep (n : Nat) (lws : Bool) (pat : Pat D V) {QE QR : Nat → Prop} {k} :
    Ok (endTagStep L n lws pat) (fun lk r => Ty lk QE QR .off true pat k → TyI lk QE QR .off true r (k - 1)) := by
  refine Ok.ite (fun _ => ?_) fun _ => (ok_endTagDeriv n pat).mono fun lk r h ht => h.ty' ht
  refine Ok.bind (ok_textDeriv L n pat []) fun i => Ok.bind (ok_patt i) fun q => ?_
  refine (ok_endTagDeriv n q).mono fun lk r h hq h1 ht => ?_
  exact h.ty' ((h1.ty (m := .off) rfl true k ht).get hq)

/-- what every reachable validator state satisfies -/
def VInv (s : VState D V) : Prop := MemoOK s.store ∧ ∃ QE QR k, ElemsOK s.store.lk QE QR ∧
  TyI s.store.lk QE QR .off true s.cur k

theorem VInv.with {s : VState D V} {st' : Store D V} (hm : MemoOK st') (hle : Le s.store.lk st'.lk)
    {QE QR k} (hE : ElemsOK s.store.lk QE QR) (ht : TyI s.store.lk QE QR .off true s.cur k)
    : VInv { s with store := st' } := ⟨hm, QE, QR, k, hE.mono hle, ht.mono hle⟩

theorem total_finish (evt : Token) (new : Nat) {s : VState D V} {k} (hm : MemoOK s.store)
    (hE : ElemsOK s.store.lk QE QR) {kc} (hc : TyI s.store.lk QE QR .off true s.cur kc)
    (ht : TyI s.store.lk QE QR .off true new k) :
    Total (fun _ => finish evt new) s (fun _ s' => VInv s' ∧ s'.stack = s.stack) := by
  obtain ⟨p, hp, tp⟩ := ht
  refine .get (.set (.patt (s := { s with lastWasStart := _ }) hp ?_))
  by_cases h : p.isNotAllowed = true
  · simp only [h, if_true]
    exact .pure ⟨⟨hm, QE, QR, kc, hE, hc⟩, rfl⟩
  · simp only [h]
    exact .get (.set (.pure ⟨⟨hm, QE, QR, k, hE, ⟨p, hp, tp⟩⟩, rfl⟩))

theorem stackKeep {s s' : VState D V} {t : Token} (h : s'.stack = s.stack) (ht : ∀ p l, t ≠ .elementStart p l) :
    s.stack ≠ [] ∨ (∃ p l, t = .elementStart p l) → s'.stack ≠ [] := by
  rintro (h' | ⟨_, _, h'⟩)
  · rw [h]; exact h'
  · exact absurd h' (ht _ _)

theorem total_validate (t : Token) {s : VState D V} (hi : VInv s)
    (hs : t.needsElement = true → s.stack ≠ []) :
    Total (fun n => validate L n t) s (fun _ s' => VInv s' ∧
      (s.stack ≠ [] ∨ (∃ p l, t = .elementStart p l) → s'.stack ≠ [])) := by
  obtain ⟨hm, QE, QR, k, hE, p, hp, ht⟩ := hi
  have hvi : VInv s := ⟨hm, QE, QR, k, hE, p, hp, ht⟩
  refine .get (.patt hp ?_)
  cases t with
  | declaration => exact .pure ⟨hvi, stackKeep rfl nofun⟩
  | processingInstruction => exact .pure ⟨hvi, stackKeep rfl nofun⟩
  | comment => exact .pure ⟨hvi, stackKeep rfl nofun⟩
  | dtdStart => exact .pure ⟨hvi, stackKeep rfl nofun⟩
  | emptyDtd => exact .pure ⟨hvi, stackKeep rfl nofun⟩
  | dtdEnd => exact .pure ⟨hvi, stackKeep rfl nofun⟩
  | entityDeclaration name d =>
    cases d with
    | entityValue v => exact .set (.pure ⟨hvi, stackKeep rfl nofun⟩)
    | externalId => exact .pure ⟨hvi, stackKeep rfl nofun⟩
  | elementStart pre loc => exact .set (.pure ⟨hvi, by simp⟩)
  | «attribute» pre loc v =>
    obtain ⟨e, es, he⟩ := List.exists_cons_of_ne_nil (hs rfl)
    simp only [he]
    exact .set (.pure ⟨hvi, by simp⟩)
  | text t =>
    simp only
    cases decodeText s.entities t with
    | error e => exact .pure ⟨hvi, stackKeep rfl nofun⟩
    | ok data =>
      simp only
      refine .bind (.lift hm (conv_text L ht data s.store hm (Le.refl _)) fun n => ok_textDeriv L n _ _) ?_
      rintro new s' ⟨st', rfl, hm', hle', hr⟩
      obtain ⟨q, hq, tq⟩ := hr.ty (m := .off) rfl true k (ht.mono hle')
      refine .patt (s := { s with store := st' }) hq ?_
      by_cases h : q.isNotAllowed = true
      · simp only [h, if_true]
        exact .pure ⟨.with hm' hle' hE ⟨p, hp, ht⟩, stackKeep rfl nofun⟩
      · simp only [h]
        refine (total_finish _ new (s := { s with store := st' }) hm' (hE.mono hle') (TyI.mono hle' ⟨p, hp, ht⟩)
          ⟨q, hq, tq⟩).mono fun _ s'' h => ⟨h.1, stackKeep h.2 nofun⟩
  | cdata t =>
    refine .bind (.lift hm (conv_text L ht t s.store hm (Le.refl _)) fun n => ok_textDeriv L n _ _) ?_
    rintro new s' ⟨st', rfl, hm', hle', hr⟩
    refine (total_finish _ new (s := { s with store := st' }) hm' (hE.mono hle') (TyI.mono hle' ⟨p, hp, ht⟩)
      (hr.ty (m := .off) rfl true k (ht.mono hle'))).mono fun _ s'' h => ⟨h.1, stackKeep h.2 nofun⟩
  | elementEnd e =>
    cases e with
    | close pre loc =>
      refine .bind (.lift hm (conv_endTagStep L s.lastWasStart hm ht) fun n =>
        ok_endTagStep L n _ _ (QE := QE) (QR := QR) (k := k)) ?_
      rintro new s' ⟨st', rfl, hm', hle', hr⟩
      refine (total_finish _ new (s := { s with store := st' }) hm' (hE.mono hle') (TyI.mono hle' ⟨p, hp, ht⟩)
        (hr (ht.mono hle'))).mono fun _ s'' h => ⟨h.1, stackKeep h.2 nofun⟩
    | «open» =>
      refine .bind (.lift hm (conv_closeElementStart L (hs rfl) _ hm hE ht) fun n => ok_closeElementStart L n _ _ _) ?_
      rintro r s' ⟨st', rfl, hm', hle', hr⟩
      cases r with
      | error e => exact .pure ⟨.with hm' hle' hE ⟨p, hp, ht⟩, stackKeep rfl nofun⟩
      | ok new =>
        obtain ⟨nm, as, d, d2, h1, h2, h3⟩ := hr new rfl
        have hty := h3.ty (h2.ty (h1.ty (m := .off) rfl (hE.mono hle') (ht.mono hle')))
        refine (total_finish _ new (s := { s with store := st' }) hm' (hE.mono hle') (TyI.mono hle' ⟨p, hp, ht⟩)
          hty).mono fun _ s'' h => ⟨h.1, stackKeep h.2 nofun⟩
    | empty =>
      refine .bind (.lift hm (conv_closeElementStart L (hs rfl) _ hm hE ht) fun n => ok_closeElementStart L n _ _ _) ?_
      rintro r s' ⟨st', rfl, hm', hle', hr⟩
      cases r with
      | error e => exact .pure ⟨.with hm' hle' hE ⟨p, hp, ht⟩, stackKeep rfl nofun⟩
      | ok id =>
        obtain ⟨nm, as, d, d2, h1, h2, h3⟩ := hr id rfl
        obtain ⟨q, hq, tq⟩ := h3.ty (h2.ty (h1.ty (m := .off) rfl (hE.mono hle') (ht.mono hle')))
        refine .patt (s := { s with store := st' }) hq ?_
        refine .bind (.lift (s := { s with store := st' }) hm' (conv_endTagStep L s.lastWasStart hm' tq) fun n =>
          ok_endTagStep L n _ _ (QE := QE) (QR := QR) (k := k + 1)) ?_
        rintro new s' ⟨st2, rfl, hm2, hle2, hr2⟩
        have l2 := hle'.trans hle2
        refine (total_finish _ new (s := { s with store := st2 }) hm2 (hE.mono l2) (TyI.mono l2 ⟨p, hp, ht⟩)
          (hr2 (tq.mono hle2))).mono fun _ s'' h => ⟨h.1, stackKeep h.2 nofun⟩

end
end Verif
