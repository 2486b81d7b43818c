import Verif.Proof.Diagnostic
import Verif.Proof.Spans
/-
Diagnostics in reachable states.
-/
set_option linter.unusedSectionVars false
namespace Verif
variable {D V : Type} [DecidableEq D] [DecidableEq V] {L : Lib D V}

theorem validate_empty_stack (n : Nat) (t : Token) {s : VState D V} (hs : s.stack = []) (ht : t.needsElement = true) :
    ∃ f, validate L n t s = .error f := by
  unfold validate
  simp only [ST.bind_run, ST.get]
  cases h : liftS (patt s.cur) s with
  | error f => exact ⟨f, rfl⟩
  | ok r =>
    obtain ⟨p, s1⟩ := r
    cases t with
    | «attribute» _ _ _ => exact ⟨.unwrapNone, by simp only [hs]; rfl⟩
    | elementEnd e =>
      cases e with
      | «open» => exact ⟨.unwrapNone, by simp only [hs]; rfl⟩
      | empty => exact ⟨.unwrapNone, by simp only [hs]; rfl⟩
      | close _ _ => cases ht
    | _ => cases ht

theorem validate_inv {n : Nat} {t : Token} {s s' : VState D V} {r : Except VErr Unit} (hi : VInv s) (h : validate L n t s = .ok (r, s')) :
    VInv s' := by
  by_cases hs : t.needsElement = true → s.stack ≠ []
  · obtain ⟨N, x, h1, _, h3⟩ := total_validate L t hi hs
    have fm : FM (fun n => validate L n t) := fun n => fa_validate L n t
    have : validate L (max n N) t s = .ok (r, s') := by
      rw [← h]; exact fm.stable (fun e => by have := h.symm.trans e; cases this) (Nat.le_max_left _ _)
    exact (h3 _ _ ((h1 _ (Nat.le_max_right n N)).symm.trans this)).1
  · have h1 : t.needsElement = true := Decidable.byContradiction fun h' => hs fun h'' => absurd h'' h'
    have h2 : s.stack = [] := Decidable.byContradiction fun h' => hs fun _ => h'
    obtain ⟨f, hf⟩ := validate_empty_stack (L := L) n t h2 h1
    rw [hf] at h; cases h

theorem runEvents_inv {n : Nat} : ∀ {es : List Event} {s s' : VState D V} {rs : List (Except VErr Unit)}, VInv s →
    runEvents L n es s = .ok (rs, s') → VInv s'
  | [], s, s', rs, hi, h => by
    cases h; exact hi
  | e :: es, s, s', rs, hi, h => by
    obtain ⟨r, s1, h1, h2⟩ := ST.bind_ok.mp h
    obtain ⟨rs', s2, h3, h4⟩ := ST.bind_ok.mp h2
    cases h4
    refine runEvents_inv ?_ h3
    cases e with
    | none => cases h1; exact hi
    | some t => exact validate_inv hi h1

namespace Loc

theorem reached_inv {env : Env D V} {start : Pattern D V} {c : Bool} {s : State D V} (hok : SchemaOK L env start c)
    (h : Reached L env start s) : VInv s.plain := by
  obtain ⟨fuel, n, s0, es, rs, h1, h2⟩ := h
  have e1 : Verif.newValidator env fuel start = .ok s0.plain := by rw [newValidator_plain, h1]; rfl
  have e2 : Verif.runEvents L n (es.map (·.plain)) s0.plain = .ok (rs.map plainResult, s.plain) := by
    rw [runEvents_plain, h2]; rfl
  exact runEvents_inv (newValidator_inv L hok e1) e2

theorem headFM : ∀ (n : Nat) (r : List (Pat D V)) (i : Nat), FA (head n r i) (head (n + 1) r i)
  | 0, _, _ => FA.fuel
  | n + 1, r, i => by
    unfold head
    refine FA.refl.bind fun p => ?_
    cases p with
    | choice a b f => exact (headFM n _ _).bind fun _ => headFM n _ _
    | interleave a b f => exact (headFM n _ _).bind fun _ => headFM n _ _
    | group a b f =>
      refine FA.refl.bind fun l => ?_
      cases l.nullable
      · exact (headFM n _ _).bind fun _ => headFM n _ _
      · exact headFM n _ _
    | oneOrMore a f => exact headFM n _ _
    | list a => exact headFM n _ _
    | after a b => exact headFM n _ _
    | _ => exact FA.refl

theorem heads_ok {s : State D V} (hi : VInv s.plain) : ∃ N p hs, s.numbered s.cur = some p ∧
    (∀ n, N ≤ n → heads n s.cur s.store = .ok (hs, s.store)) ∧ hs.Nodup ∧
    ∀ nc j, Pat.element nc j ∈ hs ↔ Offered s.numbered p nc j := by
  obtain ⟨_, QE, QR, k, _, p, hp, ht⟩ := hi
  obtain ⟨N, hN⟩ := head_total (st := s.store) ht
  obtain ⟨hs, h1, h2, h3⟩ := hN N (Nat.le_refl _) _ hp []
  refine ⟨N, p, hs, hp, fun n hn => ?_, h2 List.nodup_nil, fun nc j => ?_⟩
  · obtain ⟨hs', h1', _⟩ := hN n hn _ hp []
    have fm : FM (fun n => head n ([] : List (Pat D V)) s.cur) := fun n => headFM n [] s.cur
    have := fm.stable (n := N) (m := n) (s := s.store) (fun e => by have := h1.symm.trans e; cases this) hn
    exact this.trans h1
  · rw [h3]; simp; rfl

theorem resolveAttr_err {st : List Elem} {a : UAttr} {p l sp : Sp} : resolveAttr st a ≠ .error (.notAllowed (.elementStart p l sp)) := by
  unfold resolveAttr tryLookupNs
  intro h
  split at h
  · cases h
  · split at h
    · cases h
    · rename_i e he
      split at he
      · cases he
      · cases he; cases h

theorem resolveAttrs_err {p l sp : Sp} (st : List Elem) : ∀ as : List UAttr, resolveAttrs st as ≠ .error (.notAllowed (.elementStart p l sp))
  | [] => nofun
  | a :: as => by
    intro h
    unfold resolveAttrs at h
    split at h
    · rename_i e he; cases h; exact resolveAttr_err he
    · split at h
      · rename_i e he; cases h; exact resolveAttrs_err st as he
      · cases h

theorem attsLoop_err {p l sp : Sp} (n : Nat) : ∀ (as : List LAttr) (i : Nat) (st st' : Store D V),
    attsLoop L n i as st ≠ .ok (.error (.notAllowed (.elementStart p l sp)), st')
  | [], i, st, st' => nofun
  | a :: as, i, st, st' => by
    intro h
    unfold attsLoop at h
    obtain ⟨r, st1, h1, h⟩ := ST.bind_ok.mp h
    obtain ⟨q, st2, h2, h⟩ := ST.bind_ok.mp h
    split at h
    · cases h
    · exact attsLoop_err n as _ _ _ h

/-- the outcome of the beginning of `close_element_start` -/
theorem refused_iff {n : Nat} {stack : List Elem} {evt : Token} {pat : Pat D V} {st st' : Store D V} {r : Except Err Nat} {ns : Option Sp} {loc : Sp}
    {QE QR : Nat → Prop} {b : Bool} {k : Nat}
    (hm : MemoOK st) (hE : ElemsOK st.lk QE QR) (ht : Ty st.lk QE QR .off b pat k)
    (hev : ∀ a b c, evt ≠ .elementStart a b c)
    (hc : currentElement stack = some (.ok (ns, loc))) (h : closeElementStart L n stack evt pat st = .ok (r, st')) :
    (∃ pre l sp, r = .error (.notAllowed (.elementStart pre l sp))) ↔ ¬ Can st.lk ⟨ns.map (·.s), loc.s⟩ pat := by
  unfold closeElementStart at h
  rw [hc] at h
  dsimp only at h
  obtain ⟨d, st1, h1, h⟩ := ST.bind_ok.mp h
  obtain ⟨hm1, hle, hR⟩ := ok_startTagOpenDeriv ⟨ns.map (·.s), loc.s⟩ n pat _ _ _ hm h1
  have fate := STD.fate (hR _ (Le.refl _))
  have hcan : Can st1.lk ⟨ns.map (·.s), loc.s⟩ pat ↔ Can st.lk ⟨ns.map (·.s), loc.s⟩ pat := by
    constructor
    · rintro ⟨nc, j, q, a, b, c, e⟩
      obtain ⟨a', hq⟩ := next_back hle ht a
      obtain ⟨q', hq', _⟩ := hE _ hq
      have := hle _ _ hq'
      rw [c] at this; cases this
      exact ⟨nc, j, q, a', b, hq', e⟩
    · rintro ⟨nc, j, q, a, b, c, e⟩
      exact ⟨nc, j, q, a.mono hle, b, hle _ _ c, e⟩
  obtain ⟨dp, st2, h2, h⟩ := ST.bind_ok.mp h
  have hd : st1.lk d = some dp := by
    unfold patt at h2
    split at h2
    · rename_i q hq; cases h2; exact hq
    · cases h2
  rw [← hcan]
  rcases fate with ⟨k1, n1⟩ | ⟨⟨p, k1, t1⟩, n1⟩
  · rw [hd] at k1; cases k1
    cases h
    exact ⟨fun _ => n1, fun _ => ⟨_, _, _, rfl⟩⟩
  · rw [hd] at k1; cases k1
    refine ⟨?_, fun h => absurd n1 h⟩
    have hna : dp.isNotAllowed = false := by
      cases hx : dp.isNotAllowed with
      | true => exact absurd (isNotAllowed_iff.mp hx) t1.ne
      | false => rfl
    rw [hna] at h
    simp only [Bool.false_eq_true, if_false] at h
    rintro ⟨pre, l, sp, rfl⟩
    exfalso
    cases hca : currentAttributes stack with
    | none => rw [hca] at h; cases h
    | some x =>
      rw [hca] at h
      cases x with
      | error e =>
        cases h
        cases stack with
        | nil => cases hca
        | cons x xs =>
          simp only [currentAttributes, Option.some.injEq] at hca
          exact resolveAttrs_err _ _ hca
      | ok atts =>
        obtain ⟨o, st3, h3, h⟩ := ST.bind_ok.mp h
        cases o with
        | error e => cases h; exact attsLoop_err n atts d st2 st' h3
        | ok d2 =>
          obtain ⟨p2, st4, h4, h⟩ := ST.bind_ok.mp h
          split at h
          · cases h; exact hev _ _ _ rfl
          · obtain ⟨d3, st5, h5, h⟩ := ST.bind_ok.mp h
            obtain ⟨p3, st6, h6, h⟩ := ST.bind_ok.mp h
            split at h
            · cases h; exact hev _ _ _ rfl
            · cases h

end Loc
end Verif
