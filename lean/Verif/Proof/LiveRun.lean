import Verif.Proof.LiveRep
import Verif.Proof.Top
/-
Runs over the beginning of a document (proof device for C77): the open elements, outermost first, each with what has been
read of its content.
-/
set_option linter.unusedSectionVars false
namespace Verif
open Viable
variable {D V : Type}

/-- an open element: its start tag, and the content read so far before the next open element -/
structure Lvl where
  pre : Str
  loc : Str
  atts : List RawAttr
  kids : List XNode
  nm : QName
  as : List Attr
  kns : List Node

/-- events read so far -/
def lvEvents : List Lvl → List REv
  | [] => []
  | l :: ls => .start l.nm l.as :: (eventsL l.kns ++ lvEvents ls)

/-- close all open elements, putting the given contents before the end tags -/
def fillN : List Lvl → List (List Node) → List Node
  | l :: ls, e :: es => [.elem l.nm l.as (l.kns ++ (fillN ls es ++ e))]
  | l :: ls, [] => [.elem l.nm l.as (l.kns ++ fillN ls [])]
  | [], _ => []

/-- the innermost content read so far does not end in text -/
def EndTag : List Lvl → Prop
  | [] => True
  | [l] => ∀ s, l.kns.getLast? ≠ some (.text s)
  | _ :: ls => EndTag ls

section
variable [DecidableEq D] [DecidableEq V] (L : Lib D V)

/-- soundness of an open run -/
def OpenSound (L : Lib D V) (lk : Lk D V) (i : Nat) (ls : List Lvl) (r : Nat) : Prop :=
  ∀ QE QR m k, Ctx L lk QE QR m → TyI lk QE QR m true i (k + 1) →
    ∀ es c cs, es.length = ls.length → WSI L lk true r (es.reverse ++ c :: cs) → WSI L lk true i ((fillN ls es ++ c) :: cs)

theorem ok_openSound (n : Nat) : ∀ (ls : List Lvl) (i : Nat),
    Ok (runR L n i (lvEvents ls)) (fun lk o => ∀ r, o = some r → OpenSound L lk i ls r)
  | [], i => Ok.pure fun lk r hr => by
      cases hr
      intro QE QR m k hc ht es c cs he hw
      cases es with
      | nil => simpa [fillN] using hw
      | cons => simp at he
  | l :: ls, i => by
    simp only [lvEvents, runR]
    refine ok_andThen (ok_stepR L n i (.start l.nm l.as)) (fun j => ?_) fun lk h r hr => by cases hr
    rw [runR_append]
    refine ok_andThen (ok_run_list L n l.kns j) (fun j2 => ?_) fun lk h h1 r hr => by cases hr
    refine (ok_openSound n ls j2).mono fun lk o h h2 h1 r hr => ?_
    intro QE QR m k hc ht es c cs he hw
    cases es with
    | nil => simp at he
    | cons e es =>
      have st := (h1.1 j rfl).1
      have tj := st.ty hc.hm hc.hE ht nofun
      obtain ⟨hs2, _⟩ := h2 QE QR m (k + 1) hc tj
      obtain ⟨tj2, hs2⟩ := hs2 j2 rfl
      have w2 := h r hr QE QR m (k + 1) hc tj2 es e (c :: cs) (by simpa using he) (by simpa using hw)
      have w1 := hs2 _ _ w2
      have := st.sound_start hc.hm hc.hE ht w1
      simpa [fillN] using this

mutual
theorem ok_liv_node (n : Nat) : ∀ (x : Node) (i : Nat),
    Ok (runR L n i x.events) (fun lk o => ∀ QE b d k r, QOk L lk QE → LNS L lk QE b false d (k + 1) i → lk i ≠ some .notAllowed → o = some r →
      lk r ≠ some .notAllowed ∧ ∃ d', LNS L lk QE b false d' (k + 1) r ∧ ((∀ s, x ≠ .text s) → d' = false))
  | .text s, i => by
    simp only [Node.events, runR]
    refine ok_andThen (ok_stepR L n i (.text s)) (fun a => Ok.pure fun lk h QE b d k r hQ hb hn hr => ?_)
      fun lk h QE b d k r hQ hb hn hr => by cases hr
    cases hr
    exact ⟨(h.1 _ rfl).2, _, (h.1 _ rfl).1.livS hQ hb hn, fun h => absurd rfl (h s)⟩
  | .elem nm as kids, i => by
    simp only [Node.events, runR]
    refine ok_andThen (ok_stepR L n i (.start nm as)) (fun j => ?_) fun lk h QE b d k r hQ hb hn hr => by cases hr
    rw [runR_append]
    refine ok_andThen (ok_liv_list n kids j) (fun j2 => ?_) fun lk h h1 QE b d k r hQ hb hn hr => by cases hr
    simp only [runR]
    refine ok_andThen (ok_stepR L n j2 .fin) (fun a => Ok.pure fun lk h1 h2 h3 QE b d k r hQ hb hn hr => ?_)
          fun lk h1 h2 h3 QE b d k r hQ hb hn hr => by cases hr
    cases hr
    have b1 := (h3.1 _ rfl).1.livS hQ hb hn
    obtain ⟨n2, d2, b2, _⟩ := h2 QE b _ (k + 1) _ hQ b1 (h3.1 _ rfl).2 rfl
    exact ⟨(h1.1 _ rfl).2, _, (h1.1 _ rfl).1.livS hQ b2 n2, fun _ => rfl⟩
theorem ok_liv_list (n : Nat) : ∀ (ns : List Node) (i : Nat),
    Ok (runR L n i (eventsL ns)) (fun lk o => ∀ QE b d k r, QOk L lk QE → LNS L lk QE b false d (k + 1) i → lk i ≠ some .notAllowed → o = some r →
      lk r ≠ some .notAllowed ∧ ∃ d', LNS L lk QE b false d' (k + 1) r ∧ ((ns = [] → d = false) → (∀ s, ns.getLast? ≠ some (.text s)) → d' = false))
  | [], i => Ok.pure fun lk QE b d k r hQ hb hn hr => by cases hr; exact ⟨hn, d, hb, fun h _ => h rfl⟩
  | x :: ns, i => by
    simp only [eventsL]
    rw [runR_append]
    refine ok_andThen (ok_liv_node n x i) (fun j => (ok_liv_list n ns j).mono
      fun lk o h h1 QE b d k r hQ hb hn hr => ?_) fun lk h QE b d k r hQ hb hn hr => by cases hr
    obtain ⟨n1, d1, b1, e1⟩ := h1 QE b d k j hQ hb hn rfl
    obtain ⟨n2, d2, b2, e2⟩ := h QE b d1 k r hQ b1 n1 hr
    refine ⟨n2, d2, b2, fun hd hl => ?_⟩
    cases ns with
    | nil =>
      refine e2 (fun _ => e1 fun s hx => hl s (by simp [hx])) (by simp)
    | cons y ns =>
      exact e2 (fun h => nomatch h) fun s hs => hl s (by rw [List.getLast?_cons_cons]; exact hs)
end

/-- inside open elements -/
theorem ok_liv_open (n : Nat) : ∀ (ls : List Lvl) (i : Nat),
    Ok (runR L n i (lvEvents ls)) (fun lk o => ∀ QE b d k r, QOk L lk QE → LNS L lk QE b false d (k + 1) i → lk i ≠ some .notAllowed → o = some r →
      lk r ≠ some .notAllowed ∧ ∃ d', LNS L lk QE b false d' (k + 1 + ls.length) r ∧ ((ls = [] → d = false) → EndTag ls → d' = false))
  | [], i => Ok.pure fun lk QE b d k r hQ hb hn hr => by cases hr; exact ⟨hn, d, hb, fun h _ => h rfl⟩
  | l :: ls, i => by
    simp only [lvEvents, runR]
    refine ok_andThen (ok_stepR L n i (.start l.nm l.as)) (fun j => ?_) fun lk h QE b d k r hQ hb hn hr => by cases hr
    rw [runR_append]
    refine ok_andThen (ok_liv_list L n l.kns j) (fun j2 => ?_) fun lk h h1 QE b d k r hQ hb hn hr => by cases hr
    refine (ok_liv_open n ls j2).mono fun lk o h h2 h1 QE b d k r hQ hb hn hr => ?_
    have b1 := (h1.1 _ rfl).1.livS hQ hb hn
    obtain ⟨n2, d2, b2, e2⟩ := h2 QE b _ (k + 1) _ hQ b1 (h1.1 _ rfl).2 rfl
    obtain ⟨n3, d3, b3, e3⟩ := h QE b _ (k + 1) _ hQ b2 n2 hr
    refine ⟨n3, d3, ?_, fun _ he => ?_⟩
    · have : k + 1 + (l :: ls).length = k + 1 + 1 + ls.length := by simp; omega
      rw [this]; exact b3
    · cases ls with
      | nil => exact e3 (fun _ => e2 (fun _ => rfl) he) trivial
      | cons l' ls => exact e3 (fun h => nomatch h) he

/-- from the start pattern -/
theorem ok_liv_root (n : Nat) (l : Lvl) (ls : List Lvl) (i : Nat) :
    Ok (runR L n i (lvEvents (l :: ls))) (fun lk o => ∀ QE p t r, QOk L lk QE → lk i = some p → Elems lk p → Liv L lk QE false false t p →
      o = some r → EndTag (l :: ls) → ∃ q, lk r = some q ∧ LivS L lk QE 0 false false (ls.length + 1) q) := by
  simp only [lvEvents, runR]
  refine ok_andThen (ok_stepR L n i (.start l.nm l.as)) (fun j => ?_) fun lk h QE p t r hQ hp he hl hr => by cases hr
  rw [runR_append]
  refine ok_andThen (ok_liv_list L n l.kns j) (fun j2 => ?_) fun lk h h1 QE p t r hQ hp he hl hr => by cases hr
  refine (ok_liv_open L n ls j2).mono fun lk o h h2 h1 QE p t r hQ hp he hl hr ht => ?_
  have b1 := (h1.1 _ rfl).1.livElems hQ hp he hl
  obtain ⟨n2, d2, b2, e2⟩ := h2 QE 0 _ 0 _ hQ b1 (h1.1 _ rfl).2 rfl
  obtain ⟨n3, d3, b3, e3⟩ := h QE 0 _ 0 _ hQ b2 n2 hr
  have hd : d3 = false := by
    cases ls with
    | nil => exact e3 (fun _ => e2 (fun _ => rfl) ht) trivial
    | cons l' ls => exact e3 (fun h => nomatch h) ht
  subst hd
  obtain ⟨q, hq, b3⟩ := b3
  have : 0 + 1 + ls.length = ls.length + 1 := by omega
  rw [this] at b3
  exact ⟨q, hq, b3 fun e => n3 (by rw [hq, e])⟩

variable {L}
variable {env : Env D V}

/-- an open run from a usable schema can be completed -/
theorem open_viable {start : Pattern D V} {c fuel n i r st st' l ls}
    (hs : SchemaOK L env start c) (h0 : StartOK env start) (hu : SchemaUsable L env start)
    (hc : compile env fuel start Store.init = .ok (i, st))
    (hr : runR L n i (lvEvents (l :: ls)) st = .ok (some r, st')) (ht : EndTag (l :: ls)) :
    ∃ es, es.length = (l :: ls).length ∧ (∀ e ∈ es, Fill e) ∧
      ((∀ x ∈ fillN (l :: ls) es, x.NoAdj) → Match L env start [] (fillN (l :: ls) es)) := by
  obtain ⟨hrep, hall, hmemo⟩ := compile_rep hs.guarded hc
  obtain ⟨Q, hQ, hw⟩ := hs
  obtain ⟨QU, hQU, hU⟩ := hu
  obtain ⟨_, hle, hrun⟩ := ok_openSound L n _ _ _ _ _ hmemo hr
  obtain ⟨_, _, hliv⟩ := ok_liv_root L n _ _ _ _ _ _ hmemo hr
  let w : World D V := ⟨st'.lk, st.world.refs⟩
  have hrep' : Rep env w start i := Rep.mono (w := st.world) (w' := w) hle rfl hrep
  have hall' : AllRef env w := AllRef.mono (w := st.world) (w' := w) hle rfl hall
  have hty := hrep'.tyOff hall' hw
  obtain ⟨P, hP, he⟩ := hrep'.elems hall' h0
  let QE : NameClass → Nat → Prop := fun nc j => ∃ p, QU nc p ∧ Rep env w p j
  have hE : ∀ nc p j, QU nc p → Rep env w p j → QE nc j := fun nc p j h1 h2 => ⟨p, h1, h2⟩
  have hok : QOk L w.lk QE := by
    rintro nc j ⟨p, hp, hj⟩
    exact (hQU nc p hp).1.li hall' hE hj
  have hsat : QSat L w.lk QE := by
    rintro nc j ⟨p, hp, hj⟩
    obtain ⟨x, hx, hm⟩ := (hQU nc p hp).2
    cases hm with
    | element h1 h2 h3 =>
      obtain ⟨y, hy, hs⟩ := h3.si hall' hj
      exact ⟨_, _, _, hx, .element ((contains_iff _ _).mpr h1) hy h2.toP hs⟩
  obtain ⟨P', hP', hl⟩ := hU.li hall' hE hrep'
  rw [show w.lk i = some P from hP] at hP'; cases hP'
  obtain ⟨q, hq, lq⟩ := hliv _ (Le.refl _) QE P 1 r hok hP he hl rfl ht
  obtain ⟨cs, c, hlen, hS, hf, hk⟩ := lq.sat hsat rfl rfl
  have hc0 : c = [] := hk.2.1 rfl
  subst hc0
  refine ⟨cs.reverse, by simpa using hlen, fun e he => hf e (by simpa using he), fun hna => ?_⟩
  obtain ⟨cs', hw', hsi⟩ := hrun _ (Le.refl _) r rfl _ _ _ 0 (ctxOff hall' hQ) hty cs.reverse [] [] (by simpa using hlen)
    ⟨_, WeakL.refl _, q, hq, by simpa using hS⟩
  rw [List.append_nil] at hw'
  cases hes : cs.reverse with
  | nil => exact absurd hlen (by rw [List.reverse_eq_nil_iff] at hes; simp [hes])
  | cons e es =>
    rw [hes] at hw' hna
    simp only [fillN] at hw' hna ⊢
    rw [WeakL.elemInv hw'] at hsi
    refine (hrep'.match (Sp := fun _ => False) hall' hQ _ hw (Nat.le_refl _) (Or.inr ⟨fun _ _ _ _ _ h => h.elim, fun x hx => (hna x hx).fine, Or.inr ?_⟩) hsi).toMatch
    intro x s t y h
    cases x with
    | nil => cases h
    | cons a x => simp at h

end
end Verif
