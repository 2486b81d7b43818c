import Verif.Proof.Replay
import Verif.Proof.Fuel
import Verif.Spec.Memory
/-
The schema `start = element r { element a { empty }*, element a { empty }* }`: two more patterns for every child.
-/
set_option linter.unusedSectionVars false
namespace Verif.Growth
open Verif Verif.Replay Verif.Mem
variable {D V : Type} [DecidableEq D] [DecidableEq V]

/-- `<a/>` -/
def child : List Token := [.elementStart [] ['a'], .elementEnd .empty]
/-- `<r>` -/
def opening : List Token := [.elementStart [] ['r'], .elementEnd .open]

def nameA : QName := ⟨none, ['a']⟩

/-- the patterns after `<r><a/>` -/
def pats1 : List (Pat D V) :=
  [.empty, .element (.named [] ['a']) 0, .oneOrMore 1 false, .choice 2 0 true, .group 3 3 true, .element (.named [] ['r']) 4,
   .after 4 0, .after 0 0, .after 0 3, .notAllowed, .after 0 4, .choice 10 8 false, .after 0 6, .after 3 0, .after 0 13,
   .choice 12 14 false, .choice 6 13 false]

/-- the table after `<r><a/>`: every pattern is found under its number -/
def store1 : Store D V := ⟨pats1, (pats1.zipIdx).reverse, []⟩

/-- the validator after `<r><a/>` -/
def state1 : VState D V := ⟨store1, 16, false, [⟨[], ['a'], [], []⟩, ⟨[], ['r'], [], []⟩], predefined⟩

/-- the new validator -/
def state0 : VState D V := ⟨⟨pats1.take 6, ((pats1.take 6).zipIdx).reverse, []⟩, 5, false, [], predefined⟩

theorem new0 : newValidator ([] : Env D V) 30 twice = .ok state0 := rfl

/-- the table after `<r>` -/
def storeR : Store D V := ⟨pats1.take 7, ((pats1.take 7).zipIdx).reverse, []⟩

def stackR : ElementStack := [⟨[], ['r'], [], []⟩]
def stackA : ElementStack := [⟨[], ['a'], [], []⟩, ⟨[], ['r'], [], []⟩]

theorem closeR (L : Lib D V) : closeElementStart L 30 stackR (.elementEnd .open) (.element (.named [] ['r']) 4) state0.store =
    .ok (.ok 6, storeR) := rfl

/-- the table after `<a` -/
def storeA : Store D V := ⟨pats1.take 16, ((pats1.take 16).zipIdx).reverse, []⟩

theorem openA : startTagOpenDeriv 30 (.after 4 0) nameA (storeR : Store D V) = .ok (15, storeA) := rfl
theorem closeA : startTagCloseDeriv 30 15 (storeA : Store D V) = .ok (15, storeA) := rfl
theorem endA : endTagDeriv 30 (.choice 12 14 false) (storeA : Store D V) = .ok (16, store1) := rfl

theorem open6 : startTagOpenDeriv 30 (.after 4 0) nameA (store1 : Store D V) = .ok (15, store1) := rfl
theorem open13 : startTagOpenDeriv 30 (.after 3 0) nameA (store1 : Store D V) = .ok (14, store1) := rfl
theorem close15 : startTagCloseDeriv 30 15 (store1 : Store D V) = .ok (15, store1) := rfl
theorem close14 : startTagCloseDeriv 30 14 (store1 : Store D V) = .ok (14, store1) := rfl
theorem end15 : endTagDeriv 30 (.choice 12 14 false) (store1 : Store D V) = .ok (16, store1) := rfl
theorem end14 : endTagDeriv 30 (.after 0 13) (store1 : Store D V) = .ok (13, store1) := rfl
theorem end6 : endTagDeriv 30 (.after 4 0) (store1 : Store D V) = .ok (0, store1) := rfl
theorem end13 : endTagDeriv 30 (.after 3 0) (store1 : Store D V) = .ok (0, store1) := rfl

/-! ### one child -/

theorem patt_of {i : Nat} {st : Store D V} {p} (h : st.pats[i]? = some p) : patt i st = .ok (p, st) := by unfold patt; rw [h]

theorem choice_push {l r : Nat} {st : Store D V} {p q : Pat D V} (hl : st.pats[l]? = some p) (hr : st.pats[r]? = some q)
    (hp : p.isNotAllowed = false) (hq : q.isNotAllowed = false) (hne : l ≠ r) :
    choice l r st = push (.choice l r (p.nullable || q.nullable)) st := by
  have : choice l r st = (match p, q with
    | .notAllowed, _ => (pure r : SM D V Nat)
    | _, .notAllowed => pure l
    | l', r' => if l = r then pure l else push (.choice l r (l'.nullable || r'.nullable))) st := by
    exact (ST.bind_of_ok (patt_of hl)).trans (ST.bind_of_ok (patt_of hr))
  rw [this]
  split
  · simp [Pat.isNotAllowed] at hp
  · simp [Pat.isNotAllowed] at hq
  · rw [if_neg hne]

theorem choice_same {l : Nat} {st : Store D V} {p : Pat D V} (hl : st.pats[l]? = some p)
    (hp : p.isNotAllowed = false) : choice l l st = .ok (l, st) := by
  have : choice l l st = (match p, p with
    | .notAllowed, _ => (pure l : SM D V Nat)
    | _, .notAllowed => pure l
    | l', r' => if l = l then pure l else push (.choice l l (l'.nullable || r'.nullable))) st := by
    exact (ST.bind_of_ok (patt_of hl)).trans (ST.bind_of_ok (patt_of hl))
  rw [this]
  split
  · rfl
  · rfl
  · rw [if_pos rfl]; rfl

theorem push_new {p : Pat D V} {st : Store D V} (h : st.memo.lookup p = none) (hl : st.pats.length ≤ 0xffff) :
    push p st = .ok (st.pats.length, { st with memo := (p, st.pats.length) :: st.memo, pats := st.pats ++ [p] }) := by
  unfold push
  rw [if_neg (by omega), h]

theorem push_full {p : Pat D V} {st : Store D V} (hl : 0xffff < st.pats.length) : push p st = .error .capacity := by
  unfold push
  rw [if_pos hl]

/-- the state after `<a` -/
def inA (s : VState D V) : VState D V := { s with stack := ⟨[], ['a'], [], []⟩ :: s.stack }

theorem start_run (L : Lib D V) {n : Nat} {s : VState D V} {pc} (hcur : s.store.pats[s.cur]? = some pc) :
    validate L n (.elementStart [] ['a']) s = .ok (.ok (), inA s) :=
  ST.bind_ok.mpr ⟨s, s, rfl, ST.bind_ok.mpr ⟨pc, s, liftS_patt_of hcur, rfl⟩⟩

theorem liftS_error {α : Type} {x : SM D V α} {s : VState D V} {e} (h : x s.store = .error e) : liftS x s = .error e := by
  simp only [liftS, h]

theorem child_run (L : Lib D V) {n : Nat} {s : VState D V} {pc pd pd' pe d d' e} {stA stB stC : Store D V} (hlast : s.lastWasStart = false)
    (hcur : s.store.pats[s.cur]? = some pc) (hopen : startTagOpenDeriv n pc nameA s.store = .ok (d, stA))
    (hd : stA.pats[d]? = some pd) (hdn : pd.isNotAllowed = false)
    (hclose : startTagCloseDeriv n d stA = .ok (d', stB)) (hd' : stB.pats[d']? = some pd') (hdn' : pd'.isNotAllowed = false)
    (hend : endTagDeriv n pd' stB = .ok (e, stC)) (he : stC.pats[e]? = some pe) (hen : pe.isNotAllowed = false) :
    runToks L n child s = .ok (.ok (), { inA s with store := stC, cur := e }) := by
  have hc : closeElementStart L n (inA s).stack (.elementEnd .empty) pc s.store = .ok (.ok d', stB) := by
    show (startTagOpenDeriv n pc nameA >>= _) s.store = _
    refine (ST.bind_of_ok hopen).trans ((ST.bind_of_ok (patt_of hd)).trans ?_)
    rw [if_neg (by rw [hdn]; nofun)]
    show ((pure (.ok d) : SM D V (Except VErr Nat)) >>= _) stA = _
    refine (ST.bind_of_ok (a := .ok d) rfl).trans ?_
    refine (ST.bind_of_ok (patt_of hd)).trans ?_
    rw [if_neg (by rw [hdn]; nofun)]
    refine (ST.bind_of_ok hclose).trans ((ST.bind_of_ok (patt_of hd')).trans ?_)
    rw [if_neg (by rw [hdn']; nofun)]
    rfl
  have hv : validate L n (.elementEnd .empty) (inA s) = .ok (.ok (), { inA s with store := stC, cur := e }) := by
    refine (ST.bind_of_ok (a := inA s) rfl).trans ((ST.bind_of_ok (liftS_patt_of (s := inA s) hcur)).trans ?_)
    refine (ST.bind_of_ok (liftS_of (s := inA s) hc)).trans ?_
    refine (ST.bind_of_ok (liftS_patt_of (s := { inA s with store := stB }) hd')).trans ?_
    have hes : endTagStep L n (inA s).lastWasStart pd' stB = .ok (e, stC) := by
      show endTagStep L n s.lastWasStart pd' stB = _
      rw [hlast]; exact hend
    refine (ST.bind_of_ok (liftS_of (s := { inA s with store := stB }) hes)).trans ?_
    refine (ST.bind_of_ok (a := { inA s with store := stC }) rfl).trans ?_
    refine (ST.bind_of_ok (a := ()) (s' := { inA s with store := stC }) (by
      show Except.ok ((), { inA s with store := stC, lastWasStart := false }) = _
      rw [← hlast]; rfl)).trans ?_
    refine (ST.bind_of_ok (liftS_patt_of (s := { inA s with store := stC }) he)).trans ?_
    rw [if_neg (by rw [hen]; nofun)]
    rfl
  refine (ST.bind_of_ok (start_run L hcur)).trans ?_
  exact (ST.bind_of_ok hv).trans rfl

theorem child_fail (L : Lib D V) {n : Nat} {s : VState D V} {pc pd d f} {stA : Store D V}
    (hcur : s.store.pats[s.cur]? = some pc) (hopen : startTagOpenDeriv n pc nameA s.store = .ok (d, stA))
    (hd : stA.pats[d]? = some pd) (hdn : pd.isNotAllowed = false)
    (hclose : startTagCloseDeriv n d stA = .error f) (rest : List Token) :
    runToks L n (child ++ rest) s = .error f := by
  have hc : closeElementStart L n (inA s).stack (.elementEnd .empty) pc s.store = .error f := by
    show (startTagOpenDeriv n pc nameA >>= _) s.store = _
    refine (ST.bind_of_ok hopen).trans ((ST.bind_of_ok (patt_of hd)).trans ?_)
    rw [if_neg (by rw [hdn]; nofun)]
    show ((pure (.ok d) : SM D V (Except VErr Nat)) >>= _) stA = _
    refine (ST.bind_of_ok (a := .ok d) rfl).trans ?_
    refine (ST.bind_of_ok (patt_of hd)).trans ?_
    rw [if_neg (by rw [hdn]; nofun)]
    exact ST.bind_of_error hclose
  have hv : validate L n (.elementEnd .empty) (inA s) = .error f := by
    refine (ST.bind_of_ok (a := inA s) rfl).trans ((ST.bind_of_ok (liftS_patt_of (s := inA s) hcur)).trans ?_)
    exact ST.bind_of_error (liftS_error (s := inA s) hc)
  refine (ST.bind_of_ok (start_run L hcur)).trans ?_
  exact ST.bind_of_error hv

end Verif.Growth
