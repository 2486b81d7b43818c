import Verif.Proof.GrowthInv
import Verif.Proof.Sim
/-
The schema of Proof/Growth: documents with any number of children.
-/
set_option linter.unusedSectionVars false
namespace Verif.Growth
open Verif Verif.Replay Verif.Mem
variable {D V : Type} [DecidableEq D] [DecidableEq V] {L : Lib D V}

/-- the validator after `k + 1` children -/
structure At (k : Nat) (s : VState D V) : Prop where
  inv : Inv k s.store
  cur : s.cur = 16 + 2 * k
  last : s.lastWasStart = false

theorem At.step {k n : Nat} {s : VState D V} (h : At k s) (hk : 19 + 2 * k ≤ 0xffff) (hn : 30 + (k + 1) ≤ n) :
    ∃ s', runToks L n child s = .ok (.ok (), s') ∧ At (k + 1) s' := by
  have hi := h.inv
  obtain ⟨c, pc, h6, _⟩ := hi.cur
  have hg := hi.next_grown (by omega)
  have hr := child_run L (s := s) (n := n) h.last (by rw [h.cur]; exact h6) (hi.opens h6 hn) hi.mid_get rfl
    (hi.closes (.refl _) (by rw [hi.mid_len]; omega) hn) hi.mid_get rfl (hi.ends (by omega) hn) hi.next_get rfl
  exact ⟨_, hr, hi.next hk, by show 18 + 2 * k = _; omega, h.last⟩

theorem At.steps {n : Nat} : ∀ {m k : Nat} {s : VState D V}, At k s → 17 + 2 * (k + m) ≤ 0xffff → 30 + (k + m) ≤ n →
    ∃ s', runToks L n (List.replicate m child).flatten s = .ok (.ok (), s') ∧ At (k + m) s'
  | 0, k, s, h, _, _ => ⟨s, rfl, h⟩
  | m + 1, k, s, h, hk, hn => by
    obtain ⟨s1, h1, h2⟩ := h.step (L := L) (n := n) (by omega) (by omega)
    obtain ⟨s2, h3, h4⟩ := At.steps (n := n) (m := m) h2 (by omega) (by omega)
    refine ⟨s2, ?_, by rw [show k + (m + 1) = k + 1 + m by omega]; exact h4⟩
    rw [List.replicate_succ, List.flatten_cons, runToks_append, h1]
    exact h3

/-- one child too many -/
theorem At.fail {n : Nat} {s : VState D V} (h : At 32759 s) (hn : 30 + 32760 ≤ n) (rest : List Token) :
    runToks L n (child ++ rest) s = .error .capacity := by
  have hi := h.inv
  obtain ⟨c, pc, h6, _⟩ := hi.cur
  exact child_fail L (s := s) (by rw [h.cur]; exact h6) (hi.opens h6 hn) hi.mid_get rfl
    (hi.fails (.refl _) (by rw [hi.mid_len]; omega) hn) rest

/-- the end tag of the root element -/
theorem At.close {k n : Nat} {s : VState D V} (h : At k s) (hn : 30 + (k + 1) ≤ n) (pre loc : Str) :
    ∃ s', runToks L n [.elementEnd (.close pre loc)] s = .ok (.ok (), s') := by
  have hi := h.inv
  obtain ⟨c, pc, h6, _⟩ := hi.cur
  have hes : endTagStep L n s.lastWasStart (.choice c 13 false) s.store = .ok (0, s.store) := by
    rw [h.last]; exact hi.done h6 hn
  refine ⟨_, (ST.bind_of_ok (a := .ok ()) (s' := { s with cur := 0 }) ?_).trans rfl⟩
  refine (ST.bind_of_ok (a := s) rfl).trans ((ST.bind_of_ok (liftS_patt_of (s := s) (by rw [h.cur]; exact h6))).trans ?_)
  refine (ST.bind_of_ok (liftS_of (s := s) hes)).trans ?_
  refine (ST.bind_of_ok (a := s) rfl).trans ?_
  refine (ST.bind_of_ok (a := ()) (s' := s) (by
    show Except.ok ((), { s with lastWasStart := false }) = _
    rw [← h.last])).trans ?_
  refine (ST.bind_of_ok (liftS_patt_of (s := s) (at0 hi.base))).trans ?_
  rfl

/-- the validator after `<r>` -/
def stateR : VState D V := ⟨storeR, 6, false, stackR, predefined⟩

theorem close_more' {n m : Nat} {p : Pat D V} {st st' : Store D V} {r} {stack t} (h : closeElementStart L n stack t p st = .ok (r, st')) (hm : n ≤ m) :
    closeElementStart L m stack t p st = .ok (r, st') := by
  have := FM.stable (x := fun n => closeElementStart L n stack t p) (fun n => fa_closeElementStart L n stack t p) (n := n) (m := m) (s := st)
    (by simp only [h]; nofun) hm
  exact this.trans h

theorem run_open {n : Nat} (hn : 30 ≤ n) : runToks L n opening (state0 : VState D V) = .ok (.ok (), stateR) := by
  refine (ST.bind_of_ok (a := .ok ()) (s' := { state0 with stack := stackR }) rfl).trans ?_
  refine (ST.bind_of_ok (a := .ok ()) (s' := stateR) ?_).trans rfl
  refine (ST.bind_of_ok (a := { state0 with stack := stackR }) rfl).trans ?_
  refine (ST.bind_of_ok (liftS_patt_of (s := { state0 with stack := stackR }) (p := .element (.named [] ['r']) 4) rfl)).trans ?_
  refine (ST.bind_of_ok (liftS_of (s := { state0 with stack := stackR }) (close_more' (closeR L) hn))).trans ?_
  refine (ST.bind_of_ok (a := { stateR with cur := 5 }) rfl).trans ?_
  refine (ST.bind_of_ok (a := ()) (s' := { stateR with cur := 5 }) rfl).trans ?_
  refine (ST.bind_of_ok (liftS_patt_of (s := { stateR with cur := 5 }) (p := .after 4 0) rfl)).trans ?_
  rfl

theorem run_first {n : Nat} (hn : 30 ≤ n) : ∃ s', runToks L n child (stateR : VState D V) = .ok (.ok (), s') ∧ At 0 s' :=
  ⟨_, child_run L (s := stateR) rfl (pc := .after 4 0) rfl (open_more openA hn) (pd := .choice 12 14 false) rfl rfl (close_more closeA hn) (pd' := .choice 12 14 false)
    rfl rfl (end_more endA hn) (pe := .choice 6 13 false) rfl rfl, inv0, rfl, rfl⟩

theorem run_none {n : Nat} (hn : 30 ≤ n) (pre loc : Str) : ∃ s', runToks L n [.elementEnd (.close pre loc)] (stateR : VState D V) = .ok (.ok (), s') := by
  have hes : endTagStep L n false (.after 4 0) (storeR : Store D V) = .ok (0, storeR) := by
    obtain ⟨n, rfl⟩ : ∃ m, n = m + 1 := ⟨n - 1, by omega⟩
    exact (ST.bind_of_ok (patt_of (p := .group 3 3 true) rfl)).trans rfl
  refine ⟨_, (ST.bind_of_ok (a := .ok ()) (s' := { stateR with cur := 0 }) ?_).trans rfl⟩
  refine (ST.bind_of_ok (a := stateR) rfl).trans ((ST.bind_of_ok (liftS_patt_of (s := stateR) (p := .after 4 0) rfl)).trans ?_)
  refine (ST.bind_of_ok (liftS_of (s := stateR) hes)).trans ?_
  refine (ST.bind_of_ok (a := stateR) rfl).trans ?_
  refine (ST.bind_of_ok (a := ()) (s' := stateR) rfl).trans ?_
  refine (ST.bind_of_ok (liftS_patt_of (s := stateR) (p := .empty) rfl)).trans ?_
  rfl

theorem toks_kids : ∀ m, toksL (List.replicate m (.elem [] ['a'] [] true [])) = (List.replicate m child).flatten
  | 0 => rfl
  | m + 1 => by
    rw [List.replicate_succ, List.replicate_succ, List.flatten_cons, toksL, toks_kids m]; rfl

theorem toks_longDoc (m : Nat) : (longDoc m).toks = opening ++ ((List.replicate m child).flatten ++ [.elementEnd (.close [] ['r'])]) := by
  simp only [XDoc.toks, XDoc.root, longDoc, XNode.toks, toks_kids]
  simp [opening]

theorem run_fits {m n : Nat} (hm : m ≤ 32760) (hn : m + 40 ≤ n) : ∃ s', runToks L n (longDoc m).toks (state0 : VState D V) = .ok (.ok (), s') := by
  rw [toks_longDoc, runToks_append, run_open (by omega)]
  show ∃ s', runToks L n (_ ++ _) stateR = _
  rw [runToks_append]
  cases m with
  | zero => exact run_none (by omega) _ _
  | succ m =>
    obtain ⟨s1, h1, h2⟩ := run_first (L := L) (D := D) (V := V) (n := n) (by omega)
    obtain ⟨s2, h3, h4⟩ := h2.steps (L := L) (n := n) (m := m) (by omega) (by omega)
    rw [List.replicate_succ, List.flatten_cons, runToks_append, h1]
    simp only [h3]
    exact h4.close (by omega) _ _

theorem run_full {m n : Nat} (hm : 32761 ≤ m) (hn : 40 + 32761 ≤ n) : runToks L n (longDoc m).toks (state0 : VState D V) = .error .capacity := by
  rw [toks_longDoc, runToks_append, run_open (by omega)]
  show runToks L n (_ ++ _) stateR = _
  obtain ⟨m, rfl⟩ : ∃ i, m = 1 + (32759 + (1 + i)) := ⟨m - 32761, by omega⟩
  obtain ⟨s1, h1, h2⟩ := run_first (L := L) (D := D) (V := V) (n := n) (by omega)
  obtain ⟨s2, h3, h4⟩ := h2.steps (L := L) (n := n) (m := 32759) (by omega) (by omega)
  rw [Nat.zero_add] at h4
  have e1 : ∀ i, (List.replicate (1 + i) child).flatten = child ++ (List.replicate i child).flatten := by
    intro i; rw [Nat.add_comm, List.replicate_succ, List.flatten_cons]
  rw [e1, ← List.replicate_append_replicate, List.flatten_append, e1, List.append_assoc, runToks_append, h1]
  simp only [List.append_assoc]
  rw [runToks_append, h3]
  exact h4.fail (by omega) _

theorem run_never {m n : Nat} (hm : 32761 ≤ m) : ∃ e, runToks L n (longDoc m).toks (state0 : VState D V) = .error e := by
  cases h : runToks L n (longDoc m).toks (state0 : VState D V) with
  | error e => exact ⟨e, rfl⟩
  | ok r =>
    have := FM.stable (x := fun n => runToks L n (longDoc m).toks) (fun n => fa_runToks L n _) (n := n) (m := max n (40 + 32761)) (s := state0)
      (by simp only [h]; nofun) (by omega)
    simp only [h] at this
    rw [run_full hm (by omega)] at this
    cases this

end Verif.Growth
