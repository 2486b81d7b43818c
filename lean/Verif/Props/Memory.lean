import Verif.Proof.GrowthRun
import Verif.Props.Panics
import Verif.Props.Store
/-
C78: how many patterns the validator keeps.
-/
set_option linter.unusedSectionVars false
namespace Verif
open Verif.Mem
variable {D V : Type} [DecidableEq D] [DecidableEq V] {L : Lib D V}

/-- C78 (1).  What has been read at some place is read at every later place that looks the same with the same verdicts, and
without any new pattern (as long as the table is not full). -/
theorem C78_reading_again_keeps_no_more_patterns {n m : Nat} {es later : List Event} {s s1 s2 : VState D V} {rs rs'}
    (hs : Reach L s) (hf : Framed es) (hr : runEvents L n es s = .ok (rs, s1)) (hl : runEvents L m later s1 = .ok (rs', s2))
    (hp : SamePlace s s2) (hroom : patterns s2 < 65536) :
    ∃ s3, runEvents L n es s2 = .ok (rs, s3) ∧ s3.cur = s1.cur ∧ patterns s3 = patterns s2 ∧ s3.store = s2.store := by
  have h1 := hs.step hr
  have h2 := h1.step hl
  obtain ⟨s3, h3, h4, h5⟩ := Replay.runEvents_again L (b := False) hr ⟨hp.expected, by rw [h2.ci.2.2, hs.ci.2.2], ⟨hp.prefixes, nofun⟩, hp.entities⟩
    (runEvents_evo L hl).1.grown (by unfold patterns at hroom; omega) (Replay.tagged_framed hf)
  exact ⟨s3, h3, h5.cur, by rw [patterns, h4, patterns], h4⟩

theorem runEvents_stack_entities {n : Nat} {es : List Event} {s s1 s2 s3 : VState D V} {rs} (hr : runEvents L n es s = .ok (rs, s1))
    (h : runEvents L n es s2 = .ok (rs, s3)) (hp : Replay.Point False s s2) (hf : Framed es) (hg : Grown s1.store s2.store) (hl : s2.store.pats.length ≤ 0xffff) :
    Replay.Point False s1 s3 := by
  obtain ⟨s3', h3, h4, h5⟩ := Replay.runEvents_again L (b := False) hr hp hg hl (Replay.tagged_framed hf)
  rw [h] at h3; cases h3; exact h5

/-- C78 (2).  If reading some items leads back to a place that looks the same, they can be repeated any number of times: the
verdicts are the same every time, and no pattern is added after the first time. -/
theorem C78_repetitions_keep_no_more_patterns {n : Nat} {es : List Event} {s s1 : VState D V} {rs}
    (hs : Reach L s) (hf : Framed es) (hr : runEvents L n es s = .ok (rs, s1)) (hp : SamePlace s s1) (hroom : patterns s1 < 65536) (k : Nat) :
    ∃ s2, runEvents L n (times (k + 1) es) s = .ok ((List.replicate (k + 1) rs).flatten, s2) ∧ s2.cur = s.cur ∧
      patterns s2 = patterns s1 ∧ SamePlace s s2 := by
  have key : ∀ k, ∃ s2, runEvents L n (times (k + 1) es) s = .ok ((List.replicate (k + 1) rs).flatten, s2) ∧ s2.store = s1.store ∧ SamePlace s s2 := by
    intro k
    induction k with
    | zero => exact ⟨s1, by simpa [times] using hr, rfl, hp⟩
    | succ k ih =>
      obtain ⟨s2, h1, h2, h3⟩ := ih
      have hs2 := hs.step h1
      obtain ⟨s3, h4, h5, h6⟩ := Replay.runEvents_again L (b := False) (s2 := s2) hr
        ⟨h3.expected, by rw [hs2.ci.2.2, hs.ci.2.2], ⟨h3.prefixes, nofun⟩, h3.entities⟩
        (by rw [h2]; exact .refl _) (by rw [h2]; unfold patterns at hroom; omega) (Replay.tagged_framed hf)
      have ha := runEvents_append _ _ h1 h4
      refine ⟨s3, ?_, h5.trans h2, ⟨h6.cur.trans hp.expected, fun pre => (h6.stacks.look pre).trans (hp.prefixes pre), fun nm => (h6.ents nm).trans (hp.entities nm)⟩⟩
      have e : ∀ {α : Type} (l : List α), (List.replicate (k + 1 + 1) l).flatten = (List.replicate (k + 1) l).flatten ++ l := by
        intro α l
        rw [← List.replicate_append_replicate, List.flatten_append]
        simp
      rw [times, e, e]
      exact ha
  obtain ⟨s2, h1, h2, h3⟩ := key k
  exact ⟨s2, h1, h3.expected, by rw [patterns, h2, patterns], h3⟩

/-- C78 (3, negative).  The validator keeps a record of every start tag it has read: nothing is removed when elements end. -/
theorem C78_every_start_tag_is_kept {n : Nat} : ∀ {es : List Event} {s s' : VState D V} {rs}, runEvents L n es s = .ok (rs, s') →
    s'.stack.length = s.stack.length + starts es
  | [], s, s', rs, h => by cases h; rfl
  | none :: es, s, s', rs, h => by
    simp only [runEvents, ST.bind_ok] at h
    obtain ⟨r, s1, h1, rs', s2, h2, h⟩ := h
    cases h; cases h1
    rw [C78_every_start_tag_is_kept h2, starts]
    nofun
  | some t :: es, s, s', rs, h => by
    simp only [runEvents, ST.bind_ok] at h
    obtain ⟨r, s1, h1, rs', s2, h2, h⟩ := h
    cases h
    have ih := C78_every_start_tag_is_kept h2
    have hst := validate_step L h1
    cases t with
    | elementStart a l =>
      simp only [validateEvent, validate, ST.bind_ok] at h1
      obtain ⟨_, _, g1, p, z, g2, _, _, g3, g4⟩ := h1
      cases g1
      obtain ⟨_, rfl⟩ := liftS_patt g2
      cases g3; cases g4
      rw [ih, starts, List.length_cons]; omega
    | «attribute» a l v =>
      simp only [validateEvent, validate, ST.bind_ok] at h1
      obtain ⟨_, _, g1, p, z, g2, g3⟩ := h1
      cases g1
      obtain ⟨_, rfl⟩ := liftS_patt g2
      cases hz : z.stack with
      | nil => simp only [hz] at g3; cases g3
      | cons e es' =>
        simp only [hz, ST.bind_ok] at g3
        obtain ⟨_, _, g3, g4⟩ := g3
        cases g3; cases g4
        rw [ih, starts]
        · rfl
        · nofun
    | _ =>
      rw [ih, hst.stack (by nofun) (by nofun), starts]
      nofun

/-! ### a schema for which long documents are too much -/

namespace Mem

theorem kids_mean (f) (scope : List (Str × Str)) (h : scope.lookup [] = none) : ∀ m, Resolves f scope (List.replicate m (.elem [] ['a'] [] true [])) (List.replicate m (.elem ⟨none, ['a']⟩ [] []))
  | 0 => .nil
  | m + 1 => by
    rw [List.replicate_succ, List.replicate_succ]
    exact .elem (kns := []) (by simp [elemName, nsDecls, h]) .nil .nil (fun _ => rfl) (kids_mean f scope h m)

theorem joinText_elems : ∀ m, joinText (List.replicate m (.elem ⟨none, ['a']⟩ [] [])) = List.replicate m (.elem ⟨none, ['a']⟩ [] [])
  | 0 => rfl
  | m + 1 => by
    rw [List.replicate_succ]
    simp only [joinText, joinText_elems m]

theorem long_means (m : Nat) : (longDoc m).Means (longNode m) := by
  have := kids_mean (longDoc m).entities (nsDecls [] ++ [("xml".toList, xmlUri)]) (by decide) m
  have h := Resolves.elem (ents := (longDoc m).entities) (scope := [("xml".toList, xmlUri)]) (pre := []) (loc := ['r']) (atts := []) (sc := false)
    (nm := ⟨none, ['r']⟩) (as := []) (by decide) .nil this nofun .nil
  rw [joinText_elems] at h
  exact h

theorem long_atts : ∀ m, allAttsL (List.replicate m (.elem [] ['a'] [] true [])) = []
  | 0 => rfl
  | m + 1 => by rw [List.replicate_succ, allAttsL, long_atts m]; rfl

theorem long_inScope {scope read : List (Str × Str)} : ∀ m, inScopeL scope read (List.replicate m (.elem [] ['a'] [] true []))
  | 0 => trivial
  | m + 1 => by
    rw [List.replicate_succ]
    simp only [inScopeL, XNode.inScope, and_true]
    exact ⟨⟨by simp [plainAtts], by simp [nsDecls]⟩, long_inScope m⟩

theorem long_texts : ∀ m, allTextsL (List.replicate m (.elem [] ['a'] [] true [])) = []
  | 0 => rfl
  | m + 1 => by rw [List.replicate_succ, allTextsL, long_texts m]; rfl

theorem long_unsplit : ∀ m, unsplitL false (List.replicate m (.elem [] ['a'] [] true []))
  | 0 => by simp [unsplitL]
  | m + 1 => by rw [List.replicate_succ]; simp only [unsplitL, true_and]; exact long_unsplit m

theorem long_tame (m : Nat) : (longDoc m).Tame := by
  have h1 : allAttsL [(longDoc m).root] = [] := by
    show [] ++ allAttsL (List.replicate m _) ++ [] = _
    rw [long_atts]; rfl
  have h2 : allTextsL [(longDoc m).root] = [] := by
    show allTextsL (List.replicate m _) ++ [] = _
    rw [long_texts]; rfl
  refine ⟨⟨?_, ?_, ?_, ?_, ?_⟩, by show (List.map Prod.fst ([] ++ xmlEntities)).Nodup; decide⟩
  · simp only [XDoc.root, longDoc, inScopeL, XNode.inScope, and_true]
    exact ⟨by decide, by decide, long_inScope m⟩
  · rw [h1]; nofun
  · rw [h1]; nofun
  · rw [h2]; nofun
  · simp only [XDoc.root, longDoc, unsplitL, and_true]; exact long_unsplit m

theorem weak_refl : ∀ c : List Node, Weak c c
  | [] => .nil
  | _ :: c => .keep (weak_refl c)

theorem long_match (m : Nat) : Match L ([] : Env D V) twice [] [longNode m] := by
  have hm : ∀ m, Match L ([] : Env D V) (.zeroOrMore childPat) [] (List.replicate m (.elem ⟨none, ['a']⟩ [] [])) := by
    intro m
    induction m with
    | zero => exact .zeroOrMoreNil
    | succ m ih =>
      rw [List.replicate_succ, ← List.singleton_append]
      exact .zeroOrMoreCons (.element rfl .nil .empty) ih (.refl _)
  refine .element rfl (weak_refl _) ?_
  have := Match.groupCons (L := L) (hm m) (.groupCons (a := []) (hm 0) .groupNil (.refl _)) (.refl _)
  simpa using this

end Mem

/-- C78 (4, negative).  Every document `<r><a/>..<a/></r>` matches the schema `element r { element a { empty }*,
element a { empty }* }`.  Up to 32760 children it is accepted; from 32761 children on the validator panics because of the
limit of patterns (two more are kept for every child). -/
theorem C78_long_documents_exceed_the_limit (m : Nat) :
    (longDoc m).Tame ∧ (longDoc m).Means (longNode m) ∧ Match L ([] : Env D V) twice [] [longNode m] ∧
    ∃ s0, newValidator ([] : Env D V) 30 twice = .ok s0 ∧
      (m ≤ 32760 → ∀ n, m + 40 ≤ n → ∃ s', runToks L n (longDoc m).toks s0 = .ok (.ok (), s')) ∧
      (32761 ≤ m → (∀ n, ∃ e, runToks L n (longDoc m).toks s0 = .error e) ∧
        ∀ n, 40 + 32761 ≤ n → runToks L n (longDoc m).toks s0 = .error .capacity) :=
  ⟨long_tame m, long_means m, long_match m, Growth.state0, Growth.new0, fun hm _ hn => Growth.run_fits hm hn,
    fun hm => ⟨fun _ => Growth.run_never hm, fun _ hn => Growth.run_full hm hn⟩⟩

/-! ### cases -/

namespace Mem

/-- `<p:item k="a"/>` -/
def oneItem : List Event := (Ex.item true []).toks.map some

/-- the beginning `<p:doc id="7" xmlns:p="u"><p:item k="a"/>` of the example document -/
def begun : List Event := (Ex.doc.toks.take 11).map some

/-- the state after it -/
def place : VState Unit Str := match runEvents Ex.lib 50 begun Ex.v0 with | .ok (_, s) => s | .error _ => Ex.v0

/-- the state after one more item -/
def place1 : VState Unit Str := match runEvents Ex.lib 50 oneItem place with | .ok (_, s) => s | .error _ => Ex.v0

/-- did the run succeed with these verdicts -/
def verdicts (x : Except Fault (List (Except VErr Unit) × VState Unit Str)) : Option (List Bool) :=
  match x with
  | .ok (rs, _) => some (rs.map fun r => match r with | .ok () => true | .error _ => false)
  | .error _ => none

theorem verdicts_ok {x : Except Fault (List (Except VErr Unit) × VState Unit Str)} {n : Nat} (h : verdicts x = some (List.replicate n true)) :
    ∃ s, x = .ok (List.replicate n (.ok ()), s) := by
  unfold verdicts at h
  split at h
  · rename_i rs s
    refine ⟨s, ?_⟩
    congr 2
    injection h with h
    induction rs generalizing n with
    | nil => cases n with
      | zero => rfl
      | succ n => simp [List.replicate_succ] at h
    | cons r rs ih =>
      cases n with
      | zero => simp at h
      | succ n =>
        simp only [List.map_cons, List.replicate_succ, List.cons.injEq] at h ⊢
        refine ⟨?_, ih h.2⟩
        cases r with
        | ok u => rfl
        | error e => simp at h
  · cases h

theorem place_ok : runEvents Ex.lib 50 begun Ex.v0 = .ok (List.replicate 11 (.ok ()), place) := by
  obtain ⟨s, h⟩ := verdicts_ok (n := 11) (x := runEvents Ex.lib 50 begun Ex.v0) (by decide +kernel)
  have : place = s := by unfold place; rw [h]
  rw [this, h]

theorem place1_ok : runEvents Ex.lib 50 oneItem place = .ok (List.replicate 3 (.ok ()), place1) := by
  obtain ⟨s, h⟩ := verdicts_ok (n := 3) (x := runEvents Ex.lib 50 oneItem place) (by decide +kernel)
  have : place1 = s := by unfold place1; rw [h]
  rw [this, h]

theorem lookup_plain (st : ElementStack) (pre : Str) : lookupNs (⟨['p'], ['i', 't', 'e', 'm'], [], [⟨[], ['k'], ['a']⟩]⟩ :: st) pre = lookupNs st pre := rfl

theorem same : SamePlace place place1 where
  expected := by decide +kernel
  prefixes := by
    have h : place1.stack = ⟨['p'], ['i', 't', 'e', 'm'], [], [⟨[], ['k'], ['a']⟩]⟩ :: place.stack := by decide +kernel
    intro pre
    rw [h]; exact lookup_plain _ _
  entities := by
    have h : place1.entities = place.entities := by decide +kernel
    intro nm; rw [h]

theorem framed_item : Framed oneItem := framed_of (ts := []) nofun ['p'] ['i', 't', 'e', 'm'] _

theorem reach_place : Reach Ex.lib place := (Reach.new Ex.new_ok).step place_ok

/-- any number of items: 22 patterns are enough -/
example (k : Nat) : ∃ s, runEvents Ex.lib 50 (times (k + 1) oneItem) place = .ok ((List.replicate (k + 1) (List.replicate 3 (.ok ()))).flatten, s) ∧
    patterns s = 22 := by
  obtain ⟨s, h1, _, h2, _⟩ := C78_repetitions_keep_no_more_patterns reach_place framed_item place1_ok same (by decide +kernel) k
  exact ⟨s, h1, h2.trans (by decide +kernel)⟩

/-- and reading an item again after having read one, in a later place -/
example : ∃ s3, runEvents Ex.lib 50 oneItem place1 = .ok (List.replicate 3 (.ok ()), s3) ∧ patterns s3 = patterns place1 := by
  obtain ⟨s3, h1, _, h2, _⟩ := C78_reading_again_keeps_no_more_patterns reach_place framed_item place1_ok (m := 0) (later := []) (rs' := []) (s2 := place1) rfl same (by decide +kernel)
  exact ⟨s3, h1, h2⟩

/-- the start tags read so far are still there -/
example : place1.stack.length = place.stack.length + 1 := by
  have h := C78_every_start_tag_is_kept place1_ok
  have e : starts oneItem = 1 := rfl
  rw [e] at h
  exact h

/-- valid documents that make the validator panic -/
example (m : Nat) (hm : 40000 ≤ m) : Match Ex.lib [] twice [] [longNode m] ∧ ∃ s0, newValidator [] 30 twice = .ok s0 ∧
    runToks Ex.lib 100000 (longDoc m).toks s0 = .error .capacity := by
  obtain ⟨_, _, h1, s0, h2, _, h3⟩ := C78_long_documents_exceed_the_limit (L := Ex.lib) m
  exact ⟨h1, s0, h2, (h3 (by omega)).2 100000 (by omega)⟩

end Mem
end Verif
