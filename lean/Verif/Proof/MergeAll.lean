import Verif.Proof.Merge
import Verif.Spec.Merge
/-
Defining one name several times: when it succeeds, and what comes out.
-/
namespace Verif

theorem Compatible.perm {bs bs' : List (AssignMethod × MPattern)} (h : bs.Perm bs') (hc : Compatible bs) :
    Compatible bs' := by
  obtain ⟨h1, h2⟩ := hc
  refine ⟨by rw [← h.countP_eq]; exact h1, fun ⟨⟨b, hb, e⟩, ⟨b', hb', e'⟩⟩ => h2 ⟨⟨b, ?_, e⟩, ⟨b', ?_, e'⟩⟩⟩
  · exact h.mem_iff.mpr hb
  · exact h.mem_iff.mpr hb'

theorem Compatible.left {bs bs' : List (AssignMethod × MPattern)} (h : Compatible (bs ++ bs')) : Compatible bs := by
  obtain ⟨h1, h2⟩ := h
  refine ⟨?_, fun ⟨⟨b, hb, e⟩, ⟨b', hb', e'⟩⟩ => h2 ⟨⟨b, by simp [hb], e⟩, ⟨b', by simp [hb'], e'⟩⟩⟩
  rw [List.countP_append] at h1; omega

theorem Compatible.one (b : AssignMethod × MPattern) : Compatible [b] := by
  refine ⟨by simp only [List.countP_cons, List.countP_nil]; split <;> omega, ?_⟩
  rintro ⟨⟨c, hc, e⟩, ⟨c', hc', e'⟩⟩
  simp at hc hc'; subst hc; subst hc'; rw [e] at e'; cases e'

theorem joinChoice_total (p q : MPattern) : ∃ r, joinChoice p q = .ok r := by
  unfold joinChoice
  split
  · unfold appendChoice
    split
    · split <;> exact ⟨_, rfl⟩
    · rename_i h; exact absurd rfl (h _)
  · exact ⟨_, rfl⟩

theorem joinInterleave_total (p q : MPattern) : ∃ r, joinInterleave p q = .ok r := by
  unfold joinInterleave
  split
  · unfold appendInterleave
    split
    · split <;> exact ⟨_, rfl⟩
    · rename_i h; exact absurd rfl (h _)
  · exact ⟨_, rfl⟩

theorem Merged.compatible {bs r} (h : Merged bs r) : Compatible bs := by
  cases h.kind with
  | plain q hb _ => subst hb; exact .one _
  | choice l hn _ hk =>
    refine ⟨?_, fun ⟨_, b, hb, e⟩ => hn b hb e⟩
    rcases hk with ⟨_, h⟩ | ⟨_, h⟩
    · rw [countP_zero_of (by decide) h]; omega
    · omega
  | inter l hn _ hk =>
    refine ⟨?_, fun ⟨⟨b, hb, e⟩, _⟩ => hn b hb e⟩
    rcases hk with ⟨_, h⟩ | ⟨_, h⟩
    · rw [countP_zero_of (by decide) h]; omega
    · omega

/-- One more definition: merged, or refused because the definitions are not compatible. -/
theorem Merged.step {bs r} (h : Merged bs r) (id : Str) (how : AssignMethod) (q : MPattern) :
    (∃ r', merge1 id r (ruleOf how q) = .ok r') ∨
      (¬ Compatible (bs ++ [(how, q)])) ∧ ∃ e, merge1 id r (ruleOf how q) = .error e ∧ MergeRefusal id e := by
  have bindOk : ∀ {x : Except CFault MPattern} {f : MPattern → DefineRule}, (∃ p, x = .ok p) →
      ∃ r', (x >>= fun p => (pure (f p) : Except CFault DefineRule)) = .ok r' := by
    rintro x f ⟨p, rfl⟩; exact ⟨_, rfl⟩
  cases h.kind with
  | plain p hb hp =>
    subst hb hp
    cases how with
    | assign => exact .inr ⟨fun h => absurd h.1 (by simp), _, rfl, .inl rfl⟩
    | choice => exact .inl (bindOk (joinChoice_total _ _))
    | interleave => exact .inl (bindOk (joinInterleave_total _ _))
  | choice l hn he hk =>
    obtain ⟨b, hb, e⟩ := he
    cases how with
    | assign =>
      rcases hk with ⟨rfl, _⟩ | ⟨rfl, hc⟩
      · exact .inl (bindOk (joinChoice_total _ _))
      · refine .inr ⟨fun h => absurd h.1 ?_, _, rfl, .inl rfl⟩
        rw [List.countP_append, hc]; simp
    | choice =>
      rcases hk with ⟨rfl, _⟩ | ⟨rfl, hc⟩
      · exact .inl (bindOk ⟨_, rfl⟩)
      · exact .inl (bindOk (joinChoice_total _ _))
    | interleave =>
      rcases hk with ⟨rfl, _⟩ | ⟨rfl, hc⟩
      · exact .inr ⟨fun h => h.2 ⟨⟨b, by simp [hb], e⟩, _, List.mem_append_right _ (List.mem_singleton_self _), rfl⟩, _, rfl, .inr rfl⟩
      · exact .inr ⟨fun h => h.2 ⟨⟨b, by simp [hb], e⟩, _, List.mem_append_right _ (List.mem_singleton_self _), rfl⟩, _, rfl, .inr rfl⟩
  | inter l hn he hk =>
    obtain ⟨b, hb, e⟩ := he
    cases how with
    | assign =>
      rcases hk with ⟨rfl, _⟩ | ⟨rfl, hc⟩
      · exact .inl (bindOk (joinInterleave_total _ _))
      · refine .inr ⟨fun h => absurd h.1 ?_, _, rfl, .inl rfl⟩
        rw [List.countP_append, hc]; simp
    | interleave =>
      rcases hk with ⟨rfl, _⟩ | ⟨rfl, hc⟩
      · exact .inl (bindOk ⟨_, rfl⟩)
      · exact .inl (bindOk (joinInterleave_total _ _))
    | choice =>
      rcases hk with ⟨rfl, _⟩ | ⟨rfl, hc⟩
      · exact .inr ⟨fun h => h.2 ⟨⟨_, List.mem_append_right _ (List.mem_singleton_self _), rfl⟩, ⟨b, by simp [hb], e⟩⟩, _, rfl, .inr rfl⟩
      · exact .inr ⟨fun h => h.2 ⟨⟨_, List.mem_append_right _ (List.mem_singleton_self _), rfl⟩, ⟨b, by simp [hb], e⟩⟩, _, rfl, .inr rfl⟩

theorem CState.refs_set {st : CState} {s : Nat} {v} (h : s < st.scopes.length) (cells) :
    CState.refs { st with cells := cells, scopes := st.scopes.set s v } s = v := by
  simp [CState.refs, List.getD_eq_getElem?_getD, h]

theorem CState.addCell_refs {st : CState} {s : Nat} (h : s < st.scopes.length) (id r) :
    (st.addCell s id r).refs s = (id, st.cells.length) :: st.refs s := CState.refs_set h _

theorem CState.addCell_cell {st : CState} {s : Nat} (id r) : (st.addCell s id r).cell st.cells.length = r := by
  simp [CState.addCell, CState.cell, List.getD_eq_getElem?_getD]

theorem defineIn_fresh {st : CState} {s : Nat} {id : Str} (hn : st.Names s) (hr : st.ruleFor s id = none)
    (r : DefineRule) : ∃ st', defineIn s id r st = .ok ((), st') ∧ st'.Names s ∧ st'.ruleFor s id = some r := by
  unfold defineIn
  split
  · rename_i k hk
    have hc : st.cell k = none := by simpa [CState.ruleFor, hk] using hr
    rw [hc]
    refine ⟨_, rfl, ⟨hn.1, fun x k h => ?_⟩, ?_⟩
    · rw [List.length_set]; exact hn.2 x k h
    · show ((st.refs s).lookup id).bind _ = _
      rw [hk]
      simp [CState.cell, List.getD_eq_getElem?_getD, hn.2 _ _ hk]
  · rename_i hk
    refine ⟨_, rfl, ⟨?_, fun x k h => ?_⟩, ?_⟩
    · simpa [CState.addCell] using hn.1
    · rw [CState.addCell_refs hn.1, List.lookup_cons] at h
      simp only [CState.addCell, List.length_append, List.length_singleton]
      split at h
      · cases h; omega
      · have := hn.2 _ _ h; omega
    · rw [CState.ruleFor, CState.addCell_refs hn.1]
      simp [CState.addCell_cell]

theorem defineIn_again {st : CState} {s : Nat} {id : Str} (hn : st.Names s) {r0 : DefineRule}
    (hr : st.ruleFor s id = some r0) (r : DefineRule) :
    (∀ r', merge1 id r0 r = .ok r' →
      ∃ st', defineIn s id r st = .ok ((), st') ∧ st'.Names s ∧ st'.ruleFor s id = some r') ∧
    (∀ e, merge1 id r0 r = .error e → defineIn s id r st = .error e) := by
  unfold CState.ruleFor at hr
  unfold defineIn
  cases hk : (st.refs s).lookup id with
  | none => rw [hk] at hr; cases hr
  | some k =>
    rw [hk] at hr
    have hc : st.cell k = some r0 := hr
    dsimp only
    rw [hc]
    constructor
    · intro r' hm
      have : merge id (some r0) (some r) = .ok (some r') := by
        show (merge1 id r0 r >>= fun r => pure (some r)) = _
        rw [hm]; rfl
      rw [this]
      refine ⟨_, rfl, ⟨hn.1, fun x k h => ?_⟩, ?_⟩
      · rw [List.length_set]; exact hn.2 x k h
      · show ((st.refs s).lookup id).bind _ = _
        rw [hk]
        simp [CState.cell, List.getD_eq_getElem?_getD, hn.2 _ _ hk]
    · intro e hm
      have : merge id (some r0) (some r) = .error e := by
        show (merge1 id r0 r >>= fun r => pure (some r)) = _
        rw [hm]; rfl
      rw [this]

theorem CM.bind_ok_eq {α β : Type} {x : CM α} {f : α → CM β} {s s' : CState} {a : α} (h : x s = .ok (a, s')) :
    (x >>= f) s = f a s' := by
  show CM.bind x f s = _
  unfold CM.bind
  rw [h]

theorem CM.bind_error_eq {α β : Type} {x : CM α} {f : α → CM β} {s : CState} {e : CFault} (h : x s = .error e) :
    (x >>= f) s = .error e := by
  show CM.bind x f s = _
  unfold CM.bind
  rw [h]

theorem defineAll_again {s : Nat} {id : Str} : ∀ {bs bs' : List (AssignMethod × MPattern)} {st : CState} {r : DefineRule},
    st.Names s → st.ruleFor s id = some r → Merged bs r →
    (∃ st' r', defineAll s id bs' st = .ok ((), st') ∧ st'.ruleFor s id = some r' ∧ Merged (bs ++ bs') r') ∨
    (¬ Compatible (bs ++ bs') ∧ ∃ e, defineAll s id bs' st = .error e ∧ MergeRefusal id e)
  | bs, [], st, r, hn, hr, hm => .inl ⟨st, r, rfl, hr, by simpa using hm⟩
  | bs, (how, q) :: bs', st, r, hn, hr, hm => by
    rcases hm.step id how q with ⟨r', h⟩ | ⟨hc, e, h, he⟩
    · obtain ⟨st', h1, h2, h3⟩ := (defineIn_again hn hr _).1 r' h
      have := defineAll_again (bs' := bs') h2 h3 (hm.snoc h)
      rw [List.append_assoc, List.singleton_append] at this
      show (∃ st' r', (defineIn s id (ruleOf how q) >>= fun _ => defineAll s id bs') st = _ ∧ _) ∨ (_ ∧ ∃ e, (defineIn s id (ruleOf how q) >>= fun _ => defineAll s id bs') st = _ ∧ _)
      rw [CM.bind_ok_eq h1]
      exact this
    · refine .inr ⟨fun h => hc (Compatible.left (bs' := bs') (by simpa using h)), e, ?_, he⟩
      show (defineIn s id (ruleOf how q) >>= fun _ => defineAll s id bs') st = _
      exact CM.bind_error_eq ((defineIn_again hn hr _).2 e h)

theorem defineAll_fresh {s : Nat} {id : Str} {bs : List (AssignMethod × MPattern)} {st : CState} (hne : bs ≠ [])
    (hn : st.Names s) (hr : st.ruleFor s id = none) :
    (∃ st' r, defineAll s id bs st = .ok ((), st') ∧ st'.ruleFor s id = some r ∧ Merged bs r) ∨
    (¬ Compatible bs ∧ ∃ e, defineAll s id bs st = .error e ∧ MergeRefusal id e) := by
  cases bs with
  | nil => exact absurd rfl hne
  | cons b bs =>
    obtain ⟨st', h1, h2, h3⟩ := defineIn_fresh hn hr (ruleOf b.1 b.2)
    have := defineAll_again (bs' := bs) h2 h3 (Merged.one (how := b.1) (q := b.2))
    show (∃ st' r', (defineIn s id (ruleOf b.1 b.2) >>= fun _ => defineAll s id bs) st = _ ∧ _) ∨ (_ ∧ ∃ e, (defineIn s id (ruleOf b.1 b.2) >>= fun _ => defineAll s id bs) st = _ ∧ _)
    rw [CM.bind_ok_eq h1]
    exact this

theorem interAll_perm {M} (h : Compo M) {ps qs : List MPattern} (hp : ps.Perm qs) : ∀ {a c}, InterAll M ps a c →
    InterAll M qs a c := by
  induction hp with
  | nil => intro a c h; exact h
  | cons x _ ih =>
    rintro a c ⟨a1, a2, c1, c2, h1, h2, h3, h4⟩
    exact ⟨a1, a2, c1, c2, h1, h2, h3, ih h4⟩
  | swap x y l =>
    intro a c hi
    have : InterAll M (([y] ++ [x]) ++ l) a c := hi
    obtain ⟨a1, a2, c1, c2, h1, h2, h3, h4⟩ := (InterAll.append_iff h).mp this
    exact (InterAll.append_iff h (ps := [x] ++ [y])).mpr ⟨a1, a2, c1, c2, h1, h2, h3.swap h, h4⟩
  | trans _ _ ih1 ih2 => intro a c hi; exact ih2 (ih1 hi)

/-- what the combined rule means -/
theorem Merged.meaning {bs r} (h : Merged bs r) {M} (hM : Compo M) (a : List Attr) (c : List Node) :
    ((∀ b ∈ bs, b.1 ≠ .interleave) → (M r.pattern a c ↔ ∃ b ∈ bs, M b.2 a c)) ∧
    ((∃ b ∈ bs, b.1 = .interleave) → (M r.pattern a c ↔ InterAll M (bs.map (·.2)) a c)) := by
  cases h.kind with
  | plain q hb hp => subst hb; subst hp; exact ⟨fun _ => by simp [DefineRule.pattern], fun ⟨b, hb, e⟩ => by simp at hb; subst hb; cases e⟩
  | choice l hn he hk hl =>
    refine ⟨fun _ => ?_, fun ⟨b, hb, e⟩ => absurd e (hn b hb)⟩
    rw [← hl M hM]
    rcases hk with ⟨rfl, _⟩ | ⟨rfl, _⟩ <;> exact hM.choice
  | inter l hn he hk hl =>
    refine ⟨fun h => ?_, fun _ => ?_⟩
    · obtain ⟨b, hb, e⟩ := he; exact absurd e (h b hb)
    · rw [← hl M hM]
      rcases hk with ⟨rfl, _⟩ | ⟨rfl, _⟩ <;> exact hM.inter

theorem Merged.meaningEx {bs r} (h : Merged bs r) {E} (hE : CompoE E) (s : Str) (v : Bool) :
    E r.pattern s v ↔ (∀ b ∈ bs, b.1 ≠ .interleave) ∧ ExAll E (bs.map (·.2)) s v := by
  cases h.kind with
  | plain q hb hp => subst hb; subst hp; simp [DefineRule.pattern, ExAll.one_iff]
  | choice l hn he hk hl hle =>
    rw [← hle E hE]
    refine ⟨fun h => ⟨hn, ?_⟩, fun ⟨_, h'⟩ => ?_⟩
    · rcases hk with ⟨rfl, _⟩ | ⟨rfl, _⟩ <;> exact hE.choice.mp h
    · rcases hk with ⟨rfl, _⟩ | ⟨rfl, _⟩ <;> exact hE.choice.mpr h'
  | inter l hn he hk hl =>
    refine ⟨fun h => ?_, fun ⟨h, _⟩ => ?_⟩
    · rcases hk with ⟨rfl, _⟩ | ⟨rfl, _⟩ <;> exact absurd h hE.inter
    · obtain ⟨b, hb, e⟩ := he; exact absurd e (h b hb)

end Verif
