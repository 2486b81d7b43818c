import Verif.Proof.CompileOk
/-
The result of `compile` represents its argument (`Rep`), and all references are resolved.
-/
set_option linter.unusedSectionVars false
namespace Verif
variable {D V : Type}

/-- definition `n` exists and expands to something that is not just references, after finitely many
steps -/
inductive Guarded (env : Env D V) : Nat → Prop
  | mk {n q} : env[n]? = some q → (∀ m ∈ crefs q, Guarded env m) → Guarded env n

theorem Guarded.irrefl {env : Env D V} {n} (h : Guarded env n) : ∀ {q}, env[n]? = some q →
    n ∉ crefs q := by
  induction h with
  | @mk n q h1 _ ih =>
    intro q' hq' hn
    rw [h1] at hq'; cases hq'
    exact ih n hn h1 hn

mutual
theorem crefs_refs : ∀ (p : Pattern D V), ∀ n ∈ crefs p, n ∈ p.refs
  | .choice ps, n, h => by simp only [crefs, Pattern.refs] at *; exact crefsL_refsL ps n h
  | .interleave ps, n, h => by simp only [crefs, Pattern.refs] at *; exact crefsL_refsL ps n h
  | .group ps, n, h => by simp only [crefs, Pattern.refs] at *; exact crefsL_refsL ps n h
  | .mixed p, n, h => by simp only [crefs, Pattern.refs] at *; exact crefs_refs p n h
  | .optional p, n, h => by simp only [crefs, Pattern.refs] at *; exact crefs_refs p n h
  | .ref m, n, h => by simpa [crefs, Pattern.refs] using h
  | .empty, n, h => by simp [crefs] at h
  | .text, n, h => by simp [crefs] at h
  | .notAllowed, n, h => by simp [crefs] at h
  | .zeroOrMore _, n, h => by simp [crefs] at h
  | .oneOrMore _, n, h => by simp [crefs] at h
  | .attr _ _, n, h => by simp [crefs] at h
  | .element _ _, n, h => by simp [crefs] at h
  | .datatypeValue _, n, h => by simp [crefs] at h
  | .datatypeName _, n, h => by simp [crefs] at h
  | .datatypeNameExcept _ _, n, h => by simp [crefs] at h
  | .list _, n, h => by simp [crefs] at h
theorem crefsL_refsL : ∀ (ps : List (Pattern D V)), ∀ n ∈ crefsL ps, n ∈ refsL ps
  | [], n, h => by simp [crefsL] at h
  | p :: ps, n, h => by
    simp only [crefsL, refsL, List.mem_append] at *
    exact h.imp (crefs_refs p n) (crefsL_refsL ps n)
end

theorem refsL_mem {n : Nat} : ∀ {ps : List (Pattern D V)} {p}, p ∈ ps → n ∈ p.refs → n ∈ refsL ps
  | [], _, h, _ => by cases h
  | q :: ps, p, h, hn => by
    simp only [refsL, List.mem_append]
    rcases List.mem_cons.mp h with rfl | h
    · exact Or.inl hn
    · exact Or.inr (refsL_mem h hn)

theorem crefsL_mem {n : Nat} : ∀ {ps : List (Pattern D V)} {p}, p ∈ ps → n ∈ crefs p → n ∈ crefsL ps
  | [], _, h, _ => by cases h
  | q :: ps, p, h, hn => by
    simp only [crefsL, List.mem_append]
    rcases List.mem_cons.mp h with rfl | h
    · exact Or.inl hn
    · exact Or.inr (crefsL_mem h hn)

theorem Uses.sub {env : Env D V} {p q : Pattern D V} {n} (h : Uses env p n)
    (hs : ∀ m ∈ p.refs, m ∈ q.refs) : Uses env q n := by
  cases h with
  | here h => exact .here (hs _ h)
  | there h1 h2 h3 => exact .there (hs _ h1) h2 h3

variable [DecidableEq D] [DecidableEq V] {env : Env D V} {stk : List Nat}

/-- the definitions being compiled reach everything `p` reaches -/
def Below (env : Env D V) (stk : List Nat) (p : Pattern D V) : Prop :=
  ∀ m ∈ stk, ∃ q, env[m]? = some q ∧ ∀ k, Uses env p k → Uses env q k

theorem Below.sub {p q : Pattern D V} (h : Below env stk p) (hs : ∀ m ∈ q.refs, m ∈ p.refs) :
    Below env stk q := by
  intro m hm
  obtain ⟨t, ht, hu⟩ := h m hm
  exact ⟨t, ht, fun k hk => hu k (hk.sub hs)⟩

theorem Below.rec {p : Pattern D V} (h : Below env stk p) : RecOK env stk p := by
  intro n hn hs
  obtain ⟨q, hq, hu⟩ := h n hs
  exact ⟨q, hq, hu n (.here (crefs_refs p n hn))⟩

/-- every definition reachable from `p` is guarded -/
def AllGuarded (env : Env D V) (p : Pattern D V) : Prop := ∀ n, Uses env p n → Guarded env n

theorem AllGuarded.sub {p q : Pattern D V} (h : AllGuarded env p) (hs : ∀ m ∈ q.refs, m ∈ p.refs) :
    AllGuarded env q := fun n hn => h n (hn.sub hs)

/-- postcondition of `compile p` -/
def Comp (env : Env D V) (p : Pattern D V) (w : World D V) (i : Nat) : Prop :=
  Rep env w p i ∧ Slot p i w

theorem okc_vecChoice {c : Pattern D V → SM D V Nat} : ∀ (ps : List (Pattern D V)),
    (∀ p ∈ ps, ∀ Pre, OkC env stk Pre (c p) (Comp env p)) → (∀ p ∈ ps, RecOK env stk p) →
    ∀ Pre, OkC env stk Pre (compileVec c choice ps) (Comp env (.choice ps))
  | [], _, _, Pre => OkC.fault
  | [p], hc, _, Pre => by
    refine (hc p (by simp) Pre).mono (fun _ h => h) fun w i _ h => ?_
    exact ⟨.choiceOne h.1, h.2.sub fun n hn => by simpa [crefs, crefsL] using hn⟩
  | p :: q :: ps, hc, hr, Pre => by
    have ih := okc_vecChoice (q :: ps) (fun p hp => hc p (by simp_all)) (fun p hp => hr p (by simp_all)) Pre
    have hrt : RecOK env stk (.choice (q :: ps)) := fun n hn hs => by
      obtain ⟨p', hp', hn'⟩ := mem_crefsL hn
      exact hr p' (by simp_all) n hn' hs
    simp only [compileVec]
    refine ih.bind fun r => (hc p (by simp) _).bind fun l => ?_
    refine (okc_choice (p := p) (q := .choice (q :: ps)) (hr p (by simp)) hrt
      (fun w h => h.2.2) (fun w h => h.1.2.2)).mono (fun _ h => h) fun w i hp h => ?_
    refine ⟨.choiceCons hp.2.1 hp.1.2.1 h.1, h.2.1, fun n hn => ?_⟩
    simpa [crefs, crefsL] using h.2.2 n hn

theorem okc_vecInter {c : Pattern D V → SM D V Nat} : ∀ (ps : List (Pattern D V)),
    (∀ p ∈ ps, ∀ Pre, OkC env stk Pre (c p) (Comp env p)) → (∀ p ∈ ps, RecOK env stk p) →
    ∀ Pre, OkC env stk Pre (compileVec c interleave ps) (Comp env (.interleave ps))
  | [], _, _, Pre => OkC.fault
  | [p], hc, _, Pre => by
    refine (hc p (by simp) Pre).mono (fun _ h => h) fun w i _ h => ?_
    exact ⟨.interleaveOne h.1, h.2.sub fun n hn => by simpa [crefs, crefsL] using hn⟩
  | p :: q :: ps, hc, hr, Pre => by
    have ih := okc_vecInter (q :: ps) (fun p hp => hc p (by simp_all)) (fun p hp => hr p (by simp_all)) Pre
    have hrt : RecOK env stk (.interleave (q :: ps)) := fun n hn hs => by
      obtain ⟨p', hp', hn'⟩ := mem_crefsL hn
      exact hr p' (by simp_all) n hn' hs
    simp only [compileVec]
    refine ih.bind fun r => (hc p (by simp) _).bind fun l => ?_
    refine (okc_interleave (p := p) (q := .interleave (q :: ps)) (hr p (by simp)) hrt
      (fun w h => h.2.2) (fun w h => h.1.2.2)).mono (fun _ h => h) fun w i hp h => ?_
    refine ⟨.interleaveCons hp.2.1 hp.1.2.1 h.1, h.2.1, fun n hn => ?_⟩
    simpa [crefs, crefsL] using h.2.2 n hn

theorem okc_vecGroup {c : Pattern D V → SM D V Nat} : ∀ (ps : List (Pattern D V)),
    (∀ p ∈ ps, ∀ Pre, OkC env stk Pre (c p) (Comp env p)) → (∀ p ∈ ps, RecOK env stk p) →
    ∀ Pre, OkC env stk Pre (compileVec c group ps) (Comp env (.group ps))
  | [], _, _, Pre => OkC.fault
  | [p], hc, _, Pre => by
    refine (hc p (by simp) Pre).mono (fun _ h => h) fun w i _ h => ?_
    exact ⟨.groupOne h.1, h.2.sub fun n hn => by simpa [crefs, crefsL] using hn⟩
  | p :: q :: ps, hc, hr, Pre => by
    have ih := okc_vecGroup (q :: ps) (fun p hp => hc p (by simp_all)) (fun p hp => hr p (by simp_all)) Pre
    have hrt : RecOK env stk (.group (q :: ps)) := fun n hn hs => by
      obtain ⟨p', hp', hn'⟩ := mem_crefsL hn
      exact hr p' (by simp_all) n hn' hs
    simp only [compileVec]
    refine ih.bind fun r => (hc p (by simp) _).bind fun l => ?_
    refine (okc_group (p := p) (q := .group (q :: ps)) (hr p (by simp)) hrt
      (fun w h => h.2.2) (fun w h => h.1.2.2)).mono (fun _ h => h) fun w i hp h => ?_
    refine ⟨.groupCons hp.2.1 hp.1.2.1 h.1, h.2.1, fun n hn => ?_⟩
    simpa [crefs, crefsL] using h.2.2 n hn

theorem comp_of_lk {p : Pattern D V} {w i P} (hr : Rep env w p i) (h : w.lk i = some P)
    (hp : P.isPlaceholder = false) : Comp env p w i := ⟨hr, slot_of_lk h hp⟩

theorem lookup_cons_ne {n m i : Nat} {l : List (Nat × Nat)} (h : n ≠ m) :
    ((m, i) :: l).lookup n = l.lookup n := by
  have : (n == m) = false := by simpa using h
  simp [List.lookup, this]

/-- entering a definition -/
theorem refPlaceholder_inv {r : Nat} {st st1 : Store D V} {ph : Nat} (hi : Inv env stk st)
    (hn : st.refs.lookup r = none) (h : refPlaceholder r st = .ok (ph, st1)) :
    Inv env (r :: stk) st1 ∧ LeC st.world st1.world ∧ st1.refs.lookup r = some ph ∧
      st1.lk ph = some (.placeholder r) ∧ r ∉ stk := by
  have hr : r ∉ stk := fun hm => by
    obtain ⟨i, h1, _⟩ := hi.stack r hm
    rw [hn] at h1; cases h1
  obtain ⟨id, s1, h1, h2⟩ := ST.bind_ok.mp h
  unfold push at h1
  split at h1
  · cases h1
  · split at h1
    · rename_i i hm
      exact absurd hn (hi.memoPh r i hm)
    · simp at h1 h2
      obtain ⟨rfl, rfl⟩ := h1
      obtain ⟨rfl, rfl⟩ := h2
      have hne : ∀ n i, st.refs.lookup n = some i → n ≠ r := fun n i h he => by
        rw [he, hn] at h; cases h
      have hle : LeC st.world (Store.world (⟨st.pats ++ [.placeholder r],
          (.placeholder r, st.pats.length) :: st.memo, (r, st.pats.length) :: st.refs⟩ : Store D V)) := by
        refine ⟨fun j Q h _ => le_push st _ j Q h,
          fun j n h => ⟨_, le_push st _ j _ h, fun m hm => by cases hm; rfl⟩, fun n j h => ?_⟩
        simp only [Store.world] at *
        rw [lookup_cons_ne (hne n j h)]; exact h
      refine ⟨⟨?_, ?_, ?_, ?_, ?_⟩, hle, by simp, by simp [Store.lk], hr⟩
      · intro q j hq hph
        simp only [List.lookup_cons] at hq
        split at hq
        · rename_i heq
          have : q = .placeholder r := by simpa using heq
          subst this; simp [Pat.isPlaceholder] at hph
        · exact le_push st _ j q (hi.memo q j hq hph)
      · intro n j hj
        by_cases he : n = r
        · subst he; simp
        · simp only [List.lookup_cons] at hj
          split at hj
          · rename_i heq
            have : (Pat.placeholder n : Pat D V) = .placeholder r := by simpa using heq
            cases this; exact absurd rfl he
          · rw [lookup_cons_ne he]; exact hi.memoPh n j hj
      · intro j n hj
        simp only [Store.lk] at hj
        rw [List.getElem?_append] at hj
        split at hj
        · obtain ⟨g1, g2⟩ := hi.slot j n hj
          refine ⟨by simp [g1], ?_⟩
          rw [lookup_cons_ne (hne n j g2)]; exact g2
        · rw [List.getElem?_singleton] at hj
          split at hj
          · cases hj
            rename_i h1 h2
            have : j = st.pats.length := by omega
            subst this
            simp
          · cases hj
      · intro n j hj
        by_cases he : n = r
        · left; simp [he]
        · rw [lookup_cons_ne he] at hj
          rcases hi.ref n j hj with h | h
          · left; simp [h]
          · exact Or.inr fun w hw => h w (hle.trans hw)
      · intro n hmem
        rcases List.mem_cons.mp hmem with rfl | hmem
        · exact ⟨st.pats.length, by simp, by simp [Store.lk]⟩
        · obtain ⟨i, g1, g2⟩ := hi.stack n hmem
          exact ⟨i, by rw [lookup_cons_ne (hne n i g1)]; exact g1, le_push st _ i _ g2⟩

/-- leaving a definition -/
theorem resolveRef_inv {r ph id : Nat} {st st' : Store D V} {thing : Pattern D V}
    (hi : Inv env (r :: stk) st) (hr : r ∉ stk) (he : env[r]? = some thing)
    (hph : st.refs.lookup r = some ph) (hne : ph ≠ id)
    (hrep : ∀ w, LeC st.world w → Rep env w thing id)
    (h : resolveRef ph id st = .ok ((), st')) :
    Inv env stk st' ∧ LeC st.world st'.world ∧ st'.refs.lookup r = some ph ∧
      ∃ P, st'.lk ph = some P ∧ P.isPlaceholder = false := by
  obtain ⟨ph', e1, e2⟩ := hi.stack r (by simp)
  rw [hph] at e1; cases e1
  simp only [resolveRef, hne, if_false, ST.bind_ok] at h
  obtain ⟨target, s1, h1, h⟩ := h
  obtain ⟨h1, rfl⟩ := patt_run h1
  split at h
  · simp at h
  · rename_i htp
    simp only [Bool.not_eq_true] at htp
    simp only [ST.bind_ok] at h
    obtain ⟨slot, s2, h2, h⟩ := h
    obtain ⟨h2, rfl⟩ := patt_run h2
    rw [e2] at h2; cases h2
    simp [Pat.isPlaceholder] at h
    subst h
    have hlen : ph < s2.pats.length := (List.getElem?_eq_some_iff.mp e2).1
    have hset : ∀ i, i ≠ ph → (s2.pats.set ph target)[i]? = s2.pats[i]? := fun i hi => by
      rw [List.getElem?_set_ne (Ne.symm hi)]
    have hat : (s2.pats.set ph target)[ph]? = some target := by
      rw [List.getElem?_set_self hlen]
    have hle : LeC s2.world (Store.world (⟨s2.pats.set ph target, s2.memo, s2.refs⟩ : Store D V)) := by
      refine ⟨fun j Q h hq => ?_, fun j n h => ?_, fun n j h => h⟩
      · by_cases hj : j = ph
        · subst hj
          simp only [Store.world] at h
          rw [e2] at h; cases h; simp [Pat.isPlaceholder] at hq
        · simp only [Store.world, Store.lk] at *
          rw [hset j hj]; exact h
      · by_cases hj : j = ph
        · subst hj
          exact ⟨target, hat, fun m hm => by subst hm; simp [Pat.isPlaceholder] at htp⟩
        · refine ⟨_, (by simp only [Store.world, Store.lk] at *; rw [hset j hj]; exact h),
            fun m hm => by cases hm; rfl⟩
    refine ⟨⟨?_, ?_, ?_, ?_, ?_⟩, hle, hph, target, hat, htp⟩
    · intro q j hq hqp
      have := hi.memo q j hq hqp
      have hj : j ≠ ph := fun hj => by
        subst hj
        simp only [Store.lk] at e2
        rw [e2] at this; cases this; simp [Pat.isPlaceholder] at hqp
      rw [hset j hj]; exact this
    · exact hi.memoPh
    · intro j n hj
      by_cases hjp : j = ph
      · subst hjp
        simp only [Store.lk] at hj
        rw [hat] at hj; cases hj; simp [Pat.isPlaceholder] at htp
      · simp only [Store.lk] at hj
        rw [hset j hjp] at hj
        obtain ⟨g1, g2⟩ := hi.slot j n hj
        refine ⟨?_, g2⟩
        rcases List.mem_cons.mp g1 with rfl | g1
        · rw [hph] at g2; cases g2; exact absurd rfl hjp
        · exact g1
    · intro n j hj
      by_cases hnr : n = r
      · subst hnr
        right
        intro w hw
        have hj' : j = ph := by rw [hph] at hj; cases hj; rfl
        subst hj'
        exact ⟨thing, id, target, he, hrep w (hle.trans hw), hw.keep _ _ (hle.keep _ _ h1 htp) htp,
          hw.keep _ _ hat htp, htp⟩
      · rcases hi.ref n j hj with h | h
        · left
          rcases List.mem_cons.mp h with h | h
          · exact absurd h hnr
          · exact h
        · exact Or.inr fun w hw => h w (hle.trans hw)
    · intro n hn
      obtain ⟨i, g1, g2⟩ := hi.stack n (by simp [hn])
      have hip : i ≠ ph := fun hip => by
        subst hip
        rw [e2] at g2; cases g2; exact hr hn
      exact ⟨i, g1, by simp only [Store.lk] at *; rw [hset i hip]; exact g2⟩

theorem compile_ok : ∀ (fuel : Nat) (p : Pattern D V) (stk : List Nat), Below env stk p →
    AllGuarded env p → ∀ Pre, OkC env stk Pre (compile env fuel p) (Comp env p)
  | 0, _, _, _, _, _ => OkC.fault
  | fuel + 1, p, stk, hb, hg, Pre => by
    cases p with
    | choice ps =>
      have hs : ∀ p ∈ ps, ∀ m ∈ p.refs, m ∈ (Pattern.choice ps).refs := fun p hp m hm => by
        simp only [Pattern.refs]; exact refsL_mem hp hm
      exact okc_vecChoice ps (fun p hp => compile_ok fuel p stk (hb.sub (hs p hp)) (hg.sub (hs p hp)))
        (fun p hp => (hb.sub (hs p hp)).rec) Pre
    | interleave ps =>
      have hs : ∀ p ∈ ps, ∀ m ∈ p.refs, m ∈ (Pattern.interleave ps).refs := fun p hp m hm => by
        simp only [Pattern.refs]; exact refsL_mem hp hm
      exact okc_vecInter ps (fun p hp => compile_ok fuel p stk (hb.sub (hs p hp)) (hg.sub (hs p hp)))
        (fun p hp => (hb.sub (hs p hp)).rec) Pre
    | group ps =>
      have hs : ∀ p ∈ ps, ∀ m ∈ p.refs, m ∈ (Pattern.group ps).refs := fun p hp m hm => by
        simp only [Pattern.refs]; exact refsL_mem hp hm
      exact okc_vecGroup ps (fun p hp => compile_ok fuel p stk (hb.sub (hs p hp)) (hg.sub (hs p hp)))
        (fun p hp => (hb.sub (hs p hp)).rec) Pre
    | mixed p =>
      have hs : ∀ m ∈ p.refs, m ∈ (Pattern.mixed p).refs := fun m hm => hm
      simp only [compile, mixed]
      refine (compile_ok fuel p stk (hb.sub hs) (hg.sub hs) _).bind fun i =>
        (okc_push .text rfl).bind fun t => ?_
      refine (okc_interleave (p := p) (q := .text) (hb.sub hs).rec (fun n hn => by simp [crefs] at hn)
        (fun w h => h.1.2.2) (fun w h => slot_of_lk h.2 rfl)).mono (fun _ h => h) fun w j hp h => ?_
      exact ⟨.mixed hp.1.2.1 hp.2 h.1, h.2.1, fun n hn => by simpa [crefs] using h.2.2 n hn⟩
    | empty => exact (okc_push .empty rfl).mono (fun _ h => h) fun w i _ h => comp_of_lk (.empty h) h rfl
    | text => exact (okc_push .text rfl).mono (fun _ h => h) fun w i _ h => comp_of_lk (.text h) h rfl
    | notAllowed =>
      exact (okc_push .notAllowed rfl).mono (fun _ h => h) fun w i _ h => comp_of_lk (.notAllowed h) h rfl
    | optional p =>
      have hs : ∀ m ∈ p.refs, m ∈ (Pattern.optional p).refs := fun m hm => hm
      simp only [compile]
      refine (compile_ok fuel p stk (hb.sub hs) (hg.sub hs) _).bind fun i =>
        (okc_push .empty rfl).bind fun t => ?_
      refine (okc_choice (p := p) (q := .empty) (hb.sub hs).rec (fun n hn => by simp [crefs] at hn)
        (fun w h => h.1.2.2) (fun w h => slot_of_lk h.2 rfl)).mono (fun _ h => h) fun w j hp h => ?_
      exact ⟨.optional hp.1.2.1 hp.2 h.1, h.2.1, fun n hn => by simpa [crefs] using h.2.2 n hn⟩
    | zeroOrMore p =>
      have hs : ∀ m ∈ p.refs, m ∈ (Pattern.zeroOrMore p).refs := fun m hm => hm
      simp only [compile]
      refine (compile_ok fuel p stk (hb.sub hs) (hg.sub hs) _).bind fun i => ?_
      refine (okc_oneOrMore (p := p) (hb.sub hs).rec (fun w h => h.2.2)).bind fun o =>
        (okc_push .empty rfl).bind fun e => ?_
      refine (okc_choice (p := .oneOrMore p) (q := .empty) (fun n hn => by simp [crefs] at hn)
        (fun n hn => by simp [crefs] at hn) (fun w h => ?_)
        (fun w h => slot_of_lk h.2 rfl)).mono (fun _ h => h) fun w j hp h => ?_
      · obtain ⟨_, _, h⟩ := h.1.2
        exact slot_of_lk h rfl
      · exact ⟨.zeroOrMore hp.1.1.2.1 hp.1.2 hp.2 h.1, h.2.1, fun n hn => by
          simpa [crefs] using h.2.2 n hn⟩
    | oneOrMore p =>
      have hs : ∀ m ∈ p.refs, m ∈ (Pattern.oneOrMore p).refs := fun m hm => hm
      simp only [compile]
      refine (compile_ok fuel p stk (hb.sub hs) (hg.sub hs) _).bind fun i => ?_
      refine (okc_oneOrMore (p := p) (hb.sub hs).rec (fun w h => h.2.2)).mono (fun _ h => h)
        fun w j hp h => ?_
      obtain ⟨_, h0, h'⟩ := h
      exact comp_of_lk (.oneOrMore hp.2.1 ⟨_, h0, h'⟩) h' rfl
    | attr nc p =>
      have hs : ∀ m ∈ p.refs, m ∈ (Pattern.attr nc p).refs := fun m hm => hm
      simp only [compile]
      refine (compile_ok fuel p stk (hb.sub hs) (hg.sub hs) _).bind fun i => ?_
      exact (okc_push (.attr nc i) rfl).mono (fun _ h => h) fun w j hp h =>
        comp_of_lk (.attr hp.2.1 h) h rfl
    | element nc p =>
      have hs : ∀ m ∈ p.refs, m ∈ (Pattern.element nc p).refs := fun m hm => hm
      simp only [compile]
      refine (compile_ok fuel p stk (hb.sub hs) (hg.sub hs) _).bind fun i => ?_
      exact (okc_push (.element nc i) rfl).mono (fun _ h => h) fun w j hp h =>
        comp_of_lk (.element hp.2.1 h) h rfl
    | datatypeValue v =>
      exact (okc_push (.datatypeValue v) rfl).mono (fun _ h => h) fun w i _ h => comp_of_lk (.value h) h rfl
    | datatypeName d =>
      exact (okc_push (.datatype d) rfl).mono (fun _ h => h) fun w i _ h => comp_of_lk (.data h) h rfl
    | datatypeNameExcept d e =>
      have hs : ∀ m ∈ e.refs, m ∈ (Pattern.datatypeNameExcept d e).refs := fun m hm => hm
      simp only [compile]
      refine (compile_ok fuel e stk (hb.sub hs) (hg.sub hs) _).bind fun i => ?_
      exact (okc_push (.datatypeExcept d i) rfl).mono (fun _ h => h) fun w j hp h =>
        comp_of_lk (.dataExcept hp.2.1 h) h rfl
    | list p =>
      have hs : ∀ m ∈ p.refs, m ∈ (Pattern.list p).refs := fun m hm => hm
      simp only [compile]
      refine (compile_ok fuel p stk (hb.sub hs) (hg.sub hs) _).bind fun i => ?_
      exact (okc_push (.list i) rfl).mono (fun _ h => h) fun w j hp h =>
        comp_of_lk (.list hp.2.1 h) h rfl
    | ref r =>
      intro st i st' hi hpre hrun
      simp only [compile, ST.bind_ok, getRef] at hrun
      obtain ⟨o, s1, h1, hrun⟩ := hrun
      simp at h1
      obtain ⟨rfl, rfl⟩ := h1
      cases hl : st.refs.lookup r with
      | some id =>
        rw [hl] at hrun
        simp at hrun
        obtain ⟨rfl, rfl⟩ := hrun
        have hslot : Slot (.ref r) id st.world := by
          rcases hi.ref r id hl with h | h
          · obtain ⟨i', g1, g2⟩ := hi.stack r h
            rw [hl] at g1; cases g1
            refine ⟨⟨_, g2⟩, fun n hn => ?_⟩
            simp only [Store.world] at hn
            rw [g2] at hn; cases hn; simp [crefs]
          · obtain ⟨_, _, P, _, _, _, g, hp⟩ := h _ (LeC.refl _)
            exact slot_of_lk g hp
        exact ⟨hi, LeC.refl _, fun w hw => ⟨.ref (hw.refs _ _ hl), hw.defd hslot.1,
          fun n hn => hslot.2 n (hw.back hslot.1 hn)⟩⟩
      | none =>
        rw [hl] at hrun
        simp only [ST.bind_ok] at hrun
        obtain ⟨ph, s1, h1, hrun⟩ := hrun
        obtain ⟨i1, l1, r1, p1, hnot⟩ := refPlaceholder_inv hi hl h1
        cases he : env[r]? with
        | none => rw [he] at hrun; simp at hrun
        | some thing =>
          rw [he] at hrun
          simp only [ST.bind_ok] at hrun
          obtain ⟨id, s2, h2, ⟨⟩, s3, h3, h4⟩ := hrun
          simp at h4
          obtain ⟨rfl, rfl⟩ := h4
          have hsub : ∀ k, Uses env thing k → Uses env (.ref r) k := fun k hk =>
            .there (by simp [Pattern.refs]) he hk
          have hb' : Below env (r :: stk) thing := by
            intro m hm
            rcases List.mem_cons.mp hm with rfl | hm
            · exact ⟨thing, he, fun _ h => h⟩
            · obtain ⟨q, hq, hu⟩ := hb m hm
              exact ⟨q, hq, fun k hk => hu k (hsub k hk)⟩
          obtain ⟨i2, l2, c2⟩ := compile_ok fuel thing (r :: stk) hb' (fun n hn => hg n (hsub n hn))
            (fun _ => True) _ _ _ i1 (fun _ _ => trivial) h2
          have r2 := l2.refs _ _ r1
          have hne : ph ≠ id := by
            rintro rfl
            obtain ⟨i', g1, g2⟩ := i2.stack r (by simp)
            simp only [Store.world] at r2
            rw [r2] at g1; cases g1
            exact (hg r (.here (by simp [Pattern.refs]))).irrefl he ((c2 _ (LeC.refl _)).2.2 r g2)
          obtain ⟨i3, l3, r3, P, hP, hPp⟩ := resolveRef_inv i2 hnot he r2 hne (fun w hw => (c2 w hw).1) h3
          refine ⟨i3, (l1.trans l2).trans l3, fun w hw => comp_of_lk (.ref (hw.refs _ _ r3))
            (hw.keep _ _ hP hPp) hPp⟩

/-- a whole compilation, from the empty store -/
theorem compile_rep {fuel : Nat} {p : Pattern D V} {i : Nat} {st : Store D V} (hg : AllGuarded env p)
    (h : compile env fuel p Store.init = .ok (i, st)) :
    Rep env st.world p i ∧ AllRef env st.world ∧ MemoOK st := by
  have hi : Inv env [] (Store.init : Store D V) := by
    refine ⟨?_, ?_, ?_, ?_, ?_⟩ <;> simp [Store.init, MemoOK, Store.lk]
  obtain ⟨h1, _, h3⟩ := compile_ok fuel p [] (fun m hm => by cases hm) hg (fun _ => True) _ _ _ hi
    (fun _ _ => trivial) h
  refine ⟨(h3 _ (LeC.refl _)).1, fun n j hj => ?_, h1.memo⟩
  rcases h1.ref n j hj with h | h
  · cases h
  · exact h _ (LeC.refl _)

/-! ### well-formed schemas are guarded -/

section
variable {L : Lib D V} {Q : Pattern D V → Prop} {c : Bool}

/-- the positions of a well-formed schema -/
def Pos (L : Lib D V) (env : Env D V) (Q : Pattern D V → Prop) (c : Bool) (p : Pattern D V) : Prop :=
  (∃ s l, WF L env Q c s l p) ∨ ExOK env p

theorem ExOK.guarded {p : Pattern D V} (h : ExOK env p) : ∀ n ∈ crefs p, Guarded env n := by
  induction h with
  | choice _ _ ih => intro n h; obtain ⟨q, hq, h⟩ := mem_crefsL h; exact ih q hq n h
  | ref h1 _ ih => intro n h; simp [crefs] at h; subst h; exact .mk h1 ih
  | _ => intro n h; simp [crefs] at h

theorem WF.guarded {s l} {p : Pattern D V} (h : WF L env Q c s l p) : ∀ n ∈ crefs p, Guarded env n := by
  induction h with
  | choice _ _ ih => intro n h; obtain ⟨q, hq, h⟩ := mem_crefsL h; exact ih q hq n h
  | group _ _ ih => intro n h; obtain ⟨q, hq, h⟩ := mem_crefsL h; exact ih q hq n h
  | interleave _ _ _ ih => intro n h; obtain ⟨q, hq, h⟩ := mem_crefsL h; exact ih q hq n h
  | mixed _ _ ih => exact ih
  | optional _ ih => exact ih
  | ref h1 _ _ ih => intro n h; simp [crefs] at h; subst h; exact .mk h1 ih
  | _ => intro n h; simp [crefs] at h

theorem Pos.sub {p q : Pattern D V} (h : Pos L env Q c p)
    (hw : ∀ s l, WF L env Q c s l p → ∃ s l, WF L env Q c s l q) (he : ExOK env p → ExOK env q) :
    Pos L env Q c q := by
  rcases h with ⟨s, l, h⟩ | h
  · exact Or.inl (hw s l h)
  · exact Or.inr (he h)

mutual
theorem pos_refs (hQ : ∀ p, Q p → WF L env Q c false true p) : ∀ (p : Pattern D V), Pos L env Q c p →
    ∀ n ∈ p.refs, Pos L env Q c (.ref n)
  | .choice ps, h, n, hn => by
    refine pos_refsL hQ ps (fun q hq => ?_) n (by simpa [Pattern.refs] using hn)
    refine h.sub (fun s l h => ?_) (fun h => ?_)
    · cases h with | choice _ h => exact ⟨_, _, h q hq⟩
    · cases h with | choice _ h => exact h q hq
  | .interleave ps, h, n, hn => by
    refine pos_refsL hQ ps (fun q hq => ?_) n (by simpa [Pattern.refs] using hn)
    refine h.sub (fun s l h => ?_) (fun h => ?_)
    · cases h with | interleave _ h _ => exact ⟨_, _, h q hq⟩
    · cases h
  | .group ps, h, n, hn => by
    refine pos_refsL hQ ps (fun q hq => ?_) n (by simpa [Pattern.refs] using hn)
    refine h.sub (fun s l h => ?_) (fun h => ?_)
    · cases h with | group _ h => exact ⟨_, _, h q hq⟩
    · cases h
  | .mixed p, h, n, hn => by
    refine pos_refs hQ p (h.sub (fun s l h => ?_) (fun h => ?_)) n (by simpa [Pattern.refs] using hn)
    · cases h with | mixed h _ => exact ⟨_, _, h⟩
    · cases h
  | .optional p, h, n, hn => by
    refine pos_refs hQ p (h.sub (fun s l h => ?_) (fun h => ?_)) n (by simpa [Pattern.refs] using hn)
    · cases h with | optional h => exact ⟨_, _, h⟩
    · cases h
  | .zeroOrMore p, h, n, hn => by
    refine pos_refs hQ p (h.sub (fun s l h => ?_) (fun h => ?_)) n (by simpa [Pattern.refs] using hn)
    · cases h with | zeroOrMore h _ => exact ⟨_, _, h⟩
    · cases h
  | .oneOrMore p, h, n, hn => by
    refine pos_refs hQ p (h.sub (fun s l h => ?_) (fun h => ?_)) n (by simpa [Pattern.refs] using hn)
    · cases h with | oneOrMore h _ => exact ⟨_, _, h⟩
    · cases h
  | .attr _ p, h, n, hn => by
    refine pos_refs hQ p (h.sub (fun s l h => ?_) (fun h => ?_)) n (by simpa [Pattern.refs] using hn)
    · cases h with | attr h => exact ⟨_, _, h⟩
    · cases h
  | .element _ p, h, n, hn => by
    refine pos_refs hQ p (h.sub (fun s l h => ?_) (fun h => ?_)) n (by simpa [Pattern.refs] using hn)
    · cases h with | element h => exact ⟨_, _, hQ p h⟩
    · cases h
  | .list p, h, n, hn => by
    refine pos_refs hQ p (h.sub (fun s l h => ?_) (fun h => ?_)) n (by simpa [Pattern.refs] using hn)
    · cases h with | list h => exact ⟨_, _, h⟩
    · cases h
  | .datatypeNameExcept _ p, h, n, hn => by
    refine pos_refs hQ p (Or.inr ?_) n (by simpa [Pattern.refs] using hn)
    rcases h with ⟨s, l, h⟩ | h
    · cases h with | dataExcept h => exact h
    · cases h with | dataExcept h => exact h
  | .ref m, h, n, hn => by
    simp [Pattern.refs] at hn; subst hn; exact h
  | .empty, _, n, hn => by simp [Pattern.refs] at hn
  | .text, _, n, hn => by simp [Pattern.refs] at hn
  | .notAllowed, _, n, hn => by simp [Pattern.refs] at hn
  | .datatypeValue _, _, n, hn => by simp [Pattern.refs] at hn
  | .datatypeName _, _, n, hn => by simp [Pattern.refs] at hn
theorem pos_refsL (hQ : ∀ p, Q p → WF L env Q c false true p) : ∀ (ps : List (Pattern D V)),
    (∀ p ∈ ps, Pos L env Q c p) → ∀ n ∈ refsL ps, Pos L env Q c (.ref n)
  | [], _, n, hn => by simp [refsL] at hn
  | p :: ps, h, n, hn => by
    simp only [refsL, List.mem_append] at hn
    rcases hn with hn | hn
    · exact pos_refs hQ p (h p (by simp)) n hn
    · exact pos_refsL hQ ps (fun q hq => h q (by simp [hq])) n hn
end

theorem Pos.uses (hQ : ∀ p, Q p → WF L env Q c false true p) {p : Pattern D V} {n}
    (hu : Uses env p n) : Pos L env Q c p → Pos L env Q c (.ref n) := by
  induction hu with
  | here h => exact fun hp => pos_refs hQ _ hp _ h
  | there h1 h2 _ ih =>
    intro hp
    refine ih ((pos_refs hQ _ hp _ h1).sub (fun s l h => ?_) (fun h => ?_))
    · cases h with | ref g1 g2 _ => rw [h2] at g1; cases g1; exact ⟨_, _, g2⟩
    · cases h with | ref g1 g2 => rw [h2] at g1; cases g1; exact g2

theorem Pos.guarded (hQ : ∀ p, Q p → WF L env Q c false true p) {p : Pattern D V}
    (hp : Pos L env Q c p) : AllGuarded env p := by
  intro n hn
  rcases hp.uses hQ hn with ⟨s, l, h⟩ | h
  · exact h.guarded n (by simp [crefs])
  · exact h.guarded n (by simp [crefs])
end
end Verif
