import Verif.Proof.Run
import Verif.Proof.Decode
/-
The validator's run over the tokens of a document and the run over its resolved events agree.
-/
set_option linter.unusedSectionVars false
namespace Verif
variable {D V : Type}

/-! ### content without split character data -/

theorem Resolves.unsplit {f scope xs ns} (h : Resolves f scope xs ns) : ∀ {prev}, unsplitL prev xs →
    NoAdjL ns ∧ joinText ns = ns ∧ (prev = true → ∀ s r, ns ≠ .text s :: r) := by
  induction h with
  | nil => intro prev _; exact ⟨trivial, rfl, fun _ s r => by simp⟩
  | @text scope s t xs ns _ _ ih =>
    intro prev h
    simp only [unsplitL] at h
    obtain ⟨rfl, h⟩ := h
    obtain ⟨h1, h2, h3⟩ := ih h
    refine ⟨⟨trivial, h1, fun _ _ t r => h3 rfl t r⟩, ?_, by simp⟩
    simp only [joinText, h2]
    split
    · exact absurd rfl (h3 rfl _ _)
    · rfl
  | @cdata scope s xs ns _ ih =>
    intro prev h
    simp only [unsplitL] at h
    obtain ⟨rfl, h⟩ := h
    obtain ⟨h1, h2, h3⟩ := ih h
    refine ⟨⟨trivial, h1, fun _ _ t r => h3 rfl t r⟩, ?_, by simp⟩
    simp only [joinText, h2]
    split
    · exact absurd rfl (h3 rfl _ _)
    · rfl
  | comment _ ih => intro prev h; simp only [unsplitL] at h; exact ih h
  | pi _ ih => intro prev h; simp only [unsplitL] at h; exact ih h
  | elem _ _ _ _ _ ih1 ih2 =>
    intro prev h
    simp only [unsplitL] at h
    obtain ⟨k1, k2, _⟩ := ih1 h.1
    obtain ⟨h1, h2, _⟩ := ih2 h.2
    refine ⟨⟨?_, h1, fun _ h => by cases h⟩, ?_, by simp⟩
    · rw [k2]; exact k1
    · simp [joinText, h2]

/-- the nodes a piece of content stands for, character data left in pieces -/
inductive Pieces (ents : Str → Option Str) : List (Str × Str) → List XNode → List Node → Prop
  | nil {scope} : Pieces ents scope [] []
  | text {scope s t xs ns} : Decodes ents s t → Pieces ents scope xs ns → Pieces ents scope (.text s :: xs) (.text t :: ns)
  | cdata {scope s xs ns} : Pieces ents scope xs ns → Pieces ents scope (.cdata s :: xs) (.text s :: ns)
  | comment {scope xs ns} : Pieces ents scope xs ns → Pieces ents scope (.comment :: xs) ns
  | pi {scope xs ns} : Pieces ents scope xs ns → Pieces ents scope (.pi :: xs) ns
  | elem {scope pre loc atts sc kids kns nm as xs ns} : elemName (nsDecls atts ++ scope) pre loc = some nm →
      AttsMean ents (nsDecls atts ++ scope) (plainAtts atts) as → Pieces ents (nsDecls atts ++ scope) kids kns →
      (sc = true → kids = []) → Pieces ents scope xs ns →
      Pieces ents scope (.elem pre loc atts sc kids :: xs) (.elem nm as kns :: ns)

theorem Resolves.pieces {f scope xs ns} (h : Resolves f scope xs ns) : ∀ {prev}, unsplitL prev xs → Pieces f scope xs ns := by
  induction h with
  | nil => intro _ _; exact .nil
  | text h _ ih => intro _ hu; simp only [unsplitL] at hu; exact .text h (ih hu.2)
  | cdata _ ih => intro _ hu; simp only [unsplitL] at hu; exact .cdata (ih hu.2)
  | comment _ ih => intro _ hu; simp only [unsplitL] at hu; exact .comment (ih hu)
  | pi _ ih => intro _ hu; simp only [unsplitL] at hu; exact .pi (ih hu)
  | elem h1 h2 h3 h4 _ ih1 ih2 =>
    intro _ hu
    simp only [unsplitL] at hu
    rw [(h3.unsplit hu.1).2.1]
    exact .elem h1 h2 (ih1 hu.1) h4 (ih2 hu.2)

/-! ### namespaces -/

theorem nsDecls_append : ∀ (a b : List RawAttr), nsDecls (a ++ b) = nsDecls a ++ nsDecls b
  | [], b => rfl
  | x :: a, b => by
    simp only [List.cons_append, nsDecls]
    split
    · simp [nsDecls_append a b]
    · split <;> simp [nsDecls_append a b]

/-- the declarations on the stack, those of later start tags first -/
def flat (st : ElementStack) : List (Str × Str) := st.flatMap (·.namespaces)

theorem flat_append (a b : ElementStack) : flat (a ++ b) = flat a ++ flat b := List.flatMap_append

theorem lookup_mem {α β : Type} [BEq α] [LawfulBEq α] {k : α} {v : β} : ∀ {l : List (α × β)},
    l.lookup k = some v → (k, v) ∈ l
  | [], h => by simp at h
  | (a, b) :: l, h => by
    simp only [List.lookup_cons] at h
    split at h
    · rename_i he
      have : k = a := by simpa using he
      cases h; subst this; simp
    · exact List.mem_cons_of_mem _ (lookup_mem h)

theorem lookup_none {α β : Type} [BEq α] [LawfulBEq α] {k : α} : ∀ {l : List (α × β)},
    l.lookup k = none → ∀ v, (k, v) ∉ l
  | [], _, v => by simp
  | (a, b) :: l, h, v => by
    simp only [List.lookup_cons] at h
    split at h
    · cases h
    · rename_i he
      have he' : ¬ k = a := by simpa using he
      simp only [List.mem_cons, Prod.mk.injEq, not_or, not_and]
      exact ⟨fun e => absurd e he', lookup_none h v⟩

theorem lookup_app {α β : Type} [BEq α] [LawfulBEq α] (k : α) : ∀ (a b : List (α × β)), (a ++ b).lookup k = (a.lookup k).or (b.lookup k)
  | [], b => by simp
  | (x, y) :: a, b => by
    simp only [List.cons_append, List.lookup_cons]
    split
    · rfl
    · exact lookup_app k a b

theorem lookupNs_flat (p : Str) : ∀ (st : ElementStack), lookupNs st p = (flat st).lookup p
  | [] => rfl
  | e :: st => by
    show (match e.namespaces.lookup p with | some u => some u | none => lookupNs st p) = (e.namespaces ++ flat st).lookup p
    rw [lookup_app, lookupNs_flat p st]
    cases e.namespaces.lookup p <;> rfl

/-- the element state built from a start tag -/
def elemState (pre loc : Str) (atts : List RawAttr) : ElementState :=
  ⟨pre, loc, nsDecls atts, (plainAtts atts).map fun a => ⟨a.pre, a.loc, a.value⟩⟩

theorem addAtts : ∀ (atts : List RawAttr) (e : ElementState),
    (atts.foldl (fun e a => e.addAttr a.pre a.loc a.value) e) =
      { e with namespaces := e.namespaces ++ nsDecls atts,
               attributes := e.attributes ++ (plainAtts atts).map fun a => ⟨a.pre, a.loc, a.value⟩ }
  | [], e => by simp [nsDecls, plainAtts]
  | a :: atts, e => by
    rw [List.foldl_cons, addAtts atts]
    simp only [nsDecls, plainAtts, ElementState.addAttr]
    split
    · simp
    · split
      · rename_i h; simp [h.1]
      · simp

theorem currentElement_ok {scope pre loc atts st nm} (hd : scope.lookup [] = none)
    (hc : pre ≠ [] → (flat (elemState pre loc atts :: st)).lookup pre = scope.lookup pre)
    (h : elemName scope pre loc = some nm) :
    currentElement (elemState pre loc atts :: st) = some (.ok nm) := by
  unfold elemName at h
  unfold currentElement tryLookupNs
  by_cases hpre : pre = []
  · subst hpre
    simp at h
    subst h
    simp [elemState, hd]
  · simp [hpre] at h
    obtain ⟨u, hu, rfl⟩ := h
    have := lookupNs_flat pre (elemState pre loc atts :: st)
    rw [hc hpre, hu] at this
    simp [elemState, hpre] at this ⊢
    rw [this]

theorem resolveAttrs_ok {f scope st} :
    ∀ {as bs}, AttsMean f scope as bs → (∀ a ∈ as, a.pre ≠ [] → (flat st).lookup a.pre = scope.lookup a.pre) → (∀ a ∈ as, '&' ∉ a.value) →
      resolveAttrs st (as.map fun a => ⟨a.pre, a.loc, a.value⟩) = .ok bs := by
  intro as bs h
  induction h with
  | nil => intros; rfl
  | @cons a nm v as bs h1 h2 _ ih =>
    intro hx hr
    have hv := h2.plain (hr a (by simp))
    subst hv
    have ih := ih (fun a ha => hx a (by simp [ha])) (fun a ha => hr a (by simp [ha]))
    simp only [List.map_cons, resolveAttrs, ih, resolveAttr]
    unfold attrName at h1
    by_cases hpre : a.pre = []
    · simp [hpre] at h1
      subst h1
      simp [hpre]
    · simp [hpre] at h1
      obtain ⟨u, hu, rfl⟩ := h1
      have := lookupNs_flat a.pre st
      rw [hx a (by simp) hpre, hu] at this
      simp [hpre, tryLookupNs, this]

theorem plainAtts_sub : ∀ {atts : List RawAttr} {a}, a ∈ plainAtts atts → a ∈ atts
  | [], a, h => by simp [plainAtts] at h
  | x :: atts, a, h => by
    simp only [plainAtts] at h
    split at h
    · exact List.mem_cons_of_mem _ (plainAtts_sub h)
    · split at h
      · exact List.mem_cons_of_mem _ (plainAtts_sub h)
      · rcases List.mem_cons.mp h with rfl | h
        · simp
        · exact List.mem_cons_of_mem _ (plainAtts_sub h)

/-! ### runs -/

section
variable [DecidableEq D] [DecidableEq V] (L : Lib D V)

/-- what the token run keeps; the tags in it declare `X` -/
structure Kept (X : List (Str × Str)) (s s' : VState D V) : Prop where
  last : s'.lastWasStart = false
  ents : s'.entities = s.entities
  valid : ∃ p, s'.store.pats[s'.cur]? = some p
  stack : flat s'.stack = X ++ flat s.stack

/-- a token run `x` from `s` follows the event run `y` -/
def Follows (X : List (Str × Str)) (s : VState D V) (x : Except Fault (Except VErr Unit × VState D V))
    (y : Except Fault (Option Nat × Store D V)) : Prop :=
  match y with
  | .error e => x = .error e
  | .ok (none, _) => ∃ err s', x = .ok (.error err, s')
  | .ok (some c, st') => ∃ s', x = .ok (.ok (), s') ∧ s'.store = st' ∧ s'.cur = c ∧ Kept X s s'

theorem runToks_append (n : Nat) (a b : List Token) : ∀ (s : VState D V),
    runToks L n (a ++ b) s = match runToks L n a s with
      | .error e => .error e
      | .ok (.error e, s') => .ok (.error e, s')
      | .ok (.ok (), s') => runToks L n b s' := by
  induction a with
  | nil => intro s; simp [runToks]
  | cons t a ih =>
    intro s
    simp only [List.cons_append, runToks, ST.bind_run]
    cases h : validate L n t s with
    | error e => rfl
    | ok r =>
      obtain ⟨o, s'⟩ := r
      cases o with
      | error e => rfl
      | ok u => exact ih s'

theorem Kept.trans {X Y} {s s' s'' : VState D V} (h1 : Kept X s s') (h2 : Kept Y s' s'') : Kept (Y ++ X) s s'' :=
  ⟨h2.last, h2.ents.trans h1.ents, h2.valid, by rw [h2.stack, h1.stack, List.append_assoc]⟩

theorem Follows.weakenAll {X Y} {s s' : VState D V} {x y} (h : Follows Y s' x y)
    (hk : ∀ s'', Kept Y s' s'' → Kept X s s'') : Follows X s x y := by
  unfold Follows at h ⊢
  split
  · exact h
  · exact h
  · obtain ⟨s2, g1, g2, g3, g4⟩ := h
    exact ⟨s2, g1, g2, g3, hk _ g4⟩

theorem Follows.weaken {X Y Z} {s s' : VState D V} {x y} (h : Follows Y s' x y) (hk : Kept X s s') (e : Z = Y ++ X) :
    Follows Z s x y := h.weakenAll fun _ hk' => e ▸ hk.trans hk'

theorem Follows.append {X Y Z} {n : Nat} {a b : List Token} {es es' : List REv} {s : VState D V}
    (h1 : Follows X s (runToks L n a s) (runR L n s.cur es s.store))
    (h2 : ∀ s', Kept X s s' → Follows Y s' (runToks L n b s') (runR L n s'.cur es' s'.store)) (e : Z = Y ++ X) :
    Follows Z s (runToks L n (a ++ b) s) (runR L n s.cur (es ++ es') s.store) := by
  rw [runToks_append, runR_append]
  unfold andThen
  rw [ST.bind_run]
  cases h : runR L n s.cur es s.store with
  | error e =>
    rw [h] at h1
    simp only [Follows] at h1 ⊢
    rw [h1]
  | ok r =>
    obtain ⟨o, st'⟩ := r
    rw [h] at h1
    cases o with
    | none =>
      simp only [Follows, ST.pure_run] at h1 ⊢
      obtain ⟨err, s', h1⟩ := h1
      rw [h1]
      exact ⟨err, s', rfl⟩
    | some c =>
      simp only [Follows] at h1
      obtain ⟨s', h1, rfl, rfl, hk⟩ := h1
      rw [h1]
      exact (h2 s' hk).weaken hk e

theorem patt_ok {i : Nat} {st : Store D V} {p} (h : st.pats[i]? = some p) :
    patt i st = .ok (p, st) := by
  simp [patt, h]

theorem Follows.comment {n} {s : VState D V} (hl : s.lastWasStart = false)
    (hv : ∃ p, s.store.pats[s.cur]? = some p) :
    Follows [] s (runToks L n [.comment] s) (runR L n s.cur [] s.store) := by
  obtain ⟨p, hp⟩ := hv
  simp only [Follows, runR, runToks, validate, ST.bind_run, ST.get_run, liftS, patt_ok hp, ST.pure_run]
  exact ⟨s, rfl, rfl, rfl, hl, rfl, ⟨p, hp⟩, rfl⟩

theorem Follows.pi {n} {s : VState D V} (hl : s.lastWasStart = false)
    (hv : ∃ p, s.store.pats[s.cur]? = some p) :
    Follows [] s (runToks L n [.processingInstruction] s) (runR L n s.cur [] s.store) := by
  obtain ⟨p, hp⟩ := hv
  simp only [Follows, runR, runToks, validate, ST.bind_run, ST.get_run, liftS, patt_ok hp, ST.pure_run]
  exact ⟨s, rfl, rfl, rfl, hl, rfl, ⟨p, hp⟩, rfl⟩

/-- `finish` after an event that is not a start tag follows `guardNA` -/
theorem finish_follows {s : VState D V} {evt : Token} {st : Store D V} {i : Nat}
    (he : ∀ a b, evt ≠ .elementStart a b) :
    Follows [] s (finish evt i { s with store := st }) (guardNA i st) := by
  unfold finish guardNA
  simp only [ST.bind_run, ST.get_run, ST.set_run, liftS]
  cases hp : st.pats[i]? with
  | none => simp [patt, hp, Follows]
  | some p =>
    rw [patt_ok hp]
    by_cases hn : p.isNotAllowed = true
    · simp [hn, Follows]
    · simp only [hn, Bool.false_eq_true, if_false, ST.bind_run, ST.get_run, ST.set_run, ST.pure_run, Follows]
      exact ⟨_, rfl, rfl, rfl, rfl, rfl, ⟨p, hp⟩, rfl⟩

/-- computing an identity and finishing -/
theorem liftS_follows {s : VState D V} {evt : Token} (x : SM D V Nat)
    (he : ∀ a b, evt ≠ .elementStart a b) :
    Follows [] s ((liftS x >>= fun i => finish evt i) s) ((x >>= fun i => guardNA i) s.store) := by
  rw [ST.bind_run, ST.bind_run]
  simp only [liftS]
  cases h : x s.store with
  | error e => rfl
  | ok r =>
    obtain ⟨i, st⟩ := r
    exact finish_follows he

/-- a one-token run -/
theorem Follows.one {X n} {s : VState D V} {t : Token} {y}
    (h : Follows X s (validate L n t s) y) : Follows X s (runToks L n [t] s) y := by
  unfold Follows at h ⊢
  split
  · simp only [runToks, ST.bind_run] at h ⊢; rw [h]
  · obtain ⟨err, s', h⟩ := h
    simp only [runToks, ST.bind_run]; rw [h]; exact ⟨err, s', rfl⟩
  · obtain ⟨s', h, h'⟩ := h
    simp only [runToks, ST.bind_run]; rw [h]; exact ⟨s', rfl, h'⟩

/-- a one-event run -/
theorem runR_one {n c e} {st : Store D V} : runR L n c [e] st = stepR L n c e st := by
  simp only [runR, andThen, ST.bind_run]
  cases stepR L n c e st with
  | error e => rfl
  | ok r =>
    obtain ⟨o, st⟩ := r
    cases o <;> rfl

theorem Follows.cdata {n t} {s : VState D V} :
    Follows [] s (runToks L n [.cdata t] s) (runR L n s.cur [.text t] s.store) := by
  refine Follows.one L ?_
  rw [runR_one]
  simp only [validate, stepR]
  rw [ST.bind_of_ok (ST.get_run s), ST.bind_run, ST.bind_run]
  simp only [liftS]
  cases hp : s.store.pats[s.cur]? with
  | none => simp [patt, hp, Follows]
  | some p =>
    rw [patt_ok hp]
    exact liftS_follows (textDeriv L n p t) (by simp)

theorem Follows.fin {n pre loc} {s : VState D V} (hl : s.lastWasStart = false) :
    Follows [] s (runToks L n [.elementEnd (.close pre loc)] s) (runR L n s.cur [.fin] s.store) := by
  refine Follows.one L ?_
  rw [runR_one]
  simp only [validate, stepR]
  rw [ST.bind_of_ok (ST.get_run s), ST.bind_run, ST.bind_run]
  simp only [liftS]
  cases hp : s.store.pats[s.cur]? with
  | none => simp [patt, hp, Follows]
  | some p =>
    rw [patt_ok hp]
    have : endTagStep L n s.lastWasStart p = endTagDeriv n p := by rw [hl]; rfl
    simp only [this]
    exact liftS_follows (evt := .elementEnd (.close pre loc)) (endTagDeriv n p) (by simp)

theorem Follows.text {n t t'} {s : VState D V} (hd : decodeText s.entities t = .ok t') :
    Follows [] s (runToks L n [.text t] s) (runR L n s.cur [.text t'] s.store) := by
  refine Follows.one L ?_
  rw [runR_one]
  simp only [validate, stepR]
  rw [ST.bind_of_ok (ST.get_run s), ST.bind_run, ST.bind_run]
  simp only [liftS]
  cases hp : s.store.pats[s.cur]? with
  | none => simp [patt, hp, Follows]
  | some p =>
    rw [patt_ok hp]
    simp only [hd]
    rw [ST.bind_run, ST.bind_run]
    simp only [liftS]
    cases h : textDeriv L n p t' s.store with
    | error e => rfl
    | ok r =>
      obtain ⟨i, st⟩ := r
      simp only
      rw [ST.bind_run]
      simp only [liftS]
      cases hq : st.pats[i]? with
      | none => simp [patt, hq, guardNA, ST.bind_run, Follows]
      | some q =>
        rw [patt_ok hq]
        by_cases hn : q.isNotAllowed = true
        · simp [hn, guardNA, ST.bind_run, patt_ok hq, Follows]
        · simp only [hn, Bool.false_eq_true, if_false]
          exact finish_follows (by simp)

theorem attsLoop_attsR (n : Nat) : ∀ (as : List Attr) (i : Nat) (st : Store D V),
    match attsR L n i as st with
    | .error e => attsLoop L n i as st = .error e
    | .ok (none, st') => ∃ err, attsLoop L n i as st = .ok (.error err, st')
    | .ok (some c, st') => attsLoop L n i as st = .ok (.ok c, st')
  | [], i, st => by simp [attsR, attsLoop]
  | a :: as, i, st => by
    simp only [attsR, attsLoop, ST.bind_run]
    cases h : attDeriv L n [] i a st with
    | error e => rfl
    | ok r =>
      obtain ⟨r, st'⟩ := r
      simp only
      cases hp : st'.pats[r.1]? with
      | none => simp [patt, hp]
      | some p =>
        rw [patt_ok hp]
        by_cases hn : p.isNotAllowed = true
        · simp [hn]
        · simp only [hn, Bool.false_eq_true, if_false]
          exact attsLoop_attsR n as r.1 st'

theorem closeElementStart_startR {n : Nat} {stack : ElementStack} {evt : Token} {p : Pat D V} {nm as}
    (h1 : currentElement stack = some (.ok nm)) (h2 : currentAttributes stack = some (.ok as))
    (st : Store D V) :
    match startR L n p nm as st with
    | .error e => closeElementStart L n stack evt p st = .error e
    | .ok (none, st') => ∃ err, closeElementStart L n stack evt p st = .ok (.error err, st')
    | .ok (some c, st') => closeElementStart L n stack evt p st = .ok (.ok c, st') := by
  simp only [startR, closeElementStart, h1, h2]
  rw [ST.bind_run, ST.bind_run]
  cases h : startTagOpenDeriv n p nm st with
  | error e => rfl
  | ok r =>
    obtain ⟨i, st'⟩ := r
    simp only
    rw [ST.bind_run, ST.bind_run]
    cases hp : st'.pats[i]? with
    | none => simp [patt, hp]
    | some q =>
      rw [patt_ok hp]
      by_cases hn : q.isNotAllowed = true
      · simp [hn]
      · simp only [hn, Bool.false_eq_true, if_false]
        rw [ST.bind_run, ST.bind_run]
        have ha := attsLoop_attsR L n as i st'
        cases h : attsR L n i as st' with
        | error e => simp only [h] at ha; simp only [ha]
        | ok r =>
          obtain ⟨o, st2⟩ := r
          cases o with
          | none =>
            simp only [h] at ha
            obtain ⟨err, ha⟩ := ha
            simp only [ha]
            exact ⟨err, rfl⟩
          | some d2 =>
            simp only [h] at ha
            simp only [ha]
            rw [ST.bind_run, ST.bind_run]
            cases hp2 : st2.pats[d2]? with
            | none => simp [patt, hp2]
            | some q2 =>
              rw [patt_ok hp2]
              by_cases hn2 : q2.isNotAllowed = true
              · simp [hn2]
              · simp only [hn2, Bool.false_eq_true, if_false]
                rw [ST.bind_run, ST.bind_run]
                cases h3 : startTagCloseDeriv n d2 st2 with
                | error e => rfl
                | ok r =>
                  obtain ⟨d3, st3⟩ := r
                  simp only [guardNA]
                  rw [ST.bind_run, ST.bind_run]
                  cases hp3 : st3.pats[d3]? with
                  | none => simp [patt, hp3]
                  | some q3 =>
                    rw [patt_ok hp3]
                    by_cases hn3 : q3.isNotAllowed = true
                    · simp [hn3]
                    · simp [hn3]

theorem startR_valid {n : Nat} {p : Pat D V} {nm as st c st'}
    (h : startR L n p nm as st = .ok (some c, st')) :
    ∃ q, st'.pats[c]? = some q ∧ q.isNotAllowed = false := by
  simp only [startR, ST.bind_ok] at h
  obtain ⟨i, s1, _, q, s2, _, h⟩ := h
  split at h
  · simp at h
  · simp only [ST.bind_ok] at h
    obtain ⟨o, s3, _, h⟩ := h
    split at h
    · simp at h
    · simp only [ST.bind_ok] at h
      obtain ⟨q2, s4, _, h⟩ := h
      split at h
      · simp at h
      · simp only [ST.bind_ok, guardNA] at h
        obtain ⟨d3, s5, _, q3, s6, h6, h⟩ := h
        split at h
        · simp at h
        · rename_i hn
          simp at h
          obtain ⟨rfl, rfl⟩ := h
          unfold patt at h6
          split at h6
          · rename_i hq
            cases h6
            exact ⟨_, hq, by simpa using hn⟩
          · cases h6

/-- start tag tokens up to the end of the tag -/
theorem runToks_atts {n : Nat} {p : Pat D V} : ∀ (atts : List RawAttr) (rest : List Token)
    (s : VState D V) (e : ElementState) (es : ElementStack), s.store.pats[s.cur]? = some p →
    s.stack = e :: es →
    runToks L n (atts.map RawAttr.tok ++ rest) s = runToks L n rest
      { s with stack := atts.foldl (fun e a => e.addAttr a.pre a.loc a.value) e :: es }
  | [], rest, s, e, es, _, h2 => by simp [← h2]
  | a :: atts, rest, s, e, es, h1, h2 => by
    simp only [List.map_cons, List.cons_append, runToks, List.foldl_cons]
    rw [ST.bind_run]
    have : validate L n a.tok s = .ok (.ok (), { s with stack := e.addAttr a.pre a.loc a.value :: es }) := by
      simp only [RawAttr.tok, validate, ST.bind_run, ST.get_run, liftS, patt_ok h1, h2, ST.set_run, ST.pure_run]
    rw [this]
    exact runToks_atts atts rest _ _ es h1 rfl

theorem runToks_start {n : Nat} {p : Pat D V} (pre loc : Str) (atts : List RawAttr) (rest : List Token)
    (s : VState D V) (h1 : s.store.pats[s.cur]? = some p) :
    runToks L n (.elementStart pre loc :: (atts.map RawAttr.tok ++ rest)) s = runToks L n rest
      { s with stack := elemState pre loc atts :: s.stack } := by
  simp only [runToks]
  rw [ST.bind_run]
  have : validate L n (.elementStart pre loc) s
      = .ok (.ok (), { s with stack := ⟨pre, loc, [], []⟩ :: s.stack }) := by
    simp only [validate, ST.bind_run, ST.get_run, liftS, patt_ok h1, ST.set_run, ST.pure_run]
  simp only [this]
  refine (runToks_atts L atts rest { s with stack := ⟨pre, loc, [], []⟩ :: s.stack } ⟨pre, loc, [], []⟩ s.stack h1 rfl).trans ?_
  rw [addAtts]
  simp [elemState]

theorem finish_ok {s : VState D V} {evt : Token} {i : Nat} {q}
    (he : ∀ a b, evt ≠ .elementStart a b) (h1 : s.store.pats[i]? = some q) (h2 : q.isNotAllowed = false) :
    finish evt i s = .ok (.ok (), { s with lastWasStart := false, cur := i }) := by
  unfold finish
  simp only [ST.bind_run, ST.get_run, ST.set_run, liftS, patt_ok h1, h2, Bool.false_eq_true, if_false,
    ST.pure_run]

theorem Follows.open {n nm as} {s : VState D V} (h1 : currentElement s.stack = some (.ok nm))
    (h2 : currentAttributes s.stack = some (.ok as)) :
    Follows [] s (runToks L n [.elementEnd .open] s) (runR L n s.cur [.start nm as] s.store) := by
  refine Follows.one L ?_
  rw [runR_one]
  simp only [validate, stepR]
  rw [ST.bind_of_ok (ST.get_run s), ST.bind_run, ST.bind_run]
  simp only [liftS]
  cases hp : s.store.pats[s.cur]? with
  | none => simp [patt, hp, Follows]
  | some p =>
    rw [patt_ok hp]
    simp only
    rw [ST.bind_run]
    simp only [liftS]
    have hc := closeElementStart_startR L (n := n) (evt := .elementEnd .open) (p := p) h1 h2 s.store
    cases h : startR L n p nm as s.store with
    | error e => simp only [h] at hc; simp [hc, Follows]
    | ok r =>
      obtain ⟨o, st'⟩ := r
      cases o with
      | none =>
        simp only [h] at hc
        obtain ⟨err, hc⟩ := hc
        simp [hc, Follows]
      | some c =>
        simp only [h] at hc
        obtain ⟨q, hq, hqn⟩ := startR_valid L h
        simp only [hc, Follows]
        rw [finish_ok (by simp) hq hqn]
        exact ⟨_, rfl, rfl, rfl, rfl, rfl, ⟨q, hq⟩, rfl⟩

theorem Follows.selfClose {n nm as} {s : VState D V} (h1 : currentElement s.stack = some (.ok nm))
    (h2 : currentAttributes s.stack = some (.ok as)) (hl : s.lastWasStart = false) :
    Follows [] s (runToks L n [.elementEnd .empty] s) (runR L n s.cur [.start nm as, .fin] s.store) := by
  refine Follows.one L ?_
  simp only [runR, andThen]
  rw [ST.bind_run]
  simp only [validate, stepR]
  rw [ST.bind_of_ok (ST.get_run s), ST.bind_run, ST.bind_run]
  simp only [liftS]
  cases hp : s.store.pats[s.cur]? with
  | none => simp [patt, hp, Follows]
  | some p =>
    rw [patt_ok hp]
    simp only
    rw [ST.bind_run]
    simp only [liftS]
    have hc := closeElementStart_startR L (n := n) (evt := .elementEnd .empty) (p := p) h1 h2 s.store
    cases h : startR L n p nm as s.store with
    | error e => simp only [h] at hc; simp [hc, Follows]
    | ok r =>
      obtain ⟨o, st'⟩ := r
      cases o with
      | none =>
        simp only [h] at hc
        obtain ⟨err, hc⟩ := hc
        simp [hc, Follows]
      | some c =>
        simp only [h] at hc
        obtain ⟨q, hq, hqn⟩ := startR_valid L h
        simp only [hc]
        have hstep := runR_one L (n := n) (c := c) (e := .fin) (st := st')
        simp only [runR, andThen, stepR] at hstep
        rw [hstep]
        rw [ST.bind_run, ST.bind_run]
        simp only [liftS, patt_ok hq]
        have : endTagStep L n s.lastWasStart q = endTagDeriv n q := by rw [hl]; rfl
        rw [this]
        have hfin := liftS_follows (s := { s with store := st' }) (evt := .elementEnd .empty)
          (endTagDeriv n q) (by simp)
        refine hfin.weakenAll ?_
        intro s' hk
        exact ⟨hk.last, hk.ents, hk.valid, hk.stack⟩

variable {L}

/-- what the content of a document has to satisfy besides its names -/
structure Good (f : Str → Option Str) (xs : List XNode) : Prop where
  noDefault : ∀ d ∈ nsDecls (allAttsL xs), d.1 ≠ []
  noRef : ∀ a ∈ allAttsL xs, '&' ∉ a.value
  text : ∀ s ∈ allTextsL xs, TextOK f s

theorem Good.tail {f x xs} (h : Good f (x :: xs)) : Good f xs := by
  obtain ⟨h1, h5, h6⟩ := h
  simp only [allAttsL, allTextsL, nsDecls_append, List.mem_append] at h1 h5 h6
  exact ⟨fun d hd => h1 d (Or.inr hd), fun d hd => h5 d (Or.inr hd), fun d hd => h6 d (Or.inr hd)⟩

theorem Good.kids {f pre loc atts sc kids xs} (h : Good f (.elem pre loc atts sc kids :: xs)) :
    Good f kids := by
  obtain ⟨h1, h5, h6⟩ := h
  simp only [allAttsL, allTextsL, XNode.allAtts, XNode.allTexts, nsDecls_append, List.mem_append] at h1 h5 h6
  exact ⟨fun d hd => h1 d (Or.inl (Or.inr hd)), fun d hd => h5 d (Or.inl (Or.inr hd)), fun d hd => h6 d (Or.inl hd)⟩

theorem Good.atts {f pre loc atts sc kids xs} (h : Good f (.elem pre loc atts sc kids :: xs)) :
    (∀ d ∈ nsDecls atts, d.1 ≠ []) ∧ (∀ a ∈ atts, '&' ∉ a.value) := by
  obtain ⟨h1, h5, h6⟩ := h
  simp only [allAttsL, allTextsL, XNode.allAtts, XNode.allTexts, nsDecls_append, List.mem_append] at h1 h5 h6
  exact ⟨fun d hd => h1 d (Or.inl (Or.inl hd)), fun d hd => h5 d (Or.inl (Or.inl hd))⟩

theorem noDefault_append {ds scope : List (Str × Str)} (h : scope.lookup [] = none) (hd : ∀ d ∈ ds, d.1 ≠ []) :
    (ds ++ scope).lookup [] = none := by
  cases hl : (ds ++ scope).lookup [] with
  | none => rfl
  | some u =>
    rcases List.mem_append.mp (lookup_mem hl) with h' | h'
    · exact absurd rfl (hd _ h')
    · exact absurd h' (lookup_none h u)

/-- the names in a start tag -/
theorem tag_ok {f scope pre loc} {atts : List RawAttr} {nm as} {st : ElementStack} (hd : (nsDecls atts ++ scope).lookup [] = none)
    (hs : ∀ p ∈ pre :: (plainAtts atts).map (·.pre), p ≠ [] → (nsDecls atts ++ flat st).lookup p = (nsDecls atts ++ scope).lookup p)
    (hr : ∀ a ∈ atts, '&' ∉ a.value) (he : elemName (nsDecls atts ++ scope) pre loc = some nm)
    (ha : AttsMean f (nsDecls atts ++ scope) (plainAtts atts) as) :
    currentElement (elemState pre loc atts :: st) = some (.ok nm) ∧ currentAttributes (elemState pre loc atts :: st) = some (.ok as) := by
  refine ⟨currentElement_ok hd (hs pre (by simp)) he, ?_⟩
  have := resolveAttrs_ok (st := elemState pre loc atts :: st) ha
    (fun a h => hs a.pre (List.mem_cons_of_mem _ (List.mem_map.mpr ⟨a, h, rfl⟩))) (fun a h => hr a (plainAtts_sub h))
  simp only [currentAttributes]
  exact congrArg some this

/-- the token run over content follows the event run over what the content means -/
theorem follows_pieces {f : Str → Option Str} {n : Nat} {scope xs ns} (h : Pieces f scope xs ns) :
    ∀ {s : VState D V}, Good f xs → s.lastWasStart = false →
      (∀ nm, f nm = s.entities.lookup nm) → (∃ p, s.store.pats[s.cur]? = some p) →
      scope.lookup [] = none → inScopeL scope (flat s.stack) xs →
      Follows (declsL xs) s (runToks L n (toksL xs) s) (runR L n s.cur (eventsL ns) s.store) := by
  induction h with
  | nil =>
    intro s _ hl _ hv _ _
    exact ⟨s, rfl, rfl, rfl, hl, rfl, hv, rfl⟩
  | @text scope t t' xs ns hd _ ih =>
    intro s hg hl hf hv hs hc
    simp only [toksL, eventsL, XNode.toks, Node.events]
    refine Follows.append L (Follows.text L (decodeText_ok hf (hg.text t (by simp [allTextsL, XNode.allTexts])) hd))
      (fun s' hk => ?_) rfl
    exact ih hg.tail hk.last (hk.ents ▸ hf) hk.valid hs (by rw [hk.stack]; exact hc.2)
  | @cdata scope t xs ns _ ih =>
    intro s hg hl hf hv hs hc
    simp only [toksL, eventsL, XNode.toks, Node.events]
    refine Follows.append L (Follows.cdata L) (fun s' hk => ?_) rfl
    exact ih hg.tail hk.last (hk.ents ▸ hf) hk.valid hs (by rw [hk.stack]; exact hc.2)
  | @comment scope xs ns _ ih =>
    intro s hg hl hf hv hs hc
    simp only [toksL, XNode.toks]
    refine Follows.append L (es := []) (Follows.comment L hl hv) (fun s' hk => ?_) rfl
    exact ih hg.tail hk.last (hk.ents ▸ hf) hk.valid hs (by rw [hk.stack]; exact hc.2)
  | @pi scope xs ns _ ih =>
    intro s hg hl hf hv hs hc
    simp only [toksL, XNode.toks]
    refine Follows.append L (es := []) (Follows.pi L hl hv) (fun s' hk => ?_) rfl
    exact ih hg.tail hk.last (hk.ents ▸ hf) hk.valid hs (by rw [hk.stack]; exact hc.2)
  | @elem scope pre loc atts sc kids kns nm as xs ns he ha hk hsc _ ih1 ih2 =>
    intro s hg hl hf hv hs hc
    obtain ⟨p, hp⟩ := hv
    simp only [toksL, eventsL]
    obtain ⟨d1, d4⟩ := hg.atts
    simp only [inScopeL, XNode.inScope] at hc
    obtain ⟨⟨c1, _, c2⟩, c3⟩ := hc
    have hs1 := noDefault_append hs d1
    obtain ⟨hce, hca⟩ := tag_ok hs1 c1 d4 he ha
    let s1 : VState D V := { s with stack := elemState pre loc atts :: s.stack }
    have hk1 : Kept (nsDecls atts) s s1 := ⟨hl, rfl, ⟨p, hp⟩, rfl⟩
    refine Follows.append L (X := declsL kids ++ nsDecls atts) ?_ (fun s' hk' => ?_) rfl
    · cases sc with
      | true =>
        have := hsc rfl
        subst this
        cases hk
        simp only [XNode.toks, Node.events, eventsL, List.nil_append]
        rw [runToks_start L pre loc atts _ s hp]
        exact (Follows.selfClose L (s := s1) hce hca hl).weaken hk1 rfl
      | false =>
        simp only [XNode.toks, Node.events]
        rw [runToks_start L pre loc atts _ s hp]
        refine Follows.weaken (s' := s1) (Y := declsL kids) ?_ hk1 rfl
        refine Follows.append L (a := [.elementEnd .open]) (es := [.start nm as]) (s := s1)
          (Follows.open L (s := s1) hce hca) (fun s2 hk2 => ?_) (List.append_nil _).symm
        refine Follows.append L (ih1 hg.kids hk2.last (hk2.ents ▸ hf) hk2.valid hs1 ?_) (fun s3 hk3 => ?_) (List.nil_append _).symm
        · rw [hk2.stack]; exact c2
        · exact Follows.fin L hk3.last
    · exact ih2 hg.tail hk'.last (hk'.ents ▸ hf) hk'.valid hs (by rw [hk'.stack]; exact c3)

/-- the token run over unbroken content follows the event run over what the content means -/
theorem follows_content {f : Str → Option Str} {n : Nat} {scope xs ns} (h : Resolves f scope xs ns)
    {prev} {s : VState D V} (hg : Good f xs) (hu : unsplitL prev xs) (hl : s.lastWasStart = false)
    (hf : ∀ nm, f nm = s.entities.lookup nm) (hv : ∃ p, s.store.pats[s.cur]? = some p)
    (hs : scope.lookup [] = none) (hc : inScopeL scope (flat s.stack) xs) :
    Follows (declsL xs) s (runToks L n (toksL xs) s) (runR L n s.cur (eventsL ns) s.store) :=
  follows_pieces (h.pieces hu) hg hl hf hv hs hc

end
end Verif
