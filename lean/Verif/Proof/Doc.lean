import Verif.Proof.Sim
import Verif.Proof.Top
/-
Whole documents: prolog, root element, epilog.
-/
set_option linter.unusedSectionVars false
namespace Verif
variable {D V : Type} [DecidableEq D] [DecidableEq V] {L : Lib D V}

theorem lookup_of_nodup {α β : Type} [BEq α] [LawfulBEq α] {k : α} {v : β} : ∀ {l : List (α × β)},
    (l.map Prod.fst).Nodup → (k, v) ∈ l → l.lookup k = some v
  | [], _, h => by cases h
  | (a, b) :: l, hn, h => by
    simp only [List.map_cons, List.nodup_cons] at hn
    simp only [List.lookup_cons]
    rcases List.mem_cons.mp h with h | h'
    · cases h; simp
    · have : k ≠ a := by
        intro e
        exact hn.1 (List.mem_map.mpr ⟨(k, v), h', e⟩)
      have hb : (k == a) = false := by simpa using this
      rw [hb]
      exact lookup_of_nodup hn.2 h'

theorem lookup_perm {α β : Type} [BEq α] [LawfulBEq α] {l l' : List (α × β)} (hp : l.Perm l')
    (hn : (l.map Prod.fst).Nodup) (k : α) : l.lookup k = l'.lookup k := by
  cases h : l.lookup k with
  | some v =>
    exact (lookup_of_nodup ((hp.map _).nodup_iff.mp hn) (hp.mem_iff.mp (lookup_mem h))).symm
  | none =>
    cases h' : l'.lookup k with
    | none => rfl
    | some v => exact absurd (hp.mem_iff.mpr (lookup_mem h')) (lookup_none h v)

theorem predefined_perm : predefined.Perm xmlEntities := by
  unfold predefined xmlEntities
  decide

/-- the prolog changes the entity table only -/
theorem runToks_prolog {n : Nat} {p : Pat D V} (rest : List Token) : ∀ (pl : List Prolog) (s : VState D V),
    s.store.pats[s.cur]? = some p →
    runToks L n (pl.map Prolog.tok ++ rest) s = runToks L n rest
      { s with entities := (declared pl).reverse ++ s.entities }
  | [], s, _ => by simp [declared]
  | x :: pl, s, h => by
    simp only [List.map_cons, List.cons_append, runToks]
    rw [ST.bind_run]
    cases x with
    | entity nm v =>
      have : validate L n (Prolog.entity nm v).tok s
          = .ok (.ok (), { s with entities := (nm, v) :: s.entities }) := by
        simp only [Prolog.tok, validate, ST.bind_run, ST.get_run, liftS, patt_ok h, ST.set_run, ST.pure_run]
      simp only [this]
      refine (runToks_prolog rest pl { s with entities := (nm, v) :: s.entities } h).trans ?_
      simp [declared]
    | declaration | comment | pi | dtdStart | dtdEnd | emptyDtd =>
      all_goals
        simp only [Prolog.tok, validate, ST.bind_run, ST.get_run, liftS, patt_ok h, ST.pure_run]
        refine (runToks_prolog rest pl s h).trans ?_
        simp [declared]

/-- trailing comments and processing instructions change nothing -/
theorem runToks_epilog {n : Nat} {p : Pat D V} : ∀ (ep : List Bool) (s : VState D V),
    s.store.pats[s.cur]? = some p →
    runToks L n (ep.map fun b => if b then Token.comment else .processingInstruction) s = .ok (.ok (), s)
  | [], s, _ => rfl
  | b :: ep, s, h => by
    simp only [List.map_cons, runToks]
    rw [ST.bind_run]
    cases b
    all_goals
      simp only [if_true, Bool.false_eq_true, if_false, validate, ST.bind_run, ST.get_run, liftS, patt_ok h,
        ST.pure_run]
      exact runToks_epilog ep s h

/-- the entity table after the prolog is the one of the specification -/
theorem entities_ok {d : XDoc} (hn : ((declared d.prolog ++ xmlEntities).map Prod.fst).Nodup) (nm : Str) :
    d.entities nm = ((declared d.prolog).reverse ++ predefined).lookup nm :=
  lookup_perm (((declared d.prolog).reverse_perm.symm).append predefined_perm.symm) hn nm

/-- the run over a document's tokens follows the run over its pieces -/
theorem doc_follows' {d : XDoc} {node : Node} {n : Nat} {s0 : VState D V}
    (hm : Pieces d.entities [("xml".toList, xmlUri)] [d.root] [node]) (hb : d.MostlyTame)
    (hl : s0.lastWasStart = false) (hv : ∃ p, s0.store.pats[s0.cur]? = some p) (hst : s0.stack = [])
    (he : s0.entities = predefined) :
    match runR L n s0.cur node.events s0.store with
    | .error e => runToks L n d.toks s0 = .error e
    | .ok (none, _) => ∃ err s', runToks L n d.toks s0 = .ok (.error err, s')
    | .ok (some c, st') => ∃ s', runToks L n d.toks s0 = .ok (.ok (), s') ∧ s'.store = st' ∧ s'.cur = c := by
  obtain ⟨p, hp⟩ := hv
  let s1 : VState D V := { s0 with entities := (declared d.prolog).reverse ++ s0.entities }
  have hg : Good d.entities [d.root] := ⟨hb.noDefault, hb.noRef, hb.text⟩
  have hf := follows_pieces (L := L) (n := n) hm (s := s1) hg hl
    (fun nm => by rw [entities_ok hb.names]; simp [s1, he]) ⟨p, hp⟩ (by decide) (by simpa [s1, hst, flat] using hb.inScope)
  simp only [toksL, List.append_nil, eventsL] at hf
  have hrun : runToks L n d.toks s0 = runToks L n (d.root.toks ++
      d.epilog.map fun b => if b then Token.comment else .processingInstruction) s1 :=
    runToks_prolog _ d.prolog s0 hp
  rw [hrun, runToks_append]
  have hcur : runR L n s1.cur node.events s1.store = runR L n s0.cur node.events s0.store := rfl
  rw [hcur] at hf
  cases h : runR L n s0.cur node.events s0.store with
  | error e =>
    simp only [h, Follows] at hf
    simp only [hf]
  | ok r =>
    obtain ⟨o, st'⟩ := r
    cases o with
    | none =>
      simp only [h, Follows] at hf
      obtain ⟨err, s', hf⟩ := hf
      simp only [hf]
      exact ⟨err, s', rfl⟩
    | some c =>
      simp only [h, Follows] at hf
      obtain ⟨s', hf, h1, h2, hk⟩ := hf
      obtain ⟨q, hq⟩ := hk.valid
      simp only [hf]
      exact ⟨s', runToks_epilog d.epilog s' hq, h1, h2⟩

theorem XDoc.Tame.mostly {d : XDoc} (ht : d.Tame) : d.MostlyTame :=
  ⟨ht.body.inScope, ht.body.noDefault, ht.body.noRef, ht.body.text, ht.names⟩

/-- the run over a document's tokens follows the run over its meaning -/
theorem doc_follows {d : XDoc} {node : Node} {n : Nat} {s0 : VState D V} (hm : d.Means node) (ht : d.Tame)
    (hl : s0.lastWasStart = false) (hv : ∃ p, s0.store.pats[s0.cur]? = some p) (hst : s0.stack = [])
    (he : s0.entities = predefined) :
    match runR L n s0.cur node.events s0.store with
    | .error e => runToks L n d.toks s0 = .error e
    | .ok (none, _) => ∃ err s', runToks L n d.toks s0 = .ok (.error err, s')
    | .ok (some c, st') => ∃ s', runToks L n d.toks s0 = .ok (.ok (), s') ∧ s'.store = st' ∧ s'.cur = c :=
  doc_follows' (Resolves.pieces hm ht.body.unsplit) ht.mostly hl hv hst he

theorem XDoc.Means.elem {d : XDoc} {node} (h : d.Means node) :
    ∃ nm as kids, node = .elem nm as kids := by
  unfold XDoc.Means XDoc.root at h
  generalize hxs : [XNode.elem d.pre d.loc d.atts d.selfClose d.kids] = xs at h
  generalize hns : [node] = ns at h
  cases h with
  | elem => cases hns; exact ⟨_, _, _, rfl⟩
  | _ => cases hxs

theorem XDoc.Means.noAdj {d : XDoc} {node} (h : d.Means node) (ht : d.Tame) : node.NoAdj := by
  have := (Resolves.unsplit h ht.body.unsplit).1
  exact this.1

theorem newValidator_ok {env : Env D V} {n : Nat} {start : Pattern D V} {s : VState D V}
    (h : newValidator env n start = .ok s) :
    compile env n start Store.init = .ok (s.cur, s.store) ∧ s.lastWasStart = false ∧ s.stack = [] ∧
      s.entities = predefined := by
  unfold newValidator at h
  split at h
  · cases h
  · rename_i hc
    cases h
    exact ⟨hc, rfl, rfl, rfl⟩

theorem newValidator_valid {env : Env D V} {n : Nat} {start : Pattern D V} {s : VState D V} {c : Bool}
    (hs : SchemaOK L env start c) (h : newValidator env n start = .ok s) :
    ∃ p, s.store.pats[s.cur]? = some p := by
  obtain ⟨hc, _⟩ := newValidator_ok h
  obtain ⟨hrep, hall, _⟩ := compile_rep hs.guarded hc
  obtain ⟨Q, hQ, hw⟩ := hs
  obtain ⟨P, hP, _⟩ := hrep.tyOff hall hw
  exact ⟨P, hP⟩

end Verif
