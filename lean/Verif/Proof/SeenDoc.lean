import Verif.Proof.Seen
/-
Whole documents as the validator reads them.
-/
set_option linter.unusedSectionVars false
namespace Verif.Look
variable {D V : Type} [DecidableEq D] [DecidableEq V] {L : Lib D V} {env : Env D V}

theorem lastEntities_ok (d : XDoc) (nm : Str) : d.lastEntities nm = ((declared d.prolog).reverse ++ predefined).lookup nm := by
  unfold XDoc.lastEntities
  rw [lookup_app, lookup_app, lookup_perm predefined_perm (by decide)]

/-- the prolog is read, the root element may follow -/
theorem doc_run {d : XDoc} {n : Nat} {s0 : VState D V} (hv : ∃ p, s0.store.pats[s0.cur]? = some p) :
    runToks L n d.toks s0 = runToks L n (d.root.toks ++
      d.epilog.map fun b => if b then Token.comment else .processingInstruction)
        { s0 with entities := (declared d.prolog).reverse ++ s0.entities } := by
  obtain ⟨p, hp⟩ := hv
  exact runToks_prolog _ d.prolog s0 hp

/-- the run over a document's tokens follows the run over the document as read -/
theorem doc_follows {d : XDoc} {node : Node} {n : Nat} {s0 : VState D V}
    (hm : SeenP d.lastEntities [] [d.root] [node]) (hg : d.Proper)
    (hl : s0.lastWasStart = false) (hv : ∃ p, s0.store.pats[s0.cur]? = some p) (hst : s0.stack = [])
    (he : s0.entities = predefined) :
    match runR L n s0.cur node.events s0.store with
    | .error e => runToks L n d.toks s0 = .error e
    | .ok (none, _) => ∃ err s', runToks L n d.toks s0 = .ok (.error err, s')
    | .ok (some c, st') => ∃ s', runToks L n d.toks s0 = .ok (.ok (), s') ∧ s'.store = st' ∧ s'.cur = c := by
  rw [doc_run hv]
  let s1 : VState D V := { s0 with entities := (declared d.prolog).reverse ++ s0.entities }
  have hf := follows (L := L) (n := n) hm (s := s1) hg hl
    (fun nm => by rw [lastEntities_ok]; simp [s1, he]) hv (by simp [s1, hst, flat])
  simp only [toksL, List.append_nil, eventsL] at hf
  rw [runToks_append]
  have hcur : runR L n s1.cur node.events s1.store = runR L n s0.cur node.events s0.store := rfl
  rw [hcur] at hf
  cases h : runR L n s0.cur node.events s0.store with
  | error e =>
    simp only [h, Follows] at hf
    simp only [s1] at hf
    simp only [hf]
  | ok r =>
    obtain ⟨o, st'⟩ := r
    cases o with
    | none =>
      simp only [h, Follows] at hf
      obtain ⟨err, s', hf⟩ := hf
      simp only [s1] at hf
      simp only [hf]
      exact ⟨err, s', rfl⟩
    | some c =>
      simp only [h, Follows] at hf
      obtain ⟨s', hf, h1, h2, hk⟩ := hf
      obtain ⟨q, hq⟩ := hk.valid
      simp only [s1] at hf
      simp only [hf]
      exact ⟨s', runToks_epilog d.epilog s' hq, h1, h2⟩

theorem root_elem {f read pre loc atts sc kids rs} (h : SeenP f read [.elem pre loc atts sc kids] rs) : ∃ nm as k, rs = [.elem nm as k] := by
  cases h with
  | elem _ _ _ h => cases h; exact ⟨_, _, _, rfl⟩

/-- a document whose tokens have been read without an error can be read -/
theorem doc_read {d : XDoc} {n : Nat} {s0 s' : VState D V} (hg : d.Proper)
    (hl : s0.lastWasStart = false) (hv : ∃ p, s0.store.pats[s0.cur]? = some p) (hst : s0.stack = [])
    (he : s0.entities = predefined) (h : runToks L n d.toks s0 = .ok (.ok (), s')) :
    ∃ nm as k, SeenP d.lastEntities [] [d.root] [.elem nm as k] := by
  rw [doc_run hv] at h
  obtain ⟨s2, h1, _⟩ := runToks_split h
  have hg' : d.root.proper := by
    have := hg
    unfold XDoc.Proper at this
    simp only [properL] at this
    exact this.1
  obtain ⟨r, hr⟩ := run_seen (L := L) (n := n) d.root hg' (s := { s0 with entities := (declared d.prolog).reverse ++ s0.entities }) hl hv h1
  have hst' : flat s0.stack = [] := by rw [hst]; rfl
  simp only [hst', he] at hr
  have e : (fun nm => ((declared d.prolog).reverse ++ predefined).lookup nm) = d.lastEntities := funext fun nm => (lastEntities_ok d nm).symm
  rw [e] at hr
  obtain ⟨nm, as, k, rfl⟩ := root_elem hr
  exact ⟨nm, as, k, hr⟩

/-- the root element in pieces, and joined -/
theorem root_join {d : XDoc} {nm as k} (h : SeenP d.lastEntities [] [d.root] [.elem nm as k]) :
    ∃ b kids, d.Seen (.elem nm as kids) ∧ (b = true → SeenBroken [] [d.root] nm) ∧ Split.Ch (SeenBroken [] [d.root]) b k kids := by
  obtain ⟨ns, h1, h2⟩ := seenP_pre (Sp := SeenBroken [] [d.root]) h fun nm h => h
  cases h2 with
  | elem hb hc h => cases h; exact ⟨_, _, h1, hb, hc⟩

theorem seen_unique_doc {d : XDoc} {node node'} (h : d.Seen node) (h' : d.Seen node') : node = node' := by
  have := seen_unique _ (lastEntities_ok d) h h'
  cases this; rfl

/-! ### documents that are read as they mean -/

theorem seenName_of {scope read : List (Str × Str)} {pre loc nm} (hd : scope.lookup [] = none)
    (hs : pre ≠ [] → read.lookup pre = scope.lookup pre) : seenName read pre loc = some nm ↔ elemName scope pre loc = some nm := by
  unfold seenName elemName
  by_cases h : pre = []
  · rw [if_pos h, if_pos h, hd]
  · rw [if_neg h, if_neg h, hs h]

theorem atts_of {f} {scope read : List (Str × Str)} {as bs} (h : AttsMean f scope as bs) :
    (∀ a ∈ as, a.pre ≠ [] → read.lookup a.pre = scope.lookup a.pre) → (∀ a ∈ as, '&' ∉ a.value) → SeenAtts read as bs := by
  induction h with
  | nil => intros; exact .nil
  | @cons a nm v as bs h1 h2 _ ih =>
    intro hx hr
    have hv := h2.plain (hr a (by simp))
    subst hv
    refine .cons ?_ (ih (fun a ha => hx a (by simp [ha])) (fun a ha => hr a (by simp [ha])))
    unfold attrName at h1
    unfold seenName
    by_cases h : a.pre = []
    · rw [if_pos h] at h1 ⊢; exact h1
    · rw [if_neg h] at h1 ⊢; rw [hx a (by simp) h]; exact h1

theorem seen_of {f : Str → Option Str} {ents : List (Str × Str)} (hf : ∀ nm, f nm = ents.lookup nm) {scope xs ns}
    (h : Resolves f scope xs ns) : ∀ {read}, Good f xs → scope.lookup [] = none → inScopeL scope read xs → Seen f read xs ns := by
  induction h with
  | nil => intros; exact .nil
  | @text scope t t' xs ns hd _ ih =>
    intro read hg hs hc
    exact .text ((decodeText_iff hf).mp (decodeText_ok hf (hg.text t (by simp [allTextsL, XNode.allTexts])) hd))
      (ih hg.tail hs (by simpa [XNode.decls] using hc.2))
  | cdata _ ih => intro read hg hs hc; exact .cdata (ih hg.tail hs (by simpa [XNode.decls] using hc.2))
  | comment _ ih => intro read hg hs hc; exact .comment (ih hg.tail hs (by simpa [XNode.decls] using hc.2))
  | pi _ ih => intro read hg hs hc; exact .pi (ih hg.tail hs (by simpa [XNode.decls] using hc.2))
  | @elem scope pre loc atts sc kids kns nm as xs ns he ha _ hsc _ ih1 ih2 =>
    intro read hg hs hc
    obtain ⟨d1, d4⟩ := hg.atts
    simp only [inScopeL, XNode.inScope] at hc
    obtain ⟨⟨c1, _, c2⟩, c3⟩ := hc
    have hs1 := noDefault_append hs d1
    refine .elem ((seenName_of hs1 (c1 pre (by simp))).mpr he)
      (atts_of ha (fun a h => c1 a.pre (List.mem_cons_of_mem _ (List.mem_map.mpr ⟨a, h, rfl⟩))) (fun a h => d4 a (plainAtts_sub h)))
      (ih1 hg.kids hs1 c2) (ih2 hg.tail hs ?_)
    simpa [XNode.decls] using c3

theorem broken_of {f : Str → Option Str} {read xs nm} (h : SeenBroken read xs nm) : ∀ {scope}, Good f xs → scope.lookup [] = none →
    inScopeL scope read xs → BrokenIn scope xs nm := by
  induction h with
  | here h1 h2 =>
    intro scope hg hs hc
    simp only [inScopeL, XNode.inScope] at hc
    exact .here ((seenName_of (noDefault_append hs hg.atts.1) (hc.1.1 _ (by simp))).mp h1) h2
  | inside _ ih =>
    intro scope hg hs hc
    simp only [inScopeL, XNode.inScope] at hc
    exact .inside (ih hg.kids (noDefault_append hs hg.atts.1) hc.1.2.2)
  | later _ ih =>
    intro scope hg hs hc
    simp only [inScopeL] at hc
    exact .later (ih hg.tail hs hc.2)

theorem entities_of {d : XDoc} (hn : ((declared d.prolog ++ xmlEntities).map Prod.fst).Nodup) : d.lastEntities = d.entities :=
  funext fun nm => by rw [lastEntities_ok, entities_ok hn]

theorem proper_of {f scope xs ns} (h : Resolves f scope xs ns) : properL xs := by
  induction h with
  | nil => trivial
  | text _ _ ih => exact ⟨trivial, ih⟩
  | cdata _ ih => exact ⟨trivial, ih⟩
  | comment _ ih => exact ⟨trivial, ih⟩
  | pi _ ih => exact ⟨trivial, ih⟩
  | elem _ _ _ h _ ih1 ih2 => exact ⟨⟨h, ih1⟩, ih2⟩

end Verif.Look
