import Verif.Proof.Taken
import Verif.Proof.SplitDoc
/-
The validator's run over any document: it follows the run over the document as read, and does not get to the end of a document
that cannot be read.
-/
set_option linter.unusedSectionVars false
namespace Verif.Look
variable {D V : Type}

/-! ### names -/

theorem tryLookup_iff {st : ElementStack} {pre : Str} {o : Option Str} :
    tryLookupNs st pre = .ok o ↔ (pre = [] ∧ o = none) ∨ (pre ≠ [] ∧ ∃ u, (flat st).lookup pre = some u ∧ o = some u) := by
  unfold tryLookupNs
  rw [lookupNs_flat]
  by_cases h : pre = []
  · rw [if_pos h]
    constructor
    · intro e; cases e; exact Or.inl ⟨h, rfl⟩
    · rintro (⟨_, rfl⟩ | ⟨h', _⟩)
      · rfl
      · exact absurd h h'
  · rw [if_neg h]
    cases hl : (flat st).lookup pre with
    | none => simp [h]
    | some u =>
      constructor
      · intro e; cases e; exact Or.inr ⟨h, u, rfl, rfl⟩
      · rintro (⟨h', _⟩ | ⟨_, u', e, rfl⟩)
        · exact absurd h' h
        · cases e; rfl

theorem seenName_iff {read pre loc} {nm : QName} : seenName read pre loc = some nm ↔
    ∃ o, ((pre = [] ∧ o = none) ∨ (pre ≠ [] ∧ ∃ u, read.lookup pre = some u ∧ o = some u)) ∧ nm = ⟨o, loc⟩ := by
  unfold seenName
  by_cases h : pre = []
  · simp [h, eq_comm]
  · rw [if_neg h]
    cases hl : read.lookup pre with
    | none => simp [h]
    | some u => simp [h, eq_comm]

theorem currentElement_iff {pre loc atts st nm} : currentElement (elemState pre loc atts :: st) = some (.ok nm) ↔
    seenName (nsDecls atts ++ flat st) pre loc = some nm := by
  rw [seenName_iff]
  have hi := fun o => tryLookup_iff (st := elemState pre loc atts :: st) (pre := pre) (o := o)
  show (match tryLookupNs (elemState pre loc atts :: st) pre with
    | .ok ns => some (.ok ⟨ns, loc⟩) | .error err => some (.error err)) = some (Except.ok nm) ↔ _
  cases ht : tryLookupNs (elemState pre loc atts :: st) pre with
  | error e =>
    constructor
    · intro h; cases h
    · rintro ⟨o, h, _⟩
      have := (hi o).mpr h
      rw [ht] at this; cases this
  | ok o =>
    constructor
    · intro h; cases h; exact ⟨o, (hi o).mp ht, rfl⟩
    · rintro ⟨o', h, rfl⟩
      have := (hi o').mpr h
      rw [ht] at this; cases this; rfl

theorem resolveAttr_iff {st : ElementStack} {a : RawAttr} {b : Attr} :
    resolveAttr st ⟨a.pre, a.loc, a.value⟩ = .ok b ↔ ∃ nm, seenName (flat st) a.pre a.loc = some nm ∧ b = ⟨nm, a.value⟩ := by
  have hi := fun o => tryLookup_iff (st := st) (pre := a.pre) (o := o)
  unfold resolveAttr
  by_cases h : a.pre = []
  · simp only [h, if_true]
    constructor
    · intro e; cases e; exact ⟨_, rfl, rfl⟩
    · rintro ⟨nm, e, rfl⟩; cases e; rfl
  · rw [if_neg h]
    cases ht : tryLookupNs st a.pre with
    | error e =>
      simp only
      constructor
      · intro h; cases h
      · rintro ⟨nm, h1, _⟩
        obtain ⟨o, h2, _⟩ := seenName_iff.mp h1
        have := (hi o).mpr h2
        rw [ht] at this; cases this
    | ok o =>
      simp only
      constructor
      · intro h; cases h; exact ⟨_, seenName_iff.mpr ⟨o, (hi o).mp ht, rfl⟩, rfl⟩
      · rintro ⟨nm, h1, rfl⟩
        obtain ⟨o', h2, rfl⟩ := seenName_iff.mp h1
        have := (hi o').mpr h2
        rw [ht] at this; cases this; rfl

theorem resolveAttrs_iff {st : ElementStack} : ∀ {as : List RawAttr} {bs : List Attr},
    resolveAttrs st (as.map fun a => ⟨a.pre, a.loc, a.value⟩) = .ok bs ↔ SeenAtts (flat st) as bs
  | [], bs => by
    constructor
    · intro h; cases h; exact .nil
    · intro h; cases h; rfl
  | a :: as, bs => by
    simp only [List.map_cons, resolveAttrs]
    cases h1 : resolveAttr st ⟨a.pre, a.loc, a.value⟩ with
    | error e =>
      simp only
      constructor
      · intro h; cases h
      · intro h
        cases h with
        | cons h2 _ => rw [resolveAttr_iff.mpr ⟨_, h2, rfl⟩] at h1; cases h1
    | ok b =>
      obtain ⟨nm, h2, rfl⟩ := resolveAttr_iff.mp h1
      simp only
      cases h3 : resolveAttrs st (as.map fun a => ⟨a.pre, a.loc, a.value⟩) with
      | error e =>
        simp only
        constructor
        · intro h; cases h
        · intro h
          cases h with
          | cons _ h4 => rw [resolveAttrs_iff.mpr h4] at h3; cases h3
      | ok cs =>
        simp only
        constructor
        · intro h; cases h; exact .cons h2 (resolveAttrs_iff.mp h3)
        · intro h
          cases h with
          | cons h5 h4 =>
            rw [h2] at h5; cases h5
            rw [resolveAttrs_iff.mpr h4] at h3; cases h3; rfl

theorem currentAttributes_iff {pre loc atts st as} : currentAttributes (elemState pre loc atts :: st) = some (.ok as) ↔
    SeenAtts (nsDecls atts ++ flat st) (plainAtts atts) as := by
  have := resolveAttrs_iff (st := elemState pre loc atts :: st) (as := plainAtts atts) (bs := as)
  constructor
  · intro h; exact this.mp (Option.some.inj h)
  · intro h; exact congrArg some (this.mpr h)

/-! ### the document as read, character data left in pieces -/

inductive SeenP (ents : Str → Option Str) : List (Str × Str) → List XNode → List Node → Prop
  | nil {read} : SeenP ents read [] []
  | text {read s t xs ns} : TextSeen ents s t → SeenP ents read xs ns → SeenP ents read (.text s :: xs) (.text t :: ns)
  | cdata {read s xs ns} : SeenP ents read xs ns → SeenP ents read (.cdata s :: xs) (.text s :: ns)
  | comment {read xs ns} : SeenP ents read xs ns → SeenP ents read (.comment :: xs) ns
  | pi {read xs ns} : SeenP ents read xs ns → SeenP ents read (.pi :: xs) ns
  | elem {read pre loc atts sc kids kns nm as xs ns} : seenName (nsDecls atts ++ read) pre loc = some nm →
      SeenAtts (nsDecls atts ++ read) (plainAtts atts) as → SeenP ents (nsDecls atts ++ read) kids kns →
      SeenP ents (declsL kids ++ (nsDecls atts ++ read)) xs ns →
      SeenP ents read (.elem pre loc atts sc kids :: xs) (.elem nm as kns :: ns)

section
variable [DecidableEq D] [DecidableEq V] {L : Lib D V}

/-- the token run over content follows the event run over the content as read -/
theorem follows {f : Str → Option Str} {n : Nat} {read xs ns} (h : SeenP f read xs ns) :
    ∀ {s : VState D V}, properL xs → s.lastWasStart = false →
      (∀ nm, f nm = s.entities.lookup nm) → (∃ p, s.store.pats[s.cur]? = some p) → flat s.stack = read →
      Follows (declsL xs) s (runToks L n (toksL xs) s) (runR L n s.cur (eventsL ns) s.store) := by
  induction h with
  | nil =>
    intro s _ hl _ hv _
    exact ⟨s, rfl, rfl, rfl, hl, rfl, hv, rfl⟩
  | @text read t t' xs ns hd _ ih =>
    intro s hg hl hf hv hs
    simp only [properL] at hg
    simp only [toksL, eventsL, XNode.toks, Node.events]
    refine Follows.append L (Follows.text L ((decodeText_iff hf).mpr hd)) (fun s' hk => ?_) rfl
    exact ih hg.2 hk.last (hk.ents ▸ hf) hk.valid (by rw [hk.stack]; exact hs)
  | @cdata read t xs ns _ ih =>
    intro s hg hl hf hv hs
    simp only [properL] at hg
    simp only [toksL, eventsL, XNode.toks, Node.events]
    refine Follows.append L (Follows.cdata L) (fun s' hk => ?_) rfl
    exact ih hg.2 hk.last (hk.ents ▸ hf) hk.valid (by rw [hk.stack]; exact hs)
  | @comment read xs ns _ ih =>
    intro s hg hl hf hv hs
    simp only [properL] at hg
    simp only [toksL, XNode.toks]
    refine Follows.append L (es := []) (Follows.comment L hl hv) (fun s' hk => ?_) rfl
    exact ih hg.2 hk.last (hk.ents ▸ hf) hk.valid (by rw [hk.stack]; exact hs)
  | @pi read xs ns _ ih =>
    intro s hg hl hf hv hs
    simp only [properL] at hg
    simp only [toksL, XNode.toks]
    refine Follows.append L (es := []) (Follows.pi L hl hv) (fun s' hk => ?_) rfl
    exact ih hg.2 hk.last (hk.ents ▸ hf) hk.valid (by rw [hk.stack]; exact hs)
  | @elem read pre loc atts sc kids kns nm as xs ns he ha hk _ ih1 ih2 =>
    intro s hg hl hf hv hs
    simp only [properL, XNode.proper] at hg
    obtain ⟨p, hp⟩ := hv
    subst hs
    simp only [toksL, eventsL]
    have hce := currentElement_iff.mpr he
    have hca := currentAttributes_iff (pre := pre) (loc := loc).mpr ha
    let s1 : VState D V := { s with stack := elemState pre loc atts :: s.stack }
    have hk1 : Kept (nsDecls atts) s s1 := ⟨hl, rfl, ⟨p, hp⟩, rfl⟩
    refine Follows.append L (X := declsL kids ++ nsDecls atts) ?_ (fun s' hk' => ?_) rfl
    · cases sc with
      | true =>
        have := hg.1.1 rfl
        subst this
        cases hk
        simp only [XNode.toks, Node.events, eventsL, List.nil_append]
        rw [runToks_start L pre loc atts _ s hp]
        exact (Follows.selfClose L (s := s1) hce hca hl).weaken hk1 rfl
      | false =>
        simp only [XNode.toks, Node.events]
        rw [runToks_start L pre loc atts _ s hp]
        refine Follows.weaken (s' := s1) (Y := declsL kids) ?_ hk1 rfl
        refine Follows.append L (a := [.elementEnd .open]) (es := [.start nm as]) (s := s1)
          (Follows.open L (s := s1) hce hca) (fun s2 hk2 => ?_) (List.append_nil _).symm
        refine Follows.append L (ih1 hg.1.2 hk2.last (hk2.ents ▸ hf) hk2.valid ?_) (fun s3 hk3 => ?_) (List.nil_append _).symm
        · rw [hk2.stack]; rfl
        · exact Follows.fin L hk3.last
    · exact ih2 hg.2 hk'.last (hk'.ents ▸ hf) hk'.valid (by rw [hk'.stack, List.append_assoc])

/-! ### what has been run over can be read -/

theorem _root_.Verif.Follows.kept {X} {s s' : VState D V} {y} (h : Follows X s (.ok (.ok (), s')) y) : Kept X s s' := by
  match y, h with
  | .error e, h => cases h
  | .ok (none, _), h => obtain ⟨_, _, h⟩ := h; cases h
  | .ok (some c, st'), h =>
    obtain ⟨s2, g1, _, _, g4⟩ := h
    cases g1; exact g4

theorem close_names {n : Nat} {stack : ElementStack} {evt : Token} {p : Pat D V} {st st' : Store D V} {i : Nat}
    (h : closeElementStart L n stack evt p st = .ok (.ok i, st')) :
    ∃ nm as, currentElement stack = some (.ok nm) ∧ currentAttributes stack = some (.ok as) := by
  unfold closeElementStart at h
  cases hnm : currentElement stack with
  | none => simp only [hnm] at h; cases h
  | some o =>
    cases o with
    | error e => simp [hnm] at h
    | ok nm =>
      simp only [hnm, ST.bind_ok] at h
      obtain ⟨d, s1, _, dp, s2, _, h⟩ := h
      split at h
      · simp at h
      · cases has : currentAttributes stack with
        | none => simp only [has] at h; cases h
        | some o =>
          cases o with
          | error e => simp [has] at h
          | ok as => exact ⟨nm, as, rfl, rfl⟩

theorem open_names {n : Nat} {s s' : VState D V} {e : ElementEnd} (he : ∀ a b, e ≠ .close a b)
    (h : validate L n (.elementEnd e) s = .ok (.ok (), s')) :
    ∃ nm as, currentElement s.stack = some (.ok nm) ∧ currentAttributes s.stack = some (.ok as) := by
  unfold validate at h
  rw [ST.bind_of_ok (ST.get_run s)] at h
  simp only [ST.bind_ok] at h
  obtain ⟨p, s1, _, h⟩ := h
  cases e with
  | close a b => exact absurd rfl (he a b)
  | «open» =>
    simp only [ST.bind_ok] at h
    obtain ⟨r, s2, h2, h⟩ := h
    simp only [liftS] at h2
    split at h2
    · rename_i hc
      cases h2
      cases r with
      | error e => simp at h
      | ok i => exact close_names hc
    · cases h2
  | empty =>
    simp only [ST.bind_ok] at h
    obtain ⟨r, s2, h2, h⟩ := h
    simp only [liftS] at h2
    split at h2
    · rename_i hc
      cases h2
      cases r with
      | error e => simp at h
      | ok i => exact close_names hc
    · cases h2

theorem text_decodes {n : Nat} {t : Str} {s s' : VState D V} (h : validate L n (.text t) s = .ok (.ok (), s')) :
    ∃ u, decodeText s.entities t = .ok u := by
  unfold validate at h
  rw [ST.bind_of_ok (ST.get_run s)] at h
  simp only [ST.bind_ok] at h
  obtain ⟨p, s1, _, h⟩ := h
  cases hd : decodeText s.entities t with
  | ok u => exact ⟨u, rfl⟩
  | error e => simp [hd] at h

theorem runToks_split {n : Nat} {a b : List Token} {s s' : VState D V} (h : runToks L n (a ++ b) s = .ok (.ok (), s')) :
    ∃ s1, runToks L n a s = .ok (.ok (), s1) ∧ runToks L n b s1 = .ok (.ok (), s') := by
  rw [runToks_append] at h
  split at h
  · cases h
  · cases h
  · rename_i s1 h1; exact ⟨s1, h1, h⟩

theorem runToks_one {n : Nat} {t : Token} {s s' : VState D V} (h : runToks L n [t] s = .ok (.ok (), s')) :
    validate L n t s = .ok (.ok (), s') := by
  simp only [runToks, ST.bind_run] at h
  cases hv : validate L n t s with
  | error e => rw [hv] at h; cases h
  | ok r =>
    obtain ⟨r, s1⟩ := r
    rw [hv] at h
    cases r with
    | error e => cases h
    | ok u => cases h; rfl

theorem seenP_cons {f read x xs r rs} (h1 : SeenP f read [x] r) (h2 : SeenP f (x.decls ++ read) xs rs) :
    SeenP f read (x :: xs) (r ++ rs) := by
  cases h1 with
  | text h h' => cases h'; exact .text h h2
  | cdata h' => cases h'; exact .cdata h2
  | comment h' => cases h'; exact .comment h2
  | pi h' => cases h'; exact .pi h2
  | elem h3 h4 h5 h' =>
    cases h'
    refine .elem h3 h4 h5 ?_
    simpa [XNode.decls] using h2

mutual
theorem run_seen {n : Nat} : ∀ (x : XNode) {s s' : VState D V}, x.proper → s.lastWasStart = false →
    (∃ p, s.store.pats[s.cur]? = some p) → runToks L n x.toks s = .ok (.ok (), s') →
    ∃ r, SeenP (fun nm => s.entities.lookup nm) (flat s.stack) [x] r
  | .text t, s, s', _, _, _, h => by
    obtain ⟨u, hu⟩ := text_decodes (runToks_one h)
    exact ⟨_, .text ((decodeText_iff fun _ => rfl).mp hu) .nil⟩
  | .cdata t, s, s', _, _, _, _ => ⟨_, .cdata .nil⟩
  | .comment, s, s', _, _, _, _ => ⟨_, .comment .nil⟩
  | .pi, s, s', _, _, _, _ => ⟨_, .pi .nil⟩
  | .elem pre loc atts true kids, s, s', hg, hl, hv, h => by
    simp only [XNode.proper] at hg
    have := hg.1 trivial
    subst this
    obtain ⟨p, hp⟩ := hv
    simp only [XNode.toks] at h
    rw [runToks_start L pre loc atts _ s hp] at h
    obtain ⟨nm, as, h1, h2⟩ := open_names (by simp) (runToks_one h)
    exact ⟨_, .elem (currentElement_iff.mp h1) (currentAttributes_iff.mp h2) .nil .nil⟩
  | .elem pre loc atts false kids, s, s', hg, hl, hv, h => by
    simp only [XNode.proper] at hg
    obtain ⟨p, hp⟩ := hv
    simp only [XNode.toks] at h
    rw [runToks_start L pre loc atts _ s hp] at h
    obtain ⟨s2, h1, h⟩ := runToks_split (a := [.elementEnd .open]) h
    obtain ⟨s3, h3, _⟩ := runToks_split h
    obtain ⟨nm, as, hce, hca⟩ := open_names (by simp) (runToks_one h1)
    have hk := Follows.open L (n := n) hce hca
    rw [h1] at hk
    have hk := hk.kept
    obtain ⟨ks, hks⟩ := run_seenL kids hg.2 hk.last hk.valid h3
    rw [hk.stack, hk.ents] at hks
    exact ⟨_, .elem (currentElement_iff.mp hce) (currentAttributes_iff.mp hca) hks .nil⟩
theorem run_seenL {n : Nat} : ∀ (xs : List XNode) {s s' : VState D V}, properL xs → s.lastWasStart = false →
    (∃ p, s.store.pats[s.cur]? = some p) → runToks L n (toksL xs) s = .ok (.ok (), s') →
    ∃ r, SeenP (fun nm => s.entities.lookup nm) (flat s.stack) xs r
  | [], _, _, _, _, _, _ => ⟨_, .nil⟩
  | x :: xs, s, s', hg, hl, hv, h => by
    simp only [properL] at hg
    simp only [toksL] at h
    obtain ⟨s1, h1, h2⟩ := runToks_split h
    obtain ⟨r, hr⟩ := run_seen x hg.1 hl hv h1
    have hk := follows (L := L) (n := n) hr (by simp only [properL]; exact ⟨hg.1, trivial⟩) hl (fun _ => rfl) hv rfl
    simp only [toksL, List.append_nil] at hk
    rw [h1] at hk
    have hk := hk.kept
    simp only [declsL, List.nil_append] at hk
    obtain ⟨rs, hrs⟩ := run_seenL xs hg.2 hk.last hk.valid h2
    rw [hk.stack, hk.ents] at hrs
    exact ⟨_, seenP_cons hr hrs⟩
end
end

/-! ### joined and in pieces -/

theorem flatNA_of {f read xs rs} (h : SeenP f read xs rs) : ∀ {prev}, ¬ brokenText prev xs →
    FlatNA rs ∧ (prev = true → NoTextHead rs) := by
  induction h with
  | nil => intro prev _; exact ⟨by intro x s t y; simp, fun _ s c => by simp⟩
  | text _ _ ih =>
    intro prev h
    simp only [brokenText, not_or] at h
    obtain ⟨h1, h2⟩ := ih h.2
    exact ⟨Split.flatNA_cons h1 fun _ _ => h2 rfl, fun e => absurd e h.1⟩
  | cdata _ ih =>
    intro prev h
    simp only [brokenText, not_or] at h
    obtain ⟨h1, h2⟩ := ih h.2
    exact ⟨Split.flatNA_cons h1 fun _ _ => h2 rfl, fun e => absurd e h.1⟩
  | comment _ ih => intro prev h; simp only [brokenText] at h; exact ih h
  | pi _ ih => intro prev h; simp only [brokenText] at h; exact ih h
  | elem _ _ _ _ _ ih =>
    intro prev h
    simp only [brokenText] at h
    exact ⟨Split.flatNA_cons (ih h).1 nofun, fun _ s c => nofun⟩

/-- pieces as read, and joined -/
theorem seenP_pre {f read xs rs} {Sp : QName → Prop} (h : SeenP f read xs rs) : (∀ nm, SeenBroken read xs nm → Sp nm) →
    ∃ ns, Seen f read xs ns ∧ Split.Pre Sp rs ns := by
  induction h with
  | nil => intro _; exact ⟨[], .nil, .nil⟩
  | text h _ ih => intro hb; obtain ⟨rs, h1, h2⟩ := ih fun nm h => hb nm (.later h); exact ⟨_, .text h h1, .text h2⟩
  | cdata _ ih => intro hb; obtain ⟨rs, h1, h2⟩ := ih fun nm h => hb nm (.later h); exact ⟨_, .cdata h1, .text h2⟩
  | comment _ ih => intro hb; obtain ⟨rs, h1, h2⟩ := ih fun nm h => hb nm (.later h); exact ⟨_, .comment h1, h2⟩
  | pi _ ih => intro hb; obtain ⟨rs, h1, h2⟩ := ih fun nm h => hb nm (.later h); exact ⟨_, .pi h1, h2⟩
  | @elem read pre loc atts sc kids kns nm as xs ns h1 h2 h3 _ ih1 ih2 =>
    intro hb
    obtain ⟨rs, g1, g2⟩ := ih2 fun nm h => hb nm (.later (by simpa [XNode.decls] using h))
    obtain ⟨ks, k1, k2⟩ := ih1 fun nm h => hb nm (.inside h)
    refine ⟨.elem nm as (joinText ks) :: rs, .elem h1 h2 k1 g1, ?_⟩
    cases Classical.em (brokenText false kids) with
    | inl hbr => exact .elem (b := true) (fun _ => hb nm (.here h1 hbr)) (k2.ch nofun) g2
    | inr hbr => exact .elem (b := false) nofun (k2.ch fun _ => (flatNA_of h3 hbr).1) g2

theorem seen_pieces {f read xs ns} (h : Seen f read xs ns) : ∃ rs, SeenP f read xs rs := by
  induction h with
  | nil => exact ⟨_, .nil⟩
  | text h _ ih => obtain ⟨_, ih⟩ := ih; exact ⟨_, .text h ih⟩
  | cdata _ ih => obtain ⟨_, ih⟩ := ih; exact ⟨_, .cdata ih⟩
  | comment _ ih => obtain ⟨_, ih⟩ := ih; exact ⟨_, .comment ih⟩
  | pi _ ih => obtain ⟨_, ih⟩ := ih; exact ⟨_, .pi ih⟩
  | elem h1 h2 _ _ ih1 ih2 => obtain ⟨_, ih1⟩ := ih1; obtain ⟨_, ih2⟩ := ih2; exact ⟨_, .elem h1 h2 ih1 ih2⟩

/-! ### a document is read in one way -/

theorem textSeen_unique {f s t t'} (h : TextSeen f s t) (h' : TextSeen f s t') (ents : List (Str × Str)) (hf : ∀ n, f n = ents.lookup n) :
    t = t' := by
  have h1 := (decodeText_iff hf).mpr h
  rw [(decodeText_iff hf).mpr h'] at h1
  cases h1; rfl

theorem seenAtts_unique {read as bs} (h : SeenAtts read as bs) : ∀ {bs'}, SeenAtts read as bs' → bs = bs' := by
  induction h with
  | nil => intro _ h; cases h; rfl
  | cons h1 _ ih =>
    intro _ h
    cases h with
    | cons h2 h3 => rw [h1] at h2; cases h2; rw [ih h3]

theorem seen_unique {f read xs ns} (ents : List (Str × Str)) (hf : ∀ n, f n = ents.lookup n) (h : Seen f read xs ns) :
    ∀ {ns'}, Seen f read xs ns' → ns = ns' := by
  induction h with
  | nil => intro _ h; cases h; rfl
  | text h1 _ ih => intro _ h; cases h with | text h2 h3 => rw [textSeen_unique h1 h2 ents hf, ih h3]
  | cdata _ ih => intro _ h; cases h with | cdata h3 => rw [ih h3]
  | comment _ ih => intro _ h; cases h with | comment h3 => rw [ih h3]
  | pi _ ih => intro _ h; cases h with | pi h3 => rw [ih h3]
  | elem h1 h2 _ _ ih1 ih2 =>
    intro _ h
    cases h with
    | elem g1 g2 g3 g4 =>
      rw [h1] at g1; cases g1
      rw [seenAtts_unique h2 g2, ih1 g3, ih2 g4]

end Verif.Look
