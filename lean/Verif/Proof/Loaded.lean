import Verif.Spec.Loaded
import Verif.Proof.SchemaPlaces
/-
The files a compilation loads.
-/
namespace Verif.Loads
open Verif
variable {F : Files} {x : Ext}

/-- the file is in the compiler's cache -/
def Has (st : CState) (f : Str) : Prop := f ∈ st.loaded.map (·.1)

/-- a successful run adds exactly the files `S` to the cache, none twice -/
def Adds (F : Files) {α : Type} (m : CM α) (S : Str → Prop) : Prop := ∀ st a st', Faithful F st.loaded → m st = .ok (a, st') →
  Faithful F st'.loaded ∧ (∀ f, Has st' f ↔ Has st f ∨ S f) ∧ ((st.loaded.map (·.1)).Nodup → (st'.loaded.map (·.1)).Nodup)

/-- the files used at a place or inside it -/
def UsesAt (F : Files) (pl : Place) (f : Str) : Prop := ∃ pl', Inside F pl pl' ∧ NamesFile F pl' f

/-- does not touch the cache -/
def Same {α : Type} (m : CM α) : Prop := ∀ st a st', m st = .ok (a, st') → st'.loaded = st.loaded

theorem Same.adds {α : Type} {m : CM α} (h : Same m) {S : Str → Prop} (hS : ∀ f, ¬ S f) : Adds F m S := by
  intro st a st' hs h'
  have := h st a st' h'
  refine ⟨by rw [this]; exact hs, fun f => ?_, fun hn => by rw [this]; exact hn⟩
  unfold Has; rw [this]
  exact ⟨.inl, fun h => h.elim id fun h => absurd h (hS f)⟩

theorem Adds.congr {α : Type} {m : CM α} {S T : Str → Prop} (h : Adds F m S) (he : ∀ f, S f ↔ T f) : Adds F m T := by
  intro st a st' hs h'
  obtain ⟨h1, h2, h3⟩ := h st a st' hs h'
  exact ⟨h1, fun f => by rw [h2, he], h3⟩

/-- `m` adds `S`, what follows adds `T` -/
theorem Adds.bind {α β : Type} {m : CM α} {k : α → CM β} {S T : Str → Prop} (h : Adds F m S)
    (hk : ∀ st a st', Faithful F st.loaded → m st = .ok (a, st') → Adds F (k a) T) : Adds F (m >>= k) fun f => S f ∨ T f := by
  intro st b st' hs h'
  obtain ⟨a, st1, h1, h2⟩ := CM.bind_ok h'
  obtain ⟨f1, g1, n1⟩ := h _ _ _ hs h1
  obtain ⟨f2, g2, n2⟩ := hk _ _ _ hs h1 _ _ _ f1 h2
  exact ⟨f2, fun f => by rw [g2, g1, or_assoc], fun hn => n2 (n1 hn)⟩

/-- what follows does not touch the cache -/
theorem Adds.thenSame {α β : Type} {m : CM α} {k : α → CM β} {S : Str → Prop} (h : Adds F m S) (hk : ∀ a, Same (k a)) :
    Adds F (m >>= k) S :=
  (h.bind (T := fun _ => False) fun _ a _ _ _ => (hk a).adds fun _ h => h).congr fun f => by simp

/-- what comes before does not touch the cache -/
theorem Adds.afterSame {α β : Type} {m : CM α} {k : α → CM β} {S : Str → Prop} (h : Same m)
    (hk : ∀ st a st', Faithful F st.loaded → m st = .ok (a, st') → Adds F (k a) S) : Adds F (m >>= k) S :=
  ((h.adds (S := fun _ => False) fun _ h => h).bind hk).congr fun f => by simp

theorem Adds.inInclude {α : Type} {m : CM α} {S : Str → Prop} (h : Adds F m S) : Adds F m.inInclude S :=
  fun st a st' hs h' => h st a st' hs (CM.inInclude_ok h')

theorem Adds.fail {α : Type} {e : CFault} {S : Str → Prop} : Adds F (CM.fail e : CM α) S := nofun

theorem Same.pure {α : Type} (a : α) : Same (pure a : CM α) := fun st b st' h => by
  obtain ⟨_, rfl⟩ := CM.pure_ok h; rfl
theorem Same.lift {α : Type} (e : Except CFault α) : Same (CM.lift e) := fun st b st' h => by
  obtain ⟨_, rfl⟩ := CM.lift_ok h; rfl
theorem Same.fail {α : Type} (e : CFault) : Same (CM.fail e : CM α) := nofun
theorem Same.bind {α β : Type} {m : CM α} {k : α → CM β} (h : Same m) (hk : ∀ a, Same (k a)) : Same (m >>= k) := by
  intro st b st' h'
  obtain ⟨a, st1, h1, h2⟩ := CM.bind_ok h'
  rw [hk _ _ _ _ h2, h _ _ _ h1]

theorem same_defineRule : ∀ (c : SCtx) (id : Str) (r : DefineRule), Same (c.defineRule id r)
  | .root _ s _ _, id, r => fun st a st' h => by
    rw [defineRule_root] at h; unfold defineIn at h
    split at h
    · split at h
      · cases h; rfl
      · cases h
    · cases h; rfl
  | .grammar _ s, id, r => fun st a st' h => by
    rw [defineRule_grammar] at h; unfold defineIn at h
    split at h
    · split at h
      · cases h; rfl
      · cases h
    · cases h; rfl
  | .incl p f o ns dts, id, r => by
    intro st a st' h
    rw [defineRule_incl] at h
    dsimp only at h
    split at h
    · cases h; rfl
    · exact same_defineRule p id r _ _ _ h
  | .inclOverrides (.incl p f o ns dts), id, r => by
    intro st a st' h
    rw [defineRule_inclOverrides] at h
    dsimp only at h
    split at h
    · cases h
    · have := same_defineRule p id r _ _ _ h
      exact this
  | .inclOverrides (.root ..), _, _ => .fail _
  | .inclOverrides (.grammar ..), _, _ => .fail _
  | .inclOverrides (.inclOverrides ..), _, _ => .fail _
  | .inclOverrides (.define ..), _, _ => .fail _
  | .inclOverrides (.element ..), _, _ => .fail _
  | .inclOverrides (.attribute ..), _, _ => .fail _
  | .define _ _, _, _ => .fail _
  | .element _, _, _ => .fail _
  | .attribute _, _, _ => .fail _

theorem same_acquireIn (s : Nat) (id : Str) : Same (SCtx.acquireRefImpl.acquireIn s id) := fun st a st' h => by
  unfold SCtx.acquireRefImpl.acquireIn at h
  split at h <;> cases h <;> rfl

theorem same_acquireRefImpl : ∀ (c : SCtx) (id : Str), Same (c.acquireRefImpl id)
  | .root _ s _ _, id => same_acquireIn s id
  | .grammar _ s, id => same_acquireIn s id
  | .incl p _ _ _ _, id => same_acquireRefImpl p id
  | .inclOverrides p, id => same_acquireRefImpl p id
  | .define p _, id => same_acquireRefImpl p id
  | .element p, id => same_acquireRefImpl p id
  | .attribute p, id => same_acquireRefImpl p id

theorem same_acquireRef (c : SCtx) (id : Str) : Same (c.acquireRef id) := (Same.lift _).bind fun _ => same_acquireRefImpl c id

theorem same_acquireParentRef : ∀ (c : SCtx) (id : Str), Same (c.acquireParentRef id)
  | .root _ _ _ _, _ => .fail _
  | .grammar p _, id => same_acquireRef p id
  | .incl p _ _ _ _, id => same_acquireParentRef p id
  | .inclOverrides p, id => same_acquireParentRef p id
  | .define p _, id => same_acquireParentRef p id
  | .element p, id => same_acquireParentRef p id
  | .attribute p, id => same_acquireParentRef p id

theorem same_newInclude (c : SCtx) (f : Str) : Same (newInclude c f) := fun _ _ _ h => (newInclude_ok h).2.2
theorem same_newGrammar (c : SCtx) : Same (newGrammar c) := fun _ _ _ h => (newGrammar_ok h).2
theorem same_takeStart (s : Nat) : Same (takeStart s) := fun st a st' h => by
  unfold takeStart at h
  split at h
  · cases h
  · split at h
    · cases h
    · cases h; rfl
theorem same_checkScope (s : Nat) : Same (checkScope s) := fun st a st' h => by
  unfold checkScope at h
  split at h
  · cases h; rfl
  · cases h
theorem same_checkOvs (s : Nat) : Same (checkOvs s) := fun st a st' h => by
  unfold checkOvs at h
  split at h
  · cases h; rfl
  · cases h

theorem adds_getSchema (name : Str) : Adds F (getSchema F name) fun f => f = name := by
  intro st s st' hs h
  refine ⟨keeps_getSchema name _ _ _ hs h, ?_⟩
  unfold getSchema at h
  split at h
  · rename_i hl
    cases h
    refine ⟨fun f => ⟨.inl, fun h => h.elim id fun e => ?_⟩, id⟩
    subst e
    apply Classical.byContradiction
    intro hn
    rw [lookup_none_iff.mpr hn] at hl; cases hl
  · rename_i hl
    split at h
    · cases h
      refine ⟨fun f => ?_, fun hn => ?_⟩
      · unfold Has; simp [or_comm]
      · simp only [List.map_cons, List.nodup_cons]
        exact ⟨lookup_none_iff.mp hl, hn⟩
    · cases h

/-! ### the files used at a place, by what is there -/

theorem usesAt_iff {a : Place} {f : Str} : UsesAt F a f ↔ NamesFile F a f ∨ ∃ b, Within F a b ∧ UsesAt F b f := by
  constructor
  · rintro ⟨pl, hi, hn⟩
    cases hi with
    | refl => exact .inl hn
    | step hw hi => exact .inr ⟨_, hw, pl, hi, hn⟩
  · rintro (hn | ⟨b, hw, pl, hi, hn⟩)
    · exact ⟨a, .refl, hn⟩
    · exact ⟨pl, .step hw hi, hn⟩

/-- nothing named here, one place inside -/
theorem usesAt_one {a b : Place} (hn : ∀ f, ¬ NamesFile F a f) (hb : Within F a b) (hu : ∀ c, Within F a c → c = b) (f : Str) :
    UsesAt F b f ↔ UsesAt F a f := by
  rw [usesAt_iff (a := a)]
  exact ⟨fun h => .inr ⟨b, hb, h⟩, fun h => h.elim (fun h => absurd h (hn f)) fun ⟨c, hc, h⟩ => hu c hc ▸ h⟩

/-- nothing named here, two places inside -/
theorem usesAt_two {a b b' : Place} (hn : ∀ f, ¬ NamesFile F a f) (hb : Within F a b) (hb' : Within F a b')
    (hu : ∀ c, Within F a c → c = b ∨ c = b') (f : Str) : UsesAt F b f ∨ UsesAt F b' f ↔ UsesAt F a f := by
  rw [usesAt_iff (a := a)]
  constructor
  · rintro (h | h)
    · exact .inr ⟨b, hb, h⟩
    · exact .inr ⟨b', hb', h⟩
  · rintro (h | ⟨c, hc, h⟩)
    · exact absurd h (hn f)
    · rcases hu c hc with rfl | rfl
      · exact .inl h
      · exact .inr h

theorem usesAt_leaf {a : Place} (hn : ∀ f, ¬ NamesFile F a f) (hu : ∀ c, ¬ Within F a c) (f : Str) : ¬ UsesAt F a f := by
  rw [usesAt_iff]
  rintro (h | ⟨c, hc, _⟩)
  · exact hn f h
  · exact hu c hc

/-- the files used by an item of a grammar -/
def ItemUses (F : Files) (w : Where) : SItem → Str → Prop
  | .define id _ p, f => UsesAt F (.pat (w.define id) p) f
  | .div is, f => UsesAt F (.items w is) f
  | .annotation, _ => False
  | .include path i os, f => ∃ g, F.join w.env.file path = some g ∧ (f = g ∨
      (∃ s is, F.load g = .ok s ∧ s.Grammar is ∧ UsesAt F (.items (w.included g i s.decls) is) f) ∨
      ∃ id how p, .define id how p ∈ os ∧ UsesAt F (.pat ((w.override g i).define id) p) f)

theorem usesAt_items {w : Where} {is : List SItem} {f : Str} : UsesAt F (.items w is) f ↔ ∃ i ∈ is, ItemUses F w i f := by
  rw [usesAt_iff]
  constructor
  · rintro (hn | ⟨b, hw, h⟩)
    · cases hn with
      | includes hi hj => exact ⟨_, hi, _, hj, .inl rfl⟩
    · cases hw with
      | define hi => exact ⟨_, hi, h⟩
      | div hi => exact ⟨_, hi, h⟩
      | included hi hj hl hg => exact ⟨_, hi, _, hj, .inr (.inl ⟨_, _, hl, hg, h⟩)⟩
      | override hi hj ho => exact ⟨_, hi, _, hj, .inr (.inr ⟨_, _, _, ho, h⟩)⟩
  · rintro ⟨i, hi, h⟩
    cases i with
    | define id how p => exact .inr ⟨_, .define hi, h⟩
    | div is' => exact .inr ⟨_, .div hi, h⟩
    | «annotation» => cases h
    | «include» path i os =>
      obtain ⟨g, hj, rfl | ⟨s, is', hl, hg, h⟩ | ⟨id, how, p, ho, h⟩⟩ := h
      · exact .inl (.includes hi hj)
      · exact .inr ⟨_, .included hi hj hl hg, h⟩
      · exact .inr ⟨_, .override hi hj ho, h⟩

/-! ### the compiler -/
section
variable {cp : SCtx → SPattern → CM MPattern} {ci : SCtx → SItem → CM Unit}
  (hcp : ∀ c w p, c.Fits w → Adds F (cp c p) (UsesAt F (.pat w p))) (hci : ∀ c w i, c.Fits w → Adds F (ci c i) (ItemUses F w i))
include hcp in
theorem adds_compileDefine {c : SCtx} {w : Where} (hw : c.Fits w) (id : Str) (how : AssignMethod) (p : SPattern) :
    Adds F (compileDefine cp c id how p) (UsesAt F (.pat (w.define id) p)) :=
  (hcp _ _ _ (hw.define id)).thenSame fun _ => same_defineRule c id _

include hcp in
theorem adds_compileOverrides {c : SCtx} {w : Where} (hw : c.Fits w) : ∀ os, Adds F (compileOverrides cp c os)
    fun f => ∃ id how p, SOverride.define id how p ∈ os ∧ UsesAt F (.pat (w.define id) p) f
  | [] => (Same.pure ()).adds fun f => by simp
  | .define id how body :: os =>
    (Adds.bind (m := (compileDefine cp c id how body).inInclude) (adds_compileDefine hcp hw id how body).inInclude
      fun _ _ _ _ _ => adds_compileOverrides hw os).congr fun f => by
        constructor
        · rintro (h | ⟨i, h, p, hm, hu⟩)
          · exact ⟨_, _, _, .head _, h⟩
          · exact ⟨i, h, p, .tail _ hm, hu⟩
        · rintro ⟨i, h, p, hm, hu⟩
          rcases List.mem_cons.mp hm with e | hm
          · cases e; exact .inl hu
          · exact .inr ⟨i, h, p, hm, hu⟩
  | .div :: os => fun st a st' hs h => by
    obtain ⟨_, st1, h1, h2⟩ := CM.bind_ok h
    cases h1
  | .annotation :: os => fun st a st' hs h => by
    obtain ⟨h1, h2, h3⟩ := adds_compileOverrides hw os st a st' hs h
    refine ⟨h1, fun f => ?_, h3⟩
    rw [h2]
    constructor
    · rintro (h | ⟨i, h, p, hm, hu⟩)
      · exact .inl h
      · exact .inr ⟨i, h, p, .tail _ hm, hu⟩
    · rintro (h | ⟨i, h, p, hm, hu⟩)
      · exact .inl h
      · rcases List.mem_cons.mp hm with e | hm
        · cases e
        · exact .inr ⟨i, h, p, hm, hu⟩

include hci in
theorem adds_compileContents {c : SCtx} {w : Where} (hw : c.Fits w) (is : List SItem) :
    Adds F (compileContents ci c is) (UsesAt F (.items w is)) := by
  refine Adds.congr (S := fun f => ∃ i ∈ is, ItemUses F w i f) ?_ fun f => usesAt_items.symm
  induction is with
  | nil => exact (Same.pure ()).adds fun f => by simp
  | cons i is ih =>
    refine (Adds.bind (hci c w i hw) fun _ _ _ _ _ => ih).congr fun f => ?_
    simp

include hcp hci in
theorem adds_compileInclude {c : SCtx} {w : Where} (hw : c.Fits w) (lit : Str) (i : Option Str) (os : List SOverride) :
    Adds F (compileInclude F cp ci c lit i os) (ItemUses F w (.include lit i os)) := by
  refine Adds.afterSame (Same.lift _) fun _ path _ _ hp => ?_
  have hj := includePath_spec hw.env (CM.lift_ok hp).1
  have he : ∀ f, (f = path ∨ ((∃ id how p, SOverride.define id how p ∈ os ∧ UsesAt F (.pat ((w.override path i).define id) p) f) ∨
      (∃ s is, F.load path = .ok s ∧ s.Grammar is ∧ UsesAt F (.items (w.included path i s.decls) is) f))) ↔
      ItemUses F w (.include lit i os) f := by
    intro f
    constructor
    · rintro (h | h | h)
      · exact ⟨path, hj, .inl h⟩
      · exact ⟨path, hj, .inr (.inr h)⟩
      · exact ⟨path, hj, .inr (.inl h)⟩
    · rintro ⟨g, hg, h⟩
      rw [hj] at hg; cases hg
      rcases h with h | h | h
      · exact .inl h
      · exact .inr (.inr h)
      · exact .inr (.inl h)
  refine Adds.congr ?_ he
  refine Adds.bind (adds_getSchema path).inInclude fun st s st' hs hg => ?_
  obtain ⟨hl, _⟩ := getSchema_faithful hs (CM.inInclude_ok hg)
  refine Adds.afterSame (same_newInclude _ _) fun _ inc _ _ hn => ?_
  obtain ⟨_, ⟨o, rfl⟩, _⟩ := newInclude_ok hn
  refine Adds.afterSame (Same.lift _) fun _ inc' _ _ hi => ?_
  obtain ⟨ns, rfl, hns⟩ := inheritCtx_spec hw.env (CM.lift_ok hi).1
  refine Adds.bind (adds_compileOverrides hcp (hw.override path o hns) os) fun _ _ _ _ _ => ?_
  refine Adds.thenSame ?_ fun _ => same_checkOvs o
  refine Adds.inInclude ?_
  refine Adds.afterSame (Same.lift _) fun _ c1 _ _ hd => ?_
  cases compileDeclarations_incl (CM.lift_ok hd).1 with
  | @incl _ _ _ _ _ ns' dts' a b =>
    have hcs : (SCtx.incl c path o ns' dts').Fits (w.included path i s.decls) := hw.included _ _ (a.trans hns.append) b
    have key : ∀ is, s.Grammar is → Adds F (compileContents ci (SCtx.incl c path o ns' dts') is)
        (fun f => ∃ s is, F.load path = .ok s ∧ s.Grammar is ∧ UsesAt F (.items (w.included path i s.decls) is) f) := by
      intro is hg
      refine (adds_compileContents hci hcs is).congr fun f => ⟨fun h => ⟨s, is, hl, hg, h⟩, ?_⟩
      rintro ⟨s', is', hl', hg', h⟩
      rw [hl] at hl'; cases hl'
      rw [hg.det hg']; exact h
    obtain ⟨decls, body⟩ := s
    cases body with
    | grammar items => exact key items .grammar
    | pattern p =>
      cases p with
      | grammar items => exact key items .pattern
      | _ => exact .fail

include hcp hci in
theorem adds_compileExternal {c : SCtx} {w : Where} (hw : c.Fits w) (lit : Str) (i : Option Str) :
    Adds F (compileExternal F cp ci c lit i) (UsesAt F (.pat w (.external lit i))) := by
  cases i with
  | some _ => exact .fail
  | none =>
    refine Adds.afterSame (Same.lift _) fun _ path _ _ hp => ?_
    have hj := includePath_spec hw.env (CM.lift_ok hp).1
    have he : ∀ f, (f = path ∨ ((∃ s p, F.load path = .ok s ∧ s.body = .pattern p ∧ UsesAt F (.pat (w.external path) p) f) ∨
        (∃ s is, F.load path = .ok s ∧ s.body = .grammar is ∧ UsesAt F (.items w.grammar is) f))) ↔
        UsesAt F (.pat w (.external lit none)) f := by
      intro f
      rw [usesAt_iff]
      constructor
      · rintro (rfl | ⟨s, p, h1, h2, h⟩ | ⟨s, is, h1, h2, h⟩)
        · exact .inl (.external hj)
        · exact .inr ⟨_, .externalPattern hj h1 h2, h⟩
        · exact .inr ⟨_, .externalGrammar hj h1 h2, h⟩
      · rintro (h | ⟨b, hb, h⟩)
        · cases h with | external h => rw [hj] at h; cases h; exact .inl rfl
        · cases hb with
          | externalPattern hj' h1 h2 => rw [hj] at hj'; cases hj'; exact .inr (.inl ⟨_, _, h1, h2, h⟩)
          | externalGrammar hj' h1 h2 => rw [hj] at hj'; cases hj'; exact .inr (.inr ⟨_, _, h1, h2, h⟩)
    refine Adds.congr ?_ he
    refine Adds.bind (adds_getSchema path).inInclude fun st s st' hs hg => ?_
    obtain ⟨hl, _⟩ := getSchema_faithful hs (CM.inInclude_ok hg)
    refine Adds.afterSame (same_newInclude _ _) fun _ inc _ _ hn => ?_
    obtain ⟨_, ⟨o, rfl⟩, _⟩ := newInclude_ok hn
    obtain ⟨decls, body⟩ := s
    cases body with
    | pattern p =>
      refine ((hcp _ _ p (hw.external path o)).inInclude).congr fun f => ⟨fun h => .inl ⟨_, p, hl, rfl, h⟩, ?_⟩
      rintro (⟨s, p', hl', hb, h⟩ | ⟨s, is, hl', hb, _⟩)
      · rw [hl] at hl'; cases hl'; cases hb; exact h
      · rw [hl] at hl'; cases hl'; cases hb
    | grammar is =>
      refine Adds.afterSame (same_newGrammar _) fun _ ch _ _ hn => ?_
      obtain ⟨⟨sc, rfl⟩, _⟩ := newGrammar_ok hn
      refine (Adds.thenSame (adds_compileContents hci (hw.grammar sc) is) fun _ =>
        (same_checkScope sc).bind fun _ => same_takeStart sc).congr fun f => ⟨fun h => .inr ⟨_, is, hl, rfl, h⟩, ?_⟩
      rintro (⟨s, p', hl', hb, h⟩ | ⟨s, is, hl', hb, h⟩)
      · rw [hl] at hl'; cases hl'; cases hb
      · rw [hl] at hl'; cases hl'; cases hb; exact h

include hci in
theorem adds_compileGrammarPattern {c : SCtx} {w : Where} (hw : c.Fits w) (is : List SItem) :
    Adds F (compileGrammarPattern ci c is) (UsesAt F (.pat w (.grammar is))) := by
  refine Adds.congr ?_ (usesAt_one nofun (.grammar (w := w) (is := is)) fun c h => by cases h; rfl)
  refine Adds.afterSame (same_newGrammar _) fun _ ch _ _ hn => ?_
  obtain ⟨⟨sc, rfl⟩, _⟩ := newGrammar_ok hn
  exact Adds.thenSame (adds_compileContents hci (hw.grammar sc) is) fun _ => same_takeStart sc
end

theorem adds_compile : ∀ n, (∀ c w p, c.Fits w → Adds F (compilePattern F x n c p) (UsesAt F (.pat w p))) ∧
    ∀ c w i, c.Fits w → Adds F (compileItem F x n c i) (ItemUses F w i)
  | 0 => ⟨fun _ _ _ _ => .fail, fun _ _ _ _ => .fail⟩
  | n + 1 => by
    obtain ⟨hcp, hci⟩ := adds_compile n
    constructor
    · intro c w p hw
      cases p with
      | element nc p =>
        refine Adds.congr ?_ (usesAt_one nofun .element fun c h => by cases h; rfl)
        refine Adds.afterSame (Same.lift _) fun _ nc' _ _ _ => ?_
        split
        · exact .fail
        · exact (hcp _ _ _ hw.element).thenSame fun _ => .pure _
      | «attribute» nc p =>
        refine Adds.congr ?_ (usesAt_one nofun .attribute fun c h => by cases h; rfl)
        exact Adds.afterSame (Same.lift _) fun _ nc' _ _ _ => (hcp _ _ _ hw.attribute).thenSame fun _ => .pure _
      | list p => exact ((hcp _ _ _ hw).thenSame fun _ => .pure _).congr (usesAt_one nofun .list fun c h => by cases h; rfl)
      | mixed p => exact ((hcp _ _ _ hw).thenSame fun _ => .pure _).congr (usesAt_one nofun .mixed fun c h => by cases h; rfl)
      | ident id => exact ((same_acquireRef c id).bind fun _ => .pure _).adds (usesAt_leaf nofun nofun)
      | parent id => exact ((same_acquireParentRef c id).bind fun _ => .pure _).adds (usesAt_leaf nofun nofun)
      | empty => exact (Same.pure _).adds (usesAt_leaf nofun nofun)
      | text => exact (Same.pure _).adds (usesAt_leaf nofun nofun)
      | notAllowed => exact (Same.pure _).adds (usesAt_leaf nofun nofun)
      | external path i => exact adds_compileExternal hcp hci hw path i
      | grammar items => exact adds_compileGrammarPattern hci hw items
      | paren p => exact (hcp _ _ _ hw).congr (usesAt_one nofun .paren fun c h => by cases h; rfl)
      | seq p1 p2 =>
        exact (Adds.bind (hcp _ _ _ hw) fun _ _ _ _ _ => (hcp _ _ _ hw).thenSame fun _ => .pure _).congr
          (usesAt_two nofun .seqLeft .seqRight fun c h => by cases h <;> simp)
      | inter p1 p2 =>
        exact (Adds.bind (hcp _ _ _ hw) fun _ _ _ _ _ => (hcp _ _ _ hw).thenSame fun _ => .pure _).congr
          (usesAt_two nofun .interLeft .interRight fun c h => by cases h <;> simp)
      | choice p1 p2 =>
        exact (Adds.bind (hcp _ _ _ hw) fun _ _ _ _ _ => (hcp _ _ _ hw).thenSame fun _ => .pure _).congr
          (usesAt_two nofun .choiceLeft .choiceRight fun c h => by cases h <;> simp)
      | optional p => exact ((hcp _ _ _ hw).thenSame fun _ => .pure _).congr (usesAt_one nofun .optional fun c h => by cases h; rfl)
      | zeroOrMore p => exact ((hcp _ _ _ hw).thenSame fun _ => .pure _).congr (usesAt_one nofun .zeroOrMore fun c h => by cases h; rfl)
      | oneOrMore p => exact ((hcp _ _ _ hw).thenSame fun _ => .pure _).congr (usesAt_one nofun .oneOrMore fun c h => by cases h; rfl)
      | value ty lit => exact ((Same.lift _).bind fun _ => (Same.lift _).bind fun _ => .pure _).adds (usesAt_leaf nofun nofun)
      | data ty ps => exact ((Same.lift _).bind fun _ => (Same.lift _).bind fun _ => .pure _).adds (usesAt_leaf nofun nofun)
      | dataExcept ty ps ex =>
        refine Adds.congr ?_ (usesAt_one nofun .except fun c h => by cases h; rfl)
        exact Adds.afterSame (Same.lift _) fun _ _ _ _ _ => Adds.afterSame (Same.lift _) fun _ _ _ _ _ =>
          (hcp _ _ _ hw).thenSame fun _ => .pure _
    · intro c w i hw
      cases i with
      | define id how body => exact adds_compileDefine hcp hw id how body
      | div items => exact adds_compileContents hci hw items
      | «include» path i os => exact adds_compileInclude hcp hci hw path i os
      | «annotation» => exact (Same.pure _).adds fun _ h => h

theorem same_finishCompile (m s : Nat) : Same (finishCompile m s) := by
  intro st a st' h
  unfold finishCompile at h
  split at h
  · cases h
  · split at h
    · cases h
    · split at h
      · cases h
      · split at h
        · cases h
        · cases h; rfl

theorem adds_compileFile {n m : Nat} {name : Str} : Adds F (compileFile F x n m name) (UsesFile F name) := by
  have he : ∀ f, (f = name ∨ ∃ pl, FilePlace F name pl ∧ UsesAt F pl f) ↔ UsesFile F name f := by
    intro f
    constructor
    · rintro (h | ⟨a, hf, pl, hi, hn⟩)
      · exact .inl h
      · exact .inr ⟨pl, ⟨a, hf, hi⟩, hn⟩
    · rintro (h | ⟨pl, ⟨a, hf, hi⟩, hn⟩)
      · exact .inl h
      · exact .inr ⟨a, hf, pl, hi, hn⟩
  refine Adds.congr ?_ he
  refine Adds.bind (adds_getSchema name) fun st s st' hs hg => ?_
  obtain ⟨hl, _⟩ := getSchema_faithful hs hg
  have nr : Same (newRoot name) := fun st a st' h => by unfold newRoot at h; cases h; rfl
  refine Adds.afterSame nr fun stc c stc' _ hn => ?_
  unfold newRoot at hn; cases hn
  obtain ⟨hcp, hci⟩ := adds_compile (F := F) (x := x) n
  refine Adds.thenSame ?_ fun _ => same_finishCompile m _
  refine Adds.afterSame (Same.lift _) fun _ c1 _ _ hd => ?_
  cases compileDeclarations_root (CM.lift_ok hd).1 with
  | root ha hb =>
    obtain ⟨decls, body⟩ := s
    have hfit := SCtx.Fits.root (f := name) (s := stc.scopes.length) ha hb
    cases body with
    | grammar is =>
      refine (adds_compileContents hci hfit is).congr fun f => ⟨fun h => ⟨_, .grammar hl rfl, h⟩, ?_⟩
      rintro ⟨pl, hp, h⟩
      cases hp with
      | pattern hl' hb => rw [hl] at hl'; cases hl'; cases hb
      | grammar hl' hb => rw [hl] at hl'; cases hl'; cases hb; exact h
    | pattern p =>
      refine ((hcp _ _ p hfit).thenSame fun _ => same_defineRule _ _ _).congr fun f => ⟨fun h => ⟨_, .pattern hl rfl, h⟩, ?_⟩
      rintro ⟨pl, hp, h⟩
      cases hp with
      | pattern hl' hb => rw [hl] at hl'; cases hl'; cases hb; exact h
      | grammar hl' hb => rw [hl] at hl'; cases hl'; cases hb

end Verif.Loads
