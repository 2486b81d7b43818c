import Verif.Proof.SchemaSem2
/-
Invariants of the schema compiler's state.
-/
namespace Verif

/-! ### the monad -/

theorem CM.bind_ok {α β : Type} {x : CM α} {f : α → CM β} {s s'' : CState} {b : β}
    (h : (x >>= f) s = .ok (b, s'')) : ∃ a s', x s = .ok (a, s') ∧ f a s' = .ok (b, s'') := by
  change CM.bind x f s = _ at h
  unfold CM.bind at h
  split at h
  · rename_i a s' hx; exact ⟨a, s', hx, h⟩
  · cases h

theorem CM.pure_ok {α : Type} {a b : α} {s s' : CState} (h : (pure a : CM α) s = .ok (b, s')) : a = b ∧ s = s' := by
  cases h; exact ⟨rfl, rfl⟩

theorem CM.lift_ok {α : Type} {r : Except CFault α} {a : α} {s s' : CState} (h : CM.lift r s = .ok (a, s')) :
    r = .ok a ∧ s = s' := by
  unfold CM.lift at h
  split at h <;> cases h
  exact ⟨rfl, rfl⟩

theorem CM.inInclude_ok {α : Type} {r : CM α} {a : α} {s s' : CState} (h : CM.inInclude r s = .ok (a, s')) :
    r s = .ok (a, s') := by
  unfold CM.inInclude at h
  split at h
  · rename_i hr; rw [hr]; exact h
  · cases h
  · cases h

theorem CM.fail_ok {α : Type} {e : CFault} {a : α} {s s' : CState} (h : (CM.fail e : CM α) s = .ok (a, s')) : False := by
  cases h

/-! ### contexts -/

namespace SCtx

/-- the scopes a name is looked up in: the innermost grammar, its parent, .. -/
def chain : SCtx → List Nat
  | .root _ s _ _ => [s]
  | .grammar p s => s :: p.chain
  | .incl p _ _ _ _ => p.chain
  | .inclOverrides p => p.chain
  | .define p _ => p.chain
  | .element p => p.chain
  | .attribute p => p.chain

/-- the innermost scope -/
def cur : SCtx → Nat
  | .root _ s _ _ => s
  | .grammar _ s => s
  | .incl p _ _ _ _ => p.cur
  | .inclOverrides p => p.cur
  | .define p _ => p.cur
  | .element p => p.cur
  | .attribute p => p.cur

/-- the scopes around the innermost one -/
def outer : SCtx → List Nat
  | .root _ _ _ _ => []
  | .grammar p _ => p.chain
  | .incl p _ _ _ _ => p.outer
  | .inclOverrides p => p.outer
  | .define p _ => p.outer
  | .element p => p.outer
  | .attribute p => p.outer

theorem chain_eq (c : SCtx) : c.chain = c.cur :: c.outer := by
  induction c with
  | root => rfl
  | grammar p s ih => rfl
  | incl p _ _ _ _ ih => exact ih
  | inclOverrides p ih => exact ih
  | define p _ ih => exact ih
  | element p ih => exact ih
  | «attribute» p ih => exact ih

/-- a context definitions are made in -/
def isDef : SCtx → Prop
  | .root _ _ _ _ => True
  | .grammar _ _ => True
  | .incl p _ _ _ _ => p.isDef
  | _ => False

/-- the override tables between here and the innermost grammar -/
def ovPath : SCtx → List Nat
  | .incl p _ o _ _ => o :: p.ovPath
  | _ => []

/-- the override tables exist; inner ones are newer -/
def OvOK (n : Nat) : SCtx → Prop
  | .incl p _ o _ _ => o < n ∧ OvOK o p
  | _ => True

theorem OvOK.mono {c : SCtx} {n m : Nat} (h : c.OvOK n) (hm : n ≤ m) : c.OvOK m := by
  cases c <;> simp only [OvOK] at h ⊢
  exact ⟨by omega, h.2⟩

theorem OvOK.lt : ∀ {c : SCtx} {n : Nat}, c.OvOK n → ∀ o ∈ c.ovPath, o < n
  | .incl p _ o _ _, n, h, o', ho => by
    simp only [ovPath, List.mem_cons] at ho
    rcases ho with rfl | ho
    · exact h.1
    · have := OvOK.lt h.2 o' ho; have := h.1; omega
  | .root _ _ _ _, _, _, _, ho => by cases ho
  | .grammar _ _, _, _, _, ho => by cases ho
  | .inclOverrides _, _, _, _, ho => by cases ho
  | .define _ _, _, _, _, ho => by cases ho
  | .element _, _, _, _, ho => by cases ho
  | .attribute _, _, _, _, ho => by cases ho

/-- what the compiler knows about names is right, where it knows anything -/
structure Agrees (c : SCtx) (e : NEnv) : Prop where
  file : c.file = some e.file
  ns : ∀ p u, c.nsUri p = some u → e.ns.lookup p = some u
  dt : ∀ p u, c.dtUri p = some u → e.dts.lookup p = some u
  xml : e.ns.lookup "xml".toList = some xmlNs
  xsd : e.dts.lookup "xsd".toList = some xsdUri

end SCtx

/-! ### states -/

/-- the cell of a name -/
def CState.look (st : CState) (s : Nat) (id : Str) : Option Nat := (st.refs s).lookup id

theorem CState.look_oob {st : CState} {s : Nat} (h : st.scopes.length ≤ s) (id : Str) : st.look s id = none := by
  simp [CState.look, CState.refs, List.getD_eq_getElem?_getD, List.getElem?_eq_none h]

section
variable (F : Files) (x : Ext)

/-- the maps are consistent -/
structure WFS (st : CState) : Prop where
  bound : ∀ s id k, st.look s id = some k → k < st.cells.length
  inj : ∀ s id s' id' k, st.look s id = some k → st.look s' id' = some k → s = s' ∧ id = id'
  cache : ∀ n sch, st.loaded.lookup n = some sch → F.load n = .ok sch
  mem : ∀ s id k, (id, k) ∈ st.refs s → st.look s id = some k
  ovn : ∀ o, ((st.ov o).map (·.1)).Nodup

/-- the maps are consistent, and every finished grammar holds what its source says -/
structure GoodS (st : CState) (G : Nat → List Nat → List Defn → Prop) : Prop extends WFS F st where
  gb : ∀ s ss ds, G s ss ds → s < st.scopes.length
  closed : Closed F x st.look G st.cell
  full : ∀ s ss ds, G s ss ds → ∀ id, (∀ k, st.look s id = some k → st.cell k = none) →
    named ds id = [] ∨ (id = "start".toList ∧ ss ≠ [])
  took : ∀ s ss ds, G s ss ds → ss ≠ [] → ∀ k, st.look s "start".toList = some k → st.cell k = none

end

/-- what may change: cells of the scope `cur`, the override tables `ovs`; new cells, scopes, names, tables -/
structure Grow (cur : Option Nat) (ovs : List Nat) (st : CState) (G : Nat → List Nat → List Defn → Prop) (st' : CState)
    (G' : Nat → List Nat → List Defn → Prop) : Prop where
  cells : st.cells.length ≤ st'.cells.length
  scopes : st.scopes.length ≤ st'.scopes.length
  ovsLen : st.overrides.length ≤ st'.overrides.length
  cellEq : ∀ k, k < st.cells.length → (∀ s id, cur = some s → st.look s id ≠ some k) → st'.cell k = st.cell k
  mono : ∀ s id k, st.look s id = some k → st'.look s id = some k
  new : ∀ s id k, st'.look s id = some k → st.look s id = some k ∨
    (st.cells.length ≤ k ∧ (cur ≠ some s → s < st.scopes.length → st'.cell k = none))
  ovEq : ∀ o, o < st.overrides.length → o ∉ ovs → st'.ov o = st.ov o
  gMono : ∀ s ss ds, G s ss ds → G' s ss ds
  gNew : ∀ s ss ds, G' s ss ds → G s ss ds ∨ st.scopes.length ≤ s

section
variable {F : Files} {x : Ext} {cur : Option Nat} {ovs : List Nat} {st st1 st2 : CState}
  {G G1 G2 : Nat → List Nat → List Defn → Prop}

theorem Grow.refl (st : CState) (G) : Grow cur ovs st G st G where
  cells := Nat.le_refl _
  scopes := Nat.le_refl _
  ovsLen := Nat.le_refl _
  cellEq _ _ _ := rfl
  mono _ _ _ h := h
  new _ _ _ h := .inl h
  ovEq _ _ _ := rfl
  gMono _ _ _ h := h
  gNew _ _ _ h := .inl h

theorem Grow.trans (h1 : Grow cur ovs st G st1 G1) (w : WFS F st1) (h2 : Grow cur ovs st1 G1 st2 G2) :
    Grow cur ovs st G st2 G2 where
  cells := Nat.le_trans h1.cells h2.cells
  scopes := Nat.le_trans h1.scopes h2.scopes
  ovsLen := Nat.le_trans h1.ovsLen h2.ovsLen
  cellEq k hk hn := by
    rw [h2.cellEq k (Nat.lt_of_lt_of_le hk h1.cells), h1.cellEq k hk hn]
    intro s id hc hl
    rcases h1.new s id k hl with h | ⟨h, _⟩
    · exact hn s id hc h
    · omega
  mono s id k h := h2.mono s id k (h1.mono s id k h)
  new s id k h := by
    rcases h2.new s id k h with h | ⟨h, hc⟩
    · rcases h1.new s id k h with h' | ⟨h', hc⟩
      · exact .inl h'
      · refine .inr ⟨h', fun hne hs => ?_⟩
        rw [h2.cellEq k (w.bound _ _ _ h), hc hne hs]
        intro s' id' hs' hl
        obtain ⟨rfl, _⟩ := w.inj _ _ _ _ _ h hl
        exact hne hs'
    · exact .inr ⟨Nat.le_trans h1.cells h, fun hne hs => hc hne (Nat.lt_of_lt_of_le hs h1.scopes)⟩
  ovEq o ho hn := by rw [h2.ovEq o (Nat.lt_of_lt_of_le ho h1.ovsLen) hn, h1.ovEq o ho hn]
  gMono s ss ds h := h2.gMono _ _ _ (h1.gMono _ _ _ h)
  gNew s ss ds h := by
    rcases h2.gNew s ss ds h with h | h
    · exact h1.gNew s ss ds h
    · exact .inr (Nat.le_trans h1.scopes h)

/-- a change of nothing old is a change of whatever may change -/
theorem Grow.weaken (h : Grow none [] st G st1 G1) : Grow cur ovs st G st1 G1 where
  cells := h.cells
  scopes := h.scopes
  ovsLen := h.ovsLen
  cellEq k hk _ := h.cellEq k hk nofun
  mono := h.mono
  new s id k hl := by
    rcases h.new s id k hl with h | ⟨h, hc⟩
    · exact .inl h
    · exact .inr ⟨h, fun _ hs => hc nofun hs⟩
  ovEq o ho _ := h.ovEq o ho nofun
  gMono := h.gMono
  gNew := h.gNew

/-- new override tables are not old ones -/
theorem Grow.dropOv {o : Nat} (h : Grow cur (o :: ovs) st G st1 G1) (ho : st.overrides.length ≤ o) :
    Grow cur ovs st G st1 G1 where
  cells := h.cells
  scopes := h.scopes
  ovsLen := h.ovsLen
  cellEq := h.cellEq
  mono := h.mono
  new := h.new
  ovEq o' ho' hn := h.ovEq o' ho' (by
    simp only [List.mem_cons, not_or]
    exact ⟨by omega, hn⟩)
  gMono := h.gMono
  gNew := h.gNew

theorem Grow.addOv {o : Nat} (h : Grow cur ovs st G st1 G1) : Grow cur (o :: ovs) st G st1 G1 where
  cells := h.cells
  scopes := h.scopes
  ovsLen := h.ovsLen
  cellEq := h.cellEq
  mono := h.mono
  new := h.new
  ovEq o' ho' hn := h.ovEq o' ho' fun h => hn (List.mem_cons_of_mem _ h)
  gMono := h.gMono
  gNew := h.gNew

/-- changes of the cells of a new scope change nothing old -/
theorem Grow.ofNew {s : Nat} (h : Grow (some s) ovs st G st1 G1) (hs : st.scopes.length ≤ s) : Grow none ovs st G st1 G1 where
  cells := h.cells
  scopes := h.scopes
  ovsLen := h.ovsLen
  cellEq k hk _ := h.cellEq k hk fun s' id e hl => by
    cases e
    rw [CState.look_oob hs] at hl; cases hl
  mono := h.mono
  new s' id k hl := by
    rcases h.new s' id k hl with h | ⟨h, hc⟩
    · exact .inl h
    · exact .inr ⟨h, fun _ hs' => hc (fun e => by cases e; omega) hs'⟩
  ovEq := h.ovEq
  gMono := h.gMono
  gNew := h.gNew

/-- old grammars stay right -/
theorem Grow.closedOld (h : Grow cur ovs st G st1 G1) (g : GoodS F x st G) {s ss ds} (hg : G s ss ds) (hc : cur ≠ some s)
    {id k r} (hl : st1.look s id = some k) (hr : st1.cell k = some r) :
    TrRule F x st1.look G1 (s :: ss) (named ds id) r := by
  rcases h.new s id k hl with hl' | ⟨_, hn⟩
  · refine (g.closed s ss ds hg id k r hl' ?_).mono h.mono h.gMono
    rw [← hr]
    refine (h.cellEq k (g.bound _ _ _ hl') fun s' id' e hl'' => ?_).symm
    obtain ⟨rfl, _⟩ := g.inj _ _ _ _ _ hl' hl''
    exact hc e
  · rw [hn hc (g.gb _ _ _ hg)] at hr; cases hr

theorem Grow.good (h : Grow cur ovs st G st1 G) (g : GoodS F x st G) (w : WFS F st1)
    (hc : ∀ s ss ds, G s ss ds → cur ≠ some s) : GoodS F x st1 G where
  toWFS := w
  gb s ss ds hg := Nat.lt_of_lt_of_le (g.gb _ _ _ hg) h.scopes
  closed s ss ds hg id k r hl hr := h.closedOld g hg (hc s ss ds hg) hl hr
  full s ss ds hg id hn := by
    refine g.full s ss ds hg id fun k hl => ?_
    rw [← hn k (h.mono _ _ _ hl)]
    refine (h.cellEq k (g.bound _ _ _ hl) fun s' id' e hl'' => ?_).symm
    obtain ⟨rfl, _⟩ := g.inj _ _ _ _ _ hl hl''
    exact hc _ _ _ hg e
  took s ss ds hg hss k hl := by
    rcases h.new _ _ _ hl with hl' | ⟨_, hn⟩
    · rw [← g.took s ss ds hg hss k hl']
      refine h.cellEq k (g.bound _ _ _ hl') fun s' id' e hl'' => ?_
      obtain ⟨rfl, _⟩ := g.inj _ _ _ _ _ hl' hl''
      exact hc _ _ _ hg e
    · exact hn (hc _ _ _ hg) (g.gb _ _ _ hg)

/-! ### an unfinished grammar -/

variable (F x) in
/-- so far the innermost grammar has the definitions `D` -/
def OpenG (st : CState) (G : Nat → List Nat → List Defn → Prop) (ss : List Nat) (s : Nat) (D : List Defn) : Prop :=
  ∀ id, (∀ k r, st.look s id = some k → st.cell k = some r → TrRule F x st.look G (s :: ss) (named D id) r) ∧
    ((∀ k, st.look s id = some k → st.cell k = none) → named D id = [])

theorem OpenG.grow {ss : List Nat} {s : Nat} {D : List Defn} (o : OpenG F x st G ss s D) (w : WFS F st)
    (h : Grow none ovs st G st1 G1) (hs : s < st.scopes.length) : OpenG F x st1 G1 ss s D := by
  intro id
  constructor
  · intro k r hl hr
    rcases h.new s id k hl with hl' | ⟨_, hn⟩
    · refine ((o id).1 k r hl' ?_).mono h.mono h.gMono
      rw [← hr]; exact (h.cellEq k (w.bound _ _ _ hl') nofun).symm
    · rw [hn nofun hs] at hr; cases hr
  · intro hn
    refine (o id).2 fun k hl => ?_
    rw [← h.cellEq k (w.bound _ _ _ hl) nofun]
    exact hn k (h.mono _ _ _ hl)

end
end Verif
