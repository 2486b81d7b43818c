import Verif.Proof.SchemaState
/-
The state changes the schema compiler makes.
-/
namespace Verif

variable {F : Files} {x : Ext} {st : CState} {G : Nat → List Nat → List Defn → Prop}

theorem lookup_cons_ite {α : Type} (id id' : Str) (k : α) (l : List (Str × α)) :
    List.lookup id' ((id, k) :: l) = if id' = id then some k else List.lookup id' l := by
  rw [List.lookup_cons]
  by_cases h : id' = id
  · subst h; simp
  · rw [if_neg h, beq_eq_false_iff_ne.mpr h]

/-! ### a new cell under a new name -/

theorem look_addCell {s : Nat} (hs : s < st.scopes.length) (id : Str) (r : Option DefineRule) (s' : Nat) (id' : Str) :
    (st.addCell s id r).look s' id' = if s' = s ∧ id' = id then some st.cells.length else st.look s' id' := by
  by_cases h : s' = s
  · subst h
    rw [CState.look, CState.addCell_refs hs, lookup_cons_ite]
    by_cases h : id' = id <;> simp [h, CState.look]
  · have : (st.addCell s id r).refs s' = st.refs s' := by
      simp [CState.addCell, CState.refs, List.getD_eq_getElem?_getD, List.getElem?_set, Ne.symm h]
    rw [CState.look, this, if_neg (fun e => h e.1)]; rfl

theorem cell_addCell {s : Nat} (id : Str) (r : Option DefineRule) {k : Nat} (hk : k < st.cells.length) :
    (st.addCell s id r).cell k = st.cell k := by
  simp [CState.addCell, CState.cell, List.getD_eq_getElem?_getD, List.getElem?_append_left hk]

theorem wfs_addCell (w : WFS F st) {s : Nat} (hs : s < st.scopes.length) {id : Str} (hn : st.look s id = none)
    (r : Option DefineRule) : WFS F (st.addCell s id r) where
  bound s' id' k h := by
    rw [look_addCell hs] at h
    simp only [CState.addCell, List.length_append, List.length_singleton]
    split at h
    · cases h; omega
    · have := w.bound _ _ _ h; omega
  inj s1 i1 s2 i2 k h1 h2 := by
    rw [look_addCell hs] at h1 h2
    split at h1 <;> split at h2
    · rename_i a b; exact ⟨a.1.trans b.1.symm, a.2.trans b.2.symm⟩
    · cases h1; have := w.bound _ _ _ h2; omega
    · cases h2; have := w.bound _ _ _ h1; omega
    · exact w.inj _ _ _ _ _ h1 h2
  cache := w.cache
  mem s' id' k h := by
    rw [look_addCell hs]
    by_cases h' : s' = s
    · subst h'
      rw [CState.addCell_refs hs, List.mem_cons] at h
      rcases h with h | h
      · cases h; rw [if_pos ⟨rfl, rfl⟩]
      · have := w.mem _ _ _ h
        rw [if_neg]
        · exact this
        · rintro ⟨_, rfl⟩; rw [hn] at this; cases this
    · have : (st.addCell s id r).refs s' = st.refs s' := by
        simp [CState.addCell, CState.refs, List.getD_eq_getElem?_getD, List.getElem?_set, Ne.symm h']
      rw [this] at h
      rw [if_neg (fun e => h' e.1)]
      exact w.mem _ _ _ h
  ovn := w.ovn

theorem grow_addCell (w : WFS F st) {s : Nat} (hs : s < st.scopes.length) {id : Str} (hn : st.look s id = none)
    (r : Option DefineRule) (G) : Grow (some s) [] st G (st.addCell s id r) G where
  cells := by simp [CState.addCell]
  scopes := by simp [CState.addCell]
  ovsLen := Nat.le_refl _
  cellEq k hk _ := cell_addCell id r hk
  mono s' id' k h := by
    rw [look_addCell hs, if_neg]
    · exact h
    · rintro ⟨rfl, rfl⟩; rw [hn] at h; cases h
  new s' id' k h := by
    rw [look_addCell hs] at h
    split at h
    · rename_i e
      cases h
      exact .inr ⟨Nat.le_refl _, fun hne _ => absurd (by rw [e.1]) hne⟩
    · exact .inl h
  ovEq _ _ _ := rfl
  gMono _ _ _ h := h
  gNew _ _ _ h := .inl h

theorem grow_addCell_none (w : WFS F st) {s : Nat} (hs : s < st.scopes.length) {id : Str} (hn : st.look s id = none)
    (G) : Grow none [] st G (st.addCell s id none) G where
  cells := by simp [CState.addCell]
  scopes := by simp [CState.addCell]
  ovsLen := Nat.le_refl _
  cellEq k hk _ := cell_addCell id none hk
  mono := (grow_addCell w hs hn none G).mono
  new s' id' k h := by
    rw [look_addCell hs] at h
    split at h
    · cases h
      exact .inr ⟨Nat.le_refl _, fun _ _ => CState.addCell_cell _ _⟩
    · exact .inl h
  ovEq _ _ _ := rfl
  gMono _ _ _ h := h
  gNew _ _ _ h := .inl h

/-- looking a name up, for a reference -/
theorem acquireIn_spec {s : Nat} {id : Str} {k : Nat} {st' : CState} (g : GoodS F x st G) (hs : s < st.scopes.length)
    (h : SCtx.acquireRefImpl.acquireIn s id st = .ok (k, st')) :
    GoodS F x st' G ∧ Grow none [] st G st' G ∧ st'.look s id = some k := by
  unfold SCtx.acquireRefImpl.acquireIn at h
  split at h
  · rename_i hk; cases h; exact ⟨g, .refl _ _, hk⟩
  · rename_i hk
    cases h
    have gr := grow_addCell_none g.toWFS hs hk G
    exact ⟨gr.good g (wfs_addCell g.toWFS hs hk none) (fun _ _ _ _ => nofun), gr, by simp [look_addCell hs]⟩

/-! ### changing a cell -/

theorem cell_set {k : Nat} (hk : k < st.cells.length) (r : Option DefineRule) (k' : Nat) :
    CState.cell { st with cells := st.cells.set k r } k' = if k' = k then r else st.cell k' := by
  by_cases h : k' = k
  · subst h; simp [CState.cell, List.getD_eq_getElem?_getD, hk]
  · simp [CState.cell, List.getD_eq_getElem?_getD, List.getElem?_set, h, Ne.symm h]

theorem wfs_set (w : WFS F st) (k : Nat) (r : Option DefineRule) : WFS F { st with cells := st.cells.set k r } where
  bound s id k h := by rw [List.length_set]; exact w.bound s id k h
  inj := w.inj
  cache := w.cache
  mem := w.mem
  ovn := w.ovn

theorem grow_set (w : WFS F st) {s : Nat} {id : Str} {k : Nat} (hl : st.look s id = some k) (r : Option DefineRule) (G) :
    Grow (some s) [] st G { st with cells := st.cells.set k r } G where
  cells := by simp
  scopes := Nat.le_refl _
  ovsLen := Nat.le_refl _
  cellEq k' _ hn := by
    rw [cell_set (w.bound _ _ _ hl), if_neg]
    rintro rfl
    exact hn s id rfl hl
  mono _ _ _ h := h
  new _ _ _ h := .inl h
  ovEq _ _ _ := rfl
  gMono _ _ _ h := h
  gNew _ _ _ h := .inl h

/-! ### defining -/

theorem named_append (D D' : List Defn) (id : Str) : named (D ++ D') id = named D id ++ named D' id := by
  simp [named]

theorem named_cons_self (d : Defn) : named [d] d.name = [d] := by simp [named]

theorem named_cons_ne {d : Defn} {id : Str} (h : id ≠ d.name) : named [d] id = [] := by
  simp [named, Ne.symm h]

/-- One definition in a grammar. -/
theorem defineIn_spec {s : Nat} {ss : List Nat} {d : Defn} {q : MPattern} {D : List Defn} {st' : CState}
    (g : GoodS F x st G) (hs : s < st.scopes.length) (hG : ∀ ss ds, ¬ G s ss ds)
    (hT : Tr F x st.look G (s :: ss) d.env d.body q) (ho : OpenG F x st G ss s D)
    (h : defineIn s d.name (ruleOf d.how q) st = .ok ((), st')) :
    GoodS F x st' G ∧ Grow (some s) [] st G st' G ∧ OpenG F x st' G ss s (D ++ [d]) := by
  have hne : ∀ s' ss ds, G s' ss ds → (some s : Option Nat) ≠ some s' := by
    intro s' ss ds hg e; cases e; exact hG _ _ hg
  have h1 : TrRule F x st.look G (s :: ss) [d] (ruleOf d.how q) :=
    ⟨[(d, q)], rfl, by simpa using hT, .one⟩
  unfold defineIn at h
  split at h
  · rename_i k hk
    have hk' : st.look s d.name = some k := hk
    split at h
    · rename_i r hm
      cases h
      have gr := grow_set (G := G) g.toWFS hk' r
      refine ⟨gr.good g (wfs_set g.toWFS k r) hne, gr, fun id => ⟨fun k' r' hl hr => ?_, fun hn => ?_⟩⟩
      · have hl' : st.look s id = some k' := hl
        rw [cell_set (g.bound _ _ _ hk')] at hr
        by_cases hid : id = d.name
        · subst hid
          rw [hk'] at hl'; cases hl'
          rw [if_pos rfl] at hr
          subst hr
          rw [named_append, named_cons_self]
          cases hc : st.cell k with
          | none =>
            rw [hc] at hm; cases hm
            have := (ho d.name).2 fun k2 h2 => by rw [hk'] at h2; cases h2; exact hc
            rw [this]
            exact h1
          | some r0 =>
            rw [hc] at hm
            obtain ⟨r1, hr1, e⟩ := except_bind_ok hm
            cases e
            obtain ⟨bs, b1, b2, b3⟩ := (ho d.name).1 k r0 hk' hc
            refine ⟨bs ++ [(d, q)], by simp [b1], fun b hb => ?_, ?_⟩
            · rcases List.mem_append.mp hb with hb | hb
              · exact b2 b hb
              · cases List.mem_singleton.mp hb; exact hT
            · rw [List.map_append]
              exact b3.snoc hr1
        · have hkk : k' ≠ k := by
            rintro rfl
            exact hid (g.inj _ _ _ _ _ hl' hk').2
          rw [if_neg hkk] at hr
          rw [named_append, named_cons_ne hid, List.append_nil]
          exact (ho id).1 k' r' hl' hr
      · by_cases hid : id = d.name
        · subst hid
          have := hn k hk'
          rw [cell_set (g.bound _ _ _ hk'), if_pos rfl] at this
          subst this
          exfalso
          unfold merge at hm
          split at hm
          · rename_i e; cases e
          · rename_i e; cases e
          · cases hm
          · obtain ⟨_, _, e⟩ := except_bind_ok hm; cases e
        · rw [named_append, named_cons_ne hid, List.append_nil]
          refine (ho id).2 fun k' hl => ?_
          have := hn k' hl
          rw [cell_set (g.bound _ _ _ hk'), if_neg] at this
          · exact this
          · rintro rfl; exact hid (g.inj _ _ _ _ _ hl hk').2
    · cases h
  · rename_i hk
    have hk' : st.look s d.name = none := hk
    cases h
    have gr := grow_addCell (G := G) g.toWFS hs hk' (some (ruleOf d.how q))
    refine ⟨gr.good g (wfs_addCell g.toWFS hs hk' _) hne, gr, fun id => ⟨fun k' r' hl hr => ?_, fun hn => ?_⟩⟩
    · rw [look_addCell hs] at hl
      by_cases hid : id = d.name
      · subst hid
        rw [if_pos ⟨rfl, rfl⟩] at hl; cases hl
        rw [CState.addCell_cell] at hr; cases hr
        rw [named_append, named_cons_self, (ho d.name).2 (fun k h => by rw [hk'] at h; cases h)]
        exact h1.mono gr.mono gr.gMono
      · rw [if_neg (fun e => hid e.2)] at hl
        rw [cell_addCell _ _ (g.bound _ _ _ hl)] at hr
        rw [named_append, named_cons_ne hid, List.append_nil]
        exact ((ho id).1 k' r' hl hr).mono gr.mono gr.gMono
    · by_cases hid : id = d.name
      · subst hid
        have := hn st.cells.length (by rw [look_addCell hs, if_pos ⟨rfl, rfl⟩])
        rw [CState.addCell_cell] at this; cases this
      · rw [named_append, named_cons_ne hid, List.append_nil]
        refine (ho id).2 fun k' hl => ?_
        have := hn k' (by rw [look_addCell hs, if_neg (fun e => hid e.2)]; exact hl)
        rw [cell_addCell _ _ (g.bound _ _ _ hl)] at this
        exact this

/-! ### override tables -/

theorem ov_set {o : Nat} (ho : o < st.overrides.length) (t : List (Str × Bool)) (o' : Nat) :
    CState.ov { st with overrides := st.overrides.set o t } o' = if o' = o then t else st.ov o' := by
  by_cases h : o' = o
  · subst h; simp [CState.ov, List.getD_eq_getElem?_getD, ho]
  · simp [CState.ov, List.getD_eq_getElem?_getD, List.getElem?_set, h, Ne.symm h]

/-- a change of one override table only -/
theorem ovSet_spec {o : Nat} (g : GoodS F x st G) (ho : o < st.overrides.length) (t : List (Str × Bool))
    (ht : (t.map (·.1)).Nodup) :
    GoodS F x { st with overrides := st.overrides.set o t } G ∧
      ∀ cur, Grow cur [o] st G { st with overrides := st.overrides.set o t } G :=
  ⟨⟨⟨g.bound, g.inj, g.cache, g.mem, fun o' => by
      rw [ov_set ho]
      split
      · exact ht
      · exact g.ovn o'⟩, g.gb, g.closed, g.full, g.took⟩, fun cur =>
    { cells := Nat.le_refl _
      scopes := Nat.le_refl _
      ovsLen := by simp
      cellEq := fun _ _ _ => rfl
      mono := fun _ _ _ h => h
      new := fun _ _ _ h => .inl h
      ovEq := fun o' _ hn => by rw [ov_set ho, if_neg (by simpa using hn)]
      gMono := fun _ _ _ h => h
      gNew := fun _ _ _ h => .inl h }⟩

theorem lookup_markOverride (id : Str) (id' : Str) : ∀ t : List (Str × Bool),
    (markOverride id t).lookup id' = (t.lookup id').map (· || decide (id' = id))
  | [] => rfl
  | (n, b) :: t => by
    unfold markOverride
    split
    · rename_i h; subst h
      rw [lookup_cons_ite, lookup_cons_ite]
      by_cases h : id' = n <;> simp [h]
    · rename_i h
      rw [lookup_cons_ite, lookup_cons_ite, lookup_markOverride id id' t]
      by_cases h' : id' = n
      · subst h'; simp [h]
      · simp [h']

theorem markOverride_keys (id : Str) : ∀ t : List (Str × Bool), (markOverride id t).map (·.1) = t.map (·.1)
  | [] => rfl
  | (n, b) :: t => by
    unfold markOverride
    split
    · rename_i h; subst h; rfl
    · simp [markOverride_keys id t]

theorem lookup_none_of_keys {α : Type} {id : Str} : ∀ {t : List (Str × α)}, t.lookup id = none ↔ id ∉ t.map (·.1)
  | [] => by simp
  | (n, b) :: t => by
    rw [lookup_cons_ite]
    by_cases h : id = n
    · simp [h]
    · simp [h, lookup_none_of_keys (t := t)]

/-! ### new scopes, tables, files -/

theorem newGrammar_spec {c c' : SCtx} {st' : CState} (g : GoodS F x st G) (h : newGrammar c st = .ok (c', st')) :
    c' = .grammar c st.scopes.length ∧ GoodS F x st' G ∧ Grow none [] st G st' G ∧
      st'.scopes.length = st.scopes.length + 1 ∧ ∀ id, st'.look st.scopes.length id = none := by
  unfold newGrammar at h
  cases h
  have refs : ∀ s, CState.refs { st with scopes := st.scopes ++ [[]] } s = st.refs s := by
    intro s
    simp only [CState.refs, List.getD_eq_getElem?_getD]
    by_cases hs : s < st.scopes.length
    · rw [List.getElem?_append_left hs]
    · by_cases hs' : s = st.scopes.length
      · subst hs'; simp
      · rw [List.getElem?_eq_none (by simp; omega), List.getElem?_eq_none (by omega)]
  have look : ∀ s id, CState.look { st with scopes := st.scopes ++ [[]] } s id = st.look s id := by
    intro s id
    simp only [CState.look, CState.refs, List.getD_eq_getElem?_getD]
    by_cases hs : s < st.scopes.length
    · rw [List.getElem?_append_left hs]
    · by_cases hs' : s = st.scopes.length
      · subst hs'; simp
      · rw [List.getElem?_eq_none (by simp; omega), List.getElem?_eq_none (by omega)]
  have w : WFS F { st with scopes := st.scopes ++ [[]] } :=
    ⟨fun s id k h => g.bound s id k (by rw [← look]; exact h),
     fun s id s' id' k h h' => g.inj s id s' id' k (by rw [← look]; exact h) (by rw [← look]; exact h'), g.cache,
     fun s id k h => by rw [look]; exact g.mem s id k (by rw [← refs]; exact h), g.ovn⟩
  have gr : Grow none [] st G { st with scopes := st.scopes ++ [[]] } G :=
    { cells := Nat.le_refl _
      scopes := by simp
      ovsLen := Nat.le_refl _
      cellEq := fun _ _ _ => rfl
      mono := fun s id k h => by rw [look]; exact h
      new := fun s id k h => .inl (by rw [← look]; exact h)
      ovEq := fun _ _ _ => rfl
      gMono := fun _ _ _ h => h
      gNew := fun _ _ _ h => .inl h }
  exact ⟨rfl, gr.good g w (fun _ _ _ _ => nofun), gr, by simp, fun id => by
    rw [look, CState.look_oob (Nat.le_refl _)]⟩

theorem newInclude_spec {c c' : SCtx} {file : Str} {st' : CState} (g : GoodS F x st G)
    (h : newInclude c file st = .ok (c', st')) :
    c' = .incl c file st.overrides.length [("xml".toList, xmlNs)] [("xsd".toList, xsdUri)] ∧ GoodS F x st' G ∧
      Grow none [] st G st' G ∧ st'.overrides.length = st.overrides.length + 1 ∧ st'.ov st.overrides.length = [] := by
  unfold newInclude at h
  split at h
  · cases h
  · cases h
    refine ⟨rfl, ⟨⟨g.bound, g.inj, g.cache, g.mem, fun o => ?_⟩, g.gb, g.closed, g.full, g.took⟩, ?_, by simp, by simp [CState.ov, List.getD_eq_getElem?_getD]⟩
    · by_cases ho : o < st.overrides.length
      · rw [show CState.ov _ o = st.ov o by simp [CState.ov, List.getD_eq_getElem?_getD, List.getElem?_append_left ho]]
        exact g.ovn o
      · have : CState.ov { st with overrides := st.overrides ++ [[]] } o = [] := by
          simp only [CState.ov, List.getD_eq_getElem?_getD]
          rw [List.getElem?_append_right (by omega)]
          cases o - st.overrides.length <;> rfl
        rw [this]; exact List.nodup_nil
    exact
    { cells := Nat.le_refl _
      scopes := Nat.le_refl _
      ovsLen := by simp
      cellEq := fun _ _ _ => rfl
      mono := fun s id k h => h
      new := fun s id k h => .inl h
      ovEq := fun o ho _ => by
        simp [CState.ov, List.getD_eq_getElem?_getD, List.getElem?_append_left ho]
      gMono := fun _ _ _ h => h
      gNew := fun _ _ _ h => .inl h }

theorem getSchema_spec {name : Str} {s : SSchema} {st' : CState} (g : GoodS F x st G) (h : getSchema F name st = .ok (s, st')) :
    F.load name = .ok s ∧ GoodS F x st' G ∧ Grow none [] st G st' G ∧ st'.overrides = st.overrides := by
  unfold getSchema at h
  split at h
  · rename_i hl; cases h; exact ⟨g.cache _ _ hl, g, .refl _ _, rfl⟩
  · split at h
    · rename_i hl
      cases h
      refine ⟨hl, ⟨⟨g.bound, g.inj, fun n sch h => ?_, g.mem, g.ovn⟩, g.gb, g.closed, g.full, g.took⟩, ?_, rfl⟩
      · rw [lookup_cons_ite] at h
        split at h
        · rename_i e; subst e; cases h; exact hl
        · exact g.cache _ _ h
      · exact
        { cells := Nat.le_refl _
          scopes := Nat.le_refl _
          ovsLen := Nat.le_refl _
          cellEq := fun _ _ _ => rfl
          mono := fun s id k h => h
          new := fun s id k h => .inl h
          ovEq := fun _ _ _ => rfl
          gMono := fun _ _ _ h => h
          gNew := fun _ _ _ h => .inl h }
    · cases h

end Verif
