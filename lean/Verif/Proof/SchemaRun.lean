import Verif.Proof.SchemaPrim
/-
What the schema compiler does to its state, function by function.
-/
namespace Verif

/-! ### which definitions get past the override tables -/

/-- the definitions among `ds` that reach the innermost grammar -/
def survive (st : CState) : SCtx → List Defn → List Defn
  | .incl p _ o _ _, ds => survive st p (ds.filter fun d => ((st.ov o).lookup d.name).isNone)
  | _, ds => ds

/-- does one of the definitions `ds` reach table `o` with name `id`? -/
def hit (st : CState) : SCtx → List Defn → Nat → Str → Bool
  | .incl p _ o _ _, ds, o', id =>
    if o' = o then ds.any fun d => d.name = id
    else hit st p (ds.filter fun d => ((st.ov o).lookup d.name).isNone) o' id
  | _, _, _, _ => false

/-- the tables after the definitions `ds` -/
def Flags (st : CState) (c : SCtx) (ds : List Defn) (st' : CState) : Prop :=
  ∀ o ∈ c.ovPath, ∀ id, (st'.ov o).lookup id = ((st.ov o).lookup id).map (· || hit st c ds o id)

/-- the tables have the same names -/
def SameKeys (c : SCtx) (st st' : CState) : Prop :=
  ∀ o ∈ c.ovPath, ∀ id, ((st'.ov o).lookup id).isNone = ((st.ov o).lookup id).isNone

variable {F : Files} {x : Ext} {st st' st1 st2 : CState} {G G' G1 G2 : Nat → List Nat → List Defn → Prop}

theorem survive_append (c : SCtx) : ∀ ds ds', survive st c (ds ++ ds') = survive st c ds ++ survive st c ds' := by
  induction c with
  | incl p f o ns dts ih => intro ds ds'; simp [survive, ih]
  | _ => intros; rfl

theorem survive_nil (c : SCtx) : survive st c [] = [] := by
  induction c with
  | incl p f o ns dts ih => simpa [survive] using ih
  | _ => rfl

theorem hit_append (c : SCtx) (o : Nat) (id : Str) :
    ∀ ds ds', hit st c (ds ++ ds') o id = (hit st c ds o id || hit st c ds' o id) := by
  induction c with
  | incl p f o' ns dts ih =>
    intro ds ds'
    by_cases h : o = o'
    · simp [hit, h, List.any_append]
    · simp [hit, h, ih]
  | _ => intros; rfl

theorem hit_nil (c : SCtx) (o : Nat) (id : Str) : hit st c [] o id = false := by
  induction c with
  | incl p f o' ns dts ih =>
    by_cases h : o = o'
    · simp [hit, h]
    · simpa [hit, h] using ih
  | _ => rfl

theorem survive_congr {c : SCtx} (h : SameKeys c st st') : ∀ ds, survive st' c ds = survive st c ds := by
  induction c with
  | incl p f o ns dts ih =>
    intro ds
    have : (fun d : Defn => ((st'.ov o).lookup d.name).isNone) = fun d : Defn => ((st.ov o).lookup d.name).isNone := by
      funext d; exact h o (by simp [SCtx.ovPath]) _
    simp only [survive, this]
    exact ih (fun o' ho' => h o' (by simp [SCtx.ovPath, ho'])) _
  | _ => intros; rfl

theorem hit_congr {c : SCtx} (h : SameKeys c st st') (o' : Nat) (id : Str) :
    ∀ ds, hit st' c ds o' id = hit st c ds o' id := by
  induction c with
  | incl p f o ns dts ih =>
    intro ds
    have : (fun d : Defn => ((st'.ov o).lookup d.name).isNone) = fun d : Defn => ((st.ov o).lookup d.name).isNone := by
      funext d; exact h o (by simp [SCtx.ovPath]) _
    simp only [hit, this]
    rw [ih (fun o' ho' => h o' (by simp [SCtx.ovPath, ho'])) _]
  | _ => intros; rfl

theorem Flags.keys {c : SCtx} {ds} (h : Flags st c ds st') : SameKeys c st st' := by
  intro o ho id
  rw [h o ho id]
  cases (st.ov o).lookup id <;> rfl

theorem Flags.trans {c : SCtx} {ds ds'} (h : Flags st c ds st1) (h' : Flags st1 c ds' st2) : Flags st c (ds ++ ds') st2 := by
  intro o ho id
  rw [h' o ho id, h o ho id, hit_congr h.keys, hit_append, Option.map_map]
  congr 1
  funext b
  simp [Bool.or_assoc]

theorem Flags.ofEq {c : SCtx} (h : ∀ o ∈ c.ovPath, st'.ov o = st.ov o) : Flags st c [] st' := by
  intro o ho id
  rw [h o ho, hit_nil]
  simp

/-! ### a context in which a grammar is being filled -/

variable (F x) in
/-- before: the innermost grammar has the definitions `D` so far -/
structure DefPre (st : CState) (G : Nat → List Nat → List Defn → Prop) (c : SCtx) (D : List Defn) : Prop where
  good : GoodS F x st G
  chainB : ∀ s ∈ c.chain, s < st.scopes.length
  isDef : c.isDef
  ov : c.OvOK st.overrides.length
  hG : ∀ ss ds, ¬ G c.cur ss ds
  opn : OpenG F x st G c.outer c.cur D

variable (F x) in
/-- after: the definitions `ds` have been made, the tables `ovs` may have changed -/
structure DefPost (ovs : List Nat) (st : CState) (G : Nat → List Nat → List Defn → Prop) (c : SCtx) (D ds : List Defn)
    (st' : CState) (G' : Nat → List Nat → List Defn → Prop) : Prop where
  good : GoodS F x st' G'
  grow : Grow (some c.cur) ovs st G st' G'
  opn : OpenG F x st' G' c.outer c.cur (D ++ survive st c ds)
  flags : Flags st c ds st'

theorem DefPre.curB {c D} (h : DefPre F x st G c D) : c.cur < st.scopes.length :=
  h.chainB _ (by rw [SCtx.chain_eq]; simp)

theorem DefPost.pre {ovs c D ds} (h0 : DefPre F x st G c D) (h : DefPost F x ovs st G c D ds st' G') :
    DefPre F x st' G' c (D ++ survive st c ds) where
  good := h.good
  chainB s hs := Nat.lt_of_lt_of_le (h0.chainB s hs) h.grow.scopes
  isDef := h0.isDef
  ov := h0.ov.mono h.grow.ovsLen
  hG ss ds hg := by
    rcases h.grow.gNew _ _ _ hg with hg | hg
    · exact h0.hG _ _ hg
    · have := h0.curB; omega
  opn := h.opn

theorem DefPost.trans {ovs c D ds ds'} (h : DefPost F x ovs st G c D ds st1 G1)
    (h' : DefPost F x ovs st1 G1 c (D ++ survive st c ds) ds' st2 G2) :
    DefPost F x ovs st G c D (ds ++ ds') st2 G2 where
  good := h'.good
  grow := h.grow.trans h.good.toWFS h'.grow
  opn := by
    have := h'.opn
    rw [survive_congr h.flags.keys, List.append_assoc] at this
    rw [survive_append]; exact this
  flags := h.flags.trans h'.flags

theorem DefPost.nil {ovs c D} (h0 : DefPre F x st G c D) (g : GoodS F x st' G') (gr : Grow none [] st G st' G') :
    DefPost F x ovs st G c D [] st' G' where
  good := g
  grow := gr.weaken
  opn := by rw [survive_nil, List.append_nil]; exact h0.opn.grow h0.good.toWFS gr h0.curB
  flags := .ofEq fun o ho => gr.ovEq o (h0.ov.lt o ho) nofun

theorem ovPath_lt {c : SCtx} {o : Nat} (h : c.OvOK o) : o ∉ c.ovPath := fun hm => Nat.lt_irrefl _ (h.lt o hm)

theorem defineScope_spec {d : Defn} {q : MPattern} {c : SCtx} {D : List Defn}
    (h0 : DefPre F x st G c D) (hT : Tr F x st.look G c.chain d.env d.body q) (hp : c.ovPath = [])
    (hs : survive st c [d] = [d]) (h : defineIn c.cur d.name (ruleOf d.how q) st = .ok ((), st')) :
    DefPost F x c.ovPath st G c D [d] st' G := by
  rw [SCtx.chain_eq] at hT
  obtain ⟨a, b, e⟩ := defineIn_spec h0.good h0.curB h0.hG hT h0.opn h
  refine ⟨a, by rw [hp]; exact b, by rw [hs]; exact e, fun o ho => ?_⟩
  rw [hp] at ho; cases ho

theorem defineRule_root (f s ns dts id r) : (SCtx.root f s ns dts).defineRule id r = defineIn s id r := rfl
theorem defineRule_grammar (p s id r) : (SCtx.grammar p s).defineRule id r = defineIn s id r := rfl
theorem defineRule_incl (p f o ns dts id r) : (SCtx.incl p f o ns dts).defineRule id r = fun st =>
    if ((st.ov o).lookup id).isSome then
      .ok ((), { st with overrides := st.overrides.set o (markOverride id (st.ov o)) })
    else p.defineRule id r st := rfl
theorem defineRule_inclOverrides (p f o ns dts id r) : (SCtx.inclOverrides (SCtx.incl p f o ns dts)).defineRule id r = fun st =>
    if ((st.ov o).lookup id).isSome then .error (.panic .redefinedOverride)
    else p.defineRule id r { st with overrides := st.overrides.set o ((id, false) :: st.ov o) } := rfl

/-- `Context::define` -/
theorem defineRule_spec {d : Defn} {q : MPattern} : ∀ {c : SCtx} {D : List Defn} {st st' : CState},
    DefPre F x st G c D → Tr F x st.look G c.chain d.env d.body q →
    c.defineRule d.name (ruleOf d.how q) st = .ok ((), st') → DefPost F x c.ovPath st G c D [d] st' G := by
  intro c
  induction c with
  | root f s ns dts =>
    intro D st st' h0 hT h
    rw [defineRule_root] at h
    exact defineScope_spec h0 hT rfl rfl h
  | grammar p s _ =>
    intro D st st' h0 hT h
    rw [defineRule_grammar] at h
    exact defineScope_spec h0 hT rfl rfl h
  | incl p f o ns dts ih =>
    intro D st st' h0 hT h
    have hov : o < st.overrides.length ∧ p.OvOK o := h0.ov
    rw [defineRule_incl] at h
    dsimp only at h
    split at h
    · rename_i hs
      cases h
      obtain ⟨g, gr⟩ := ovSet_spec h0.good hov.1 (markOverride d.name (st.ov o)) (by
        rw [markOverride_keys]; exact h0.good.ovn o)
      have hf : ([d].filter fun d => ((st.ov o).lookup d.name).isNone) = [] := by
        simp [Option.isNone_iff_eq_none, Option.isSome_iff_ne_none.mp hs]
      refine ⟨g, ?_, ?_, ?_⟩
      · have := gr (some p.cur)
        exact { this with
          ovEq := fun o' ho' hn => this.ovEq o' ho' (by
            simp only [SCtx.ovPath, List.mem_cons, not_or] at hn
            simp [hn.1]) }
      · simp only [survive, hf]
        rw [survive_nil, List.append_nil]; exact h0.opn
      · intro o' ho' id
        rw [ov_set hov.1]
        simp only [SCtx.ovPath, List.mem_cons] at ho'
        by_cases e : o' = o
        · subst e
          rw [if_pos rfl, lookup_markOverride]
          simp [hit, eq_comm]
        · simp only [hit, hf, if_neg e]
          rw [hit_nil]; simp
    · rename_i hs
      have hs' : (st.ov o).lookup d.name = none := by
        cases hl : (st.ov o).lookup d.name with
        | none => rfl
        | some b => rw [hl] at hs; exact absurd rfl hs
      have hf : ([d].filter fun d => ((st.ov o).lookup d.name).isNone) = [d] := by simp [hs']
      have hp : DefPre F x st G p D :=
        ⟨h0.good, h0.chainB, h0.isDef, hov.2.mono (by have := hov.1; omega), h0.hG, h0.opn⟩
      have := ih hp hT h
      refine ⟨this.good, this.grow.addOv, ?_, ?_⟩
      · simp only [survive, hf]; exact this.opn
      · intro o' ho' id
        simp only [SCtx.ovPath, List.mem_cons] at ho'
        by_cases e : o' = o
        · subst e
          rw [this.grow.ovEq _ hov.1 (ovPath_lt hov.2)]
          simp only [hit, if_pos]
          by_cases hid : d.name = id
          · subst hid; rw [hs']; rfl
          · simp [hid]
        · simp only [hit, hf, if_neg e]
          exact this.flags o' (ho'.resolve_left e) id
  | _ => intro D st st' h0; exact absurd h0.isDef id

end Verif
