import Verif.Proof.SchemaSem
import Verif.Spec.WellFormed
/-
A compiled pattern that corresponds to a source pattern means the same: references.
-/
namespace Verif

/-! ### references of flattened and merged patterns -/

theorem mem_refsL {n : Nat} : ∀ {ps : List MPattern}, n ∈ refsL ps ↔ ∃ p ∈ ps, n ∈ p.refs
  | [] => by simp [refsL]
  | p :: ps => by simp [refsL, mem_refsL (ps := ps)]

theorem refsL_append (ps qs : List MPattern) : refsL (ps ++ qs) = refsL ps ++ refsL qs := by
  induction ps with
  | nil => rfl
  | cons p ps ih => simp [refsL, ih]

theorem refsL_groupMembers (p : MPattern) : refsL (groupMembers p) = p.refs := by
  unfold groupMembers; split <;> simp [refsL, Pattern.refs]

theorem refsL_interleaveMembers (p : MPattern) : refsL (interleaveMembers p) = p.refs := by
  unfold interleaveMembers; split <;> simp [refsL, Pattern.refs]

theorem refsL_choiceMembers (p : MPattern) : refsL (choiceMembers p) = p.refs := by
  unfold choiceMembers; split <;> simp [refsL, Pattern.refs]

theorem appendChoice_refs {p q r : MPattern} (h : appendChoice p q = .ok r) : r.refs = p.refs ++ q.refs := by
  obtain ⟨l, rfl, rfl⟩ := appendChoice_ok h
  simp [Pattern.refs, refsL_append, refsL_choiceMembers]

theorem appendInterleave_refs {p q r : MPattern} (h : appendInterleave p q = .ok r) : r.refs = p.refs ++ q.refs := by
  obtain ⟨l, rfl, rfl⟩ := appendInterleave_ok h
  simp [Pattern.refs, refsL_append, refsL_interleaveMembers]

theorem joinChoice_refs {p q r : MPattern} (h : joinChoice p q = .ok r) : r.refs = p.refs ++ q.refs := by
  unfold joinChoice at h
  split at h
  · exact appendChoice_refs h
  · cases h; simp [Pattern.refs, refsL]

theorem joinInterleave_refs {p q r : MPattern} (h : joinInterleave p q = .ok r) : r.refs = p.refs ++ q.refs := by
  unfold joinInterleave at h
  split at h
  · exact appendInterleave_refs h
  · cases h; simp [Pattern.refs, refsL]

theorem merge1_refs {id : Str} {a b r : DefineRule} (h : merge1 id a b = .ok r) :
    r.pattern.refs = a.pattern.refs ++ b.pattern.refs := by
  unfold merge1 at h
  split at h
  all_goals first
    | (cases h; done)
    | (obtain ⟨p, h1, h2⟩ := except_bind_ok h
       cases h2
       first
        | exact appendChoice_refs h1
        | exact appendInterleave_refs h1
        | exact joinChoice_refs h1
        | exact joinInterleave_refs h1)

theorem ruleOf_refs (how : AssignMethod) (q : MPattern) : (ruleOf how q).pattern.refs = q.refs := by
  cases how <;> simp [ruleOf, DefineRule.pattern, Pattern.refs, refsL]

theorem Merged.refs {bs r} (h : Merged bs r) : ∀ b ∈ bs, ∀ n ∈ b.2.refs, n ∈ r.pattern.refs := by
  induction h with
  | one =>
    intro b hb n hn
    cases List.mem_singleton.mp hb
    rw [ruleOf_refs]; exact hn
  | snoc _ hm ih =>
    intro b hb n hn
    rw [merge1_refs hm, List.mem_append, ruleOf_refs]
    rcases List.mem_append.mp hb with hb | hb
    · exact .inl (ih b hb n hn)
    · cases List.mem_singleton.mp hb; exact .inr hn

/-! ### `Expands` is a function -/

theorem SSchema.Grammar.det {s : SSchema} {i j : List SItem} (h : s.Grammar i) (h' : s.Grammar j) : i = j := by
  cases h <;> cases h' <;> rfl

theorem Expands.det {F e items ds ds'} (h : Expands F e items ds) (h' : Expands F e items ds') : ds = ds' := by
  induction h generalizing ds' with
  | nil => cases h'; rfl
  | define _ ih => cases h' with | define h => rw [ih h]
  | div _ _ ih1 ih2 => cases h' with | div h1 h2 => rw [ih1 h1, ih2 h2]
  | annotation _ ih => cases h' with | annotation h => rw [ih h]
  | «include» h1 h2 h3 _ _ _ ih1 ih2 =>
    cases h' with
    | «include» k1 k2 k3 k4 _ k5 =>
      rw [h1] at k1; cases k1
      rw [h2] at k2; cases k2
      cases h3.det k3
      rw [ih1 k4, ih2 k5]

section
variable {F : Files} {x : Ext} {look : Nat → Str → Option Nat} {G : Nat → List Nat → List Defn → Prop}
  {cell : Nat → Option DefineRule} {env : Env Datatypes DatatypeValues} {S : Nat → Prop}

/-- `S` is a set of defined cells, closed under references -/
structure DefdSet (cell : Nat → Option DefineRule) (env : Env Datatypes DatatypeValues) (S : Nat → Prop) : Prop where
  defd : ∀ k, S k → ∃ r, cell k = some r ∧ env[k]? = some r.pattern ∧ ∀ j ∈ r.pattern.refs, S j

/-- every reference of `q` is in `S` -/
def Pattern.In (q : MPattern) (S : Nat → Prop) : Prop := ∀ k ∈ q.refs, S k

theorem Pattern.In.mem {ps : List MPattern} (h : ∀ k ∈ refsL ps, S k) {p} (hp : p ∈ ps) : p.In S :=
  fun k hk => h k (mem_refsL.mpr ⟨p, hp, hk⟩)

theorem ExMatch.toF (hC : Closed F x look G cell) (hS : DefdSet cell env S) {q s v} (h : ExMatch (stdLib x) env q s v) :
    q.In S → ExF (stdLib x) (OE F x look G) q s v := by
  induction h with
  | value h => intro _; exact .value h
  | data h => intro _; exact .data h
  | dataExcept h _ ih => intro hq; exact .dataExcept h (ih fun k hk => hq k (by simpa [Pattern.refs] using hk))
  | notAllowed => intro _; exact .notAllowed
  | choiceNil => intro _; exact .choiceNil
  | choiceCons _ _ ih1 ih2 =>
    intro hq
    refine .choiceCons (ih1 fun k hk => hq k ?_) (ih2 fun k hk => hq k ?_)
    · simp only [Pattern.refs, refsL, List.mem_append]; exact .inl hk
    · simp only [Pattern.refs, refsL, List.mem_append]; exact .inr hk
  | @ref n p s v hp _ ih =>
    intro hq
    obtain ⟨r, h1, h2, h3⟩ := hS.defd n (hq n (by simp [Pattern.refs]))
    rw [hp] at h2; cases h2
    refine .ref fun t ss ds gs id hg hc hl => ?_
    obtain ⟨bs, hb, ht, hm⟩ := hC t ss ds hg id n r hl h1
    rw [← hb]
    exact sDefsEx_of ExF.compo (fun b hb => (ht b hb).toEx (.cons hg hc)) hm (ih h3)

theorem Match.toF (hC : Closed F x look G cell) (hS : DefdSet cell env S) {q a c} (h : Match (stdLib x) env q a c) :
    q.In S → MF (stdLib x) (OE F x look G) (OM F x look G) q a c := by
  induction h with
  | empty => intro _; exact .empty
  | text h => intro _; exact .text h
  | choice hp _ ih => intro hq; exact .choice hp (ih (Pattern.In.mem hq hp))
  | groupNil => intro _; exact .groupNil
  | groupCons _ _ h3 ih1 ih2 =>
    intro hq
    refine .groupCons (ih1 fun k hk => hq k ?_) (ih2 fun k hk => hq k ?_) h3
    · simp only [Pattern.refs, refsL, List.mem_append]; exact .inl hk
    · simp only [Pattern.refs, refsL, List.mem_append]; exact .inr hk
  | interleaveNil => intro _; exact .interleaveNil
  | interleaveCons _ _ h3 h4 ih1 ih2 =>
    intro hq
    refine .interleaveCons (ih1 fun k hk => hq k ?_) (ih2 fun k hk => hq k ?_) h3 h4
    · simp only [Pattern.refs, refsL, List.mem_append]; exact .inl hk
    · simp only [Pattern.refs, refsL, List.mem_append]; exact .inr hk
  | mixed _ h2 h3 ih => intro hq; exact .mixed (ih hq) h2 h3
  | optionalNone => intro _; exact .optionalNone
  | optionalSome _ ih => intro hq; exact .optionalSome (ih hq)
  | zeroOrMoreNil => intro _; exact .zeroOrMoreNil
  | zeroOrMoreCons _ _ h3 ih1 ih2 => intro hq; exact .zeroOrMoreCons (ih1 hq) (ih2 hq) h3
  | oneOrMore _ _ h3 ih1 ih2 => intro hq; exact .oneOrMore (ih1 hq) (ih2 hq) h3
  | attr h1 h2 _ ih => intro hq; exact .attr h1 h2 (ih hq)
  | element h1 h2 _ ih => intro hq; exact .element h1 h2 (ih hq)
  | @ref n p a c hp _ ih =>
    intro hq
    obtain ⟨r, h1, h2, h3⟩ := hS.defd n (hq n (by simp [Pattern.refs]))
    rw [hp] at h2; cases h2
    refine .ref fun t ss ds gs id hg hc hl => ?_
    obtain ⟨bs, hb, ht, hm⟩ := hC t ss ds hg id n r hl h1
    rw [← hb]
    exact sDefs_of (MF.compo OM.perm) (fun b hb => (ht b hb).toS (.cons hg hc)) hm (ih h3)
  | value h => intro _; exact .value h
  | data h => intro _; exact .data h
  | dataExcept h h' => intro hq; exact .dataExcept h (h'.toF hC hS hq)
  | list h _ ih => intro hq; exact .list h (ih hq)

/-- **compiled to source** -/
theorem Match.toSource (hC : Closed F x look G cell) (hS : DefdSet cell env S) {ss gs e p q a c}
    (hT : Tr F x look G ss e p q) (hc : Chain G ss gs) (hq : q.In S) (h : Match (stdLib x) env q a c) :
    SMatch F x gs (.pat e p) a c := hT.toS hc _ _ (h.toF hC hS hq)

/-! ### source to compiled -/

theorem SEx.toMatch (hC : Closed F x look G cell) (hS : DefdSet cell env S) {gs g s v} (h : SEx F x gs g s v) :
    ∀ ss, Chain G ss gs →
      match g with
      | .pat e p => ∀ q, Tr F x look G ss e p q → q.In S → ExMatch (stdLib x) env q s v
      | .defs ds => ∀ (bs : List (Defn × MPattern)) r, bs.map (·.1) = ds →
          (∀ b ∈ bs, Tr F x look G ss b.1.env b.1.body b.2) → Merged (bs.map fun b => (b.1.how, b.2)) r →
          r.pattern.In S → ExMatch (stdLib x) env r.pattern s v
      | .inter _ => True
      | .alts ds => ∀ bs : List (Defn × MPattern), bs.map (·.1) = ds →
          (∀ b ∈ bs, Tr F x look G ss b.1.env b.1.body b.2) → (∀ b ∈ bs, b.2.In S) →
          ExAll (ExMatch (stdLib x) env) (bs.map (·.2)) s v := by
  have C := ExMatch.compo (stdLib x) env
  induction h with
  | value h1 h2 h3 =>
    intro ss hc q hT hq
    cases hT with | value k1 k2 => rw [h1] at k1; cases k1; rw [h2] at k2; cases k2; exact .value h3
  | data h1 h2 h3 =>
    intro ss hc q hT hq
    cases hT with | data k1 k2 => rw [h1] at k1; cases k1; rw [h2] at k2; cases k2; exact .data h3
  | dataExcept h1 h2 h3 _ ih =>
    intro ss hc q hT hq
    cases hT with
    | dataExcept k1 k2 k3 =>
      rw [h1] at k1; cases k1; rw [h2] at k2; cases k2; exact .dataExcept h3 (ih ss hc _ k3 hq)
  | notAllowed => intro ss hc q hT hq; cases hT; exact .notAllowed
  | choice _ _ ih1 ih2 =>
    intro ss hc q hT hq
    cases hT with
    | choice t1 t2 =>
      have hq' : ∀ k, k ∈ _ ++ _ → S k := fun k hk => hq k (by
        simp only [Pattern.refs, refsL_append, refsL_choiceMembers]; exact hk)
      refine C.choice.mpr (ExAll.append_iff.mpr ⟨_, _, rfl, (exAll_members C _).mpr (ih1 ss hc _ t1 ?_),
        (exAll_members C _).mpr (ih2 ss hc _ t2 ?_)⟩)
      · exact fun k hk => hq' k (List.mem_append_left _ hk)
      · exact fun k hk => hq' k (List.mem_append_right _ hk)
  | paren _ ih => intro ss hc q hT hq; cases hT with | paren t => exact ih ss hc q t hq
  | ident _ ih =>
    intro ss hc q hT hq
    cases hT with
    | ident hl =>
      rename_i s' ss' k
      obtain ⟨r, h1, h2, h3⟩ := hS.defd k (hq k (by simp [Pattern.refs]))
      cases hc with
      | cons hg hc =>
        obtain ⟨bs, hb, ht, hm⟩ := hC _ _ _ hg _ k r hl h1
        exact .ref h2 (ih _ (.cons hg hc) bs r hb ht hm h3)
  | parent _ ih =>
    intro ss hc q hT hq
    cases hT with
    | parent hl => cases hc with | cons _ hc => exact ih _ hc _ (.ident hl) hq
  | grammar h1 _ ih =>
    intro ss hc q hT hq
    cases hT with
    | grammar k1 k2 k3 k4 k5 =>
      cases h1.det k2
      exact ih _ (.cons k1 hc) _ _ k3 k4 k5 hq
  | externalPattern h1 h2 h3 _ ih =>
    intro ss hc q hT hq
    cases hT with
    | externalPattern k1 k2 k3 k4 =>
      rw [h1] at k1; cases k1; rw [h2] at k2; cases k2; rw [h3] at k3; cases k3
      exact ih _ hc _ k4 hq
    | externalGrammar k1 k2 k3 k4 =>
      rw [h1] at k1; cases k1; rw [h2] at k2; cases k2; rw [h3] at k3; cases k3
  | externalGrammar h1 h2 h3 _ ih =>
    intro ss hc q hT hq
    cases hT with
    | externalPattern k1 k2 k3 k4 =>
      rw [h1] at k1; cases k1; rw [h2] at k2; cases k2; rw [h3] at k3; cases k3
    | externalGrammar k1 k2 k3 k4 =>
      rw [h1] at k1; cases k1; rw [h2] at k2; cases k2; rw [h3] at k3; cases k3
      exact ih _ hc _ k4 hq
  | defs h1 h2 _ ih =>
    intro ss hc bs r hb ht hm hq
    refine (hm.meaningEx C _ _).mpr ⟨?_, ?_⟩
    · intro b hb'
      obtain ⟨d, hd, rfl⟩ := List.mem_map.mp hb'
      exact h2 d.1 (hb ▸ List.mem_map_of_mem hd)
    · rw [List.map_map]
      exact ih ss hc bs hb ht fun b hb k hk => hq k (hm.refs _ (List.mem_map_of_mem hb) k hk)
  | altsNil =>
    intro ss hc bs hb ht hq
    cases bs with
    | nil => rfl
    | cons b bs => cases hb
  | altsCons _ _ ih1 ih2 =>
    intro ss hc bs hb ht hq
    cases bs with
    | nil => cases hb
    | cons b bs =>
      simp only [List.map_cons, List.cons.injEq] at hb
      obtain ⟨rfl, hb⟩ := hb
      exact ⟨_, _, rfl, ih1 ss hc _ (ht b (by simp)) (hq b (by simp)),
        ih2 ss hc bs hb (fun b hb => ht b (by simp [hb])) fun b hb => hq b (by simp [hb])⟩

theorem SMatch.toMatch (hC : Closed F x look G cell) (hS : DefdSet cell env S) {gs g a c} (h : SMatch F x gs g a c) :
    ∀ ss, Chain G ss gs →
      match g with
      | .pat e p => ∀ q, Tr F x look G ss e p q → q.In S → Match (stdLib x) env q a c
      | .defs ds => ∀ (bs : List (Defn × MPattern)) r, bs.map (·.1) = ds →
          (∀ b ∈ bs, Tr F x look G ss b.1.env b.1.body b.2) → Merged (bs.map fun b => (b.1.how, b.2)) r →
          r.pattern.In S → Match (stdLib x) env r.pattern a c
      | .inter ds => ∀ bs : List (Defn × MPattern), bs.map (·.1) = ds →
          (∀ b ∈ bs, Tr F x look G ss b.1.env b.1.body b.2) → (∀ b ∈ bs, b.2.In S) →
          InterAll (Match (stdLib x) env) (bs.map (·.2)) a c
      | .alts _ => True := by
  have C := Match.compo (stdLib x) env
  induction h with
  | empty => intro ss hc q hT hq; cases hT; exact .empty
  | text h => intro ss hc q hT hq; cases hT; exact .text h
  | choiceLeft _ ih =>
    intro ss hc q hT hq
    cases hT with
    | choice t1 t2 =>
      obtain ⟨q', hq', hm⟩ := (choice_members C _).mpr (ih ss hc _ t1 fun k hk => hq k (by
        simp only [Pattern.refs, refsL_append, refsL_choiceMembers]; exact List.mem_append_left _ hk))
      exact .choice (List.mem_append_left _ hq') hm
  | choiceRight _ ih =>
    intro ss hc q hT hq
    cases hT with
    | choice t1 t2 =>
      obtain ⟨q', hq', hm⟩ := (choice_members C _).mpr (ih ss hc _ t2 fun k hk => hq k (by
        simp only [Pattern.refs, refsL_append, refsL_choiceMembers]; exact List.mem_append_right _ hk))
      exact .choice (List.mem_append_right _ hq') hm
  | seq _ _ h3 ih1 ih2 =>
    intro ss hc q hT hq
    cases hT with
    | seq t1 t2 =>
      refine C.group.mpr ((SeqAll.append_iff C).mpr ⟨_, _, _, _, h3, rfl,
        (seqAll_members C _).mpr (ih1 ss hc _ t1 fun k hk => hq k ?_),
        (seqAll_members C _).mpr (ih2 ss hc _ t2 fun k hk => hq k ?_)⟩)
      · simp only [Pattern.refs, refsL_append, refsL_groupMembers]; exact List.mem_append_left _ hk
      · simp only [Pattern.refs, refsL_append, refsL_groupMembers]; exact List.mem_append_right _ hk
  | inter _ _ h3 h4 ih1 ih2 =>
    intro ss hc q hT hq
    cases hT with
    | inter t1 t2 =>
      refine C.inter.mpr ((InterAll.append_iff C).mpr ⟨_, _, _, _, h3, h4,
        (interAll_members C _).mpr (ih1 ss hc _ t1 fun k hk => hq k ?_),
        (interAll_members C _).mpr (ih2 ss hc _ t2 fun k hk => hq k ?_)⟩)
      · simp only [Pattern.refs, refsL_append, refsL_interleaveMembers]; exact List.mem_append_left _ hk
      · simp only [Pattern.refs, refsL_append, refsL_interleaveMembers]; exact List.mem_append_right _ hk
  | mixed _ h2 h3 ih => intro ss hc q hT hq; cases hT with | mixed t => exact .mixed (ih ss hc _ t hq) h2 h3
  | paren _ ih => intro ss hc q hT hq; cases hT with | paren t => exact ih ss hc q t hq
  | optionalNone => intro ss hc q hT hq; cases hT; exact .optionalNone
  | optionalSome _ ih => intro ss hc q hT hq; cases hT with | optional t => exact .optionalSome (ih ss hc _ t hq)
  | zeroOrMoreNil => intro ss hc q hT hq; cases hT; exact .zeroOrMoreNil
  | zeroOrMoreCons _ _ h3 ih1 ih2 =>
    intro ss hc q hT hq
    cases hT with
    | zeroOrMore t => exact .zeroOrMoreCons (ih1 ss hc _ t hq) (ih2 ss hc _ (.zeroOrMore t) hq) h3
  | oneOrMore _ _ h3 ih1 ih2 =>
    intro ss hc q hT hq
    cases hT with
    | oneOrMore t => exact .oneOrMore (ih1 ss hc _ t hq) (ih2 ss hc _ (.zeroOrMore t) hq) h3
  | «attribute» h1 h2 _ ih =>
    intro ss hc q hT hq
    cases hT with | «attribute» hn t => exact .attr ((hn _).mpr h1) h2 (ih ss hc _ t hq)
  | element h1 h2 _ ih =>
    intro ss hc q hT hq
    cases hT with | element hn t => exact .element ((hn _).mpr h1) h2 (ih ss hc _ t hq)
  | value h1 h2 h3 =>
    intro ss hc q hT hq
    cases hT with | value k1 k2 => rw [h1] at k1; cases k1; rw [h2] at k2; cases k2; exact .value h3
  | data h1 h2 h3 =>
    intro ss hc q hT hq
    cases hT with | data k1 k2 => rw [h1] at k1; cases k1; rw [h2] at k2; cases k2; exact .data h3
  | dataExcept h1 h2 h3 h4 =>
    intro ss hc q hT hq
    cases hT with
    | dataExcept k1 k2 k3 =>
      rw [h1] at k1; cases k1; rw [h2] at k2; cases k2; exact .dataExcept h3 (h4.toMatch hC hS ss hc _ k3 hq)
  | list h1 _ ih => intro ss hc q hT hq; cases hT with | list t => exact .list h1 (ih ss hc _ t hq)
  | ident _ ih =>
    intro ss hc q hT hq
    cases hT with
    | ident hl =>
      rename_i s' ss' k
      obtain ⟨r, h1, h2, h3⟩ := hS.defd k (hq k (by simp [Pattern.refs]))
      cases hc with
      | cons hg hc =>
        obtain ⟨bs, hb, ht, hm⟩ := hC _ _ _ hg _ k r hl h1
        exact .ref h2 (ih _ (.cons hg hc) bs r hb ht hm h3)
  | parent _ ih =>
    intro ss hc q hT hq
    cases hT with
    | parent hl => cases hc with | cons _ hc => exact ih _ hc _ (.ident hl) hq
  | grammar h1 _ ih =>
    intro ss hc q hT hq
    cases hT with
    | grammar k1 k2 k3 k4 k5 =>
      cases h1.det k2
      exact ih _ (.cons k1 hc) _ _ k3 k4 k5 hq
  | externalPattern h1 h2 h3 _ ih =>
    intro ss hc q hT hq
    cases hT with
    | externalPattern k1 k2 k3 k4 =>
      rw [h1] at k1; cases k1; rw [h2] at k2; cases k2; rw [h3] at k3; cases k3
      exact ih _ hc _ k4 hq
    | externalGrammar k1 k2 k3 k4 =>
      rw [h1] at k1; cases k1; rw [h2] at k2; cases k2; rw [h3] at k3; cases k3
  | externalGrammar h1 h2 h3 _ ih =>
    intro ss hc q hT hq
    cases hT with
    | externalPattern k1 k2 k3 k4 =>
      rw [h1] at k1; cases k1; rw [h2] at k2; cases k2; rw [h3] at k3; cases k3
    | externalGrammar k1 k2 k3 k4 =>
      rw [h1] at k1; cases k1; rw [h2] at k2; cases k2; rw [h3] at k3; cases k3
      exact ih _ hc _ k4 hq
  | defsChoice h1 h2 _ ih =>
    intro ss hc bs r hb ht hm hq
    rw [← hb] at h2
    obtain ⟨b, hb', rfl⟩ := List.mem_map.mp h2
    refine ((hm.meaning C _ _).1 ?_).mpr ⟨_, List.mem_map_of_mem hb', ih ss hc _ (ht b hb') ?_⟩
    · intro b hb'
      obtain ⟨d, hd, rfl⟩ := List.mem_map.mp hb'
      exact h1 d.1 (hb ▸ List.mem_map_of_mem hd)
    · exact fun k hk => hq k (hm.refs _ (List.mem_map_of_mem hb') k hk)
  | defsInterleave h1 _ ih =>
    intro ss hc bs r hb ht hm hq
    refine ((hm.meaning C _ _).2 ?_).mpr ?_
    · obtain ⟨d, hd, e⟩ := h1
      rw [← hb] at hd
      obtain ⟨b, hb', rfl⟩ := List.mem_map.mp hd
      exact ⟨_, List.mem_map_of_mem hb', e⟩
    · rw [List.map_map]
      exact ih ss hc bs hb ht fun b hb k hk => hq k (hm.refs _ (List.mem_map_of_mem hb) k hk)
  | interNil =>
    intro ss hc bs hb ht hq
    cases bs with
    | nil => exact ⟨rfl, rfl⟩
    | cons b bs => cases hb
  | interCons _ _ h3 h4 ih1 ih2 =>
    intro ss hc bs hb ht hq
    cases bs with
    | nil => cases hb
    | cons b bs =>
      simp only [List.map_cons, List.cons.injEq] at hb
      obtain ⟨rfl, hb⟩ := hb
      exact ⟨_, _, _, _, h3, h4, ih1 ss hc _ (ht b (by simp)) (hq b (by simp)),
        ih2 ss hc bs hb (fun b hb => ht b (by simp [hb])) fun b hb => hq b (by simp [hb])⟩

/-- the compiled pattern and the source pattern match the same -/
theorem Tr.same (hC : Closed F x look G cell) (hS : DefdSet cell env S) {ss gs e p q a c}
    (hT : Tr F x look G ss e p q) (hc : Chain G ss gs) (hq : q.In S) :
    Match (stdLib x) env q a c ↔ SMatch F x gs (.pat e p) a c :=
  ⟨fun h => h.toSource hC hS hT hc hq, fun h => h.toMatch hC hS ss hc q hT hq⟩

end
end Verif
