import Verif.Spec.Edits
import Verif.Proof.Doc
/-
Rewritings of documents: attribute order, whitespace.
-/
set_option linter.unusedSectionVars false
namespace Verif
variable {D V : Type}

/-! ### attribute order, on meanings -/

inductive NodeOrder : List Node → List Node → Prop
  | nil : NodeOrder [] []
  | same {x xs ys} : NodeOrder xs ys → NodeOrder (x :: xs) (x :: ys)
  | elem {nm as as' kids kids' xs ys} : as.Perm as' → NodeOrder kids kids' → NodeOrder xs ys →
      NodeOrder (.elem nm as kids :: xs) (.elem nm as' kids' :: ys)

theorem NodeOrder.append_inv {c1 c2 c'} : NodeOrder (c1 ++ c2) c' →
    ∃ d1 d2, c' = d1 ++ d2 ∧ NodeOrder c1 d1 ∧ NodeOrder c2 d2 := by
  induction c1 generalizing c' with
  | nil => intro h; exact ⟨[], c', rfl, .nil, h⟩
  | cons x c1 ih =>
    intro h
    cases h with
    | same h => obtain ⟨d1, d2, rfl, h1, h2⟩ := ih h; exact ⟨_ :: d1, d2, rfl, .same h1, h2⟩
    | elem hp hk h => obtain ⟨d1, d2, rfl, h1, h2⟩ := ih h; exact ⟨_ :: d1, d2, rfl, .elem hp hk h1, h2⟩

theorem NodeOrder.shuffle {a b c : List Node} (hs : Shuffle a b c) : ∀ {c'}, NodeOrder c c' →
    ∃ a' b', Shuffle a' b' c' ∧ NodeOrder a a' ∧ NodeOrder b b' := by
  induction hs with
  | nil => intro c' h; cases h; exact ⟨[], [], .nil, .nil, .nil⟩
  | left _ ih =>
    intro c' h
    cases h with
    | same h => obtain ⟨a', b', h1, h2, h3⟩ := ih h; exact ⟨_ :: a', b', .left h1, .same h2, h3⟩
    | elem hp hk h => obtain ⟨a', b', h1, h2, h3⟩ := ih h; exact ⟨_ :: a', b', .left h1, .elem hp hk h2, h3⟩
  | right _ ih =>
    intro c' h
    cases h with
    | same h => obtain ⟨a', b', h1, h2, h3⟩ := ih h; exact ⟨a', _ :: b', .right h1, h2, .same h3⟩
    | elem hp hk h => obtain ⟨a', b', h1, h2, h3⟩ := ih h; exact ⟨a', _ :: b', .right h1, h2, .elem hp hk h3⟩

theorem NodeOrder.texts {c c'} (h : NodeOrder c c') : (∀ x ∈ c, ∃ s, x = Node.text s) → c' = c := by
  induction h with
  | nil => intro _; rfl
  | same _ ih => intro hx; rw [ih fun x h => hx x (by simp [h])]
  | elem _ _ _ _ _ => intro hx; obtain ⟨s, h⟩ := hx _ List.mem_cons_self; cases h

theorem NodeOrder.weak {c d : List Node} (hw : Weak c d) : ∀ {c'}, NodeOrder c c' →
    ∃ d', Weak c' d' ∧ NodeOrder d d' := by
  induction hw with
  | nil => intro c' h; cases h; exact ⟨[], .nil, .nil⟩
  | keep _ ih =>
    intro c' h
    cases h with
    | same h => obtain ⟨d', h1, h2⟩ := ih h; exact ⟨_ :: d', .keep h1, .same h2⟩
    | elem hp hk h => obtain ⟨d', h1, h2⟩ := ih h; exact ⟨_ :: d', .keep h1, .elem hp hk h2⟩
  | drop hs _ ih =>
    intro c' h
    cases h with
    | same h => obtain ⟨d', h1, h2⟩ := ih h; exact ⟨d', .drop hs h1, h2⟩

theorem NodeOrder.refl : ∀ c, NodeOrder c c
  | [] => .nil
  | _ :: c => .same (NodeOrder.refl c)

theorem Match.nodeOrder {L : Lib D V} {env : Env D V} {p : Pattern D V} {a c} (h : Match L env p a c) :
    ∀ {c'}, NodeOrder c c' → Match L env p a c' := by
  induction h with
  | empty => intro c' h; cases h; exact .empty
  | text hc => intro c' h; rw [h.texts hc]; exact .text hc
  | choice h1 _ ih => intro c' h; exact .choice h1 (ih h)
  | groupNil => intro c' h; cases h; exact .groupNil
  | groupCons _ _ hp ih1 ih2 =>
    intro c' h
    obtain ⟨d1, d2, rfl, h1, h2⟩ := h.append_inv
    exact .groupCons (ih1 h1) (ih2 h2) hp
  | interleaveNil => intro c' h; cases h; exact .interleaveNil
  | interleaveCons _ _ hp hs ih1 ih2 =>
    intro c' h
    obtain ⟨d1, d2, hs', h1, h2⟩ := NodeOrder.shuffle hs h
    exact .interleaveCons (ih1 h1) (ih2 h2) hp hs'
  | mixed _ ht hs ih =>
    intro c' h
    obtain ⟨d1, d2, hs', h1, h2⟩ := NodeOrder.shuffle hs h
    rw [h2.texts ht] at hs'
    exact .mixed (ih h1) ht hs'
  | optionalNone => intro c' h; cases h; exact .optionalNone
  | optionalSome _ ih => intro c' h; exact .optionalSome (ih h)
  | zeroOrMoreNil => intro c' h; cases h; exact .zeroOrMoreNil
  | zeroOrMoreCons _ _ hp ih1 ih2 =>
    intro c' h
    obtain ⟨d1, d2, rfl, h1, h2⟩ := h.append_inv
    exact .zeroOrMoreCons (ih1 h1) (ih2 h2) hp
  | oneOrMore _ _ hp ih1 ih2 =>
    intro c' h
    obtain ⟨d1, d2, rfl, h1, h2⟩ := h.append_inv
    exact .oneOrMore (ih1 h1) (ih2 h2) hp
  | attr h1 h2 h3 _ => intro c' h; cases h; exact .attr h1 h2 h3
  | element hn hw hm ih =>
    intro c' h
    cases h with
    | same h => cases h; exact .element hn hw hm
    | elem hp hk h =>
      cases h
      obtain ⟨d', hw', hk'⟩ := NodeOrder.weak hw hk
      exact .element hn hw' ((ih hk').perm hp)
  | ref h1 _ ih => intro c' h; exact .ref h1 (ih h)
  | value h1 => intro c' h; rw [h.texts (by simp)]; exact .value h1
  | data h1 => intro c' h; rw [h.texts (by simp)]; exact .data h1
  | dataExcept h1 h2 => intro c' h; rw [h.texts (by simp)]; exact .dataExcept h1 h2
  | list h1 h2 _ => intro c' h; rw [h.texts (by simp)]; exact .list h1 h2

theorem NodeOrder.join {c c'} (h : NodeOrder c c') : NodeOrder (joinText c) (joinText c') := by
  induction h with
  | nil => exact .nil
  | @same x xs ys _ ih =>
    cases x with
    | text s =>
      simp only [joinText]
      generalize joinText xs = u at ih
      generalize joinText ys = v at ih
      cases ih with
      | nil => exact .same .nil
      | @same y us vs h =>
        cases y with
        | text t => exact .same h
        | elem nm as k => exact .same (.same h)
      | elem hp hk h => exact .same (.elem hp hk h)
    | elem nm as k => exact .same ih
  | elem hp hk _ _ ih => exact .elem hp hk ih

/-! ### attribute order, on documents -/

theorem nsDecls_mem_perm {a b : List RawAttr} (h : a.Perm b) : (nsDecls a).Perm (nsDecls b) := by
  induction h with
  | nil => exact .nil
  | cons x _ ih =>
    simp only [nsDecls]
    split
    · exact ih.cons _
    · split
      · exact ih.cons _
      · exact ih
  | swap x y l =>
    simp only [nsDecls]
    repeat' split
    all_goals first | exact .refl _ | exact .swap _ _ _
  | trans _ _ h1 h2 => exact h1.trans h2

theorem plainAtts_perm {a b : List RawAttr} (h : a.Perm b) : (plainAtts a).Perm (plainAtts b) := by
  induction h with
  | nil => exact .nil
  | cons x _ ih =>
    simp only [plainAtts]
    split
    · exact ih
    · split
      · exact ih
      · exact ih.cons _
  | swap x y l =>
    simp only [plainAtts]
    repeat' split
    all_goals first | exact .refl _ | exact .swap _ _ _
  | trans _ _ h1 h2 => exact h1.trans h2

theorem lookup_functional {l l' : List (Str × Str)} (hm : ∀ x, x ∈ l ↔ x ∈ l')
    (hf : ∀ d ∈ l, ∀ e ∈ l, d.1 = e.1 → d.2 = e.2) (k : Str) : l.lookup k = l'.lookup k := by
  cases h : l.lookup k with
  | none =>
    cases h' : l'.lookup k with
    | none => rfl
    | some v => exact absurd ((hm _).mpr (lookup_mem h')) (lookup_none h v)
  | some v =>
    cases h' : l'.lookup k with
    | none => exact absurd ((hm _).mp (lookup_mem h)) (lookup_none h' v)
    | some v' => exact congrArg some (hf _ (lookup_mem h) _ ((hm _).mpr (lookup_mem h')) rfl)

/-- scopes that resolve every prefix alike -/
def ScopeEq (s s' : List (Str × Str)) : Prop := ∀ k, s.lookup k = s'.lookup k

theorem lookup_append {k : Str} : ∀ (a b : List (Str × Str)), (a ++ b).lookup k = (a.lookup k).or (b.lookup k)
  | [], b => by simp
  | (x, v) :: a, b => by
    simp only [List.cons_append, List.lookup_cons]
    cases k == x <;> simp [lookup_append a b]

theorem ScopeEq.append {s s' : List (Str × Str)} (h : ScopeEq s s') (a : List (Str × Str)) : ScopeEq (a ++ s) (a ++ s') := by
  intro k; rw [lookup_append, lookup_append, h k]

theorem ScopeEq.elemName {s s'} (h : ScopeEq s s') (p l : Str) : elemName s p l = elemName s' p l := by
  simp only [Verif.elemName, h p, h []]

theorem ScopeEq.attrName {s s'} (h : ScopeEq s s') (p l : Str) : attrName s p l = attrName s' p l := by
  simp only [Verif.attrName, h p]

theorem AttsMean.scope {f s s' as bs} (h : AttsMean f s as bs) (hs : ScopeEq s s') : AttsMean f s' as bs := by
  induction h with
  | nil => exact .nil
  | cons h1 h2 _ ih => exact .cons (by rw [← hs.attrName]; exact h1) h2 ih

theorem Resolves.scope {f s xs ns} (h : Resolves f s xs ns) : ∀ {s'}, ScopeEq s s' → Resolves f s' xs ns := by
  induction h with
  | nil => intro s' _; exact .nil
  | text hd _ ih => intro s' hs; exact .text hd (ih hs)
  | cdata _ ih => intro s' hs; exact .cdata (ih hs)
  | comment _ ih => intro s' hs; exact .comment (ih hs)
  | pi _ ih => intro s' hs; exact .pi (ih hs)
  | elem h1 h2 _ h4 _ ih1 ih2 =>
    intro s' hs
    have hs' := hs.append
    exact .elem (by rw [← (hs' _).elemName]; exact h1) (h2.scope (hs' _)) (ih1 (hs' _)) h4 (ih2 hs)

theorem AttsMean.perm {f s as as'} (hp : as.Perm as') : ∀ {bs}, AttsMean f s as bs →
    ∃ bs', AttsMean f s as' bs' ∧ bs.Perm bs' := by
  induction hp with
  | nil => intro bs h; exact ⟨bs, h, .refl _⟩
  | cons x _ ih =>
    intro bs h
    cases h with
    | cons h1 h2 h3 => obtain ⟨bs', g1, g2⟩ := ih h3; exact ⟨_ :: bs', .cons h1 h2 g1, g2.cons _⟩
  | swap x y l =>
    intro bs h
    cases h with
    | cons h1 h2 h3 =>
      cases h3 with
      | cons h4 h5 h6 => exact ⟨_, .cons h4 h5 (.cons h1 h2 h6), .swap _ _ _⟩
  | trans _ _ ih1 ih2 =>
    intro bs h
    obtain ⟨b1, g1, p1⟩ := ih1 h
    obtain ⟨b2, g2, p2⟩ := ih2 g1
    exact ⟨b2, g2, p1.trans p2⟩

theorem Resolves.attrOrder {f xs ys} (h : AttrOrder xs ys) : ∀ {s s' ns sc rd}, Resolves f s xs ns → ScopeEq s s' → inScopeL sc rd xs →
    ∃ ns', Resolves f s' ys ns' ∧ NodeOrder ns ns' := by
  induction h with
  | nil => intro s s' ns _ _ h _ _; cases h; exact ⟨[], .nil, .nil⟩
  | same _ ih =>
    intro s s' ns _ _ h hs hu
    cases h with
    | text hd h => obtain ⟨ns', h1, h2⟩ := ih h hs hu.2; exact ⟨_, .text hd h1, .same h2⟩
    | cdata h => obtain ⟨ns', h1, h2⟩ := ih h hs hu.2; exact ⟨_, .cdata h1, .same h2⟩
    | comment h => obtain ⟨ns', h1, h2⟩ := ih h hs hu.2; exact ⟨_, .comment h1, h2⟩
    | pi h => obtain ⟨ns', h1, h2⟩ := ih h hs hu.2; exact ⟨_, .pi h1, h2⟩
    | elem g1 g2 g3 g4 h =>
      obtain ⟨ns', h1, h2⟩ := ih h hs hu.2
      have hs' := hs.append
      exact ⟨_, .elem (by rw [← (hs' _).elemName]; exact g1) (g2.scope (hs' _)) (g3.scope (hs' _)) g4 h1, .same h2⟩
  | @elem pre loc atts atts' sc kids kids' xs ys hp hk _ ih1 ih2 =>
    intro s s' ns _ _ h hs hu
    simp only [inScopeL, XNode.inScope] at hu
    cases h with
    | elem g1 g2 g3 g4 h =>
      obtain ⟨ns', h1, h2⟩ := ih2 h hs hu.2
      have hsc : ScopeEq (nsDecls atts ++ s) (nsDecls atts' ++ s') := by
        intro k
        rw [lookup_append, lookup_append, hs k,
          lookup_functional (fun x => (nsDecls_mem_perm hp).mem_iff) hu.1.2.1 k]
      obtain ⟨kns', k1, k2⟩ := ih1 g3 hsc hu.1.2.2
      obtain ⟨bs', b1, b2⟩ := AttsMean.perm (plainAtts_perm hp) (g2.scope hsc)
      refine ⟨_, .elem (by rw [← hsc.elemName]; exact g1) b1 k1 ?_ h1, .elem b2 k2.join h2⟩
      intro hsc'
      have := g4 hsc'
      subst this
      cases hk
      rfl

/-! tameness does not depend on the order of attributes -/

theorem AttrOrder.atts {xs ys} (h : AttrOrder xs ys) : (allAttsL xs).Perm (allAttsL ys) := by
  induction h with
  | nil => exact .refl _
  | same _ ih => exact ih.append_left _
  | elem hp _ _ ih1 ih2 =>
    simp only [allAttsL, XNode.allAtts]
    exact (hp.append ih1).append ih2

theorem AttrOrder.pres {xs ys} (h : AttrOrder xs ys) : allPresL ys = allPresL xs := by
  induction h with
  | nil => rfl
  | same _ ih => simp only [allPresL, ih]
  | elem _ _ _ ih1 ih2 => simp only [allPresL, XNode.allPres, ih1, ih2]

theorem AttrOrder.texts {xs ys} (h : AttrOrder xs ys) : allTextsL ys = allTextsL xs := by
  induction h with
  | nil => rfl
  | same _ ih => simp only [allTextsL, ih]
  | elem _ _ _ ih1 ih2 => simp only [allTextsL, XNode.allTexts, ih1, ih2]

theorem AttrOrder.unsplit {xs ys} (h : AttrOrder xs ys) : ∀ {prev}, unsplitL prev xs → unsplitL prev ys := by
  induction h with
  | nil => intro _ h; exact h
  | @same x _ _ _ ih =>
    intro prev h
    cases x <;> simp only [unsplitL] at h ⊢ <;> first | exact ⟨h.1, ih h.2⟩ | exact ih h
  | elem _ _ _ ih1 ih2 =>
    intro prev h
    simp only [unsplitL] at h ⊢
    exact ⟨ih1 h.1, ih2 h.2⟩

mutual
theorem XNode.inScope_congr : ∀ {x : XNode} {sc sc' rd rd'}, x.inScope sc rd → ScopeEq sc sc' → ScopeEq rd rd' → x.inScope sc' rd'
  | .text _, _, _, _, _, _, _, _ | .cdata _, _, _, _, _, _, _, _ | .comment, _, _, _, _, _, _, _ | .pi, _, _, _, _, _, _, _ => by
    simp only [XNode.inScope]
  | .elem pre loc atts sc kids, _, _, _, _, h, hs, hr => by
    simp only [XNode.inScope] at h ⊢
    refine ⟨fun p hp hne => ?_, h.2.1, inScopeL_congr h.2.2 (hs.append _) (hr.append _)⟩
    rw [← hs.append _ p, ← hr.append _ p]
    exact h.1 p hp hne
theorem inScopeL_congr : ∀ {xs : List XNode} {sc sc' rd rd'}, inScopeL sc rd xs → ScopeEq sc sc' → ScopeEq rd rd' → inScopeL sc' rd' xs
  | [], _, _, _, _, _, _, _ => trivial
  | x :: xs, _, _, _, _, h, hs, hr => by
    simp only [inScopeL] at h ⊢
    exact ⟨XNode.inScope_congr h.1 hs hr, inScopeL_congr h.2 hs (hr.append _)⟩
end

/-- the order of the attributes of a tag does not matter for what is in scope -/
theorem inScope_attrOrder {xs ys} (h : AttrOrder xs ys) : ∀ {sc sc' rd rd'}, ScopeEq sc sc' → ScopeEq rd rd' → inScopeL sc rd xs →
    inScopeL sc' rd' ys ∧ ScopeEq (declsL xs ++ rd) (declsL ys ++ rd') := by
  induction h with
  | nil => intro sc sc' rd rd' _ hr _; exact ⟨trivial, hr⟩
  | @same x xs ys _ ih =>
    intro sc sc' rd rd' hs hr hu
    simp only [inScopeL] at hu ⊢
    obtain ⟨i1, i2⟩ := ih hs (hr.append _) hu.2
    simp only [declsL, List.append_assoc]
    exact ⟨⟨XNode.inScope_congr hu.1 hs hr, i1⟩, i2⟩
  | @elem pre loc atts atts' sc kids kids' xs ys hp hk _ ih1 ih2 =>
    intro s s' rd rd' hs hr hu
    simp only [inScopeL, XNode.inScope] at hu ⊢
    obtain ⟨⟨c1, c2, c3⟩, c4⟩ := hu
    have both : ∀ {s s' : List (Str × Str)}, ScopeEq s s' → ScopeEq (nsDecls atts ++ s) (nsDecls atts' ++ s') := by
      intro s s' hs k
      rw [lookup_append, lookup_append, hs k, lookup_functional (fun x => (nsDecls_mem_perm hp).mem_iff) c2 k]
    obtain ⟨i1, i2⟩ := ih1 (both hs) (both hr) c3
    have hd : ScopeEq ((XNode.elem pre loc atts sc kids).decls ++ rd) ((XNode.elem pre loc atts' sc kids').decls ++ rd') := by
      simp only [XNode.decls, List.append_assoc]; exact i2
    obtain ⟨j1, j2⟩ := ih2 hs hd c4
    refine ⟨⟨⟨?_, ?_, i1⟩, j1⟩, by simp only [declsL, List.append_assoc] at j2 ⊢; exact j2⟩
    · intro p hpm hne
      rw [← both hs p, ← both hr p]
      refine c1 p ?_ hne
      rcases List.mem_cons.mp hpm with rfl | hpm
      · exact List.mem_cons_self
      · exact List.mem_cons_of_mem _ (((plainAtts_perm hp).map _).mem_iff.mpr hpm)
    · intro d hd e he
      exact c2 d ((nsDecls_mem_perm hp).mem_iff.mpr hd) e ((nsDecls_mem_perm hp).mem_iff.mpr he)

theorem XDoc.SameButAttrOrder.tame {d d' : XDoc} (h : d.SameButAttrOrder d') (ht : d.Tame) : d'.Tame := by
  obtain ⟨h1, h2⟩ := h
  have hent : d'.entities = d.entities := by unfold XDoc.entities; rw [h1]
  have hn := nsDecls_mem_perm h2.atts
  refine ⟨⟨(inScope_attrOrder h2 (fun _ => rfl) (fun _ => rfl) ht.body.inScope).1, ?_, ?_, ?_, h2.unsplit ht.body.unsplit⟩,
    by rw [h1]; exact ht.names⟩
  · intro d hd; exact ht.body.noDefault d (hn.mem_iff.mpr hd)
  · intro a ha; exact ht.body.noRef a (h2.atts.mem_iff.mpr ha)
  · rw [h2.texts, hent]; exact ht.body.text

theorem XDoc.SameButAttrOrder.means {d d' : XDoc} {node} (h : d.SameButAttrOrder d') (ht : d.Tame) (hm : d.Means node) :
    ∃ node', d'.Means node' ∧ NodeOrder [node] [node'] := by
  obtain ⟨h1, h2⟩ := h
  have hent : d'.entities = d.entities := by unfold XDoc.entities; rw [h1]
  obtain ⟨ns', g1, g2⟩ := Resolves.attrOrder h2 hm (fun _ => rfl) ht.body.inScope
  obtain ⟨node', rfl⟩ : ∃ x, ns' = [x] := by
    cases g2 with
    | same h => cases h; exact ⟨_, rfl⟩
    | elem _ _ h => cases h; exact ⟨_, rfl⟩
  exact ⟨node', by unfold XDoc.Means; rw [hent]; exact g1, g2⟩

theorem AttrOrder.symm {xs ys} (h : AttrOrder xs ys) : AttrOrder ys xs := by
  induction h with
  | nil => exact .nil
  | same _ ih => exact .same ih
  | elem hp _ _ ih1 ih2 => exact .elem hp.symm ih1 ih2

/-! ### whitespace -/

/-- whitespace-only text inserted, on meanings -/
inductive NodeWs : List Node → List Node → Prop
  | nil : NodeWs [] []
  | same {x xs ys} : NodeWs xs ys → NodeWs (x :: xs) (x :: ys)
  | ins {s xs ys} : WsText s → NodeWs xs ys → NodeWs xs (.text s :: ys)
  | elem {nm as kids kids' xs ys} : NodeWs kids kids' → NodeWs xs ys →
      NodeWs (.elem nm as kids :: xs) (.elem nm as kids' :: ys)

/-- … below the top level only -/
inductive NodeWsIn : List Node → List Node → Prop
  | nil : NodeWsIn [] []
  | same {x xs ys} : NodeWsIn xs ys → NodeWsIn (x :: xs) (x :: ys)
  | elem {nm as kids kids' xs ys} : NodeWs kids kids' → NodeWsIn xs ys →
      NodeWsIn (.elem nm as kids :: xs) (.elem nm as kids' :: ys)

theorem NodeWsIn.ws {c c'} (h : NodeWsIn c c') : NodeWs c c' := by
  induction h with
  | nil => exact .nil
  | same _ ih => exact .same ih
  | elem h _ ih => exact .elem h ih

theorem NodeWsIn.append_inv {c1 c2 c'} : NodeWsIn (c1 ++ c2) c' →
    ∃ d1 d2, c' = d1 ++ d2 ∧ NodeWsIn c1 d1 ∧ NodeWsIn c2 d2 := by
  induction c1 generalizing c' with
  | nil => intro h; exact ⟨[], c', rfl, .nil, h⟩
  | cons x c1 ih =>
    intro h
    cases h with
    | same h => obtain ⟨d1, d2, rfl, h1, h2⟩ := ih h; exact ⟨_ :: d1, d2, rfl, .same h1, h2⟩
    | elem hk h => obtain ⟨d1, d2, rfl, h1, h2⟩ := ih h; exact ⟨_ :: d1, d2, rfl, .elem hk h1, h2⟩

theorem NodeWsIn.shuffle {a b c : List Node} (hs : Shuffle a b c) : ∀ {c'}, NodeWsIn c c' →
    ∃ a' b', Shuffle a' b' c' ∧ NodeWsIn a a' ∧ NodeWsIn b b' := by
  induction hs with
  | nil => intro c' h; cases h; exact ⟨[], [], .nil, .nil, .nil⟩
  | left _ ih =>
    intro c' h
    cases h with
    | same h => obtain ⟨a', b', h1, h2, h3⟩ := ih h; exact ⟨_ :: a', b', .left h1, .same h2, h3⟩
    | elem hk h => obtain ⟨a', b', h1, h2, h3⟩ := ih h; exact ⟨_ :: a', b', .left h1, .elem hk h2, h3⟩
  | right _ ih =>
    intro c' h
    cases h with
    | same h => obtain ⟨a', b', h1, h2, h3⟩ := ih h; exact ⟨a', _ :: b', .right h1, h2, .same h3⟩
    | elem hk h => obtain ⟨a', b', h1, h2, h3⟩ := ih h; exact ⟨a', _ :: b', .right h1, h2, .elem hk h3⟩

theorem NodeWsIn.texts {c c'} (h : NodeWsIn c c') : (∀ x ∈ c, ∃ s, x = Node.text s) → c' = c := by
  induction h with
  | nil => intro _; rfl
  | same _ ih => intro hx; rw [ih fun x h => hx x (by simp [h])]
  | elem _ _ _ => intro hx; obtain ⟨s, h⟩ := hx _ List.mem_cons_self; cases h

theorem NodeWs.weak {c c'} (h : NodeWs c c') : ∀ {d}, Weak c d → ∃ d', Weak c' d' ∧ NodeWsIn d d' := by
  induction h with
  | nil => intro d h; cases h; exact ⟨[], .nil, .nil⟩
  | same _ ih =>
    intro d h
    cases h with
    | keep h => obtain ⟨d', h1, h2⟩ := ih h; exact ⟨_ :: d', .keep h1, .same h2⟩
    | drop hs h => obtain ⟨d', h1, h2⟩ := ih h; exact ⟨d', .drop hs h1, h2⟩
  | ins hs _ ih => intro d h; obtain ⟨d', h1, h2⟩ := ih h; exact ⟨d', .drop hs h1, h2⟩
  | elem hk _ _ ih =>
    intro d h
    cases h with
    | keep h => obtain ⟨d', h1, h2⟩ := ih h; exact ⟨_ :: d', .keep h1, .elem hk h2⟩

theorem Match.wsInsert {L : Lib D V} {env : Env D V} {p : Pattern D V} {a c} (h : Match L env p a c) :
    ∀ {c'}, NodeWsIn c c' → Match L env p a c' := by
  induction h with
  | empty => intro c' h; cases h; exact .empty
  | text hc => intro c' h; rw [h.texts hc]; exact .text hc
  | choice h1 _ ih => intro c' h; exact .choice h1 (ih h)
  | groupNil => intro c' h; cases h; exact .groupNil
  | groupCons _ _ hp ih1 ih2 =>
    intro c' h
    obtain ⟨d1, d2, rfl, h1, h2⟩ := h.append_inv
    exact .groupCons (ih1 h1) (ih2 h2) hp
  | interleaveNil => intro c' h; cases h; exact .interleaveNil
  | interleaveCons _ _ hp hs ih1 ih2 =>
    intro c' h
    obtain ⟨d1, d2, hs', h1, h2⟩ := NodeWsIn.shuffle hs h
    exact .interleaveCons (ih1 h1) (ih2 h2) hp hs'
  | mixed _ ht hs ih =>
    intro c' h
    obtain ⟨d1, d2, hs', h1, h2⟩ := NodeWsIn.shuffle hs h
    rw [h2.texts ht] at hs'
    exact .mixed (ih h1) ht hs'
  | optionalNone => intro c' h; cases h; exact .optionalNone
  | optionalSome _ ih => intro c' h; exact .optionalSome (ih h)
  | zeroOrMoreNil => intro c' h; cases h; exact .zeroOrMoreNil
  | zeroOrMoreCons _ _ hp ih1 ih2 =>
    intro c' h
    obtain ⟨d1, d2, rfl, h1, h2⟩ := h.append_inv
    exact .zeroOrMoreCons (ih1 h1) (ih2 h2) hp
  | oneOrMore _ _ hp ih1 ih2 =>
    intro c' h
    obtain ⟨d1, d2, rfl, h1, h2⟩ := h.append_inv
    exact .oneOrMore (ih1 h1) (ih2 h2) hp
  | attr h1 h2 h3 _ => intro c' h; cases h; exact .attr h1 h2 h3
  | element hn hw hm ih =>
    intro c' h
    cases h with
    | same h => cases h; exact .element hn hw hm
    | elem hk h =>
      cases h
      obtain ⟨d', hw', hk'⟩ := hk.weak hw
      exact .element hn hw' (ih hk')
  | ref h1 _ ih => intro c' h; exact .ref h1 (ih h)
  | value h1 => intro c' h; rw [h.texts (by simp)]; exact .value h1
  | data h1 => intro c' h; rw [h.texts (by simp)]; exact .data h1
  | dataExcept h1 h2 => intro c' h; rw [h.texts (by simp)]; exact .dataExcept h1 h2
  | list h1 h2 _ => intro c' h; rw [h.texts (by simp)]; exact .list h1 h2

/-! removing whitespace -/

theorem NodeWs.append_inv {c} : ∀ {d1 d2 : List Node}, NodeWs c (d1 ++ d2) →
    ∃ c1 c2, c = c1 ++ c2 ∧ NodeWs c1 d1 ∧ NodeWs c2 d2 := by
  intro d1
  induction d1 generalizing c with
  | nil => intro d2 h; exact ⟨[], c, rfl, .nil, h⟩
  | cons x d1 ih =>
    intro d2 h
    cases h with
    | same h => obtain ⟨c1, c2, rfl, h1, h2⟩ := ih h; exact ⟨_ :: c1, c2, rfl, .same h1, h2⟩
    | ins hs h => obtain ⟨c1, c2, rfl, h1, h2⟩ := ih h; exact ⟨c1, c2, rfl, .ins hs h1, h2⟩
    | elem hk h => obtain ⟨c1, c2, rfl, h1, h2⟩ := ih h; exact ⟨_ :: c1, c2, rfl, .elem hk h1, h2⟩

theorem NodeWs.shuffle {a b c : List Node} (hs : Shuffle a b c) : ∀ {c'}, NodeWs c' c →
    ∃ a' b', Shuffle a' b' c' ∧ NodeWs a' a ∧ NodeWs b' b := by
  induction hs with
  | nil => intro c' h; cases h; exact ⟨[], [], .nil, .nil, .nil⟩
  | left _ ih =>
    intro c' h
    cases h with
    | same h => obtain ⟨a', b', h1, h2, h3⟩ := ih h; exact ⟨_ :: a', b', .left h1, .same h2, h3⟩
    | ins hs h => obtain ⟨a', b', h1, h2, h3⟩ := ih h; exact ⟨a', b', h1, .ins hs h2, h3⟩
    | elem hk h => obtain ⟨a', b', h1, h2, h3⟩ := ih h; exact ⟨_ :: a', b', .left h1, .elem hk h2, h3⟩
  | right _ ih =>
    intro c' h
    cases h with
    | same h => obtain ⟨a', b', h1, h2, h3⟩ := ih h; exact ⟨a', _ :: b', .right h1, h2, .same h3⟩
    | ins hs h => obtain ⟨a', b', h1, h2, h3⟩ := ih h; exact ⟨a', b', h1, h2, .ins hs h3⟩
    | elem hk h => obtain ⟨a', b', h1, h2, h3⟩ := ih h; exact ⟨a', _ :: b', .right h1, h2, .elem hk h3⟩

theorem NodeWs.texts {c c'} (h : NodeWs c c') : (∀ x ∈ c', ∃ s, x = Node.text s) → ∀ x ∈ c, ∃ s, x = Node.text s := by
  induction h with
  | nil => intro h; exact h
  | same _ ih =>
    intro hx x h
    rcases List.mem_cons.mp h with rfl | h
    · exact hx _ List.mem_cons_self
    · exact ih (fun y hy => hx y (by simp [hy])) x h
  | ins _ _ ih => intro hx; exact ih fun y hy => hx y (by simp [hy])
  | elem _ _ _ _ => intro hx; obtain ⟨s, h⟩ := hx _ List.mem_cons_self; cases h

theorem NodeWs.weak' {c c'} (h : NodeWs c c') : ∀ {d'}, Weak c' d' → ∃ d, Weak c d ∧ NodeWs d d' := by
  induction h with
  | nil => intro d h; cases h; exact ⟨[], .nil, .nil⟩
  | same _ ih =>
    intro d h
    cases h with
    | keep h => obtain ⟨d', h1, h2⟩ := ih h; exact ⟨_ :: d', .keep h1, .same h2⟩
    | drop hs h => obtain ⟨d', h1, h2⟩ := ih h; exact ⟨d', .drop hs h1, h2⟩
  | ins hs _ ih =>
    intro d h
    cases h with
    | keep h => obtain ⟨d', h1, h2⟩ := ih h; exact ⟨d', h1, .ins hs h2⟩
    | drop _ h => exact ih h
  | elem hk _ _ ih =>
    intro d h
    cases h with
    | keep h => obtain ⟨d', h1, h2⟩ := ih h; exact ⟨_ :: d', .keep h1, .elem hk h2⟩

theorem noDataL_mem {ps : List (Pattern D V)} (h : noDataL ps = true) : ∀ p ∈ ps, p.noData = true := by
  induction ps with
  | nil => simp
  | cons q ps ih =>
    simp only [noDataL, Bool.and_eq_true] at h
    intro p hp
    rcases List.mem_cons.mp hp with rfl | hp
    · exact h.1
    · exact ih h.2 p hp

theorem Match.wsRemove {L : Lib D V} {env : Env D V} (he : ∀ p ∈ env, p.noData = true) {p : Pattern D V} {a c}
    (h : Match L env p a c) : p.noData = true → ∀ {c'}, NodeWs c' c → Match L env p a c' := by
  induction h with
  | empty => intro _ c' h; cases h; exact .empty
  | text hc => intro _ c' h; exact .text (h.texts hc)
  | choice h1 _ ih => intro hd c' h; exact .choice h1 (ih (noDataL_mem hd _ h1) h)
  | groupNil => intro _ c' h; cases h; exact .groupNil
  | groupCons _ _ hp ih1 ih2 =>
    intro hd c' h
    simp only [Pattern.noData, noDataL, Bool.and_eq_true] at hd
    obtain ⟨d1, d2, rfl, h1, h2⟩ := h.append_inv
    exact .groupCons (ih1 hd.1 h1) (ih2 hd.2 h2) hp
  | interleaveNil => intro _ c' h; cases h; exact .interleaveNil
  | interleaveCons _ _ hp hs ih1 ih2 =>
    intro hd c' h
    simp only [Pattern.noData, noDataL, Bool.and_eq_true] at hd
    obtain ⟨d1, d2, hs', h1, h2⟩ := NodeWs.shuffle hs h
    exact .interleaveCons (ih1 hd.1 h1) (ih2 hd.2 h2) hp hs'
  | mixed _ ht hs ih =>
    intro hd c' h
    obtain ⟨d1, d2, hs', h1, h2⟩ := NodeWs.shuffle hs h
    exact .mixed (ih hd h1) (h2.texts ht) hs'
  | optionalNone => intro _ c' h; cases h; exact .optionalNone
  | optionalSome _ ih => intro hd c' h; exact .optionalSome (ih hd h)
  | zeroOrMoreNil => intro _ c' h; cases h; exact .zeroOrMoreNil
  | zeroOrMoreCons _ _ hp ih1 ih2 =>
    intro hd c' h
    obtain ⟨d1, d2, rfl, h1, h2⟩ := h.append_inv
    exact .zeroOrMoreCons (ih1 hd h1) (ih2 hd h2) hp
  | oneOrMore _ _ hp ih1 ih2 =>
    intro hd c' h
    obtain ⟨d1, d2, rfl, h1, h2⟩ := h.append_inv
    exact .oneOrMore (ih1 hd h1) (ih2 hd h2) hp
  | attr h1 h2 h3 _ => intro _ c' h; cases h; exact .attr h1 h2 h3
  | element hn hw hm ih =>
    intro hd c' h
    cases h with
    | same h => cases h; exact .element hn hw hm
    | elem hk h =>
      cases h
      obtain ⟨d', hw', hk'⟩ := hk.weak' hw
      exact .element hn hw' (ih hd hk')
  | ref h1 _ ih => intro _ c' h; exact .ref h1 (ih (he _ (List.mem_of_getElem? h1)) h)
  | value h1 => intro hd; cases hd
  | data h1 => intro hd; cases hd
  | dataExcept h1 h2 => intro hd; cases hd
  | list h1 h2 _ => intro hd; cases hd

/-! documents -/

theorem WsText.decodes {f s} (h : WsText s) : Decodes f s s := by
  induction s with
  | nil => exact .nil
  | cons c s ih =>
    refine .char ?_ (ih fun x hx => h x (by simp [hx]))
    rintro rfl
    have := h '&' (by simp)
    revert this
    decide

theorem Resolves.wsInsert {f xs ys} (h : WsInsert xs ys) : ∀ {s ns prev prev'}, Resolves f s xs ns →
    unsplitL prev xs → unsplitL prev' ys → ∃ ns', Resolves f s ys ns' ∧ NodeWs ns ns' := by
  induction h with
  | nil => intro s ns _ _ h _ _; cases h; exact ⟨[], .nil, .nil⟩
  | same _ ih =>
    intro s ns _ _ h hu hu'
    cases h with
    | text hd h =>
      simp only [unsplitL] at hu hu'
      obtain ⟨ns', h1, h2⟩ := ih h hu.2 hu'.2; exact ⟨_, .text hd h1, .same h2⟩
    | cdata h =>
      simp only [unsplitL] at hu hu'
      obtain ⟨ns', h1, h2⟩ := ih h hu.2 hu'.2; exact ⟨_, .cdata h1, .same h2⟩
    | comment h =>
      simp only [unsplitL] at hu hu'
      obtain ⟨ns', h1, h2⟩ := ih h hu hu'; exact ⟨_, .comment h1, h2⟩
    | pi h =>
      simp only [unsplitL] at hu hu'
      obtain ⟨ns', h1, h2⟩ := ih h hu hu'; exact ⟨_, .pi h1, h2⟩
    | elem g1 g2 g3 g4 h =>
      simp only [unsplitL] at hu hu'
      obtain ⟨ns', h1, h2⟩ := ih h hu.2 hu'.2
      exact ⟨_, .elem g1 g2 g3 g4 h1, .same h2⟩
  | ins hs _ ih =>
    intro s ns _ _ h hu hu'
    simp only [unsplitL] at hu'
    obtain ⟨ns', h1, h2⟩ := ih h hu hu'.2
    exact ⟨_, .text hs.decodes h1, .ins hs h2⟩
  | elem hk hsc _ ih1 ih2 =>
    intro s ns _ _ h hu hu'
    simp only [unsplitL] at hu hu'
    cases h with
    | elem g1 g2 g3 g4 h =>
      obtain ⟨ns', h1, h2⟩ := ih2 h hu.2 hu'.2
      obtain ⟨kns', k1, k2⟩ := ih1 g3 hu.1 hu'.1
      refine ⟨_, .elem g1 g2 k1 hsc h1, .elem ?_ h2⟩
      rw [(g3.unsplit hu.1).2.1, (k1.unsplit hu'.1).2.1]
      exact k2

theorem XDoc.WsInserted.means {d d' : XDoc} {node} (h : d.WsInserted d') (ht : d.Tame) (ht' : d'.Tame) (hm : d.Means node) :
    ∃ node', d'.Means node' ∧ NodeWsIn [node] [node'] := by
  obtain ⟨h1, h2, h3, h4, h5, h6⟩ := h
  have hent : d'.entities = d.entities := by unfold XDoc.entities; rw [h1]
  have hu := ht.body.unsplit
  have hu' := ht'.body.unsplit
  simp only [XDoc.root, unsplitL] at hu hu'
  unfold XDoc.Means XDoc.root at hm ⊢
  generalize hns : [node] = ns at hm
  cases hm with
  | elem g1 g2 g3 g4 h =>
    cases hns
    cases h
    obtain ⟨kns', k1, k2⟩ := Resolves.wsInsert h5 g3 hu.1 hu'.1
    rw [hent, h2, h3, h4]
    refine ⟨_, .elem g1 g2 k1 h6 .nil, .elem ?_ .nil⟩
    rw [(g3.unsplit hu.1).2.1, (k1.unsplit hu'.1).2.1]
    exact k2

end Verif
