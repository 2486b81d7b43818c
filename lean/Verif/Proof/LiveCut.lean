import Verif.Proof.LiveDoc
/-
What a beginning of a document takes over from the document (proof device for C77).
-/
set_option linter.unusedSectionVars false
namespace Verif
open Viable
variable {D V : Type}

def lvAtts : List Lvl → List RawAttr
  | [] => []
  | l :: ls => l.atts ++ (allAttsL l.kids ++ lvAtts ls)
def lvPres : List Lvl → List Str
  | [] => []
  | l :: ls => l.pre :: (allPresL l.kids ++ lvPres ls)
def lvTexts : List Lvl → List Str
  | [] => []
  | l :: ls => allTextsL l.kids ++ lvTexts ls
def LvUnsplit (ls : List Lvl) : Prop := ∀ l ∈ ls, unsplitL false l.kids
def LvWritten (ls : List Lvl) : Prop := ∀ l ∈ ls, (l.atts.map fun a => (a.pre, a.loc)).Nodup ∧ WrittenL l.kids
def LvDistinct (ls : List Lvl) : Prop := ∀ l ∈ ls, (l.as.map fun a => a.name.expanded).Nodup ∧ DistinctL l.kns
/-- the innermost content read so far is empty or ends in an element -/
def LvEnd : List Lvl → Prop
  | [] => True
  | [l] => EndE l.kids
  | _ :: ls => LvEnd ls

theorem allAttsL_append : ∀ (a b : List XNode), allAttsL (a ++ b) = allAttsL a ++ allAttsL b
  | [], b => rfl
  | x :: a, b => by simp [allAttsL, allAttsL_append a b]
theorem allPresL_append : ∀ (a b : List XNode), allPresL (a ++ b) = allPresL a ++ allPresL b
  | [], b => rfl
  | x :: a, b => by simp [allPresL, allPresL_append a b]
theorem allTextsL_append : ∀ (a b : List XNode), allTextsL (a ++ b) = allTextsL a ++ allTextsL b
  | [], b => rfl
  | x :: a, b => by simp [allTextsL, allTextsL_append a b]
theorem Viable.WrittenL.append : ∀ {a b : List XNode}, WrittenL (a ++ b) ↔ WrittenL a ∧ WrittenL b
  | [], b => by simp [WrittenL]
  | x :: a, b => by simp only [List.cons_append, WrittenL, WrittenL.append (a := a), and_assoc]
theorem Viable.DistinctL.append : ∀ {a b : List Node}, DistinctL (a ++ b) ↔ DistinctL a ∧ DistinctL b
  | [], b => by simp [DistinctL]
  | x :: a, b => by simp only [List.cons_append, DistinctL, DistinctL.append (a := a), and_assoc]
theorem toksL_append : ∀ (a b : List XNode), toksL (a ++ b) = toksL a ++ toksL b
  | [], b => rfl
  | x :: a, b => by simp [toksL, toksL_append a b]

theorem distinct_join : ∀ {ns : List Node}, DistinctL (joinText ns) ↔ DistinctL ns
  | [] => Iff.rfl
  | .text s :: ns => by
    have ih := distinct_join (ns := ns)
    simp only [joinText]
    split
    · rename_i h
      rw [h] at ih
      simp only [DistinctL, Distinct] at ih ⊢
      rw [ih]; simp
    · simp only [DistinctL]
      rw [ih]
  | .elem _ _ _ :: ns => by
    have ih := distinct_join (ns := ns)
    simp only [joinText, DistinctL]
    rw [ih]

theorem unsplitL.cut : ∀ {done prev later}, unsplitL prev (done ++ later) → unsplitL prev done
  | [], _, _, _ => by simp [unsplitL]
  | .text s :: d, prev, later, h => by
    simp only [List.cons_append, unsplitL] at h ⊢; exact ⟨h.1, unsplitL.cut h.2⟩
  | .cdata s :: d, prev, later, h => by
    simp only [List.cons_append, unsplitL] at h ⊢; exact ⟨h.1, unsplitL.cut h.2⟩
  | .comment :: d, prev, later, h => by
    simp only [List.cons_append, unsplitL] at h ⊢; exact unsplitL.cut h
  | .pi :: d, prev, later, h => by
    simp only [List.cons_append, unsplitL] at h ⊢; exact unsplitL.cut h
  | .elem _ _ _ _ k :: d, prev, later, h => by
    simp only [List.cons_append, unsplitL] at h ⊢; exact ⟨h.1, unsplitL.cut h.2⟩

theorem unsplitL.atElem : ∀ {done prev pre loc atts sc kids later}, unsplitL prev (done ++ .elem pre loc atts sc kids :: later) → unsplitL false kids
  | [], _, _, _, _, _, _, _, h => by simp only [List.nil_append, unsplitL] at h; exact h.1
  | .text s :: d, prev, _, _, _, _, _, later, h => by
    simp only [List.cons_append, unsplitL] at h; exact unsplitL.atElem h.2
  | .cdata s :: d, prev, _, _, _, _, _, later, h => by
    simp only [List.cons_append, unsplitL] at h; exact unsplitL.atElem h.2
  | .comment :: d, prev, _, _, _, _, _, later, h => by
    simp only [List.cons_append, unsplitL] at h; exact unsplitL.atElem h
  | .pi :: d, prev, _, _, _, _, _, later, h => by
    simp only [List.cons_append, unsplitL] at h; exact unsplitL.atElem h
  | .elem _ _ _ _ k :: d, prev, _, _, _, _, _, later, h => by
    simp only [List.cons_append, unsplitL] at h; exact unsplitL.atElem h.2

/-- an element put after content that is empty or ends anyhow, followed by anything that is fine after an element -/
theorem unsplitL.putElem : ∀ {done prev pre loc atts sc kids later}, unsplitL prev done → unsplitL false kids → unsplitL false later →
    unsplitL prev (done ++ .elem pre loc atts sc kids :: later)
  | [], _, _, _, _, _, _, _, _, h1, h2 => by simp only [List.nil_append, unsplitL]; exact ⟨h1, h2⟩
  | .text s :: d, prev, _, _, _, _, _, later, h, h1, h2 => by
    simp only [List.cons_append, unsplitL] at h ⊢; exact ⟨h.1, unsplitL.putElem h.2 h1 h2⟩
  | .cdata s :: d, prev, _, _, _, _, _, later, h, h1, h2 => by
    simp only [List.cons_append, unsplitL] at h ⊢; exact ⟨h.1, unsplitL.putElem h.2 h1 h2⟩
  | .comment :: d, prev, _, _, _, _, _, later, h, h1, h2 => by
    simp only [List.cons_append, unsplitL] at h ⊢; exact unsplitL.putElem h h1 h2
  | .pi :: d, prev, _, _, _, _, _, later, h, h1, h2 => by
    simp only [List.cons_append, unsplitL] at h ⊢; exact unsplitL.putElem h h1 h2
  | .elem _ _ _ _ k :: d, prev, _, _, _, _, _, later, h, h1, h2 => by
    simp only [List.cons_append, unsplitL] at h ⊢; exact ⟨h.1, unsplitL.putElem h.2 h1 h2⟩

theorem unsplitL.afterEnd {done later} (h : unsplitL false done) (he : EndE done) (hl : unsplitL false later) : unsplitL false (done ++ later) := by
  rcases he with rfl | ⟨ys, pre, loc, atts, sc, kids, rfl⟩
  · exact hl
  · rw [List.append_assoc]
    exact unsplitL.putElem (unsplitL.cut h) (unsplitL.atElem (later := []) h) hl

/-- content ending in an element means nodes ending in an element -/
theorem Resolves.endE {f scope xs ns} (h : Resolves f scope xs ns) (he : EndE xs) : ∀ s, ns.getLast? ≠ some (.text s) := by
  have key : ∀ {scope xs ns}, Resolves f scope xs ns → ∀ {ys pre loc atts sc kids}, xs = ys ++ [.elem pre loc atts sc kids] →
      ∃ ms nm as k, ns = ms ++ [.elem nm as k] := by
    intro scope xs ns h
    induction h with
    | nil => intro ys _ _ _ _ _ e; cases ys <;> cases e
    | text h1 _ ih =>
      intro ys _ _ _ _ _ e
      cases ys with
      | nil => cases e
      | cons y ys =>
        simp only [List.cons_append, List.cons.injEq] at e
        obtain ⟨ms, nm, as, k, rfl⟩ := ih e.2
        exact ⟨_ :: ms, nm, as, k, rfl⟩
    | cdata _ ih =>
      intro ys _ _ _ _ _ e
      cases ys with
      | nil => cases e
      | cons y ys =>
        simp only [List.cons_append, List.cons.injEq] at e
        obtain ⟨ms, nm, as, k, rfl⟩ := ih e.2
        exact ⟨_ :: ms, nm, as, k, rfl⟩
    | comment _ ih =>
      intro ys _ _ _ _ _ e
      cases ys with
      | nil => cases e
      | cons y ys => simp only [List.cons_append, List.cons.injEq] at e; exact ih e.2
    | pi _ ih =>
      intro ys _ _ _ _ _ e
      cases ys with
      | nil => cases e
      | cons y ys => simp only [List.cons_append, List.cons.injEq] at e; exact ih e.2
    | elem h1 h2 h3 h4 h5 ih1 ih2 =>
      intro ys _ _ _ _ _ e
      cases ys with
      | nil => simp only [List.nil_append, List.cons.injEq] at e; rw [e.2] at h5; cases h5; exact ⟨[], _, _, _, rfl⟩
      | cons y ys =>
        simp only [List.cons_append, List.cons.injEq] at e
        obtain ⟨ms, nm, as, k, rfl⟩ := ih2 e.2
        exact ⟨_ :: ms, nm, as, k, rfl⟩
  intro s hs
  rcases he with rfl | ⟨ys, pre, loc, atts, sc, kids, e⟩
  · cases h; cases hs
  · obtain ⟨ms, nm, as, k, rfl⟩ := key h e
    rw [List.getLast?_concat] at hs; cases hs

theorem Cut.facts {f scope xs ns done dn ls} (h : Cut f scope xs ns done dn ls) :
    (∀ a ∈ allAttsL done ++ lvAtts ls, a ∈ allAttsL xs) ∧ (∀ a ∈ allPresL done ++ lvPres ls, a ∈ allPresL xs) ∧
    (∀ a ∈ allTextsL done ++ lvTexts ls, a ∈ allTextsL xs) ∧
    (∀ prev, unsplitL prev xs → unsplitL prev done ∧ LvUnsplit ls) ∧ (WrittenL xs → WrittenL done ∧ LvWritten ls) ∧
    (DistinctL ns → DistinctL dn ∧ LvDistinct ls) ∧ Resolves f scope done dn ∧ LvOK f scope ls ∧ (ls = [] → EndE done) ∧ LvEnd ls := by
  induction h with
  | here h1 h2 =>
    refine ⟨fun a ha => ?_, fun a ha => ?_, fun a ha => ?_, fun prev hu => ⟨hu.cut, nofun⟩, fun hw => ⟨(WrittenL.append.mp hw).1, nofun⟩,
      fun hd => ⟨(DistinctL.append.mp hd).1, nofun⟩, h1, .nil, fun _ => h2, trivial⟩
    · simp only [lvAtts, List.append_nil] at ha; rw [allAttsL_append]; exact List.mem_append_left _ ha
    · simp only [lvPres, List.append_nil] at ha; rw [allPresL_append]; exact List.mem_append_left _ ha
    · simp only [lvTexts, List.append_nil] at ha; rw [allTextsL_append]; exact List.mem_append_left _ ha
  | @inside scope done dn pre loc atts kids kns later ln nm as kdone kdn ls h1 h2 h3 h4 ih =>
    obtain ⟨i1, i2, i3, i4, i5, i6, i7, i8, i9, i10⟩ := ih
    refine ⟨fun a ha => ?_, fun a ha => ?_, fun a ha => ?_, fun prev hu => ⟨hu.cut, ?_⟩, fun hw => ⟨(WrittenL.append.mp hw).1, ?_⟩,
      fun hd => ⟨(DistinctL.append.mp hd).1, ?_⟩, h1, .cons h2 h3 i7 i8, nofun, ?_⟩
    · rw [allAttsL_append]
      simp only [lvAtts, allAttsL, XNode.allAtts, List.mem_append] at ha i1 ⊢
      rcases ha with ha | ha | ha
      · exact .inl ha
      · exact .inr (.inl (.inl ha))
      · exact .inr (.inl (.inr (i1 a ha)))
    · rw [allPresL_append]
      simp only [lvPres, allPresL, XNode.allPres, List.mem_append, List.mem_cons] at ha i2 ⊢
      rcases ha with ha | ha | ha
      · exact .inl ha
      · exact .inr (.inl (.inl ha))
      · exact .inr (.inl (.inr (i2 a ha)))
    · rw [allTextsL_append]
      simp only [lvTexts, allTextsL, XNode.allTexts, List.mem_append] at ha i3 ⊢
      rcases ha with ha | ha
      · exact .inl ha
      · exact .inr (.inl (i3 a ha))
    · obtain ⟨g1, g2⟩ := i4 false hu.atElem
      intro l hl
      rcases List.mem_cons.mp hl with rfl | hl
      · exact g1
      · exact g2 l hl
    · obtain ⟨_, ⟨w1, w2⟩, _⟩ := WrittenL.append.mp hw
      obtain ⟨g1, g2⟩ := i5 w2
      intro l hl
      rcases List.mem_cons.mp hl with rfl | hl
      · exact ⟨w1, g1⟩
      · exact g2 l hl
    · obtain ⟨_, ⟨w1, w2⟩, _⟩ := DistinctL.append.mp hd
      obtain ⟨g1, g2⟩ := i6 (distinct_join.mp w2)
      intro l hl
      rcases List.mem_cons.mp hl with rfl | hl
      · exact ⟨w1, g1⟩
      · exact g2 l hl
    · cases ls with
      | nil => exact i9 rfl
      | cons l' ls => exact i10

theorem LvOK.endTag {f} : ∀ {scope ls}, LvOK f scope ls → LvEnd ls → EndTag ls
  | _, [], _, _ => trivial
  | _, [l], .cons _ _ h _, he => h.endE he
  | _, _ :: l' :: ls, .cons _ _ _ h, he => LvOK.endTag (ls := l' :: ls) h he

/-! ### runs -/

section
variable [DecidableEq D] [DecidableEq V] {L : Lib D V}

theorem mem_nsDecls {d} : ∀ {l : List RawAttr}, d ∈ nsDecls l ↔ ∃ a ∈ l, d ∈ nsDecls [a]
  | [] => by simp [nsDecls]
  | a :: l => by
    rw [show a :: l = [a] ++ l from rfl, nsDecls_append, List.mem_append, mem_nsDecls (l := l)]
    simp

theorem nsDecls_sub {a b : List RawAttr} (h : ∀ x ∈ a, x ∈ b) : ∀ d ∈ nsDecls a, d ∈ nsDecls b := by
  intro d hd
  obtain ⟨x, hx, hdx⟩ := mem_nsDecls.mp hd
  exact mem_nsDecls.mpr ⟨x, h x hx, hdx⟩

theorem Good.sub {f xs ys} (h : Good f xs) (h1 : ∀ a ∈ allAttsL ys, a ∈ allAttsL xs)
    (h3 : ∀ a ∈ allTextsL ys, a ∈ allTextsL xs) : Good f ys := by
  have hd := nsDecls_sub h1
  exact ⟨fun d h' => h.1 d (hd d h'), fun a ha => h.2 a (h1 a ha), fun a ha => h.3 a (h3 a ha)⟩

theorem declsL_append : ∀ (a b : List XNode), declsL (a ++ b) = declsL b ++ declsL a
  | [], b => by simp [declsL]
  | x :: a, b => by simp [declsL, declsL_append a b]

theorem inScope_append {scope} : ∀ {a b : List XNode} {read}, inScopeL scope read (a ++ b) ↔ inScopeL scope read a ∧ inScopeL scope (declsL a ++ read) b
  | [], b, read => by simp [inScopeL, declsL]
  | x :: a, b, read => by
    simp only [List.cons_append, inScopeL, inScope_append (a := a), declsL, List.append_assoc, and_assoc]

/-- what has been read so far is in scope if the whole is -/
theorem Cut.inScope {f scope xs ns done dn ls} (h : Cut f scope xs ns done dn ls) : ∀ {read}, inScopeL scope read xs →
    inScopeL scope read done ∧ inScopeL scope (declsL done ++ read) (fillX ls []) := by
  induction h with
  | here => intro read h; exact ⟨(inScope_append.mp h).1, trivial⟩
  | inside _ _ _ _ ih =>
    intro read h
    obtain ⟨h1, h2⟩ := inScope_append.mp h
    simp only [inScopeL, XNode.inScope] at h2
    obtain ⟨⟨c1, c2, c3⟩, _⟩ := h2
    refine ⟨h1, ?_⟩
    simp only [fillX, inScopeL, XNode.inScope, and_true]
    exact ⟨c1, c2, inScope_append.mpr (ih c3)⟩

theorem follows_levels {f : Str → Option Str} {n : Nat} {xs} (hg : Good f xs) : ∀ {ls scope} {s : VState D V}, LvOK f scope ls →
      (∀ a ∈ lvAtts ls, a ∈ allAttsL xs) → (∀ a ∈ lvTexts ls, a ∈ allTextsL xs) → LvUnsplit ls →
      s.lastWasStart = false → (∀ nm, f nm = s.entities.lookup nm) → (∃ p, s.store.pats[s.cur]? = some p) →
      scope.lookup [] = none → inScopeL scope (flat s.stack) (fillX ls []) →
      Follows (declsL (fillX ls [])) s (runToks L n (lvToks ls) s) (runR L n s.cur (lvEvents ls) s.store) := by
  intro ls
  induction ls with
  | nil =>
    intro scope s _ _ _ _ hl _ hv _ _
    exact ⟨s, rfl, rfl, rfl, hl, rfl, hv, rfl⟩
  | cons l ls ih =>
    intro scope s hok ha ht hu hl hf hv hs hc
    obtain ⟨p, hp'⟩ := hv
    cases hok with
    | cons he hat hk hok =>
      have hg' : Good f [l.elem] := hg.sub
        (fun a h => ha a (by
          simp only [allAttsL, Lvl.elem, XNode.allAtts, lvAtts, List.mem_append] at h ⊢
          rcases h with (h | h) | h
          · exact .inl h
          · exact .inr (.inl h)
          · cases h))
        (fun a h => ht a (by
          simp only [allTextsL, Lvl.elem, XNode.allTexts, lvTexts, List.mem_append] at h ⊢
          rcases h with h | h
          · exact .inl h
          · cases h))
      obtain ⟨d1, d4⟩ := hg'.atts
      simp only [fillX, inScopeL, XNode.inScope, and_true] at hc
      obtain ⟨c1, _, c2⟩ := hc
      obtain ⟨c2, c3⟩ := inScope_append.mp c2
      have hs1 := noDefault_append hs d1
      obtain ⟨hce, hca⟩ := tag_ok hs1 c1 d4 he hat
      let s1 : VState D V := { s with stack := elemState l.pre l.loc l.atts :: s.stack }
      have hk1 : Kept (nsDecls l.atts) s s1 := ⟨hl, rfl, ⟨p, hp'⟩, rfl⟩
      simp only [lvToks, lvEvents]
      rw [runToks_start L l.pre l.loc l.atts _ s hp']
      refine Follows.weaken (s' := s1) (Y := declsL (fillX ls []) ++ declsL l.kids) ?_ hk1 (by simp [fillX, declsL, declsL_append, XNode.decls])
      refine Follows.append L (a := [.elementEnd .open]) (es := [.start l.nm l.as]) (s := s1)
        (Follows.open L (s := s1) hce hca) (fun s2 hk2 => ?_) (List.append_nil _).symm
      refine Follows.append L (follows_content hk hg'.kids (hu l (by simp)) hk2.last (hk2.ents ▸ hf) hk2.valid hs1 (by rw [hk2.stack]; exact c2))
        (fun s3 hk3 => ?_) rfl
      exact ih hok (fun a h => ha a (by simp only [lvAtts, List.mem_append]; exact .inr (.inr h)))
        (fun a h => ht a (by simp only [lvTexts, List.mem_append]; exact .inr h))
        (fun l' h => hu l' (List.mem_cons_of_mem _ h)) hk3.last (hk3.ents ▸ hk2.ents ▸ hf) hk3.valid hs1
        (by rw [hk3.stack, hk2.stack]; exact c3)

end
end Verif
