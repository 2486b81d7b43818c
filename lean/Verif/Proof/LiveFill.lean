import Verif.Proof.LiveSer
/-
Completing a document by writing down what is missing (proof device for C77).
-/
set_option linter.unusedSectionVars false
namespace Verif
open Viable Ser
variable {D V : Type}

def serFill (N : Nat) (ls : List Lvl) (es : List (List Node)) : List XNode := fillX ls (es.map (serL N))

theorem fill_cons (N : Nat) (l ls e es) : serFill N (l :: ls) (e :: es) = [.elem l.pre l.loc l.atts false (l.kids ++ (serFill N ls es ++ serL N e))] := rfl

theorem fill_kids {N : Nat} {l : Lvl} {ls e es} (hl : unsplitL false l.kids) (he : LvEnd (l :: ls)) (hp : ProperL e)
    (hr : ls = [] ∨ ∃ pre loc atts kids, serFill N ls es = [.elem pre loc atts false kids] ∧ unsplitL false kids) :
    unsplitL false (l.kids ++ (serFill N ls es ++ serL N e)) := by
  have hs : unsplitL false (serL N e) := unsplitS hp (by simp)
  rcases hr with rfl | ⟨pre, loc, atts, kids, h, hk⟩
  · exact hl.afterEnd he (by simpa [serFill, fillX] using hs)
  · rw [h]
    exact unsplitL.putElem hl hk hs

theorem LvEnd.tail {l ls} (h : LvEnd (l :: ls)) : LvEnd ls := by
  cases ls with
  | nil => trivial
  | cons => exact h

theorem fill_unsplit {N : Nat} : ∀ {ls : List Lvl} {es}, es.length = ls.length → (∀ e ∈ es, ProperL e) → LvUnsplit ls → LvEnd ls →
    ls = [] ∨ ∃ pre loc atts kids, serFill N ls es = [.elem pre loc atts false kids] ∧ unsplitL false kids
  | [], _, _, _, _, _ => .inl rfl
  | l :: ls, [], h, _, _, _ => by simp at h
  | l :: ls, e :: es, h, hp, hu, he => by
    refine .inr ⟨_, _, _, _, fill_cons N l ls e es, fill_kids (hu l (by simp)) he (hp e (by simp)) ?_⟩
    exact fill_unsplit (by simpa using h) (fun e' h' => hp e' (List.mem_cons_of_mem _ h')) (fun l' h' => hu l' (List.mem_cons_of_mem _ h')) he.tail

theorem noDef_append {ds scope : List (Str × Str)} (h : NoDef scope) (hd : ∀ d ∈ ds, d.1 ≠ []) : NoDef (ds ++ scope) := by
  unfold NoDef at h ⊢
  cases hl : (ds ++ scope).lookup [] with
  | none => rfl
  | some u =>
    rcases List.mem_append.mp (lookup_mem hl) with h' | h'
    · exact absurd rfl (hd _ h')
    · exact absurd h' (lookup_none h u)

theorem fill_resolves {f} {N : Nat} : ∀ {ls : List Lvl} {es scope}, es.length = ls.length → (∀ e ∈ es, ProperL e) → LvUnsplit ls → LvEnd ls →
    LvOK f scope ls → NoDef scope → (∀ l ∈ ls, ∀ d ∈ nsDecls l.atts, d.1 ≠ []) → Resolves f scope (serFill N ls es) (fillN ls es)
  | [], _, _, _, _, _, _, _, _, _ => .nil
  | l :: ls, [], _, h, _, _, _, _, _, _ => by simp at h
  | l :: ls, e :: es, scope, h, hp, hu, he, .cons h1 h2 h3 h4, hn, hd => by
    have hn' := noDef_append hn (hd l (by simp))
    have hp' : ∀ e ∈ es, ProperL e := fun e' h' => hp e' (List.mem_cons_of_mem _ h')
    have hu' : LvUnsplit ls := fun l' h' => hu l' (List.mem_cons_of_mem _ h')
    have ih := fill_resolves (N := N) (es := es) (by simpa using h) hp' hu' he.tail h4 hn' fun l' h' => hd l' (List.mem_cons_of_mem _ h')
    have hk : unsplitL false (l.kids ++ (serFill N ls es ++ serL N e)) :=
      fill_kids (hu l (by simp)) he (hp e (by simp)) (fill_unsplit (by simpa using h) hp' hu' he.tail)
    have hr := h3.append (ih.append (resolvesL (f := f) (N := N) hn' (hp e (by simp))))
    have hj := (hr.unsplit hk).2.1
    have : Resolves f scope [.elem l.pre l.loc l.atts false (l.kids ++ (serFill N ls es ++ serL N e))]
        [.elem l.nm l.as (joinText (l.kns ++ (fillN ls es ++ e)))] := .elem h1 h2 hr nofun .nil
    rw [hj] at this
    exact this

theorem fill_atts {N : Nat} : ∀ {ls : List Lvl} {es}, (∀ e ∈ es, ProperL e) → es.length = ls.length →
    ∀ a ∈ allAttsL (serFill N ls es), a ∈ lvAtts ls ∨ SerAtt N a
  | [], _, _, _, a, ha => by simp [serFill, fillX, allAttsL] at ha
  | l :: ls, [], _, h, _, _ => by simp at h
  | l :: ls, e :: es, hp, h, a, ha => by
    rw [fill_cons] at ha
    simp only [allAttsL, XNode.allAtts, allAttsL_append, lvAtts, List.mem_append] at ha ⊢
    rcases ha with (ha | ha | ha | ha) | ha
    · exact .inl (.inl ha)
    · exact .inl (.inr (.inl ha))
    · rcases fill_atts (fun e' h' => hp e' (List.mem_cons_of_mem _ h')) (by simpa using h) a ha with ha | ha
      · exact .inl (.inr (.inr ha))
      · exact .inr ha
    · exact .inr (attsL (hp e (by simp)) a ha)
    · cases ha

theorem fill_texts {N : Nat} : ∀ {ls : List Lvl} {es}, es.length = ls.length → ∀ a ∈ allTextsL (serFill N ls es), a ∈ lvTexts ls
  | [], _, _, a, ha => by simp [serFill, fillX, allTextsL] at ha
  | l :: ls, [], h, _, _ => by simp at h
  | l :: ls, e :: es, h, a, ha => by
    rw [fill_cons] at ha
    simp only [allTextsL, XNode.allTexts, allTextsL_append, lvTexts, List.mem_append, textsL] at ha ⊢
    rcases ha with (ha | ha | ha) | ha
    · exact .inl ha
    · exact .inr (fill_texts (by simpa using h) a ha)
    · cases ha
    · cases ha

theorem fill_written {N : Nat} : ∀ {ls : List Lvl} {es}, es.length = ls.length → (∀ e ∈ es, ProperL e) → LvWritten ls → WrittenL (serFill N ls es)
  | [], _, _, _, _ => trivial
  | l :: ls, [], h, _, _ => by simp at h
  | l :: ls, e :: es, h, hp, hw => by
    rw [fill_cons]
    simp only [WrittenL, Written, and_true]
    obtain ⟨h1, h2⟩ := hw l (by simp)
    exact ⟨h1, WrittenL.append.mpr ⟨h2, WrittenL.append.mpr ⟨fill_written (by simpa using h) (fun e' h' => hp e' (List.mem_cons_of_mem _ h'))
      fun l' h' => hw l' (List.mem_cons_of_mem _ h'), writtenL (hp e (by simp))⟩⟩⟩

theorem fill_distinct : ∀ {ls : List Lvl} {es}, es.length = ls.length → (∀ e ∈ es, ProperL e) → LvDistinct ls → DistinctL (fillN ls es)
  | [], _, _, _, _ => trivial
  | l :: ls, [], h, _, _ => by simp at h
  | l :: ls, e :: es, h, hp, hw => by
    simp only [fillN, DistinctL, Distinct, and_true]
    obtain ⟨h1, h2⟩ := hw l (by simp)
    exact ⟨h1, DistinctL.append.mpr ⟨h2, DistinctL.append.mpr ⟨fill_distinct (by simpa using h) (fun e' h' => hp e' (List.mem_cons_of_mem _ h'))
      fun l' h' => hw l' (List.mem_cons_of_mem _ h'), distinctL (hp e (by simp))⟩⟩⟩

theorem fill_toks {N : Nat} : ∀ {ls : List Lvl} {es}, es.length = ls.length → ∃ more, toksL (serFill N ls es) = lvToks ls ++ more
  | [], _, _ => ⟨[], rfl⟩
  | l :: ls, [], h => by simp at h
  | l :: ls, e :: es, h => by
    obtain ⟨more, hm⟩ := fill_toks (N := N) (ls := ls) (es := es) (by simpa using h)
    rw [fill_cons]
    simp only [toksL, XNode.toks, toksL_append, hm, lvToks]
    exact ⟨_, by simp only [List.cons_append, List.append_assoc, List.append_nil]; rfl⟩

mutual
/-- new elements declare all their prefixes themselves -/
theorem inScopeN {N} : ∀ {x : Node} {scope read}, Proper x → (serN N x).inScope scope read
  | .text _, _, _, _ => by simp only [serN, XNode.inScope]
  | .elem nm as kids, scope, read, h => by
    simp only [Proper] at h
    obtain ⟨h1, h2, h3, h4⟩ := h
    have ha : ∀ a ∈ as, AttOK a := h2
    simp only [serN, XNode.inScope]
    rw [nsDecls_ser ha, plainAtts_ser ha]
    refine ⟨?_, ?_, inScopeS h4⟩
    · intro p hp hne
      have : ∃ u ∈ uris nm as, p = nsPre N u := by
        simp only [List.mem_cons, List.map_map, List.mem_map, Function.comp] at hp
        rcases hp with rfl | ⟨a, ha, rfl⟩
        · cases hn : nm.ns with
          | none => exact absurd (pre_nil.mpr hn) hne
          | some u => exact ⟨u, mem_uris.mpr (.inl hn), by simp [namePre, hn]⟩
        · cases hn : a.name.ns with
          | none => exact absurd (pre_nil (N := N).mpr hn) hne
          | some u => exact ⟨u, mem_uris.mpr (.inr ⟨a, ha, hn⟩), by simp [serA, namePre, hn]⟩
      obtain ⟨u, hu, rfl⟩ := this
      rw [lookup_ser hu, lookup_ser hu]
    · intro d hd e he hde
      obtain ⟨u, _, rfl⟩ := List.mem_map.mp hd
      obtain ⟨v, _, rfl⟩ := List.mem_map.mp he
      exact nsPre_inj hde
theorem inScopeS {N} : ∀ {c : List Node} {scope read}, ProperL c → inScopeL scope read (serL N c)
  | [], _, _, _ => by simp only [serL, inScopeL]
  | x :: c, _, _, h => by
    simp only [ProperL] at h
    simp only [serL, inScopeL]
    exact ⟨inScopeN h.1, inScopeS h.2.1⟩
end

theorem fill_inScope {N} : ∀ {ls : List Lvl} {es scope read}, es.length = ls.length → (∀ e ∈ es, ProperL e) → inScopeL scope read (fillX ls []) →
    inScopeL scope read (serFill N ls es)
  | [], _, _, _, _, _, _ => by simp only [serFill, fillX, inScopeL]
  | l :: ls, [], _, _, h, _, _ => by simp at h
  | l :: ls, e :: es, scope, read, h, hp, hs => by
    rw [fill_cons]
    simp only [fillX, inScopeL, XNode.inScope, and_true] at hs ⊢
    obtain ⟨c1, c2, c3⟩ := hs
    obtain ⟨c3, c4⟩ := inScope_append.mp c3
    exact ⟨c1, c2, inScope_append.mpr ⟨c3, inScope_append.mpr ⟨fill_inScope (by simpa using h) (fun e' h' => hp e' (List.mem_cons_of_mem _ h')) c4,
      inScopeS (hp e (by simp))⟩⟩⟩

theorem fill_tame {f} {N} {xs : List XNode} {ls es} (ht : TameL f xs) (h : es.length = ls.length) (hp : ∀ e ∈ es, ProperL e)
    (h1 : ∀ a ∈ lvAtts ls, a ∈ allAttsL xs) (h3 : ∀ a ∈ lvTexts ls, a ∈ allTextsL xs)
    (hu : LvUnsplit ls) (he : LvEnd ls) (hs : inScopeL [("xml".toList, xmlUri)] [] (fillX ls [])) : TameL f (serFill N ls es) := by
  refine ⟨fill_inScope h hp hs, ?_, ?_, fun s hs => ht.text s (h3 s (fill_texts h s hs)), ?_⟩
  · intro d hd
    obtain ⟨a, ha, hda⟩ := mem_nsDecls.mp hd
    rcases fill_atts hp h a ha with ha | ha
    · exact ht.noDefault d (mem_nsDecls.mpr ⟨a, h1 a ha, hda⟩)
    · obtain ⟨u, rfl⟩ := ha.decl hda
      exact nsPre_ne
  · intro a ha
    rcases fill_atts hp h a ha with ha | ha
    · exact ht.noRef a (h1 a ha)
    · exact ha.1
  · rcases fill_unsplit (N := N) h hp hu he with rfl | ⟨pre, loc, atts, kids, h', hk⟩
    · simp only [serFill, fillX, unsplitL]
    · rw [h']; simp only [unsplitL, and_true]; exact hk

end Verif
