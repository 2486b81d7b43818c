import Verif.Proof.XmlStands
import Verif.Proof.XmlNoFault
/-
The positions of the XML reader lie in the file.
-/
namespace Verif.LXml
open Verif Verif.At Verif.XS Verif.Rng Verif.RngAt

section
variable {uri : Str → UriKind} {root : LNode} {text : Str}

theorem bl_append (a b : Str) : byteLen (a ++ b) = byteLen a + byteLen b := LCompact.byteLen_append a b
theorem bl_cons (c : Char) (s : Str) : byteLen (c :: s) = c.utf8Size + byteLen s := by simp [byteLen]
theorem bl_nil : byteLen ([] : Str) = 0 := rfl

theorem decodes_le {raw v : Str} (h : RngAt.Decodes raw v) : byteLen v ≤ byteLen raw := by
  induction h with
  | nil => exact Nat.le_refl _
  | char _ _ ih => rw [bl_cons, bl_cons]; omega
  | @space c s v hc _ ih =>
    have : c.utf8Size = 1 := by
      simp only [List.mem_cons, List.not_mem_nil, or_false] at hc
      rcases hc with rfl | rfl | rfl <;> rfl
    have h2 : (' ' : Char).utf8Size = 1 := rfl
    rw [bl_cons, bl_cons]; omega
  | lineEnd _ ih =>
    have h2 : (' ' : Char).utf8Size = 1 := rfl
    have h3 : ('\r' : Char).utf8Size = 1 := rfl
    rw [bl_cons, bl_cons, bl_cons]; omega
  | @ref a b name c s v _ ih =>
    have h2 := c.utf8Size_le_four
    have h3 : ('&' : Char).utf8Size = 1 := rfl
    have h4 : (';' : Char).utf8Size = 1 := rfl
    have h5 := a.utf8Size_pos
    have h6 := b.utf8Size_pos
    rw [bl_cons, List.cons_append, List.cons_append, List.cons_append, bl_cons, bl_cons, bl_cons, bl_append, bl_cons]
    omega

/-- between the quotes of an attribute -/
theorem written_value {a : LAttr} (h : RngAt.Written text a) : ∃ raw, Cut text a.valueAt raw ∧ RngAt.Decodes raw a.value := by
  obtain ⟨pre, eq, quote, raw, ⟨p, q, ht, h1, h2⟩, _, hv, hd⟩ := h
  refine ⟨raw, ⟨p ++ (pre ++ a.name ++ eq ++ [quote]), [quote] ++ q, ?_, ?_, ?_⟩, hd⟩
  · rw [ht]; simp
  · rw [hv, h1]; simp only [bl_append]; omega
  · rw [hv, h1]
    show _ + byteLen (pre ++ a.name ++ eq ++ ([quote] ++ raw)) = _
    simp only [bl_append]; omega

theorem value_fits {a : LAttr} (h : RngAt.Written text a) : a.valueAt.lo + byteLen a.value ≤ a.valueAt.hi ∧ a.valueAt.hi ≤ byteLen text := by
  obtain ⟨raw, hc, hd⟩ := written_value h
  have := decodes_le hd
  refine ⟨?_, hc.inside.2⟩
  obtain ⟨p, q, ht, h1, h2⟩ := hc
  omega

theorem depicts_desc {cx : LAnc} {n : LNode} (h : Depicts text root) (hd : Descends root cx n) :
    Depicts text n ∧ ∀ as ∈ cx, ∀ a ∈ as, RngAt.Written text a := by
  induction hd with
  | root => exact ⟨h, nofun⟩
  | kid _ hk ih =>
    obtain ⟨h1, h2⟩ := ih
    cases h1 with
    | element _ _ h3 h4 =>
      refine ⟨h4 _ hk, ?_⟩
      intro as hm a ha
      rcases List.mem_cons.1 hm with rfl | hm
      · exact (h3 a ha).1
      · exact h2 as hm a ha

theorem has_mem {k : Str} {as : List LAttr} {a : LAttr} (h : LHasAttr k as a) : a ∈ as := by
  obtain ⟨pre, post, rfl, _⟩ := h; simp

theorem nearest_mem {k : Str} : ∀ {cx : LAnc} {a : LAttr}, LNearest k cx a → ∃ as ∈ cx, a ∈ as
  | _, _, .here h => ⟨_, List.mem_cons_self .., has_mem h⟩
  | _, _, .up _ h => by obtain ⟨as, h1, h2⟩ := nearest_mem h; exact ⟨as, List.mem_cons_of_mem _ h1, h2⟩

theorem depicts_atts {r : Rg} {ns : Option Str} {name : Str} {sc : List (Option Str × Str)} {as : List LAttr} {kids : List LNode}
    (h : Depicts text (.element r ns name sc as kids)) {a : LAttr} (ha : a ∈ as) : RngAt.Written text a := by
  cases h with
  | element _ _ h3 => exact (h3 a ha).1

theorem depicts_at {n : LNode} (h : Depicts text n) : ∃ w, Cut text n.at_ w := by
  cases h with
  | element h => exact ⟨_, h⟩
  | text h => exact ⟨_, h⟩
  | comment h => exact ⟨_, h⟩
  | pi h => exact ⟨_, h⟩

theorem depicts_kid {r : Rg} {ns : Option Str} {name : Str} {sc : List (Option Str × Str)} {as : List LAttr} {kids : List LNode}
    (h : Depicts text (.element r ns name sc as kids)) {k : LNode} (hk : k ∈ kids) : Depicts text k := by
  cases h with
  | element _ _ _ h4 => exact h4 k hk

/-- a tag is at least as long as its name -/
theorem tag_fits {r : Rg} {ns : Option Str} {name : Str} {sc : List (Option Str × Str)} {as : List LAttr} {kids : List LNode}
    (h : Depicts text (.element r ns name sc as kids)) : r.lo + 1 + byteLen name ≤ r.hi ∧ r.hi ≤ byteLen text := by
  cases h with
  | element hc =>
    refine ⟨?_, hc.inside.2⟩
    obtain ⟨p, q, ht, h1, h2⟩ := hc
    have : ('<' : Char).utf8Size = 1 := rfl
    simp only [List.cons_append, bl_cons, bl_append] at h2
    omega

/-- the text of an element is not longer than the element -/
theorem text_fits {r : Rg} {ns : Option Str} {name : Str} {sc : List (Option Str × Str)} {as : List LAttr} {kids : List LNode} {tr : Rg} {s : Str} {ks : List LNode}
    (h : Depicts text (.element r ns name sc as kids)) (hk : kids = .text tr s :: ks) : r.lo ≤ tr.lo ∧ tr.lo + byteLen s ≤ r.hi ∧ r.hi ≤ byteLen text := by
  cases h with
  | element hc _ _ _ h5 h6 =>
    subst hk
    exact ⟨(h5 _ (List.mem_cons_self ..)).1, h6 tr s (List.mem_cons_self ..), hc.inside.2⟩

/-- the range lies in the text -/
def Fits (text : Str) (r : Rg) : Prop := r.lo ≤ r.hi ∧ r.hi ≤ byteLen text

theorem value_in {as : List LAttr} {a : LAttr} {k : Str} {r : Rg} {ns : Option Str} {name : Str} {sc : List (Option Str × Str)} {kids : List LNode}
    (h : Depicts text (.element r ns name sc as kids)) (ha : LHasAttr k as a) : Fits text a.valueAt := by
  have := value_fits (depicts_atts h (has_mem ha))
  exact ⟨by omega, this.2⟩

theorem stands_fits (h : Depicts text root) {m : Mark} {r : Rg} (hs : Stands root m r) : Fits text r := by
  cases hs with
  | element hd =>
    have := tag_fits (depicts_desc h hd).1
    have e : byteLen "element".toList = 7 := rfl
    unfold Fits tagRange; dsimp only; omega
  | «attribute» hd =>
    have := tag_fits (depicts_desc h hd).1
    have e : byteLen "attribute".toList = 9 := rfl
    unfold Fits tagRange; dsimp only; omega
  | grammar hd => have := tag_fits (depicts_desc h hd).1; unfold Fits; omega
  | ref hd ha => exact value_in (depicts_desc h hd).1 ha
  | parent hd ha => exact value_in (depicts_desc h hd).1 ha
  | external hd ha => exact value_in (depicts_desc h hd).1 ha
  | define hd ha => exact value_in (depicts_desc h hd).1 ha
  | start hd =>
    have := tag_fits (depicts_desc h hd).1
    have e : byteLen "start".toList = 5 := rfl
    unfold Fits tagRange; dsimp only; omega
  | «include» hd ha => exact value_in (depicts_desc h hd).1 ha
  | nsPrefix hd =>
    have := text_fits (depicts_desc h hd).1 rfl
    rw [bl_append] at this
    unfold Fits; dsimp only; omega
  | @library _ _ _ _ _ _ a _ hd hn =>
    obtain ⟨as', h1, h2⟩ := nearest_mem hn
    have hw : RngAt.Written text a := by
      rcases List.mem_cons.1 h1 with rfl | h1
      · exact depicts_atts (depicts_desc h hd).1 h2
      · exact (depicts_desc h hd).2 _ h1 _ h2
    have := value_fits hw
    exact ⟨by omega, this.2⟩
  | noLibrary => exact ⟨Nat.le_refl _, Nat.zero_le _⟩
  | typeName _ hd ha => exact value_in (depicts_desc h hd).1 ha
  | param hd => have := tag_fits (depicts_desc h hd).1; unfold Fits; omega

/-! ### errors -/

theorem first_kid {ks post : List LNode} {k : LNode} {cx : LAnc} {r : Rg} {name : Str} {sc : List (Option Str × Str)} {as : List LAttr}
    (hd : Descends root cx (lel r name sc as ks)) (hf : First ks k post) : Descends root (as :: cx) k := .kid hd hf.mem

theorem asks_desc {role role' : Role} {cx cx' : LAnc} {n n' : LNode} (h : Asks role cx n role' cx' n') (hd : Descends root cx n) : Descends root cx' n' := by
  cases h with
  | inContainer _ hk => exact .kid hd hk
  | inElement _ hk => exact .kid hd hk
  | nameChild _ _ hf => exact first_kid hd hf
  | afterName _ hf hk => exact .kid hd (hf.post hk)
  | inAttribute _ hf => exact first_kid hd hf
  | afterAttributeName _ hf hf' => exact .kid hd (hf.post hf'.mem)
  | param => exact .kid hd (by simp)
  | @dataExcept _ _ _ _ _ r' sc' as' kids' _ _ _ hk => exact .kid (.kid (k := lel r' "except".toList sc' as' kids') hd (by simp)) hk
  | inGrammar hk => exact .kid hd hk
  | inStart _ hf => exact first_kid hd hf
  | inDefine _ hk => exact .kid hd hk
  | inDiv _ hk => exact .kid hd hk
  | inInclude hk => exact .kid hd hk
  | inChoice hk => exact .kid hd hk
  | nameExcept _ hf _ hk => exact .kid (first_kid hd hf) hk

theorem expects_desc {role : Role} {cx : LAnc} {n : LNode} (h : Expects root role cx n) : Descends root cx n := by
  induction h with
  | root => exact .root
  | @grammar r sc as kids k hr hk => subst hr; exact .kid .root hk
  | inside _ ha ih => exact asks_desc ha ih

/-- a bad name whose text fits into its range is reported within the text -/
theorem badName_fits {msg : String} {r : Rg} {v : Str} {e : XErr} (h : BadName msg r v e) (h1 : Fits text r) (h2 : r.lo + byteLen v ≤ byteLen text) : Fits text e.at_ := by
  cases h with
  | empty => exact h1
  | @char a c b ht =>
    have : byteLen a + 1 ≤ byteLen v := by
      have hc := c.utf8Size_pos
      have := trimmed_le ht
      rw [bl_append, bl_cons] at this
      omega
    unfold Fits XErr.at_; dsimp only; omega
where
  trimmed_le {v t : Str} (h : Trimmed v t) : byteLen t ≤ byteLen v := by
    obtain ⟨a, b, rfl, _⟩ := h
    simp only [bl_append]; omega

theorem badIdent_fits {a : LAttr} {e : XErr} (h : BadIdent a e) (hw : RngAt.Written text a) : Fits text e.at_ := by
  have := value_fits hw
  cases h with
  | colon => exact ⟨by dsimp only [XErr.at_]; omega, this.2⟩
  | name h => exact badName_fits h ⟨by omega, this.2⟩ (by omega)

theorem badQName_fits {sc : List (Option Str × Str)} {a : LAttr} {e : XErr} (h : BadQName sc a e) (hw : RngAt.Written text a) : Fits text e.at_ := by
  have hv := value_fits hw
  cases h with
  | pre h1 => rw [h1, bl_append] at hv; unfold Fits XErr.at_; dsimp only; omega
  | loc h1 _ h =>
    rw [h1, bl_append, bl_cons] at hv
    have : (':' : Char).utf8Size = 1 := rfl
    refine badName_fits h ?_ ?_
    · unfold Fits; dsimp only; omega
    · dsimp only; omega
  | plain _ h => exact badName_fits h ⟨by omega, hv.2⟩ (by omega)

theorem cut_fits {r : Rg} (h : ∃ w, Cut text r w) : Fits text r := by obtain ⟨w, h⟩ := h; exact h.inside

theorem wrong_fits {role : Role} {cx : LAnc} {n : LNode} {e : XErr} (h : Wrong uri role cx n e) (hd : Depicts text n) : Fits text e.at_ := by
  have here : Fits text n.at_ := cut_fits (depicts_at hd)
  have attAt : ∀ {a : LAttr}, RngAt.Written text a → Fits text a.at_ := fun h => by
    obtain ⟨_, _, _, _, h, _⟩ := h; exact h.inside
  cases h with
  | library ha => exact value_in hd ha
  | fragment ha => exact value_in hd ha
  | notPattern => exact here
  | attr _ ha => exact attAt (depicts_atts hd ha)
  | noPattern => exact here
  | noContent => exact here
  | noContentAfterName => exact here
  | noName => exact here
  | badName _ ha hb => exact badQName_fits hb (depicts_atts hd (has_mem ha))
  | xmlns ha => exact value_in hd ha
  | xmlnsNs ha => exact attAt (depicts_atts hd (has_mem ha))
  | moreInAttribute _ hf hf' => exact cut_fits (depicts_at (depicts_kid hd (hf.post hf'.mem)))
  | moreAfterAttributeName _ hf hf' hf'' => exact cut_fits (depicts_at (depicts_kid hd (hf.post (hf'.post hf''.mem))))
  | child _ hf => exact cut_fits (depicts_at (depicts_kid hd hf.mem))
  | refNoName => exact here
  | refName _ ha hb => exact badIdent_fits hb (depicts_atts hd (has_mem ha))
  | @valueChild _ _ _ _ _ k _ _ => exact cut_fits (depicts_at (depicts_kid (k := k) hd (by simp)))
  | valueText => exact here
  | typeName _ ha hb =>
    have := value_fits (depicts_atts hd (has_mem ha))
    exact badName_fits hb ⟨by omega, this.2⟩ (by omega)
  | noType => exact here
  | @notParam _ _ _ _ _ r' name' sc' as' kids' _ => exact cut_fits (depicts_at (depicts_kid (k := lel r' name' sc' as' kids') hd (by simp)))
  | @noException _ _ _ _ _ r' sc' as' kids' _ => exact cut_fits (depicts_at (depicts_kid (k := lel r' "except".toList sc' as' kids') hd (by simp)))
  | afterException _ hf =>
    have := hf.mem
    exact cut_fits (depicts_at (depicts_kid hd (by simp [this])))
  | noHref => exact here
  | notItem => exact here
  | combine _ _ ha => exact value_in hd ha
  | startAttr _ ha => exact attAt (depicts_atts hd ha)
  | noBody => exact here
  | moreInStart _ hf hf' => exact cut_fits (depicts_at (depicts_kid hd (hf.post hf'.mem)))
  | defineNoName => exact here
  | defineName _ ha hb => exact badIdent_fits hb (depicts_atts hd (has_mem ha))
  | includeNoHref => exact here
  | paramNoName => exact here
  | paramName ha hb => exact badIdent_fits hb (depicts_atts hd (has_mem ha))
  | paramEmpty => exact here
  | paramText => exact here
  | notNameClass => exact here
  | anyNameInExcept => exact here
  | @nameElement _ _ _ _ _ _ k _ _ => exact cut_fits (depicts_at (depicts_kid (k := k) hd (by simp)))
  | nameEmpty => exact here
  | nameText => exact here
  | namePrefix _ hb =>
    have := text_fits hd rfl
    rw [bl_append, bl_cons] at this
    exact badName_fits hb (by unfold Fits; dsimp only; omega) (by dsimp only; omega)
  | nameLocal _ hb =>
    have := text_fits hd rfl
    rw [bl_append, bl_cons] at this
    have e : (':' : Char).utf8Size = 1 := rfl
    exact badName_fits hb (by unfold Fits; dsimp only; omega) (by dsimp only; omega)
  | namePlain _ hb =>
    have := text_fits hd rfl
    exact badName_fits hb (cut_fits (depicts_at (depicts_kid hd (List.mem_cons_self ..)))) (by omega)
  | noNames => exact here
  | notExcept _ hf => exact cut_fits (depicts_at (depicts_kid hd hf.mem))
  | afterExcept _ hf hf' => exact cut_fits (depicts_at (depicts_kid hd (hf.post hf'.mem)))
  | noExcept _ hf => exact cut_fits (depicts_at (depicts_kid hd hf.mem))

/-- Every fault is reported within the text. -/
theorem fault_fits {e : XErr} (h : RngAt.Fault uri root e) (hd : Depicts text root) : Fits text e.at_ := by
  cases h with
  | root => exact cut_fits (depicts_at hd)
  | inside hx hw => exact wrong_fits hw (depicts_desc hd (expects_desc hx)).1

end
end Verif.LXml
