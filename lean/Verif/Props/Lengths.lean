import Verif.Props.Facets
/-
C28: length facets.
-/
namespace Verif

theorem UNumeral.unique {s : Str} {a b : Nat} (h1 : UNumeral s a) (h2 : UNumeral s b) : a = b := by
  have e1 := parseU_iff.mpr ⟨h1, Nat.le_max_left a b⟩
  have e2 := parseU_iff.mpr ⟨h2, Nat.le_max_right a b⟩
  exact Option.some.inj (e1.symm.trans e2)

theorem parseUsize_ok {s : Str} {n : Nat} : parseUsize s = .ok n ↔ UNumeral s n ∧ n ≤ 18446744073709551615 := by
  unfold parseUsize
  rw [orErr_ok, parseU_iff]

theorem LengthFacet.merge_valid {f o f' : LengthFacet} (h : f.merge o = .ok f') (s : Str) :
    f'.isValid s = true ↔ f.isValid s = true ∧ o.isValid s = true := by
  cases f <;> simp only [LengthFacet.merge] at h
  · cases h; simp [LengthFacet.isValid]
  · cases o <;> simp only [reduceCtorEq] at h
    split at h
    · cases h
    · cases h; simp [LengthFacet.isValid]
  all_goals cases h

theorem len_names : "length".toList ≠ "minLength".toList ∧ "length".toList ≠ "maxLength".toList ∧
    "minLength".toList ≠ "maxLength".toList ∧ "length".toList ≠ "pattern".toList ∧ "minLength".toList ≠ "pattern".toList ∧
    "maxLength".toList ≠ "pattern".toList := by decide

/-- the facet a parameter stands for -/
def lenFacet (p : Param) (n : Nat) : LengthFacet :=
  if p.name = "length".toList then .length n
  else if p.name = "minLength".toList then .minLength n
  else .maxLength n

theorem lenFacet_valid {p : Param} {n : Nat} (hl : p.isLen = true) (hn : UNumeral p.value n) (s : Str) :
    (lenFacet p n).isValid s = true ↔ p.Length s := by
  obtain ⟨n1, n2, n3, _⟩ := len_names
  have ex : ∀ {P : Nat → Prop}, (∃ m : Nat, UNumeral p.value m ∧ P m) ↔ P n := by
    intro P
    constructor
    · rintro ⟨m, h, h'⟩; rwa [UNumeral.unique hn h]
    · exact fun h => ⟨n, hn, h⟩
  unfold Param.Length lenFacet
  simp only [ex]
  unfold Param.isLen at hl
  simp only [Bool.or_eq_true, beq_iff_eq] at hl
  rcases hl with (hl | hl) | hl
  · rw [if_pos hl]
    constructor
    · intro h
      exact ⟨fun _ => by simpa [LengthFacet.isValid] using h, fun e => absurd (hl.symm.trans e) n1, fun e => absurd (hl.symm.trans e) n2⟩
    · intro h; simpa [LengthFacet.isValid] using h.1 hl
  · rw [if_neg (by rw [hl]; exact n1.symm), if_pos hl]
    constructor
    · intro h
      exact ⟨fun e => absurd (e.symm.trans hl) n1, fun _ => by simpa [LengthFacet.isValid] using h, fun e => absurd (hl.symm.trans e) n3⟩
    · intro h; simpa [LengthFacet.isValid] using h.2.1 hl
  · rw [if_neg (by rw [hl]; exact n2.symm), if_neg (by rw [hl]; exact n3.symm)]
    constructor
    · intro h
      exact ⟨fun e => absurd (e.symm.trans hl) n2, fun e => absurd (e.symm.trans hl) n3, fun _ => by simpa [LengthFacet.isValid] using h⟩
    · intro h; simpa [LengthFacet.isValid] using h.2.2 hl

section
variable {x : Ext} {wp : Bool}

/-- the loop, with the three length facets taken together -/
theorem lengthParams_cons (len : LengthFacet) (pat : Option PatternFacet) (p : Param) (ps : List Param) :
    lengthParams x wp len pat (p :: ps) =
      if p.isLen = true then (parseUsize p.value).bind fun n => (len.merge (lenFacet p n)).bind fun l => lengthParams x wp l pat ps
      else if wp = true ∧ p.name = "pattern".toList then (mkPattern x p.value).bind fun re => lengthParams x wp len (some re) ps
      else .err .invalidFacet := by
  obtain ⟨n1, n2, n3, _⟩ := len_names
  rw [lengthParams]
  unfold lenFacet
  split
  · rename_i h
    rw [if_pos (by simp [Param.isLen, h])]
    simp
  split
  · rename_i h0 h
    rw [if_pos (by simp [Param.isLen, h])]
    simp
  split
  · rename_i h0 h1 h
    rw [if_pos (by simp [Param.isLen, h])]
    simp
  · rename_i h0 h1 h2
    have : ¬ p.isLen = true := by
      unfold Param.isLen
      rw [Bool.or_eq_true, Bool.or_eq_true, beq_iff_eq, beq_iff_eq, beq_iff_eq]
      rintro ((h | h) | h)
      · exact h0 h
      · exact h1 h
      · exact h2 h
    rw [if_neg this]
    rfl

theorem not_len_length {p : Param} (h : p.isLen = false) (s : Str) : p.Length s := by
  unfold Param.isLen at h
  simp only [Bool.or_eq_false_iff, beq_eq_false_iff_ne] at h
  exact ⟨fun e => absurd e h.1.1, fun e => absurd e h.1.2, fun e => absurd e h.2⟩

theorem lengthParams_valid : ∀ {ps : List Param} {len len' : LengthFacet} {pat pat' : Option PatternFacet},
    lengthParams x wp len pat ps = .ok (len', pat') → ∀ s : Str,
    (len'.isValid s = true ↔ len.isValid s = true ∧ ∀ p ∈ ps, p.Length s) ∧ (patOk x pat' s = true ↔ patNow x pat ps s)
  | [], len, len', pat, pat', h, s => by
    cases h; exact ⟨by simp, patNow_nil.symm⟩
  | p :: ps, len, len', pat, pat', h, s => by
    obtain ⟨n1, n2, n3, n4, n5, n6⟩ := len_names
    rw [lengthParams_cons] at h
    split at h
    · rename_i hl
      simp only [Res.bind_eq_ok] at h
      obtain ⟨n, hn, l, hm, h⟩ := h
      obtain ⟨i1, i2⟩ := lengthParams_valid h s
      rw [i1, i2, LengthFacet.merge_valid hm, lenFacet_valid hl (parseUsize_ok.mp hn).1, List.forall_mem_cons, and_assoc]
      refine ⟨Iff.rfl, patNow_other ?_⟩
      intro e
      simp only [Param.isLen, e, Bool.or_eq_true, beq_iff_eq] at hl
      rcases hl with (hl | hl) | hl
      · exact n4 hl.symm
      · exact n5 hl.symm
      · exact n6 hl.symm
    · rename_i hl
      split at h
      · rename_i hp
        simp only [Res.bind_eq_ok] at h
        obtain ⟨re, hre, h⟩ := h
        unfold mkPattern at hre
        split at hre <;> cases hre
        obtain ⟨i1, i2⟩ := lengthParams_valid h s
        rw [i1, i2, List.forall_mem_cons]
        refine ⟨?_, patNow_pattern hp.2⟩
        simp only [not_len_length (by simpa using hl) s, true_and]
      · cases h

/-- which lists of length facets are accepted in each state -/
def OkFrom : LengthFacet → List Param → Prop
  | .unbounded, ls => LengthsOk ls
  | .minLength a, ls => ls = [] ∨ ∃ q, ls = [q] ∧ q.name = "maxLength".toList ∧ ∃ b : Nat, UNumeral q.value b ∧ a ≤ b
  | _, ls => ls = []

theorem okFrom_cons {len : LengthFacet} {p : Param} {n : Nat} {ls : List Param} (hl : p.isLen = true) (hn : UNumeral p.value n) :
    OkFrom len (p :: ls) ↔ ∃ l, len.merge (lenFacet p n) = .ok l ∧ OkFrom l ls := by
  obtain ⟨n1, n2, n3, _⟩ := len_names
  have hl' := hl
  unfold Param.isLen at hl
  simp only [Bool.or_eq_true, beq_iff_eq] at hl
  cases len with
  | unbounded =>
    simp only [LengthFacet.merge, Res.ok.injEq, exists_eq_left']
    unfold lenFacet OkFrom LengthsOk
    rcases hl with (hl | hl) | hl
    · rw [if_pos hl]
      constructor
      · rintro (h | ⟨q, h⟩ | ⟨q, r, h, hq, _⟩)
        · cases h
        · cases h; rfl
        · cases h; exact absurd (hl.symm.trans hq) n1
      · rintro rfl; exact Or.inr (Or.inl ⟨p, rfl⟩)
    · rw [if_neg (by rw [hl]; exact n1.symm), if_pos hl]
      constructor
      · rintro (h | ⟨q, h⟩ | ⟨q, r, h, hq, hr, a, b, ha, hb, hab⟩)
        · cases h
        · cases h; exact Or.inl rfl
        · cases h
          rw [UNumeral.unique hn ha]
          exact Or.inr ⟨r, rfl, hr, b, hb, hab⟩
      · rintro (rfl | ⟨q, rfl, hq, b, hb, hab⟩)
        · exact Or.inr (Or.inl ⟨p, rfl⟩)
        · exact Or.inr (Or.inr ⟨p, q, rfl, hl, hq, n, b, hn, hb, hab⟩)
    · rw [if_neg (by rw [hl]; exact n2.symm), if_neg (by rw [hl]; exact n3.symm)]
      constructor
      · rintro (h | ⟨q, h⟩ | ⟨q, r, h, hq, _⟩)
        · cases h
        · cases h; rfl
        · cases h; exact absurd (hq.symm.trans hl) n3
      · rintro rfl; exact Or.inr (Or.inl ⟨p, rfl⟩)
  | minLength a =>
    unfold lenFacet
    rcases hl with (hl | hl) | hl
    · rw [if_pos hl]
      constructor
      · rintro (h | ⟨q, h, hq, _⟩)
        · cases h
        · cases h; exact absurd (hl.symm.trans hq) n2
      · rintro ⟨l, h, _⟩; cases h
    · rw [if_neg (by rw [hl]; exact n1.symm), if_pos hl]
      constructor
      · rintro (h | ⟨q, h, hq, _⟩)
        · cases h
        · cases h; exact absurd (hl.symm.trans hq) n3
      · rintro ⟨l, h, _⟩; cases h
    · rw [if_neg (by rw [hl]; exact n2.symm), if_neg (by rw [hl]; exact n3.symm)]
      simp only [LengthFacet.merge]
      constructor
      · rintro (h | ⟨q, h, hq, b, hb, hab⟩)
        · cases h
        · cases h
          rw [UNumeral.unique hn hb, if_neg (by omega)]
          exact ⟨_, rfl, rfl⟩
      · rintro ⟨l, h, h2⟩
        split at h
        · cases h
        · cases h
          cases h2
          exact Or.inr ⟨p, rfl, hl, n, hn, by omega⟩
  | maxLength a => simp [OkFrom, LengthFacet.merge]
  | minMaxLength a b => simp [OkFrom, LengthFacet.merge]
  | length a => simp [OkFrom, LengthFacet.merge]

theorem lengthParams_ok_iff : ∀ {ps : List Param} {len : LengthFacet} {pat : Option PatternFacet},
    (∃ r, lengthParams x wp len pat ps = .ok r) ↔ (∀ p ∈ ps, LenReadable x wp p) ∧ OkFrom len (ps.filter Param.isLen)
  | [], len, pat => by
    have : OkFrom len [] := by cases len <;> simp [OkFrom, LengthsOk]
    simp [lengthParams, this]
  | p :: ps, len, pat => by
    obtain ⟨n1, n2, n3, n4, n5, n6⟩ := len_names
    rw [lengthParams_cons]
    split
    · rename_i hl
      rw [List.filter_cons_of_pos hl, List.forall_mem_cons]
      have hnp : p.name ≠ "pattern".toList := by
        intro e
        simp only [Param.isLen, e, Bool.or_eq_true, beq_iff_eq] at hl
        rcases hl with (hl | hl) | hl
        · exact n4 hl.symm
        · exact n5 hl.symm
        · exact n6 hl.symm
      constructor
      · rintro ⟨r, h⟩
        simp only [Res.bind_eq_ok] at h
        obtain ⟨n, hn, l, hm, h⟩ := h
        obtain ⟨i1, i2⟩ := lengthParams_ok_iff.mp ⟨r, h⟩
        have hn := parseUsize_ok.mp hn
        exact ⟨⟨Or.inl ⟨hl, n, hn⟩, i1⟩, (okFrom_cons hl hn.1).mpr ⟨l, hm, i2⟩⟩
      · rintro ⟨⟨h1, h2⟩, h3⟩
        rcases h1 with ⟨_, n, hn⟩ | ⟨_, h, _⟩
        · obtain ⟨l, hm, i2⟩ := (okFrom_cons hl hn.1).mp h3
          obtain ⟨r, h⟩ := (lengthParams_ok_iff (pat := pat)).mpr ⟨h2, i2⟩
          refine ⟨r, ?_⟩
          rw [parseUsize_ok.mpr hn]
          simp [hm, h]
        · exact absurd h hnp
    · rename_i hl
      rw [List.filter_cons_of_neg hl, List.forall_mem_cons]
      split
      · rename_i hp
        constructor
        · rintro ⟨r, h⟩
          simp only [Res.bind_eq_ok] at h
          obtain ⟨re, hre, h⟩ := h
          unfold mkPattern at hre
          split at hre <;> cases hre
          obtain ⟨i1, i2⟩ := lengthParams_ok_iff.mp ⟨r, h⟩
          exact ⟨⟨Or.inr ⟨hp.1, hp.2, ‹_›⟩, i1⟩, i2⟩
        · rintro ⟨⟨h1, h2⟩, h3⟩
          rcases h1 with ⟨h, _⟩ | ⟨_, _, h⟩
          · exact absurd h hl
          · obtain ⟨r, h'⟩ := (lengthParams_ok_iff (pat := some p.value)).mpr ⟨h2, h3⟩
            exact ⟨r, by simp [mkPattern, h, h']⟩
      · rename_i hp
        constructor
        · rintro ⟨r, h⟩; cases h
        · rintro ⟨⟨h1, h2⟩, h3⟩
          rcases h1 with ⟨h, _⟩ | ⟨h, h', _⟩
          · exact absurd h hl
          · exact absurd ⟨h, h'⟩ hp
end

/-- C28.  Which length facets (and patterns) compile, for the six types that have them. -/
theorem C28_accepted_iff (x : Ext) (ps : List Param) {name : Str} {patterns : Bool}
    (hn : (patterns = true ∧ (name = "string".toList ∨ name = "normalizedString".toList)) ∨
      (patterns = false ∧ (name = "NCName".toList ∨ name = "NMTOKEN".toList ∨ name = "NMTOKENS".toList ∨ name = "token".toList))) :
    (∃ d, datatypeNameOf x (.cname xsdUri name) ps = .ok d) ↔
      (∀ p ∈ ps, LenReadable x patterns p) ∧ LengthsOk (ps.filter Param.isLen) := by
  have key : ∀ {f : LengthFacet × Option PatternFacet → XsdDatatype},
      (∃ d, (facetRes (lengthParams x patterns .unbounded none ps) f).mapBoth Datatypes.xsd DtErr.xsd = .ok d) ↔
      (∀ p ∈ ps, LenReadable x patterns p) ∧ LengthsOk (ps.filter Param.isLen) := by
    intro f
    have := lengthParams_ok_iff (x := x) (wp := patterns) (ps := ps) (len := .unbounded) (pat := none)
    rw [show OkFrom .unbounded (ps.filter Param.isLen) = LengthsOk (ps.filter Param.isLen) from rfl] at this
    rw [← this]
    cases lengthParams x patterns .unbounded none ps <;> simp [facetRes, Res.mapBoth]
  rw [datatypeNameOf_xsd]
  rcases hn with ⟨rfl, rfl | rfl⟩ | ⟨rfl, rfl | rfl | rfl | rfl⟩
  all_goals exact key

theorem lengths_of_ok {x : Ext} {wp : Bool} {ps : List Param} {len : LengthFacet} {pat : Option PatternFacet}
    (h : lengthParams x wp .unbounded none ps = .ok (len, pat)) (s : Str) :
    (len.isValid s = true ↔ ∀ p ∈ ps, p.Length s) ∧ (patOk x pat s = true ↔ PatternsOk x ps s) := by
  obtain ⟨h1, h2⟩ := lengthParams_valid h s
  exact ⟨by rw [h1]; simp [LengthFacet.isValid], by rw [h2]; simp [patNow, patOk]⟩

/-- C28.  `string` with facets accepts exactly the strings that respect every length facet and match the last pattern. -/
theorem C28_string_lengths (x : Ext) {ps : List Param} {d : Datatypes}
    (h : datatypeNameOf x (.cname xsdUri "string".toList) ps = .ok d) (s : Str) :
    (stdLib x).validD d s = some true ↔ (∀ p ∈ ps, p.Length s) ∧ PatternsOk x ps s := by
  have e : xsdCompile x "string".toList ps = facetRes (lengthParams x true .unbounded none ps) fun r => .string ⟨r.1, r.2⟩ := rfl
  rw [datatypeNameOf_xsd, e, mapBoth_ok] at h
  obtain ⟨a, h, rfl⟩ := h
  obtain ⟨⟨len, pat⟩, hn, rfl⟩ := facetRes_ok h
  obtain ⟨h1, h2⟩ := lengths_of_ok hn s
  show some (len.isValid s && patOk x pat s) = some true ↔ _
  rw [Option.some.injEq, Bool.and_eq_true, h1, h2]

/-- C28.  `normalizedString` applies its facets to the words of the string joined by single spaces. -/
theorem C28_normalizedString_lengths (x : Ext) {ps : List Param} {d : Datatypes}
    (h : datatypeNameOf x (.cname xsdUri "normalizedString".toList) ps = .ok d) (s : Str) (ws : List Str) (hw : Tokens s ws) :
    (stdLib x).validD d s = some true ↔ (∀ p ∈ ps, p.Length (spaced ws)) ∧ PatternsOk x ps (spaced ws) := by
  have e : xsdCompile x "normalizedString".toList ps = facetRes (lengthParams x true .unbounded none ps) fun r => .normalizedString ⟨r.1, r.2⟩ := rfl
  rw [datatypeNameOf_xsd, e, mapBoth_ok] at h
  obtain ⟨a, h, rfl⟩ := h
  obtain ⟨⟨len, pat⟩, hn, rfl⟩ := facetRes_ok h
  obtain ⟨h1, h2⟩ := lengths_of_ok hn (normalizeWs s)
  show some (len.isValid (normalizeWs s) && patOk x pat (normalizeWs s)) = some true ↔ _
  rw [Option.some.injEq, Bool.and_eq_true, h1, h2, C24_words_joined hw]

/-- C28.  A lower length above the upper one is never accepted. -/
theorem C28_contradiction_rejected (x : Ext) {ps : List Param} {name : Str} {patterns : Bool}
    (hn : (patterns = true ∧ (name = "string".toList ∨ name = "normalizedString".toList)) ∨
      (patterns = false ∧ (name = "NCName".toList ∨ name = "NMTOKEN".toList ∨ name = "NMTOKENS".toList ∨ name = "token".toList)))
    {p q : Param} {a b : Nat} (hp : p ∈ ps) (hq : q ∈ ps) (np : p.name = "minLength".toList) (nq : q.name = "maxLength".toList)
    (ha : UNumeral p.value a) (hb : UNumeral q.value b) (hab : b < a) (d : Datatypes) :
    datatypeNameOf x (.cname xsdUri name) ps ≠ .ok d := by
  intro h
  obtain ⟨_, h⟩ := (C28_accepted_iff x ps hn).mp ⟨d, h⟩
  have hp : p ∈ ps.filter Param.isLen := List.mem_filter.mpr ⟨hp, by simp [Param.isLen, np]⟩
  have hq : q ∈ ps.filter Param.isLen := List.mem_filter.mpr ⟨hq, by simp [Param.isLen, nq]⟩
  have hne : p.name ≠ q.name := by rw [np, nq]; exact len_names.2.2.1
  rcases h with h | ⟨r, h⟩ | ⟨p', q', h, h1, h2, a', b', ha', hb', hab'⟩ <;> rw [h] at hp hq
  · simp at hp
  · simp only [List.mem_singleton] at hp hq; rw [hp, hq] at hne; exact hne rfl
  · simp only [List.mem_cons, List.not_mem_nil, or_false] at hp hq
    rcases hp with rfl | rfl
    · rcases hq with rfl | rfl
      · exact hne rfl
      · have := UNumeral.unique ha ha'; have := UNumeral.unique hb hb'; omega
    · exact len_names.2.2.1 (np.symm.trans h2)

private def exP (n v : String) : Param := ⟨n.toList, v.toList⟩

/-- The order matters: `maxLength` before `minLength` panics. -/
theorem C28_maxLength_first_panics (x : Ext) :
    datatypeNameOf x (.cname xsdUri "string".toList) [exP "maxLength" "3", exP "minLength" "1"] = .panic := rfl

example (x : Ext) : ∃ d, datatypeNameOf x (.cname xsdUri "string".toList) [exP "minLength" "1", exP "maxLength" "3"] = .ok d ∧
    (stdLib x).validD d "äöü".toList = some true ∧ (stdLib x).validD d "abcd".toList = some false := ⟨_, rfl, rfl, rfl⟩

end Verif
