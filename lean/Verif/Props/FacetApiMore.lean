import Verif.Props.FacetApi
import Verif.Props.Lengths
/-
C75: the accessors of the facets of strings and of decimals.
-/
namespace Verif

/-! ### strings -/

theorem merge_minLen {f o f' : LengthFacet} (h : f.merge o = .ok f') (p q r : Option PatternFacet) :
    (∀ n, (StringFacets.mk f' p).minLen = some n ↔ (StringFacets.mk f q).minLen = some n ∨ (StringFacets.mk o r).minLen = some n) ∧
    (∀ n, (StringFacets.mk f' p).maxLen = some n ↔ (StringFacets.mk f q).maxLen = some n ∨ (StringFacets.mk o r).maxLen = some n) ∧
    ((StringFacets.mk f' p).bounded = true ↔ (StringFacets.mk f q).bounded = true ∨ (StringFacets.mk o r).bounded = true) := by
  cases f <;> simp only [LengthFacet.merge] at h
  · cases h; simp [StringFacets.minLen, StringFacets.maxLen, StringFacets.bounded]
  · cases o <;> simp only [reduceCtorEq] at h
    split at h
    · cases h
    · cases h; simp [StringFacets.minLen, StringFacets.maxLen, StringFacets.bounded]
  all_goals cases h

theorem lenFacet_says {p : Param} {n : Nat} (hl : p.isLen = true) (hn : UNumeral p.value n) (r : Option PatternFacet) :
    (∀ k, (StringFacets.mk (lenFacet p n) r).minLen = some k ↔ p.saysMin ∧ UNumeral p.value k) ∧
    (∀ k, (StringFacets.mk (lenFacet p n) r).maxLen = some k ↔ p.saysMax ∧ UNumeral p.value k) ∧
    ((StringFacets.mk (lenFacet p n) r).bounded = true) := by
  obtain ⟨n1, n2, n3, _⟩ := len_names
  have hk : ∀ k : Nat, UNumeral p.value k ↔ n = k := fun k => ⟨fun h => UNumeral.unique hn h, fun h => h ▸ hn⟩
  simp only [hk]
  unfold Param.isLen at hl
  simp only [Bool.or_eq_true, beq_iff_eq] at hl
  unfold lenFacet Param.saysMin Param.saysMax
  rcases hl with (hl | hl) | hl
  · rw [if_pos hl]; simp only [hl]
    simp [StringFacets.minLen, StringFacets.maxLen, StringFacets.bounded]
  · rw [if_neg (by rw [hl]; exact n1.symm), if_pos hl]; simp only [hl]
    simp [StringFacets.minLen, StringFacets.maxLen, StringFacets.bounded]
  · rw [if_neg (by rw [hl]; exact n2.symm), if_neg (by rw [hl]; exact n3.symm)]; simp only [hl]
    simp [StringFacets.minLen, StringFacets.maxLen, StringFacets.bounded]

theorem lastPattern_cons {p : Param} {ps : List Param} {src : Str} : LastPattern (p :: ps) src ↔
    LastPattern ps src ∨ (p.name = "pattern".toList ∧ p.value = src ∧ ∀ q ∈ ps, q.name ≠ "pattern".toList) := by
  constructor
  · rintro ⟨a, q, b, e, h1, h2, h3⟩
    cases a with
    | nil => cases e; exact .inr ⟨h1, h2, h3⟩
    | cons c a => cases e; exact .inl ⟨a, q, b, rfl, h1, h2, h3⟩
  · rintro (⟨a, q, b, rfl, h⟩ | h)
    · exact ⟨p :: a, q, b, rfl, h⟩
    · exact ⟨[], p, ps, rfl, h⟩

theorem lastPattern_nil {src : Str} : ¬ LastPattern [] src := by
  rintro ⟨a, q, b, e, _⟩
  cases a <;> cases e

theorem lengthParams_says {x : Ext} {wp : Bool} : ∀ {ps : List Param} {len len' : LengthFacet} {pat pat' : Option PatternFacet},
    lengthParams x wp len pat ps = .ok (len', pat') →
    (∀ n, (StringFacets.mk len' pat').minLen = some n ↔ (StringFacets.mk len pat).minLen = some n ∨ ∃ p ∈ ps, p.saysMin ∧ UNumeral p.value n) ∧
    (∀ n, (StringFacets.mk len' pat').maxLen = some n ↔ (StringFacets.mk len pat).maxLen = some n ∨ ∃ p ∈ ps, p.saysMax ∧ UNumeral p.value n) ∧
    ((StringFacets.mk len' pat').bounded = true ↔ (StringFacets.mk len pat).bounded = true ∨ ∃ p ∈ ps, p.isLen = true) ∧
    ∀ src, pat' = some src ↔ LastPattern ps src ∨ (pat = some src ∧ ∀ q ∈ ps, q.name ≠ "pattern".toList)
  | [], len, len', pat, pat', h => by
    cases h
    simp [lastPattern_nil]
  | p :: ps, len, len', pat, pat', h => by
    obtain ⟨n1, n2, n3, n4, n5, n6⟩ := len_names
    rw [lengthParams_cons] at h
    split at h
    · rename_i hl
      simp only [Res.bind_eq_ok] at h
      obtain ⟨n, hn, l, hm, h⟩ := h
      obtain ⟨i1, i2, i3, i4⟩ := lengthParams_says h
      obtain ⟨m1, m2, m3⟩ := merge_minLen hm pat pat pat
      obtain ⟨l1, l2, l3⟩ := lenFacet_says hl (parseUsize_ok.mp hn).1 pat
      have hp : p.name ≠ "pattern".toList := by
        intro e
        simp only [Param.isLen, e, Bool.or_eq_true, beq_iff_eq] at hl
        rcases hl with (hl | hl) | hl
        · exact n4 hl.symm
        · exact n5 hl.symm
        · exact n6 hl.symm
      refine ⟨fun k => ?_, fun k => ?_, ?_, fun src => ?_⟩
      · rw [i1, m1, l1]; simp [or_assoc]
      · rw [i2, m2, l2]; simp [or_assoc]
      · rw [i3, m3]; simp [l3, hl]
      · rw [i4, lastPattern_cons, List.forall_mem_cons]
        exact ⟨fun h => h.elim (fun h => .inl (.inl h)) fun h => .inr ⟨h.1, hp, h.2⟩,
          fun h => h.elim (fun h => h.elim .inl fun h => absurd h.1 hp) fun h => .inr ⟨h.1, h.2.2⟩⟩
    · rename_i hl
      split at h
      · rename_i hp
        simp only [Res.bind_eq_ok] at h
        obtain ⟨re, hre, h⟩ := h
        unfold mkPattern at hre
        split at hre <;> cases hre
        obtain ⟨i1, i2, i3, i4⟩ := lengthParams_says h
        have s1 : ¬ p.saysMin := by
          unfold Param.saysMin; rw [hp.2]; rintro (h | h)
          · exact n5 h.symm
          · exact n4 h.symm
        have s2 : ¬ p.saysMax := by
          unfold Param.saysMax; rw [hp.2]; rintro (h | h)
          · exact n6 h.symm
          · exact n4 h.symm
        refine ⟨fun k => ?_, fun k => ?_, ?_, fun src => ?_⟩
        · rw [i1]; simp [s1]; rfl
        · rw [i2]; simp [s2]; rfl
        · rw [i3]; simp [hl]; rfl
        · rw [i4, lastPattern_cons]; simp [hp.2]
      · cases h

/-- C75.  What the accessors of a compiled `string` or `normalizedString` report: the least length is that of the schema's
`minLength` or `length`, the greatest that of its `maxLength` or `length`, the pattern is the last one, and nothing is reported
of what the schema does not say. -/
theorem C75_strings (x : Ext) {name : Str} (hn : name = "string".toList ∨ name = "normalizedString".toList) {ps : List Param}
    {d : XsdDatatype} (h : datatypeNameOf x (.cname xsdUri name) ps = .ok (.xsd d)) : ∃ f, d.stringFacets = some f ∧
    (∀ n, f.minLen = some n ↔ ∃ p ∈ ps, p.saysMin ∧ UNumeral p.value n) ∧
    (∀ n, f.maxLen = some n ↔ ∃ p ∈ ps, p.saysMax ∧ UNumeral p.value n) ∧
    (f.minLen = none ↔ ∀ p ∈ ps, ¬ p.saysMin) ∧
    (f.maxLen = none ↔ ∀ p ∈ ps, ¬ p.saysMax) ∧
    (f.bounded = true ↔ ∃ p ∈ ps, p.isLen = true) ∧
    (∀ src, f.regex = some src ↔ LastPattern ps src) := by
  have hr : ∀ p ∈ ps, LenReadable x true p := ((C28_accepted_iff x ps (.inl ⟨rfl, hn⟩)).mp ⟨_, h⟩).1
  have key : ∃ len pat, lengthParams x true .unbounded none ps = .ok (len, pat) ∧ d.stringFacets = some ⟨len, pat⟩ := by
    rw [datatypeNameOf_xsd] at h
    rcases hn with rfl | rfl
    · have e : xsdCompile x "string".toList ps = facetRes (lengthParams x true .unbounded none ps) fun r => .string ⟨r.1, r.2⟩ := rfl
      rw [e, mapBoth_ok] at h
      obtain ⟨a, h, e⟩ := h
      cases e
      obtain ⟨⟨len, pat⟩, hn, rfl⟩ := facetRes_ok h
      exact ⟨len, pat, hn, rfl⟩
    · have e : xsdCompile x "normalizedString".toList ps = facetRes (lengthParams x true .unbounded none ps) fun r => .normalizedString ⟨r.1, r.2⟩ := rfl
      rw [e, mapBoth_ok] at h
      obtain ⟨a, h, e⟩ := h
      cases e
      obtain ⟨⟨len, pat⟩, hn, rfl⟩ := facetRes_ok h
      exact ⟨len, pat, hn, rfl⟩
  obtain ⟨len, pat, hl, hf⟩ := key
  obtain ⟨h1, h2, h3, h4⟩ := lengthParams_says hl
  have h1 : ∀ n, (StringFacets.mk len pat).minLen = some n ↔ ∃ p ∈ ps, p.saysMin ∧ UNumeral p.value n := fun n => by
    rw [h1 n]; exact ⟨fun h => h.elim nofun id, .inr⟩
  have h2 : ∀ n, (StringFacets.mk len pat).maxLen = some n ↔ ∃ p ∈ ps, p.saysMax ∧ UNumeral p.value n := fun n => by
    rw [h2 n]; exact ⟨fun h => h.elim nofun id, .inr⟩
  have read : ∀ p ∈ ps, p.isLen = true → ∃ n : Nat, UNumeral p.value n := fun p hp hl => by
    obtain ⟨n1, n2, n3, n4, n5, n6⟩ := len_names
    rcases hr p hp with ⟨_, n, hn, _⟩ | ⟨_, h, _⟩
    · exact ⟨n, hn⟩
    · simp only [Param.isLen, h, Bool.or_eq_true, beq_iff_eq] at hl
      rcases hl with (hl | hl) | hl
      · exact absurd hl.symm n4
      · exact absurd hl.symm n5
      · exact absurd hl.symm n6
  have isLen : ∀ p : Param, p.saysMin ∨ p.saysMax → p.isLen = true := fun p h => isLen_iff.mpr (by
    rcases h with (h | h) | (h | h)
    · exact .inr (.inl h)
    · exact .inl h
    · exact .inr (.inr h)
    · exact .inl h)
  refine ⟨_, hf, h1, h2, ?_, ?_, ?_, fun src => ?_⟩
  · constructor
    · intro hn p hp hs
      obtain ⟨n, hv⟩ := read p hp (isLen p (.inl hs))
      rw [(h1 n).mpr ⟨p, hp, hs, hv⟩] at hn; cases hn
    · intro hn
      cases hm : (StringFacets.mk len pat).minLen with
      | none => rfl
      | some n => obtain ⟨p, hp, hs, _⟩ := (h1 n).mp hm; exact absurd hs (hn p hp)
  · constructor
    · intro hn p hp hs
      obtain ⟨n, hv⟩ := read p hp (isLen p (.inr hs))
      rw [(h2 n).mpr ⟨p, hp, hs, hv⟩] at hn; cases hn
    · intro hn
      cases hm : (StringFacets.mk len pat).maxLen with
      | none => rfl
      | some n => obtain ⟨p, hp, hs, _⟩ := (h2 n).mp hm; exact absurd hs (hn p hp)
  · rw [h3]; exact ⟨fun h => h.elim nofun id, .inr⟩
  · show pat = some src ↔ _
    rw [h4]; exact ⟨fun h => h.elim id (fun h => nomatch h.1), .inl⟩

/-- C75.  The lengths that are reported are exactly those that `string` checks. -/
theorem C75_string_lengths (x : Ext) {ps : List Param} {d : XsdDatatype} {f : StringFacets}
    (h : datatypeNameOf x (.cname xsdUri "string".toList) ps = .ok (.xsd d)) (hf : d.stringFacets = some f) (s : Str) :
    d.isValid x s = some true ↔ (∀ n, f.minLen = some n → n ≤ s.length) ∧ (∀ n, f.maxLen = some n → s.length ≤ n) ∧
      (∀ src, f.regex = some src → x.reMatch src s = true) := by
  obtain ⟨f', hf', h1, h2, h3, h4, _, h5⟩ := C75_strings x (.inl rfl) h
  rw [hf] at hf'; cases hf'
  have hv := C28_string_lengths x h s
  rw [show (stdLib x).validD (.xsd d) s = d.isValid x s from rfl] at hv
  rw [hv]
  have hr : ∀ p ∈ ps, LenReadable x true p := ((C28_accepted_iff x ps (.inl ⟨rfl, .inl rfl⟩)).mp ⟨_, h⟩).1
  have read : ∀ p ∈ ps, p.isLen = true → ∃ n : Nat, UNumeral p.value n := fun p hp hl => by
    obtain ⟨n1, n2, n3, n4, n5, n6⟩ := len_names
    rcases hr p hp with ⟨_, n, hn, _⟩ | ⟨_, h, _⟩
    · exact ⟨n, hn⟩
    · simp only [Param.isLen, h, Bool.or_eq_true, beq_iff_eq] at hl
      rcases hl with (hl | hl) | hl
      · exact absurd hl.symm n4
      · exact absurd hl.symm n5
      · exact absurd hl.symm n6
  constructor
  · rintro ⟨hl, hp⟩
    refine ⟨fun n hn => ?_, fun n hn => ?_, fun src hs => ?_⟩
    · obtain ⟨p, hp, hs | hs, hu⟩ := (h1 n).mp hn
      · obtain ⟨m, hm, hle⟩ := (hl p hp).2.1 hs; rw [UNumeral.unique hu hm]; exact hle
      · obtain ⟨m, hm, hle⟩ := (hl p hp).1 hs; rw [UNumeral.unique hu hm]; omega
    · obtain ⟨p, hp, hs | hs, hu⟩ := (h2 n).mp hn
      · obtain ⟨m, hm, hle⟩ := (hl p hp).2.2 hs; rw [UNumeral.unique hu hm]; exact hle
      · obtain ⟨m, hm, hle⟩ := (hl p hp).1 hs; rw [UNumeral.unique hu hm]; omega
    · obtain ⟨a, p, b, e, hn, hv, hb⟩ := (h5 src).mp hs
      rw [← hv]; exact hp a p b e hn hb
  · rintro ⟨hmin, hmax, hre⟩
    refine ⟨fun p hp => ⟨fun hn => ?_, fun hn => ?_, fun hn => ?_⟩, fun a p b e hn hb => ?_⟩
    · obtain ⟨n, hu⟩ := read p hp (isLen_iff.mpr (.inl hn))
      have := hmin n ((h1 n).mpr ⟨p, hp, .inr hn, hu⟩)
      have := hmax n ((h2 n).mpr ⟨p, hp, .inr hn, hu⟩)
      exact ⟨n, hu, by omega⟩
    · obtain ⟨n, hu⟩ := read p hp (isLen_iff.mpr (.inr (.inl hn)))
      exact ⟨n, hu, hmin n ((h1 n).mpr ⟨p, hp, .inl hn, hu⟩)⟩
    · obtain ⟨n, hu⟩ := read p hp (isLen_iff.mpr (.inr (.inr hn)))
      exact ⟨n, hu, hmax n ((h2 n).mpr ⟨p, hp, .inl hn, hu⟩)⟩
    · exact hre _ ((h5 _).mpr ⟨a, p, b, e, hn, rfl, hb⟩)

/-! ### decimals -/

theorem decFacet_of_ok (x : Ext) {ps : List Param} {d : XsdDatatype}
    (h : datatypeNameOf x (.cname xsdUri "decimal".toList) ps = .ok (.xsd d)) :
    ∃ (m : MinMax Rat) (pat : Option PatternFacet) (fd td : Option Nat),
      d = .decimal m pat fd td ∧ RInv x.parseDec ps (m, pat, fd, td) := by
  have e : xsdCompile x "decimal".toList ps =
    facetRes (decParams x {} none none none ps) fun r => .decimal r.1 r.2.1 r.2.2.1 r.2.2.2 := rfl
  rw [datatypeNameOf_xsd, e, mapBoth_ok] at h
  obtain ⟨a, h, e⟩ := h
  cases e
  obtain ⟨⟨m, pat, fd, td⟩, hn, rfl⟩ := facetRes_ok h
  rw [decParams_loop] at hn
  exact ⟨m, pat, fd, td, rfl, loop_inv rangeStep_ok ps [] _ _ RInv.start hn⟩

/-- C75.  For decimals: an inclusive bound is reported as it is and nothing is reported of a bound that is not there, but an
exclusive bound is reported as the bound moved by one, so that the decimals in between are accepted and yet outside of what is
reported. -/
theorem C75_decimals (x : Ext) {ps : List Param} {d : XsdDatatype}
    (h : datatypeNameOf x (.cname xsdUri "decimal".toList) ps = .ok (.xsd d)) : ∃ m pat fd td, d = .decimal m pat fd td ∧
    (m.minDec = none ↔ ∀ p ∈ ps, p.isLower = false) ∧ (m.maxDec = none ↔ ∀ p ∈ ps, p.isUpper = false) ∧
    (∀ p ∈ ps, ∀ b, DecVal x p.value b →
      (p.name = "minInclusive".toList → m.minDec = some b ∧ ∀ w, AboveAll (DecVal x) ps w ↔ b ≤ w) ∧
      (p.name = "minExclusive".toList → m.minDec = some (b + 1) ∧ ∀ w, AboveAll (DecVal x) ps w ↔ b < w) ∧
      (p.name = "maxInclusive".toList → m.maxDec = some b ∧ ∀ w, BelowAll (DecVal x) ps w ↔ w ≤ b) ∧
      (p.name = "maxExclusive".toList → m.maxDec = some (b - 1) ∧ ∀ w, BelowAll (DecVal x) ps w ↔ w < b)) ∧
    (m.bounded = true ↔ ∃ p ∈ ps, p.isLower = true ∨ p.isUpper = true) := by
  obtain ⟨m, pat, fd, td, rfl, hi⟩ := decFacet_of_ok x h
  have hmin : BInv x.parseDec ps "minInclusive".toList "minExclusive".toList m.min := hi.1
  have hmax : BInv x.parseDec ps "maxInclusive".toList "maxExclusive".toList m.max := hi.2
  have none1 : m.min = .unbounded ↔ ∀ p ∈ ps, p.isLower = false := by
    constructor
    · intro hm p hp
      rw [hm] at hmin
      cases hl : p.isLower with
      | false => rfl
      | true => rcases isLower_iff.mp hl with h | h
                · exact absurd h (hmin p hp).1
                · exact absurd h (hmin p hp).2
    · intro hno
      cases hm : m.min with
      | unbounded => rfl
      | inclusive u => rw [hm] at hmin; obtain ⟨q, hq, hn, _⟩ := hmin; have := hno q hq; rw [isLower_iff.mpr (.inl hn)] at this; cases this
      | exclusive u => rw [hm] at hmin; obtain ⟨q, hq, hn, _⟩ := hmin; have := hno q hq; rw [isLower_iff.mpr (.inr hn)] at this; cases this
  have none2 : m.max = .unbounded ↔ ∀ p ∈ ps, p.isUpper = false := by
    constructor
    · intro hm p hp
      rw [hm] at hmax
      cases hl : p.isUpper with
      | false => rfl
      | true => rcases isUpper_iff.mp hl with h | h
                · exact absurd h (hmax p hp).1
                · exact absurd h (hmax p hp).2
    · intro hno
      cases hm : m.max with
      | unbounded => rfl
      | inclusive u => rw [hm] at hmax; obtain ⟨q, hq, hn, _⟩ := hmax; have := hno q hq; rw [isUpper_iff.mpr (.inl hn)] at this; cases this
      | exclusive u => rw [hm] at hmax; obtain ⟨q, hq, hn, _⟩ := hmax; have := hno q hq; rw [isUpper_iff.mpr (.inr hn)] at this; cases this
  refine ⟨m, pat, fd, td, rfl, ?_, ?_, fun p hp b hb => ⟨fun hn => ?_, fun hn => ?_, fun hn => ?_, fun hn => ?_⟩, ?_⟩
  · rw [← none1]; unfold MinMax.minDec; cases m.min <;> simp
  · rw [← none2]; unfold MinMax.maxDec; cases m.max <;> simp
  · have hm := (hmin.value (by decide) hp hb).1 hn
    refine ⟨by unfold MinMax.minDec; rw [hm], fun w => ?_⟩
    rw [hm] at hmin
    obtain ⟨q, hq, hn', hb', un⟩ := hmin
    have hr : p.Range (DecVal x) w ↔ b ≤ w := by
      unfold Param.Range; rw [hn]
      refine ⟨fun h => ?_, fun h => ⟨fun _ => ⟨b, hb, h⟩, fun e => absurd e (by decide), fun e => absurd e (by decide), fun e => absurd e (by decide)⟩⟩
      obtain ⟨b', hb', h⟩ := h.1 rfl
      have := hb.symm.trans hb'; cases this; exact h
    exact ⟨fun h => hr.mp (h p hp (isLower_iff.mpr (.inl hn))), fun h r hr' hl => by
      rw [un r hr' (isLower_iff.mp hl), ← un p hp (.inl hn)]; exact hr.mpr h⟩
  · have hm := (hmin.value (by decide) hp hb).2 hn
    refine ⟨by unfold MinMax.minDec; rw [hm], fun w => ?_⟩
    rw [hm] at hmin
    obtain ⟨q, hq, hn', hb', un⟩ := hmin
    have hr : p.Range (DecVal x) w ↔ b < w := by
      unfold Param.Range; rw [hn]
      refine ⟨fun h => ?_, fun h => ⟨fun e => absurd e (by decide), fun _ => ⟨b, hb, h⟩, fun e => absurd e (by decide), fun e => absurd e (by decide)⟩⟩
      obtain ⟨b', hb', h⟩ := h.2.1 rfl
      have := hb.symm.trans hb'; cases this; exact h
    exact ⟨fun h => hr.mp (h p hp (isLower_iff.mpr (.inr hn))), fun h r hr' hl => by
      rw [un r hr' (isLower_iff.mp hl), ← un p hp (.inr hn)]; exact hr.mpr h⟩
  · have hm := (hmax.value (by decide) hp hb).1 hn
    refine ⟨by unfold MinMax.maxDec; rw [hm], fun w => ?_⟩
    rw [hm] at hmax
    obtain ⟨q, hq, hn', hb', un⟩ := hmax
    have hr : p.Range (DecVal x) w ↔ w ≤ b := by
      unfold Param.Range; rw [hn]
      refine ⟨fun h => ?_, fun h => ⟨fun e => absurd e (by decide), fun e => absurd e (by decide), fun _ => ⟨b, hb, h⟩, fun e => absurd e (by decide)⟩⟩
      obtain ⟨b', hb', h⟩ := h.2.2.1 rfl
      have := hb.symm.trans hb'; cases this; exact h
    exact ⟨fun h => hr.mp (h p hp (isUpper_iff.mpr (.inl hn))), fun h r hr' hl => by
      rw [un r hr' (isUpper_iff.mp hl), ← un p hp (.inl hn)]; exact hr.mpr h⟩
  · have hm := (hmax.value (by decide) hp hb).2 hn
    refine ⟨by unfold MinMax.maxDec; rw [hm], fun w => ?_⟩
    rw [hm] at hmax
    obtain ⟨q, hq, hn', hb', un⟩ := hmax
    have hr : p.Range (DecVal x) w ↔ w < b := by
      unfold Param.Range; rw [hn]
      refine ⟨fun h => ?_, fun h => ⟨fun e => absurd e (by decide), fun e => absurd e (by decide), fun e => absurd e (by decide), fun _ => ⟨b, hb, h⟩⟩⟩
      obtain ⟨b', hb', h⟩ := h.2.2.2 rfl
      have := hb.symm.trans hb'; cases this; exact h
    exact ⟨fun h => hr.mp (h p hp (isUpper_iff.mpr (.inr hn))), fun h r hr' hl => by
      rw [un r hr' (isUpper_iff.mp hl), ← un p hp (.inr hn)]; exact hr.mpr h⟩
  · have hb : m.bounded = true ↔ ¬ (m.min = .unbounded ∧ m.max = .unbounded) := by
      unfold MinMax.bounded
      cases m.min <;> cases m.max <;> simp
    rw [hb, none1, none2]
    constructor
    · intro hn
      apply Classical.byContradiction
      intro hno
      refine hn ⟨fun p hp => ?_, fun p hp => ?_⟩
      · cases hl : p.isLower with
        | false => rfl
        | true => exact absurd ⟨p, hp, .inl hl⟩ hno
      · cases hl : p.isUpper with
        | false => rfl
        | true => exact absurd ⟨p, hp, .inr hl⟩ hno
    · rintro ⟨p, hp, hl | hl⟩ ⟨a, b⟩
      · rw [a p hp] at hl; cases hl
      · rw [b p hp] at hl; cases hl

/-- C75.  So a decimal below the reported least value is accepted, whenever the schema gives one exclusive lower bound only. -/
theorem C75_decimal_exclusive_misreported (x : Ext) {b v : Rat} {bs s : Str} (hb : DecVal x bs b) (hs : DecVal x s v)
    (h1 : b < v) (h2 : v < b + 1) : ∃ m, datatypeNameOf x (.cname xsdUri "decimal".toList) [⟨"minExclusive".toList, bs⟩] =
      .ok (.xsd (.decimal m none none none)) ∧
    m.minDec = some (b + 1) ∧ v < b + 1 ∧ (XsdDatatype.decimal m none none none).isValid x s = some true := by
  have e : datatypeNameOf x (.cname xsdUri "decimal".toList) [⟨"minExclusive".toList, bs⟩] =
      .ok (.xsd (.decimal ⟨.exclusive b, .unbounded⟩ none none none)) := by
    have e : xsdCompile x "decimal".toList [⟨"minExclusive".toList, bs⟩] =
      facetRes (decParams x {} none none none [⟨"minExclusive".toList, bs⟩]) fun r => .decimal r.1 r.2.1 r.2.2.1 r.2.2.2 := rfl
    have e' : decParams x {} none none none [⟨"minExclusive".toList, bs⟩] =
        ((parseDecP x bs).bind fun v => (({} : MinMax Rat).minExclusive v).bind fun m => .ok (m, none, none, none)) := rfl
    have e'' : parseDecP x bs = .ok b := by unfold parseDecP; rw [show x.parseDec bs = some b from hb]; rfl
    rw [datatypeNameOf_xsd, e, e', e'']; rfl
  refine ⟨_, e, rfl, h2, ?_⟩
  have hv := C27_decimal_range_facets x e s
  rw [show (stdLib x).validD (.xsd _) s = XsdDatatype.isValid x _ s from rfl] at hv
  rw [hv]
  refine ⟨⟨v, hs, fun p hp => ?_⟩, ?_⟩
  · cases List.mem_singleton.mp hp
    refine ⟨fun e => ?_, fun _ => ⟨b, hb, h1⟩, fun e => ?_, fun e => ?_⟩
    · exact absurd (show "minExclusive".toList = "minInclusive".toList from e) (by decide)
    · exact absurd (show "minExclusive".toList = "maxInclusive".toList from e) (by decide)
    · exact absurd (show "minExclusive".toList = "maxExclusive".toList from e) (by decide)
  · intro a p c e hn
    have hm : p ∈ [(⟨"minExclusive".toList, bs⟩ : Param)] := by rw [e]; simp
    rw [List.mem_singleton.mp hm] at hn
    exact absurd (show "minExclusive".toList = "pattern".toList from hn) (by decide)

/-! ### cases -/

theorem C75_case_short : ∀ x : Ext, ∃ m, datatypeNameOf x (.cname xsdUri "short".toList) [⟨"minExclusive".toList, "3".toList⟩, ⟨"maxInclusive".toList, "+9".toList⟩] =
      .ok (.xsd (.short m none)) ∧ m.minVal ⟨some (-0x8000), some 0x7fff⟩ = .ok (some 4) ∧
      m.maxVal ⟨some (-0x8000), some 0x7fff⟩ = .ok (some 9) ∧ m.bounded = true :=
  fun _ => ⟨⟨.exclusive 3, .inclusive 9⟩, rfl, rfl, rfl, rfl⟩

/-- asking for the least value of `short { minExclusive = "32767" }` panics -/
theorem C75_case_overflow : ∀ x : Ext, ∃ m, datatypeNameOf x (.cname xsdUri "short".toList) [⟨"minExclusive".toList, "32767".toList⟩] =
      .ok (.xsd (.short m none)) ∧ m.minVal ⟨some (-0x8000), some 0x7fff⟩ = .panic :=
  fun _ => ⟨⟨.exclusive 32767, .unbounded⟩, rfl, rfl⟩

/-- asking for the greatest value of `positiveInteger { maxExclusive = "0" }` panics -/
theorem C75_case_underflow : ∀ x : Ext, ∃ m, datatypeNameOf x (.cname xsdUri "positiveInteger".toList) [⟨"maxExclusive".toList, "0".toList⟩] =
      .ok (.xsd (.positiveInteger m none)) ∧ m.maxVal ⟨some 0, none⟩ = .panic :=
  fun _ => ⟨⟨.unbounded, .exclusive 0⟩, rfl, rfl⟩

/-- an empty range compiles, and is reported as a least value above the greatest one -/
theorem C75_case_empty_range : ∀ x : Ext, ∃ m, datatypeNameOf x (.cname xsdUri "int".toList) [⟨"minExclusive".toList, "3".toList⟩, ⟨"maxExclusive".toList, "4".toList⟩] =
      .ok (.xsd (.int m none)) ∧ m.minVal ⟨some (-0x80000000), some 0x7fffffff⟩ = .ok (some 4) ∧
      m.maxVal ⟨some (-0x80000000), some 0x7fffffff⟩ = .ok (some 3) :=
  fun _ => ⟨⟨.exclusive 3, .exclusive 4⟩, rfl, rfl, rfl⟩

theorem C75_case_string : ∀ x : Ext, ∃ f, datatypeNameOf x (.cname xsdUri "string".toList) [⟨"minLength".toList, "2".toList⟩, ⟨"maxLength".toList, "5".toList⟩] =
      .ok (.xsd (.string f)) ∧ f.minLen = some 2 ∧ f.maxLen = some 5 ∧ f.bounded = true ∧ f.regex = none :=
  fun _ => ⟨⟨.minMaxLength 2 5, none⟩, rfl, rfl, rfl, rfl, rfl⟩

end Verif
