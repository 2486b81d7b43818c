import Verif.Props.Lexical
/-
C52: which datatypes can make the program panic.
-/
namespace Verif

theorem qnameVal_cases (s : Str) :
    (qnameVal s = .panic ↔ Prefixed s) ∧ (qnameVal s = .ok s ↔ NCName s) ∧ (∀ r, qnameVal s = .ok r → r = s) := by
  unfold qnameVal
  cases h : splitAtChar ':' s with
  | none =>
    have hc := splitAtChar_none.mp h
    have np : ¬ Prefixed s := by rintro ⟨p, l, rfl, _⟩; exact hc (by simp)
    by_cases hn : isValidNcname s = true
    · simp [hn, np, (isValidNcname_iff s).mp hn]
    · have hns : ¬ NCName s := fun hs => hn ((isValidNcname_iff s).mpr hs)
      simp [hn, np, hns]
  | some r =>
    obtain ⟨pre, loc⟩ := r
    obtain ⟨rfl, hp⟩ := splitAtChar_some h
    have nn : ¬ NCName (pre ++ ':' :: loc) := fun hs => ncname_no_colon hs (by simp)
    by_cases hv : (isValidNcname pre && isValidNcname loc) = true
    · simp only [hv, if_true, nn]
      rw [Bool.and_eq_true, isValidNcname_iff, isValidNcname_iff] at hv
      simp only [reduceCtorEq, false_implies, implies_true, and_true, true_iff]
      exact ⟨pre, loc, rfl, hv⟩
    · have np : ¬ Prefixed (pre ++ ':' :: loc) := by
        rintro ⟨p, l, e, h1, h2⟩
        have hsp : ∀ {p l : Str}, ':' ∉ p → splitAtChar ':' (p ++ ':' :: l) = some (p, l) := by
          intro p l hp
          induction p with
          | nil => simp [splitAtChar]
          | cons c p ih =>
            simp only [List.mem_cons, not_or] at hp
            simp only [List.cons_append, splitAtChar]
            rw [if_neg (by simpa [eq_comm] using hp.1), ih hp.2]
        rw [e, hsp (ncname_no_colon h1)] at h
        cases h
        apply hv
        rw [Bool.and_eq_true, isValidNcname_iff, isValidNcname_iff]
        exact ⟨h1, h2⟩
      simp [hv, nn, np]

/-- what is to be shown of each branch of the table of types -/
def Answers (x : Ext) (name : Str) (r : Res XsdErr XsdDatatype) : Prop :=
  ∀ d, r = .ok d → ∀ s, d.isValid x s = none ↔ Unwritten name

theorem answers_ite {x : Ext} {name n : Str} {a b : Res XsdErr XsdDatatype} (h1 : name = n → Answers x name a) (h2 : Answers x name b) :
    Answers x name (if name = n then a else b) := by
  split
  · exact h1 ‹_›
  · exact h2

theorem answers_facet {x : Ext} {name : Str} {α : Type} {r : Res FacetErr α} {f : α → XsdDatatype} (hn : ¬ Unwritten name)
    (hf : ∀ a s, (f a).isValid x s ≠ none) : Answers x name (facetRes r f) := by
  intro d h s
  obtain ⟨a, _, rfl⟩ := facetRes_ok h
  exact ⟨fun e => absurd e (hf a s), fun e => absurd e hn⟩

theorem answers_unwritten {x : Ext} {name : Str} {α : Type} {r : Res FacetErr α} {f : α → XsdDatatype} (hn : Unwritten name)
    (hf : ∀ a s, (f a).isValid x s = none) : Answers x name (facetRes r f) := by
  intro d h s
  obtain ⟨a, _, rfl⟩ := facetRes_ok h
  exact ⟨fun _ => hn, fun _ => hf a s⟩

theorem written {name n : Str} (h : n ≠ "NMTOKEN".toList ∧ n ≠ "NMTOKENS".toList ∧ n ≠ "token".toList) (e : name = n) : ¬ Unwritten name := by
  rw [e]; rintro (h' | h' | h')
  · exact h.1 h'
  · exact h.2.1 h'
  · exact h.2.2 h'

theorem xsd_isValid_none (x : Ext) {name : Str} {ps : List Param} {d : XsdDatatype} (h : xsdCompile x name ps = .ok d) (s : Str) :
    d.isValid x s = none ↔ Unwritten name := by
  refine (?_ : Answers x name (xsdCompile x name ps)) d h s
  have ok : ∀ {α : Type} {r : Res FacetErr α} {f : α → XsdDatatype} {n : Str},
      (n ≠ "NMTOKEN".toList ∧ n ≠ "NMTOKENS".toList ∧ n ≠ "token".toList) → (∀ a s, (f a).isValid x s ≠ none) →
      name = n → Answers x name (facetRes r f) := fun h1 h2 e => answers_facet (written h1 e) h2
  unfold xsdCompile
  refine answers_ite (ok (by decide) fun _ _ => Option.some_ne_none _) ?_
  refine answers_ite (ok (by decide) fun _ _ => Option.some_ne_none _) ?_
  refine answers_ite (ok (by decide) fun _ _ => Option.some_ne_none _) ?_
  refine answers_ite (ok (by decide) fun _ _ => Option.some_ne_none _) ?_
  refine answers_ite (ok (by decide) fun _ _ => Option.some_ne_none _) ?_
  refine answers_ite (ok (by decide) fun _ _ => Option.some_ne_none _) ?_
  refine answers_ite (ok (by decide) fun _ _ => Option.some_ne_none _) ?_
  refine answers_ite (ok (by decide) fun _ _ => Option.some_ne_none _) ?_
  refine answers_ite (ok (by decide) fun _ _ => Option.some_ne_none _) ?_
  refine answers_ite (ok (by decide) fun _ _ => Option.some_ne_none _) ?_
  refine answers_ite (fun e => answers_unwritten (Or.inr (Or.inl e)) fun _ _ => rfl) ?_
  refine answers_ite (fun e => answers_unwritten (Or.inl e) fun _ _ => rfl) ?_
  refine answers_ite (ok (by decide) fun _ _ => Option.some_ne_none _) ?_
  refine answers_ite (fun e => answers_unwritten (Or.inr (Or.inr e)) fun _ _ => rfl) ?_
  refine answers_ite (ok (by decide) fun _ _ => Option.some_ne_none _) ?_
  refine answers_ite (ok (by decide) fun _ _ => Option.some_ne_none _) ?_
  refine answers_ite (ok (by decide) fun _ _ => Option.some_ne_none _) ?_
  refine answers_ite (ok (by decide) fun _ _ => Option.some_ne_none _) ?_
  refine answers_ite (ok (by decide) fun _ _ => Option.some_ne_none _) ?_
  refine answers_ite (ok (by decide) fun _ _ => Option.some_ne_none _) ?_
  refine answers_ite (ok (by decide) fun _ _ => Option.some_ne_none _) ?_
  refine answers_ite (ok (by decide) fun _ _ => Option.some_ne_none _) ?_
  refine answers_ite (ok (by decide) fun _ _ => Option.some_ne_none _) ?_
  refine answers_ite (ok (by decide) fun _ _ => Option.some_ne_none _) ?_
  intro d h; cases h

/-- C52.  A compiled datatype answers for every string, except the three xsd types without a check, which panic. -/
theorem C52_data_panics_iff (x : Ext) {n : DtName} {ps : List Param} {d : Datatypes} (h : datatypeNameOf x n ps = .ok d) (s : Str) :
    (stdLib x).validD d s = none ↔ ∃ name, n = .cname xsdUri name ∧ Unwritten name := by
  have relax : ∀ {n ps}, (relaxName n ps).mapBoth Datatypes.relax DtErr.relax = .ok d → (stdLib x).validD d s ≠ none := by
    intro n ps h
    obtain ⟨a, _, rfl⟩ := mapBoth_ok.mp h
    simp [stdLib, Datatypes.isValid]
  cases n with
  | string => exact ⟨fun e => absurd e (relax h), fun ⟨_, e, _⟩ => by cases e⟩
  | token => exact ⟨fun e => absurd e (relax h), fun ⟨_, e, _⟩ => by cases e⟩
  | cname uri name =>
    simp only [datatypeNameOf, dtNameIn] at h
    split at h
    · rename_i hu
      refine ⟨fun e => absurd e (relax h), fun ⟨_, e, _⟩ => ?_⟩
      cases e; exact absurd hu xsdUri_ne
    · split at h
      · rename_i hu
        subst hu
        obtain ⟨a, ha, rfl⟩ := mapBoth_ok.mp h
        have := xsd_isValid_none x ha s
        show a.isValid x s = none ↔ _
        rw [this]
        constructor
        · exact fun h => ⟨name, rfl, h⟩
        · rintro ⟨_, e, h⟩; cases e; exact h
      · cases h
  | namespaced uri name =>
    simp only [datatypeNameOf, dtNameIn] at h
    split at h
    · exact ⟨fun e => absurd e (relax h), fun ⟨_, e, _⟩ => by cases e⟩
    · split at h
      · simp [xsdNameOf, Res.mapBoth] at h
      · cases h

/-- C52.  A compiled value answers for every string, except an xsd:QName compared with a prefixed name, which panics. -/
theorem C52_value_panics_iff (x : Ext) {n : DtName} {v : Str} {d : DatatypeValues} (h : datatypeValueOf n v = .ok d) (s : Str) :
    (stdLib x).validV d s = none ↔ n = .cname xsdUri "QName".toList ∧ Prefixed s := by
  have relax : ∀ {n : DtName} {v : Str}, (relaxValue n v).mapBoth DatatypeValues.relax DtErr.relax = .ok d → (stdLib x).validV d s ≠ none := by
    intro n v h
    obtain ⟨a, _, rfl⟩ := mapBoth_ok.mp h
    simp [stdLib, DatatypeValues.isValid]
  cases n with
  | string => exact ⟨fun e => absurd e (relax (n := .string) (v := v) h), fun ⟨e, _⟩ => by cases e⟩
  | token => exact ⟨fun e => absurd e (relax (n := .token) (v := v) h), fun ⟨e, _⟩ => by cases e⟩
  | cname uri name =>
    simp only [datatypeValueOf, dtValueIn] at h
    split at h
    · rename_i hu
      refine ⟨fun e => absurd e (relax h), fun ⟨e, _⟩ => ?_⟩
      cases e; exact absurd hu xsdUri_ne
    · split at h
      · rename_i hu
        subst hu
        obtain ⟨a, ha, rfl⟩ := mapBoth_ok.mp h
        clear h
        have h := ha
        show a.isValid s = none ↔ _
        simp only [xsdValueOf, xsdCompileValue] at h
        have key : ∀ {m : Str}, m ≠ "QName".toList → ¬ (DtName.cname xsdUri m = .cname xsdUri "QName".toList ∧ Prefixed s) := by
          rintro m hm ⟨e, _⟩; cases e; exact hm rfl
        split at h
        · rename_i hn; cases h; subst hn; exact ⟨fun e => (by cases e), fun e => absurd e (key (by decide))⟩
        split at h
        · rename_i hn; cases h; subst hn; exact ⟨fun e => (by cases e), fun e => absurd e (key (by decide))⟩
        split at h
        · rename_i hn
          split at h <;> cases h
          subst hn
          simp only [XsdValue.isValid, true_and]
          have := (qnameVal_cases s).1
          cases hq : qnameVal s <;> simp_all
        · cases h
      · cases h
  | namespaced uri name =>
    simp only [datatypeValueOf, dtValueIn] at h
    split at h
    · exact ⟨fun e => absurd e (relax h), fun ⟨e, _⟩ => by cases e⟩
    · split at h
      · simp [xsdValueOf, Res.mapBoth] at h
      · cases h

/-- C52.  When compiling a value panics: another xsd type than string, token and QName, or a prefixed QName. -/
theorem C52_compile_value_panics_iff {uri name v : Str} : datatypeValueOf (.cname uri name) v = .panic ↔
    uri = xsdUri ∧ name ≠ "string".toList ∧ name ≠ "token".toList ∧ (name = "QName".toList → Prefixed v) := by
  have relax : ∀ {n v}, (relaxValue n v).mapBoth DatatypeValues.relax DtErr.relax ≠ .panic := by
    intro n v h
    cases n <;> simp only [relaxValue] at h
    · cases h
    · cases h
    · split at h
      · cases h
      · split at h <;> cases h
    · cases h
  simp only [datatypeValueOf, dtValueIn]
  split
  · rename_i hu
    exact ⟨fun h => absurd h relax, fun ⟨h, _⟩ => absurd (hu.symm.trans h).symm xsdUri_ne⟩
  · split
    · rename_i hu
      subst hu
      simp only [xsdValueOf, xsdCompileValue, true_and]
      have hq := (qnameVal_cases v).1
      split
      · rename_i hn; simp [Res.mapBoth, hn]
      · rename_i h1
        split
        · rename_i hn; simp [Res.mapBoth, hn]
        · rename_i h2
          split
          · rename_i hn
            rw [← hq]
            cases e : qnameVal v with
            | ok r => simp [Res.mapBoth, hn]
            | err r => simp [Res.mapBoth, hn]
            | panic => exact ⟨fun _ => ⟨h1, h2, fun _ => rfl⟩, fun _ => rfl⟩
          · rename_i h3; exact ⟨fun _ => ⟨h1, h2, fun h => absurd h h3⟩, fun _ => rfl⟩
    · rename_i hu
      exact ⟨fun h => (by cases h), fun ⟨h, _⟩ => absurd h hu⟩

/-- a value of type xsd:integer in a schema panics when the schema is compiled -/
theorem C52_integer_value_panics : datatypeValueOf (.cname xsdUri "integer".toList) "1".toList = .panic :=
  C52_compile_value_panics_iff.mpr ⟨rfl, by decide, by decide, fun h => absurd h (by decide)⟩

example (x : Ext) : ∃ d, datatypeNameOf x (.cname xsdUri "NMTOKEN".toList) [] = .ok d ∧ (stdLib x).validD d "a".toList = none := ⟨_, rfl, rfl⟩
example (x : Ext) : ∃ d, datatypeValueOf (.cname xsdUri "QName".toList) "a".toList = .ok d ∧ (stdLib x).validV d "p:a".toList = none :=
  ⟨_, rfl, (C52_value_panics_iff x (n := .cname xsdUri "QName".toList) (v := "a".toList) rfl _).mpr
    ⟨rfl, "p".toList, "a".toList, rfl, (isValidNcname_iff _).mp (by decide), (isValidNcname_iff _).mp (by decide)⟩⟩

end Verif
