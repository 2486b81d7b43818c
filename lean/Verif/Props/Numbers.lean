import Verif.Props.Datatype
/-
C26, C27: integer types and range facets.
-/
namespace Verif

/-! ### numerals -/

theorem digitsGo_number {max : Nat} {s : Str} {n : Nat} (hs : s ≠ []) :
    digitsGo 10 max s 0 = some n ↔ Number 10 decDigit s n ∧ n ≤ max := by
  have e10 : toDigit 10 = decDigit := funext toDigit_dec
  rw [digitsGo_iff (by omega) s 0 n (by omega), e10, number_iff]
  simp [hs]

theorem number_digit {s : Str} {n : Nat} (h : Number 10 decDigit s n) : ∀ c ∈ s, ∃ d, decDigit c = some d :=
  fun c hc => h.all c hc

theorem number_not_sign {s : Str} {n : Nat} {c : Char} {r : Str} (h : Number 10 decDigit s n) (e : s = c :: r)
    (hc : decDigit c = none) : False := by
  obtain ⟨d, hd⟩ := number_digit h c (by simp [e])
  rw [hc] at hd; cases hd

theorem parseU_iff {max : Nat} {s : Str} {n : Nat} : parseU 10 max s = some n ↔ UNumeral s n ∧ n ≤ max := by
  have hp : decDigit '+' = none := by decide
  unfold parseU
  split
  · constructor
    · intro h; cases h
    · rintro ⟨h, _⟩
      generalize hv : (n : Int) = v at h
      cases h with | plain h => exact absurd rfl h.ne_nil
  · constructor
    · intro h; cases h
    · rintro ⟨h, _⟩
      generalize hv : (n : Int) = v at h
      cases h with
      | plain h => exact (number_not_sign h rfl hp).elim
      | plus h => exact absurd rfl h.ne_nil
  · rename_i cs hcs
    rw [digitsGo_number (fun e => hcs (by rw [e]))]
    constructor
    · rintro ⟨h1, h2⟩; exact ⟨.plus h1, h2⟩
    · rintro ⟨h1, h2⟩
      refine ⟨?_, h2⟩
      generalize hv : (n : Int) = v at h1
      cases h1 with
      | plain h => exact (number_not_sign h rfl hp).elim
      | plus h => have := Int.ofNat.inj hv; subst this; exact h
  · rename_i h0 _ hplus
    rw [digitsGo_number (fun e => h0 e)]
    constructor
    · rintro ⟨h1, h2⟩; exact ⟨.plain h1, h2⟩
    · rintro ⟨h1, h2⟩
      refine ⟨?_, h2⟩
      generalize hv : (n : Int) = v at h1
      cases h1 with
      | plain h => have := Int.ofNat.inj hv; subst this; exact h
      | plus h => exact (hplus _ rfl).elim

theorem UNumeral.nonneg {s v} (h : UNumeral s v) : 0 ≤ v := by cases h <;> omega

theorem UNumeral.nat {s v} (h : UNumeral s v) : ∃ n : Nat, v = n := ⟨v.toNat, by have := h.nonneg; omega⟩

theorem parseUI_iff {max : Nat} {s : Str} {v : Int} : parseUI max s = some v ↔ UNumeral s v ∧ v ≤ max := by
  unfold parseUI
  rw [Option.map_eq_some_iff]
  constructor
  · rintro ⟨n, h, rfl⟩
    obtain ⟨h1, h2⟩ := parseU_iff.mp h
    exact ⟨h1, by omega⟩
  · rintro ⟨h1, h2⟩
    obtain ⟨n, rfl⟩ := h1.nat
    exact ⟨n, parseU_iff.mpr ⟨h1, by omega⟩, rfl⟩

theorem parseS_iff {min max : Nat} {s : Str} {v : Int} :
    parseS min max s = some v ↔ SNumeral s v ∧ -(min : Int) ≤ v ∧ v ≤ max := by
  have hp : decDigit '+' = none := by decide
  have hm : decDigit '-' = none := by decide
  have nat : ∀ (cs : Str), cs ≠ [] → (((digitsGo 10 max cs 0).map fun (n : Nat) => (n : Int)) = some v ↔
      ∃ n : Nat, v = (n : Int) ∧ Number 10 decDigit cs n ∧ n ≤ max) := by
    intro cs hcs
    rw [Option.map_eq_some_iff]
    constructor
    · rintro ⟨n, h, rfl⟩; exact ⟨n, rfl, (digitsGo_number hcs).mp h⟩
    · rintro ⟨n, rfl, h⟩; exact ⟨n, (digitsGo_number hcs).mpr h, rfl⟩
  unfold parseS
  split
  · constructor
    · intro h; cases h
    · rintro ⟨h, _⟩
      cases h with | unsigned h => cases h with | plain h => exact absurd rfl h.ne_nil
  · constructor
    · intro h; cases h
    · rintro ⟨h, _⟩
      cases h with
      | unsigned h => cases h with | plain h => exact (number_not_sign h rfl hm).elim
      | minus h => exact absurd rfl h.ne_nil
  · constructor
    · intro h; cases h
    · rintro ⟨h, _⟩
      cases h with
      | unsigned h => cases h with
        | plain h => exact (number_not_sign h rfl hp).elim
        | plus h => exact absurd rfl h.ne_nil
  · rename_i cs hcs
    rw [Option.map_eq_some_iff]
    have hcs' : cs ≠ [] := fun e => hcs (by rw [e])
    constructor
    · rintro ⟨n, h, rfl⟩
      obtain ⟨h1, h2⟩ := (digitsGo_number hcs').mp h
      exact ⟨.minus h1, by omega, by omega⟩
    · rintro ⟨h, h1, h2⟩
      cases h with
      | unsigned h => cases h with | plain h => exact (number_not_sign h rfl hm).elim
      | @minus _ n h => exact ⟨n, (digitsGo_number hcs').mpr ⟨h, by omega⟩, rfl⟩
  · rename_i cs hcs
    rw [nat cs fun e => hcs (by rw [e])]
    constructor
    · rintro ⟨n, rfl, h1, h2⟩; exact ⟨.unsigned (.plus h1), by omega, by omega⟩
    · rintro ⟨h, h1, h2⟩
      cases h with
      | unsigned h => cases h with
        | plain h => exact (number_not_sign h rfl hp).elim
        | @plus _ n h => exact ⟨n, rfl, h, by omega⟩
  · rename_i h0 _ _ hminus hplus
    rw [nat s fun e => h0 e]
    constructor
    · rintro ⟨n, rfl, h1, h2⟩; exact ⟨.unsigned (.plain h1), by omega, by omega⟩
    · rintro ⟨h, h1, h2⟩
      cases h with
      | unsigned h => cases h with
        | @plain _ n h => exact ⟨n, rfl, h, by omega⟩
        | plus h => exact (hplus _ rfl).elim
      | minus h => exact (hminus _ rfl).elim

theorem bigDigits_eq : ∀ (s : Str) (acc : Nat),
    bigDigits s acc = digitVal 10 (toDigit 10) (s.filter (· ≠ '_')) acc
  | [], acc => rfl
  | c :: s, acc => by
    by_cases hc : c = '_'
    · subst hc; simp [bigDigits, bigDigits_eq s acc]
    · simp only [bigDigits, List.filter_cons, ne_eq, hc, not_false_eq_true, decide_true, if_true, digitVal]
      cases toDigit 10 c with
      | none => rfl
      | some d => exact bigDigits_eq s _

theorem grouped_iff {s : Str} {n : Nat} : Grouped s n ↔ s ≠ [] ∧ s.head? ≠ some '_' ∧ bigDigits s 0 = some n := by
  have e10 : toDigit 10 = decDigit := funext toDigit_dec
  unfold Grouped
  rw [bigDigits_eq, number_iff, e10]
  constructor
  · rintro ⟨h1, h2, h3⟩
    exact ⟨fun e => h2 (by rw [e]; rfl), h1, h3⟩
  · rintro ⟨h1, h2, h3⟩
    refine ⟨h2, ?_, h3⟩
    cases s with
    | nil => exact absurd rfl h1
    | cons c s =>
      have : c ≠ '_' := fun e => h2 (by rw [e]; rfl)
      simp [this]

theorem parseBigUint_iff {s : Str} {n : Nat} : parseBigUint s = some n ↔ BigUNumeral s n := by
  have core : ∀ t : Str, bigUnsigned t = some n ↔ Grouped t n := by
    intro t
    rw [grouped_iff]
    unfold bigUnsigned
    split
    · simp
    · simp
    · rename_i h0 h1
      constructor
      · intro h
        refine ⟨fun e => h0 e, ?_, h⟩
        cases t with
        | nil => simp
        | cons c t => simp; rintro rfl; exact h1 t rfl
      · exact fun h => h.2.2
  have noplus : ∀ t, ¬ Grouped ('+' :: t) n := by
    rintro t ⟨_, h⟩
    have hp : decDigit '+' = none := by decide
    rw [List.filter_cons_of_pos (by decide)] at h
    exact number_not_sign h rfl hp
  unfold parseBigUint
  split
  · rename_i tail
    rw [core]
    split
    · rename_i ht
      constructor
      · exact fun h => (noplus _ h).elim
      · intro h
        generalize hv : (n : Int) = v at h
        cases h with
        | plain h => have := Int.ofNat.inj hv; subst this; exact h
        | plus h =>
          have := Int.ofNat.inj hv; subst this
          cases tail with
          | nil => simp at ht
          | cons c t => simp at ht; subst ht; exact (noplus _ h).elim
    · constructor
      · exact .plus
      · intro h
        generalize hv : (n : Int) = v at h
        cases h with
        | plain h => have := Int.ofNat.inj hv; subst this; exact (noplus _ h).elim
        | plus h => have := Int.ofNat.inj hv; subst this; exact h
  · rename_i hplus
    rw [core]
    constructor
    · exact .plain
    · intro h
      generalize hv : (n : Int) = v at h
      cases h with
      | plain h => have := Int.ofNat.inj hv; subst this; exact h
      | plus h => exact (hplus _ rfl).elim

theorem BigUNumeral.nat {s v} (h : BigUNumeral s v) : ∃ n : Nat, v = n := by cases h <;> exact ⟨_, rfl⟩

theorem parseBigUintI_iff {s : Str} {v : Int} : ((parseBigUint s).map fun (n : Nat) => (n : Int)) = some v ↔ BigUNumeral s v := by
  rw [Option.map_eq_some_iff]
  constructor
  · rintro ⟨n, h, rfl⟩; exact parseBigUint_iff.mp h
  · intro h
    obtain ⟨n, rfl⟩ := h.nat
    exact ⟨n, parseBigUint_iff.mpr h, rfl⟩

theorem parseBigInt_iff {s : Str} {v : Int} : parseBigInt s = some v ↔ BigNumeral s v := by
  have nosign : ∀ {c t n}, decDigit c = none → c ≠ '_' → ¬ Grouped (c :: t) n := by
    rintro c t n hc hu ⟨_, h⟩
    rw [List.filter_cons_of_pos (by simpa using hu)] at h
    exact number_not_sign h rfl hc
  have hm : ∀ {t v}, ¬ BigUNumeral ('-' :: t) v := by
    intro t v h
    cases h with | plain h => exact nosign (by decide) (by decide) h
  unfold parseBigInt
  split
  · rename_i tail
    rw [Option.map_eq_some_iff]
    constructor
    · rintro ⟨n, h, rfl⟩
      have h := parseBigUint_iff.mp h
      split at h
      · exact (hm h).elim
      · rename_i ht
        generalize hv : (n : Int) = v at h
        cases h with
        | plain h => have := Int.ofNat.inj hv; subst this; exact .minus h
        | plus h => simp at ht
    · intro h
      cases h with
      | unsigned h => exact (hm h).elim
      | @minus _ n h =>
        refine ⟨n, ?_, rfl⟩
        rw [parseBigUint_iff]
        split
        · rename_i ht
          cases tail with
          | nil => simp at ht
          | cons c t => simp at ht; subst ht; exact (nosign (by decide) (by decide) h).elim
        · exact .plain h
  · rename_i hminus
    rw [parseBigUintI_iff]
    constructor
    · exact .unsigned
    · intro h
      cases h with
      | unsigned h => exact h
      | minus h => exact (hminus _ rfl).elim

/-! ### range facets -/

section
variable {T : Type} [LE T] [LT T] [DecidableRel (α := T) (· ≤ ·)] [DecidableRel (α := T) (· < ·)]
variable {x : Ext} {parse : Str → Res FacetErr T}

/-- what a pattern facet that is still to come, or the one already there, requires -/
def patNow (x : Ext) (pat : Option PatternFacet) (ps : List Param) (s : Str) : Prop :=
  PatternsOk x ps s ∧ ((∀ p ∈ ps, p.name ≠ "pattern".toList) → patOk x pat s = true)

omit [LE T] [LT T] in
theorem patNow_nil {pat : Option PatternFacet} {s : Str} : patNow x pat [] s ↔ patOk x pat s = true := by
  unfold patNow PatternsOk
  constructor
  · intro h; exact h.2 (by simp)
  · intro h; exact ⟨fun a p b e => by simp at e, fun _ => h⟩

theorem patternsOk_cons {p : Param} {ps : List Param} {s : Str} : PatternsOk x (p :: ps) s ↔
    PatternsOk x ps s ∧ (p.name = "pattern".toList → (∀ q ∈ ps, q.name ≠ "pattern".toList) → x.reMatch p.value s = true) := by
  unfold PatternsOk
  constructor
  · intro h
    exact ⟨fun a q b e => h (p :: a) q b (by simp [e]), fun h1 h2 => h [] p ps rfl h1 h2⟩
  · rintro ⟨h1, h2⟩ a q b e h3 h4
    cases a with
    | nil => simp at e; obtain ⟨rfl, rfl⟩ := e; exact h2 h3 h4
    | cons c a => simp at e; exact h1 a q b e.2 h3 h4

theorem patNow_pattern {pat : Option PatternFacet} {p : Param} {ps : List Param} {s : Str} (hp : p.name = "pattern".toList) :
    patNow x (some p.value) ps s ↔ patNow x pat (p :: ps) s := by
  unfold patNow
  rw [patternsOk_cons]
  constructor
  · rintro ⟨h1, h2⟩
    exact ⟨⟨h1, fun _ h => h2 h⟩, fun h => absurd hp (h p (by simp))⟩
  · rintro ⟨⟨h1, h2⟩, _⟩
    exact ⟨h1, fun h => h2 hp h⟩

theorem patNow_other {pat : Option PatternFacet} {p : Param} {ps : List Param} {s : Str} (hp : p.name ≠ "pattern".toList) :
    patNow x pat ps s ↔ patNow x pat (p :: ps) s := by
  unfold patNow
  rw [patternsOk_cons]
  constructor
  · rintro ⟨h1, h2⟩
    exact ⟨⟨h1, fun e => absurd e hp⟩, fun h => h2 fun q hq => h q (List.mem_cons_of_mem _ hq)⟩
  · rintro ⟨⟨h1, _⟩, h2⟩
    exact ⟨h1, fun h => h2 (List.forall_mem_cons.mpr ⟨hp, h⟩)⟩

theorem MinMax.valid_min {f f' : MinMax T} {b v : T} (h : f.minInclusive b = .ok f') :
    f'.isValid v = true ↔ f.isValid v = true ∧ b ≤ v := by
  unfold MinMax.minInclusive at h
  split at h
  · cases h
  · split at h <;> cases h
    rename_i hm
    simp [MinMax.isValid, Bound.minValid, hm, and_comm]

theorem MinMax.valid_minEx {f f' : MinMax T} {b v : T} (h : f.minExclusive b = .ok f') :
    f'.isValid v = true ↔ f.isValid v = true ∧ b < v := by
  unfold MinMax.minExclusive at h
  split at h
  · cases h
  · split at h <;> cases h
    rename_i hm
    simp [MinMax.isValid, Bound.minValid, hm, and_comm]

theorem MinMax.valid_max {f f' : MinMax T} {b v : T} (h : f.maxInclusive b = .ok f') :
    f'.isValid v = true ↔ f.isValid v = true ∧ v ≤ b := by
  unfold MinMax.maxInclusive at h
  split at h
  · cases h
  · split at h <;> cases h
    rename_i hm
    simp [MinMax.isValid, Bound.maxValid, hm]

theorem MinMax.valid_maxEx {f f' : MinMax T} {b v : T} (h : f.maxExclusive b = .ok f') :
    f'.isValid v = true ↔ f.isValid v = true ∧ v < b := by
  unfold MinMax.maxExclusive at h
  split at h
  · cases h
  · split at h <;> cases h
    rename_i hm
    simp [MinMax.isValid, Bound.maxValid, hm]

theorem Res.bind_eq_ok {ε α β : Type} {r : Res ε α} {f : α → Res ε β} {b : β} :
    r.bind f = .ok b ↔ ∃ a, r = .ok a ∧ f a = .ok b := by
  cases r <;> simp

/-- the names of the facets differ -/
theorem facet_names : "minInclusive".toList ≠ "minExclusive".toList ∧ "minInclusive".toList ≠ "maxInclusive".toList ∧
    "minInclusive".toList ≠ "maxExclusive".toList ∧ "minInclusive".toList ≠ "pattern".toList ∧
    "minExclusive".toList ≠ "maxInclusive".toList ∧ "minExclusive".toList ≠ "maxExclusive".toList ∧
    "minExclusive".toList ≠ "pattern".toList ∧ "maxInclusive".toList ≠ "maxExclusive".toList ∧
    "maxInclusive".toList ≠ "pattern".toList ∧ "maxExclusive".toList ≠ "pattern".toList := by decide

/-- what one facet that was accepted does -/
inductive Effect (parse : Str → Res FacetErr T) (p : Param) (m m' : MinMax T) (pat pat' : Option PatternFacet) : Prop
  | minInc (b) : p.name = "minInclusive".toList → parse p.value = .ok b → m.minInclusive b = .ok m' → pat' = pat → Effect parse p m m' pat pat'
  | minEx (b) : p.name = "minExclusive".toList → parse p.value = .ok b → m.minExclusive b = .ok m' → pat' = pat → Effect parse p m m' pat pat'
  | maxInc (b) : p.name = "maxInclusive".toList → parse p.value = .ok b → m.maxInclusive b = .ok m' → pat' = pat → Effect parse p m m' pat pat'
  | maxEx (b) : p.name = "maxExclusive".toList → parse p.value = .ok b → m.maxExclusive b = .ok m' → pat' = pat → Effect parse p m m' pat pat'
  | pattern : p.name = "pattern".toList → m' = m → pat' = some p.value → Effect parse p m m' pat pat'

theorem numParams_cons {p : Param} {ps : List Param} {m : MinMax T} {pat : Option PatternFacet} {r}
    (h : numParams x parse m pat (p :: ps) = .ok r) :
    ∃ m1 pat1, Effect parse p m m1 pat pat1 ∧ numParams x parse m1 pat1 ps = .ok r := by
  rw [numParams] at h
  split at h
  · simp only [Res.bind_def, Res.bind_eq_ok] at h
    obtain ⟨b, h1, m1, h2, h3⟩ := h
    exact ⟨m1, pat, .minInc b ‹_› h1 h2 rfl, h3⟩
  split at h
  · simp only [Res.bind_def, Res.bind_eq_ok] at h
    obtain ⟨b, h1, m1, h2, h3⟩ := h
    exact ⟨m1, pat, .minEx b ‹_› h1 h2 rfl, h3⟩
  split at h
  · simp only [Res.bind_def, Res.bind_eq_ok] at h
    obtain ⟨b, h1, m1, h2, h3⟩ := h
    exact ⟨m1, pat, .maxInc b ‹_› h1 h2 rfl, h3⟩
  split at h
  · simp only [Res.bind_def, Res.bind_eq_ok] at h
    obtain ⟨b, h1, m1, h2, h3⟩ := h
    exact ⟨m1, pat, .maxEx b ‹_› h1 h2 rfl, h3⟩
  split at h
  · simp only [Res.bind_def, Res.bind_eq_ok] at h
    obtain ⟨b, h1, h3⟩ := h
    unfold mkPattern at h1
    split at h1 <;> cases h1
    exact ⟨m, some p.value, .pattern ‹_› rfl rfl, h3⟩
  · cases h

theorem Effect.range {p : Param} {m m' : MinMax T} {pat pat'} (h : Effect parse p m m' pat pat') (v : T) :
    m'.isValid v = true ↔ m.isValid v = true ∧ p.Range (fun s b => parse s = .ok b) v := by
  obtain ⟨n1, n2, n3, n4, n5, n6, n7, n8, n9, n10⟩ := facet_names
  unfold Param.Range
  cases h with
  | minInc b hn hb hm _ => rw [MinMax.valid_min hm]; simp only [hn, n1, n2, n3, hb]; simp
  | minEx b hn hb hm _ => rw [MinMax.valid_minEx hm]; simp only [hn, n1.symm, n5, n6, hb]; simp
  | maxInc b hn hb hm _ => rw [MinMax.valid_max hm]; simp only [hn, n2.symm, n5.symm, n8, hb]; simp
  | maxEx b hn hb hm _ => rw [MinMax.valid_maxEx hm]; simp only [hn, n3.symm, n6.symm, n8.symm, hb]; simp
  | pattern hn hm _ => rw [hm]; simp only [hn, n4.symm, n7.symm, n9.symm, n10.symm]; simp

theorem Effect.pat {p : Param} {m m' : MinMax T} {pat pat'} (h : Effect parse p m m' pat pat') (ps : List Param) (s : Str) :
    patNow x pat' ps s ↔ patNow x pat (p :: ps) s := by
  obtain ⟨n1, n2, n3, n4, n5, n6, n7, n8, n9, n10⟩ := facet_names
  cases h with
  | minInc b hn hb hm e => rw [e]; exact patNow_other (by rw [hn]; exact n4)
  | minEx b hn hb hm e => rw [e]; exact patNow_other (by rw [hn]; exact n7)
  | maxInc b hn hb hm e => rw [e]; exact patNow_other (by rw [hn]; exact n9)
  | maxEx b hn hb hm e => rw [e]; exact patNow_other (by rw [hn]; exact n10)
  | pattern hn hm e => rw [e]; exact patNow_pattern hn

theorem numParams_valid : ∀ {ps : List Param} {m m' : MinMax T} {pat pat' : Option PatternFacet},
    numParams x parse m pat ps = .ok (m', pat') → ∀ (v : T) (s : Str),
    (m'.isValid v = true ↔ m.isValid v = true ∧ ∀ p ∈ ps, p.Range (fun s b => parse s = .ok b) v) ∧
    (patOk x pat' s = true ↔ patNow x pat ps s)
  | [], m, m', pat, pat', h, v, s => by
    cases h
    exact ⟨by simp, patNow_nil.symm⟩
  | p :: ps, m, m', pat, pat', h, v, s => by
    obtain ⟨m1, pat1, he, h⟩ := numParams_cons h
    obtain ⟨i1, i2⟩ := numParams_valid h v s
    rw [i1, i2, he.range v, he.pat]
    simp [and_assoc]

end

theorem facetRes_ok {α : Type} {r : Res FacetErr α} {f : α → XsdDatatype} {d} (h : facetRes r f = .ok d) :
    ∃ a, r = .ok a ∧ d = f a := by
  cases r <;> simp [facetRes] at h
  exact ⟨_, rfl, h.symm⟩

/-- the code of one integer type: its parser and its constructor -/
structure IntCode (x : Ext) (name : Str) (Val : Str → Int → Prop) where
  parse : Str → Option Int
  make : MinMax Int → Option PatternFacet → XsdDatatype
  parse_iff : ∀ s v, parse s = some v ↔ Val s v
  compile : ∀ ps, xsdCompile x name ps =
    facetRes (numParams x (fun s => orErr .invalidInt (parse s)) {} none ps) fun r => make r.1 r.2
  valid : ∀ m p s, (make m p).isValid x s = some (numOk x (parse s) m p s)

theorem xsdUri_ne : xsdUri ≠ [] := by decide

theorem datatypeNameOf_xsd (x : Ext) (name : Str) (ps : List Param) :
    datatypeNameOf x (.cname xsdUri name) ps = (xsdCompile x name ps).mapBoth .xsd .xsd := by
  simp [datatypeNameOf, dtNameIn, xsdUri_ne, xsdNameOf]

theorem intType_code (x : Ext) {name Val} (h : IntType name Val) : Nonempty (IntCode x name Val) := by
  cases h with
  | short => exact ⟨⟨parseS 0x8000 0x7fff, .short, fun s v => by rw [parseS_iff]; simp, fun _ => rfl, fun _ _ _ => rfl⟩⟩
  | unsignedShort => exact ⟨⟨parseUI 0xffff, .unsignedShort, fun s v => by rw [parseUI_iff]; simp, fun _ => rfl, fun _ _ _ => rfl⟩⟩
  | int => exact ⟨⟨parseS 0x80000000 0x7fffffff, .int, fun s v => by rw [parseS_iff]; simp, fun _ => rfl, fun _ _ _ => rfl⟩⟩
  | unsignedInt => exact ⟨⟨parseUI 0xffffffff, .unsignedInt, fun s v => by rw [parseUI_iff]; simp, fun _ => rfl, fun _ _ _ => rfl⟩⟩
  | long => exact ⟨⟨parseS 0x8000000000000000 0x7fffffffffffffff, .long, fun s v => by rw [parseS_iff]; simp, fun _ => rfl, fun _ _ _ => rfl⟩⟩
  | unsignedLong => exact ⟨⟨parseUI 0xffffffffffffffff, .unsignedLong, fun s v => by rw [parseUI_iff]; simp, fun _ => rfl, fun _ _ _ => rfl⟩⟩
  | integer => exact ⟨⟨parseBigInt, .integer, fun s v => parseBigInt_iff, fun _ => rfl, fun _ _ _ => rfl⟩⟩
  | positiveInteger => exact ⟨⟨fun s => (parseBigUint s).map fun (n : Nat) => (n : Int), .positiveInteger, fun s v => parseBigUintI_iff, fun _ => rfl, fun _ _ _ => rfl⟩⟩

theorem orErr_ok {α : Type} {e : FacetErr} {o : Option α} {a : α} : orErr e o = .ok a ↔ o = some a := by
  cases o <;> simp [orErr]

theorem mapBoth_ok {ε ε' α β : Type} {r : Res ε α} {f : α → β} {g : ε → ε'} {b : β} :
    r.mapBoth f g = .ok b ↔ ∃ a, r = .ok a ∧ b = f a := by
  cases r <;> simp [Res.mapBoth, eq_comm]

theorem numOk_iff {T : Type} [LE T] [LT T] [DecidableRel (α := T) (· ≤ ·)] [DecidableRel (α := T) (· < ·)] {x : Ext}
    {v : Option T} {m : MinMax T} {p : Option PatternFacet} {s : Str} :
    numOk x v m p s = true ↔ (∃ a, v = some a ∧ m.isValid a = true) ∧ patOk x p s = true := by
  unfold numOk
  cases v <;> simp

/-- C27.  An integer type with parameters accepts exactly the type's numerals whose value lies within every
bound, and that match the last pattern if there is one. -/
theorem C27_integer_range_facets (x : Ext) {name : Str} {Val : Str → Int → Prop} (ht : IntType name Val) {ps : List Param}
    {d : Datatypes} (h : datatypeNameOf x (.cname xsdUri name) ps = .ok d) (s : Str) :
    (stdLib x).validD d s = some true ↔ (∃ v, Val s v ∧ ∀ p ∈ ps, p.Range Val v) ∧ PatternsOk x ps s := by
  obtain ⟨c⟩ := intType_code x ht
  rw [datatypeNameOf_xsd, c.compile, mapBoth_ok] at h
  obtain ⟨a, h, rfl⟩ := h
  obtain ⟨⟨m, pat⟩, hn, rfl⟩ := facetRes_ok h
  show (c.make m pat).isValid x s = some true ↔ _
  rw [c.valid, Option.some.injEq, numOk_iff]
  have hv := fun v => (numParams_valid hn v s).1
  have hp := (numParams_valid hn 0 s).2
  have hr : (fun (s : Str) (b : Int) => orErr FacetErr.invalidInt (c.parse s) = .ok b) = Val := by
    funext s b; rw [orErr_ok, eq_iff_iff]; exact c.parse_iff s b
  rw [hr] at hv
  simp only [hp, hv]
  have e0 : ∀ v : Int, ({} : MinMax Int).isValid v = true := fun _ => rfl
  simp only [e0, true_and]
  have hpn : patNow x none ps s ↔ PatternsOk x ps s := by simp [patNow, patOk]
  rw [hpn]
  simp only [c.parse_iff]

/-- C26.  Without parameters an integer type is always usable and accepts exactly its numerals. -/
theorem C26_integer_types (x : Ext) {name : Str} {Val : Str → Int → Prop} (ht : IntType name Val) :
    ∃ d, datatypeNameOf x (.cname xsdUri name) [] = .ok d ∧ ∀ s,
      ((stdLib x).validD d s = some true ↔ ∃ v, Val s v) ∧ ((stdLib x).validD d s = some false ↔ ¬ ∃ v, Val s v) := by
  obtain ⟨c⟩ := intType_code x ht
  have hd : datatypeNameOf x (.cname xsdUri name) [] = .ok (.xsd (c.make {} none)) := by
    rw [datatypeNameOf_xsd, c.compile]; rfl
  refine ⟨_, hd, fun s => ?_⟩
  have h1 : (stdLib x).validD (.xsd (c.make {} none)) s = some true ↔ ∃ v, Val s v := by
    rw [C27_integer_range_facets x ht hd s]
    simp [PatternsOk]
  refine ⟨h1, ?_⟩
  rw [← h1]
  show (c.make {} none).isValid x s = some false ↔ ¬ (c.make {} none).isValid x s = some true
  rw [c.valid]
  cases numOk x (c.parse s) {} none s <;> simp

/-- the values are determined by the numeral -/
theorem C26_value_unique {name : Str} {Val : Str → Int → Prop} (ht : IntType name Val) {s : Str} {v w : Int}
    (h1 : Val s v) (h2 : Val s w) : v = w := by
  obtain ⟨c⟩ := intType_code ⟨fun _ => false, fun _ _ => false, fun _ => none, fun _ => none, fun _ => false, fun _ => false, fun _ => false⟩ ht
  have := ((c.parse_iff s v).mpr h1).symm.trans ((c.parse_iff s w).mpr h2)
  simpa using this

/-- Beyond XML Schema: underscores inside the digits of `integer` are ignored. -/
theorem C26_integer_accepts_underscores : BigNumeral "1_000".toList 1000 :=
  parseBigInt_iff.mp (by decide)

/-- Beyond XML Schema: `positiveInteger` accepts zero. -/
theorem C26_positiveInteger_accepts_zero : BigUNumeral "0".toList 0 :=
  parseBigUintI_iff.mp (by decide)

/-- `byte` (like every name not in the list) is reported as unsupported when the schema is compiled. -/
theorem C26_byte_unsupported (x : Ext) (ps : List Param) :
    datatypeNameOf x (.cname xsdUri "byte".toList) ps = .err (.xsd .unsupported) := rfl

example : SNumeral "-32768".toList (-32768) := (parseS_iff (min := 0x8000) (max := 0x7fff)).mp (by decide) |>.1

end Verif
