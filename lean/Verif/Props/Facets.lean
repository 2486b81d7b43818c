import Verif.Props.Numbers
/-
C27: range facets, their combinations and their errors.
-/
namespace Verif

/-- a linear order, by its laws -/
structure Linear (T : Type) [LE T] [LT T] : Prop where
  lt_iff : ∀ a b : T, a < b ↔ ¬ b ≤ a
  trans : ∀ a b c : T, a ≤ b → b ≤ c → a ≤ c
  total : ∀ a b : T, a ≤ b ∨ b ≤ a

theorem linear_int : Linear Int := ⟨by omega, by omega, by omega⟩
theorem linear_rat : Linear Rat :=
  ⟨fun _ _ => Rat.not_le.symm, fun _ _ _ h1 h2 => Rat.le_trans h1 h2, fun _ _ => Rat.le_total⟩

section
variable {T : Type} [LE T] [LT T] [DecidableRel (α := T) (· ≤ ·)] [DecidableRel (α := T) (· < ·)]
variable {x : Ext} {parse : Str → Res FacetErr T}

/-- the bound of a `Bound`, if it has one -/
def Bound.val? : Bound T → Option T
  | .unbounded => none
  | .inclusive v => some v
  | .exclusive v => some v

/-- the two bounds of a `MinMax` are in order -/
def MinMax.Ordered (m : MinMax T) : Prop := ∀ a b, m.min.val? = some a → m.max.val? = some b → a ≤ b

theorem Effect.isLower {p : Param} {m m' : MinMax T} {pat pat'} (h : Effect parse p m m' pat pat') :
    (p.isLower = true → m.min = .unbounded ∧ ∃ b, parse p.value = .ok b ∧ m'.min.val? = some b) ∧
    (p.isLower = false → m'.min = m.min) := by
  have hmin : ∀ {b}, m.minInclusive b = .ok m' → m.min = .unbounded ∧ m'.min.val? = some b := by
    intro b h; unfold MinMax.minInclusive at h
    split at h
    · cases h
    · split at h <;> cases h
      exact ⟨‹_›, rfl⟩
  have hminx : ∀ {b}, m.minExclusive b = .ok m' → m.min = .unbounded ∧ m'.min.val? = some b := by
    intro b h; unfold MinMax.minExclusive at h
    split at h
    · cases h
    · split at h <;> cases h
      exact ⟨‹_›, rfl⟩
  have hmax : ∀ {b}, m.maxInclusive b = .ok m' → m'.min = m.min := by
    intro b h; unfold MinMax.maxInclusive at h
    split at h
    · cases h
    · split at h <;> cases h
      rfl
  have hmaxx : ∀ {b}, m.maxExclusive b = .ok m' → m'.min = m.min := by
    intro b h; unfold MinMax.maxExclusive at h
    split at h
    · cases h
    · split at h <;> cases h
      rfl
  cases h with
  | minInc b hn hb hm _ =>
    exact ⟨fun _ => ⟨(hmin hm).1, b, hb, (hmin hm).2⟩, fun h => by simp [Param.isLower, hn] at h⟩
  | minEx b hn hb hm _ =>
    exact ⟨fun _ => ⟨(hminx hm).1, b, hb, (hminx hm).2⟩, fun h => by simp [Param.isLower, hn] at h⟩
  | maxInc b hn hb hm _ => exact ⟨fun h => by simp [Param.isLower, hn] at h, fun _ => hmax hm⟩
  | maxEx b hn hb hm _ => exact ⟨fun h => by simp [Param.isLower, hn] at h, fun _ => hmaxx hm⟩
  | pattern hn hm _ => exact ⟨fun h => by simp [Param.isLower, hn] at h, fun _ => by rw [hm]⟩

theorem Effect.isUpper {p : Param} {m m' : MinMax T} {pat pat'} (h : Effect parse p m m' pat pat') :
    (p.isUpper = true → m.max = .unbounded ∧ ∃ b, parse p.value = .ok b ∧ m'.max.val? = some b) ∧
    (p.isUpper = false → m'.max = m.max) := by
  have hmin : ∀ {b}, m.minInclusive b = .ok m' → m'.max = m.max := by
    intro b h; unfold MinMax.minInclusive at h
    split at h
    · cases h
    · split at h <;> cases h
      rfl
  have hminx : ∀ {b}, m.minExclusive b = .ok m' → m'.max = m.max := by
    intro b h; unfold MinMax.minExclusive at h
    split at h
    · cases h
    · split at h <;> cases h
      rfl
  have hmax : ∀ {b}, m.maxInclusive b = .ok m' → m.max = .unbounded ∧ m'.max.val? = some b := by
    intro b h; unfold MinMax.maxInclusive at h
    split at h
    · cases h
    · split at h <;> cases h
      exact ⟨‹_›, rfl⟩
  have hmaxx : ∀ {b}, m.maxExclusive b = .ok m' → m.max = .unbounded ∧ m'.max.val? = some b := by
    intro b h; unfold MinMax.maxExclusive at h
    split at h
    · cases h
    · split at h <;> cases h
      exact ⟨‹_›, rfl⟩
  cases h with
  | minInc b hn hb hm _ => exact ⟨fun h => by simp [Param.isUpper, hn] at h, fun _ => hmin hm⟩
  | minEx b hn hb hm _ => exact ⟨fun h => by simp [Param.isUpper, hn] at h, fun _ => hminx hm⟩
  | maxInc b hn hb hm _ =>
    exact ⟨fun _ => ⟨(hmax hm).1, b, hb, (hmax hm).2⟩, fun h => by simp [Param.isUpper, hn] at h⟩
  | maxEx b hn hb hm _ =>
    exact ⟨fun _ => ⟨(hmaxx hm).1, b, hb, (hmaxx hm).2⟩, fun h => by simp [Param.isUpper, hn] at h⟩
  | pattern hn hm _ => exact ⟨fun h => by simp [Param.isUpper, hn] at h, fun _ => by rw [hm]⟩

theorem Effect.ordered (lin : Linear T) {p : Param} {m m' : MinMax T} {pat pat'} (h : Effect parse p m m' pat pat')
    (ho : m.Ordered) : m'.Ordered := by
  have nlt : ∀ {a b : T}, ¬ a < b → b ≤ a := fun {a b} h => by
    rcases lin.total b a with h1 | h1
    · exact h1
    · exact Classical.byContradiction fun h2 => h ((lin.lt_iff a b).mpr h2)
  have nle : ∀ {a b : T}, ¬ a ≤ b → b ≤ a := fun {a b} h => (lin.total b a).resolve_right h
  have hmin : ∀ {b}, m.minConflict b = false → ∀ c, m.max.val? = some c → b ≤ c := by
    intro b h c hc
    unfold MinMax.minConflict at h
    split at h <;> rename_i e <;> rw [e] at hc <;> simp [Bound.val?] at hc
    · subst hc; exact nlt (by simpa using h)
    · subst hc; exact nle (by simpa using h)
  have hmax : ∀ {b}, m.maxConflict b = false → ∀ c, m.min.val? = some c → c ≤ b := by
    intro b h c hc
    unfold MinMax.maxConflict at h
    split at h <;> rename_i e <;> rw [e] at hc <;> simp [Bound.val?] at hc
    · subst hc; exact nlt (by simpa using h)
    · subst hc; exact nle (by simpa using h)
  cases h with
  | minInc b hn hb hm _ =>
    unfold MinMax.minInclusive at hm
    split at hm
    · cases hm
    · rename_i hc
      split at hm <;> cases hm
      intro a c h1 h2; cases h1; exact hmin (by simpa using hc) c h2
  | minEx b hn hb hm _ =>
    unfold MinMax.minExclusive at hm
    split at hm
    · cases hm
    · rename_i hc
      split at hm <;> cases hm
      intro a c h1 h2; cases h1; exact hmin (by simpa using hc) c h2
  | maxInc b hn hb hm _ =>
    unfold MinMax.maxInclusive at hm
    split at hm
    · cases hm
    · rename_i hc
      split at hm <;> cases hm
      intro a c h1 h2; cases h2; exact hmax (by simpa using hc) a h1
  | maxEx b hn hb hm _ =>
    unfold MinMax.maxExclusive at hm
    split at hm
    · cases hm
    · rename_i hc
      split at hm <;> cases hm
      intro a c h1 h2; cases h2; exact hmax (by simpa using hc) a h1
  | pattern hn hm _ => rw [hm]; exact ho

theorem numParams_bounds (lin : Linear T) : ∀ {ps : List Param} {m m' : MinMax T} {pat pat' : Option PatternFacet},
    numParams x parse m pat ps = .ok (m', pat') → m.Ordered →
    m'.Ordered ∧
    (ps.countP Param.isLower ≤ 1 ∧ (m.min ≠ .unbounded → ps.countP Param.isLower = 0 ∧ m'.min = m.min)) ∧
    (ps.countP Param.isUpper ≤ 1 ∧ (m.max ≠ .unbounded → ps.countP Param.isUpper = 0 ∧ m'.max = m.max)) ∧
    (∀ p ∈ ps, p.isLower = true → ∃ b, parse p.value = .ok b ∧ m'.min.val? = some b) ∧
    (∀ p ∈ ps, p.isUpper = true → ∃ b, parse p.value = .ok b ∧ m'.max.val? = some b)
  | [], m, m', pat, pat', h, ho => by
    cases h
    simp [ho]
  | p :: ps, m, m', pat, pat', h, ho => by
    obtain ⟨m1, pat1, he, h⟩ := numParams_cons h
    obtain ⟨i1, ⟨i2, i3⟩, ⟨i4, i5⟩, i6, i7⟩ := numParams_bounds lin h (he.ordered lin ho)
    have hl := he.isLower
    have hu := he.isUpper
    refine ⟨i1, ?_, ?_, ?_, ?_⟩
    · cases e : p.isLower with
      | true =>
        obtain ⟨h1, b, h2, h3⟩ := hl.1 e
        have : m1.min ≠ .unbounded := fun e => by rw [e] at h3; cases h3
        simp [e, (i3 this).1, h1]
      | false =>
        simp only [List.countP_cons, e, Bool.false_eq_true, if_false, Nat.add_zero]
        exact ⟨i2, by rw [← hl.2 e]; exact i3⟩
    · cases e : p.isUpper with
      | true =>
        obtain ⟨h1, b, h2, h3⟩ := hu.1 e
        have : m1.max ≠ .unbounded := fun e => by rw [e] at h3; cases h3
        simp [e, (i5 this).1, h1]
      | false =>
        simp only [List.countP_cons, e, Bool.false_eq_true, if_false, Nat.add_zero]
        exact ⟨i4, by rw [← hu.2 e]; exact i5⟩
    · rw [List.forall_mem_cons]
      refine ⟨fun e => ?_, i6⟩
      obtain ⟨h1, b, h2, h3⟩ := hl.1 e
      have : m1.min ≠ .unbounded := fun e => by rw [e] at h3; cases h3
      exact ⟨b, h2, by rw [(i3 this).2]; exact h3⟩
    · rw [List.forall_mem_cons]
      refine ⟨fun e => ?_, i7⟩
      obtain ⟨h1, b, h2, h3⟩ := hu.1 e
      have : m1.max ≠ .unbounded := fun e => by rw [e] at h3; cases h3
      exact ⟨b, h2, by rw [(i5 this).2]; exact h3⟩

theorem not_minConflict (lin : Linear T) {m : MinMax T} {b v : T} (hv : m.isValid v = true) (h : b ≤ v) : m.minConflict b = false := by
  have hv : m.max.maxValid v = true := by unfold MinMax.isValid at hv; simp at hv; exact hv.2
  unfold MinMax.minConflict
  unfold Bound.maxValid at hv
  split at hv
  · rfl
  · rename_i c _
    have hc : v ≤ c := by simpa using hv
    simp only [decide_eq_false_iff_not, lin.lt_iff, Classical.not_not]
    exact lin.trans _ _ _ h hc
  · rename_i c _
    have hc : v < c := by simpa using hv
    simp only [decide_eq_false_iff_not]
    intro hcb
    exact (lin.lt_iff _ _).mp hc (lin.trans _ _ _ hcb h)

theorem not_maxConflict (lin : Linear T) {m : MinMax T} {b v : T} (hv : m.isValid v = true) (h : v ≤ b) : m.maxConflict b = false := by
  have hv : m.min.minValid v = true := by unfold MinMax.isValid at hv; simp at hv; exact hv.1
  unfold MinMax.maxConflict
  unfold Bound.minValid at hv
  split at hv
  · rfl
  · rename_i c _
    have hc : c ≤ v := by simpa using hv
    simp only [decide_eq_false_iff_not, lin.lt_iff, Classical.not_not]
    exact lin.trans _ _ _ hc h
  · rename_i c _
    have hc : c < v := by simpa using hv
    simp only [decide_eq_false_iff_not]
    intro hcb
    exact (lin.lt_iff _ _).mp hc (lin.trans _ _ _ h hcb)

/-- satisfiable facets with at most one lower and one upper bound are accepted -/
theorem numParams_accepts (lin : Linear T) : ∀ {ps : List Param} {m : MinMax T} {pat : Option PatternFacet} {v : T},
    (∀ p ∈ ps, Readable x (fun s => ∃ b, parse s = .ok b) p) → m.isValid v = true →
    (∀ p ∈ ps, p.Range (fun s b => parse s = .ok b) v) →
    ps.countP Param.isLower ≤ 1 → (m.min ≠ .unbounded → ps.countP Param.isLower = 0) →
    ps.countP Param.isUpper ≤ 1 → (m.max ≠ .unbounded → ps.countP Param.isUpper = 0) →
    ∃ r, numParams x parse m pat ps = .ok r
  | [], m, pat, v, _, _, _, _, _, _, _ => ⟨_, rfl⟩
  | p :: ps, m, pat, v, hr, hv, hs, c1, c2, c3, c4 => by
    obtain ⟨n1, n2, n3, n4, n5, n6, n7, n8, n9, n10⟩ := facet_names
    obtain ⟨hr0, hr⟩ := List.forall_mem_cons.mp hr
    obtain ⟨hs0, hs⟩ := List.forall_mem_cons.mp hs
    have lt_le : ∀ {a b : T}, a < b → a ≤ b := fun {a b} h => by
      rcases lin.total a b with h1 | h1
      · exact h1
      · exact absurd h1 ((lin.lt_iff a b).mp h)
    have step : ∀ m1 pat1, Effect parse p m m1 pat pat1 → ∃ r, numParams x parse m1 pat1 ps = .ok r := by
      intro m1 pat1 he
      refine numParams_accepts lin hr ((he.range v).mpr ⟨hv, hs0⟩) hs ?_ ?_ ?_ ?_
      · simp only [List.countP_cons] at c1; omega
      · intro h
        cases e : p.isLower with
        | true => simp only [List.countP_cons, e, if_true] at c1; omega
        | false => simp only [List.countP_cons, e] at c2; rw [he.isLower.2 e] at h; have := c2 h; omega
      · simp only [List.countP_cons] at c3; omega
      · intro h
        cases e : p.isUpper with
        | true => simp only [List.countP_cons, e, if_true] at c3; omega
        | false => simp only [List.countP_cons, e] at c4; rw [he.isUpper.2 e] at h; have := c4 h; omega
    obtain ⟨s1, s2, s3, s4⟩ := hs0
    have minU : p.isLower = true → m.min = .unbounded := fun e => by
      apply Classical.byContradiction
      intro h
      have := c2 h
      simp [e] at this
    have maxU : p.isUpper = true → m.max = .unbounded := fun e => by
      apply Classical.byContradiction
      intro h
      have := c4 h
      simp [e] at this
    rw [numParams]
    split
    · rename_i hn
      obtain ⟨b, hb, hbv⟩ := s1 hn
      have e : m.minInclusive b = .ok { m with min := .inclusive b } := by
        unfold MinMax.minInclusive
        rw [not_minConflict lin hv hbv, minU (by simp [Param.isLower, hn])]
        rfl
      obtain ⟨r, h⟩ := step _ pat (.minInc b hn hb e rfl)
      exact ⟨r, by simp [hb, e, h]⟩
    split
    · rename_i hn
      obtain ⟨b, hb, hbv⟩ := s2 hn
      have e : m.minExclusive b = .ok { m with min := .exclusive b } := by
        unfold MinMax.minExclusive
        rw [not_minConflict lin hv (lt_le hbv), minU (by simp [Param.isLower, hn])]
        rfl
      obtain ⟨r, h⟩ := step _ pat (.minEx b hn hb e rfl)
      exact ⟨r, by simp [hb, e, h]⟩
    split
    · rename_i hn
      obtain ⟨b, hb, hbv⟩ := s3 hn
      have e : m.maxInclusive b = .ok { m with max := .inclusive b } := by
        unfold MinMax.maxInclusive
        rw [not_maxConflict lin hv hbv, maxU (by simp [Param.isUpper, hn])]
        rfl
      obtain ⟨r, h⟩ := step _ pat (.maxInc b hn hb e rfl)
      exact ⟨r, by simp [hb, e, h]⟩
    split
    · rename_i hn
      obtain ⟨b, hb, hbv⟩ := s4 hn
      have e : m.maxExclusive b = .ok { m with max := .exclusive b } := by
        unfold MinMax.maxExclusive
        rw [not_maxConflict lin hv (lt_le hbv), maxU (by simp [Param.isUpper, hn])]
        rfl
      obtain ⟨r, h⟩ := step _ pat (.maxEx b hn hb e rfl)
      exact ⟨r, by simp [hb, e, h]⟩
    rename_i h1 h2 h3 h4
    rcases hr0 with ⟨h | h, _⟩ | ⟨hp, hre⟩
    · simp [Param.isLower] at h; exact (h.elim h1 h2).elim
    · simp [Param.isUpper] at h; exact (h.elim h3 h4).elim
    · rw [if_pos hp]
      obtain ⟨r, h⟩ := step m (some p.value) (.pattern hp rfl rfl)
      exact ⟨r, by simp [mkPattern, hre, h]⟩

/-- no panic when no range facet is given twice -/
theorem numParams_no_panic : ∀ {ps : List Param} {m : MinMax T} {pat : Option PatternFacet},
    (∀ s, parse s ≠ .panic) →
    (∀ n, n ≠ "pattern".toList → ps.countP (fun p => p.name == n) ≤ 1) →
    ((∃ b, m.min = .inclusive b) → ∀ p ∈ ps, p.name ≠ "minInclusive".toList) →
    ((∃ b, m.min = .exclusive b) → ∀ p ∈ ps, p.name ≠ "minExclusive".toList) →
    ((∃ b, m.max = .inclusive b) → ∀ p ∈ ps, p.name ≠ "maxInclusive".toList) →
    ((∃ b, m.max = .exclusive b) → ∀ p ∈ ps, p.name ≠ "maxExclusive".toList) →
    numParams x parse m pat ps ≠ .panic
  | [], m, pat, _, _, _, _, _, _ => by simp [numParams]
  | p :: ps, m, pat, hq, hc, a1, a2, a3, a4 => by
    obtain ⟨n1, n2, n3, n4, n5, n6, n7, n8, n9, n10⟩ := facet_names
    have once : p.name ≠ "pattern".toList → ∀ q ∈ ps, q.name ≠ p.name := by
      intro hn q hq e
      have := hc p.name hn
      rw [List.countP_cons] at this
      have : ps.countP (fun q => q.name == p.name) = 0 := by rw [if_pos (by simp)] at this; omega
      rw [List.countP_eq_zero] at this
      exact this q hq (by simp [e])
    have tail : ∀ n, n ≠ "pattern".toList → ps.countP (fun p => p.name == n) ≤ 1 := by
      intro n hn; have := hc n hn; rw [List.countP_cons] at this; omega
    have mem : ∀ {P : Prop} {n : Str}, (P → ∀ q ∈ p :: ps, q.name ≠ n) → P → ∀ q ∈ ps, q.name ≠ n :=
      fun h hp q hq => h hp q (List.mem_cons_of_mem _ hq)
    rw [numParams]
    split
    · rename_i hn
      cases hb : parse p.value with
      | panic => exact absurd hb (hq _)
      | err => simp
      | ok b =>
        simp only [Res.bind_def, Res.bind_ok]
        unfold MinMax.minInclusive
        split
        · simp
        · split
          · simp only [Res.bind_ok]
            refine numParams_no_panic hq tail (fun _ => ?_) (fun h => ?_) (mem a3) (mem a4)
            · rw [← hn]; exact once (by rw [hn]; exact n4)
            · obtain ⟨b, h⟩ := h; cases h
          · rename_i b' hb'
            exact absurd hn (a1 ⟨_, hb'⟩ p (by simp))
          · simp
    split
    · rename_i hn
      cases hb : parse p.value with
      | panic => exact absurd hb (hq _)
      | err => simp
      | ok b =>
        simp only [Res.bind_def, Res.bind_ok]
        unfold MinMax.minExclusive
        split
        · simp
        · split
          · simp only [Res.bind_ok]
            refine numParams_no_panic hq tail (fun h => ?_) (fun _ => ?_) (mem a3) (mem a4)
            · obtain ⟨b, h⟩ := h; cases h
            · rw [← hn]; exact once (by rw [hn]; exact n7)
          · simp
          · rename_i b' hb'
            exact absurd hn (a2 ⟨_, hb'⟩ p (by simp))
    split
    · rename_i hn
      cases hb : parse p.value with
      | panic => exact absurd hb (hq _)
      | err => simp
      | ok b =>
        simp only [Res.bind_def, Res.bind_ok]
        unfold MinMax.maxInclusive
        split
        · simp
        · split
          · simp only [Res.bind_ok]
            refine numParams_no_panic hq tail (mem a1) (mem a2) (fun _ => ?_) (fun h => ?_)
            · rw [← hn]; exact once (by rw [hn]; exact n9)
            · obtain ⟨b, h⟩ := h; cases h
          · rename_i b' hb'
            exact absurd hn (a3 ⟨_, hb'⟩ p (by simp))
          · simp
    split
    · rename_i hn
      cases hb : parse p.value with
      | panic => exact absurd hb (hq _)
      | err => simp
      | ok b =>
        simp only [Res.bind_def, Res.bind_ok]
        unfold MinMax.maxExclusive
        split
        · simp
        · split
          · simp only [Res.bind_ok]
            refine numParams_no_panic hq tail (mem a1) (mem a2) (fun h => ?_) (fun _ => ?_)
            · obtain ⟨b, h⟩ := h; cases h
            · rw [← hn]; exact once (by rw [hn]; exact n10)
          · simp
          · rename_i b' hb'
            exact absurd hn (a4 ⟨_, hb'⟩ p (by simp))
    split
    · unfold mkPattern
      split
      · exact numParams_no_panic hq tail (mem a1) (mem a2) (mem a3) (mem a4)
      · simp
    · simp
end

theorem digits_names : ∀ n ∈ ["minInclusive".toList, "minExclusive".toList, "maxInclusive".toList, "maxExclusive".toList, "pattern".toList],
    (n == "fractionDigits".toList || n == "totalDigits".toList) = false := by decide

/-- The loop of `decimal` is the numeric loop over the other parameters, once the digit facets are read. -/
theorem decParams_eq {x : Ext} : ∀ {ps : List Param} {m : MinMax Rat} {pat : Option PatternFacet} {fd td : Option Nat},
    (∀ p ∈ ps, p.isDigits = true → ∃ n, parseU 10 0xffff p.value = some n) →
    ∃ g : MinMax Rat × Option PatternFacet → MinMax Rat × Option PatternFacet × Option Nat × Option Nat,
      (∀ r, (g r).1 = r.1 ∧ (g r).2.1 = r.2) ∧
      decParams x m pat fd td ps = (numParams x (parseDecP x) m pat (ps.filter (fun p => !p.isDigits))).bind fun r => .ok (g r)
  | [], m, pat, fd, td, _ => ⟨fun r => (r.1, r.2, fd, td), fun _ => ⟨rfl, rfl⟩, rfl⟩
  | p :: ps, m, pat, fd, td, hd => by
    obtain ⟨hd0, hd⟩ := List.forall_mem_cons.mp hd
    have keep : ∀ n ∈ ["minInclusive".toList, "minExclusive".toList, "maxInclusive".toList, "maxExclusive".toList, "pattern".toList],
        p.name = n → p.isDigits = false := fun n h e => by unfold Param.isDigits; rw [e]; exact digits_names n h
    cases hk : p.isDigits with
    | false =>
      rw [List.filter_cons_of_pos (by simp [hk]), decParams, numParams]
      split
      · cases hb : parseDecP x p.value with
        | ok b =>
          simp only [Res.bind_def, Res.bind_ok]
          cases hm : m.minInclusive b with
          | ok m1 => exact decParams_eq hd
          | err e => exact ⟨fun r => (r.1, r.2, fd, td), fun _ => ⟨rfl, rfl⟩, rfl⟩
          | panic => exact ⟨fun r => (r.1, r.2, fd, td), fun _ => ⟨rfl, rfl⟩, rfl⟩
        | err e => exact ⟨fun r => (r.1, r.2, fd, td), fun _ => ⟨rfl, rfl⟩, rfl⟩
        | panic => exact ⟨fun r => (r.1, r.2, fd, td), fun _ => ⟨rfl, rfl⟩, rfl⟩
      split
      · cases hb : parseDecP x p.value with
        | ok b =>
          simp only [Res.bind_def, Res.bind_ok]
          cases hm : m.minExclusive b with
          | ok m1 => exact decParams_eq hd
          | err e => exact ⟨fun r => (r.1, r.2, fd, td), fun _ => ⟨rfl, rfl⟩, rfl⟩
          | panic => exact ⟨fun r => (r.1, r.2, fd, td), fun _ => ⟨rfl, rfl⟩, rfl⟩
        | err e => exact ⟨fun r => (r.1, r.2, fd, td), fun _ => ⟨rfl, rfl⟩, rfl⟩
        | panic => exact ⟨fun r => (r.1, r.2, fd, td), fun _ => ⟨rfl, rfl⟩, rfl⟩
      split
      · cases hb : parseDecP x p.value with
        | ok b =>
          simp only [Res.bind_def, Res.bind_ok]
          cases hm : m.maxInclusive b with
          | ok m1 => exact decParams_eq hd
          | err e => exact ⟨fun r => (r.1, r.2, fd, td), fun _ => ⟨rfl, rfl⟩, rfl⟩
          | panic => exact ⟨fun r => (r.1, r.2, fd, td), fun _ => ⟨rfl, rfl⟩, rfl⟩
        | err e => exact ⟨fun r => (r.1, r.2, fd, td), fun _ => ⟨rfl, rfl⟩, rfl⟩
        | panic => exact ⟨fun r => (r.1, r.2, fd, td), fun _ => ⟨rfl, rfl⟩, rfl⟩
      split
      · cases hb : parseDecP x p.value with
        | ok b =>
          simp only [Res.bind_def, Res.bind_ok]
          cases hm : m.maxExclusive b with
          | ok m1 => exact decParams_eq hd
          | err e => exact ⟨fun r => (r.1, r.2, fd, td), fun _ => ⟨rfl, rfl⟩, rfl⟩
          | panic => exact ⟨fun r => (r.1, r.2, fd, td), fun _ => ⟨rfl, rfl⟩, rfl⟩
        | err e => exact ⟨fun r => (r.1, r.2, fd, td), fun _ => ⟨rfl, rfl⟩, rfl⟩
        | panic => exact ⟨fun r => (r.1, r.2, fd, td), fun _ => ⟨rfl, rfl⟩, rfl⟩
      split
      · cases hb : mkPattern x p.value with
        | ok b => exact decParams_eq hd
        | err e => exact ⟨fun r => (r.1, r.2, fd, td), fun _ => ⟨rfl, rfl⟩, rfl⟩
        | panic => exact ⟨fun r => (r.1, r.2, fd, td), fun _ => ⟨rfl, rfl⟩, rfl⟩
      · unfold Param.isDigits at hk
        rw [Bool.or_eq_false_iff, beq_eq_false_iff_ne, beq_eq_false_iff_ne] at hk
        rw [if_neg hk.1, if_neg hk.2]
        exact ⟨fun r => (r.1, r.2, fd, td), fun _ => ⟨rfl, rfl⟩, rfl⟩
    | true =>
      obtain ⟨n, hn⟩ := hd0 hk
      have no : ∀ n ∈ ["minInclusive".toList, "minExclusive".toList, "maxInclusive".toList, "maxExclusive".toList, "pattern".toList],
          p.name ≠ n := fun n h e => by rw [keep n h e] at hk; cases hk
      rw [List.filter_cons_of_neg (by simp [hk]), decParams]
      rw [if_neg (no _ (by simp)), if_neg (no _ (by simp)), if_neg (no _ (by simp)), if_neg (no _ (by simp)), if_neg (no _ (by simp))]
      split
      · simp only [hn, orErr, Res.bind_def, Res.bind_ok]
        exact decParams_eq hd
      split
      · simp only [hn, orErr, Res.bind_def, Res.bind_ok]
        exact decParams_eq hd
      · unfold Param.isDigits at hk
        simp at hk
        rename_i h1 h2
        exact (hk.elim h1 h2).elim

theorem decParams_rel {x : Ext} : ∀ {ps : List Param} {m : MinMax Rat} {pat : Option PatternFacet} {fd td : Option Nat},
    match decParams x m pat fd td ps with
    | .ok r => numParams x (parseDecP x) m pat (ps.filter (fun p => !p.isDigits)) = .ok (r.1, r.2.1) ∧
        ∀ p ∈ ps, p.isDigits = true → ∃ n, parseU 10 0xffff p.value = some n
    | .err _ => True
    | .panic => numParams x (parseDecP x) m pat (ps.filter (fun p => !p.isDigits)) = .panic
  | [], m, pat, fd, td => by simp [decParams, numParams]
  | p :: ps, m, pat, fd, td => by
    have ih := fun m pat fd td => decParams_rel (x := x) (ps := ps) (m := m) (pat := pat) (fd := fd) (td := td)
    by_cases hd : ∀ q ∈ p :: ps, q.isDigits = true → ∃ n, parseU 10 0xffff q.value = some n
    · obtain ⟨g, hg, e⟩ := decParams_eq (x := x) (m := m) (pat := pat) (fd := fd) (td := td) hd
      rw [e]
      cases numParams x (parseDecP x) m pat ((p :: ps).filter (fun p => !p.isDigits)) with
      | ok r => exact ⟨by rw [Res.ok.injEq, Prod.mk.injEq]; exact ⟨(hg r).1.symm, (hg r).2.symm⟩, hd⟩
      | err e => trivial
      | panic => rfl
    · cases hk : p.isDigits with
      | false =>
        have hd' : ¬ ∀ q ∈ ps, q.isDigits = true → ∃ n, parseU 10 0xffff q.value = some n := by
          intro h; exact hd (List.forall_mem_cons.mpr ⟨fun e => (by simp [hk] at e), h⟩)
        have no : ∀ m pat fd td r, decParams x m pat fd td ps ≠ .ok r := by
          intro m pat fd td r e
          have := ih m pat fd td
          rw [e] at this; exact hd' this.2
        have pan : ∀ m pat fd td, (match decParams x m pat fd td ps with
            | .ok r => numParams x (parseDecP x) m pat (ps.filter (fun p => !p.isDigits)) = .ok (r.1, r.2.1) ∧
                ∀ q ∈ p :: ps, q.isDigits = true → ∃ n, parseU 10 0xffff q.value = some n
            | .err _ => True
            | .panic => numParams x (parseDecP x) m pat (ps.filter (fun p => !p.isDigits)) = .panic) := by
          intro m pat fd td
          have := ih m pat fd td
          split
          · rename_i r e; exact absurd e (no _ _ _ _ r)
          · trivial
          · rename_i e; rw [e] at this; exact this
        rw [List.filter_cons_of_pos (by simp [hk]), decParams, numParams]
        by_cases n1 : p.name = "minInclusive".toList
        · simp only [if_pos n1]
          cases hb : parseDecP x p.value with
          | ok b =>
            simp only [Res.bind_def, Res.bind_ok]
            cases hm : m.minInclusive b with
            | ok m1 => exact pan _ _ _ _
            | err e => trivial
            | panic => rfl
          | err e => trivial
          | panic => rfl
        simp only [if_neg n1]
        by_cases n2 : p.name = "minExclusive".toList
        · simp only [if_pos n2]
          cases hb : parseDecP x p.value with
          | ok b =>
            simp only [Res.bind_def, Res.bind_ok]
            cases hm : m.minExclusive b with
            | ok m1 => exact pan _ _ _ _
            | err e => trivial
            | panic => rfl
          | err e => trivial
          | panic => rfl
        simp only [if_neg n2]
        by_cases n3 : p.name = "maxInclusive".toList
        · simp only [if_pos n3]
          cases hb : parseDecP x p.value with
          | ok b =>
            simp only [Res.bind_def, Res.bind_ok]
            cases hm : m.maxInclusive b with
            | ok m1 => exact pan _ _ _ _
            | err e => trivial
            | panic => rfl
          | err e => trivial
          | panic => rfl
        simp only [if_neg n3]
        by_cases n4 : p.name = "maxExclusive".toList
        · simp only [if_pos n4]
          cases hb : parseDecP x p.value with
          | ok b =>
            simp only [Res.bind_def, Res.bind_ok]
            cases hm : m.maxExclusive b with
            | ok m1 => exact pan _ _ _ _
            | err e => trivial
            | panic => rfl
          | err e => trivial
          | panic => rfl
        simp only [if_neg n4]
        by_cases n5 : p.name = "pattern".toList
        · simp only [if_pos n5]
          cases hb : mkPattern x p.value with
          | ok b => exact pan _ _ _ _
          | err e => trivial
          | panic => rfl
        simp only [if_neg n5]
        unfold Param.isDigits at hk
        rw [Bool.or_eq_false_iff, beq_eq_false_iff_ne, beq_eq_false_iff_ne] at hk
        rw [if_neg hk.1, if_neg hk.2]
        trivial
      | true =>
        have no : ∀ n ∈ ["minInclusive".toList, "minExclusive".toList, "maxInclusive".toList, "maxExclusive".toList, "pattern".toList],
            p.name ≠ n := fun n h e => by
              unfold Param.isDigits at hk; rw [e, digits_names n h] at hk; cases hk
        rw [List.filter_cons_of_neg (by simp [hk]), decParams]
        rw [if_neg (no _ (by simp)), if_neg (no _ (by simp)), if_neg (no _ (by simp)), if_neg (no _ (by simp)), if_neg (no _ (by simp))]
        have key : ∀ fd td fd' td' : Option Nat, ∀ (g : Nat → Option Nat × Option Nat), (match (match parseU 10 0xffff p.value with
              | some n => decParams x m pat (g n).1 (g n).2 ps
              | none => .err .invalidInt) with
            | .ok r => numParams x (parseDecP x) m pat (ps.filter (fun p => !p.isDigits)) = .ok (r.1, r.2.1) ∧
                ∀ q ∈ p :: ps, q.isDigits = true → ∃ n, parseU 10 0xffff q.value = some n
            | .err _ => True
            | .panic => numParams x (parseDecP x) m pat (ps.filter (fun p => !p.isDigits)) = .panic) := by
          intro _ _ _ _ g
          cases hn : parseU 10 0xffff p.value with
          | none => trivial
          | some n =>
            have := ih m pat (g n).1 (g n).2
            simp only
            split
            · rename_i r e
              rw [e] at this
              exact ⟨this.1, List.forall_mem_cons.mpr ⟨fun _ => ⟨n, hn⟩, this.2⟩⟩
            · trivial
            · rename_i e; rw [e] at this; exact this
        by_cases h1 : p.name = "fractionDigits".toList
        · rw [if_pos h1]
          have := key fd td fd td fun n => (some n, td)
          revert this
          cases hn : parseU 10 0xffff p.value with
          | none => exact fun _ => trivial
          | some n => exact id
        rw [if_neg h1]
        by_cases h2 : p.name = "totalDigits".toList
        · rw [if_pos h2]
          have := key fd td fd td fun n => (fd, some n)
          revert this
          cases hn : parseU 10 0xffff p.value with
          | none => exact fun _ => trivial
          | some n => exact id
        rw [if_neg h2]
        trivial


/-! ### the theorems about the types -/

theorem numParams_consistent {T : Type} [LE T] [LT T] [DecidableRel (α := T) (· ≤ ·)] [DecidableRel (α := T) (· < ·)]
    (lin : Linear T) {x : Ext} {parse : Str → Res FacetErr T} {ps : List Param} {r}
    (h : numParams x parse {} none ps = .ok r) : Consistent (fun s b => parse s = .ok b) ps := by
  obtain ⟨m, pat⟩ := r
  obtain ⟨h1, ⟨h2, _⟩, ⟨h3, _⟩, h4, h5⟩ := numParams_bounds lin h (fun a b e => by cases e)
  refine ⟨h2, h3, fun p hp q hq l u => ?_⟩
  obtain ⟨a, ha, ha'⟩ := h4 p hp l
  obtain ⟨b, hb, hb'⟩ := h5 q hq u
  exact ⟨a, b, ha, hb, h1 a b ha' hb'⟩

theorem orErr_fun {α : Type} {e : FacetErr} {parse : Str → Option α} {Val : Str → α → Prop} (h : ∀ s v, parse s = some v ↔ Val s v) :
    (fun (s : Str) (b : α) => orErr e (parse s) = .ok b) = Val := by
  funext s b; rw [orErr_ok, eq_iff_iff]; exact h s b

/-- C27.  An accepted integer type never has two lower or two upper bounds, nor a lower bound above the upper one. -/
theorem C27_integer_bounds_consistent (x : Ext) {name : Str} {Val : Str → Int → Prop} (ht : IntType name Val) {ps : List Param}
    {d : Datatypes} (h : datatypeNameOf x (.cname xsdUri name) ps = .ok d) : Consistent Val ps := by
  obtain ⟨c⟩ := intType_code x ht
  rw [datatypeNameOf_xsd, c.compile, mapBoth_ok] at h
  obtain ⟨a, h, rfl⟩ := h
  obtain ⟨r, hn, _⟩ := facetRes_ok h
  have := numParams_consistent linear_int hn
  rwa [orErr_fun c.parse_iff] at this

/-- C27.  Range facets that some value satisfies, at most one lower and one upper, are accepted in any order. -/
theorem C27_integer_satisfiable_accepted (x : Ext) {name : Str} {Val : Str → Int → Prop} (ht : IntType name Val) {ps : List Param}
    (hr : ∀ p ∈ ps, Readable x (fun s => ∃ b, Val s b) p) (h1 : ps.countP Param.isLower ≤ 1) (h2 : ps.countP Param.isUpper ≤ 1)
    {v : Int} (hs : ∀ p ∈ ps, p.Range Val v) : ∃ d, datatypeNameOf x (.cname xsdUri name) ps = .ok d := by
  obtain ⟨c⟩ := intType_code x ht
  obtain ⟨r, h⟩ := numParams_accepts (x := x) (parse := fun s => orErr .invalidInt (c.parse s)) (m := {}) (pat := none) linear_int
    (by simpa only [orErr_ok, c.parse_iff] using hr) (v := v) rfl (by rw [orErr_fun c.parse_iff]; exact hs) h1
    (fun h => absurd rfl h) h2 (fun h => absurd rfl h)
  rw [datatypeNameOf_xsd, c.compile, h]
  exact ⟨_, rfl⟩

/-- C27.  No combination of facets without repetition makes an integer type panic. -/
theorem C27_integer_no_panic (x : Ext) {name : Str} {Val : Str → Int → Prop} (ht : IntType name Val) {ps : List Param}
    (h : ∀ n, n ≠ "pattern".toList → ps.countP (fun p => p.name == n) ≤ 1) :
    datatypeNameOf x (.cname xsdUri name) ps ≠ .panic := by
  obtain ⟨c⟩ := intType_code x ht
  have := numParams_no_panic (x := x) (parse := fun s => orErr .invalidInt (c.parse s)) (m := {}) (pat := none) (ps := ps)
    (fun s => by cases c.parse s <;> simp [orErr]) h (fun ⟨_, h⟩ => by cases h) (fun ⟨_, h⟩ => by cases h)
    (fun ⟨_, h⟩ => by cases h) (fun ⟨_, h⟩ => by cases h)
  rw [datatypeNameOf_xsd, c.compile]
  cases e : numParams x (fun s => orErr .invalidInt (c.parse s)) {} none ps with
  | ok r => simp [facetRes, Res.mapBoth]
  | err r => simp [facetRes, Res.mapBoth]
  | panic => exact absurd e this

theorem xsdCompile_decimal (x : Ext) (ps : List Param) : xsdCompile x "decimal".toList ps =
    facetRes (decParams x {} none none none ps) fun r => .decimal r.1 r.2.1 r.2.2.1 r.2.2.2 := rfl

theorem decimal_ok {x : Ext} {ps : List Param} {d : Datatypes} (h : datatypeNameOf x (.cname xsdUri "decimal".toList) ps = .ok d) :
    ∃ m pat fd td, d = .xsd (.decimal m pat fd td) ∧
      numParams x (parseDecP x) {} none (ps.filter (fun p => !p.isDigits)) = .ok (m, pat) ∧
      ∀ p ∈ ps, p.isDigits = true → ∃ n : Nat, UNumeral p.value n ∧ n ≤ 65535 := by
  rw [datatypeNameOf_xsd, xsdCompile_decimal, mapBoth_ok] at h
  obtain ⟨a, h, rfl⟩ := h
  obtain ⟨⟨m, pat, fd, td⟩, hn, rfl⟩ := facetRes_ok h
  have := decParams_rel (x := x) (m := {}) (pat := none) (fd := none) (td := none) (ps := ps)
  rw [hn] at this
  refine ⟨m, pat, fd, td, rfl, this.1, fun p hp hd => ?_⟩
  obtain ⟨n, e⟩ := this.2 p hp hd
  exact ⟨n, parseU_iff.mp e⟩

theorem not_digits {p : Param} {n : Str}
    (hn : n ∈ ["minInclusive".toList, "minExclusive".toList, "maxInclusive".toList, "maxExclusive".toList, "pattern".toList])
    (h : p.name = n) : p.isDigits = false := by unfold Param.isDigits; rw [h]; exact digits_names n hn

theorem digits_range {T : Type} [LE T] [LT T] {num : Str → T → Prop} {p : Param} (h : p.isDigits = true) (v : T) : p.Range num v := by
  have no : ∀ n ∈ ["minInclusive".toList, "minExclusive".toList, "maxInclusive".toList, "maxExclusive".toList, "pattern".toList],
      p.name ≠ n := fun n hn e => by rw [not_digits hn e] at h; cases h
  exact ⟨fun e => absurd e (no _ (by simp)), fun e => absurd e (no _ (by simp)), fun e => absurd e (no _ (by simp)),
    fun e => absurd e (no _ (by simp))⟩

theorem digits_lower {p : Param} (h : p.isDigits = true) : p.isLower = false := by
  cases e : p.isLower with
  | false => rfl
  | true =>
    simp only [Param.isLower, Bool.or_eq_true, beq_iff_eq] at e
    rcases e with e | e <;> · rw [not_digits (by simp) e] at h; cases h

theorem digits_upper {p : Param} (h : p.isDigits = true) : p.isUpper = false := by
  cases e : p.isUpper with
  | false => rfl
  | true =>
    simp only [Param.isUpper, Bool.or_eq_true, beq_iff_eq] at e
    rcases e with e | e <;> · rw [not_digits (by simp) e] at h; cases h

theorem patterns_filter {x : Ext} {s : Str} : ∀ {ps : List Param},
    PatternsOk x (ps.filter (fun p => !p.isDigits)) s ↔ PatternsOk x ps s
  | [] => Iff.rfl
  | p :: ps => by
    have iff2 : (∀ q ∈ ps.filter (fun p => !p.isDigits), q.name ≠ "pattern".toList) ↔ ∀ q ∈ ps, q.name ≠ "pattern".toList := by
      constructor
      · intro h q hq e
        exact h q (List.mem_filter.mpr ⟨hq, by rw [not_digits (by simp) e]; rfl⟩) e
      · exact fun h q hq => h q ((List.mem_filter.mp hq).1)
    cases hk : p.isDigits with
    | false =>
      rw [List.filter_cons_of_pos (by simp [hk]), patternsOk_cons, patternsOk_cons, patterns_filter, iff2]
    | true =>
      rw [List.filter_cons_of_neg (by simp [hk]), patternsOk_cons, patterns_filter]
      constructor
      · exact fun h => ⟨h, fun e => by rw [not_digits (by simp) e] at hk; cases hk⟩
      · exact fun h => h.1

/-- C27.  `decimal` with parameters accepts exactly the decimals within every bound that match the last pattern;
the digit facets are read but never checked. -/
theorem C27_decimal_range_facets (x : Ext) {ps : List Param} {d : Datatypes}
    (h : datatypeNameOf x (.cname xsdUri "decimal".toList) ps = .ok d) (s : Str) :
    (stdLib x).validD d s = some true ↔ (∃ v, DecVal x s v ∧ ∀ p ∈ ps, p.Range (DecVal x) v) ∧ PatternsOk x ps s := by
  obtain ⟨m, pat, fd, td, rfl, hn, _⟩ := decimal_ok h
  show some (numOk x (x.parseDec s) m pat s) = some true ↔ _
  rw [Option.some.injEq, numOk_iff]
  have hv := fun v => (numParams_valid hn v s).1
  have hp := (numParams_valid hn 0 s).2
  have hr : (fun (s : Str) (b : Rat) => parseDecP x s = .ok b) = DecVal x := orErr_fun fun _ _ => Iff.rfl
  rw [hr] at hv
  have e0 : ∀ v : Rat, ({} : MinMax Rat).isValid v = true := fun _ => rfl
  have hpn : patNow x none (ps.filter (fun p => !p.isDigits)) s ↔ PatternsOk x ps s := by
    rw [← patterns_filter (ps := ps)]; simp [patNow, patOk]
  simp only [hv, hp, e0, true_and, hpn]
  have hf : ∀ v, (∀ p ∈ ps.filter (fun p => !p.isDigits), p.Range (DecVal x) v) ↔ ∀ p ∈ ps, p.Range (DecVal x) v := by
    intro v
    constructor
    · intro h p hp
      cases e : p.isDigits with
      | true => exact digits_range e v
      | false => exact h p (List.mem_filter.mpr ⟨hp, by simp [e]⟩)
    · exact fun h p hp => h p ((List.mem_filter.mp hp).1)
  simp only [hf]
  rfl

theorem countP_filter_digits {f : Param → Bool} (h : ∀ p : Param, p.isDigits = true → f p = false) : ∀ {ps : List Param},
    (ps.filter (fun p => !p.isDigits)).countP f = ps.countP f
  | [] => rfl
  | p :: ps => by
    cases hk : p.isDigits with
    | false => rw [List.filter_cons_of_pos (by simp [hk]), List.countP_cons, List.countP_cons, countP_filter_digits h]
    | true => rw [List.filter_cons_of_neg (by simp [hk]), List.countP_cons, countP_filter_digits h, h p hk]; simp

/-- C27, for `decimal`. -/
theorem C27_decimal_bounds_consistent (x : Ext) {ps : List Param} {d : Datatypes}
    (h : datatypeNameOf x (.cname xsdUri "decimal".toList) ps = .ok d) : Consistent (DecVal x) ps := by
  obtain ⟨m, pat, fd, td, rfl, hn, _⟩ := decimal_ok h
  obtain ⟨h1, h2, h3⟩ := numParams_consistent linear_rat hn
  rw [countP_filter_digits (fun _ => digits_lower)] at h1
  rw [countP_filter_digits (fun _ => digits_upper)] at h2
  have hr : (fun (s : Str) (b : Rat) => parseDecP x s = .ok b) = DecVal x := orErr_fun fun _ _ => Iff.rfl
  refine ⟨h1, h2, fun p hp q hq l u => ?_⟩
  have keep : ∀ p ∈ ps, p.isDigits = false → p ∈ ps.filter (fun p => !p.isDigits) :=
    fun p hp e => List.mem_filter.mpr ⟨hp, by simp [e]⟩
  have nd : p.isDigits = false := by
    cases e : p.isDigits with
    | false => rfl
    | true => rw [digits_lower e] at l; cases l
  have nq : q.isDigits = false := by
    cases e : q.isDigits with
    | false => rfl
    | true => rw [digits_upper e] at u; cases u
  obtain ⟨a, b, ha, hb, hab⟩ := h3 p (keep p hp nd) q (keep q hq nq) l u
  exact ⟨a, b, orErr_ok.mp ha, orErr_ok.mp hb, hab⟩

/-- C27, for `decimal`. -/
theorem C27_decimal_satisfiable_accepted (x : Ext) {ps : List Param}
    (hr : ∀ p ∈ ps, Readable x (fun s => ∃ b, DecVal x s b) p ∨ (p.isDigits = true ∧ ∃ n : Nat, UNumeral p.value n ∧ n ≤ 65535))
    (h1 : ps.countP Param.isLower ≤ 1) (h2 : ps.countP Param.isUpper ≤ 1)
    {v : Rat} (hs : ∀ p ∈ ps, p.Range (DecVal x) v) : ∃ d, datatypeNameOf x (.cname xsdUri "decimal".toList) ps = .ok d := by
  have he : (fun (s : Str) (b : Rat) => parseDecP x s = .ok b) = DecVal x := orErr_fun fun _ _ => Iff.rfl
  have he' : (fun (s : Str) => ∃ b, parseDecP x s = .ok b) = fun s => ∃ b, DecVal x s b := by
    funext s; rw [eq_iff_iff]; exact exists_congr fun b => orErr_ok
  obtain ⟨r, h⟩ := numParams_accepts (x := x) (parse := parseDecP x) (ps := ps.filter (fun p => !p.isDigits)) (m := {}) (pat := none)
    linear_rat (v := v) (by
      intro p hp
      rw [he']
      rcases hr p ((List.mem_filter.mp hp).1) with h | h
      · exact h
      · have := (List.mem_filter.mp hp).2; rw [h.1] at this; cases this) rfl
    (by rw [he]; exact fun p hp => hs p ((List.mem_filter.mp hp).1))
    (by rw [countP_filter_digits (fun _ => digits_lower)]; exact h1) (fun h => absurd rfl h)
    (by rw [countP_filter_digits (fun _ => digits_upper)]; exact h2) (fun h => absurd rfl h)
  obtain ⟨g, hg, e⟩ := decParams_eq (x := x) (m := {}) (pat := none) (fd := none) (td := none) (ps := ps) (by
    intro p hp hd
    rcases hr p hp with h | ⟨_, n, h⟩
    · rcases h with ⟨h | h, _⟩ | ⟨h, _⟩
      · rw [digits_lower hd] at h; cases h
      · rw [digits_upper hd] at h; cases h
      · rw [not_digits (by simp) h] at hd; cases hd
    · exact ⟨n, parseU_iff.mpr h⟩)
  rw [h] at e
  rw [datatypeNameOf_xsd, xsdCompile_decimal, e]
  exact ⟨_, rfl⟩

/-- C27, for `decimal`. -/
theorem C27_decimal_no_panic (x : Ext) {ps : List Param}
    (h : ∀ n, n ≠ "pattern".toList → ps.countP (fun p => p.name == n) ≤ 1) :
    datatypeNameOf x (.cname xsdUri "decimal".toList) ps ≠ .panic := by
  have hnp : numParams x (parseDecP x) {} none (ps.filter (fun p => !p.isDigits)) ≠ .panic :=
    numParams_no_panic (fun s => by unfold parseDecP; cases x.parseDec s <;> simp [orErr])
      (fun n hn => Nat.le_trans (List.Sublist.countP_le (List.filter_sublist)) (h n hn))
      (fun ⟨_, h⟩ => by cases h) (fun ⟨_, h⟩ => by cases h) (fun ⟨_, h⟩ => by cases h) (fun ⟨_, h⟩ => by cases h)
  have := decParams_rel (x := x) (m := {}) (pat := none) (fd := none) (td := none) (ps := ps)
  rw [datatypeNameOf_xsd, xsdCompile_decimal]
  cases e : decParams x {} none none none ps with
  | ok r => simp [facetRes, Res.mapBoth]
  | err r => simp [facetRes, Res.mapBoth]
  | panic => rw [e] at this; exact absurd this hnp

/-! ### what the code does beyond or against the property -/

private def exP (n v : String) : Param := ⟨n.toList, v.toList⟩

/-- Whether an empty range is reported depends on the order of the facets. -/
theorem C27_order_dependent (x : Ext) :
    datatypeNameOf x (.cname xsdUri "int".toList) [exP "minExclusive" "5", exP "maxInclusive" "5"] = .err (.xsd (.facet .conflicting)) ∧
    ∃ d, datatypeNameOf x (.cname xsdUri "int".toList) [exP "maxInclusive" "5", exP "minExclusive" "5"] = .ok d :=
  ⟨rfl, _, rfl⟩

/-- Repeating a range facet panics. -/
theorem C27_repeated_facet_panics (x : Ext) :
    datatypeNameOf x (.cname xsdUri "int".toList) [exP "minInclusive" "1", exP "minInclusive" "2"] = .panic := rfl

/-- The range facets of `double` are read but never checked. -/
theorem C27_double_ignores_range (x : Ext) {ps : List Param} {d : Datatypes}
    (h : datatypeNameOf x (.cname xsdUri "double".toList) ps = .ok d) (s : Str) :
    (stdLib x).validD d s = some true ↔ (x.parseF64 s).isSome = true ∧ PatternsOk x ps s := by
  have e : xsdCompile x "double".toList ps = facetRes (numParams x (parseF64P x) {} none ps) fun r => .double r.2 := rfl
  rw [datatypeNameOf_xsd, e, mapBoth_ok] at h
  obtain ⟨a, h, rfl⟩ := h
  obtain ⟨⟨m, pat⟩, hn, rfl⟩ := facetRes_ok h
  show some ((x.parseF64 s).isSome && patOk x pat s) = some true ↔ _
  rw [Option.some.injEq, Bool.and_eq_true, (numParams_valid hn 0 s).2]
  simp [patNow, patOk]

/-- the hypotheses can be met: a range of `int` with both bounds -/
example (x : Ext) : ∃ d, datatypeNameOf x (.cname xsdUri "int".toList) [exP "maxExclusive" "10", exP "minInclusive" "-3"] = .ok d ∧
    (stdLib x).validD d "9".toList = some true ∧ (stdLib x).validD d "10".toList = some false :=
  ⟨_, rfl, rfl, rfl⟩

example (x : Ext) : ∀ p ∈ [exP "maxExclusive" "10", exP "minInclusive" "-3"], Readable x (fun s => ∃ b, SNumeral s b ∧ -2147483648 ≤ b ∧ b ≤ 2147483647) p := by
  intro p hp
  simp only [List.mem_cons, List.not_mem_nil, or_false] at hp
  rcases hp with rfl | rfl
  · exact Or.inl ⟨by decide, 10, (parseS_iff (min := 0x80000000) (max := 0x7fffffff)).mp (by decide)⟩
  · exact Or.inl ⟨by decide, -3, (parseS_iff (min := 0x80000000) (max := 0x7fffffff)).mp (by decide)⟩

end Verif
