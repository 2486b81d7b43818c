import Verif.Props.FacetOutcome
import Verif.Spec.FacetApi
/-
C75: what the accessors of compiled facets report.
-/
namespace Verif

/-! ### every integer has a numeral -/

theorem digit_exists : ∀ d < 10, ∃ c, decDigit c = some d
  | 0, _ => ⟨'0', by decide⟩ | 1, _ => ⟨'1', by decide⟩ | 2, _ => ⟨'2', by decide⟩ | 3, _ => ⟨'3', by decide⟩
  | 4, _ => ⟨'4', by decide⟩ | 5, _ => ⟨'5', by decide⟩ | 6, _ => ⟨'6', by decide⟩ | 7, _ => ⟨'7', by decide⟩
  | 8, _ => ⟨'8', by decide⟩ | 9, _ => ⟨'9', by decide⟩ | d + 10, h => by omega

theorem number_exists (n : Nat) : ∃ s, Number 10 decDigit s n := by
  induction n using Nat.strongRecOn with
  | _ n ih =>
    by_cases h : n < 10
    · obtain ⟨c, hc⟩ := digit_exists n h
      exact ⟨[c], .one hc⟩
    · obtain ⟨s, hs⟩ := ih (n / 10) (by omega)
      obtain ⟨c, hc⟩ := digit_exists (n % 10) (by omega)
      have := Number.snoc hs hc
      rw [show n / 10 * 10 + n % 10 = n by omega] at this
      exact ⟨_, this⟩

theorem uNumeral_exists {v : Int} : (∃ s, UNumeral s v) ↔ 0 ≤ v := by
  constructor
  · rintro ⟨s, h⟩; exact h.nonneg
  · intro h
    obtain ⟨s, hs⟩ := number_exists v.toNat
    refine ⟨s, ?_⟩
    have := UNumeral.plain hs
    rwa [show ((v.toNat : Nat) : Int) = v by omega] at this

theorem sNumeral_exists (v : Int) : ∃ s, SNumeral s v := by
  by_cases h : 0 ≤ v
  · obtain ⟨s, hs⟩ := uNumeral_exists.mpr h; exact ⟨s, .unsigned hs⟩
  · obtain ⟨s, hs⟩ := number_exists (-v).toNat
    refine ⟨'-' :: s, ?_⟩
    have := SNumeral.minus hs
    rwa [show (-((-v).toNat : Int)) = v by omega] at this

theorem grouped_exists (n : Nat) : ∃ s, Grouped s n := by
  obtain ⟨s, hs⟩ := number_exists n
  have hu : decDigit '_' = none := by decide
  have no : ∀ c ∈ s, c ≠ '_' := fun c hc e => by
    obtain ⟨d, hd⟩ := hs.all c hc; rw [e, hu] at hd; cases hd
  refine ⟨s, ?_, ?_⟩
  · cases s with
    | nil => nofun
    | cons c s => intro h; cases h; exact no '_' (.head _) rfl
  · rw [List.filter_eq_self.mpr (fun c hc => by simpa using no c hc)]; exact hs

theorem bigUNumeral_exists {v : Int} : (∃ s, BigUNumeral s v) ↔ 0 ≤ v := by
  constructor
  · rintro ⟨s, h⟩; cases h <;> omega
  · intro h
    obtain ⟨s, hs⟩ := grouped_exists v.toNat
    refine ⟨s, ?_⟩
    have := BigUNumeral.plain hs
    rwa [show ((v.toNat : Nat) : Int) = v by omega] at this

theorem bigNumeral_exists (v : Int) : ∃ s, BigNumeral s v := by
  by_cases h : 0 ≤ v
  · obtain ⟨s, hs⟩ := bigUNumeral_exists.mpr h; exact ⟨s, .unsigned hs⟩
  · obtain ⟨s, hs⟩ := grouped_exists (-v).toNat
    refine ⟨'-' :: s, ?_⟩
    have := BigNumeral.minus hs
    rwa [show (-((-v).toNat : Int)) = v by omega] at this

/-- the values of the Rust type -/
def Machine.Holds (t : Machine) (v : Int) : Prop := (∀ l, t.lo = some l → l ≤ v) ∧ (∀ h, t.hi = some h → v ≤ h)

/-- the Rust type of each integer type holds exactly the type's values -/
theorem intType_machine (x : Ext) {name Val} (h : IntType name Val) : ∃ (c : IntCode x name Val) (t : Machine),
    (∀ m p, (c.make m p).intFacet = some (m, t)) ∧ ∀ v, (∃ s, Val s v) ↔ t.Holds v := by
  have sg : ∀ (lo hi v : Int), (∃ s, SNumeral s v ∧ lo ≤ v ∧ v ≤ hi) ↔ Machine.Holds ⟨some lo, some hi⟩ v := by
    intro lo hi v
    constructor
    · rintro ⟨s, _, h1, h2⟩; exact ⟨fun l e => by cases e; exact h1, fun l e => by cases e; exact h2⟩
    · rintro ⟨h1, h2⟩; obtain ⟨s, hs⟩ := sNumeral_exists v; exact ⟨s, hs, h1 _ rfl, h2 _ rfl⟩
  have ug : ∀ (hi v : Int), (∃ s, UNumeral s v ∧ v ≤ hi) ↔ Machine.Holds ⟨some 0, some hi⟩ v := by
    intro hi v
    constructor
    · rintro ⟨s, h1, h2⟩; exact ⟨fun l e => by cases e; exact h1.nonneg, fun l e => by cases e; exact h2⟩
    · rintro ⟨h1, h2⟩; obtain ⟨s, hs⟩ := uNumeral_exists.mpr (h1 _ rfl); exact ⟨s, hs, h2 _ rfl⟩
  cases h with
  | short => exact ⟨⟨parseS 0x8000 0x7fff, .short, fun s v => by rw [parseS_iff]; simp, fun _ => rfl, fun _ _ _ => rfl⟩, _, fun _ _ => rfl, sg _ _⟩
  | unsignedShort => exact ⟨⟨parseUI 0xffff, .unsignedShort, fun s v => by rw [parseUI_iff]; simp, fun _ => rfl, fun _ _ _ => rfl⟩, _, fun _ _ => rfl, ug _⟩
  | int => exact ⟨⟨parseS 0x80000000 0x7fffffff, .int, fun s v => by rw [parseS_iff]; simp, fun _ => rfl, fun _ _ _ => rfl⟩, _, fun _ _ => rfl, sg _ _⟩
  | unsignedInt => exact ⟨⟨parseUI 0xffffffff, .unsignedInt, fun s v => by rw [parseUI_iff]; simp, fun _ => rfl, fun _ _ _ => rfl⟩, _, fun _ _ => rfl, ug _⟩
  | long => exact ⟨⟨parseS 0x8000000000000000 0x7fffffffffffffff, .long, fun s v => by rw [parseS_iff]; simp, fun _ => rfl, fun _ _ _ => rfl⟩, _, fun _ _ => rfl, sg _ _⟩
  | unsignedLong => exact ⟨⟨parseUI 0xffffffffffffffff, .unsignedLong, fun s v => by rw [parseUI_iff]; simp, fun _ => rfl, fun _ _ _ => rfl⟩, _, fun _ _ => rfl, ug _⟩
  | integer =>
    exact ⟨⟨parseBigInt, .integer, fun s v => parseBigInt_iff, fun _ => rfl, fun _ _ _ => rfl⟩, _, fun _ _ => rfl,
      fun v => ⟨fun _ => ⟨nofun, nofun⟩, fun _ => bigNumeral_exists v⟩⟩
  | positiveInteger =>
    exact ⟨⟨fun s => (parseBigUint s).map fun (n : Nat) => (n : Int), .positiveInteger, fun s v => parseBigUintI_iff, fun _ => rfl, fun _ _ _ => rfl⟩, _,
      fun _ _ => rfl, fun v => ⟨fun h => ⟨fun l e => by cases e; exact bigUNumeral_exists.mp h, nofun⟩, fun h => bigUNumeral_exists.mpr (h.1 _ rfl)⟩⟩

/-! ### bounds of integers -/

theorem intFacet_of_ok (x : Ext) {name : Str} {Val : Str → Int → Prop} (ht : IntType name Val) {ps : List Param} {d : XsdDatatype}
    (h : datatypeNameOf x (.cname xsdUri name) ps = .ok (.xsd d)) :
    ∃ (c : IntCode x name Val) (t : Machine) (m : MinMax Int) (pat : Option PatternFacet) (fd td : Option Nat),
      d = c.make m pat ∧ d.intFacet = some (m, t) ∧ (∀ v, (∃ s, Val s v) ↔ t.Holds v) ∧ RInv c.parse ps (m, pat, fd, td) := by
  obtain ⟨c, t, hm, hv⟩ := intType_machine x ht
  rw [datatypeNameOf_xsd, c.compile, mapBoth_ok] at h
  obtain ⟨a, h, e⟩ := h
  cases e
  obtain ⟨⟨m, pat⟩, hn, rfl⟩ := facetRes_ok h
  rw [numParams_loop x c.parse .invalidInt ps ({}, none, none, none)] at hn
  obtain ⟨st, hl, hst⟩ := Res.bind_eq_ok.mp hn
  have hi := loop_inv rangeStep_ok ps [] _ st RInv.start hl
  obtain ⟨m', pat', fd, td⟩ := st
  cases hst
  exact ⟨c, t, _, _, fd, td, rfl, hm _ _, hv, hi⟩

theorem range_minInc {Val : Str → Int → Prop} {p : Param} {w : Int} (h : p.name = "minInclusive".toList) :
    p.Range Val w ↔ ∃ b, Val p.value b ∧ b ≤ w := by
  unfold Param.Range; rw [h]
  exact ⟨fun h => h.1 rfl, fun h => ⟨fun _ => h, fun e => absurd e (by decide), fun e => absurd e (by decide), fun e => absurd e (by decide)⟩⟩
theorem range_minExc {Val : Str → Int → Prop} {p : Param} {w : Int} (h : p.name = "minExclusive".toList) :
    p.Range Val w ↔ ∃ b, Val p.value b ∧ b < w := by
  unfold Param.Range; rw [h]
  exact ⟨fun h => h.2.1 rfl, fun h => ⟨fun e => absurd e (by decide), fun _ => h, fun e => absurd e (by decide), fun e => absurd e (by decide)⟩⟩
theorem range_maxInc {Val : Str → Int → Prop} {p : Param} {w : Int} (h : p.name = "maxInclusive".toList) :
    p.Range Val w ↔ ∃ b, Val p.value b ∧ w ≤ b := by
  unfold Param.Range; rw [h]
  exact ⟨fun h => h.2.2.1 rfl, fun h => ⟨fun e => absurd e (by decide), fun e => absurd e (by decide), fun _ => h, fun e => absurd e (by decide)⟩⟩
theorem range_maxExc {Val : Str → Int → Prop} {p : Param} {w : Int} (h : p.name = "maxExclusive".toList) :
    p.Range Val w ↔ ∃ b, Val p.value b ∧ w < b := by
  unfold Param.Range; rw [h]
  exact ⟨fun h => h.2.2.2 rfl, fun h => ⟨fun e => absurd e (by decide), fun e => absurd e (by decide), fun e => absurd e (by decide), fun _ => h⟩⟩

theorem val_read {x : Ext} {name : Str} {Val : Str → Int → Prop} (c : IntCode x name Val) {s : Str} {u : Int} (h : c.parse s = some u)
    {P : Int → Prop} : (∃ b, Val s b ∧ P b) ↔ P u := by
  constructor
  · rintro ⟨b, hb, hp⟩
    have := ((c.parse_iff s b).mpr hb).symm.trans h
    cases this; exact hp
  · intro hp; exact ⟨u, (c.parse_iff s u).mp h, hp⟩

theorem succ_cases {t : Machine} {u : Int} (h : t.Holds u) :
    (t.Holds (u + 1) ∧ t.succ u = .ok (u + 1)) ∨ (¬ t.Holds (u + 1) ∧ t.succ u = .panic) := by
  obtain ⟨lo, hi⟩ := t
  unfold Machine.succ
  cases hi with
  | none => exact .inl ⟨⟨fun l e => by have := h.1 l e; omega, nofun⟩, rfl⟩
  | some hi =>
    by_cases hc : u + 1 ≤ hi
    · exact .inl ⟨⟨fun l e => by have := h.1 l e; omega, fun l e => by cases e; exact hc⟩, if_pos hc⟩
    · exact .inr ⟨fun h => hc (h.2 _ rfl), if_neg hc⟩

theorem pred_cases {t : Machine} {u : Int} (h : t.Holds u) :
    (t.Holds (u - 1) ∧ t.pred u = .ok (u - 1)) ∨ (¬ t.Holds (u - 1) ∧ t.pred u = .panic) := by
  obtain ⟨lo, hi⟩ := t
  unfold Machine.pred
  cases lo with
  | none => exact .inl ⟨⟨nofun, fun l e => by have := h.2 l e; omega⟩, rfl⟩
  | some lo =>
    by_cases hc : lo ≤ u - 1
    · exact .inl ⟨⟨fun l e => by cases e; exact hc, fun l e => by have := h.2 l e; omega⟩, if_pos hc⟩
    · exact .inr ⟨fun h => hc (h.1 _ rfl), if_neg hc⟩

/-- C75.  The least value that the compiled type reports is the least integer that the lower bound of the schema allows, and it
is a value of the type; nothing is reported exactly if the schema gives no lower bound.  Asking for it panics exactly if the schema
says `minExclusive` with the greatest value of the type. -/
theorem C75_integer_min (x : Ext) {name : Str} {Val : Str → Int → Prop} (ht : IntType name Val) {ps : List Param} {d : XsdDatatype}
    (h : datatypeNameOf x (.cname xsdUri name) ps = .ok (.xsd d)) {m : MinMax Int} {t : Machine} (hf : d.intFacet = some (m, t)) :
    (m.minVal t = .ok none ↔ ∀ p ∈ ps, p.isLower = false) ∧
    (∀ v, m.minVal t = .ok (some v) ↔ (∃ p ∈ ps, p.isLower = true) ∧ (∃ s, Val s v) ∧ ∀ w, v ≤ w ↔ AboveAll Val ps w) ∧
    (m.minVal t = .panic ↔ ∃ p ∈ ps, p.name = "minExclusive".toList ∧ ∃ b, Val p.value b ∧ ¬ ∃ s, Val s (b + 1)) := by
  obtain ⟨c, t', m', pat, fd, td, rfl, hf', hv, hi⟩ := intFacet_of_ok x ht h
  rw [hf] at hf'; cases hf'
  have hmin : BInv c.parse ps "minInclusive".toList "minExclusive".toList m.min := hi.1
  have value : ∀ {p u}, p ∈ ps → c.parse p.value = some u → (p.name = "minInclusive".toList → m.min = .inclusive u) ∧
      (p.name = "minExclusive".toList → m.min = .exclusive u) := fun hp hu => hmin.value (by decide) hp hu
  have low : ∀ {p}, p ∈ ps → p.isLower = true → ∃ u, c.parse p.value = some u := by
    intro p hp hl
    rcases isLower_iff.mp hl with hn | hn
    · obtain ⟨u, hu⟩ := (hmin.inc_iff (by decide)).mp ⟨p, hp, hn⟩
      rw [hu] at hmin; obtain ⟨q, _, _, e, un⟩ := hmin
      rw [un p hp (.inl hn)]; exact ⟨u, e⟩
    · obtain ⟨u, hu⟩ := (hmin.exc_iff (by decide)).mp ⟨p, hp, hn⟩
      rw [hu] at hmin; obtain ⟨q, _, _, e, un⟩ := hmin
      rw [un p hp (.inr hn)]; exact ⟨u, e⟩
  have pan : (∃ p ∈ ps, p.name = "minExclusive".toList ∧ ∃ b, Val p.value b ∧ ¬ ∃ s, Val s (b + 1)) ↔
      ∃ u, m.min = .exclusive u ∧ ¬ t.Holds (u + 1) := by
    constructor
    · rintro ⟨p, hp, hn, b, hb, hno⟩
      exact ⟨b, (value hp ((c.parse_iff _ _).mpr hb)).2 hn, fun h => hno ((hv _).mpr h)⟩
    · rintro ⟨u, hu, hno⟩
      rw [hu] at hmin
      obtain ⟨q, hq, hn, hp, _⟩ := hmin
      exact ⟨q, hq, hn, u, (c.parse_iff _ _).mp hp, fun h => hno ((hv _).mp h)⟩
  have holds : ∀ {p : Param} {u : Int}, c.parse p.value = some u → t.Holds u := fun h => (hv _).mp ⟨_, (c.parse_iff _ _).mp h⟩
  rw [pan]
  unfold MinMax.minVal
  cases hm : m.min with
  | unbounded =>
    have none : ∀ p ∈ ps, p.isLower = false := by
      intro p hp
      cases hl : p.isLower with
      | false => rfl
      | true =>
        obtain ⟨u, hu⟩ := low hp hl
        rcases isLower_iff.mp hl with hn | hn
        · have := (value hp hu).1 hn; rw [hm] at this; cases this
        · have := (value hp hu).2 hn; rw [hm] at this; cases this
    refine ⟨⟨fun _ => none, fun _ => rfl⟩, fun v => ⟨nofun, ?_⟩, ⟨nofun, ?_⟩⟩
    · rintro ⟨⟨p, hp, hl⟩, _⟩; rw [none p hp] at hl; cases hl
    · rintro ⟨u, hu, _⟩; cases hu
  | inclusive u =>
    rw [hm] at hmin
    obtain ⟨q, hq, hn, hp, un⟩ := hmin
    have hl : q.isLower = true := isLower_iff.mpr (.inl hn)
    have key : ∀ w, AboveAll Val ps w ↔ u ≤ w := by
      intro w
      have hr : q.Range Val w ↔ u ≤ w := (range_minInc hn).trans (val_read c hp)
      exact ⟨fun h => hr.mp (h q hq hl), fun h p hp' hl' => by rw [un p hp' (isLower_iff.mp hl')]; exact hr.mpr h⟩
    refine ⟨⟨nofun, fun h => ?_⟩, fun v => ⟨fun h => ?_, ?_⟩, ⟨nofun, ?_⟩⟩
    · rw [h q hq] at hl; cases hl
    · cases h; exact ⟨⟨q, hq, hl⟩, ⟨_, (c.parse_iff _ _).mp hp⟩, fun w => (key w).symm⟩
    · rintro ⟨_, _, h⟩
      have h1 := (h v).trans (key v); have h2 := (h u).trans (key u)
      have : v = u := by omega
      rw [this]
    · rintro ⟨u, hu, _⟩; cases hu
  | exclusive u =>
    rw [hm] at hmin
    obtain ⟨q, hq, hn, hp, un⟩ := hmin
    have hl : q.isLower = true := isLower_iff.mpr (.inr hn)
    have key : ∀ w, AboveAll Val ps w ↔ u + 1 ≤ w := by
      intro w
      have hr : q.Range Val w ↔ u < w := (range_minExc hn).trans (val_read c hp)
      rw [show u + 1 ≤ w ↔ u < w by omega]
      exact ⟨fun h => hr.mp (h q hq hl), fun h p hp' hl' => by rw [un p hp' (isLower_iff.mp hl')]; exact hr.mpr h⟩
    rcases succ_cases (holds hp) with ⟨h1, h2⟩ | ⟨h1, h2⟩
    · simp only [h2, Res.bind_ok]
      refine ⟨⟨nofun, fun h => ?_⟩, fun v => ⟨fun h => ?_, ?_⟩, ⟨nofun, ?_⟩⟩
      · rw [h q hq] at hl; cases hl
      · cases h; exact ⟨⟨q, hq, hl⟩, (hv _).mpr h1, fun w => (key w).symm⟩
      · rintro ⟨_, _, h⟩
        have h3 := (h v).trans (key v); have h4 := (h (u + 1)).trans (key (u + 1))
        have : v = u + 1 := by omega
        rw [this]
      · rintro ⟨u', hu, hno⟩; cases hu; exact absurd h1 hno
    · simp only [h2, Res.bind_panic]
      refine ⟨⟨nofun, fun h => ?_⟩, fun v => ⟨nofun, ?_⟩, ⟨fun _ => ⟨u, rfl, h1⟩, fun _ => by simp⟩⟩
      · rw [h q hq] at hl; cases hl
      · rintro ⟨_, hs, h⟩
        have h3 := (h v).trans (key v); have h4 := (h (u + 1)).trans (key (u + 1))
        have : v = u + 1 := by omega
        rw [this, hv] at hs; exact absurd hs h1

/-- C75.  The same for the greatest value. -/
theorem C75_integer_max (x : Ext) {name : Str} {Val : Str → Int → Prop} (ht : IntType name Val) {ps : List Param} {d : XsdDatatype}
    (h : datatypeNameOf x (.cname xsdUri name) ps = .ok (.xsd d)) {m : MinMax Int} {t : Machine} (hf : d.intFacet = some (m, t)) :
    (m.maxVal t = .ok none ↔ ∀ p ∈ ps, p.isUpper = false) ∧
    (∀ v, m.maxVal t = .ok (some v) ↔ (∃ p ∈ ps, p.isUpper = true) ∧ (∃ s, Val s v) ∧ ∀ w, w ≤ v ↔ BelowAll Val ps w) ∧
    (m.maxVal t = .panic ↔ ∃ p ∈ ps, p.name = "maxExclusive".toList ∧ ∃ b, Val p.value b ∧ ¬ ∃ s, Val s (b - 1)) := by
  obtain ⟨c, t', m', pat, fd, td, rfl, hf', hv, hi⟩ := intFacet_of_ok x ht h
  rw [hf] at hf'; cases hf'
  have hmin : BInv c.parse ps "maxInclusive".toList "maxExclusive".toList m.max := hi.2
  have value : ∀ {p u}, p ∈ ps → c.parse p.value = some u → (p.name = "maxInclusive".toList → m.max = .inclusive u) ∧
      (p.name = "maxExclusive".toList → m.max = .exclusive u) := fun hp hu => hmin.value (by decide) hp hu
  have low : ∀ {p}, p ∈ ps → p.isUpper = true → ∃ u, c.parse p.value = some u := by
    intro p hp hl
    rcases isUpper_iff.mp hl with hn | hn
    · obtain ⟨u, hu⟩ := (hmin.inc_iff (by decide)).mp ⟨p, hp, hn⟩
      rw [hu] at hmin; obtain ⟨q, _, _, e, un⟩ := hmin
      rw [un p hp (.inl hn)]; exact ⟨u, e⟩
    · obtain ⟨u, hu⟩ := (hmin.exc_iff (by decide)).mp ⟨p, hp, hn⟩
      rw [hu] at hmin; obtain ⟨q, _, _, e, un⟩ := hmin
      rw [un p hp (.inr hn)]; exact ⟨u, e⟩
  have pan : (∃ p ∈ ps, p.name = "maxExclusive".toList ∧ ∃ b, Val p.value b ∧ ¬ ∃ s, Val s (b - 1)) ↔
      ∃ u, m.max = .exclusive u ∧ ¬ t.Holds (u - 1) := by
    constructor
    · rintro ⟨p, hp, hn, b, hb, hno⟩
      exact ⟨b, (value hp ((c.parse_iff _ _).mpr hb)).2 hn, fun h => hno ((hv _).mpr h)⟩
    · rintro ⟨u, hu, hno⟩
      rw [hu] at hmin
      obtain ⟨q, hq, hn, hp, _⟩ := hmin
      exact ⟨q, hq, hn, u, (c.parse_iff _ _).mp hp, fun h => hno ((hv _).mp h)⟩
  have holds : ∀ {p : Param} {u : Int}, c.parse p.value = some u → t.Holds u := fun h => (hv _).mp ⟨_, (c.parse_iff _ _).mp h⟩
  rw [pan]
  unfold MinMax.maxVal
  cases hm : m.max with
  | unbounded =>
    have none : ∀ p ∈ ps, p.isUpper = false := by
      intro p hp
      cases hl : p.isUpper with
      | false => rfl
      | true =>
        obtain ⟨u, hu⟩ := low hp hl
        rcases isUpper_iff.mp hl with hn | hn
        · have := (value hp hu).1 hn; rw [hm] at this; cases this
        · have := (value hp hu).2 hn; rw [hm] at this; cases this
    refine ⟨⟨fun _ => none, fun _ => rfl⟩, fun v => ⟨nofun, ?_⟩, ⟨nofun, ?_⟩⟩
    · rintro ⟨⟨p, hp, hl⟩, _⟩; rw [none p hp] at hl; cases hl
    · rintro ⟨u, hu, _⟩; cases hu
  | inclusive u =>
    rw [hm] at hmin
    obtain ⟨q, hq, hn, hp, un⟩ := hmin
    have hl : q.isUpper = true := isUpper_iff.mpr (.inl hn)
    have key : ∀ w, BelowAll Val ps w ↔ w ≤ u := by
      intro w
      have hr : q.Range Val w ↔ w ≤ u := (range_maxInc hn).trans (val_read c hp)
      exact ⟨fun h => hr.mp (h q hq hl), fun h p hp' hl' => by rw [un p hp' (isUpper_iff.mp hl')]; exact hr.mpr h⟩
    refine ⟨⟨nofun, fun h => ?_⟩, fun v => ⟨fun h => ?_, ?_⟩, ⟨nofun, ?_⟩⟩
    · rw [h q hq] at hl; cases hl
    · cases h; exact ⟨⟨q, hq, hl⟩, ⟨_, (c.parse_iff _ _).mp hp⟩, fun w => (key w).symm⟩
    · rintro ⟨_, _, h⟩
      have h1 := (h v).trans (key v); have h2 := (h u).trans (key u)
      have : v = u := by omega
      rw [this]
    · rintro ⟨u, hu, _⟩; cases hu
  | exclusive u =>
    rw [hm] at hmin
    obtain ⟨q, hq, hn, hp, un⟩ := hmin
    have hl : q.isUpper = true := isUpper_iff.mpr (.inr hn)
    have key : ∀ w, BelowAll Val ps w ↔ w ≤ u - 1 := by
      intro w
      have hr : q.Range Val w ↔ w < u := (range_maxExc hn).trans (val_read c hp)
      rw [show w ≤ u - 1 ↔ w < u by omega]
      exact ⟨fun h => hr.mp (h q hq hl), fun h p hp' hl' => by rw [un p hp' (isUpper_iff.mp hl')]; exact hr.mpr h⟩
    rcases pred_cases (holds hp) with ⟨h1, h2⟩ | ⟨h1, h2⟩
    · simp only [h2, Res.bind_ok]
      refine ⟨⟨nofun, fun h => ?_⟩, fun v => ⟨fun h => ?_, ?_⟩, ⟨nofun, ?_⟩⟩
      · rw [h q hq] at hl; cases hl
      · cases h; exact ⟨⟨q, hq, hl⟩, (hv _).mpr h1, fun w => (key w).symm⟩
      · rintro ⟨_, _, h⟩
        have h3 := (h v).trans (key v); have h4 := (h (u - 1)).trans (key (u - 1))
        have : v = u - 1 := by omega
        rw [this]
      · rintro ⟨u', hu, hno⟩; cases hu; exact absurd h1 hno
    · simp only [h2, Res.bind_panic]
      refine ⟨⟨nofun, fun h => ?_⟩, fun v => ⟨nofun, ?_⟩, ⟨fun _ => ⟨u, rfl, h1⟩, fun _ => by simp⟩⟩
      · rw [h q hq] at hl; cases hl
      · rintro ⟨_, hs, h⟩
        have h3 := (h v).trans (key v); have h4 := (h (u - 1)).trans (key (u - 1))
        have : v = u - 1 := by omega
        rw [this, hv] at hs; exact absurd hs h1

/-- the accessors are there for every compiled integer type, and never fail otherwise -/
theorem C75_integer_reports (x : Ext) {name : Str} {Val : Str → Int → Prop} (ht : IntType name Val) {ps : List Param} {d : XsdDatatype}
    (h : datatypeNameOf x (.cname xsdUri name) ps = .ok (.xsd d)) : ∃ m t, d.intFacet = some (m, t) ∧
    (m.bounded = true ↔ ∃ p ∈ ps, p.isLower = true ∨ p.isUpper = true) ∧ m.minVal t ≠ .err () ∧ m.maxVal t ≠ .err () := by
  obtain ⟨c, t, m, pat, fd, td, rfl, hf, hv, hi⟩ := intFacet_of_ok x ht h
  refine ⟨m, t, hf, ?_, ?_, ?_⟩
  · have h1 := (C75_integer_min x ht h hf).1
    have h2 := (C75_integer_max x ht h hf).1
    have e1 : m.minVal t = .ok none ↔ m.min = .unbounded := by
      unfold MinMax.minVal
      cases m.min with
      | unbounded => simp
      | inclusive u => simp
      | exclusive u => unfold Machine.succ; cases t.hi with
        | none => simp
        | some hi => by_cases hc : u + 1 ≤ hi <;> simp [hc]
    have e2 : m.maxVal t = .ok none ↔ m.max = .unbounded := by
      unfold MinMax.maxVal
      cases m.max with
      | unbounded => simp
      | inclusive u => simp
      | exclusive u => unfold Machine.pred; cases t.lo with
        | none => simp
        | some lo => by_cases hc : lo ≤ u - 1 <;> simp [hc]
    rw [e1] at h1; rw [e2] at h2
    have hb : m.bounded = true ↔ ¬ (m.min = .unbounded ∧ m.max = .unbounded) := by
      unfold MinMax.bounded
      cases m.min <;> cases m.max <;> simp
    rw [hb, h1, h2]
    constructor
    · intro hn
      apply Classical.byContradiction
      intro hno
      refine hn ⟨fun p hp => ?_, fun p hp => ?_⟩
      · cases hl : p.isLower with
        | false => rfl
        | true => exact absurd ⟨p, hp, .inl hl⟩ hno
      · cases hl : p.isUpper with
        | false => rfl
        | true => exact absurd ⟨p, hp, .inr hl⟩ hno
    · rintro ⟨p, hp, hl | hl⟩ ⟨a, b⟩
      · rw [a p hp] at hl; cases hl
      · rw [b p hp] at hl; cases hl
  · unfold MinMax.minVal
    cases m.min with
    | unbounded => nofun
    | inclusive u => nofun
    | exclusive u => unfold Machine.succ; cases t.hi with
      | none => nofun
      | some hi => by_cases hc : u + 1 ≤ hi <;> simp [hc]
  · unfold MinMax.maxVal
    cases m.max with
    | unbounded => nofun
    | inclusive u => nofun
    | exclusive u => unfold Machine.pred; cases t.lo with
      | none => nofun
      | some lo => by_cases hc : lo ≤ u - 1 <;> simp [hc]

/-- C75.  When both are reported, the compiled type accepts a text exactly if it is a numeral of a value between the two that
the last pattern matches. -/
theorem C75_integer_range (x : Ext) {name : Str} {Val : Str → Int → Prop} (ht : IntType name Val) {ps : List Param} {d : XsdDatatype}
    (h : datatypeNameOf x (.cname xsdUri name) ps = .ok (.xsd d)) {m : MinMax Int} {t : Machine} (hf : d.intFacet = some (m, t))
    {lo hi : Option Int} (hlo : m.minVal t = .ok lo) (hhi : m.maxVal t = .ok hi) (s : Str) :
    d.isValid x s = some true ↔
      (∃ v, Val s v ∧ (∀ a, lo = some a → a ≤ v) ∧ (∀ b, hi = some b → v ≤ b)) ∧ PatternsOk x ps s := by
  have hv := C27_integer_range_facets x ht h s
  rw [show (stdLib x).validD (.xsd d) s = d.isValid x s from rfl] at hv
  rw [hv]
  obtain ⟨a1, a2, _⟩ := C75_integer_min x ht h hf
  obtain ⟨b1, b2, _⟩ := C75_integer_max x ht h hf
  have key : ∀ v, (∀ p ∈ ps, p.Range Val v) ↔ (∀ a, lo = some a → a ≤ v) ∧ (∀ b, hi = some b → v ≤ b) := by
    intro v
    have split : (∀ p ∈ ps, p.Range Val v) ↔ AboveAll Val ps v ∧ BelowAll Val ps v := by
      constructor
      · intro h; exact ⟨fun p hp _ => h p hp, fun p hp _ => h p hp⟩
      · rintro ⟨h1, h2⟩ p hp
        cases hl : p.isLower with
        | true => exact h1 p hp hl
        | false =>
          cases hu : p.isUpper with
          | true => exact h2 p hp hu
          | false =>
            have n1 : ¬ (p.name = "minInclusive".toList ∨ p.name = "minExclusive".toList) := fun h => by rw [isLower_iff.mpr h] at hl; cases hl
            have n2 : ¬ (p.name = "maxInclusive".toList ∨ p.name = "maxExclusive".toList) := fun h => by rw [isUpper_iff.mpr h] at hu; cases hu
            exact ⟨fun h => absurd (.inl h) n1, fun h => absurd (.inr h) n1, fun h => absurd (.inl h) n2, fun h => absurd (.inr h) n2⟩
    rw [split]
    have h1 : AboveAll Val ps v ↔ ∀ a, lo = some a → a ≤ v := by
      cases lo with
      | none =>
        have := a1.mp hlo
        exact ⟨fun _ => nofun, fun _ p hp hl => by rw [this p hp] at hl; cases hl⟩
      | some a =>
        have := ((a2 a).mp hlo).2.2 v
        exact ⟨fun h a' e => by cases e; exact this.mpr h, fun h => this.mp (h a rfl)⟩
    have h2 : BelowAll Val ps v ↔ ∀ a, hi = some a → v ≤ a := by
      cases hi with
      | none =>
        have := b1.mp hhi
        exact ⟨fun _ => nofun, fun _ p hp hl => by rw [this p hp] at hl; cases hl⟩
      | some a =>
        have := ((b2 a).mp hhi).2.2 v
        exact ⟨fun h a' e => by cases e; exact this.mpr h, fun h => this.mp (h a rfl)⟩
    rw [h1, h2]
  simp only [key]

end Verif
