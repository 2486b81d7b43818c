import Verif.Spec.Facets
import Verif.Props.Facets
import Verif.Props.Lengths
/-
C74: the loops over the parameters, one step at a time.
-/
namespace Verif

/-- a loop over parameters -/
def loop {σ : Type} (step : σ → Param → Res FacetErr σ) : σ → List Param → Res FacetErr σ
  | st, [] => .ok st
  | st, p :: ps => (step st p).bind fun st' => loop step st' ps

/-- what went wrong, if anything -/
def Res.wrong {ε α : Type} : Res ε α → Option (Option ε)
  | .ok _ => none
  | .err e => some (some e)
  | .panic => some none

section
variable {σ : Type} {step : σ → Param → Res FacetErr σ} {Obj : List Param → Param → Option FacetErr → Prop}
  {Inv : List Param → σ → Prop}

/-- `Unobjected`, after some parameters -/
def UnobjFrom (Obj : List Param → Param → Option FacetErr → Prop) (pre ps : List Param) : Prop :=
  ∀ b p a, ps = b ++ p :: a → ∀ o, ¬ Obj (pre ++ b) p o

def FirstFrom (Obj : List Param → Param → Option FacetErr → Prop) (pre ps : List Param) (o : Option FacetErr) : Prop :=
  ∃ b p a, ps = b ++ p :: a ∧ UnobjFrom Obj pre b ∧ Obj (pre ++ b) p o

theorem unobjFrom_cons {pre ps : List Param} {p : Param} :
    UnobjFrom Obj pre (p :: ps) ↔ (∀ o, ¬ Obj pre p o) ∧ UnobjFrom Obj (pre ++ [p]) ps := by
  constructor
  · intro h
    refine ⟨fun o ho => h [] p ps rfl o (by simpa using ho), fun b q a e o ho => ?_⟩
    exact h (p :: b) q a (by rw [e]; rfl) o (by simpa using ho)
  · rintro ⟨h1, h2⟩ b q a e o ho
    cases b with
    | nil => cases e; exact h1 o (by simpa using ho)
    | cons c b => cases e; exact h2 b q a rfl o (by simpa using ho)

theorem firstFrom_cons {pre ps : List Param} {p : Param} {o : Option FacetErr} :
    FirstFrom Obj pre (p :: ps) o ↔ Obj pre p o ∨ ((∀ o', ¬ Obj pre p o') ∧ FirstFrom Obj (pre ++ [p]) ps o) := by
  constructor
  · rintro ⟨b, q, a, e, hu, ho⟩
    cases b with
    | nil => cases e; exact .inl (by simpa using ho)
    | cons c b =>
      cases e
      obtain ⟨h1, h2⟩ := unobjFrom_cons.mp hu
      exact .inr ⟨h1, b, q, a, rfl, h2, by simpa using ho⟩
  · rintro (h | ⟨h1, b, q, a, rfl, hu, ho⟩)
    · exact ⟨[], p, ps, rfl, fun b _ _ e => by simp at e, by simpa using h⟩
    · exact ⟨p :: b, q, a, rfl, unobjFrom_cons.mpr ⟨h1, hu⟩, by simpa using ho⟩

/-- the step does what the objections say -/
def StepOk (step : σ → Param → Res FacetErr σ) (Obj : List Param → Param → Option FacetErr → Prop)
    (Inv : List Param → σ → Prop) : Prop :=
  ∀ pre st p, Inv pre st → (∀ o, Obj pre p o ↔ (step st p).wrong = some o) ∧ ∀ st', step st p = .ok st' → Inv (pre ++ [p]) st'

theorem loop_wrong (hs : StepOk step Obj Inv) : ∀ (ps pre : List Param) (st : σ), Inv pre st →
    (∀ o, (loop step st ps).wrong = some o ↔ FirstFrom Obj pre ps o) ∧
    ((loop step st ps).wrong = none ↔ UnobjFrom Obj pre ps)
  | [], pre, st, _ => by
    refine ⟨fun o => ⟨nofun, ?_⟩, ⟨fun _ b p a e => by simp at e, fun _ => rfl⟩⟩
    rintro ⟨b, p, a, e, _⟩; simp at e
  | p :: ps, pre, st, hi => by
    obtain ⟨h1, h2⟩ := hs pre st p hi
    have e : loop step st (p :: ps) = (step st p).bind fun st' => loop step st' ps := rfl
    cases hst : step st p with
    | ok st' =>
      obtain ⟨ih1, ih2⟩ := loop_wrong hs ps (pre ++ [p]) st' (h2 st' hst)
      have hn : ∀ o, ¬ Obj pre p o := fun o ho => by have := (h1 o).mp ho; rw [hst] at this; cases this
      rw [e, hst, Res.bind_ok]
      refine ⟨fun o => ?_, ?_⟩
      · rw [ih1, firstFrom_cons]
        exact ⟨fun h => .inr ⟨hn, h⟩, fun h => h.elim (fun h => absurd h (hn o)) (·.2)⟩
      · rw [ih2, unobjFrom_cons]; exact ⟨fun h => ⟨hn, h⟩, (·.2)⟩
    | err e' =>
      rw [e, hst, Res.bind_err]
      have ho : Obj pre p (some e') := (h1 _).mpr (by rw [hst]; rfl)
      refine ⟨fun o => ?_, ⟨nofun, fun h => absurd ho ((unobjFrom_cons.mp h).1 _)⟩⟩
      rw [firstFrom_cons]
      constructor
      · intro h; cases h; exact .inl ho
      · rintro (h | ⟨h, _⟩)
        · have := (h1 o).mp h; rw [hst] at this; exact this
        · exact absurd ho (h _)
    | panic =>
      rw [e, hst, Res.bind_panic]
      have ho : Obj pre p none := (h1 _).mpr (by rw [hst]; rfl)
      refine ⟨fun o => ?_, ⟨nofun, fun h => absurd ho ((unobjFrom_cons.mp h).1 _)⟩⟩
      rw [firstFrom_cons]
      constructor
      · intro h; cases h; exact .inl ho
      · rintro (h | ⟨h, _⟩)
        · have := (h1 o).mp h; rw [hst] at this; exact this
        · exact absurd ho (h _)

theorem loop_inv (hs : StepOk step Obj Inv) : ∀ (ps pre : List Param) (st st' : σ), Inv pre st → loop step st ps = .ok st' →
    Inv (pre ++ ps) st'
  | [], pre, st, st', hi, h => by cases h; simpa using hi
  | p :: ps, pre, st, st', hi, h => by
    have e : loop step st (p :: ps) = (step st p).bind fun st' => loop step st' ps := rfl
    rw [e] at h
    cases hst : step st p with
    | ok st1 =>
      rw [hst] at h
      have := loop_inv hs ps (pre ++ [p]) st1 st' ((hs pre st p hi).2 st1 hst) h
      simpa using this
    | err e' => rw [hst] at h; cases h
    | panic => rw [hst] at h; cases h

theorem unobjFrom_nil {ps : List Param} : UnobjFrom Obj [] ps ↔ Unobjected Obj ps := by
  unfold UnobjFrom Unobjected; simp only [List.nil_append]

theorem firstFrom_nil {ps : List Param} {o : Option FacetErr} : FirstFrom Obj [] ps o ↔ FirstObjection Obj ps o := by
  unfold FirstFrom FirstObjection; simp only [List.nil_append, unobjFrom_nil]
end

/-! ### patterns only -/

def patStep (x : Ext) (_ : Option PatternFacet) (p : Param) : Res FacetErr (Option PatternFacet) :=
  if p.name = "pattern".toList then (mkPattern x p.value).bind fun re => .ok (some re) else .err .invalidFacet

theorem patParams_loop (x : Ext) : ∀ (ps : List Param) (pat : Option PatternFacet), patParams x pat ps = loop (patStep x) pat ps
  | [], _ => rfl
  | p :: ps, pat => by
    unfold patParams loop patStep
    split
    · unfold mkPattern; split
      · exact patParams_loop x ps _
      · rfl
    · rfl

theorem patStep_ok (x : Ext) : StepOk (patStep x) (fun _ => PatternObjection x) (fun _ _ => True) := by
  intro pre st p _
  refine ⟨fun o => ?_, fun _ _ => trivial⟩
  unfold patStep
  by_cases hn : p.name = "pattern".toList
  · rw [if_pos hn]; unfold mkPattern
    cases hr : x.reNew p.value with
    | true =>
      rw [if_pos rfl]
      constructor
      · intro h; cases h with
        | unknown h => exact absurd hn h
        | badPattern _ h => rw [hr] at h; cases h
      · nofun
    | false =>
      rw [if_neg (by simp)]
      constructor
      · intro h; cases h with
        | unknown h => exact absurd hn h
        | badPattern _ h => rfl
      · intro h; cases h; exact .badPattern hn hr
  · rw [if_neg hn]
    constructor
    · intro h; cases h with
      | unknown h => rfl
      | badPattern h => exact absurd h hn
    · intro h; cases h; exact .unknown hn

/-! ### range facets -/

section
variable {T : Type} [LE T] [LT T] [DecidableRel (α := T) (· ≤ ·)] [DecidableRel (α := T) (· < ·)]
variable (x : Ext) (parse : Str → Option T) (unread : FacetErr) (digits : Bool)

abbrev RSt (T : Type) := MinMax T × Option PatternFacet × Option Nat × Option Nat

def rangeStep (st : RSt T) (p : Param) : Res FacetErr (RSt T) :=
  if p.name = "minInclusive".toList then
    (orErr unread (parse p.value)).bind fun v => (st.1.minInclusive v).bind fun m => .ok (m, st.2)
  else if p.name = "minExclusive".toList then
    (orErr unread (parse p.value)).bind fun v => (st.1.minExclusive v).bind fun m => .ok (m, st.2)
  else if p.name = "maxInclusive".toList then
    (orErr unread (parse p.value)).bind fun v => (st.1.maxInclusive v).bind fun m => .ok (m, st.2)
  else if p.name = "maxExclusive".toList then
    (orErr unread (parse p.value)).bind fun v => (st.1.maxExclusive v).bind fun m => .ok (m, st.2)
  else if p.name = "pattern".toList then
    (mkPattern x p.value).bind fun re => .ok (st.1, some re, st.2.2)
  else if digits = true ∧ p.name = "fractionDigits".toList then
    (orErr .invalidInt (parseU 10 0xffff p.value)).bind fun n => .ok (st.1, st.2.1, some n, st.2.2.2)
  else if digits = true ∧ p.name = "totalDigits".toList then
    (orErr .invalidInt (parseU 10 0xffff p.value)).bind fun n => .ok (st.1, st.2.1, st.2.2.1, some n)
  else .err .invalidFacet

theorem Res.bind_bind {ε α β γ : Type} (r : Res ε α) (f : α → Res ε β) (g : β → Res ε γ) :
    (r.bind f).bind g = r.bind fun a => (f a).bind g := by cases r <;> rfl

theorem Res.bind_congr {ε α β : Type} {r : Res ε α} {f g : α → Res ε β} (h : ∀ a, f a = g a) : r.bind f = r.bind g := by
  rw [funext h]

theorem numParams_loop : ∀ (ps : List Param) (st : RSt T),
    numParams x (fun s => orErr unread (parse s)) st.1 st.2.1 ps = (loop (rangeStep x parse unread false) st ps).bind fun r => .ok (r.1, r.2.1)
  | [], _ => rfl
  | p :: ps, st => by
    have ih := numParams_loop ps
    have hb : ∀ (f : T → Res FacetErr (MinMax T)),
        ((orErr unread (parse p.value)).bind fun v => (f v).bind fun m => numParams x (fun s => orErr unread (parse s)) m st.2.1 ps) =
        ((((orErr unread (parse p.value)).bind fun v => (f v).bind fun m => .ok (m, st.2)).bind fun st' =>
          loop (rangeStep x parse unread false) st' ps).bind fun r => .ok (r.1, r.2.1)) := by
      intro f
      cases parse p.value with
      | none => rfl
      | some v =>
        simp only [orErr, Res.bind_ok]
        cases f v with
        | ok m => exact ih (m, st.2)
        | err e => rfl
        | panic => rfl
    unfold numParams loop rangeStep
    split
    · exact hb _
    · split
      · exact hb _
      · split
        · exact hb _
        · split
          · exact hb _
          · split
            · unfold mkPattern; split
              · exact ih (st.1, some p.value, st.2.2)
              · rfl
            · rw [if_neg (by simp), if_neg (by simp)]; rfl

theorem decParams_loop : ∀ (ps : List Param) (m : MinMax Rat) (pat : Option PatternFacet) (fd td : Option Nat),
    decParams x m pat fd td ps = loop (rangeStep x x.parseDec .invalidInt true) (m, pat, fd, td) ps
  | [], _, _, _, _ => rfl
  | p :: ps, m, pat, fd, td => by
    have ih := decParams_loop ps
    have hb : ∀ (f : Rat → Res FacetErr (MinMax Rat)),
        ((parseDecP x p.value).bind fun v => (f v).bind fun m => decParams x m pat fd td ps) =
        (((orErr .invalidInt (x.parseDec p.value)).bind fun v => (f v).bind fun m => .ok (m, (pat, fd, td))).bind fun st' =>
          loop (rangeStep x x.parseDec .invalidInt true) st' ps) := by
      intro f
      unfold parseDecP
      cases x.parseDec p.value with
      | none => rfl
      | some v =>
        simp only [orErr, Res.bind_ok]
        cases f v with
        | ok m => exact ih _ _ _ _
        | err e => rfl
        | panic => rfl
    unfold decParams loop rangeStep
    split
    · exact hb _
    · split
      · exact hb _
      · split
        · exact hb _
        · split
          · exact hb _
          · split
            · unfold mkPattern; split
              · exact ih _ _ _ _
              · rfl
            · by_cases h1 : p.name = "fractionDigits".toList
              · rw [if_pos h1, if_pos (show true = true ∧ p.name = "fractionDigits".toList from ⟨rfl, h1⟩)]
                cases parseU 10 0xffff p.value with
                | none => rfl
                | some n => exact ih _ _ _ _
              · rw [if_neg h1, if_neg (show ¬ (true = true ∧ p.name = "fractionDigits".toList) from fun h => h1 h.2)]
                by_cases h2 : p.name = "totalDigits".toList
                · rw [if_pos h2, if_pos (show true = true ∧ p.name = "totalDigits".toList from ⟨rfl, h2⟩)]
                  cases parseU 10 0xffff p.value with
                  | none => rfl
                  | some n => exact ih _ _ _ _
                · rw [if_neg h2, if_neg (show ¬ (true = true ∧ p.name = "totalDigits".toList) from fun h => h2 h.2)]; rfl

/-- what a bound remembers of the parameters so far -/
def BInv (pre : List Param) (inc exc : Str) : Bound T → Prop
  | .unbounded => ∀ q ∈ pre, q.name ≠ inc ∧ q.name ≠ exc
  | .inclusive u => ∃ q ∈ pre, q.name = inc ∧ parse q.value = some u ∧ ∀ q' ∈ pre, q'.name = inc ∨ q'.name = exc → q' = q
  | .exclusive u => ∃ q ∈ pre, q.name = exc ∧ parse q.value = some u ∧ ∀ q' ∈ pre, q'.name = inc ∨ q'.name = exc → q' = q

variable {parse}
omit [LE T] [LT T] [DecidableRel (α := T) (· ≤ ·)] [DecidableRel (α := T) (· < ·)] in
theorem BInv.other {pre : List Param} {inc exc : Str} {b : Bound T} {p : Param} (h : BInv parse pre inc exc b)
    (h1 : p.name ≠ inc) (h2 : p.name ≠ exc) : BInv parse (pre ++ [p]) inc exc b := by
  have un : ∀ q : Param, (∀ q' ∈ pre, q'.name = inc ∨ q'.name = exc → q' = q) →
      ∀ q' ∈ pre ++ [p], q'.name = inc ∨ q'.name = exc → q' = q := by
    intro q hq q' hm hn
    rcases List.mem_append.mp hm with hm | hm
    · exact hq q' hm hn
    · cases List.mem_singleton.mp hm; exact (hn.elim h1 h2).elim
  cases b with
  | unbounded =>
    intro q hq
    rcases List.mem_append.mp hq with hq | hq
    · exact h q hq
    · cases List.mem_singleton.mp hq; exact ⟨h1, h2⟩
  | inclusive u => obtain ⟨q, a, b, c, d⟩ := h; exact ⟨q, List.mem_append.mpr (.inl a), b, c, un q d⟩
  | exclusive u => obtain ⟨q, a, b, c, d⟩ := h; exact ⟨q, List.mem_append.mpr (.inl a), b, c, un q d⟩

omit [LE T] [LT T] [DecidableRel (α := T) (· ≤ ·)] [DecidableRel (α := T) (· < ·)] in
theorem BInv.fresh {pre : List Param} {inc exc : Str} {p : Param} (h : BInv parse pre inc exc .unbounded)
    {q' : Param} (hm : q' ∈ pre ++ [p]) (hn : q'.name = inc ∨ q'.name = exc) : q' = p := by
  rcases List.mem_append.mp hm with hm | hm
  · have := h q' hm; exact (hn.elim this.1 this.2).elim
  · exact List.mem_singleton.mp hm

omit [LE T] [LT T] [DecidableRel (α := T) (· ≤ ·)] [DecidableRel (α := T) (· < ·)] in
theorem BInv.inc_iff {pre : List Param} {inc exc : Str} {b : Bound T} (h : BInv parse pre inc exc b) (hne : inc ≠ exc) :
    (∃ q ∈ pre, q.name = inc) ↔ ∃ u, b = .inclusive u := by
  constructor
  · rintro ⟨q, hq, hn⟩
    cases b with
    | unbounded => exact absurd hn (h q hq).1
    | inclusive u => exact ⟨u, rfl⟩
    | exclusive u => obtain ⟨q', _, b, _, d⟩ := h; cases d q hq (.inl hn); exact absurd (hn.symm.trans b) hne
  · rintro ⟨u, rfl⟩; obtain ⟨q, a, b, _⟩ := h; exact ⟨q, a, b⟩

omit [LE T] [LT T] [DecidableRel (α := T) (· ≤ ·)] [DecidableRel (α := T) (· < ·)] in
theorem BInv.exc_iff {pre : List Param} {inc exc : Str} {b : Bound T} (h : BInv parse pre inc exc b) (hne : inc ≠ exc) :
    (∃ q ∈ pre, q.name = exc) ↔ ∃ u, b = .exclusive u := by
  constructor
  · rintro ⟨q, hq, hn⟩
    cases b with
    | unbounded => exact absurd hn (h q hq).2
    | exclusive u => exact ⟨u, rfl⟩
    | inclusive u => obtain ⟨q', _, b, _, d⟩ := h; cases d q hq (.inr hn); exact absurd (b.symm.trans hn) hne
  · rintro ⟨u, rfl⟩; obtain ⟨q, a, b, _⟩ := h; exact ⟨q, a, b⟩

omit [LE T] [LT T] [DecidableRel (α := T) (· ≤ ·)] [DecidableRel (α := T) (· < ·)] in
/-- the values of the bounds given so far -/
theorem BInv.value {pre : List Param} {inc exc : Str} {b : Bound T} (h : BInv parse pre inc exc b) (hne : inc ≠ exc) {q : Param}
    (hq : q ∈ pre) {u : T} (hu : parse q.value = some u) : (q.name = inc → b = .inclusive u) ∧ (q.name = exc → b = .exclusive u) := by
  refine ⟨fun hn => ?_, fun hn => ?_⟩
  · obtain ⟨w, rfl⟩ := (h.inc_iff hne).mp ⟨q, hq, hn⟩
    obtain ⟨q', _, _, c, d⟩ := h; cases d q hq (.inl hn); rw [c] at hu; cases hu; rfl
  · obtain ⟨w, rfl⟩ := (h.exc_iff hne).mp ⟨q, hq, hn⟩
    obtain ⟨q', _, _, c, d⟩ := h; cases d q hq (.inr hn); rw [c] at hu; cases hu; rfl

def RInv (parse : Str → Option T) (pre : List Param) (st : RSt T) : Prop :=
  BInv parse pre "minInclusive".toList "minExclusive".toList st.1.min ∧
  BInv parse pre "maxInclusive".toList "maxExclusive".toList st.1.max

theorem isLower_iff {p : Param} : p.isLower = true ↔ p.name = "minInclusive".toList ∨ p.name = "minExclusive".toList := by
  unfold Param.isLower; rw [Bool.or_eq_true, beq_iff_eq, beq_iff_eq]
theorem isUpper_iff {p : Param} : p.isUpper = true ↔ p.name = "maxInclusive".toList ∨ p.name = "maxExclusive".toList := by
  unfold Param.isUpper; rw [Bool.or_eq_true, beq_iff_eq, beq_iff_eq]
theorem isDigits_iff {p : Param} : p.isDigits = true ↔ p.name = "fractionDigits".toList ∨ p.name = "totalDigits".toList := by
  unfold Param.isDigits; rw [Bool.or_eq_true, beq_iff_eq, beq_iff_eq]

theorem not_both {p : Param} (h : p.isLower = true) : p.isUpper = false := by
  rcases isLower_iff.mp h with h | h <;> (unfold Param.isUpper; rw [h]; decide)
theorem not_lower {p : Param} (h : p.isUpper = true) : p.isLower = false := by
  rcases isUpper_iff.mp h with h | h <;> (unfold Param.isLower; rw [h]; decide)
theorem bound_name {p : Param} (h : p.isLower = true ∨ p.isUpper = true) : p.name ≠ "pattern".toList ∧ p.isDigits = false := by
  rcases h with h | h
  · rcases isLower_iff.mp h with h | h <;> (unfold Param.isDigits; rw [h]; decide)
  · rcases isUpper_iff.mp h with h | h <;> (unfold Param.isDigits; rw [h]; decide)

variable {x unread digits}

theorem clash_lower {pre : List Param} {st : RSt T} (hi : RInv parse pre st) {p : Param} (hp : p.isLower = true) {v : T}
    (hv : parse p.value = some v) : Contradicts (fun s v => parse s = some v) pre p ↔ st.1.minConflict v = true := by
  have hu := not_both hp
  have hne : "maxInclusive".toList ≠ "maxExclusive".toList := by decide
  obtain ⟨_, hi⟩ := hi
  unfold MinMax.minConflict
  constructor
  · rintro ⟨q, hq, u, v', hqu, hpv, h⟩
    have := hpv.symm.trans hv; cases this
    obtain ⟨b1, b2⟩ := hi.value hne hq hqu
    rcases h with ⟨_, hn, h⟩ | ⟨_, hn, h⟩ | ⟨h, _⟩ | ⟨h, _⟩
    · rw [b1 hn]; simpa using h
    · rw [b2 hn]; simpa using h
    · rw [hu] at h; cases h
    · rw [hu] at h; cases h
  · intro h
    cases hm : st.1.max with
    | unbounded => rw [hm] at h; cases h
    | inclusive u =>
      rw [hm] at h hi
      obtain ⟨q, a, b, c, _⟩ := hi
      exact ⟨q, a, u, v, c, hv, .inl ⟨hp, b, by simpa using h⟩⟩
    | exclusive u =>
      rw [hm] at h hi
      obtain ⟨q, a, b, c, _⟩ := hi
      exact ⟨q, a, u, v, c, hv, .inr (.inl ⟨hp, b, by simpa using h⟩)⟩

theorem clash_upper {pre : List Param} {st : RSt T} (hi : RInv parse pre st) {p : Param} (hp : p.isUpper = true) {v : T}
    (hv : parse p.value = some v) : Contradicts (fun s v => parse s = some v) pre p ↔ st.1.maxConflict v = true := by
  have hu := not_lower hp
  have hne : "minInclusive".toList ≠ "minExclusive".toList := by decide
  obtain ⟨hi, _⟩ := hi
  unfold MinMax.maxConflict
  constructor
  · rintro ⟨q, hq, u, v', hqu, hpv, h⟩
    have := hpv.symm.trans hv; cases this
    obtain ⟨b1, b2⟩ := hi.value hne hq hqu
    rcases h with ⟨h, _⟩ | ⟨h, _⟩ | ⟨_, hn, h⟩ | ⟨_, hn, h⟩
    · rw [hu] at h; cases h
    · rw [hu] at h; cases h
    · rw [b1 hn]; simpa using h
    · rw [b2 hn]; simpa using h
  · intro h
    cases hm : st.1.min with
    | unbounded => rw [hm] at h; cases h
    | inclusive u =>
      rw [hm] at h hi
      obtain ⟨q, a, b, c, _⟩ := hi
      exact ⟨q, a, u, v, c, hv, .inr (.inr (.inl ⟨hp, b, by simpa using h⟩))⟩
    | exclusive u =>
      rw [hm] at h hi
      obtain ⟨q, a, b, c, _⟩ := hi
      exact ⟨q, a, u, v, c, hv, .inr (.inr (.inr ⟨hp, b, by simpa using h⟩))⟩

omit [DecidableRel (α := T) (· ≤ ·)] [DecidableRel (α := T) (· < ·)] in
/-- the objections to a bound that can be read -/
theorem bound_objection {pre : List Param} {p : Param} (hb : p.isLower = true ∨ p.isUpper = true) {v : T}
    (hv : parse p.value = some v) (o : Option FacetErr) :
    RangeObjection x (fun s v => parse s = some v) unread digits pre p o ↔
      (o = some .conflicting ∧ (Contradicts (fun s v => parse s = some v) pre p ∨ OtherKind pre p)) ∨
      (o = none ∧ ¬ Contradicts (fun s v => parse s = some v) pre p ∧ ∃ q ∈ pre, q.name = p.name) := by
  obtain ⟨hpat, hdig⟩ := bound_name hb
  constructor
  · intro h
    cases h with
    | unknown h1 h2 => rw [h1, h2] at hb; rcases hb with h | h <;> cases h
    | unreadable _ h => exact absurd hv (h v)
    | notDigits _ h => rw [hdig] at h; cases h
    | badPattern h => exact absurd h hpat
    | clash h => exact .inl ⟨rfl, .inl h⟩
    | otherKind _ h => exact .inl ⟨rfl, .inr h⟩
    | repeated _ h1 _ h2 h3 => exact .inr ⟨rfl, h1, _, h2, h3⟩
  · rintro (⟨rfl, h | h⟩ | ⟨rfl, h1, q, h2, h3⟩)
    · exact .clash h
    · exact .otherKind hv h
    · exact .repeated hv h1 hb h2 h3

omit [DecidableRel (α := T) (· ≤ ·)] [DecidableRel (α := T) (· < ·)] in
theorem bound_unread {pre : List Param} {p : Param} (hb : p.isLower = true ∨ p.isUpper = true)
    (hv : parse p.value = none) (o : Option FacetErr) :
    RangeObjection x (fun s v => parse s = some v) unread digits pre p o ↔ o = some unread := by
  obtain ⟨hpat, hdig⟩ := bound_name hb
  have hn : ∀ v, ¬ parse p.value = some v := fun v h => by rw [hv] at h; cases h
  constructor
  · intro h
    cases h with
    | unknown h1 h2 => rw [h1, h2] at hb; rcases hb with h | h <;> cases h
    | unreadable _ h => rfl
    | notDigits _ h => rw [hdig] at h; cases h
    | badPattern h => exact absurd h hpat
    | clash h => obtain ⟨_, _, _, v, _, h, _⟩ := h; exact absurd h (hn v)
    | otherKind h => exact absurd h (hn _)
    | repeated h => exact absurd h (hn _)
  · rintro rfl; exact .unreadable hb hn

theorem otherKind_iff {pre : List Param} {p : Param} (a b : Str)
    (hab : (a = "minInclusive".toList ∧ b = "minExclusive".toList) ∨ (a = "minExclusive".toList ∧ b = "minInclusive".toList) ∨
      (a = "maxInclusive".toList ∧ b = "maxExclusive".toList) ∨ (a = "maxExclusive".toList ∧ b = "maxInclusive".toList))
    (hp : p.name = a) : OtherKind pre p ↔ ∃ q ∈ pre, q.name = b := by
  unfold OtherKind
  simp only [isLower_iff, isUpper_iff, hp]
  have n1 : "minInclusive".toList ≠ "minExclusive".toList := by decide
  have n2 : "maxInclusive".toList ≠ "maxExclusive".toList := by decide
  have n3 : "minInclusive".toList ≠ "maxInclusive".toList := by decide
  have n4 : "minInclusive".toList ≠ "maxExclusive".toList := by decide
  have n5 : "minExclusive".toList ≠ "maxInclusive".toList := by decide
  have n6 : "minExclusive".toList ≠ "maxExclusive".toList := by decide
  generalize "minInclusive".toList = A at *
  generalize "minExclusive".toList = B at *
  generalize "maxInclusive".toList = C at *
  generalize "maxExclusive".toList = D at *
  constructor
  · rintro ⟨q, hq, hne, h⟩
    refine ⟨q, hq, ?_⟩
    rcases hab with ⟨rfl, rfl⟩ | ⟨rfl, rfl⟩ | ⟨rfl, rfl⟩ | ⟨rfl, rfl⟩ <;> grind
  · rintro ⟨q, hq, h⟩
    refine ⟨q, hq, ?_⟩
    rcases hab with ⟨rfl, rfl⟩ | ⟨rfl, rfl⟩ | ⟨rfl, rfl⟩ | ⟨rfl, rfl⟩ <;> grind


theorem minInclusive_step {pre : List Param} {st : RSt T} {p : Param} (hi : RInv parse pre st) (hn : p.name = "minInclusive".toList) :
    (∀ o, RangeObjection x (fun s v => parse s = some v) unread digits pre p o ↔
      ((orErr unread (parse p.value)).bind fun v => (st.1.minInclusive v).bind fun m => Res.ok (m, st.2)).wrong = some o) ∧
    ∀ st', ((orErr unread (parse p.value)).bind fun v => (st.1.minInclusive v).bind fun m => Res.ok (m, st.2)) = .ok st' →
      RInv parse (pre ++ [p]) st' := by
  have hl : p.isLower = true := isLower_iff.mpr (.inl hn)
  cases hv : parse p.value with
  | none =>
    refine ⟨fun o => ?_, nofun⟩
    rw [bound_unread (.inl hl) hv]
    simp only [orErr, Res.bind_err, Res.wrong, Option.some.injEq, eq_comm]
  | some v =>
    simp only [orErr, Res.bind_ok]
    refine ⟨fun o => ?_, fun st' h => ?_⟩
    · rw [bound_objection (.inl hl) hv, clash_lower hi hl hv,
        otherKind_iff "minInclusive".toList "minExclusive".toList (.inl ⟨rfl, rfl⟩) hn, hi.1.exc_iff (by decide), hn, hi.1.inc_iff (by decide)]
      unfold MinMax.minInclusive
      cases hc : st.1.minConflict v with
      | true => simp [Res.wrong, eq_comm]
      | false =>
        cases hb : st.1.min <;> simp [Res.wrong, eq_comm]
    · unfold MinMax.minInclusive at h
      cases hc : st.1.minConflict v with
      | true => rw [hc] at h; cases h
      | false =>
        rw [hc] at h
        cases hb : st.1.min with
        | unbounded =>
          rw [hb] at h
          cases h
          exact ⟨⟨p, List.mem_append.mpr (.inr (List.mem_singleton.mpr rfl)), hn, hv, fun q' hm hq => BInv.fresh (by have := hi.1; rwa [hb] at this) hm hq⟩, (hi.2.other (by rw [hn]; decide) (by rw [hn]; decide))⟩
        | inclusive u => rw [hb] at h; cases h
        | exclusive u => rw [hb] at h; cases h

theorem minExclusive_step {pre : List Param} {st : RSt T} {p : Param} (hi : RInv parse pre st) (hn : p.name = "minExclusive".toList) :
    (∀ o, RangeObjection x (fun s v => parse s = some v) unread digits pre p o ↔
      ((orErr unread (parse p.value)).bind fun v => (st.1.minExclusive v).bind fun m => Res.ok (m, st.2)).wrong = some o) ∧
    ∀ st', ((orErr unread (parse p.value)).bind fun v => (st.1.minExclusive v).bind fun m => Res.ok (m, st.2)) = .ok st' →
      RInv parse (pre ++ [p]) st' := by
  have hl : p.isLower = true := isLower_iff.mpr (.inr hn)
  cases hv : parse p.value with
  | none =>
    refine ⟨fun o => ?_, nofun⟩
    rw [bound_unread (.inl hl) hv]
    simp only [orErr, Res.bind_err, Res.wrong, Option.some.injEq, eq_comm]
  | some v =>
    simp only [orErr, Res.bind_ok]
    refine ⟨fun o => ?_, fun st' h => ?_⟩
    · rw [bound_objection (.inl hl) hv, clash_lower hi hl hv,
        otherKind_iff "minExclusive".toList "minInclusive".toList (.inr (.inl ⟨rfl, rfl⟩)) hn, hi.1.inc_iff (by decide), hn, hi.1.exc_iff (by decide)]
      unfold MinMax.minExclusive
      cases hc : st.1.minConflict v with
      | true => simp [Res.wrong, eq_comm]
      | false =>
        cases hb : st.1.min <;> simp [Res.wrong, eq_comm]
    · unfold MinMax.minExclusive at h
      cases hc : st.1.minConflict v with
      | true => rw [hc] at h; cases h
      | false =>
        rw [hc] at h
        cases hb : st.1.min with
        | unbounded =>
          rw [hb] at h
          cases h
          exact ⟨⟨p, List.mem_append.mpr (.inr (List.mem_singleton.mpr rfl)), hn, hv, fun q' hm hq => BInv.fresh (by have := hi.1; rwa [hb] at this) hm hq⟩, (hi.2.other (by rw [hn]; decide) (by rw [hn]; decide))⟩
        | inclusive u => rw [hb] at h; cases h
        | exclusive u => rw [hb] at h; cases h

theorem maxInclusive_step {pre : List Param} {st : RSt T} {p : Param} (hi : RInv parse pre st) (hn : p.name = "maxInclusive".toList) :
    (∀ o, RangeObjection x (fun s v => parse s = some v) unread digits pre p o ↔
      ((orErr unread (parse p.value)).bind fun v => (st.1.maxInclusive v).bind fun m => Res.ok (m, st.2)).wrong = some o) ∧
    ∀ st', ((orErr unread (parse p.value)).bind fun v => (st.1.maxInclusive v).bind fun m => Res.ok (m, st.2)) = .ok st' →
      RInv parse (pre ++ [p]) st' := by
  have hl : p.isUpper = true := isUpper_iff.mpr (.inl hn)
  cases hv : parse p.value with
  | none =>
    refine ⟨fun o => ?_, nofun⟩
    rw [bound_unread (.inr hl) hv]
    simp only [orErr, Res.bind_err, Res.wrong, Option.some.injEq, eq_comm]
  | some v =>
    simp only [orErr, Res.bind_ok]
    refine ⟨fun o => ?_, fun st' h => ?_⟩
    · rw [bound_objection (.inr hl) hv, clash_upper hi hl hv,
        otherKind_iff "maxInclusive".toList "maxExclusive".toList (.inr (.inr (.inl ⟨rfl, rfl⟩))) hn, hi.2.exc_iff (by decide), hn, hi.2.inc_iff (by decide)]
      unfold MinMax.maxInclusive
      cases hc : st.1.maxConflict v with
      | true => simp [Res.wrong, eq_comm]
      | false =>
        cases hb : st.1.max <;> simp [Res.wrong, eq_comm]
    · unfold MinMax.maxInclusive at h
      cases hc : st.1.maxConflict v with
      | true => rw [hc] at h; cases h
      | false =>
        rw [hc] at h
        cases hb : st.1.max with
        | unbounded =>
          rw [hb] at h
          cases h
          exact ⟨(hi.1.other (by rw [hn]; decide) (by rw [hn]; decide)), ⟨p, List.mem_append.mpr (.inr (List.mem_singleton.mpr rfl)), hn, hv, fun q' hm hq => BInv.fresh (by have := hi.2; rwa [hb] at this) hm hq⟩⟩
        | inclusive u => rw [hb] at h; cases h
        | exclusive u => rw [hb] at h; cases h

theorem maxExclusive_step {pre : List Param} {st : RSt T} {p : Param} (hi : RInv parse pre st) (hn : p.name = "maxExclusive".toList) :
    (∀ o, RangeObjection x (fun s v => parse s = some v) unread digits pre p o ↔
      ((orErr unread (parse p.value)).bind fun v => (st.1.maxExclusive v).bind fun m => Res.ok (m, st.2)).wrong = some o) ∧
    ∀ st', ((orErr unread (parse p.value)).bind fun v => (st.1.maxExclusive v).bind fun m => Res.ok (m, st.2)) = .ok st' →
      RInv parse (pre ++ [p]) st' := by
  have hl : p.isUpper = true := isUpper_iff.mpr (.inr hn)
  cases hv : parse p.value with
  | none =>
    refine ⟨fun o => ?_, nofun⟩
    rw [bound_unread (.inr hl) hv]
    simp only [orErr, Res.bind_err, Res.wrong, Option.some.injEq, eq_comm]
  | some v =>
    simp only [orErr, Res.bind_ok]
    refine ⟨fun o => ?_, fun st' h => ?_⟩
    · rw [bound_objection (.inr hl) hv, clash_upper hi hl hv,
        otherKind_iff "maxExclusive".toList "maxInclusive".toList (.inr (.inr (.inr ⟨rfl, rfl⟩))) hn, hi.2.inc_iff (by decide), hn, hi.2.exc_iff (by decide)]
      unfold MinMax.maxExclusive
      cases hc : st.1.maxConflict v with
      | true => simp [Res.wrong, eq_comm]
      | false =>
        cases hb : st.1.max <;> simp [Res.wrong, eq_comm]
    · unfold MinMax.maxExclusive at h
      cases hc : st.1.maxConflict v with
      | true => rw [hc] at h; cases h
      | false =>
        rw [hc] at h
        cases hb : st.1.max with
        | unbounded =>
          rw [hb] at h
          cases h
          exact ⟨(hi.1.other (by rw [hn]; decide) (by rw [hn]; decide)), ⟨p, List.mem_append.mpr (.inr (List.mem_singleton.mpr rfl)), hn, hv, fun q' hm hq => BInv.fresh (by have := hi.2; rwa [hb] at this) hm hq⟩⟩
        | inclusive u => rw [hb] at h; cases h
        | exclusive u => rw [hb] at h; cases h

theorem RInv.other {pre : List Param} {st st' : RSt T} {p : Param} (hi : RInv parse pre st) (hl : p.isLower = false) (hu : p.isUpper = false)
    (e : st'.1 = st.1) : RInv parse (pre ++ [p]) st' := by
  have h1 : ¬ (p.name = "minInclusive".toList ∨ p.name = "minExclusive".toList) := fun h => by rw [isLower_iff.mpr h] at hl; cases hl
  have h2 : ¬ (p.name = "maxInclusive".toList ∨ p.name = "maxExclusive".toList) := fun h => by rw [isUpper_iff.mpr h] at hu; cases hu
  unfold RInv
  rw [e]
  exact ⟨hi.1.other (fun h => h1 (.inl h)) (fun h => h1 (.inr h)), hi.2.other (fun h => h2 (.inl h)) (fun h => h2 (.inr h))⟩

omit [DecidableRel (α := T) (· ≤ ·)] [DecidableRel (α := T) (· < ·)] in
/-- the objections to a parameter that is not a bound -/
theorem other_objection {pre : List Param} {p : Param} (hl : p.isLower = false) (hu : p.isUpper = false) (o : Option FacetErr) :
    RangeObjection x (fun s v => parse s = some v) unread digits pre p o ↔
      (o = some .invalidFacet ∧ p.name ≠ "pattern".toList ∧ (digits = true → p.isDigits = false)) ∨
      (o = some .invalidInt ∧ digits = true ∧ p.isDigits = true ∧ ∀ n : Nat, UNumeral p.value n → 65535 < n) ∨
      (o = some .invalidPattern ∧ p.name = "pattern".toList ∧ x.reNew p.value = false) := by
  constructor
  · intro h
    cases h with
    | unknown _ _ h1 h2 => exact .inl ⟨rfl, h1, h2⟩
    | unreadable h => rw [hl, hu] at h; rcases h with h | h <;> cases h
    | notDigits h1 h2 h3 => exact .inr (.inl ⟨rfl, h1, h2, h3⟩)
    | badPattern h1 h2 => exact .inr (.inr ⟨rfl, h1, h2⟩)
    | clash h =>
      obtain ⟨_, _, _, _, _, _, h⟩ := h
      rcases h with ⟨h, _⟩ | ⟨h, _⟩ | ⟨h, _⟩ | ⟨h, _⟩ <;> first | (rw [hl] at h; cases h) | (rw [hu] at h; cases h)
    | otherKind _ h =>
      obtain ⟨_, _, _, h⟩ := h
      rcases h with ⟨h, _⟩ | ⟨h, _⟩ <;> first | (rw [hl] at h; cases h) | (rw [hu] at h; cases h)
    | repeated _ _ h => rw [hl, hu] at h; rcases h with h | h <;> cases h
  · rintro (⟨rfl, h1, h2⟩ | ⟨rfl, h1, h2, h3⟩ | ⟨rfl, h1, h2⟩)
    · exact .unknown hl hu h1 h2
    · exact .notDigits h1 h2 h3
    · exact .badPattern h1 h2

theorem digits_step {pre : List Param} {st : RSt T} {p : Param} (hi : RInv parse pre st) (hl : p.isLower = false) (hu : p.isUpper = false)
    (hd : digits = true) (hn : p.isDigits = true) (f : Nat → RSt T) (hf : ∀ n, (f n).1 = st.1) :
    (∀ o, RangeObjection x (fun s v => parse s = some v) unread digits pre p o ↔
      ((orErr .invalidInt (parseU 10 0xffff p.value)).bind fun n => Res.ok (f n)).wrong = some o) ∧
    ∀ st', ((orErr .invalidInt (parseU 10 0xffff p.value)).bind fun n => Res.ok (f n)) = .ok st' → RInv parse (pre ++ [p]) st' := by
  have hnp : p.name ≠ "pattern".toList := by
    intro h; rcases isDigits_iff.mp hn with h' | h' <;> (rw [h] at h'; revert h'; decide)
  cases hv : parseU 10 0xffff p.value with
  | none =>
    refine ⟨fun o => ?_, nofun⟩
    have : ∀ n : Nat, UNumeral p.value n → 65535 < n := fun n h => by
      rcases Nat.lt_or_ge 65535 n with h' | h'
      · exact h'
      · have := parseU_iff.mpr ⟨h, h'⟩; rw [hv] at this; cases this
    rw [other_objection hl hu]
    constructor
    · rintro (⟨_, _, h⟩ | ⟨rfl, _⟩ | ⟨_, h, _⟩)
      · rw [h hd] at hn; cases hn
      · rfl
      · exact absurd h hnp
    · intro h; cases h; exact .inr (.inl ⟨rfl, hd, hn, this⟩)
  | some n =>
    refine ⟨fun o => ?_, fun st' h => by cases h; exact hi.other hl hu (hf n)⟩
    rw [other_objection hl hu]
    obtain ⟨hn1, hn2⟩ := parseU_iff.mp hv
    constructor
    · rintro (⟨_, _, h⟩ | ⟨_, _, _, h⟩ | ⟨_, h, _⟩)
      · rw [h hd] at hn; cases hn
      · have := h n hn1; omega
      · exact absurd h hnp
    · nofun

theorem rangeStep_ok : StepOk (rangeStep x parse unread digits)
    (RangeObjection x (fun s v => parse s = some v) unread digits) (RInv parse) := by
  intro pre st p hi
  unfold rangeStep
  by_cases h1 : p.name = "minInclusive".toList
  · simp only [if_pos h1]; exact minInclusive_step hi h1
  by_cases h2 : p.name = "minExclusive".toList
  · simp only [if_neg h1, if_pos h2]; exact minExclusive_step hi h2
  by_cases h3 : p.name = "maxInclusive".toList
  · simp only [if_neg h1, if_neg h2, if_pos h3]; exact maxInclusive_step hi h3
  by_cases h4 : p.name = "maxExclusive".toList
  · simp only [if_neg h1, if_neg h2, if_neg h3, if_pos h4]; exact maxExclusive_step hi h4
  simp only [if_neg h1, if_neg h2, if_neg h3, if_neg h4]
  have hl : p.isLower = false := by
    cases h : p.isLower with
    | false => rfl
    | true => exact ((isLower_iff.mp h).elim h1 h2).elim
  have hu : p.isUpper = false := by
    cases h : p.isUpper with
    | false => rfl
    | true => exact ((isUpper_iff.mp h).elim h3 h4).elim
  by_cases h5 : p.name = "pattern".toList
  · simp only [if_pos h5]
    unfold mkPattern
    cases hr : x.reNew p.value with
    | true =>
      simp only [if_true, Res.bind_ok]
      refine ⟨fun o => ?_, fun st' h => by cases h; exact hi.other hl hu rfl⟩
      rw [other_objection hl hu]
      constructor
      · rintro (⟨_, h, _⟩ | ⟨_, _, h, _⟩ | ⟨_, _, h⟩)
        · exact absurd h5 h
        · rcases isDigits_iff.mp h with h | h <;> (rw [h] at h5; exact absurd h5 (by decide))
        · rw [hr] at h; cases h
      · nofun
    | false =>
      refine ⟨fun o => ?_, nofun⟩
      rw [other_objection hl hu]
      constructor
      · rintro (⟨_, h, _⟩ | ⟨_, _, h, _⟩ | ⟨rfl, _, h⟩)
        · exact absurd h5 h
        · rcases isDigits_iff.mp h with h | h <;> (rw [h] at h5; exact absurd h5 (by decide))
        · rfl
      · intro h; cases h; exact .inr (.inr ⟨rfl, h5, hr⟩)
  simp only [if_neg h5]
  by_cases h6 : digits = true ∧ p.name = "fractionDigits".toList
  · simp only [if_pos h6]
    exact digits_step hi hl hu h6.1 (isDigits_iff.mpr (.inl h6.2)) (fun n => (st.1, st.2.1, some n, st.2.2.2)) (fun _ => rfl)
  by_cases h7 : digits = true ∧ p.name = "totalDigits".toList
  · simp only [if_neg h6, if_pos h7]
    exact digits_step hi hl hu h7.1 (isDigits_iff.mpr (.inr h7.2)) (fun n => (st.1, st.2.1, st.2.2.1, some n)) (fun _ => rfl)
  simp only [if_neg h6, if_neg h7]
  refine ⟨fun o => ?_, nofun⟩
  have hd : digits = true → p.isDigits = false := fun hd => by
    cases h : p.isDigits with
    | false => rfl
    | true => exact ((isDigits_iff.mp h).elim (fun h => h6 ⟨hd, h⟩) (fun h => h7 ⟨hd, h⟩)).elim
  rw [other_objection hl hu]
  constructor
  · rintro (⟨rfl, _⟩ | ⟨_, h, h', _⟩ | ⟨_, h, _⟩)
    · rfl
    · rw [hd h] at h'; cases h'
    · exact absurd h h5
  · intro h; cases h; exact .inl ⟨rfl, h5, hd⟩

theorem RInv.start : RInv parse [] (({}, none, none, none) : RSt T) := ⟨nofun, nofun⟩

end

/-! ### length facets -/

section
variable (x : Ext) (patterns : Bool)

def lenStep (st : LengthFacet × Option PatternFacet) (p : Param) : Res FacetErr (LengthFacet × Option PatternFacet) :=
  if p.name = "length".toList then
    (parseUsize p.value).bind fun n => (st.1.merge (.length n)).bind fun l => .ok (l, st.2)
  else if p.name = "minLength".toList then
    (parseUsize p.value).bind fun n => (st.1.merge (.minLength n)).bind fun l => .ok (l, st.2)
  else if p.name = "maxLength".toList then
    (parseUsize p.value).bind fun n => (st.1.merge (.maxLength n)).bind fun l => .ok (l, st.2)
  else if patterns = true ∧ p.name = "pattern".toList then
    (mkPattern x p.value).bind fun re => .ok (st.1, some re)
  else .err .invalidFacet

theorem lengthParams_loop : ∀ (ps : List Param) (len : LengthFacet) (pat : Option PatternFacet),
    lengthParams x patterns len pat ps = loop (lenStep x patterns) (len, pat) ps
  | [], _, _ => rfl
  | p :: ps, len, pat => by
    have ih := lengthParams_loop ps
    have hb : ∀ (f : Nat → Res FacetErr LengthFacet),
        ((parseUsize p.value).bind fun v => (f v).bind fun l => lengthParams x patterns l pat ps) =
        (((parseUsize p.value).bind fun v => (f v).bind fun l => .ok (l, pat)).bind fun st' => loop (lenStep x patterns) st' ps) := by
      intro f
      cases parseUsize p.value with
      | ok v =>
        simp only [Res.bind_ok]
        cases f v with
        | ok l => exact ih _ _
        | err e => rfl
        | panic => rfl
      | err e => rfl
      | panic => rfl
    unfold lengthParams loop lenStep
    split
    · exact hb _
    · split
      · exact hb _
      · split
        · exact hb _
        · split
          · unfold mkPattern; split
            · exact ih _ _
            · rfl
          · rfl

theorem isLen_iff {p : Param} : p.isLen = true ↔ p.name = "length".toList ∨ p.name = "minLength".toList ∨ p.name = "maxLength".toList := by
  unfold Param.isLen; rw [Bool.or_eq_true, Bool.or_eq_true, beq_iff_eq, beq_iff_eq, beq_iff_eq, or_assoc]

/-- what the length facet remembers -/
def LInv (pre : List Param) : LengthFacet → Prop
  | .unbounded => ∀ q ∈ pre, q.isLen = false
  | .minLength m => ∃ q ∈ pre, q.name = "minLength".toList ∧ UNumeral q.value m ∧ ∀ q' ∈ pre, q'.isLen = true → q' = q
  | _ => ∃ q ∈ pre, q.isLen = true ∧ q.name ≠ "minLength".toList

variable {x patterns}

theorem LInv.other {pre : List Param} {l : LengthFacet} {p : Param} (h : LInv pre l) (hp : p.isLen = false) : LInv (pre ++ [p]) l := by
  cases l with
  | unbounded =>
    intro q hq
    rcases List.mem_append.mp hq with hq | hq
    · exact h q hq
    · cases List.mem_singleton.mp hq; exact hp
  | minLength m =>
    obtain ⟨q, a, b, c, d⟩ := h
    refine ⟨q, List.mem_append.mpr (.inl a), b, c, fun q' hq hl => ?_⟩
    rcases List.mem_append.mp hq with hq | hq
    · exact d q' hq hl
    · cases List.mem_singleton.mp hq; rw [hp] at hl; cases hl
  | maxLength m => obtain ⟨q, a, b, c⟩ := h; exact ⟨q, List.mem_append.mpr (.inl a), b, c⟩
  | minMaxLength m n => obtain ⟨q, a, b, c⟩ := h; exact ⟨q, List.mem_append.mpr (.inl a), b, c⟩
  | length m => obtain ⟨q, a, b, c⟩ := h; exact ⟨q, List.mem_append.mpr (.inl a), b, c⟩

theorem LInv.spoilt {pre : List Param} {l : LengthFacet} {p : Param} (hp : p.isLen = true) (hn : p.name ≠ "minLength".toList)
    (hl : l ≠ .unbounded) (hl' : ∀ m, l ≠ .minLength m) : LInv (pre ++ [p]) l := by
  have : ∃ q ∈ pre ++ [p], q.isLen = true ∧ q.name ≠ "minLength".toList :=
    ⟨p, List.mem_append.mpr (.inr (List.mem_singleton.mpr rfl)), hp, hn⟩
  cases l with
  | unbounded => exact absurd rfl hl
  | minLength m => exact absurd rfl (hl' m)
  | maxLength m => exact this
  | minMaxLength m n => exact this
  | length m => exact this

/-- the objections to a length that can be read -/
theorem len_objection {pre : List Param} {p : Param} (hp : p.isLen = true) {n : Nat} (hv : UNumeral p.value n)
    (hm : n ≤ 18446744073709551615) {l : LengthFacet} (hi : LInv pre l) (o : Option FacetErr) :
    LengthObjection x patterns pre p o ↔
      match l with
      | .unbounded => False
      | .minLength m => o = some .conflicting ∧ (p.name = "maxLength".toList → n < m)
      | _ => o = none := by
  have hnp : p.name ≠ "pattern".toList := by
    intro h; rcases isLen_iff.mp hp with h' | h' | h' <;> (rw [h] at h'; exact absurd h' (by decide))
  constructor
  · intro h
    cases h with
    | unknown h => rw [hp] at h; cases h
    | unreadable _ h => have := h n hv; omega
    | badPattern _ h => exact absurd h hnp
    | @afterMin n' q _ h1 h2 h3 h4 h5 h6 =>
      cases hv.unique h1
      have hq : q.isLen = true := isLen_iff.mpr (.inr (.inl h4))
      have spoil : ¬ ∃ q ∈ pre, q.isLen = true ∧ q.name ≠ "minLength".toList := by
        rintro ⟨q', a, b, c⟩; exact c (h5 q' a b)
      cases l with
      | unbounded => exact absurd (hi q h3) (by rw [hq]; decide)
      | minLength m =>
        obtain ⟨q', a, b, c, d⟩ := hi
        cases d q h3 hq
        refine ⟨rfl, fun hx => ?_⟩
        obtain ⟨m', h7, h8⟩ := h6 hx
        cases c.unique h7; exact h8
      | maxLength m => exact absurd hi spoil
      | minMaxLength m n => exact absurd hi spoil
      | length m => exact absurd hi spoil
    | @afterOther n' q _ h1 h2 h3 h4 h5 =>
      cases l with
      | unbounded => exact absurd (hi q h3) (by rw [h4]; decide)
      | minLength m =>
        obtain ⟨q', a, b, c, d⟩ := hi
        cases d q h3 h4; exact absurd b h5
      | maxLength m => rfl
      | minMaxLength m n => rfl
      | length m => rfl
  · intro h
    cases l with
    | unbounded => exact h.elim
    | minLength m =>
      obtain ⟨rfl, h⟩ := h
      obtain ⟨q, a, b, c, d⟩ := hi
      exact .afterMin hp hv hm a b (fun q' hq hl => by rw [d q' hq hl]; exact b) (fun hx => ⟨m, c, h hx⟩)
    | maxLength m => cases h; obtain ⟨q, a, b, c⟩ := hi; exact .afterOther hp hv hm a b c
    | minMaxLength m n => cases h; obtain ⟨q, a, b, c⟩ := hi; exact .afterOther hp hv hm a b c
    | length m => cases h; obtain ⟨q, a, b, c⟩ := hi; exact .afterOther hp hv hm a b c

theorem len_step {pre : List Param} {st : LengthFacet × Option PatternFacet} {p : Param} (hi : LInv pre st.1) (mk : Nat → LengthFacet)
    (hk : (p.name = "length".toList ∧ mk = .length) ∨ (p.name = "minLength".toList ∧ mk = .minLength) ∨
      (p.name = "maxLength".toList ∧ mk = .maxLength)) :
    (∀ o, LengthObjection x patterns pre p o ↔
      ((parseUsize p.value).bind fun n => (st.1.merge (mk n)).bind fun l => Res.ok (l, st.2)).wrong = some o) ∧
    ∀ st', ((parseUsize p.value).bind fun n => (st.1.merge (mk n)).bind fun l => Res.ok (l, st.2)) = .ok st' →
      LInv (pre ++ [p]) st'.1 := by
  have hp : p.isLen = true := isLen_iff.mpr (by rcases hk with h | h | h <;> simp [h.1])
  have hnp : p.name ≠ "pattern".toList := by
    intro h; rcases isLen_iff.mp hp with h' | h' | h' <;> (rw [h] at h'; exact absurd h' (by decide))
  unfold parseUsize
  cases hv : parseU 10 0xffffffffffffffff p.value with
  | none =>
    have hno : ∀ n : Nat, UNumeral p.value n → 18446744073709551615 < n := fun n h => by
      rcases Nat.lt_or_ge 18446744073709551615 n with h' | h'
      · exact h'
      · have := parseU_iff.mpr ⟨h, h'⟩; rw [hv] at this; cases this
    refine ⟨fun o => ⟨fun h => ?_, fun h => ?_⟩, nofun⟩
    · cases h with
      | unknown h => rw [hp] at h; cases h
      | unreadable => rfl
      | badPattern _ h => exact absurd h hnp
      | afterMin _ h1 h2 => have := hno _ h1; omega
      | afterOther _ h1 h2 => have := hno _ h1; omega
    · cases h; exact .unreadable hp hno
  | some n =>
    obtain ⟨hn, hm⟩ := parseU_iff.mp hv
    obtain ⟨l, pat⟩ := st
    simp only [orErr, Res.bind_ok]
    have e3 : ("length".toList = "maxLength".toList) = False := eq_false (by decide)
    have e4 : ("minLength".toList = "maxLength".toList) = False := eq_false (by decide)
    refine ⟨fun o => ?_, fun st' h => ?_⟩
    · rw [len_objection hp hn hm hi]
      cases l with
      | unbounded => simp [LengthFacet.merge, Res.wrong]
      | minLength m =>
        rcases hk with ⟨h1, rfl⟩ | ⟨h1, rfl⟩ | ⟨h1, rfl⟩
        · rw [h1]; simp only [e3, false_implies, and_true, LengthFacet.merge, Res.wrong, Res.bind_err, Option.some.injEq, eq_comm]
        · rw [h1]; simp only [e4, false_implies, and_true, LengthFacet.merge, Res.wrong, Res.bind_err, Option.some.injEq, eq_comm]
        · rw [h1]
          simp only [LengthFacet.merge, true_implies]
          by_cases hc : m > n
          · rw [if_pos hc]; simp only [Res.bind_err, Res.wrong, Option.some.injEq, eq_comm]; exact ⟨fun h => h.1, fun h => ⟨h, hc⟩⟩
          · rw [if_neg hc]; simp only [Res.bind_ok, Res.wrong, reduceCtorEq, iff_false]; exact fun h => hc h.2
      | maxLength m => simp only [LengthFacet.merge, Res.wrong, Res.bind_panic, Option.some.injEq, eq_comm]
      | minMaxLength m n => simp only [LengthFacet.merge, Res.wrong, Res.bind_panic, Option.some.injEq, eq_comm]
      | length m => simp only [LengthFacet.merge, Res.wrong, Res.bind_panic, Option.some.injEq, eq_comm]
    · cases l with
      | unbounded =>
        cases h
        rcases hk with ⟨h1, rfl⟩ | ⟨h1, rfl⟩ | ⟨h1, rfl⟩
        · exact LInv.spoilt hp (by rw [h1]; decide) nofun nofun
        · refine ⟨p, List.mem_append.mpr (.inr (List.mem_singleton.mpr rfl)), h1, hn, fun q hq hl => ?_⟩
          rcases List.mem_append.mp hq with hq | hq
          · rw [hi q hq] at hl; cases hl
          · exact List.mem_singleton.mp hq
        · exact LInv.spoilt hp (by rw [h1]; decide) nofun nofun
      | minLength m =>
        rcases hk with ⟨h1, rfl⟩ | ⟨h1, rfl⟩ | ⟨h1, rfl⟩
        · cases h
        · cases h
        · simp only [LengthFacet.merge] at h
          by_cases hc : m > n
          · rw [if_pos hc] at h; cases h
          · rw [if_neg hc] at h; cases h
            exact LInv.spoilt hp (by rw [h1]; decide) nofun nofun
      | maxLength m => cases h
      | minMaxLength m n => cases h
      | length m => cases h

theorem lenStep_ok : StepOk (lenStep x patterns) (LengthObjection x patterns) (fun pre st => LInv pre st.1) := by
  intro pre st p hi
  unfold lenStep
  by_cases h1 : p.name = "length".toList
  · simp only [if_pos h1]; exact len_step hi .length (.inl ⟨h1, rfl⟩)
  by_cases h2 : p.name = "minLength".toList
  · simp only [if_neg h1, if_pos h2]; exact len_step hi .minLength (.inr (.inl ⟨h2, rfl⟩))
  by_cases h3 : p.name = "maxLength".toList
  · simp only [if_neg h1, if_neg h2, if_pos h3]; exact len_step hi .maxLength (.inr (.inr ⟨h3, rfl⟩))
  simp only [if_neg h1, if_neg h2, if_neg h3]
  have hl : p.isLen = false := by
    cases h : p.isLen with
    | false => rfl
    | true => rcases isLen_iff.mp h with h | h | h
              · exact absurd h h1
              · exact absurd h h2
              · exact absurd h h3
  have key : ∀ o, LengthObjection x patterns pre p o ↔
      (o = some .invalidFacet ∧ (patterns = true → p.name ≠ "pattern".toList)) ∨
      (o = some .invalidPattern ∧ patterns = true ∧ p.name = "pattern".toList ∧ x.reNew p.value = false) := by
    intro o
    constructor
    · intro h
      cases h with
      | unknown _ h => exact .inl ⟨rfl, h⟩
      | unreadable h => rw [hl] at h; cases h
      | badPattern h1 h2 h3 => exact .inr ⟨rfl, h1, h2, h3⟩
      | afterMin h => rw [hl] at h; cases h
      | afterOther h => rw [hl] at h; cases h
    · rintro (⟨rfl, h⟩ | ⟨rfl, h1, h2, h3⟩)
      · exact .unknown hl h
      · exact .badPattern h1 h2 h3
  by_cases h4 : patterns = true ∧ p.name = "pattern".toList
  · simp only [if_pos h4]
    unfold mkPattern
    cases hr : x.reNew p.value with
    | true =>
      refine ⟨fun o => ?_, fun st' h => by cases h; exact hi.other hl⟩
      rw [key]
      constructor
      · rintro (⟨_, h⟩ | ⟨_, _, _, h⟩)
        · exact absurd h4.2 (h h4.1)
        · rw [hr] at h; cases h
      · nofun
    | false =>
      refine ⟨fun o => ?_, nofun⟩
      rw [key]
      constructor
      · rintro (⟨_, h⟩ | ⟨rfl, _⟩)
        · exact absurd h4.2 (h h4.1)
        · rfl
      · intro h; cases h; exact .inr ⟨rfl, h4.1, h4.2, hr⟩
  · simp only [if_neg h4]
    refine ⟨fun o => ?_, nofun⟩
    rw [key]
    constructor
    · rintro (⟨rfl, _⟩ | ⟨_, h, h', _⟩)
      · rfl
      · exact absurd ⟨h, h'⟩ h4
    · intro h; cases h; exact .inl ⟨rfl, fun h h' => h4 ⟨h, h'⟩⟩

end
end Verif
