import Verif.Model.Held
/-
C79: datatypes that the validator's pattern table takes for the same accept the same strings.
-/
namespace Verif.Held

theorem optEq_iff {T : Type} {eq : T → T → Bool} {S : Type} {f : T → S} (h : ∀ a b, eq a b = true ↔ f a = f b) (a b : Option T) :
    optEq eq a b = true ↔ a.map f = b.map f := by
  cases a <;> cases b <;> simp [optEq, h]

theorem pat_iff (a b : Option Pattern) : optEq Pattern.eq a b = true ↔ patPlain a = patPlain b :=
  optEq_iff (f := Pattern.src) (fun a b => by simp [Pattern.eq]) a b

theorem nat_iff (a b : Option Nat) : optEq (· == ·) a b = true ↔ a = b := by
  cases a <;> cases b <;> simp [optEq]

theorem length_iff (a b : LengthFacet) : lengthEq a b = true ↔ a = b := by
  cases a <;> cases b <;> simp [lengthEq]

theorem intBound_iff (a b : Bound Int) : boundEq (· == ·) a b = true ↔ a = b := by
  cases a <;> cases b <;> simp [boundEq]

theorem intMinMax_iff (a b : MinMax Int) : minMaxEq (· == ·) a b = true ↔ a = b := by
  cases a; cases b; simp [minMaxEq, intBound_iff]

theorem decBound_iff (a b : Bound Dec) : boundEq Dec.eq a b = true ↔ boundPlain a = boundPlain b := by
  cases a <;> cases b <;> simp [boundEq, boundPlain, Dec.eq]

theorem decMinMax_iff (a b : MinMax Dec) : minMaxEq Dec.eq a b = true ↔ minMaxPlain a = minMaxPlain b := by
  cases a; cases b; simp [minMaxEq, minMaxPlain, decBound_iff]

theorem strings_iff (a b : Strings) : a.eq b = true ↔ a.plain = b.plain := by
  cases a; cases b; simp [Strings.eq, Strings.plain, length_iff, pat_iff]

theorem num_iff (m m' : MinMax Int) (p p' : Option Pattern) :
    numEq m p m' p' = true ↔ m = m' ∧ patPlain p = patPlain p' := by
  simp [numEq, intMinMax_iff, pat_iff]

theorem xsd_iff (a b : Xsd) : a.eq b = true ↔ a.plain = b.plain := by
  cases a <;> cases b <;>
    simp [Xsd.eq, Xsd.plain, strings_iff, num_iff, pat_iff, length_iff, decMinMax_iff, nat_iff, and_assoc]

/-- C79.  Two held datatypes compare equal iff the model keeps the same of them: the model's own equality is the code's. -/
theorem C79_equality_as_modelled (a b : Types) : a.eq b = true ↔ a.plain = b.plain := by
  cases a <;> cases b <;> simp [Types.eq, Types.plain, xsd_iff]

theorem patOk_plain {x : Ext} {o : Option Pattern} (h : ∀ p, o = some p → ∃ src, Pattern.new x src = some p) (s : Str) :
    patOk o s = Verif.patOk x (patPlain o) s := by
  cases o with
  | none => rfl
  | some p =>
    obtain ⟨src, hs⟩ := h p rfl
    unfold Pattern.new at hs
    split at hs
    · injection hs with hs; subst hs; rfl
    · cases hs

theorem decValid_plain (m : MinMax Dec) (v : Dec) : m.isValid v = (minMaxPlain m).isValid v.value := by
  obtain ⟨a, b⟩ := m
  cases a <;> cases b <;> rfl

/-- the external functions of the model, when decimals are read by `parseDec` -/
def extOf (x : Ext) (parseDec : Str → Option Dec) : Ext := { x with parseDec := fun s => (parseDec s).map Dec.value }

theorem numOk_plain {x : Ext} {T : Type} [LE T] [LT T] [DecidableRel (α := T) (· ≤ ·)] [DecidableRel (α := T) (· < ·)]
    {o : Option Pattern} (h : ∀ p, o = some p → ∃ src, Pattern.new x src = some p) (v : Option T) (m : MinMax T) (s : Str) :
    numOk v m o s = Verif.numOk x v m (patPlain o) s := by
  simp only [numOk, Verif.numOk, patOk_plain h]
  cases v <;> rfl

theorem strings_plain {x : Ext} {f : Strings} (h : ∀ p, f.pattern = some p → ∃ src, Pattern.new x src = some p) (s : Str) :
    f.isValid s = f.plain.isValid x s := by
  simp only [Strings.isValid, Strings.plain, StringFacets.isValid, patOk_plain h]

/-- C79.  A datatype as it is held in memory accepts what `Model/Datatype` says: the compiled expression it carries is the one of its
source text, and of its decimals only the value matters. -/
theorem C79_held_accepts_as_modelled {x : Ext} {parseDec : Str → Option Dec} {d : Types} (h : d.Built x) (s : Str) :
    d.isValid x parseDec s = d.plain.isValid (extOf x parseDec) s := by
  cases d with
  | relax d => rfl
  | xsd d =>
    cases d
    case normalizedString f =>
      exact congrArg some (strings_plain (x := x) (f := f) h _)
    case string f => exact congrArg some (strings_plain (x := x) (f := f) h _)
    case decimal m p fd td =>
      refine congrArg some ?_
      show numOk (parseDec s) m p s = Verif.numOk (extOf x parseDec) ((parseDec s).map Dec.value) (minMaxPlain m) (patPlain p) s
      have hp := patOk_plain (o := p) h s
      cases hd : parseDec s with
      | none => simp [numOk, Verif.numOk]
      | some v =>
        simp only [numOk, Verif.numOk, Option.map_some, decValid_plain, hp]
        rfl
    case nmTokens => rfl
    case nmToken => rfl
    case ncName => rfl
    case token => rfl
    case short m p => exact congrArg some (numOk_plain (x := x) (o := p) h _ _ _)
    case unsignedShort m p => exact congrArg some (numOk_plain (x := x) (o := p) h _ _ _)
    case long m p => exact congrArg some (numOk_plain (x := x) (o := p) h _ _ _)
    case int m p => exact congrArg some (numOk_plain (x := x) (o := p) h _ _ _)
    case integer m p => exact congrArg some (numOk_plain (x := x) (o := p) h _ _ _)
    case positiveInteger m p => exact congrArg some (numOk_plain (x := x) (o := p) h _ _ _)
    case unsignedInt m p => exact congrArg some (numOk_plain (x := x) (o := p) h _ _ _)
    case unsignedLong m p => exact congrArg some (numOk_plain (x := x) (o := p) h _ _ _)
    case id p => exact congrArg some (patOk_plain (x := x) (o := p) h _)
    case idRef p => exact congrArg some (patOk_plain (x := x) (o := p) h _)
    all_goals
      rename_i p
      exact congrArg (fun b => some (_ && b)) (patOk_plain (x := x) (o := p) h s)

/-- C79.  Two datatypes that compare equal accept the same strings (and panic on the same strings): it does no harm that the pattern
table keeps only one of them.  Equality looks at the source of a pattern only, and at the value of a decimal only. -/
theorem C79_equal_datatypes_accept_the_same {x : Ext} {parseDec : Str → Option Dec} {a b : Types} (ha : a.Built x) (hb : b.Built x)
    (h : a.eq b = true) (s : Str) : a.isValid x parseDec s = b.isValid x parseDec s := by
  rw [C79_held_accepts_as_modelled ha, C79_held_accepts_as_modelled hb, (C79_equality_as_modelled a b).1 h]

/-- C79.  The comparison is an equivalence relation, as a hash map requires of its keys. -/
theorem C79_equality_is_an_equivalence (a b c : Types) :
    a.eq a = true ∧ (a.eq b = true → b.eq a = true) ∧ (a.eq b = true → b.eq c = true → a.eq c = true) := by
  rw [C79_equality_as_modelled, C79_equality_as_modelled, C79_equality_as_modelled, C79_equality_as_modelled, C79_equality_as_modelled]
  exact ⟨rfl, Eq.symm, Eq.trans⟩

theorem optHash_eq {T S : Type} {h : T → List Fed} {f : T → S} (hh : ∀ a b, f a = f b → h a = h b) {a b : Option T}
    (e : a.map f = b.map f) : optHash h a = optHash h b := by
  cases a <;> cases b <;> simp [optHash] at *
  exact hh _ _ e

theorem patHash_eq {a b : Option Pattern} (e : patPlain a = patPlain b) : optHash Pattern.hash a = optHash Pattern.hash b :=
  optHash_eq (f := Pattern.src) (fun a b h => by simp [Pattern.hash, h]) e

theorem decBoundHash_eq {decHash : Dec → List Fed} (hd : ∀ a b : Dec, a.eq b = true → decHash a = decHash b) {a b : Bound Dec}
    (e : boundPlain a = boundPlain b) : boundHash decHash a = boundHash decHash b := by
  cases a <;> cases b <;> simp [boundHash, boundPlain] at *
  · exact hd _ _ (by simp [Dec.eq, e])
  · exact hd _ _ (by simp [Dec.eq, e])

theorem decHash_eq {decHash : Dec → List Fed} (hd : ∀ a b : Dec, a.eq b = true → decHash a = decHash b) {a b : MinMax Dec}
    (e : minMaxPlain a = minMaxPlain b) : minMaxHash decHash a = minMaxHash decHash b := by
  simp only [minMaxPlain, MinMax.mk.injEq] at e
  simp only [minMaxHash, decBoundHash_eq hd e.1, decBoundHash_eq hd e.2]

theorem stringsHash_eq {a b : Strings} (e : a.plain = b.plain) : a.hash = b.hash := by
  simp only [Strings.plain, StringFacets.mk.injEq] at e
  simp only [Strings.hash, e.1, patHash_eq e.2]

theorem xsdHash_eq {decHash : Dec → List Fed} (hd : ∀ a b : Dec, a.eq b = true → decHash a = decHash b) {a b : Xsd}
    (e : a.plain = b.plain) : a.hash decHash = b.hash decHash := by
  cases a <;> cases b <;> simp only [Xsd.plain, XsdDatatype.normalizedString.injEq, XsdDatatype.string.injEq,
    XsdDatatype.short.injEq, XsdDatatype.unsignedShort.injEq, XsdDatatype.long.injEq, XsdDatatype.int.injEq,
    XsdDatatype.integer.injEq, XsdDatatype.positiveInteger.injEq, XsdDatatype.unsignedInt.injEq, XsdDatatype.unsignedLong.injEq,
    XsdDatatype.decimal.injEq, XsdDatatype.double.injEq, XsdDatatype.nmTokens.injEq, XsdDatatype.nmToken.injEq,
    XsdDatatype.ncName.injEq, XsdDatatype.token.injEq, XsdDatatype.duration.injEq, XsdDatatype.date.injEq,
    XsdDatatype.datetime.injEq, XsdDatatype.anyURI.injEq, XsdDatatype.language.injEq, XsdDatatype.boolean.injEq,
    XsdDatatype.id.injEq, XsdDatatype.idRef.injEq, reduceCtorEq] at e
  case decimal => simp only [Xsd.hash, decHash_eq hd e.1, patHash_eq e.2.1, e.2.2.1, e.2.2.2]
  case normalizedString => simp only [Xsd.hash, stringsHash_eq e]
  case string => simp only [Xsd.hash, stringsHash_eq e]
  case nmTokens => simp only [Xsd.hash, e]
  case nmToken => simp only [Xsd.hash, e]
  case ncName => simp only [Xsd.hash, e]
  case token => simp only [Xsd.hash, e]
  case double => simp only [Xsd.hash, patHash_eq e]
  case duration => simp only [Xsd.hash, patHash_eq e]
  case date => simp only [Xsd.hash, patHash_eq e]
  case datetime => simp only [Xsd.hash, patHash_eq e]
  case anyURI => simp only [Xsd.hash, patHash_eq e]
  case language => simp only [Xsd.hash, patHash_eq e]
  case boolean => simp only [Xsd.hash, patHash_eq e]
  case id => simp only [Xsd.hash, patHash_eq e]
  case idRef => simp only [Xsd.hash, patHash_eq e]
  all_goals simp only [Xsd.hash, numHash, e.1, patHash_eq e.2]

/-- C79.  Datatypes that compare equal feed the same to the hasher, so that the table finds them, provided that the decimals of crate
bigdecimal do so. -/
theorem C79_equal_datatypes_hash_alike {decHash : Dec → List Fed} (hd : ∀ a b : Dec, a.eq b = true → decHash a = decHash b)
    {a b : Types} (h : a.eq b = true) : a.hash decHash = b.hash decHash := by
  have e := (C79_equality_as_modelled a b).1 h
  cases a <;> cases b <;> simp only [Types.plain, Datatypes.relax.injEq, Datatypes.xsd.injEq, reduceCtorEq] at e
  · rw [e]
  · simp only [Types.hash, xsdHash_eq hd e]

theorem patEq_iff (p q : Pat Types DatatypeValues) : patEq p q = true ↔ patOf p = patOf q := by
  cases p <;> cases q <;> simp [patEq, patOf, C79_equality_as_modelled, and_assoc]

theorem find_plain (p : Pat Types DatatypeValues) (memo : List (Pat Types DatatypeValues × Nat)) :
    (memo.find? fun e => patEq e.1 p).map (·.2) = (memo.map fun e => (patOf e.1, e.2)).lookup (patOf p) := by
  induction memo with
  | nil => rfl
  | cons e rest ih =>
    rw [List.map_cons, List.lookup_cons, List.find?_cons]
    by_cases h : patEq e.1 p = true
    · simp [h, ((patEq_iff e.1 p).1 h).symm]
    · have h' : ¬ patOf p = patOf e.1 := fun he => h ((patEq_iff e.1 p).2 he.symm)
      have hb : (patOf p == patOf e.1) = false := by simpa using h'
      simp only [h, hb]
      exact ih

/-- C79.  Interning a pattern in the table, with keys compared by the code's own equality, is interning what the model keeps of it,
with keys compared for being the same. -/
theorem C79_table_as_modelled (p : Pat Types DatatypeValues) (t : Table) :
    (t.push p).map (fun r => (r.1, r.2.plain)) = Verif.push (patOf p) t.plain := by
  unfold Table.push Verif.push
  have hl : t.plain.pats.length = t.pats.length := by simp [Table.plain]
  rw [hl]
  by_cases hc : t.pats.length > 0xffff
  · simp [hc, Except.map]
  · have hm : t.plain.memo.lookup (patOf p) = (t.memo.find? fun e => patEq e.1 p).map (·.2) := (find_plain p t.memo).symm
    rw [if_neg hc, if_neg hc, hm]
    cases t.memo.find? fun e => patEq e.1 p with
    | some e => rfl
    | none => simp [Except.map, Table.plain]

/-! ### every compiled datatype is held by something built -/

theorem bind_ok_inv {ε α β : Type} {r : Res ε α} {f : α → Res ε β} {b : β} (h : r.bind f = .ok b) :
    ∃ a, r = .ok a ∧ f a = .ok b := by
  cases r with
  | ok a => exact ⟨a, rfl, h⟩
  | err e => cases h
  | panic => cases h

/-- the source of a pattern can be compiled -/
def Good (x : Ext) (o : Option PatternFacet) : Prop := ∀ p, o = some p → x.reNew p = true

theorem good_new {x : Ext} {v re : Str} (h : mkPattern x v = .ok re) : Good x (some re) := by
  intro p hp
  injection hp with hp
  subst hp
  unfold mkPattern at h
  split at h
  · injection h with h; subst h; assumption
  · cases h

theorem lengthParams_good {x : Ext} {b : Bool} {ps : List Param} {l l' : LengthFacet} {o o' : Option PatternFacet} (ho : Good x o)
    (h : lengthParams x b l o ps = .ok (l', o')) : Good x o' := by
  induction ps generalizing l o with
  | nil => cases h; exact ho
  | cons p ps ih =>
    unfold lengthParams at h
    split at h
    · obtain ⟨n, _, h⟩ := bind_ok_inv h; obtain ⟨n, _, h⟩ := bind_ok_inv h; exact ih ho h
    · split at h
      · obtain ⟨n, _, h⟩ := bind_ok_inv h; obtain ⟨n, _, h⟩ := bind_ok_inv h; exact ih ho h
      · split at h
        · obtain ⟨n, _, h⟩ := bind_ok_inv h; obtain ⟨n, _, h⟩ := bind_ok_inv h; exact ih ho h
        · split at h
          · obtain ⟨n, hn, h⟩ := bind_ok_inv h; exact ih (good_new hn) h
          · cases h

theorem numParams_good {x : Ext} {T : Type} [LE T] [LT T] [DecidableRel (α := T) (· ≤ ·)] [DecidableRel (α := T) (· < ·)]
    {parse : Str → Res FacetErr T} {ps : List Param} {m m' : MinMax T} {o o' : Option PatternFacet} (ho : Good x o)
    (h : numParams x parse m o ps = .ok (m', o')) : Good x o' := by
  induction ps generalizing m o with
  | nil => cases h; exact ho
  | cons p ps ih =>
    unfold numParams at h
    iterate 4
      split at h
      · obtain ⟨n, _, h⟩ := bind_ok_inv h; obtain ⟨n, _, h⟩ := bind_ok_inv h; exact ih ho h
    split at h
    · obtain ⟨n, hn, h⟩ := bind_ok_inv h; exact ih (good_new hn) h
    · cases h

theorem patParams_good {x : Ext} {ps : List Param} {o o' : Option PatternFacet} (ho : Good x o)
    (h : patParams x o ps = .ok o') : Good x o' := by
  induction ps generalizing o with
  | nil => cases h; exact ho
  | cons p ps ih =>
    unfold patParams at h
    split at h
    · obtain ⟨n, hn, h⟩ := bind_ok_inv h; exact ih (good_new hn) h
    · cases h

/-- a bound that a held decimal stands for -/
def HeldBound (b : Bound Rat) : Prop := ∃ c, boundPlain c = b

theorem heldMin {parseDec : Str → Option Dec} {x : Ext} {s : Str} {v : Rat} (h : parseDecP (extOf x parseDec) s = .ok v) :
    ∃ d : Dec, d.value = v := by
  unfold parseDecP at h
  cases hd : parseDec s with
  | none => simp [extOf, hd, orErr] at h
  | some d => simp [extOf, hd, orErr] at h; exact ⟨d, h⟩

theorem minInclusive_held {m m' : MinMax Rat} {d : Dec} (hm : ∃ n, minMaxPlain n = m) (h : m.minInclusive d.value = .ok m') :
    ∃ n, minMaxPlain n = m' := by
  obtain ⟨n, rfl⟩ := hm
  unfold MinMax.minInclusive at h
  split at h
  · cases h
  · split at h
    · cases h; exact ⟨⟨.inclusive d, n.max⟩, rfl⟩
    · cases h
    · cases h

theorem minExclusive_held {m m' : MinMax Rat} {d : Dec} (hm : ∃ n, minMaxPlain n = m) (h : m.minExclusive d.value = .ok m') :
    ∃ n, minMaxPlain n = m' := by
  obtain ⟨n, rfl⟩ := hm
  unfold MinMax.minExclusive at h
  split at h
  · cases h
  · split at h
    · cases h; exact ⟨⟨.exclusive d, n.max⟩, rfl⟩
    · cases h
    · cases h

theorem maxInclusive_held {m m' : MinMax Rat} {d : Dec} (hm : ∃ n, minMaxPlain n = m) (h : m.maxInclusive d.value = .ok m') :
    ∃ n, minMaxPlain n = m' := by
  obtain ⟨n, rfl⟩ := hm
  unfold MinMax.maxInclusive at h
  split at h
  · cases h
  · split at h
    · cases h; exact ⟨⟨n.min, .inclusive d⟩, rfl⟩
    · cases h
    · cases h

theorem maxExclusive_held {m m' : MinMax Rat} {d : Dec} (hm : ∃ n, minMaxPlain n = m) (h : m.maxExclusive d.value = .ok m') :
    ∃ n, minMaxPlain n = m' := by
  obtain ⟨n, rfl⟩ := hm
  unfold MinMax.maxExclusive at h
  split at h
  · cases h
  · split at h
    · cases h; exact ⟨⟨n.min, .exclusive d⟩, rfl⟩
    · cases h
    · cases h

theorem decParams_held {x : Ext} {parseDec : Str → Option Dec} {ps : List Param} {m m' : MinMax Rat} {o o' : Option PatternFacet}
    {fd td fd' td' : Option Nat} (ho : Good x o) (hm : ∃ n, minMaxPlain n = m)
    (h : decParams (extOf x parseDec) m o fd td ps = .ok (m', o', fd', td')) : Good x o' ∧ ∃ n, minMaxPlain n = m' := by
  induction ps generalizing m o fd td with
  | nil => cases h; exact ⟨ho, hm⟩
  | cons p ps ih =>
    unfold decParams at h
    split at h
    · obtain ⟨v, hv, h1⟩ := bind_ok_inv h
      obtain ⟨d, rfl⟩ := heldMin hv
      obtain ⟨n, hn, h2⟩ := bind_ok_inv h1
      exact ih ho (minInclusive_held hm hn) h2
    split at h
    · obtain ⟨v, hv, h1⟩ := bind_ok_inv h
      obtain ⟨d, rfl⟩ := heldMin hv
      obtain ⟨n, hn, h2⟩ := bind_ok_inv h1
      exact ih ho (minExclusive_held hm hn) h2
    split at h
    · obtain ⟨v, hv, h1⟩ := bind_ok_inv h
      obtain ⟨d, rfl⟩ := heldMin hv
      obtain ⟨n, hn, h2⟩ := bind_ok_inv h1
      exact ih ho (maxInclusive_held hm hn) h2
    split at h
    · obtain ⟨v, hv, h1⟩ := bind_ok_inv h
      obtain ⟨d, rfl⟩ := heldMin hv
      obtain ⟨n, hn, h2⟩ := bind_ok_inv h1
      exact ih ho (maxExclusive_held hm hn) h2
    split at h
    · obtain ⟨v, hv, h⟩ := bind_ok_inv h
      exact ih (good_new (x := x) hv) hm h
    split at h
    · obtain ⟨v, hv, h⟩ := bind_ok_inv h
      exact ih ho hm h
    split at h
    · obtain ⟨v, hv, h⟩ := bind_ok_inv h
      exact ih ho hm h
    · cases h

/-- a pattern with the expression of its text -/
def hold (x : Ext) (o : Option PatternFacet) : Option Pattern := o.map fun src => ⟨src, x.reMatch src⟩

theorem hold_plain (x : Ext) (o : Option PatternFacet) : patPlain (hold x o) = o := by cases o <;> rfl

theorem hold_built {x : Ext} {o : Option PatternFacet} (h : Good x o) : ∀ p, hold x o = some p → ∃ src, Pattern.new x src = some p := by
  cases o with
  | none => intro p hp; cases hp
  | some src =>
    intro p hp
    injection hp with hp
    subst hp
    exact ⟨src, by simp [Pattern.new, h src rfl]⟩

theorem facetRes_ok {α : Type} {r : Res FacetErr α} {f : α → XsdDatatype} {d : XsdDatatype} (h : facetRes r f = .ok d) :
    ∃ a, r = .ok a ∧ f a = d := by
  unfold facetRes at h
  split at h
  · cases h; exact ⟨_, rfl, rfl⟩
  · cases h
  · cases h

theorem ite_ok {α : Type} {c : Prop} [Decidable c] {a b d : α} (h : (if c then a else b) = d) : a = d ∨ b = d := by
  by_cases hc : c
  · exact .inl (by rw [if_pos hc] at h; exact h)
  · exact .inr (by rw [if_neg hc] at h; exact h)

theorem none_good (x : Ext) : Good x none := nofun

theorem xsdCompile_held {x : Ext} {parseDec : Str → Option Dec} {name : Str} {ps : List Param} {d : XsdDatatype}
    (h : xsdCompile (extOf x parseDec) name ps = .ok d) : ∃ c : Xsd, Types.Built x (.xsd c) ∧ c.plain = d := by
  have str : ∀ (f : StringFacets → XsdDatatype) (g : Strings → Xsd), (∀ s, (g s).plain = f s.plain) →
      (∀ s, (g s).patterns = s.pattern) →
      facetRes (lengthParams (extOf x parseDec) true .unbounded none ps) (fun r => f ⟨r.1, r.2⟩) = .ok d →
      ∃ c : Xsd, Types.Built x (.xsd c) ∧ c.plain = d := by
    intro f g hg hp h
    obtain ⟨a, ha, rfl⟩ := facetRes_ok h
    have hgood : Good x a.2 := lengthParams_good (x := extOf x parseDec) (none_good _) ha
    refine ⟨g ⟨a.1, hold x a.2⟩, ?_, ?_⟩
    · show ∀ p, (g ⟨a.1, hold x a.2⟩).patterns = some p → _
      rw [hp]; exact hold_built hgood
    · rw [hg]; simp only [Strings.plain, hold_plain]
  have len : ∀ (f : LengthFacet → XsdDatatype) (g : LengthFacet → Xsd), (∀ l, (g l).plain = f l) →
      (∀ l, (g l).patterns = none) →
      facetRes (lengthParams (extOf x parseDec) false .unbounded none ps) (fun r => f r.1) = .ok d →
      ∃ c : Xsd, Types.Built x (.xsd c) ∧ c.plain = d := by
    intro f g hg hp h
    obtain ⟨a, ha, rfl⟩ := facetRes_ok h
    refine ⟨g a.1, ?_, hg _⟩
    show ∀ p, (g a.1).patterns = some p → _
    rw [hp]; nofun
  have num : ∀ (parse : Str → Option Int) (f : MinMax Int → Option PatternFacet → XsdDatatype)
      (g : MinMax Int → Option Pattern → Xsd), (∀ m p, (g m p).plain = f m (patPlain p)) → (∀ m p, (g m p).patterns = p) →
      facetRes (numParams (extOf x parseDec) (fun s => orErr .invalidInt (parse s)) {} none ps) (fun r => f r.1 r.2) = .ok d →
      ∃ c : Xsd, Types.Built x (.xsd c) ∧ c.plain = d := by
    intro parse f g hg hp h
    obtain ⟨a, ha, rfl⟩ := facetRes_ok h
    have hgood : Good x a.2 := numParams_good (x := extOf x parseDec) (none_good _) ha
    refine ⟨g a.1 (hold x a.2), ?_, ?_⟩
    · show ∀ p, (g a.1 (hold x a.2)).patterns = some p → _
      rw [hp]; exact hold_built hgood
    · rw [hg, hold_plain]
  have pat : ∀ (f : Option PatternFacet → XsdDatatype) (g : Option Pattern → Xsd), (∀ p, (g p).plain = f (patPlain p)) →
      (∀ p, (g p).patterns = p) → facetRes (patParams (extOf x parseDec) none ps) f = .ok d →
      ∃ c : Xsd, Types.Built x (.xsd c) ∧ c.plain = d := by
    intro f g hg hp h
    obtain ⟨a, ha, rfl⟩ := facetRes_ok h
    have hgood : Good x a := patParams_good (x := extOf x parseDec) (none_good _) ha
    refine ⟨g (hold x a), ?_, ?_⟩
    · show ∀ p, (g (hold x a)).patterns = some p → _
      rw [hp]; exact hold_built hgood
    · rw [hg, hold_plain]
  unfold xsdCompile at h
  dsimp only at h
  rcases ite_ok h with h | h
  · exact str _ .normalizedString (fun _ => rfl) (fun _ => rfl) h
  rcases ite_ok h with h | h
  · exact str _ .string (fun _ => rfl) (fun _ => rfl) h
  rcases ite_ok h with h | h
  · exact num _ _ .short (fun _ _ => rfl) (fun _ _ => rfl) h
  rcases ite_ok h with h | h
  · exact num _ _ .unsignedShort (fun _ _ => rfl) (fun _ _ => rfl) h
  rcases ite_ok h with h | h
  · exact num _ _ .long (fun _ _ => rfl) (fun _ _ => rfl) h
  rcases ite_ok h with h | h
  · exact num _ _ .int (fun _ _ => rfl) (fun _ _ => rfl) h
  rcases ite_ok h with h | h
  · exact num _ _ .integer (fun _ _ => rfl) (fun _ _ => rfl) h
  rcases ite_ok h with h | h
  · exact num _ _ .positiveInteger (fun _ _ => rfl) (fun _ _ => rfl) h
  rcases ite_ok h with h | h
  · obtain ⟨⟨m, o, fd, td⟩, ha, rfl⟩ := facetRes_ok h
    obtain ⟨hgood, n, rfl⟩ := decParams_held (x := x) (none_good x) ⟨⟨.unbounded, .unbounded⟩, rfl⟩ ha
    exact ⟨.decimal n (hold x o) fd td, hold_built hgood, by simp only [Xsd.plain, hold_plain]⟩
  rcases ite_ok h with h | h
  · obtain ⟨a, ha, rfl⟩ := facetRes_ok h
    have hgood : Good x a.2 := numParams_good (x := extOf x parseDec) (none_good _) ha
    exact ⟨.double (hold x a.2), hold_built hgood, by simp only [Xsd.plain, hold_plain]⟩
  rcases ite_ok h with h | h
  · exact len _ .nmTokens (fun _ => rfl) (fun _ => rfl) h
  rcases ite_ok h with h | h
  · exact len _ .nmToken (fun _ => rfl) (fun _ => rfl) h
  rcases ite_ok h with h | h
  · exact len _ .ncName (fun _ => rfl) (fun _ => rfl) h
  rcases ite_ok h with h | h
  · exact len _ .token (fun _ => rfl) (fun _ => rfl) h
  rcases ite_ok h with h | h
  · exact pat _ .duration (fun _ => rfl) (fun _ => rfl) h
  rcases ite_ok h with h | h
  · exact pat _ .date (fun _ => rfl) (fun _ => rfl) h
  rcases ite_ok h with h | h
  · exact pat _ .datetime (fun _ => rfl) (fun _ => rfl) h
  rcases ite_ok h with h | h
  · exact pat _ .anyURI (fun _ => rfl) (fun _ => rfl) h
  rcases ite_ok h with h | h
  · exact pat _ .language (fun _ => rfl) (fun _ => rfl) h
  rcases ite_ok h with h | h
  · exact pat _ .boolean (fun _ => rfl) (fun _ => rfl) h
  rcases ite_ok h with h | h
  · exact num _ _ .unsignedInt (fun _ _ => rfl) (fun _ _ => rfl) h
  rcases ite_ok h with h | h
  · exact pat _ .id (fun _ => rfl) (fun _ => rfl) h
  rcases ite_ok h with h | h
  · exact pat _ .idRef (fun _ => rfl) (fun _ => rfl) h
  rcases ite_ok h with h | h
  · exact num _ _ .unsignedLong (fun _ _ => rfl) (fun _ _ => rfl) h
  · cases h

theorem mapBoth_ok {ε ε' α β : Type} {r : Res ε α} {f : α → β} {g : ε → ε'} {b : β} (h : r.mapBoth f g = .ok b) :
    ∃ a, r = .ok a ∧ f a = b := by
  cases r with
  | ok a => cases h; exact ⟨a, rfl, rfl⟩
  | err e => cases h
  | panic => cases h

/-- C79.  Every datatype the compiler produces is what the model keeps of a held one whose pattern was compiled from its own text, so
that the theorems above speak about all datatypes of compiled schemas. -/
theorem C79_compiled_datatypes_are_held {x : Ext} {parseDec : Str → Option Dec} {n : DtName} {ps : List Param} {d : Datatypes}
    (h : datatypeNameOf (extOf x parseDec) n ps = .ok d) : ∃ c : Types, c.Built x ∧ c.plain = d := by
  have relax : ∀ n', (relaxName n' ps).mapBoth Datatypes.relax DtErr.relax = .ok d → ∃ c : Types, c.Built x ∧ c.plain = d := by
    intro n' h
    obtain ⟨a, _, rfl⟩ := mapBoth_ok h
    exact ⟨.relax a, trivial, rfl⟩
  have lib : ∀ n' u, dtNameIn (extOf x parseDec) n' ps u = .ok d → ∃ c : Types, c.Built x ∧ c.plain = d := by
    intro n' u h
    unfold dtNameIn at h
    split at h
    · exact relax _ h
    split at h
    · obtain ⟨a, ha, rfl⟩ := mapBoth_ok h
      unfold xsdNameOf at ha
      split at ha
      · obtain ⟨c, hc, rfl⟩ := xsdCompile_held ha
        exact ⟨.xsd c, hc, rfl⟩
      · cases ha
    · cases h
  unfold datatypeNameOf at h
  split at h
  · exact relax _ h
  · exact relax _ h
  · exact lib _ _ h
  · exact lib _ _ h

/-! ### cases -/

/-- external functions for the cases: an expression matches the texts that contain its first character -/
def caseExt : Ext where
  reNew s := !s.isEmpty
  reMatch src s := match src with
    | c :: _ => s.contains c
    | [] => false
  parseDec _ := none
  parseF64 _ := none
  isDate _ := false
  isUri _ := false
  isNd c := c.isDigit

/-- `xsd:decimal { minInclusive = "1.0" pattern = "5" }` -/
def dec10 : Types := .xsd (.decimal ⟨.inclusive ⟨10, 1⟩, .unbounded⟩ (some ⟨"5".toList, caseExt.reMatch "5".toList⟩) none none)
/-- `xsd:decimal { minInclusive = "1.00" pattern = "5" }` -/
def dec100 : Types := .xsd (.decimal ⟨.inclusive ⟨100, 2⟩, .unbounded⟩ (some ⟨"5".toList, caseExt.reMatch "5".toList⟩) none none)
/-- the same, with `fractionDigits = "2"` -/
def decFraction : Types :=
  .xsd (.decimal ⟨.inclusive ⟨100, 2⟩, .unbounded⟩ (some ⟨"5".toList, caseExt.reMatch "5".toList⟩) (some 2) none)

theorem dec10_built : dec10.Built caseExt := fun _ h => ⟨"5".toList, h⟩
theorem dec100_built : dec100.Built caseExt := fun _ h => ⟨"5".toList, h⟩

/-- the two are different in memory, and equal -/
example : dec10.eq dec100 = true := by decide +kernel
example : dec10 ≠ dec100 := by intro h; simp [dec10, dec100] at h

/-- so that they accept the same, whatever reads the decimals -/
example (parseDec : Str → Option Dec) (s : Str) :
    dec10.isValid caseExt parseDec s = dec100.isValid caseExt parseDec s :=
  C79_equal_datatypes_accept_the_same dec10_built dec100_built (by decide +kernel) s

/-- both accept 1.5 and reject 1.4 and 0.5 -/
example : (dec10.isValid caseExt (fun s => if s = "1.5".toList then some ⟨15, 1⟩ else some ⟨14, 1⟩) "1.5".toList = some true) ∧
    (dec10.isValid caseExt (fun s => if s = "1.5".toList then some ⟨15, 1⟩ else some ⟨14, 1⟩) "1.4".toList = some false) ∧
    (dec100.isValid caseExt (fun _ => some ⟨5, 1⟩) "0.5".toList = some false) := by decide +kernel

/-- what bigdecimal feeds to the hasher may be the digits without the trailing zeros of the fraction; here, the numerator and denominator -/
example : dec10.hash (fun d => [.int d.value.num, .int d.value.den]) = dec100.hash (fun d => [.int d.value.num, .int d.value.den]) :=
  C79_equal_datatypes_hash_alike (fun a b h => by rw [show a.value = b.value by simpa [Dec.eq] using h]) (by decide +kernel)

/-- The table keeps one entry for both. -/
example : ((⟨[], [], []⟩ : Table).push (.datatype dec10)).bind (fun r => r.2.push (.datatype dec100)) =
    .ok (0, ⟨[.datatype dec10], [(.datatype dec10, 0)], []⟩) := by
  have h : patEq (.datatype dec10) (.datatype dec100) = true := by decide +kernel
  simp [Table.push, Except.bind, h]

/-- C79.  Comparing equal is more than accepting the same: `fractionDigits` is compared, and never tested. -/
theorem C79_equality_is_finer_than_acceptance :
    dec100.eq decFraction = false ∧ ∀ x parseDec s, dec100.isValid x parseDec s = decFraction.isValid x parseDec s :=
  ⟨by decide +kernel, fun _ _ _ => rfl⟩

/-- Were the expression not the one of the text, equal datatypes could differ: the hypothesis of
`C79_equal_datatypes_accept_the_same` is needed, and the private fields of `PatternFacet` are what makes it true. -/
example : (Types.xsd (.id (some ⟨"a".toList, fun _ => true⟩))).eq (.xsd (.id (some ⟨"a".toList, fun _ => false⟩))) = true ∧
    (Types.xsd (.id (some ⟨"a".toList, fun _ => true⟩))).isValid caseExt (fun _ => none) [] ≠
      (Types.xsd (.id (some ⟨"a".toList, fun _ => false⟩))).isValid caseExt (fun _ => none) [] :=
  ⟨rfl, fun h => by cases h⟩

end Verif.Held
