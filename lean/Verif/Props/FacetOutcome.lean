import Verif.Proof.FacetOutcome
/-
C74: what becomes of a datatype with parameters, for every type, every list of parameters.
-/
namespace Verif

theorem facetRes_wrong {α : Type} {r : Res FacetErr α} {f : α → XsdDatatype} {Obj : List Param → Param → Option FacetErr → Prop}
    {ps : List Param} (h : (∀ o, r.wrong = some o ↔ FirstObjection Obj ps o) ∧ (r.wrong = none ↔ Unobjected Obj ps)) {res : Res DtErr Datatypes}
    (e : res = (facetRes r f).mapBoth .xsd .xsd) :
    ((∃ d, res = .ok d) ↔ Unobjected Obj ps) ∧
    (∀ e, res = .err e ↔ ∃ f, e = .xsd (.facet f) ∧ FirstObjection Obj ps (some f)) ∧ (res = .panic ↔ FirstObjection Obj ps none) := by
  subst e
  obtain ⟨h1, h2⟩ := h
  cases r with
  | ok a =>
    refine ⟨⟨fun _ => h2.mp rfl, fun _ => ⟨_, rfl⟩⟩, fun e => ⟨nofun, ?_⟩, ⟨nofun, fun h => ?_⟩⟩
    · rintro ⟨f, _, hf⟩; exact nomatch (h1 _).mpr hf
    · exact nomatch (h1 _).mpr h
  | err e' =>
    refine ⟨⟨nofun, fun h => nomatch h2.mpr h⟩, fun e => ⟨fun h => ?_, ?_⟩, ⟨nofun, fun h => ?_⟩⟩
    · cases h; exact ⟨e', rfl, (h1 _).mp rfl⟩
    · rintro ⟨f, rfl, hf⟩; have := (h1 _).mpr hf; cases this; rfl
    · exact nomatch (h1 _).mpr h
  | panic =>
    refine ⟨⟨nofun, fun h => nomatch h2.mpr h⟩, fun e => ⟨nofun, ?_⟩, ⟨fun _ => (h1 _).mp rfl, fun _ => rfl⟩⟩
    rintro ⟨f, _, hf⟩; exact nomatch (h1 _).mpr hf

theorem loop_outcome {σ : Type} {step : σ → Param → Res FacetErr σ} {Obj : List Param → Param → Option FacetErr → Prop}
    {Inv : List Param → σ → Prop} (hs : StepOk step Obj Inv) {st : σ} (hi : Inv [] st) (ps : List Param) :
    (∀ o, (loop step st ps).wrong = some o ↔ FirstObjection Obj ps o) ∧ ((loop step st ps).wrong = none ↔ Unobjected Obj ps) := by
  obtain ⟨h1, h2⟩ := loop_wrong hs ps [] st hi
  exact ⟨fun o => (h1 o).trans firstFrom_nil, h2.trans unobjFrom_nil⟩

theorem num_outcome {T : Type} [LE T] [LT T] [DecidableRel (α := T) (· ≤ ·)] [DecidableRel (α := T) (· < ·)] (x : Ext)
    {parse : Str → Option T} {Val : Str → T → Prop} (hv : ∀ s v, parse s = some v ↔ Val s v) (unread : FacetErr) (ps : List Param) :
    (∀ o, (numParams x (fun s => orErr unread (parse s)) {} none ps).wrong = some o ↔ FirstObjection (RangeObjection x Val unread false) ps o) ∧
    ((numParams x (fun s => orErr unread (parse s)) {} none ps).wrong = none ↔ Unobjected (RangeObjection x Val unread false) ps) := by
  have e : Val = fun s v => parse s = some v := funext fun s => funext fun v => propext (hv s v).symm
  have hw : (numParams x (fun s => orErr unread (parse s)) {} none ps).wrong =
      (loop (rangeStep x parse unread false) ({}, none, none, none) ps).wrong := by
    rw [numParams_loop x parse unread ps ({}, none, none, none)]
    cases loop (rangeStep x parse unread false) ({}, none, none, none) ps <;> rfl
  rw [e, hw]
  exact loop_outcome rangeStep_ok RInv.start ps

theorem parseF64P_eq (x : Ext) : parseF64P x = fun s => orErr .invalidFloat ((x.parseF64 s).bind id) := by
  funext s
  unfold parseF64P
  cases x.parseF64 s with
  | none => rfl
  | some o => cases o <;> rfl

/-- C74.  A type of the XML Schema library with a list of parameters compiles exactly if nothing is to be objected to any
parameter; otherwise the first parameter objected to decides between the error and the panic. -/
theorem C74_parameters (x : Ext) {name : Str} {Obj : List Param → Param → Option FacetErr → Prop} (h : TypeRule x name Obj) (ps : List Param) :
    ((∃ d, datatypeNameOf x (.cname xsdUri name) ps = .ok d) ↔ Unobjected Obj ps) ∧
    (∀ e, datatypeNameOf x (.cname xsdUri name) ps = .err e ↔ ∃ f, e = .xsd (.facet f) ∧ FirstObjection Obj ps (some f)) ∧
    (datatypeNameOf x (.cname xsdUri name) ps = .panic ↔ FirstObjection Obj ps none) := by
  have len := fun b => lengthParams_loop x b ps .unbounded none
  have pat := patParams_loop x ps none
  have hlen : ∀ b, (∀ o, (lengthParams x b .unbounded none ps).wrong = some o ↔ FirstObjection (LengthObjection x b) ps o) ∧
      ((lengthParams x b .unbounded none ps).wrong = none ↔ Unobjected (LengthObjection x b) ps) := fun b => by
    rw [len b]; exact loop_outcome lenStep_ok (st := (.unbounded, none)) (fun _ h => nomatch h) ps
  have hpat : (∀ o, (patParams x none ps).wrong = some o ↔ FirstObjection (fun _ => PatternObjection x) ps o) ∧
      ((patParams x none ps).wrong = none ↔ Unobjected (fun _ => PatternObjection x) ps) := by
    rw [pat]; exact loop_outcome (patStep_ok x) trivial ps
  cases h with
  | integer h =>
    obtain ⟨c⟩ := intType_code x h
    exact facetRes_wrong (num_outcome x c.parse_iff .invalidInt ps) (by rw [datatypeNameOf_xsd, c.compile])
  | decimal =>
    refine facetRes_wrong (r := decParams x {} none none none ps) ?_ (by rw [datatypeNameOf_xsd, xsdCompile_decimal])
    rw [decParams_loop]
    exact loop_outcome rangeStep_ok RInv.start ps
  | double =>
    refine facetRes_wrong (r := numParams x (parseF64P x) {} none ps) (f := fun r => .double r.2) ?_ (by rw [datatypeNameOf_xsd]; rfl)
    rw [parseF64P_eq]
    refine num_outcome x (fun s v => ?_) .invalidFloat ps
    cases x.parseF64 s with
    | none => simp
    | some o => simp
  | string h =>
    rcases List.mem_cons.mp h with rfl | h
    · exact facetRes_wrong (hlen true) (f := fun r => .string ⟨r.1, r.2⟩) (by rw [datatypeNameOf_xsd]; rfl)
    cases List.mem_singleton.mp h
    exact facetRes_wrong (hlen true) (f := fun r => .normalizedString ⟨r.1, r.2⟩) (by rw [datatypeNameOf_xsd]; rfl)
  | name h =>
    rcases List.mem_cons.mp h with rfl | h
    · exact facetRes_wrong (hlen false) (f := fun r => .ncName r.1) (by rw [datatypeNameOf_xsd]; rfl)
    rcases List.mem_cons.mp h with rfl | h
    · exact facetRes_wrong (hlen false) (f := fun r => .nmToken r.1) (by rw [datatypeNameOf_xsd]; rfl)
    rcases List.mem_cons.mp h with rfl | h
    · exact facetRes_wrong (hlen false) (f := fun r => .nmTokens r.1) (by rw [datatypeNameOf_xsd]; rfl)
    cases List.mem_singleton.mp h
    exact facetRes_wrong (hlen false) (f := fun r => .token r.1) (by rw [datatypeNameOf_xsd]; rfl)
  | other h =>
    rcases List.mem_cons.mp h with rfl | h
    · exact facetRes_wrong hpat (f := .duration) (by rw [datatypeNameOf_xsd]; rfl)
    rcases List.mem_cons.mp h with rfl | h
    · exact facetRes_wrong hpat (f := .date) (by rw [datatypeNameOf_xsd]; rfl)
    rcases List.mem_cons.mp h with rfl | h
    · exact facetRes_wrong hpat (f := .datetime) (by rw [datatypeNameOf_xsd]; rfl)
    rcases List.mem_cons.mp h with rfl | h
    · exact facetRes_wrong hpat (f := .anyURI) (by rw [datatypeNameOf_xsd]; rfl)
    rcases List.mem_cons.mp h with rfl | h
    · exact facetRes_wrong hpat (f := .language) (by rw [datatypeNameOf_xsd]; rfl)
    rcases List.mem_cons.mp h with rfl | h
    · exact facetRes_wrong hpat (f := .boolean) (by rw [datatypeNameOf_xsd]; rfl)
    rcases List.mem_cons.mp h with rfl | h
    · exact facetRes_wrong hpat (f := .id) (by rw [datatypeNameOf_xsd]; rfl)
    cases List.mem_singleton.mp h
    exact facetRes_wrong hpat (f := .idRef) (by rw [datatypeNameOf_xsd]; rfl)

/-- C74.  The 24 types above are supported without parameters; every other name is reported as unsupported, whatever the
parameters. -/
theorem C74_supported_types (x : Ext) (name : Str) :
    (∃ Obj, TypeRule x name Obj) ∨ ∀ ps, datatypeNameOf x (.cname xsdUri name) ps = .err (.xsd .unsupported) := by
  by_cases h1 : name = "normalizedString".toList; · subst h1; exact .inl ⟨_, .string (.tail _ (.head _))⟩
  by_cases h2 : name = "string".toList; · subst h2; exact .inl ⟨_, .string (.head _)⟩
  by_cases h3 : name = "short".toList; · subst h3; exact .inl ⟨_, .integer .short⟩
  by_cases h4 : name = "unsignedShort".toList; · subst h4; exact .inl ⟨_, .integer .unsignedShort⟩
  by_cases h5 : name = "long".toList; · subst h5; exact .inl ⟨_, .integer .long⟩
  by_cases h6 : name = "int".toList; · subst h6; exact .inl ⟨_, .integer .int⟩
  by_cases h7 : name = "integer".toList; · subst h7; exact .inl ⟨_, .integer .integer⟩
  by_cases h8 : name = "positiveInteger".toList; · subst h8; exact .inl ⟨_, .integer .positiveInteger⟩
  by_cases h9 : name = "decimal".toList; · subst h9; exact .inl ⟨_, .decimal⟩
  by_cases h10 : name = "double".toList; · subst h10; exact .inl ⟨_, .double⟩
  by_cases h11 : name = "NMTOKENS".toList; · subst h11; exact .inl ⟨_, .name (.tail _ (.tail _ (.head _)))⟩
  by_cases h12 : name = "NMTOKEN".toList; · subst h12; exact .inl ⟨_, .name (.tail _ (.head _))⟩
  by_cases h13 : name = "NCName".toList; · subst h13; exact .inl ⟨_, .name (.head _)⟩
  by_cases h14 : name = "token".toList; · subst h14; exact .inl ⟨_, .name (.tail _ (.tail _ (.tail _ (.head _))))⟩
  by_cases h15 : name = "duration".toList; · subst h15; exact .inl ⟨_, .other (.head _)⟩
  by_cases h16 : name = "date".toList; · subst h16; exact .inl ⟨_, .other (.tail _ (.head _))⟩
  by_cases h17 : name = "dateTime".toList; · subst h17; exact .inl ⟨_, .other (.tail _ (.tail _ (.head _)))⟩
  by_cases h18 : name = "anyURI".toList; · subst h18; exact .inl ⟨_, .other (.tail _ (.tail _ (.tail _ (.head _))))⟩
  by_cases h19 : name = "language".toList; · subst h19; exact .inl ⟨_, .other (.tail _ (.tail _ (.tail _ (.tail _ (.head _)))))⟩
  by_cases h20 : name = "boolean".toList; · subst h20; exact .inl ⟨_, .other (.tail _ (.tail _ (.tail _ (.tail _ (.tail _ (.head _))))))⟩
  by_cases h21 : name = "unsignedInt".toList; · subst h21; exact .inl ⟨_, .integer .unsignedInt⟩
  by_cases h22 : name = "ID".toList
  · subst h22; exact .inl ⟨_, .other (.tail _ (.tail _ (.tail _ (.tail _ (.tail _ (.tail _ (.head _)))))))⟩
  by_cases h23 : name = "IDREF".toList
  · subst h23; exact .inl ⟨_, .other (.tail _ (.tail _ (.tail _ (.tail _ (.tail _ (.tail _ (.tail _ (.head _))))))))⟩
  by_cases h24 : name = "unsignedLong".toList; · subst h24; exact .inl ⟨_, .integer .unsignedLong⟩
  refine .inr fun ps => ?_
  rw [datatypeNameOf_xsd]
  unfold xsdCompile
  simp only [if_neg h1, if_neg h2, if_neg h3, if_neg h4, if_neg h5, if_neg h6, if_neg h7, if_neg h8, if_neg h9, if_neg h10, if_neg h11,
    if_neg h12, if_neg h13, if_neg h14, if_neg h15, if_neg h16, if_neg h17, if_neg h18, if_neg h19, if_neg h20, if_neg h21, if_neg h22,
    if_neg h23, if_neg h24]
  rfl

/-- a supported type is never reported as unsupported -/
theorem C74_supported_iff (x : Ext) (name : Str) (ps : List Param) :
    datatypeNameOf x (.cname xsdUri name) ps = .err (.xsd .unsupported) ↔ ¬ ∃ Obj, TypeRule x name Obj := by
  constructor
  · rintro h ⟨Obj, ho⟩
    obtain ⟨f, hf, _⟩ := ((C74_parameters x ho ps).2.1 _).mp h
    cases hf
  · intro h; exact ((C74_supported_types x name).resolve_left h) ps

/-- a list of parameters has at most one first objection -/
theorem C74_one_outcome (x : Ext) {name : Str} {Obj : List Param → Param → Option FacetErr → Prop} (h : TypeRule x name Obj) (ps : List Param)
    {o o' : Option FacetErr} (h1 : FirstObjection Obj ps o) (h2 : FirstObjection Obj ps o') : o = o' := by
  obtain ⟨_, he, hp⟩ := C74_parameters x h ps
  cases o with
  | none =>
    cases o' with
    | none => rfl
    | some f => have := (hp.mpr h1).symm.trans ((he _).mpr ⟨f, rfl, h2⟩); cases this
  | some e =>
    cases o' with
    | none => have := (hp.mpr h2).symm.trans ((he _).mpr ⟨e, rfl, h1⟩); cases this
    | some f => have := ((he _).mpr ⟨e, rfl, h1⟩).symm.trans ((he _).mpr ⟨f, rfl, h2⟩); cases this; rfl

/-- C74.  A bound of `double` must be finite: an infinity or NaN is refused like a text that is no number at all. -/
theorem C74_double_bounds_are_finite (x : Ext) {before after : List Param} {p : Param}
    (hb : ∃ d, datatypeNameOf x (.cname xsdUri "double".toList) before = .ok d) (hp : p.isLower = true ∨ p.isUpper = true)
    (hv : x.parseF64 p.value = none ∨ x.parseF64 p.value = some none) :
    datatypeNameOf x (.cname xsdUri "double".toList) (before ++ p :: after) = .err (.xsd (.facet .invalidFloat)) := by
  refine ((C74_parameters x .double _).2.1 _).mpr ⟨_, rfl, before, p, after, rfl, ((C74_parameters x .double _).1).mp hb, .unreadable hp ?_⟩
  intro v h
  rcases hv with hv | hv <;> (rw [hv] at h; cases h)

/-- C74.  The other libraries.  Neither the built-in library nor an unknown one panics; the built-in library objects to every
parameter first. -/
theorem C74_other_libraries (x : Ext) (n : DtName) (ps : List Param) :
    (n = .string ∨ n = .token ∨ (∃ l, n = .cname [] l) ∨ (∃ l, n = .namespaced [] l) →
      (ps ≠ [] → datatypeNameOf x n ps = .err (.relax .paramNotAllowed)) ∧
      (ps = [] → (n = .string ∨ n = .cname [] "string".toList → datatypeNameOf x n ps = .ok (.relax .string)) ∧
        (n = .token ∨ n = .cname [] "token".toList → datatypeNameOf x n ps = .ok (.relax .token)) ∧
        (n ≠ .string → n ≠ .token → n ≠ .cname [] "string".toList → n ≠ .cname [] "token".toList →
          datatypeNameOf x n ps = .err (.relax .nameUnknown)))) ∧
    (∀ uri l, n = .cname uri l ∨ n = .namespaced uri l → uri ≠ [] → uri ≠ xsdUri → datatypeNameOf x n ps = .err .unsupportedLibrary) := by
  refine ⟨fun hn => ?_, ?_⟩
  · have he : datatypeNameOf x n ps = (relaxName n ps).mapBoth .relax .relax := by
      rcases hn with rfl | rfl | ⟨l, rfl⟩ | ⟨l, rfl⟩ <;> rfl
    rw [he]
    refine ⟨fun hp => by unfold relaxName; rw [if_pos hp]; rfl, fun hp => ?_⟩
    subst hp
    refine ⟨?_, ?_, ?_⟩
    · rintro (rfl | rfl) <;> rfl
    · rintro (rfl | rfl) <;> rfl
    · intro h1 h2 h3 h4
      rcases hn with rfl | rfl | ⟨l, rfl⟩ | ⟨l, rfl⟩
      · exact absurd rfl h1
      · exact absurd rfl h2
      · unfold relaxName
        rw [if_neg (by simp)]
        have a : l ≠ "string".toList := fun h => h3 (by rw [h])
        have b : l ≠ "token".toList := fun h => h4 (by rw [h])
        simp only [if_neg a, if_neg b]; rfl
      · rfl
  · intro uri l hn h1 h2
    rcases hn with rfl | rfl <;> simp only [datatypeNameOf, dtNameIn, if_neg h1, if_neg h2]

/-! ### cases -/

private def exP (n v : String) : Param := ⟨n.toList, v.toList⟩

/-- a list of four parameters that is not objected to -/
example (x : Ext) (hr : x.reNew "1.*".toList = true) : Unobjected
    (RangeObjection x (fun s (v : Int) => SNumeral s v ∧ -32768 ≤ v ∧ v ≤ 32767) .invalidInt false)
    [exP "maxExclusive" "20", exP "pattern" "1.*", exP "minInclusive" "-5", exP "pattern" "1.*"] := by
  refine ((C74_parameters x (.integer .short) _).1).mp ?_
  refine ⟨.xsd (.short ⟨.inclusive (-5), .exclusive 20⟩ (some "1.*".toList)), ?_⟩
  have hm : mkPattern x "1.*".toList = .ok "1.*".toList := by unfold mkPattern; rw [if_pos hr]
  show Res.mapBoth (facetRes (Res.bind (mkPattern x "1.*".toList) fun re => Res.bind (mkPattern x "1.*".toList) fun re' => .ok (⟨.inclusive (-5), .exclusive 20⟩, some re'))
    (fun r => XsdDatatype.short r.1 r.2)) Datatypes.xsd DtErr.xsd = _
  rw [hm]; rfl

/-- the second parameter is the first that is objected to: it contradicts the first -/
example (x : Ext) : FirstObjection (RangeObjection x (fun s (v : Int) => SNumeral s v ∧ -32768 ≤ v ∧ v ≤ 32767) .invalidInt false)
    [exP "maxExclusive" "20", exP "minInclusive" "20", exP "bogus" "1"] (some .conflicting) := by
  have h : datatypeNameOf x (.cname xsdUri "short".toList) [exP "maxExclusive" "20", exP "minInclusive" "20", exP "bogus" "1"] =
    .err (.xsd (.facet .conflicting)) := rfl
  obtain ⟨f, hf, hx⟩ := ((C74_parameters x (.integer .short) _).2.1 _).mp h
  cases hf; exact hx

/-- the same facet twice panics -/
example (x : Ext) : FirstObjection (LengthObjection x true) [exP "maxLength" "9", exP "minLength" "2"] none :=
  ((C74_parameters x (.string (.head _)) _).2.2).mp rfl

/-- an infinite bound -/
example : ∃ x : Ext, datatypeNameOf x (.cname xsdUri "double".toList) [exP "maxInclusive" "inf"] = .err (.xsd (.facet .invalidFloat)) ∧
    ∃ d, datatypeNameOf x (.cname xsdUri "double".toList) [] = .ok d ∧ d.isValid x "inf".toList = some true := by
  refine ⟨⟨fun _ => true, fun _ _ => true, fun _ => none, fun _ => some none, fun _ => false, fun _ => false, fun _ => false⟩, rfl, _, rfl, rfl⟩

end Verif
