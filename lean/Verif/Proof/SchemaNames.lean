import Verif.Proof.SchemaRun
/-
Names, prefixes and declarations in the schema compiler.
-/
namespace Verif

variable {F : Files} {c c' : SCtx} {e : NEnv}

/-! ### name classes, datatype names -/

theorem nsUriE_ok {pre u : Str} (h : c.nsUriE pre = .ok u) : c.nsUri pre = some u := by
  unfold SCtx.nsUriE at h
  split at h
  · rename_i hu; cases h; exact hu
  · cases h

theorem dtUriE_ok {pre u : Str} (h : c.dtUriE pre = .ok u) : c.dtUri pre = some u := by
  unfold SCtx.dtUriE at h
  split at h
  · rename_i hu; cases h; exact hu
  · cases h

theorem nsRef_ok (ha : c.Agrees e) {n : NsRef} {u : Str} (h : c.nsRef n = .ok u) : e.nsRef n = some u := by
  cases n with
  | uri _ => cases h; rfl
  | pre _ => exact ha.ns _ _ (nsUriE_ok h)

theorem pair_ext_iff {a b : Str} {n : Str × Str} : n = (a, b) ↔ n.1 = a ∧ n.2 = b := by
  cases n; simp

theorem compileNameclass_spec (ha : c.Agrees e) {el : Bool} : ∀ {nc : SNameClass} {nc' : NameClass},
    compileNameclass c el nc = .ok nc' → ∀ n, nc'.Has n ↔ nc.Has e n
  | .ident id, nc', h, n => by
    have : (if el then c.defaultNamespaceUri else []) = ([] : Str) := by cases el <;> rfl
    rw [compileNameclass, this] at h; cases h
    simp only [NameClass.Has, SNameClass.Has]
  | .cname pre loc, nc', h, n => by
    obtain ⟨u, h1, h2⟩ := except_bind_ok h
    cases h2
    have := ha.ns _ _ (nsUriE_ok h1)
    simp only [NameClass.Has, SNameClass.Has, this, pair_ext_iff, Option.some.injEq, eq_comm (a := u)]
  | .namespaced uri loc, nc', h, n => by
    cases h; simp only [NameClass.Has, SNameClass.Has]
  | .nsName r, nc', h, n => by
    obtain ⟨u, h1, h2⟩ := except_bind_ok h
    cases h2
    simp only [NameClass.Has, SNameClass.Has, nsRef_ok ha h1, Option.some.injEq, eq_comm (a := u)]
  | .nsNameExcept r ex, nc', h, n => by
    obtain ⟨ex', h0, h⟩ := except_bind_ok h
    obtain ⟨u, h1, h2⟩ := except_bind_ok h
    cases h2
    simp only [NameClass.Has, SNameClass.Has, nsRef_ok ha h1, Option.some.injEq, eq_comm (a := u),
      compileNameclass_spec ha h0 n]
  | .anyName, nc', h, n => by
    cases h; simp only [NameClass.Has, SNameClass.Has]
  | .anyNameExcept ex, nc', h, n => by
    obtain ⟨ex', h0, h2⟩ := except_bind_ok h
    cases h2
    simp only [NameClass.Has, SNameClass.Has, compileNameclass_spec ha h0 n]
  | .alt a b, nc', h, n => by
    obtain ⟨a', h0, h⟩ := except_bind_ok h
    obtain ⟨b', h1, h2⟩ := except_bind_ok h
    cases h2
    simp only [NameClass.Has, SNameClass.Has, compileNameclass_spec ha h0 n, compileNameclass_spec ha h1 n]
  | .paren a, nc', h, n => by
    rw [compileNameclass] at h
    rw [SNameClass.Has]
    exact compileNameclass_spec ha h n

theorem dtName_spec (ha : c.Agrees e) {t : SDtName} {n : DtName} (h : c.dtName t = .ok n) : e.dt t = some n := by
  cases t with
  | string => cases h; rfl
  | token => cases h; rfl
  | cname pre name =>
    obtain ⟨u, h1, h2⟩ := except_bind_ok h
    cases h2
    simp [NEnv.dt, ha.dt _ _ (dtUriE_ok h1)]
  | «namespaced» u n => cases h; rfl

theorem dtRes_ok {α : Type} {r : Res DtErr α} {a : α} (h : dtRes r = .ok a) : r = .ok a := by
  cases r <;> cases h; rfl

theorem includePath_spec (ha : c.Agrees e) {lit p : Str} (h : includePath F c lit = .ok p) : F.join e.file lit = some p := by
  unfold includePath at h
  rw [ha.file] at h
  dsimp only at h
  split at h
  · rename_i hp; cases h; exact hp
  · cases h

/-! ### declarations -/

theorem lookup_append_pair {α : Type} (l l' : List (Str × α)) (p : Str) :
    (l ++ l').lookup p = (l.lookup p).or (l'.lookup p) := by
  induction l with
  | nil => simp
  | cons a l ih =>
    obtain ⟨k, v⟩ := a
    rw [List.cons_append, lookup_cons_ite, lookup_cons_ite, ih]
    split <;> simp

/-- `l` lists what `m` maps, whatever the order -/
def LookEq (l m : List (Str × Str)) : Prop := ∀ p, l.lookup p = m.lookup p

/-- declaring: the first declaration counts -/
theorem lookEq_declare {l m : List (Str × Str)} (h : LookEq l m) {p u : Str} :
    LookEq (if (l.lookup p).isSome then l else (p, u) :: l) (m ++ [(p, u)]) := by
  intro q
  rw [lookup_append_pair, ← h q]
  split
  · rename_i hs
    by_cases hq : q = p
    · subst hq
      obtain ⟨v, hv⟩ := Option.isSome_iff_exists.mp hs
      simp [hv]
    · simp only [lookup_cons_ite, if_neg hq]; simp
  · rename_i hs
    rw [lookup_cons_ite, lookup_cons_ite]
    split
    · rename_i hq; subst hq
      cases hl : l.lookup q with
      | none => rfl
      | some v => rw [hl] at hs; exact absurd rfl hs
    · simp

/-- how declarations change a context -/
inductive Declared (ds : List SDecl) : SCtx → SCtx → Prop
  | root {f s ns dts ns' dts'} : LookEq ns' (ns ++ declNs ds) → LookEq dts' (dts ++ declDts ds) →
      Declared ds (.root f s ns dts) (.root f s ns' dts')
  | incl {p f o ns dts ns' dts'} : LookEq ns' (ns ++ declNs ds) → LookEq dts' (dts ++ declDts ds) →
      Declared ds (.incl p f o ns dts) (.incl p f o ns' dts')

theorem LookEq.refl (l) : LookEq l l := fun _ => rfl
theorem LookEq.append {l l' m} (h : LookEq l l') : LookEq (l ++ m) (l' ++ m) := by
  intro p; rw [lookup_append_pair, lookup_append_pair, h p]
theorem LookEq.trans {l l' m} (h : LookEq l l') (h' : LookEq l' m) : LookEq l m := fun p => (h p).trans (h' p)

theorem declareNamespace_root {f s ns dts pre uri} (h : SCtx.declareNamespace (.root f s ns dts) pre uri = .ok c') :
    ∃ ns', c' = .root f s ns' dts ∧ LookEq ns' (ns ++ [(pre, uri)]) := by
  simp only [SCtx.declareNamespace, Except.ok.injEq] at h
  have := lookEq_declare (LookEq.refl ns) (p := pre) (u := uri)
  split at h <;> rename_i hs <;> subst h <;> simp only [hs] at this
  · exact ⟨_, rfl, by simpa using this⟩
  · exact ⟨_, rfl, by simpa using this⟩

theorem declareNamespace_incl {q f o ns dts pre uri} (h : SCtx.declareNamespace (.incl q f o ns dts) pre uri = .ok c') :
    ∃ ns', c' = .incl q f o ns' dts ∧ LookEq ns' (ns ++ [(pre, uri)]) := by
  simp only [SCtx.declareNamespace, Except.ok.injEq] at h
  have := lookEq_declare (LookEq.refl ns) (p := pre) (u := uri)
  split at h <;> rename_i hs <;> subst h <;> simp only [hs] at this
  · exact ⟨_, rfl, by simpa using this⟩
  · exact ⟨_, rfl, by simpa using this⟩

theorem declareDatatype_root {f s ns dts pre uri} (h : SCtx.declareDatatype (.root f s ns dts) pre uri = .ok c') :
    ∃ dts', c' = .root f s ns dts' ∧ LookEq dts' (dts ++ [(pre, uri)]) := by
  simp only [SCtx.declareDatatype] at h
  have := lookEq_declare (LookEq.refl dts) (p := pre) (u := uri)
  split at h <;> rename_i hs
  · cases h
  · cases h; simp only [hs] at this; exact ⟨_, rfl, by simpa using this⟩

theorem declareDatatype_incl {q f o ns dts pre uri} (h : SCtx.declareDatatype (.incl q f o ns dts) pre uri = .ok c') :
    ∃ dts', c' = .incl q f o ns dts' ∧ LookEq dts' (dts ++ [(pre, uri)]) := by
  simp only [SCtx.declareDatatype] at h
  have := lookEq_declare (LookEq.refl dts) (p := pre) (u := uri)
  split at h <;> rename_i hs
  · cases h
  · cases h; simp only [hs] at this; exact ⟨_, rfl, by simpa using this⟩

theorem declNs_cons (d : SDecl) (ds : List SDecl) : declNs (d :: ds) = declNs [d] ++ declNs ds := by
  cases d with
  | «namespace» p u => cases u <;> rfl
  | defaultNamespace p u => cases p <;> cases u <;> rfl
  | datatypes p u => rfl

theorem declDts_cons (d : SDecl) (ds : List SDecl) : declDts (d :: ds) = declDts [d] ++ declDts ds := by
  cases d <;> rfl

theorem Declared.nil_root {f s ns dts} : Declared [] (.root f s ns dts) (.root f s ns dts) :=
  .root (by simpa [declNs] using LookEq.refl ns) (by simpa [declDts] using LookEq.refl dts)
theorem Declared.nil_incl {p f o ns dts} : Declared [] (.incl p f o ns dts) (.incl p f o ns dts) :=
  .incl (by simpa [declNs] using LookEq.refl ns) (by simpa [declDts] using LookEq.refl dts)

theorem compileDeclaration_root {f s ns dts d} (h : compileDeclaration (.root f s ns dts) d = .ok c') :
    Declared [d] (.root f s ns dts) c' := by
  cases d with
  | «namespace» p u =>
    cases u with
    | none => cases h
    | some u =>
      obtain ⟨ns', rfl, h'⟩ := declareNamespace_root h
      exact .root h' (by simpa [declDts] using LookEq.refl dts)
  | defaultNamespace p u =>
    cases u with
    | none => cases p <;> cases h
    | some u =>
      cases p with
      | none => cases h; exact .root (by simpa [declNs] using LookEq.refl ns) (by simpa [declDts] using LookEq.refl dts)
      | some p =>
        obtain ⟨ns', rfl, h'⟩ := declareNamespace_root h
        exact .root h' (by simpa [declDts] using LookEq.refl dts)
  | datatypes p u =>
    obtain ⟨ns', rfl, h'⟩ := declareDatatype_root h
    exact .root (by simpa [declNs] using LookEq.refl ns) h'

theorem compileDeclaration_incl {q f o ns dts d} (h : compileDeclaration (.incl q f o ns dts) d = .ok c') :
    Declared [d] (.incl q f o ns dts) c' := by
  cases d with
  | «namespace» p u =>
    cases u with
    | none => cases h
    | some u =>
      obtain ⟨ns', rfl, h'⟩ := declareNamespace_incl h
      exact .incl h' (by simpa [declDts] using LookEq.refl dts)
  | defaultNamespace p u =>
    cases u with
    | none => cases p <;> cases h
    | some u =>
      cases p with
      | none => cases h; exact .incl (by simpa [declNs] using LookEq.refl ns) (by simpa [declDts] using LookEq.refl dts)
      | some p =>
        obtain ⟨ns', rfl, h'⟩ := declareNamespace_incl h
        exact .incl h' (by simpa [declDts] using LookEq.refl dts)
  | datatypes p u =>
    obtain ⟨ns', rfl, h'⟩ := declareDatatype_incl h
    exact .incl (by simpa [declNs] using LookEq.refl ns) h'

theorem compileDeclarations_root {f s} : ∀ {ds ns dts}, compileDeclarations (.root f s ns dts) ds = .ok c' →
    Declared ds (.root f s ns dts) c'
  | [], ns, dts, h => by cases h; exact .nil_root
  | d :: ds, ns, dts, h => by
    obtain ⟨c1, h1, h2⟩ := except_bind_ok h
    cases compileDeclaration_root h1 with
    | root a b =>
      cases compileDeclarations_root h2 with
      | root a' b' =>
        refine .root (a'.trans ?_) (b'.trans ?_)
        · rw [declNs_cons, ← List.append_assoc]; exact a.append
        · rw [declDts_cons, ← List.append_assoc]; exact b.append

theorem compileDeclarations_incl {q f o} : ∀ {ds ns dts}, compileDeclarations (.incl q f o ns dts) ds = .ok c' →
    Declared ds (.incl q f o ns dts) c'
  | [], ns, dts, h => by cases h; exact .nil_incl
  | d :: ds, ns, dts, h => by
    obtain ⟨c1, h1, h2⟩ := except_bind_ok h
    cases compileDeclaration_incl h1 with
    | incl a b =>
      cases compileDeclarations_incl h2 with
      | incl a' b' =>
        refine .incl (a'.trans ?_) (b'.trans ?_)
        · rw [declNs_cons, ← List.append_assoc]; exact a.append
        · rw [declDts_cons, ← List.append_assoc]; exact b.append

/-! ### what names mean in a context -/

theorem rootEnv_agrees {f : Str} {s : Nat} {ds : List SDecl} {ns dts : List (Str × Str)}
    (h1 : LookEq ns ([("xml".toList, xmlNs)] ++ declNs ds)) (h2 : LookEq dts ([("xsd".toList, xsdUri)] ++ declDts ds)) :
    (SCtx.root f s ns dts).Agrees (rootEnv f ds) where
  file := rfl
  ns p u h := by rw [← h]; exact (h1 p).symm
  dt p u h := by rw [← h]; exact (h2 p).symm
  xml := by simp [rootEnv]
  xsd := by simp [rootEnv]

theorem inherit_lookup {i : Option Str} {p u : Str} (h : (inheritedNs e i).lookup p = some u) : e.ns.lookup p = some u := by
  cases i with
  | none => cases h
  | some q =>
    simp only [inheritedNs] at h
    split at h
    · rename_i v hv
      rw [lookup_cons_ite] at h
      split at h
      · rename_i hp; cases h; rw [hp]; exact hv
      · cases h
    · cases h

theorem includeEnv_agrees (ha : c.Agrees e) {f : Str} {o : Nat} {i : Option Str} {ds : List SDecl} {ns dts : List (Str × Str)}
    (h1 : LookEq ns ([("xml".toList, xmlNs)] ++ inheritedNs e i ++ declNs ds))
    (h2 : LookEq dts ([("xsd".toList, xsdUri)] ++ declDts ds)) :
    (SCtx.incl c f o ns dts).Agrees (includeEnv e f i ds) where
  file := rfl
  ns p u h := by
    rw [← h]; simp only [SCtx.nsUri, includeEnv]; rw [h1 p]; rfl
  dt p u h := by
    simp only [SCtx.dtUri] at h
    rw [h2 p] at h
    show List.lookup p ([("xsd".toList, xsdUri)] ++ (declDts ds ++ e.dts)) = _
    rw [← List.append_assoc, lookup_append_pair]
    split at h
    · rename_i u' hu; cases h; rw [hu]; rfl
    · rename_i hn; rw [hn]; exact ha.dt _ _ h
  xml := by simp [includeEnv]
  xsd := by simp [includeEnv]

theorem externalEnv_agrees (ha : c.Agrees e) {f : Str} {o : Nat} :
    (SCtx.incl c f o [("xml".toList, xmlNs)] [("xsd".toList, xsdUri)]).Agrees (externalEnv e f) where
  file := rfl
  ns p u h := h
  dt p u h := by
    simp only [SCtx.dtUri] at h
    show List.lookup p ([("xsd".toList, xsdUri)] ++ e.dts) = _
    rw [lookup_append_pair]
    split at h
    · rename_i u' hu; cases h; rw [hu]; rfl
    · rename_i hn; rw [hn]; exact ha.dt _ _ h
  xml := by simp [externalEnv]
  xsd := by simp [externalEnv]

theorem overrides_agrees (ha : c.Agrees e) {f : Str} {o : Nat} {i : Option Str} {ns : List (Str × Str)}
    (h1 : LookEq ns ([("xml".toList, xmlNs)] ++ inheritedNs e i)) :
    (SCtx.inclOverrides (.incl c f o ns [("xsd".toList, xsdUri)])).Agrees e where
  file := ha.file
  ns p u h := by
    simp only [SCtx.nsUri] at h
    rw [h1 p, lookup_append_pair] at h
    cases hx : List.lookup p [("xml".toList, xmlNs)] with
    | some v =>
      rw [hx] at h
      rw [lookup_cons_ite] at hx
      split at hx
      · rename_i hp; cases h; cases hx; rw [hp]; exact ha.xml
      · cases hx
    | none => rw [hx] at h; exact inherit_lookup h
  dt p u h := by
    simp only [SCtx.dtUri] at h
    split at h
    · rename_i v hx
      rw [lookup_cons_ite] at hx
      split at hx
      · rename_i hp; cases h; cases hx; rw [hp]; exact ha.xsd
      · cases hx
    · exact ha.dt _ _ h
  xml := ha.xml
  xsd := ha.xsd

theorem SCtx.Agrees.grammar (ha : c.Agrees e) (s : Nat) : (SCtx.grammar c s).Agrees e := ⟨ha.file, ha.ns, ha.dt, ha.xml, ha.xsd⟩
theorem SCtx.Agrees.define (ha : c.Agrees e) (id : Str) : (SCtx.define c id).Agrees e := ⟨ha.file, ha.ns, ha.dt, ha.xml, ha.xsd⟩
theorem SCtx.Agrees.element (ha : c.Agrees e) : (SCtx.element c).Agrees e := ⟨ha.file, ha.ns, ha.dt, ha.xml, ha.xsd⟩
theorem SCtx.Agrees.attribute (ha : c.Agrees e) : (SCtx.attribute c).Agrees e := ⟨ha.file, ha.ns, ha.dt, ha.xml, ha.xsd⟩

end Verif
