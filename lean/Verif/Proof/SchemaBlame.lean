import Verif.Spec.SchemaSpans
import Verif.Proof.SchemaSpans
/-
The positions in the errors of the schema compiler.
-/
namespace Verif.At
open Verif

/-! ### computations that keep an invariant -/

/-- started in a state with `I`, the value has `P` and the state `I`, or the failure `Q` -/
def Tri {α : Type} (I : LState → Prop) (x : LM α) (P : α → Prop) (Q : LFault → Prop) : Prop :=
  ∀ st, I st → match x st with
    | .ok (a, st') => P a ∧ I st'
    | .error e => Q e

/-- the same without state -/
def Pro {α : Type} (r : Except LFault α) (P : α → Prop) (Q : LFault → Prop) : Prop :=
  match r with
  | .ok a => P a
  | .error e => Q e

section
variable {α β : Type} {I : LState → Prop} {P : α → Prop} {R : β → Prop} {Q Q' : LFault → Prop}

theorem tri_pure (a : α) (h : P a) : Tri I (pure a : LM α) P Q := fun _ hs => ⟨h, hs⟩

theorem tri_fail (e : LFault) (h : Q e) : Tri I (LM.fail e : LM α) P Q := fun _ _ => h

theorem tri_bind {x : LM α} {k : α → LM β} (h : Tri I x P Q) (hk : ∀ a, P a → Tri I (k a) R Q) : Tri I (x >>= k) R Q := by
  intro st hs
  have h := h st hs
  show match LM.bind x k st with
    | .ok (a, st') => R a ∧ I st'
    | .error e => Q e
  unfold LM.bind
  cases hx : x st with
  | ok r =>
    rw [hx] at h
    exact hk r.1 h.1 r.2 h.2
  | error e => rw [hx] at h; exact h

theorem tri_lift {r : Except LFault α} (h : Pro r P Q) : Tri I (LM.lift r) P Q := by
  intro st hs
  cases r with
  | ok a => exact ⟨h, hs⟩
  | error e => exact h

theorem tri_mono {x : LM α} {P' : α → Prop} (h : Tri I x P Q) (hP : ∀ a, P a → P' a) (hQ : ∀ e, Q e → Q' e) : Tri I x P' Q' := by
  intro st hs
  have h := h st hs
  cases hx : x st with
  | ok r => rw [hx] at h; exact ⟨hP _ h.1, h.2⟩
  | error e => rw [hx] at h; exact hQ _ h

theorem tri_inInclude {x : LM α} {s : Span} (h : Tri I x P Q) (he : ∀ e, Q (.err e) → Q' (.err (.inInclude s e)))
    (hn : ∀ e, (∀ e', e ≠ .err e') → Q e → Q' e) : Tri I (x.inInclude s) P Q' := by
  intro st hs
  have h := h st hs
  unfold LM.inInclude
  cases hx : x st with
  | ok r => rw [hx] at h; exact h
  | error e =>
    rw [hx] at h
    cases e with
    | err e => exact he e h
    | _ => exact hn _ (fun _ h => nomatch h) h

theorem pro_bind {r : Except LFault α} {k : α → Except LFault β} (h : Pro r P Q) (hk : ∀ a, P a → Pro (k a) R Q) : Pro (r >>= k) R Q := by
  cases r with
  | ok a => exact hk a h
  | error e => exact h

theorem pro_mono {r : Except LFault α} {P' : α → Prop} (h : Pro r P Q) (hP : ∀ a, P a → P' a) (hQ : ∀ e, Q e → Q' e) : Pro r P' Q' := by
  cases r with
  | ok a => exact hP _ h
  | error e => exact hQ _ h
end

/-! ### the references of a compiled pattern -/

mutual
/-- all references -/
def CPat.All (P : Span → Str → Prop) : CPat → Prop
  | .choice ps => allPats P ps
  | .interleave ps => allPats P ps
  | .group ps => allPats P ps
  | .mixed p => p.All P
  | .empty => True
  | .text => True
  | .notAllowed => True
  | .optional p => p.All P
  | .zeroOrMore p => p.All P
  | .oneOrMore p => p.All P
  | .attr _ p => p.All P
  | .element _ p => p.All P
  | .ref s id _ => P s id
  | .datatypeValue _ => True
  | .datatypeName _ => True
  | .datatypeNameExcept _ ex => ex.All P
  | .list p => p.All P
def allPats (P : Span → Str → Prop) : List CPat → Prop
  | [] => True
  | p :: ps => p.All P ∧ allPats P ps
end

theorem allPats_iff {P : Span → Str → Prop} {ps : List CPat} : allPats P ps ↔ ∀ p ∈ ps, p.All P := by
  induction ps with
  | nil => simp [allPats]
  | cons p ps ih => simp [allPats, ih]

section
variable (F : LFiles) (x : Ext) (name : Str)

/-- where a reference to `id` is -/
def RefAt (s : Span) (id : Str) : Prop := Shown F name (.ref id) s ∨ Shown F name (.parent id) s

/-- the failures that are accounted for -/
def Fine (g : Str) : LFault → Prop
  | .err e => Blames F x name g e
  | .subspan true => Misplaced F name
  | .subspan false => ∃ m f r, m.Recorded ∧ Marked F name m f r ∧ ¬ InFile F f r
  | .panic _ => True
  | .fuel => True

/-- the states of a compilation: every rule is where its name is defined, every override where it is defined, and the loaded
files are those of `F` -/
structure Sound (st : LState) : Prop where
  loaded : ∀ f s, st.loaded.lookup f = some s → F.load f = .ok s
  names : ∃ N : Nat → Str, (∀ i id k, (id, k) ∈ st.refs i → N k = id ∧ k < st.cells.length) ∧
    ∀ k r, st.cell k = some r → Defines F name (N k) r.at_ ∧ r.pattern.All (RefAt F name)
  overrides : ∀ o n s b, (n, s, b) ∈ st.ov o → Shown F name (.define n) s

/-- contexts around something at a place of the schema -/
def Stands : LCtx → Prop
  | .root f _ _ _ => f = name
  | .incl p _ _ _ _ => Stands p
  | .inclOverrides p => Stands p ∧ ∃ q f o ns dts, p = .incl q f o ns dts
  | .grammar p _ => Stands p
  | .define p r id => Stands p ∧ ∃ f, p.file = some f ∧ Marked F name (.define id) f r
  | .element p => Stands p
  | .attribute p s => Stands p ∧ Shown F name .attribute s
end

section
variable {F : LFiles} {x : Ext} {name : Str} {g : Str}

theorem Stands.hasFiles : ∀ {c : LCtx}, Stands F name c → c.HasFiles
  | .root _ _ _ _, _ => trivial
  | .incl p _ _ _ _, h => Stands.hasFiles (c := p) h
  | .inclOverrides p, h => ⟨Stands.hasFiles (c := p) h.1, h.2⟩
  | .grammar p _, h => Stands.hasFiles (c := p) h
  | .define p _ _, h => Stands.hasFiles (c := p) h.1
  | .element p, h => Stands.hasFiles (c := p) h
  | .attribute p _, h => Stands.hasFiles (c := p) h.1

/-- converting a position -/
theorem pro_convert {α : Type} {c : LCtx} (hf : c.file = some g) {m : Mark} {r : Rg} (hm : Marked F name m g r) {Q : LFault → Prop}
    {b : Bool} (hQ : ¬ InFile F g r → Q (.subspan b)) {k : Span → Except LFault α} {P : α → Prop}
    (hk : Shown F name m ⟨g, r.lo, r.hi⟩ → Pro (k ⟨g, r.lo, r.hi⟩) P Q) : Pro (c.convert F.size r b >>= k) P Q := by
  unfold LCtx.convert
  rw [hf]
  dsimp only
  split
  · next h => exact hk ⟨hm, h⟩
  · next h => exact hQ h

theorem pro_report {α : Type} {c : LCtx} (hf : c.file = some g) {m : Mark} {r : Rg} (hm : Marked F name m g r)
    {k : Span → Except LFault α} {P : α → Prop} (hk : Shown F name m ⟨g, r.lo, r.hi⟩ → Pro (k ⟨g, r.lo, r.hi⟩) P (Fine F x name g)) :
    Pro (c.convert F.size r true >>= k) P (Fine F x name g) :=
  pro_convert hf hm (fun h => ⟨_, _, _, _, hm, .inl rfl, h⟩) hk

theorem tri_convert {α : Type} {I : LState → Prop} {c : LCtx} (hf : c.file = some g) {m : Mark} {r : Rg} (hm : Marked F name m g r) (hr : m.Recorded)
    {k : Span → LM α} {P : α → Prop}
    (hk : Shown F name m ⟨g, r.lo, r.hi⟩ → Tri I (k ⟨g, r.lo, r.hi⟩) P (Fine F x name g)) :
    Tri I (LM.lift (c.convert F.size r) >>= k) P (Fine F x name g) := by
  refine tri_bind (P := fun s => s = ⟨g, r.lo, r.hi⟩ ∧ Shown F name m ⟨g, r.lo, r.hi⟩) (tri_lift ?_) fun s hs => ?_
  · have := pro_convert (k := .ok) (P := fun s => s = ⟨g, r.lo, r.hi⟩ ∧ Shown F name m ⟨g, r.lo, r.hi⟩)
      (Q := Fine F x name g) (b := false) hf hm (fun h => ⟨_, _, _, hr, hm, h⟩) (fun h => ⟨rfl, h⟩)
    have e : (c.convert F.size r >>= Except.ok) = c.convert F.size r := by cases c.convert F.size r <;> rfl
    rw [e] at this
    exact this
  · rw [hs.1]; exact hk hs.2

theorem pro_convert0 {α : Type} {c : LCtx} (hf : c.file = some g) {Q : LFault → Prop} {k : Span → Except LFault α} {P : α → Prop}
    {b : Bool} (hk : Pro (k ⟨g, 0, 0⟩) P Q) : Pro (c.convert F.size ⟨0, 0⟩ b >>= k) P Q := by
  unfold LCtx.convert
  rw [hf]
  exact hk

theorem tri_convert0 {α : Type} {I : LState → Prop} {c : LCtx} (hf : c.file = some g) {Q : LFault → Prop} {k : Span → LM α} {P : α → Prop}
    (hk : Tri I (k ⟨g, 0, 0⟩) P Q) : Tri I (LM.lift (c.convert F.size ⟨0, 0⟩) >>= k) P Q := by
  unfold LCtx.convert
  rw [hf]
  exact hk

/-! ### names and datatypes -/

/-- what stands somewhere stands in a file that can be read -/
theorem LOccurs.readable {a : LPlace} (ho : LOccurs F name a) : Readable F a.file := by
  induction ho with
  | pattern h _ => exact ⟨_, h⟩
  | grammar h _ => exact ⟨_, h⟩
  | inside _ hw ih =>
    cases hw with
    | externalPattern _ h => exact ⟨_, h⟩
    | included _ _ h => exact ⟨_, h⟩
    | _ => exact ih

/-- what is marked at a tree is marked in the schema -/
theorem marked_of {src : Str} {t : LTree} (ho : LOccurs F name ⟨g, src, t⟩) {m : Mark} {r : Rg} (h : t.Has m r) : Marked F name m g r :=
  ⟨src, t, ho, h⟩

theorem nsUriE_fine {c : LCtx} (hf : c.file = some g) {r : Rg} {pre : Str} (hm : Marked F name (.nsPrefix pre) g r) :
    Pro (c.nsUriE F.size r pre) (fun _ => True) (Fine F x name g) := by
  unfold LCtx.nsUriE
  cases c.nsUri pre with
  | some u => trivial
  | none => exact pro_report hf hm fun h => .nsPrefix rfl h

theorem dtUriE_fine {c : LCtx} (hf : c.file = some g) {r : Rg} {pre : Str} (hm : Marked F name (.dtPrefix pre) g r) :
    Pro (c.dtUriE F.size r pre) (fun _ => True) (Fine F x name g) := by
  unfold LCtx.dtUriE
  cases c.dtUri pre with
  | some u => trivial
  | none => exact pro_report hf hm fun h => .dtPrefix rfl h

theorem nsRef_fine {c : LCtx} (hf : c.file = some g) {n : LNsRef} (hm : ∀ r pre, n = .pre r pre → Marked F name (.nsPrefix pre) g r) :
    Pro (c.nsRef F.size n) (fun _ => True) (Fine F x name g) := by
  cases n with
  | uri u => trivial
  | pre r p => exact nsUriE_fine hf (hm r p rfl)

theorem compileNameclass_fine {c : LCtx} (hf : c.file = some g) (nc : LNameClass)
    (hm : ∀ r pre, nc.Uses r pre → Marked F name (.nsPrefix pre) g r) :
    Pro (compileNameclass F.size c nc) (fun _ => True) (Fine F x name g) := by
  induction nc with
  | ident n => trivial
  | cname r p n => exact pro_bind (nsUriE_fine hf (hm r p .cname)) fun _ _ => trivial
  | namespaced => trivial
  | nsName n => exact pro_bind (nsRef_fine hf fun r p h => hm r p (h ▸ .nsName)) fun _ _ => trivial
  | nsNameExcept n e ih =>
    exact pro_bind (ih fun r p h => hm r p (.nsExcept h)) fun _ _ =>
      pro_bind (nsRef_fine hf fun r p h => hm r p (h ▸ .nsNameExcept)) fun _ _ => trivial
  | anyName => trivial
  | anyNameExcept e ih => exact pro_bind (ih fun r p h => hm r p (.anyExcept h)) fun _ _ => trivial
  | alt a b iha ihb =>
    exact pro_bind (iha fun r p h => hm r p (.left h)) fun _ _ => pro_bind (ihb fun r p h => hm r p (.right h)) fun _ _ => trivial
  | paren a ih => exact ih fun r p h => hm r p (.paren h)

/-- the kind of name a datatype is resolved to -/
def LDtName.Names : LDtName → DtName → Prop
  | .string, n => n = .string
  | .token, n => n = .token
  | .cname _ _ _ l, n => ∃ u, n = .cname u l
  | .namespaced _ u _ l, n => n = .cname u l

theorem dtName_fine {c : LCtx} (hf : c.file = some g) (ty : LDtName) (hm : ∀ m r, ty.Has m r → Marked F name m g r) :
    Pro (c.dtName F.size ty) ty.Names (Fine F x name g) := by
  cases ty with
  | string => rfl
  | token => rfl
  | cname r p nr n => exact pro_bind (dtUriE_fine hf (hm _ _ .prefix)) fun u _ => ⟨u, rfl⟩
  | namespaced r u nr n => rfl

/-- the errors of a value -/
theorem valueErr {ty : LDtName} {n : DtName} (hn : ty.Names n) {lit : Str} {e : DtErr} (h : datatypeValueOf n lit = .err e) :
    (ty ≠ .string ∧ ty ≠ .token) ∧ (e = .unsupportedLibrary ∨ e = .relax .nameUnknown ∨ e = .xsd .invalidValue) := by
  have hv : ∀ u l, dtValueIn (.cname u l) lit u = .err e → e = .unsupportedLibrary ∨ e = .relax .nameUnknown ∨ e = .xsd .invalidValue := by
    intro u l h
    unfold dtValueIn at h
    split at h
    · unfold relaxValue at h
      dsimp only at h
      split at h
      · cases h
      · split at h
        · cases h
        · cases h; exact .inr (.inl rfl)
    · split at h
      · simp only [xsdValueOf, xsdCompileValue] at h
        split at h
        · cases h
        · split at h
          · cases h
          · split at h
            · split at h <;> cases h
              exact .inr (.inr rfl)
            · cases h
      · cases h; exact .inl rfl
  cases ty with
  | string => cases hn; cases h
  | token => cases hn; cases h
  | cname r p nr l => obtain ⟨u, rfl⟩ := hn; exact ⟨⟨nofun, nofun⟩, hv _ _ h⟩
  | namespaced r u nr l => cases hn; exact ⟨⟨nofun, nofun⟩, hv _ _ h⟩

end

/-! ### parameters -/

section
variable {x : Ext}

theorem Res.bind_bind {ε α β γ : Type} (r : Res ε α) (f : α → Res ε β) (k : β → Res ε γ) :
    (r >>= f) >>= k = r >>= fun a => f a >>= k := by cases r <;> rfl

theorem Res.err_bind {ε α β : Type} (e : ε) (k : α → Res ε β) : (Res.err e >>= k) = .err e := rfl

theorem lengthParams_append (w : Bool) (ps qs : List Param) : ∀ l p, lengthParams x w l p (ps ++ qs) =
    lengthParams x w l p ps >>= fun r => lengthParams x w r.1 r.2 qs := by
  induction ps with
  | nil => intro l p; rfl
  | cons q ps ih =>
    intro l p
    simp only [List.cons_append, lengthParams, ih]
    repeat' split
    all_goals simp only [Res.bind_bind, Res.err_bind]

theorem numParams_append {T : Type} [LE T] [LT T] [DecidableRel (α := T) (· ≤ ·)] [DecidableRel (α := T) (· < ·)]
    (parse : Str → Res FacetErr T) (ps qs : List Param) : ∀ m p, numParams x parse m p (ps ++ qs) =
    numParams x parse m p ps >>= fun r => numParams x parse r.1 r.2 qs := by
  induction ps with
  | nil => intro l p; rfl
  | cons q ps ih =>
    intro l p
    simp only [List.cons_append, numParams, ih]
    repeat' split
    all_goals simp only [Res.bind_bind, Res.err_bind]

theorem decParams_append (ps qs : List Param) : ∀ m p fd td, decParams x m p fd td (ps ++ qs) =
    decParams x m p fd td ps >>= fun r => decParams x r.1 r.2.1 r.2.2.1 r.2.2.2 qs := by
  induction ps with
  | nil => intro m p fd td; rfl
  | cons q ps ih =>
    intro m p fd td
    simp only [List.cons_append, decParams, ih]
    repeat' split
    all_goals simp only [Res.bind_bind, Res.err_bind]

theorem patParams_append (ps qs : List Param) : ∀ p, patParams x p (ps ++ qs) =
    patParams x p ps >>= fun r => patParams x r qs := by
  induction ps with
  | nil => intro p; rfl
  | cons q ps ih =>
    intro p
    simp only [List.cons_append, patParams, ih]
    repeat' split
    all_goals simp only [Res.bind_bind, Res.err_bind]

/-- a failure with some parameters stays if more are added -/
def Lasting (R : List Param → Res XsdErr XsdDatatype) : Prop :=
  ∀ ps qs, (∀ e, R ps = .err e → R (ps ++ qs) = .err e) ∧ (R ps = .panic → R (ps ++ qs) = .panic)

theorem lasting_ite {c : Prop} [Decidable c] {A B : List Param → Res XsdErr XsdDatatype} (ha : Lasting A) (hb : Lasting B) :
    Lasting (fun ps => if c then A ps else B ps) := by
  intro ps qs
  by_cases h : c
  · simp only [if_pos h]; exact ha ps qs
  · simp only [if_neg h]; exact hb ps qs

theorem lasting_facet {α : Type} {L : List Param → Res FacetErr α} {f : α → XsdDatatype} (k : List Param → α → Res FacetErr α)
    (hL : ∀ ps qs, L (ps ++ qs) = L ps >>= k qs) : Lasting (fun ps => facetRes (L ps) f) := by
  intro ps qs
  dsimp only
  rw [hL]
  cases L ps with
  | ok a => exact ⟨(fun _ h => by cases h), (fun h => by cases h)⟩
  | err e => exact ⟨(fun _ h => h), (fun h => by cases h)⟩
  | panic => exact ⟨(fun _ h => by cases h), (fun h => h)⟩

theorem xsdCompile_prefix (l : Str) : Lasting (xsdCompile x l) := by
  have k1 : ∀ w (f : LengthFacet × Option PatternFacet → XsdDatatype), Lasting (fun ps => facetRes (lengthParams x w .unbounded none ps) f) :=
    fun w f => lasting_facet (fun qs r => lengthParams x w r.1 r.2 qs) fun ps qs => lengthParams_append w ps qs _ _
  have k2 : ∀ (parse : Str → Res FacetErr Int) (f : MinMax Int × Option PatternFacet → XsdDatatype),
      Lasting (fun ps => facetRes (numParams x parse {} none ps) f) :=
    fun parse f => lasting_facet (fun qs r => numParams x parse r.1 r.2 qs) fun ps qs => numParams_append parse ps qs _ _
  have k2' : ∀ (parse : Str → Res FacetErr Rat) (f : MinMax Rat × Option PatternFacet → XsdDatatype),
      Lasting (fun ps => facetRes (numParams x parse {} none ps) f) :=
    fun parse f => lasting_facet (fun qs r => numParams x parse r.1 r.2 qs) fun ps qs => numParams_append parse ps qs _ _
  have k3 : ∀ (f : Option PatternFacet → XsdDatatype), Lasting (fun ps => facetRes (patParams x none ps) f) :=
    fun f => lasting_facet (fun qs r => patParams x r qs) fun ps qs => patParams_append ps qs _
  have k4 : ∀ (f : MinMax Rat × Option PatternFacet × Option Nat × Option Nat → XsdDatatype),
      Lasting (fun ps => facetRes (decParams x {} none none none ps) f) :=
    fun f => lasting_facet (fun qs r => decParams x r.1 r.2.1 r.2.2.1 r.2.2.2 qs) fun ps qs => decParams_append ps qs _ _ _ _
  have k5 : ∀ e, Lasting fun _ => .err e := fun e ps qs => ⟨(fun _ h => h), (fun h => by cases h)⟩
  unfold xsdCompile
  dsimp only
  repeat' refine lasting_ite ?_ ?_
  all_goals first
    | exact k5 _
    | exact k1 _ _
    | exact k2 _ _
    | exact k2' _ _
    | exact k3 _
    | exact k4 _

/-- what a list of parameters can come to -/
theorem nameOf_prefix (n : DtName) (ps qs : List Param) {e : FacetErr} (h : datatypeNameOf x n (ps ++ qs) = .err (.xsd (.facet e))) :
    (∃ d, datatypeNameOf x n ps = .ok d) ∨ datatypeNameOf x n ps = .err (.xsd (.facet e)) := by
  have hin : ∀ u, dtNameIn x n (ps ++ qs) u = .err (.xsd (.facet e)) →
      (∃ d, dtNameIn x n ps u = .ok d) ∨ dtNameIn x n ps u = .err (.xsd (.facet e)) := by
    intro u h
    unfold dtNameIn at h ⊢
    split
    · next hu =>
      rw [if_pos hu] at h
      cases hr : relaxName n (ps ++ qs) with
      | _ => rw [hr] at h; cases h
    · next hu =>
      rw [if_neg hu] at h
      split
      · next hu' =>
        rw [if_pos hu'] at h
        cases n with
        | cname u' l =>
          have := xsdCompile_prefix (x := x) l ps qs
          simp only [xsdNameOf] at h ⊢
          cases hc : xsdCompile x l ps with
          | ok d => exact .inl ⟨_, rfl⟩
          | err e' =>
            rw [this.1 e' hc] at h
            exact .inr h
          | panic => rw [this.2 hc] at h; cases h
        | _ => cases h
      · next hu' => rw [if_neg hu'] at h; cases h
  cases n with
  | string =>
    simp only [datatypeNameOf] at h
    cases hr : relaxName .string (ps ++ qs) with
    | _ => rw [hr] at h; cases h
  | token =>
    simp only [datatypeNameOf] at h
    cases hr : relaxName .token (ps ++ qs) with
    | _ => rw [hr] at h; cases h
  | cname u l => exact hin u h
  | namespaced u l => exact hin u h

/-- the parameter that is blamed is the first with which the list fails -/
theorem faultyParam_first (n : DtName) {e : FacetErr} : ∀ (ps before : List LParam) (_ : ∃ d, datatypeNameOf x n (before.map LParam.plain) = .ok d)
    (_ : datatypeNameOf x n ((before ++ ps).map LParam.plain) = .err (.xsd (.facet e))),
    ∃ pre q post, ps = pre ++ q :: post ∧ faultyParam x n (before.map LParam.plain) ps = q.at_ ∧
      (∃ d, datatypeNameOf x n ((before ++ pre).map LParam.plain) = .ok d) ∧
      datatypeNameOf x n ((before ++ pre ++ [q]).map LParam.plain) = .err (.xsd (.facet e))
  | [], before, ⟨d, hd⟩, h => by rw [List.append_nil, hd] at h; cases h
  | q :: ps, before, hb, h => by
    have e1 : before ++ q :: ps = before ++ [q] ++ ps := by simp
    have e2 : (before ++ [q]).map LParam.plain = before.map LParam.plain ++ [q.plain] := by simp
    rw [e1, List.map_append] at h
    rcases nameOf_prefix n _ _ h with ⟨d, hd⟩ | he
    · obtain ⟨pre, q', post, h1, h2, h3, h4⟩ := faultyParam_first n ps (before ++ [q]) ⟨d, hd⟩ (by rw [List.map_append]; exact h)
      refine ⟨q :: pre, q', post, by rw [h1]; rfl, ?_, ?_, ?_⟩
      · rw [e2] at h2 hd
        unfold faultyParam
        rw [hd]
        exact h2
      · simpa using h3
      · simpa using h4
    · refine ⟨[], q, ps, rfl, ?_, by simpa using hb, by simpa using he⟩
      unfold faultyParam
      rw [← e2, he]

/-- a failure is of a parameter, or there is no such datatype -/
def Ends (R : List Param → Res XsdErr XsdDatatype) : Prop :=
  ∀ ps e, R ps = .err e → (∃ f, e = .facet f ∧ ∃ d, R [] = .ok d) ∨ e = .unsupported

theorem ends_ite {c : Prop} [Decidable c] {A B : List Param → Res XsdErr XsdDatatype} (ha : Ends A) (hb : Ends B) :
    Ends (fun ps => if c then A ps else B ps) := by
  intro ps e
  by_cases h : c
  · simp only [if_pos h]; exact ha ps e
  · simp only [if_neg h]; exact hb ps e

theorem ends_facet {α : Type} {L : List Param → Res FacetErr α} {f : α → XsdDatatype} {a : α} (h0 : L [] = .ok a) :
    Ends (fun ps => facetRes (L ps) f) := by
  intro ps e h
  dsimp only at h ⊢
  rw [h0]
  cases hl : L ps with
  | err e' => rw [hl] at h; cases h; exact .inl ⟨e', rfl, _, rfl⟩
  | ok b => rw [hl] at h; cases h
  | panic => rw [hl] at h; cases h

theorem xsdCompile_ends (l : Str) : Ends (xsdCompile x l) := by
  have k5 : Ends fun _ => .err .unsupported := fun ps e h => by cases h; exact .inr rfl
  unfold xsdCompile
  dsimp only
  repeat' refine ends_ite ?_ ?_
  all_goals first
    | exact k5
    | exact ends_facet rfl

/-- the errors of a datatype -/
theorem nameErr {ty : LDtName} {n : DtName} (hn : ty.Names n) {ps : List Param} {e : DtErr} (h : datatypeNameOf x n ps = .err e) :
    (e = .relax .paramNotAllowed ∧ ps ≠ []) ∨ (∃ f, e = .xsd (.facet f) ∧ ∃ d, datatypeNameOf x n [] = .ok d) ∨
      ((ty ≠ .string ∧ ty ≠ .token) ∧ (e = .unsupportedLibrary ∨ e = .relax .nameUnknown ∨ e = .xsd .unsupported)) := by
  have hr : ∀ {n : DtName} {e : RelaxErr}, relaxName n ps = .err e →
      (e = .paramNotAllowed ∧ ps ≠ []) ∨ (e = .nameUnknown ∧ n ≠ .string ∧ n ≠ .token) := by
    intro n e h
    unfold relaxName at h
    split at h
    · next hp => cases h; exact .inl ⟨rfl, hp⟩
    · split at h
      · cases h
      · cases h
      · split at h
        · cases h
        · split at h
          · cases h
          · cases h; exact .inr ⟨rfl, nofun, nofun⟩
      · cases h; exact .inr ⟨rfl, nofun, nofun⟩
  have hx : ∀ {l : Str} {e : XsdErr}, xsdCompile x l ps = .err e →
      (∃ f, e = .facet f ∧ ∃ d, xsdCompile x l [] = .ok d) ∨ e = .unsupported := xsdCompile_ends _ ps _
  have hi : ∀ u l, dtNameIn x (.cname u l) ps u = .err e → (e = .relax .paramNotAllowed ∧ ps ≠ []) ∨
      (∃ f, e = .xsd (.facet f) ∧ ∃ d, dtNameIn x (.cname u l) [] u = .ok d) ∨ e = .unsupportedLibrary ∨ e = .relax .nameUnknown ∨ e = .xsd .unsupported := by
    intro u l h
    unfold dtNameIn at h ⊢
    split
    · next hu =>
      rw [if_pos hu] at h
      cases hc : relaxName (.cname u l) ps with
      | err e' =>
        rw [hc] at h; cases h
        rcases hr hc with ⟨rfl, h'⟩ | ⟨rfl, _⟩
        · exact .inl ⟨rfl, h'⟩
        · exact .inr (.inr (.inr (.inl rfl)))
      | _ => rw [hc] at h; cases h
    · next hu =>
      rw [if_neg hu] at h
      split
      · next hu' =>
        rw [if_pos hu'] at h
        simp only [xsdNameOf] at h ⊢
        cases hc : xsdCompile x l ps with
        | err e' =>
          rw [hc] at h; cases h
          rcases hx hc with ⟨f, rfl, d, hd⟩ | rfl
          · exact .inr (.inl ⟨f, rfl, _, by rw [hd]; rfl⟩)
          · exact .inr (.inr (.inr (.inr rfl)))
        | _ => rw [hc] at h; cases h
      · next hu' => rw [if_neg hu'] at h; cases h; exact .inr (.inr (.inl rfl))
  have hb : ∀ n : DtName, (n = .string ∨ n = .token) → ((relaxName n ps).mapBoth Datatypes.relax DtErr.relax) = .err e →
      e = .relax .paramNotAllowed ∧ ps ≠ [] := by
    intro n hn h
    cases hc : relaxName n ps with
    | err e' =>
      rw [hc] at h; cases h
      rcases hr hc with ⟨rfl, h'⟩ | ⟨rfl, h1, h2⟩
      · exact ⟨rfl, h'⟩
      · rcases hn with rfl | rfl
        · exact (h1 rfl).elim
        · exact (h2 rfl).elim
    | _ => rw [hc] at h; cases h
  cases ty with
  | string => cases hn; exact .inl (hb _ (.inl rfl) h)
  | token => cases hn; exact .inl (hb _ (.inr rfl) h)
  | cname r p nr l =>
    obtain ⟨u, rfl⟩ := hn
    rcases hi _ _ h with h | h | h
    · exact .inl h
    · exact .inr (.inl h)
    · exact .inr (.inr ⟨⟨nofun, nofun⟩, h⟩)
  | namespaced r u nr l =>
    cases hn
    rcases hi _ _ h with h | h | h
    · exact .inl h
    · exact .inr (.inl h)
    · exact .inr (.inr ⟨⟨nofun, nofun⟩, h⟩)
end

section
variable {F : LFiles} {x : Ext} {name : Str} {g : Str}

theorem datatypeValue_fine {c : LCtx} (hf : c.file = some g) (ty : LDtName) (hm : ∀ m r, ty.Has m r → Marked F name m g r) (lit : Str) :
    Pro (datatypeValue F.size c ty lit) (fun _ => True) (Fine F x name g) := by
  refine pro_bind (dtName_fine hf ty hm) fun n hn => ?_
  cases hv : datatypeValueOf n lit with
  | ok v => trivial
  | panic => trivial
  | err e =>
    obtain ⟨⟨h1, h2⟩, h3⟩ := valueErr hn hv
    have hl : ∃ r, ty.valueNsAt = r ∧ ty.Has .library r := by
      cases ty with
      | string => exact (h1 rfl).elim
      | token => exact (h2 rfl).elim
      | cname r p nr l => exact ⟨r, rfl, .library⟩
      | namespaced r p nr l => exact ⟨r, rfl, .uri⟩
    have hn' : ty.Has .typeName ty.nameAt := by
      cases ty with
      | string => exact (h1 rfl).elim
      | token => exact (h2 rfl).elim
      | cname r p nr l => exact .name
      | namespaced r p nr l => exact .uriName
    obtain ⟨r, hr, hl⟩ := hl
    simp only [dtRes]
    rcases h3 with rfl | rfl | rfl
    · simp only [dtErrAt, hr]
      exact pro_report hf (hm _ _ hl) fun h => .datatype rfl .library h
    · simp only [dtErrAt]
      exact pro_report hf (hm _ _ hn') fun h => .datatype rfl .unknown h
    · simp only [dtErrAt]
      exact pro_report hf (hm _ _ hn') fun h => .datatype rfl .invalidValue h

theorem datatypeName_fine {c : LCtx} (hf : c.file = some g) (hg : Readable F g) (ty : LDtName) (ps : List LParam) (hm : ∀ m r, ty.Has m r → Marked F name m g r)
    (hp : ∀ before q after, ps = before ++ q :: after → Marked F name (.param before q) g q.at_) :
    Pro (datatypeName F.size x c ty ps) (fun _ => True) (Fine F x name g) := by
  refine pro_bind (dtName_fine hf ty hm) fun n hn => ?_
  cases hv : datatypeNameOf x n (ps.map LParam.plain) with
  | ok v => trivial
  | panic => trivial
  | err e =>
    simp only [dtRes]
    rcases nameErr hn hv with ⟨rfl, hne⟩ | ⟨e, rfl, hd⟩ | ⟨⟨h1, h2⟩, h3⟩
    · cases ps with
      | nil => exact (hne rfl).elim
      | cons q ps =>
        simp only [dtErrAt, List.head?_cons, Option.map_some, Option.getD_some]
        exact pro_report hf (hp [] q ps rfl) fun h => .datatype rfl .noParams h
    · obtain ⟨pre, q, post, h1, h2, ⟨d, h3⟩, h4⟩ := faultyParam_first n (x := x) ps [] hd hv
      have h2 : faultyParam x n [] ps = q.at_ := h2
      have key : Pro (c.convert F.size q.at_ true >>= fun s => (.error (.err (.datatype (some s) (.xsd (.facet e)))) : Except LFault Datatypes))
          (fun _ => True) (Fine F x name g) :=
        pro_report hf (hp pre q post h1) fun h => .datatype rfl (.facet h3 h4) h
      cases e with
      | conflicting => exact .conflictingFacet
      | invalidInt => simp only [dtErrAt, h2]; exact key
      | invalidFloat => simp only [dtErrAt, h2]; exact key
      | invalidPattern => simp only [dtErrAt, h2]; exact key
      | invalidFacet => simp only [dtErrAt, h2]; exact key
    · have hn' : ty.Has .typeName ty.nameAt := by
        cases ty with
        | string => exact (h1 rfl).elim
        | token => exact (h2 rfl).elim
        | cname r p nr l => exact .name
        | namespaced r p nr l => exact .uriName
      rcases h3 with rfl | rfl | rfl
      · simp only [dtErrAt]
        cases ty with
        | string => exact (h1 rfl).elim
        | token => exact (h2 rfl).elim
        | cname r p nr l => exact pro_convert0 hf (.datatypeLibrary hg)
        | namespaced r p nr l => exact pro_report hf (hm _ _ .uri) fun h => .datatype rfl .library h
      · simp only [dtErrAt]
        exact pro_report hf (hm _ _ hn') fun h => .datatype rfl .unknown h
      · simp only [dtErrAt]
        exact pro_report hf (hm _ _ hn') fun h => .datatype rfl .unsupported h

/-! ### definitions -/

theorem CRule.all_of {P : Span → Str → Prop} {s : Span} {how : AssignMethod} {q : CPat} (h : q.All P) : (ruleOf s how q).pattern.All P := by
  cases how with
  | assign => exact h
  | choice => exact ⟨h, trivial⟩
  | interleave => exact ⟨h, trivial⟩

theorem ruleOf_at (s : Span) (how : AssignMethod) (q : CPat) : (ruleOf s how q).at_ = s := by cases how <;> rfl

section
variable {P : Span → Str → Prop}

theorem allPats_append {a b : List CPat} (ha : allPats P a) (hb : allPats P b) : allPats P (a ++ b) := by
  rw [allPats_iff] at *
  intro p hp
  rcases List.mem_append.mp hp with h | h
  · exact ha p h
  · exact hb p h

theorem appendChoice_all {a b : CPat} (ha : a.All P) (hb : b.All P) {Q : LFault → Prop} (hQ : ∀ p, Q (.panic p)) : Pro (appendChoice a b) (·.All P) Q := by
  cases a with
  | choice as =>
    cases b with
    | choice bs => exact allPats_append (a := as) ha hb
    | _ => exact allPats_append (a := as) ha ⟨hb, trivial⟩
  | _ => exact hQ _

theorem appendInterleave_all {a b : CPat} (ha : a.All P) (hb : b.All P) {Q : LFault → Prop} (hQ : ∀ p, Q (.panic p)) : Pro (appendInterleave a b) (·.All P) Q := by
  cases a with
  | interleave as =>
    cases b with
    | interleave bs => exact allPats_append (a := as) ha hb
    | _ => exact allPats_append (a := as) ha ⟨hb, trivial⟩
  | _ => exact hQ _

theorem joinChoice_all {a b : CPat} (ha : a.All P) (hb : b.All P) {Q : LFault → Prop} (hQ : ∀ p, Q (.panic p)) : Pro (joinChoice a b) (·.All P) Q := by
  cases a with
  | choice as => exact appendChoice_all (a := .choice as) ha hb hQ
  | _ => exact ⟨ha, hb, trivial⟩

theorem joinInterleave_all {a b : CPat} (ha : a.All P) (hb : b.All P) {Q : LFault → Prop} (hQ : ∀ p, Q (.panic p)) : Pro (joinInterleave a b) (·.All P) Q := by
  cases a with
  | interleave as => exact appendInterleave_all (a := .interleave as) ha hb hQ
  | _ => exact ⟨ha, hb, trivial⟩

theorem merge1_fine {id : Str} {a b : CRule} (ha : Defines F name id a.at_) (hb : Defines F name id b.at_) (pa : a.pattern.All P) (pb : b.pattern.All P) :
    Pro (merge1 id a b) (fun r => Defines F name id r.at_ ∧ r.pattern.All P) (Fine F x name g) := by
  have hd : Fine F x name g (.err (.duplicateDefinition id a.at_ b.at_)) := .duplicateDefinition ha hb
  have hm : Fine F x name g (.err (.mixesChoiceAndInterleave a.at_ b.at_)) := .mixes ha hb
  have hQ : ∀ p, Fine F x name g (.panic p) := fun _ => trivial
  have j1 := joinChoice_all pa pb hQ
  have j2 := joinInterleave_all pa pb hQ
  have j3 := appendChoice_all pa pb hQ
  have j4 := appendInterleave_all pa pb hQ
  cases a with
  | assignCombine s c p =>
    cases b with
    | assignCombine s' c' p' => cases c with
      | none => exact hd
      | some c => cases c <;> exact hd
    | combineOnly s' c' p' =>
      cases c with
      | none => cases c' with
        | choice => exact pro_bind j1 fun q hq => ⟨ha, hq⟩
        | interleave => exact pro_bind j2 fun q hq => ⟨ha, hq⟩
      | some c => cases c <;> cases c' <;> first
          | exact hm
          | exact pro_bind j1 fun q hq => ⟨ha, hq⟩
          | exact pro_bind j2 fun q hq => ⟨ha, hq⟩
  | combineOnly s c p =>
    cases b with
    | assignCombine s' c' p' => cases c' with
      | none => cases c with
        | choice => exact pro_bind j1 fun q hq => ⟨ha, hq⟩
        | interleave => exact pro_bind j2 fun q hq => ⟨ha, hq⟩
      | some c' => cases c <;> cases c' <;> first
          | exact hm
          | exact pro_bind j1 fun q hq => ⟨ha, hq⟩
          | exact pro_bind j2 fun q hq => ⟨ha, hq⟩
    | combineOnly s' c' p' => cases c <;> cases c' <;> first
          | exact hm
          | exact pro_bind j3 fun q hq => ⟨ha, hq⟩
          | exact pro_bind j4 fun q hq => ⟨ha, hq⟩
end

/-! ### states -/

theorem Sound.fresh {l : List (Str × LSchema)} (hl : ∀ f s, l.lookup f = some s → F.load f = .ok s) : Sound F name (.fresh l) where
  loaded := hl
  names := ⟨fun _ => [], (fun i id k h => by simp [LState.refs, LState.fresh] at h), (fun k r h => by simp [LState.cell, LState.fresh] at h)⟩
  overrides := fun o n s b h => by simp [LState.ov, LState.fresh] at h

theorem refs_set (st : LState) (s i : Nat) (l : List (Str × Nat)) :
    ({ st with scopes := st.scopes.set s l } : LState).refs i = if s = i ∧ s < st.scopes.length then l else st.refs i := by
  simp only [LState.refs, List.getD, List.getElem?_set]
  by_cases h : s = i
  · subst h
    by_cases h' : s < st.scopes.length
    · simp [h']
    · simp [h', List.getElem?_eq_none (Nat.le_of_not_lt h')]
  · simp [h]

theorem Sound.addCell {st : LState} (h : Sound F name st) (s : Nat) (id : Str) (r : Option CRule)
    (hr : ∀ r', r = some r' → Defines F name id r'.at_ ∧ r'.pattern.All (RefAt F name)) : Sound F name (st.addCell s id r) where
  loaded := h.loaded
  overrides := h.overrides
  names := by
    obtain ⟨N, h1, h2⟩ := h.names
    refine ⟨fun k => if k = st.cells.length then id else N k, ?_, ?_⟩
    · intro i id' k hk
      have e : (st.addCell s id r).refs i = if s = i ∧ s < st.scopes.length then (id, st.cells.length) :: st.refs s else st.refs i :=
        refs_set { st with cells := st.cells ++ [r] } s i _
      have hlen : (st.addCell s id r).cells.length = st.cells.length + 1 := by simp [LState.addCell]
      rw [e] at hk
      rw [hlen]
      have old : ∀ j, (id', k) ∈ st.refs j → (if k = st.cells.length then id else N k) = id' ∧ k < st.cells.length + 1 := by
        intro j hj
        obtain ⟨a, b⟩ := h1 j id' k hj
        rw [if_neg (Nat.ne_of_lt b)]
        exact ⟨a, Nat.lt_succ_of_lt b⟩
      split at hk
      · rcases List.mem_cons.mp hk with hk | hk
        · cases hk; exact ⟨if_pos rfl, Nat.lt_succ_self _⟩
        · exact old _ hk
      · exact old _ hk
    · intro k r' hk
      have hk : (st.cells ++ [r]).getD k none = some r' := hk
      dsimp only
      by_cases hlt : k < st.cells.length
      · rw [if_neg (Nat.ne_of_lt hlt)]
        refine h2 k r' ?_
        simpa [LState.cell, List.getD, List.getElem?_append_left hlt] using hk
      · by_cases he : k = st.cells.length
        · rw [if_pos he]
          refine hr r' ?_
          subst he
          simpa [List.getD] using hk
        · exfalso
          have : (st.cells ++ [r])[k]? = none := List.getElem?_eq_none (by simp; omega)
          simp [List.getD, this] at hk

theorem Sound.setCell {st : LState} (h : Sound F name st) {i : Nat} {id : Str} {k : Nat} (hi : (id, k) ∈ st.refs i) (r : Option CRule)
    (hr : ∀ r', r = some r' → Defines F name id r'.at_ ∧ r'.pattern.All (RefAt F name)) :
    Sound F name { st with cells := st.cells.set k r } where
  loaded := h.loaded
  overrides := h.overrides
  names := by
    obtain ⟨N, h1, h2⟩ := h.names
    refine ⟨N, ?_, ?_⟩
    · intro j id' k' hk
      have := h1 j id' k' hk
      exact ⟨this.1, by simpa using this.2⟩
    · intro k' r' hk
      have hk : (st.cells.set k r).getD k' none = some r' := hk
      by_cases he : k = k'
      · subst he
        rw [(h1 i id k hi).1]
        refine hr r' ?_
        simpa [List.getD, List.getElem?_set, (h1 i id k hi).2] using hk
      · refine h2 k' r' ?_
        simpa [LState.cell, List.getD, List.getElem?_set, he] using hk

theorem lookup_mem {α : Type} {l : List (Str × α)} {k : Str} {a : α} (h : l.lookup k = some a) : (k, a) ∈ l := by
  induction l with
  | nil => cases h
  | cons p l ih =>
    obtain ⟨b, c⟩ := p
    simp only [List.lookup] at h
    split at h
    · next he => cases h; rw [eq_of_beq he]; exact .head _
    · exact .tail _ (ih h)

theorem defineIn_fine (s : Nat) {id : Str} {r : CRule} (hr : Defines F name id r.at_) (hp : r.pattern.All (RefAt F name)) :
    Tri (Sound F name) (defineIn s id r) (fun _ => True) (Fine F x name g) := by
  intro st hs
  unfold defineIn
  cases hk : (st.refs s).lookup id with
  | none =>
    refine ⟨trivial, hs.addCell s id (some r) ?_⟩
    rintro r' he; cases he; exact ⟨hr, hp⟩
  | some k =>
    have hk := lookup_mem hk
    dsimp only
    obtain ⟨N, h1, h2⟩ := hs.names
    cases hc : st.cell k with
    | none =>
      refine ⟨trivial, hs.setCell hk (some r) ?_⟩
      rintro r' he; cases he; exact ⟨hr, hp⟩
    | some r0 =>
      have h0 := h2 k r0 hc
      rw [(h1 s id k hk).1] at h0
      have hm := merge1_fine (F := F) (x := x) (name := name) (g := g) h0.1 hr h0.2 hp
      cases hm' : merge1 id r0 r with
      | ok r1 =>
        rw [hm'] at hm
        have : merge id (some r0) (some r) = .ok (some r1) := by simp [merge, hm']; rfl
        simp only [this]
        refine ⟨trivial, hs.setCell hk (some r1) ?_⟩
        rintro r' he; cases he; exact hm
      | error e =>
        rw [hm'] at hm
        have : merge id (some r0) (some r) = .error e := by simp [merge, hm']; rfl
        simp only [this]
        exact hm

theorem mark_mem {id : Str} : ∀ {l : List (Str × Span × Bool)} {n : Str} {s : Span} {b : Bool}, (n, s, b) ∈ markOverride id l → ∃ b', (n, s, b') ∈ l
  | [], _, _, _, h => nomatch h
  | (m, t, c) :: l, n, s, b, h => by
    unfold markOverride at h
    split at h
    · rcases List.mem_cons.mp h with h | h
      · cases h; exact ⟨_, .head _⟩
      · exact ⟨b, .tail _ h⟩
    · rcases List.mem_cons.mp h with h | h
      · cases h; exact ⟨_, .head _⟩
      · obtain ⟨b', h⟩ := mark_mem h; exact ⟨b', .tail _ h⟩

theorem ov_set (st : LState) (o i : Nat) (l : List (Str × Span × Bool)) :
    ({ st with overrides := st.overrides.set o l } : LState).ov i = if o = i ∧ o < st.overrides.length then l else st.ov i := by
  simp only [LState.ov, List.getD, List.getElem?_set]
  by_cases h : o = i
  · subst h
    by_cases h' : o < st.overrides.length
    · simp [h']
    · simp [h', List.getElem?_eq_none (Nat.le_of_not_lt h')]
  · simp [h]

theorem Sound.setOv {st : LState} (h : Sound F name st) (o : Nat) (l : List (Str × Span × Bool))
    (hl : ∀ n s b, (n, s, b) ∈ l → Shown F name (.define n) s) : Sound F name { st with overrides := st.overrides.set o l } where
  loaded := h.loaded
  names := h.names
  overrides := by
    intro i n s b hm
    rw [ov_set] at hm
    split at hm
    · exact hl n s b hm
    · exact h.overrides i n s b hm

theorem defineRule_inclF (p : LCtx) (f : Str) (o : Nat) (ns dts : List (Str × Str)) (id : Str) (r : CRule)
    (h : Tri (Sound F name) (p.defineRule id r) (fun _ => True) (Fine F x name g)) :
    Tri (Sound F name) ((LCtx.incl p f o ns dts).defineRule id r) (fun _ => True) (Fine F x name g) := by
  intro st hs
  have h := h st hs
  have e : (LCtx.incl p f o ns dts).defineRule id r st = (if ((st.ov o).lookup id).isSome then
      .ok ((), { st with overrides := st.overrides.set o (markOverride id (st.ov o)) })
    else p.defineRule id r st) := rfl
  rw [e]
  by_cases hb : ((st.ov o).lookup id).isSome
  · rw [if_pos hb]
    refine ⟨trivial, hs.setOv o _ fun n s b hm => ?_⟩
    obtain ⟨b', hm⟩ := mark_mem hm
    exact hs.overrides o n s b' hm
  · rw [if_neg hb]; exact h

theorem defineRule_overF (p : LCtx) (f : Str) (o : Nat) (ns dts : List (Str × Str)) (id : Str) (r : CRule) (hr : Shown F name (.define id) r.at_)
    (h : Tri (Sound F name) (p.defineRule id r) (fun _ => True) (Fine F x name g)) :
    Tri (Sound F name) ((LCtx.inclOverrides (.incl p f o ns dts)).defineRule id r) (fun _ => True) (Fine F x name g) := by
  intro st hs
  have e : (LCtx.inclOverrides (.incl p f o ns dts)).defineRule id r st = (if ((st.ov o).lookup id).isSome then .error (.panic .redefinedOverride)
    else p.defineRule id r { st with overrides := st.overrides.set o ((id, r.at_, false) :: st.ov o) }) := rfl
  rw [e]
  by_cases hb : ((st.ov o).lookup id).isSome
  · rw [if_pos hb]; trivial
  · rw [if_neg hb]
    refine h _ (hs.setOv o _ fun n s b hm => ?_)
    rcases List.mem_cons.mp hm with hm | hm
    · cases hm; exact hr
    · exact hs.overrides o n s b hm

/-- a definition that is written down -/
theorem defineRule_fine : ∀ (c : LCtx) {id : Str} {r : CRule}, Shown F name (.define id) r.at_ → r.pattern.All (RefAt F name) →
    Tri (Sound F name) (c.defineRule id r) (fun _ => True) (Fine F x name g)
  | .root _ s _ _, id, r, hr, hp => defineIn_fine s (.inl hr) hp
  | .grammar _ s, id, r, hr, hp => defineIn_fine s (.inl hr) hp
  | .incl p f o ns dts, id, r, hr, hp => defineRule_inclF p f o ns dts id r (defineRule_fine p hr hp)
  | .inclOverrides (.incl p f o ns dts), id, r, hr, hp => defineRule_overF p f o ns dts id r hr (defineRule_fine p hr hp)
  | .inclOverrides (.root _ _ _ _), _, _, _, _ => fun _ _ => trivial
  | .inclOverrides (.inclOverrides _), _, _, _, _ => fun _ _ => trivial
  | .inclOverrides (.grammar _ _), _, _, _, _ => fun _ _ => trivial
  | .inclOverrides (.define _ _ _), _, _, _, _ => fun _ _ => trivial
  | .inclOverrides (.element _), _, _, _, _ => fun _ _ => trivial
  | .inclOverrides (.attribute _ _), _, _, _, _ => fun _ _ => trivial
  | .define _ _ _, _, _, _, _ => fun _ _ => trivial
  | .element _, _, _, _, _ => fun _ _ => trivial
  | .attribute _ _, _, _, _, _ => fun _ _ => trivial

/-! ### references -/

theorem acquireRefImpl_fine (c : LCtx) (i : Str) {Q : LFault → Prop} : Tri (Sound F name) (c.acquireRefImpl i) (fun _ => True) Q := by
  have h0 : ∀ s, Tri (Sound F name) (LCtx.acquireRefImpl.acquireIn s i) (fun _ => True) Q := by
    intro s st hs
    unfold LCtx.acquireRefImpl.acquireIn
    cases (st.refs s).lookup i with
    | some k => exact ⟨trivial, hs⟩
    | none => exact ⟨trivial, hs.addCell s i none fun _ h => by cases h⟩
  induction c with
  | root f s => exact h0 s
  | grammar p s ih => exact h0 s
  | incl p f o ns dts ih => exact ih
  | inclOverrides p ih => exact ih
  | define p r id ih => exact ih
  | element p ih => exact ih
  | «attribute» p s ih => exact ih

/-- the reference is at `r`, whatever `r` is a position of; `hr` tells what to make of it -/
theorem checkRefRecursion_fine {c : LCtx} (hc : Stands F name c) {f : Str} (hf : c.file = some f) {r : Rg} {i : Str} {Q : LFault → Prop}
    (hsub : (∃ r', Marked F name (.define i) f r') → ¬ InFile F f r → Q (.subspan true)) (hsub' : Misplaced F name → Q (.subspan true))
    (hr : ∀ s', InFile F f r → s'.file = f → Shown F name (.define i) s' → Q (.err (.recursiveReference i ⟨f, r.lo, r.hi⟩ s'))) :
    Pro (c.checkRefRecursion F.size r i) (fun _ => True) Q := by
  induction c with
  | define p dat id ih =>
    unfold LCtx.checkRefRecursion
    split
    · next he =>
      subst he
      obtain ⟨_, f', hf', hm⟩ := hc
      have : f' = f := by have : p.file = some f := hf; rw [hf'] at this; cases this; rfl
      subst this
      unfold LCtx.convert
      rw [hf]
      dsimp only
      split
      · next hin =>
        simp only [Bind.bind, Except.bind]
        split
        · next heq =>
          split at heq
          · next hin' => cases heq
          · next hin' => cases heq; exact hsub' ⟨_, _, _, _, hm, .inl rfl, hin'⟩
        · next heq =>
          split at heq
          · next hin' => cases heq; exact hr _ hin rfl ⟨hm, hin'⟩
          · cases heq
      · next hin => exact hsub ⟨_, hm⟩ hin
    · trivial
  | «attribute» p s ih => exact ih hc.1 hf
  | _ => trivial

theorem acquireRef_fine {c : LCtx} (hc : Stands F name c) (hf : c.file = some g) {r : Rg} {i : Str} (hm : Marked F name (.ref i) g r) :
    Tri (Sound F name) (c.acquireRef F.size r i) (fun _ => True) (Fine F x name g) := by
  refine tri_bind (P := fun _ => True) (tri_lift ?_) fun _ _ => acquireRefImpl_fine c i
  exact checkRefRecursion_fine hc hf (fun _ h => ⟨_, _, _, _, hm, .inl rfl, h⟩) (fun h => h)
    fun s' hin hs' hd => .recursiveReference rfl hs' ⟨hm, hin⟩ hd

theorem acquireParentRef_fine {c : LCtx} (hc : Stands F name c) {r : Rg} {i : Str} (hm : Marked F name (.parent i) g r) :
    Tri (Sound F name) (c.acquireParentRef F.size r i) (fun _ => True) (Fine F x name g) := by
  induction c with
  | root f s ns dts =>
    have hc : f = name := hc
    subst hc
    refine tri_bind (P := fun s => InFile F f r ∧ s = ⟨f, r.lo, r.hi⟩) (tri_lift ?_) ?_
    · unfold LCtx.convert
      dsimp only [LCtx.file]
      split
      · next h => exact ⟨h, rfl⟩
      · next h => exact ⟨_, _, _, _, hm, .inr ⟨_, rfl, .inl rfl⟩, h⟩
    · rintro s' ⟨h, rfl⟩
      exact fun _ _ => Blames.noParent hm h
  | grammar p s ih =>
    obtain ⟨f, hf⟩ := LCtx.HasFiles.hasFile (Stands.hasFiles (c := p) hc)
    refine tri_bind (P := fun _ => True) (tri_lift ?_) fun _ _ => acquireRefImpl_fine p i
    exact checkRefRecursion_fine (c := p) hc hf (fun hd h => ⟨_, _, _, _, hm, .inr ⟨_, rfl, .inr hd⟩, h⟩) (fun h => h)
      fun s' hin hs' hd => .recursiveParent hm hs'.symm hd
  | incl p f o ns dts ih => exact ih hc
  | inclOverrides p ih => exact ih hc.1
  | define p r id ih => exact ih hc.1
  | element p ih => exact ih hc
  | «attribute» p s ih => exact ih hc.1
end

end Verif.At
