import Verif.Model.SchemaSpans
/-
The schema compiler with positions does what the one without does, unless a position lies outside the file it is taken for.
-/
namespace Verif.At
open Verif

/-! ### plain trees -/

theorem plainItems_eq (is : List LItem) : plainItems is = is.map LItem.plain := by
  induction is with
  | nil => rfl
  | cons i is ih => simp [plainItems, ih]

theorem plainOverrides_eq (os : List LOverride) : plainOverrides os = os.map LOverride.plain := by
  induction os with
  | nil => rfl
  | cons o os ih => simp [plainOverrides, ih]

theorem plainPats_eq (ps : List CPat) : plainPats ps = ps.map CPat.plain := by
  induction ps with
  | nil => rfl
  | cons p ps ih => simp [plainPats, ih]

/-- without the positions; the failing assertion has no counterpart -/
def LFault.plain? : LFault → Option CFault
  | .err e => some (.err e.plain)
  | .panic p => some (.panic p)
  | .subspan _ => none
  | .fuel => some .fuel

/-- the same fault without positions, if the assertion does not fail; if it fails in reporting an error, some fault -/
def LFault.Fits {β : Type} (e : LFault) (q : Except CFault β) : Prop :=
  (∀ e', e.plain? = some e' → q = .error e') ∧ (e = .subspan true → ∃ e', q = .error e')

/-- the result without positions, unless the assertion fails -/
def Sim {α β : Type} (f : α → β) (r : Except LFault α) (q : Except CFault β) : Prop :=
  match r with
  | .ok a => q = .ok (f a)
  | .error e => e.Fits q

/-- the same for computations with state -/
def SimM {α β : Type} (f : α → β) (x : LM α) (y : CM β) : Prop :=
  ∀ st : LState, Sim (fun r : α × LState => (f r.1, r.2.plain)) (x st) (y st.plain)

section
variable {α β γ δ : Type} {f : α → β} {g : γ → δ}

theorem sim_ok (a : α) : Sim f (.ok a) (.ok (f a)) := rfl

theorem sim_err (e : LErr) : Sim f (.error (.err e)) (.error (.err e.plain)) := ⟨fun _ h => by cases h; rfl, nofun⟩

theorem sim_panic (p : SPanic) : Sim f (.error (.panic p)) (.error (.panic p)) := ⟨fun _ h => by cases h; rfl, nofun⟩

theorem sim_fuel : Sim f (.error .fuel) (.error .fuel) := ⟨fun _ h => by cases h; rfl, nofun⟩

theorem Sim.error {e : LFault} {q : Except CFault β} {q' : Except CFault δ} (h : Sim f (.error e) q)
    (hq : ∀ e', q = .error e' → q' = .error e') : Sim g (.error e) q' :=
  ⟨fun e' he => hq e' (h.1 e' he), fun he => let ⟨e', h'⟩ := h.2 he; ⟨e', hq e' h'⟩⟩

theorem sim_bind {r : Except LFault α} {q : Except CFault β} {k : α → Except LFault γ} {k' : β → Except CFault δ} (h : Sim f r q)
    (hk : ∀ a, r = .ok a → Sim g (k a) (k' (f a))) : Sim g (r >>= k) (q >>= k') := by
  cases r with
  | ok a => cases h; exact hk a rfl
  | error e =>
    exact h.error fun e' he => by rw [he]; rfl

theorem simM_pure (a : α) : SimM f (pure a : LM α) (pure (f a) : CM β) := fun _ => rfl

theorem simM_bind {x : LM α} {y : CM β} {k : α → LM γ} {k' : β → CM δ} (h : SimM f x y) (hk : ∀ a, SimM g (k a) (k' (f a))) :
    SimM g (x >>= k) (y >>= k') := by
  intro st
  have h := h st
  show Sim _ (LM.bind x k st) (CM.bind y k' st.plain)
  unfold LM.bind CM.bind
  cases hx : x st with
  | ok r =>
    rw [hx] at h
    have h : y st.plain = .ok (f r.1, r.2.plain) := h
    rw [h]
    exact hk r.1 r.2
  | error e =>
    rw [hx] at h
    exact h.error fun e' he => by rw [he]

/-- with what is known about the value -/
theorem simM_bind' {x : LM α} {y : CM β} {k : α → LM γ} {k' : β → CM δ} {P : α → Prop} (h : SimM f x y)
    (hP : ∀ st a st', x st = .ok (a, st') → P a) (hk : ∀ a, P a → SimM g (k a) (k' (f a))) : SimM g (x >>= k) (y >>= k') := by
  intro st
  have h := h st
  show Sim _ (LM.bind x k st) (CM.bind y k' st.plain)
  unfold LM.bind CM.bind
  cases hx : x st with
  | ok r =>
    rw [hx] at h
    have h : y st.plain = .ok (f r.1, r.2.plain) := h
    rw [h]
    exact hk r.1 (hP st r.1 r.2 hx) r.2
  | error e =>
    rw [hx] at h
    exact h.error fun e' he => by rw [he]

theorem simM_lift {r : Except LFault α} {q : Except CFault β} (h : Sim f r q) : SimM f (LM.lift r) (CM.lift q) := by
  intro st
  cases r with
  | ok a => cases h; rfl
  | error e =>
    refine h.error fun e' this => ?_
    simp only [CM.lift, this]

theorem simM_err (e : LErr) : SimM f (LM.fail (.err e)) (CM.fail (.err e.plain)) := fun _ => sim_err e

theorem simM_panic (p : SPanic) : SimM f (LM.fail (.panic p)) (CM.fail (.panic p)) := fun _ => sim_panic p

theorem simM_inInclude {x : LM α} {y : CM β} (at_ : Span) (h : SimM f x y) : SimM f (x.inInclude at_) y.inInclude := by
  intro st
  have h := h st
  unfold LM.inInclude CM.inInclude
  cases hx : x st with
  | ok r => rw [hx] at h; rw [show y st.plain = _ from h]; rfl
  | error e =>
    rw [hx] at h
    cases e with
    | err e => rw [h.1 _ rfl]; exact sim_err _
    | panic p => rw [h.1 _ rfl]; exact sim_panic _
    | subspan b =>
      refine ⟨nofun, fun hb => ?_⟩
      obtain ⟨e', he⟩ := h.2 hb
      rw [he]
      cases e' <;> exact ⟨_, rfl⟩
    | fuel => rw [h.1 _ rfl]; exact sim_fuel
end

/-! ### contexts -/

theorem lookup_map {α β : Type} (f : α → β) (l : List (Str × α)) (k : Str) :
    (l.map fun p => (p.1, f p.2)).lookup k = (l.lookup k).map f := by
  induction l with
  | nil => rfl
  | cons p l ih =>
    obtain ⟨a, b⟩ := p
    simp only [List.map_cons, List.lookup]
    cases h : k == a with
    | true => rfl
    | false => exact ih

namespace LCtx

theorem file_plain : ∀ c : LCtx, c.plain.file = c.file
  | .root _ _ _ _ => rfl
  | .incl _ _ _ _ _ => rfl
  | .inclOverrides (.incl p _ _ _ _) => file_plain p
  | .inclOverrides (.root _ _ _ _) => rfl
  | .inclOverrides (.inclOverrides _) => rfl
  | .inclOverrides (.grammar _ _) => rfl
  | .inclOverrides (.define _ _ _) => rfl
  | .inclOverrides (.element _) => rfl
  | .inclOverrides (.attribute _ _) => rfl
  | .grammar p _ => file_plain p
  | .define p _ _ => file_plain p
  | .element p => file_plain p
  | .attribute p _ => file_plain p

theorem nsUri_plain (c : LCtx) (pre : Str) : c.plain.nsUri pre = c.nsUri pre := by
  induction c with
  | root => rfl
  | incl => rfl
  | inclOverrides p ih => exact ih
  | grammar p s ih => exact ih
  | define p r id ih => exact ih
  | element p ih => exact ih
  | «attribute» p s ih => exact ih

theorem dtUri_plain (c : LCtx) (pre : Str) : c.plain.dtUri pre = c.dtUri pre := by
  induction c with
  | root => rfl
  | incl p f o ns dts ih =>
    simp only [plain, SCtx.dtUri, dtUri, ih]
    cases dts.lookup pre <;> rfl
  | inclOverrides p ih => exact ih
  | grammar p s ih => exact ih
  | define p r id ih => exact ih
  | element p ih => exact ih
  | «attribute» p s ih => exact ih

theorem parentAttribute_plain (c : LCtx) : c.plain.parentAttribute = c.parentAttribute.isSome := by
  induction c with
  | root => rfl
  | incl p f o ns dts ih => exact ih
  | inclOverrides p ih => exact ih
  | grammar p s ih => rfl
  | define p r id ih => exact ih
  | element p ih => exact ih
  | «attribute» p s ih => rfl

theorem declareNamespace_sim (c : LCtx) (pre uri : Str) : Sim plain (c.declareNamespace pre uri) (c.plain.declareNamespace pre uri) := by
  cases c with
  | root f s ns dts =>
    simp only [declareNamespace, plain, SCtx.declareNamespace]
    split <;> rfl
  | incl p f o ns dts =>
    simp only [declareNamespace, plain, SCtx.declareNamespace]
    split <;> rfl
  | _ => exact sim_panic _

theorem declareDatatype_sim (c : LCtx) (pre uri : Str) : Sim plain (c.declareDatatype pre uri) (c.plain.declareDatatype pre uri) := by
  cases c with
  | root f s ns dts =>
    simp only [declareDatatype, plain, SCtx.declareDatatype]
    split
    · exact sim_err _
    · rfl
  | incl p f o ns dts =>
    simp only [declareDatatype, plain, SCtx.declareDatatype]
    split
    · exact sim_err _
    · rfl
  | _ => exact sim_panic _

theorem checkInclude_sim (c : LCtx) (s : Span) (g : Str) : Sim id (c.checkInclude s g) (c.plain.checkInclude g) := by
  induction c with
  | root => rfl
  | incl p f o ns dts ih =>
    simp only [checkInclude, plain, SCtx.checkInclude]
    split
    · exact sim_err _
    · exact ih
  | inclOverrides p ih => exact ih
  | grammar p s ih => exact ih
  | define p r id ih => exact ih
  | element p ih => exact ih
  | «attribute» p s ih => exact ih

/-- every context the compiler works with has a file -/
def HasFile (c : LCtx) : Prop := ∃ f, c.file = some f

variable {size : Str → Nat}

/-- what converting a position can come to -/
theorem convert_cases {c : LCtx} (hc : c.HasFile) (r : Rg) (b : Bool) :
    (∃ f, c.file = some f ∧ c.convert size r b = .ok ⟨f, r.lo, r.hi⟩ ∧ r.lo ≤ r.hi ∧ r.hi ≤ size f) ∨
      c.convert size r b = .error (.subspan b) := by
  obtain ⟨f, hf⟩ := hc
  simp only [convert, hf]
  split
  · next h => exact .inl ⟨f, rfl, rfl, h⟩
  · exact .inr rfl

end LCtx

section
variable {α β : Type} {f : α → β} {size : Str → Nat} {c : LCtx}

/-- converting a position first changes nothing -/
theorem sim_convert (hc : c.HasFile) (r : Rg) {k : Span → Except LFault α} {e : CFault} (h : ∀ s, Sim f (k s) (.error e)) :
    Sim f (c.convert size r true >>= k) (.error e) := by
  rcases LCtx.convert_cases (size := size) hc r true with ⟨g, _, h1, _⟩ | h1
  · rw [h1]; exact h _
  · rw [h1]; exact ⟨nofun, fun _ => ⟨_, rfl⟩⟩

theorem simM_convert (hc : c.HasFile) (r : Rg) {k : Span → LM α} {y : CM β} (h : ∀ s, SimM f (k s) y) :
    SimM f (LM.lift (c.convert size r) >>= k) y := by
  intro st
  show Sim _ (LM.bind _ k st) _
  rcases LCtx.convert_cases (size := size) hc r false with ⟨g, _, h1, _⟩ | h1
  · rw [h1]; exact h _ st
  · rw [h1]; exact ⟨nofun, nofun⟩
end

namespace LCtx
variable {size : Str → Nat}

theorem checkRefRecursion_sim (c : LCtx) (hc : c.HasFile) (r : Rg) (i : Str) : Sim id (c.checkRefRecursion size r i) (c.plain.checkRefRecursion i) := by
  induction c with
  | define p dat id ih =>
    simp only [checkRefRecursion, plain, SCtx.checkRefRecursion]
    split
    · exact sim_convert hc _ fun s => sim_convert hc _ fun s' => sim_err _
    · rfl
  | «attribute» p s ih => exact ih hc
  | _ => rfl

theorem nsUriE_sim (c : LCtx) (hc : c.HasFile) (r : Rg) (pre : Str) : Sim id (c.nsUriE size r pre) (c.plain.nsUriE pre) := by
  simp only [nsUriE, SCtx.nsUriE, nsUri_plain]
  cases c.nsUri pre with
  | some u => rfl
  | none => exact sim_convert hc _ fun s => sim_err _

theorem dtUriE_sim (c : LCtx) (hc : c.HasFile) (r : Rg) (pre : Str) : Sim id (c.dtUriE size r pre) (c.plain.dtUriE pre) := by
  simp only [dtUriE, SCtx.dtUriE, dtUri_plain]
  cases c.dtUri pre with
  | some u => rfl
  | none => exact sim_convert hc _ fun s => sim_err _

theorem nsRef_sim (c : LCtx) (hc : c.HasFile) (n : LNsRef) : Sim id (c.nsRef size n) (c.plain.nsRef n.plain) := by
  cases n with
  | pre r p => exact nsUriE_sim c hc r p
  | uri u => rfl

theorem dtName_sim (c : LCtx) (hc : c.HasFile) (n : LDtName) : Sim id (c.dtName size n) (c.plain.dtName n.plain) := by
  cases n with
  | string => rfl
  | token => rfl
  | cname r p nr n => exact sim_bind (dtUriE_sim c hc r p) fun u _ => rfl
  | namespaced => rfl

end LCtx

section
variable {size : Str → Nat} {c : LCtx}

theorem compileNameclass_sim (hc : c.HasFile) (b : Bool) (nc : LNameClass) :
    Sim id (compileNameclass size c nc) (Verif.compileNameclass c.plain b nc.plain) := by
  induction nc with
  | ident n => cases b <;> rfl
  | cname r p n => exact sim_bind (LCtx.nsUriE_sim c hc r p) fun u _ => rfl
  | namespaced => rfl
  | nsName n => exact sim_bind (LCtx.nsRef_sim c hc n) fun u _ => rfl
  | nsNameExcept n e ih => exact sim_bind ih fun e' _ => sim_bind (LCtx.nsRef_sim c hc n) fun u _ => rfl
  | anyName => rfl
  | anyNameExcept e ih => exact sim_bind ih fun e' _ => rfl
  | alt a b iha ihb => exact sim_bind iha fun a' _ => sim_bind ihb fun b' _ => rfl
  | paren a ih => exact ih

theorem dtRes_sim {α : Type} (hc : c.HasFile) (p : DtErr → Option Rg) (r : Res DtErr α) : Sim id (dtRes size c p r) (Verif.dtRes r) := by
  cases r with
  | ok a => rfl
  | panic => exact sim_panic _
  | err e =>
    simp only [dtRes, Verif.dtRes]
    split
    · exact sim_err _
    · exact sim_convert hc _ fun s => sim_err _

theorem compileDeclaration_sim (c : LCtx) (d : SDecl) : Sim LCtx.plain (compileDeclaration c d) (Verif.compileDeclaration c.plain d) := by
  cases d with
  | «namespace» p u =>
    cases u with
    | none => exact sim_panic _
    | some u => exact LCtx.declareNamespace_sim c p u
  | defaultNamespace p u =>
    cases u with
    | none => cases p <;> exact sim_panic _
    | some u =>
      cases p with
      | none => rfl
      | some p => exact LCtx.declareNamespace_sim c p u
  | datatypes p u => exact LCtx.declareDatatype_sim c p u

theorem compileDeclarations_sim (ds : List SDecl) : ∀ c : LCtx, Sim LCtx.plain (compileDeclarations c ds) (Verif.compileDeclarations c.plain ds) := by
  induction ds with
  | nil => intro c; rfl
  | cons d ds ih => intro c; exact sim_bind (compileDeclaration_sim c d) fun c' _ => ih c'
end

/-! ### definitions -/

theorem appendChoice_sim (a b : CPat) : Sim CPat.plain (appendChoice a b) (Verif.appendChoice a.plain b.plain) := by
  cases a <;> first | exact sim_panic _ | skip
  cases b <;> simp [appendChoice, Verif.appendChoice, CPat.plain, Sim, plainPats_eq]

theorem appendInterleave_sim (a b : CPat) : Sim CPat.plain (appendInterleave a b) (Verif.appendInterleave a.plain b.plain) := by
  cases a <;> first | exact sim_panic _ | skip
  cases b <;> simp [appendInterleave, Verif.appendInterleave, CPat.plain, Sim, plainPats_eq]

theorem joinChoice_sim (a b : CPat) : Sim CPat.plain (joinChoice a b) (Verif.joinChoice a.plain b.plain) := by
  cases a <;> first | exact appendChoice_sim (.choice _) b | rfl

theorem joinInterleave_sim (a b : CPat) : Sim CPat.plain (joinInterleave a b) (Verif.joinInterleave a.plain b.plain) := by
  cases a <;> first | exact appendInterleave_sim (.interleave _) b | rfl

theorem merge1_sim (name : Str) (a b : CRule) : Sim CRule.plain (merge1 name a b) (Verif.merge1 name a.plain b.plain) := by
  cases a with
  | assignCombine s c p =>
    cases b with
    | assignCombine s' c' p' => cases c with
      | none => exact sim_err _
      | some c => cases c <;> exact sim_err _
    | combineOnly s' c' p' =>
      cases c with
      | none => cases c' with
        | choice => exact sim_bind (joinChoice_sim p p') fun q _ => rfl
        | interleave => exact sim_bind (joinInterleave_sim p p') fun q _ => rfl
      | some c => cases c <;> cases c' <;> first
          | exact sim_err _
          | exact sim_bind (joinChoice_sim p p') fun q _ => rfl
          | exact sim_bind (joinInterleave_sim p p') fun q _ => rfl
  | combineOnly s c p =>
    cases b with
    | assignCombine s' c' p' => cases c' with
      | none => cases c with
        | choice => exact sim_bind (joinChoice_sim p p') fun q _ => rfl
        | interleave => exact sim_bind (joinInterleave_sim p p') fun q _ => rfl
      | some c' => cases c <;> cases c' <;> first
          | exact sim_err _
          | exact sim_bind (joinChoice_sim p p') fun q _ => rfl
          | exact sim_bind (joinInterleave_sim p p') fun q _ => rfl
    | combineOnly s' c' p' => cases c <;> cases c' <;> first
          | exact sim_err _
          | exact sim_bind (appendChoice_sim p p') fun q _ => rfl
          | exact sim_bind (appendInterleave_sim p p') fun q _ => rfl

theorem merge_sim (name : Str) (a b : Option CRule) :
    Sim (Option.map CRule.plain) (merge name a b) (Verif.merge name (a.map CRule.plain) (b.map CRule.plain)) := by
  cases a <;> cases b <;> first
    | rfl
    | exact sim_bind (merge1_sim name _ _) fun r _ => rfl

theorem pattern_plain (r : CRule) : r.plain.pattern = r.pattern.plain := by cases r <;> rfl

namespace LState
variable (st : LState)

theorem refs_plain (s : Nat) : st.plain.refs s = st.refs s := rfl

theorem cell_plain (k : Nat) : st.plain.cell k = (st.cell k).map CRule.plain := by
  simp only [CState.cell, plain, cell, List.getD, List.getElem?_map]
  cases st.cells[k]? with
  | none => rfl
  | some o => rfl

theorem ov_plain (o : Nat) : st.plain.ov o = (st.ov o).map plainOv := by
  simp only [CState.ov, plain, ov, List.getD, List.getElem?_map]
  cases st.overrides[o]? with
  | none => rfl
  | some o => rfl

theorem addCell_plain (s : Nat) (id : Str) (r : Option CRule) : (st.addCell s id r).plain = st.plain.addCell s id (r.map CRule.plain) := by
  simp [addCell, plain, CState.addCell, refs, CState.refs]
end LState

theorem ov_lookup (l : List (Str × Span × Bool)) (id : Str) : ((l.map plainOv).lookup id) = (l.lookup id).map (·.2) := lookup_map _ l id

theorem defineIn_sim (s : Nat) (id : Str) (r : CRule) : SimM (fun u : Unit => u) (defineIn s id r) (Verif.defineIn s id r.plain) := by
  intro st
  simp only [defineIn, Verif.defineIn, LState.refs_plain]
  cases hk : (st.refs s).lookup id with
  | some k =>
    simp only []
    have h := merge_sim id (st.cell k) (some r)
    rw [LState.cell_plain]
    cases hm : merge id (st.cell k) (some r) with
    | ok r' =>
      rw [hm] at h
      rw [show Verif.merge id ((st.cell k).map CRule.plain) (some r.plain) = .ok (r'.map CRule.plain) from h]
      simp [Sim, LState.plain, List.map_set]
    | error e =>
      rw [hm] at h
      refine Sim.error h fun e' he => ?_
      rw [show Verif.merge id ((st.cell k).map CRule.plain) (some r.plain) = .error e' from he]
  | none => simp [Sim, LState.addCell_plain]

theorem markOverride_plain (id : Str) (l : List (Str × Span × Bool)) :
    (markOverride id l).map plainOv = Verif.markOverride id (l.map plainOv) := by
  induction l with
  | nil => rfl
  | cons o l ih =>
    obtain ⟨n, s, b⟩ := o
    simp only [markOverride, List.map_cons, plainOv, Verif.markOverride]
    split
    · rfl
    · rw [List.map_cons, ih]; rfl

theorem defineRule_incl (p : LCtx) (f : Str) (o : Nat) (ns dts : List (Str × Str)) (id : Str) (r : CRule)
    (h : SimM (fun u : Unit => u) (p.defineRule id r) (p.plain.defineRule id r.plain)) :
    SimM (fun u : Unit => u) ((LCtx.incl p f o ns dts).defineRule id r) ((LCtx.incl p f o ns dts).plain.defineRule id r.plain) := by
  intro st
  have h := h st
  show Sim _ (if ((st.ov o).lookup id).isSome then
      .ok ((), { st with overrides := st.overrides.set o (markOverride id (st.ov o)) })
    else p.defineRule id r st) (if ((st.plain.ov o).lookup id).isSome then
      .ok ((), { st.plain with overrides := st.plain.overrides.set o (Verif.markOverride id (st.plain.ov o)) })
    else p.plain.defineRule id r.plain st.plain)
  rw [LState.ov_plain, ov_lookup, Option.isSome_map]
  cases ((st.ov o).lookup id).isSome with
  | true =>
    show Except.ok _ = Except.ok _
    simp only [LState.plain, List.map_set, markOverride_plain]
  | false => exact h

theorem defineRule_over (p : LCtx) (f : Str) (o : Nat) (ns dts : List (Str × Str)) (id : Str) (r : CRule)
    (h : SimM (fun u : Unit => u) (p.defineRule id r) (p.plain.defineRule id r.plain)) :
    SimM (fun u : Unit => u) ((LCtx.inclOverrides (.incl p f o ns dts)).defineRule id r)
      ((LCtx.inclOverrides (.incl p f o ns dts)).plain.defineRule id r.plain) := by
  intro st
  have h := h { st with overrides := st.overrides.set o ((id, r.at_, false) :: st.ov o) }
  show Sim _ (if ((st.ov o).lookup id).isSome then .error (.panic .redefinedOverride)
    else p.defineRule id r { st with overrides := st.overrides.set o ((id, r.at_, false) :: st.ov o) })
    (if ((st.plain.ov o).lookup id).isSome then .error (.panic .redefinedOverride)
    else p.plain.defineRule id r.plain { st.plain with overrides := st.plain.overrides.set o ((id, false) :: st.plain.ov o) })
  have e : LState.plain { st with overrides := st.overrides.set o ((id, r.at_, false) :: st.ov o) } =
      { st.plain with overrides := st.plain.overrides.set o ((id, false) :: st.plain.ov o) } := by
    simp only [LState.ov_plain]
    simp only [LState.plain, List.map_set, plainOv, List.map_cons]
  rw [e] at h
  rw [show ((st.plain.ov o).lookup id).isSome = ((st.ov o).lookup id).isSome by rw [LState.ov_plain, ov_lookup, Option.isSome_map]]
  cases ((st.ov o).lookup id).isSome with
  | true => exact sim_panic _
  | false => exact h

theorem defineRule_sim : ∀ (c : LCtx) (id : Str) (r : CRule), SimM (fun u : Unit => u) (c.defineRule id r) (c.plain.defineRule id r.plain)
  | .root _ s _ _, id, r => defineIn_sim s id r
  | .grammar _ s, id, r => defineIn_sim s id r
  | .incl p f o ns dts, id, r => defineRule_incl p f o ns dts id r (defineRule_sim p id r)
  | .inclOverrides (.incl p f o ns dts), id, r => defineRule_over p f o ns dts id r (defineRule_sim p id r)
  | .inclOverrides (.root _ _ _ _), _, _ => simM_panic _
  | .inclOverrides (.inclOverrides _), _, _ => simM_panic _
  | .inclOverrides (.grammar _ _), _, _ => simM_panic _
  | .inclOverrides (.define _ _ _), _, _ => simM_panic _
  | .inclOverrides (.element _), _, _ => simM_panic _
  | .inclOverrides (.attribute _ _), _, _ => simM_panic _
  | .define _ _ _, _, _ => simM_panic _
  | .element _, _, _ => simM_panic _
  | .attribute _ _, _, _ => simM_panic _

theorem acquireRefImpl_sim (c : LCtx) (i : Str) : SimM id (c.acquireRefImpl i) (c.plain.acquireRefImpl i) := by
  have h0 : ∀ s, SimM id (LCtx.acquireRefImpl.acquireIn s i) (SCtx.acquireRefImpl.acquireIn s i) := by
    intro s st
    simp only [LCtx.acquireRefImpl.acquireIn, SCtx.acquireRefImpl.acquireIn, LState.refs_plain]
    cases (st.refs s).lookup i with
    | some k => rfl
    | none =>
      show Except.ok _ = Except.ok _
      simp only [LState.addCell_plain]
      simp [LState.plain]
  induction c with
  | root f s => exact h0 s
  | grammar p s ih => exact h0 s
  | incl p f o ns dts ih => exact ih
  | inclOverrides p ih => exact ih
  | define p r id ih => exact ih
  | element p ih => exact ih
  | «attribute» p s ih => exact ih

variable {size : Str → Nat}

theorem acquireRef_sim (c : LCtx) (hc : c.HasFile) (r : Rg) (i : Str) : SimM id (c.acquireRef size r i) (c.plain.acquireRef i) :=
  simM_bind (simM_lift (LCtx.checkRefRecursion_sim c hc r i)) fun _ => acquireRefImpl_sim c i

/-- all contexts around one have a file -/
def LCtx.HasFiles : LCtx → Prop
  | .root _ _ _ _ => True
  | .incl p _ _ _ _ => p.HasFiles
  | .inclOverrides p => p.HasFiles ∧ ∃ q f o ns dts, p = .incl q f o ns dts
  | .grammar p _ => p.HasFiles
  | .define p _ _ => p.HasFiles
  | .element p => p.HasFiles
  | .attribute p _ => p.HasFiles

theorem LCtx.HasFiles.hasFile : ∀ {c : LCtx}, c.HasFiles → c.HasFile
  | .root f _ _ _, _ => ⟨f, rfl⟩
  | .incl _ f _ _ _, _ => ⟨f, rfl⟩
  | .inclOverrides (.incl p _ _ _ _), h => h.1.hasFile (c := p)
  | .inclOverrides (.root _ _ _ _), h => by obtain ⟨_, _, _, _, _, _, h⟩ := h; cases h
  | .inclOverrides (.inclOverrides _), h => by obtain ⟨_, _, _, _, _, _, h⟩ := h; cases h
  | .inclOverrides (.grammar _ _), h => by obtain ⟨_, _, _, _, _, _, h⟩ := h; cases h
  | .inclOverrides (.define _ _ _), h => by obtain ⟨_, _, _, _, _, _, h⟩ := h; cases h
  | .inclOverrides (.element _), h => by obtain ⟨_, _, _, _, _, _, h⟩ := h; cases h
  | .inclOverrides (.attribute _ _), h => by obtain ⟨_, _, _, _, _, _, h⟩ := h; cases h
  | .grammar p _, h => LCtx.HasFiles.hasFile (c := p) h
  | .define p _ _, h => LCtx.HasFiles.hasFile (c := p) h
  | .element p, h => LCtx.HasFiles.hasFile (c := p) h
  | .attribute p _, h => LCtx.HasFiles.hasFile (c := p) h

theorem acquireParentRef_sim (c : LCtx) (hc : c.HasFiles) (r : Rg) (i : Str) :
    SimM id (c.acquireParentRef size r i) (c.plain.acquireParentRef i) := by
  induction c with
  | root f s ns dts =>
    intro st
    show Sim _ (LM.bind _ _ st) _
    rcases LCtx.convert_cases (size := size) (c := .root f s ns dts) ⟨f, rfl⟩ r true with ⟨g, _, h1, _⟩ | h1
    · rw [h1]; exact sim_err _
    · rw [h1]; exact ⟨nofun, fun _ => ⟨_, rfl⟩⟩
  | grammar p s ih => exact acquireRef_sim p (LCtx.HasFiles.hasFile (c := p) hc) r i
  | incl p f o ns dts ih => exact ih hc
  | inclOverrides p ih => exact ih hc.1
  | define p r id ih => exact ih hc
  | element p ih => exact ih hc
  | «attribute» p s ih => exact ih hc

/-! ### patterns -/

theorem groupMembers_plain (p : CPat) : Verif.groupMembers p.plain = (groupMembers p).map CPat.plain := by
  cases p <;> simp [groupMembers, Verif.groupMembers, CPat.plain, plainPats_eq]

theorem interleaveMembers_plain (p : CPat) : Verif.interleaveMembers p.plain = (interleaveMembers p).map CPat.plain := by
  cases p <;> simp [interleaveMembers, Verif.interleaveMembers, CPat.plain, plainPats_eq]

theorem choiceMembers_plain (p : CPat) : Verif.choiceMembers p.plain = (choiceMembers p).map CPat.plain := by
  cases p <;> simp [choiceMembers, Verif.choiceMembers, CPat.plain, plainPats_eq]

section
variable (F : LFiles) (x : Ext)

theorem getSchema_sim (name : Str) : SimM LSchema.plain (getSchema F name) (Verif.getSchema F.plain name) := by
  intro st
  have e : st.plain.loaded.lookup name = (st.loaded.lookup name).map LSchema.plain := lookup_map _ _ _
  simp only [getSchema, Verif.getSchema, e]
  cases st.loaded.lookup name with
  | some s => rfl
  | none =>
    simp only [Option.map_none, LFiles.plain]
    cases F.load name with
    | ok s => rfl
    | error e => exact sim_err _

theorem includePath_sim (c : LCtx) (lit : Str) : Sim id (includePath F c lit) (Verif.includePath F.plain c.plain lit) := by
  simp only [includePath, Verif.includePath, LCtx.file_plain]
  cases c.file with
  | none => exact sim_panic _
  | some f =>
    simp only [LFiles.plain]
    cases F.join f lit with
    | some p => rfl
    | none => exact sim_panic _

theorem newInclude_sim (c : LCtx) (s : Span) (g : Str) : SimM LCtx.plain (newInclude c s g) (Verif.newInclude c.plain g) := by
  intro st
  have h := LCtx.checkInclude_sim c s g
  simp only [newInclude, Verif.newInclude]
  cases hc : c.checkInclude s g with
  | ok u =>
    rw [hc] at h
    rw [show c.plain.checkInclude g = .ok u from h]
    simp [Sim, LCtx.plain, LState.plain]
  | error e =>
    rw [hc] at h
    exact h.error fun e' he => by rw [he]

theorem newGrammar_sim (c : LCtx) : SimM LCtx.plain (newGrammar c) (Verif.newGrammar c.plain) := by
  intro st
  simp [newGrammar, Verif.newGrammar, Sim, LCtx.plain, LState.plain]

theorem ruleOf_plain (s : Span) (how : AssignMethod) (q : CPat) : (ruleOf s how q).plain = Verif.ruleOf how q.plain := by
  cases how <;> rfl

/-- `cp` compiles patterns as `cp'` does, and `ci` grammar contents as `ci'` -/
def SimP (cp : LCtx → LPat → LM CPat) (cp' : SCtx → SPattern → CM MPattern) : Prop :=
  ∀ c p, c.HasFiles → SimM CPat.plain (cp c p) (cp' c.plain p.plain)

def SimI (ci : LCtx → LItem → LM Unit) (ci' : SCtx → SItem → CM Unit) : Prop :=
  ∀ c i, c.HasFiles → SimM (fun u : Unit => u) (ci c i) (ci' c.plain i.plain)

variable {F} {cp : LCtx → LPat → LM CPat} {cp' : SCtx → SPattern → CM MPattern} {ci : LCtx → LItem → LM Unit}
  {ci' : SCtx → SItem → CM Unit} (hp : SimP cp cp') (hi : SimI ci ci')

include hp in
theorem compileDefine_sim (c : LCtx) (hc : c.HasFiles) (r : Rg) (id : Str) (how : AssignMethod) (body : LPat) :
    SimM (fun u : Unit => u) (compileDefine F cp c r id how body) (Verif.compileDefine cp' c.plain id how body.plain) := by
  refine simM_bind (hp (.define c r id) body hc) fun q => ?_
  refine simM_convert hc.hasFile r fun s => ?_
  rw [← ruleOf_plain s]
  exact defineRule_sim c id _

include hi in
theorem compileContents_sim (c : LCtx) (hc : c.HasFiles) (is : List LItem) :
    SimM (fun u : Unit => u) (compileContents ci c is) (Verif.compileContents ci' c.plain (plainItems is)) := by
  induction is with
  | nil => exact simM_pure ()
  | cons i is ih => exact simM_bind (hi c i hc) fun _ => ih

/-- what the declarations leave as it is -/
theorem declare_keeps {c c' : LCtx} {ds : List SDecl} (h : compileDeclarations c ds = .ok c') :
    (c.HasFiles → c'.HasFiles) ∧ c'.file = c.file ∧ ((∃ p f o ns dts, c = .incl p f o ns dts) ↔ ∃ p f o ns dts, c' = .incl p f o ns dts) := by
  have h1 : ∀ {c c' : LCtx} {p u : Str}, c.declareNamespace p u = .ok c' →
      (c.HasFiles → c'.HasFiles) ∧ c'.file = c.file ∧ ((∃ p f o ns dts, c = .incl p f o ns dts) ↔ ∃ p f o ns dts, c' = .incl p f o ns dts) := by
    intro c c' p u h
    cases c <;> simp only [LCtx.declareNamespace] at h <;> (try cases h)
    · split <;> simp [LCtx.HasFiles, LCtx.file]
    · split <;> simp [LCtx.HasFiles, LCtx.file]
  have h2 : ∀ {c c' : LCtx} {p u : Str}, c.declareDatatype p u = .ok c' →
      (c.HasFiles → c'.HasFiles) ∧ c'.file = c.file ∧ ((∃ p f o ns dts, c = .incl p f o ns dts) ↔ ∃ p f o ns dts, c' = .incl p f o ns dts) := by
    intro c c' p u h
    cases c <;> simp only [LCtx.declareDatatype] at h <;> (try cases h)
    · split at h <;> cases h; simp [LCtx.HasFiles, LCtx.file]
    · split at h <;> cases h; simp [LCtx.HasFiles, LCtx.file]
  induction ds generalizing c with
  | nil => cases h; exact ⟨fun h => h, rfl, Iff.rfl⟩
  | cons d ds ih =>
    simp only [compileDeclarations, Bind.bind, Except.bind] at h
    split at h
    · cases h
    · next c1 hd =>
      have ih := ih h
      have h3 : (c.HasFiles → c1.HasFiles) ∧ c1.file = c.file ∧ ((∃ p f o ns dts, c = .incl p f o ns dts) ↔ ∃ p f o ns dts, c1 = .incl p f o ns dts) := by
        cases d with
        | «namespace» p u =>
          cases u with
          | none => cases hd
          | some u => exact h1 hd
        | defaultNamespace p u =>
          cases u with
          | none => cases p <;> cases hd
          | some u =>
            cases p with
            | none => cases hd; exact ⟨fun h => h, rfl, Iff.rfl⟩
            | some p => exact h1 hd
        | datatypes p u => exact h2 hd
      exact ⟨fun h => ih.1 (h3.1 h), ih.2.1.trans h3.2.1, h3.2.2.trans ih.2.2⟩

include hp hi in
theorem compileSchema_sim (c : LCtx) (hc : c.HasFiles) (s : LSchema) :
    SimM (fun u : Unit => u) (compileSchema F cp ci c s) (Verif.compileSchema cp' ci' c.plain s.plain) := by
  obtain ⟨ds, b⟩ := s
  refine simM_bind' (P := fun c' => c'.HasFiles) (simM_lift (compileDeclarations_sim ds c)) ?_ fun c' hc' => ?_
  · intro st a st' h
    cases hd : compileDeclarations c ds with
    | ok c1 => rw [hd] at h; cases h; exact (declare_keeps hd).1 hc
    | error e => rw [hd] at h; cases h
  cases b with
  | grammar is => exact compileContents_sim hi c' hc' is
  | pattern p =>
    simp only [LSchema.plain, LBody.plain]
    have hns : SimM (fun u : Unit => u) (do
          let rule ← cp c' p
          let at_ ← LM.lift (c'.convert F.size ⟨0, 0⟩)
          c'.defineRule "start".toList (.assignCombine at_ none rule))
        (do
          let rule ← cp' c'.plain p.plain
          c'.plain.defineRule "start".toList (.assignCombine none rule)) :=
      simM_bind (hp c' p hc') fun q => simM_convert hc'.hasFile _ fun s => defineRule_sim c' _ (.assignCombine s none q)
    cases c' with
    | incl q f o ns dts =>
      have key : ∀ s, SimM (fun u : Unit => u) (LM.fail (.err (.includedFileMustBeGrammar s)) : LM Unit)
          (CM.fail (.err .includedFileMustBeGrammar)) := fun s => simM_err _
      cases p with
      | grammar r is => exact compileContents_sim hi _ hc' is
      | _ => exact simM_convert hc'.hasFile _ key
    | _ => exact hns

include hp in
theorem compileOverrides_sim (s : Span) (c : LCtx) (hc : c.HasFiles) (os : List LOverride) :
    SimM (fun u : Unit => u) (compileOverrides F cp s c os) (Verif.compileOverrides cp' c.plain (plainOverrides os)) := by
  induction os with
  | nil => exact simM_pure ()
  | cons o os ih =>
    cases o with
    | define r id how body => exact simM_bind (simM_inInclude s (compileDefine_sim hp c hc r id how body)) fun _ => ih
    | div => exact simM_bind (g := fun u : Unit => u) (simM_panic (f := fun u : Unit => u) _) fun _ => ih
    | «annotation» => exact simM_bind (simM_pure (f := fun u : Unit => u) ()) fun _ => ih

theorem checkOvs_sim (s : Span) (o : Nat) : SimM (fun u : Unit => u) (checkOvs s o) (Verif.checkOvs o) := by
  intro st
  have h : ∀ l : List (Str × Span × Bool), Sim (fun u : Unit => u) (checkOverrides s l) (Verif.checkOverrides (l.map plainOv)) := by
    intro l
    induction l with
    | nil => rfl
    | cons o l ih =>
      obtain ⟨n, s', b⟩ := o
      simp only [checkOverrides, List.map_cons, plainOv, Verif.checkOverrides]
      split
      · exact ih
      · exact sim_err _
  have h := h (st.ov o)
  simp only [checkOvs, Verif.checkOvs, LState.ov_plain]
  cases hc : checkOverrides s (st.ov o) with
  | ok u => rw [hc] at h; rw [show Verif.checkOverrides _ = _ from h]; rfl
  | error e => rw [hc] at h; exact h.error fun e' he => by rw [he]

theorem inheritNs_sim (c : LCtx) (hc : c.HasFiles) (inc : LCtx) (i : Option (Rg × Str)) :
    Sim LCtx.plain (inheritNs F c inc i) (Verif.inheritNs c.plain inc.plain (i.map (·.2))) := by
  cases i with
  | none => rfl
  | some i =>
    obtain ⟨r, pre⟩ := i
    simp only [inheritNs, Option.map_some, Verif.inheritNs, LCtx.nsUri_plain]
    cases c.nsUri pre with
    | none => exact sim_convert hc.hasFile _ fun s => sim_err _
    | some u => exact LCtx.declareNamespace_sim inc pre _

/-- what an include's context looks like -/
def InclOf (c inc : LCtx) : Prop := ∃ f o ns dts, inc = .incl c f o ns dts

theorem newInclude_is {c inc : LCtx} {s : Span} {g : Str} {st st' : LState} (h : newInclude c s g st = .ok (inc, st')) :
    inc = .incl c g st.overrides.length [("xml".toList, xmlNs)] [("xsd".toList, xsdUri)] ∧ c.checkInclude s g = .ok () := by
  simp only [newInclude] at h
  split at h
  · cases h
  · next h' => cases h; exact ⟨rfl, h'⟩

theorem newInclude_isIncl {c inc : LCtx} {s : Span} {g : Str} {st st' : LState} (h : newInclude c s g st = .ok (inc, st')) : InclOf c inc :=
  ⟨_, _, _, _, (newInclude_is h).1⟩

theorem inheritNs_is {c d inc inc' : LCtx} {i : Option (Rg × Str)} (hi : InclOf d inc) (h : inheritNs F c inc i = .ok inc') :
    InclOf d inc' ∧ inc'.file = inc.file := by
  cases i with
  | none => cases h; exact ⟨hi, rfl⟩
  | some i =>
    obtain ⟨r, pre⟩ := i
    simp only [inheritNs] at h
    split at h
    · simp only [Bind.bind, Except.bind] at h
      split at h <;> cases h
    · obtain ⟨f, o, ns, dts, rfl⟩ := hi
      simp only [LCtx.declareNamespace] at h
      cases h
      split
      · exact ⟨⟨_, _, _, _, rfl⟩, rfl⟩
      · exact ⟨⟨_, _, _, _, rfl⟩, rfl⟩

include hp hi in
theorem compileInclude_sim (c : LCtx) (hc : c.HasFiles) (r : Rg) (lit : Str) (inh : Option (Rg × Str)) (os : List LOverride) :
    SimM (fun u : Unit => u) (compileInclude F cp ci c r lit inh os)
      (Verif.compileInclude F.plain cp' ci' c.plain lit (inh.map (·.2)) (plainOverrides os)) := by
  refine simM_bind (simM_lift (includePath_sim F c lit)) fun path => ?_
  refine simM_convert hc.hasFile r fun s => ?_
  refine simM_bind (simM_inInclude s (getSchema_sim F path)) fun sch => ?_
  refine simM_bind' (P := InclOf c) (newInclude_sim c s path) (fun _ _ _ h => newInclude_isIncl h) fun inc hinc => ?_
  refine simM_bind' (P := InclOf c) (simM_lift (inheritNs_sim c hc inc inh)) (fun st a st' h => ?_) fun inc' hinc' => ?_
  · cases hd : inheritNs F c inc inh with
    | ok c1 => rw [hd] at h; cases h; exact (inheritNs_is hinc hd).1
    | error e => rw [hd] at h; cases h
  obtain ⟨f, o, ns, dts, rfl⟩ := hinc'
  have h1 : (LCtx.incl c f o ns dts).HasFiles := hc
  refine simM_bind (compileOverrides_sim hp s (.inclOverrides (.incl c f o ns dts)) ⟨h1, _, _, _, _, _, rfl⟩ os) fun _ => ?_
  refine simM_bind (simM_inInclude s (compileSchema_sim hp hi _ h1 sch)) fun _ => ?_
  exact checkOvs_sim _ o

theorem takeStart_sim (s : Except LFault Span) (hs : (∃ s', s = .ok s') ∨ s = .error (.subspan true)) (scope : Nat) : SimM CPat.plain (takeStart s scope) (Verif.takeStart scope) := by
  intro st
  simp only [takeStart, Verif.takeStart, LState.refs_plain]
  cases (st.refs scope).lookup "start".toList with
  | none =>
    rcases hs with ⟨s', rfl⟩ | rfl
    · exact sim_err _
    · exact ⟨nofun, fun _ => ⟨_, rfl⟩⟩
  | some k =>
    simp only [LState.cell_plain]
    cases st.cell k with
    | none =>
      rcases hs with ⟨s', rfl⟩ | rfl
      · exact sim_err _
      · exact ⟨nofun, fun _ => ⟨_, rfl⟩⟩
    | some r => simp [Sim, pattern_plain, LState.plain, List.map_set]

theorem checkDefined_sim (st : LState) (s : Span) (l : List (Str × Nat)) :
    Sim (fun u : Unit => u) (checkDefined st s l) (Verif.checkDefined st.plain l) := by
  induction l with
  | nil => rfl
  | cons p l ih =>
    obtain ⟨n, k⟩ := p
    simp only [checkDefined, Verif.checkDefined, LState.cell_plain]
    cases st.cell k with
    | none => exact sim_err _
    | some r => exact ih

theorem checkScope_sim (s : Span) (scope : Nat) : SimM (fun u : Unit => u) (checkScope s scope) (Verif.checkScope scope) := by
  intro st
  have h := checkDefined_sim st s (st.refs scope)
  simp only [checkScope, Verif.checkScope, LState.refs_plain]
  cases hc : checkDefined st s (st.refs scope) with
  | ok u => rw [hc] at h; rw [show Verif.checkDefined _ _ = _ from h]; rfl
  | error e => rw [hc] at h; exact h.error fun e' he => by rw [he]

include hp hi in
theorem compileExternal_sim (c : LCtx) (hc : c.HasFiles) (r : Rg) (lit : Str) (inh : Option Str) :
    SimM CPat.plain (compileExternal F cp ci c r lit inh) (Verif.compileExternal F.plain cp' ci' c.plain lit inh) := by
  cases inh with
  | some i => exact simM_panic _
  | none =>
    refine simM_bind (simM_lift (includePath_sim F c lit)) fun path => ?_
    refine simM_convert hc.hasFile r fun s => ?_
    refine simM_bind (simM_inInclude s (getSchema_sim F path)) fun sch => ?_
    refine simM_bind' (P := InclOf c) (newInclude_sim c s path) (fun _ _ _ h => newInclude_isIncl h) fun inc hinc => ?_
    obtain ⟨f, o, ns, dts, rfl⟩ := hinc
    obtain ⟨ds, b⟩ := sch
    cases b with
    | pattern p => exact simM_inInclude s (hp (.incl c f o ns dts) p hc)
    | grammar is =>
      refine simM_bind' (P := fun g => ∃ k, g = LCtx.grammar c k) (newGrammar_sim c) (fun st a st' h => by cases h; exact ⟨_, rfl⟩) fun g hg => ?_
      obtain ⟨k, rfl⟩ := hg
      refine simM_bind (compileContents_sim hi (.grammar c k) hc is) fun _ => ?_
      refine simM_convert (LCtx.HasFiles.hasFile (c := .grammar c k) hc) _ fun z => ?_
      refine simM_bind (checkScope_sim z k) fun _ => ?_
      exact takeStart_sim _ (.inl ⟨_, rfl⟩) k

include hi in
theorem compileGrammarPattern_sim (c : LCtx) (hc : c.HasFiles) (r : Rg) (is : List LItem) :
    SimM CPat.plain (compileGrammarPattern F ci c r is) (Verif.compileGrammarPattern ci' c.plain (plainItems is)) := by
  refine simM_bind' (P := fun g => ∃ k, g = LCtx.grammar c k) (newGrammar_sim c) (fun st a st' h => by cases h; exact ⟨_, rfl⟩) fun g hg => ?_
  obtain ⟨k, rfl⟩ := hg
  refine simM_bind (compileContents_sim hi (.grammar c k) hc is) fun _ => ?_
  refine takeStart_sim _ ?_ k
  rcases LCtx.convert_cases (size := F.size) hc.hasFile r true with ⟨f, _, h, _⟩ | h
  · exact .inl ⟨_, h⟩
  · exact .inr h
end

theorem datatypeValue_sim (c : LCtx) (hc : c.HasFile) (ty : LDtName) (lit : Str) :
    Sim id (datatypeValue size c ty lit) (do let name ← c.plain.dtName ty.plain; Verif.dtRes (datatypeValueOf name lit)) :=
  sim_bind (LCtx.dtName_sim c hc ty) fun _ _ => dtRes_sim hc _ _

theorem datatypeName_sim (x : Ext) (c : LCtx) (hc : c.HasFile) (ty : LDtName) (ps : List LParam) :
    Sim id (datatypeName size x c ty ps)
      (do let name ← c.plain.dtName ty.plain; Verif.dtRes (datatypeNameOf x name (ps.map LParam.plain))) :=
  sim_bind (LCtx.dtName_sim c hc ty) fun _ _ => dtRes_sim hc _ _

/-- two results without state, one after the other -/
theorem lift_bind {α β γ : Type} (a : Except CFault α) (b : α → Except CFault β) (k : β → CM γ) :
    (do let x ← CM.lift a; let y ← CM.lift (b x); k y) = (do let y ← CM.lift (do let x ← a; b x); k y : CM γ) := by
  funext st
  cases a <;> rfl

mutual
theorem compilePattern_sim (F : LFiles) (x : Ext) : ∀ n, SimP (compilePattern F x n) (Verif.compilePattern F.plain x n)
  | 0, _, _, _ => fun _ => sim_fuel
  | n + 1, c, pat, hc => by
    have hp := compilePattern_sim F x n
    have hi := compileItem_sim F x n
    have hf := hc.hasFile
    cases pat with
    | element r nc p =>
      refine simM_bind (simM_lift (compileNameclass_sim hf true nc)) fun nc' => ?_
      refine simM_convert hf r fun s => ?_
      rw [LCtx.parentAttribute_plain]
      cases h : c.parentAttribute with
      | some a => exact simM_err (f := CPat.plain) (.elementAsChildOfAttribute a s)
      | none => exact simM_bind (hp (.element c) p hc) fun q => simM_pure _
    | «attribute» r nc p =>
      refine simM_bind (simM_lift (compileNameclass_sim hf false nc)) fun nc' => ?_
      refine simM_convert hf r fun s => ?_
      exact simM_bind (hp (.attribute c s) p hc) fun q => simM_pure _
    | list p => exact simM_bind (hp c p hc) fun q => simM_pure _
    | mixed p => exact simM_bind (hp c p hc) fun q => simM_pure _
    | ident r i =>
      refine simM_convert hf r fun s => ?_
      exact simM_bind (acquireRef_sim c hf r i) fun k => simM_pure _
    | parent r i =>
      refine simM_convert hf r fun s => ?_
      exact simM_bind (acquireParentRef_sim c hc r i) fun k => simM_pure _
    | empty => exact simM_pure _
    | text => exact simM_pure _
    | notAllowed => exact simM_pure _
    | external r path i => exact compileExternal_sim hp hi c hc r path i
    | grammar r is => exact compileGrammarPattern_sim hi c hc r is
    | paren p => exact hp c p hc
    | seq a b =>
      refine simM_bind (hp c a hc) fun q => simM_bind (hp c b hc) fun q' => ?_
      have := simM_pure (f := CPat.plain) (.group (groupMembers q ++ groupMembers q'))
      rw [CPat.plain, plainPats_eq, List.map_append, ← groupMembers_plain, ← groupMembers_plain] at this
      exact this
    | inter a b =>
      refine simM_bind (hp c a hc) fun q => simM_bind (hp c b hc) fun q' => ?_
      have := simM_pure (f := CPat.plain) (.interleave (interleaveMembers q ++ interleaveMembers q'))
      rw [CPat.plain, plainPats_eq, List.map_append, ← interleaveMembers_plain, ← interleaveMembers_plain] at this
      exact this
    | choice a b =>
      refine simM_bind (hp c a hc) fun q => simM_bind (hp c b hc) fun q' => ?_
      have := simM_pure (f := CPat.plain) (.choice (choiceMembers q ++ choiceMembers q'))
      rw [CPat.plain, plainPats_eq, List.map_append, ← choiceMembers_plain, ← choiceMembers_plain] at this
      exact this
    | «optional» p => exact simM_bind (hp c p hc) fun q => simM_pure _
    | zeroOrMore p => exact simM_bind (hp c p hc) fun q => simM_pure _
    | oneOrMore p => exact simM_bind (hp c p hc) fun q => simM_pure _
    | value ty lit =>
      have h := simM_bind (g := CPat.plain) (simM_lift (datatypeValue_sim (size := F.size) c hf (ty.getD .token) lit))
        (k := fun v => pure (.datatypeValue v)) (k' := fun v => pure (.datatypeValue v)) fun v => simM_pure _
      rw [← lift_bind] at h
      have e : (Option.map LDtName.plain ty).getD .token = (ty.getD .token).plain := by cases ty <;> rfl
      simp only [LPat.plain, Verif.compilePattern, e]
      exact h
    | data ty ps =>
      have h := simM_bind (g := CPat.plain) (simM_lift (datatypeName_sim (size := F.size) x c hf ty ps))
        (k := fun v => pure (.datatypeName v)) (k' := fun v => pure (.datatypeName v)) fun v => simM_pure _
      rw [← lift_bind] at h
      simp only [LPat.plain, Verif.compilePattern]
      exact h
    | dataExcept ty ps ex =>
      have h := simM_bind (g := CPat.plain) (simM_lift (datatypeName_sim (size := F.size) x c hf ty ps))
        (k := fun v => do let e ← compilePattern F x n c ex; pure (.datatypeNameExcept v e))
        (k' := fun v => do let e ← Verif.compilePattern F.plain x n c.plain ex.plain; pure (.datatypeNameExcept v e))
        fun v => simM_bind (hp c ex hc) fun q => simM_pure _
      rw [← lift_bind] at h
      simp only [LPat.plain, Verif.compilePattern]
      exact h
theorem compileItem_sim (F : LFiles) (x : Ext) : ∀ n, SimI (compileItem F x n) (Verif.compileItem F.plain x n)
  | 0, _, _, _ => fun _ => sim_fuel
  | n + 1, c, i, hc => by
    have hp := compilePattern_sim F x n
    have hi := compileItem_sim F x n
    cases i with
    | define r id how body => exact compileDefine_sim hp c hc r id how body
    | div is => exact compileContents_sim hi c hc is
    | «include» r path inh os => exact compileInclude_sim hp hi c hc r path inh os
    | «annotation» => exact simM_pure ()
end

end Verif.At
