import Verif.Spec.Tool
import Verif.Proof.DiagRun
import Verif.Props.Diagnostic
/-
The command line tool.
-/
set_option linter.unusedSectionVars false
namespace Verif.Tool
open Verif Loc
variable {D V : Type} [DecidableEq D] [DecidableEq V] {L : Lib D V}

theorem runEvents_cons {n : Nat} {e : Loc.Event} {es : List Loc.Event} {s s' : Loc.State D V} {rs : List (Except Err Unit)}
    (h : Loc.runEvents L n (e :: es) s = .ok (rs, s')) : ∃ r s1 rs', Loc.validateEvent L n e s = .ok (r, s1) ∧
      Loc.runEvents L n es s1 = .ok (rs', s') ∧ rs = r :: rs' := by
  obtain ⟨r, s1, h1, h2⟩ := ST.bind_ok.mp h
  obtain ⟨rs', s2, h3, h4⟩ := ST.bind_ok.mp h2
  cases h4
  exact ⟨r, s1, rs', h1, h3, rfl⟩

theorem runEvents_of {n : Nat} {e : Loc.Event} {es : List Loc.Event} {s s1 s' : Loc.State D V} {r} {rs : List (Except Err Unit)}
    (h1 : Loc.validateEvent L n e s = .ok (r, s1)) (h2 : Loc.runEvents L n es s1 = .ok (rs, s')) :
    Loc.runEvents L n (e :: es) s = .ok (r :: rs, s') := by
  unfold Loc.runEvents
  rw [ST.bind_of_ok h1, ST.bind_of_ok h2]; rfl

theorem itemLoop_cons {n : Nat} {e : Loc.Event} {es : List Loc.Event} {s : Loc.State D V} : itemLoop L n (e :: es) s =
    match Loc.validateEvent L n e s with
    | .error f => .error f
    | .ok (.ok (), s1) => itemLoop L n es s1
    | .ok (.error err, s1) => .ok (some err, s1) := by
  conv => lhs; unfold itemLoop
  rw [ST.bind_run]
  cases Loc.validateEvent L n e s with
  | error f => rfl
  | ok r =>
    obtain ⟨r, s1⟩ := r
    cases r <;> rfl

theorem itemLoop_none {n : Nat} : ∀ {items : List Loc.Event} {s s' : Loc.State D V},
    itemLoop L n items s = .ok (none, s') ↔ Loc.runEvents L n items s = .ok (List.replicate items.length (.ok ()), s')
  | [], s, s' => by
    constructor <;> (intro h; cases h; rfl)
  | e :: es, s, s' => by
    rw [itemLoop_cons]
    constructor
    · intro h
      split at h
      · cases h
      · rename_i s1 h1; exact runEvents_of h1 (itemLoop_none.1 h)
      · cases h
    · intro h
      obtain ⟨r, s1, rs', h1, h2, h3⟩ := runEvents_cons h
      cases h3
      rw [h1]
      exact itemLoop_none.2 h2

theorem itemLoop_some {n : Nat} {e : Err} : ∀ {items : List Loc.Event} {s s' : Loc.State D V},
    itemLoop L n items s = .ok (some e, s') ↔ ∃ before x, RefusesAt L n s items before x e s'
  | [], s, s' => by
    constructor
    · intro h; cases h
    · rintro ⟨before, x, ⟨after, h⟩, _⟩; cases before <;> cases h
  | y :: es, s, s' => by
    rw [itemLoop_cons]
    constructor
    · intro h
      split at h
      · cases h
      · rename_i s1 h1
        obtain ⟨before, x, ⟨after, h2⟩, h3⟩ := itemLoop_some.1 h
        exact ⟨y :: before, x, ⟨after, by rw [h2]; rfl⟩, runEvents_of h1 h3⟩
      · rename_i err s1 h1
        cases h
        exact ⟨[], y, ⟨es, rfl⟩, runEvents_of h1 rfl⟩
    · rintro ⟨before, x, ⟨after, h⟩, h3⟩
      cases before with
      | nil =>
        cases h
        obtain ⟨r, s1, rs', h1, h2, h4⟩ := runEvents_cons h3
        cases h4; cases h2
        rw [h1]
      | cons b before =>
        cases h
        obtain ⟨r, s1, rs', h1, h2, h4⟩ := runEvents_cons h3
        cases h4
        rw [h1]
        exact itemLoop_some.2 ⟨before, x, ⟨after, rfl⟩, h2⟩

/-! ### the documents -/
section
variable {order : List (Pat D V) → List (Pat D V)} {emits : Str → List Diag → Bool} {fuel n : Nat} {env : Env D V} {start : Pattern D V}

theorem documents_accept {f : XmlFile} {rest : List XmlFile} (h : AcceptsFile L fuel n env start f) :
    documents L order emits fuel n env start (f :: rest) = documents L order emits fuel n env start rest := by
  cases f with
  | unreadable => exact h.elim
  | doc text items =>
    obtain ⟨s0, h1, s, h2⟩ := h
    conv => lhs; unfold documents
    simp only [h1, itemLoop_none.2 h2]

theorem documents_accepts {pre rest : List XmlFile} (h : ∀ f ∈ pre, AcceptsFile L fuel n env start f) :
    documents L order emits fuel n env start (pre ++ rest) = documents L order emits fuel n env start rest := by
  induction pre with
  | nil => rfl
  | cons f pre ih =>
    rw [List.cons_append, documents_accept (h f (.head _)), ih fun f hf => h f (.tail _ hf)]

/-- how the loop over the documents ends -/
theorem documents_cases (xmls : List XmlFile) :
    (documents L order emits fuel n env start xmls = .exit 0 ∧ ∀ f ∈ xmls, AcceptsFile L fuel n env start f) ∨
    (∃ pre text items rest s0 before x e s ds s', documents L order emits fuel n env start xmls = .exit 2 ∧ xmls = pre ++ .doc text items :: rest ∧
      (∀ f ∈ pre, AcceptsFile L fuel n env start f) ∧ Loc.newValidator env fuel start = .ok s0 ∧ RefusesAt L n s0 items before x e s ∧
      Loc.diagnostic order n text e s = .ok (some ds, s') ∧ emits text ds = true) ∨
    (∃ pre f rest, xmls = pre ++ f :: rest ∧ (∀ f ∈ pre, AcceptsFile L fuel n env start f) ∧ ¬ AcceptsFile L fuel n env start f) ∧
      (documents L order emits fuel n env start xmls = .panic ∨ documents L order emits fuel n env start xmls = .fuel) := by
  induction xmls with
  | nil => exact .inl ⟨rfl, nofun⟩
  | cons f rest ih =>
    by_cases hf : AcceptsFile L fuel n env start f
    · rw [documents_accept hf]
      rcases ih with ⟨h1, h2⟩ | ⟨pre, text, items, rest', s0, before, x, e, s, ds, s', h1, h2, h3, h4⟩ | ⟨⟨pre, f', rest', h1, h2, h3⟩, h4⟩
      · exact .inl ⟨h1, by simpa [hf] using h2⟩
      · exact .inr (.inl ⟨f :: pre, text, items, rest', s0, before, x, e, s, ds, s', h1, by rw [h2]; rfl, by simpa [hf] using h3, h4⟩)
      · exact .inr (.inr ⟨⟨f :: pre, f', rest', by rw [h1]; rfl, by simpa [hf] using h2, h3⟩, h4⟩)
    · cases f with
      | unreadable => exact .inr (.inr ⟨⟨[], _, rest, rfl, nofun, hf⟩, .inl rfl⟩)
      | doc text items =>
        refine Classical.byContradiction fun hno => ?_
        rw [not_or, not_or] at hno
        obtain ⟨_, hno2, hno3⟩ := hno
        apply hno3
        refine ⟨⟨[], _, rest, rfl, nofun, hf⟩, ?_⟩
        unfold documents
        cases h1 : Loc.newValidator env fuel start with
        | error f => cases f <;> simp
        | ok s0 =>
          cases h2 : itemLoop L n items s0 with
          | error f => simp only [h2]; cases f <;> simp
          | ok r =>
            obtain ⟨r, s⟩ := r
            cases r with
            | none => exact absurd ⟨s0, h1, s, itemLoop_none.1 h2⟩ hf
            | some e =>
              simp only [h2]
              cases h3 : Loc.diagnostic order n text e s with
              | error f => cases f <;> simp
              | ok r =>
                obtain ⟨r, s'⟩ := r
                cases r with
                | none => simp
                | some ds =>
                  cases h4 : emits text ds with
                  | false => simp [h4]
                  | true =>
                    obtain ⟨before, x, hx⟩ := itemLoop_some.1 h2
                    exact absurd ⟨[], text, items, rest, s0, before, x, e, s, ds, s', by unfold documents; simp only [h1, h2, h3, h4, if_true],
                      rfl, nofun, h1, hx, h3, h4⟩ hno2
end

/-! ### budgets -/

theorem fa_attsLoop' (n : Nat) : ∀ (as : List LAttr) (p : Nat), FA (Loc.attsLoop L n p as) (Loc.attsLoop L (n + 1) p as)
  | [], _ => FA.refl
  | a :: as, p => by
    simp only [Loc.attsLoop]
    exact (fa_attDeriv L a.plain n [] p).bind fun _ => FA.refl.bind fun _ => FA.ite FA.refl (fa_attsLoop' n as _)

theorem fa_closeElementStart' (n : Nat) (stack : List Elem) (evt : Loc.Token) (p : Pat D V) :
    FA (Loc.closeElementStart L n stack evt p) (Loc.closeElementStart L (n + 1) stack evt p) := by
  unfold Loc.closeElementStart
  cases Loc.currentElement stack with
  | none => exact FA.refl
  | some r =>
    cases r with
    | error e => exact FA.refl
    | ok nm =>
      refine (fa_startTagOpenDeriv _ n p).bind fun d => FA.refl.bind fun dp => FA.ite FA.refl ?_
      cases Loc.currentAttributes stack with
      | none => exact FA.refl
      | some r =>
        cases r with
        | error e => exact FA.refl
        | ok as =>
          refine (fa_attsLoop' n as d).bind fun r => ?_
          cases r with
          | error e => exact FA.refl
          | ok d2 =>
            exact FA.refl.bind fun p2 => FA.ite FA.refl ((fa_startTagCloseDeriv n d2).bind fun _ => FA.refl)

theorem FA.lift' {α : Type} {x y : SM D V α} (h : FA x y) : FA (Loc.liftS x) (Loc.liftS y) := by
  intro s
  simp only [Loc.liftS]
  rcases h s.store with h | h
  · simp [h]
  · rw [h]; exact Or.inr rfl

theorem fa_validate' (n : Nat) (t : Loc.Token) : FA (Loc.validate L n t) (Loc.validate L (n + 1) t) := by
  unfold Loc.validate
  refine FA.refl.bind fun s => FA.refl.bind fun p => ?_
  cases t with
  | text t =>
    simp only
    cases Loc.decodeText s.entities t with
    | error e => exact FA.refl
    | ok d => exact (FA.lift' (fa_textDeriv L n p d)).bind fun _ => FA.refl
  | cdata t _ => exact (FA.lift' (fa_textDeriv L n p t.s)).bind fun _ => FA.refl
  | elementEnd e sp =>
    cases e with
    | «open» => exact (FA.lift' (fa_closeElementStart' n _ _ p)).bind fun r => FA.refl
    | close a b => exact (FA.lift' (fa_endTagStep L n _ p)).bind fun r => FA.refl
    | empty =>
      refine (FA.lift' (fa_closeElementStart' n _ _ p)).bind fun r => ?_
      cases r with
      | error e => exact FA.refl
      | ok i => exact FA.refl.bind fun q => (FA.lift' (fa_endTagStep L n _ q)).bind fun _ => FA.refl
  | entityDeclaration a b _ => cases b <;> exact FA.refl
  | _ => exact FA.refl

theorem fa_runEvents' (n : Nat) : ∀ es, FA (Loc.runEvents L n es) (Loc.runEvents L (n + 1) es)
  | [] => FA.refl
  | e :: es => by
    simp only [Loc.runEvents]
    refine FA.bind (x := Loc.validateEvent L n e) (y := Loc.validateEvent L (n + 1) e) ?_ fun _ => (fa_runEvents' n es).bind fun _ => FA.refl
    cases e with
    | token t => exact fa_validate' n t
    | error _ _ => exact FA.refl

theorem runEvents_more {n m : Nat} {es : List Loc.Event} {s : Loc.State D V} {x} (h : Loc.runEvents L n es s = .ok x) (hm : n ≤ m) :
    Loc.runEvents L m es s = .ok x := by
  have fm : FM (fun n => Loc.runEvents L n es) := fun n => fa_runEvents' n es
  exact (fm.stable (fun e => by have := h.symm.trans e; cases this) hm).trans h

theorem newValidator_more {env : Env D V} {start : Pattern D V} {n m : Nat} {s : Loc.State D V} (h : Loc.newValidator env n start = .ok s) (hm : n ≤ m) :
    Loc.newValidator env m start = .ok s := by
  have fm : FM (fun n => compile env n start) := fun n => fa_compile env n start
  unfold Loc.newValidator at h ⊢
  cases hc : compile env n start Store.init with
  | error e => rw [hc] at h; cases h
  | ok r =>
    rw [hc] at h
    have : compile env m start Store.init = .ok r := (fm.stable (fun e => by have := hc.symm.trans e; cases this) hm).trans hc
    rw [this]; exact h

theorem AcceptsFile.more {fuel n fuel' n' : Nat} {env : Env D V} {start : Pattern D V} {f : XmlFile} (h : AcceptsFile L fuel n env start f)
    (hf : fuel ≤ fuel') (hn : n ≤ n') : AcceptsFile L fuel' n' env start f := by
  cases f with
  | unreadable => exact h
  | doc text items =>
    obtain ⟨s0, h1, s, h2⟩ := h
    exact ⟨s0, newValidator_more h1 hf, s, runEvents_more h2 hn⟩

end Verif.Tool
