import Verif.Model.Validate
/-
The recursion budget is an artefact: once it suffices, a bigger one changes nothing; and a datatype
library that never aborts makes the validator never abort with `unimplemented`.
-/
set_option linter.unusedSectionVars false
namespace Verif

/-- more budget changes nothing but "out of budget" -/
def FM {σ α : Type} (x : Nat → ST σ α) : Prop := ∀ n s, x n s = .error .fuel ∨ x (n + 1) s = x n s

section
variable {σ α β : Type}

theorem FM.const {x : ST σ α} : FM (fun _ => x) := fun _ _ => Or.inr rfl

theorem FM.bind {x : Nat → ST σ α} {f : Nat → α → ST σ β} (hx : FM x) (hf : ∀ a, FM (fun n => f n a)) :
    FM (fun n => x n >>= f n) := by
  intro n s
  rcases hx n s with h | h
  · exact Or.inl (ST.bind_of_error h)
  · cases hr : x n s with
    | error e => exact Or.inr ((ST.bind_of_error (h.trans hr)).trans (ST.bind_of_error hr).symm)
    | ok r =>
      obtain ⟨a, s'⟩ := r
      rcases hf a n s' with g | g
      · exact Or.inl ((ST.bind_of_ok hr).trans g)
      · exact Or.inr ((ST.bind_of_ok (h.trans hr)).trans (g.trans (ST.bind_of_ok hr).symm))

theorem FM.after {x : Nat → ST σ α} {f : α → ST σ β} (hx : FM x) : FM (fun n => x n >>= f) :=
  hx.bind fun _ => .const

theorem FM.pre {x : ST σ α} {f : Nat → α → ST σ β} (hf : ∀ a, FM (fun n => f n a)) : FM (fun n => x >>= f n) :=
  FM.const.bind hf

theorem FM.ite {b : Prop} [Decidable b] {x y : Nat → ST σ α} (hx : FM x) (hy : FM y) :
    FM (fun n => if b then x n else y n) := by
  by_cases h : b <;> simp only [h, if_true, if_false] <;> assumption

/-- a recursion that starts at budget 1 -/
theorem FM.succ {x : Nat → ST σ α} (h0 : ∀ s, x 0 s = .error .fuel) (hx : FM fun n => x (n + 1)) : FM x := by
  intro n s
  cases n with
  | zero => exact Or.inl (h0 s)
  | succ n => exact hx n s

theorem FM.stable {x : Nat → ST σ α} (h : FM x) {n m s} (hn : x n s ≠ .error .fuel) (hm : n ≤ m) : x m s = x n s := by
  induction m with
  | zero => have : n = 0 := by omega
            rw [this]
  | succ m ih =>
    by_cases e : n = m + 1
    · rw [e]
    · have := ih (by omega)
      rcases h m s with g | g
      · rw [this] at g; exact absurd g hn
      · rw [g, this]
end

/-! A recursive function is monotone at each budget once its recursive calls are: `FMa n x` is `FM`
at budget `n` only. -/

/-- `FM` at one budget -/
def FA {σ α : Type} (x y : ST σ α) : Prop := ∀ s, x s = .error .fuel ∨ y s = x s

section
variable {σ α β : Type}

theorem FA.refl {x : ST σ α} : FA x x := fun _ => Or.inr rfl

theorem FA.fuel {y : ST σ α} : FA (ST.fault .fuel) y := fun _ => Or.inl rfl

theorem FA.bind {x y : ST σ α} {f g : α → ST σ β} (hx : FA x y) (hf : ∀ a, FA (f a) (g a)) :
    FA (x >>= f) (y >>= g) := by
  intro s
  rcases hx s with h | h
  · exact Or.inl (ST.bind_of_error h)
  · cases hr : x s with
    | error e => exact Or.inr ((ST.bind_of_error (h.trans hr)).trans (ST.bind_of_error hr).symm)
    | ok r =>
      obtain ⟨a, s'⟩ := r
      rcases hf a s' with g | g
      · exact Or.inl ((ST.bind_of_ok hr).trans g)
      · exact Or.inr ((ST.bind_of_ok (h.trans hr)).trans (g.trans (ST.bind_of_ok hr).symm))

theorem FA.ite {b : Prop} [Decidable b] {x x' y y' : ST σ α} (hx : FA x x') (hy : FA y y') :
    FA (if b then x else y) (if b then x' else y') := by
  by_cases h : b <;> simp only [h, if_true, if_false] <;> assumption
end

section
variable {D V : Type} [DecidableEq D] [DecidableEq V] (L : Lib D V)

theorem fa_listLoop {f g : Pat D V → Str → SM D V Nat} (h : ∀ p t, FA (f p t) (g p t)) :
    ∀ (ws : List Str) (i : Nat), FA (listLoop f i ws) (listLoop g i ws)
  | [], _ => FA.refl
  | w :: ws, i => by
    simp only [listLoop]
    exact FA.refl.bind fun _ => (h _ _).bind fun _ => FA.refl.bind fun _ =>
      FA.ite FA.refl (fa_listLoop h ws _)

theorem fa_textDeriv : ∀ (n : Nat) (p : Pat D V) (t : Str), FA (textDeriv L n p t) (textDeriv L (n + 1) p t)
  | 0, _, _ => FA.fuel
  | n + 1, p, t => by
    have ih := fa_textDeriv n
    cases p with
    | choice l r f =>
      exact FA.refl.bind fun _ => FA.refl.bind fun _ => (ih _ _).bind fun _ => (ih _ _).bind fun _ => FA.refl
    | interleave l r f =>
      exact FA.refl.bind fun _ => FA.refl.bind fun _ => (ih _ _).bind fun _ => FA.refl.bind fun _ =>
        (ih _ _).bind fun _ => FA.refl
    | group l r f =>
      exact FA.refl.bind fun _ => FA.refl.bind fun _ => (ih _ _).bind fun _ => FA.refl.bind fun _ =>
        FA.ite ((ih _ _).bind fun _ => FA.refl) FA.refl
    | after l r => exact FA.refl.bind fun _ => (ih _ _).bind fun _ => FA.refl
    | oneOrMore i f => exact FA.refl.bind fun _ => (ih _ _).bind fun _ => FA.refl
    | datatypeExcept d ex => exact FA.refl.bind fun _ => (ih _ _).bind fun _ => FA.refl
    | list i => exact (fa_listLoop (fun p t => ih p t) _ _).bind fun _ => FA.refl
    | _ => exact FA.refl

theorem fa_applyAfter (f : Nat → SM D V Nat) : ∀ (n : Nat) (p : Pat D V),
    FA (applyAfter f n p) (applyAfter f (n + 1) p)
  | 0, _ => FA.fuel
  | n + 1, p => by
    have ih := fa_applyAfter f n
    cases p with
    | choice l r b =>
      exact FA.refl.bind fun _ => FA.refl.bind fun _ => (ih _).bind fun _ => (ih _).bind fun _ => FA.refl
    | _ => exact FA.refl

theorem fa_startTagOpenDeriv (nm : QName) : ∀ (n : Nat) (p : Pat D V),
    FA (startTagOpenDeriv n p nm) (startTagOpenDeriv (n + 1) p nm)
  | 0, _ => FA.fuel
  | n + 1, p => by
    have ih := fa_startTagOpenDeriv nm n
    cases p with
    | choice l r b =>
      exact FA.refl.bind fun _ => FA.refl.bind fun _ => (ih _).bind fun _ => (ih _).bind fun _ => FA.refl
    | oneOrMore i b =>
      exact FA.refl.bind fun _ => (ih _).bind fun _ => FA.refl.bind fun _ => fa_applyAfter _ n _
    | interleave l r b =>
      exact FA.refl.bind fun _ => FA.refl.bind fun _ => (ih _).bind fun _ => FA.refl.bind fun _ =>
        (fa_applyAfter _ n _).bind fun _ => (ih _).bind fun _ => FA.refl.bind fun _ =>
        (fa_applyAfter _ n _).bind fun _ => FA.refl
    | group l r b =>
      exact FA.refl.bind fun _ => FA.refl.bind fun _ => (ih _).bind fun _ => FA.refl.bind fun _ =>
        (fa_applyAfter _ n _).bind fun _ => FA.ite (FA.refl.bind fun _ => (ih _).bind fun _ => FA.refl) FA.refl
    | after l r =>
      exact FA.refl.bind fun _ => (ih _).bind fun _ => FA.refl.bind fun _ => fa_applyAfter _ n _
    | _ => exact FA.refl

theorem fa_valueMatch (n : Nat) (p : Pat D V) (t : Str) : FA (valueMatch L n p t) (valueMatch L (n + 1) p t) :=
  FA.ite FA.refl ((fa_textDeriv L n p t).bind fun _ => FA.refl)

theorem fa_attDeriv (a : Attr) : ∀ (n : Nat) (m : AttMemo) (p : Nat),
    FA (attDeriv L n m p a) (attDeriv L (n + 1) m p a)
  | 0, _, _ => FA.fuel
  | n + 1, m, p => by
    have ih := fa_attDeriv a n
    rw [attDeriv, attDeriv]
    cases m.lookup p with
    | some r => exact FA.refl
    | none =>
      refine FA.refl.bind fun pat => FA.bind ?_ fun _ => FA.refl
      cases pat with
      | after p1 p2 => exact (ih _ _).bind fun _ => FA.refl
      | choice p1 p2 f => exact (ih _ _).bind fun _ => (ih _ _).bind fun _ => FA.refl
      | group p1 p2 f => exact (ih _ _).bind fun _ => FA.refl.bind fun _ => (ih _ _).bind fun _ => FA.refl
      | interleave p1 p2 f => exact (ih _ _).bind fun _ => FA.refl.bind fun _ => (ih _ _).bind fun _ => FA.refl
      | oneOrMore p f => exact (ih _ _).bind fun _ => FA.refl
      | attr nc p =>
        exact FA.refl.bind fun _ => FA.ite ((fa_valueMatch L n _ _).bind fun _ => FA.refl) FA.refl
      | _ => exact FA.refl

theorem fa_startTagCloseDeriv : ∀ (n : Nat) (p : Nat),
    FA (startTagCloseDeriv n p : SM D V Nat) (startTagCloseDeriv (n + 1) p)
  | 0, _ => FA.fuel
  | n + 1, p => by
    have ih := fa_startTagCloseDeriv n
    rw [startTagCloseDeriv, startTagCloseDeriv]
    refine FA.refl.bind fun pat => ?_
    cases pat with
    | after p1 p2 => exact (ih _).bind fun _ => FA.refl
    | choice p1 p2 f => exact (ih _).bind fun _ => (ih _).bind fun _ => FA.refl
    | group p1 p2 f => exact (ih _).bind fun _ => (ih _).bind fun _ => FA.refl
    | interleave p1 p2 f => exact (ih _).bind fun _ => (ih _).bind fun _ => FA.refl
    | oneOrMore p f => exact (ih _).bind fun _ => FA.refl
    | _ => exact FA.refl

theorem fa_endTagDeriv : ∀ (n : Nat) (p : Pat D V), FA (endTagDeriv n p) (endTagDeriv (n + 1) p)
  | 0, _ => FA.fuel
  | n + 1, p => by
    have ih := fa_endTagDeriv n
    cases p with
    | choice p1 p2 f =>
      exact FA.refl.bind fun _ => FA.refl.bind fun _ => (ih _).bind fun _ => (ih _).bind fun _ => FA.refl
    | _ => exact FA.refl

theorem fa_compileVec {c c' : Pattern D V → SM D V Nat} (h : ∀ p, FA (c p) (c' p)) (op : Nat → Nat → SM D V Nat) :
    ∀ ps : List (Pattern D V), FA (compileVec c op ps) (compileVec c' op ps)
  | [] => FA.refl
  | [p] => h p
  | p :: q :: ps => by
    simp only [compileVec]
    exact (fa_compileVec h op (q :: ps)).bind fun _ => (h p).bind fun _ => FA.refl

theorem fa_compile (env : Env D V) : ∀ (n : Nat) (p : Pattern D V), FA (compile env n p) (compile env (n + 1) p)
  | 0, _ => FA.fuel
  | n + 1, p => by
    have ih := fa_compile env n
    cases p with
    | choice ps => exact fa_compileVec ih _ ps
    | interleave ps => exact fa_compileVec ih _ ps
    | group ps => exact fa_compileVec ih _ ps
    | ref r =>
      refine FA.refl.bind fun o => ?_
      cases o with
      | some i => exact FA.refl
      | none =>
        refine FA.refl.bind fun ph => ?_
        cases env[r]? with
        | none => exact FA.refl
        | some q => exact (ih q).bind fun _ => FA.refl
    | mixed p => exact (ih p).bind fun _ => FA.refl
    | optional p => exact (ih p).bind fun _ => FA.refl
    | zeroOrMore p => exact (ih p).bind fun _ => FA.refl
    | oneOrMore p => exact (ih p).bind fun _ => FA.refl
    | attr nc p => exact (ih p).bind fun _ => FA.refl
    | element nc p => exact (ih p).bind fun _ => FA.refl
    | list p => exact (ih p).bind fun _ => FA.refl
    | datatypeNameExcept d p => exact (ih p).bind fun _ => FA.refl
    | _ => exact FA.refl

theorem fa_attsLoop (n : Nat) : ∀ (as : List Attr) (p : Nat), FA (attsLoop L n p as) (attsLoop L (n + 1) p as)
  | [], _ => FA.refl
  | a :: as, p => by
    simp only [attsLoop]
    exact (fa_attDeriv L a n [] p).bind fun _ => FA.refl.bind fun _ => FA.ite FA.refl (fa_attsLoop n as _)

theorem fa_closeElementStart (n : Nat) (stack : ElementStack) (evt : Token) (p : Pat D V) :
    FA (closeElementStart L n stack evt p) (closeElementStart L (n + 1) stack evt p) := by
  unfold closeElementStart
  cases currentElement stack with
  | none => exact FA.refl
  | some r =>
    cases r with
    | error e => exact FA.refl
    | ok nm =>
      refine (fa_startTagOpenDeriv nm n p).bind fun d => FA.refl.bind fun dp => FA.ite FA.refl ?_
      cases currentAttributes stack with
      | none => exact FA.refl
      | some r =>
        cases r with
        | error e => exact FA.refl
        | ok as =>
          refine (fa_attsLoop L n as d).bind fun r => ?_
          cases r with
          | error e => exact FA.refl
          | ok d2 =>
            exact FA.refl.bind fun p2 => FA.ite FA.refl ((fa_startTagCloseDeriv n d2).bind fun _ => FA.refl)

theorem fa_endTagStep (n : Nat) (b : Bool) (p : Pat D V) : FA (endTagStep L n b p) (endTagStep L (n + 1) b p) := by
  unfold endTagStep
  exact FA.ite ((fa_textDeriv L n p []).bind fun _ => FA.refl.bind fun _ => fa_endTagDeriv n _) (fa_endTagDeriv n p)

theorem FA.lift {α : Type} {x y : SM D V α} (h : FA x y) : FA (liftS x) (liftS y) := by
  intro s
  simp only [liftS]
  rcases h s.store with h | h
  · simp [h]
  · rw [h]; exact Or.inr rfl

theorem fa_validate (n : Nat) (t : Token) : FA (validate L n t) (validate L (n + 1) t) := by
  unfold validate
  refine FA.refl.bind fun s => FA.refl.bind fun p => ?_
  cases t with
  | text t =>
    simp only
    cases decodeText s.entities t with
    | error e => exact FA.refl
    | ok d => exact (FA.lift (fa_textDeriv L n p d)).bind fun _ => FA.refl
  | cdata t => exact (FA.lift (fa_textDeriv L n p t)).bind fun _ => FA.refl
  | elementEnd e =>
    cases e with
    | «open» => exact (FA.lift (fa_closeElementStart L n _ _ p)).bind fun r => FA.refl
    | close a b => exact (FA.lift (fa_endTagStep L n _ p)).bind fun r => FA.refl
    | empty =>
      refine (FA.lift (fa_closeElementStart L n _ _ p)).bind fun r => ?_
      cases r with
      | error e => exact FA.refl
      | ok i => exact FA.refl.bind fun q => (FA.lift (fa_endTagStep L n _ q)).bind fun _ => FA.refl
  | entityDeclaration a b => cases b <;> exact FA.refl
  | _ => exact FA.refl

theorem fa_validateEvent (n : Nat) (e : Event) : FA (validateEvent L n e) (validateEvent L (n + 1) e) := by
  cases e with
  | none => exact FA.refl
  | some t => exact fa_validate L n t

theorem fa_runToks (n : Nat) : ∀ ts, FA (runToks L n ts) (runToks L (n + 1) ts)
  | [] => FA.refl
  | t :: ts => by
    simp only [runToks]
    refine (fa_validate L n t).bind fun r => ?_
    cases r with
    | error e => exact FA.refl
    | ok u => exact fa_runToks n ts

theorem fa_runEvents (n : Nat) : ∀ es, FA (runEvents L n es) (runEvents L (n + 1) es)
  | [] => FA.refl
  | e :: es => by
    simp only [runEvents]
    exact (fa_validateEvent L n e).bind fun _ => (fa_runEvents n es).bind fun _ => FA.refl

/-! ### datatype libraries that never abort -/

/-- `x` never aborts with `unimplemented` -/
def NU {σ α : Type} (x : ST σ α) : Prop := ∀ s, x s ≠ .error .unimplemented
end

section
variable {σ α β : Type}
theorem NU.bind {x : ST σ α} {f : α → ST σ β} (hx : NU x) (hf : ∀ a, NU (f a)) : NU (x >>= f) := by
  intro s h
  cases hr : x s with
  | error e => have := (ST.bind_of_error hr).symm.trans h; cases this; exact hx s hr
  | ok r =>
    obtain ⟨a, s'⟩ := r
    exact hf a s' ((ST.bind_of_ok hr).symm.trans h)

theorem NU.pure {a : α} : NU (Pure.pure a : ST σ α) := fun _ h => by simp at h
theorem NU.get : NU (ST.get : ST σ σ) := fun _ h => by simp at h
theorem NU.set {s} : NU (ST.set s : ST σ Unit) := fun _ h => by simp at h
theorem NU.fault {e : Fault} (h : e ≠ .unimplemented) : NU (ST.fault e : ST σ α) := fun _ h' => by
  simp at h'; exact h h'
theorem NU.ite {b : Prop} [Decidable b] {x y : ST σ α} (hx : NU x) (hy : NU y) : NU (if b then x else y) := by
  by_cases h : b <;> simp only [h, if_true, if_false] <;> assumption
end

section
variable {D V : Type} [DecidableEq D] [DecidableEq V] (L : Lib D V)

theorem nu_push (p : Pat D V) : NU (push p) := by
  intro st h
  unfold push at h
  split at h
  · cases h
  · split at h <;> cases h

theorem nu_patt (i : Nat) : NU (patt i : SM D V (Pat D V)) := by
  intro st h
  unfold patt at h
  split at h <;> cases h

theorem nu_choice (l r : Nat) : NU (choice l r : SM D V Nat) := by
  refine (nu_patt l).bind fun a => (nu_patt r).bind fun b => ?_
  split
  · exact .pure
  · exact .pure
  · exact .ite .pure (nu_push _)

theorem nu_interleave (l r : Nat) : NU (interleave l r : SM D V Nat) := by
  refine (nu_patt l).bind fun a => (nu_patt r).bind fun b => ?_
  split
  · exact nu_push _
  · exact nu_push _
  · exact .pure
  · exact .pure
  · exact nu_push _

theorem nu_group (l r : Nat) : NU (group l r : SM D V Nat) := by
  refine (nu_patt l).bind fun a => (nu_patt r).bind fun b => ?_
  split
  · exact nu_push _
  · exact nu_push _
  · exact .pure
  · exact .pure
  · exact nu_push _

theorem nu_after (l r : Nat) : NU (after l r : SM D V Nat) := by
  refine (nu_patt l).bind fun a => (nu_patt l).bind fun b => ?_
  split <;> exact nu_push _

theorem nu_oneOrMore (l : Nat) : NU (oneOrMore l : SM D V Nat) := (nu_patt l).bind fun _ => nu_push _

/-- the datatype library answers every question -/
def Lib.Total (L : Lib D V) : Prop := (∀ d s, L.validD d s ≠ none) ∧ ∀ v s, L.validV v s ≠ none

variable {L} (hL : L.Total)
include hL

theorem nu_checkD (d : D) (s : Str) : NU (checkD L d s : SM D V Bool) := by
  unfold checkD
  cases h : L.validD d s with
  | none => exact absurd h (hL.1 d s)
  | some b => exact .pure

theorem nu_checkV (d : V) (s : Str) : NU (checkV L d s : SM D V Bool) := by
  unfold checkV
  cases h : L.validV d s with
  | none => exact absurd h (hL.2 d s)
  | some b => exact .pure

omit hL in
theorem nu_listLoop {f : Pat D V → Str → SM D V Nat} (h : ∀ p t, NU (f p t)) :
    ∀ (ws : List Str) (i : Nat), NU (listLoop f i ws)
  | [], _ => .pure
  | w :: ws, i => by
    simp only [listLoop]
    exact (nu_patt i).bind fun _ => (h _ _).bind fun _ => (nu_patt _).bind fun _ => .ite .pure (nu_listLoop h ws _)

theorem nu_textDeriv : ∀ (n : Nat) (p : Pat D V) (t : Str), NU (textDeriv L n p t)
  | 0, _, _ => .fault nofun
  | n + 1, p, t => by
    have ih := nu_textDeriv n
    cases p with
    | choice l r f =>
      exact (nu_patt _).bind fun _ => (nu_patt _).bind fun _ => (ih _ _).bind fun _ => (ih _ _).bind fun _ => nu_choice _ _
    | interleave l r f =>
      exact (nu_patt _).bind fun _ => (nu_patt _).bind fun _ => (ih _ _).bind fun _ => (nu_interleave _ _).bind fun _ =>
        (ih _ _).bind fun _ => (nu_interleave _ _).bind fun _ => nu_choice _ _
    | group l r f =>
      exact (nu_patt _).bind fun _ => (nu_patt _).bind fun _ => (ih _ _).bind fun _ => (nu_group _ _).bind fun _ =>
        .ite ((ih _ _).bind fun _ => nu_choice _ _) .pure
    | after l r => exact (nu_patt _).bind fun _ => (ih _ _).bind fun _ => nu_after _ _
    | oneOrMore i f =>
      exact (nu_patt _).bind fun _ => (ih _ _).bind fun _ => (nu_oneOrMore _).bind fun _ => (nu_push _).bind fun _ =>
        (nu_choice _ _).bind fun _ => nu_group _ _
    | text => exact nu_push _
    | datatype d => exact (nu_checkD hL d t).bind fun _ => .ite (nu_push _) (nu_push _)
    | datatypeValue d => exact (nu_checkV hL d t).bind fun _ => .ite (nu_push _) (nu_push _)
    | datatypeExcept d ex =>
      exact (nu_patt _).bind fun _ => (ih _ _).bind fun _ => (nu_patt _).bind fun _ => (nu_checkD hL d t).bind fun _ =>
        .ite (nu_push _) (nu_push _)
    | list i =>
      exact (nu_listLoop (fun p t => ih p t) _ _).bind fun _ => .ite .pure ((nu_patt _).bind fun _ => .ite .pure
        (.ite ((nu_push _).bind fun _ => (nu_push _).bind fun _ => nu_choice _ _) (nu_push _)))
    | empty => exact .ite (nu_push _) (nu_push _)
    | notAllowed => exact nu_push _
    | attr nc i => exact nu_push _
    | element nc i => exact .ite (nu_push _) (nu_push _)
    | placeholder n => exact .fault nofun

omit hL in
theorem nu_applyAfter {f : Nat → SM D V Nat} (hf : ∀ i, NU (f i)) : ∀ (n : Nat) (p : Pat D V), NU (applyAfter f n p)
  | 0, _ => .fault nofun
  | n + 1, p => by
    have ih := nu_applyAfter hf n
    cases p with
    | choice l r b =>
      exact (nu_patt _).bind fun _ => (nu_patt _).bind fun _ => (ih _).bind fun _ => (ih _).bind fun _ => nu_choice _ _
    | after l r => exact (hf _).bind fun _ => nu_after _ _
    | notAllowed => exact nu_push _
    | _ => exact .fault nofun

omit hL in
theorem nu_startTagOpenDeriv (nm : QName) : ∀ (n : Nat) (p : Pat D V), NU (startTagOpenDeriv n p nm)
  | 0, _ => .fault nofun
  | n + 1, p => by
    have ih := nu_startTagOpenDeriv nm n
    cases p with
    | choice l r b =>
      exact (nu_patt _).bind fun _ => (nu_patt _).bind fun _ => (ih _).bind fun _ => (ih _).bind fun _ => nu_choice _ _
    | oneOrMore i b =>
      exact (nu_patt _).bind fun _ => (ih _).bind fun _ => (nu_patt _).bind fun _ =>
        nu_applyAfter (fun i => (nu_oneOrMore _).bind fun _ => (nu_push _).bind fun _ => (nu_choice _ _).bind fun _ =>
          nu_group _ _) n _
    | interleave l r b =>
      exact (nu_patt _).bind fun _ => (nu_patt _).bind fun _ => (ih _).bind fun _ => (nu_patt _).bind fun _ =>
        (nu_applyAfter (fun i => nu_interleave _ _) n _).bind fun _ => (ih _).bind fun _ => (nu_patt _).bind fun _ =>
        (nu_applyAfter (fun i => nu_interleave _ _) n _).bind fun _ => nu_choice _ _
    | group l r b =>
      exact (nu_patt _).bind fun _ => (nu_patt _).bind fun _ => (ih _).bind fun _ => (nu_patt _).bind fun _ =>
        (nu_applyAfter (fun i => nu_group _ _) n _).bind fun _ =>
          .ite ((nu_patt _).bind fun _ => (ih _).bind fun _ => nu_choice _ _) .pure
    | after l r =>
      exact (nu_patt _).bind fun _ => (ih _).bind fun _ => (nu_patt _).bind fun _ =>
        nu_applyAfter (fun i => nu_after _ _) n _
    | element nc i => exact .ite ((nu_push _).bind fun _ => nu_after _ _) (nu_push _)
    | placeholder n => exact .fault nofun
    | _ => exact nu_push _

theorem nu_attDeriv (a : Attr) : ∀ (n : Nat) (m : AttMemo) (p : Nat), NU (attDeriv L n m p a)
  | 0, _, _ => .fault nofun
  | n + 1, m, p => by
    have ih := nu_attDeriv a n
    rw [attDeriv]
    cases m.lookup p with
    | some r => exact .pure
    | none =>
      refine (nu_patt _).bind fun pat => NU.bind ?_ fun _ => .pure
      cases pat with
      | after p1 p2 => exact (ih _ _).bind fun _ => (nu_after _ _).bind fun _ => .pure
      | choice p1 p2 f => exact (ih _ _).bind fun _ => (ih _ _).bind fun _ => (nu_choice _ _).bind fun _ => .pure
      | group p1 p2 f => exact (ih _ _).bind fun _ => (nu_group _ _).bind fun _ => (ih _ _).bind fun _ =>
          (nu_group _ _).bind fun _ => (nu_choice _ _).bind fun _ => .pure
      | interleave p1 p2 f => exact (ih _ _).bind fun _ => (nu_interleave _ _).bind fun _ => (ih _ _).bind fun _ =>
          (nu_interleave _ _).bind fun _ => (nu_choice _ _).bind fun _ => .pure
      | oneOrMore p f => exact (ih _ _).bind fun _ => (nu_push _).bind fun _ => (nu_choice _ _).bind fun _ =>
          (nu_group _ _).bind fun _ => .pure
      | attr nc p =>
        exact (nu_patt _).bind fun _ => .ite ((NU.ite .pure ((nu_textDeriv hL n _ _).bind fun _ =>
          (nu_patt _).bind fun _ => .pure)).bind fun _ => (NU.ite (nu_push _) (nu_push _)).bind fun _ => .pure)
          ((nu_push _).bind fun _ => .pure)
      | _ => exact (nu_push _).bind fun _ => .pure

omit hL in
theorem nu_startTagCloseDeriv : ∀ (n : Nat) (p : Nat), NU (startTagCloseDeriv n p : SM D V Nat)
  | 0, _ => .fault nofun
  | n + 1, p => by
    have ih := nu_startTagCloseDeriv n
    rw [startTagCloseDeriv]
    refine (nu_patt _).bind fun pat => ?_
    cases pat with
    | after p1 p2 => exact (ih _).bind fun _ => nu_after _ _
    | choice p1 p2 f => exact (ih _).bind fun _ => (ih _).bind fun _ => nu_choice _ _
    | group p1 p2 f => exact (ih _).bind fun _ => (ih _).bind fun _ => nu_group _ _
    | interleave p1 p2 f => exact (ih _).bind fun _ => (ih _).bind fun _ => nu_interleave _ _
    | oneOrMore p f => exact (ih _).bind fun _ => nu_oneOrMore _
    | attr nc p => exact nu_push _
    | _ => exact .pure

omit hL in
theorem nu_endTagDeriv : ∀ (n : Nat) (p : Pat D V), NU (endTagDeriv n p)
  | 0, _ => .fault nofun
  | n + 1, p => by
    have ih := nu_endTagDeriv n
    cases p with
    | choice p1 p2 f =>
      exact (nu_patt _).bind fun _ => (nu_patt _).bind fun _ => (ih _).bind fun _ => (ih _).bind fun _ => nu_choice _ _
    | after p1 p2 => exact (nu_patt _).bind fun _ => .ite .pure (nu_push _)
    | _ => exact nu_push _

theorem nu_attsLoop (n : Nat) : ∀ (as : List Attr) (p : Nat), NU (attsLoop L n p as)
  | [], _ => .pure
  | a :: as, p => by
    simp only [attsLoop]
    exact (nu_attDeriv hL a n [] p).bind fun _ => (nu_patt _).bind fun _ => .ite .pure (nu_attsLoop n as _)

theorem nu_closeElementStart (n : Nat) (stack : ElementStack) (evt : Token) (p : Pat D V) :
    NU (closeElementStart L n stack evt p) := by
  unfold closeElementStart
  cases currentElement stack with
  | none => exact .fault nofun
  | some r =>
    cases r with
    | error e => exact .pure
    | ok nm =>
      refine (nu_startTagOpenDeriv nm n p).bind fun d => (nu_patt _).bind fun dp => .ite .pure ?_
      cases currentAttributes stack with
      | none => exact .fault nofun
      | some r =>
        cases r with
        | error e => exact .pure
        | ok as =>
          refine (nu_attsLoop hL n as d).bind fun r => ?_
          cases r with
          | error e => exact .pure
          | ok d2 =>
            exact (nu_patt _).bind fun p2 => .ite .pure ((nu_startTagCloseDeriv n d2).bind fun _ =>
              (nu_patt _).bind fun _ => .ite .pure .pure)

theorem nu_endTagStep (n : Nat) (b : Bool) (p : Pat D V) : NU (endTagStep L n b p) := by
  unfold endTagStep
  exact .ite ((nu_textDeriv hL n p []).bind fun _ => (nu_patt _).bind fun _ => nu_endTagDeriv n _) (nu_endTagDeriv n p)

omit hL in
theorem NU.lift {α : Type} {x : SM D V α} (h : NU x) : NU (liftS x) := by
  intro s he
  simp only [liftS] at he
  split at he
  · cases he
  · rename_i e; cases he; exact h _ e

omit hL in
theorem nu_finish (t : Token) (i : Nat) : NU (finish t i : ST (VState D V) _) :=
  NU.get.bind fun _ => NU.set.bind fun _ => (NU.lift (nu_patt i)).bind fun _ => .ite .pure
    (NU.get.bind fun _ => NU.set.bind fun _ => .pure)

theorem nu_validate (n : Nat) (t : Token) : NU (validate L n t) := by
  unfold validate
  refine NU.get.bind fun s => (NU.lift (nu_patt _)).bind fun p => ?_
  cases t with
  | text t =>
    simp only
    cases decodeText s.entities t with
    | error e => exact .pure
    | ok d =>
      exact (NU.lift (nu_textDeriv hL n p d)).bind fun _ => (NU.lift (nu_patt _)).bind fun _ =>
        .ite .pure (nu_finish _ _)
  | cdata t => exact (NU.lift (nu_textDeriv hL n p t)).bind fun _ => nu_finish _ _
  | elementEnd e =>
    cases e with
    | «open» =>
      refine (NU.lift (nu_closeElementStart hL n _ _ p)).bind fun r => ?_
      cases r with
      | error e => exact .pure
      | ok i => exact nu_finish _ _
    | close a b => exact (NU.lift (nu_endTagStep hL n _ p)).bind fun r => nu_finish _ _
    | empty =>
      refine (NU.lift (nu_closeElementStart hL n _ _ p)).bind fun r => ?_
      cases r with
      | error e => exact .pure
      | ok i => exact (NU.lift (nu_patt _)).bind fun q => (NU.lift (nu_endTagStep hL n _ q)).bind fun _ => nu_finish _ _
  | «attribute» a b c =>
    simp only
    cases s.stack with
    | nil => exact .fault nofun
    | cons e es => exact NU.set.bind fun _ => .pure
  | elementStart a b => exact NU.set.bind fun _ => .pure
  | entityDeclaration a b =>
    cases b with
    | entityValue v => exact NU.set.bind fun _ => .pure
    | externalId => exact .pure
  | _ => exact .pure

theorem nu_runEvents (n : Nat) : ∀ es, NU (runEvents L n es)
  | [] => .pure
  | e :: es => by
    simp only [runEvents]
    refine NU.bind ?_ fun _ => (nu_runEvents n es).bind fun _ => .pure
    cases e with
    | none => exact .pure
    | some t => exact nu_validate hL n t

theorem nu_runToks (n : Nat) : ∀ ts, NU (runToks L n ts)
  | [] => .pure
  | t :: ts => by
    simp only [runToks]
    refine (nu_validate hL n t).bind fun r => ?_
    cases r with
    | error e => exact .pure
    | ok u => exact nu_runToks n ts
end
end Verif
