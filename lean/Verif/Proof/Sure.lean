import Verif.Spec.Sure
import Verif.Proof.Fuel
import Verif.Proof.CheckBound
/-
The validator aborts for want of a datatype only if the schema asks for such a datatype.
-/
set_option linter.unusedSectionVars false
namespace Verif.Sure

/-! ### programs that keep `G` and do not abort for want of a datatype -/
section
variable {σ α β : Type} {G : σ → Prop}

/-- started in a state with `G`, the program does not abort for want of a datatype, and ends with `G` and a result with `P` -/
def K (G : σ → Prop) (P : α → Prop) (m : ST σ α) : Prop :=
  ∀ s, G s → m s ≠ .error .unimplemented ∧ ∀ a s', m s = .ok (a, s') → G s' ∧ P a

/-- nothing is said of the result -/
abbrev K0 (G : σ → Prop) (m : ST σ α) : Prop := K G (fun _ => True) m

theorem K.bind {P : α → Prop} {Q : β → Prop} {x : ST σ α} {f : α → ST σ β} (hx : K G P x) (hf : ∀ a, P a → K G Q (f a)) : K G Q (x >>= f) := by
  intro s hs
  cases hr : x s with
  | error e =>
    rw [ST.bind_of_error hr]
    refine ⟨fun h => ?_, fun a s' h => by cases h⟩
    cases h; exact (hx s hs).1 hr
  | ok r =>
    obtain ⟨a, s'⟩ := r
    rw [ST.bind_of_ok hr]
    obtain ⟨h1, h2⟩ := (hx s hs).2 a s' hr
    exact hf a h2 s' h1

theorem K.pure {P : α → Prop} {a : α} (h : P a) : K G P (Pure.pure a : ST σ α) := fun s hs =>
  ⟨fun h => by simp at h, fun b s' e => by simp at e; obtain ⟨rfl, rfl⟩ := e; exact ⟨hs, h⟩⟩
theorem K.pure0 {a : α} : K0 G (Pure.pure a : ST σ α) := .pure trivial
theorem K.fault {P : α → Prop} {e : Fault} (h : e ≠ .unimplemented) : K G P (ST.fault e : ST σ α) := fun s _ =>
  ⟨fun h' => by simp at h'; exact h h', fun _ _ e => by simp at e⟩
theorem K.ite {P : α → Prop} {b : Prop} [Decidable b] {x y : ST σ α} (hx : K G P x) (hy : K G P y) : K G P (if b then x else y) := by
  by_cases h : b <;> simp only [h, if_true, if_false] <;> assumption
theorem K.get : K G G (ST.get : ST σ σ) := fun s hs => ⟨fun h => by simp at h, fun a s' h => by simp at h; obtain ⟨rfl, rfl⟩ := h; exact ⟨hs, hs⟩⟩
theorem K.set {s : σ} (h : G s) : K0 G (ST.set s : ST σ Unit) := fun _ _ =>
  ⟨fun h => by simp at h, fun a s' e => by simp at e; subst e; exact ⟨h, trivial⟩⟩
end

section
variable {D V : Type} [DecidableEq D] [DecidableEq V] {L : Lib D V}

/-- the library answers for what the node of the store asks for -/
def NodeOK (L : Lib D V) : Pat D V → Prop
  | .datatype d => ∀ s, L.validD d s ≠ none
  | .datatypeExcept d _ => ∀ s, L.validD d s ≠ none
  | .datatypeValue v => ∀ s, L.validV v s ≠ none
  | _ => True

/-- the library answers for all that is asked for in the store -/
def StoreOK (L : Lib D V) (st : Store D V) : Prop := ∀ p ∈ st.pats, NodeOK L p

theorem k_push {p : Pat D V} (hp : NodeOK L p := by exact True.intro) : K0 (StoreOK L) (push p) := by
  intro st hs
  unfold push
  split
  · exact ⟨fun h => (by cases h), fun _ _ h => by cases h⟩
  · split
    · exact ⟨fun h => (by cases h), fun _ _ h => by cases h; exact ⟨hs, trivial⟩⟩
    · refine ⟨fun h => (by cases h), fun _ _ h => ?_⟩
      cases h
      refine ⟨fun q hq => ?_, trivial⟩
      rcases List.mem_append.1 hq with hq | hq
      · exact hs q hq
      · rw [List.mem_singleton] at hq; subst hq; exact hp

theorem k_patt (i : Nat) : K (StoreOK L) (NodeOK L) (patt i : SM D V (Pat D V)) := by
  intro st hs
  unfold patt
  split
  · rename_i p hp
    exact ⟨fun h => (by cases h), fun _ _ h => by cases h; exact ⟨hs, hs p (List.mem_of_getElem? hp)⟩⟩
  · exact ⟨fun h => (by cases h), fun _ _ h => by cases h⟩

theorem k_choice (l r : Nat) : K0 (StoreOK L) (choice l r : SM D V Nat) := by
  refine (k_patt l).bind fun a _ => (k_patt r).bind fun b _ => ?_
  split
  · exact .pure0
  · exact .pure0
  · exact .ite .pure0 (k_push)

theorem k_interleave (l r : Nat) : K0 (StoreOK L) (interleave l r : SM D V Nat) := by
  refine (k_patt l).bind fun a _ => (k_patt r).bind fun b _ => ?_
  split
  · exact k_push
  · exact k_push
  · exact .pure0
  · exact .pure0
  · exact k_push

theorem k_group (l r : Nat) : K0 (StoreOK L) (group l r : SM D V Nat) := by
  refine (k_patt l).bind fun a _ => (k_patt r).bind fun b _ => ?_
  split
  · exact k_push
  · exact k_push
  · exact .pure0
  · exact .pure0
  · exact k_push

theorem k_after (l r : Nat) : K0 (StoreOK L) (after l r : SM D V Nat) := by
  refine (k_patt l).bind fun a _ => (k_patt l).bind fun b _ => ?_
  split <;> exact k_push

theorem k_oneOrMore (l : Nat) : K0 (StoreOK L) (oneOrMore l : SM D V Nat) := (k_patt l).bind fun _ _ => k_push

theorem k_checkD {d : D} (h : ∀ s, L.validD d s ≠ none) (s : Str) : K0 (StoreOK L) (checkD L d s : SM D V Bool) := by
  unfold checkD
  cases h' : L.validD d s with
  | none => exact absurd h' (h s)
  | some b => exact .pure0

theorem k_checkV {d : V} (h : ∀ s, L.validV d s ≠ none) (s : Str) : K0 (StoreOK L) (checkV L d s : SM D V Bool) := by
  unfold checkV
  cases h' : L.validV d s with
  | none => exact absurd h' (h s)
  | some b => exact .pure0

theorem k_listLoop {f : Pat D V → Str → SM D V Nat} (h : ∀ p t, NodeOK L p → K0 (StoreOK L) (f p t)) :
    ∀ (ws : List Str) (i : Nat), K0 (StoreOK L) (listLoop f i ws)
  | [], _ => .pure0
  | w :: ws, i => by
    simp only [listLoop]
    exact (k_patt i).bind fun _ hp => (h _ _ hp).bind fun _ _ => (k_patt _).bind fun _ _ => .ite .pure0 (k_listLoop h ws _)

theorem k_textDeriv : ∀ (n : Nat) (p : Pat D V) (t : Str), NodeOK L p → K0 (StoreOK L) (textDeriv L n p t)
  | 0, _, _, _ => .fault nofun
  | n + 1, p, t, hp => by
    have ih := k_textDeriv n
    cases p with
    | choice l r f =>
      exact (k_patt _).bind fun _ h1 => (k_patt _).bind fun _ h2 => (ih _ _ h1).bind fun _ _ => (ih _ _ h2).bind fun _ _ => k_choice _ _
    | interleave l r f =>
      exact (k_patt _).bind fun _ h1 => (k_patt _).bind fun _ h2 => (ih _ _ h1).bind fun _ _ => (k_interleave _ _).bind fun _ _ =>
        (ih _ _ h2).bind fun _ _ => (k_interleave _ _).bind fun _ _ => k_choice _ _
    | group l r f =>
      exact (k_patt _).bind fun _ h1 => (k_patt _).bind fun _ h2 => (ih _ _ h1).bind fun _ _ => (k_group _ _).bind fun _ _ =>
        .ite ((ih _ _ h2).bind fun _ _ => k_choice _ _) .pure0
    | after l r => exact (k_patt _).bind fun _ h1 => (ih _ _ h1).bind fun _ _ => k_after _ _
    | oneOrMore i f =>
      exact (k_patt _).bind fun _ h1 => (ih _ _ h1).bind fun _ _ => (k_oneOrMore _).bind fun _ _ => (k_push).bind fun _ _ =>
        (k_choice _ _).bind fun _ _ => k_group _ _
    | text => exact k_push
    | datatype d => exact (k_checkD hp t).bind fun _ _ => .ite (k_push) (k_push)
    | datatypeValue d => exact (k_checkV hp t).bind fun _ _ => .ite (k_push) (k_push)
    | datatypeExcept d ex =>
      exact (k_patt _).bind fun _ h1 => (ih _ _ h1).bind fun _ _ => (k_patt _).bind fun _ _ => (k_checkD hp t).bind fun _ _ =>
        .ite (k_push) (k_push)
    | list i =>
      exact (k_listLoop (fun p t h => ih p t h) _ _).bind fun _ _ => .ite .pure0 ((k_patt _).bind fun _ _ => .ite .pure0
        (.ite ((k_push).bind fun _ _ => (k_push).bind fun _ _ => k_choice _ _) (k_push)))
    | empty => exact .ite (k_push) (k_push)
    | notAllowed => exact k_push
    | attr nc i => exact k_push
    | element nc i => exact .ite (k_push) (k_push)
    | placeholder n => exact .fault nofun

theorem k_applyAfter {f : Nat → SM D V Nat} (hf : ∀ i, K0 (StoreOK L) (f i)) : ∀ (n : Nat) (p : Pat D V), K0 (StoreOK L) (applyAfter f n p)
  | 0, _ => .fault nofun
  | n + 1, p => by
    have ih := k_applyAfter hf n
    cases p with
    | choice l r b =>
      exact (k_patt _).bind fun _ _ => (k_patt _).bind fun _ _ => (ih _).bind fun _ _ => (ih _).bind fun _ _ => k_choice _ _
    | after l r => exact (hf _).bind fun _ _ => k_after _ _
    | notAllowed => exact k_push
    | _ => exact .fault nofun

theorem k_startTagOpenDeriv (nm : QName) : ∀ (n : Nat) (p : Pat D V), K0 (StoreOK L) (startTagOpenDeriv n p nm)
  | 0, _ => .fault nofun
  | n + 1, p => by
    have ih := k_startTagOpenDeriv nm n
    cases p with
    | choice l r b =>
      exact (k_patt _).bind fun _ _ => (k_patt _).bind fun _ _ => (ih _).bind fun _ _ => (ih _).bind fun _ _ => k_choice _ _
    | oneOrMore i b =>
      exact (k_patt _).bind fun _ _ => (ih _).bind fun _ _ => (k_patt _).bind fun _ _ =>
        k_applyAfter (fun i => (k_oneOrMore _).bind fun _ _ => (k_push).bind fun _ _ => (k_choice _ _).bind fun _ _ =>
          k_group _ _) n _
    | interleave l r b =>
      exact (k_patt _).bind fun _ _ => (k_patt _).bind fun _ _ => (ih _).bind fun _ _ => (k_patt _).bind fun _ _ =>
        (k_applyAfter (fun i => k_interleave _ _) n _).bind fun _ _ => (ih _).bind fun _ _ => (k_patt _).bind fun _ _ =>
        (k_applyAfter (fun i => k_interleave _ _) n _).bind fun _ _ => k_choice _ _
    | group l r b =>
      exact (k_patt _).bind fun _ _ => (k_patt _).bind fun _ _ => (ih _).bind fun _ _ => (k_patt _).bind fun _ _ =>
        (k_applyAfter (fun i => k_group _ _) n _).bind fun _ _ =>
          .ite ((k_patt _).bind fun _ _ => (ih _).bind fun _ _ => k_choice _ _) .pure0
    | after l r =>
      exact (k_patt _).bind fun _ _ => (ih _).bind fun _ _ => (k_patt _).bind fun _ _ =>
        k_applyAfter (fun i => k_after _ _) n _
    | element nc i => exact .ite ((k_push).bind fun _ _ => k_after _ _) (k_push)
    | placeholder n => exact .fault nofun
    | _ => exact k_push

theorem k_attDeriv (a : Attr) : ∀ (n : Nat) (m : AttMemo) (p : Nat), K0 (StoreOK L) (attDeriv L n m p a)
  | 0, _, _ => .fault nofun
  | n + 1, m, p => by
    have ih := k_attDeriv a n
    rw [attDeriv]
    cases m.lookup p with
    | some r => exact .pure0
    | none =>
      refine (k_patt _).bind fun pat _ => K.bind (P := fun _ => True) ?_ fun _ _ => .pure0
      cases pat with
      | after p1 p2 => exact (ih _ _).bind fun _ _ => (k_after _ _).bind fun _ _ => .pure0
      | choice p1 p2 f => exact (ih _ _).bind fun _ _ => (ih _ _).bind fun _ _ => (k_choice _ _).bind fun _ _ => .pure0
      | group p1 p2 f => exact (ih _ _).bind fun _ _ => (k_group _ _).bind fun _ _ => (ih _ _).bind fun _ _ =>
          (k_group _ _).bind fun _ _ => (k_choice _ _).bind fun _ _ => .pure0
      | interleave p1 p2 f => exact (ih _ _).bind fun _ _ => (k_interleave _ _).bind fun _ _ => (ih _ _).bind fun _ _ =>
          (k_interleave _ _).bind fun _ _ => (k_choice _ _).bind fun _ _ => .pure0
      | oneOrMore p f => exact (ih _ _).bind fun _ _ => (k_push).bind fun _ _ => (k_choice _ _).bind fun _ _ =>
          (k_group _ _).bind fun _ _ => .pure0
      | attr nc p =>
        exact (k_patt _).bind fun _ h1 => .ite ((K.ite .pure0 ((k_textDeriv n _ _ h1).bind fun _ _ =>
          (k_patt _).bind fun _ _ => .pure0)).bind fun _ _ => (K.ite (k_push) (k_push)).bind fun _ _ => .pure0)
          ((k_push).bind fun _ _ => .pure0)
      | _ => exact (k_push).bind fun _ _ => .pure0

theorem k_startTagCloseDeriv : ∀ (n : Nat) (p : Nat), K0 (StoreOK L) (startTagCloseDeriv n p : SM D V Nat)
  | 0, _ => .fault nofun
  | n + 1, p => by
    have ih := k_startTagCloseDeriv n
    rw [startTagCloseDeriv]
    refine (k_patt _).bind fun pat _ => ?_
    cases pat with
    | after p1 p2 => exact (ih _).bind fun _ _ => k_after _ _
    | choice p1 p2 f => exact (ih _).bind fun _ _ => (ih _).bind fun _ _ => k_choice _ _
    | group p1 p2 f => exact (ih _).bind fun _ _ => (ih _).bind fun _ _ => k_group _ _
    | interleave p1 p2 f => exact (ih _).bind fun _ _ => (ih _).bind fun _ _ => k_interleave _ _
    | oneOrMore p f => exact (ih _).bind fun _ _ => k_oneOrMore _
    | attr nc p => exact k_push
    | _ => exact .pure0

theorem k_endTagDeriv : ∀ (n : Nat) (p : Pat D V), K0 (StoreOK L) (endTagDeriv n p)
  | 0, _ => .fault nofun
  | n + 1, p => by
    have ih := k_endTagDeriv n
    cases p with
    | choice p1 p2 f =>
      exact (k_patt _).bind fun _ _ => (k_patt _).bind fun _ _ => (ih _).bind fun _ _ => (ih _).bind fun _ _ => k_choice _ _
    | after p1 p2 => exact (k_patt _).bind fun _ _ => .ite .pure0 (k_push)
    | _ => exact k_push

theorem k_attsLoop (n : Nat) : ∀ (as : List Attr) (p : Nat), K0 (StoreOK L) (attsLoop L n p as)
  | [], _ => .pure0
  | a :: as, p => by
    simp only [attsLoop]
    exact (k_attDeriv a n [] p).bind fun _ _ => (k_patt _).bind fun _ _ => .ite .pure0 (k_attsLoop n as _)

theorem k_closeElementStart (n : Nat) (stack : ElementStack) (evt : Token) (p : Pat D V) :
    K0 (StoreOK L) (closeElementStart L n stack evt p) := by
  unfold closeElementStart
  cases currentElement stack with
  | none => exact .fault nofun
  | some r =>
    cases r with
    | error e => exact .pure0
    | ok nm =>
      refine (k_startTagOpenDeriv nm n p).bind fun d _ => (k_patt _).bind fun dp _ => .ite .pure0 ?_
      cases currentAttributes stack with
      | none => exact .fault nofun
      | some r =>
        cases r with
        | error e => exact .pure0
        | ok as =>
          refine (k_attsLoop n as d).bind fun r _ => ?_
          cases r with
          | error e => exact .pure0
          | ok d2 =>
            exact (k_patt _).bind fun p2 _ => .ite .pure0 ((k_startTagCloseDeriv n d2).bind fun _ _ =>
              (k_patt _).bind fun _ _ => .ite .pure0 .pure0)

theorem k_endTagStep (n : Nat) (b : Bool) {p : Pat D V} (hp : NodeOK L p) : K0 (StoreOK L) (endTagStep L n b p) := by
  unfold endTagStep
  exact .ite ((k_textDeriv n p [] hp).bind fun _ _ => (k_patt _).bind fun _ _ => k_endTagDeriv n _) (k_endTagDeriv n p)

/-- the same of a validator -/
def ValOK (L : Lib D V) (s : VState D V) : Prop := StoreOK L s.store

theorem K.lift {α : Type} {P : α → Prop} {x : SM D V α} (h : K (StoreOK L) P x) : K (ValOK L) P (liftS x) := by
  intro s hs
  obtain ⟨h1, h2⟩ := h s.store hs
  simp only [liftS]
  cases hx : x s.store with
  | error e =>
    refine ⟨fun he => ?_, fun _ _ h => by cases h⟩
    cases he; exact h1 hx
  | ok r =>
    obtain ⟨a, st⟩ := r
    exact ⟨fun h => (by cases h), fun _ _ h => by cases h; exact h2 a st hx⟩

theorem k_set {s0 s : VState D V} (h : ValOK L s0) (e : s.store = s0.store := by rfl) : K0 (ValOK L) (ST.set s : ST (VState D V) Unit) :=
  K.set (show StoreOK L s.store from e ▸ h)

theorem k_finish (t : Token) (i : Nat) : K0 (ValOK L) (finish t i : ST (VState D V) _) :=
  K.get.bind fun _ hs => (k_set hs).bind fun _ _ => (K.lift (k_patt i)).bind fun _ _ => .ite .pure0
    (K.get.bind fun _ hs => (k_set hs).bind fun _ _ => .pure0)

theorem k_validate (n : Nat) (t : Token) : K0 (ValOK L) (validate L n t) := by
  unfold validate
  refine K.get.bind fun s hs => (K.lift (k_patt _)).bind fun p hp => ?_
  cases t with
  | text t =>
    simp only
    cases decodeText s.entities t with
    | error e => exact .pure0
    | ok d =>
      exact (K.lift (k_textDeriv n p d hp)).bind fun _ _ => (K.lift (k_patt _)).bind fun _ _ =>
        .ite .pure0 (k_finish _ _)
  | cdata t => exact (K.lift (k_textDeriv n p t hp)).bind fun _ _ => k_finish _ _
  | elementEnd e =>
    cases e with
    | «open» =>
      refine (K.lift (k_closeElementStart n _ _ p)).bind fun r _ => ?_
      cases r with
      | error e => exact .pure0
      | ok i => exact k_finish _ _
    | close a b => exact (K.lift (k_endTagStep n _ hp)).bind fun r _ => k_finish _ _
    | empty =>
      refine (K.lift (k_closeElementStart n _ _ p)).bind fun r _ => ?_
      cases r with
      | error e => exact .pure0
      | ok i => exact (K.lift (k_patt _)).bind fun q hq => (K.lift (k_endTagStep n _ hq)).bind fun _ _ => k_finish _ _
  | «attribute» a b c =>
    simp only
    cases s.stack with
    | nil => exact .fault nofun
    | cons e es => exact (k_set hs).bind fun _ _ => .pure0
  | elementStart a b => exact (k_set hs).bind fun _ _ => .pure0
  | entityDeclaration a b =>
    cases b with
    | entityValue v => exact (k_set hs).bind fun _ _ => .pure0
    | externalId => exact .pure0
  | _ => exact .pure0

theorem k_runEvents (n : Nat) : ∀ es, K0 (ValOK L) (runEvents L n es)
  | [] => .pure0
  | e :: es => by
    simp only [runEvents]
    refine K.bind (P := fun _ => True) ?_ fun _ _ => (k_runEvents n es).bind fun _ _ => .pure0
    cases e with
    | none => exact .pure0
    | some t => exact k_validate n t

theorem k_runToks (n : Nat) : ∀ ts, K0 (ValOK L) (runToks L n ts)
  | [] => .pure0
  | t :: ts => by
    simp only [runToks]
    refine (k_validate n t).bind fun r _ => ?_
    cases r with
    | error e => exact .pure0
    | ok u => exact k_runToks n ts

/-! ### building the validator -/
variable {env : Env D V}

theorem mem_asksL {p : Pattern D V} {a : D ⊕ V} : ∀ {ps : List (Pattern D V)}, p ∈ ps → a ∈ asks p → a ∈ asksL ps
  | q :: qs, h, ha => by
    rw [asksL, List.mem_append]
    rcases List.mem_cons.1 h with h | h
    · rw [h] at ha; exact .inl ha
    · exact .inr (mem_asksL h ha)

theorem Uses.mono {p q : Pattern D V} (h : ∀ n ∈ p.refs, n ∈ q.refs) {n : Nat} : Uses env p n → Uses env q n
  | .here hn => .here (h _ hn)
  | .there hm he hu => .there (h _ hm) he hu

theorem Answered.sub {p q : Pattern D V} (h : Answered L env q) (ha : ∀ a ∈ asks p, a ∈ asks q) (hr : ∀ n ∈ p.refs, n ∈ q.refs) : Answered L env p :=
  ⟨fun a m => h.1 a (ha a m), fun n hu => h.2 n (Uses.mono hr hu)⟩

theorem Answered.ref {n : Nat} {q : Pattern D V} (h : Answered L env (.ref n)) (he : env[n]? = some q) : Answered L env q := by
  have hn : n ∈ (Pattern.ref n : Pattern D V).refs := by simp [Pattern.refs]
  exact ⟨h.2 n (.here hn) q he, fun m hu => h.2 m (.there hn he hu)⟩

theorem k_compileVec {c : Pattern D V → SM D V Nat} {op : Nat → Nat → SM D V Nat} (ho : ∀ l r, K0 (StoreOK L) (op l r)) :
    ∀ {ps : List (Pattern D V)}, (∀ p ∈ ps, K0 (StoreOK L) (c p)) → K0 (StoreOK L) (compileVec c op ps)
  | [], _ => .fault nofun
  | [p], h => h p (by simp)
  | p :: q :: ps, h => by
    rw [compileVec]
    exact (k_compileVec ho fun r hr => h r (List.mem_cons_of_mem _ hr)).bind fun _ _ => (h p (by simp)).bind fun _ _ => ho _ _

theorem k_resolveRef (ph id : Nat) : K0 (StoreOK L) (resolveRef ph id : SM D V Unit) := by
  unfold resolveRef
  refine .ite .pure0 ((k_patt id).bind fun target ht => .ite (.fault nofun) ((k_patt ph).bind fun _ _ => .ite ?_ (.fault nofun)))
  intro st hs
  refine ⟨fun h => (by cases h), fun _ _ h => ?_⟩
  cases h
  refine ⟨fun q hq => ?_, trivial⟩
  rcases List.mem_or_eq_of_mem_set hq with hq | rfl
  · exact hs q hq
  · exact ht

theorem k_refPlaceholder (n : Nat) : K0 (StoreOK L) (refPlaceholder n : SM D V Nat) :=
  (k_push).bind fun _ _ => fun _ hs => ⟨fun h => (by cases h), fun _ _ h => by cases h; exact ⟨hs, trivial⟩⟩

theorem k_getRef (n : Nat) : K0 (StoreOK L) (getRef n : SM D V (Option Nat)) := fun _ hs =>
  ⟨fun h => (by cases h), fun _ _ h => by cases h; exact ⟨hs, trivial⟩⟩

theorem k_compile : ∀ (n : Nat) (p : Pattern D V), Answered L env p → K0 (StoreOK L) (compile env n p)
  | 0, _, _ => .fault nofun
  | n + 1, p, h => by
    have ih := k_compile n
    cases p with
    | choice ps => exact k_compileVec k_choice fun q hq => ih q (h.sub (fun a ha => mem_asksL hq ha) fun m hm => Check.refsL_of hq hm)
    | interleave ps => exact k_compileVec k_interleave fun q hq => ih q (h.sub (fun a ha => mem_asksL hq ha) fun m hm => Check.refsL_of hq hm)
    | group ps => exact k_compileVec k_group fun q hq => ih q (h.sub (fun a ha => mem_asksL hq ha) fun m hm => Check.refsL_of hq hm)
    | mixed q => exact (ih q (h.sub (fun _ h => h) fun _ h => h)).bind fun _ _ => (k_push).bind fun _ _ => k_interleave _ _
    | empty => exact k_push
    | text => exact k_push
    | notAllowed => exact k_push
    | optional q => exact (ih q (h.sub (fun _ h => h) fun _ h => h)).bind fun _ _ => (k_push).bind fun _ _ => k_choice _ _
    | zeroOrMore q => exact (ih q (h.sub (fun _ h => h) fun _ h => h)).bind fun _ _ => (k_oneOrMore _).bind fun _ _ => (k_push).bind fun _ _ => k_choice _ _
    | oneOrMore q => exact (ih q (h.sub (fun _ h => h) fun _ h => h)).bind fun _ _ => k_oneOrMore _
    | attr nc q => exact (ih q (h.sub (fun _ h => h) fun _ h => h)).bind fun _ _ => k_push
    | element nc q => exact (ih q (h.sub (fun _ h => h) fun _ h => h)).bind fun _ _ => k_push
    | list q => exact (ih q (h.sub (fun _ h => h) fun _ h => h)).bind fun _ _ => k_push
    | datatypeValue v => exact k_push (h.1 (.inr v) (by simp [asks]))
    | datatypeName d => exact k_push (h.1 (.inl d) (by simp [asks]))
    | datatypeNameExcept d e =>
      exact (ih e (h.sub (fun a ha => by rw [asks]; exact List.mem_cons_of_mem _ ha) fun _ h => h)).bind fun _ _ =>
        k_push (p := .datatypeExcept d _) (h.1 (.inl d) (by simp [asks]))
    | ref r =>
      refine (k_getRef r).bind fun o _ => ?_
      cases o with
      | some id => exact .pure0
      | none =>
        refine (k_refPlaceholder r).bind fun ph _ => ?_
        cases he : env[r]? with
        | none => exact .fault nofun
        | some q => exact (ih q (h.ref he)).bind fun _ _ => (k_resolveRef _ _).bind fun _ _ => .pure0

theorem newValidator_ok' {n : Nat} {start : Pattern D V} {s0 : VState D V} (h : Answered L env start) (hn : newValidator env n start = .ok s0) : ValOK L s0 := by
  unfold newValidator at hn
  cases hc : compile env n start Store.init with
  | error e => rw [hc] at hn; cases hn
  | ok r =>
    obtain ⟨id, st⟩ := r
    rw [hc] at hn
    cases hn
    exact ((k_compile n start h) Store.init (fun p hp => by cases hp)).2 id st hc |>.1

theorem events_sure {n m : Nat} {start : Pattern D V} {s0 : VState D V} (h : Answered L env start) (hn : newValidator env n start = .ok s0)
    (es : List Event) : runEvents L m es s0 ≠ .error .unimplemented :=
  (k_runEvents m es s0 (newValidator_ok' h hn)).1

theorem toks_sure {n m : Nat} {start : Pattern D V} {s0 : VState D V} (h : Answered L env start) (hn : newValidator env n start = .ok s0)
    (ts : List Token) : runToks L m ts s0 ≠ .error .unimplemented :=
  (k_runToks m ts s0 (newValidator_ok' h hn)).1

/-- a run that stops at the first error aborts only if one that goes on does -/
theorem toks_events {e : Fault} {n : Nat} : ∀ {ts : List Token} {s : VState D V}, runToks L n ts s = .error e → runEvents L n (ts.map some) s = .error e
  | [], s, h => by simp [runToks] at h
  | t :: ts, s, h => by
    simp only [runToks] at h
    simp only [List.map_cons, runEvents, validateEvent]
    cases hv : validate L n t s with
    | error f => rw [ST.bind_of_error hv] at h; rw [ST.bind_of_error hv]; cases h; rfl
    | ok r =>
      obtain ⟨r, s1⟩ := r
      rw [ST.bind_of_ok hv] at h ⊢
      cases r with
      | error f => simp at h
      | ok u => exact ST.bind_of_error (toks_events h)
end

/-! ### the libraries of the validator -/
theorem written_iff (x : Ext) (a : Datatypes ⊕ DatatypeValues) : written a = true ↔ Answers (stdLib x) a := by
  cases a with
  | inl d =>
    cases d with
    | relax d => exact ⟨fun _ s h => (by cases h), fun _ => rfl⟩
    | xsd d =>
      cases d <;> first
        | exact ⟨fun h => (by cases h), fun h => absurd rfl (h [])⟩
        | exact ⟨fun _ s h => (by cases h), fun _ => rfl⟩
  | inr v =>
    cases v with
    | relax v => exact ⟨fun _ s h => (by cases h), fun _ => rfl⟩
    | xsd v =>
      cases v with
      | string s => exact ⟨fun _ s h => (by cases h), fun _ => rfl⟩
      | token s => exact ⟨fun _ s h => (by cases h), fun _ => rfl⟩
      | qname q =>
        refine ⟨fun h => (by cases h), fun h => absurd ?_ (h "p:a".toList)⟩
        have : qnameVal "p:a".toList = .panic := by decide
        show DatatypeValues.isValid (.xsd (.qname q)) "p:a".toList = none
        simp only [DatatypeValues.isValid, XsdValue.isValid, this]

theorem allWritten_sound {env : Env Datatypes DatatypeValues} {k : Nat} {start : Pattern Datatypes DatatypeValues} (x : Ext)
    (h : allWritten env k start = true) : Answered (stdLib x) env start := by
  simp only [allWritten, Bool.and_eq_true] at h
  obtain ⟨h1, h2⟩ := Check.closed_sound h.1.1
  refine ⟨fun a ha => (written_iff x a).1 (List.all_eq_true.1 h.1.2 a ha), fun n hu q hq a ha => ?_⟩
  have := List.all_eq_true.1 h.2 n (Check.reach_mem h2 hu h1)
  rw [hq] at this
  exact (written_iff x a).1 (List.all_eq_true.1 this a ha)

end Verif.Sure
