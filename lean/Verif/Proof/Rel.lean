import Verif.Proof.Triple
/-
Relational form of the derivative functions over a fixed (final) store, and the proof that the code
follows it.
-/
set_option linter.unusedSectionVars false
namespace Verif
variable {D V : Type}

/-- a text derivative, or the token loop of a list -/
inductive Job (D V : Type) where
  | txt (p : Pat D V) (t : Str)
  | loop (i : Nat) (items : List Str)

section
variable (L : Lib D V) (lk : Lk D V)

def ListOf (lk : Lk D V) (r i : Nat) : Prop :=
  ∃ q, lk r = some q ∧
    ((q = .notAllowed ∧ i = r) ∨ (q = .empty ∧ i = r) ∨
     (q.nullable = true ∧ ∃ l e, lk l = some (.list r) ∧ lk e = some .empty ∧ ChoiceOf lk l e i) ∨
     (q.nullable = false ∧ lk i = some (.list r)))

inductive TD : Job D V → Nat → Prop
  | choice {l r f p q t a b i} : lk l = some p → lk r = some q → TD (.txt p t) a →
      TD (.txt q t) b → ChoiceOf lk a b i → TD (.txt (.choice l r f) t) i
  | interleave {l r f p q t d1 d2 a b i} : lk l = some p → lk r = some q → TD (.txt p t) d1 →
      TD (.txt q t) d2 → InterOf lk d1 r a → InterOf lk l d2 b → ChoiceOf lk a b i →
      TD (.txt (.interleave l r f) t) i
  | groupN {l r f p q t d1 d2 a i} : lk l = some p → lk r = some q → p.nullable = true →
      TD (.txt p t) d1 → TD (.txt q t) d2 → GroupOf lk d1 r a → ChoiceOf lk a d2 i →
      TD (.txt (.group l r f) t) i
  | group {l r f p q t d1 i} : lk l = some p → lk r = some q → p.nullable = false →
      TD (.txt p t) d1 → GroupOf lk d1 r i → TD (.txt (.group l r f) t) i
  | after {l r p t d i} : lk l = some p → TD (.txt p t) d → AfterOf lk d r i →
      TD (.txt (.after l r) t) i
  | oneOrMore {j f p t d o e c i} : lk j = some p → TD (.txt p t) d → OneOf lk j o →
      lk e = some .empty → ChoiceOf lk o e c → GroupOf lk d c i → TD (.txt (.oneOrMore j f) t) i
  | text {t i} : lk i = some .text → TD (.txt .text t) i
  | datatype {d t b i} : L.validD d t = some b →
      lk i = some (if b then .empty else .notAllowed) → TD (.txt (.datatype d) t) i
  | datatypeValue {v t b i} : L.validV v t = some b →
      lk i = some (if b then .empty else .notAllowed) → TD (.txt (.datatypeValue v) t) i
  | datatypeExcept {d e p j q t b i} : lk e = some p → TD (.txt p t) j → lk j = some q →
      L.validD d t = some b → lk i = some (if b && !q.nullable then .empty else .notAllowed) →
      TD (.txt (.datatypeExcept d e) t) i
  | list {j r t i} : TD (.loop j (splitWs t)) r → ListOf lk r i → TD (.txt (.list j) t) i
  | empty {t i} : lk i = some (if isWsStr t then .empty else .notAllowed) → TD (.txt .empty t) i
  | notAllowed {t i} : lk i = some .notAllowed → TD (.txt .notAllowed t) i
  | attr {nc j t i} : lk i = some .notAllowed → TD (.txt (.attr nc j) t) i
  | element {nc j t i} : lk i = some (if isWsStr t then .element nc j else .notAllowed) →
      TD (.txt (.element nc j) t) i
  | loopNil {i} : TD (.loop i []) i
  | loopStop {i p item rest j} : lk i = some p → TD (.txt p item) j → lk j = some .notAllowed →
      TD (.loop i (item :: rest)) j
  | loopStep {i p item rest j r} : lk i = some p → TD (.txt p item) j →
      TD (.loop j rest) r → TD (.loop i (item :: rest)) r

/-- `apply_after` with continuation relation `F` -/
inductive AA (F : Nat → Nat → Prop) : Pat D V → Nat → Prop
  | after {p1 p2 j i} : F p2 j → AfterOf lk p1 j i → AA F (.after p1 p2) i
  | choice {l r f p q a b i} : lk l = some p → lk r = some q → AA F p a → AA F q b →
      ChoiceOf lk a b i → AA F (.choice l r f) i
  | notAllowed {i} : lk i = some .notAllowed → AA F .notAllowed i

/-- the continuation of the one-or-more case: group with `(p+)?` -/
def MoreOf (lk : Lk D V) (pid j i : Nat) : Prop :=
  ∃ o e c, OneOf lk pid o ∧ lk e = some .empty ∧ ChoiceOf lk o e c ∧ GroupOf lk j c i

inductive STD (nm : QName) : Pat D V → Nat → Prop
  | choice {l r f p q a b i} : lk l = some p → lk r = some q → STD nm p a → STD nm q b →
      ChoiceOf lk a b i → STD nm (.choice l r f) i
  | oneOrMore {j f p d dp i} : lk j = some p → STD nm p d → lk d = some dp →
      AA lk (MoreOf lk j) dp i → STD nm (.oneOrMore j f) i
  | interleave {l r f p q d1 dp1 c1 d2 dp2 c2 i} : lk l = some p → lk r = some q →
      STD nm p d1 → lk d1 = some dp1 → AA lk (fun j i => InterOf lk j r i) dp1 c1 →
      STD nm q d2 → lk d2 = some dp2 → AA lk (fun j i => InterOf lk l j i) dp2 c2 →
      ChoiceOf lk c1 c2 i → STD nm (.interleave l r f) i
  | groupN {l r f p q d1 dp1 x d2 i} : lk l = some p → lk r = some q → p.nullable = true →
      STD nm p d1 → lk d1 = some dp1 → AA lk (fun j i => GroupOf lk j r i) dp1 x →
      STD nm q d2 → ChoiceOf lk x d2 i → STD nm (.group l r f) i
  | group {l r f p q d1 dp1 i} : lk l = some p → lk r = some q → p.nullable = false →
      STD nm p d1 → lk d1 = some dp1 → AA lk (fun j i => GroupOf lk j r i) dp1 i →
      STD nm (.group l r f) i
  | element {nc j e i} : contains nc nm = true → lk e = some .empty → AfterOf lk j e i →
      STD nm (.element nc j) i
  | elementNo {nc j i} : contains nc nm = false → lk i = some .notAllowed →
      STD nm (.element nc j) i
  | after {l r p d dp i} : lk l = some p → STD nm p d → lk d = some dp →
      AA lk (fun j i => AfterOf lk j r i) dp i → STD nm (.after l r) i
  | other {p i} : (p = .empty ∨ p = .text ∨ p = .notAllowed ∨ (∃ nc j, p = .attr nc j) ∨
      (∃ d, p = .datatype d) ∨ (∃ v, p = .datatypeValue v) ∨ (∃ d e, p = .datatypeExcept d e) ∨
      (∃ j, p = .list j)) → lk i = some .notAllowed → STD nm p i

/-- `value_match` -/
def VM (p : Pat D V) (v : Str) (b : Bool) : Prop :=
  (p.nullable = true ∧ isWsStr v = true ∧ b = true) ∨
  (∃ d q, TD L lk (.txt p v) d ∧ lk d = some q ∧ b = q.nullable ∧
    (p.nullable && isWsStr v) = false)

inductive AT (x : Attr) : Nat → Nat → Prop
  | after {i p1 p2 d r} : lk i = some (.after p1 p2) → AT x p1 d → AfterOf lk d p2 r → AT x i r
  | choice {i l r f a b v} : lk i = some (.choice l r f) → AT x l a → AT x r b →
      ChoiceOf lk a b v → AT x i v
  | group {i l r f d1 s1 d2 s2 v} : lk i = some (.group l r f) → AT x l d1 → GroupOf lk d1 r s1 →
      AT x r d2 → GroupOf lk l d2 s2 → ChoiceOf lk s1 s2 v → AT x i v
  | interleave {i l r f d1 s1 d2 s2 v} : lk i = some (.interleave l r f) → AT x l d1 →
      InterOf lk d1 r s1 → AT x r d2 → InterOf lk l d2 s2 → ChoiceOf lk s1 s2 v → AT x i v
  | oneOrMore {i p f d e c v} : lk i = some (.oneOrMore p f) → AT x p d → lk e = some .empty →
      ChoiceOf lk i e c → GroupOf lk d c v → AT x i v
  | attr {i nc j p b v} : lk i = some (.attr nc j) → lk j = some p → contains nc x.name = true →
      VM L lk p x.value b → lk v = some (if b then .empty else .notAllowed) → AT x i v
  | attrNo {i nc j v} : lk i = some (.attr nc j) → contains nc x.name = false →
      lk v = some .notAllowed → AT x i v
  | other {i p v} : lk i = some p → (p = .empty ∨ p = .text ∨ p = .notAllowed ∨
      (∃ nc j, p = .element nc j) ∨ (∃ d, p = .datatype d) ∨ (∃ v, p = .datatypeValue v) ∨
      (∃ d e, p = .datatypeExcept d e) ∨ (∃ j, p = .list j) ∨ (∃ j, p = .placeholder j)) →
      lk v = some .notAllowed → AT x i v

inductive STC : Nat → Nat → Prop
  | after {i p1 p2 d r} : lk i = some (.after p1 p2) → STC p1 d → AfterOf lk d p2 r → STC i r
  | choice {i l r f a b v} : lk i = some (.choice l r f) → STC l a → STC r b →
      ChoiceOf lk a b v → STC i v
  | group {i l r f a b v} : lk i = some (.group l r f) → STC l a → STC r b →
      GroupOf lk a b v → STC i v
  | interleave {i l r f a b v} : lk i = some (.interleave l r f) → STC l a → STC r b →
      InterOf lk a b v → STC i v
  | oneOrMore {i p f v} : lk i = some (.oneOrMore p f) → OneOf lk p v → STC i v
  | attr {i nc j v} : lk i = some (.attr nc j) → lk v = some .notAllowed → STC i v
  | other {i p} : lk i = some p → (p = .empty ∨ p = .text ∨ p = .notAllowed ∨
      (∃ nc j, p = .element nc j) ∨ (∃ d, p = .datatype d) ∨ (∃ v, p = .datatypeValue v) ∨
      (∃ d e, p = .datatypeExcept d e) ∨ (∃ j, p = .list j) ∨ (∃ j, p = .placeholder j)) →
      STC i i

inductive ETD : Pat D V → Nat → Prop
  | choice {l r f p q a b i} : lk l = some p → lk r = some q → ETD p a → ETD q b →
      ChoiceOf lk a b i → ETD (.choice l r f) i
  | after {l r p} : lk l = some p → p.nullable = true → ETD (.after l r) r
  | afterNo {l r p i} : lk l = some p → p.nullable = false → lk i = some .notAllowed →
      ETD (.after l r) i
  | other {p i} : (∀ l r f, p ≠ .choice l r f) → (∀ l r, p ≠ .after l r) →
      lk i = some .notAllowed → ETD p i

end

/-! ### the code follows the relations -/
section
variable [DecidableEq D] [DecidableEq V] (L : Lib D V)

theorem ok_checkD (d : D) (s : Str) :
    Ok (checkD L d s : SM D V _) (fun _ b => L.validD d s = some b) := by
  unfold checkD
  split
  · rename_i b hb
    exact Ok.pure fun _ => hb
  · exact Ok.fault

theorem ok_checkV (v : V) (s : Str) :
    Ok (checkV L v s : SM D V _) (fun _ b => L.validV v s = some b) := by
  unfold checkV
  split
  · rename_i b hb
    exact Ok.pure fun _ => hb
  · exact Ok.fault

theorem ok_listLoop {td : Pat D V → Str → SM D V Nat}
    (htd : ∀ p t, Ok (td p t) (fun lk i => TD L lk (.txt p t) i)) :
    ∀ (items : List Str) (i : Nat), Ok (listLoop td i items)
      (fun lk r => TD L lk (.loop i items) r.1 ∧ (r.2 = true → lk r.1 = some .notAllowed)) := by
  intro items
  induction items with
  | nil => intro i; exact Ok.pure fun lk => ⟨.loopNil, by simp⟩
  | cons item rest ih =>
    intro i
    unfold listLoop
    refine Ok.bind (ok_patt i) fun p => Ok.bind (htd p item) fun j => Ok.bind (ok_patt j) fun q => ?_
    refine Ok.ite (fun hq => Ok.pure fun lk h1 h2 h3 => ?_) (fun hq => (ih j).mono ?_)
    · have : q = .notAllowed := by cases q <;> simp [Pat.isNotAllowed] at hq ⊢
      subst this
      exact ⟨.loopStop h3 h2 h1, fun _ => h1⟩
    · intro lk r ⟨h0, h0'⟩ h1 h2 h3
      exact ⟨.loopStep h3 h2 h0, h0'⟩

theorem ok_textDeriv : ∀ (n : Nat) (p : Pat D V) (t : Str),
    Ok (textDeriv L n p t) (fun lk i => TD L lk (.txt p t) i) := by
  intro n
  induction n with
  | zero => intro p t; exact Ok.fault
  | succ n ih =>
    intro p t
    unfold textDeriv
    cases p with
    | choice l r f =>
      exact Ok.bind (ok_patt l) fun p => Ok.bind (ok_patt r) fun q => Ok.bind (ih p t) fun a =>
        Ok.bind (ih q t) fun b => (ok_choice a b).mono fun lk i h0 h1 h2 h3 h4 =>
          .choice h4 h3 h2 h1 h0
    | interleave l r f =>
      exact Ok.bind (ok_patt l) fun p => Ok.bind (ok_patt r) fun q => Ok.bind (ih p t) fun d1 =>
        Ok.bind (ok_interleave d1 r) fun a => Ok.bind (ih q t) fun d2 =>
        Ok.bind (ok_interleave l d2) fun b => (ok_choice a b).mono fun lk i h0 h1 h2 h3 h4 h5 h6 =>
          .interleave h6 h5 h4 h2 h3 h1 h0
    | group l r f =>
      refine Ok.bind (ok_patt l) fun p => Ok.bind (ok_patt r) fun q => Ok.bind (ih p t) fun d1 =>
        Ok.bind (ok_group d1 r) fun a => Ok.ite (fun h => ?_) (fun h => ?_)
      · exact Ok.bind (ih q t) fun d2 => (ok_choice a d2).mono fun lk i h0 h1 h2 h3 h4 h5 =>
          .groupN h5 h4 h h3 h1 h2 h0
      · exact Ok.pure fun lk h2 h3 h4 h5 => .group h5 h4 (by simpa using h) h3 h2
    | oneOrMore j f =>
      exact Ok.bind (ok_patt j) fun p => Ok.bind (ih p t) fun d => Ok.bind (ok_oneOrMore j) fun o =>
        Ok.bind ok_mkEmpty fun e => Ok.bind (ok_choice o e) fun c => (ok_group d c).mono
          fun lk i h0 h1 h2 h3 h4 h5 => .oneOrMore h5 h4 h3 h2 h1 h0
    | empty =>
      refine Ok.ite (fun h => ok_mkEmpty.mono fun lk i hi => .empty ?_)
        (fun h => ok_notAllowed.mono fun lk i hi => .empty ?_)
      · simp [h, hi]
      · simp [h, hi]
    | text => exact ok_mkText.mono fun lk i hi => .text hi
    | notAllowed => exact ok_notAllowed.mono fun lk i hi => .notAllowed hi
    | attr nc j => exact ok_notAllowed.mono fun lk i hi => .attr hi
    | element nc j =>
      refine Ok.ite (fun h => (ok_push _ rfl).mono fun lk i hi => .element ?_)
        (fun h => ok_notAllowed.mono fun lk i hi => .element ?_)
      · simp [h, hi]
      · simp [h, hi]
    | datatype d =>
      refine Ok.bind (ok_checkD L d t) fun b => Ok.ite (fun h => ok_mkEmpty.mono ?_)
        (fun h => ok_notAllowed.mono ?_)
      · exact fun lk i hi hb => .datatype hb (by simp [h, hi])
      · exact fun lk i hi hb => .datatype hb (by simp [h, hi])
    | datatypeValue d =>
      refine Ok.bind (ok_checkV L d t) fun b => Ok.ite (fun h => ok_mkEmpty.mono ?_)
        (fun h => ok_notAllowed.mono ?_)
      · exact fun lk i hi hb => .datatypeValue hb (by simp [h, hi])
      · exact fun lk i hi hb => .datatypeValue hb (by simp [h, hi])
    | datatypeExcept d e =>
      refine Ok.bind (ok_patt e) fun p => Ok.bind (ih p t) fun j => Ok.bind (ok_patt j) fun q =>
        Ok.bind (ok_checkD L d t) fun b => Ok.ite (fun h => ok_mkEmpty.mono ?_)
        (fun h => ok_notAllowed.mono ?_)
      · exact fun lk i hi hb h3 h2 h1 => .datatypeExcept h1 h2 h3 hb (by rw [if_pos h]; exact hi)
      · exact fun lk i hi hb h3 h2 h1 => .datatypeExcept h1 h2 h3 hb (by rw [if_neg h]; exact hi)
    | list j =>
      refine Ok.bind (ok_listLoop L (ih) (splitWs t) j) fun r => Ok.ite (fun h => ?_) (fun h => ?_)
      · exact Ok.pure fun lk ⟨h1, h2⟩ => .list h1 ⟨_, h2 h, Or.inl ⟨rfl, rfl⟩⟩
      · refine Ok.bind (ok_patt r.1) fun q => Ok.ite (fun hq => ?_) (fun hq => Ok.ite ?_ ?_)
        · have : q = .empty := by cases q <;> simp [Pat.isEmpty] at hq ⊢
          subst this
          exact Ok.pure fun lk h1 h2 => .list h2.1 ⟨_, h1, Or.inr (Or.inl ⟨rfl, rfl⟩)⟩
        · intro hn
          exact Ok.bind (ok_push _ rfl) fun l => Ok.bind ok_mkEmpty fun e => (ok_choice l e).mono
            fun lk i h0 h1 h2 h3 h4 => .list h4.1
              ⟨_, h3, Or.inr (Or.inr (Or.inl ⟨hn, l, e, h2, h1, h0⟩))⟩
        · intro hn
          exact (ok_push _ rfl).mono fun lk i h0 h1 h2 => .list h2.1
              ⟨_, h1, Or.inr (Or.inr (Or.inr ⟨by simpa using hn, h0⟩))⟩
    | placeholder => exact Ok.fault
    | after l r =>
      exact Ok.bind (ok_patt l) fun p => Ok.bind (ih p t) fun d => (ok_after d r).mono
        fun lk i h0 h1 h2 => .after h2 h1 h0

theorem ok_applyAfter {f : Nat → SM D V Nat} {F : Lk D V → Nat → Nat → Prop}
    (hf : ∀ j, Ok (f j) (fun lk i => F lk j i)) :
    ∀ (n : Nat) (p : Pat D V), Ok (applyAfter f n p) (fun lk i => AA lk (F lk) p i) := by
  intro n
  induction n with
  | zero => intro p; exact Ok.fault
  | succ n ih =>
    intro p
    unfold applyAfter
    cases p with
    | after p1 p2 =>
      exact Ok.bind (hf p2) fun j => (ok_after p1 j).mono fun lk i h0 h1 => .after h1 h0
    | choice l r f =>
      exact Ok.bind (ok_patt l) fun p => Ok.bind (ok_patt r) fun q => Ok.bind (ih p) fun a =>
        Ok.bind (ih q) fun b => (ok_choice a b).mono fun lk i h0 h1 h2 h3 h4 =>
          .choice h4 h3 h2 h1 h0
    | notAllowed => exact ok_notAllowed.mono fun lk i hi => .notAllowed hi
    | _ => exact Ok.fault

theorem ok_startTagOpenDeriv (nm : QName) : ∀ (n : Nat) (p : Pat D V),
    Ok (startTagOpenDeriv n p nm) (fun lk i => STD lk nm p i) := by
  intro n
  induction n with
  | zero => intro p; exact Ok.fault
  | succ n ih =>
    intro p
    unfold startTagOpenDeriv
    cases p with
    | choice l r f =>
      exact Ok.bind (ok_patt l) fun p => Ok.bind (ok_patt r) fun q => Ok.bind (ih p) fun a =>
        Ok.bind (ih q) fun b => (ok_choice a b).mono fun lk i h0 h1 h2 h3 h4 =>
          .choice h4 h3 h2 h1 h0
    | oneOrMore j f =>
      refine Ok.bind (ok_patt j) fun p => Ok.bind (ih p) fun d => Ok.bind (ok_patt d) fun dp =>
        (ok_applyAfter (F := fun lk => MoreOf lk j) ?_ n dp).mono
          fun lk i h0 h1 h2 h3 => .oneOrMore h3 h2 h1 h0
      intro k
      exact Ok.bind (ok_oneOrMore j) fun o => Ok.bind ok_mkEmpty fun e => Ok.bind (ok_choice o e)
        fun c => (ok_group k c).mono fun lk i h0 h1 h2 h3 => ⟨o, e, c, h3, h2, h1, h0⟩
    | interleave l r f =>
      exact Ok.bind (ok_patt l) fun p => Ok.bind (ok_patt r) fun q => Ok.bind (ih p) fun d1 =>
        Ok.bind (ok_patt d1) fun dp1 =>
        Ok.bind (ok_applyAfter (F := fun lk j i => InterOf lk j r i)
          (fun j => ok_interleave j r) n dp1) fun c1 =>
        Ok.bind (ih q) fun d2 => Ok.bind (ok_patt d2) fun dp2 =>
        Ok.bind (ok_applyAfter (F := fun lk j i => InterOf lk l j i)
          (fun j => ok_interleave l j) n dp2) fun c2 =>
        (ok_choice c1 c2).mono fun lk i h0 h1 h2 h3 h4 h5 h6 h7 h8 =>
          .interleave h8 h7 h6 h5 h4 h3 h2 h1 h0
    | group l r f =>
      refine Ok.bind (ok_patt l) fun p => Ok.bind (ok_patt r) fun _ => Ok.bind (ih p) fun d1 =>
        Ok.bind (ok_patt d1) fun dp1 =>
        Ok.bind (ok_applyAfter (F := fun lk j i => GroupOf lk j r i)
          (fun j => ok_group j r) n dp1) fun x => Ok.ite (fun h => ?_) (fun h => ?_)
      · exact Ok.bind (ok_patt r) fun q => Ok.bind (ih q) fun d2 => (ok_choice x d2).mono
          fun lk i h0 h1 h2 h3 h4 h5 h6 h7 => .groupN h7 h2 h h5 h4 h3 h1 h0
      · exact Ok.pure fun lk h3 h4 h5 h6 h7 => .group h7 h6 (by simpa using h) h5 h4 h3
    | element nc j =>
      refine Ok.ite (fun h => ?_) (fun h => ?_)
      · exact Ok.bind ok_mkEmpty fun e => (ok_after j e).mono fun lk i h0 h1 => .element h h1 h0
      · exact ok_notAllowed.mono fun lk i hi => .elementNo (by simpa using h) hi
    | after l r =>
      exact Ok.bind (ok_patt l) fun p => Ok.bind (ih p) fun d => Ok.bind (ok_patt d) fun dp =>
        (ok_applyAfter (F := fun lk j i => AfterOf lk j r i) (fun j => ok_after j r) n dp).mono
          fun lk i h0 h1 h2 h3 => .after h3 h2 h1 h0
    | placeholder => exact Ok.fault
    | _ => exact ok_notAllowed.mono fun lk i hi => .other (by simp) hi

theorem ok_valueMatch (n : Nat) (p : Pat D V) (v : Str) :
    Ok (valueMatch L n p v) (fun lk b => VM L lk p v b) := by
  unfold valueMatch
  refine Ok.ite (fun h => ?_) (fun h => ?_)
  · simp at h
    exact Ok.pure fun lk => Or.inl ⟨h.1, h.2, rfl⟩
  · exact Ok.bind (ok_textDeriv L n p v) fun d => Ok.bind (ok_patt d) fun q => Ok.pure
      fun lk h1 h2 => Or.inr ⟨d, q, h2, h1, rfl, by simpa using h⟩

/-- every memo entry is the derivative of its key -/
def MemoRel (x : Attr) (lk : Lk D V) (memo : AttMemo) : Prop :=
  ∀ i r, memo.lookup i = some r → AT L lk x i r

theorem ok_attDeriv (x : Attr) : ∀ (n : Nat) (memo : AttMemo) (i : Nat),
    Ok (attDeriv L n memo i x) (fun lk r => MemoRel L x lk memo → AT L lk x i r.1 ∧
      MemoRel L x lk r.2) := by
  intro n
  induction n with
  | zero => intro memo i; exact Ok.fault
  | succ n ih =>
    intro memo i
    unfold attDeriv
    split
    · rename_i r hr
      exact Ok.pure fun lk hm => ⟨hm _ _ hr, hm⟩
    · refine Ok.bind (ok_patt i) fun p => Ok.bind (R := fun lk (r : Nat × AttMemo) => lk i = some p →
        MemoRel L x lk memo → AT L lk x i r.1 ∧ MemoRel L x lk r.2) ?_ fun r => Ok.pure ?_
      · unfold attArm
        cases p with
        | after p1 p2 =>
          refine Ok.bind (ih memo p1) fun d => Ok.bind (ok_after d.1 p2) fun v => Ok.pure ?_
          intro lk h1 h2 hi hm
          exact ⟨.after hi (h2 hm).1 h1, (h2 hm).2⟩
        | choice l r f =>
          refine Ok.bind (ih memo l) fun d => Ok.bind (ih d.2 r) fun d2 =>
            Ok.bind (ok_choice d.1 d2.1) fun v => Ok.pure ?_
          intro lk h1 h2 h3 hi hm
          exact ⟨.choice hi (h3 hm).1 (h2 (h3 hm).2).1 h1, (h2 (h3 hm).2).2⟩
        | group l r f =>
          refine Ok.bind (ih memo l) fun d => Ok.bind (ok_group d.1 r) fun s1 =>
            Ok.bind (ih d.2 r) fun d2 => Ok.bind (ok_group l d2.1) fun s2 =>
            Ok.bind (ok_choice s1 s2) fun v => Ok.pure ?_
          intro lk h1 h2 h3 h4 h5 hi hm
          exact ⟨.group hi (h5 hm).1 h4 (h3 (h5 hm).2).1 h2 h1, (h3 (h5 hm).2).2⟩
        | interleave l r f =>
          refine Ok.bind (ih memo l) fun d => Ok.bind (ok_interleave d.1 r) fun s1 =>
            Ok.bind (ih d.2 r) fun d2 => Ok.bind (ok_interleave l d2.1) fun s2 =>
            Ok.bind (ok_choice s1 s2) fun v => Ok.pure ?_
          intro lk h1 h2 h3 h4 h5 hi hm
          exact ⟨.interleave hi (h5 hm).1 h4 (h3 (h5 hm).2).1 h2 h1, (h3 (h5 hm).2).2⟩
        | oneOrMore j f =>
          refine Ok.bind (ih memo j) fun d => Ok.bind ok_mkEmpty fun e =>
            Ok.bind (ok_choice i e) fun c => Ok.bind (ok_group d.1 c) fun v => Ok.pure ?_
          intro lk h1 h2 h3 h4 hi hm
          exact ⟨.oneOrMore hi (h4 hm).1 h3 h2 h1, (h4 hm).2⟩
        | attr nc j =>
          refine Ok.bind (ok_patt j) fun q => Ok.ite (fun h => ?_) (fun h => ?_)
          · refine Ok.bind (ok_valueMatch L n q x.value) fun b =>
              Ok.bind (R := fun lk v => lk v = some (if b then .empty else .notAllowed))
                ?_ fun v => Ok.pure ?_
            · exact Ok.ite (fun h => ok_mkEmpty.mono fun lk v hv => by rw [if_pos h]; exact hv)
                (fun h => ok_notAllowed.mono fun lk v hv => by rw [if_neg h]; exact hv)
            · intro lk h1 h2 h3 hi hm
              exact ⟨.attr hi h3 h h2 h1, hm⟩
          · exact Ok.bind ok_notAllowed fun v => Ok.pure fun lk h1 h2 hi hm =>
              ⟨.attrNo hi (by simpa using h) h1, hm⟩
        | _ =>
          exact Ok.bind ok_notAllowed fun v => Ok.pure fun lk h1 hi hm =>
            ⟨.other hi (by simp) h1, hm⟩
      · intro lk h1 h2 hm
        obtain ⟨h3, h4⟩ := h1 h2 hm
        refine ⟨h3, ?_⟩
        intro j r' hj
        simp only [List.lookup_cons] at hj
        split at hj
        · rename_i heq
          have : j = i := by simpa using heq
          subst this; cases hj; exact h3
        · exact h4 _ _ hj

theorem ok_startTagCloseDeriv : ∀ (n i : Nat),
    Ok (startTagCloseDeriv n i : SM D V _) (fun lk r => STC lk i r) := by
  intro n
  induction n with
  | zero => intro i; exact Ok.fault
  | succ n ih =>
    intro i
    unfold startTagCloseDeriv
    refine Ok.bind (ok_patt i) fun p => ?_
    cases p with
    | after p1 p2 =>
      exact Ok.bind (ih p1) fun d => (ok_after d p2).mono fun lk v h1 h2 hi => .after hi h2 h1
    | choice l r f =>
      exact Ok.bind (ih l) fun a => Ok.bind (ih r) fun b => (ok_choice a b).mono
        fun lk v h1 h2 h3 hi => .choice hi h3 h2 h1
    | group l r f =>
      exact Ok.bind (ih l) fun a => Ok.bind (ih r) fun b => (ok_group a b).mono
        fun lk v h1 h2 h3 hi => .group hi h3 h2 h1
    | interleave l r f =>
      exact Ok.bind (ih l) fun a => Ok.bind (ih r) fun b => (ok_interleave a b).mono
        fun lk v h1 h2 h3 hi => .interleave hi h3 h2 h1
    | oneOrMore j f =>
      exact Ok.bind (ih j) fun a => (ok_oneOrMore j).mono fun lk v h1 h2 hi => .oneOrMore hi h1
    | attr nc j => exact ok_notAllowed.mono fun lk v h1 hi => .attr hi h1
    | _ => exact Ok.pure fun lk hi => .other hi (by simp)

theorem ok_endTagDeriv : ∀ (n : Nat) (p : Pat D V),
    Ok (endTagDeriv n p : SM D V _) (fun lk r => ETD lk p r) := by
  intro n
  induction n with
  | zero => intro p; exact Ok.fault
  | succ n ih =>
    intro p
    unfold endTagDeriv
    cases p with
    | choice l r f =>
      exact Ok.bind (ok_patt l) fun p => Ok.bind (ok_patt r) fun q => Ok.bind (ih p) fun a =>
        Ok.bind (ih q) fun b => (ok_choice a b).mono fun lk i h0 h1 h2 h3 h4 =>
          .choice h4 h3 h2 h1 h0
    | after l r =>
      exact Ok.bind (ok_patt l) fun p => Ok.ite (fun h => Ok.pure fun lk h1 => .after h1 h)
        (fun h => ok_notAllowed.mono fun lk i h0 h1 => .afterNo h1 (by simpa using h) h0)
    | _ => exact ok_notAllowed.mono fun lk i hi => .other (by simp) (by simp) hi

end
end Verif
