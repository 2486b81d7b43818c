import Verif.Model.CompactSpans
import Verif.Proof.CompactSound
/-
Reading a schema with positions is reading it without.
-/
namespace Verif.LCompact
open Verif Verif.At Verif.Compact Verif.Compact.P
variable {α β γ δ : Type}

/-- the same outcome, up to `R` -/
inductive ErRes (R : α → β → Prop) : PRes α → PRes β → Prop
  | ok {r a b} : R a b → ErRes R (.ok r a) (.ok r b)
  | err : ErRes R .err .err
  | fail : ErRes R .fail .fail
  | incomplete : ErRes R .incomplete .incomplete
  | panic : ErRes R .panic .panic
  | fuel : ErRes R .fuel .fuel

/-- two parsers with the same outcome, up to `R` -/
def Er (R : α → β → Prop) (p : P α) (q : P β) : Prop := ∀ i, ErRes R (p i) (q i)

theorem Er.same {p : P α} : Er (fun a b => b = a) p p := by
  intro i
  cases p i with
  | ok r a => exact .ok rfl
  | err => exact .err
  | fail => exact .fail
  | incomplete => exact .incomplete
  | panic => exact .panic
  | fuel => exact .fuel

theorem Er.weaken {R S : α → β → Prop} {p : P α} {q : P β} (h : Er R p q) (hw : ∀ a b, R a b → S a b) : Er S p q := by
  intro i
  have := h i
  generalize p i = x at *
  generalize q i = y at *
  cases this with
  | ok h => exact .ok (hw _ _ h)
  | err => exact .err
  | fail => exact .fail
  | incomplete => exact .incomplete
  | panic => exact .panic
  | fuel => exact .fuel

theorem Er.bind {R : α → β → Prop} {S : γ → δ → Prop} {p : P α} {q : P β} {f : α → P γ} {g : β → P δ} (h : Er R p q)
    (hf : ∀ a b, R a b → Er S (f a) (g b)) : Er S (p >>= f) (q >>= g) := by
  intro i
  show ErRes S (P.bind p f i) (P.bind q g i)
  unfold P.bind
  have := h i
  generalize p i = x at *
  generalize q i = y at *
  cases this with
  | ok h => exact hf _ _ h _
  | err => exact .err
  | fail => exact .fail
  | incomplete => exact .incomplete
  | panic => exact .panic
  | fuel => exact .fuel

/-- the same parser first -/
theorem Er.next {S : γ → δ → Prop} {p : P α} {f : α → P γ} {g : α → P δ} (hf : ∀ a, Er S (f a) (g a)) : Er S (p >>= f) (p >>= g) :=
  Er.bind (R := fun a b => b = a) .same fun a b e => by cases e; exact hf _

theorem Er.pure {R : α → β → Prop} {a : α} {b : β} (h : R a b) : Er R (pure a) (pure b) := fun _ => .ok h

theorem Er.position {t : Nat} {S : γ → δ → Prop} {f : Nat → P γ} {q : P δ} (h : ∀ k, Er S (f k) q) : Er S (position t >>= f) q :=
  fun i => h _ i

theorem Er.ranged {t : Nat} {R : α → β → Prop} {p : P α} {q : P β} (h : Er R p q) : Er (fun a b => R a.2 b) (ranged t p) q := by
  unfold LCompact.ranged
  refine .position fun s => ?_
  intro i
  show ErRes _ (P.bind p _ i) (q i)
  unfold P.bind
  have := h i
  generalize p i = x at *
  generalize q i = y at *
  cases this with
  | ok h => exact .ok h
  | err => exact .err
  | fail => exact .fail
  | incomplete => exact .incomplete
  | panic => exact .panic
  | fuel => exact .fuel

theorem Er.alt {R : α → β → Prop} {p p' : P α} {q q' : P β} (h : Er R p q) (h' : Er R p' q') : Er R (alt p p') (alt q q') := by
  intro i
  unfold P.alt
  have := h i
  generalize p i = x at *
  generalize q i = y at *
  cases this with
  | ok h => exact .ok h
  | err => exact h' i
  | fail => exact .fail
  | incomplete => exact .incomplete
  | panic => exact .panic
  | fuel => exact .fuel

/-- both or neither -/
inductive OptR (R : α → β → Prop) : Option α → Option β → Prop
  | none : OptR R none none
  | some {a b} : R a b → OptR R (some a) (some b)

theorem Er.opt {R : α → β → Prop} {p : P α} {q : P β} (h : Er R p q) : Er (OptR R) (opt p) (opt q) := by
  intro i
  unfold P.opt
  have := h i
  generalize p i = x at *
  generalize q i = y at *
  cases this with
  | ok h => exact .ok (.some h)
  | err => exact .ok .none
  | fail => exact .fail
  | incomplete => exact .incomplete
  | panic => exact .panic
  | fuel => exact .fuel

theorem Er.cut {R : α → β → Prop} {p : P α} {q : P β} (h : Er R p q) : Er R (cut p) (cut q) := by
  intro i
  unfold P.cut
  have := h i
  generalize p i = x at *
  generalize q i = y at *
  cases this with
  | ok h => exact .ok h
  | err => exact .fail
  | fail => exact .fail
  | incomplete => exact .incomplete
  | panic => exact .panic
  | fuel => exact .fuel

/-- element by element -/
inductive ListR (R : α → β → Prop) : List α → List β → Prop
  | nil : ListR R [] []
  | cons {a b as bs} : R a b → ListR R as bs → ListR R (a :: as) (b :: bs)

theorem Er.sepLoop {R : α → β → Prop} {sep : P Unit} {p : P α} {q : P β} (h : Er R p q) :
    ∀ n, Er (ListR R) (sepLoop sep p n) (sepLoop sep q n)
  | 0 => fun _ => .fuel
  | n + 1 => by
    intro i
    unfold P.sepLoop
    cases sep i with
    | ok i1 _ =>
      dsimp only
      have := h i1
      generalize p i1 = x at *
      generalize q i1 = y at *
      cases this with
      | ok ha =>
        rename_i r a b
        dsimp only
        split
        · exact .err
        · have := Er.sepLoop (sep := sep) h n r
          generalize P.sepLoop sep p n r = x at *
          generalize P.sepLoop sep q n r = y at *
          cases this with
          | ok hs => exact .ok (.cons ha hs)
          | err => exact .err
          | fail => exact .fail
          | incomplete => exact .incomplete
          | panic => exact .panic
          | fuel => exact .fuel
      | err => exact .ok .nil
      | fail => exact .fail
      | incomplete => exact .incomplete
      | panic => exact .panic
      | fuel => exact .fuel
    | err => exact .ok .nil
    | fail => exact .fail
    | incomplete => exact .incomplete
    | panic => exact .panic
    | fuel => exact .fuel

theorem Er.sepList0 {R : α → β → Prop} {sep : P Unit} {p : P α} {q : P β} (h : Er R p q) :
    Er (ListR R) (sepList0 sep p) (sepList0 sep q) := by
  intro i
  unfold P.sepList0
  have := h i
  generalize p i = x at *
  generalize q i = y at *
  cases this with
  | ok ha =>
    rename_i r a b
    dsimp only
    have := Er.sepLoop (sep := sep) h (r.length + 1) r
    generalize P.sepLoop sep p (r.length + 1) r = x at *
    generalize P.sepLoop sep q (r.length + 1) r = y at *
    cases this with
    | ok hs => exact .ok (.cons ha hs)
    | err => exact .err
    | fail => exact .fail
    | incomplete => exact .incomplete
    | panic => exact .panic
    | fuel => exact .fuel
  | err => exact .ok .nil
  | fail => exact .fail
  | incomplete => exact .incomplete
  | panic => exact .panic
  | fuel => exact .fuel

theorem Er.sepList1 {R : α → β → Prop} {sep : P Unit} {p : P α} {q : P β} (h : Er R p q) :
    Er (ListR R) (sepList1 sep p) (sepList1 sep q) := by
  intro i
  unfold P.sepList1
  have := h i
  generalize p i = x at *
  generalize q i = y at *
  cases this with
  | ok ha =>
    rename_i r a b
    dsimp only
    have := Er.sepLoop (sep := sep) h (r.length + 1) r
    generalize P.sepLoop sep p (r.length + 1) r = x at *
    generalize P.sepLoop sep q (r.length + 1) r = y at *
    cases this with
    | ok hs => exact .ok (.cons ha hs)
    | err => exact .err
    | fail => exact .fail
    | incomplete => exact .incomplete
    | panic => exact .panic
    | fuel => exact .fuel
  | err => exact .err
  | fail => exact .fail
  | incomplete => exact .incomplete
  | panic => exact .panic
  | fuel => exact .fuel

theorem Er.allConsuming {R : α → β → Prop} {p : P α} {q : P β} (h : Er R p q) : Er R (allConsuming p) (allConsuming q) := by
  intro i
  unfold Compact.allConsuming
  have := h i
  generalize p i = x at *
  generalize q i = y at *
  cases this with
  | ok h =>
    rename_i r _ _
    cases r with
    | nil => exact .ok h
    | cons => exact .err
  | err => exact .err
  | fail => exact .fail
  | incomplete => exact .incomplete
  | panic => exact .panic
  | fuel => exact .fuel

/-! ### the parsers -/

variable {t : Nat}

theorem cname_er : Er (fun a b => b = (a.1.2, a.2.2)) (cname t) Compact.cname := by
  unfold cname Compact.cname
  refine .bind (.ranged .same) fun a b e => ?_
  refine .next fun _ => ?_
  refine .bind (.ranged .same) fun a' b' e' => ?_
  subst e; subst e'
  exact .pure rfl

theorem pName_er : Er (fun a b => b = a.plain) (pName t) Compact.pName := by
  unfold pName Compact.pName
  refine .alt (.bind cname_er fun a b e => ?_) (.next fun i => .pure rfl)
  subst e
  exact .pure rfl

theorem exceptNc_er {nc : P LNameClass} {nc' : P SNameClass} (h : Er (fun a b => b = a.plain) nc nc') :
    Er (OptR fun a b => b = a.plain) (exceptNc nc) (Compact.exceptNc nc') :=
  .opt (.next fun _ => .next fun _ => .next fun _ => h)

theorem nsNameNc_er {nc : P LNameClass} {nc' : P SNameClass} (h : Er (fun a b => b = a.plain) nc nc') :
    Er (fun a b => b = a.plain) (nsNameNc t nc) (Compact.nsNameNc nc') := by
  unfold nsNameNc Compact.nsNameNc
  refine .bind (.ranged .same) fun a b e => .next fun _ => .bind (exceptNc_er h) fun o o' ho => ?_
  subst e
  cases ho with
  | none => exact .pure rfl
  | some e => subst e; exact .pure rfl

theorem anyNameNc_er {nc : P LNameClass} {nc' : P SNameClass} (h : Er (fun a b => b = a.plain) nc nc') :
    Er (fun a b => b = a.plain) (anyNameNc nc) (Compact.anyNameNc nc') := by
  unfold anyNameNc Compact.anyNameNc
  refine .next fun _ => .bind (exceptNc_er h) fun o o' ho => ?_
  cases ho with
  | none => exact .pure rfl
  | some e => subst e; exact .pure rfl

theorem parenNc_er {nc : P LNameClass} {nc' : P SNameClass} (h : Er (fun a b => b = a.plain) nc nc') :
    Er (fun a b => b = a.plain) (parenNc nc) (Compact.parenNc nc') := by
  unfold parenNc Compact.parenNc
  refine .next fun _ => .next fun _ => .bind h fun a b e => .next fun _ => .next fun _ => ?_
  subst e
  exact .pure rfl

theorem altTail_er {nc : P LNameClass} {nc' : P SNameClass} (h : Er (fun a b => b = a.plain) nc nc') (l : LNameClass) :
    Er (fun a b => b = a.plain) (altTail nc l) (Compact.altTail nc' l.plain) := by
  have key : Er (fun a b => b = a.plain) (altNc nc) (Compact.altNc nc') := .next fun _ => .next fun _ => .next fun _ => h
  intro i
  unfold altTail Compact.altTail
  have := key i
  generalize altNc nc i = x at *
  generalize Compact.altNc nc' i = y at *
  cases this with
  | ok h => subst h; exact .ok rfl
  | err => exact .ok rfl
  | fail => exact .ok rfl
  | incomplete => exact .ok rfl
  | panic => exact .panic
  | fuel => exact .fuel

theorem nameClass_er : ∀ n, Er (fun a b => b = a.plain) (nameClass t n) (Compact.nameClass n)
  | 0 => fun _ => .fuel
  | n + 1 => by
    have ih := nameClass_er n
    intro i
    rw [nameClass, Compact.nameClass]
    revert i
    show Er _ _ _
    refine .next fun _ => .bind (.alt (nsNameNc_er ih) (.alt pName_er (.alt (anyNameNc_er ih) (parenNc_er ih)))) fun a b e => ?_
    subst e
    exact .next fun _ => .next fun _ => altTail_er ih a

theorem datatypeName_er : Er (fun a b => b = a.plain) (datatypeName t) Compact.datatypeName := by
  unfold datatypeName Compact.datatypeName
  refine .alt (.next fun _ => .pure rfl) (.alt (.next fun _ => .pure rfl) (.bind cname_er fun a b e => ?_))
  subst e
  exact .pure rfl

theorem datatypeValuePattern_er : Er (fun a b => b = a.plain) (datatypeValuePattern t) Compact.datatypeValuePattern := by
  unfold datatypeValuePattern Compact.datatypeValuePattern
  refine .bind (.opt datatypeName_er) fun a b e => .next fun _ => .next fun v => .pure ?_
  cases e with
  | none => rfl
  | some e => subst e; rfl

theorem param_er (n : Nat) : Er (fun a b => b = a.plain) (param t n) (Compact.param n) := by
  unfold param Compact.param
  exact .position fun s => .next fun _ => .next fun _ => .next fun _ => .next fun _ => .next fun _ => .next fun _ => .next fun _ =>
    .position fun _ => .pure rfl

theorem ListR.map {f : α → β} : ∀ {as : List α} {bs : List β}, ListR (fun a b => b = f a) as bs → bs = as.map f
  | _, _, .nil => rfl
  | _, _, .cons e h => by rw [e, ListR.map h]; rfl

theorem params_er (n : Nat) : Er (fun a b => b = a.map LParam.plain) (params t n) (Compact.params n) := by
  unfold params Compact.params
  refine .next fun _ => .next fun _ => .next fun _ => .bind (.sepList0 (param_er n)) fun a b e => .next fun _ => .next fun _ => ?_
  exact .pure e.map

theorem datatypeParamPattern_er (n : Nat) {p : P LPat} {q : P SPattern} (h : Er (fun a b => b = a.plain) p q) :
    Er (fun a b => b = a.plain) (datatypeParamPattern t n p) (Compact.datatypeParamPattern n q) := by
  unfold datatypeParamPattern Compact.datatypeParamPattern
  refine .bind datatypeName_er fun ty ty' e => .bind (.opt (params_er n)) fun ps ps' hps =>
    .bind (.opt (.next fun _ => .next fun _ => .next fun _ => h)) fun o o' ho => ?_
  subst e
  cases hps with
  | none =>
    cases ho with
    | none => exact .pure rfl
    | some e => subst e; exact .pure rfl
  | some e =>
    subst e
    cases ho with
    | none => exact .pure rfl
    | some e => subst e; exact .pure rfl

theorem braced_er {p : P LPat} {q : P SPattern} (h : Er (fun a b => b = a.plain) p q) :
    Er (fun a b => b = a.plain) (braced p) (Compact.braced q) := by
  unfold braced Compact.braced
  exact .next fun _ => .next fun _ => .next fun _ => .bind (.cut h) fun a b e => .next fun _ => .next fun _ => .pure e

theorem namedPattern_er {k : Str} {nc : P LNameClass} {nc' : P SNameClass} (hn : Er (fun a b => b = a.plain) nc nc')
    {p : P LPat} {q : P SPattern} (h : Er (fun a b => b = a.plain) p q) :
    Er (fun a b => b = (a.2.1.plain, a.2.2.plain)) (namedPattern t k nc p) (Compact.namedPattern k nc' q) := by
  unfold namedPattern Compact.namedPattern
  refine .ranged (R := fun (a : LNameClass × LPat) b => b = (a.1.plain, a.2.plain)) ?_
  refine .next fun _ => .next fun _ => .bind hn fun a b e => .bind (braced_er h) fun a' b' e' => ?_
  subst e; subst e'
  exact .pure rfl

theorem inherit_er : Er (fun a b => b = a.2) (inherit t) Compact.inherit := by
  unfold inherit Compact.inherit
  exact .next fun _ => .next fun _ => .next fun _ => .next fun _ => .ranged .same

theorem externalPattern_er : Er (fun a b => b = a.plain) (externalPattern t) Compact.externalPattern := by
  unfold externalPattern Compact.externalPattern
  refine .next fun _ => .next fun _ => .bind (.ranged .same) fun l l' e => .bind (.opt (.next fun _ => inherit_er)) fun o o' ho => ?_
  subst e
  cases ho with
  | none => exact .pure rfl
  | some e => subst e; exact .pure rfl

theorem ListR.items : ∀ {as : List LItem} {bs : List SItem}, ListR (fun a b => b = a.plain) as bs → bs = plainItems as
  | _, _, .nil => rfl
  | _, _, .cons e h => by rw [e, ListR.items h]; rfl

theorem ListR.overrides : ∀ {as : List LOverride} {bs : List SOverride}, ListR (fun a b => b = a.plain) as bs → bs = plainOverrides as
  | _, _, .nil => rfl
  | _, _, .cons e h => by rw [e, ListR.overrides h]; rfl

theorem grammarPattern_er {p : P LItem} {q : P SItem} (h : Er (fun a b => b = a.plain) p q) :
    Er (fun a b => b = a.plain) (grammarPattern t p) (Compact.grammarPattern q) := by
  unfold grammarPattern Compact.grammarPattern
  refine .position fun s => .next fun _ => .next fun _ => .next fun _ => .next fun _ => .bind (.sepList0 h) fun a b e =>
    .next fun _ => .next fun _ => .position fun _ => .pure ?_
  rw [e.items]; rfl

theorem groupPattern_er {p : P LPat} {q : P SPattern} (h : Er (fun a b => b = a.plain) p q) :
    Er (fun a b => b = a.plain) (groupPattern p) (Compact.groupPattern q) := by
  unfold groupPattern Compact.groupPattern
  exact .next fun _ => .next fun _ => .bind h fun a b e => .next fun _ => .next fun _ => .pure (by rw [e]; rfl)

theorem primary_er (n : Nat) {p : P LPat} {q : P SPattern} (h : Er (fun a b => b = a.plain) p q) {p' : P LItem} {q' : P SItem}
    (h' : Er (fun a b => b = a.plain) p' q') : Er (fun a b => b = a.plain) (primary t n p p') (Compact.primary n q q') := by
  unfold primary Compact.primary
  refine .alt (.bind (namedPattern_er (nameClass_er n) h) fun a b e => ?_) <|
    .alt (.bind (namedPattern_er (nameClass_er n) h) fun a b e => ?_) <|
    .alt (.next fun _ => .bind (braced_er h) fun a b e => ?_) <|
    .alt (.next fun _ => .bind (braced_er h) fun a b e => ?_) <|
    .alt datatypeValuePattern_er <|
    .alt (datatypeParamPattern_er n h) <|
    .alt (.bind (.ranged .same) fun a b e => ?_) <|
    .alt (.next fun _ => .next fun _ => .bind (.ranged .same) fun a b e => ?_) <|
    .alt (.next fun _ => .pure rfl) <|
    .alt (.next fun _ => .pure rfl) <|
    .alt (.next fun _ => .pure rfl) <|
    .alt externalPattern_er <|
    .alt (grammarPattern_er h') <|
    groupPattern_er h
  all_goals subst e; exact .pure rfl

theorem operators_er {p : P LPat} {q : P SPattern} (h : Er (fun a b => b = a.plain) p q) :
    ∀ n l, Er (fun a b => b = a.plain) (operators p n l) (Compact.operators q n l.plain)
  | 0, _ => fun _ => .fuel
  | n + 1, l => by
    have ih := operators_er h n
    intro i
    unfold operators Compact.operators
    cases space0 i with
    | ok r _ =>
      split
      · next e =>
        cases e
        exact Er.next (fun _ => .bind h fun a b e => by subst e; exact ih (.seq l a)) _
      · next e =>
        cases e
        exact Er.next (fun _ => .bind h fun a b e => by subst e; exact ih (.inter l a)) _
      · next e =>
        cases e
        exact Er.next (fun _ => .bind h fun a b e => by subst e; exact ih (.choice l a)) _
      · next e => cases e; exact ih (.optional l) _
      · next e => cases e; exact ih (.zeroOrMore l) _
      · next e => cases e; exact ih (.oneOrMore l) _
      · next h1 h2 h3 h4 h5 h6 e =>
        cases e
        split
        · next e => cases e; exact (h1 _ rfl).elim
        · next e => cases e; exact (h2 _ rfl).elim
        · next e => cases e; exact (h3 _ rfl).elim
        · next e => cases e; exact (h4 _ rfl).elim
        · next e => cases e; exact (h5 _ rfl).elim
        · next e => cases e; exact (h6 _ rfl).elim
        · exact .ok rfl
        all_goals next e => cases e
      all_goals next e => cases e
    | err => exact .err
    | fail => exact .fail
    | incomplete => exact .incomplete
    | panic => exact .panic
    | fuel => exact .fuel

/-- a definition with the position of its name -/
def DefR (a : Rg × Str × AssignMethod × LPat) (b : Str × AssignMethod × SPattern) : Prop := b = (a.2.1, a.2.2.1, a.2.2.2.plain)

theorem startRule_er {p : P LPat} {q : P SPattern} (h : Er (fun a b => b = a.plain) p q) :
    Er DefR (startRule t p) (Compact.startRule q) := by
  unfold startRule Compact.startRule
  exact .position fun s => .next fun _ => .next fun _ => .next fun _ => .next fun _ => .bind (.cut h) fun a b e => by
    subst e; exact .pure rfl

theorem defineItem_er {p : P LPat} {q : P SPattern} (h : Er (fun a b => b = a.plain) p q) :
    Er DefR (defineItem t p) (Compact.defineItem q) := by
  unfold defineItem Compact.defineItem
  exact .bind (.ranged .same) fun a b e => .next fun _ => .next fun _ => .next fun _ => .bind (.cut h) fun a' b' e' => by
    subst e; subst e'; exact .pure rfl

theorem includeContent_er {p : P LPat} {q : P SPattern} (h : Er (fun a b => b = a.plain) p q) :
    ∀ n, Er (fun a b => b = a.plain) (includeContent t p n) (Compact.includeContent q n)
  | 0 => fun _ => .fuel
  | n + 1 => by
    have ih := includeContent_er h n
    intro i
    rw [includeContent, Compact.includeContent]
    revert i
    show Er _ _ _
    refine .next fun _ => .alt (.next fun _ => .pure rfl) <|
      .alt (.bind (defineItem_er h) fun a b e => ?_) <|
      .alt (.bind (startRule_er h) fun a b e => ?_) <|
      .next fun _ => .next fun _ => .next fun _ => .next fun _ => .bind (.sepList0 ih) fun _ _ _ => .next fun _ => .next fun _ => .pure rfl
    all_goals
      obtain ⟨r, id, how, a⟩ := a
      cases e
      exact .pure rfl

theorem overrideBlock_er (n : Nat) {p : P LPat} {q : P SPattern} (h : Er (fun a b => b = a.plain) p q) :
    Er (fun a b => b = plainOverrides a) (overrideBlock t n p) (Compact.overrideBlock n q) := by
  unfold overrideBlock Compact.overrideBlock
  exact .next fun _ => .next fun _ => .next fun _ => .bind (.sepList0 (includeContent_er h n)) fun a b e => .next fun _ => .next fun _ =>
    .pure e.overrides

theorem includeItem_er (n : Nat) {p : P LPat} {q : P SPattern} (h : Er (fun a b => b = a.plain) p q) :
    Er (fun a b => b = a.plain) (includeItem t n p) (Compact.includeItem n q) := by
  unfold includeItem Compact.includeItem
  refine .next fun _ => .next fun _ => .bind (.ranged .same) fun l l' e => .bind (.opt (.next fun _ => inherit_er)) fun o o' ho =>
    .bind (.opt (overrideBlock_er n h)) fun os os' hos => ?_
  subst e
  refine .pure ?_
  cases ho with
  | none =>
    cases hos with
    | none => rfl
    | some e => subst e; rfl
  | some e =>
    subst e
    cases hos with
    | none => rfl
    | some e => subst e; rfl

theorem divItem_er {p : P LItem} {q : P SItem} (h : Er (fun a b => b = a.plain) p q) :
    Er (fun a b => b = a.plain) (divItem p) (Compact.divItem q) := by
  unfold divItem Compact.divItem
  exact .next fun _ => .next fun _ => .next fun _ => .next fun _ => .bind (.sepList0 h) fun a b e => .next fun _ => .next fun _ =>
    .pure (by rw [e.items]; rfl)

theorem main_er : ∀ n, Er (fun a b => b = a.plain) (pattern t n) (Compact.pattern n) ∧
    Er (fun a b => b = a.plain) (grammarContent t n) (Compact.grammarContent n)
  | 0 => ⟨fun _ => .fuel, fun _ => .fuel⟩
  | n + 1 => by
    obtain ⟨hp, hi⟩ := main_er n
    constructor
    · intro i
      rw [pattern, Compact.pattern]
      revert i
      show Er _ _ _
      exact .next fun _ => .bind (primary_er n hp hi) fun a b e => .next fun _ => by subst e; exact operators_er hp _ _
    · intro i
      rw [grammarContent, Compact.grammarContent]
      revert i
      show Er _ _ _
      refine .alt (.bind (startRule_er hp) fun a b e => ?_) <|
        .alt (.bind (defineItem_er hp) fun a b e => ?_) <|
        .alt (divItem_er hi) <|
        .alt (includeItem_er n hp) <|
        .next fun _ => .pure rfl
      all_goals
        obtain ⟨r, id, how, a⟩ := a
        cases e
        exact .pure rfl

theorem topLevel_er (n : Nat) : Er (fun a b => b = a.plain) (topLevel t n) (Compact.topLevel n) := by
  unfold topLevel Compact.topLevel
  refine .next fun ds => .next fun _ => .bind (R := fun (a : LBody) b => b = a.plain) ?_ fun a b e => ?_
  · refine .alt (.bind (.sepList1 (main_er n).2) fun a b e => .pure ?_) (.bind (main_er n).1 fun a b e => .pure ?_)
    · rw [e.items]; rfl
    · rw [e]; rfl
  · subst e; exact .pure rfl

/-- reading with positions is reading without -/
theorem parse_er (n : Nat) (text : Str) : (parseCompact n text).plain = Compact.parseCompact n text := by
  have : ErRes (fun a b => b = a.plain) (compactSchema n text) (Compact.compactSchema n text) :=
    Er.allConsuming (.next fun _ => .bind (topLevel_er n) fun a b e => .next fun _ => .pure e) text
  unfold parseCompact Compact.parseCompact
  generalize compactSchema n text = x at *
  generalize Compact.compactSchema n text = y at *
  cases this with
  | ok h => subst h; rfl
  | _ => rfl

end Verif.LCompact
