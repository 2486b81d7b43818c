import Verif.Proof.Bot
/-
Patterns all of whose parts can be used: preserved by every derivative, and satisfiable once the attributes of the open
start tag are dealt with (proof device for C77).
-/
set_option linter.unusedSectionVars false
namespace Verif
variable {D V : Type}

/-- patterns for a whole string: `data`, `value`, `list` -/
def Pat.isLeaf : Pat D V → Bool
  | .datatype _ => true
  | .datatypeValue _ => true
  | .datatypeExcept _ _ => true
  | .list _ => true
  | _ => false

section
variable (L : Lib D V) (lk : Lk D V)

/-- nothing but attributes -/
inductive AO : Pat D V → Prop
  | attr {nc i} : AO (.attr nc i)
  | na : AO .notAllowed
  | choice {l r f p q} : lk l = some p → lk r = some q → AO p → AO q → AO (.choice l r f)

/-- nothing at all -/
inductive Dead : Pat D V → Prop
  | na : Dead .notAllowed
  | choice {l r f p q} : lk l = some p → lk r = some q → Dead p → Dead q → Dead (.choice l r f)

/-- two kinds of content that may stand side by side -/
def Grp (t1 t2 : Nat) : Prop := t1 = 0 ∨ t2 = 0 ∨ (t1 ≤ 1 ∧ t2 ≤ 1)

variable (QE : NameClass → Nat → Prop)

/-- `o`: attributes may occur; `d`: strings may have been read already (then nothing is said about them); the number is
the kind of content: 0 none, 1 elements and text, 2 also strings -/
inductive Liv : Bool → Bool → Nat → Pat D V → Prop
  | empty {o d t} : Liv o d t .empty
  | text {o d t} : 1 ≤ t → Liv o d t .text
  | choice {o d t l r f p q} : lk l = some p → lk r = some q → (¬ Dead lk p → Liv o d t p) → (¬ Dead lk q → Liv o d t q) →
      (Dead lk p → ¬ Dead lk q) → Liv o d t (.choice l r f)
  | group {o d t t1 t2 l r f p q} : lk l = some p → lk r = some q → Liv o d t1 p → Liv o d t2 q → t1 ≤ t → t2 ≤ t →
      Grp t1 t2 → Liv o d t (.group l r f)
  | interleave {o d t t1 t2 l r f p q} : lk l = some p → lk r = some q → Liv o d t1 p → Liv o d t2 q → t1 ≤ t → t2 ≤ t →
      Grp t1 t2 → Liv o d t (.interleave l r f)
  | oneOrMore {o d t t' i f p} : lk i = some p → Liv false d t' p → t' ≤ 1 → t' ≤ t → Liv o d t (.oneOrMore i f)
  | atts {o d t l r f j f' p} : lk l = some (.oneOrMore j f') → lk j = some p → AO lk p → lk r = some .empty → Liv o d t (.choice l r f)
  | attr {d t nc i} : Liv true d t (.attr nc i)
  | element {o d t nc i} : 1 ≤ t → QE nc i → Liv o d t (.element nc i)
  | leaf {o d t p} : p.isLeaf = true → 2 ≤ t → (d = false → ∃ s, s ≠ [] ∧ S L lk true p [] [[.text s]]) → Liv o d t p

/-- live or not allowed -/
def LN (o d : Bool) (t i : Nat) : Prop := ∃ p, lk i = some p ∧ (p ≠ .notAllowed → Liv L lk QE o d t p)

/-- live stacks of contents: the innermost content, then what follows the open elements -/
inductive LivS (b : Nat) : Bool → Bool → Nat → Pat D V → Prop
  | base {o d p} : Liv L lk QE false false b p → LivS b o d 0 p
  | after {o d k i j p q} : lk i = some p → lk j = some q → Liv L lk QE o d 2 p → LivS b false false k q → LivS b o d (k + 1) (.after i j)
  | choice {o d k l r f p q} : lk l = some p → lk r = some q → (p ≠ .notAllowed → LivS b o d (k + 1) p) → (q ≠ .notAllowed → LivS b o d (k + 1) q) →
      (p = .notAllowed → q ≠ .notAllowed) → LivS b o d (k + 1) (.choice l r f)

def LNS (b : Nat) (o d : Bool) (k i : Nat) : Prop := ∃ p, lk i = some p ∧ (p ≠ .notAllowed → LivS L lk QE b o d k p)

end

variable {L : Lib D V} {lk : Lk D V} {QE : NameClass → Nat → Prop}

theorem Liv.ne {o d t} {p : Pat D V} (h : Liv L lk QE o d t p) : p ≠ .notAllowed := by
  cases h with
  | leaf h => intro e; subst e; cases h
  | _ => nofun

theorem Dead.ao {p : Pat D V} (h : Dead lk p) : AO lk p := by
  induction h with
  | na => exact .na
  | choice h1 h2 _ _ ih1 ih2 => exact .choice h1 h2 ih1 ih2

theorem Liv.nd {o d t} {p : Pat D V} (h : Liv L lk QE o d t p) : ¬ Dead lk p := by
  intro hd
  cases hd with
  | na => exact h.ne rfl
  | choice h1 h2 d1 d2 =>
    cases h with
    | choice g1 g2 _ _ g =>
      rw [h1] at g1; cases g1; rw [h2] at g2; cases g2
      exact g d1 d2
    | atts g1 =>
      rw [h1] at g1; cases g1
      cases d1
    | leaf h => cases h

theorem nd_ne {p : Pat D V} (h : ¬ Dead lk p) : p ≠ .notAllowed := fun e => h (by subst e; exact .na)

theorem Liv.up {o d t t'} {p : Pat D V} (h : Liv L lk QE o d t p) (ht : t ≤ t') : Liv L lk QE o d t' p := by
  induction h generalizing t' with
  | empty => exact .empty
  | text h => exact .text (by omega)
  | choice h1 h2 _ _ h5 ih1 ih2 => exact .choice h1 h2 (fun h => ih1 h ht) (fun h => ih2 h ht) h5
  | group h1 h2 h3 h4 h5 h6 h7 => exact .group h1 h2 h3 h4 (by omega) (by omega) h7
  | interleave h1 h2 h3 h4 h5 h6 h7 => exact .interleave h1 h2 h3 h4 (by omega) (by omega) h7
  | oneOrMore h1 h2 h3 h4 => exact .oneOrMore h1 h2 h3 (by omega)
  | atts h1 h2 h3 h4 => exact .atts h1 h2 h3 h4
  | attr => exact .attr
  | element h1 h2 => exact .element (by omega) h2
  | leaf h1 h2 h3 => exact .leaf h1 (by omega) h3

/-- elements and text only: no strings, so nothing depends on what has been read -/
theorem Liv.clean {o d d' t} {p : Pat D V} (h : Liv L lk QE o d t p) (ht : t ≤ 1) : Liv L lk QE o d' t p := by
  induction h with
  | empty => exact .empty
  | text h => exact .text h
  | choice h1 h2 _ _ h5 ih1 ih2 => exact .choice h1 h2 (fun h => ih1 h ht) (fun h => ih2 h ht) h5
  | group h1 h2 _ _ h5 h6 h7 ih1 ih2 => exact .group h1 h2 (ih1 (by omega)) (ih2 (by omega)) h5 h6 h7
  | interleave h1 h2 _ _ h5 h6 h7 ih1 ih2 => exact .interleave h1 h2 (ih1 (by omega)) (ih2 (by omega)) h5 h6 h7
  | oneOrMore h1 _ h3 h4 ih => exact .oneOrMore h1 (ih h3) h3 h4
  | atts h1 h2 h3 h4 => exact .atts h1 h2 h3 h4
  | attr => exact .attr
  | element h1 h2 => exact .element h1 h2
  | leaf _ h => omega

theorem Liv.dirty {o d t} {p : Pat D V} (h : Liv L lk QE o d t p) : Liv L lk QE o true t p := by
  induction h with
  | empty => exact .empty
  | text h => exact .text h
  | choice h1 h2 _ _ h5 ih1 ih2 => exact .choice h1 h2 ih1 ih2 h5
  | group h1 h2 _ _ h5 h6 h7 ih1 ih2 => exact .group h1 h2 ih1 ih2 h5 h6 h7
  | interleave h1 h2 _ _ h5 h6 h7 ih1 ih2 => exact .interleave h1 h2 ih1 ih2 h5 h6 h7
  | oneOrMore h1 _ h3 h4 ih => exact .oneOrMore h1 ih h3 h4
  | atts h1 h2 h3 h4 => exact .atts h1 h2 h3 h4
  | attr => exact .attr
  | element h1 h2 => exact .element h1 h2
  | leaf h1 h2 _ => exact .leaf h1 h2 nofun

/-- where no attributes may occur any more, none occur -/
theorem Liv.opened {o d t} {p : Pat D V} (h : Liv L lk QE false d t p) : Liv L lk QE o d t p := by
  generalize hb : false = b at h
  induction h with
  | empty => exact .empty
  | text h => exact .text h
  | choice h1 h2 _ _ h5 ih1 ih2 => exact .choice h1 h2 (fun h => ih1 h hb) (fun h => ih2 h hb) h5
  | group h1 h2 _ _ h5 h6 h7 ih1 ih2 => exact .group h1 h2 (ih1 hb) (ih2 hb) h5 h6 h7
  | interleave h1 h2 _ _ h5 h6 h7 ih1 ih2 => exact .interleave h1 h2 (ih1 hb) (ih2 hb) h5 h6 h7
  | oneOrMore h1 h2 h3 h4 ih => exact .oneOrMore h1 h2 h3 h4
  | atts h1 h2 h3 h4 => exact .atts h1 h2 h3 h4
  | attr => cases hb
  | element h1 h2 => exact .element h1 h2
  | leaf h1 h2 h3 => exact .leaf h1 h2 h3

theorem LN.na {o d t i} (h : lk i = some .notAllowed) : LN L lk QE o d t i := ⟨_, h, fun h => absurd rfl h⟩
theorem LN.of {o d t i} {p : Pat D V} (h : lk i = some p) (hl : Liv L lk QE o d t p) : LN L lk QE o d t i := ⟨_, h, fun _ => hl⟩
theorem LN.get {o d t i} {p : Pat D V} (h : LN L lk QE o d t i) (hp : lk i = some p) (hn : p ≠ .notAllowed) : Liv L lk QE o d t p := by
  obtain ⟨q, hq, h⟩ := h
  rw [hp] at hq; cases hq; exact h hn

theorem LN.map {o d t o' d' t' i} (h : LN L lk QE o d t i) (f : ∀ p, Liv L lk QE o d t p → Liv L lk QE o' d' t' p) : LN L lk QE o' d' t' i := by
  obtain ⟨p, hp, h⟩ := h
  exact ⟨p, hp, fun hn => f _ (h hn)⟩

theorem ChoiceOf.ln {o d t l r i} (h : ChoiceOf lk l r i) (hl : LN L lk QE o d t l) (hr : LN L lk QE o d t r) : LN L lk QE o d t i := by
  obtain ⟨p, q, h1, h2, h⟩ := h
  rcases h with ⟨_, rfl⟩ | ⟨_, rfl⟩ | ⟨_, rfl⟩ | ⟨hna, h⟩
  · exact hr
  · exact hl
  · exact hl
  · exact .of h (.choice h1 h2 (fun n => hl.get h1 (nd_ne n)) (fun n => hr.get h2 (nd_ne n)) fun e => absurd e (hl.get h1 hna).nd)

theorem GroupOf.ln {o d t t1 t2 l r i} (h : GroupOf lk l r i) (hl : LN L lk QE o d t1 l) (hr : LN L lk QE o d t2 r) (g1 : t1 ≤ t) (g2 : t2 ≤ t)
    (g : Grp t1 t2) : LN L lk QE o d t i := by
  obtain ⟨p, q, h1, h2, h⟩ := h
  rcases h with ⟨_, h⟩ | ⟨_, h⟩ | ⟨_, rfl⟩ | ⟨_, rfl⟩ | ⟨n1, n2, h⟩
  · exact .na h
  · exact .na h
  · exact hr.map fun _ h => h.up g2
  · exact hl.map fun _ h => h.up g1
  · exact .of h (.group h1 h2 (hl.get h1 n1) (hr.get h2 n2) g1 g2 g)

theorem InterOf.ln {o d t t1 t2 l r i} (h : InterOf lk l r i) (hl : LN L lk QE o d t1 l) (hr : LN L lk QE o d t2 r) (g1 : t1 ≤ t) (g2 : t2 ≤ t)
    (g : Grp t1 t2) : LN L lk QE o d t i := by
  obtain ⟨p, q, h1, h2, h⟩ := h
  rcases h with ⟨_, h⟩ | ⟨_, h⟩ | ⟨_, rfl⟩ | ⟨_, rfl⟩ | ⟨n1, n2, h⟩
  · exact .na h
  · exact .na h
  · exact hr.map fun _ h => h.up g2
  · exact hl.map fun _ h => h.up g1
  · exact .of h (.interleave h1 h2 (hl.get h1 n1) (hr.get h2 n2) g1 g2 g)

theorem LNS.na {o d k i} (h : lk i = some .notAllowed) : LNS L lk QE b o d k i := ⟨_, h, fun h => absurd rfl h⟩
theorem LNS.of {o d k i} {p : Pat D V} (h : lk i = some p) (hl : LivS L lk QE b o d k p) : LNS L lk QE b o d k i := ⟨_, h, fun _ => hl⟩
theorem LNS.get {o d k i} {p : Pat D V} (h : LNS L lk QE b o d k i) (hp : lk i = some p) (hn : p ≠ .notAllowed) : LivS L lk QE b o d k p := by
  obtain ⟨q, hq, h⟩ := h
  rw [hp] at hq; cases hq; exact h hn

theorem LivS.zero {o d} {p : Pat D V} (h : LivS L lk QE b o d 0 p) : Liv L lk QE false false b p := by
  cases h with
  | base h => exact h

theorem ChoiceOf.lns {o d k l r i} (h : ChoiceOf lk l r i) (hl : LNS L lk QE b o d k l) (hr : LNS L lk QE b o d k r) : LNS L lk QE b o d k i := by
  obtain ⟨p, q, h1, h2, h⟩ := h
  rcases h with ⟨_, rfl⟩ | ⟨_, rfl⟩ | ⟨_, rfl⟩ | ⟨hna, h⟩
  · exact hr
  · exact hl
  · exact hl
  · refine .of h ?_
    cases k with
    | zero => exact .base (.choice h1 h2 (fun hn => (hl.get h1 (nd_ne hn)).zero) (fun hn => (hr.get h2 (nd_ne hn)).zero) fun e => absurd e (hl.get h1 hna).zero.nd)
    | succ k => exact .choice h1 h2 (hl.get h1) (hr.get h2) fun e => absurd e hna

theorem AfterOf.lns {o d k l r i} {q : Pat D V} (h : AfterOf lk l r i) (hl : LN L lk QE o d 2 l) (hr : LNS L lk QE b false false k r)
    (hq : lk r = some q) (hn : q ≠ .notAllowed) : LNS L lk QE b o d (k + 1) i := by
  obtain ⟨p, h1, h⟩ := h
  rcases h with ⟨_, h⟩ | ⟨n1, h⟩
  · exact .na h
  · exact .of h (.after h1 hq (hl.get h1 n1) (hr.get hq hn))


theorem LivS.ne {b o d k} {p : Pat D V} (h : LivS L lk QE b o d k p) : p ≠ .notAllowed := by
  cases h with
  | base h => exact h.ne
  | _ => nofun

theorem ChoiceOf.naBoth {l r i} (h : ChoiceOf lk l r i) (hl : lk l = some .notAllowed) (hr : lk r = some .notAllowed) :
    lk i = some .notAllowed := by
  obtain ⟨p, q, h1, h2, h⟩ := h
  rcases h with ⟨_, rfl⟩ | ⟨_, rfl⟩ | ⟨_, rfl⟩ | ⟨hna, h⟩
  · exact hr
  · exact hl
  · exact hl
  · rw [hl] at h1; cases h1; exact absurd rfl hna

theorem GroupOf.naL {l r i} (h : GroupOf lk l r i) (hl : lk l = some .notAllowed) : lk i = some .notAllowed := by
  obtain ⟨p, q, h1, h2, h⟩ := h
  rw [hl] at h1; cases h1
  rcases h with ⟨_, h⟩ | ⟨_, h⟩ | ⟨h, _⟩ | ⟨_, rfl⟩ | ⟨n1, _, _⟩
  · exact h
  · exact h
  · cases h
  · exact hl
  · exact absurd rfl n1

/-! ### text -/

theorem TD.ao {job i} (h : TD L lk job i) : ∀ {p t}, job = .txt p t → AO lk p → lk i = some .notAllowed := by
  induction h with
  | choice h1 h2 _ _ h5 ih1 ih2 =>
    intro p t he ha
    cases he
    cases ha with
    | choice g1 g2 a1 a2 =>
      rw [g1] at h1; cases h1; rw [g2] at h2; cases h2
      exact h5.naBoth (ih1 rfl a1) (ih2 rfl a2)
  | attr h => intro p t he ha; exact h
  | notAllowed h => intro p t he ha; exact h
  | loopNil => intro p t he; cases he
  | loopStop => intro p t he; cases he
  | loopStep => intro p t he; cases he
  | _ => intro p t he ha; cases he; cases ha

theorem OneOf.liv {o d t j v p} (h : OneOf lk j v) (hj : lk j = some p) (hl : Liv L lk QE false d t p) (ht : t ≤ 1) :
    ∃ q, lk v = some q ∧ Liv L lk QE o d t q := by
  obtain ⟨p', h1, h2⟩ := h
  exact ⟨_, h2, .oneOrMore hj hl ht (Nat.le_refl _)⟩

theorem TD.liv {job i} (h : TD L lk job i) : ∀ {p s d t}, job = .txt p s → Liv L lk QE false d t p → LN L lk QE false true t i := by
  induction h with
  | @choice l r f p q s a b i h1 h2 h3 h4 h5 ih1 ih2 =>
    intro p s d t he hb
    cases he
    cases hb with
    | choice g1 g2 b1 b2 _ =>
      rw [g1] at h1; cases h1; rw [g2] at h2; cases h2
      refine h5.ln ?_ ?_
      · rcases Classical.em (Dead lk p) with e | e
        · exact .na (h3.ao rfl e.ao)
        · exact ih1 rfl (b1 e)
      · rcases Classical.em (Dead lk q) with e | e
        · exact .na (h4.ao rfl e.ao)
        · exact ih2 rfl (b2 e)
    | atts g1 g2 g3 g4 =>
      rw [g1] at h1; cases h1; rw [g4] at h2; cases h2
      refine h5.ln (.na ?_) (ih2 rfl (d := d) .empty)
      cases h3 with
      | oneOrMore k1 k2 k3 k4 k5 k6 =>
        rw [g2] at k1; cases k1
        exact k6.naL (k2.ao rfl g3)
    | leaf h => cases h
  | interleave h1 h2 _ _ h5 h6 h7 ih1 ih2 =>
    intro p s d t he hb
    cases he
    cases hb with
    | interleave g1 g2 b1 b2 l1 l2 g =>
      rw [g1] at h1; cases h1; rw [g2] at h2; cases h2
      exact h7.ln (h5.ln (ih1 rfl b1) (.of g2 b2.dirty) l1 l2 g) (h6.ln (.of g1 b1.dirty) (ih2 rfl b2) l1 l2 g)
    | leaf h => cases h
  | groupN h1 h2 _ _ _ h5 h7 ih1 ih2 =>
    intro p s d t he hb
    cases he
    cases hb with
    | group g1 g2 b1 b2 l1 l2 g =>
      rw [g1] at h1; cases h1; rw [g2] at h2; cases h2
      exact h7.ln (h5.ln (ih1 rfl b1) (.of g2 b2.dirty) l1 l2 g) ((ih2 rfl b2).map fun _ h => h.up l2)
    | leaf h => cases h
  | group h1 h2 _ _ h5 ih1 =>
    intro p s d t he hb
    cases he
    cases hb with
    | group g1 g2 b1 b2 l1 l2 g =>
      rw [g1] at h1; cases h1; rw [g2] at h2; cases h2
      exact h5.ln (ih1 rfl b1) (.of g2 b2.dirty) l1 l2 g
    | leaf h => cases h
  | after => intro p s d t he hb; cases he; cases hb with | leaf h => cases h
  | oneOrMore h1 _ h3 h4 h5 h6 ih =>
    intro p s d t he hb
    cases he
    cases hb with
    | oneOrMore g1 b1 l1 l2 =>
      rw [g1] at h1; cases h1
      obtain ⟨q, hq, lq⟩ := h3.liv (o := false) g1 b1 l1
      have hc : LN L lk QE false true _ _ := h5.ln (.of hq lq.dirty) (.of h4 .empty)
      exact h6.ln (ih rfl b1) hc l2 l2 (.inr (.inr ⟨l1, l1⟩))
    | leaf h => cases h
  | text h =>
    intro p s d t he hb
    cases he
    cases hb with
    | text h1 => exact .of h (.text h1)
    | leaf h => cases h
  | empty h =>
    intro p s d t he hb
    split at h
    · exact .of h .empty
    · exact .na h
  | datatype _ h =>
    intro p s d t he hb
    split at h
    · exact .of h .empty
    · exact .na h
  | datatypeValue _ h =>
    intro p s d t he hb
    split at h
    · exact .of h .empty
    · exact .na h
  | datatypeExcept _ _ _ _ h =>
    intro p s d t he hb
    split at h
    · exact .of h .empty
    · exact .na h
  | element h =>
    intro p s d t he hb
    cases he
    cases hb with
    | element h1 h2 =>
      split at h
      · exact .of h (.element h1 h2)
      · exact .na h
    | leaf h => cases h
  | list _ h =>
    intro p s d t he hb
    cases he
    cases hb with
    | leaf _ h2 h3 =>
      have lf : ∀ {j}, Liv L lk QE false true t (.list j) := .leaf rfl h2 nofun
      obtain ⟨q, hq, h⟩ := h
      rcases h with ⟨rfl, rfl⟩ | ⟨rfl, rfl⟩ | ⟨_, l, e, hl, he, hc⟩ | ⟨_, hl⟩
      · exact .na hq
      · exact .of hq .empty
      · exact hc.ln (.of hl lf) (.of he .empty)
      · exact .of hl lf
  | notAllowed h => intro p s d t he hb; exact .na h
  | attr h => intro p s d t he hb; exact .na h
  | loopNil => intro p s d t he; cases he
  | loopStop => intro p s d t he; cases he
  | loopStep => intro p s d t he; cases he

theorem TD.livS {job i} (h : TD L lk job i) : ∀ {p s b d k}, job = .txt p s → LivS L lk QE b false d (k + 1) p →
    LNS L lk QE b false true (k + 1) i := by
  induction h with
  | @choice l r f p q s a b i h1 h2 h3 h4 h5 ih1 ih2 =>
    intro p s b d t he hb
    cases he
    cases hb with
    | choice g1 g2 b1 b2 _ =>
      rw [g1] at h1; cases h1; rw [g2] at h2; cases h2
      have na : ∀ {x y : Pat D V} {s j}, TD L lk (.txt x s) j → x = .notAllowed → lk j = some .notAllowed := by
        intro x y s j h e; subst e; cases h; assumption
      refine h5.lns ?_ ?_
      · rcases Classical.em (p = .notAllowed) with e | e
        · exact .na (na (y := p) h3 e)
        · exact ih1 rfl (b1 e)
      · rcases Classical.em (q = .notAllowed) with e | e
        · exact .na (na (y := p) h4 e)
        · exact ih2 rfl (b2 e)
  | after h1 h2 h3 _ =>
    intro p t b d k he hb
    cases he
    cases hb with
    | after g1 g2 l1 l2 =>
      rw [g1] at h1; cases h1
      exact h3.lns (h2.liv rfl l1) (.of g2 l2) g2 l2.ne
  | loopNil => intro p t b d k he; cases he
  | loopStop => intro p t b d k he; cases he
  | loopStep => intro p t b d k he; cases he
  | _ => intro p t b d k he hb; cases he; cases hb

/-! ### start tags -/

/-- there is a live pattern -/
def LI (L : Lib D V) (lk : Lk D V) (QE : NameClass → Nat → Prop) (o d : Bool) (t i : Nat) : Prop :=
  ∃ p, lk i = some p ∧ Liv L lk QE o d t p

theorem LI.ln {o d t i} (h : LI L lk QE o d t i) : LN L lk QE o d t i := by
  obtain ⟨p, hp, h⟩ := h
  exact .of hp h

theorem GroupOf.li {o d t t1 t2 l r i} (h : GroupOf lk l r i) (hl : LI L lk QE o d t1 l) (hr : LI L lk QE o d t2 r) (g1 : t1 ≤ t) (g2 : t2 ≤ t)
    (g : Grp t1 t2) : LI L lk QE o d t i := by
  obtain ⟨p, hp, lp⟩ := hl
  obtain ⟨q, hq, lq⟩ := hr
  obtain ⟨p', q', h1, h2, h⟩ := h
  rw [hp] at h1; cases h1; rw [hq] at h2; cases h2
  rcases h with ⟨e, _⟩ | ⟨e, _⟩ | ⟨_, rfl⟩ | ⟨_, rfl⟩ | ⟨_, _, h⟩
  · exact absurd e lp.ne
  · exact absurd e lq.ne
  · exact ⟨_, hq, lq.up g2⟩
  · exact ⟨_, hp, lp.up g1⟩
  · exact ⟨_, h, .group hp hq lp lq g1 g2 g⟩

theorem InterOf.li {o d t t1 t2 l r i} (h : InterOf lk l r i) (hl : LI L lk QE o d t1 l) (hr : LI L lk QE o d t2 r) (g1 : t1 ≤ t) (g2 : t2 ≤ t)
    (g : Grp t1 t2) : LI L lk QE o d t i := by
  obtain ⟨p, hp, lp⟩ := hl
  obtain ⟨q, hq, lq⟩ := hr
  obtain ⟨p', q', h1, h2, h⟩ := h
  rw [hp] at h1; cases h1; rw [hq] at h2; cases h2
  rcases h with ⟨e, _⟩ | ⟨e, _⟩ | ⟨_, rfl⟩ | ⟨_, rfl⟩ | ⟨_, _, h⟩
  · exact absurd e lp.ne
  · exact absurd e lq.ne
  · exact ⟨_, hq, lq.up g2⟩
  · exact ⟨_, hp, lp.up g1⟩
  · exact ⟨_, h, .interleave hp hq lp lq g1 g2 g⟩

theorem ChoiceOf.li {o d t l r i} (h : ChoiceOf lk l r i) (hl : LI L lk QE o d t l) (hr : LI L lk QE o d t r) : LI L lk QE o d t i := by
  obtain ⟨p, hp, lp⟩ := hl
  obtain ⟨q, hq, lq⟩ := hr
  obtain ⟨p', q', h1, h2, h⟩ := h
  rw [hp] at h1; cases h1; rw [hq] at h2; cases h2
  rcases h with ⟨_, rfl⟩ | ⟨_, rfl⟩ | ⟨_, rfl⟩ | ⟨hna, h⟩
  · exact ⟨_, hq, lq⟩
  · exact ⟨_, hp, lp⟩
  · exact ⟨_, hp, lp⟩
  · exact ⟨_, h, .choice hp hq (fun _ => lp) (fun _ => lq) fun e => absurd e lp.nd⟩

theorem AA.na {F i} (h : AA lk F (.notAllowed : Pat D V) i) : lk i = some .notAllowed := by cases h; assumption

/-- nothing but attributes: no start tag -/
theorem STD.ao {nm p i} (h : STD lk nm p i) : AO lk p → lk i = some .notAllowed := by
  induction h with
  | choice h1 h2 _ _ h5 ih1 ih2 =>
    intro ha
    cases ha with
    | choice g1 g2 a1 a2 =>
      rw [g1] at h1; cases h1; rw [g2] at h2; cases h2
      exact h5.naBoth (ih1 a1) (ih2 a2)
  | other _ h => intro _; exact h
  | elementNo _ h => intro _; exact h
  | _ => intro ha; cases ha

theorem STD.na {nm i} (h : STD lk nm (.notAllowed : Pat D V) i) : lk i = some .notAllowed := by cases h; assumption

theorem STD.atts {nm j f i p} (h : STD lk nm (.oneOrMore j f : Pat D V) i) (hj : lk j = some p) (ha : AO lk p) : lk i = some .notAllowed := by
  cases h with
  | oneOrMore h1 h2 h3 h4 =>
    rw [hj] at h1; cases h1
    rw [h2.ao ha] at h3; cases h3
    exact h4.na
  | other h => rcases h with h | h | h | ⟨_, _, h⟩ | ⟨_, h⟩ | ⟨_, h⟩ | ⟨_, _, h⟩ | ⟨_, h⟩ <;> cases h

/-- no content, no start tag -/
theorem STD.zero {nm p i} (h : STD lk nm p i) : ∀ {o d}, Liv L lk QE o d 0 p → lk i = some .notAllowed := by
  induction h with
  | @choice l r f p q a b i h1 h2 h3 h4 h5 ih1 ih2 =>
    intro o d hb
    cases hb with
    | choice g1 g2 b1 b2 _ =>
      rw [g1] at h1; cases h1; rw [g2] at h2; cases h2
      refine h5.naBoth ?_ ?_
      · rcases Classical.em (Dead lk p) with e | e
        · exact h3.ao e.ao
        · exact ih1 (b1 e)
      · rcases Classical.em (Dead lk q) with e | e
        · exact h4.ao e.ao
        · exact ih2 (b2 e)
    | atts g1 g2 g3 g4 =>
      rw [g1] at h1; cases h1; rw [g4] at h2; cases h2
      exact h5.naBoth (h3.atts g2 g3) (ih2 (o := true) (d := true) .empty)
    | leaf h => cases h
  | oneOrMore h1 h2 h3 h4 ih =>
    intro o d hb
    cases hb with
    | oneOrMore g1 b1 _ l2 =>
      rw [g1] at h1; cases h1
      rw [ih (b1.up l2)] at h3; cases h3
      exact h4.na
    | leaf h => cases h
  | interleave h1 h2 _ h4 h5 _ h7 h8 h9 ih1 ih2 =>
    intro o d hb
    cases hb with
    | interleave g1 g2 b1 b2 l1 l2 _ =>
      rw [g1] at h1; cases h1; rw [g2] at h2; cases h2
      rw [ih1 (b1.up l1)] at h4; cases h4
      rw [ih2 (b2.up l2)] at h7; cases h7
      exact h9.naBoth h5.na h8.na
    | leaf h => cases h
  | groupN h1 h2 _ _ h4 h5 h6 h7 ih1 ih2 =>
    intro o d hb
    cases hb with
    | group g1 g2 b1 b2 l1 l2 _ =>
      rw [g1] at h1; cases h1; rw [g2] at h2; cases h2
      rw [ih1 (b1.up l1)] at h4; cases h4
      exact h7.naBoth h5.na (ih2 (b2.up l2))
    | leaf h => cases h
  | group h1 h2 _ _ h4 h5 ih1 =>
    intro o d hb
    cases hb with
    | group g1 g2 b1 b2 l1 l2 _ =>
      rw [g1] at h1; cases h1
      rw [ih1 (b1.up l1)] at h4; cases h4
      exact h5.na
    | leaf h => cases h
  | element =>
    intro o d hb
    cases hb with
    | element h => omega
    | leaf h => cases h
  | elementNo _ h => intro o d _; exact h
  | after => intro o d hb; cases hb with | leaf h => cases h
  | other _ h => intro o d _; exact h

theorem AA.liv {F p i} (h : AA lk F p i) (hF : ∀ j i, F j i → LI L lk QE false false 1 j → LI L lk QE false false 1 i) :
    (p ≠ .notAllowed → LivS L lk QE 1 true false 1 p) → LNS L lk QE 1 true false 1 i := by
  induction h with
  | after h1 h2 =>
    intro hb
    cases hb nofun with
    | after g1 g2 l1 l2 =>
      obtain ⟨q, hq, lq⟩ := hF _ _ h1 ⟨_, g2, l2.zero⟩
      exact h2.lns (.of g1 l1) (.of hq (.base lq)) hq lq.ne
  | choice h1 h2 _ _ h5 ih1 ih2 =>
    intro hb
    cases hb nofun with
    | choice g1 g2 b1 b2 =>
      rw [g1] at h1; cases h1; rw [g2] at h2; cases h2
      exact h5.lns (ih1 b1) (ih2 b2)
  | notAllowed h => intro _; exact .na h

theorem MoreOf.li {j x i p t} (h : MoreOf lk j x i) (hj : lk j = some p) (hl : Liv L lk QE false false t p) (ht : t ≤ 1)
    (hx : LI L lk QE false false 1 x) : LI L lk QE false false 1 i := by
  obtain ⟨o, e, c, h1, h2, h3, h4⟩ := h
  obtain ⟨q, hq, lq⟩ := h1.liv (o := false) hj hl ht
  have hc : LI L lk QE false false 1 c := h3.li ⟨_, hq, lq.up ht⟩ ⟨_, h2, .empty⟩
  exact h4.li hx hc (Nat.le_refl _) (Nat.le_refl _) (.inr (.inr ⟨Nat.le_refl _, Nat.le_refl _⟩))

theorem LNS.imp {b o d k i} {p : Pat D V} (h : LNS L lk QE b o d k i) (hp : lk i = some p) : p ≠ .notAllowed → LivS L lk QE b o d k p :=
  fun hn => h.get hp hn

theorem LNS.ofNa {b o d k i} {p : Pat D V} (h : lk i = some .notAllowed) (hp : lk i = some p) : p ≠ .notAllowed → LivS L lk QE b o d k p :=
  fun hn => absurd (by rw [hp] at h; exact Option.some.inj h) hn

/-- the contents of elements are live -/
def QOk (L : Lib D V) (lk : Lk D V) (QE : NameClass → Nat → Prop) : Prop := ∀ nc i, QE nc i → LI L lk QE true false 2 i

theorem STD.liv (hQ : QOk L lk QE) {nm p i} (h : STD lk nm p i) : ∀ {d t}, Liv L lk QE false d t p → LNS L lk QE 1 true false 1 i := by
  induction h with
  | @choice l r f p q a b i h1 h2 h3 h4 h5 ih1 ih2 =>
    intro d t hb
    cases hb with
    | choice g1 g2 b1 b2 _ =>
      rw [g1] at h1; cases h1; rw [g2] at h2; cases h2
      refine h5.lns ?_ ?_
      · rcases Classical.em (Dead lk p) with e | e
        · exact .na (h3.ao e.ao)
        · exact ih1 (b1 e)
      · rcases Classical.em (Dead lk q) with e | e
        · exact .na (h4.ao e.ao)
        · exact ih2 (b2 e)
    | atts g1 g2 g3 g4 =>
      rw [g1] at h1; cases h1; rw [g4] at h2; cases h2
      exact h5.lns (.na (h3.atts g2 g3)) (ih2 (d := d) (t := t) .empty)
    | leaf h => cases h
  | oneOrMore h1 h2 h3 h4 ih =>
    intro d t hb
    cases hb with
    | oneOrMore g1 b1 l1 l2 =>
      rw [g1] at h1; cases h1
      exact h4.liv (fun j i hm hj => hm.li g1 (b1.clean l1) l1 hj) ((ih b1).imp h3)
    | leaf h => cases h
  | interleave h1 h2 x1 h4 h5 x2 h7 h8 h9 ih1 ih2 =>
    intro d t hb
    cases hb with
    | @interleave _ _ _ t1 t2 _ _ _ _ _ g1 g2 b1 b2 l1 l2 g =>
      rw [g1] at h1; cases h1; rw [g2] at h2; cases h2
      have e1 := (ih1 b1).imp h4
      have e2 := (ih2 b2).imp h7
      rcases g with rfl | rfl | ⟨le1, le2⟩
      · rw [x1.zero b1] at h4; cases h4
        refine h9.lns (.na h5.na) (h8.liv (fun j i hm hj => hm.li ⟨_, g1, b1.clean (Nat.zero_le _)⟩ hj (Nat.zero_le _) (Nat.le_refl _) (.inl rfl)) e2)
      · rw [x2.zero b2] at h7; cases h7
        refine h9.lns (h5.liv (fun j i hm hj => hm.li hj ⟨_, g2, b2.clean (Nat.zero_le _)⟩ (Nat.le_refl _) (Nat.zero_le _) (.inr (.inl rfl))) e1) (.na h8.na)
      · refine h9.lns (h5.liv (fun j i hm hj => hm.li hj ⟨_, g2, b2.clean le2⟩ (Nat.le_refl _) le2 (.inr (.inr ⟨Nat.le_refl _, le2⟩))) e1)
          (h8.liv (fun j i hm hj => hm.li ⟨_, g1, b1.clean le1⟩ hj le1 (Nat.le_refl _) (.inr (.inr ⟨le1, Nat.le_refl _⟩))) e2)
    | leaf h => cases h
  | groupN h1 h2 _ x1 h4 h5 h6 h7 ih1 ih2 =>
    intro d t hb
    cases hb with
    | @group _ _ _ t1 t2 _ _ _ _ _ g1 g2 b1 b2 l1 l2 g =>
      rw [g1] at h1; cases h1; rw [g2] at h2; cases h2
      have e1 := (ih1 b1).imp h4
      have e2 := ih2 b2
      rcases g with rfl | g
      · rw [x1.zero b1] at h4; cases h4
        exact h7.lns (.na h5.na) e2
      · have le2 : t2 ≤ 1 := by rcases g with h | h <;> omega
        exact h7.lns (h5.liv (fun j i hm hj => hm.li hj ⟨_, g2, b2.clean le2⟩ (Nat.le_refl _) le2 (.inr (.inr ⟨Nat.le_refl _, le2⟩))) e1) e2
    | leaf h => cases h
  | group h1 h2 _ x1 h4 h5 ih1 =>
    intro d t hb
    cases hb with
    | @group _ _ _ t1 t2 _ _ _ _ _ g1 g2 b1 b2 l1 l2 g =>
      rw [g1] at h1; cases h1; rw [g2] at h2; cases h2
      have e1 := (ih1 b1).imp h4
      rcases g with rfl | g
      · rw [x1.zero b1] at h4; cases h4
        exact .na h5.na
      · have le2 : t2 ≤ 1 := by rcases g with h | h <;> omega
        exact h5.liv (fun j i hm hj => hm.li hj ⟨_, g2, b2.clean le2⟩ (Nat.le_refl _) le2 (.inr (.inr ⟨Nat.le_refl _, le2⟩))) e1
    | leaf h => cases h
  | element _ he h3 =>
    intro d t hb
    cases hb with
    | element _ hq => exact h3.lns (hQ _ _ hq).ln (.of he (.base .empty)) he nofun
    | leaf h => cases h
  | elementNo _ h => intro d t _; exact .na h
  | after => intro d t hb; cases hb with | leaf h => cases h
  | other _ h => intro d t _; exact .na h

theorem AA.livAfter {b k r q p i} (h : AA lk (fun j i => AfterOf lk j r i) p i) (hr : lk r = some q) (hq : LivS L lk QE b false false k q) :
    (p ≠ .notAllowed → LivS L lk QE 1 true false 1 p) → LNS L lk QE b true false (k + 2) i := by
  induction h with
  | after h1 h2 =>
    intro hb
    cases hb nofun with
    | @after _ _ _ _ _ p0 q0 g1 g2 l1 l2 =>
      have lt : Liv L lk QE false false 2 q0 := l2.zero.up (by omega)
      obtain ⟨x, hx, h1⟩ := h1
      rw [g2] at hx; cases hx
      rcases h1 with ⟨e, _⟩ | ⟨_, h1⟩
      · exact absurd e lt.ne
      · exact h2.lns (.of g1 l1) (.of h1 (.after g2 hr lt hq)) h1 nofun
  | choice h1 h2 _ _ h5 ih1 ih2 =>
    intro hb
    cases hb nofun with
    | choice g1 g2 b1 b2 =>
      rw [g1] at h1; cases h1; rw [g2] at h2; cases h2
      exact h5.lns (ih1 b1) (ih2 b2)
  | notAllowed h => intro _; exact .na h

theorem STD.livS (hQ : QOk L lk QE) {nm p i} (h : STD lk nm p i) : ∀ {b d k}, LivS L lk QE b false d (k + 1) p → LNS L lk QE b true false (k + 2) i := by
  induction h with
  | @choice l r f p q a b i h1 h2 h3 h4 h5 ih1 ih2 =>
    intro b d k hb
    cases hb with
    | choice g1 g2 b1 b2 _ =>
      rw [g1] at h1; cases h1; rw [g2] at h2; cases h2
      refine h5.lns ?_ ?_
      · rcases Classical.em (p = .notAllowed) with e | e
        · subst e; exact .na h3.na
        · exact ih1 (b1 e)
      · rcases Classical.em (q = .notAllowed) with e | e
        · subst e; exact .na h4.na
        · exact ih2 (b2 e)
  | after h1 h2 h3 h4 _ =>
    intro b d k hb
    cases hb with
    | after g1 g2 l1 l2 =>
      rw [g1] at h1; cases h1
      exact h4.livAfter g2 l2 ((h2.liv hQ l1).imp h3)
  | other h1 h => intro b d k hb; exact .na h
  | elementNo _ h => intro b d k hb; exact .na h
  | _ => intro b d k hb; cases hb

/-- the root: a choice of elements leaves nothing behind -/
theorem STD.livElems (hQ : QOk L lk QE) {nm p i} (h : STD lk nm p i) : ∀ {d t}, Elems lk p → Liv L lk QE false d t p → LNS L lk QE 0 true false 1 i := by
  induction h with
  | @choice l r f p q a b i h1 h2 h3 h4 h5 ih1 ih2 =>
    intro d t he hb
    cases he with
    | choice e1 e2 m1 m2 =>
    rw [e1] at h1; cases h1; rw [e2] at h2; cases h2
    cases hb with
    | choice g1 g2 b1 b2 _ =>
      rw [g1] at e1; cases e1; rw [g2] at e2; cases e2
      refine h5.lns ?_ ?_
      · rcases Classical.em (Dead lk p) with e | e
        · exact .na (h3.ao e.ao)
        · exact ih1 m1 (b1 e)
      · rcases Classical.em (Dead lk q) with e | e
        · exact .na (h4.ao e.ao)
        · exact ih2 m2 (b2 e)
    | atts g1 g2 g3 g4 =>
      rw [g1] at e1; cases e1
      cases m1
    | leaf h => cases h
  | element _ he h3 =>
    intro d t _ hb
    cases hb with
    | element _ hq => exact h3.lns (hQ _ _ hq).ln (.of he (.base .empty)) he nofun
    | leaf h => cases h
  | elementNo _ h => intro d t _ _; exact .na h
  | other _ h => intro d t _ _; exact .na h
  | _ => intro d t he hb; cases he

/-! ### attributes -/

theorem AO.at {x i r} (h : AT L lk x i r) : ∀ {p o d}, lk i = some p → AO lk p → LN L lk QE o d 0 r := by
  induction h with
  | choice h1 _ _ h4 ih1 ih2 =>
    intro p o d hp ha
    rw [h1] at hp; cases hp
    cases ha with
    | choice g1 g2 a1 a2 => exact h4.ln (ih1 g1 a1) (ih2 g2 a2)
  | attr _ _ _ _ h =>
    intro p o d hp ha
    split at h
    · exact .of h .empty
    · exact .na h
  | attrNo _ _ h => intro p o d hp ha; exact .na h
  | other _ _ h => intro p o d hp ha; exact .na h
  | _ h1 => intro p o d hp ha; rw [h1] at hp; cases hp; cases ha

theorem ChoiceOf.attsLi {o d t l e c j f p} (h : ChoiceOf lk l e c) (hl : lk l = some (.oneOrMore j f)) (hj : lk j = some p) (ha : AO lk p)
    (he : lk e = some .empty) : LI L lk QE o d t c := by
  obtain ⟨p', q', h1, h2, h⟩ := h
  rw [hl] at h1; cases h1; rw [he] at h2; cases h2
  rcases h with ⟨e, _⟩ | ⟨e, _⟩ | ⟨e, _⟩ | ⟨_, h⟩
  · cases e
  · cases e
  · subst e; rw [hl] at he; cases he
  · exact ⟨_, h, .atts hl hj ha he⟩

theorem Dead.at {x i r} (h : AT L lk x i r) : ∀ {p}, lk i = some p → Dead lk p → lk r = some .notAllowed := by
  induction h with
  | choice h1 _ _ h4 ih1 ih2 =>
    intro p hp ha
    rw [h1] at hp; cases hp
    cases ha with
    | choice g1 g2 a1 a2 => exact h4.naBoth (ih1 g1 a1) (ih2 g2 a2)
  | attrNo _ _ h => intro p hp ha; exact h
  | other _ _ h => intro p hp ha; exact h
  | _ h1 => intro p hp ha; rw [h1] at hp; cases hp; cases ha

theorem Dead.stc {i r} (h : STC lk i r) : ∀ {p}, lk i = some p → Dead lk p → lk r = some .notAllowed := by
  induction h with
  | choice h1 _ _ h4 ih1 ih2 =>
    intro p hp ha
    rw [h1] at hp; cases hp
    cases ha with
    | choice g1 g2 a1 a2 => exact h4.naBoth (ih1 g1 a1) (ih2 g2 a2)
  | other h1 h2 =>
    intro p hp ha
    cases ha with
    | na => exact hp
    | choice =>
      rw [h1] at hp; cases hp
      rcases h2 with k | k | k | ⟨_, _, k⟩ | ⟨_, k⟩ | ⟨_, k⟩ | ⟨_, _, k⟩ | ⟨_, k⟩ | ⟨_, k⟩ <;> cases k
  | _ h1 => intro p hp ha; rw [h1] at hp; cases hp; cases ha

theorem AT.liv {x i r} (h : AT L lk x i r) : ∀ {o t}, LN L lk QE o false t i → LN L lk QE o false t r := by
  induction h with
  | after h1 => intro o t hl; cases hl.get h1 nofun with | leaf h => cases h
  | choice h1 x1 x2 h4 ih1 ih2 =>
    intro o t hl
    cases hl.get h1 nofun with
    | @choice _ _ _ _ _ _ p q g1 g2 b1 b2 _ =>
      refine h4.ln ?_ ?_
      · rcases Classical.em (Dead lk p) with e | e
        · exact .na (Dead.at x1 g1 e)
        · exact ih1 (.of g1 (b1 e))
      · rcases Classical.em (Dead lk q) with e | e
        · exact .na (Dead.at x2 g2 e)
        · exact ih2 (.of g2 (b2 e))
    | atts g1 g2 g3 g4 =>
      refine h4.ln ?_ (ih2 (.of g4 .empty))
      cases x1 with
      | oneOrMore k1 k2 k3 k4 k5 =>
        rw [g1] at k1; cases k1
        exact k5.ln (AO.at k2 g2 g3) (k4.attsLi (t := t) g1 g2 g3 k3).ln (Nat.zero_le _) (Nat.le_refl _) (.inl rfl)
      | other k1 k2 =>
        rw [g1] at k1; cases k1
        rcases k2 with k | k | k | ⟨_, _, k⟩ | ⟨_, k⟩ | ⟨_, k⟩ | ⟨_, _, k⟩ | ⟨_, k⟩ | ⟨_, k⟩ <;> cases k
      | _ k1 => rw [g1] at k1; cases k1
    | leaf h => cases h
  | group h1 _ h3 _ h5 h6 ih1 ih2 =>
    intro o t hl
    cases hl.get h1 nofun with
    | group g1 g2 b1 b2 l1 l2 g =>
      exact h6.ln (h3.ln (ih1 (.of g1 b1)) (.of g2 b2) l1 l2 g) (h5.ln (.of g1 b1) (ih2 (.of g2 b2)) l1 l2 g)
    | leaf h => cases h
  | interleave h1 _ h3 _ h5 h6 ih1 ih2 =>
    intro o t hl
    cases hl.get h1 nofun with
    | interleave g1 g2 b1 b2 l1 l2 g =>
      exact h6.ln (h3.ln (ih1 (.of g1 b1)) (.of g2 b2) l1 l2 g) (h5.ln (.of g1 b1) (ih2 (.of g2 b2)) l1 l2 g)
    | leaf h => cases h
  | oneOrMore h1 _ h3 h4 h5 ih =>
    intro o t hl
    cases hl.get h1 nofun with
    | oneOrMore g1 b1 l1 l2 =>
      have hc : LN L lk QE o false _ _ := h4.ln (.of h1 (.oneOrMore g1 b1 l1 (Nat.le_refl _))) (.of h3 .empty)
      exact h5.ln ((ih (.of g1 b1)).map fun _ h => h.opened) hc l2 l2 (.inr (.inr ⟨l1, l1⟩))
    | leaf h => cases h
  | attr _ _ _ _ h =>
    intro o t hl
    split at h
    · exact .of h .empty
    · exact .na h
  | attrNo _ _ h => intro o t hl; exact .na h
  | other _ _ h => intro o t hl; exact .na h

theorem AT.livS {x i r} (h : AT L lk x i r) : ∀ {b o k}, LNS L lk QE b o false (k + 1) i → LNS L lk QE b o false (k + 1) r := by
  induction h with
  | after h1 h2 h3 _ =>
    intro b o k hl
    cases hl.get h1 nofun with
    | after g1 g2 l1 l2 => exact h3.lns (h2.liv (.of g1 l1)) (.of g2 l2) g2 l2.ne
  | choice h1 _ _ h4 ih1 ih2 =>
    intro b o k hl
    cases hl.get h1 nofun with
    | choice g1 g2 b1 b2 => exact h4.lns (ih1 ⟨_, g1, b1⟩) (ih2 ⟨_, g2, b2⟩)
  | attrNo _ _ h => intro b o k hb; exact .na h
  | other _ _ h => intro b o k hb; exact .na h
  | attr _ _ _ _ h =>
    rename_i h1 _ _ _
    intro b o k hb
    cases hb.get h1 nofun
  | _ h1 => intro b o k hb; cases hb.get h1 nofun

theorem ATs.livS {as i r} (h : ATs L lk as i r) : ∀ {b o k}, LNS L lk QE b o false (k + 1) i → LNS L lk QE b o false (k + 1) r := by
  induction h with
  | nil => intro b o k h; exact h
  | cons h1 _ ih => intro b o k h; exact ih (h1.livS h)

/-! ### the end of the start tag -/

theorem STC.liv {i r} (h : STC lk i r) : ∀ {o t}, LN L lk QE o false t i → LN L lk QE false false t r := by
  induction h with
  | after h1 => intro o t hl; cases hl.get h1 nofun with | leaf h => cases h
  | choice h1 x1 x2 h4 ih1 ih2 =>
    intro o t hl
    cases hl.get h1 nofun with
    | @choice _ _ _ _ _ _ p q g1 g2 b1 b2 _ =>
      refine h4.ln ?_ ?_
      · rcases Classical.em (Dead lk p) with e | e
        · exact .na (Dead.stc x1 g1 e)
        · exact ih1 (.of g1 (b1 e))
      · rcases Classical.em (Dead lk q) with e | e
        · exact .na (Dead.stc x2 g2 e)
        · exact ih2 (.of g2 (b2 e))
    | atts g1 g2 g3 g4 =>
      have hr : _ := x2
      cases x2 with
      | other k1 _ =>
        cases x1 with
        | oneOrMore k1 k2 =>
          rw [g1] at k1; cases k1
          obtain ⟨p, k2, k3⟩ := k2
          rw [g2] at k2; cases k2
          exact (h4.attsLi k3 g2 g3 g4).ln
        | other k1 k2 =>
          rw [g1] at k1; cases k1
          rcases k2 with k | k | k | ⟨_, _, k⟩ | ⟨_, k⟩ | ⟨_, k⟩ | ⟨_, _, k⟩ | ⟨_, k⟩ | ⟨_, k⟩ <;> cases k
        | _ k1 => rw [g1] at k1; cases k1
      | _ k1 => rw [g4] at k1; cases k1
    | leaf h => cases h
  | group h1 _ _ h6 ih1 ih2 =>
    intro o t hl
    cases hl.get h1 nofun with
    | group g1 g2 b1 b2 l1 l2 g => exact h6.ln (ih1 (.of g1 b1)) (ih2 (.of g2 b2)) l1 l2 g
    | leaf h => cases h
  | interleave h1 _ _ h6 ih1 ih2 =>
    intro o t hl
    cases hl.get h1 nofun with
    | interleave g1 g2 b1 b2 l1 l2 g => exact h6.ln (ih1 (.of g1 b1)) (ih2 (.of g2 b2)) l1 l2 g
    | leaf h => cases h
  | oneOrMore h1 h2 =>
    intro o t hl
    cases hl.get h1 nofun with
    | oneOrMore g1 b1 l1 l2 =>
      obtain ⟨q, hq, lq⟩ := h2.liv (o := false) g1 b1 l1
      exact .of hq (lq.up l2)
    | leaf h => cases h
  | attr _ h => intro o t hl; exact .na h
  | other h1 h2 =>
    intro o t hl
    obtain ⟨p, hp, hl⟩ := hl
    rw [h1] at hp; cases hp
    refine ⟨_, h1, fun hn => ?_⟩
    cases hl hn with
    | empty => exact .empty
    | text h => exact .text h
    | element h3 h4 => exact .element h3 h4
    | leaf h3 h4 h5 => exact .leaf h3 h4 h5
    | _ => rcases h2 with k | k | k | ⟨_, _, k⟩ | ⟨_, k⟩ | ⟨_, k⟩ | ⟨_, _, k⟩ | ⟨_, k⟩ | ⟨_, k⟩ <;> cases k

theorem STC.livS {i r} (h : STC lk i r) : ∀ {b o k}, LNS L lk QE b o false (k + 1) i → LNS L lk QE b false false (k + 1) r := by
  induction h with
  | after h1 h2 h3 _ =>
    intro b o k hl
    cases hl.get h1 nofun with
    | after g1 g2 l1 l2 => exact h3.lns (h2.liv (.of g1 l1)) (.of g2 l2) g2 l2.ne
  | choice h1 _ _ h4 ih1 ih2 =>
    intro b o k hl
    cases hl.get h1 nofun with
    | choice g1 g2 b1 b2 => exact h4.lns (ih1 ⟨_, g1, b1⟩) (ih2 ⟨_, g2, b2⟩)
  | attr _ h => intro b o k hb; exact .na h
  | other h1 h =>
    intro b o k hb
    obtain ⟨p, hp, hl⟩ := hb
    rw [h1] at hp; cases hp
    refine ⟨_, h1, fun hn => ?_⟩
    cases hl hn <;> rcases h with k | k | k | ⟨_, _, k⟩ | ⟨_, k⟩ | ⟨_, k⟩ | ⟨_, _, k⟩ | ⟨_, k⟩ | ⟨_, k⟩ <;> cases k
  | _ h1 => intro b o k hb; cases hb.get h1 nofun

theorem ETD.livS {p r} (h : ETD lk p r) : ∀ {b d k}, (p ≠ .notAllowed → LivS L lk QE b false d (k + 1) p) → LNS L lk QE b false false k r := by
  induction h with
  | choice h1 h2 _ _ h5 ih1 ih2 =>
    intro b d k hb
    cases hb nofun with
    | choice g1 g2 b1 b2 =>
      rw [g1] at h1; cases h1; rw [g2] at h2; cases h2
      exact h5.lns (ih1 b1) (ih2 b2)
  | after h1 h2 =>
    intro b d k hb
    cases hb nofun with
    | after g1 g2 l1 l2 => exact .of g2 l2
  | afterNo _ _ h => intro b d k hb; exact .na h
  | other _ _ h => intro b d k hb; exact .na h

/-! ### one event -/

/-- has character data just been read? -/
def REv.dirty : REv → Bool
  | .text _ => true
  | _ => false

theorem StepRel.livS (hQ : QOk L lk QE) {e i r b d k} (h : StepRel L lk i e r) (hb : LNS L lk QE b false d (k + 1) i) (hn : lk i ≠ some .notAllowed) :
    LNS L lk QE b false e.dirty (e.next (k + 1)) r := by
  cases e with
  | start nm as =>
    obtain ⟨p, hp, d', d2, h1, h2, h3⟩ := h
    exact h3.livS (h2.livS (h1.livS hQ (hb.get hp fun e => hn (by rw [hp, e]))))
  | text s =>
    obtain ⟨p, hp, h1⟩ := h
    exact h1.livS rfl (hb.get hp fun e => hn (by rw [hp, e]))
  | fin =>
    obtain ⟨p, hp, h1⟩ := h
    exact h1.livS (hb.imp hp)

theorem StepRel.livElems (hQ : QOk L lk QE) {nm as i p r d t} (h : StepRel L lk i (.start nm as) r) (hp : lk i = some p)
    (he : Elems lk p) (hl : Liv L lk QE false d t p) : LNS L lk QE 0 false false 1 r := by
  obtain ⟨p', hp', d, d2, h1, h2, h3⟩ := h
  rw [hp] at hp'; cases hp'
  exact h3.livS (h2.livS (h1.livElems hQ he hl))

end Verif
