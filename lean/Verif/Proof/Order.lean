import Verif.Spec.Order
import Verif.Proof.SchemaSem2
import Verif.Proof.SchemaRejects
import Verif.Proof.SchemaComp
import Verif.Proof.Algebra
import Verif.Proof.Refactor
/-
The order and grouping in which a schema is written: what it says (`SMatch`) does not depend on it.
-/
namespace Verif.Order
open Verif

/-! ### lists that correspond up to order -/

inductive Matched {α : Type} (R : α → α → Prop) : List α → List α → Prop
  | nil : Matched R [] []
  | pick {i j is l r} : R i j → Matched R is (l ++ r) → Matched R (i :: is) (l ++ j :: r)

namespace Matched
variable {α : Type} {R : α → α → Prop}

theorem perm_right {is js ks : List α} (h : Matched R is js) : js.Perm ks → Matched R is ks := by
  induction h generalizing ks with
  | nil => intro p; rw [p.nil_eq.symm]; exact .nil
  | @pick i j is l r hr _ ih =>
    intro p
    obtain ⟨l', r', rfl⟩ := List.append_of_mem (p.mem_iff.mp (List.mem_append_right l List.mem_cons_self))
    refine .pick hr (ih ?_)
    have := List.perm_middle.symm.trans (p.trans List.perm_middle)
    exact List.Perm.cons_inv this

theorem cons {i j is js} (h : R i j) (h' : Matched R is js) : Matched R (i :: is) (j :: js) := .pick (l := []) h h'

theorem perm_left {is js ks : List α} (p : is.Perm ks) : Matched R is js → Matched R ks js := by
  intro h
  induction p generalizing js with
  | nil => exact h
  | cons x _ ih =>
    cases h with
    | pick hr h => exact .pick hr (ih h)
  | swap x y l =>
    cases h with
    | @pick _ y' _ l1 r1 hy h =>
      generalize hm : l1 ++ r1 = m at h
      cases h with
      | @pick _ x' _ l2 r2 hx h =>
        refine ((h.cons hy).cons hx).perm_right ?_
        refine List.Perm.trans ?_ List.perm_middle.symm
        refine (List.Perm.swap y' x' _).trans (.cons _ ?_)
        rw [hm]
        exact List.perm_middle.symm
  | trans _ _ i1 i2 => exact i2 (i1 h)

theorem symm {is js : List α} (h : Matched R is js) : Matched (fun a b => R b a) js is := by
  induction h with
  | nil => exact .nil
  | pick hr _ ih => exact (Matched.cons (R := fun a b => R b a) hr ih).perm_left List.perm_middle.symm

theorem mono {S : α → α → Prop} (hs : ∀ a b, R a b → S a b) {is js : List α} (h : Matched R is js) : Matched S is js := by
  induction h with
  | nil => exact .nil
  | pick hr _ ih => exact .pick (hs _ _ hr) ih

theorem mem {is js : List α} (h : Matched R is js) : ∀ i ∈ is, ∃ j ∈ js, R i j := by
  induction h with
  | nil => intro _ hi; exact nomatch hi
  | pick hr _ ih =>
    intro k hk
    rcases List.mem_cons.mp hk with rfl | hk
    · exact ⟨_, List.mem_append_right _ List.mem_cons_self, hr⟩
    · obtain ⟨j, hj, hr⟩ := ih k hk
      refine ⟨j, ?_, hr⟩
      rcases List.mem_append.mp hj with hj | hj
      · exact List.mem_append_left _ hj
      · exact List.mem_append_right _ (List.mem_cons_of_mem _ hj)

theorem append {is js is' js' : List α} (h : Matched R is js) (h' : Matched R is' js') : Matched R (is ++ is') (js ++ js') := by
  induction h with
  | nil => exact h'
  | pick hr _ ih =>
    rw [List.append_assoc] at ih
    rw [List.append_assoc]
    exact .pick hr ih

theorem filter {p q : α → Bool} (hp : ∀ a b, R a b → p a = q b) {is js : List α} (h : Matched R is js) :
    Matched R (is.filter p) (js.filter q) := by
  induction h with
  | nil => exact .nil
  | @pick i j is l r hr _ ih =>
    rw [List.filter_append] at ih
    rw [List.filter_append, List.filter_cons, List.filter_cons, hp _ _ hr]
    cases q j
    · simpa using ih
    · simpa using Matched.pick hr ih

theorem countP {p q : α → Bool} (hp : ∀ a b, R a b → p a = q b) {is js : List α} (h : Matched R is js) : is.countP p = js.countP q := by
  induction h with
  | nil => rfl
  | @pick i j is l r hr _ ih =>
    rw [List.countP_append] at ih
    rw [List.countP_append, List.countP_cons, List.countP_cons, hp _ _ hr, ih]
    omega

theorem map {β : Type} {f : α → β} {is js : List α} (hf : ∀ a b, R a b → f a = f b) (h : Matched R is js) : (is.map f).Perm (js.map f) := by
  induction h with
  | nil => exact .refl _
  | pick hr _ ih =>
    rw [List.map_append] at ih
    rw [List.map_cons, List.map_append, List.map_cons, hf _ _ hr]
    exact (ih.cons _).trans List.perm_middle.symm

theorem nil_iff {is js : List α} (h : Matched R is js) : is = [] ↔ js = [] := by
  cases h with
  | nil => simp
  | pick => simp

end Matched

/-! ### pieces -/

abbrev SameP (p q : SPattern) : Prop := Same (.pat p) (.pat q)
abbrev SameI (i j : SItem) : Prop := Same (.item i) (.item j)
abbrev SameO (i j : SOverride) : Prop := Same (.override i) (.override j)

theorem entries_matched {is js : List SItem} (h : Same (.entries is) (.entries js)) : Matched SameI is js := by
  generalize ha : Piece.entries is = a at h
  generalize hb : Piece.entries js = b at h
  induction h generalizing is js with
  | noEntries => cases ha; cases hb; exact .nil
  | entries hr _ _ ih => cases ha; cases hb; exact .pick hr (ih rfl rfl)
  | _ => exact nomatch ha

theorem items_matched {is js : List SItem} (h : Same (.items is) (.items js)) : Matched SameI (flat is) (flat js) := by
  cases h with
  | items h => exact entries_matched h

theorem matched_entries {is js : List SItem} (h : Matched SameI is js) : Same (.entries is) (.entries js) := by
  induction h with
  | nil => exact .noEntries
  | pick hr _ ih => exact .entries hr ih

theorem overrides_matched {is js : List SOverride} (h : Same (.overrides is) (.overrides js)) : Matched SameO is js := by
  generalize ha : Piece.overrides is = a at h
  generalize hb : Piece.overrides js = b at h
  induction h generalizing is js with
  | noOverrides => cases ha; cases hb; exact .nil
  | overrides hr _ _ ih => cases ha; cases hb; exact .pick hr (ih rfl rfl)
  | _ => exact nomatch ha

theorem matched_overrides {is js : List SOverride} (h : Matched SameO is js) : Same (.overrides is) (.overrides js) := by
  induction h with
  | nil => exact .noOverrides
  | pick hr _ ih => exact .overrides hr ih

theorem SameNames.symm {a b} (h : SameNames a b) : SameNames b a := ⟨fun e n => (h.1 e n).symm, fun p => (h.2 p).symm⟩
theorem SameNames.refl {a} : SameNames a a := ⟨fun _ _ => Iff.rfl, fun _ => Iff.rfl⟩

theorem Same.symm {a b : Piece} (h : Same a b) : Same b a := by
  induction h with
  | element n _ ih => exact .element n.symm ih
  | «attribute» n _ ih => exact .attribute n.symm ih
  | list _ ih => exact .list ih
  | mixed _ ih => exact .mixed ih
  | ident => exact .ident
  | parent => exact .parent
  | empty => exact .empty
  | text => exact .text
  | notAllowed => exact .notAllowed
  | external => exact .external
  | grammar _ ih => exact .grammar ih
  | parenLeft _ ih => exact .parenRight ih
  | parenRight _ ih => exact .parenLeft ih
  | seq _ _ i j => exact .seq i j
  | seqLeft _ _ _ i j k => exact .seqRight i j k
  | seqRight _ _ _ i j k => exact .seqLeft i j k
  | inter _ _ i j => exact .inter i j
  | interSwap _ _ i j => exact .interSwap j i
  | interLeft _ _ _ i j k => exact .interRight i j k
  | interRight _ _ _ i j k => exact .interLeft i j k
  | choice _ _ i j => exact .choice i j
  | choiceSwap _ _ i j => exact .choiceSwap j i
  | choiceLeft _ _ _ i j k => exact .choiceRight i j k
  | choiceRight _ _ _ i j k => exact .choiceLeft i j k
  | optional _ ih => exact .optional ih
  | zeroOrMore _ ih => exact .zeroOrMore ih
  | oneOrMore _ ih => exact .oneOrMore ih
  | value => exact .value
  | data => exact .data
  | dataExcept _ ih => exact .dataExcept ih
  | define _ ih => exact .define ih
  | includes _ ih => exact .includes ih
  | items _ ih => exact .items ih
  | noEntries => exact .noEntries
  | entries _ _ i ih => exact matched_entries ((Matched.cons (R := SameI) i (entries_matched ih)).perm_left List.perm_middle.symm)
  | overrideDefine _ ih => exact .overrideDefine ih
  | overrideDiv => exact .overrideDiv
  | overrideAnnotation => exact .overrideAnnotation
  | noOverrides => exact .noOverrides
  | overrides _ _ i ih => exact matched_overrides ((Matched.cons (R := SameO) i (overrides_matched ih)).perm_left List.perm_middle.symm)

mutual
theorem sameP_refl : ∀ p : SPattern, SameP p p
  | .element _ p => .element .refl (sameP_refl p)
  | .attribute _ p => .attribute .refl (sameP_refl p)
  | .list p => .list (sameP_refl p)
  | .mixed p => .mixed (sameP_refl p)
  | .ident _ => .ident
  | .parent _ => .parent
  | .empty => .empty
  | .text => .text
  | .notAllowed => .notAllowed
  | .external _ _ => .external
  | .grammar is => .grammar (.items (matched_entries (same_items_refl is)))
  | .paren p => .parenLeft (.parenRight (sameP_refl p))
  | .seq p q => .seq (sameP_refl p) (sameP_refl q)
  | .inter p q => .inter (sameP_refl p) (sameP_refl q)
  | .choice p q => .choice (sameP_refl p) (sameP_refl q)
  | .optional p => .optional (sameP_refl p)
  | .zeroOrMore p => .zeroOrMore (sameP_refl p)
  | .oneOrMore p => .oneOrMore (sameP_refl p)
  | .value _ _ => .value
  | .data _ _ => .data
  | .dataExcept _ _ p => .dataExcept (sameP_refl p)
theorem same_items_refl : ∀ is : List SItem, Matched SameI (flat is) (flat is)
  | [] => .nil
  | .define _ _ p :: is => Matched.cons (R := SameI) (.define (sameP_refl p)) (same_items_refl is)
  | .div is :: rest => (same_items_refl is).append (same_items_refl rest)
  | .include _ _ os :: is => Matched.cons (R := SameI) (.includes (same_overrides_refl os)) (same_items_refl is)
  | .annotation :: is => same_items_refl is
theorem same_overrides_refl : ∀ is : List SOverride, Same (.overrides is) (.overrides is)
  | [] => .noOverrides
  | i :: is => .overrides (l := []) (same_override_refl i) (same_overrides_refl is)
theorem same_override_refl : ∀ i : SOverride, SameO i i
  | .define _ _ p => .overrideDefine (sameP_refl p)
  | .div => .overrideDiv
  | .annotation => .overrideAnnotation
end

/-- not put into parentheses -/
def Bare (p : SPattern) : Prop := ∀ q, p ≠ .paren q

/-- what is shown for the pattern on the right without its parentheses holds with them -/
theorem Same.unparen {P : SPattern → Prop} (hP : ∀ q, P q → P (.paren q)) {p : SPattern} (h : ∀ q, Bare q → SameP p q → P q) :
    ∀ q, SameP p q → P q := by
  intro q hs
  unfold SameP at hs
  generalize ha : Piece.pat p = a at hs
  generalize hb : Piece.pat q = b at hs
  induction hs generalizing p q with
  | parenRight h1 ih =>
    cases ha; cases hb
    exact hP _ (ih h _ rfl rfl)
  | parenLeft h1 ih =>
    cases ha; cases hb
    exact ih (fun q hq hs => h q hq (.parenLeft hs)) _ rfl rfl
  | element a b => cases ha; cases hb; exact h _ nofun (.element a b)
  | «attribute» a b => cases ha; cases hb; exact h _ nofun (.attribute a b)
  | list a => cases ha; cases hb; exact h _ nofun (.list a)
  | mixed a => cases ha; cases hb; exact h _ nofun (.mixed a)
  | ident => cases ha; cases hb; exact h _ nofun .ident
  | parent => cases ha; cases hb; exact h _ nofun .parent
  | empty => cases ha; cases hb; exact h _ nofun .empty
  | text => cases ha; cases hb; exact h _ nofun .text
  | notAllowed => cases ha; cases hb; exact h _ nofun .notAllowed
  | external => cases ha; cases hb; exact h _ nofun .external
  | grammar a => cases ha; cases hb; exact h _ nofun (.grammar a)
  | seq a b => cases ha; cases hb; exact h _ nofun (.seq a b)
  | seqLeft a b c => cases ha; cases hb; exact h _ nofun (.seqLeft a b c)
  | seqRight a b c => cases ha; cases hb; exact h _ nofun (.seqRight a b c)
  | inter a b => cases ha; cases hb; exact h _ nofun (.inter a b)
  | interSwap a b => cases ha; cases hb; exact h _ nofun (.interSwap a b)
  | interLeft a b c => cases ha; cases hb; exact h _ nofun (.interLeft a b c)
  | interRight a b c => cases ha; cases hb; exact h _ nofun (.interRight a b c)
  | choice a b => cases ha; cases hb; exact h _ nofun (.choice a b)
  | choiceSwap a b => cases ha; cases hb; exact h _ nofun (.choiceSwap a b)
  | choiceLeft a b c => cases ha; cases hb; exact h _ nofun (.choiceLeft a b c)
  | choiceRight a b c => cases ha; cases hb; exact h _ nofun (.choiceRight a b c)
  | optional a => cases ha; cases hb; exact h _ nofun (.optional a)
  | zeroOrMore a => cases ha; cases hb; exact h _ nofun (.zeroOrMore a)
  | oneOrMore a => cases ha; cases hb; exact h _ nofun (.oneOrMore a)
  | value => cases ha; cases hb; exact h _ nofun .value
  | data => cases ha; cases hb; exact h _ nofun .data
  | dataExcept a => cases ha; cases hb; exact h _ nofun (.dataExcept a)
  | _ => exact nomatch ha

/-! ### definitions -/

/-- two definitions of the same name that differ only in order and grouping -/
def SameD (d d' : Defn) : Prop := d.name = d'.name ∧ d.how = d'.how ∧ d.env = d'.env ∧ SameP d.body d'.body

abbrev SameDs : List Defn → List Defn → Prop := Matched SameD

theorem SameDs.named {ds ds' : List Defn} (h : SameDs ds ds') (id : Str) : SameDs (named ds id) (named ds' id) :=
  Matched.filter (fun a b hab => by rw [hab.1]) h

theorem SameDs.any {ds ds' : List Defn} (h : SameDs ds ds') (n : Str) : (ds.any fun o => o.name = n) = ds'.any fun o => o.name = n := by
  induction h with
  | nil => rfl
  | pick hr _ ih =>
    rw [List.any_append] at ih
    rw [List.any_append, List.any_cons, List.any_cons, ih, hr.1]
    rw [Bool.or_left_comm]

theorem SameDs.notOverridden {os os' ds ds' : List Defn} (ho : SameDs os os') (h : SameDs ds ds') :
    SameDs (notOverridden os ds) (notOverridden os' ds') :=
  Matched.filter (fun a b hab => by rw [hab.1, ho.any]) h

theorem overrideDefs_append (e : NEnv) : ∀ os os' : List SOverride, overrideDefs e (os ++ os') = overrideDefs e os ++ overrideDefs e os'
  | [], _ => rfl
  | .define _ _ _ :: os, os' => by
    show _ :: overrideDefs e (os ++ os') = _
    rw [overrideDefs_append e os]; rfl
  | .div :: os, os' => overrideDefs_append e os os'
  | .annotation :: os, os' => overrideDefs_append e os os'

theorem overrides_same {e : NEnv} {os os' : List SOverride} (h : Matched SameO os os') : SameDs (overrideDefs e os) (overrideDefs e os') := by
  induction h with
  | nil => exact .nil
  | pick hr _ ih =>
    rw [overrideDefs_append] at ih
    rw [overrideDefs_append]
    cases hr with
    | overrideDefine hp => exact .pick ⟨rfl, rfl, rfl, hp⟩ ih
    | overrideDiv => exact ih
    | overrideAnnotation => exact ih

theorem SameLoad.okLeft {F F' : Files} (hF : Reordered F F') {f : Str} {s : SSchema} (h : F.load f = .ok s) : ∃ s', F'.load f = .ok s' ∧ SameSchema s s' := by
  have := hF.load f
  rw [h] at this
  generalize hl : F'.load f = l at this
  cases this with
  | ok h => exact ⟨_, rfl, h⟩

theorem SameLoad.errLeft {F F' : Files} (hF : Reordered F F') {f : Str} {e : LoadErr} (h : F.load f = .error e) : F'.load f = .error e := by
  have := hF.load f
  rw [h] at this
  generalize hl : F'.load f = l at this
  cases this with
  | error => rfl

theorem SameSchema.symm {s s'} (h : SameSchema s s') : SameSchema s' s := by
  cases h with
  | pattern h h' => exact .pattern h.symm h'.symm
  | grammar h => exact .grammar h.symm

theorem Reordered.symm {F F' : Files} (hF : Reordered F F') : Reordered F' F := by
  refine ⟨fun f p => (hF.join f p).symm, fun f => ?_⟩
  have := hF.load f
  generalize F.load f = a at this
  generalize F'.load f = b at this
  cases this with
  | error => exact .error
  | ok h => exact .ok h.symm

theorem SameSchema.decls {s s'} (h : SameSchema s s') : s'.decls = s.decls := by
  cases h <;> rfl

theorem SameSchema.bodyPattern {s s' p} (h : SameSchema s s') (hp : s.body = .pattern p) : ∃ q, s'.body = .pattern q ∧ SameP p q := by
  cases h with
  | pattern h _ => cases hp; exact ⟨_, rfl, h⟩
  | grammar h => cases hp

theorem SameSchema.bodyGrammar {s s' is} (h : SameSchema s s') (hp : s.body = .grammar is) : ∃ js, s'.body = .grammar js ∧ Same (.items is) (.items js) := by
  cases h with
  | pattern h _ => cases hp
  | grammar h => cases hp; exact ⟨_, rfl, h⟩

theorem SameSchema.isGrammar {s s' is} (h : SameSchema s s') (hg : s.Grammar is) : ∃ js, s'.Grammar js ∧ Same (.items is) (.items js) := by
  cases hg with
  | grammar => cases h with | grammar h => exact ⟨_, .grammar, h⟩
  | pattern =>
    cases h with
    | pattern h hi =>
      obtain ⟨js, rfl⟩ := hi.mp ⟨_, rfl⟩
      cases h with
      | grammar h => exact ⟨_, .pattern, h⟩

/-! ### the definitions of a grammar -/

section
variable {F F' : Files}

theorem Expands.perm {e : NEnv} {is js : List SItem} (p : is.Perm js) : ∀ {ds}, Expands F e is ds → ∃ ds', Expands F e js ds' ∧ ds.Perm ds' := by
  induction p with
  | nil => intro ds h; exact ⟨ds, h, .refl _⟩
  | cons x _ ih =>
    intro ds h
    obtain ⟨d1, d2, h1, h2, rfl⟩ := h.split
    obtain ⟨ds', h', hp⟩ := ih h2
    exact ⟨_, h1.cons h', .append_left _ hp⟩
  | swap x y l =>
    intro ds h
    obtain ⟨d1, d2, h1, h2, rfl⟩ := h.split
    obtain ⟨d3, d4, h3, h4, rfl⟩ := h2.split
    refine ⟨_, h3.cons (h1.cons h4), ?_⟩
    rw [← List.append_assoc, ← List.append_assoc]
    exact .append_right _ List.perm_append_comm
  | trans _ _ i1 i2 =>
    intro ds h
    obtain ⟨d1, h1, p1⟩ := i1 h
    obtain ⟨d2, h2, p2⟩ := i2 h1
    exact ⟨d2, h2, p1.trans p2⟩

theorem Expands.append {e : NEnv} {is js : List SItem} {ds ds' : List Defn} (h : Expands F e is ds) (h' : Expands F e js ds') :
    Expands F e (is ++ js) (ds ++ ds') := by
  induction h with
  | nil => exact h'
  | define _ i => exact .define (i h')
  | div h1 _ _ i => rw [List.append_assoc]; exact .div h1 (i h')
  | «annotation» _ i => exact .annotation (i h')
  | «include» a1 a2 a3 a4 a5 _ _ i => rw [List.append_assoc]; exact .include a1 a2 a3 a4 a5 (i h')

theorem Expands.unappend {e : NEnv} {js : List SItem} : ∀ {is : List SItem} {ds}, Expands F e (is ++ js) ds →
    ∃ d1 d2, Expands F e is d1 ∧ Expands F e js d2 ∧ ds = d1 ++ d2
  | [], ds, h => ⟨[], ds, .nil, h, rfl⟩
  | i :: is, ds, h => by
    obtain ⟨d1, d2, h1, h2, rfl⟩ := Verif.Expands.split h
    obtain ⟨d3, d4, h3, h4, rfl⟩ := Expands.unappend h2
    exact ⟨_, _, h1.cons h3, h4, by rw [List.append_assoc]⟩

/-- `div` groups dissolved -/
theorem Expands.unflat {e : NEnv} : ∀ {is : List SItem} {ds}, Expands F e (flat is) ds → Expands F e is ds
  | [], _, h => h
  | .define _ _ _ :: is, _, h => by
    cases h with
    | define h => exact .define (Expands.unflat h)
  | .div is :: rest, _, h => by
    obtain ⟨d1, d2, h1, h2, rfl⟩ := Expands.unappend h
    exact .div (Expands.unflat h1) (Expands.unflat h2)
  | .include _ _ _ :: is, _, h => by
    cases h with
    | «include» a b c d e f => exact .include a b c d e (Expands.unflat f)
  | .annotation :: is, _, h => .annotation (Expands.unflat (is := is) h)

theorem Matched.split {α : Type} {R : α → α → Prop} : ∀ {as bs ks : List α}, Matched R (as ++ bs) ks →
    ∃ ka kb, Matched R as ka ∧ Matched R bs kb ∧ (ka ++ kb).Perm ks
  | [], bs, ks, h => ⟨[], ks, .nil, h, .refl _⟩
  | a :: as, bs, ks, h => by
    cases h with
    | pick hr h =>
      obtain ⟨ka, kb, h1, h2, hp⟩ := Matched.split h
      exact ⟨_, kb, h1.cons hr, h2, (hp.cons _).trans List.perm_middle.symm⟩

/-- reordered contents are reordered definitions -/
theorem expands_flat (hF : Reordered F F') {e : NEnv} {is : List SItem} {ds : List Defn} (h : Expands F e is ds) :
    ∀ {js}, Matched SameI (flat is) js → ∃ ds', Expands F' e js ds' ∧ SameDs ds ds' := by
  induction h with
  | nil =>
    intro js hs
    cases hs with
    | nil => exact ⟨[], .nil, .nil⟩
  | @define e id how body rest ds _ ih =>
    intro js hs
    cases hs with
    | @pick _ j _ l r hi hs =>
      cases hi with
      | @define _ _ _ q hp =>
        obtain ⟨ds', h', m⟩ := ih hs
        obtain ⟨d2, h2, p2⟩ := Expands.perm List.perm_middle.symm (Expands.define (id := id) (how := how) (body := q) h')
        have hd : SameD ⟨id, how, body, e⟩ ⟨id, how, q, e⟩ := ⟨rfl, rfl, rfl, hp⟩
        exact ⟨d2, h2, (Matched.cons hd m).perm_right p2⟩
  | @div e items rest ds ds' _ _ i1 i2 =>
    intro js hs
    obtain ⟨ka, kb, ma, mb, hp⟩ := Matched.split hs
    obtain ⟨d1, h1, m1⟩ := i1 ma
    obtain ⟨d2, h2, m2⟩ := i2 mb
    obtain ⟨d3, h3, p3⟩ := Expands.perm hp (Expands.append h1 h2)
    exact ⟨d3, h3, (m1.append m2).perm_right p3⟩
  | «annotation» _ ih => exact ih
  | @«include» e path f s inherit os items rest ds ds' hj hl hg _ ho _ i1 i2 =>
    intro js hs
    cases hs with
    | @pick _ j _ l r hi hs =>
      cases hi with
      | @includes _ _ _ os' hp =>
        obtain ⟨s', hl', hss⟩ := SameLoad.okLeft hF hl
        obtain ⟨js', hg', hs'⟩ := hss.isGrammar hg
        obtain ⟨d1, h1, m1⟩ := i1 (items_matched hs')
        obtain ⟨d2, h2, m2⟩ := i2 hs
        have mo := overrides_same (e := e) (overrides_matched hp)
        rw [hF.join] at hj
        rw [← hss.decls] at h1
        have ho' : ∀ o ∈ overrideDefs e os', ∃ d ∈ d1, d.name = o.name := by
          intro o hm
          obtain ⟨o0, hm0, hr⟩ := mo.symm.mem o hm
          obtain ⟨d, hd, hn⟩ := ho o0 hm0
          obtain ⟨d', hd', hr'⟩ := m1.mem d hd
          exact ⟨d', hd', by rw [← hr'.1, hn, hr.1]⟩
        obtain ⟨d3, h3, p3⟩ := Expands.perm List.perm_middle.symm (Expands.include hj hl' hg' (Expands.unflat h1) ho' h2)
        exact ⟨d3, h3, (((mo.append (SameDs.notOverridden mo m1))).append m2).perm_right p3⟩

theorem expands_same (hF : Reordered F F') {e : NEnv} {is : List SItem} {ds : List Defn} (h : Expands F e is ds)
    {js} (hs : Same (.items is) (.items js)) : ∃ ds', Expands F' e js ds' ∧ SameDs ds ds' := by
  obtain ⟨ds', h', m⟩ := expands_flat hF h (items_matched hs)
  exact ⟨ds', Expands.unflat h', m⟩

/-! ### what the schema says -/

/-- the enclosing grammars, reordered -/
inductive SameGs : List (List Defn) → List (List Defn) → Prop
  | nil : SameGs [] []
  | cons {g g' gs gs'} : SameDs g g' → SameGs gs gs' → SameGs (g :: gs) (g' :: gs')

inductive SameGoal : Goal → Goal → Prop
  | pat {e p q} : SameP p q → SameGoal (.pat e p) (.pat e q)
  | defs {ds ds'} : SameDs ds ds' → SameGoal (.defs ds) (.defs ds')
  | inter {ds ds'} : SameDs ds ds' → SameGoal (.inter ds) (.inter ds')
  | alts {ds ds'} : SameDs ds ds' → SameGoal (.alts ds) (.alts ds')

theorem SameDs.how {ds ds' : List Defn} (h : SameDs ds ds') (hh : ∀ d ∈ ds, d.how ≠ .interleave) : ∀ d ∈ ds', d.how ≠ .interleave := by
  intro d hd
  obtain ⟨d0, h0, hr⟩ := h.symm.mem d hd
  rw [← hr.2.1]
  exact hh d0 h0

theorem SameDs.how' {ds ds' : List Defn} (h : SameDs ds ds') (hh : ∃ d ∈ ds, d.how = .interleave) : ∃ d ∈ ds', d.how = .interleave := by
  obtain ⟨d, hd, hh⟩ := hh
  obtain ⟨d0, h0, hr⟩ := h.mem d hd
  exact ⟨d0, h0, by rw [← hr.2.1, hh]⟩

variable {x : Ext}

/-- an alternative put in anywhere -/
theorem alts_put {gs s b1} {d : Defn} {r : List Defn} : ∀ {l : List Defn} {b2}, SEx F x gs (.pat d.env d.body) s b1 →
    SEx F x gs (.alts (l ++ r)) s b2 → SEx F x gs (.alts (l ++ d :: r)) s (b1 || b2)
  | [], _, h1, h2 => .altsCons h1 h2
  | d' :: l, _, h1, h2 => by
    cases h2 with
    | altsCons m1 m2 => rw [Bool.or_left_comm]; exact .altsCons m1 (alts_put h1 m2)

theorem goal_pat {P : Goal → Prop} {e : NEnv} {p : SPattern} (hP : ∀ q, P (.pat e q) → P (.pat e (.paren q)))
    (h : ∀ q, Bare q → SameP p q → P (.pat e q)) {g : Goal} (hg : SameGoal (.pat e p) g) : P g := by
  cases hg with
  | pat hs => exact Same.unparen (P := fun q => P (.pat e q)) hP h _ hs

theorem goal_ex {gs s b} {e : NEnv} {p : SPattern} {g : Goal} (hg : SameGoal (.pat e p) g)
    (h : ∀ q, Bare q → SameP p q → SEx F x gs (.pat e q) s b) : SEx F x gs g s b :=
  goal_pat (P := fun g => SEx F x gs g s b) (fun _ => .paren) h hg

theorem goal_match {gs a c} {e : NEnv} {p : SPattern} {g : Goal} (hg : SameGoal (.pat e p) g)
    (h : ∀ q, Bare q → SameP p q → SMatch F x gs (.pat e q) a c) : SMatch F x gs g a c :=
  goal_pat (P := fun g => SMatch F x gs g a c) (fun _ => .paren) h hg

/-- exceptions -/
theorem ex_same (hF : Reordered F F') {gs g s b} (h : SEx F x gs g s b) : ∀ {gs' g'}, SameGs gs gs' → SameGoal g g' → SEx F' x gs' g' s b := by
  induction h with
  | value h1 h2 h3 =>
    intro gs' g' hg hs
    refine goal_ex hs (fun q hb hs => ?_)
    cases hs with
    | parenRight => exact absurd rfl (hb _)
    | value => exact .value h1 h2 h3
  | data h1 h2 h3 =>
    intro gs' g' hg hs
    refine goal_ex hs (fun q hb hs => ?_)
    cases hs with
    | parenRight => exact absurd rfl (hb _)
    | data => exact .data h1 h2 h3
  | dataExcept h1 h2 h3 _ ih =>
    intro gs' g' hg hs
    refine goal_ex hs (fun q hb hs => ?_)
    cases hs with
    | parenRight => exact absurd rfl (hb _)
    | dataExcept hp => exact .dataExcept h1 h2 h3 (ih hg (.pat hp))
  | notAllowed =>
    intro gs' g' hg hs
    refine goal_ex hs (fun q hb hs => ?_)
    cases hs with
    | parenRight => exact absurd rfl (hb _)
    | notAllowed => exact .notAllowed
  | choice h1 h2 i1 i2 =>
    intro gs' g' hg hs
    refine goal_ex hs (fun q hb hs => ?_)
    cases hs with
    | parenRight => exact absurd rfl (hb _)
    | choice hp hq => exact .choice (i1 hg (.pat hp)) (i2 hg (.pat hq))
    | choiceSwap hp hq => rw [Bool.or_comm]; exact .choice (i2 hg (.pat hq)) (i1 hg (.pat hp))
    | choiceLeft hp hq hr =>
      cases i1 hg (.pat (.choice hp hq)) with
      | choice m1 m2 => rw [Bool.or_assoc]; exact .choice m1 (.choice m2 (i2 hg (.pat hr)))
    | choiceRight hp hq hr =>
      cases i2 hg (.pat (.choice hq hr)) with
      | choice m1 m2 => rw [← Bool.or_assoc]; exact .choice (.choice (i1 hg (.pat hp)) m1) m2
  | paren h1 ih =>
    intro gs' g' hg hs
    refine goal_ex hs (fun q hb hs => ?_)
    cases hs with
    | parenRight => exact absurd rfl (hb _)
    | parenLeft hp => exact ih hg (.pat hp)
  | ident h1 ih =>
    intro gs' g' hg hs
    refine goal_ex hs (fun q hb hs => ?_)
    cases hs with
    | parenRight => exact absurd rfl (hb _)
    | ident =>
      cases hg with
      | cons hd hg => exact .ident (ih (.cons hd hg) (.defs (SameDs.named hd _)))
  | parent h1 ih =>
    intro gs' g' hg hs
    refine goal_ex hs (fun q hb hs => ?_)
    cases hs with
    | parenRight => exact absurd rfl (hb _)
    | parent =>
      cases hg with
      | cons hd hg => exact .parent (ih hg (.pat .ident))
  | grammar he _ ih =>
    intro gs' g' hg hs
    refine goal_ex hs (fun q hb hs => ?_)
    cases hs with
    | parenRight => exact absurd rfl (hb _)
    | grammar hi =>
      obtain ⟨ds', he', hd⟩ := expands_same hF he hi
      exact .grammar he' (ih (.cons hd hg) (.defs (SameDs.named hd _)))
  | externalPattern hj hl hb' _ ih =>
    intro gs' g' hg hs
    refine goal_ex hs (fun q hb hs => ?_)
    cases hs with
    | parenRight => exact absurd rfl (hb _)
    | external =>
      obtain ⟨s', hl', hss⟩ := SameLoad.okLeft hF hl
      obtain ⟨q, hb', hq⟩ := hss.bodyPattern hb'
      exact .externalPattern (hF.join _ _ ▸ hj) hl' hb' (ih hg (.pat hq))
  | externalGrammar hj hl hb' _ ih =>
    intro gs' g' hg hs
    refine goal_ex hs (fun q hb hs => ?_)
    cases hs with
    | parenRight => exact absurd rfl (hb _)
    | external =>
      obtain ⟨s', hl', hss⟩ := SameLoad.okLeft hF hl
      obtain ⟨q, hb', hq⟩ := hss.bodyGrammar hb'
      exact .externalGrammar (hF.join _ _ ▸ hj) hl' hb' (ih hg (.pat (.grammar hq)))
  | defs hne hh _ ih =>
    intro gs' g' hg hs
    cases hs with
    | defs hd => exact .defs (fun h => hne (hd.nil_iff.mpr h)) (hd.how hh) (ih hg (.alts hd))
  | altsNil =>
    intro gs' g' hg hs
    cases hs with
    | alts hd => cases hd; exact .altsNil
  | altsCons _ _ i1 i2 =>
    intro gs' g' hg hs
    cases hs with
    | alts hd =>
      cases hd with
      | pick hr hd =>
        have := i1 hg (.pat hr.2.2.2)
        rw [hr.2.2.1] at this
        exact alts_put this (i2 hg (.alts hd))

theorem match_same (hF : Reordered F F') {gs g a c} (h : SMatch F x gs g a c) : ∀ {gs' g'}, SameGs gs gs' → SameGoal g g' → SMatch F' x gs' g' a c := by
  induction h with
  | empty =>
    intro gs' g' hg hs
    refine goal_match hs (fun q hb hs => ?_)
    cases hs with
    | parenRight => exact absurd rfl (hb _)
    | empty => exact .empty
  | text h =>
    intro gs' g' hg hs
    refine goal_match hs (fun q hb hs => ?_)
    cases hs with
    | parenRight => exact absurd rfl (hb _)
    | text => exact .text h
  | choiceLeft _ ih =>
    intro gs' g' hg hs
    refine goal_match hs (fun q hb hs => ?_)
    cases hs with
    | parenRight => exact absurd rfl (hb _)
    | choice hp hq => exact .choiceLeft (ih hg (.pat hp))
    | choiceSwap hp hq => exact .choiceRight (ih hg (.pat hp))
    | choiceLeft hp hq hr =>
      cases ih hg (.pat (.choice hp hq)) with
      | choiceLeft m => exact .choiceLeft m
      | choiceRight m => exact .choiceRight (.choiceLeft m)
    | choiceRight hp hq hr => exact .choiceLeft (.choiceLeft (ih hg (.pat hp)))
  | choiceRight _ ih =>
    intro gs' g' hg hs
    refine goal_match hs (fun q hb hs => ?_)
    cases hs with
    | parenRight => exact absurd rfl (hb _)
    | choice hp hq => exact .choiceRight (ih hg (.pat hq))
    | choiceSwap hp hq => exact .choiceLeft (ih hg (.pat hq))
    | choiceLeft hp hq hr => exact .choiceRight (.choiceRight (ih hg (.pat hr)))
    | choiceRight hp hq hr =>
      cases ih hg (.pat (.choice hq hr)) with
      | choiceLeft m => exact .choiceLeft (.choiceRight m)
      | choiceRight m => exact .choiceRight m
  | seq _ _ hp0 i1 i2 =>
    intro gs' g' hg hs
    refine goal_match hs (fun q hb hs => ?_)
    cases hs with
    | parenRight => exact absurd rfl (hb _)
    | seq hp hq => exact .seq (i1 hg (.pat hp)) (i2 hg (.pat hq)) hp0
    | seqLeft hp hq hr =>
      generalize hm : i1 hg (.pat (.seq hp hq)) = m
      clear hm
      revert hp0
      cases m with
      | seq m1 m2 hp1 =>
        intro hp0
        rw [List.append_assoc]
        refine .seq m1 (.seq m2 (i2 hg (.pat hr)) (.refl _)) ?_
        rw [← List.append_assoc]
        exact hp0.trans (.append_right _ hp1)
    | seqRight hp hq hr =>
      generalize hm : i2 hg (.pat (.seq hq hr)) = m
      clear hm
      revert hp0
      cases m with
      | seq m1 m2 hp1 =>
        intro hp0
        rw [← List.append_assoc]
        refine .seq (.seq (i1 hg (.pat hp)) m1 (.refl _)) m2 ?_
        rw [List.append_assoc]
        exact hp0.trans (.append_left _ hp1)
  | inter _ _ hp0 hs0 i1 i2 =>
    intro gs' g' hg hs
    refine goal_match hs (fun q hb hs => ?_)
    cases hs with
    | parenRight => exact absurd rfl (hb _)
    | inter hp hq => exact .inter (i1 hg (.pat hp)) (i2 hg (.pat hq)) hp0 hs0
    | interSwap hp hq => exact .inter (i2 hg (.pat hq)) (i1 hg (.pat hp)) (hp0.trans List.perm_append_comm) hs0.symm
    | interLeft hp hq hr =>
      cases i1 hg (.pat (.inter hp hq)) with
      | inter m1 m2 hp1 hs1 =>
        obtain ⟨v, s1, s2⟩ := Shuffle.assoc hs1 hs0
        refine .inter m1 (.inter m2 (i2 hg (.pat hr)) (.refl _) s1) ?_ s2
        rw [← List.append_assoc]
        exact hp0.trans (.append_right _ hp1)
    | interRight hp hq hr =>
      cases i2 hg (.pat (.inter hq hr)) with
      | inter m1 m2 hp1 hs1 =>
        obtain ⟨v, s1, s2⟩ := Shuffle.assoc' hs1 hs0
        refine .inter (.inter (i1 hg (.pat hp)) m1 (.refl _) s1) m2 ?_ s2
        rw [List.append_assoc]
        exact hp0.trans (.append_left _ hp1)
  | mixed _ ht hs0 ih =>
    intro gs' g' hg hs
    refine goal_match hs (fun q hb hs => ?_)
    cases hs with
    | parenRight => exact absurd rfl (hb _)
    | mixed hp => exact .mixed (ih hg (.pat hp)) ht hs0
  | paren _ ih =>
    intro gs' g' hg hs
    refine goal_match hs (fun q hb hs => ?_)
    cases hs with
    | parenRight => exact absurd rfl (hb _)
    | parenLeft hp => exact ih hg (.pat hp)
  | optionalNone =>
    intro gs' g' hg hs
    refine goal_match hs (fun q hb hs => ?_)
    cases hs with
    | parenRight => exact absurd rfl (hb _)
    | optional => exact .optionalNone
  | optionalSome _ ih =>
    intro gs' g' hg hs
    refine goal_match hs (fun q hb hs => ?_)
    cases hs with
    | parenRight => exact absurd rfl (hb _)
    | optional hp => exact .optionalSome (ih hg (.pat hp))
  | zeroOrMoreNil =>
    intro gs' g' hg hs
    refine goal_match hs (fun q hb hs => ?_)
    cases hs with
    | parenRight => exact absurd rfl (hb _)
    | zeroOrMore => exact .zeroOrMoreNil
  | zeroOrMoreCons _ _ hp0 i1 i2 =>
    intro gs' g' hg hs
    refine goal_match hs (fun q hb hs => ?_)
    cases hs with
    | parenRight => exact absurd rfl (hb _)
    | zeroOrMore hp => exact .zeroOrMoreCons (i1 hg (.pat hp)) (i2 hg (.pat (.zeroOrMore hp))) hp0
  | oneOrMore _ _ hp0 i1 i2 =>
    intro gs' g' hg hs
    refine goal_match hs (fun q hb hs => ?_)
    cases hs with
    | parenRight => exact absurd rfl (hb _)
    | oneOrMore hp => exact .oneOrMore (i1 hg (.pat hp)) (i2 hg (.pat (.zeroOrMore hp))) hp0
  | «attribute» hn hw _ ih =>
    intro gs' g' hg hs
    refine goal_match hs (fun q hb hs => ?_)
    cases hs with
    | parenRight => exact absurd rfl (hb _)
    | «attribute» n hp => exact .attribute ((n.1 _ _).mp hn) hw (ih hg (.pat hp))
  | element hn hw _ ih =>
    intro gs' g' hg hs
    refine goal_match hs (fun q hb hs => ?_)
    cases hs with
    | parenRight => exact absurd rfl (hb _)
    | element n hp => exact .element ((n.1 _ _).mp hn) hw (ih hg (.pat hp))
  | value h1 h2 h3 =>
    intro gs' g' hg hs
    refine goal_match hs (fun q hb hs => ?_)
    cases hs with
    | parenRight => exact absurd rfl (hb _)
    | value => exact .value h1 h2 h3
  | data h1 h2 h3 =>
    intro gs' g' hg hs
    refine goal_match hs (fun q hb hs => ?_)
    cases hs with
    | parenRight => exact absurd rfl (hb _)
    | data => exact .data h1 h2 h3
  | dataExcept h1 h2 h3 h4 =>
    intro gs' g' hg hs
    refine goal_match hs (fun q hb hs => ?_)
    cases hs with
    | parenRight => exact absurd rfl (hb _)
    | dataExcept hp => exact .dataExcept h1 h2 h3 (ex_same hF h4 hg (.pat hp))
  | list hw _ ih =>
    intro gs' g' hg hs
    refine goal_match hs (fun q hb hs => ?_)
    cases hs with
    | parenRight => exact absurd rfl (hb _)
    | list hp => exact .list hw (ih hg (.pat hp))
  | ident h1 ih =>
    intro gs' g' hg hs
    refine goal_match hs (fun q hb hs => ?_)
    cases hs with
    | parenRight => exact absurd rfl (hb _)
    | ident =>
      cases hg with
      | cons hd hg => exact .ident (ih (.cons hd hg) (.defs (SameDs.named hd _)))
  | parent h1 ih =>
    intro gs' g' hg hs
    refine goal_match hs (fun q hb hs => ?_)
    cases hs with
    | parenRight => exact absurd rfl (hb _)
    | parent =>
      cases hg with
      | cons hd hg => exact .parent (ih hg (.pat .ident))
  | grammar he _ ih =>
    intro gs' g' hg hs
    refine goal_match hs (fun q hb hs => ?_)
    cases hs with
    | parenRight => exact absurd rfl (hb _)
    | grammar hi =>
      obtain ⟨ds', he', hd⟩ := expands_same hF he hi
      exact .grammar he' (ih (.cons hd hg) (.defs (SameDs.named hd _)))
  | externalPattern hj hl hb' _ ih =>
    intro gs' g' hg hs
    refine goal_match hs (fun q hb hs => ?_)
    cases hs with
    | parenRight => exact absurd rfl (hb _)
    | external =>
      obtain ⟨s', hl', hss⟩ := SameLoad.okLeft hF hl
      obtain ⟨q, hb', hq⟩ := hss.bodyPattern hb'
      exact .externalPattern (hF.join _ _ ▸ hj) hl' hb' (ih hg (.pat hq))
  | externalGrammar hj hl hb' _ ih =>
    intro gs' g' hg hs
    refine goal_match hs (fun q hb hs => ?_)
    cases hs with
    | parenRight => exact absurd rfl (hb _)
    | external =>
      obtain ⟨s', hl', hss⟩ := SameLoad.okLeft hF hl
      obtain ⟨q, hb', hq⟩ := hss.bodyGrammar hb'
      exact .externalGrammar (hF.join _ _ ▸ hj) hl' hb' (ih hg (.pat (.grammar hq)))
  | defsChoice hh hd _ ih =>
    intro gs' g' hg hs
    cases hs with
    | defs hm =>
      obtain ⟨d', hd', hr⟩ := hm.mem _ hd
      have := ih hg (.pat hr.2.2.2)
      rw [hr.2.2.1] at this
      exact .defsChoice (hm.how hh) hd' this
  | defsInterleave hh _ ih =>
    intro gs' g' hg hs
    cases hs with
    | defs hm => exact .defsInterleave (hm.how' hh) (ih hg (.inter hm))
  | interNil =>
    intro gs' g' hg hs
    cases hs with
    | inter hm => cases hm; exact .interNil
  | interCons _ _ hp hs0 i1 i2 =>
    intro gs' g' hg hs
    cases hs with
    | inter hm =>
      cases hm with
      | pick hr hm =>
        have := i1 hg (.pat hr.2.2.2)
        rw [hr.2.2.1] at this
        exact Refac.inter_put this (i2 hg (.inter hm)) hp hs0

/-- the definitions of the whole schema -/
theorem fileDefs_same (hF : Reordered F F') {f : Str} {s s' : SSchema} (hs : SameSchema s s') {ds : List Defn} (h : FileDefs F f s ds) :
    ∃ ds', FileDefs F' f s' ds' ∧ SameDs ds ds' := by
  cases h with
  | pattern hb =>
    obtain ⟨q, hb', hq⟩ := hs.bodyPattern hb
    exact ⟨_, .pattern hb', .pick (l := []) ⟨rfl, rfl, by rw [hs.decls], hq⟩ .nil⟩
  | grammar hb he =>
    obtain ⟨q, hb', hq⟩ := hs.bodyGrammar hb
    obtain ⟨ds', he', hd⟩ := expands_same hF he hq
    exact ⟨ds', .grammar hb' (hs.decls ▸ he'), hd⟩

theorem schema_same (hF : Reordered F F') {f : Str} {node : Node} (h : SchemaMatches F x f node) : SchemaMatches F' x f node := by
  obtain ⟨s, ds, hl, hd, hm⟩ := h
  obtain ⟨s', hl', hs⟩ := SameLoad.okLeft hF hl
  obtain ⟨ds', hd', hm'⟩ := fileDefs_same hF hs hd
  refine ⟨s', ds', hl', hd', ?_⟩
  rw [hs.decls]
  exact match_same hF hm (.cons hm' .nil) (.pat .ident)

end
end Verif.Order
