import Verif.Proof.Order
import Verif.Proof.SchemaTerm
import Verif.Proof.SchemaEvery
/-
The order and grouping in which a schema is written: whether it has a fault, and whether it is endless, does not depend
on it.  `S` is one version, `T` the other; a fault of `S` gives a fault of `T`.
-/
namespace Verif.Order
open Verif

/-- the parts of a pattern, with groups and parentheses dissolved -/
def parts : SPattern → List SPattern
  | .paren p => parts p
  | .seq p q => parts p ++ parts q
  | .inter p q => parts p ++ parts q
  | .choice p q => parts p ++ parts q
  | p => [p]

/-- not a group -/
def leafy : SPattern → Bool
  | .paren _ | .seq _ _ | .inter _ _ | .choice _ _ => false
  | _ => true

theorem leafy_parts : ∀ {p l : SPattern}, l ∈ parts p → leafy l = true
  | .paren p, l, h => leafy_parts (p := p) h
  | .seq p q, l, h => (List.mem_append.mp h).elim leafy_parts leafy_parts
  | .inter p q, l, h => (List.mem_append.mp h).elim leafy_parts leafy_parts
  | .choice p q, l, h => (List.mem_append.mp h).elim leafy_parts leafy_parts
  | .element .., l, h => by cases List.mem_singleton.mp h; rfl
  | .attribute .., l, h => by cases List.mem_singleton.mp h; rfl
  | .list .., l, h => by cases List.mem_singleton.mp h; rfl
  | .mixed .., l, h => by cases List.mem_singleton.mp h; rfl
  | .ident .., l, h => by cases List.mem_singleton.mp h; rfl
  | .parent .., l, h => by cases List.mem_singleton.mp h; rfl
  | .empty, l, h => by cases List.mem_singleton.mp h; rfl
  | .text, l, h => by cases List.mem_singleton.mp h; rfl
  | .notAllowed, l, h => by cases List.mem_singleton.mp h; rfl
  | .external .., l, h => by cases List.mem_singleton.mp h; rfl
  | .grammar .., l, h => by cases List.mem_singleton.mp h; rfl
  | .optional .., l, h => by cases List.mem_singleton.mp h; rfl
  | .zeroOrMore .., l, h => by cases List.mem_singleton.mp h; rfl
  | .oneOrMore .., l, h => by cases List.mem_singleton.mp h; rfl
  | .value .., l, h => by cases List.mem_singleton.mp h; rfl
  | .data .., l, h => by cases List.mem_singleton.mp h; rfl
  | .dataExcept .., l, h => by cases List.mem_singleton.mp h; rfl

theorem parts_leafy {p : SPattern} (h : leafy p = true) : parts p = [p] := by
  cases p <;> first | rfl | cases h

/-- every part of `p` is, up to order and grouping, a part of `q` -/
def PartsLe (p q : SPattern) : Prop := ∀ l ∈ parts p, ∃ l' ∈ parts q, SameP l l'

theorem PartsLe.append {p q r p' q' : SPattern} (h : ∀ l, l ∈ parts r → l ∈ parts p ∨ l ∈ parts q) {s : SPattern}
    (hs : ∀ l, l ∈ parts p' ∨ l ∈ parts q' → l ∈ parts s) (h1 : PartsLe p p') (h2 : PartsLe q q') : PartsLe r s := by
  intro l hl
  rcases h l hl with hl | hl
  · obtain ⟨l', hl', hs'⟩ := h1 l hl; exact ⟨l', hs l' (.inl hl'), hs'⟩
  · obtain ⟨l', hl', hs'⟩ := h2 l hl; exact ⟨l', hs l' (.inr hl'), hs'⟩

theorem PartsLe.self {p q : SPattern} (h : parts p = [p]) (h' : parts q = [q]) (hs : SameP p q) : PartsLe p q := by
  intro l hl
  rw [h] at hl
  cases List.mem_singleton.mp hl
  exact ⟨q, by rw [h']; exact List.mem_singleton.mpr rfl, hs⟩

theorem same_parts {a b : Piece} (h : Same a b) : ∀ p q, a = .pat p → b = .pat q → PartsLe p q := by
  induction h with
  | parenLeft _ ih => intro p q ha hb; cases ha; cases hb; have := ih _ _ rfl rfl; exact this
  | parenRight _ ih => intro p q ha hb; cases ha; cases hb; have := ih _ _ rfl rfl; exact this
  | seq _ _ i j =>
    intro p q ha hb; cases ha; cases hb
    exact .append (fun _ => List.mem_append.mp) (fun _ => List.mem_append.mpr) (i _ _ rfl rfl) (j _ _ rfl rfl)
  | inter _ _ i j =>
    intro p q ha hb; cases ha; cases hb
    exact .append (fun _ => List.mem_append.mp) (fun _ => List.mem_append.mpr) (i _ _ rfl rfl) (j _ _ rfl rfl)
  | choice _ _ i j =>
    intro p q ha hb; cases ha; cases hb
    exact .append (fun _ => List.mem_append.mp) (fun _ => List.mem_append.mpr) (i _ _ rfl rfl) (j _ _ rfl rfl)
  | interSwap _ _ i j =>
    intro p q ha hb; cases ha; cases hb
    exact .append (fun _ => List.mem_append.mp) (fun _ h => List.mem_append.mpr h.symm) (i _ _ rfl rfl) (j _ _ rfl rfl)
  | choiceSwap _ _ i j =>
    intro p q ha hb; cases ha; cases hb
    exact .append (fun _ => List.mem_append.mp) (fun _ h => List.mem_append.mpr h.symm) (i _ _ rfl rfl) (j _ _ rfl rfl)
  | @seqLeft p p' q q' r r' _ _ _ i j k | @interLeft p p' q q' r r' _ _ _ i j k | @choiceLeft p p' q q' r r' _ _ _ i j k =>
    intro _ _ ha hb; cases ha; cases hb
    intro l hl
    rcases List.mem_append.mp hl with hl | hl
    · rcases List.mem_append.mp hl with hl | hl
      · obtain ⟨l', hl', hs⟩ := i _ _ rfl rfl l hl; exact ⟨l', List.mem_append_left _ hl', hs⟩
      · obtain ⟨l', hl', hs⟩ := j _ _ rfl rfl l hl; exact ⟨l', List.mem_append_right _ (List.mem_append_left _ hl'), hs⟩
    · obtain ⟨l', hl', hs⟩ := k _ _ rfl rfl l hl; exact ⟨l', List.mem_append_right _ (List.mem_append_right _ hl'), hs⟩
  | @seqRight p p' q q' r r' _ _ _ i j k | @interRight p p' q q' r r' _ _ _ i j k | @choiceRight p p' q q' r r' _ _ _ i j k =>
    intro _ _ ha hb; cases ha; cases hb
    intro l hl
    rcases List.mem_append.mp hl with hl | hl
    · obtain ⟨l', hl', hs⟩ := i _ _ rfl rfl l hl; exact ⟨l', List.mem_append_left _ (List.mem_append_left _ hl'), hs⟩
    · rcases List.mem_append.mp hl with hl | hl
      · obtain ⟨l', hl', hs⟩ := j _ _ rfl rfl l hl; exact ⟨l', List.mem_append_left _ (List.mem_append_right _ hl'), hs⟩
      · obtain ⟨l', hl', hs⟩ := k _ _ rfl rfl l hl; exact ⟨l', List.mem_append_right _ hl', hs⟩
  | element a b => intro _ _ ha hb; cases ha; cases hb; exact .self rfl rfl (.element a b)
  | «attribute» a b => intro _ _ ha hb; cases ha; cases hb; exact .self rfl rfl (.attribute a b)
  | list a => intro _ _ ha hb; cases ha; cases hb; exact .self rfl rfl (.list a)
  | mixed a => intro _ _ ha hb; cases ha; cases hb; exact .self rfl rfl (.mixed a)
  | ident => intro _ _ ha hb; cases ha; cases hb; exact .self rfl rfl .ident
  | parent => intro _ _ ha hb; cases ha; cases hb; exact .self rfl rfl .parent
  | empty => intro _ _ ha hb; cases ha; cases hb; exact .self rfl rfl .empty
  | text => intro _ _ ha hb; cases ha; cases hb; exact .self rfl rfl .text
  | notAllowed => intro _ _ ha hb; cases ha; cases hb; exact .self rfl rfl .notAllowed
  | external => intro _ _ ha hb; cases ha; cases hb; exact .self rfl rfl .external
  | grammar a => intro _ _ ha hb; cases ha; cases hb; exact .self rfl rfl (.grammar a)
  | optional a => intro _ _ ha hb; cases ha; cases hb; exact .self rfl rfl (.optional a)
  | zeroOrMore a => intro _ _ ha hb; cases ha; cases hb; exact .self rfl rfl (.zeroOrMore a)
  | oneOrMore a => intro _ _ ha hb; cases ha; cases hb; exact .self rfl rfl (.oneOrMore a)
  | value => intro _ _ ha hb; cases ha; cases hb; exact .self rfl rfl .value
  | data => intro _ _ ha hb; cases ha; cases hb; exact .self rfl rfl .data
  | dataExcept a => intro _ _ ha hb; cases ha; cases hb; exact .self rfl rfl (.dataExcept a)
  | _ => intro _ _ ha; cases ha

theorem SameP.le {p q : SPattern} (h : SameP p q) : PartsLe p q := same_parts h p q rfl rfl

/-- every entry of `is` is, up to order and grouping, an entry of `js` -/
def ItemsLe (is js : List SItem) : Prop := ∀ i ∈ flat is, ∃ j ∈ flat js, SameI i j

theorem Same.itemsLe {is js : List SItem} (h : Same (.items is) (.items js)) : ItemsLe is js := (items_matched h).mem

/-- what is at the first place is, up to order and grouping, at the second -/
inductive Le : Place → Place → Prop
  | pat {w p q} : PartsLe p q → Le (.pat w p) (.pat w q)
  | items {w is js} : ItemsLe is js → Le (.items w is) (.items w js)

theorem flat_mem_define {id how p} : ∀ {is : List SItem}, .define id how p ∈ is → SItem.define id how p ∈ flat is
  | i :: is, h => by
    rcases List.mem_cons.mp h with rfl | h
    · exact List.mem_cons_self
    · exact List.mem_append_right _ (flat_mem_define h)

theorem flat_mem_include {path i os} : ∀ {is : List SItem}, .include path i os ∈ is → SItem.include path i os ∈ flat is
  | i :: is, h => by
    rcases List.mem_cons.mp h with rfl | h
    · exact List.mem_cons_self
    · exact List.mem_append_right _ (flat_mem_include h)

theorem flat_mem_div {is' i} : ∀ {is : List SItem}, .div is' ∈ is → i ∈ flat is' → i ∈ flat is
  | j :: is, h, hi => by
    rcases List.mem_cons.mp h with rfl | h
    · exact List.mem_append_left _ hi
    · exact List.mem_append_right _ (flat_mem_div h hi)

section
variable {S T : Files} {x : Ext}

/-- from a group to its parts, any number of times -/
inductive Local (T : Files) : Place → Place → Prop
  | refl {a} : Local T a a
  | step {a b c} : Within T a b → b.files = a.files → ¬ a.Opens b → (∀ w path i, a ≠ .pat w (.external path i)) → Local T b c → Local T a c

theorem Local.trans {a b c : Place} (h : Local T a b) (h' : Local T b c) : Local T a c := by
  induction h with
  | refl => exact h'
  | step h1 h2 h3 h4 _ ih => exact .step h1 h2 h3 h4 (ih h')

theorem local_part {w : Where} : ∀ {p l : SPattern}, l ∈ parts p → Local T (.pat w p) (.pat w l)
  | .paren p, l, h => .step .paren rfl (fun h => h) nofun (local_part (p := p) h)
  | .seq p q, l, h => by
    rcases List.mem_append.mp h with h | h
    · exact .step .seqLeft rfl (fun h => h) nofun (local_part h)
    · exact .step .seqRight rfl (fun h => h) nofun (local_part h)
  | .inter p q, l, h => by
    rcases List.mem_append.mp h with h | h
    · exact .step .interLeft rfl (fun h => h) nofun (local_part h)
    · exact .step .interRight rfl (fun h => h) nofun (local_part h)
  | .choice p q, l, h => by
    rcases List.mem_append.mp h with h | h
    · exact .step .choiceLeft rfl (fun h => h) nofun (local_part h)
    · exact .step .choiceRight rfl (fun h => h) nofun (local_part h)
  | .element .., l, h => by cases List.mem_singleton.mp h; exact .refl
  | .attribute .., l, h => by cases List.mem_singleton.mp h; exact .refl
  | .list .., l, h => by cases List.mem_singleton.mp h; exact .refl
  | .mixed .., l, h => by cases List.mem_singleton.mp h; exact .refl
  | .ident .., l, h => by cases List.mem_singleton.mp h; exact .refl
  | .parent .., l, h => by cases List.mem_singleton.mp h; exact .refl
  | .empty, l, h => by cases List.mem_singleton.mp h; exact .refl
  | .text, l, h => by cases List.mem_singleton.mp h; exact .refl
  | .notAllowed, l, h => by cases List.mem_singleton.mp h; exact .refl
  | .external .., l, h => by cases List.mem_singleton.mp h; exact .refl
  | .grammar .., l, h => by cases List.mem_singleton.mp h; exact .refl
  | .optional .., l, h => by cases List.mem_singleton.mp h; exact .refl
  | .zeroOrMore .., l, h => by cases List.mem_singleton.mp h; exact .refl
  | .oneOrMore .., l, h => by cases List.mem_singleton.mp h; exact .refl
  | .value .., l, h => by cases List.mem_singleton.mp h; exact .refl
  | .data .., l, h => by cases List.mem_singleton.mp h; exact .refl
  | .dataExcept .., l, h => by cases List.mem_singleton.mp h; exact .refl

mutual
theorem local_flatItem {w : Where} : ∀ {i j : SItem} {js}, j ∈ flatItem i → i ∈ js → ∃ ks, j ∈ ks ∧ Local T (.items w js) (.items w ks)
  | .define .., j, js, h, hi => by cases List.mem_singleton.mp h; exact ⟨js, hi, .refl⟩
  | .include .., j, js, h, hi => by cases List.mem_singleton.mp h; exact ⟨js, hi, .refl⟩
  | .annotation, j, js, h, hi => nomatch h
  | .div is, j, js, h, hi => by
    obtain ⟨ks, hk, hl⟩ := local_flat' (w := w) (is := is) (js := is) h (fun _ h => h)
    exact ⟨ks, hk, .step (.div hi) rfl (fun h => h) nofun hl⟩
theorem local_flat' {w : Where} : ∀ {is : List SItem} {j : SItem} {js}, j ∈ flat is → (∀ i ∈ is, i ∈ js) →
    ∃ ks, j ∈ ks ∧ Local T (.items w js) (.items w ks)
  | [], j, js, h, _ => nomatch h
  | i :: is, j, js, h, hs => by
    rcases List.mem_append.mp h with h | h
    · exact local_flatItem (i := i) h (hs i List.mem_cons_self)
    · exact local_flat' (is := is) h (fun k hk => hs k (List.mem_cons_of_mem _ hk))
end

theorem local_flat {w : Where} {js : List SItem} {j : SItem} (h : j ∈ flat js) : ∃ ks, j ∈ ks ∧ Local T (.items w js) (.items w ks) :=
  local_flat' h (fun _ h => h)

theorem Local.inside {a b : Place} (h : Local T a b) : Inside T a b := by
  induction h with
  | refl => exact .refl
  | step h1 _ _ _ _ ih => exact .step h1 ih

theorem Local.refers {n id} {a b : Place} (h : Local T a b) : Refers T n b id → Refers T n a id := by
  induction h with
  | refl => exact fun h => h
  | step h1 _ h3 _ _ ih => exact fun h => .same h1 h3 (ih h)

noncomputable def Place.size : Place → Nat
  | .pat _ p => sizeOf p
  | .items _ is => sizeOf is

/-- A step in `S` is nothing but regrouping in `T`, or is matched by a step in `T`. -/
theorem step_sim (hF : Reordered S T) {a b a' : Place} (h : Within S a b) (hle : Le a a') :
    (Le b a' ∧ ¬ a.Opens b ∧ Place.size b < Place.size a) ∨
    ∃ c' b', Local T a' c' ∧ Within T c' b' ∧ Le b b' ∧ (a.Opens b ↔ c'.Opens b') ∧ c'.files = a.files ∧ b'.files = b.files ∧
      ((∀ w path i, a ≠ .pat w (.external path i)) → ∀ w path i, c' ≠ .pat w (.external path i)) := by
  cases h with
  | @paren w p =>
    cases hle with
    | pat h => exact .inl ⟨.pat h, fun h => h, by simp [Place.size]⟩
  | @seqLeft w p q | @interLeft w p q | @choiceLeft w p q =>
    cases hle with
    | pat h => exact .inl ⟨.pat fun l hl => h l (List.mem_append_left _ hl), fun h => h, by simp [Place.size]; omega⟩
  | @seqRight w p q | @interRight w p q | @choiceRight w p q =>
    cases hle with
    | pat h => exact .inl ⟨.pat fun l hl => h l (List.mem_append_right _ hl), fun h => h, by simp [Place.size]; omega⟩
  | div hi =>
    cases hle with
    | items h =>
      refine .inl ⟨.items fun l hl => h l (flat_mem_div hi hl), fun h => h, ?_⟩
      have := List.sizeOf_lt_of_mem hi
      simp only [Place.size, SItem.div.sizeOf_spec] at *
      omega
  | element =>
    cases hle with
    | pat h =>
      obtain ⟨l', hl', hs⟩ := h _ (List.mem_singleton.mpr rfl)
      have hf := leafy_parts hl'
      cases hs with
      | parenRight => cases hf
      | element _ hp => exact .inr ⟨_, _, local_part hl', .element, .pat (SameP.le hp), Iff.rfl, rfl, rfl, fun _ => nofun⟩
  | «attribute» =>
    cases hle with
    | pat h =>
      obtain ⟨l', hl', hs⟩ := h _ (List.mem_singleton.mpr rfl)
      have hf := leafy_parts hl'
      cases hs with
      | parenRight => cases hf
      | «attribute» _ hp => exact .inr ⟨_, _, local_part hl', .attribute, .pat (SameP.le hp), Iff.rfl, rfl, rfl, fun _ => nofun⟩
  | list =>
    cases hle with
    | pat h =>
      obtain ⟨l', hl', hs⟩ := h _ (List.mem_singleton.mpr rfl)
      have hf := leafy_parts hl'
      cases hs with
      | parenRight => cases hf
      | list hp => exact .inr ⟨_, _, local_part hl', .list, .pat (SameP.le hp), Iff.rfl, rfl, rfl, fun _ => nofun⟩
  | mixed =>
    cases hle with
    | pat h =>
      obtain ⟨l', hl', hs⟩ := h _ (List.mem_singleton.mpr rfl)
      have hf := leafy_parts hl'
      cases hs with
      | parenRight => cases hf
      | mixed hp => exact .inr ⟨_, _, local_part hl', .mixed, .pat (SameP.le hp), Iff.rfl, rfl, rfl, fun _ => nofun⟩
  | optional =>
    cases hle with
    | pat h =>
      obtain ⟨l', hl', hs⟩ := h _ (List.mem_singleton.mpr rfl)
      have hf := leafy_parts hl'
      cases hs with
      | parenRight => cases hf
      | optional hp => exact .inr ⟨_, _, local_part hl', .optional, .pat (SameP.le hp), Iff.rfl, rfl, rfl, fun _ => nofun⟩
  | zeroOrMore =>
    cases hle with
    | pat h =>
      obtain ⟨l', hl', hs⟩ := h _ (List.mem_singleton.mpr rfl)
      have hf := leafy_parts hl'
      cases hs with
      | parenRight => cases hf
      | zeroOrMore hp => exact .inr ⟨_, _, local_part hl', .zeroOrMore, .pat (SameP.le hp), Iff.rfl, rfl, rfl, fun _ => nofun⟩
  | oneOrMore =>
    cases hle with
    | pat h =>
      obtain ⟨l', hl', hs⟩ := h _ (List.mem_singleton.mpr rfl)
      have hf := leafy_parts hl'
      cases hs with
      | parenRight => cases hf
      | oneOrMore hp => exact .inr ⟨_, _, local_part hl', .oneOrMore, .pat (SameP.le hp), Iff.rfl, rfl, rfl, fun _ => nofun⟩
  | except =>
    cases hle with
    | pat h =>
      obtain ⟨l', hl', hs⟩ := h _ (List.mem_singleton.mpr rfl)
      have hf := leafy_parts hl'
      cases hs with
      | parenRight => cases hf
      | dataExcept hp => exact .inr ⟨_, _, local_part hl', .except, .pat (SameP.le hp), Iff.rfl, rfl, rfl, fun _ => nofun⟩
  | grammar =>
    cases hle with
    | pat h =>
      obtain ⟨l', hl', hs⟩ := h _ (List.mem_singleton.mpr rfl)
      have hf := leafy_parts hl'
      cases hs with
      | parenRight => cases hf
      | grammar hp => exact .inr ⟨_, _, local_part hl', .grammar, .items hp.itemsLe, Iff.rfl, rfl, rfl, fun _ => nofun⟩
  | externalPattern hj hl hb =>
    cases hle with
    | pat h =>
      obtain ⟨l', hl', hs⟩ := h _ (List.mem_singleton.mpr rfl)
      have hf := leafy_parts hl'
      cases hs with
      | parenRight => cases hf
      | external =>
        obtain ⟨s', hl2, hss⟩ := SameLoad.okLeft hF hl
        obtain ⟨q, hb', hq⟩ := hss.bodyPattern hb
        exact .inr ⟨_, _, local_part hl', .externalPattern (hF.join _ _ ▸ hj) hl2 hb', .pat (SameP.le hq), Iff.rfl, rfl, rfl, fun h => absurd rfl (h _ _ _)⟩
  | externalGrammar hj hl hb =>
    cases hle with
    | pat h =>
      obtain ⟨l', hl', hs⟩ := h _ (List.mem_singleton.mpr rfl)
      have hf := leafy_parts hl'
      cases hs with
      | parenRight => cases hf
      | external =>
        obtain ⟨s', hl2, hss⟩ := SameLoad.okLeft hF hl
        obtain ⟨q, hb', hq⟩ := hss.bodyGrammar hb
        exact .inr ⟨_, _, local_part hl', .externalGrammar (hF.join _ _ ▸ hj) hl2 hb', .items hq.itemsLe, Iff.rfl, rfl, rfl, fun h => absurd rfl (h _ _ _)⟩
  | define hi =>
    cases hle with
    | items h =>
      obtain ⟨j, hj, hs⟩ := h _ (flat_mem_define hi)
      obtain ⟨ks, hk, hl⟩ := local_flat (T := T) hj
      cases hs with
      | define hp => exact .inr ⟨_, _, hl, .define hk, .pat (SameP.le hp), Iff.rfl, rfl, rfl, fun _ => nofun⟩
  | included hi hj hl hg =>
    cases hle with
    | items h =>
      obtain ⟨j, hj', hs⟩ := h _ (flat_mem_include hi)
      obtain ⟨ks, hk, hlo⟩ := local_flat (T := T) hj'
      cases hs with
      | includes hp =>
        obtain ⟨s', hl2, hss⟩ := SameLoad.okLeft hF hl
        obtain ⟨q, hg', hq⟩ := hss.isGrammar hg
        refine .inr ⟨_, _, hlo, .included hk (hF.join _ _ ▸ hj) hl2 hg', ?_, Iff.rfl, rfl, rfl, fun _ => nofun⟩
        rw [hss.decls]
        exact .items hq.itemsLe
  | override hi hj ho =>
    cases hle with
    | items h =>
      obtain ⟨j, hj', hs⟩ := h _ (flat_mem_include hi)
      obtain ⟨ks, hk, hlo⟩ := local_flat (T := T) hj'
      cases hs with
      | includes hp =>
        obtain ⟨o', ho', hso⟩ := (overrides_matched hp).mem _ ho
        cases hso with
        | overrideDefine hp => exact .inr ⟨_, _, hlo, .override hk (hF.join _ _ ▸ hj) ho', .pat (SameP.le hp), Iff.rfl, rfl, rfl, fun _ => nofun⟩

/-! ### references -/

theorem refers_sim (hF : Reordered S T) {n id} {a : Place} (h : Refers S n a id) : ∀ {a'}, Le a a' → Refers T n a' id := by
  induction h with
  | ident =>
    intro a' hle
    cases hle with
    | pat h =>
      obtain ⟨l', hl', hs⟩ := h _ (List.mem_singleton.mpr rfl)
      have hf := leafy_parts hl'
      cases hs with
      | parenRight => cases hf
      | ident => exact (local_part hl').refers .ident
  | parent =>
    intro a' hle
    cases hle with
    | pat h =>
      obtain ⟨l', hl', hs⟩ := h _ (List.mem_singleton.mpr rfl)
      have hf := leafy_parts hl'
      cases hs with
      | parenRight => cases hf
      | parent => exact (local_part hl').refers .parent
  | same hw ho _ ih =>
    intro a' hle
    rcases step_sim hF hw hle with ⟨h, _, _⟩ | ⟨c', b', h1, h2, h3, h4, _⟩
    · exact ih h
    · exact h1.refers (.same h2 (fun h => ho (h4.mpr h)) (ih h3))
  | deeper hw ho _ ih =>
    intro a' hle
    rcases step_sim hF hw hle with ⟨_, h, _⟩ | ⟨c', b', h1, h2, h3, h4, _⟩
    · exact absurd ho h
    · exact h1.refers (.deeper h2 (h4.mp ho) (ih h3))

/-! ### endless ways -/

/-- `Below T b a`: `b` is reached from `a`, one or more steps deeper -/
abbrev Below (T : Files) : Place → Place → Prop := Relation.TransGen fun b a => Deeper T a b

theorem Local.leads {a b : Place} (h : Local T a b) : ∀ {c}, Deeper T b c → Below T c a := by
  induction h with
  | refl => exact fun h => .single h
  | step h1 h2 _ h4 _ ih => exact fun h => .tail (ih h) (.inner h1 h2 h4)

/-- the same for the steps that lead deeper -/
theorem deeper_sim (hF : Reordered S T) {a b a' : Place} (h : Deeper S a b) (hle : Le a a') :
    (Le b a' ∧ Place.size b < Place.size a) ∨ ∃ b', Below T b' a' ∧ Le b b' := by
  cases h with
  | inner hw hf hx =>
    rcases step_sim hF hw hle with ⟨h, _, hz⟩ | ⟨c', b', h1, h2, h3, _, h5, h6, h7⟩
    · exact .inl ⟨h, hz⟩
    · exact .inr ⟨b', h1.leads (.inner h2 (by rw [h6, h5, hf]) (h7 hx)), h3⟩
  | opens hw hf hl hn =>
    rcases step_sim hF hw hle with ⟨h, _, hz⟩ | ⟨c', b', h1, h2, h3, _, h5, h6, h7⟩
    · exact .inl ⟨h, hz⟩
    · obtain ⟨s', hl', _⟩ := SameLoad.okLeft hF hl
      exact .inr ⟨b', h1.leads (.opens h2 (by rw [h6, h5, hf]) hl' (by rw [h5]; exact hn)), h3⟩
  | grammar hj hl hb hn =>
    cases hle with
    | pat h =>
      obtain ⟨l', hl', hs⟩ := h _ (List.mem_singleton.mpr rfl)
      have hf := leafy_parts hl'
      cases hs with
      | parenRight => cases hf
      | external =>
        obtain ⟨s', hl2, hss⟩ := SameLoad.okLeft hF hl
        obtain ⟨q, hb', hq⟩ := hss.bodyGrammar hb
        exact .inr ⟨_, (local_part hl').leads (.grammar (hF.join _ _ ▸ hj) hl2 hb' hn), .items hq.itemsLe⟩

theorem acc_sim (hF : Reordered S T) {a' : Place} (h : Acc (Below T) a') : ∀ {a}, Le a a' → Acc (fun b a => Deeper S a b) a := by
  induction h with
  | intro a' _ ih =>
    have key : ∀ n a, Place.size a < n → Le a a' → Acc (fun b a => Deeper S a b) a := by
      intro n
      induction n with
      | zero => intro a h; omega
      | succ n ihn =>
        intro a hz hle
        refine ⟨a, fun b hb => ?_⟩
        rcases deeper_sim hF hb hle with ⟨h, hz'⟩ | ⟨b', h1, h2⟩
        · exact ihn b (by omega) h
        · exact ih b' h1 h2
    exact fun {a} => key _ a (Nat.lt_succ_self _)

theorem acc_transGen {α : Type} {r : α → α → Prop} {a : α} (h : Acc r a) : Acc (Relation.TransGen r) a := by
  induction h with
  | intro a _ ih =>
    refine ⟨a, fun b hb => ?_⟩
    cases hb with
    | single h => exact ih b h
    | tail h1 h2 => exact (ih _ h2).inv h1

theorem Le.refl : ∀ a : Place, Le a a
  | .pat _ p => .pat fun l hl => ⟨l, hl, sameP_refl l⟩
  | .items _ is => .items (same_items_refl is).mem

theorem sameLoad_refl (r : Except LoadErr SSchema) : SameLoad r r := by
  cases r with
  | error e => exact .error
  | ok s =>
    obtain ⟨ds, b⟩ := s
    cases b with
    | pattern p => exact .ok (.pattern (sameP_refl p) Iff.rfl)
    | grammar is => exact .ok (.grammar (.items (matched_entries (same_items_refl is))))

theorem filePlace_sim (hF : Reordered S T) {f : Str} {a : Place} (h : FilePlace S f a) : ∃ a', FilePlace T f a' ∧ Le a a' := by
  cases h with
  | pattern hl hb =>
    obtain ⟨s', hl', hss⟩ := SameLoad.okLeft hF hl
    obtain ⟨q, hb', hq⟩ := hss.bodyPattern hb
    exact ⟨_, .pattern hl' hb', hss.decls ▸ .pat (SameP.le hq)⟩
  | grammar hl hb =>
    obtain ⟨s', hl', hss⟩ := SameLoad.okLeft hF hl
    obtain ⟨q, hb', hq⟩ := hss.bodyGrammar hb
    exact ⟨_, .grammar hl' hb', hss.decls ▸ .items hq.itemsLe⟩

theorem not_acc_of_way {α : Type} {r : α → α → Prop} (way : Nat → α) (h : ∀ i, r (way i) (way (i + 1))) {a : α} (ha : Acc (fun b a => r a b) a) :
    ∀ i, way i ≠ a := by
  induction ha with
  | intro a _ ih => intro i hi; exact ih (way (i + 1)) (hi ▸ h i) (i + 1) rfl

/-- an endless way in one version gives an endless way in the other -/
theorem endless_sim (hF : Reordered S T) {f : Str} (h : Endless S f) : Endless T f := by
  apply Classical.byContradiction
  intro hne
  obtain ⟨way, hfp, hd⟩ := h
  obtain ⟨a', hfp', hle⟩ := filePlace_sim hF hfp
  have hacc : Acc (fun b a => Deeper T a b) a' := by
    apply Classical.byContradiction
    intro hn
    obtain ⟨way', h0, h1⟩ := way_of_not_acc hn
    exact hne ⟨way', h0 ▸ hfp', h1⟩
  exact not_acc_of_way way hd (acc_sim hF (acc_transGen hacc) hle) 0 rfl

/-! ### references that lead nowhere -/

theorem Dangling.parts {gs e} : ∀ {p l : SPattern}, l ∈ parts p → Dangling T gs e l → Dangling T gs e p
  | .paren p, l, h, hd => .paren (Dangling.parts (p := p) h hd)
  | .seq p q, l, h, hd => (List.mem_append.mp h).elim (fun h => .seqLeft (Dangling.parts h hd)) (fun h => .seqRight (Dangling.parts h hd))
  | .inter p q, l, h, hd => (List.mem_append.mp h).elim (fun h => .interLeft (Dangling.parts h hd)) (fun h => .interRight (Dangling.parts h hd))
  | .choice p q, l, h, hd => (List.mem_append.mp h).elim (fun h => .choiceLeft (Dangling.parts h hd)) (fun h => .choiceRight (Dangling.parts h hd))
  | .element .., l, h, hd => by cases List.mem_singleton.mp h; exact hd
  | .attribute .., l, h, hd => by cases List.mem_singleton.mp h; exact hd
  | .list .., l, h, hd => by cases List.mem_singleton.mp h; exact hd
  | .mixed .., l, h, hd => by cases List.mem_singleton.mp h; exact hd
  | .ident .., l, h, hd => by cases List.mem_singleton.mp h; exact hd
  | .parent .., l, h, hd => by cases List.mem_singleton.mp h; exact hd
  | .empty, l, h, hd => by cases List.mem_singleton.mp h; exact hd
  | .text, l, h, hd => by cases List.mem_singleton.mp h; exact hd
  | .notAllowed, l, h, hd => by cases List.mem_singleton.mp h; exact hd
  | .external .., l, h, hd => by cases List.mem_singleton.mp h; exact hd
  | .grammar .., l, h, hd => by cases List.mem_singleton.mp h; exact hd
  | .optional .., l, h, hd => by cases List.mem_singleton.mp h; exact hd
  | .zeroOrMore .., l, h, hd => by cases List.mem_singleton.mp h; exact hd
  | .oneOrMore .., l, h, hd => by cases List.mem_singleton.mp h; exact hd
  | .value .., l, h, hd => by cases List.mem_singleton.mp h; exact hd
  | .data .., l, h, hd => by cases List.mem_singleton.mp h; exact hd
  | .dataExcept .., l, h, hd => by cases List.mem_singleton.mp h; exact hd

theorem SameGs.ne_nil {gs gs'} (h : SameGs gs gs') (hn : gs ≠ []) : gs' ≠ [] := by
  cases h with
  | nil => exact absurd rfl hn
  | cons => exact nofun

theorem dangling_sim (hF : Reordered S T) {gs e p} (h : Dangling S gs e p) : ∀ {gs' p'}, SameGs gs gs' → PartsLe p p' → Dangling T gs' e p' := by
  induction h with
  | paren _ ih => exact fun hg hp => ih hg hp
  | seqLeft _ ih | interLeft _ ih | choiceLeft _ ih => exact fun hg hp => ih hg fun l hl => hp l (List.mem_append_left _ hl)
  | seqRight _ ih | interRight _ ih | choiceRight _ ih => exact fun hg hp => ih hg fun l hl => hp l (List.mem_append_right _ hl)
  | missing hm =>
    intro gs' p' hg hp
    obtain ⟨l', hl', hs⟩ := hp _ (List.mem_singleton.mpr rfl)
    have hf := leafy_parts hl'
    cases hs with
    | parenRight => cases hf
    | ident => cases hg with | cons hd hg => exact Dangling.parts hl' (.missing ((SameDs.named hd _).nil_iff.mp hm))
  | innerStart hn =>
    intro gs' p' hg hp
    obtain ⟨l', hl', hs⟩ := hp _ (List.mem_singleton.mpr rfl)
    have hf := leafy_parts hl'
    cases hs with
    | parenRight => cases hf
    | ident => cases hg with | cons hd hg => exact Dangling.parts hl' (.innerStart (hg.ne_nil hn))
  | follow hd _ ih =>
    intro gs' p' hg hp
    obtain ⟨l', hl', hs⟩ := hp _ (List.mem_singleton.mpr rfl)
    have hf := leafy_parts hl'
    cases hs with
    | parenRight => cases hf
    | ident =>
      cases hg with
      | cons hm hg =>
        obtain ⟨d', hd', hr⟩ := (SameDs.named hm _).mem _ hd
        have := ih (.cons hm hg) (SameP.le hr.2.2.2)
        rw [hr.2.2.1] at this
        exact Dangling.parts hl' (.follow hd' this)
  | parent _ ih =>
    intro gs' p' hg hp
    obtain ⟨l', hl', hs⟩ := hp _ (List.mem_singleton.mpr rfl)
    have hf := leafy_parts hl'
    cases hs with
    | parenRight => cases hf
    | parent => cases hg with | cons hd hg => exact Dangling.parts hl' (.parent (ih hg (SameP.le .ident)))
  | grammar he hd _ ih =>
    intro gs' p' hg hp
    obtain ⟨l', hl', hs⟩ := hp _ (List.mem_singleton.mpr rfl)
    have hf := leafy_parts hl'
    cases hs with
    | parenRight => cases hf
    | grammar hi =>
      obtain ⟨ds', he', hm⟩ := expands_same hF he hi
      obtain ⟨d', hd', hr⟩ := (SameDs.named hm _).mem _ hd
      have := ih (.cons hm hg) (SameP.le hr.2.2.2)
      rw [hr.2.2.1] at this
      exact Dangling.parts hl' (.grammar he' hd' this)
  | externalPattern hj hl hb _ ih =>
    intro gs' p' hg hp
    obtain ⟨l', hl', hs⟩ := hp _ (List.mem_singleton.mpr rfl)
    have hf := leafy_parts hl'
    cases hs with
    | parenRight => cases hf
    | external =>
      obtain ⟨s', hl2, hss⟩ := SameLoad.okLeft hF hl
      obtain ⟨q, hb', hq⟩ := hss.bodyPattern hb
      exact Dangling.parts hl' (.externalPattern (hF.join _ _ ▸ hj) hl2 hb' (ih hg (SameP.le hq)))
  | externalGrammar hj hl hb _ ih =>
    intro gs' p' hg hp
    obtain ⟨l', hl', hs⟩ := hp _ (List.mem_singleton.mpr rfl)
    have hf := leafy_parts hl'
    cases hs with
    | parenRight => cases hf
    | external =>
      obtain ⟨s', hl2, hss⟩ := SameLoad.okLeft hF hl
      obtain ⟨q, hb', hq⟩ := hss.bodyGrammar hb
      exact Dangling.parts hl' (.externalGrammar (hF.join _ _ ▸ hj) hl2 hb' (ih hg (SameP.le (.grammar hq))))
  | element _ ih =>
    intro gs' p' hg hp
    obtain ⟨l', hl', hs⟩ := hp _ (List.mem_singleton.mpr rfl)
    have hf := leafy_parts hl'
    cases hs with
    | parenRight => cases hf
    | element _ h => exact Dangling.parts hl' (.element (ih hg (SameP.le h)))
  | «attribute» _ ih =>
    intro gs' p' hg hp
    obtain ⟨l', hl', hs⟩ := hp _ (List.mem_singleton.mpr rfl)
    have hf := leafy_parts hl'
    cases hs with
    | parenRight => cases hf
    | «attribute» _ h => exact Dangling.parts hl' (.attribute (ih hg (SameP.le h)))
  | list _ ih =>
    intro gs' p' hg hp
    obtain ⟨l', hl', hs⟩ := hp _ (List.mem_singleton.mpr rfl)
    have hf := leafy_parts hl'
    cases hs with
    | parenRight => cases hf
    | list h => exact Dangling.parts hl' (.list (ih hg (SameP.le h)))
  | mixed _ ih =>
    intro gs' p' hg hp
    obtain ⟨l', hl', hs⟩ := hp _ (List.mem_singleton.mpr rfl)
    have hf := leafy_parts hl'
    cases hs with
    | parenRight => cases hf
    | mixed h => exact Dangling.parts hl' (.mixed (ih hg (SameP.le h)))
  | optional _ ih =>
    intro gs' p' hg hp
    obtain ⟨l', hl', hs⟩ := hp _ (List.mem_singleton.mpr rfl)
    have hf := leafy_parts hl'
    cases hs with
    | parenRight => cases hf
    | optional h => exact Dangling.parts hl' (.optional (ih hg (SameP.le h)))
  | zeroOrMore _ ih =>
    intro gs' p' hg hp
    obtain ⟨l', hl', hs⟩ := hp _ (List.mem_singleton.mpr rfl)
    have hf := leafy_parts hl'
    cases hs with
    | parenRight => cases hf
    | zeroOrMore h => exact Dangling.parts hl' (.zeroOrMore (ih hg (SameP.le h)))
  | oneOrMore _ ih =>
    intro gs' p' hg hp
    obtain ⟨l', hl', hs⟩ := hp _ (List.mem_singleton.mpr rfl)
    have hf := leafy_parts hl'
    cases hs with
    | parenRight => cases hf
    | oneOrMore h => exact Dangling.parts hl' (.oneOrMore (ih hg (SameP.le h)))
  | except _ ih =>
    intro gs' p' hg hp
    obtain ⟨l', hl', hs⟩ := hp _ (List.mem_singleton.mpr rfl)
    have hf := leafy_parts hl'
    cases hs with
    | parenRight => cases hf
    | dataExcept h => exact Dangling.parts hl' (.except (ih hg (SameP.le h)))

/-! ### faults -/

theorem begins_of_expands {e : NEnv} {is : List SItem} {ds : List Defn} (h : Expands T e is ds) : Begins T e is ds := by
  induction h with
  | nil => exact .stop
  | define _ ih => exact .define ih
  | div h _ _ ih => exact .div h ih
  | «annotation» _ ih => exact .annotation ih
  | «include» a b c d f _ _ ih =>
    have := Begins.include (Expands.include a b c d f .nil) ih
    simpa using this

theorem clash_sim {ds ds' : List Defn} {e : CFault} (h : SameDs ds ds') (hc : Clash ds e) : Clash ds' e := by
  cases hc with
  | @twice id h2 =>
    have : (named ds id).countP (fun d => d.how = .assign) = (named ds' id).countP (fun d => d.how = .assign) :=
      (SameDs.named h id).countP (fun a b hab => by rw [hab.2.1])
    exact .twice (this ▸ h2)
  | mixed h1 h2 =>
    have how : ∀ {m id}, (∃ d ∈ named ds id, d.how = m) → ∃ d ∈ named ds' id, d.how = m := by
      rintro m id ⟨d, hd, hh⟩
      obtain ⟨d', hd', hr⟩ := (SameDs.named h id).mem d hd
      exact ⟨d', hd', by rw [← hr.2.1, hh]⟩
    exact .mixed (how h1) (how h2)

/-- a clash on the way through a grammar of one version is a clash in the other, if all definitions can be brought together there -/
theorem clash_found (hF : Reordered S T) {e : NEnv} {is js : List SItem} (hs : Same (.items is) (.items js)) {ds dsT : List Defn} {ft : CFault}
    (hT : Expands T e js dsT) (hb : Begins S e is ds) (hc : Clash ds ft) : Begins T e js dsT ∧ Clash dsT ft := by
  obtain ⟨dsS, hS, hm⟩ := expands_same hF.symm hT hs.symm
  refine ⟨begins_of_expands hT, clash_sim (Matched.mono (fun a b h => ?_) hm.symm) (Clash.sub (hb.sub hS) hc)⟩
  exact ⟨h.1.symm, h.2.1.symm, h.2.2.1.symm, Same.symm h.2.2.2⟩

/-- in every grammar inside, all definitions can be brought together -/
def AllE (T : Files) (a : Place) : Prop := ∀ w is, Inside T a (.items w is) → ∃ ds, Expands T w.env is ds

theorem AllE.inside {a b : Place} (h : AllE T a) (hi : Inside T a b) : AllE T b := by
  intro w is hb
  refine h w is ?_
  induction hi with
  | refl => exact hb
  | step h1 _ ih => exact .step h1 (ih (fun w is hh => h w is (.step h1 hh)) hb)

theorem grammarAt_sim (hF : Reordered S T) {w : Where} {p q : SPattern} {is : List SItem} (h : GrammarAt S w p is) (hq : leafy q = true) (hs : SameP p q) :
    ∃ js, GrammarAt T w q js ∧ Same (.items is) (.items js) ∧ Within T (.pat w q) (.items w.grammar js) := by
  cases h with
  | grammar =>
    cases hs with
    | parenRight => cases hq
    | grammar h => exact ⟨_, .grammar, h, .grammar⟩
  | external hj hl hb =>
    cases hs with
    | parenRight => cases hq
    | external =>
      obtain ⟨s', hl2, hss⟩ := SameLoad.okLeft hF hl
      obtain ⟨q, hb', hq⟩ := hss.bodyGrammar hb
      exact ⟨_, .external (hF.join _ _ ▸ hj) hl2 hb', hq, .externalGrammar (hF.join _ _ ▸ hj) hl2 hb'⟩

theorem patFault_sim (hF : Reordered S T) {w : Where} {p q : SPattern} {e : CFault} (h : PatFault S x w p e) (hq : leafy q = true) (hs : SameP p q)
    (hT : AllE T (.pat w q)) : PatFault T x w q e := by
  cases h with
  | elementName h1 h2 =>
    cases hs with
    | parenRight => cases hq
    | element n _ => exact .elementName ((n.2 _).mp h1) h2
  | attributeName h1 h2 =>
    cases hs with
    | parenRight => cases hq
    | «attribute» n _ => exact .attributeName ((n.2 _).mp h1) h2
  | elementInAttribute h =>
    cases hs with
    | parenRight => cases hq
    | element n _ => exact .elementInAttribute h
  | selfReference h =>
    cases hs with
    | parenRight => cases hq
    | ident => exact .selfReference h
  | noParent h =>
    cases hs with
    | parenRight => cases hq
    | parent => exact .noParent h
  | parentSelfReference h =>
    cases hs with
    | parenRight => cases hq
    | parent => exact .parentSelfReference h
  | externalInherit =>
    cases hs with
    | parenRight => cases hq
    | external => exact .externalInherit
  | externalPath h =>
    cases hs with
    | parenRight => cases hq
    | external => exact .externalPath (hF.join _ _ ▸ h)
  | externalLoad h h' =>
    cases hs with
    | parenRight => cases hq
    | external => exact .externalLoad (hF.join _ _ ▸ h) (SameLoad.errLeft hF h')
  | externalLoop h h' =>
    cases hs with
    | parenRight => cases hq
    | external => exact .externalLoop (hF.join _ _ ▸ h) h'
  | externalUndefined hj hl hb he hr hn =>
    cases hs with
    | parenRight => cases hq
    | external =>
      obtain ⟨s', hl2, hss⟩ := SameLoad.okLeft hF hl
      obtain ⟨q, hb', hq⟩ := hss.bodyGrammar hb
      obtain ⟨ds', he', hm⟩ := expands_same hF he hq
      exact .externalUndefined (hF.join _ _ ▸ hj) hl2 hb' he' (refers_sim hF hr (.items hq.itemsLe)) ((SameDs.named hm _).nil_iff.mp hn)
  | noStart hg he hn =>
    obtain ⟨js, hg', hi, _⟩ := grammarAt_sim hF hg hq hs
    obtain ⟨ds', he', hm⟩ := expands_same hF he hi
    exact .noStart hg' he' ((SameDs.named hm _).nil_iff.mp hn)
  | clash hg hb hc =>
    obtain ⟨js, hg', hi, hw⟩ := grammarAt_sim hF hg hq hs
    obtain ⟨dsT, he⟩ := hT _ _ (.step hw .refl)
    obtain ⟨h1, h2⟩ := clash_found hF hi he hb hc
    exact .clash hg' h1 h2
  | valuePrefix h =>
    cases hs with
    | parenRight => cases hq
    | value => exact .valuePrefix h
  | value h h' =>
    cases hs with
    | parenRight => cases hq
    | value => exact .value h h'
  | valuePanic h h' =>
    cases hs with
    | parenRight => cases hq
    | value => exact .valuePanic h h'
  | dataPrefix h =>
    cases hs with
    | parenRight => cases hq
    | data => exact .dataPrefix h
  | data h h' =>
    cases hs with
    | parenRight => cases hq
    | data => exact .data h h'
  | dataPanic h h' =>
    cases hs with
    | parenRight => cases hq
    | data => exact .dataPanic h h'
  | exceptPrefix h =>
    cases hs with
    | parenRight => cases hq
    | dataExcept => exact .exceptPrefix h
  | except h h' =>
    cases hs with
    | parenRight => cases hq
    | dataExcept => exact .except h h'
  | exceptPanic h h' =>
    cases hs with
    | parenRight => cases hq
    | dataExcept => exact .exceptPanic h h'

theorem patFault_leafy {w : Where} {p : SPattern} {e : CFault} (h : PatFault S x w p e) : leafy p = true := by
  cases h with
  | noStart hg _ _ => cases hg <;> rfl
  | clash hg _ _ => cases hg <;> rfl
  | _ => rfl

theorem overrideNames_append : ∀ os os' : List SOverride, overrideNames (os ++ os') = overrideNames os ++ overrideNames os'
  | [], _ => rfl
  | .define id _ _ :: os, os' => congrArg (id :: ·) (overrideNames_append os os')
  | .div :: os, os' => overrideNames_append os os'
  | .annotation :: os, os' => overrideNames_append os os'

theorem overrideNames_sim {os os' : List SOverride} (h : Matched SameO os os') : (overrideNames os).Perm (overrideNames os') := by
  induction h with
  | nil => exact .refl _
  | pick hr _ ih =>
    rw [overrideNames_append] at ih
    rw [overrideNames_append]
    cases hr with
    | overrideDefine => exact (ih.cons _).trans List.perm_middle.symm
    | overrideDiv => exact ih
    | overrideAnnotation => exact ih

theorem itemFault_sim (hF : Reordered S T) {w : Where} {i j : SItem} {e : CFault} (h : ItemFault S w i e) (hs : SameI i j) : ItemFault T w j e := by
  cases h with
  | path h => cases hs with | includes hp => exact .path (hF.join _ _ ▸ h)
  | load h h' => cases hs with | includes hp => exact .load (hF.join _ _ ▸ h) (SameLoad.errLeft hF h')
  | loop h h' => cases hs with | includes hp => exact .loop (hF.join _ _ ▸ h) h'
  | inheritPrefix h => cases hs with | includes hp => exact .inheritPrefix h
  | decls hj hl h =>
    cases hs with
    | includes hp =>
      obtain ⟨s', hl2, hss⟩ := SameLoad.okLeft hF hl
      exact .decls (hF.join _ _ ▸ hj) hl2 (by rw [hss.decls]; exact h)
  | notGrammar hj hl h =>
    cases hs with
    | includes hp =>
      obtain ⟨s', hl2, hss⟩ := SameLoad.okLeft hF hl
      refine .notGrammar (hF.join _ _ ▸ hj) hl2 fun is hg => ?_
      obtain ⟨js, hg', _⟩ := hss.symm.isGrammar hg
      exact h js hg'
  | overrideDiv h =>
    cases hs with
    | includes hp =>
      obtain ⟨o, ho, hs⟩ := (overrides_matched hp).mem _ h
      cases hs
      exact .overrideDiv ho
  | overrideTwice h => cases hs with | includes hp => exact .overrideTwice fun hn => h ((overrideNames_sim (overrides_matched hp)).nodup_iff.mpr hn)
  | overrideMissing hj hl hg he hi hn =>
    cases hs with
    | includes hp =>
      obtain ⟨s', hl2, hss⟩ := SameLoad.okLeft hF hl
      obtain ⟨js, hg', hs'⟩ := hss.isGrammar hg
      obtain ⟨ds', he', hm⟩ := expands_same hF he hs'
      exact .overrideMissing (hF.join _ _ ▸ hj) hl2 hg' (by rw [hss.decls]; exact he') ((overrideNames_sim (overrides_matched hp)).mem_iff.mp hi)
        ((SameDs.named hm _).nil_iff.mp hn)

theorem inside_trans {a b c : Place} (h : Inside T a b) (h' : Inside T b c) : Inside T a c := by
  induction h with
  | refl => exact h'
  | step h _ ih => exact .step h (ih h')

theorem fault_sim (hF : Reordered S T) {a pl : Place} {e : CFault} (h : Inside S a pl) : ∀ {a'}, Le a a' → AllE T a' → pl.Fault S x e →
    ∃ pl', Inside T a' pl' ∧ pl'.Fault T x e := by
  induction h with
  | @refl a =>
    intro a' hle hT hf
    cases hle with
    | pat h =>
      have hp := patFault_leafy hf
      obtain ⟨l', hl', hs⟩ := h _ (by rw [parts_leafy hp]; exact List.mem_singleton.mpr rfl)
      have hi := (local_part (T := T) (w := by assumption) hl').inside
      exact ⟨_, hi, patFault_sim hF hf (leafy_parts hl') hs (hT.inside hi)⟩
    | @items w is js h =>
      obtain ⟨i, hi, hf⟩ := hf
      have hm : i ∈ flat is := by
        cases i with
        | «include» => exact flat_mem_include hi
        | _ => cases hf
      obtain ⟨j, hj, hs⟩ := h i hm
      obtain ⟨ks, hk, hl⟩ := local_flat (T := T) hj
      exact ⟨_, hl.inside, ⟨j, hk, itemFault_sim hF hf hs⟩⟩
  | step hw _ ih =>
    intro a' hle hT hf
    rcases step_sim hF hw hle with ⟨h, _, _⟩ | ⟨c', b', h1, h2, h3, _⟩
    · exact ih h hT hf
    · have hi : Inside T a' b' := inside_trans h1.inside (.step h2 .refl)
      obtain ⟨pl', hp, hf'⟩ := ih h3 (hT.inside hi) hf
      exact ⟨pl', inside_trans hi hp, hf'⟩

/-- a fault of one version is a fault of the other, if in the other the definitions of every grammar can be brought together -/
theorem schemaFault_sim (hF : Reordered S T) {f : Str} {e : CFault} (hT : ∀ a, FilePlace T f a → AllE T a) (h : SchemaFault S x f e) : SchemaFault T x f e := by
  cases h with
  | load h => exact .load (SameLoad.errLeft hF h)
  | decls hl h =>
    obtain ⟨s', hl2, hss⟩ := SameLoad.okLeft hF hl
    exact .decls hl2 (by rw [hss.decls]; exact h)
  | place ho hf =>
    obtain ⟨a, hfp, hi⟩ := ho
    obtain ⟨a', hfp', hle⟩ := filePlace_sim hF hfp
    obtain ⟨pl', hi', hf'⟩ := fault_sim hF hi hle (hT a' hfp') hf
    exact .place ⟨a', hfp', hi'⟩ hf'
  | clash hl hb hbe hc =>
    obtain ⟨s', hl2, hss⟩ := SameLoad.okLeft hF hl
    obtain ⟨js, hb', hq⟩ := hss.bodyGrammar hb
    obtain ⟨dsT, he⟩ := hT _ (.grammar hl2 hb') _ _ .refl
    have he : Expands T (rootEnv f s'.decls) js dsT := he
    rw [hss.decls] at he
    obtain ⟨h1, h2⟩ := clash_found hF hq he hbe hc
    exact .clash hl2 hb' (by rw [hss.decls]; exact h1) h2
  | noStart hl hd hn =>
    obtain ⟨s', hl2, hss⟩ := SameLoad.okLeft hF hl
    obtain ⟨ds', hd', hm⟩ := fileDefs_same hF hss hd
    exact .noStart hl2 hd' ((SameDs.named hm _).nil_iff.mp hn)
  | undefined hl hd hfp hr hn =>
    obtain ⟨s', hl2, hss⟩ := SameLoad.okLeft hF hl
    obtain ⟨ds', hd', hm⟩ := fileDefs_same hF hss hd
    obtain ⟨a', hfp', hle⟩ := filePlace_sim hF hfp
    exact .undefined hl2 hd' hfp' (refers_sim hF hr hle) ((SameDs.named hm _).nil_iff.mp hn)
  | dangling hl hd hda =>
    obtain ⟨s', hl2, hss⟩ := SameLoad.okLeft hF hl
    obtain ⟨ds', hd', hm⟩ := fileDefs_same hF hss hd
    refine .dangling hl2 hd' ?_
    rw [hss.decls]
    exact dangling_sim hF hda (.cons hm .nil) (SameP.le .ident)

end
end Verif.Order
