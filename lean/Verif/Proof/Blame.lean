import Verif.Proof.Spans
import Verif.Proof.Decode
/-
The errors of the validator are about what they say they are about.
-/
namespace Verif.Loc
open Verif
variable {D V : Type} [DecidableEq D] [DecidableEq V] {L : Lib D V}

theorem byteLen_append (a b : Str) : byteLen (a ++ b) = byteLen a + byteLen b := by
  unfold byteLen; rw [List.map_append, List.sum_append]

theorem byteLen_cons (c : Char) (b : Str) : byteLen (c :: b) = c.utf8Size + byteLen b := by
  unfold byteLen; rw [List.map_cons, List.sum_cons]

/-! ### references in text -/

theorem numericEntity_error {pos : Nat} {s : Str} {r : Nat × Nat} (h : numericEntity pos s = .error r) :
    r = (pos, pos) ∨ r = (pos + 1, pos + 1) := by
  unfold numericEntity at h
  split at h
  · cases h; exact .inl rfl
  · split at h
    · cases h; exact .inr rfl
    · split at h
      · cases h; exact .inr rfl
      · split at h
        · cases h; exact .inl rfl
        · cases h
  · split at h
    · cases h; exact .inl rfl
    · split at h
      · cases h; exact .inl rfl
      · cases h

theorem no_number {digits : Str} (h : Verif.numericEntity digits = none) (t : Str) : ¬ RefMeans (fun _ => none) ('#' :: digits) t := by
  intro hr
  generalize he : '#' :: digits = nm at hr
  cases hr with
  | entity _ _ hh => cases hh
  | dec h1 h2 =>
    cases he
    rw [numericEntity_dec h1 h2] at h; cases h
  | hex h1 h2 =>
    cases he
    rw [numericEntity_hex h1 h2] at h; cases h

/-- what the results of `parse_entities` on the text `raw` at `pos` are -/
def TxtOk (pos : Nat) (raw : Str) : Except (Nat × Nat) Txt → Prop
  | .ok (.entity p name) => ∃ a b, raw = a ++ '&' :: name ++ ';' :: b ∧ ';' ∉ name ∧ p = pos + byteLen a + 1
  | .ok _ => True
  | .error r => (∃ a b, raw = a ++ '&' :: b ∧ ';' ∉ b ∧ r = (pos + byteLen a, pos + byteLen a + 1)) ∨
      ∃ a digits b k, raw = a ++ '&' :: '#' :: digits ++ ';' :: b ∧ ';' ∉ digits ∧ Verif.numericEntity digits = none ∧ (k = byteLen a + 1 ∨ k = byteLen a + 2) ∧ r = (k, k)

theorem go_ok {pos : Nat} {raw : Str} : ∀ (k : Nat) (s : Str), s.length ≤ k →
    (∀ a, raw = a ++ s → ∀ x ∈ entitiesGo pos (byteLen a) false s, TxtOk pos raw x) ∧
    (∀ a, raw = a ++ '&' :: s → ∀ x ∈ entitiesGo pos (byteLen a + 1) true s, TxtOk pos raw x) := by
  intro k
  induction k with
  | zero =>
    intro s hs
    have : s = [] := List.length_eq_zero_iff.1 (Nat.le_zero.1 hs)
    subst this
    exact ⟨fun _ _ x hx => (by rw [go_nil] at hx; cases hx), fun _ _ x hx => (by rw [go_nil] at hx; cases hx)⟩
  | succ k ih =>
    intro s hs
    by_cases h0 : s = []
    · subst h0
      exact ⟨fun _ _ x hx => (by rw [go_nil] at hx; cases hx), fun _ _ x hx => (by rw [go_nil] at hx; cases hx)⟩
    · constructor
      · intro a ha x hx
        cases h : splitAtChar '&' s with
        | none =>
          rw [go_text h0 h] at hx
          cases List.mem_singleton.1 hx
          trivial
        | some r =>
          obtain ⟨pre, rest⟩ := r
          rw [go_ampersand h0 h] at hx
          rcases List.mem_cons.1 hx with rfl | hx
          · trivial
          · obtain ⟨e, _⟩ := splitAtChar_some h
            refine (ih rest (by have := splitAtChar_length h; omega)).2 (a ++ pre) (by rw [ha, e, List.append_assoc]) x ?_
            rw [byteLen_append]; exact hx
      · intro a ha x hx
        cases h : splitAtChar ';' s with
        | none =>
          rw [go_unclosed h0 h] at hx
          cases List.mem_singleton.1 hx
          exact .inl ⟨a, s, ha, splitAtChar_none.1 h, by simp only [Prod.mk.injEq]; omega⟩
        | some r =>
          obtain ⟨name, rest⟩ := r
          obtain ⟨e, hn⟩ := splitAtChar_some h
          rw [go_reference h0 h] at hx
          rcases List.mem_cons.1 hx with rfl | hx
          · unfold reference
            split
            · rename_i digits
              have hd : ';' ∉ digits := fun h => hn (.tail _ h)
              cases hnum : numericEntity (byteLen a + 1) digits with
              | ok c => trivial
              | error r =>
                refine .inr ?_
                rcases numericEntity_error hnum with rfl | rfl
                · exact ⟨a, digits, rest, _, by rw [ha, e]; simp, hd, by rw [numericEntity_plain (byteLen a + 1), hnum]; rfl, .inl rfl, rfl⟩
                · exact ⟨a, digits, rest, _, by rw [ha, e]; simp, hd, by rw [numericEntity_plain (byteLen a + 1), hnum]; rfl, .inr rfl, rfl⟩
            · exact ⟨a, rest, by rw [ha, e]; simp, hn, by omega⟩
          · refine (ih rest (by have := splitAtChar_length h; omega)).1 (a ++ '&' :: name ++ [';']) (by rw [ha, e]; simp) x ?_
            have : byteLen (a ++ '&' :: name ++ [';']) = byteLen a + 1 + byteLen name + 1 := by
              rw [byteLen_append, byteLen_append, byteLen_cons]
              have h1 : ('&' : Char).utf8Size = 1 := rfl
              have h2 : byteLen [';'] = 1 := rfl
              rw [h1, h2]; omega
            rw [this]; exact hx

theorem decodeLoop_error {ents : List (Str × Str)} {pos : Nat} {raw : Str} {e : Err} : ∀ {l : List (Except (Nat × Nat) Txt)} {buf : Str},
    decodeLoop ents raw l buf = .error e → (∀ x ∈ l, TxtOk pos raw x) →
    (∃ a b name, raw = a ++ '&' :: name ++ ';' :: b ∧ ';' ∉ name ∧ ents.lookup name = none ∧
      e = .undefinedEntity name (pos + byteLen a + 1) (pos + byteLen a + 1 + byteLen name)) ∨
    ∃ r, e = .invalidOrUnclosedEntity r.1 r.2 ∧ TxtOk pos raw (.error r)
  | [], _, h, _ => nomatch h
  | .error r :: _, _, h, hx => by cases h; exact .inr ⟨r, rfl, hx _ (.head _)⟩
  | .ok (.char _ c) :: rest, _, h, hx => decodeLoop_error (l := rest) h fun x h => hx x (.tail _ h)
  | .ok (.text _ t) :: rest, _, h, hx => by
    simp only [decodeLoop] at h
    split at h
    · cases h
    · exact decodeLoop_error h fun x h => hx x (.tail _ h)
  | .ok (.entity p n) :: rest, _, h, hx => by
    simp only [decodeLoop] at h
    split at h
    · rename_i hl
      cases h
      obtain ⟨a, b, h1, h2, rfl⟩ := hx _ (.head _)
      exact .inl ⟨a, b, n, h1, h2, hl, rfl⟩
    · split at h
      · cases h
      · exact decodeLoop_error h fun x h => hx x (.tail _ h)

theorem decodeText_error {ents : List (Str × Str)} {t : Sp} {e : Err} (h : decodeText ents t = .error e) :
    (∃ a b name, t.s = a ++ '&' :: name ++ ';' :: b ∧ ';' ∉ name ∧ ents.lookup name = none ∧
      e = .undefinedEntity name (t.start + byteLen a + 1) (t.start + byteLen a + 1 + byteLen name)) ∨
    ∃ r, e = .invalidOrUnclosedEntity r.1 r.2 ∧ TxtOk t.start t.s (.error r) := by
  unfold decodeText at h
  split at h
  · rename_i h'
    cases h
    exact decodeLoop_error h' ((go_ok _ t.s (Nat.le_refl _)).1 [] rfl)
  · cases h

/-! ### prefixes -/

theorem lookup_some {e : Elem} {pre : Str} : e.lookup pre ≠ none ↔ ∃ n ∈ e.namespaces, n.1.s = pre := by
  unfold Elem.lookup
  rw [ne_eq, Option.map_eq_none_iff, List.find?_eq_none]
  constructor
  · intro h
    rcases Classical.em (∃ n ∈ e.namespaces, n.1.s = pre) with hx | hx
    · exact hx
    · exact absurd (fun n hn => by simpa using fun he => hx ⟨n, hn, he⟩) h
  · rintro ⟨n, hn, he⟩ h; simpa [he] using h n hn

theorem lookupNs_some {st : List Elem} {pre : Str} : lookupNs st pre ≠ none ↔ ∃ e ∈ st, ∃ n ∈ e.namespaces, n.1.s = pre := by
  induction st with
  | nil => simp [lookupNs]
  | cons e es ih =>
    simp only [lookupNs]
    cases h : e.lookup pre with
    | some u =>
      have := lookup_some.1 (by rw [h]; exact fun h => nomatch h : e.lookup pre ≠ none)
      exact ⟨fun _ => ⟨e, .head _, this⟩, fun _ h => nomatch h⟩
    | none =>
      have hn : ¬ ∃ n ∈ e.namespaces, n.1.s = pre := fun hx => lookup_some.2 hx h
      dsimp only
      rw [ih]
      constructor
      · rintro ⟨e', he', h⟩; exact ⟨e', .tail _ he', h⟩
      · rintro ⟨e', he', hx⟩
        rcases List.mem_cons.1 he' with rfl | he'
        · exact absurd hx hn
        · exact ⟨e', he', hx⟩

theorem tryLookupNs_error {st : List Elem} {pre : Sp} {e : Err} (h : tryLookupNs st pre = .error e) :
    e = .undefinedNamespacePrefix pre ∧ pre.s ≠ [] ∧ lookupNs st pre.s = none := by
  unfold tryLookupNs at h
  split at h
  · cases h
  · rename_i hp
    split at h
    · cases h
    · rename_i hl; cases h; exact ⟨rfl, hp, hl⟩

theorem resolveAttrs_error {st : List Elem} {e : Err} : ∀ {as : List UAttr}, resolveAttrs st as = .error e →
    ∃ a ∈ as, e = .undefinedNamespacePrefix a.pre ∧ a.pre.s ≠ [] ∧ lookupNs st a.pre.s = none
  | [], h => nomatch h
  | a :: as, h => by
    simp only [resolveAttrs] at h
    cases ha : resolveAttr st a with
    | error e' =>
      rw [ha] at h; cases h
      unfold resolveAttr at ha
      split at ha
      · cases ha
      · split at ha
        · cases ha
        · rename_i ht; cases ha; exact ⟨a, .head _, tryLookupNs_error ht⟩
    | ok x =>
      rw [ha] at h
      cases hr : resolveAttrs st as with
      | error e' =>
        rw [hr] at h; cases h
        obtain ⟨a', h1, h2⟩ := resolveAttrs_error hr
        exact ⟨a', .tail _ h1, h2⟩
      | ok xs => rw [hr] at h; cases h

theorem resolveAttrs_ok {st : List Elem} : ∀ {as : List UAttr} {xs : List LAttr}, resolveAttrs st as = .ok xs →
    ∀ x ∈ xs, ∃ a ∈ as, x.loc = a.loc ∧ x.value = a.value ∧ x.span = a.span
  | [], xs, h => by cases h; exact nofun
  | a :: as, xs, h => by
    simp only [resolveAttrs] at h
    cases ha : resolveAttr st a with
    | error e' => rw [ha] at h; cases h
    | ok x =>
      rw [ha] at h
      cases hr : resolveAttrs st as with
      | error e' => rw [hr] at h; cases h
      | ok xs' =>
        rw [hr] at h; cases h
        intro y hy
        rcases List.mem_cons.1 hy with rfl | hy
        · unfold resolveAttr at ha
          split at ha
          · cases ha; exact ⟨a, .head _, rfl, rfl, rfl⟩
          · split at ha
            · cases ha; exact ⟨a, .head _, rfl, rfl, rfl⟩
            · cases ha
        · obtain ⟨a', h1, h2⟩ := resolveAttrs_ok hr y hy
          exact ⟨a', .tail _ h1, h2⟩

/-! ### start tags -/

theorem attsLoop_error {n : Nat} {e : Err} : ∀ {as : List LAttr} {i : Nat} {st st' : Store D V},
    attsLoop L n i as st = .ok (.error e, st') → ∃ a ∈ as, ∃ ns, e = .notAllowed (.attribute ns a.loc a.value a.span)
  | [], _, _, _, h => by cases h
  | a :: as, i, st, st', h => by
    simp only [attsLoop, ST.bind_run] at h
    split at h
    · split at h
      · rename_i p st2 _
        cases hp : p.isNotAllowed with
        | true => rw [hp] at h; cases h; exact ⟨a, .head _, _, rfl⟩
        | false =>
          rw [hp] at h
          obtain ⟨a', h1, h2⟩ := attsLoop_error (as := as) h
          exact ⟨a', .tail _ h1, h2⟩
      · cases h
    · cases h

/-- the errors at the end of a start tag, on a stack whose top is `top` -/
theorem closeElementStart_error {n : Nat} {top : Elem} {es : List Elem} {evt : Token} {pat : Pat D V} {st st' : Store D V} {e : Err}
    (h : closeElementStart L n (top :: es) evt pat st = .ok (.error e, st')) :
    e = .notAllowed evt ∨ (∃ ns, e = .notAllowed (.elementStart ns top.loc top.loc)) ∨
    (∃ a ∈ top.attributes, ∃ ns, e = .notAllowed (.attribute ns a.loc a.value a.span)) ∨
    (e = .undefinedNamespacePrefix top.pre ∧ top.pre.s ≠ [] ∧ lookupNs (top :: es) top.pre.s = none) ∨
    ∃ a ∈ top.attributes, e = .undefinedNamespacePrefix a.pre ∧ a.pre.s ≠ [] ∧ lookupNs (top :: es) a.pre.s = none := by
  unfold closeElementStart at h
  simp only [currentElement, currentAttributes] at h
  cases h1 : tryLookupNs (top :: es) top.pre with
  | error e' =>
    rw [h1] at h; cases h
    exact .inr (.inr (.inr (.inl (tryLookupNs_error h1))))
  | ok ns =>
    rw [h1] at h
    simp only [ST.bind_run] at h
    split at h
    · split at h
      · rename_i p st2 _
        cases hp : p.isNotAllowed with
        | true => rw [hp] at h; cases h; exact .inr (.inl ⟨_, rfl⟩)
        | false =>
          rw [hp] at h
          simp only [Bool.false_eq_true, if_false] at h
          cases h2 : resolveAttrs (top :: es) top.attributes with
          | error e' =>
            rw [h2] at h; cases h
            exact .inr (.inr (.inr (.inr (resolveAttrs_error h2))))
          | ok atts =>
            rw [h2] at h
            simp only [ST.bind_run] at h
            split at h
            · rename_i r st3 h3
              cases r with
              | error e' =>
                cases h
                obtain ⟨a, ha, ns', he⟩ := attsLoop_error h3
                obtain ⟨u, hu, e1, e2, e3⟩ := resolveAttrs_ok h2 a ha
                exact .inr (.inr (.inl ⟨u, hu, ns', by rw [he, e1, e2, e3]⟩))
              | ok d2 =>
                simp only [ST.bind_run] at h
                split at h
                · rename_i p2 st4 _
                  cases hp2 : p2.isNotAllowed with
                  | true => rw [hp2] at h; cases h; exact .inl rfl
                  | false =>
                    rw [hp2] at h
                    simp only [Bool.false_eq_true, if_false, ST.bind_run] at h
                    split at h
                    · split at h
                      · rename_i p3 st6 _
                        cases hp3 : p3.isNotAllowed with
                        | true => rw [hp3] at h; cases h; exact .inl rfl
                        | false => rw [hp3] at h; cases h
                      · cases h
                    · cases h
                · cases h
            · cases h
      · cases h
    · cases h

/-! ### the run -/

/-- what the state remembers of the items so far -/
structure Inv (before : List Event) (s : State D V) : Prop where
  top : ∀ e es, s.stack = e :: es → ∃ a b span, before = a ++ .token (.elementStart e.pre e.loc span) :: b ∧ NoStart b ∧
    ∀ u ∈ e.attributes, .token (.attribute u.pre u.loc u.value u.span) ∈ b
  declared : ∀ pre, Declares before pre → lookupNs s.stack pre ≠ none
  entities : ∀ name, DeclaresEntity before name → s.entities.lookup name ≠ none

theorem Inv.keep {before : List Event} {s s' : State D V} {x : Event} (h : Inv before s) (hs : s'.stack = s.stack) (he : s'.entities = s.entities)
    (h1 : NoStart [x]) (h2 : ∀ pre, ¬ Declares [x] pre) (h3 : ∀ n v sp, x ≠ .token (.entityDeclaration n (.entityValue v) sp)) : Inv (before ++ [x]) s' := by
  refine ⟨fun e es hst => ?_, fun pre hd => ?_, fun name hd => ?_⟩
  · rw [hs] at hst
    obtain ⟨a, b, span, e1, e2, e3⟩ := h.top e es hst
    refine ⟨a, b ++ [x], span, by rw [e1]; simp, fun p l s hm => ?_, fun u hu => List.mem_append_left _ (e3 u hu)⟩
    rcases List.mem_append.1 hm with hm | hm
    · exact e2 p l s hm
    · exact h1 p l s hm
  · rw [hs]
    obtain ⟨p, l, v, sp, hm, e1, e2⟩ := hd
    rcases List.mem_append.1 hm with hm | hm
    · exact h.declared pre ⟨p, l, v, sp, hm, e1, e2⟩
    · exact absurd ⟨p, l, v, sp, hm, e1, e2⟩ (h2 pre)
  · rw [he]
    refine h.entities name ?_
    rcases hd with hd | ⟨n, v, sp, hm, e⟩
    · exact .inl hd
    · rcases List.mem_append.1 hm with hm | hm
      · exact .inr ⟨n, v, sp, hm, e⟩
      · exact absurd (List.mem_singleton.1 hm).symm (h3 n v sp)

theorem liftS_same {α : Type} {x : SM D V α} {s s' : State D V} {a : α} (h : liftS x s = .ok (a, s')) : s'.stack = s.stack ∧ s'.entities = s.entities := by
  unfold liftS at h
  split at h
  · cases h; exact ⟨rfl, rfl⟩
  · cases h

theorem finish_same {evt : Token} {new : Nat} {s s' : State D V} {r : Except Err Unit} (h : finish evt new s = .ok (r, s')) :
    s'.stack = s.stack ∧ s'.entities = s.entities ∧ ∀ e, r = .error e → e = .notAllowed evt := by
  rw [finish_run] at h
  split at h
  · rename_i p s1 h1
    obtain ⟨e1, e2⟩ := liftS_same h1
    split at h
    · cases h; exact ⟨e1, e2, fun e he => by cases he; rfl⟩
    · cases h; exact ⟨e1, e2, fun e he => nomatch he⟩
  · cases h

/-- the kinds of tokens that leave stack and entities alone -/
def Quiet : Token → Prop
  | .elementStart _ _ _ => False
  | .attribute _ _ _ _ => False
  | .entityDeclaration _ (.entityValue _) _ => False
  | _ => True

theorem Inv.quiet {before : List Event} {s s' : State D V} {t : Token} (h : Inv before s) (hq : Quiet t) (hs : s'.stack = s.stack) (he : s'.entities = s.entities) :
    Inv (before ++ [.token t]) s' := by
  refine h.keep hs he (fun p l sp hm => ?_) (fun pre hd => ?_) (fun n v sp e => ?_)
  · cases List.mem_singleton.1 hm; exact hq
  · obtain ⟨p, l, v, sp, hm, _⟩ := hd
    cases List.mem_singleton.1 hm; exact hq
  · cases e; exact hq

theorem close_blames {before : List Event} {s : State D V} (hi : Inv before s) {n : Nat} {en : End} {sp : Sp} (hen : en.ofStart) {pat : Pat D V}
    {s1 s2 : State D V} {e : Err} (h : liftS (closeElementStart L n s.stack (.elementEnd en sp) pat) s1 = .ok (.error e, s2)) :
    Blames before (.token (.elementEnd en sp)) e := by
  unfold liftS at h
  split at h
  · rename_i r st' hc
    cases h
    cases hst : s.stack with
    | nil => rw [hst] at hc; unfold closeElementStart at hc; cases hc
    | cons top es =>
      rw [hst] at hc
      obtain ⟨a, b, span, e1, e2, e3⟩ := hi.top top es hst
      have undeclared : ∀ pre, lookupNs (top :: es) pre = none → ¬ Declares before pre := fun pre hn hd => by
        have := hi.declared pre hd
        rw [hst] at this
        exact this hn
      rcases closeElementStart_error hc with rfl | ⟨ns, rfl⟩ | ⟨u, hu, ns, rfl⟩ | ⟨rfl, hp, hl⟩ | ⟨u, hu, rfl, hp, hl⟩
      · exact .token
      · exact .element e1 e2 hen
      · exact .attribute e1 e2 (e3 u hu) hen
      · exact .elementPrefix e1 e2 hp (undeclared _ hl) hen
      · exact .attributePrefix e1 e2 (e3 u hu) hp (undeclared _ hl) hen
  · cases h

theorem step_ok {before : List Event} {s s' : State D V} {t : Token} {n : Nat} {r : Except Err Unit} (hi : Inv before s)
    (h : validate L n t s = .ok (r, s')) : Inv (before ++ [.token t]) s' ∧ ∀ e, r = .error e → Blames before (.token t) e := by
  unfold validate at h
  simp only [ST.bind_run, ST.get] at h
  split at h
  · rename_i pat s1 h1
    obtain ⟨g1, g2⟩ := liftS_same h1
    have calm : ∀ {t' : Token} {new : Nat} {s2 : State D V}, Quiet t' → s2.stack = s1.stack → s2.entities = s1.entities →
        finish t' new s2 = .ok (r, s') → Inv (before ++ [.token t']) s' ∧ ∀ e, r = .error e → Blames before (.token t') e := by
      intro t' new s2 hq k1 k2 hf
      obtain ⟨f1, f2, f3⟩ := finish_same hf
      exact ⟨hi.quiet hq (by rw [f1, k1, g1]) (by rw [f2, k2, g2]), fun e he => by rw [f3 e he]; exact .token⟩
    cases t with
    | declaration _ => cases h; exact ⟨hi.quiet trivial g1 g2, fun e he => nomatch he⟩
    | processingInstruction _ => cases h; exact ⟨hi.quiet trivial g1 g2, fun e he => nomatch he⟩
    | comment _ => cases h; exact ⟨hi.quiet trivial g1 g2, fun e he => nomatch he⟩
    | dtdStart _ => cases h; exact ⟨hi.quiet trivial g1 g2, fun e he => nomatch he⟩
    | emptyDtd _ => cases h; exact ⟨hi.quiet trivial g1 g2, fun e he => nomatch he⟩
    | dtdEnd _ => cases h; exact ⟨hi.quiet trivial g1 g2, fun e he => nomatch he⟩
    | elementStart p l sp =>
      cases h
      refine ⟨⟨fun e es hst => ?_, fun pre hd => ?_, fun name hd => ?_⟩, fun e he => nomatch he⟩
      · injection hst with e1 e2
        subst e1
        exact ⟨before, [], sp, rfl, (fun _ _ _ h => nomatch h), (fun _ h => nomatch h)⟩
      · obtain ⟨q, k, v, sp', hm, e1, e2⟩ := hd
        rcases List.mem_append.1 hm with hm | hm
        · have := hi.declared pre ⟨q, k, v, sp', hm, e1, e2⟩
          rw [lookupNs_some] at this ⊢
          obtain ⟨x, hx, hn⟩ := this
          exact ⟨x, .tail _ hx, hn⟩
        · cases List.mem_singleton.1 hm
      · refine hi.entities name ?_
        rcases hd with hd | ⟨q, v, sp', hm, e⟩
        · exact .inl hd
        · rcases List.mem_append.1 hm with hm | hm
          · exact .inr ⟨q, v, sp', hm, e⟩
          · cases List.mem_singleton.1 hm
    | «attribute» p l v sp =>
      cases hst : s.stack with
      | nil => rw [hst] at h; cases h
      | cons top es =>
        rw [hst] at h
        cases h
        obtain ⟨a, b, span, e1, e2, e3⟩ := hi.top top es hst
        have hadd : (top.addAttr p l v sp).pre = top.pre ∧ (top.addAttr p l v sp).loc = top.loc ∧
            (∀ u ∈ (top.addAttr p l v sp).attributes, u ∈ top.attributes ∨ u = ⟨p, l, v, sp⟩) ∧
            (∀ q ∈ top.namespaces, q ∈ (top.addAttr p l v sp).namespaces) ∧
            (p.s = xmlnsStr → (l, v) ∈ (top.addAttr p l v sp).namespaces) := by
          unfold Elem.addAttr
          split
          · exact ⟨rfl, rfl, fun u hu => .inl hu, fun q hq => List.mem_append_left _ hq, fun _ => List.mem_append_right _ (.head _)⟩
          · rename_i hne
            split
            · exact ⟨rfl, rfl, fun u hu => .inl hu, fun q hq => List.mem_append_left _ hq, fun h => absurd h hne⟩
            · refine ⟨rfl, rfl, fun u hu => ?_, fun q hq => hq, fun h => absurd h hne⟩
              rcases List.mem_append.1 hu with hu | hu
              · exact .inl hu
              · exact .inr (List.mem_singleton.1 hu)
        obtain ⟨a1, a2, a3, a4, a5⟩ := hadd
        refine ⟨⟨fun e es' hst' => ?_, fun pre hd => ?_, fun name hd => ?_⟩, fun e he => nomatch he⟩
        · injection hst' with k1 k2
          subst k1
          refine ⟨a, b ++ [.token (.attribute p l v sp)], span, by rw [a1, a2, e1]; simp, fun _ _ _ hm => ?_, fun u hu => ?_⟩
          · rcases List.mem_append.1 hm with hm | hm
            · exact e2 _ _ _ hm
            · cases List.mem_singleton.1 hm
          · rcases a3 u hu with hu | rfl
            · exact List.mem_append_left _ (e3 u hu)
            · exact List.mem_append_right _ (.head _)
        · rw [lookupNs_some]
          obtain ⟨q, k, w, sp', hm, k1, k2⟩ := hd
          rcases List.mem_append.1 hm with hm | hm
          · have := hi.declared pre ⟨q, k, w, sp', hm, k1, k2⟩
            rw [lookupNs_some, hst] at this
            obtain ⟨x, hx, m, hm', hn⟩ := this
            rcases List.mem_cons.1 hx with rfl | hx
            · exact ⟨_, .head _, m, a4 m hm', hn⟩
            · exact ⟨x, .tail _ hx, m, hm', hn⟩
          · cases List.mem_singleton.1 hm
            exact ⟨_, .head _, (l, v), a5 k1, k2⟩
        · refine hi.entities name ?_
          rcases hd with hd | ⟨q, w, sp', hm, e⟩
          · exact .inl hd
          · rcases List.mem_append.1 hm with hm | hm
            · exact .inr ⟨q, w, sp', hm, e⟩
            · cases List.mem_singleton.1 hm
    | entityDeclaration name d sp =>
      cases d with
      | externalId => cases h; exact ⟨hi.quiet trivial g1 g2, fun e he => by cases he; exact .token⟩
      | entityValue v =>
        cases h
        refine ⟨⟨fun e es hst => ?_, fun pre hd => ?_, fun nm hd => ?_⟩, fun e he => nomatch he⟩
        · obtain ⟨a, b, span, e1, e2, e3⟩ := hi.top e es hst
          refine ⟨a, b ++ [.token (.entityDeclaration name (.entityValue v) sp)], span, by rw [e1]; simp, fun _ _ _ hm => ?_, fun u hu => List.mem_append_left _ (e3 u hu)⟩
          rcases List.mem_append.1 hm with hm | hm
          · exact e2 _ _ _ hm
          · cases List.mem_singleton.1 hm
        · obtain ⟨q, k, w, sp', hm, k1, k2⟩ := hd
          rcases List.mem_append.1 hm with hm | hm
          · exact hi.declared pre ⟨q, k, w, sp', hm, k1, k2⟩
          · cases List.mem_singleton.1 hm
        · show List.lookup nm ((name.s, v.s) :: s.entities) ≠ none
          simp only [List.lookup]
          cases hne : nm == name.s with
          | true => exact fun h => nomatch h
          | false =>
            refine hi.entities nm ?_
            rcases hd with hd | ⟨q, w, sp', hm, e⟩
            · exact .inl hd
            · rcases List.mem_append.1 hm with hm | hm
              · exact .inr ⟨q, w, sp', hm, e⟩
              · cases List.mem_singleton.1 hm
                rw [e] at hne; simp at hne
    | cdata t sp =>
      simp only [ST.bind_run] at h
      split at h
      · rename_i new s2 h2
        obtain ⟨k1, k2⟩ := liftS_same h2
        exact calm trivial k1 k2 h
      · cases h
    | text t =>
      cases hd : decodeText s.entities t with
      | error e =>
        simp only [hd] at h
        cases h
        refine ⟨hi.quiet trivial g1 g2, fun e' he => ?_⟩
        cases he
        rcases decodeText_error hd with ⟨a, b, name, k1, k2, k3, rfl⟩ | ⟨rg, rfl, k⟩
        · exact .entity k1 k2 fun hx => hi.entities name hx k3
        · rcases k with ⟨a, b, k1, k2, rfl⟩ | ⟨a, digits, b, k, k1, k2, k4, k3, rfl⟩
          · exact .unclosed k1 k2
          · exact .number k1 k2 (no_number k4) k3
      | ok data =>
        simp only [hd, ST.bind_run] at h
        split at h
        · rename_i new s2 h2
          obtain ⟨k1, k2⟩ := liftS_same h2
          split at h
          · rename_i p s3 h3
            obtain ⟨k3, k4⟩ := liftS_same h3
            cases hp : p.isNotAllowed with
            | true =>
              rw [hp] at h; cases h
              exact ⟨hi.quiet trivial (by rw [k3, k1, g1]) (by rw [k4, k2, g2]), fun e he => by cases he; exact .token⟩
            | false =>
              rw [hp] at h
              exact calm trivial (k3.trans k1) (k4.trans k2) h
          · cases h
        · cases h
    | elementEnd en sp =>
      cases en with
      | «open» =>
        simp only [ST.bind_run] at h
        split at h
        · rename_i r2 s2 h2
          obtain ⟨k1, k2⟩ := liftS_same h2
          cases r2 with
          | error e =>
            cases h
            exact ⟨hi.quiet trivial (k1.trans g1) (k2.trans g2), fun e he => by cases he; exact close_blames hi (by trivial) h2⟩
          | ok new => exact calm trivial k1 k2 h
        · cases h
      | close p l =>
        simp only [ST.bind_run] at h
        split at h
        · rename_i new s2 h2
          obtain ⟨k1, k2⟩ := liftS_same h2
          exact calm trivial k1 k2 h
        · cases h
      | empty =>
        simp only [ST.bind_run] at h
        split at h
        · rename_i r2 s2 h2
          obtain ⟨k1, k2⟩ := liftS_same h2
          cases r2 with
          | error e =>
            cases h
            exact ⟨hi.quiet trivial (k1.trans g1) (k2.trans g2), fun e he => by cases he; exact close_blames hi (by trivial) h2⟩
          | ok new =>
            simp only [ST.bind_run] at h
            split at h
            · rename_i pat2 s3 h3
              obtain ⟨k3, k4⟩ := liftS_same h3
              split at h
              · rename_i new2 s4 h4
                obtain ⟨k5, k6⟩ := liftS_same h4
                exact calm trivial (k5.trans (k3.trans k1)) (k6.trans (k4.trans k2)) h
              · cases h
            · cases h
        · cases h
  · cases h

theorem runEvents_blames {n : Nat} : ∀ {es before : List Event} {s s' : State D V} {rs : List (Except Err Unit)}, Inv before s →
    runEvents L n es s = .ok (rs, s') → ∀ {mid after : List Event} {x : Event} {e : Err}, es = mid ++ x :: after →
    rs[mid.length]? = some (.error e) → Blames (before ++ mid) x e
  | [], _, _, _, _, _, _, mid, after, x, e, he, _ => by cases mid <;> cases he
  | y :: es, before, s, s', rs, hi, h, mid, after, x, e, he, hr => by
    simp only [runEvents, ST.bind_run] at h
    split at h
    · rename_i r s1 h1
      split at h
      · rename_i rs' s2 h2
        cases h
        have hstep : Inv (before ++ [y]) s1 ∧ ∀ e, r = .error e → Blames before y e := by
          cases y with
          | token t => exact step_ok hi h1
          | error row col =>
            cases h1
            refine ⟨hi.keep rfl rfl (fun p l sp hm => ?_) (fun pre hd => ?_) (fun n v sp e => nomatch e), fun e he => by cases he; exact .syntax⟩
            · cases List.mem_singleton.1 hm
            · obtain ⟨p, l, v, sp, hm, _⟩ := hd
              cases List.mem_singleton.1 hm
        cases mid with
        | nil =>
          injection he with he1 he2
          subst he1
          simp only [List.length_nil, List.getElem?_cons_zero, Option.some.injEq] at hr
          rw [List.append_nil]
          exact hstep.2 e hr
        | cons z mid =>
          injection he with he1 he2
          subst he1
          have := runEvents_blames hstep.1 h2 he2 (by simpa using hr)
          simpa using this
      · cases h
    · cases h

theorem new_inv {env : Env D V} {n : Nat} {start : Pattern D V} {s : State D V} (h : newValidator env n start = .ok s) : Inv [] s := by
  unfold newValidator at h
  split at h
  · cases h
  · cases h
    refine ⟨(fun e es h => nomatch h), (fun pre ⟨_, _, _, _, hm, _⟩ => nomatch hm), fun name hd => ?_⟩
    rcases hd with hd | ⟨_, _, _, hm, _⟩
    · simp only [List.mem_cons, List.not_mem_nil, or_false] at hd
      rcases hd with rfl | rfl | rfl | rfl | rfl <;> (show List.lookup _ predefined ≠ none; decide)
    · nomatch hm

end Verif.Loc
