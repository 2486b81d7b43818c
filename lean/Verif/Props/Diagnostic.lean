import Verif.Proof.DiagRun
import Verif.Proof.Lines
import Verif.Props.Spans
/-
C46, C65, C66: the diagnostics made of the validator's errors.
-/
namespace Verif
open Loc
variable {D V : Type} [DecidableEq D] [DecidableEq V] {L : Lib D V} {env : Env D V} {start : Pattern D V} {c : Bool}
  {s s' : Loc.State D V} {text : Str} {order : List (Pat D V) → List (Pat D V)}

/-- C46, what is named.  In every state a validator for a well-formed schema can reach, looking for the expected elements ends
without a panic, leaves the validator as it is, and finds the elements on offer (`Offered`), no matter how often a pattern occurs. -/
theorem C46_expected_elements_found (hok : SchemaOK L env start c) (hr : Reached L env start s) :
    ∃ N p hs, s.numbered s.cur = some p ∧ (∀ n, N ≤ n → heads n s.cur s.store = .ok (hs, s.store)) ∧ hs.Nodup ∧
      ∀ nc j, Pat.element nc j ∈ hs ↔ Offered s.numbered p nc j :=
  heads_ok (reached_inv hok hr)

theorem diagnostic_range {e : Err} {b k : Nat} (hb : e.range = some (b, k)) (h1 : b ≤ k) (h2 : k ≤ byteLen text) (n : Nat) (s : Loc.State D V) :
    Loc.diagnostic order n text e s = match e with
      | .notAllowed t =>
        (match heads n s.cur s.store with
        | .error f => .error f
        | .ok (hs, st) => .ok (some [⟨.error, .notExpectedHere t.name, some (b, k)⟩,
            ⟨.help, if describeExpected order hs = [] then .removeThis else .expected (describeExpected order hs), none⟩], { s with store := st }))
      | e => .ok (some [⟨.error, e.message, some (b, k)⟩], s) := by
  have hs : ∀ b' k', b' = b → k' = k → Loc.subspan (0, byteLen text) b' k' = some (b, k) := by
    rintro _ _ rfl rfl
    unfold Loc.subspan
    rw [if_pos ⟨h1, by omega⟩]
    simp
  cases e with
  | xml _ _ => cases hb
  | notAllowed t =>
    have : t.at = t.shown := by cases t <;> rfl
    cases hb
    unfold Loc.diagnostic
    simp only [hs _ _ (congrArg Sp.start this) (congrArg Sp.stop this)]
    simp only [ST.bind_run, ST.get, Loc.liftS]
    cases heads n s.cur s.store with
    | error f => rfl
    | ok r => rfl
  | undefinedNamespacePrefix p => cases hb; unfold Loc.diagnostic; simp only [hs _ _ rfl rfl]; rfl
  | undefinedEntity _ _ _ => cases hb; unfold Loc.diagnostic; simp only [hs _ _ rfl rfl]; rfl
  | invalidOrUnclosedEntity _ _ => cases hb; unfold Loc.diagnostic; simp only [hs _ _ rfl rfl]; rfl

/-- C65.  An error (not of the tokenizer) reported in any run over a document can be turned into diagnostics in any
state the validator can reach: no panic, and the validator is left as it is.  The first diagnostic has the message for the error and
its range.  If the error is that something is not allowed, a second one names the elements on offer: all of them, up to four, in
some order, and the number of the others; or, if there are none, advises to remove the thing. -/
theorem C65_errors_are_diagnosed (hok : SchemaOK L env start c) (hr : Reached L env start s) (horder : ∀ l, (order l).Perm l)
    {fuel n : Nat} {s0 : Loc.State D V} {rs : List (Except Err Unit)} {es before after : List Loc.Event} {x : Loc.Event} {e : Err}
    (hnew : Loc.newValidator env fuel start = .ok s0) (hrun : Loc.runEvents L n es s0 = .ok (rs, s')) (hes : es = before ++ x :: after)
    (ht : TokensIn text es) (he : rs[before.length]? = some (.error e)) (hx : ∀ row col, e ≠ .xml row col) :
    ∃ N p names help, s.numbered s.cur = some p ∧
      (∀ nc, nc ∈ names ↔ ∃ j, Offered s.numbered p nc j) ∧
      help = (match e with
        | .notAllowed _ => [⟨.help, if names = [] then .removeThis else .expected (expectation names), none⟩]
        | _ => []) ∧
      ∀ m, N ≤ m → Loc.diagnostic order m text e s = .ok (some (⟨.error, e.message, e.range⟩ :: help), s) := by
  obtain ⟨N, p, hs, hp, hN, _, hO⟩ := C46_expected_elements_found hok hr
  have hrange : ∃ b k, e.range = some (b, k) := by
    cases e with
    | xml r c => exact absurd rfl (hx r c)
    | _ => exact ⟨_, _, rfl⟩
  obtain ⟨b, k, hb⟩ := hrange
  obtain ⟨h1, h2⟩ := C64_ranges_lie_in_the_text hnew hrun hes ht he hb
  refine ⟨N, p, (order hs).filterMap elementName, _, hp, fun nc => ?_, rfl, fun m hm => ?_⟩
  · rw [List.mem_filterMap]
    constructor
    · rintro ⟨q, hq, hq'⟩
      unfold elementName at hq'
      split at hq'
      · cases hq'; exact ⟨_, (hO _ _).1 ((horder hs).mem_iff.1 hq)⟩
      · cases hq'
    · rintro ⟨j, hj⟩
      exact ⟨_, (horder hs).mem_iff.2 ((hO _ _).2 hj), rfl⟩
  · rw [diagnostic_range hb h1 h2, hb]
    cases e with
    | notAllowed t =>
      simp only [hN m hm, describeExpected_eq]
      have : (expectation ((order hs).filterMap elementName) = []) = ((order hs).filterMap elementName = []) := by
        unfold expectation
        by_cases h : (order hs).filterMap elementName = []
        · simp [h]
        · simp only [h, if_false, eq_iff_iff, iff_false]
          exact nofun
      simp only [this]; rfl
    | _ => rfl

/-- C46, what may really come next.  When a start tag ends, its name is refused (an error that shows the name) exactly if no element
with that name may come next. -/
theorem C46_name_refused_exactly (hok : SchemaOK L env start c) (hr : Reached L env start s) {el : Elem} {els : List Elem}
    {ns : Option Sp} {e : End} {sp : Sp} {n : Nat} {r : Except Err Unit} (hs : s.stack = el :: els) (hns : Loc.tryLookupNs s.stack el.pre = .ok ns)
    (he : e.ofStart) (hv : Loc.validate L n (.elementEnd e sp) s = .ok (r, s')) :
    ∃ p, s.numbered s.cur = some p ∧
      ((∃ a b d, r = .error (.notAllowed (.elementStart a b d))) ↔ ¬ Can s.numbered ⟨ns.map (·.s), el.loc.s⟩ p) := by
  obtain ⟨hm, QE, QR, k, hE, p, hp, ht⟩ := reached_inv hok hr
  refine ⟨p, hp, ?_⟩
  have hc : Loc.currentElement s.stack = some (.ok (ns, el.loc)) := by
    unfold Loc.currentElement
    rw [hs] at hns ⊢
    simp only [hns]
  have hp' : Loc.liftS (patt s.cur) s = .ok (p, s) := by
    unfold Loc.liftS; rw [Loc.patt_run (st := s.store) (i := s.cur) hp]
  unfold Loc.validate at hv
  simp only [ST.bind_run, ST.get, hp'] at hv
  have fin : ∀ {new : Nat} {s1 s2 : Loc.State D V} {r}, Loc.finish (.elementEnd e sp) new s1 = .ok (r, s2) → ∀ a b d, r ≠ .error (.notAllowed (.elementStart a b d)) := by
    intro new s1 s2 r h a b d hr
    subst hr
    rw [finish_run] at h
    split at h
    · split at h <;> cases h
    · cases h
  cases e with
  | close _ _ => exact he.elim
  | «open» =>
    simp only [ST.bind_run] at hv
    unfold Loc.liftS at hv
    cases hce : Loc.closeElementStart L n s.stack (.elementEnd .open sp) p s.store with
    | error f => rw [hce] at hv; cases hv
    | ok x =>
      obtain ⟨x, st⟩ := x
      rw [hce] at hv
      have := refused_iff hm hE ht (fun _ _ _ h => by cases h) hc hce
      cases x with
      | error e' =>
        cases hv
        refine Iff.trans ⟨?_, ?_⟩ this
        · rintro ⟨a, b, d, h⟩; cases h; exact ⟨a, b, d, rfl⟩
        · rintro ⟨a, b, d, h⟩; cases h; exact ⟨a, b, d, rfl⟩
      | ok new =>
        refine Iff.trans ⟨?_, ?_⟩ this
        · rintro ⟨a, b, d, h⟩; exact absurd h (fin hv a b d)
        · rintro ⟨a, b, d, h⟩; cases h
  | empty =>
    simp only [ST.bind_run] at hv
    unfold Loc.liftS at hv
    cases hce : Loc.closeElementStart L n s.stack (.elementEnd .empty sp) p s.store with
    | error f => rw [hce] at hv; cases hv
    | ok x =>
      obtain ⟨x, st⟩ := x
      rw [hce] at hv
      have := refused_iff hm hE ht (fun _ _ _ h => by cases h) hc hce
      cases x with
      | error e' =>
        cases hv
        refine Iff.trans ⟨?_, ?_⟩ this
        · rintro ⟨a, b, d, h⟩; cases h; exact ⟨a, b, d, rfl⟩
        · rintro ⟨a, b, d, h⟩; cases h; exact ⟨a, b, d, rfl⟩
      | ok new =>
        refine Iff.trans ⟨?_, ?_⟩ this
        · rintro ⟨a, b, d, h⟩
          exfalso
          obtain ⟨q, s1, _, hv⟩ := ST.bind_ok.mp hv
          obtain ⟨new', s2, _, hv⟩ := ST.bind_ok.mp hv
          exact fin hv a b d h
        · rintro ⟨a, b, d, h⟩; cases h

/-- C46, when nothing is missing.  If no sequence in the current pattern has a left side that may be empty, every element whose name is
not refused next is on offer. -/
theorem C46_accepted_names_are_listed_partial (hok : SchemaOK L env start c) (hr : Reached L env start s) {el : Elem} {els : List Elem}
    {ns : Option Sp} {e : End} {sp : Sp} {n : Nat} {r : Except Err Unit} (hs : s.stack = el :: els) (hns : Loc.tryLookupNs s.stack el.pre = .ok ns)
    (he : e.ofStart) (hv : Loc.validate L n (.elementEnd e sp) s = .ok (r, s'))
    {p : Pat D V} (hp : s.numbered s.cur = some p)
    (hg : ∀ l r f q, Part s.numbered p (.group l r f) → s.numbered l = some q → q.nullable = false)
    (hacc : ∀ a b d, r ≠ .error (.notAllowed (.elementStart a b d))) :
    ∃ nc j, Offered s.numbered p nc j ∧ contains nc ⟨ns.map (·.s), el.loc.s⟩ = true := by
  obtain ⟨p', hp', h⟩ := C46_name_refused_exactly hok hr hs hns he hv
  rw [hp] at hp'; cases hp'
  have hcan : Can s.numbered ⟨ns.map (·.s), el.loc.s⟩ p := Classical.byContradiction fun hn => by
    obtain ⟨a, b, d, hr⟩ := h.2 hn; exact hacc a b d hr
  obtain ⟨nc, j, q, a, b, _⟩ := hcan
  exact ⟨nc, j, next_offered a hg, b⟩

/-- C46, when nothing is wrong.  If every sequence in the current pattern has a left side that may be empty, and there is no list,
the name of an element on offer is not refused next, unless the contents of the element are refused outright. -/
theorem C46_listed_names_are_accepted_partial (hok : SchemaOK L env start c) (hr : Reached L env start s) {el : Elem} {els : List Elem}
    {ns : Option Sp} {e : End} {sp : Sp} {n : Nat} {r : Except Err Unit} (hs : s.stack = el :: els) (hns : Loc.tryLookupNs s.stack el.pre = .ok ns)
    (he : e.ofStart) (hv : Loc.validate L n (.elementEnd e sp) s = .ok (r, s'))
    {p : Pat D V} (hp : s.numbered s.cur = some p)
    (hg : ∀ l r f q, Part s.numbered p (.group l r f) → s.numbered l = some q → q.nullable = true)
    (hl : ∀ j, ¬ Part s.numbered p (.list j)) {nc : NameClass} {j : Nat} {q : Pat D V} (h : Offered s.numbered p nc j)
    (hnm : contains nc ⟨ns.map (·.s), el.loc.s⟩ = true)
    (hj : s.numbered j = some q) (hq : q ≠ .notAllowed) : ∀ a b d, r ≠ .error (.notAllowed (.elementStart a b d)) := by
  obtain ⟨p', hp', h'⟩ := C46_name_refused_exactly hok hr hs hns he hv
  rw [hp] at hp'; cases hp'
  intro a b d hr
  exact h'.1 ⟨a, b, d, hr⟩ ⟨nc, j, q, offered_next h hg hl, hnm, hj, hq⟩

/-- C66.  Such an error comes with its row, counting from one.  No diagnostic can be made of it (the code
panics) if there is no line after that row, and otherwise only if the next line is at least as long (in bytes) as the number
of the row; it then points into that next line. -/
theorem C66_syntax_errors (n row col : Nat) (s : Loc.State D V) :
    (text.count '\n' < row → Loc.diagnostic order n text (.xml row col) s = .ok (none, s)) ∧
    (row ≤ text.count '\n' → ∃ a l b, Line text row a l b ∧
      (byteLen l < row → Loc.diagnostic order n text (.xml row col) s = .ok (none, s)) ∧
      (row ≤ byteLen l → Loc.diagnostic order n text (.xml row col) s =
        .ok (some [⟨.error, .xmlError, some (byteLen a + row, byteLen a + row)⟩], s))) := by
  refine ⟨fun h => ?_, fun h => ?_⟩
  · unfold Loc.diagnostic
    simp only [lineSpan_none h]
    rfl
  · obtain ⟨a, l, b, hl⟩ := line_exists h
    refine ⟨a, l, b, hl, fun h' => ?_, fun h' => ?_⟩ <;> unfold Loc.diagnostic <;> simp only [lineSpan_some hl] <;> unfold Loc.subspan
    · rw [if_neg (by simp only; omega)]; rfl
    · rw [if_pos (by simp only; omega)]; rfl

end Verif
