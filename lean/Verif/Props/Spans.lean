import Verif.Proof.Blame
import Verif.Props.Panics
/-
C64: the positions in the validator's errors.
-/
namespace Verif
open Loc
variable {D V : Type} [DecidableEq D] [DecidableEq V] {L : Lib D V} {env : Env D V} {start : Pattern D V} {fuel n : Nat}
  {s0 s' : Loc.State D V} {rs : List (Except Err Unit)} {es before after : List Loc.Event} {x : Loc.Event} {e : Err} {text : Str}

/-- C64, the model.  The validator with source positions does what the validator of the other properties does: building it gives
the same outcome, and so does every run, apart from the positions in the errors. -/
theorem C64_positions_change_nothing :
    Verif.newValidator env fuel start = (Loc.newValidator env fuel start).map State.plain ∧
    ∀ (s0 : Loc.State D V) (es : List Loc.Event),
      Verif.runEvents L n (es.map (·.plain)) s0.plain = match Loc.runEvents L n es s0 with
        | .error f => .error f
        | .ok (rs, s') => .ok (rs.map plainResult, s'.plain) := by
  refine ⟨newValidator_plain env fuel start, fun s0 es => ?_⟩
  rw [runEvents_plain]
  cases Loc.runEvents L n es s0 <;> rfl

/-- C64, what errors are about.  Whatever items are read, in whatever order and after whatever errors, an error reported for an
item is about that item, about the start tag it ends, or about a reference in it, and its positions are those of the thing. -/
theorem C64_errors_are_about_their_item (hnew : Loc.newValidator env fuel start = .ok s0)
    (hrun : Loc.runEvents L n es s0 = .ok (rs, s')) (hes : es = before ++ x :: after)
    (he : rs[before.length]? = some (.error e)) : Blames before x e := by
  have := runEvents_blames (new_inv hnew) hrun hes he
  simpa using this

theorem shows_within {p : Sp} (h : Within text p) : ∃ l r, Shows text p.start p.stop l p.s r := by
  obtain ⟨a, b, h1, h2⟩ := h
  exact ⟨a, b, h1, h2, by rw [Sp.stop, h2]⟩

theorem shows_in {t : Sp} (h : Within text t) {a m r : Str} (e : t.s = a ++ m ++ r) :
    ∃ l' r', Shows text (t.start + byteLen a) (t.start + byteLen a + byteLen m) (l' ++ a) m (r ++ r') := by
  obtain ⟨l, b, h1, h2⟩ := h
  exact ⟨l, b, by rw [h1, e]; simp, by rw [byteLen_append, h2], by rw [byteLen_append, h2]⟩

/-- C64, where errors point.  In a document with the given text, the range of bytes an error reports is a range of whole characters
of the text, and those characters are what the error is about, unless it is about a character reference. -/
theorem C64_ranges_show_the_fault (hnew : Loc.newValidator env fuel start = .ok s0)
    (hrun : Loc.runEvents L n es s0 = .ok (rs, s')) (hes : es = before ++ x :: after) (ht : TokensIn text es)
    (he : rs[before.length]? = some (.error e)) :
    (∃ row col, x = .error row col ∧ e = .xml row col) ∨ BadNumber x e ∨
    ∃ b c, e.range = some (b, c) ∧ ∃ l m r, Shows text b c l m r ∧ e.about l m r := by
  have hb := C64_errors_are_about_their_item hnew hrun hes he
  have hin : ∀ t, Loc.Event.token t ∈ before ++ x :: after → ∀ p ∈ t.spans, Within text p := hes ▸ ht
  have hx : ∀ t, x = .token t → ∀ p ∈ t.spans, Within text p := fun t h => hin t (by rw [h]; simp)
  have hbf : ∀ t, Loc.Event.token t ∈ before → ∀ p ∈ t.spans, Within text p := fun t h => hin t (by simp [h])
  cases hb with
  | «syntax» => exact .inl ⟨_, _, rfl, rfl⟩
  | token =>
    rename_i t
    have : t.shown ∈ t.spans := by cases t <;> simp [Token.shown, Token.spans]
    obtain ⟨l, r, h⟩ := shows_within (hx t rfl _ this)
    exact .inr (.inr ⟨_, _, rfl, l, _, r, h, rfl⟩)
  | element h1 h2 h3 =>
    rename_i a b pre loc span ns e s
    obtain ⟨l, r, h⟩ := shows_within (hbf (.elementStart pre loc span) (by rw [h1]; simp) loc (by simp [Token.spans]))
    exact .inr (.inr ⟨_, _, rfl, l, _, r, h, rfl⟩)
  | «attribute» h1 h2 h3 h4 =>
    rename_i a b pre loc span p l v s' ns e s
    obtain ⟨l, r, h⟩ := shows_within (hbf (.attribute p l v s') (by rw [h1]; simp [h3]) s' (by simp [Token.spans]))
    exact .inr (.inr ⟨_, _, rfl, l, _, r, h, rfl⟩)
  | elementPrefix h1 h2 h3 h4 h5 =>
    rename_i a b pre loc span e s
    obtain ⟨l, r, h⟩ := shows_within (hbf (.elementStart pre loc span) (by rw [h1]; simp) pre (by simp [Token.spans]))
    exact .inr (.inr ⟨_, _, rfl, l, _, r, h, rfl, h3⟩)
  | attributePrefix h1 h2 h3 h4 h5 h6 =>
    rename_i a b pre loc span p l v s' e s
    obtain ⟨l, r, h⟩ := shows_within (hbf (.attribute p l v s') (by rw [h1]; simp [h3]) p (by simp [Token.spans]))
    exact .inr (.inr ⟨_, _, rfl, l, _, r, h, rfl, h4⟩)
  | entity h1 h2 h3 =>
    rename_i t a name b
    obtain ⟨l, r, h⟩ := shows_in (hx (.text t) rfl t (by simp [Token.spans])) (a := a ++ ['&']) (m := name) (r := ';' :: b) (by rw [h1]; simp)
    have e1 : byteLen (a ++ ['&']) = byteLen a + 1 := by rw [byteLen_append]; rfl
    rw [e1, ← Nat.add_assoc] at h
    exact .inr (.inr ⟨_, _, rfl, _, _, _, h, rfl, ⟨l ++ a, by simp⟩, _, rfl⟩)
  | unclosed h1 h2 =>
    rename_i t a b
    obtain ⟨l, r, h⟩ := shows_in (hx (.text t) rfl t (by simp [Token.spans])) (a := a) (m := ['&']) (r := b) (by rw [h1]; simp)
    exact .inr (.inr ⟨_, _, rfl, _, _, _, h, rfl⟩)
  | number h1 h2 h3 h4 => exact .inr (.inl ⟨_, _, _, h1, h2, h3, rfl, h4⟩)

theorem shows_le {b c : Nat} {l m r : Str} (h : Shows text b c l m r) : b ≤ c ∧ c ≤ byteLen text := by
  obtain ⟨h1, h2, h3⟩ := h
  rw [h1, byteLen_append, byteLen_append]
  omega

/-- C64, ranges.  The range of bytes an error reports always lies within the text of the document (also for character
references). -/
theorem C64_ranges_lie_in_the_text (hnew : Loc.newValidator env fuel start = .ok s0)
    (hrun : Loc.runEvents L n es s0 = .ok (rs, s')) (hes : es = before ++ x :: after) (ht : TokensIn text es)
    (he : rs[before.length]? = some (.error e)) {b c : Nat} (hr : e.range = some (b, c)) : b ≤ c ∧ c ≤ byteLen text := by
  rcases C64_ranges_show_the_fault hnew hrun hes ht he with ⟨_, _, _, rfl⟩ | hn | ⟨b', c', hr', l, m, r, h, _⟩
  · cases hr
  · have hin : ∀ t, x = .token t → ∀ p ∈ t.spans, Within text p := fun t h => ht t (by rw [hes, h]; simp)
    unfold BadNumber at hn
    split at hn
    · rename_i t b' c'
      obtain ⟨a, digits, r, h1, h2, _, rfl, h3⟩ := hn
      cases hr
      obtain ⟨l, q, h4, _⟩ := hin (.text t) rfl t (by simp [Token.spans])
      refine ⟨Nat.le_refl _, ?_⟩
      rw [h4, h1]
      simp only [byteLen_append, byteLen_cons]
      have u1 : ('&' : Char).utf8Size = 1 := rfl
      have u2 : ('#' : Char).utf8Size = 1 := rfl
      omega
    · exact hn.elim
  · rw [hr'] at hr; cases hr
    exact shows_le h

/-- C64 does not hold of character references: whatever the place of a text in its document, a malformed character reference at its
beginning is reported at byte 2 of the document. -/
theorem C64_character_references_misplaced (p : Nat) (s : Loc.State D V) {q : Pat D V} (hq : s.store.pats[s.cur]? = some q) :
    Loc.validate L n (.text ⟨p, "&#x;".toList⟩) s = .ok (.error (.invalidOrUnclosedEntity 2 2), s) := by
  have hd : Loc.decodeText s.entities ⟨p, "&#x;".toList⟩ = .error (.invalidOrUnclosedEntity 2 2) := by
    unfold Loc.decodeText
    have e : "&#x;".toList = ['&', '#', 'x', ';'] := rfl
    rw [e, go_ampersand (pre := []) (rest := ['#', 'x', ';']) (by simp) rfl, go_reference (name := ['#', 'x']) (rest := []) (by simp) rfl, go_nil]
    rfl
  unfold Loc.validate
  simp only [ST.bind_run, ST.get, hd]
  simp only [Loc.liftS, patt, hq]
  rfl

/-! ### cases -/
namespace Ex

/-- `element é { text }` -/
def eText : Pattern Unit Str := .element (.named [] ['é']) .text

def eTag (inner : Str) : Str := "<é>".toList ++ inner ++ "</é>".toList

/-- the items of `<é>…</é>` -/
def eItems (inner : Str) : List Loc.Event :=
  [.token (.elementStart ⟨1, []⟩ ⟨1, ['é']⟩ ⟨0, "<é".toList⟩), .token (.elementEnd .open ⟨3, ['>']⟩), .token (.text ⟨4, inner⟩),
   .token (.elementEnd (.close ⟨4 + byteLen inner + 2, []⟩ ⟨4 + byteLen inner + 2, ['é']⟩) ⟨4 + byteLen inner, "</é>".toList⟩)]

theorem eItems_in (inner : Str) : TokensIn (eTag inner) (eItems inner) := by
  intro t ht p hp
  simp only [eItems, List.mem_cons, List.not_mem_nil, or_false, Loc.Event.token.injEq] at ht
  rcases ht with rfl | rfl | rfl | rfl
  · simp only [Token.spans, List.mem_cons, List.not_mem_nil, or_false] at hp
    rcases hp with rfl | rfl | rfl
    · exact ⟨['<'], "é>".toList ++ inner ++ "</é>".toList, by simp [eTag], rfl⟩
    · exact ⟨['<'], ">".toList ++ inner ++ "</é>".toList, by simp [eTag], rfl⟩
    · exact ⟨[], ">".toList ++ inner ++ "</é>".toList, by simp [eTag], rfl⟩
  · cases List.mem_singleton.1 hp
    exact ⟨"<é".toList, inner ++ "</é>".toList, by simp [eTag], rfl⟩
  · cases List.mem_singleton.1 hp
    exact ⟨"<é>".toList, "</é>".toList, by simp [eTag], rfl⟩
  · simp only [Token.spans, End.spans, List.mem_cons, List.not_mem_nil, or_false] at hp
    have hb : ∀ x : Str, byteLen ("<é>".toList ++ inner ++ x) = 4 + byteLen inner + byteLen x := fun x => by
      rw [byteLen_append, byteLen_append]; rfl
    rcases hp with rfl | rfl | rfl
    · exact ⟨"<é>".toList ++ inner, [], by simp [eTag], by have := (hb []).symm; rw [List.append_nil] at this; exact this⟩
    · exact ⟨"<é>".toList ++ inner ++ "</".toList, "é>".toList, by simp [eTag], (hb "</".toList).symm⟩
    · exact ⟨"<é>".toList ++ inner ++ "</".toList, ">".toList, by simp [eTag], (hb "</".toList).symm⟩

/-- the results of reading `<é>…</é>` -/
def eRun (inner : Str) : Option (List (Except Err Unit)) :=
  match Loc.newValidator [] 20 eText with
  | .error _ => none
  | .ok s =>
    match Loc.runEvents lib 20 (eItems inner) s with
    | .error _ => none
    | .ok (rs, _) => some rs

instance : DecidableEq (Except Err Unit)
  | .ok (), .ok () => isTrue rfl
  | .ok (), .error _ => isFalse nofun
  | .error _, .ok () => isFalse nofun
  | .error a, .error b => if h : a = b then isTrue (h ▸ rfl) else isFalse fun e => h (by cases e; rfl)

theorem eRun_some {inner : Str} {rs} (h : eRun inner = some rs) : ∃ s0 s', Loc.newValidator [] 20 eText = .ok s0 ∧
    Loc.runEvents lib 20 (eItems inner) s0 = .ok (rs, s') := by
  unfold eRun at h
  split at h
  · cases h
  · rename_i s hs
    split at h
    · cases h
    · rename_i rs' s' hr; cases h; exact ⟨s, s', hs, hr⟩

/-- an undeclared entity is shown where it is: bytes 5 to 6 of `<é>&e;</é>` -/
theorem C64_case : eRun "&e;".toList = some [.ok (), .ok (), .error (.undefinedEntity ['e'] 5 6), .ok ()] ∧
    ∃ l m r, Shows "<é>&e;</é>".toList 5 6 l m r ∧ (Err.undefinedEntity ['e'] 5 6).about l m r := by
  have hr : eRun "&e;".toList = some [.ok (), .ok (), .error (.undefinedEntity ['e'] 5 6), .ok ()] := by decide +kernel
  refine ⟨hr, ?_⟩
  obtain ⟨s0, s', h1, h2⟩ := eRun_some hr
  rcases C64_ranges_show_the_fault (before := (eItems "&e;".toList).take 2) h1 h2 rfl (eItems_in _) rfl with ⟨_, _, h, _⟩ | h | ⟨b, c, hr, h⟩
  · cases h
  · exact h.elim
  · cases hr; exact h

/-- a malformed character reference is not shown where it is: the range reported for `<é>&#x;</é>` is inside the `é` of the start
tag, and not even between two characters -/
theorem C64_number_case : eRun "&#x;".toList = some [.ok (), .ok (), .error (.invalidOrUnclosedEntity 2 2), .ok ()] ∧
    ¬ ∃ l m r, Shows "<é>&#x;</é>".toList 2 2 l m r := by
  refine ⟨by decide +kernel, ?_⟩
  rintro ⟨l, m, r, h, h2, _⟩
  have e : "<é>&#x;</é>".toList = '<' :: 'é' :: ">&#x;</é>".toList := rfl
  rw [e, List.append_assoc] at h
  match l with
  | [] => cases h2
  | [c] => 
    injection h with h3 h4
    subst h3
    cases h2
  | c :: d :: l =>
    injection h with h3 h4
    injection h4 with h5 h6
    subst h3 h5
    simp only [byteLen_cons] at h2
    have u1 : ('<' : Char).utf8Size = 1 := rfl
    have u2 : ('é' : Char).utf8Size = 2 := rfl
    omega

end Ex
end Verif
