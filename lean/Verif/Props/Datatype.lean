import Verif.Spec.Datatype
import Verif.Proof.Decode
/-
C24-C31: the datatype libraries.
-/
namespace Verif

/-! ### C24: white space -/

theorem isAsciiWs_iff (c : Char) : isAsciiWs c = true ↔ SpaceChar c := by
  simp [isAsciiWs, SpaceChar, or_assoc]

theorem isAsciiWs_false (c : Char) : isAsciiWs c = false ↔ ¬ SpaceChar c := by
  rw [← isAsciiWs_iff]; simp

theorem normGo_ws : ∀ {pre : Str} (rest : Str), pre ≠ [] → (∀ c ∈ pre, SpaceChar c) → ∀ b, normGo b (pre ++ rest) = normGo true rest
  | [], _, h, _, _ => absurd rfl h
  | [c], rest, _, h, b => by
    have := (isAsciiWs_iff c).mpr (h c (by simp))
    simp [normGo, this]
  | c :: c' :: pre, rest, _, h, b => by
    have := (isAsciiWs_iff c).mpr (h c (by simp))
    have ih := normGo_ws (pre := c' :: pre) rest (by simp) (fun d hd => h d (by simp [hd])) true
    simp only [List.cons_append] at ih ⊢
    rw [normGo, if_pos this, ih]

theorem normGo_word : ∀ {w : Str} (rest : Str), (∀ c ∈ w, ¬ SpaceChar c) → normGo false (w ++ rest) = w ++ normGo false rest
  | [], _, _ => rfl
  | c :: w, rest, h => by
    have := (isAsciiWs_false c).mpr (h c (by simp))
    have ih := normGo_word (w := w) rest (fun d hd => h d (by simp [hd]))
    simp [normGo, this, ih]

theorem normGo_word' {w : Str} (rest : Str) (hw : w ≠ []) (h : ∀ c ∈ w, ¬ SpaceChar c) :
    normGo true (w ++ rest) = ' ' :: w ++ normGo false rest := by
  cases w with
  | nil => exact absurd rfl hw
  | cons c w =>
    have := (isAsciiWs_false c).mpr (h c (by simp))
    have ih := normGo_word (w := w) rest (fun d hd => h d (by simp [hd]))
    simp [normGo, this, ih]

/-- after a word the flag does not matter -/
theorem normGo_flag {rest : Str} (h : rest = [] ∨ ∃ c r, rest = c :: r ∧ SpaceChar c) :
    normGo false rest = normGo true rest := by
  rcases h with rfl | ⟨c, r, rfl, hc⟩
  · rfl
  · have := (isAsciiWs_iff c).mpr hc
    simp [normGo, this]

theorem Tokens.norm {s ws} (h : Tokens s ws) : normGo true s = ws.flatMap (' ' :: ·) := by
  induction h with
  | @nil s h =>
    cases s with
    | nil => rfl
    | cons c s =>
      have := normGo_ws (pre := c :: s) [] (by simp) h true
      simpa [normGo] using this
  | @cons pre w rest ws h1 h2 h3 h4 _ ih =>
    have e : normGo true (pre ++ w ++ rest) = normGo true (w ++ rest) := by
      cases pre with
      | nil => rfl
      | cons c pre => rw [List.append_assoc]; exact normGo_ws _ (by simp) h1 true
    rw [e, normGo_word' rest h2 h3, normGo_flag h4, ih]
    simp

theorem spaced_cons (w : Str) : ∀ ws : List Str, spaced (w :: ws) = w ++ ws.flatMap (' ' :: ·)
  | [] => by simp [spaced]
  | v :: ws => by simp [spaced, spaced_cons v ws]

theorem dropWhile_ws {pre rest : Str} (h : ∀ c ∈ pre, SpaceChar c) :
    (pre ++ rest).dropWhile isAsciiWs = rest.dropWhile isAsciiWs := by
  induction pre with
  | nil => rfl
  | cons c pre ih =>
    have := (isAsciiWs_iff c).mpr (h c (by simp))
    simp only [List.cons_append, List.dropWhile_cons, this, if_true]
    exact ih fun d hd => h d (by simp [hd])

/-- C24.  Normalising gives the words of the string, separated by single spaces. -/
theorem C24_words_joined {s : Str} {ws : List Str} (h : Tokens s ws) : normalizeWs s = spaced ws := by
  unfold normalizeWs
  cases h with
  | nil h =>
    have := dropWhile_ws (rest := []) h
    rw [List.append_nil] at this
    rw [this]; rfl
  | @cons pre w rest ws h1 h2 h3 h4 h5 =>
    rw [List.append_assoc, dropWhile_ws h1]
    have e : (w ++ rest).dropWhile isAsciiWs = w ++ rest := by
      cases w with
      | nil => exact absurd rfl h2
      | cons c w =>
        have := (isAsciiWs_false c).mpr (h3 c (by simp))
        simp [this]
    rw [e, normGo_word _ h3, normGo_flag h4, h5.norm, spaced_cons]

theorem Tokens.space {c : Char} {s : Str} {ws} (hc : SpaceChar c) (h : Tokens s ws) : Tokens (c :: s) ws := by
  cases h with
  | nil h => exact .nil (List.forall_mem_cons.mpr ⟨hc, h⟩)
  | @cons pre w rest ws h1 h2 h3 h4 h5 =>
    exact Tokens.cons (pre := c :: pre) (List.forall_mem_cons.mpr ⟨hc, h1⟩) h2 h3 h4 h5

/-- every string has words -/
theorem C24_words_exist : ∀ s : Str, ∃ ws, Tokens s ws
  | [] => ⟨[], .nil (by simp)⟩
  | c :: s => by
    obtain ⟨ws, h⟩ := C24_words_exist s
    by_cases hc : SpaceChar c
    · exact ⟨ws, h.space hc⟩
    · cases h with
      | @nil s h =>
        refine ⟨[[c]], Tokens.cons (pre := []) (w := [c]) (rest := s) (by simp) (by simp) (by simpa using hc) ?_ (.nil h)⟩
        cases s with
        | nil => exact Or.inl rfl
        | cons d s => exact Or.inr ⟨d, s, rfl, h d (by simp)⟩
      | @cons pre w rest ws h1 h2 h3 h4 h5 =>
        cases pre with
        | nil =>
          refine ⟨(c :: w) :: ws, Tokens.cons (pre := []) (w := c :: w) (by simp) (by simp) (List.forall_mem_cons.mpr ⟨hc, h3⟩) h4 h5⟩
        | cons d pre =>
          refine ⟨[c] :: w :: ws, Tokens.cons (pre := []) (w := [c]) (rest := d :: pre ++ w ++ rest) (by simp) (by simp) (by simpa using hc)
            (Or.inr ⟨d, pre ++ w ++ rest, by simp, h1 d (by simp)⟩) (.cons h1 h2 h3 h4 h5)⟩

theorem Tokens.words {s ws} (h : Tokens s ws) : ∀ w ∈ ws, w ≠ [] ∧ ∀ c ∈ w, ¬ SpaceChar c := by
  induction h with
  | nil => simp
  | cons h1 h2 h3 h4 h5 ih =>
    exact List.forall_mem_cons.mpr ⟨⟨h2, h3⟩, ih⟩

theorem tokens_spaced : ∀ {ws : List Str}, (∀ w ∈ ws, w ≠ [] ∧ ∀ c ∈ w, ¬ SpaceChar c) → Tokens (spaced ws) ws
  | [], _ => .nil (by simp [spaced])
  | [w], h => by
    have := Tokens.cons (pre := []) (w := w) (rest := []) (ws := []) (by simp) (h w (by simp)).1 (h w (by simp)).2 (Or.inl rfl) (.nil (by simp))
    simpa [spaced] using this
  | w :: v :: ws, h => by
    have ih := tokens_spaced (ws := v :: ws) fun u hu => h u (by simp [hu])
    have sp : SpaceChar ' ' := Or.inl rfl
    have := Tokens.cons (pre := []) (w := w) (rest := ' ' :: spaced (v :: ws)) (by simp) (h w (by simp)).1 (h w (by simp)).2
      (Or.inr ⟨_, _, rfl, sp⟩) (ih.space sp)
    simpa [spaced] using this

/-- different words, different strings -/
theorem flat_inj : ∀ {ws vs : List Str}, (∀ w ∈ ws, w ≠ [] ∧ ∀ c ∈ w, ¬ SpaceChar c) →
    (∀ w ∈ vs, w ≠ [] ∧ ∀ c ∈ w, ¬ SpaceChar c) → ws.flatMap (' ' :: ·) = vs.flatMap (' ' :: ·) → ws = vs := by
  have sp : SpaceChar ' ' := Or.inl rfl
  have cut : ∀ (w v : Str) (a b : List Str), (∀ c ∈ w, ¬ SpaceChar c) → (∀ c ∈ v, ¬ SpaceChar c) →
      w ++ a.flatMap (' ' :: ·) = v ++ b.flatMap (' ' :: ·) → w = v ∧ a.flatMap (' ' :: ·) = b.flatMap (' ' :: ·) := by
    intro w
    induction w with
    | nil =>
      intro v a b _ hv e
      cases v with
      | nil => exact ⟨rfl, e⟩
      | cons c v =>
        cases a with
        | nil => simp at e
        | cons x a =>
          simp at e
          exact absurd (e.1 ▸ sp) (hv c (by simp))
    | cons c w ih =>
      intro v a b hw hv e
      cases v with
      | nil =>
        cases b with
        | nil => simp at e
        | cons x b =>
          simp at e
          exact absurd (e.1 ▸ sp) (hw c (by simp))
      | cons d v =>
        simp only [List.cons_append, List.cons.injEq] at e
        obtain ⟨rfl, e⟩ := e
        obtain ⟨e1, e2⟩ := ih v a b (fun d hd => hw d (by simp [hd])) (fun d hd => hv d (by simp [hd])) e
        exact ⟨by rw [e1], e2⟩
  intro ws
  induction ws with
  | nil =>
    intro vs _ _ e
    cases vs with
    | nil => rfl
    | cons v vs => simp at e
  | cons w ws ih =>
    intro vs hw hv e
    cases vs with
    | nil => simp at e
    | cons v vs =>
      simp only [List.flatMap_cons, List.cons_append, List.cons.injEq, true_and] at e
      obtain ⟨e1, e2⟩ := cut w v ws vs (hw w (by simp)).2 (hv v (by simp)).2 e
      rw [e1, ih (fun u hu => hw u (by simp [hu])) (fun u hu => hv u (by simp [hu])) e2]

/-- the words of a string are determined by it -/
theorem C24_words_unique {s : Str} {ws vs : List Str} (h1 : Tokens s ws) (h2 : Tokens s vs) : ws = vs :=
  flat_inj h1.words h2.words (h1.norm.symm.trans h2.norm)

theorem spaced_inj {ws vs : List Str} (h1 : ∀ w ∈ ws, w ≠ [] ∧ ∀ c ∈ w, ¬ SpaceChar c)
    (h2 : ∀ w ∈ vs, w ≠ [] ∧ ∀ c ∈ w, ¬ SpaceChar c) (e : spaced ws = spaced vs) : ws = vs :=
  C24_words_unique (tokens_spaced h1) (e ▸ tokens_spaced h2)

/-- C24.  Normalising twice is normalising once. -/
theorem C24_idempotent (s : Str) : normalizeWs (normalizeWs s) = normalizeWs s := by
  obtain ⟨ws, h⟩ := C24_words_exist s
  rw [C24_words_joined h, C24_words_joined (tokens_spaced h.words)]

theorem normGo_filter : ∀ (b : Bool) (s : Str), (normGo b s).filter (fun c => !isAsciiWs c) = s.filter (fun c => !isAsciiWs c)
  | _, [] => rfl
  | b, c :: s => by
    have sp : isAsciiWs ' ' = true := rfl
    by_cases hc : isAsciiWs c = true
    · simp [normGo, hc, normGo_filter true s]
    · cases b <;> simp [normGo, hc, sp, normGo_filter false s]

/-- C24.  All other characters are kept, in order. -/
theorem C24_keeps_characters (s : Str) :
    (normalizeWs s).filter (fun c => !isAsciiWs c) = s.filter (fun c => !isAsciiWs c) := by
  unfold normalizeWs
  rw [normGo_filter]
  induction s with
  | nil => rfl
  | cons c s ih =>
    by_cases hc : isAsciiWs c = true
    · simp [hc, ih]
    · simp [hc]

/-- C24.  A result has no white space at its ends, no two in a row, and none but spaces. -/
theorem C24_result_is_tidy (s : Str) : ∃ ws, (∀ w ∈ ws, w ≠ [] ∧ ∀ c ∈ w, ¬ SpaceChar c) ∧ normalizeWs s = spaced ws := by
  obtain ⟨ws, h⟩ := C24_words_exist s
  exact ⟨ws, h.words, C24_words_joined h⟩

example : normalizeWs "\n a\t b \r".toList = "a b".toList := by decide

/-! ### C25: the built-in types -/

theorem normalizeWs_eq_iff {s t : Str} {ws vs} (h1 : Tokens s ws) (h2 : Tokens t vs) : normalizeWs s = normalizeWs t ↔ ws = vs := by
  rw [C24_words_joined h1, C24_words_joined h2]
  exact ⟨spaced_inj h1.words h2.words, fun e => by rw [e]⟩

/-- how the built-in `token` and the XML Schema `token` are named in a schema -/
def TokenName (n : DtName) : Prop := n = .token ∨ n = .cname [] "token".toList ∨ n = .cname xsdUri "token".toList
/-- how the built-in `string` and the XML Schema `string` are named in a schema -/
def StringName (n : DtName) : Prop := n = .string ∨ n = .cname [] "string".toList ∨ n = .cname xsdUri "string".toList

theorem datatypeValueOf_token {n : DtName} (hn : TokenName n) (lit : Str) :
    ∃ v, datatypeValueOf n lit = .ok v ∧ ∀ s, v.isValid s = some (normalizeWs lit == normalizeWs s) := by
  rcases hn with rfl | rfl | rfl
  · exact ⟨.relax (.token (normalizeWs lit)), rfl, fun _ => rfl⟩
  · exact ⟨.relax (.token (normalizeWs lit)), rfl, fun _ => rfl⟩
  · exact ⟨.xsd (.token (normalizeWs lit)), rfl, fun _ => rfl⟩

/-- C25.  A token value is accepted for `s` exactly when `s` has the same words. -/
theorem C25_token_values (x : Ext) {n : DtName} (hn : TokenName n) (lit s : Str) :
    ∃ v, datatypeValueOf n lit = .ok v ∧ ∀ {ws vs}, Tokens lit ws → Tokens s vs →
      ((stdLib x).validV v s = some true ↔ ws = vs) := by
  obtain ⟨v, hv, h⟩ := datatypeValueOf_token hn lit
  refine ⟨v, hv, fun h1 h2 => ?_⟩
  show v.isValid s = some true ↔ _
  rw [h s, ← normalizeWs_eq_iff h1 h2]
  simp

/-- C25.  A string value is accepted for exactly that string. -/
theorem C25_string_values (x : Ext) {n : DtName} (hn : StringName n) (lit s : Str) :
    ∃ v, datatypeValueOf n lit = .ok v ∧ ((stdLib x).validV v s = some true ↔ lit = s) := by
  rcases hn with rfl | rfl | rfl
  · exact ⟨.relax (.string lit), rfl, by simp [stdLib, DatatypeValues.isValid, BuiltinValue.isValid]⟩
  · exact ⟨.relax (.string lit), rfl, by simp [stdLib, DatatypeValues.isValid, BuiltinValue.isValid]⟩
  · exact ⟨.xsd (.string lit), rfl, by simp [stdLib, DatatypeValues.isValid, XsdValue.isValid]⟩

/-- C25.  The types `string` and `token` of the built-in library accept every string, and take no
parameters. -/
theorem C25_builtin_types (x : Ext) {n : DtName}
    (hn : n = .token ∨ n = .string ∨ n = .cname [] "token".toList ∨ n = .cname [] "string".toList) (s : Str) :
    (∃ d, datatypeNameOf x n [] = .ok d ∧ (stdLib x).validD d s = some true) ∧
    ∀ p ps, datatypeNameOf x n (p :: ps) = .err (.relax .paramNotAllowed) := by
  rcases hn with rfl | rfl | rfl | rfl
  · exact ⟨⟨.relax .token, rfl, rfl⟩, fun _ _ => rfl⟩
  · exact ⟨⟨.relax .string, rfl, rfl⟩, fun _ _ => rfl⟩
  · exact ⟨⟨.relax .token, rfl, rfl⟩, fun _ _ => rfl⟩
  · exact ⟨⟨.relax .string, rfl, rfl⟩, fun _ _ => rfl⟩

/-- C25.  The XML Schema type `string` without parameters accepts every string too. -/
theorem C25_xsd_string (x : Ext) (s : Str) :
    ∃ d, datatypeNameOf x (.cname xsdUri "string".toList) [] = .ok d ∧ (stdLib x).validD d s = some true :=
  ⟨.xsd (.string ⟨.unbounded, none⟩), rfl, rfl⟩

end Verif
