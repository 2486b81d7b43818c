import Verif.Proof.CompactAnn
/-
The compact syntax: patterns.
-/
namespace Verif.Compact
open Verif P Rnc
variable {α β : Type}
variable {strict : Prop}

/-! ### keywords against other texts -/

theorem prefix_word : ∀ {k w r : Str}, (∀ c ∈ k, ncNameChar c = true) → NoName r → k <+: w ++ r → k <+: w
  | [], _, _, _, _, _ => List.nil_prefix
  | c :: k, [], r, hk, hr, ⟨t, ht⟩ => by
    have := hr c (k ++ t) (by simpa using ht.symm)
    rw [hk c (.head _)] at this; cases this
  | c :: k, d :: w, r, hk, hr, ⟨t, ht⟩ => by
    simp only [List.cons_append, List.cons.injEq] at ht
    obtain ⟨rfl, ht⟩ := ht
    obtain ⟨t', h⟩ := prefix_word (fun c h => hk c (.tail _ h)) hr ⟨t, ht⟩
    exact ⟨t', by rw [List.cons_append, h]⟩

/-- characters that continue no keyword construct -/
def Stop (c : Char) : Prop := (isMultispace c = false ∧ c ≠ '#') ∧ c ∉ ['{', '=', '|', '&', '"', '\'', '[']

theorem stop_name {c : Char} (h : ncNameChar c = true) : Stop c := by
  refine ⟨noGap_nameChar h, fun hc => ?_⟩
  simp only [List.mem_cons, List.not_mem_nil, or_false] at hc
  rcases hc with rfl | rfl | rfl | rfl | rfl | rfl | rfl <;> revert h <;> decide

/-- the keyword `k` is not there, or only as part of something longer -/
def NotKw (k i : Str) : Prop := tag k i = .err ∨ ∃ c cs, tag k i = .ok (c :: cs) () ∧ Stop c

theorem NotKw.word {k w r : Str} (hk : ∀ c ∈ k, ncNameChar c = true) (hw : Word w) (hr : NoName r)
    (h : k = w → ∃ c cs, r = c :: cs ∧ Stop c) : NotKw k (w ++ r) := by
  by_cases e : k = w
  · obtain ⟨c, cs, rfl, hc⟩ := h e
    subst e
    exact .inr ⟨c, cs, tag_append _ _, hc⟩
  · rcases tag_word hk hw hr e with h | ⟨c, cs, h, hc⟩
    · exact .inl h
    · exact .inr ⟨c, cs, h, stop_name hc⟩

theorem NotKw.space1 {k i : Str} (h : NotKw k i) (f : Unit → P β) : (do tag k; let u ← space1; f u : P β) i = .err := by
  rcases h with h | ⟨c, cs, h, hc⟩
  · exact bind_of_err h
  · rw [bind_of_ok h]; exact bind_of_err (space1_noGap (.cons hc.1))

theorem NotKw.next {k i : Str} (h : NotKw k i) {d : Char} (hd : d ∈ ['{', '=', '|', '&', '[']) (f : Unit → P β) :
    (do tag k; space0; let u ← tag [d]; f u : P β) i = .err := by
  rcases h with h | ⟨c, cs, h, hc⟩
  · exact bind_of_err h
  · rw [bind_of_ok h, bind_of_ok (space0_noGap (.cons hc.1))]
    refine bind_of_err (tag_head fun e => hc.2 ?_)
    simp at e; subst e
    simp only [List.mem_cons, List.not_mem_nil, or_false] at hd ⊢
    rcases hd with rfl | rfl | rfl | rfl | rfl <;> simp

theorem braced_err {pat : P SPattern} {c : Char} {cs : Str} (hc : Stop c) : braced pat (c :: cs) = .err := by
  unfold braced
  rw [bind_of_ok (space0_noGap (.cons hc.1))]
  exact bind_of_err (tag_head fun e => hc.2 (by simp at e; simp [e]))

theorem NotKw.braced {k i : Str} (h : NotKw k i) {pat : P SPattern} (f : SPattern → P β) :
    (do tag k; let p ← Compact.braced pat; f p : P β) i = .err := by
  rcases h with h | ⟨c, cs, h, hc⟩
  · exact bind_of_err h
  · rw [bind_of_ok h]; exact bind_of_err (braced_err hc)

theorem NotKw.named {k i : Str} (h : NotKw k i) {nc : P SNameClass} {pat : P SPattern} : namedPattern k nc pat i = .err :=
  NotKw.space1 h _

theorem assign_err {c : Char} {cs : Str} (h : c ∉ ['=', '|', '&']) : assignMethod (c :: cs) = .err := by
  simp only [List.mem_cons, List.not_mem_nil, or_false, not_or] at h
  unfold assignMethod
  rw [alt_of_err (bind_of_err (tag_head (by simp [h]))), alt_of_err (bind_of_err (tag_head (by simp [h])))]
  exact bind_of_err (tag_head (by simp [h]))

theorem assign_nil : assignMethod [] = .err := rfl

theorem assign_fol {r : Str} (h : Fol ['=', '|', '&'] r) {f : AssignMethod → P β} : (do space0; let a ← assignMethod; f a : P β) r = .err := by
  obtain ⟨r', h1, h2, h3⟩ := h.space0
  rw [bind_of_ok h1]
  cases r' with
  | nil => exact bind_of_err assign_nil
  | cons c cs => exact bind_of_err (assign_err (h3 c cs rfl))

theorem assign_ok {a : AssignMethod} {u : Str} (h : Assign a u) (r : Str) : assignMethod (u ++ r) = .ok r a := by
  cases h <;> rfl

theorem _root_.Verif.Rnc.Assign.head {a : AssignMethod} {u : Str} (h : Assign a u) : ∃ c cs, u = c :: cs ∧ c ∈ ['=', '|', '&'] := by
  cases h <;> exact ⟨_, _, rfl, by decide⟩

theorem NotKw.start {k i : Str} (h : NotKw k i) {f : AssignMethod → P β} : (do tag k; space0; let a ← assignMethod; f a : P β) i = .err := by
  rcases h with h | ⟨c, cs, h, hc⟩
  · exact bind_of_err h
  · rw [bind_of_ok h]
    refine assign_fol (.cons hc.1 fun hm => hc.2 ?_)
    simp only [List.mem_cons, List.not_mem_nil, or_false] at hm ⊢
    rcases hm with rfl | rfl | rfl <;> simp

/-! ### datatype names -/

theorem dtName_head {i : Str} (h : ∀ c cs, i = c :: cs → ncNameStartChar c = false) : datatypeName i = .err := by
  have hd : ∀ d, ncNameStartChar d = true → i.head? ≠ some d := fun d hd => head?_ne fun c cs e e' => by
    have := h c cs e; subst e'; rw [hd] at this; cases this
  unfold datatypeName
  have hs : tag "string".toList i = .err := tag_head (hd 's' (by decide))
  have ht : tag "token".toList i = .err := tag_head (hd 't' (by decide))
  rw [alt_of_err (bind_of_err hs), alt_of_err (bind_of_err ht)]
  have hc : cname i = .err := bind_of_err (pNcName_err h)
  exact bind_of_err hc

theorem strTok_names : (∀ c ∈ "string".toList, ncNameChar c = true) ∧ ∀ c ∈ "token".toList, ncNameChar c = true := by decide

theorem dtName_ident {w r : Str} (h : AnyIdent w) (hw : Referable w) (hr : NameFol r) : datatypeName (w ++ r) = .err := by
  unfold datatypeName
  rw [alt_of_err (bind_of_err (tag_err fun hp => hw.1 (prefix_word strTok_names.1 hr.1 hp))),
    alt_of_err (bind_of_err (tag_err fun hp => hw.2 (prefix_word strTok_names.2 hr.1 hp)))]
  have hc : cname (w ++ r) = .err := AnyIdent.colon h hr
  exact bind_of_err hc

theorem dtName_ok {d : SDtName} {s r : Str} (h : Rnc.DtName d s) (hr : ∀ p n, d = .cname p n → NoName r) : datatypeName (s ++ r) = .ok r d := by
  cases h with
  | string => rfl
  | token => rfl
  | cname hp hf hn =>
    rename_i p n
    have e : p ++ ':' :: n ++ r = p ++ (':' :: (n ++ r)) := by simp
    have hc : NoName (':' :: (n ++ r)) := .cons (by decide)
    unfold datatypeName
    rw [e, alt_of_err (bind_of_err (tag_err fun hp => hf.1 (prefix_word strTok_names.1 hc hp))),
      alt_of_err (bind_of_err (tag_err fun hp => hf.2 (prefix_word strTok_names.2 hc hp))), ← e, bind_of_ok (cname_ok hp hn (hr _ _ rfl))]
    rfl

theorem stop_colon : Stop ':' := by unfold Stop; decide

theorem _root_.Verif.Rnc.DtName.notKw {d : SDtName} {s : Str} (h : Rnc.DtName d s) (r : Str) :
    NotKw "element".toList (s ++ r) ∧ NotKw "attribute".toList (s ++ r) ∧ NotKw "list".toList (s ++ r) ∧ NotKw "mixed".toList (s ++ r) := by
  cases h with
  | string => exact ⟨.inl rfl, .inl rfl, .inl rfl, .inl rfl⟩
  | token => exact ⟨.inl rfl, .inl rfl, .inl rfl, .inl rfl⟩
  | cname hp hf hn =>
    rename_i p n
    have e : p ++ ':' :: n ++ r = p ++ (':' :: (n ++ r)) := by simp
    have : ∀ k : Str, (∀ c ∈ k, ncNameChar c = true) → NotKw k (p ++ ':' :: n ++ r) := fun k hk => by
      rw [e]; exact .word hk hp.word (.cons (by decide)) fun _ => ⟨_, _, rfl, stop_colon⟩
    exact ⟨this _ (by decide), this _ (by decide), this _ (by decide), this _ (by decide)⟩

theorem _root_.Verif.Rnc.DtName.head {d : SDtName} {s : Str} (h : Rnc.DtName d s) : ∃ c cs, s = c :: cs ∧ ncNameStartChar c = true := by
  cases h with
  | string => exact ⟨_, _, rfl, by decide⟩
  | token => exact ⟨_, _, rfl, by decide⟩
  | cname hp _ _ => obtain ⟨c, cs, rfl, h1, _⟩ := hp; exact ⟨c, _, rfl, (ncNameStartChar_iff _).mpr h1⟩

/-! ### what may follow patterns -/

/-- no `inherit = …` follows -/
def NoInherit (r : Str) : Prop := ∀ r', space1 r = .ok r' () → inherit r' = .err

/-- what may follow a pattern without operators -/
structure PrimFol (r : Str) : Prop where
  name : NameFol r
  fol : Fol ['~', '{', '-', '"', '\''] r
  noInherit : NoInherit r

/-- what may follow a pattern -/
structure PatFol (b : Bool) (r : Str) : Prop where
  prim : PrimFol r
  ops : Fol [',', '&', '|', '?', '*', '+'] r
  follow : b = false → Fol ['>'] r

theorem PatFol.of {b : Bool} {r : Str} (h : PatFol false r) : PatFol b r := ⟨h.prim, h.ops, fun _ => h.follow rfl⟩

theorem inherit_head {i : Str} (h : i.head? ≠ some 'i') : inherit i = .err := bind_of_err (tag_head h)

theorem NoInherit.gap {g r : Str} (hg : Gap g) (hr : NoGap r) (h : inherit r = .err) : NoInherit (g ++ r) := by
  intro r' h'
  cases g with
  | nil => rw [List.nil_append, space1_noGap hr] at h'; cases h'
  | cons c g => rw [space1_sep ⟨hg, by simp⟩ hr] at h'; cases h'; exact h

theorem PrimFol.char {g r : Str} {c : Char} (hg : Gap g) (h : ((ncNameChar c = false ∧ c ≠ ':') ∧ (isMultispace c = false ∧ c ≠ '#')) ∧
    c ∉ ['~', '{', '-', '"', '\''] ∧ c ≠ 'i') : PrimFol (g ++ c :: r) :=
  ⟨.char hg h.1.1, Fol.gap (.cons h.1.2 h.2.1) hg, .gap hg (.cons h.1.2) (inherit_head (by simpa using h.2.2))⟩

theorem PatFol.char {b : Bool} {g r : Str} {c : Char} (hg : Gap g) (h : c = ')' ∨ c = '}') : PatFol b (g ++ c :: r) := by
  rcases h with rfl | rfl
  · exact ⟨.char hg (by decide), Fol.gap (.cons (by decide) (by decide)) hg, fun _ => Fol.gap (.cons (by decide) (by decide)) hg⟩
  · exact ⟨.char hg (by decide), Fol.gap (.cons (by decide) (by decide)) hg, fun _ => Fol.gap (.cons (by decide) (by decide)) hg⟩

theorem Fol.ofGap {S : List Char} {g : Str} (hg : Gap g) : Fol S g := ⟨g, [], hg, .nil, by simp, nofun⟩

theorem Gap.noName' {g : Str} (hg : Gap g) : NoName g := by simpa using hg.noName .nil

theorem PatFol.gap {b : Bool} {g : Str} (hg : Gap g) : PatFol b g := by
  refine ⟨⟨⟨Gap.noName' hg, ?_⟩, .ofGap hg, ?_⟩, .ofGap hg, fun _ => .ofGap hg⟩
  · exact (Fol.ofGap (S := [':']) hg).ne (by simp) (by decide)
  · have := NoInherit.gap hg .nil (r := []) rfl
    simpa using this

/-- a list entry after white space -/
theorem PatFol.sep {b : Bool} {g r : Str} (hg : Sep g) (h : IdHead r ∨ ∃ cs, r = '[' :: cs) (hi : inherit r = .err) : PatFol b (g ++ r) := by
  have hr : NoGap r := by
    rcases h with h | ⟨cs, rfl⟩
    · exact h.noGap
    · exact .cons (by decide)
  have hS : ∀ S : List Char, (∀ d ∈ S, (ncNameStartChar d = false ∧ d ≠ '\\') ∧ d ≠ '[') → Fol S (g ++ r) := by
    intro S hS
    refine Fol.gap (.start hr ?_) hg.1
    rcases h with h | ⟨cs, rfl⟩
    · exact h.notMem fun d hd => (hS d hd).1
    · intro c cs e hc; cases e; exact (hS _ hc).2 rfl
  refine ⟨⟨⟨?_, ?_⟩, hS _ (by decide), .gap hg.1 hr hi⟩, hS _ (by decide), fun _ => hS _ (by decide)⟩
  · obtain ⟨hg, hne⟩ := hg
    cases g with
    | nil => exact absurd rfl hne
    | cons c g => exact .cons (gapChar_noName (Gap.head hg rfl))
  · exact (hS [':'] (by decide)).ne (by simp) (by decide)

end Verif.Compact
