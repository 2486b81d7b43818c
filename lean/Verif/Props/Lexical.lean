import Verif.Props.Lengths
/-
C29, C30, C31, C50, C51: names, booleans, durations, language tags, time stamps.
-/
namespace Verif

/-! ### the expression matcher -/

namespace Re
variable {n : Nat}

theorem run_eps {s t : Str} : t ∈ run n .eps s ↔ t = s := by simp [run]

theorem run_cls {p : Char → Bool} {s t : Str} : t ∈ run n (.cls p) s ↔ ∃ c, s = c :: t ∧ p c = true := by
  cases s with
  | nil => simp [run]
  | cons c cs =>
    simp only [run]
    split
    · rename_i h
      simp only [List.mem_singleton, List.cons.injEq]
      constructor
      · rintro rfl; exact ⟨c, ⟨rfl, rfl⟩, h⟩
      · rintro ⟨d, ⟨_, rfl⟩, _⟩; rfl
    · rename_i h
      simp only [List.not_mem_nil, List.cons.injEq, false_iff]
      rintro ⟨d, ⟨rfl, rfl⟩, h'⟩; exact h h'

theorem run_chr {c : Char} {s t : Str} : t ∈ run n (chr c) s ↔ s = c :: t := by
  unfold chr
  rw [run_cls]
  simp

theorem run_seq {a b : Re} {s t : Str} : t ∈ run n (.seq a b) s ↔ ∃ u, u ∈ run n a s ∧ t ∈ run n b u := by
  simp [run]

theorem run_alt {a b : Re} {s t : Str} : t ∈ run n (.alt a b) s ↔ t ∈ run n a s ∨ t ∈ run n b s := by
  simp [run]

theorem run_opt {a : Re} {s t : Str} : t ∈ run n (opt a) s ↔ t ∈ run n a s ∨ t = s := by
  unfold opt; rw [run_alt, run_eps]

theorem run_bol {s t : Str} : t ∈ run n .bol s ↔ t = s ∧ s.length = n := by
  simp only [run]
  split <;> simp [*]

theorem run_eol {s t : Str} : t ∈ run n .eol s ↔ s = [] ∧ t = [] := by
  simp only [run]
  split <;> simp_all

/-- `r` matches exactly the strings of `L`, wherever it stands -/
def Matches (n : Nat) (r : Re) (L : Str → Prop) : Prop := ∀ s t, t ∈ run n r s ↔ ∃ w, s = w ++ t ∧ L w

theorem matches_eps : Matches n .eps (· = []) := by intro s t; rw [run_eps]; simp [eq_comm]

theorem matches_cls (p : Char → Bool) : Matches n (.cls p) (fun w => ∃ c, w = [c] ∧ p c = true) := by
  intro s t
  rw [run_cls]
  constructor
  · rintro ⟨c, h, hp⟩; exact ⟨[c], by simp [h], c, rfl, hp⟩
  · rintro ⟨w, h, c, rfl, hp⟩; exact ⟨c, by simp [h], hp⟩

theorem matches_chr (c : Char) : Matches n (chr c) (· = [c]) := by
  intro s t
  rw [run_chr]
  constructor
  · intro h; exact ⟨[c], by simp [h], rfl⟩
  · rintro ⟨w, h, rfl⟩; simp [h]

theorem Matches.seq {a b : Re} {L M : Str → Prop} (ha : Matches n a L) (hb : Matches n b M) :
    Matches n (.seq a b) (fun w => ∃ u v, w = u ++ v ∧ L u ∧ M v) := by
  intro s t
  rw [run_seq]
  constructor
  · rintro ⟨u, h1, h2⟩
    obtain ⟨w1, rfl, hw1⟩ := (ha _ _).mp h1
    obtain ⟨w2, rfl, hw2⟩ := (hb _ _).mp h2
    exact ⟨w1 ++ w2, by simp, w1, w2, rfl, hw1, hw2⟩
  · rintro ⟨w, rfl, w1, w2, rfl, h1, h2⟩
    exact ⟨w2 ++ t, (ha _ _).mpr ⟨w1, by simp, h1⟩, (hb _ _).mpr ⟨w2, rfl, h2⟩⟩

theorem Matches.alt {a b : Re} {L M : Str → Prop} (ha : Matches n a L) (hb : Matches n b M) :
    Matches n (.alt a b) (fun w => L w ∨ M w) := by
  intro s t
  rw [run_alt, ha, hb]
  constructor
  · rintro (⟨w, h, hw⟩ | ⟨w, h, hw⟩)
    · exact ⟨w, h, Or.inl hw⟩
    · exact ⟨w, h, Or.inr hw⟩
  · rintro ⟨w, h, hw | hw⟩
    · exact Or.inl ⟨w, h, hw⟩
    · exact Or.inr ⟨w, h, hw⟩

theorem Matches.opt {a : Re} {L : Str → Prop} (ha : Matches n a L) : Matches n (opt a) (fun w => L w ∨ w = []) :=
  ha.alt matches_eps

theorem Matches.congr {a : Re} {L M : Str → Prop} (ha : Matches n a L) (h : ∀ w, L w ↔ M w) : Matches n a M := by
  intro s t
  rw [ha]
  exact exists_congr fun w => and_congr_right fun _ => h w

/-- `r{0,k}` of a class -/
theorem matches_upTo (p : Char → Bool) : ∀ k, Matches n (upTo (.cls p) k) (fun w => w.length ≤ k ∧ ∀ c ∈ w, p c = true)
  | 0 => matches_eps.congr fun w => by simp; rintro rfl; simp
  | k + 1 => (((matches_cls p).seq (matches_upTo p k)).alt matches_eps).congr fun w => by
    constructor
    · rintro (⟨u, v, rfl, ⟨c, rfl, hc⟩, h1, h2⟩ | rfl)
      · exact ⟨by simp; omega, by simpa [hc] using h2⟩
      · simp
    · rintro ⟨h1, h2⟩
      cases w with
      | nil => exact Or.inr rfl
      | cons c w =>
        exact Or.inl ⟨[c], w, rfl, ⟨c, rfl, h2 c (by simp)⟩, by simp at h1; omega, fun d hd => h2 d (by simp [hd])⟩

/-- `r{k}` of a class -/
theorem matches_rep (p : Char → Bool) : ∀ k, Matches n (rep (.cls p) k) (Exactly k fun c => p c = true)
  | 0 => matches_eps.congr fun w => by simp [Exactly]; rintro rfl; simp
  | k + 1 => ((matches_cls p).seq (matches_rep p k)).congr fun w => by
    constructor
    · rintro ⟨u, v, rfl, ⟨c, rfl, hc⟩, h1, h2⟩
      exact ⟨by simp; omega, by simpa [hc] using h2⟩
    · rintro ⟨h1, h2⟩
      cases w with
      | nil => simp at h1
      | cons c w => exact ⟨[c], w, rfl, ⟨c, rfl, h2 c (by simp)⟩, by simp at h1; omega, fun d hd => h2 d (by simp [hd])⟩

/-- zero or more strings of `L` -/
inductive Many (L : Str → Prop) : Str → Prop
  | nil : Many L []
  | cons {u v} : L u → Many L v → Many L (u ++ v)

theorem starGo_sub {f : Str → List Str} {L : Str → Prop} (hf : ∀ s t, t ∈ f s → ∃ w, s = w ++ t ∧ L w) :
    ∀ {k : Nat} {s t : Str}, t ∈ starGo f k s → ∃ w, s = w ++ t ∧ Many L w
  | 0, s, t, h => by
    simp [starGo] at h; exact ⟨[], by simp [h], .nil⟩
  | k + 1, s, t, h => by
    simp only [starGo, List.mem_cons, List.mem_flatMap, List.mem_filter] at h
    rcases h with rfl | ⟨u, ⟨hu, _⟩, h⟩
    · exact ⟨[], rfl, .nil⟩
    · obtain ⟨w, rfl, hw⟩ := hf _ _ hu
      obtain ⟨w', rfl, hw'⟩ := starGo_sub hf h
      exact ⟨w ++ w', by simp, .cons hw hw'⟩

theorem Many.starGo {f : Str → List Str} {L : Str → Prop} (hf : ∀ s t w, s = w ++ t → L w → t ∈ f s) :
    ∀ {w : Str}, Many L w → ∀ {k : Nat} {t : Str}, (w ++ t).length ≤ k → t ∈ Re.starGo f k (w ++ t) := by
  intro w hw
  induction hw with
  | nil => intro k t _; cases k <;> simp [Re.starGo]
  | @cons u v hu hv ih =>
    intro k t hk
    cases u with
    | nil => exact ih (by simpa using hk)
    | cons c u =>
      cases k with
      | zero => simp at hk
      | succ k =>
        simp only [Re.starGo, List.mem_cons, List.mem_flatMap, List.mem_filter]
        refine Or.inr ⟨v ++ t, ⟨hf _ _ (c :: u) (by simp) hu, by simp; omega⟩, ih ?_⟩
        simp at hk ⊢; omega

theorem Matches.star {a : Re} {L : Str → Prop} (ha : Matches n a L) : Matches n (.star a) (Many L) := by
  intro s t
  simp only [run]
  constructor
  · exact starGo_sub fun s t h => (ha s t).mp h
  · rintro ⟨w, rfl, hw⟩
    exact hw.starGo (fun s t w h1 h2 => (ha s t).mpr ⟨w, h1, h2⟩) (Nat.le_refl _)

theorem mem_tails {s u : Str} : u ∈ tails s ↔ ∃ pre, s = pre ++ u := by
  induction s with
  | nil =>
    simp only [tails, List.mem_singleton]
    constructor
    · rintro rfl; exact ⟨[], rfl⟩
    · rintro ⟨pre, h⟩; simp at h; exact h.2
  | cons c s ih =>
    simp only [tails, List.mem_cons, ih]
    constructor
    · rintro (rfl | ⟨pre, rfl⟩)
      · exact ⟨[], rfl⟩
      · exact ⟨c :: pre, rfl⟩
    · rintro ⟨pre, h⟩
      cases pre with
      | nil => exact Or.inl h.symm
      | cons d pre => simp at h; exact Or.inr ⟨pre, h.2⟩

theorem isMatch_iff {r : Re} {s : Str} : r.isMatch s = true ↔ ∃ pre u t, s = pre ++ u ∧ t ∈ run s.length r u := by
  unfold isMatch
  simp only [List.any_eq_true, mem_tails, Bool.not_eq_true', List.isEmpty_eq_false_iff_exists_mem]
  constructor
  · rintro ⟨u, ⟨pre, h⟩, t, ht⟩; exact ⟨pre, u, t, h, ht⟩
  · rintro ⟨pre, u, t, h, ht⟩; exact ⟨u, ⟨pre, h⟩, t, ht⟩

/-- an expression anchored at both ends -/
theorem isMatch_anchored {r : Re} {L : Str → Prop} {s : Str} (h : Matches s.length r L)
    {e : Re} (he : ∀ u t, t ∈ run s.length e u ↔ u.length = s.length ∧ ∃ v, v ∈ run s.length r u ∧ v = [] ∧ t = []) :
    e.isMatch s = true ↔ L s := by
  rw [isMatch_iff]
  constructor
  · rintro ⟨pre, u, t, hs, ht⟩
    obtain ⟨h1, v, h2, rfl, rfl⟩ := (he u t).mp ht
    have : pre = [] := by
      have := congrArg List.length hs
      simp at this; exact List.length_eq_zero_iff.mp (by omega)
    subst this
    obtain ⟨w, h3, hw⟩ := (h _ _).mp h2
    simp at h3 hs
    subst h3; rw [hs]; exact hw
  · intro hL
    exact ⟨[], s, [], rfl, (he s []).mpr ⟨rfl, [], (h _ _).mpr ⟨s, by simp, hL⟩, rfl, rfl⟩⟩

end Re

/-! ### C50: language tags -/

theorem inR_iff {a b : Nat} {c : Char} : inR a b c = true ↔ a ≤ c.toNat ∧ c.toNat ≤ b := by simp [inR]

theorem char_le {a b : Char} : a ≤ b ↔ a.toNat ≤ b.toNat := Iff.rfl

theorem isAlpha_iff {c : Char} : isAlpha c = true ↔ Letter c := by
  simp only [isAlpha, Bool.or_eq_true, inR_iff, Letter, char_le]
  exact Iff.rfl

theorem isDig_iff {c : Char} : isDig c = true ↔ Digit c := by
  simp only [isDig, inR_iff, Digit, char_le]
  exact Iff.rfl

theorem isAlnum_iff {c : Char} : isAlnum c = true ↔ Letter c ∨ Digit c := by
  simp only [isAlnum, Bool.or_eq_true, isAlpha_iff, isDig_iff]

theorem oneTo8 {p : Char → Bool} {P : Char → Prop} (hp : ∀ c, p c = true ↔ P c) (n : Nat) :
    Re.Matches n (.seq (.cls p) (.upTo (.cls p) 7)) (fun w => 1 ≤ w.length ∧ w.length ≤ 8 ∧ ∀ c ∈ w, P c) :=
  ((Re.matches_cls p).seq (Re.matches_upTo p 7)).congr fun w => by
    constructor
    · rintro ⟨u, v, rfl, ⟨c, rfl, hc⟩, h1, h2⟩
      refine ⟨by simp, by simp; omega, ?_⟩
      intro d hd
      simp at hd
      rcases hd with rfl | hd
      · exact (hp _).mp hc
      · exact (hp _).mp (h2 d hd)
    · rintro ⟨h1, h2, h3⟩
      cases w with
      | nil => simp at h1
      | cons c w =>
        exact ⟨[c], w, rfl, ⟨c, rfl, (hp c).mpr (h3 c (by simp))⟩, by simp at h2; omega, fun d hd => (hp d).mpr (h3 d (by simp [hd]))⟩

theorem many_subTags {w : Str} : Re.Many (fun w => ∃ u v, w = u ++ v ∧ u = ['-'] ∧ (1 ≤ v.length ∧ v.length ≤ 8 ∧ ∀ c ∈ v, Letter c ∨ Digit c)) w ↔ SubTags w := by
  constructor
  · intro h
    induction h with
    | nil => exact .nil
    | cons hu _ ih =>
      obtain ⟨_, v, rfl, rfl, h1, h2, h3⟩ := hu
      simpa using SubTags.cons h1 h2 h3 ih
  · intro h
    induction h with
    | nil => exact .nil
    | @cons t rest h1 h2 h3 _ ih =>
      have := Re.Many.cons (L := fun w => ∃ u v, w = u ++ v ∧ u = ['-'] ∧ (1 ≤ v.length ∧ v.length ≤ 8 ∧ ∀ c ∈ v, Letter c ∨ Digit c))
        (u := '-' :: t) ⟨['-'], t, rfl, rfl, h1, h2, h3⟩ ih
      simpa using this

theorem langRe_iff (s : Str) : langRe.isMatch s = true ↔ LangTag s := by
  have m1 := oneTo8 (fun c => isAlpha_iff (c := c)) s.length
  have m2 := (Re.Matches.seq (Re.matches_chr '-') (oneTo8 (fun c => isAlnum_iff (c := c)) s.length)).star
  refine Re.isMatch_anchored (r := .seq (.seq (.cls isAlpha) (.upTo (.cls isAlpha) 7))
    (.star (.seq (.chr '-') (.seq (.cls isAlnum) (.upTo (.cls isAlnum) 7))))) ((m1.seq m2).congr fun w => ?_) ?_
  · constructor
    · rintro ⟨u, v, rfl, ⟨h1, h2, h3⟩, h4⟩
      exact ⟨u, v, rfl, h1, h2, h3, many_subTags.mp h4⟩
    · rintro ⟨u, v, rfl, h1, h2, h3, h4⟩
      exact ⟨u, v, rfl, ⟨h1, h2, h3⟩, many_subTags.mpr h4⟩
  · intro u t
    simp only [langRe, Re.seqs, Re.run_seq, Re.run_bol, Re.run_eol]
    constructor
    · rintro ⟨_, ⟨rfl, h⟩, u1, h1, u2, h2, u3, h3, rfl, rfl⟩
      exact ⟨h, [], ⟨u2, ⟨u1, h1, h2⟩, h3⟩, rfl, rfl⟩
    · rintro ⟨h, v, ⟨u2, ⟨u1, h1, h2⟩, h3⟩, rfl, rfl⟩
      exact ⟨u, ⟨rfl, h⟩, u1, h1, u2, h2, [], h3, rfl, rfl⟩

theorem patParams_valid {x : Ext} : ∀ {ps : List Param} {pat pat' : Option PatternFacet}, patParams x pat ps = .ok pat' →
    ∀ s, patOk x pat' s = true ↔ patNow x pat ps s
  | [], pat, pat', h, s => by cases h; exact patNow_nil.symm
  | p :: ps, pat, pat', h, s => by
    rw [patParams] at h
    split at h
    · rename_i hp
      simp only [Res.bind_def, Res.bind_eq_ok] at h
      obtain ⟨re, hre, h⟩ := h
      unfold mkPattern at hre
      split at hre <;> cases hre
      rw [patParams_valid h s]
      exact patNow_pattern hp
    · cases h

/-- the types whose only facet is "pattern": a test and the pattern -/
theorem pattern_type (x : Ext) {name : Str} {f : Option PatternFacet → XsdDatatype} {test : Str → Bool} {L : Str → Prop}
    (hc : ∀ ps, xsdCompile x name ps = facetRes (patParams x none ps) f)
    (hf : ∀ p s, (f p).isValid x s = some (test s && patOk x p s)) (ht : ∀ s, test s = true ↔ L s)
    {ps : List Param} {d : Datatypes} (h : datatypeNameOf x (.cname xsdUri name) ps = .ok d) (s : Str) :
    ((stdLib x).validD d s = some true ↔ L s ∧ PatternsOk x ps s) ∧ ((stdLib x).validD d s).isSome = true := by
  rw [datatypeNameOf_xsd, hc, mapBoth_ok] at h
  obtain ⟨a, h, rfl⟩ := h
  obtain ⟨pat, hn, rfl⟩ := facetRes_ok h
  have hv : (stdLib x).validD (.xsd (f pat)) s = some (test s && patOk x pat s) := hf pat s
  rw [hv, Option.some.injEq, Bool.and_eq_true, patParams_valid hn s, ht]
  simp [patNow, patOk]

/-- C50.  `xsd:language` accepts exactly the language tags. -/
theorem C50_language (x : Ext) {ps : List Param} {d : Datatypes} (h : datatypeNameOf x (.cname xsdUri "language".toList) ps = .ok d)
    (s : Str) : (stdLib x).validD d s = some true ↔ LangTag s ∧ PatternsOk x ps s :=
  (pattern_type x (f := .language) (test := langRe.isMatch) (fun _ => rfl) (fun _ _ => rfl) langRe_iff h s).1

example (x : Ext) : ∃ d, datatypeNameOf x (.cname xsdUri "language".toList) [] = .ok d := ⟨_, rfl⟩
example : LangTag "en-GB-x1".toList := (langRe_iff _).mp (by decide +kernel)

/-! ### C51: time stamps -/

theorem matches_d (x : Ext) (n k : Nat) : Re.Matches n (.rep (.cls x.isNd) k) (Exactly k fun c => x.isNd c = true) := Re.matches_rep x.isNd k

theorem hourMinute_matches (x : Ext) (n : Nat) :
    Re.Matches n (.seqs [.rep (.cls x.isNd) 2, .chr ':', .rep (.cls x.isNd) 2]) (HourMinute fun c => x.isNd c = true) :=
  ((matches_d x n 2).seq ((Re.matches_chr ':').seq (matches_d x n 2))).congr fun w => by
    unfold HourMinute
    constructor
    · rintro ⟨h, _, rfl, h1, _, m, rfl, rfl, h2⟩; exact ⟨h, m, rfl, h1, h2⟩
    · rintro ⟨h, m, rfl, h1, h2⟩; exact ⟨h, ':' :: m, rfl, h1, [':'], m, rfl, rfl, h2⟩

theorem zone_matches (x : Ext) (n : Nat) :
    Re.Matches n (.opt (.seq (.chr 'Z') (.opt (.seqs [.alt (.chr '+') (.chr '-'), .rep (.cls x.isNd) 2, .chr ':', .rep (.cls x.isNd) 2]))))
      (Zone fun c => x.isNd c = true) :=
  ((Re.matches_chr 'Z').seq ((((Re.matches_chr '+').alt (Re.matches_chr '-')).seq (hourMinute_matches x n)).opt)).opt.congr fun w => by
    unfold Zone
    constructor
    · rintro (⟨_, v, rfl, rfl, ⟨u, hm, rfl, h1, h2⟩ | rfl⟩ | rfl)
      · rcases h1 with rfl | rfl
        · exact Or.inr (Or.inr ⟨'+', hm, rfl, Or.inl rfl, h2⟩)
        · exact Or.inr (Or.inr ⟨'-', hm, rfl, Or.inr rfl, h2⟩)
      · exact Or.inr (Or.inl rfl)
      · exact Or.inl rfl
    · rintro (rfl | rfl | ⟨c, hm, rfl, hc, h2⟩)
      · exact Or.inr rfl
      · exact Or.inl ⟨['Z'], [], rfl, rfl, Or.inr rfl⟩
      · refine Or.inl ⟨['Z'], c :: hm, rfl, rfl, Or.inl ⟨[c], hm, rfl, ?_, h2⟩⟩
        rcases hc with rfl | rfl
        · exact Or.inl rfl
        · exact Or.inr rfl

theorem datetimeRe_iff (x : Ext) (s : Str) : (datetimeRe x).isMatch s = true ↔ TimeStamp (fun c => x.isNd c = true) s := by
  have d := matches_d x s.length
  have c := fun c => Re.matches_chr (n := s.length) c
  have m := ((c '-').opt).seq ((d 4).seq ((c '-').seq ((d 2).seq ((c '-').seq ((d 2).seq ((c 'T').seq ((d 2).seq ((c ':').seq
    ((d 2).seq ((c ':').seq ((d 2).seq (zone_matches x s.length))))))))))))
  refine Re.isMatch_anchored (m.congr fun w => ?_) ?_
  · unfold TimeStamp
    constructor
    · rintro ⟨sg, _, rfl, h1, y, _, rfl, h2, _, _, rfl, rfl, mo, _, rfl, h3, _, _, rfl, rfl, da, _, rfl, h4, _, _, rfl, rfl,
        h, _, rfl, h5, _, _, rfl, rfl, mi, _, rfl, h6, _, _, rfl, rfl, se, z, rfl, h7, h8⟩
      exact ⟨sg, y, mo, da, h, mi, se, z, by simp, h1.symm, h2, h3, h4, h5, h6, h7, h8⟩
    · rintro ⟨sg, y, mo, da, h, mi, se, z, rfl, h1, h2, h3, h4, h5, h6, h7, h8⟩
      exact ⟨sg, _, by simp, h1.symm, y, _, rfl, h2, ['-'], _, rfl, rfl, mo, _, rfl, h3, ['-'], _, rfl, rfl, da, _, rfl, h4, ['T'], _, rfl, rfl,
        h, _, rfl, h5, [':'], _, rfl, rfl, mi, _, rfl, h6, [':'], _, rfl, rfl, se, z, rfl, h7, h8⟩
  · intro u t
    simp only [datetimeRe, Re.seqs, Re.run_seq, Re.run_bol, Re.run_eol]
    constructor
    · rintro ⟨_, ⟨rfl, h⟩, u1, h1, u2, h2, u3, h3, u4, h4, u5, h5, u6, h6, u7, h7, u8, h8, u9, h9, u10, h10, u11, h11, u12, h12, u13, h13, rfl, rfl⟩
      exact ⟨h, [], ⟨u1, h1, u2, h2, u3, h3, u4, h4, u5, h5, u6, h6, u7, h7, u8, h8, u9, h9, u10, h10, u11, h11, u12, h12, h13⟩, rfl, rfl⟩
    · rintro ⟨h, v, ⟨u1, h1, u2, h2, u3, h3, u4, h4, u5, h5, u6, h6, u7, h7, u8, h8, u9, h9, u10, h10, u11, h11, u12, h12, h13⟩, rfl, rfl⟩
      exact ⟨u, ⟨rfl, h⟩, u1, h1, u2, h2, u3, h3, u4, h4, u5, h5, u6, h6, u7, h7, u8, h8, u9, h9, u10, h10, u11, h11, u12, h12, [], h13, rfl, rfl⟩

/-- C51.  `xsd:dateTime` accepts exactly the time stamps. -/
theorem C51_dateTime (x : Ext) {ps : List Param} {d : Datatypes} (h : datatypeNameOf x (.cname xsdUri "dateTime".toList) ps = .ok d)
    (s : Str) : (stdLib x).validD d s = some true ↔ TimeStamp (fun c => x.isNd c = true) s ∧ PatternsOk x ps s :=
  (pattern_type x (f := .datetime) (test := (datetimeRe x).isMatch) (fun _ => rfl) (fun _ _ => rfl) (datetimeRe_iff x) h s).1

/-! ### C30: durations -/

theorem durPart_opt {n : Nat} {u : Char} {s : Str} : s ∈ Re.run n (durPart u) s := by
  unfold durPart; rw [Re.run_opt]; exact Or.inr rfl

theorem durationReA_iff {n : Nat} {s : Str} : (∃ t, t ∈ Re.run n durationReA s) ↔ s.length = n ∧ ∃ t, s = 'P' :: t := by
  simp only [durationReA, Re.seqs, Re.run_seq, Re.run_bol]
  constructor
  · rintro ⟨t, _, ⟨rfl, h⟩, u1, h1, _⟩
    exact ⟨h, u1, Re.run_chr.mp h1⟩
  · rintro ⟨h, t, rfl⟩
    exact ⟨t, _, ⟨rfl, h⟩, t, Re.run_chr.mpr rfl, t, durPart_opt, t, durPart_opt, t, durPart_opt, t, Re.run_opt.mpr (Or.inr rfl),
      t, durPart_opt, t, durPart_opt, durPart_opt⟩

theorem class2 {n : Nat} {p q : Char → Bool} : Re.Matches n (.seq (.cls p) (.cls q)) (fun w => ∃ a b, w = [a, b] ∧ p a = true ∧ q b = true) :=
  ((Re.matches_cls p).seq (Re.matches_cls q)).congr fun w => by
    constructor
    · rintro ⟨_, _, rfl, ⟨a, rfl, ha⟩, b, rfl, hb⟩; exact ⟨a, b, rfl, ha, hb⟩
    · rintro ⟨a, b, rfl, ha, hb⟩; exact ⟨[a], [b], rfl, ⟨a, rfl, ha⟩, b, rfl, hb⟩

theorem chrClass {n : Nat} {c : Char} {q : Char → Bool} : Re.Matches n (.seq (.chr c) (.cls q)) (fun w => ∃ b, w = [c, b] ∧ q b = true) :=
  ((Re.matches_chr c).seq (Re.matches_cls q)).congr fun w => by
    constructor
    · rintro ⟨_, _, rfl, rfl, b, rfl, hb⟩; exact ⟨b, rfl, hb⟩
    · rintro ⟨b, rfl, hb⟩; exact ⟨[c], [b], rfl, rfl, b, rfl, hb⟩

theorem matches_lit {n : Nat} : ∀ (l : Str), Re.Matches n (.lit l) (· = l)
  | [] => Re.matches_eps
  | [c] => Re.matches_chr c
  | c :: d :: l => ((Re.matches_chr c).seq (matches_lit (d :: l))).congr fun w => by
    constructor
    · rintro ⟨_, _, rfl, rfl, rfl⟩; rfl
    · rintro rfl; exact ⟨[c], d :: l, rfl, rfl, rfl⟩

theorem maybe_matches {n : Nat} (c : Char) : Re.Matches n (.opt (.chr c)) (Maybe c) :=
  (Re.matches_chr c).opt.congr fun _ => or_comm

theorem inR_chars {a b c : Char} : inR a.toNat b.toNat c = true ↔ a ≤ c ∧ c ≤ b := by
  rw [inR_iff, char_le, char_le]

theorem month_matches {n : Nat} : Re.Matches n (.alts [.seq (.chr '0') (.cls (inR 0x31 0x39)), .lit ['1', '1'], .lit ['1', '2']]) MonthNo :=
  (chrClass.alt ((matches_lit _).alt (matches_lit _))).congr fun w => by
    unfold MonthNo
    have : ∀ b, inR 0x31 0x39 b = true ↔ '1' ≤ b ∧ b ≤ '9' := fun b => inR_chars (a := '1') (b := '9')
    simp only [this]

theorem day_matches {n : Nat} (x : Ext) :
    Re.Matches n (.alts [.seq (.cls (inR 0x30 0x32)) (.cls x.isNd), .lit ['3', '0'], .lit ['3', '1']]) (DayNo fun c => x.isNd c = true) :=
  (class2.alt ((matches_lit _).alt (matches_lit _))).congr fun w => by
    unfold DayNo
    have : ∀ b, inR 0x30 0x32 b = true ↔ '0' ≤ b ∧ b ≤ '2' := fun b => inR_chars (a := '0') (b := '2')
    simp only [this, and_assoc]

theorem char_eq_of_between {a b : Char} (h1 : a ≤ b) (h2 : b ≤ a) : b = a := Char.le_antisymm h2 h1

theorem hour_matches {n : Nat} :
    Re.Matches n (.alts [.seq (.cls (inR 0x30 0x31)) (.cls isDig), .seq (.chr '2') (.cls (inR 0x30 0x33))]) Hour :=
  (class2.alt chrClass).congr fun w => by
    unfold Hour
    have e1 : ∀ b, inR 0x30 0x31 b = true ↔ b = '0' ∨ b = '1' := by
      intro b
      rw [inR_iff]
      constructor
      · rintro ⟨h1, h2⟩
        have : b.toNat = 48 ∨ b.toNat = 49 := by omega
        rcases this with h | h
        · exact Or.inl (Char.toNat_inj.mp h)
        · exact Or.inr (Char.toNat_inj.mp h)
      · rintro (rfl | rfl) <;> decide
    have e2 : ∀ b, inR 0x30 0x33 b = true ↔ '0' ≤ b ∧ b ≤ '3' := fun b => inR_chars (a := '0') (b := '3')
    simp only [e1, e2, isDig_iff]
    constructor
    · rintro (⟨a, b, rfl, ha, hb⟩ | ⟨b, rfl, h0, h3⟩)
      · exact ⟨a, b, rfl, hb, Or.inl ha⟩
      · exact ⟨'2', b, rfl, ⟨h0, Char.le_trans h3 (by decide)⟩, Or.inr ⟨rfl, h3⟩⟩
    · rintro ⟨a, b, rfl, hb, ha | ⟨rfl, h3⟩⟩
      · exact Or.inl ⟨a, b, rfl, ha, hb⟩
      · exact Or.inr ⟨b, rfl, hb.1, h3⟩

theorem sixty_matches {n : Nat} : Re.Matches n (.seq (.cls (inR 0x30 0x35)) (.cls isDig)) Sixty :=
  class2.congr fun w => by
    unfold Sixty
    have e1 : ∀ b, inR 0x30 0x35 b = true ↔ '0' ≤ b ∧ b ≤ '5' := fun b => inR_chars (a := '0') (b := '5')
    simp only [e1, isDig_iff]
    constructor
    · rintro ⟨a, b, rfl, ha, hb⟩; exact ⟨a, b, rfl, hb, ha.1, ha.2⟩
    · rintro ⟨a, b, rfl, hb, ha1, ha2⟩; exact ⟨a, b, rfl, ⟨ha1, ha2⟩, hb⟩

theorem durationReB_iff (x : Ext) {n : Nat} {s : Str} :
    (∃ t, t ∈ Re.run n (durationReB x) s) ↔ CompactStamp (fun c => x.isNd c = true) s := by
  have clock := ((hour_matches (n := n)).seq ((maybe_matches ':').seq (sixty_matches.seq ((maybe_matches ':').seq
    (sixty_matches.alt (matches_lit ['6', '0'])))))).alt ((matches_lit ['2', '4', '0', '0']).alt (matches_lit ['2', '4', ':', '0', '0']))
  have clock : Re.Matches n _ ClockTime := clock.congr fun w => by
    unfold ClockTime
    constructor
    · rintro (⟨h, _, rfl, h1, c1, _, rfl, h2, m, _, rfl, h3, c2, se, rfl, h4, h5⟩ | h)
      · exact Or.inl ⟨h, c1, m, c2, se, by simp, h1, h2, h3, h4, h5⟩
      · exact Or.inr h
    · rintro (⟨h, c1, m, c2, se, rfl, h1, h2, h3, h4, h5⟩ | h)
      · exact Or.inl ⟨h, _, by simp, h1, c1, _, rfl, h2, m, _, rfl, h3, c2, se, rfl, h4, h5⟩
      · exact Or.inr h
  have m := (matches_d x n 4).seq ((maybe_matches '-').seq (month_matches.seq ((maybe_matches '-').seq ((day_matches x).seq
    ((Re.matches_chr 'T').seq clock)))))
  refine Iff.trans ?_ ((m s []).trans ?_)
  · unfold durationReB
    simp only [Re.seqs, Re.run_seq, Re.run_eol]
    constructor
    · rintro ⟨t, u1, h1, u2, h2, u3, h3, u4, h4, u5, h5, u6, h6, u7, h7, rfl, rfl⟩
      exact ⟨u1, h1, u2, h2, u3, h3, u4, h4, u5, h5, u6, h6, h7⟩
    · rintro ⟨u1, h1, u2, h2, u3, h3, u4, h4, u5, h5, u6, h6, h7⟩
      exact ⟨[], u1, h1, u2, h2, u3, h3, u4, h4, u5, h5, u6, h6, [], h7, rfl, rfl⟩
  · unfold CompactStamp
    constructor
    · rintro ⟨w, rfl, y, _, rfl, h1, c1, _, rfl, h2, mo, _, rfl, h3, c2, _, rfl, h4, da, _, rfl, h5, _, t, rfl, rfl, h6⟩
      exact ⟨y, c1, mo, c2, da, t, by simp, h1, h2, h3, h4, h5, h6⟩
    · rintro ⟨y, c1, mo, c2, da, t, rfl, h1, h2, h3, h4, h5, h6⟩
      exact ⟨_, (List.append_nil _).symm, y, _, by simp, h1, c1, _, rfl, h2, mo, _, rfl, h3, c2, _, rfl, h4, da, _, rfl, h5, ['T'], t, rfl, rfl, h6⟩

theorem durationRe_iff (x : Ext) (s : Str) : (durationRe x).isMatch s = true ↔
    (∃ t, s = 'P' :: t) ∨ ∃ pre w, s = pre ++ w ∧ CompactStamp (fun c => x.isNd c = true) w := by
  rw [Re.isMatch_iff]
  unfold durationRe
  simp only [Re.run_alt]
  constructor
  · rintro ⟨pre, u, t, hs, h | h⟩
    · obtain ⟨h1, h2⟩ := durationReA_iff.mp ⟨t, h⟩
      have : pre = [] := by
        have := congrArg List.length hs
        simp at this; exact List.length_eq_zero_iff.mp (by omega)
      subst this
      rw [hs]; exact Or.inl h2
    · exact Or.inr ⟨pre, u, hs, (durationReB_iff x).mp ⟨t, h⟩⟩
  · rintro (h | ⟨pre, w, hs, h⟩)
    · obtain ⟨t, ht⟩ := durationReA_iff.mpr ⟨rfl, h⟩
      exact ⟨[], s, t, rfl, Or.inl ht⟩
    · obtain ⟨t, ht⟩ := (durationReB_iff x (n := s.length)).mpr h
      exact ⟨pre, w, t, hs, Or.inr ht⟩

/-- C30.  What `xsd:duration` accepts, exactly: anything that begins with 'P', and anything that ends with a time stamp. -/
theorem C30_duration_accepts (x : Ext) {ps : List Param} {d : Datatypes} (h : datatypeNameOf x (.cname xsdUri "duration".toList) ps = .ok d)
    (s : Str) : (stdLib x).validD d s = some true ↔
      ((∃ t, s = 'P' :: t) ∨ ∃ pre w, s = pre ++ w ∧ CompactStamp (fun c => x.isNd c = true) w) ∧ PatternsOk x ps s :=
  (pattern_type x (f := .duration) (test := (durationRe x).isMatch) (fun _ => rfl) (fun _ _ => rfl) (durationRe_iff x) h s).1

/-- So the expected statement fails: junk after 'P' is accepted.. -/
theorem C30_accepts_junk (x : Ext) : ∃ d, datatypeNameOf x (.cname xsdUri "duration".toList) [] = .ok d ∧
    (stdLib x).validD d "Please".toList = some true :=
  ⟨_, rfl, (C30_duration_accepts x (ps := []) rfl _).mpr ⟨Or.inl ⟨_, rfl⟩, by simp [PatternsOk]⟩⟩

theorem CompactStamp.length {d : Char → Prop} {s : Str} (h : CompactStamp d s) : 4 < s.length := by
  obtain ⟨y, h1, mo, h2, da, t, rfl, hy, -⟩ := h
  have := hy.1
  simp; omega

/-- ..and a negative duration is not. -/
theorem C30_rejects_negative (x : Ext) : ∃ d, datatypeNameOf x (.cname xsdUri "duration".toList) [] = .ok d ∧
    (stdLib x).validD d "-P1Y".toList ≠ some true := by
  refine ⟨_, rfl, fun h => ?_⟩
  rcases ((C30_duration_accepts x (ps := []) rfl _).mp h).1 with ⟨t, h⟩ | ⟨pre, w, h, hw⟩
  · cases h
  · have h1 := hw.length
    have h2 := congrArg List.length h
    rw [List.length_append] at h2
    have : "-P1Y".toList.length = 4 := rfl
    omega

/-! ### C29, C31: booleans and names -/

/-- C29.  `xsd:boolean` accepts exactly its four literals. -/
theorem C29_boolean (x : Ext) {ps : List Param} {d : Datatypes} (h : datatypeNameOf x (.cname xsdUri "boolean".toList) ps = .ok d)
    (s : Str) : (stdLib x).validD d s = some true ↔
      (s = "true".toList ∨ s = "false".toList ∨ s = "1".toList ∨ s = "0".toList) ∧ PatternsOk x ps s := by
  refine (pattern_type x (f := .boolean) (L := fun s => s = "true".toList ∨ s = "false".toList ∨ s = "1".toList ∨ s = "0".toList) (test := fun value => value == "true".toList || value == "false".toList || value == "1".toList ||
      value == "0".toList) (fun _ => rfl) (fun _ _ => rfl) (fun s => ?_) h s).1
  simp only [Bool.or_eq_true, beq_iff_eq, or_assoc]

theorem ncNameStartChar_iff (c : Char) : ncNameStartChar c = true ↔ NameStart c := by
  unfold ncNameStartChar NameStart
  have e1 : inR 0x41 0x5A c = true ↔ 'A' ≤ c ∧ c ≤ 'Z' := inR_chars (a := 'A') (b := 'Z')
  have e2 : inR 0x61 0x7A c = true ↔ 'a' ≤ c ∧ c ≤ 'z' := inR_chars (a := 'a') (b := 'z')
  simp only [Bool.or_eq_true, e1, e2, inR_iff, beq_iff_eq, or_assoc]

theorem ncNameChar_iff (c : Char) : ncNameChar c = true ↔ NameChar c := by
  unfold ncNameChar NameChar
  have e1 : inR 0x30 0x39 c = true ↔ '0' ≤ c ∧ c ≤ '9' := inR_chars (a := '0') (b := '9')
  have e2 : c = '\u00B7' ↔ c.toNat = 0xB7 := by
    constructor
    · rintro rfl; rfl
    · intro h; exact Char.toNat_inj.mp h
  simp only [Bool.or_eq_true, ncNameStartChar_iff, e1, inR_iff, beq_iff_eq, or_assoc, e2]

theorem dropWhile_eq_nil {p : Char → Bool} : ∀ {l : Str}, l.dropWhile p = [] ↔ ∀ c ∈ l, p c = true
  | [] => by simp
  | c :: l => by
    rw [List.dropWhile_cons]
    split
    · rename_i h; rw [dropWhile_eq_nil]; simp [h]
    · rename_i h; simp [h]

theorem isValidNcname_iff (s : Str) : isValidNcname s = true ↔ NCName s := by
  unfold isValidNcname NCName
  cases s with
  | nil => simp [ncName]
  | cons c cs =>
    simp only [ncName]
    by_cases hc : ncNameStartChar c = true
    · rw [if_pos hc]
      simp only [List.isEmpty_iff, dropWhile_eq_nil, ncNameChar_iff]
      constructor
      · intro h; exact ⟨c, cs, rfl, (ncNameStartChar_iff c).mp hc, h⟩
      · rintro ⟨_, _, e, _, h⟩; cases e; exact h
    · rw [if_neg hc]
      simp only [Bool.false_eq_true, false_iff]
      rintro ⟨_, _, e, h, _⟩
      cases e
      exact hc ((ncNameStartChar_iff c).mpr h)

/-- C29.  `xsd:NCName` accepts exactly the names without a colon, of the lengths its facets allow. -/
theorem C29_ncname (x : Ext) {ps : List Param} {d : Datatypes} (h : datatypeNameOf x (.cname xsdUri "NCName".toList) ps = .ok d)
    (s : Str) : (stdLib x).validD d s = some true ↔ NCName s ∧ ∀ p ∈ ps, p.Length s := by
  have e : xsdCompile x "NCName".toList ps = facetRes (lengthParams x false .unbounded none ps) fun r => .ncName r.1 := rfl
  rw [datatypeNameOf_xsd, e, mapBoth_ok] at h
  obtain ⟨a, h, rfl⟩ := h
  obtain ⟨⟨len, pat⟩, hn, rfl⟩ := facetRes_ok h
  show some (len.isValid s && isValidNcname s) = some true ↔ _
  rw [Option.some.injEq, Bool.and_eq_true, (lengths_of_ok hn s).1, isValidNcname_iff, and_comm]

theorem ncname_no_colon {s : Str} (h : NCName s) : ':' ∉ s := by
  have : NameChar ':' → False := by
    rw [← ncNameChar_iff]; decide
  obtain ⟨c, cs, rfl, h1, h2⟩ := h
  rw [List.mem_cons]
  rintro (rfl | h)
  · exact this (Or.inl h1)
  · exact this (h2 _ h)

/-- C29.  No name with a colon is an NCName. -/
theorem C29_ncname_without_colon (x : Ext) {ps : List Param} {d : Datatypes} (h : datatypeNameOf x (.cname xsdUri "NCName".toList) ps = .ok d)
    {s : Str} (hs : ':' ∈ s) : (stdLib x).validD d s ≠ some true :=
  fun hv => ncname_no_colon ((C29_ncname x h s).mp hv).1 hs

/-- C31.  The two schema readers use the same characters in names, those of the XML recommendation. -/
theorem C31_same_characters (c : Char) :
    (ncNameStartChar c = true ↔ NameStart c) ∧ (xmlNcNameStartChar c = true ↔ NameStart c) ∧
    (ncNameChar c = true ↔ NameChar c) ∧ (xmlNcNameChar c = true ↔ NameChar c) := by
  have e1 : xmlNcNameStartChar c = ncNameStartChar c := rfl
  have e2 : xmlNcNameChar c = ncNameChar c := by
    unfold xmlNcNameChar ncNameChar
    rw [e1]
    split
    · rename_i h; simp [h]
    · rename_i h
      simp only [Bool.not_eq_true] at h
      simp [h]
  rw [e1, e2]
  exact ⟨ncNameStartChar_iff c, ncNameStartChar_iff c, ncNameChar_iff c, ncNameChar_iff c⟩

/-- C31.  A whole string (without surrounding white space) is a name for one reader exactly when it is for the other:
the compact one reads it to its end and the XML one accepts it. -/
theorem C31_same_names {s : Str} (ht : trim s = s) :
    ((∃ n, ncName s = some (n, [])) ↔ NCName s) ∧ (xmlNcname s = some s ↔ NCName s) ∧ ((∃ n, xmlNcname s = some n) ↔ NCName s) := by
  have h1 : (∃ n, ncName s = some (n, [])) ↔ NCName s := by
    rw [← isValidNcname_iff]
    unfold isValidNcname
    cases ncName s with
    | none => simp
    | some r => obtain ⟨a, b⟩ := r; simp
  have h2 : (xmlNcname s = some s ↔ NCName s) ∧ ((∃ n, xmlNcname s = some n) ↔ NCName s) := by
    unfold xmlNcname
    rw [ht]
    cases s with
    | nil => simp [NCName]
    | cons c cs =>
      have e : (xmlNcNameStartChar c && cs.all xmlNcNameChar) = true ↔ NameStart c ∧ ∀ d ∈ cs, NameChar d := by
        rw [Bool.and_eq_true, List.all_eq_true, (C31_same_characters c).2.1]
        exact and_congr_right fun _ => forall_congr' fun d => imp_congr_right fun _ => (C31_same_characters d).2.2.2
      have : NCName (c :: cs) ↔ NameStart c ∧ ∀ d ∈ cs, NameChar d := by
        unfold NCName
        constructor
        · rintro ⟨_, _, e, h⟩; cases e; exact h
        · exact fun h => ⟨c, cs, rfl, h⟩
      rw [this, ← e]
      simp only
      split
      · rename_i h; simp [h]
      · rename_i h; simp [h]
  exact ⟨h1, h2.1, h2.2⟩

/-- The difference that remains: the XML reader ignores white space around a name, the compact one cannot. -/
theorem C31_xml_trims : xmlNcname " a ".toList = some "a".toList ∧ ncName " a ".toList = none := by decide

example : NCName "relax-ng.1".toList := (isValidNcname_iff _).mp (by decide)

end Verif
