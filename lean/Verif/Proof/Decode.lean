import Verif.Spec.Document
/-
Decoding of character data.
-/
namespace Verif

theorem byteLen_append (a b : Str) : byteLen (a ++ b) = byteLen a + byteLen b := by
  simp [byteLen]
theorem byteLen_cons (c : Char) (b : Str) : byteLen (c :: b) = c.utf8Size + byteLen b := by
  simp [byteLen]

theorem splitAtChar_some {c : Char} : ∀ {s a b : Str}, splitAtChar c s = some (a, b) →
    s = a ++ c :: b ∧ c ∉ a
  | [], a, b, h => by simp [splitAtChar] at h
  | x :: xs, a, b, h => by
    unfold splitAtChar at h
    split at h
    · rename_i hx; cases h; simp [hx]
    · rename_i hx
      split at h
      · rename_i a' b' h'
        cases h
        obtain ⟨h1, h2⟩ := splitAtChar_some h'
        subst h1
        simp only [List.cons_append, List.mem_cons, not_or]
        exact ⟨trivial, fun e => hx e.symm, h2⟩
      · cases h

theorem splitAtChar_none {c : Char} : ∀ {s : Str}, splitAtChar c s = none ↔ c ∉ s
  | [] => by simp [splitAtChar]
  | x :: xs => by
    unfold splitAtChar
    split
    · rename_i hx; simp [hx]
    · rename_i hx
      have := splitAtChar_none (c := c) (s := xs)
      split
      · rename_i a b h
        have : c ∈ xs := by
          rw [← Decidable.not_not (p := c ∈ xs), ← this, h]; simp
        simp [this]
      · rename_i h
        simp only [true_iff, List.mem_cons, not_or]
        exact ⟨fun e => hx e.symm, this.mp h⟩

theorem splitAtChar_append {c : Char} : ∀ {a b : Str}, c ∉ a → splitAtChar c (a ++ c :: b) = some (a, b)
  | [], b, _ => by simp [splitAtChar]
  | x :: a, b, h => by
    simp only [List.mem_cons, not_or] at h
    have hx : ¬ x = c := fun e => h.1 e.symm
    simp [splitAtChar, hx, splitAtChar_append (b := b) h.2]

theorem entitiesGo_nil (b : Bool) : entitiesGo b [] = [] := by unfold entitiesGo; simp

theorem entitiesGo_text {s : Str} (h : '&' ∉ s) (hs : s ≠ []) : entitiesGo false s = [some (.text s)] := by
  unfold entitiesGo
  have := splitAtChar_none.mpr h
  simp [hs]
  split
  · rfl
  · simp_all

theorem entitiesGo_amp {a b : Str} (h : '&' ∉ a) :
    entitiesGo false (a ++ '&' :: b) = some (.text a) :: entitiesGo true b := by
  rw [entitiesGo]
  have := splitAtChar_append (b := b) h
  simp
  split
  · simp_all
  · rename_i p r h'
    rw [this] at h'; cases h'; rfl

/-- the piece a reference body `a` (between `&` and `;`) becomes -/
def refPiece (a : Str) : Option Txt :=
  match a with
  | '#' :: digits => (numericEntity digits).map Txt.char
  | _ => some (Txt.entity a)

theorem refPiece_entity {a : Str} (h : a.head? ≠ some '#') : refPiece a = some (.entity a) := by
  unfold refPiece
  split
  · simp at h
  · rfl

theorem entitiesGo_semi {a b : Str} (h : ';' ∉ a) :
    entitiesGo true (a ++ ';' :: b) = refPiece a :: entitiesGo false b := by
  rw [entitiesGo]
  have := splitAtChar_append (b := b) h
  simp
  split
  · simp_all
  · rename_i p r h'
    rw [this] at h'; cases h'
    congr 1
    split
    · simp [refPiece]
    · rename_i hne
      unfold refPiece
      split
      · exact (hne _ this rfl HEq.rfl).elim
      · rfl

theorem entitiesGo_unclosed {a : Str} (h : ';' ∉ a) (hs : a ≠ []) : entitiesGo true a = [none] := by
  rw [entitiesGo]
  have := splitAtChar_none.mpr h
  simp [hs]
  split
  · rfl
  · simp_all

/-- what a piece list stands for -/
def piecesMean (ents : Str → Option Str) : List (Option Txt) → Option Str
  | [] => some []
  | none :: _ => none
  | some (.char c) :: r => (piecesMean ents r).map (c :: ·)
  | some (.text t) :: r => (piecesMean ents r).map (t ++ ·)
  | some (.entity n) :: r =>
    match ents n with
    | none => none
    | some v => (piecesMean ents r).map (v ++ ·)

/-! ### numbers -/

theorem Number.ne_nil {radix dig s n} (h : Number radix dig s n) : s ≠ [] := by
  cases h <;> simp

theorem Number.all {radix dig s n} (h : Number radix dig s n) : ∀ c ∈ s, ∃ d, dig c = some d := by
  induction h with
  | one h => intro c hc; simp at hc; subst hc; exact ⟨_, h⟩
  | snoc _ h ih =>
    intro c hc
    rcases List.mem_append.mp hc with hc | hc
    · exact ih c hc
    · simp at hc; subst hc; exact ⟨_, h⟩

/-- value of a digit string, left to right -/
def digitVal (radix : Nat) (dig : Char → Option Nat) : Str → Nat → Option Nat
  | [], acc => some acc
  | c :: cs, acc =>
    match dig c with
    | none => none
    | some d => digitVal radix dig cs (acc * radix + d)

theorem digitVal_append {radix dig} : ∀ (a b : Str) (acc : Nat),
    digitVal radix dig (a ++ b) acc = (digitVal radix dig a acc).bind (digitVal radix dig b)
  | [], b, acc => by simp [digitVal]
  | c :: a, b, acc => by
    simp only [List.cons_append, digitVal]
    cases dig c with
    | none => rfl
    | some d => simp [digitVal_append a b]

theorem Number.val {radix dig s n} (h : Number radix dig s n) : digitVal radix dig s 0 = some n := by
  induction h with
  | one h => simp [digitVal, h]
  | snoc _ h ih => simp [digitVal_append, ih, digitVal, h]

theorem number_acc {radix dig} {s0 : Str} {n0 : Nat} (h0 : Number radix dig s0 n0) :
    ∀ {s n}, digitVal radix dig s n0 = some n → Number radix dig (s0 ++ s) n := by
  intro s
  induction s generalizing s0 n0 with
  | nil => intro n h; simp [digitVal] at h; subst h; simpa using h0
  | cons c s ih =>
    intro n h
    simp only [digitVal] at h
    split at h
    · cases h
    · rename_i d hd
      have := ih (.snoc h0 hd) h
      simpa using this

theorem number_iff {radix dig s n} : Number radix dig s n ↔ s ≠ [] ∧ digitVal radix dig s 0 = some n := by
  constructor
  · exact fun h => ⟨h.ne_nil, h.val⟩
  · rintro ⟨hs, h⟩
    match s, hs with
    | c :: s, _ =>
      simp only [digitVal] at h
      split at h
      · cases h
      · rename_i d hd
        simp only [Nat.zero_mul, Nat.zero_add] at h
        exact number_acc (.one hd) h

theorem toDigit_dec (c : Char) : toDigit 10 c = decDigit c := by
  unfold toDigit decDigit
  simp only [Char.le_def, UInt32.le_iff_toNat_le]
  have e0 : ('0' : Char).val.toNat = 48 := rfl
  have e9 : ('9' : Char).val.toNat = 57 := rfl
  have ec : c.toNat = c.val.toNat := rfl
  rw [e0, e9, ec]
  generalize c.val.toNat = n
  by_cases h : 48 ≤ n ∧ n ≤ 57
  · simp only [h, and_self, if_true]
    rw [if_pos (by omega)]
  · rw [if_neg h, if_neg h]
    by_cases h1 : 97 ≤ n ∧ n ≤ 122
    · rw [if_pos h1]; simp only; rw [if_neg (by omega)]
    · rw [if_neg h1]
      by_cases h2 : 65 ≤ n ∧ n ≤ 90
      · rw [if_pos h2]; simp only; rw [if_neg (by omega)]
      · rw [if_neg h2]

theorem toDigit_hex (c : Char) : toDigit 16 c = hexDigit c := by
  unfold toDigit hexDigit
  simp only [Char.le_def, UInt32.le_iff_toNat_le]
  have e0 : ('0' : Char).val.toNat = 48 := rfl
  have e9 : ('9' : Char).val.toNat = 57 := rfl
  have ea : ('a' : Char).val.toNat = 97 := rfl
  have ef : ('f' : Char).val.toNat = 102 := rfl
  have eA : ('A' : Char).val.toNat = 65 := rfl
  have eF : ('F' : Char).val.toNat = 70 := rfl
  have ec : c.toNat = c.val.toNat := rfl
  rw [e0, e9, ec, ea, ef, eA, eF]
  generalize c.val.toNat = n
  by_cases h : 48 ≤ n ∧ n ≤ 57
  · simp only [h, and_self, if_true]
    rw [if_pos (by omega)]
  · rw [if_neg h, if_neg h]
    by_cases h1 : 97 ≤ n ∧ n ≤ 122
    · rw [if_pos h1]; simp only
      by_cases h3 : 97 ≤ n ∧ n ≤ 102
      · rw [if_pos (by omega), if_pos h3]; congr 1; omega
      · rw [if_neg (by omega), if_neg h3, if_neg (by omega)]
    · rw [if_neg h1, if_neg (by omega : ¬ (97 ≤ n ∧ n ≤ 102))]
      by_cases h2 : 65 ≤ n ∧ n ≤ 90
      · rw [if_pos h2]; simp only
        by_cases h3 : 65 ≤ n ∧ n ≤ 70
        · rw [if_pos (by omega), if_pos h3]; congr 1; omega
        · rw [if_neg (by omega), if_neg h3]
      · rw [if_neg h2, if_neg (by omega)]

/-- the overflow check does not change the value of numbers that fit -/
theorem digitsGo_iff {radix max : Nat} (hr : 1 ≤ radix) : ∀ (s : Str) (acc n : Nat), acc ≤ max →
    (digitsGo radix max s acc = some n ↔ digitVal radix (toDigit radix) s acc = some n ∧ n ≤ max)
  | [], acc, n, h => by
    simp only [digitsGo, digitVal, Option.some.injEq]
    constructor
    · rintro rfl; exact ⟨rfl, h⟩
    · exact fun h => h.1
  | c :: s, acc, n, h => by
    simp only [digitsGo, digitVal]
    cases hd : toDigit radix c with
    | none => simp
    | some d =>
      simp only
      by_cases hm : acc * radix + d > max
      · simp only [hm, if_true]
        constructor
        · intro h; cases h
        · rintro ⟨h1, h2⟩
          have := digitVal_ge hr s _ _ h1
          omega
      · rw [if_neg hm]
        exact digitsGo_iff hr s _ n (by omega)
where
  digitVal_ge {radix : Nat} (hr : 1 ≤ radix) : ∀ (s : Str) (acc n : Nat),
      digitVal radix (toDigit radix) s acc = some n → acc ≤ n
  | [], acc, n, h => by simp [digitVal] at h; omega
  | c :: s, acc, n, h => by
    simp only [digitVal] at h
    split at h
    · cases h
    · have := digitVal_ge hr s _ _ h
      have : acc ≤ acc * radix := Nat.le_mul_of_pos_right _ hr
      omega

theorem parseU_number {radix max s n} (hr : 1 ≤ radix) (h : Number radix (toDigit radix) s n) (hn : n ≤ max)
    (hplus : toDigit radix '+' = none) : parseU radix max s = some n := by
  have hs := h.ne_nil
  have hv := (digitsGo_iff hr s 0 n (by omega)).mpr ⟨h.val, hn⟩
  unfold parseU
  split
  · exact absurd rfl hs
  · have := h.all '+' (by simp)
    rw [hplus] at this; obtain ⟨d, h⟩ := this; cases h
  · have := h.all '+' (by simp)
    rw [hplus] at this; obtain ⟨d, h⟩ := this; cases h
  · exact hv

theorem charFromU32_some {n : Nat} {c : Char} : charFromU32 n = some c ↔ c.toNat = n := by
  unfold charFromU32
  constructor
  · intro h
    split at h
    · rename_i hv
      cases h
      simp only [Char.ofNatAux, Char.toNat]
      simp
    · cases h
  · rintro rfl
    have hv : c.toNat.isValidChar := c.valid
    simp only [hv, dite_true]
    congr 1

theorem char_lt (c : Char) : c.toNat ≤ 0xFFFFFFFF := by
  have : c.toNat.isValidChar := c.valid
  simp [Nat.isValidChar] at this
  omega

theorem numericEntity_dec {ds n} {c : Char} (h : Number 10 decDigit ds n) (hc : c.toNat = n) :
    numericEntity ds = some c := by
  have h' : Number 10 (toDigit 10) ds n := by
    have : toDigit 10 = decDigit := funext toDigit_dec
    rw [this]; exact h
  have hp := parseU_number (max := 0xFFFFFFFF) (by omega) h' (hc ▸ char_lt c) (by decide)
  unfold numericEntity
  split
  · exact absurd rfl h.ne_nil
  · have := h'.all 'x' (by simp)
    obtain ⟨d, hd⟩ := this
    have : toDigit 10 'x' = none := by decide
    rw [this] at hd; cases hd
  · rw [hp]; simp [charFromU32_some, hc]

theorem numericEntity_hex {ds n} {c : Char} (h : Number 16 hexDigit ds n) (hc : c.toNat = n) :
    numericEntity ('x' :: ds) = some c := by
  have h' : Number 16 (toDigit 16) ds n := by
    have : toDigit 16 = hexDigit := funext toDigit_hex
    rw [this]; exact h
  have hp := parseU_number (max := 0xFFFFFFFF) (by omega) h' (hc ▸ char_lt c) (by decide)
  unfold numericEntity
  split
  · simp_all
  · rename_i rest heq
    cases heq
    split
    · exact absurd rfl h.ne_nil
    · rw [hp]; simp [charFromU32_some, hc]
  · rename_i h1 h2
    exact absurd rfl (h2 ds)

theorem Number.no_semi {radix dig s n} (h : Number radix dig s n) (hd : dig ';' = none) : ';' ∉ s :=
  fun hm => by
    obtain ⟨d, h⟩ := h.all _ hm
    rw [hd] at h; cases h

theorem RefMeans.no_semi {ents r v} (h : RefMeans ents r v) : ';' ∉ r := by
  cases h with
  | entity _ h _ => exact h
  | dec h _ => simp only [List.mem_cons, not_or]; exact ⟨by decide, h.no_semi (by decide)⟩
  | hex h _ => simp only [List.mem_cons, not_or]; exact ⟨by decide, by decide, h.no_semi (by decide)⟩

/-! ### from the specification to the code -/

theorem Decodes.pieces {ents s t} (h : Decodes ents s t) :
    piecesMean ents (entitiesGo false s) = some t := by
  induction h with
  | nil => simp [entitiesGo_nil, piecesMean]
  | @char c s t hc _ ih =>
    by_cases ha : '&' ∈ s
    · obtain ⟨⟨a, b⟩, hab⟩ : ∃ r, splitAtChar '&' s = some r := by
        cases h : splitAtChar '&' s with
        | none => exact absurd ha (splitAtChar_none.mp h)
        | some r => exact ⟨r, rfl⟩
      obtain ⟨rfl, hna⟩ := splitAtChar_some hab
      rw [entitiesGo_amp hna] at ih
      have hna' : '&' ∉ c :: a := by simp only [List.mem_cons, not_or]; exact ⟨fun e => hc e.symm, hna⟩
      have := entitiesGo_amp (b := b) hna'
      simp only [List.cons_append] at this
      rw [this]
      simp only [piecesMean] at ih ⊢
      cases hp : piecesMean ents (entitiesGo true b) with
      | none => rw [hp] at ih; simp at ih
      | some x => rw [hp] at ih; simp at ih; subst ih; simp
    · have ha' : '&' ∉ c :: s := by simp only [List.mem_cons, not_or]; exact ⟨fun e => hc e.symm, ha⟩
      rw [entitiesGo_text ha' (by simp)]
      by_cases hs : s = []
      · subst hs; simp [entitiesGo_nil, piecesMean] at ih; subst ih; simp [piecesMean]
      · rw [entitiesGo_text ha hs] at ih
        simp [piecesMean] at ih ⊢
        exact ih
  | @ref r v s t hr _ ih =>
    have := entitiesGo_amp (a := []) (b := r ++ ';' :: s) (by simp)
    simp only [List.nil_append] at this
    rw [this, entitiesGo_semi hr.no_semi]
    cases hr with
    | entity h1 h2 h3 =>
      rw [refPiece_entity h1]
      simp [piecesMean, h3, ih]
    | dec h1 h2 => simp [refPiece, piecesMean, numericEntity_dec h1 h2, ih]
    | hex h1 h2 => simp [refPiece, piecesMean, numericEntity_hex h1 h2, ih]

/-- text pieces are shorter than text containing a reference -/
theorem pieces_shorter : ∀ (n : Nat) (b : Bool) (s u : Str), s.length ≤ n →
    some (Txt.text u) ∈ entitiesGo b s → (b = true ∨ '&' ∈ s) → byteLen u < byteLen s := by
  intro n
  induction n with
  | zero =>
    intro b s u hn hm _
    have : s = [] := List.length_eq_zero_iff.mp (by omega)
    subst this; simp [entitiesGo_nil] at hm
  | succ n ih =>
    intro b s u hn hm hb
    have amp : ('&' : Char).utf8Size = 1 := by decide
    have semi : (';' : Char).utf8Size = 1 := by decide
    cases b with
    | true =>
      by_cases hs : ';' ∈ s
      · obtain ⟨⟨a, b⟩, hab⟩ : ∃ r, splitAtChar ';' s = some r := by
          cases h : splitAtChar ';' s with
          | none => exact absurd hs (splitAtChar_none.mp h)
          | some r => exact ⟨r, rfl⟩
        obtain ⟨rfl, hna⟩ := splitAtChar_some hab
        rw [entitiesGo_semi hna] at hm
        rw [byteLen_append, byteLen_cons, semi]
        rcases List.mem_cons.mp hm with hm | hm
        · exfalso
          unfold refPiece at hm
          split at hm
          · cases hne : numericEntity ‹_› <;> rw [hne] at hm <;> simp at hm
          · simp at hm
        · simp at hn
          have hle : byteLen u ≤ byteLen b := by
            by_cases hb : '&' ∈ b
            · exact Nat.le_of_lt (ih false b u (by omega) hm (Or.inr hb))
            · by_cases hb0 : b = []
              · subst hb0; simp [entitiesGo_nil] at hm
              · rw [entitiesGo_text hb hb0] at hm; simp at hm; subst hm; exact Nat.le_refl _
          omega
      · by_cases hs0 : s = []
        · subst hs0; simp [entitiesGo_nil] at hm
        · rw [entitiesGo_unclosed hs hs0] at hm; simp at hm
    | false =>
      have ha : '&' ∈ s := by simpa using hb
      obtain ⟨⟨a, b⟩, hab⟩ : ∃ r, splitAtChar '&' s = some r := by
        cases h : splitAtChar '&' s with
        | none => exact absurd ha (splitAtChar_none.mp h)
        | some r => exact ⟨r, rfl⟩
      obtain ⟨rfl, hna⟩ := splitAtChar_some hab
      rw [entitiesGo_amp hna] at hm
      rw [byteLen_append, byteLen_cons, amp]
      rcases List.mem_cons.mp hm with hm | hm
      · simp at hm; subst hm; omega
      · simp at hn
        have := ih true b u (by omega) hm (Or.inl rfl)
        omega

theorem decodeLoop_ok {ents : List (Str × Str)} {raw : Str} : ∀ (ps : List (Option Txt)) (buf t : Str),
    (∀ u, some (Txt.text u) ∈ ps → byteLen u ≠ byteLen raw) →
    (∀ name v, some (Txt.entity name) ∈ ps → ents.lookup name = some v → byteLen v ≠ byteLen raw) →
    piecesMean (fun n => ents.lookup n) ps = some t → decodeLoop ents raw ps buf = .ok (buf ++ t)
  | [], buf, t, _, _, h => by simp [piecesMean] at h; subst h; simp [decodeLoop]
  | none :: _, buf, t, _, _, h => by simp [piecesMean] at h
  | some (.char c) :: ps, buf, t, h1, h2, h => by
    simp only [piecesMean, Option.map_eq_some_iff] at h
    obtain ⟨x, hx, rfl⟩ := h
    simp only [decodeLoop]
    rw [decodeLoop_ok ps (buf ++ [c]) x (fun u hu => h1 u (by simp [hu]))
      (fun n v hn => h2 n v (by simp [hn])) hx]
    simp
  | some (.text u) :: ps, buf, t, h1, h2, h => by
    simp only [piecesMean, Option.map_eq_some_iff] at h
    obtain ⟨x, hx, rfl⟩ := h
    simp only [decodeLoop]
    rw [if_neg (h1 u (by simp)), decodeLoop_ok ps (buf ++ u) x (fun u hu => h1 u (by simp [hu]))
      (fun n v hn => h2 n v (by simp [hn])) hx]
    simp
  | some (.entity name) :: ps, buf, t, h1, h2, h => by
    simp only [piecesMean] at h
    split at h
    · cases h
    · rename_i v hv
      simp only [Option.map_eq_some_iff] at h
      obtain ⟨x, hx, rfl⟩ := h
      simp only [decodeLoop, hv]
      rw [if_neg (h2 name v (by simp) hv), decodeLoop_ok ps (buf ++ v) x
        (fun u hu => h1 u (by simp [hu])) (fun n v hn => h2 n v (by simp [hn])) hx]
      simp

/-- the code decodes character data correctly when `TextOK` -/
theorem decodeText_ok {ents : List (Str × Str)} {f : Str → Option Str} {s t : Str}
    (hf : ∀ n, f n = ents.lookup n) (hok : TextOK f s) (h : Decodes f s t) : decodeText ents s = .ok t := by
  have hp := h.pieces
  have hf' : f = fun n => ents.lookup n := funext hf
  unfold decodeText parseEntities
  by_cases ha : '&' ∈ s
  · rcases hok with h' | ⟨h1, h2⟩
    · exact absurd ha h'
    · rw [decodeLoop_ok _ [] t (fun u hu => Nat.ne_of_lt (pieces_shorter _ _ _ _ (Nat.le_refl _) hu (Or.inr ha)))
        (fun n v _ hv => h1 n v (by rw [hf]; exact hv)) (hf' ▸ hp)]
      have := h2 t h
      simp [this]
  · by_cases hs : s = []
    · subst hs
      simp [entitiesGo_nil, piecesMean] at hp
      simp [entitiesGo_nil, decodeLoop, hp]
    · rw [entitiesGo_text ha hs] at hp ⊢
      simp [piecesMean] at hp
      subst hp
      simp [decodeLoop]

/-- data without `&` stands for itself -/
theorem Decodes.plain {ents s t} (h : Decodes ents s t) : '&' ∉ s → t = s := by
  induction h with
  | nil => intro _; rfl
  | char _ _ ih => intro h; simp only [List.mem_cons, not_or] at h; rw [ih h.2]
  | ref _ _ _ => intro h; simp at h

end Verif
