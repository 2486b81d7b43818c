import Verif.Proof.Decode
import Verif.Spec.Seen
/-
The decoding of character data, exactly.
-/
namespace Verif.Look

/-! ### numbers -/

theorem parseU_iff {radix max : Nat} {s : Str} {k : Nat} (hr : 1 ≤ radix) (hplus : toDigit radix '+' = none) (hk : k ≤ max) :
    parseU radix max s = some k ↔ ∃ sg ds, s = sg ++ ds ∧ (sg = [] ∨ sg = ['+']) ∧ Number radix (toDigit radix) ds k := by
  constructor
  · intro h
    unfold parseU at h
    split at h
    · cases h
    · cases h
    · rename_i cs h0
      exact ⟨['+'], cs, rfl, Or.inr rfl, number_iff.mpr ⟨fun e => h0 (by rw [e]), ((digitsGo_iff hr cs 0 k (by omega)).mp h).1⟩⟩
    · rename_i h0 _ _
      exact ⟨[], s, rfl, Or.inl rfl, number_iff.mpr ⟨fun e => h0 e, ((digitsGo_iff hr s 0 k (by omega)).mp h).1⟩⟩
  · rintro ⟨sg, ds, rfl, rfl | rfl, h⟩
    · exact parseU_number hr h hk hplus
    · have hv := (digitsGo_iff hr ds 0 k (by omega)).mpr ⟨h.val, hk⟩
      have hn := h.ne_nil
      cases ds with
      | nil => exact absurd rfl hn
      | cons d ds => exact hv

theorem numericEntity_iff {ds : Str} {c : Char} : numericEntity ds = some c ↔ CharRef ds c := by
  have e10 : toDigit 10 = decDigit := funext toDigit_dec
  have e16 : toDigit 16 = hexDigit := funext toDigit_hex
  constructor
  · intro h
    unfold numericEntity at h
    split at h
    · cases h
    · split at h
      · cases h
      · obtain ⟨k, hk, hc⟩ := Option.bind_eq_some_iff.mp h
        have hc := charFromU32_some.mp hc
        subst hc
        obtain ⟨sg, ds, rfl, h1, h2⟩ := (parseU_iff (by omega) (by decide) (char_lt c)).mp hk
        rw [e16] at h2
        exact .hex h1 h2
    · obtain ⟨k, hk, hc⟩ := Option.bind_eq_some_iff.mp h
      have hc := charFromU32_some.mp hc
      subst hc
      obtain ⟨sg, ds, rfl, h1, h2⟩ := (parseU_iff (by omega) (by decide) (char_lt c)).mp hk
      rw [e10] at h2
      exact .dec h1 h2
  · intro h
    cases h with
    | @dec sg ds _ h1 h2 =>
      rw [← e10] at h2
      have hp : parseU 10 0xFFFFFFFF (sg ++ ds) = some c.toNat := (parseU_iff (by omega) (by decide) (char_lt c)).mpr ⟨sg, ds, rfl, h1, h2⟩
      unfold numericEntity
      split
      · rename_i he; rw [he] at hp; simp [parseU] at hp
      · rename_i rest he
        exfalso
        rcases h1 with rfl | rfl
        · obtain ⟨d, hd⟩ := h2.all 'x' (by simp at he; simp [he])
          have : toDigit 10 'x' = none := by decide
          rw [this] at hd; cases hd
        · simp at he
      · rw [hp]; exact charFromU32_some.mpr rfl
    | @hex sg ds _ h1 h2 =>
      rw [← e16] at h2
      have hp : parseU 16 0xFFFFFFFF (sg ++ ds) = some c.toNat := (parseU_iff (by omega) (by decide) (char_lt c)).mpr ⟨sg, ds, rfl, h1, h2⟩
      simp only [numericEntity]
      split
      · rename_i he; rw [he] at hp; simp [parseU] at hp
      · rw [hp]; exact charFromU32_some.mpr rfl

theorem _root_.Verif.CharRef.no_semi {ds c} (h : CharRef ds c) : ';' ∉ ds := by
  cases h with
  | dec h1 h2 =>
    have := h2.no_semi (by decide)
    rcases h1 with rfl | rfl <;> simp [this]
  | hex h1 h2 =>
    have := h2.no_semi (by decide)
    rcases h1 with rfl | rfl <;> simp [this]

/-! ### inversion -/

variable {f : Str → Option Str} {len : Nat}

theorem taken_plain : ∀ {s t : Str}, '&' ∉ s → (Taken f len s t ↔ t = s)
  | [], t, _ => ⟨fun h => by cases h; rfl, fun h => by subst h; exact .nil⟩
  | c :: s, t, h => by
    simp only [List.mem_cons, not_or] at h
    constructor
    · intro ht
      cases ht with
      | char _ h2 => rw [(taken_plain h.2).mp h2]
      | bare => exact absurd rfl h.1
      | number => exact absurd rfl h.1
      | entity => exact absurd rfl h.1
      | cut => exact absurd rfl h.1
    · rintro rfl
      exact .char (fun e => h.1 e.symm) ((taken_plain h.2).mpr rfl)

theorem taken_append : ∀ {a b t : Str}, '&' ∉ a → (Taken f len (a ++ b) t ↔ ∃ t', t = a ++ t' ∧ Taken f len b t')
  | [], b, t, _ => ⟨fun h => ⟨t, rfl, h⟩, fun ⟨_, e, h⟩ => by simp at e; subst e; exact h⟩
  | c :: a, b, t, h => by
    simp only [List.mem_cons, not_or] at h
    constructor
    · intro ht
      generalize hx : c :: a ++ b = x at ht
      cases ht with
      | nil => cases hx
      | char h1 h2 =>
        simp at hx
        obtain ⟨rfl, rfl⟩ := hx
        obtain ⟨t', rfl, h3⟩ := (taken_append h.2).mp h2
        exact ⟨t', rfl, h3⟩
      | bare => simp at hx; exact absurd hx.1.symm h.1
      | number => simp at hx; exact absurd hx.1.symm h.1
      | entity => simp at hx; exact absurd hx.1.symm h.1
      | cut => simp at hx; exact absurd hx.1.symm h.1
    · rintro ⟨t', rfl, h3⟩
      exact .char (fun e => h.1 e.symm) ((taken_append h.2).mpr ⟨t', rfl, h3⟩)

theorem semi_inj {a b x y : Str} (ha : ';' ∉ a) (hb : ';' ∉ b) (h : a ++ ';' :: x = b ++ ';' :: y) : a = b ∧ x = y := by
  have h1 := splitAtChar_append (b := x) ha
  rw [h, splitAtChar_append hb] at h1
  cases h1
  exact ⟨rfl, rfl⟩

theorem taken_bare {t : Str} : Taken f len ['&'] t ↔ t = [] := by
  constructor
  · intro h
    generalize hx : ['&'] = x at h
    cases h with
    | nil => cases hx
    | char h1 => cases hx; exact absurd rfl h1
    | bare => rfl
    | number => cases hx
    | entity => simp at hx
    | cut => rfl
  · rintro rfl; exact .bare

theorem taken_unclosed {b t : Str} (hb : ';' ∉ b) (h0 : b ≠ []) : ¬ Taken f len ('&' :: b) t := by
  intro h
  generalize hx : '&' :: b = x at h
  cases h with
  | nil => cases hx
  | char h1 => cases hx; exact h1 rfl
  | bare => cases hx; exact h0 rfl
  | number => cases hx; simp at hb
  | entity => cases hx; simp at hb
  | cut => cases hx; simp at hb

theorem taken_number {ds s t : Str} (hd : ';' ∉ ds) :
    Taken f len ('&' :: '#' :: (ds ++ ';' :: s)) t ↔ ∃ c t', CharRef ds c ∧ Taken f len s t' ∧ t = c :: t' := by
  constructor
  · intro h
    generalize hx : '&' :: '#' :: (ds ++ ';' :: s) = x at h
    cases h with
    | nil => cases hx
    | char h1 => cases hx; exact absurd rfl h1
    | bare => cases hx
    | @number ds' c s' t' h1 h2 =>
      simp at hx
      obtain ⟨rfl, rfl⟩ := semi_inj hd h1.no_semi hx
      exact ⟨c, t', h1, h2, rfl⟩
    | @entity name v s' t' h1 h2 =>
      simp only [List.cons.injEq, true_and] at hx
      obtain ⟨rfl, rfl⟩ := semi_inj (a := '#' :: ds) (by simp [hd]) h2 hx
      simp at h1
    | @cut name v s' h1 h2 =>
      simp only [List.cons.injEq, true_and] at hx
      obtain ⟨rfl, rfl⟩ := semi_inj (a := '#' :: ds) (by simp [hd]) h2 hx
      simp at h1
  · rintro ⟨c, t', h1, h2, rfl⟩
    exact .number h1 h2

theorem taken_entity {name s t : Str} (h0 : name.head? ≠ some '#') (hs : ';' ∉ name) :
    Taken f len ('&' :: (name ++ ';' :: s)) t ↔
      ∃ v, f name = some v ∧ if byteLen v = len then t = [] else ∃ t', Taken f len s t' ∧ t = v ++ t' := by
  constructor
  · intro h
    generalize hx : '&' :: (name ++ ';' :: s) = x at h
    cases h with
    | nil => cases hx
    | char h1 => cases hx; exact absurd rfl h1
    | bare => simp at hx
    | @number ds' c s' t' h1 h2 =>
      simp only [List.cons.injEq, true_and] at hx
      have hd := h1.no_semi
      obtain ⟨rfl, rfl⟩ := semi_inj (b := '#' :: ds') hs (by simp [hd]) hx
      simp at h0
    | @entity name' v s' t' h1 h2 h3 h4 h5 =>
      simp only [List.cons.injEq, true_and] at hx
      obtain ⟨rfl, rfl⟩ := semi_inj hs h2 hx
      exact ⟨v, h3, by rw [if_neg h4]; exact ⟨t', h5, rfl⟩⟩
    | @cut name' v s' h1 h2 h3 h4 =>
      simp only [List.cons.injEq, true_and] at hx
      obtain ⟨rfl, rfl⟩ := semi_inj hs h2 hx
      exact ⟨v, h3, by rw [if_pos h4]⟩
  · rintro ⟨v, hv, h⟩
    split at h
    · subst h; exact .cut h0 hs hv ‹_›
    · obtain ⟨t', h1, rfl⟩ := h
      exact .entity h0 hs hv ‹_› h1

/-! ### the loop -/

theorem loop_iff {ents : List (Str × Str)} {raw : Str} : ∀ (k : Nat) {s buf r : Str}, s.length ≤ k →
    (∀ u, some (Txt.text u) ∈ entitiesGo false s → byteLen u ≠ byteLen raw) →
    (decodeLoop ents raw (entitiesGo false s) buf = .ok r ↔
      ∃ t, Taken (fun n => ents.lookup n) (byteLen raw) s t ∧ r = buf ++ t)
  | k, s, buf, r, hk, hu => by
    by_cases ha : '&' ∈ s
    · obtain ⟨⟨a, b⟩, hab⟩ : ∃ r, splitAtChar '&' s = some r := by
        cases h : splitAtChar '&' s with
        | none => exact absurd ha (splitAtChar_none.mp h)
        | some r => exact ⟨r, rfl⟩
      obtain ⟨rfl, hna⟩ := splitAtChar_some hab
      rw [entitiesGo_amp hna] at hu ⊢
      simp only [decodeLoop, if_neg (hu a (by simp))]
      have key : decodeLoop ents raw (entitiesGo true b) (buf ++ a) = .ok r ↔
          ∃ t', Taken (fun n => ents.lookup n) (byteLen raw) ('&' :: b) t' ∧ r = buf ++ a ++ t' := by
        by_cases hb0 : b = []
        · subst hb0
          rw [entitiesGo_nil]
          simp only [decodeLoop]
          constructor
          · intro h; cases h; exact ⟨[], .bare, by simp⟩
          · rintro ⟨t', h1, rfl⟩; rw [taken_bare.mp h1]; simp
        by_cases hs : ';' ∈ b
        · obtain ⟨⟨r0, rest⟩, hr⟩ : ∃ x, splitAtChar ';' b = some x := by
            cases h : splitAtChar ';' b with
            | none => exact absurd hs (splitAtChar_none.mp h)
            | some r => exact ⟨r, rfl⟩
          obtain ⟨rfl, hnr⟩ := splitAtChar_some hr
          rw [entitiesGo_semi hnr] at hu ⊢
          match k, hk with
          | 0, hk => simp at hk
          | k + 1, hk =>
          have ih : ∀ (buf' r' : Str), decodeLoop ents raw (entitiesGo false rest) buf' = .ok r' ↔
              ∃ t, Taken (fun n => ents.lookup n) (byteLen raw) rest t ∧ r' = buf' ++ t :=
            fun buf' r' => loop_iff k (by simp at hk; omega) fun u h => hu u (by simp [h])
          by_cases hh : r0.head? = some '#'
          · obtain ⟨ds, rfl⟩ : ∃ ds, r0 = '#' :: ds := by
              cases r0 with
              | nil => simp at hh
              | cons c ds => simp at hh; subst hh; exact ⟨ds, rfl⟩
            have hds : ';' ∉ ds := fun h => hnr (List.mem_cons_of_mem _ h)
            simp only [refPiece]
            cases hne : numericEntity ds with
            | none =>
              simp only [Option.map_none, decodeLoop]
              constructor
              · intro h; cases h
              · rintro ⟨t', h1, _⟩
                obtain ⟨c, _, h2, _⟩ := (taken_number hds).mp h1
                rw [numericEntity_iff.mpr h2] at hne; cases hne
            | some c =>
              simp only [Option.map_some, decodeLoop]
              rw [ih]
              have hc := numericEntity_iff.mp hne
              constructor
              · rintro ⟨t, h1, rfl⟩
                exact ⟨c :: t, (taken_number hds).mpr ⟨c, t, hc, h1, rfl⟩, by simp⟩
              · rintro ⟨t', h1, rfl⟩
                obtain ⟨c', t, h2, h3, rfl⟩ := (taken_number hds).mp h1
                rw [numericEntity_iff.mpr h2] at hne; cases hne
                exact ⟨t, h3, by simp⟩
          · rw [refPiece_entity hh]
            simp only [decodeLoop]
            cases hv : ents.lookup r0 with
            | none =>
              constructor
              · intro h; cases h
              · rintro ⟨t', h1, _⟩
                obtain ⟨v, h2, _⟩ := (taken_entity hh hnr).mp h1
                simp only [hv] at h2; cases h2
            | some v =>
              simp only
              by_cases hl : byteLen v = byteLen raw
              · rw [if_pos hl]
                constructor
                · intro h; cases h
                  exact ⟨[], (taken_entity hh hnr).mpr ⟨v, hv, by rw [if_pos hl]⟩, by simp⟩
                · rintro ⟨t', h1, rfl⟩
                  obtain ⟨v', h2, h3⟩ := (taken_entity hh hnr).mp h1
                  simp only [hv] at h2; cases h2
                  rw [if_pos hl] at h3
                  subst h3; simp
              · rw [if_neg hl, ih]
                constructor
                · rintro ⟨t, h1, rfl⟩
                  exact ⟨v ++ t, (taken_entity hh hnr).mpr ⟨v, hv, by rw [if_neg hl]; exact ⟨t, h1, rfl⟩⟩, by simp⟩
                · rintro ⟨t', h1, rfl⟩
                  obtain ⟨v', h2, h3⟩ := (taken_entity hh hnr).mp h1
                  simp only [hv] at h2; cases h2
                  rw [if_neg hl] at h3
                  obtain ⟨t, h4, rfl⟩ := h3
                  exact ⟨t, h4, by simp⟩
        · rw [entitiesGo_unclosed hs hb0]
          simp only [decodeLoop]
          constructor
          · intro h; cases h
          · rintro ⟨t', h1, _⟩; exact absurd h1 (taken_unclosed hs hb0)
      rw [key]
      constructor
      · rintro ⟨t', h1, rfl⟩; exact ⟨a ++ t', (taken_append hna).mpr ⟨t', rfl, h1⟩, by simp⟩
      · rintro ⟨t, h1, rfl⟩
        obtain ⟨t', rfl, h2⟩ := (taken_append hna).mp h1
        exact ⟨t', h2, by simp⟩
    · by_cases hs : s = []
      · subst hs
        rw [entitiesGo_nil]
        simp only [decodeLoop]
        constructor
        · intro h; cases h; exact ⟨[], .nil, by simp⟩
        · rintro ⟨t, h1, rfl⟩; rw [(taken_plain ha).mp h1]; simp
      · rw [entitiesGo_text ha hs] at hu ⊢
        simp only [decodeLoop, if_neg (hu s (by simp))]
        constructor
        · intro h; cases h; exact ⟨s, (taken_plain ha).mpr rfl, rfl⟩
        · rintro ⟨t, h1, rfl⟩; rw [(taken_plain ha).mp h1]

/-- character data is decoded as `TextSeen` says -/
theorem decodeText_iff {ents : List (Str × Str)} {f : Str → Option Str} {s t : Str} (hf : ∀ n, f n = ents.lookup n) :
    decodeText ents s = .ok t ↔ TextSeen f s t := by
  have hf' : f = fun n => ents.lookup n := funext hf
  subst hf'
  unfold decodeText parseEntities TextSeen
  by_cases ha : '&' ∈ s
  · have key := fun (r : Str) => loop_iff (ents := ents) (raw := s) s.length (s := s) (buf := []) (r := r) (Nat.le_refl _)
      (fun u hu => Nat.ne_of_lt (pieces_shorter _ _ _ _ (Nat.le_refl _) hu (Or.inr ha)))
    cases h : decodeLoop ents s (entitiesGo false s) [] with
    | error e =>
      constructor
      · intro h; cases h
      · rintro ⟨u, h1, _⟩
        have := (key u).mpr ⟨u, h1, rfl⟩
        rw [h] at this; cases this
    | ok r =>
      obtain ⟨u, h1, h2⟩ := (key r).mp h
      simp at h2; subst h2
      constructor
      · intro h; cases h; exact ⟨r, h1, rfl⟩
      · rintro ⟨u, h3, rfl⟩
        have := (key u).mpr ⟨u, h3, rfl⟩
        rw [h] at this; cases this
        rfl
  · have hl : decodeLoop ents s (entitiesGo false s) [] = .ok [] ∨ decodeLoop ents s (entitiesGo false s) [] = .ok s := by
      by_cases hs : s = []
      · subst hs; rw [entitiesGo_nil]; exact Or.inl rfl
      · rw [entitiesGo_text ha hs]
        refine Or.inl ?_
        simp only [decodeLoop, if_true]
    have hr : (if ([] : Str) = [] then s else []) = s ∧ (if s = [] then s else s) = s := by simp
    constructor
    · intro h
      refine ⟨s, (taken_plain ha).mpr rfl, ?_⟩
      rw [hr.2]
      rcases hl with hl | hl <;> rw [hl] at h <;> simp at h <;> exact h.symm
    · rintro ⟨u, h1, rfl⟩
      rw [(taken_plain ha).mp h1, hr.2]
      rcases hl with hl | hl <;> rw [hl] <;> simp

end Verif.Look
