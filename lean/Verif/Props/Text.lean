import Verif.Props.Store
import Verif.Spec.Xml
/-
C16-C19: references in text, and CDATA.
-/
namespace Verif
open Ex (plainDec)
variable {D V : Type} [DecidableEq D] [DecidableEq V] {L : Lib D V} {n : Nat} {s : VState D V}

/-- a text token does what the CDATA token with the decoded text does -/
theorem text_as_cdata {raw t : Str} (h : decodeText s.entities raw = .ok t) :
    outcome (validate L n (.text raw) s) = outcome (validate L n (.cdata t) s) := by
  cases hp : s.store.pats[s.cur]? with
  | none =>
    have key : ∀ t, validate L n t s = .error .oob := by
      intro t
      refine (ST.bind_of_ok (a := s) (s' := s) rfl).trans (ST.bind_of_error ?_)
      simp only [liftS, patt, hp]
    rw [key, key]
  | some p =>
    have h1 : liftS (patt s.cur) s = .ok (p, s) := by simp only [liftS, patt, hp]
    have e1 : validate L n (.text raw) s = _ := (ST.bind_of_ok (a := s) (s' := s) rfl).trans (ST.bind_of_ok h1)
    have e2 : validate L n (.cdata t) s = _ := (ST.bind_of_ok (a := s) (s' := s) rfl).trans (ST.bind_of_ok h1)
    rw [e1, e2]
    dsimp only
    rw [h]
    dsimp only
    cases hx : liftS (textDeriv L n p t) s with
    | error e => rw [ST.bind_of_error hx, ST.bind_of_error hx]
    | ok r =>
      obtain ⟨i, s1⟩ := r
      rw [ST.bind_of_ok hx, ST.bind_of_ok hx]
      cases hq : s1.store.pats[i]? with
      | none =>
        have e3 : liftS (patt i) s1 = .error .oob := by simp only [liftS, patt, hq]
        rw [ST.bind_of_error e3]
        simp only [finish, ST.get, ST.set, liftS, patt, bind, ST.bind, hq]
      | some q =>
        have e3 : liftS (patt i) s1 = .ok (q, s1) := by simp only [liftS, patt, hq]
        rw [ST.bind_of_ok e3]
        by_cases hn : q.isNotAllowed = true
        · rw [if_pos hn]
          simp only [finish, ST.get, ST.set, liftS, patt, bind, ST.bind, hq, if_pos hn]
          rfl
        · rw [if_neg hn]
          exact finish_outcome rfl

/-- a text token that does not decode is an error and changes nothing -/
theorem text_undecodable {raw : Str} {e : VErr} {p} (hp : s.store.pats[s.cur]? = some p)
    (h : decodeText s.entities raw = .error e) : validate L n (.text raw) s = .ok (.error e, s) := by
  have h1 : liftS (patt s.cur) s = .ok (p, s) := by simp only [liftS, patt, hp]
  have e1 : validate L n (.text raw) s = _ := (ST.bind_of_ok (a := s) (s' := s) rfl).trans (ST.bind_of_ok h1)
  rw [e1]
  dsimp only
  rw [h]
  rfl

/-- entities after a history without entity declarations -/
theorem runEvents_entities : ∀ {es : List Event} {s s' : VState D V} {rs}, runEvents L n es s = .ok (rs, s') →
    (∀ nm v, some (Token.entityDeclaration nm (.entityValue v)) ∉ es) → s'.entities = s.entities
  | [], s, s', rs, h, _ => by cases h; rfl
  | e :: es, s, s', rs, h, hd => by
    simp only [runEvents, ST.bind_ok] at h
    obtain ⟨r, s1, h1, rs', s2, h2, h⟩ := h
    cases h
    rw [runEvents_entities h2 (fun nm v hm => hd nm v (by simp [hm]))]
    cases e with
    | none => cases h1; rfl
    | some t =>
      refine (validate_step L (t := t) h1).ents ?_
      rintro nm v rfl
      exact hd nm v (by simp)

theorem Decodes.ne_nil {f : Str → Option Str} (hf : ∀ nm v, f nm = some v → v ≠ []) {s t : Str} (h : Decodes f s t) :
    s ≠ [] → t ≠ [] := by
  cases h with
  | nil => exact id
  | char _ _ => simp
  | ref hr _ =>
    intro _
    cases hr with
    | entity _ _ h => simp [hf _ _ h]
    | dec _ _ => simp
    | hex _ _ => simp

theorem predefined_lookup (nm : Str) : (predefined.lookup nm) = xmlEntities.lookup nm :=
  lookup_perm predefined_perm (by decide) nm

theorem xmlEntities_value {nm v : Str} (h : xmlEntities.lookup nm = some v) : byteLen v = 1 ∧ v ≠ [] := by
  have := lookup_mem h
  have key : ∀ d ∈ xmlEntities, byteLen d.2 = 1 ∧ d.2 ≠ [] := by decide
  exact key _ this

theorem Decodes.long {f : Str → Option Str} {s t : Str} (h : Decodes f s t) : '&' ∈ s → 2 ≤ byteLen s := by
  have amp : ('&' : Char).utf8Size = 1 := by decide
  have semi : (';' : Char).utf8Size = 1 := by decide
  induction h with
  | nil => intro h; simp at h
  | @char c s t hc _ ih =>
    intro h
    rcases List.mem_cons.mp h with h | h
    · exact absurd h.symm hc
    · rw [byteLen_cons]; have := ih h; omega
  | ref _ _ => intro _; rw [byteLen_cons, byteLen_append, byteLen_cons]; omega

/-- with the predefined entities decoding is always right -/
theorem xmlEntities_textOK {s t : Str} (h : Decodes (valueIn xmlEntities) s t) : TextOK (valueIn xmlEntities) s := by
  by_cases ha : '&' ∈ s
  · refine Or.inr ⟨fun nm v hv => ?_, fun t' h' => h'.ne_nil (fun nm v hv => (xmlEntities_value hv).2) ?_⟩
    · have := (xmlEntities_value hv).1
      have := h.long ha
      omega
    · rintro rfl; simp at ha
  · exact Or.inl ha

/-! ### C16 -/

/-- C16.  After any history without entity declarations, a text token is validated exactly as the text
in which every predefined entity and character reference is replaced by what it denotes. -/
theorem C16_references_replaced {env : Env D V} {fuel : Nat} {start : Pattern D V} {s0 : VState D V} {es : List Event}
    {rs m} (hnew : newValidator env fuel start = .ok s0) (hr : runEvents L m es s0 = .ok (rs, s))
    (hd : ∀ nm v, some (Token.entityDeclaration nm (.entityValue v)) ∉ es) {raw t : Str}
    (h : Decodes (valueIn xmlEntities) raw t) :
    outcome (validate L n (.text raw) s) = outcome (validate L n (.cdata t) s) := by
  refine text_as_cdata ?_
  rw [runEvents_entities hr hd, (newValidator_last hnew).2.2]
  exact decodeText_ok (fun nm => (predefined_lookup nm).symm) (xmlEntities_textOK h) h

/-- C16, declared entities: in any state, text whose decoding the code gets right (`TextOK`) is
validated as the replaced text. -/
theorem C16_declared_entities_partial {raw t : Str} (hok : TextOK (valueIn s.entities) raw)
    (h : Decodes (valueIn s.entities) raw t) :
    outcome (validate L n (.text raw) s) = outcome (validate L n (.cdata t) s) :=
  text_as_cdata (decodeText_ok (fun _ => rfl) hok h)

/-- Why `TextOK` is needed: text consisting of one reference to an entity whose value has as many
bytes as the reference is validated as written, not as replaced. -/
theorem C16_same_length_entity_not_replaced {nm v : Str} (h1 : nm.head? ≠ some '#') (h2 : ';' ∉ nm)
    (h3 : s.entities.lookup nm = some v) (h4 : byteLen v = byteLen nm + 2) :
    Decodes (valueIn s.entities) ('&' :: (nm ++ [';'])) v ∧
    outcome (validate L n (.text ('&' :: (nm ++ [';']))) s) = outcome (validate L n (.cdata ('&' :: (nm ++ [';']))) s) := by
  constructor
  · have := Decodes.ref (RefMeans.entity (ents := valueIn s.entities) h1 h2 h3) .nil
    simpa using this
  · refine text_as_cdata ?_
    unfold decodeText parseEntities
    have e1 := entitiesGo_amp (a := []) (b := nm ++ [';']) (by simp)
    simp only [List.nil_append] at e1
    rw [e1, entitiesGo_semi (b := []) h2, refPiece_entity h1, entitiesGo_nil]
    have amp : ('&' : Char).utf8Size = 1 := by decide
    have semi : (';' : Char).utf8Size = 1 := by decide
    have hlen : byteLen ('&' :: (nm ++ [';'])) = byteLen nm + 2 := by
      rw [byteLen_cons, byteLen_append, byteLen_cons, amp, semi]; simp [byteLen]; omega
    simp only [decodeLoop]
    rw [if_neg (by rw [hlen]; simp [byteLen])]
    simp only [h3]
    rw [if_pos (by rw [hlen, h4])]
    simp

/-- `x&lt;&#65;&#x42;y` in the initial state of the example -/
example : outcome (validate Ex.lib 20 (.text "x&lt;&#65;&#x42;y".toList) Ex.v0) =
    outcome (validate Ex.lib 20 (.cdata "x<ABy".toList) Ex.v0) := by
  refine C16_references_replaced (es := []) (m := 0) (rs := []) Ex.new_ok rfl nofun ?_
  refine .char (by decide) (.ref (r := "lt".toList) (v := ['<']) (.entity (by decide) (by decide) (by decide)) ?_)
  refine .ref (r := "#65".toList) (v := ['A']) (.dec (ds := "65".toList) (number_iff.mpr (by decide)) rfl) ?_
  refine .ref (r := "#x42".toList) (v := ['B']) (.hex (ds := "42".toList) (number_iff.mpr (by decide)) rfl) ?_
  exact .char (by decide) .nil

/-! ### C18 -/

theorem parseU_some {radix max : Nat} {s : Str} {k : Nat} (hr : 1 ≤ radix) (h : parseU radix max s = some k)
    (hplus : s.head? ≠ some '+') : Number radix (toDigit radix) s k := by
  rw [number_iff]
  unfold parseU at h
  split at h
  · cases h
  · simp at hplus
  · simp at hplus
  · rename_i h0 _ _
    exact ⟨fun e => h0 e, ((digitsGo_iff hr s 0 k (by omega)).mp h).1⟩

/-- a character reference that decodes is a number written in digits, the number of the character -/
theorem numericEntity_some {ds : Str} {c : Char} (h : numericEntity ds = some c) (h1 : ds.head? ≠ some '+')
    (h2 : ∀ r, ds = 'x' :: r → r.head? ≠ some '+') :
    Number 10 decDigit ds c.toNat ∨ ∃ r, ds = 'x' :: r ∧ Number 16 hexDigit r c.toNat := by
  have e10 : toDigit 10 = decDigit := funext toDigit_dec
  have e16 : toDigit 16 = hexDigit := funext toDigit_hex
  unfold numericEntity at h
  split at h
  · cases h
  · rename_i r
    refine Or.inr ⟨r, rfl, ?_⟩
    split at h
    · cases h
    · obtain ⟨k, hk, hc⟩ := Option.bind_eq_some_iff.mp h
      rw [charFromU32_some.mp hc, ← e16]
      exact parseU_some (by omega) hk (h2 r rfl)
  · obtain ⟨k, hk, hc⟩ := Option.bind_eq_some_iff.mp h
    rw [charFromU32_some.mp hc, ← e10]
    exact Or.inl (parseU_some (by omega) hk h1)

theorem decodeText_ref {ents : List (Str × Str)} {ds : Str} (h : ';' ∉ ds) :
    decodeText ents ('&' :: '#' :: (ds ++ [';'])) = match numericEntity ds with
      | some c => .ok [c]
      | none => .error .invalidOrUnclosedEntity := by
  unfold decodeText parseEntities
  have e1 := entitiesGo_amp (a := []) (b := '#' :: ds ++ [';']) (by simp)
  simp only [List.nil_append, List.cons_append] at e1
  have e2 := entitiesGo_semi (a := '#' :: ds) (b := []) (by simpa using h)
  simp only [List.cons_append] at e2
  have hlen : byteLen ([] : Str) ≠ byteLen ('&' :: '#' :: (ds ++ [';'])) := by
    have amp : ('&' : Char).utf8Size = 1 := by decide
    rw [byteLen_cons, amp]; simp only [byteLen, List.map_nil, List.sum_nil]; omega
  rw [e1, e2, entitiesGo_nil]
  simp only [decodeLoop, if_neg hlen, refPiece]
  cases numericEntity ds with
  | none => rfl
  | some c => simp [decodeLoop]

/-- C18.  `&#ds;` with digits `ds` stands for the character of that number. -/
theorem C18_decimal {ds : Str} {c : Char} (h : Number 10 decDigit ds c.toNat) :
    outcome (validate L n (.text ('&' :: '#' :: (ds ++ [';']))) s) = outcome (validate L n (.cdata [c]) s) :=
  text_as_cdata (by rw [decodeText_ref (h.no_semi (by decide)), numericEntity_dec h rfl])

/-- C18.  `&#xds;` with hexadecimal digits `ds` stands for the character of that number. -/
theorem C18_hexadecimal {ds : Str} {c : Char} (h : Number 16 hexDigit ds c.toNat) :
    outcome (validate L n (.text ('&' :: '#' :: 'x' :: (ds ++ [';']))) s) = outcome (validate L n (.cdata [c]) s) := by
  refine text_as_cdata ?_
  have := decodeText_ref (ents := s.entities) (ds := 'x' :: ds) (by simp; exact h.no_semi (by decide))
  simp only [List.cons_append] at this
  rw [this, numericEntity_hex h rfl]

/-- C18.  Any other character reference without a plus sign is an error and leaves the state as it
was (in every reachable state). -/
theorem C18_others_are_errors {ds : Str} (hs : Reach L s) (hsemi : ';' ∉ ds) (hplus : ds.head? ≠ some '+')
    (hxplus : ∀ r, ds = 'x' :: r → r.head? ≠ some '+')
    (hd : ∀ c : Char, ¬ Number 10 decDigit ds c.toNat)
    (hx : ∀ (c : Char) r, ds = 'x' :: r → ¬ Number 16 hexDigit r c.toNat) :
    validate L n (.text ('&' :: '#' :: (ds ++ [';']))) s = .ok (.error .invalidOrUnclosedEntity, s) := by
  obtain ⟨p, hp⟩ := hs.cur
  refine text_undecodable hp ?_
  rw [decodeText_ref hsemi]
  cases h : numericEntity ds with
  | none => rfl
  | some c =>
    rcases numericEntity_some h hplus hxplus with h | ⟨r, hr, h⟩
    · exact absurd h (hd c)
    · exact absurd h (hx c r hr)

/-- every scalar value has a decimal numeral, so C18 is about all of them -/
theorem C18_numerals_exist (k : Nat) : ∃ ds, Number 10 decDigit ds k := by
  induction k using Nat.strongRecOn with
  | _ k ih =>
    have dig : ∀ d, d < 10 → ∃ c, decDigit c = some d := by
      intro d hd
      refine ⟨Char.ofNat (48 + d), ?_⟩
      have : d = 0 ∨ d = 1 ∨ d = 2 ∨ d = 3 ∨ d = 4 ∨ d = 5 ∨ d = 6 ∨ d = 7 ∨ d = 8 ∨ d = 9 := by omega
      rcases this with rfl | rfl | rfl | rfl | rfl | rfl | rfl | rfl | rfl | rfl <;> rfl
    by_cases h : k < 10
    · obtain ⟨c, hc⟩ := dig k h
      exact ⟨[c], .one hc⟩
    · obtain ⟨ds, hds⟩ := ih (k / 10) (by omega)
      obtain ⟨c, hc⟩ := dig (k % 10) (by omega)
      refine ⟨ds ++ [c], ?_⟩
      have := Number.snoc hds hc
      rwa [show k / 10 * 10 + k % 10 = k by omega] at this

/-- The one form of number accepted beyond C18: `&#+65;` is read as `A`. -/
theorem C18_plus_sign_accepted :
    outcome (validate L n (.text "&#+65;".toList) s) = outcome (validate L n (.cdata ['A']) s) := by
  refine text_as_cdata ?_
  have := decodeText_ref (ents := s.entities) (ds := "+65".toList) (by decide)
  have e : numericEntity "+65".toList = some 'A' := by decide
  rw [e] at this
  exact this

/-- examples: a surrogate, an overflowing number, a bad digit and an empty number are errors -/
example : ∀ ds ∈ ["xD800".toList, "99999999999".toList, "6a".toList, "".toList, "x".toList, "x110000".toList],
    validate Ex.lib 20 (.text ('&' :: '#' :: (ds ++ [';']))) Ex.v0 = .ok (.error .invalidOrUnclosedEntity, Ex.v0) := by
  intro ds hds
  obtain ⟨p, hp⟩ := Reach.cur (L := Ex.lib) (.new Ex.new_ok)
  refine text_undecodable hp ?_
  have key : ∀ ds ∈ ["xD800".toList, "99999999999".toList, "6a".toList, "".toList, "x".toList, "x110000".toList],
    ';' ∉ ds ∧ numericEntity ds = none := by decide
  rw [decodeText_ref (key ds hds).1, (key ds hds).2]

/-! ### C17 -/

theorem hasPlus_sub {s : Str} {a b : Str} (h : HasPlus s) : HasPlus (a ++ s ++ b) := by
  rcases h with ⟨x, y, rfl⟩ | ⟨x, y, rfl⟩
  · exact Or.inl ⟨a ++ x, y ++ b, by simp⟩
  · exact Or.inr ⟨a ++ x, y ++ b, by simp⟩

/-- what the code takes to be well-formed is, plus signs and a final `&` aside -/
theorem pieces_decodes {f : Str → Option Str} : ∀ (k : Nat) {s t : Str}, s.length ≤ k →
    piecesMean f (entitiesGo false s) = some t → ¬ EndsBare s → ¬ HasPlus s → Decodes f s t
  | 0, s, t, hk, h, _, _ => by
    have : s = [] := List.length_eq_zero_iff.mp (by omega)
    subst this
    simp [entitiesGo_nil, piecesMean] at h; subst h; exact .nil
  | k + 1, s, t, hk, h, hb, hpl => by
    by_cases ha : '&' ∈ s
    · obtain ⟨⟨a, b⟩, hab⟩ : ∃ r, splitAtChar '&' s = some r := by
        cases h : splitAtChar '&' s with
        | none => exact absurd ha (splitAtChar_none.mp h)
        | some r => exact ⟨r, rfl⟩
      obtain ⟨rfl, hna⟩ := splitAtChar_some hab
      rw [entitiesGo_amp hna] at h
      simp only [piecesMean, Option.map_eq_some_iff] at h
      obtain ⟨u, hu, rfl⟩ := h
      refine plain_append hna ?_
      have hb0 : b ≠ [] := by rintro rfl; exact hb ⟨a, rfl⟩
      by_cases hs : ';' ∈ b
      · obtain ⟨⟨r, rest⟩, hr⟩ : ∃ x, splitAtChar ';' b = some x := by
          cases h : splitAtChar ';' b with
          | none => exact absurd hs (splitAtChar_none.mp h)
          | some r => exact ⟨r, rfl⟩
        obtain ⟨rfl, hnr⟩ := splitAtChar_some hr
        rw [entitiesGo_semi hnr] at hu
        have hrest : ∀ {v}, piecesMean f (entitiesGo false rest) = some v → Decodes f rest v := by
          intro v hv
          refine pieces_decodes k (by simp at hk; omega) hv ?_ ?_
          · rintro ⟨x, rfl⟩; exact hb ⟨a ++ '&' :: (r ++ ';' :: x), by simp⟩
          · intro h
            have := hasPlus_sub (a := a ++ '&' :: (r ++ [';'])) (b := []) h
            exact hpl (by simpa using this)
        by_cases hh : r.head? = some '#'
        · obtain ⟨ds, rfl⟩ : ∃ ds, r = '#' :: ds := by
            cases r with
            | nil => simp at hh
            | cons c ds => simp at hh; subst hh; exact ⟨ds, rfl⟩
          simp only [refPiece] at hu
          cases hne : numericEntity ds with
          | none => simp [hne, piecesMean] at hu
          | some c =>
            simp only [hne, Option.map_some, piecesMean, Option.map_eq_some_iff] at hu
            obtain ⟨v, hv, rfl⟩ := hu
            have p1 : ds.head? ≠ some '+' := by
              intro h
              cases ds with
              | nil => simp at h
              | cons x ds => simp at h; subst h; exact hpl (Or.inl ⟨a, ds ++ ';' :: rest, by simp⟩)
            have p2 : ∀ r, ds = 'x' :: r → r.head? ≠ some '+' := by
              rintro r rfl h
              cases r with
              | nil => simp at h
              | cons x r => simp at h; subst h; exact hpl (Or.inr ⟨a, r ++ ';' :: rest, by simp⟩)
            rcases numericEntity_some hne p1 p2 with hn | ⟨r, rfl, hn⟩
            · exact .ref (v := [c]) (.dec hn rfl) (hrest hv)
            · exact .ref (v := [c]) (.hex hn rfl) (hrest hv)
        · rw [refPiece_entity hh] at hu
          simp only [piecesMean] at hu
          split at hu
          · cases hu
          · rename_i v hv
            simp only [Option.map_eq_some_iff] at hu
            obtain ⟨w, hw, rfl⟩ := hu
            exact .ref (.entity hh hnr hv) (hrest hw)
      · rw [entitiesGo_unclosed hs hb0] at hu
        simp [piecesMean] at hu
    · by_cases hs : s = []
      · subst hs; simp [entitiesGo_nil, piecesMean] at h; subst h; exact .nil
      · rw [entitiesGo_text ha hs] at h
        simp [piecesMean] at h
        subst h
        exact plainDec ha
where
  plain_append {f : Str → Option Str} {a s t : Str} (h : '&' ∉ a) (hd : Decodes f s t) : Decodes f (a ++ s) (a ++ t) := by
    induction a with
    | nil => exact hd
    | cons c a ih =>
      simp only [List.mem_cons, not_or] at h
      exact .char (fun e => h.1 e.symm) (ih h.2)

theorem decodeLoop_mean {ents : List (Str × Str)} {raw : Str} (hc : ∀ nm v, ents.lookup nm = some v → byteLen v ≠ byteLen raw) :
    ∀ {ps : List (Option Txt)} {buf b : Str}, (∀ u, some (Txt.text u) ∈ ps → byteLen u ≠ byteLen raw) →
    decodeLoop ents raw ps buf = .ok b → ∃ t, piecesMean (fun nm => ents.lookup nm) ps = some t
  | [], buf, b, _, h => ⟨[], rfl⟩
  | none :: ps, buf, b, _, h => by simp [decodeLoop] at h
  | some (.char c) :: ps, buf, b, ht, h => by
    simp only [decodeLoop] at h
    obtain ⟨t, h⟩ := decodeLoop_mean hc (fun u hu => ht u (by simp [hu])) h
    exact ⟨c :: t, by simp [piecesMean, h]⟩
  | some (.text u) :: ps, buf, b, ht, h => by
    simp only [decodeLoop, if_neg (ht u (by simp))] at h
    obtain ⟨t, h⟩ := decodeLoop_mean hc (fun u hu => ht u (by simp [hu])) h
    exact ⟨u ++ t, by simp [piecesMean, h]⟩
  | some (.entity nm) :: ps, buf, b, ht, h => by
    simp only [decodeLoop] at h
    split at h
    · cases h
    · rename_i v hv
      rw [if_neg (hc nm v hv)] at h
      obtain ⟨t, h⟩ := decodeLoop_mean hc (fun u hu => ht u (by simp [hu])) h
      exact ⟨v ++ t, by simp [piecesMean, h, hv]⟩

theorem decodeLoop_error {ents : List (Str × Str)} {raw : Str} : ∀ {ps : List (Option Txt)} {buf : Str} {e},
    decodeLoop ents raw ps buf = .error e → e = .invalidOrUnclosedEntity ∨ ∃ nm, e = .undefinedEntity nm
  | [], buf, e, h => by simp [decodeLoop] at h
  | none :: ps, buf, e, h => by simp [decodeLoop] at h; exact Or.inl h.symm
  | some (.char c) :: ps, buf, e, h => decodeLoop_error (ps := ps) h
  | some (.text u) :: ps, buf, e, h => by
    simp only [decodeLoop] at h
    split at h
    · cases h
    · exact decodeLoop_error (ps := ps) h
  | some (.entity nm) :: ps, buf, e, h => by
    simp only [decodeLoop] at h
    split at h
    · cases h; exact Or.inr ⟨_, rfl⟩
    · split at h
      · cases h
      · exact decodeLoop_error (ps := ps) h

/-- C17.  In every reachable state, text with a reference that means nothing is an error, and nothing
changes (the schema does not see it).  Missing from the full statement: a bare `&` at the very end,
numbers with a plus sign (both accepted by the code, see below), and entities whose value has
exactly as many bytes as the text. -/
theorem C17_malformed_references_partial {raw : Str} (hs : Reach L s) (hbad : ∀ t, ¬ Decodes (valueIn s.entities) raw t)
    (hb : ¬ EndsBare raw) (hp : ¬ HasPlus raw)
    (hc : ∀ nm v, s.entities.lookup nm = some v → byteLen v ≠ byteLen raw) :
    ∃ e, validate L n (.text raw) s = .ok (.error e, s) ∧
      (e = .invalidOrUnclosedEntity ∨ ∃ nm, e = .undefinedEntity nm) := by
  obtain ⟨p, hpat⟩ := hs.cur
  cases h : decodeText s.entities raw with
  | error e =>
    refine ⟨e, text_undecodable hpat h, ?_⟩
    unfold decodeText at h
    split at h
    · rename_i h'; cases h; exact decodeLoop_error h'
    · cases h
  | ok b =>
    exfalso
    unfold decodeText at h
    split at h
    · cases h
    · rename_i b' h'
      unfold parseEntities at h'
      by_cases ha : '&' ∈ raw
      · obtain ⟨t, ht⟩ := decodeLoop_mean hc
          (fun u hu => Nat.ne_of_lt (pieces_shorter _ _ _ _ (Nat.le_refl _) hu (Or.inr ha))) h'
        exact hbad t (pieces_decodes _ (Nat.le_refl _) ht hb hp)
      · exact hbad raw (plainDec ha)

/-- C17 without entity declarations: nothing but a final `&` and plus signs is missing. -/
theorem C17_malformed_references_predefined_partial {env : Env D V} {fuel : Nat} {start : Pattern D V} {s0 : VState D V}
    {es : List Event} {rs m} (hnew : newValidator env fuel start = .ok s0) (hr : runEvents L m es s0 = .ok (rs, s))
    (hd : ∀ nm v, some (Token.entityDeclaration nm (.entityValue v)) ∉ es) {raw : Str}
    (hbad : ∀ t, ¬ Decodes (valueIn xmlEntities) raw t) (hb : ¬ EndsBare raw) (hp : ¬ HasPlus raw) :
    ∃ e, validate L n (.text raw) s = .ok (.error e, s) ∧
      (e = .invalidOrUnclosedEntity ∨ ∃ nm, e = .undefinedEntity nm) := by
  have he : valueIn s.entities = valueIn xmlEntities := by
    rw [runEvents_entities hr hd, (newValidator_last hnew).2.2]; exact funext predefined_lookup
  refine C17_malformed_references_partial ((Reach.new hnew).step hr) (by rw [he]; exact hbad) hb hp ?_
  intro nm v hv hl
  have hv : valueIn xmlEntities nm = some v := he ▸ hv
  have h1 := (xmlEntities_value hv).1
  have amp : ('&' : Char).utf8Size = 1 := by decide
  by_cases ha : '&' ∈ raw
  · obtain ⟨a, b, rfl⟩ := List.append_of_mem ha
    rw [byteLen_append, byteLen_cons, amp] at hl
    have pos : ∀ x : Str, byteLen x = 0 → x = [] := by
      intro x hx
      cases x with
      | nil => rfl
      | cons c x => rw [byteLen_cons] at hx; have := Char.utf8Size_pos c; omega
    have h2 := pos a (by omega)
    have h3 := pos b (by omega)
    subst h2; subst h3
    exact hb ⟨[], rfl⟩
  · exact hbad raw (plainDec ha)

/-- Why the full statement is false: text ending in a bare `&` is accepted as if the `&` were not
there (unless nothing else is left, when it is validated with it). -/
theorem C17_final_ampersand_dropped {a : Str} (h : '&' ∉ a) (h0 : a ≠ []) :
    (∀ f t, ¬ Decodes f (a ++ ['&']) t) ∧
    outcome (validate L n (.text (a ++ ['&'])) s) = outcome (validate L n (.cdata a) s) := by
  constructor
  · intro f t hd
    clear h0
    induction a generalizing t with
    | nil =>
      generalize he : [] ++ ['&'] = x at hd
      cases hd with
      | nil => cases he
      | char hc _ => simp at he; exact hc he.1.symm
      | ref _ _ => simp at he
    | cons c a ih =>
      simp only [List.mem_cons, not_or] at h
      generalize he : c :: a ++ ['&'] = x at hd
      cases hd with
      | nil => cases he
      | char _ hd => simp at he; obtain ⟨rfl, rfl⟩ := he; exact ih h.2 _ hd
      | ref _ _ => simp at he; exact h.1 he.1.symm
  · refine text_as_cdata ?_
    unfold decodeText parseEntities
    rw [entitiesGo_amp h, entitiesGo_nil]
    have amp : ('&' : Char).utf8Size = 1 := by decide
    simp only [decodeLoop]
    rw [if_neg (by rw [byteLen_append, byteLen_cons, amp]; simp [byteLen])]
    simp [h0]

/-- an undefined entity in the initial state of the example -/
example : ∃ e, validate Ex.lib 20 (.text "a&b;c".toList) Ex.v0 = .ok (.error e, Ex.v0) ∧
    (e = .invalidOrUnclosedEntity ∨ ∃ nm, e = .undefinedEntity nm) := by
  refine C17_malformed_references_predefined_partial (es := []) (m := 0) (rs := []) Ex.new_ok rfl nofun ?_ ?_ ?_
  · intro t h
    have := h.pieces
    have e1 := entitiesGo_amp (a := ['a']) (b := "b;c".toList) (by decide)
    have e2 := entitiesGo_semi (a := ['b']) (b := ['c']) (by decide)
    have e3 : entitiesGo false "a&b;c".toList = some (.text ['a']) :: refPiece ['b'] :: entitiesGo false ['c'] := by
      rw [← e2]; exact e1
    rw [e3] at this
    have e4 : refPiece ['b'] = some (.entity ['b']) := by decide
    rw [e4] at this
    have e5 : xmlEntities.lookup ['b'] = none := by decide
    simp [piecesMean, valueIn, e5] at this
  · rintro ⟨a, ha⟩
    have := congrArg List.getLast? ha
    simp at this
  · rintro (⟨a, b, h⟩ | ⟨a, b, h⟩) <;>
    · have : '#' ∈ "a&b;c".toList := by rw [h]; simp
      revert this; decide

/-! ### C19 -/

/-- C19.  A CDATA section is taken as it is: its outcome is that of any text token whose decoded
content is the same (when the code decodes that text right). -/
theorem C19_cdata_same_as_text {raw t : Str} (hok : TextOK (valueIn s.entities) raw) (h : Decodes (valueIn s.entities) raw t) :
    outcome (validate L n (.cdata t) s) = outcome (validate L n (.text raw) s) :=
  (C16_declared_entities_partial hok h).symm

/-- C19.  In particular for content without `&`, in every state. -/
theorem C19_plain_text {t : Str} (h : '&' ∉ t) :
    outcome (validate L n (.cdata t) s) = outcome (validate L n (.text t) s) :=
  C19_cdata_same_as_text (Or.inl h) (plainDec h)

/-- C19.  No decoding: declared entities play no role, and the only error is that the text is not
allowed here. -/
theorem C19_no_decoding {t : Str} {ents : List (Str × Str)} :
    (validate L n (.cdata t) { s with entities := ents }) = (match validate L n (.cdata t) s with
      | .ok (r, s') => .ok (r, { s' with entities := ents })
      | .error e => .error e) ∧
    ∀ e s', validate L n (.cdata t) s = .ok (.error e, s') → e = .notAllowed (.cdata t) := by
  constructor
  · cases hp : s.store.pats[s.cur]? with
    | none => simp only [validate, ST.get, liftS, patt, bind, ST.bind, hp]
    | some p =>
      simp only [validate, ST.get, liftS, patt, bind, ST.bind, hp]
      cases hx : textDeriv L n p t s.store with
      | error e => rfl
      | ok r =>
        obtain ⟨i, st⟩ := r
        dsimp only
        cases hq : st.pats[i]? with
        | none => simp only [finish, ST.get, ST.set, liftS, patt, bind, ST.bind, hq]
        | some q =>
          by_cases hn : q.isNotAllowed = true
          · simp only [finish, ST.get, ST.set, liftS, patt, bind, ST.bind, hq, if_pos hn]; rfl
          · simp only [finish, ST.get, ST.set, liftS, patt, bind, ST.bind, hq, if_neg hn]; rfl
  · intro e s' h
    simp only [validate, ST.bind_ok] at h
    obtain ⟨_, _, h1, p, s1, h2, i, s2, h3, h⟩ := h
    obtain ⟨q, _, ⟨_, h4, _⟩ | ⟨_, h4, _⟩⟩ := finish_cases h
    · cases h4; rfl
    · cases h4

example : '&' ∉ "x]] >".toList ∧ TextOK (valueIn Ex.v0.entities) "x".toList := ⟨by decide, Or.inl (by decide)⟩

end Verif
