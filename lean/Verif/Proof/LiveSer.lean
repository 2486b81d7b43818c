import Verif.Proof.LiveCut
import Verif.Proof.LiveSat
/-
Writing nodes down as XML (proof device for C77): every element declares the namespaces it uses, with prefixes that do not
occur elsewhere.
-/
set_option linter.unusedSectionVars false
namespace Verif
open Viable
namespace Ser

/-- an injective encoding in letters -/
def enc : Str → Str
  | [] => []
  | c :: cs => List.replicate c.toNat 'a' ++ 'b' :: enc cs

theorem rep_inj : ∀ {m n : Nat} {x y : Str}, List.replicate m 'a' ++ 'b' :: x = List.replicate n 'a' ++ 'b' :: y → m = n ∧ x = y
  | 0, 0, _, _, h => by simpa using h
  | 0, n + 1, _, _, h => by simp [List.replicate_succ] at h
  | m + 1, 0, _, _, h => by simp [List.replicate_succ] at h
  | m + 1, n + 1, _, _, h => by
    simp only [List.replicate_succ, List.cons_append, List.cons.injEq, true_and] at h
    have := rep_inj h
    exact ⟨by omega, this.2⟩

theorem enc_inj : ∀ {u v : Str}, enc u = enc v → u = v
  | [], [], _ => rfl
  | [], c :: v, h => by simp [enc] at h
  | c :: u, [], h => by simp [enc] at h
  | c :: u, d :: v, h => by
    simp only [enc] at h
    obtain ⟨h1, h2⟩ := rep_inj h
    rw [enc_inj h2, Char.toNat_inj.mp h1]

/-- the prefix for a namespace -/
def nsPre (N : Nat) (u : Str) : Str := 'k' :: (List.replicate N 'k' ++ enc u)

theorem nsPre_inj {N u v} (h : nsPre N u = nsPre N v) : u = v := by
  simp only [nsPre, List.cons.injEq, true_and, List.append_cancel_left_eq] at h
  exact enc_inj h

theorem nsPre_len {N u} : N < (nsPre N u).length := by simp [nsPre]; omega

def namePre (N : Nat) (q : QName) : Str := match q.ns with | none => [] | some u => nsPre N u

def dedup : List Str → List Str
  | [] => []
  | u :: us => if u ∈ us then dedup us else u :: dedup us

theorem mem_dedup {u} : ∀ {us : List Str}, u ∈ dedup us ↔ u ∈ us
  | [] => Iff.rfl
  | v :: us => by
    simp only [dedup]
    split
    · rename_i h
      rw [mem_dedup (us := us), List.mem_cons]
      exact ⟨.inr, fun h' => h'.elim (fun e => e ▸ h) id⟩
    · rw [List.mem_cons, List.mem_cons, mem_dedup (us := us)]

theorem nodup_dedup : ∀ {us : List Str}, (dedup us).Nodup
  | [] => .nil
  | v :: us => by
    simp only [dedup]
    split
    · exact nodup_dedup
    · rename_i h
      exact List.nodup_cons.mpr ⟨fun h' => h (mem_dedup.mp h'), nodup_dedup⟩

/-- the namespaces an element uses -/
def uris (nm : QName) (as : List Attr) : List Str := dedup ((nm :: as.map (·.name)).filterMap (·.ns))

theorem mem_uris {nm as u} : u ∈ uris nm as ↔ nm.ns = some u ∨ ∃ a ∈ as, a.name.ns = some u := by
  simp only [uris, mem_dedup, List.mem_filterMap, List.mem_cons, List.mem_map]
  constructor
  · rintro ⟨q, rfl | ⟨a, ha, rfl⟩, h⟩
    · exact .inl h
    · exact .inr ⟨a, ha, h⟩
  · rintro (h | ⟨a, ha, h⟩)
    · exact ⟨_, .inl rfl, h⟩
    · exact ⟨_, .inr ⟨a, ha, rfl⟩, h⟩

def serA (N : Nat) (a : Attr) : RawAttr := ⟨namePre N a.name, a.name.loc, a.value⟩
def declA (N : Nat) (u : Str) : RawAttr := ⟨xmlnsStr, nsPre N u, u⟩

def serAtts (N : Nat) (nm : QName) (as : List Attr) : List RawAttr := (uris nm as).map (declA N) ++ as.map (serA N)

mutual
def serN (N : Nat) : Node → XNode
  | .text s => .cdata s
  | .elem nm as kids => .elem (namePre N nm) nm.loc (serAtts N nm as) false (serL N kids)
def serL (N : Nat) : List Node → List XNode
  | [] => []
  | x :: xs => serN N x :: serL N xs
end

theorem pre_ne_xmlns {N q} : namePre N q ≠ xmlnsStr := by
  unfold namePre
  split
  · decide
  · intro h; simp only [nsPre, xmlnsStr] at h; exact absurd (List.cons.inj h).1 (by decide)

theorem pre_ne_xml {N q} : namePre N q ≠ "xml".toList := by
  unfold namePre
  split
  · decide
  · intro h; exact absurd (List.cons.inj (show 'k' :: _ = 'x' :: _ from h)).1 (by decide)

theorem pre_nil {N q} : namePre N q = [] ↔ q.ns = none := by
  unfold namePre
  split
  · rename_i h; simp [h]
  · rename_i h; simp [h, nsPre]

/-- plain attributes -/
def AttOK (a : Attr) : Prop := NameOK a.name ∧ a.name ≠ ⟨none, xmlnsStr⟩ ∧ '&' ∉ a.value

theorem serA_plain {N a} (h : AttOK a) : ¬ ((serA N a).pre = [] ∧ (serA N a).loc = xmlnsStr) := by
  rintro ⟨h1, h2⟩
  refine h.2.1 ?_
  have := pre_nil.mp h1
  simp only [serA] at h2
  cases hn : a.name with
  | mk ns loc => rw [hn] at this h2; simp only at this h2; rw [this, h2]

theorem nsDecls_serA {N} : ∀ {as : List Attr}, (∀ a ∈ as, AttOK a) → nsDecls (as.map (serA N)) = [] ∧ plainAtts (as.map (serA N)) = as.map (serA N)
  | [], _ => ⟨rfl, rfl⟩
  | a :: as, h => by
    obtain ⟨i1, i2⟩ := nsDecls_serA (N := N) (as := as) fun b hb => h b (List.mem_cons_of_mem _ hb)
    have h1 : (serA N a).pre ≠ xmlnsStr := pre_ne_xmlns
    have h2 := serA_plain (N := N) (h a (by simp))
    simp only [List.map_cons, nsDecls, plainAtts, if_neg h1, if_neg h2, i1, i2, and_self]

theorem nsDecls_declA {N} : ∀ {us : List Str}, nsDecls (us.map (declA N)) = us.map (fun u => (nsPre N u, u)) ∧ plainAtts (us.map (declA N)) = []
  | [] => ⟨rfl, rfl⟩
  | u :: us => by
    obtain ⟨i1, i2⟩ := nsDecls_declA (N := N) (us := us)
    simp only [List.map_cons, nsDecls, plainAtts, declA, if_true, and_true] at i1 i2 ⊢
    exact ⟨by rw [i1], i2⟩

theorem plainAtts_append : ∀ (a b : List RawAttr), plainAtts (a ++ b) = plainAtts a ++ plainAtts b
  | [], b => rfl
  | x :: a, b => by
    simp only [List.cons_append, plainAtts]
    split
    · exact plainAtts_append a b
    · split
      · exact plainAtts_append a b
      · rw [plainAtts_append a b]; rfl

theorem nsDecls_ser {N nm as} (h : ∀ a ∈ as, AttOK a) : nsDecls (serAtts N nm as) = (uris nm as).map (fun u => (nsPre N u, u)) := by
  simp only [serAtts]
  rw [nsDecls_append, nsDecls_declA.1, (nsDecls_serA h).1, List.append_nil]

theorem plainAtts_ser {N nm as} (h : ∀ a ∈ as, AttOK a) : plainAtts (serAtts N nm as) = as.map (serA N) := by
  simp only [serAtts]
  rw [plainAtts_append, nsDecls_declA.2, (nsDecls_serA h).2, List.nil_append]

theorem lookup_ser {N u} {scope : List (Str × Str)} : ∀ {us : List Str}, u ∈ us → (us.map (fun u => (nsPre N u, u)) ++ scope).lookup (nsPre N u) = some u
  | [], h => by cases h
  | v :: us, h => by
    simp only [List.map_cons, List.cons_append, List.lookup_cons]
    by_cases e : u = v
    · subst e; simp
    · have hb : (nsPre N u == nsPre N v) = false := by simpa using fun h => e (nsPre_inj h)
      rw [hb]
      rcases List.mem_cons.mp h with h | h
      · exact absurd h e
      · exact lookup_ser h

/-- no default namespace in scope -/
def NoDef (scope : List (Str × Str)) : Prop := scope.lookup [] = none

theorem NoDef.ser {N scope} (h : NoDef scope) : ∀ (us : List Str), NoDef (us.map (fun u => (nsPre N u, u)) ++ scope)
  | [] => h
  | u :: us => by
    simp only [NoDef, List.map_cons, List.cons_append, List.lookup_cons]
    have hb : (([] : Str) == nsPre N u) = false := by simp [nsPre]
    rw [hb]
    exact NoDef.ser h us

theorem decodes_id {f} : ∀ {s : Str}, '&' ∉ s → Decodes f s s
  | [], _ => .nil
  | c :: s, h => .char (fun e => h (by simp [e])) (decodes_id fun h' => h (List.mem_cons_of_mem _ h'))

theorem elemName_pre {scope pre loc u} (h : pre ≠ []) (hl : scope.lookup pre = some u) : elemName scope pre loc = some ⟨some u, loc⟩ := by
  simp only [elemName, if_neg h, hl]; rfl
theorem attrName_pre {scope pre loc u} (h : pre ≠ []) (hl : scope.lookup pre = some u) : attrName scope pre loc = some ⟨some u, loc⟩ := by
  simp only [attrName, if_neg h, hl]; rfl
theorem nsPre_ne {N u} : nsPre N u ≠ [] := by simp [nsPre]

theorem atts_mean {f N scope} {us : List Str} : ∀ {as : List Attr}, (∀ a ∈ as, AttOK a) → (∀ a ∈ as, ∀ u, a.name.ns = some u → u ∈ us) →
    AttsMean f (us.map (fun u => (nsPre N u, u)) ++ scope) (as.map (serA N)) as
  | [], _, _ => .nil
  | ⟨⟨ns, loc⟩, v⟩ :: as, h, hu => by
    refine .cons ?_ (decodes_id (h _ (List.mem_cons_self ..)).2.2) (atts_mean (fun a ha => h a (List.mem_cons_of_mem _ ha)) fun a ha => hu a (List.mem_cons_of_mem _ ha))
    cases ns with
    | none => rfl
    | some u => exact attrName_pre nsPre_ne (lookup_ser (N := N) (scope := scope) (hu _ (List.mem_cons_self ..) u rfl))

theorem join_proper : ∀ {c : List Node}, ProperL c → joinText c = c
  | [], _ => rfl
  | .text s :: c, h => by
    simp only [ProperL] at h
    simp only [joinText, join_proper h.2.1]
    split
    · exact absurd rfl (h.2.2 s rfl _ _)
    · rfl
  | .elem _ _ _ :: c, h => by
    simp only [ProperL] at h
    simp only [joinText, join_proper h.2.1]

mutual
theorem resolvesN {f N} : ∀ {x : Node} {scope}, NoDef scope → Proper x → Resolves f scope [serN N x] [x]
  | .text s, scope, _, _ => by simp only [serN]; exact .cdata .nil
  | .elem nm as kids, scope, hd, h => by
    simp only [Proper] at h
    obtain ⟨h1, h2, h3, h4⟩ := h
    simp only [serN]
    have hk : joinText kids = kids := join_proper h4
    have ha : ∀ a ∈ as, AttOK a := h2
    have : Resolves f scope [.elem (namePre N nm) nm.loc (serAtts N nm as) false (serL N kids)] [.elem nm as (joinText kids)] := by
      refine .elem ?_ ?_ (resolvesL ?_ h4) nofun .nil
      · rw [nsDecls_ser ha]
        cases nm with
        | mk ns loc =>
        cases ns with
        | none =>
          show some (QName.mk _ loc) = _
          rw [hd.ser]
        | some u =>
          exact elemName_pre nsPre_ne (lookup_ser (N := N) (scope := scope) (mem_uris (nm := ⟨some u, loc⟩) (as := as) |>.mpr (.inl rfl)))
      · rw [nsDecls_ser ha, plainAtts_ser ha]
        exact atts_mean ha fun a h u hu => mem_uris.mpr (.inr ⟨a, h, hu⟩)
      · rw [nsDecls_ser ha]; exact hd.ser _
    rw [hk] at this
    exact this
theorem resolvesL {f N} : ∀ {c : List Node} {scope}, NoDef scope → ProperL c → Resolves f scope (serL N c) c
  | [], _, _, _ => by simp only [serL]; exact .nil
  | x :: c, scope, hd, h => by
    simp only [ProperL] at h
    simp only [serL]
    exact (resolvesN (x := x) hd h.1).append (resolvesL hd h.2.1)
end

/-! ### the result can be written and is treated faithfully -/

/-- attributes of written nodes -/
def SerAtt (N : Nat) (a : RawAttr) : Prop := '&' ∉ a.value ∧ ((∃ u, a = declA N u) ∨ ∃ b, AttOK b ∧ a = serA N b)

theorem SerAtt.pre {N a} (h : SerAtt N a) : a.pre ≠ "xml".toList := by
  rcases h.2 with ⟨u, rfl⟩ | ⟨b, _, rfl⟩
  · simp only [declA]; decide
  · exact pre_ne_xml

theorem SerAtt.decl {N a d} (h : SerAtt N a) (hd : d ∈ nsDecls [a]) : ∃ u, d = (nsPre N u, u) := by
  rcases h.2 with ⟨u, rfl⟩ | ⟨b, hb, rfl⟩
  · rw [show [declA N u] = [u].map (declA N) from rfl, nsDecls_declA.1] at hd
    simp at hd
    exact ⟨u, hd⟩
  · rw [show [serA N b] = [b].map (serA N) from rfl, (nsDecls_serA (by simpa using hb)).1] at hd
    cases hd

mutual
theorem attsN {N} : ∀ {x : Node}, Proper x → ∀ a ∈ (serN N x).allAtts, SerAtt N a
  | .text s, _, a, ha => by simp [serN, XNode.allAtts] at ha
  | .elem nm as kids, h, a, ha => by
    simp only [Proper] at h
    obtain ⟨h1, h2, h3, h4⟩ := h
    simp only [serN, XNode.allAtts, serAtts, List.mem_append, List.mem_map] at ha
    rcases ha with (⟨u, hu, rfl⟩ | ⟨b, hb, rfl⟩) | ha
    · refine ⟨?_, .inl ⟨u, rfl⟩⟩
      rcases mem_uris.mp hu with hu | ⟨b, hb, hu⟩
      · exact (h1 u hu).2
      · exact ((h2 b hb).1 u hu).2
    · exact ⟨(h2 b hb).2.2, .inr ⟨b, h2 b hb, rfl⟩⟩
    · exact attsL h4 a ha
theorem attsL {N} : ∀ {c : List Node}, ProperL c → ∀ a ∈ allAttsL (serL N c), SerAtt N a
  | [], _, a, ha => by simp [serL, allAttsL] at ha
  | x :: c, h, a, ha => by
    simp only [ProperL] at h
    simp only [serL, allAttsL, List.mem_append] at ha
    rcases ha with ha | ha
    · exact attsN h.1 a ha
    · exact attsL h.2.1 a ha
end

mutual
theorem presN {N} : ∀ (x : Node), ∀ p ∈ (serN N x).allPres, p ≠ "xml".toList
  | .text s, p, hp => by simp [serN, XNode.allPres] at hp
  | .elem nm as kids, p, hp => by
    simp only [serN, XNode.allPres, List.mem_cons] at hp
    rcases hp with rfl | hp
    · exact pre_ne_xml
    · exact presL kids p hp
theorem presL {N} : ∀ (c : List Node), ∀ p ∈ allPresL (serL N c), p ≠ "xml".toList
  | [], p, hp => by simp [serL, allPresL] at hp
  | x :: c, p, hp => by
    simp only [serL, allPresL, List.mem_append] at hp
    rcases hp with hp | hp
    · exact presN x p hp
    · exact presL c p hp
end

mutual
theorem textsN {N} : ∀ (x : Node), (serN N x).allTexts = []
  | .text s => by simp only [serN, XNode.allTexts]
  | .elem nm as kids => by simp only [serN, XNode.allTexts]; exact textsL kids
theorem textsL {N} : ∀ (c : List Node), allTextsL (serL N c) = []
  | [] => by simp only [serL, allTextsL]
  | x :: c => by simp only [serL, allTextsL, textsN x, textsL c, List.append_nil]
end

mutual
theorem unsplitN {N} : ∀ {x : Node}, Proper x → ∀ nm as kids, x = .elem nm as kids → unsplitL false (serL N kids)
  | .text s, _, _, _, _, h => by cases h
  | .elem nm as kids, h, _, _, _, rfl => by
    simp only [Proper] at h
    exact unsplitS h.2.2.2 (by simp)
theorem unsplitS {N} : ∀ {c : List Node} {prev}, ProperL c → (prev = true → ∀ s r, c ≠ .text s :: r) → unsplitL prev (serL N c)
  | [], _, _, _ => by simp only [serL, unsplitL]
  | .text s :: c, prev, h, hp => by
    simp only [ProperL] at h
    simp only [serL, serN, unsplitL]
    refine ⟨?_, unsplitS h.2.1 fun _ t r => h.2.2 s rfl t r⟩
    cases prev with
    | false => rfl
    | true => exact absurd rfl (hp rfl s c)
  | .elem nm as kids :: c, prev, h, hp => by
    simp only [ProperL] at h
    simp only [serL, serN, unsplitL]
    exact ⟨unsplitN h.1 nm as kids rfl, unsplitS h.2.1 (by simp)⟩
end

theorem nodup_map {α β} {f : α → β} : ∀ {l : List α}, (∀ a ∈ l, ∀ b ∈ l, f a = f b → a = b) → l.Nodup → (l.map f).Nodup
  | [], _, _ => .nil
  | a :: l, h, hn => by
    rw [List.nodup_cons] at hn
    rw [List.map_cons, List.nodup_cons]
    refine ⟨fun hm => ?_, nodup_map (fun x hx y hy => h x (List.mem_cons_of_mem _ hx) y (List.mem_cons_of_mem _ hy)) hn.2⟩
    obtain ⟨b, hb, e⟩ := List.mem_map.mp hm
    exact hn.1 (h b (List.mem_cons_of_mem _ hb) a (by simp) e ▸ hb)

theorem written_names {N} : ∀ {as : List Attr}, (∀ a ∈ as, AttOK a) → (as.map fun a => a.name.expanded).Nodup →
    ((as.map (serA N)).map fun a => (a.pre, a.loc)).Nodup
  | [], _, _ => .nil
  | a :: as, h, hn => by
    simp only [List.map_cons, List.nodup_cons] at hn ⊢
    refine ⟨fun hm => hn.1 ?_, written_names (fun b hb => h b (List.mem_cons_of_mem _ hb)) hn.2⟩
    simp only [List.map_map, List.mem_map] at hm
    obtain ⟨b, hb, e⟩ := hm
    refine List.mem_map.mpr ⟨b, hb, ?_⟩
    simp only [Function.comp, serA, Prod.mk.injEq, namePre] at e
    simp only [QName.expanded, Prod.mk.injEq]
    refine ⟨?_, e.2⟩
    have e1 := e.1
    cases h1 : b.name.ns with
    | none =>
      cases h2 : a.name.ns with
      | none => rfl
      | some v => rw [h1, h2] at e1; simp [nsPre] at e1
    | some u =>
      cases h2 : a.name.ns with
      | none => rw [h1, h2] at e1; simp [nsPre] at e1
      | some v => rw [h1, h2] at e1; rw [nsPre_inj e1]

mutual
theorem writtenN {N} : ∀ {x : Node}, Proper x → Written (serN N x)
  | .text s, _ => by simp only [serN, Written]
  | .elem nm as kids, h => by
    simp only [Proper] at h
    obtain ⟨h1, h2, h3, h4⟩ := h
    simp only [serN, Written]
    refine ⟨?_, writtenL h4⟩
    simp only [serAtts, List.map_append]
    refine List.nodup_append.mpr ⟨?_, written_names h2 h3, ?_⟩
    · rw [List.map_map]
      refine nodup_map (fun u _ v _ e => ?_) nodup_dedup
      simp only [Function.comp, declA, Prod.mk.injEq, true_and] at e
      exact nsPre_inj e
    · intro x hx y hy e
      simp only [List.map_map, List.mem_map] at hx hy
      obtain ⟨u, _, rfl⟩ := hx
      obtain ⟨b, _, rfl⟩ := hy
      simp only [Function.comp, declA, serA, Prod.mk.injEq] at e
      exact pre_ne_xmlns e.1.symm
theorem writtenL {N} : ∀ {c : List Node}, ProperL c → WrittenL (serL N c)
  | [], _ => by simp only [serL, WrittenL]
  | x :: c, h => by
    simp only [ProperL] at h
    simp only [serL, WrittenL]
    exact ⟨writtenN h.1, writtenL h.2.1⟩
end

mutual
theorem distinctN : ∀ {x : Node}, Proper x → Distinct x
  | .text s, _ => by simp only [Distinct]
  | .elem nm as kids, h => by simp only [Proper, Distinct] at h ⊢; exact ⟨h.2.2.1, distinctL h.2.2.2⟩
theorem distinctL : ∀ {c : List Node}, ProperL c → DistinctL c
  | [], _ => by simp only [DistinctL]
  | x :: c, h => by simp only [ProperL, DistinctL] at h ⊢; exact ⟨distinctN h.1, distinctL h.2.1⟩
end

end Ser
end Verif
