import Verif.Proof.LiveFill
import Verif.Props.Validation
/-
Accepted beginnings of documents can be completed (proof of C77).
-/
set_option linter.unusedSectionVars false
namespace Verif
open Viable
variable {D V : Type} [DecidableEq D] [DecidableEq V] {L : Lib D V} {env : Env D V}
  {start : Pattern D V} {fuel n : Nat} {s0 : VState D V} {d : XDoc} {node : Node}

theorem noEnd_prolog (pl : List Prolog) : NoEnd (pl.map Prolog.tok) := by
  intro e h
  obtain ⟨p, _, h⟩ := List.mem_map.mp h
  cases p <;> cases h

theorem noEnd_epilog (ep : List Bool) : NoEnd (ep.map fun b => if b then Token.comment else .processingInstruction) := by
  intro e h
  obtain ⟨p, _, h⟩ := List.mem_map.mp h
  cases p <;> cases h

/-- a beginning of a document that ends in a tag is the prolog and a beginning of the root element -/
theorem doc_cut {ts rest e} (hts : d.toks = ts ++ [.elementEnd e] ++ rest) :
    ∃ ts' rest', ts ++ [.elementEnd e] = d.prolog.map Prolog.tok ++ ts' ∧ TagEnd ts' ∧ ts' ≠ [] ∧ toksL [d.root] = ts' ++ rest' := by
  obtain ⟨ts', h1, h2, h3, h4⟩ := TagEnd.split (noEnd_prolog d.prolog) (.inr ⟨ts, e, rfl⟩) (by simp) hts
  rcases List.append_eq_append_iff.mp h4 with ⟨c, g1, g2⟩ | ⟨c, g1, g2⟩
  · rcases List.eq_nil_or_concat c with rfl | ⟨c', z, rfl⟩
    · exact ⟨ts', [], h1, h2, h3, by simpa [toksL] using g1.symm⟩
    · exfalso
      rw [List.concat_eq_append] at g1 g2
      rcases h2 with h2 | ⟨u, e', h2⟩
      · exact h3 h2
      · have hz : ts'.getLast? = some z := by rw [g1, ← List.append_assoc, List.getLast?_concat]
        rw [h2, List.getLast?_concat] at hz
        cases hz
        exact noEnd_epilog d.epilog e' (by rw [g2]; simp)
  · exact ⟨ts', c, h1, h2, h3, by simpa [toksL] using g1⟩

theorem append_one {α} {a b : List α} {x : α} (h : a ++ b = [x]) : (a = [] ∧ b = [x]) ∨ (a = [x] ∧ b = []) := by
  cases a with
  | nil => exact .inl ⟨rfl, h⟩
  | cons y a =>
    simp only [List.cons_append, List.cons.injEq, List.append_eq_nil_iff] at h
    obtain ⟨rfl, rfl, rfl⟩ := h
    exact .inr ⟨rfl, rfl⟩

theorem mem_lvAtts {l : Lvl} {a} (ha : a ∈ l.atts) : ∀ {ls : List Lvl}, l ∈ ls → a ∈ lvAtts ls
  | [], h => by cases h
  | l1 :: ls, h => by
    simp only [lvAtts, List.mem_append]
    rcases List.mem_cons.mp h with rfl | h
    · exact .inl ha
    · exact .inr (.inr (mem_lvAtts ha h))

theorem beginning_viable {s' : VState D V} {ts rest : List Token} {e : ElementEnd}
    (hs : SchemaOK L env start false) (h0 : StartOK env start) (hu : SchemaUsable L env start)
    (ht : d.Tame) (hm : d.Means node) (hts : d.toks = ts ++ [.elementEnd e] ++ rest)
    (hnew : newValidator env fuel start = .ok s0) (hrun : runToks L n (ts ++ [.elementEnd e]) s0 = .ok (.ok (), s')) :
    ∃ (d' : XDoc) (node' : Node) (more : List Token), d'.toks = ts ++ [.elementEnd e] ++ more ∧ d'.Tame ∧ d'.Means node' ∧ Match L env start [] [node'] ∧
      (Written d.root → Written d'.root) ∧ (Distinct node → Distinct node') := by
  obtain ⟨ts', rest', e1, e2, e3, e4⟩ := doc_cut hts
  obtain ⟨done, dn, ls, hcut, rfl⟩ := cut_exists hm e4 e2
  obtain ⟨f1, _, f3, f4, f5, f6, f7, f8, f9, f10⟩ := hcut.facts
  have f11 := (hcut.inScope ht.body.inScope).2
  generalize hxs : [d.root] = xs at hcut
  generalize hns : [node] = nn at hcut
  cases hcut with
  | @here _ done later dn ln g1 g2 =>
    rcases append_one hxs.symm with ⟨rfl, _⟩ | ⟨rfl, _⟩
    · exact absurd rfl e3
    · refine ⟨{ d with epilog := [] }, node, [], ?_, ⟨ht.body, ht.names⟩, hm, ?_, id, id⟩
      · rw [e1]
        show _ ++ (d.root.toks ++ []) = _
        simp [toksL, lvToks]
      · refine C01_accepted_documents_match (d := { d with epilog := [] }) hs h0 ⟨ht.body, ht.names⟩ hm hnew ?_ (s' := s') (n := n)
        rw [e1] at hrun
        have : XDoc.toks { d with epilog := [] } = d.prolog.map Prolog.tok ++ (toksL [d.root] ++ lvToks []) := by
          show _ ++ (d.root.toks ++ []) = _
          simp [toksL, lvToks]
        rw [this]
        exact hrun
  | @inside _ _ _ pre loc atts kids kns later ln nm as kdone kdn ls' g1 g2 g3 g4 =>
    rcases append_one hxs.symm with ⟨rfl, hr⟩ | ⟨_, hr⟩
    rotate_left
    · cases hr
    simp only [List.cons.injEq, XDoc.root, XNode.elem.injEq] at hr
    obtain ⟨⟨rfl, rfl, rfl, hsc, rfl⟩, rfl⟩ := hr
    generalize hls : (⟨d.pre, d.loc, d.atts, kdone, nm, as, kdn⟩ : Lvl) :: ls' = ls at *
    have hp : ∃ l, ls = l :: ls' := ⟨_, hls.symm⟩
    simp only [toksL, List.nil_append] at e1
    simp only [allAttsL, allTextsL, declsL, List.nil_append] at f1 f3 f11
    obtain ⟨hc, hl, hst, he⟩ := newValidator_ok hnew
    obtain ⟨p, hp0⟩ := newValidator_valid hs hnew
    -- the run over the tokens is a run over the events
    have hb := ht.body
    have hun := (f4 false hb.unsplit).2
    let s1 : VState D V := { s0 with entities := (declared d.prolog).reverse ++ s0.entities }
    have hg : Good d.entities [d.root] := ⟨hb.noDefault, hb.noRef, hb.text⟩
    have hf := follows_levels (L := L) (n := n) hg (s := s1) f8 f1 f3 hun hl
      (fun nm => by rw [entities_ok ht.names]; simp [s1, he]) ⟨p, hp0⟩ (by decide) (by simpa [s1, hst, flat] using f11)
    rw [e1, runToks_prolog (L := L) (n := n) (lvToks ls) d.prolog s0 hp0] at hrun
    have hcur : runR L n s1.cur (lvEvents ls) s1.store = runR L n s0.cur (lvEvents ls) s0.store := rfl
    rw [hcur] at hf
    cases hr : runR L n s0.cur (lvEvents ls) s0.store with
    | error e => rw [hr] at hf; simp only [Follows] at hf; rw [hf] at hrun; cases hrun
    | ok x =>
      obtain ⟨o, st'⟩ := x
      cases o with
      | none => rw [hr] at hf; obtain ⟨err, s2, hf⟩ := hf; rw [hf] at hrun; cases hrun
      | some r =>
        obtain ⟨l0, hl0⟩ := hp
        subst hl0
        obtain ⟨es, hlen, hfill, hmatch⟩ := open_viable hs h0 hu hc hr (f8.endTag f10)
        have hpr : ∀ e ∈ es, ProperL e := fun e he => (hfill e he).1
        let N := 0
        have htame := fill_tame (N := N) (xs := [d.root]) hb hlen hpr f1 f3 hun f10 f11
        have hres : Resolves d.entities [("xml".toList, xmlUri)] (serFill N (l0 :: ls') es) (fillN (l0 :: ls') es) :=
          fill_resolves hlen hpr hun f10 f8 (by show List.lookup _ _ = _; decide) fun l hl d' hd' => by
            refine hb.noDefault d' (nsDecls_sub (fun a ha => f1 a ?_) d' hd')
            exact mem_lvAtts ha hl
        obtain ⟨more, hmore⟩ := fill_toks (N := N) hlen
        cases es with
        | nil => simp at hlen
        | cons e0 es =>
        refine ⟨⟨d.prolog, l0.pre, l0.loc, l0.atts, false, l0.kids ++ (serFill N ls' es ++ Ser.serL N e0), []⟩,
          .elem l0.nm l0.as (l0.kns ++ (fillN ls' es ++ e0)), more, ?_, ⟨htame, ht.names⟩, hres, hmatch ?_, fun hw => ?_, fun hd => ?_⟩
        · rw [e1, List.append_assoc, ← hmore]
          show d.prolog.map Prolog.tok ++ (_ ++ []) = _
          rw [fill_cons]
          simp only [toksL, List.append_nil, XDoc.root]
        · have := (hres.unsplit htame.unsplit).1
          intro x hx
          simp only [fillN, List.mem_singleton] at hx
          subst hx
          exact this.1
        · have := fill_written (N := N) hlen hpr (f5 ⟨hw, trivial⟩).2
          rw [fill_cons] at this
          exact this.1
        · have := fill_distinct hlen hpr (f6 ⟨hd, trivial⟩).2
          exact this.1

end Verif
