import Verif.Proof.TotalRun
import Verif.Proof.CompileFault
import Verif.Proof.Fuel
import Verif.Proof.Doc
/-
Totality of whole runs: from `Validator::new` through any framed sequence of tokenizer items.
-/
set_option linter.unusedSectionVars false
namespace Verif
variable {D V : Type} [DecidableEq D] [DecidableEq V] (L : Lib D V)

/-- is this the beginning of a start tag -/
def Event.starts : Event → Bool
  | some (.elementStart _ _) => true
  | _ => false

/-- what a suffix of a framed sequence satisfies; `b`: a start tag has been seen -/
def FramedFrom (b : Bool) (es : List Event) : Prop :=
  ∀ before t after, es = before ++ some t :: after → t.needsElement = true →
    b = true ∨ ∃ p l, some (Token.elementStart p l) ∈ before

theorem FramedFrom.tail {b e es} (h : FramedFrom b (e :: es)) :
    FramedFrom (b || e.starts) es := by
  intro before t after he ht
  rcases h (e :: before) t after (by simp [he]) ht with h | ⟨p, l, h⟩
  · left; simp [h]
  · rcases List.mem_cons.mp h with rfl | h
    · left; simp [Event.starts]
    · exact Or.inr ⟨p, l, h⟩

theorem total_events : ∀ (es : List Event) (s : VState D V) (b : Bool), VInv s → (b = true → s.stack ≠ []) →
    FramedFrom b es → Total (fun n => runEvents L n es) s (fun rs _ => rs.length = es.length)
  | [], s, b, _, _, _ => .pure rfl
  | e :: es, s, b, hi, hs, hf => by
    have cont : ∀ r s', VInv s' → ((b || e.starts) = true →
        s'.stack ≠ []) → Total (fun n => runEvents L n es >>= fun rs => pure (r :: rs)) s'
          (fun rs _ => rs.length = (e :: es).length) := fun r s' hi' hs' =>
      (total_events es s' _ hi' hs' hf.tail).bind fun rs s'' hl => .pure (by simp [hl])
    cases e with
    | none =>
      refine Total.bind (P := fun _ s' => s' = s) (.pure rfl) fun r s' h => ?_
      subst h; exact cont r _ hi (by simpa [Event.starts] using hs)
    | some t =>
      have hne : t.needsElement = true → s.stack ≠ [] := fun ht => by
        rcases hf [] t es rfl ht with h | ⟨p, l, h⟩
        · exact hs h
        · cases h
      refine Total.bind (total_validate L t hi hne) fun r s' h => cont r s' h.1 fun hb => h.2 ?_
      rw [Bool.or_eq_true] at hb
      rcases hb with hb | hb
      · exact Or.inl (hs hb)
      · refine Or.inr ?_
        cases t <;> simp [Event.starts] at hb ⊢

theorem newValidator_inv {env : Env D V} {c : Bool} {n : Nat} {start : Pattern D V} {s : VState D V}
    (hs : SchemaOK L env start c) (h : newValidator env n start = .ok s) : VInv s := by
  obtain ⟨hc, _⟩ := newValidator_ok h
  obtain ⟨hrep, hall, hmemo⟩ := compile_rep hs.guarded hc
  obtain ⟨Q, hQ, hw⟩ := hs
  exact ⟨hmemo, _, _, 1, fun i hi => (ctxOff hall hQ).hE i hi, hrep.tyOff hall hw⟩

end Verif
