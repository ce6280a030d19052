import Verif.Lemmas.SpecsOk
/-
Validating a specification always ends with a specification or an error.
-/
namespace Emio
open Reader Spec

/-- Ends with a value or an error and leaves a proper reader. -/
def Safe {α : Type} (m : M Reader α) (r : Reader) : Prop :=
  (∃ r' e, m r = .err r' e) ∨ ∃ r' a, m r = .ok r' a ∧ r'.Inv

theorem Safe.bind {α β : Type} {m : M Reader α} {f : α → M Reader β} {r : Reader} (h : Safe m r)
    (hf : ∀ r' a, r'.Inv → Safe (f a) r') : Safe (m >>= f) r := by
  rcases h with ⟨r', e, h⟩ | ⟨r', a, h, hi⟩
  · exact Or.inl ⟨r', e, M.bind_err h⟩
  · rcases hf r' a hi with ⟨r2, e, h2⟩ | ⟨r2, b, h2, hi2⟩
    · exact Or.inl ⟨r2, e, by rw [M.bind_ok h]; exact h2⟩
    · exact Or.inr ⟨r2, b, by rw [M.bind_ok h]; exact h2, hi2⟩

theorem safe_pure {α : Type} (a : α) {r : Reader} (h : r.Inv) : Safe (pure a) r := Or.inr ⟨r, a, rfl, h⟩

theorem safe_throw {α : Type} (e : Err) {r : Reader} : Safe (M.throw e : M Reader α) r := Or.inl ⟨r, e, rfl⟩

theorem safe_readChar {r : Reader} (h : r.Inv) : Safe Reader.readChar r := by
  cases hr : r.rest with
  | nil => exact Or.inl ⟨_, _, Reader.At.readChar_nil ⟨h, hr⟩⟩
  | cons c l =>
    have hat : r.At (c :: l) := ⟨h, hr⟩
    exact Or.inr ⟨_, _, hat.readChar, hat.adv1.1⟩

theorem safe_peek {r : Reader} (h : r.Inv) : Safe Reader.peek r := by
  cases hr : r.rest with
  | nil => exact Or.inl ⟨_, _, Reader.At.peek_nil ⟨h, hr⟩⟩
  | cons c l =>
    have hat : r.At (c :: l) := ⟨h, hr⟩
    exact Or.inr ⟨_, _, hat.peek, h⟩

theorem safe_pop {r : Reader} (n : Nat) (h : r.Inv) : Safe (M.modify (fun r => r.pop n)) r :=
  Or.inr ⟨_, _, rfl, by unfold Reader.Inv at *; simp only [Reader.pop]; split <;> simp only <;> omega⟩

theorem safe_unpop {r : Reader} (n : Nat) (h : r.Inv) : Safe (M.modify (fun r => r.unpop n)) r :=
  Or.inr ⟨_, _, rfl, by unfold Reader.Inv at *; simp only [Reader.unpop]; split <;> simp only <;> omega⟩

theorem safe_parse32 {r : Reader} (h : r.Inv) : Safe (Reader.parseInt u32 10) r := by
  rcases parse_unsigned u32 (Or.inr rfl) h with ⟨e, he⟩ | ⟨r', v, hv, _⟩
  · exact Or.inl ⟨_, _, he⟩
  · exact Or.inr ⟨_, _, hv, (parseInt_inv h hv)⟩

theorem safe_specs (s : Specs) {r : Reader} (h : r.Inv) : Safe (validateFormatSpecs s) r := by
  unfold validateFormatSpecs
  refine (safe_readChar h).bind fun r c h => ?_
  split
  · exact safe_pure _ h
  split
  · exact safe_throw _
  unfold Validate.steps
  refine Safe.bind ?_ fun r ⟨s, c⟩ h => Safe.bind ?_ fun r ⟨s, c⟩ h => Safe.bind ?_ fun r ⟨s, c⟩ h => Safe.bind ?_
    fun r ⟨s, c⟩ h => Safe.bind ?_ fun r ⟨s, c⟩ h => Safe.bind ?_ fun r ⟨s, c⟩ h => Safe.bind ?_ fun r ⟨s, c⟩ h => ?_
  · unfold Validate.align
    refine (safe_peek h).bind fun r c2 h => ?_
    split
    · exact (safe_pop 1 h).bind fun r _ h => (safe_readChar h).bind fun r _ h => safe_pure _ h
    split
    · exact (safe_readChar h).bind fun r _ h => safe_pure _ h
    · exact safe_pure _ h
  · unfold Validate.sign
    split
    · exact (safe_readChar h).bind fun r _ h => safe_pure _ h
    · exact safe_pure _ h
  · unfold Validate.alternate
    split
    · exact (safe_readChar h).bind fun r _ h => safe_pure _ h
    · exact safe_pure _ h
  · unfold Validate.zero
    split
    · exact (safe_readChar h).bind fun r _ h => safe_pure _ h
    · exact safe_pure _ h
  · unfold Validate.width
    split
    · refine (safe_unpop 1 h).bind fun r _ h => (safe_parse32 h).bind fun r _ h => ?_
      split
      · exact safe_throw _
      · exact (safe_readChar h).bind fun r _ h => safe_pure _ h
    · exact safe_pure _ h
  · unfold Validate.precision
    split
    · refine Safe.bind (m := M.get) (Or.inr ⟨_, _, rfl, h⟩) fun r _ h => ?_
      split
      · exact safe_throw _
      · refine (safe_parse32 h).bind fun r _ h => ?_
        split
        · exact safe_throw _
        · exact (safe_readChar h).bind fun r _ h => safe_pure _ h
    · exact safe_pure _ h
  · unfold Validate.type
    split
    · exact (safe_readChar h).bind fun r _ h => safe_pure _ h
    · exact safe_pure _ h
  · simp only
    split
    · exact safe_pure _ h
    · exact safe_throw _

theorem safe_validate (ty : CoreTy) {r : Reader} (h : r.Inv) : Safe ty.validate r := by
  unfold CoreTy.validate
  refine (safe_specs {} h).bind fun r s h => ?_
  split
  · exact safe_pure _ h
  · exact safe_throw _

end Emio
