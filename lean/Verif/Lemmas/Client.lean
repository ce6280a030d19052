import Verif.Spec.Client
import Verif.Lemmas.Buffer
/- Helper lemmas about clients of buffers. -/
namespace Emio
open BufferImpl

section
variable {σ : Type} [BufferImpl σ]

theorem client_step_rep (L : Lawful σ) (hF : ∀ s t, L.Fail s t → L.Rep s t) (special : σ × Str → Option (σ × Str))
    (hS : ∀ s t, L.Rep s t → ∃ s' t', special (s, t) = some (s', t') ∧ L.Rep s' t') (op : ClientOp) (s : σ) (t : Str)
    (h : L.Rep s t) : ∃ s' t', op.step special (s, t) = some (s', t') ∧ L.Rep s' t' := by
  cases op with
  | exact d =>
    unfold ClientOp.step
    simp only
    cases hm : getWriteAreaOf d.length s with
    | ok s' a =>
      obtain ⟨hl, hst⟩ := L.of_ok h hm
      obtain ⟨s2, h2, hr⟩ := hst d rfl
      refine ⟨s2, t ++ d, ?_, hr⟩
      simp only [if_pos hl, h2, Option.map_some]
    | err s' e => exact ⟨s', t, rfl, hF _ _ (L.of_err h hm).2⟩
    | bad b => exact (L.of_bad h hm).elim
  | upTo d =>
    unfold ClientOp.step
    simp only
    cases hm : getWriteAreaOfMax d.length s with
    | ok s' a =>
      obtain ⟨hl, _, hst, _⟩ := L.max_ok h hm
      obtain ⟨s2, h2, hr⟩ := hst (d.take a.len) (by simp; omega)
      refine ⟨s2, t ++ d.take a.len, ?_, hr⟩
      simp only [if_pos hl, h2, Option.map_some]
    | err s' e => exact ⟨s', t, rfl, hF _ _ (L.max_err h hm).2⟩
    | bad b => exact (L.max_bad h hm).elim
  | special => exact hS s t h

theorem client_rep (L : Lawful σ) (hF : ∀ s t, L.Fail s t → L.Rep s t) (special : σ × Str → Option (σ × Str))
    (hS : ∀ s t, L.Rep s t → ∃ s' t', special (s, t) = some (s', t') ∧ L.Rep s' t') :
    ∀ (ops : List ClientOp) (s : σ) (t : Str), L.Rep s t →
      ∃ s' t', client special ops (s, t) = some (s', t') ∧ L.Rep s' t' := by
  intro ops
  induction ops with
  | nil => intro s t h; exact ⟨s, t, rfl, h⟩
  | cons op ops ih =>
    intro s t h
    obtain ⟨s1, t1, h1, hr1⟩ := client_step_rep L hF special hS op s t h
    obtain ⟨s2, t2, h2, hr2⟩ := ih s1 t1 hr1
    exact ⟨s2, t2, by rw [client, h1, Option.bind_some, h2], hr2⟩

/-- Invariant form: every state a client reaches satisfies the contract. -/
theorem client_reach (L : Lawful σ) (hF : ∀ s t, L.Fail s t → L.Rep s t) (special : σ × Str → Option (σ × Str))
    (hS : ∀ s t, L.Rep s t → ∃ s' t', special (s, t) = some (s', t') ∧ L.Rep s' t') {ops : List ClientOp} {s0 s : σ}
    {t0 t : Str} (h0 : L.Rep s0 t0) (h : client special ops (s0, t0) = some (s, t)) : L.Rep s t := by
  obtain ⟨s', t', h1, hr⟩ := client_rep L hF special hS ops s0 t0 h0
  rw [h1] at h; cases h; exact hr

/-- With a buffer that grants every request in full. -/
theorem client_all (L : Lawful σ) (hA : Accepts L none none) (clears : Bool) (special : σ × Str → Option (σ × Str))
    (hS : ∀ s t, L.Rep s t → ∃ s', special (s, t) = some (s', if clears then [] else t) ∧
      L.Rep s' (if clears then [] else t)) :
    ∀ (ops : List ClientOp) (s : σ) (t : Str), L.Rep s t →
      ∃ s', client special ops (s, t) = some (s', clientText clears ops t) ∧ L.Rep s' (clientText clears ops t) := by
  intro ops
  induction ops with
  | nil => intro s t h; exact ⟨s, rfl, h⟩
  | cons op ops ih =>
    intro s t h
    cases op with
    | exact d =>
      obtain ⟨s1, a, hm⟩ := hA.of_ok h (n := d.length) trivial trivial
      obtain ⟨hl, hst⟩ := L.of_ok h hm
      obtain ⟨s2, h2, hr⟩ := hst d rfl
      obtain ⟨s3, h3, hr3⟩ := ih s2 _ hr
      refine ⟨s3, ?_, hr3⟩
      rw [client, ClientOp.step]
      simp only [hm, if_pos hl, h2, Option.map_some, Option.bind_some]
      exact h3
    | upTo d =>
      obtain ⟨s1, a, hm, hl⟩ := hA s t d.length h trivial
      have hl := hl trivial
      obtain ⟨_, _, hst, _⟩ := L.max_ok h hm
      obtain ⟨s2, h2, hr⟩ := hst d hl.symm
      obtain ⟨s3, h3, hr3⟩ := ih s2 _ hr
      refine ⟨s3, ?_, hr3⟩
      have htk : d.take a.len = d := List.take_of_length_le (by omega)
      rw [client, ClientOp.step]
      simp only [hm, htk, h2, Option.map_some, if_pos (show a.len ≤ d.length by omega), Option.bind_some]
      exact h3
    | special =>
      obtain ⟨s1, h1, hr1⟩ := hS s t h
      obtain ⟨s3, h3, hr3⟩ := ih s1 _ hr1
      refine ⟨s3, ?_, hr3⟩
      rw [client, ClientOp.step, h1, Option.bind_some]
      exact h3

end
end Emio
