import Verif.Props.FixedSize
import Verif.Props.AllArguments
/-
Property C107: a larger buffer of fixed size never keeps less.
-/
namespace Emio
open Spec BufferImpl

theorem cutCalls_mono : ∀ (calls : List WOp) {room room' : Nat}, room ≤ room' →
    (cutCalls room calls).1 <+: (cutCalls room' calls).1 ∧
      ((cutCalls room calls).2 = true → (cutCalls room' calls).2 = true ∧ (cutCalls room calls).1 = (cutCalls room' calls).1) := by
  intro calls
  induction calls with
  | nil => intro room room' _; exact ⟨List.prefix_refl _, fun _ => ⟨rfl, rfl⟩⟩
  | cons op calls ih =>
    intro room room' h
    unfold cutCalls
    by_cases h1 : op.text.length ≤ room
    · rw [if_pos h1, if_pos (by omega)]
      obtain ⟨g1, g2⟩ := ih (show room - op.text.length ≤ room' - op.text.length by omega)
      refine ⟨(List.prefix_append_right_inj _).2 g1, fun hx => ?_⟩
      obtain ⟨k1, k2⟩ := g2 hx
      exact ⟨k1, by simp only [k2]⟩
    · rw [if_neg h1]
      refine ⟨?_, by simp⟩
      by_cases h2 : op.text.length ≤ room'
      · rw [if_pos h2]
        split
        · exact (List.take_prefix _ _).trans (List.prefix_append _ _)
        · exact List.nil_prefix
      · rw [if_neg h2]
        split
        · exact List.take_prefix_take_left h
        · exact List.nil_prefix

theorem span_settled {str : Str} {args : List FArg} {calls : List WOp} {fail : Option Err} (hf : ∀ op ∈ calls, op.Fine)
    (hto : ∀ {σ : Type} [BufferImpl σ] (s : σ), formatTo str args s = (do execAll calls; stop fail : M σ Unit) s)
    {mem : Str} {ops : List ClientOp} {s : SpanBuf} {t : Str} (hs : client spanReset ops (SpanBuf.new mem, []) = some (s, t)) :
    ∃ s', formatTo str args s = (if (cutCalls (mem.length - t.length) calls).2 then ended fail s' () else .err s' .eof) ∧
      s'.view = t ++ (cutCalls (mem.length - t.length) calls).1 := by
  obtain ⟨s', e1, e2⟩ := span_calls calls hf s t (span_reach hs)
  refine ⟨s', ?_, e2.2.2.2.2.2⟩
  rw [hto]
  split at e1
  · rw [M.bind_ok e1, if_pos ‹_›]
    cases fail <;> rfl
  · rw [M.bind_err e1, if_neg ‹_›]

/-- C107: for every string and any arguments (formatters of the user must use the writer properly), and two spans with any
past: what is kept of the text in a span with less room is a prefix of what is kept in one with more room, and if all of
the text has been written into the first one, the second one gets the same text and the outcome is the same. -/
theorem C107_more_room (str : Str) (args : List Passed) (h : ∀ a ∈ args, a.Proper) :
    (∃ b, AllBad str (args.map Passed.farg) b) ∨
    ∀ (mem mem' : Str) (ops ops' : List ClientOp) (s s' : SpanBuf) (t t' : Str),
      client spanReset ops (SpanBuf.new mem, []) = some (s, t) →
      client spanReset ops' (SpanBuf.new mem', []) = some (s', t') →
      mem.length - t.length ≤ mem'.length - t'.length →
      ∃ u u' p p', (formatTo str (args.map Passed.farg) s).state? = some u ∧
        (formatTo str (args.map Passed.farg) s').state? = some u' ∧ u.view = t ++ p ∧ u'.view = t' ++ p' ∧ p <+: p' ∧
        ((formatTo str (args.map Passed.farg) s).err? ≠ some .eof → p = p' ∧
          (formatTo str (args.map Passed.farg) s').err? = (formatTo str (args.map Passed.farg) s).err?) := by
  rcases settles str args h with hb | ⟨text, fail, calls, _, hf, hto⟩
  · exact Or.inl hb
  refine Or.inr fun mem mem' ops ops' s s' t t' hs hs' hle => ?_
  obtain ⟨u, e1, e2⟩ := span_settled hf hto hs
  obtain ⟨u', e1', e2'⟩ := span_settled hf hto hs'
  obtain ⟨m1, m2⟩ := cutCalls_mono calls hle
  have hst : ∀ (b : Bool) (v : SpanBuf), (if b then ended fail v () else .err v .eof : Run SpanBuf Unit).state? = some v := by
    intro b v
    cases b <;> cases fail <;> rfl
  refine ⟨u, u', _, _, by rw [e1, hst], by rw [e1', hst], e2, e2', m1, fun hne => ?_⟩
  by_cases hc : (cutCalls (mem.length - t.length) calls).2 = true
  · obtain ⟨k1, k2⟩ := m2 hc
    refine ⟨k2, ?_⟩
    rw [e1, e1', if_pos hc, if_pos k1]
    cases fail <;> rfl
  · rw [e1, if_neg hc] at hne
    exact absurd rfl hne

/-- What is kept depends on nothing but the room that is left. -/
theorem C107_same_room (str : Str) (args : List Passed) (h : ∀ a ∈ args, a.Proper) (mem mem' : Str) (ops ops' : List ClientOp)
    (s s' u u' : SpanBuf) (t t' : Str) (hs : client spanReset ops (SpanBuf.new mem, []) = some (s, t))
    (hs' : client spanReset ops' (SpanBuf.new mem', []) = some (s', t'))
    (hroom : mem.length - t.length = mem'.length - t'.length)
    (hu : (formatTo str (args.map Passed.farg) s).state? = some u)
    (hu' : (formatTo str (args.map Passed.farg) s').state? = some u') :
    ∃ p, u.view = t ++ p ∧ u'.view = t' ++ p ∧
      (formatTo str (args.map Passed.farg) s').err? = (formatTo str (args.map Passed.farg) s).err? := by
  rcases settles str args h with ⟨b, hb⟩ | ⟨text, fail, calls, _, hf, hto⟩
  · rw [hb.buffer] at hu
    cases hu
  obtain ⟨v, e1, e2⟩ := span_settled hf hto hs
  obtain ⟨v', e1', e2'⟩ := span_settled hf hto hs'
  rw [hroom] at e1 e2
  have hst : ∀ (b : Bool) (v : SpanBuf), (if b then ended fail v () else .err v .eof : Run SpanBuf Unit).state? = some v := by
    intro b v
    cases b <;> cases fail <;> rfl
  rw [e1, hst] at hu
  rw [e1', hst] at hu'
  cases hu
  cases hu'
  refine ⟨_, e2, e2', ?_⟩
  rw [e1, e1']
  cases (cutCalls (mem'.length - t'.length) calls).2 <;> cases fail <;> rfl

/-- A list of numbers: with room for 4, 5 and 6 characters. -/
example : let args := [Passed.builtin (.value (.seq .int) (.range [.int 1, .int 23]))]
    (∀ a ∈ args, a.Proper) ∧
    (formatTo "{}".toList (args.map Passed.farg) (SpanBuf.new "----".toList)).state?.map (·.view) = some "[1, ".toList ∧
    (formatTo "{}".toList (args.map Passed.farg) (SpanBuf.new "-----".toList)).state?.map (·.view) = some "[1, ".toList ∧
    (formatTo "{}".toList (args.map Passed.farg) (SpanBuf.new "------".toList)).state?.map (·.view) = some "[1, 23".toList := by
  refine ⟨?_, by decide +kernel, by decide +kernel, by decide +kernel⟩
  intro a ha
  simp only [List.mem_cons, List.not_mem_nil, or_false] at ha
  subst ha
  trivial

end Emio
