import Verif.Lemmas.Overflow
import Verif.Props.AnyAccepted
/-
Which fields of a format string fit into a cache of 128 characters.
-/
namespace Emio
open Spec BufferImpl

theorem core_parse_wide (a : CoreArg) {sp : SpecText} (wf : sp.WellFormed) (hp : sp.NumbersPass) {r : Reader} {tail : Str}
    (hat : r.At ((sp.text ++ ['}']) ++ tail)) :
    a.farg.parse r = .ok (r.adv (sp.text ++ ['}']).length) (a.write sp.taken) := by
  have hrest : r.rest = sp.text ++ '}' :: tail := by simpa using hat.2
  have hf := specs_forward_wide wf hp (u := r) ⟨hat.1, hrest⟩
  have hl : (sp.text ++ ['}']).length = sp.text.length + 1 := by simp
  rw [hl]
  show (do let s ← parseFormatSpecs {}; return a.write s : M Reader (Fmt Unit)) r = _
  rw [M.bind_ok (specs_agree hat.1 hf).1]
  rfl

/-- A finite number with more than 128 characters in one piece. -/
def LongNumber (a : CoreArg) (s : Specs) : Prop := ∃ bits, a = .double bits ∧ IsFinite bits ∧ 128 < onePiece s bits

theorem emits_128 {a : CoreArg} {s : Specs} (hok : s.Ok) (hc : a.ty.check s = true) (hv : ValidArg a) {text : Str}
    (h : Emits (a.write s) text 1421) (hs : ¬ LongNumber a s) : Emits (a.write s) text 128 := by
  by_cases hd : ∃ bits, a = .double bits ∧ IsFinite bits
  · obtain ⟨bits, rfl, hf⟩ := hd
    intro ops
    obtain ⟨new, h1, h2, h3, _⟩ := h ops
    refine ⟨new, h1, h2, h3, ?_⟩
    obtain ⟨l, op, r, e1, e2, e3⟩ := float_need hok hc hv hf h1
    have e1 := List.append_cancel_left e1
    have hle : onePiece s bits ≤ 128 := by
      by_contra hgt
      exact hs ⟨bits, rfl, hf, by omega⟩
    intro o ho
    rw [e1] at ho
    rcases List.mem_append.1 ho with ho | ho
    · have := e3 o (by simp [ho]); omega
    · rcases List.mem_cons.1 ho with rfl | ho
      · omega
      · have := e3 o (by simp [ho]); omega
  · have hO : ¬ OctalO a s := by
      intro hO
      obtain ⟨new, e, h1, _⟩ := core_octal a _ hO []
      obtain ⟨new', h2, _⟩ := h []
      rw [h1] at h2
      cases h2
    obtain ⟨text', h'⟩ := core_emits_some a s hok hv hc hO (k := 128)
      ⟨by decide, by decide, fun bits hb hf => absurd ⟨bits, hb, hf⟩ hd⟩
    rw [h.unique h']
    exact h'

theorem taken_ok {a : CoreArg} {sp : SpecText} (wf : sp.WellFormed) (hp : sp.NumbersPass)
    (allows : CoreTy.Allows a.ty sp.reduced) : sp.taken.Ok ∧ a.ty.check sp.taken = true := by
  rw [← reduced_meaning]
  exact ⟨meaning_ok (reduced_fits hp), (allows_iff a.ty (reduced_wellFormed wf)).2 allows⟩

theorem reads_128 {a : CoreArg} {sp : SpecText} (wf : sp.WellFormed) (hp : sp.NumbersPass)
    (allows : CoreTy.Allows a.ty sp.reduced) (hv : ValidArg a) {text : Str}
    (h : a.farg.Reads (sp.text ++ ['}']) text 1421) (hs : ¬ LongNumber a sp.taken) :
    a.farg.Reads (sp.text ++ ['}']) text 128 := by
  intro r tail hat
  obtain ⟨h1, act, h2, h3⟩ := h r tail hat
  refine ⟨h1, act, h2, ?_⟩
  rw [core_parse_wide a wf hp hat] at h2
  obtain ⟨_, rfl⟩ := ok_inj h2
  obtain ⟨g1, g2⟩ := taken_ok wf hp allows
  exact emits_128 g1 g2 hv h3 hs

theorem long_field {a : CoreArg} {sp : SpecText} (wf : sp.WellFormed) (hp : sp.NumbersPass)
    (allows : CoreTy.Allows a.ty sp.reduced) (hv : ValidArg a) (hs : LongNumber a sp.taken) :
    a.farg.Long (sp.text ++ ['}']) 128 := by
  obtain ⟨bits, rfl, hf, hl⟩ := hs
  intro r tail hat r' act hpar ops ops' hact
  rw [core_parse_wide _ wf hp hat] at hpar
  obtain ⟨_, rfl⟩ := ok_inj hpar
  obtain ⟨g1, g2⟩ := taken_ok wf hp allows
  obtain ⟨l, op, r, e1, e2, _⟩ := float_need g1 g2 hv hf hact
  exact ⟨op, by rw [e1]; simp, by omega⟩

end Emio
