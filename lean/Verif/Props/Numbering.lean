import Verif.Lemmas.Local
import Verif.Spec.Numbering
import Verif.Props.Values
/-
Automatic numbering (C26).  The specification is in `Verif.Spec.Numbering`.
-/
namespace Emio
open Spec

/-! ### C26 automatic numbering -/

theorem any_local {a : AnyArg} (ht : a.Typed) (hf : a.TupleFree) : a.farg.Local := by
  cases a with
  | value ty v => exact value_local hf ht
  | dynamic ty v w p => exact dynamic_local hf ht.1 _ _
  | nested str args => exact nested_local _ _

theorem numberFrom_eq (segs : List (Str × Field)) (i : Nat) :
    numberFrom i segs = segs.mapIdx fun j s => (s.1, { s.2 with idx := numeral false 10 (i + j) }) := by
  induction segs generalizing i with
  | nil => rfl
  | cons x segs ih =>
    rw [numberFrom, List.mapIdx_cons, ih]
    simp [Nat.add_assoc, Nat.add_comm 1]

/-- The property for a format string and arguments: the one with numbers is accepted in the same cases, and formatting does
the same on every buffer. -/
def NumberedAlike (t : FormatText) (args : List AnyArg) : Prop :=
  validateStr t.text (args.map AnyArg.farg) = validateStr t.numbered.text (args.map AnyArg.farg) ∧
  (∀ {σ : Type} [BufferImpl σ] (s : σ), formatTo t.text (args.map AnyArg.farg) s =
    formatTo t.numbered.text (args.map AnyArg.farg) s) ∧
  formatStr t.text (args.map AnyArg.farg) = formatStr t.numbered.text (args.map AnyArg.farg)

/-- Automatic numbering is numbering from left to right, for any text in the fields, accepted or not, for any number of
fields and arguments and for values, dynamic specifications and nested format strings; missing are tuples. -/
theorem C26_automatic_numbering_partial (t : FormatText) (auto : t.Automatic) (closed : ∀ f ∈ t.fields, f.Closed)
    (args : List AnyArg) (hn : args.length ≤ 128) (typed : ∀ a ∈ args, a.Typed) (free : ∀ a ∈ args, a.TupleFree) :
    NumberedAlike t args := by
  have h := numbered_formatTo t.segs t.last
    (fun x hx => ⟨auto _ (List.mem_map_of_mem hx), closed _ (List.mem_map_of_mem hx)⟩) (args.map AnyArg.farg)
    (fun a ha => by
      obtain ⟨x, hx, rfl⟩ := List.mem_map.1 ha
      exact any_local (typed x hx) (free x hx)) (by simpa using hn)
  have e : t.numbered.text = segsText (numberFrom 0 t.segs) ++ escBraces t.last := by
    rw [numberFrom_eq]
    simp [FormatText.text, FormatText.numbered, segsText]
  have e2 : t.text = segsText t.segs ++ escBraces t.last := rfl
  rw [← e, ← e2] at h
  refine ⟨h.1, h.2, ?_⟩
  unfold formatStr
  simp only [h.2]

/-- The same, spelled out for core values. -/
theorem C26_core_values (t : FormatText) (auto : t.Automatic) (closed : ∀ f ∈ t.fields, f.Closed)
    (args : List CoreArg) (hn : args.length ≤ 128) :
    formatStr t.text (fargs args) = formatStr t.numbered.text (fargs args) := by
  have h := numbered_formatTo t.segs t.last
    (fun x hx => ⟨auto _ (List.mem_map_of_mem hx), closed _ (List.mem_map_of_mem hx)⟩) (fargs args)
    (fun a ha => by
      obtain ⟨x, hx, rfl⟩ := List.mem_map.1 ha
      exact core_local) (by simpa [fargs] using hn)
  have e : t.numbered.text = segsText (numberFrom 0 t.segs) ++ escBraces t.last := by
    rw [numberFrom_eq]
    simp [FormatText.text, FormatText.numbered, segsText]
  have e2 : t.text = segsText t.segs ++ escBraces t.last := rfl
  rw [← e, ← e2] at h
  unfold formatStr
  simp only [h.2]

/-- `"a{{{:>4}b{}"`. -/
def automaticExample : FormatText := ⟨[(['a', '{'], ⟨[], true, ['>', '4', '}']⟩), (['b'], ⟨[], false, ['}']⟩)], []⟩

example : automaticExample.Automatic ∧ (∀ f ∈ automaticExample.fields, f.Closed) ∧
    automaticExample.numbered.text = "a{{{0:>4}b{1}".toList ∧
    formatStr automaticExample.text (fargs [.int i32 7, .bool true]) = .ok () "a{   7btrue".toList := by
  refine ⟨by intro f hf; simp [automaticExample, FormatText.fields] at hf; rcases hf with rfl | rfl <;> rfl, ?_,
    by decide +kernel, by decide +kernel⟩
  intro f hf
  simp [automaticExample, FormatText.fields] at hf
  rcases hf with rfl | rfl
  · exact ⟨['>', '4'], rfl, by decide, by simp⟩
  · exact ⟨[], rfl, by decide, by simp⟩

/-- The property including tuples. -/
def AutomaticNumbering : Prop :=
  ∀ (t : FormatText), t.Automatic → (∀ f ∈ t.fields, f.Closed) → ∀ (args : List AnyArg), args.length ≤ 128 →
    (∀ a ∈ args, a.Typed) → NumberedAlike t args

/-- Tuples skip as many characters as stand before the end of their field, so that the number of the argument makes a
difference (compare C54). -/
theorem C26_tuples_violated : ¬ AutomaticNumbering := by
  intro h
  have h1 := (h ⟨[([], ⟨[], false, ['}']⟩)], "abcdefgh".toList⟩
    (by intro f hf; simp [FormatText.fields] at hf; subst hf; rfl)
    (by intro f hf; simp [FormatText.fields] at hf; subst hf; exact ⟨[], rfl, by decide, fun _ => rfl⟩)
    [.value (.tuple false [.int, .int]) (.tuple [.int 1, .int 2])] (by decide)
    (by intro a ha; simp at ha; subst ha; exact aPair_typed)).2.2
  have h2 : formatStr "{}abcdefgh".toList [FVal.farg (.tuple false [.int, .int]) (.tuple [.int 1, .int 2])] ≠
    formatStr "{0}abcdefgh".toList [FVal.farg (.tuple false [.int, .int]) (.tuple [.int 1, .int 2])] := by decide +kernel
  exact h2 h1

end Emio
