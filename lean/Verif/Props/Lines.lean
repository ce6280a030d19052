import Verif.Props.PrintCalls
import Verif.Props.Records
/-
C101, seen by who reads what was printed: the lines of all threads can be told apart again.
-/
namespace Emio
open Spec

/-- Steps that are images of steps. -/
theorem interleaving_map {α β : Type} (f : α → β) : ∀ {threads : List (List β)} {order : List β}, Interleaving threads order →
    ∀ sources : List (List α), threads = sources.map (fun t => t.map f) →
    ∃ order', Interleaving sources order' ∧ order = order'.map f := by
  intro threads order h
  induction h with
  | done threads h =>
    rintro sources rfl
    refine ⟨[], .done _ fun t ht => ?_, rfl⟩
    have := h (t.map f) (List.mem_map_of_mem ht)
    simpa using this
  | step threads i x rest order h more ih =>
    rintro sources rfl
    rw [List.getElem?_map] at h
    cases hs : sources[i]? with
    | none => rw [hs] at h; cases h
    | some t =>
      rw [hs] at h
      cases t with
      | nil => simp at h
      | cons y t =>
        simp only [Option.map_some, List.map_cons, Option.some.injEq, List.cons.injEq] at h
        obtain ⟨rfl, rfl⟩ := h
        obtain ⟨order', h1, rfl⟩ := ih (sources.set i t) (by rw [List.map_set])
        exact ⟨y :: order', .step _ i y t _ hs h1, rfl⟩

theorem interleaving_mem {α : Type} {threads : List (List α)} {order : List α} (h : Interleaving threads order) :
    ∀ x ∈ order, ∃ t ∈ threads, x ∈ t := by
  induction h with
  | done => simp
  | step threads i x rest order h more ih =>
    intro y hy
    rcases List.mem_cons.1 hy with rfl | hy
    · exact ⟨_, List.mem_of_getElem? h, by simp⟩
    · obtain ⟨t, ht, hyt⟩ := ih y hy
      rcases List.mem_or_eq_of_mem_set ht with ht | rfl
      · exact ⟨t, ht, hyt⟩
      · exact ⟨_, List.mem_of_getElem? h, by simp [hyt]⟩

/-- C101, read back: if all threads print lines with `println` that have no new line of their own and fit into the cache,
then a reader of the stream that reads up to each new line gets all these lines unharmed, those of each thread in the order in
which it printed them.  Missing: longer lines. -/
theorem C101_lines_partial (cache : Str) (hc : cache ≠ []) (threads : List (List (Printed × Str)))
    (made : ∀ t ∈ threads, ∀ p ∈ t, p.1.Made cache)
    (lines : ∀ t ∈ threads, ∀ p ∈ t, p.1.line = p.2 ++ ['\n'] ∧ '\n' ∉ p.2)
    (short : ∀ t ∈ threads, ∀ p ∈ t, p.2.length < cache.length)
    (order : List Str) (h : Interleaving (threads.map fun t => t.flatMap (·.1.calls)) order) :
    ∃ texts : List Str, Interleaving (threads.map fun t => t.map (·.2)) texts ∧
      readRecord '\n' (List.replicate texts.length .text) (.ofStr order.flatten) =
        .ok ⟨order.flatten, order.flatten.length⟩ (texts.map Item.text) := by
  obtain ⟨whole, h1, _, h2⟩ := C101_never_mixed_partial cache hc (threads.map fun t => t.map Prod.fst)
    (by
      intro t ht p hp
      obtain ⟨t', ht', rfl⟩ := List.mem_map.1 ht
      obtain ⟨q, hq, rfl⟩ := List.mem_map.1 hp
      exact made t' ht' q hq)
    (by
      intro t ht p hp
      obtain ⟨t', ht', rfl⟩ := List.mem_map.1 ht
      obtain ⟨q, hq, rfl⟩ := List.mem_map.1 hp
      have := short t' ht' q hq
      rw [(lines t' ht' q hq).1]
      simp
      omega)
    order (by
      have e : (threads.map fun t => t.map Prod.fst).map (fun t => t.flatMap Printed.calls) =
          threads.map fun t => t.flatMap (·.1.calls) := by
        rw [List.map_map]
        refine List.map_congr_left fun t _ => ?_
        simp only [Function.comp, List.flatMap_map]
      rw [e]
      exact h)
  obtain ⟨texts, h3, rfl⟩ := interleaving_map (· ++ ['\n']) h1 (threads.map fun t => t.map (·.2)) (by
    rw [List.map_map, List.map_map]
    refine List.map_congr_left fun t ht => ?_
    simp only [Function.comp, List.map_map]
    refine List.map_congr_left fun p hp => ?_
    exact (lines t ht p hp).1)
  refine ⟨texts, h3, ?_⟩
  have h4 : ∀ x ∈ texts, '\n' ∉ x := by
    intro x hx
    obtain ⟨t, ht, hxt⟩ := interleaving_mem h3 x hx
    obtain ⟨t', ht', rfl⟩ := List.mem_map.1 ht
    obtain ⟨q, hq, rfl⟩ := List.mem_map.1 hxt
    exact (lines t' ht' q hq).2
  have h5 : ∀ texts : List Str, recordText '\n' (texts.map fun x => (ItemKind.text, Item.text x)) =
      (texts.map (· ++ ['\n'])).flatten := by
    intro texts
    induction texts with
    | nil => rfl
    | cons x texts ih => simp [recordText, ih]
  have h6 := C102_read_back_partial '\n' (texts.map fun x => (ItemKind.text, Item.text x)) (by
    intro x hx
    obtain ⟨y, hy, rfl⟩ := List.mem_map.1 hx
    exact h4 y hy) (fun hb => absurd hb (by decide)) [] []
  rw [h5] at h6
  rw [h2]
  simp only [List.map_map, List.nil_append, List.append_nil, List.length_nil, Nat.zero_add] at h6
  have h7 : List.map (Prod.fst ∘ fun x => (ItemKind.text, Item.text x)) texts = List.replicate texts.length .text := by
    rw [List.eq_replicate_iff]
    refine ⟨by simp, fun k hk => ?_⟩
    obtain ⟨_, _, rfl⟩ := List.mem_map.1 hk
    rfl
  rw [h7] at h6
  exact h6

/-- The hypotheses are met: two threads with one line each. -/
example : (∀ t ∈ [[((⟨⟨true, "ab".toList, []⟩, "ab\n".toList, ["ab\n".toList]⟩ : Printed), "ab".toList)],
      [(⟨⟨true, "{}".toList, [.builtin (.value .int (.int 42))]⟩, "42\n".toList, ["42\n".toList]⟩, "42".toList)]],
    ∀ p ∈ t, p.1.Made (List.replicate 8 ' ') ∧ p.1.line = p.2 ++ ['\n'] ∧ '\n' ∉ p.2 ∧ p.2.length < 8) := by
  intro t ht p hp
  simp only [List.mem_cons, List.not_mem_nil, or_false] at ht
  rcases ht with rfl | rfl <;> simp only [List.mem_cons, List.not_mem_nil, or_false] at hp <;> subst hp
  · exact ⟨⟨by simp, ⟨"ab".toList, by decide +kernel, by decide⟩, by decide +kernel⟩, by decide, by decide, by decide⟩
  · exact ⟨⟨by simp [Passed.Proper], ⟨"42".toList, by decide +kernel, by decide⟩, by decide +kernel⟩, by decide, by decide,
      by decide⟩

end Emio
