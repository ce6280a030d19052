import Verif.Props.Values
/-
Property C53: maps.
-/
namespace Emio
open Spec

/-- C53, maps: the entries are rendered as key, colon and value, separated by commas, in curly brackets unless `n` is given.
With `inner = some (m, elem)` there is a specification for the entries, which may have one for keys and values in turn; texts
are quoted without. -/
theorem C53_map (n : Bool) (kt vt : FTy) (inner : Option (Bool × Option Str))
    (takes : Spec.Takes kt ((inner.bind (·.2)).getD []) ∧ Spec.Takes vt ((inner.bind (·.2)).getD []))
    (entries : List (FVal × FVal)) (typed : ∀ e ∈ entries, HasType e.1 kt ∧ HasType e.2 vt)
    (texts : List (Str × Str)) (number : texts.length = entries.length)
    (each : ∀ (i : Nat) (e : FVal × FVal) (text : Str × Str), entries[i]? = some e → texts[i]? = some text →
      formatStr (elementField kt (inner.bind (·.2))) [e.1.farg kt] = .ok () text.1 ∧
      formatStr (elementField vt (inner.bind (·.2))) [e.2.farg vt] = .ok () text.2) :
    formatStr (fieldText (rangeSpec n (inner.map fun x => rangeSpec x.1 x.2)))
        [(FVal.range (entries.map fun e => .tuple [e.1, e.2])).farg (.map kt vt)] =
      .ok () (bracketed n "{".toList "}".toList (", ".toList.intercalate (texts.map fun t => t.1 ++ ": ".toList ++ t.2))) := by
  have hpair : ∀ e ∈ entries, HasType (.tuple [e.1, e.2]) (.tuple true [kt, vt]) := by
    intro e he
    refine .tuple rfl ?_
    intro i v t hv ht
    rcases i with _ | _ | i
    · cases hv; cases ht; exact (typed e he).1
    · cases hv; cases ht; exact (typed e he).2
    · simp at hv
  have hts : ∀ t ∈ [kt, vt], Spec.Takes t ((inner.bind (·.2)).getD []) := by
    intro t ht
    simp only [List.mem_cons, List.not_mem_nil, or_false] at ht
    rcases ht with rfl | rfl
    · exact takes.1
    · exact takes.2
  have hin : (inner.map fun x => rangeSpec x.1 x.2).getD [] =
      rangeSpec (inner.elim false (·.1)) (inner.bind (·.2)) := by
    cases inner <;> rfl
  have htake : Spec.Takes (.tuple true [kt, vt]) ((inner.map fun x => rangeSpec x.1 x.2).getD []) := by
    rw [hin]
    exact .tuple hts (by simp)
  refine (alone_iff (.range ?_) (.range htake)).2 ?_
  · intro v hv
    obtain ⟨e, he, rfl⟩ := List.mem_map.1 hv
    exact hpair e he
  · refine Renders.range (R := Written) (curly := true) (q := false) (n := n) (vs := entries.map fun e => .tuple [e.1, e.2])
      (elem := inner.map fun x => rangeSpec x.1 x.2) (texts := texts.map fun t => t.1 ++ ": ".toList ++ t.2)
      (by simpa using number) ?_
    intro i v text hv ht
    rw [List.getElem?_map] at hv ht
    obtain ⟨e, he, rfl⟩ := Option.map_eq_some_iff.1 hv
    obtain ⟨t, hti, rfl⟩ := Option.map_eq_some_iff.1 ht
    have hty := typed e (List.mem_of_getElem? he)
    obtain ⟨h1, h2⟩ := each i e t he hti
    have := Renders.entry (R := Written) (ts := [kt, vt]) (vs := [e.1, e.2]) (texts := [t.1, t.2])
      (q := (inner.map fun x => rangeSpec x.1 x.2).isNone) (n := inner.elim false (·.1)) (elem := inner.bind (·.2)) rfl (by
        intro j ty w x hj hw hx
        rcases j with _ | _ | j
        · cases hj; cases hw; cases hx
          exact (element_iff hty.1 takes.1).1 h1
        · cases hj; cases hw; cases hx
          exact (element_iff hty.2 takes.2).1 h2
        · simp at hj)
    rw [hin]
    simpa [List.intercalate, List.intersperse] using this

/-- A map from texts to numbers: the hypotheses are met. -/
example : formatStr "{:}".toList [(FVal.range [.tuple [.string "a", .int 1], .tuple [.string "b", .int 2]]).farg
    (.map .string .int)] = .ok () "{\"a\": 1, \"b\": 2}".toList := by
  refine C53_map false .string .int none ⟨takes_nil _, takes_nil _⟩ [(.string "a", .int 1), (.string "b", .int 2)] ?_
    [("\"a\"".toList, "1".toList), ("\"b\"".toList, "2".toList)] rfl ?_
  · intro e he
    simp only [List.mem_cons, List.not_mem_nil, or_false] at he
    rcases he with rfl | rfl <;> exact ⟨HasType.core ⟨by decide, by decide⟩, HasType.core ⟨by decide, by decide⟩⟩
  · intro i e text he ht
    rcases i with _ | _ | i
    · cases he; cases ht; exact ⟨by decide +kernel, by decide +kernel⟩
    · cases he; cases ht; exact ⟨by decide +kernel, by decide +kernel⟩
    · simp at he

end Emio
