import Verif.Props.Ordered
import Verif.Spec.Recover
/-
Property C93: an integer can be read off its text, whatever the specification is.
-/
namespace Emio
open Spec

theorem numeralValue_append_skip (b : Nat) (p q : Str) (h : ∀ c ∈ p, symbolValue b c = none) :
    numeralValue b (p ++ q) = numeralValue b q ∧ numeralValue b (q ++ p) = numeralValue b q := by
  have : p.filterMap (symbolValue b) = [] := by
    rw [List.filterMap_eq_nil_iff]
    exact h
  unfold numeralValue
  rw [List.filterMap_append, List.filterMap_append, this]
  simp

theorem denote_zero (b : Nat) (ds : List Nat) : denote b (0 :: ds) = denote b ds := by
  unfold denote
  simp

theorem numeralValue_zero (b : Nat) (hb : 2 ≤ b) (q : Str) : numeralValue b ('0' :: q) = numeralValue b q := by
  have : symbolValue b '0' = some 0 := by
    unfold symbolValue
    simp [Option.filter]
    omega
  unfold numeralValue
  rw [List.filterMap_cons, this]
  exact denote_zero _ _

theorem numeralValue_zeros (b : Nat) (hb : 2 ≤ b) (k : Nat) (q : Str) :
    numeralValue b (List.replicate k '0' ++ q) = numeralValue b q := by
  induction k with
  | zero => rfl
  | succ k ih => rw [List.replicate_succ, List.cons_append, numeralValue_zero b hb, ih]

theorem minus_value (b : Nat) : symbolValue b '-' = none := by unfold symbolValue; simp

/-- A number surrounded by harmless characters. -/
theorem numberIn_parts {s : Specs} (n : Int) (L R : Str) (k : Nat) (hL : ∀ c ∈ L, Harmless (baseOf s.type) c)
    (hR : ∀ c ∈ R, Harmless (baseOf s.type) c) :
    numberIn (baseOf s.type) (L ++ (signOf s (n < 0) ++ prefixOf s n ++ List.replicate k '0' ++
      numeral (s.type == 'X') (baseOf s.type) n.natAbs) ++ R) = n := by
  obtain ⟨hb, hb'⟩ := base_ok s.type
  obtain ⟨hnum, hval⟩ := numeral_value (s.type == 'X') (baseOf s.type) n.natAbs hb hb'
  have hsign : ∀ c ∈ signOf s (n < 0), symbolValue (baseOf s.type) c = none := by
    intro c hc
    have : c = '-' ∨ c = '+' ∨ c = ' ' := by
      unfold signOf at hc
      split_ifs at hc <;> simp at hc <;> simp [hc]
    rcases this with rfl | rfl | rfl <;> unfold symbolValue <;> simp
  have hpre : ∀ q, numeralValue (baseOf s.type) (prefixOf s n ++ q) = numeralValue (baseOf s.type) q := by
    intro q
    unfold prefixOf
    split
    · rename_i h
      rw [List.cons_append, numeralValue_zero _ hb]
      refine (numeralValue_append_skip _ [s.type] q ?_).1
      intro c hc
      rw [List.mem_singleton] at hc
      rw [hc]
      rcases h.2 with h | h | h | h <;> rw [h] <;> decide
    · split
      · exact numeralValue_zero _ hb q
      · rfl
  have hv : numeralValue (baseOf s.type) (L ++ (signOf s (n < 0) ++ prefixOf s n ++ List.replicate k '0' ++
      numeral (s.type == 'X') (baseOf s.type) n.natAbs) ++ R) = n.natAbs := by
    rw [(numeralValue_append_skip _ R _ fun c hc => (hR c hc).1).2, (numeralValue_append_skip _ L _ fun c hc => (hL c hc).1).1,
      List.append_assoc, List.append_assoc, (numeralValue_append_skip _ _ _ hsign).1, hpre, numeralValue_zeros _ hb, hval]
  have hm : '-' ∈ L ++ (signOf s (n < 0) ++ prefixOf s n ++ List.replicate k '0' ++
      numeral (s.type == 'X') (baseOf s.type) n.natAbs) ++ R ↔ n < 0 := by
    constructor
    · intro h
      simp only [List.mem_append] at h
      rcases h with (h | ((h | h) | h) | h) | h
      · exact absurd rfl (hL _ h).2
      · by_contra hn
        unfold signOf at h
        simp only [hn, decide_false, Bool.false_eq_true, if_false] at h
        split_ifs at h <;> simp at h
      · exfalso
        unfold prefixOf at h
        split_ifs at h with h1 h2
        · simp at h
          rcases h1.2 with h2 | h2 | h2 | h2 <;> rw [h2] at h <;> exact absurd h (by decide)
        · simp at h
        · simp at h
      · simp at h
      · have := hnum.2 _ h
        rw [minus_value] at this
        simp at this
      · exact absurd rfl (hR _ h).2
    · intro h
      simp [signOf, h]
  unfold numberIn
  rw [hv]
  by_cases hn : n < 0
  · rw [if_pos (hm.2 hn)]; omega
  · rw [if_neg (fun h => hn (hm.1 h))]; omega

theorem numberIn_intText {s : Specs} (hc : s.type ≠ 'c') (hf : s.zeroFlag = true ∨ Harmless (baseOf s.type) s.fill) (n : Int) :
    numberIn (baseOf s.type) (intText s n) = n := by
  unfold intText paddedNumber
  rw [if_neg hc]
  split
  · have := numberIn_parts (s := s) n [] [] (fillCount s (signOf s (n < 0) ++ prefixOf s n ++
      numeral (s.type == 'X') (baseOf s.type) n.natAbs).length) (by simp) (by simp)
    simpa using this
  · rename_i hz
    have hfill := hf.resolve_left hz
    have hrep : ∀ k, ∀ c ∈ List.replicate k s.fill, Harmless (baseOf s.type) c := by
      intro k c h
      rw [(List.mem_replicate.1 h).2]
      exact hfill
    have key := fun i j => numberIn_parts (s := s) n (List.replicate i s.fill) (List.replicate j s.fill) 0 (hrep i) (hrep j)
    unfold padded surround
    generalize fillCount s (signOf s (n < 0) ++ prefixOf s n ++ numeral (s.type == 'X') (baseOf s.type) n.natAbs).length = k
    cases (if s.align = .none then Align.right else s.align) with
    | none => simpa using key 0 0
    | left => simpa using key 0 k
    | right => simpa using key k 0
    | center => simpa using key (k / 2) (k - k / 2)

/-- C93: whatever the specification of an integer is (but for the type `c`), the number can be read off the text, if the fill
character is neither a digit of the base nor a minus sign. -/
theorem C93_recovered (ty : IntTy) (n : Int) (hty : ty.Std) (hn : ty.Holds n) (t : SpecText) (wf : t.WellFormed)
    (fits : t.Fits) (hal : CoreTy.Allows (.int ty) t) (hd : ∀ c ∈ t.type, c ∈ digitTypes)
    (hfill : ∀ c ∈ t.fill, Harmless (baseOf t.meaning.type) c) :
    ∃ text, formatStr ("{:".toList ++ t.text ++ "}".toList) [(CoreArg.int ty n).farg] = .ok () text ∧
      numberIn (baseOf t.meaning.type) text = n := by
  have hO : t.type ≠ some 'O' := fun h => absurd (hd 'O' h) (by decide)
  have hc : t.meaning.type ≠ 'c' := by
    intro h
    exact absurd (hd 'c' ((meaning_type_some wf 'c' (by decide)).1 h)) (by decide)
  refine ⟨_, C30_integers ty n hty hn t wf fits hal hO, numberIn_intText hc ?_ n⟩
  have hspace : Harmless (baseOf t.meaning.type) ' ' := ⟨by unfold symbolValue; simp, by decide⟩
  by_cases ha : t.align.isSome = true
  · right
    have : t.meaning.fill = t.fill.getD ' ' := by simp [SpecText.meaning, ha]
    rw [this]
    cases h : t.fill with
    | none => exact hspace
    | some c => exact hfill c (by simp [h])
  · by_cases hz : t.zero = true
    · left
      simp [SpecText.meaning, ha, hz]
    · right
      have : t.meaning.fill = ' ' := by simp [SpecText.meaning, ha, hz]
      rw [this]
      exact hspace

/-- C93: so integers of any types with the same text are equal. -/
theorem C93_told_apart (ty ty' : IntTy) (n m : Int) (hty : ty.Std) (hty' : ty'.Std) (hn : ty.Holds n) (hm : ty'.Holds m)
    (t : SpecText) (wf : t.WellFormed) (fits : t.Fits) (hal : CoreTy.Allows (.int ty) t) (hal' : CoreTy.Allows (.int ty') t)
    (hd : ∀ c ∈ t.type, c ∈ digitTypes) (hfill : ∀ c ∈ t.fill, Harmless (baseOf t.meaning.type) c) :
    formatStr ("{:".toList ++ t.text ++ "}".toList) [(CoreArg.int ty n).farg] =
      formatStr ("{:".toList ++ t.text ++ "}".toList) [(CoreArg.int ty' m).farg] ↔ n = m := by
  obtain ⟨a, ha, ra⟩ := C93_recovered ty n hty hn t wf fits hal hd hfill
  obtain ⟨b, hb, rb⟩ := C93_recovered ty' m hty' hm t wf fits hal' hd hfill
  have hO : t.type ≠ some 'O' := fun h => absurd (hd 'O' h) (by decide)
  constructor
  · intro h
    have e : (Run.ok () a : Run Unit Str) = .ok () b := ha.symm.trans (h.trans hb)
    have e' : a = b := by cases e; rfl
    rw [← ra, ← rb, e']
  · rintro rfl
    rw [C30_integers ty n hty hn t wf fits hal hO, C30_integers ty' n hty' hm t wf fits hal' hO]

/-- `"{:*^#9x}"` of -30. -/
example : ∃ text, formatStr "{:*^#9x}".toList [(CoreArg.int i32 (-30)).farg] = .ok () text ∧ numberIn 16 text = -30 :=
  C93_recovered i32 (-30) (by decide) (by decide) { fill := some '*', align := some '^', alt := true, width := ['9'], type := some 'x' }
    ⟨by decide, by decide, by decide, by decide, by decide, by decide, by decide⟩ ⟨by decide, by decide⟩
    ⟨⟨rfl, by decide⟩, by decide⟩ (by decide) (by unfold Harmless; decide)

/-- With such fill characters it is not so. -/
example : formatStr "{:0<3}".toList [(CoreArg.int i32 1).farg] = formatStr "{:0<3}".toList [(CoreArg.int i32 100).farg] ∧
    formatStr "{:->3}".toList [(CoreArg.int i32 1).farg] = formatStr "{:->3}".toList [(CoreArg.int i32 (-1)).farg] := by decide +kernel

end Emio
