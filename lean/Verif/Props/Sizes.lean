import Verif.Spec.Sizes
import Verif.Props.Octal
import Verif.Props.DebugChar
/-
Property C87: how long a text can be is known from the format string and the types of the arguments.
-/
namespace Emio
open Spec BufferImpl

theorem numeral_length_mono (u u' : Bool) (b : ℕ) (hb : 2 ≤ b) {n m : ℕ} (h : n ≤ m) :
    (numeral u b n).length ≤ (numeral u' b m).length := by
  induction m using Nat.strongRecOn generalizing n with
  | _ m ih =>
    rcases Nat.lt_or_ge n b with hn | hn
    · rw [length_numeral_lt u b n hb hn]
      rcases Nat.lt_or_ge m b with hm | hm
      · rw [length_numeral_lt u' b m hb hm]
      · rw [length_numeral_ge u' b m hb hm]; omega
    · have hm : b ≤ m := Nat.le_trans hn h
      rw [length_numeral_ge u b n hb hn, length_numeral_ge u' b m hb hm]
      have := ih (m / b) (Nat.div_lt_self (by omega) (by omega)) (Nat.div_le_div_right (c := b) h)
      omega

theorem paddedNumber_length (s : Specs) (front digits : Str) :
    (paddedNumber s front digits).length = max s.width.toNat (front.length + digits.length) := by
  unfold paddedNumber
  split
  · simp [fillCount]; omega
  · rw [padded_length (by decide)]; simp

theorem baseOf_ge (c : Char) : 2 ≤ baseOf c := by
  unfold baseOf
  split_ifs <;> decide

theorem prefixOf_length (s : Specs) (n : Int) : (prefixOf s n).length ≤ prefixSize s := by
  unfold prefixOf prefixSize
  cases s.alternateForm <;> simp
  split_ifs <;> simp_all

theorem signOf_size (s : Specs) (b : Bool) : (signOf s b).length ≤ 1 ∧ (b = false → (signOf s b).length ≤ plusSize s) ∧
    (b = false → s.sign = noChar → (signOf s b).length = 0) := by
  refine ⟨?_, ?_, ?_⟩
  · unfold signOf; split_ifs <;> simp
  · rintro rfl
    unfold signOf plusSize
    split_ifs <;> simp_all
  · rintro rfl h
    unfold signOf
    rw [h]
    rfl

/-- The text of an integer. -/
theorem intText_length (s : Specs) (n : Int) (k m : ℕ) (hs : (signOf s (n < 0)).length ≤ k) (hn : n.natAbs ≤ m) :
    (intText s n).length ≤ max s.width.toNat
      (if s.type = 'c' then 1 else k + prefixSize s + (numeral false (baseOf s.type) m).length) := by
  unfold intText
  split
  · rw [padded_length (by decide)]; simp
  · rw [paddedNumber_length, List.length_append]
    have h1 := prefixOf_length s n
    have h2 := numeral_length_mono (s.type == 'X') false (baseOf s.type) (baseOf_ge _) hn
    omega

theorem escapeChar_length (c : Char) : (escapeChar c).length ≤ 4 := by
  unfold escapeChar
  split_ifs <;> simp [hex2]

theorem escape_length (s : Str) : (escape s).length ≤ 4 * s.length := by
  unfold escape
  induction s with
  | nil => simp
  | cons c s ih =>
    rw [List.flatMap_cons, List.length_append, List.length_cons]
    have := escapeChar_length c
    omega

theorem quoted_length (q : Char) (s : Str) : (quoted q s).length ≤ 4 * s.length + 2 := by
  have := escape_length s
  simp [quoted]
  omega

theorem scientific_length_le (upper point : Bool) (digits : Str) {x : ℤ} (hx : x.natAbs < 1000) :
    (scientific upper point digits x).length ≤ digits.length + 6 := by
  unfold scientific
  have := exponentText_length hx
  simp only [List.length_append, List.length_cons, List.length_take, this]
  split
  · simp only [List.length_cons, List.length_drop]
    split <;> omega
  · simp only [List.length_nil]
    split <;> omega

theorem positional_length_le (point : Bool) (digits : Str) {x : ℤ} {n : Nat} (h1 : -5 < x) (h2 : x < n) :
    (positional point digits x).length ≤ max digits.length n + 5 := by
  unfold positional
  split
  · simp only [List.length_cons, List.length_append, List.length_replicate]
    omega
  · simp only [List.length_append, List.length_replicate, List.length_take]
    split
    · simp only [List.length_cons, List.length_drop]
      omega
    · simp only [List.length_nil]
      omega

theorem magnitude_lt_top {b : ℕ} (hb : b < 2047 * 2 ^ 52) : magnitude b < (2 ^ 1024 : ℕ) := by
  have h1 : magnitude b ≤ magnitude (2047 * 2 ^ 52 - 1) := magnitude_mono (by omega) (by omega)
  refine lt_of_le_of_lt h1 ?_
  rw [magnitude_eq, show mantissaOf (2047 * 2 ^ 52 - 1) = 2 ^ 53 - 1 by decide +kernel, show ulpExp (2047 * 2 ^ 52 - 1) = 971 by decide +kernel]
  have : ((2 ^ 53 - 1 : ℕ) : ℚ) * 2 ^ (971 : ℤ) = ((2 ^ 53 - 1) * 2 ^ 971 : ℕ) := by
    rw [Nat.cast_mul, show (971 : ℤ) = ((971 : ℕ) : ℤ) from rfl, zpow_natCast, Nat.cast_pow]
    norm_num
  rw [this]
  exact_mod_cast (show (2 ^ 53 - 1) * 2 ^ 971 < 2 ^ 1024 by decide +kernel)

/-- A finite number without its sign. -/
theorem finiteText_size {s : Specs} (f : FloatSpecs s) {bits : Nat} (hf : IsFinite bits) (n : ℕ) :
    (finiteText s bits).length + 1 ≤ contentSize n .double s := by
  have hp := precisionOf_le f
  have hlt : bits % 2 ^ 63 < 2047 * 2 ^ 52 := by
    unfold IsFinite exponentOf at hf
    omega
  have range := fun n => roundSignificant_range (n := n) hlt
  simp only [magnitude_low] at range
  unfold finiteText
  simp only [contentSize]
  split
  · rw [fixedPoint_eq, List.length_append]
    have hd : roundHalfEven (magnitude bits * 10 ^ precisionOf s) ≤ 2 ^ 1024 * 10 ^ precisionOf s := by
      by_cases h0 : bits % 2 ^ 63 = 0
      · rw [← magnitude_low, h0, show magnitude 0 = 0 by decide +kernel, zero_mul, show roundHalfEven 0 = 0 by decide +kernel]
        exact Nat.zero_le _
      · obtain ⟨m1, _⟩ := magnitude_range h0 hlt
        have m2 := magnitude_lt_top hlt
        rw [magnitude_low] at m1 m2
        have m0 : 0 < magnitude bits := lt_of_lt_of_le (by positivity) m1
        refine roundHalfEven_le (by positivity) ?_
        rw [Nat.cast_mul, Nat.cast_pow 10]
        exact mul_lt_mul_of_pos_right m2 (by positivity)
    have hq : roundHalfEven (magnitude bits * 10 ^ precisionOf s) / 10 ^ precisionOf s ≤ 2 ^ 1024 :=
      Nat.div_le_of_le_mul (by rw [Nat.mul_comm]; exact hd)
    have hl := numeral_length_mono false false 10 (by decide) hq
    have h309 : (numeral false 10 (2 ^ 1024)).length = 309 := by decide +kernel
    rw [h309] at hl
    split
    · rw [List.length_cons, lastDigits_length]; omega
    · rw [List.length_nil]; omega
  · split
    · have := scientific_length_le (s.type == 'E' || s.type == 'F' || s.type == 'G') s.alternateForm
        (lastDigits (precisionOf s + 1) (roundSignificant (precisionOf s + 1) (magnitude bits)).1)
        (x := (roundSignificant (precisionOf s + 1) (magnitude bits)).2) (by have := range (precisionOf s + 1); omega)
      rw [lastDigits_length] at this
      omega
    · split
      · have hsd : (shortestDigits (bits % 2 ^ 63)).1 ≤ 17 ∧ (shortestDigits (bits % 2 ^ 63)).2.2.natAbs < 1000 := by
          by_cases h0 : bits % 2 ^ 63 = 0
          · unfold shortestDigits
            rw [if_pos h0]
            decide
          · have hb : bits % 2 ^ 63 < 2 ^ 64 := by omega
            have hf' : IsFinite (bits % 2 ^ 63) := by unfold IsFinite; rw [exponentOf_low]; exact hf
            obtain ⟨n, D, k, sh, _⟩ := shortest_double hb hf' (by rw [Nat.mod_mod]; exact h0)
            rw [Nat.mod_mod] at sh
            rw [shortestDigits_eq h0 sh]
            have := sh.range h0 hlt
            have := sh.n_le
            simp only
            omega
        split
        · refine le_trans (Nat.add_le_add_right (scientific_length_le _ _ _ hsd.2) 1) ?_
          rw [lastDigits_length]; omega
        · refine le_trans (Nat.add_le_add_right (positional_length_le (n := 16) _ _ (by omega) (by omega)) 1) ?_
          rw [lastDigits_length]; omega
      · generalize hn : max (precisionOf s) 1 = n
        have hdl : (if s.alternateForm = true then lastDigits n (roundSignificant n (magnitude bits)).1
            else dropZeros (lastDigits n (roundSignificant n (magnitude bits)).1)).length ≤ n := by
          split
          · rw [lastDigits_length]
          · refine le_trans (dropZeros_length _ ?_) (by rw [lastDigits_length])
            intro hc
            have := congrArg List.length hc
            rw [lastDigits_length] at this
            simp at this
            omega
        have := range n
        split
        · refine le_trans (Nat.add_le_add_right (scientific_length_le _ _ _ (by omega)) 1) ?_
          omega
        · refine le_trans (Nat.add_le_add_right (positional_length_le (n := n) _ _ (by omega) (by omega)) 1) ?_
          omega

theorem four_le (n : ℕ) (s : Specs) : 4 ≤ contentSize n .double s := by
  simp only [contentSize]
  split_ifs <;> omega

theorem float_size {s : Specs} (f : FloatSpecs s) (bits n : ℕ) : (actualText s bits).length ≤ max s.width.toNat (contentSize n .double s) := by
  have hsg := (signOf_size s (signBit bits)).1
  unfold actualText
  split
  · rename_i hl
    have := finiteText_size f hl.2.1 n
    rw [paddedNumber_length, List.length_dropLast]
    omega
  · unfold floatText
    split
    · rename_i hf
      have := finiteText_size f hf n
      rw [paddedNumber_length]
      omega
    · have hl3 : (nonFiniteText s bits).length = 3 := by
        unfold nonFiniteText
        simp only
        repeat' split
        all_goals rfl
      rw [padded_length (by decide), List.length_append, hl3]
      have hw : (if s.zeroFlag = true then { s with fill := ' ' } else s).width = s.width := by split <;> rfl
      rw [hw]
      have := four_le n s
      omega

theorem argText_size (a : CoreArg) (t : SpecText) (hal : CoreTy.Allows a.ty t) (ha : ValidArg a) (hd : a.ty ≠ .double)
    (n : ℕ) (hn : ∀ str, a = .string str → str.length ≤ n) :
    (argText a t.meaning).length ≤ max t.meaning.width.toNat (contentSize n a.ty t.meaning) := by
  generalize hs : t.meaning = s
  cases a with
  | bool b =>
    show (boolText s b).length ≤ _
    simp only [boolText, CoreArg.ty, contentSize]
    split
    · rw [padded_length (by decide)]
      cases b <;> simp only [Bool.false_eq_true, if_true, if_false] <;> refine Nat.max_le.2 ⟨by omega, le_trans ?_ (Nat.le_max_right _ _)⟩ <;> decide
    · have hsg : (signOf s (decide ((if b then 1 else 0 : Int) < 0))).length ≤ plusSize s :=
        (signOf_size s _).2.1 (by cases b <;> rfl)
      have := intText_length s (if b then 1 else 0) (plusSize s) 1 hsg (by cases b <;> decide)
      rwa [length_numeral_lt false _ 1 (baseOf_ge _) (by have := baseOf_ge s.type; omega)] at this
  | char c =>
    show (charText s c).length ≤ _
    simp only [charText, CoreArg.ty, contentSize]
    split
    · rename_i hq
      rw [if_neg (by rw [hq]; decide), padded_length (by decide)]
      have := quoted_length '\'' [c]
      simp at this
      omega
    · split
      · rw [padded_length (by decide)]; simp
      · rename_i hq hc
        have hsg : (signOf s (decide ((c.toNat : Int) < 0))).length ≤ plusSize s :=
          (signOf_size s _).2.1 (by simp)
        have hc256 : c.toNat < 256 := ha
        have := intText_length s c.toNat (plusSize s) 255 hsg (by simp; omega)
        rw [if_neg (fun h => hc (Or.inr h))] at this
        exact this
  | int ty v =>
    have hh : ty.Holds v := ha.2
    simp only [IntTy.Holds, IntTy.min, IntTy.max] at hh
    have hx : t.ForInteger ∧ (ty.signed = true ∨ t.sign = none) := hal
    show (intText s v).length ≤ _
    simp only [CoreArg.ty, contentSize, mostDigits]
    cases hsg : ty.signed with
    | true =>
      simp only [hsg, if_true] at hh ⊢
      refine intText_length s v 1 _ (signOf_size s _).1 ?_
      have e : ((2 ^ (ty.bits - 1) : ℕ) : Int) = 2 ^ (ty.bits - 1) := by push_cast; rfl
      omega
    | false =>
      simp only [hsg, Bool.false_eq_true, if_false] at hh ⊢
      have e : ((2 ^ ty.bits : ℕ) : Int) = 2 ^ ty.bits := by push_cast; rfl
      have hsn : s.sign = noChar := by
        rw [← hs]
        rcases hx.2 with h | h
        · rw [hsg] at h; cases h
        · unfold SpecText.meaning; rw [h]; rfl
      refine intText_length s v 0 _ ?_ (by omega)
      rw [(signOf_size s _).2.2 (by simp; omega) hsn]
  | double bits => exact absurd rfl hd
  | pointer addr =>
    show (ptrText s addr).length ≤ _
    have hlt : addr < 2 ^ 64 := ha
    have := numeral_length_mono false false 16 (by decide) (show addr ≤ 2 ^ 64 - 1 by omega)
    rw [show (numeral false 16 (2 ^ 64 - 1)).length = 16 by decide +kernel] at this
    simp only [ptrText, CoreArg.ty, contentSize]
    rw [padded_length (by decide), List.length_append]
    simp only [List.length_cons, List.length_nil]
    omega
  | string str =>
    show (strText s str).length ≤ _
    have hl := hn str rfl
    simp only [strText, CoreArg.ty, contentSize]
    split
    · rw [padded_length (by decide)]
      have := quoted_length '"' str
      omega
    · rw [padded_length (by decide)]
      split
      · rw [List.length_take]; omega
      · omega

theorem single_suits {a : CoreArg} {t : SpecText} (wf : t.WellFormed) (fits : t.Fits) (hal : CoreTy.Allows a.ty t) :
    (Template.single (some t)).Suits [a] where
  number := by simp
  digits := by intro s hs; obtain rfl := List.mem_singleton.1 hs; simp
  grammar := by
    intro s hs sp hsp
    obtain rfl := List.mem_singleton.1 hs
    obtain rfl := Option.some.inj hsp
    exact ⟨wf, fits⟩
  mode := by left; intro f hf; obtain rfl := List.mem_singleton.1 hf; rfl
  arguments := by
    intro k
    show k ∈ [0] ↔ k < 1
    simp
  allowed := by
    intro x hx
    obtain rfl := List.mem_singleton.1 (show x ∈ [(0, ([], (⟨[], some t⟩ : Hole)))] from hx)
    exact ⟨a, rfl, hal⟩

/-- C87 for one argument: whatever the value is, the text is not longer than the type and the specification say. -/
theorem C87_argument (a : CoreArg) (t : SpecText) (wf : t.WellFormed) (fits : t.Fits) (hal : CoreTy.Allows a.ty t)
    (ha : ValidArg a) (n : ℕ) (hn : ∀ str, a = .string str → str.length ≤ n) (text : Str)
    (h : formatStr ("{:".toList ++ t.text ++ "}".toList) [a.farg] = .ok () text) :
    text.length ≤ longest n a.ty t.meaning := by
  by_cases hq : a.ty = .char ∧ t.type = some '?'
  · obtain ⟨hty, hq⟩ := hq
    cases a <;> simp [CoreArg.ty] at hty
    rename_i c
    obtain ⟨text', h1, h2⟩ := C31_debug_char_too_wide c ha t wf fits hal hq
    rw [h] at h1
    obtain ⟨_, rfl⟩ := ok_inj h1
    have := quoted_length '\'' [c]
    have hw : t.meaning.width.toNat = t.widthValue := rfl
    unfold longest
    rw [if_pos ⟨rfl, (meaning_type_some wf '?' (by decide)).2 hq⟩, h2, hw]
    simp at this
    omega
  have hl : longest n a.ty t.meaning = max t.meaning.width.toNat (contentSize n a.ty t.meaning) := by
    unfold longest
    rw [if_neg (fun h => hq ⟨h.1, (meaning_type_some wf '?' (by decide)).1 h.2⟩)]
  rw [hl]
  have hc := (allows_iff a.ty wf).2 hal
  by_cases hd : a.ty = .double
  · cases a <;> simp [CoreArg.ty] at hd
    rename_i bits
    rw [render_double bits ha t wf fits hal] at h
    obtain ⟨_, rfl⟩ := ok_inj h
    exact float_size (floatSpecs (meaning_ok fits) hc) bits n
  have hO : ¬ OctalO a t.meaning := by
    intro hO
    have := (C22_fails_iff_O (Template.single (some t)) [a] ?_ (by simpa using ha)).1.1 ⟨text, by rw [single_text]; exact h⟩ 0
    · refine this ⟨0, ([], ⟨[], some t⟩), a, rfl, rfl, rfl, (meaning_type_some wf 'O' (by decide)).1 hO.1, hO.2⟩
    · exact single_suits wf fits hal
  have hdev : ¬ Deviates a t.meaning := by
    rintro (h | h | h)
    · exact hO h
    · cases a <;> simp [LongDebugChar] at h
      exact hq ⟨rfl, (meaning_type_some wf '?' (by decide)).1 h.1⟩
    · cases a <;> simp [FixedLosesZero] at h
      exact hd rfl
  have := render_single a t wf fits hal ha hdev
  rw [single_text, h] at this
  obtain ⟨_, rfl⟩ := ok_inj this
  exact argText_size a t hal ha hd n hn

/-- Every number of characters a type can need is needed: the least or greatest integer, -1.7976931348623157e+308, and so on. -/
example : formatStr "{}".toList [(CoreArg.int i32 (-2147483648)).farg] = .ok () "-2147483648".toList ∧
    "-2147483648".length = longest 0 (.int i32) {} ∧
    formatStr "{:#b}".toList [(CoreArg.int i8 (-128)).farg] = .ok () "-0b10000000".toList ∧
    "-0b10000000".length = longest 0 (.int i8) { alternateForm := true, type := 'b' } ∧
    formatStr "{}".toList [(CoreArg.double 0xFFEFFFFFFFFFFFFF).farg] = .ok () "-1.7976931348623157e+308".toList ∧
    "-1.7976931348623157e+308".length = longest 0 .double {} ∧
    formatStr "{:.2e}".toList [(CoreArg.double 0xFFEFFFFFFFFFFFFF).farg] = .ok () "-1.80e+308".toList ∧
    "-1.80e+308".length = longest 0 .double { type := 'e', precision := 2 } := by decide +kernel

theorem output_length : ∀ {segs : List (Str × Hole)} {ks : List ℕ} {texts : List Str} (f : ℕ → Hole → ℕ),
    ks.length = segs.length → texts.length = segs.length →
    (∀ (i k : ℕ) (s : Str × Hole) (text : Str), ks[i]? = some k → segs[i]? = some s → texts[i]? = some text → text.length ≤ f k s.2) →
    (((segs.map fun s => (s.1, s.2.field)).zip texts).flatMap fun s => s.1.1 ++ s.2).length ≤
      ((ks.zip segs).map fun x => x.2.1.length + f x.1 x.2.2).sum := by
  intro segs
  induction segs with
  | nil => intro ks texts f _ _ _; simp
  | cons s segs ih =>
    intro ks texts f h1 h2 h
    cases ks with
    | nil => simp at h1
    | cons k ks =>
      cases texts with
      | nil => simp at h2
      | cons text texts =>
        have := ih f (ks := ks) (texts := texts) (by simpa using h1) (by simpa using h2)
          (fun i k s text a b c => h (i + 1) k s text (by simpa using a) (by simpa using b) (by simpa using c))
        have h0 := h 0 k s text rfl rfl rfl
        simp only [List.map_cons, List.zip_cons_cons, List.flatMap_cons, List.length_append, List.sum_cons] at this ⊢
        omega

/-- C87 for format strings: whatever the arguments are, a text is not longer than the format string and their types say. -/
theorem C87_text (t : Template) (args : List CoreArg) (suits : t.Suits args) (hv : ∀ a ∈ args, ValidArg a) (n : ℕ)
    (hn : ∀ str, .string str ∈ args → str.length ≤ n) (text : Str) (h : formatStr t.text (fargs args) = .ok () text) :
    text.length ≤ t.longest n (args.map CoreArg.ty) := by
  have hO := (C22_fails_iff_O t args suits hv).1.1 ⟨text, h⟩
  obtain ⟨texts, h1, h2, hd⟩ := C22_without_O_succeeds t args suits hv hO
  have hf := hd.format
  simp only [ended] at hf
  rw [h] at hf
  obtain ⟨_, rfl⟩ := ok_inj hf
  have hks : t.format.arguments.length = t.segs.length := by
    simp [FormatText.arguments, FormatText.fields, Template.format]
  have key := output_length (segs := t.segs) (ks := t.format.arguments) (texts := texts)
    (fun k s => (((args.map CoreArg.ty)[k]?.map fun ty => longest n ty s.specs).getD 0)) hks h1 ?_
  · show (t.format.output texts).length ≤ _
    unfold FormatText.output Template.longest
    rw [List.length_append]
    exact Nat.add_le_add_right key _
  intro i k s text hk hs ht
  obtain ⟨a, ha, hal⟩ := h2 i k s text hk hs ht
  have hmem : (k, s) ∈ t.format.arguments.zip t.segs := mem_zip_get hk hs
  obtain ⟨a', ha', hal'⟩ := suits.allowed _ hmem
  rw [ha] at ha'
  obtain rfl := Option.some.inj ha'
  have hva := hv a (List.mem_of_getElem? ha)
  have hna : ∀ str, a = .string str → str.length ≤ n := by
    rintro str rfl
    exact hn str (List.mem_of_getElem? ha)
  simp only [List.getElem?_map, ha, Option.map_some, Option.getD_some]
  cases hsp : s.2.spec with
  | some sp =>
    rw [hsp] at hal hal'
    rw [single_text] at hal
    have := C87_argument a sp (suits.grammar s (List.mem_of_getElem? hs) sp hsp).1 (suits.grammar s (List.mem_of_getElem? hs) sp hsp).2
      hal' hva n hna text hal
    unfold Hole.specs
    rw [hsp]
    exact this
  | none =>
    rw [hsp] at hal hal'
    obtain ⟨text', hr⟩ := hole_reads_some a ⟨[], none⟩ (by simp) hal' hva (fun h => absurd h.1 (by decide))
    have e := (formats_single hr).str
    rw [hal] at e
    obtain ⟨_, rfl⟩ := ok_inj e
    have := C87_argument a {} noSpec_ok.1 noSpec_ok.2 hal' hva n hna text ?_
    · unfold Hole.specs
      rw [hsp]
      exact this
    · rw [← single_text]
      exact (formats_single (spec := some {}) hr).str

/-- C87 in use: a fixed-size buffer with that many free characters is never too small. -/
theorem C87_fixed_size_buffer (t : Template) (args : List CoreArg) (suits : t.Suits args) (hv : ∀ a ∈ args, ValidArg a) (n : ℕ)
    (hn : ∀ str, .string str ∈ args → str.length ≤ n) (hO : ∀ j, ¬ AsksO t args j) (mem : Str) (ops : List ClientOp) (s : SpanBuf)
    (old : Str) (hs : client spanReset ops (SpanBuf.new mem, []) = some (s, old))
    (room : old.length + t.longest n (args.map CoreArg.ty) ≤ mem.length) :
    ∃ s' text, formatStr t.text (fargs args) = .ok () text ∧ formatTo t.text (fargs args) s = .ok s' () ∧ s'.view = old ++ text := by
  obtain ⟨text, h⟩ := (C22_fails_iff_O t args suits hv).1.2 hO
  have hl := C87_text t args suits hv n hn text h
  have := C35_fixed_size_buffer t.text args suits.number hv text h mem ops s old hs
  rw [if_pos (by omega)] at this
  obtain ⟨s', h1, h2⟩ := this
  exact ⟨s', text, h, h1, h2⟩

/-- The example of C24 has 9 characters; with strings of at most 2 characters there are never more than 16. -/
example (mem : Str) (h : 16 ≤ mem.length) : ∃ s' text, formatStr templateExample.text (fargs templateArgs) = .ok () text ∧
    formatTo templateExample.text (fargs templateArgs) (SpanBuf.new mem) = .ok s' () ∧ s'.view = text := by
  have := C87_fixed_size_buffer templateExample templateArgs templateExample_suits (by simp [templateArgs, ValidArg]; decide) 2
    (by simp [templateArgs]) (by
      rintro j ⟨k, s, a, h1, h2, h3, h4, _⟩
      have hm := List.mem_of_getElem? h2
      simp only [templateExample, List.mem_cons, List.not_mem_nil, or_false] at hm
      rcases hm with rfl | rfl <;> simp at h4) mem [] (SpanBuf.new mem) [] rfl
    (by rw [show templateExample.longest 2 (templateArgs.map CoreArg.ty) = 16 by decide +kernel]; simpa using h)
  simpa using this

/-- `"a{{{:>4}b{}"` with any `int` and any `double`: 2 + 11 + 1 + 24 characters. -/
example : templateExample.longest 0 [.int i32, .double] = 38 := by decide +kernel

end Emio
