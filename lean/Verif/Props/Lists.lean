import Verif.Spec.Lists
import Verif.Props.Values
import Verif.Props.Records
import Verif.Props.Maps
/-
C105: lists of numbers are read back.
-/
namespace Emio
open Spec

theorem list_type {c : Option Char} {base : Nat} (hb : listBase c = some base) (ty : IntTy) :
    ({ type := c } : SpecText).WellFormed ∧ ({ type := c } : SpecText).Fits ∧
      CoreTy.Allows (.int ty) ({ type := c } : SpecText) ∧ c ≠ some 'O' ∧ ({ type := c } : SpecText).text = c.toList ∧
      2 ≤ base ∧ base ≤ 36 ∧
      ∀ n, intText ({ type := c } : SpecText).meaning n = intNumeral (c == some 'X') base n := by
  unfold listBase at hb
  split at hb
  all_goals first
    | (cases hb; done)
    | (cases hb
       refine ⟨by constructor <;> simp [Char.isAlpha, Char.isUpper, Char.isLower], ⟨by decide, by decide⟩, ?_, by simp, rfl, by decide, by decide, fun n => ?_⟩
       · simp [CoreTy.Allows, SpecText.ForInteger, integerTypes]
       · simp [intText, SpecText.meaning, baseOf, paddedNumber, padded, surround, fillCount, SpecText.widthValue, numeralValue,
           denote, signOf, prefixOf, intNumeral, noChar])

theorem list_element {c : Option Char} {base : Nat} (hb : listBase c = some base) (ty : IntTy) (hty : ty.Std) (n : Int)
    (hn : ty.Holds n) :
    Spec.Takes (.core (.int ty)) ((c.map fun x => [x]).getD []) ∧
    formatStr (elementField (.core (.int ty)) (c.map fun x => [x])) [(FVal.core (.int ty n)).farg (.core (.int ty))] =
      .ok () (intNumeral (c == some 'X') base n) := by
  obtain ⟨wf, fits, hal, hO, ht, _, _, hx⟩ := list_type hb ty
  have et : (c.map fun x => [x]).getD [] = ({ type := c } : SpecText).text := by rw [ht]; cases c <;> rfl
  have htk : Spec.Takes (.core (.int ty)) ((c.map fun x => [x]).getD []) := by
    rw [et]; exact .core wf fits hal
  refine ⟨htk, (element_iff (.core (a := .int ty n) ⟨hty, hn⟩) htk).2 ?_⟩
  have hw : Written (.int ty n) { type := c } (intNumeral (c == some 'X') base n) := by
    refine coreEmits_argText (.int ty n) _ _ wf fits hal ⟨hty, hn⟩ ⟨hx n, ?_⟩
    rintro (h | h | h)
    · exact hO ((meaning_type_some wf 'O' (by decide)).1 h.1)
    · exact h
    · exact h
  cases c with
  | none => exact .quoted (a := .int ty n) hw
  | some c => exact .core (a := .int ty n) wf fits hal hw

theorem parse_number (sep : Char) (ty : IntTy) (base : Nat) (upper : Bool) (n : Int)
    (h : Item.Fits sep (.number ty base upper) (.number n)) (hcol : 10 < base → isColonToAt sep = false) (before after : Str) :
    Reader.parseInt ty base ⟨before ++ (intNumeral upper base n ++ sep :: after), before.length⟩ =
      .ok ⟨before ++ (intNumeral upper base n ++ sep :: after), before.length + (intNumeral upper base n).length⟩ n := by
  obtain ⟨hty, hv, hb, hb', hsep⟩ := h
  obtain ⟨sg, hsg, hap, hneg⟩ := intNumeral_sign upper base n
  obtain ⟨hnum, hval⟩ := numeral_value upper base n.natAbs hb hb'
  have hp := C01_parse_int_exact_partial ty hty base ⟨before ++ (intNumeral upper base n ++ sep :: after), before.length⟩
    sg (numeral upper base n.natAbs) (sep :: after) hb hb' (by simp) (by simp [Reader.rest, hsg]) hnum
    (by simp [NoDigitNext, hsep]) (by simpa using hcol) (by rw [hval, hap]; exact hv)
    (by
      by_cases hs : ty.signed = true
      · exact .inl hs
      · right
        intro hm
        have := hneg.2 hm
        simp only [IntTy.Holds, IntTy.min] at hv
        simp [hs] at hv
        omega)
  have hlen : sg.text.length + (numeral upper base n.natAbs).length = (intNumeral upper base n).length := by
    rw [hsg]; simp
  rw [hval, hap] at hp
  simp only [Nat.add_assoc, hlen] at hp
  exact hp

theorem char_at (before after : Str) (c : Char) : (before ++ c :: after)[before.length]? = some c := by
  rw [List.getElem?_append_right (Nat.le_refl _)]; simp

theorem nextChar_at (before after : Str) (c : Char) :
    Reader.readChar ⟨before ++ c :: after, before.length⟩ = .ok ⟨before ++ c :: after, before.length + 1⟩ c := by
  unfold Reader.readChar
  rw [if_pos (by simp)]
  simp only [char_at]

theorem matchChar_at (before after : Str) (c : Char) :
    Reader.readIfMatchChar c ⟨before ++ c :: after, before.length⟩ = .ok ⟨before ++ c :: after, before.length + 1⟩ c := by
  unfold Reader.readIfMatchChar
  rw [if_pos (by simp)]
  simp only [char_at, if_true]

/-- A separator of the formatter of ranges. -/
def Separates (sep : Char) : Prop := sep = ',' ∨ sep = ']' ∨ sep = '}'

theorem separates_fits {sep : Char} (hs : Separates sep) {ty : IntTy} {base : Nat} {upper : Bool} {n : Int} (hty : ty.Std)
    (hn : ty.Holds n) (hb : 2 ≤ base) (hb' : base ≤ 36) :
    Item.Fits sep (.number ty base upper) (.number n) ∧ isColonToAt sep = false := by
  refine ⟨⟨hty, hn, hb, hb', ?_⟩, ?_⟩
  · rcases hs with rfl | rfl | rfl <;> rfl
  · rcases hs with rfl | rfl | rfl <;> decide

theorem intNumeral_head (up : Bool) {b : Nat} (hb : 2 ≤ b) (hb' : b ≤ 36) (n : Int) :
    ∃ d tl, intNumeral up b n = d :: tl ∧ (d = '-' ∨ (symbolValue b d).isSome) := by
  obtain ⟨h1, h2⟩ := (numeral_value up b n.natAbs hb hb').1
  unfold intNumeral
  split
  · exact ⟨'-', _, rfl, Or.inl rfl⟩
  · obtain ⟨d, tl, e⟩ := List.exists_cons_of_ne_nil h1
    exact ⟨d, tl, by simpa using e, Or.inr (h2 d (by rw [e]; simp))⟩

theorem readInts_reads (ty : IntTy) (hty : ty.Std) (base : Nat) (hb : 2 ≤ base) (hb' : base ≤ 36) (upper : Bool) (close : Char)
    (hc : close = ']' ∨ close = '}') (n : Int) (ns : List Int) (hn : ∀ m ∈ n :: ns, ty.Holds m) (steps : Nat)
    (hsteps : ns.length < steps) (before after : Str) :
    readInts ty base close steps
        ⟨before ++ (", ".toList.intercalate ((n :: ns).map (intNumeral upper base)) ++ close :: after), before.length⟩ =
      .ok ⟨before ++ (", ".toList.intercalate ((n :: ns).map (intNumeral upper base)) ++ close :: after),
        before.length + (", ".toList.intercalate ((n :: ns).map (intNumeral upper base))).length + 1⟩ (n :: ns) := by
  induction ns generalizing n steps before with
  | nil =>
    obtain ⟨steps, rfl⟩ : ∃ k, steps = k + 1 := ⟨steps - 1, by simp at hsteps; omega⟩
    have e : ", ".toList.intercalate ([n].map (intNumeral upper base)) = intNumeral upper base n := by
      simp [List.intercalate]
    obtain ⟨hf, hcol⟩ := separates_fits (sep := close) (Or.inr hc) (upper := upper) hty (hn n (by simp)) hb hb'
    rw [e, readInts, M.bind_ok (parse_number close ty base upper n hf (fun _ => hcol) before after)]
    have hr := nextChar_at (before ++ intNumeral upper base n) after close
    simp only [List.append_assoc, List.length_append] at hr
    rw [M.bind_ok hr, if_pos rfl]
    rfl
  | cons m ns ih =>
    obtain ⟨steps, rfl⟩ : ∃ k, steps = k + 1 := ⟨steps - 1, by simp at hsteps; omega⟩
    have e : ", ".toList.intercalate ((n :: m :: ns).map (intNumeral upper base)) =
        intNumeral upper base n ++ ',' :: ' ' :: ", ".toList.intercalate ((m :: ns).map (intNumeral upper base)) := by
      simp [List.intercalate]
    obtain ⟨hf, hcol⟩ := separates_fits (sep := ',') (Or.inl rfl) (upper := upper) hty (hn n (by simp)) hb hb'
    rw [e]
    generalize hrest : ", ".toList.intercalate ((m :: ns).map (intNumeral upper base)) = rest at *
    have ih' := ih m (fun x hx => hn x (List.mem_cons_of_mem _ hx)) steps (by simp at hsteps ⊢; omega)
      (before ++ intNumeral upper base n ++ [',', ' '])
    have h1 := parse_number ',' ty base upper n hf (fun _ => hcol) before (' ' :: (rest ++ close :: after))
    have h2 := nextChar_at (before ++ intNumeral upper base n) (' ' :: (rest ++ close :: after)) ','
    have h3 := matchChar_at (before ++ intNumeral upper base n ++ [',']) (rest ++ close :: after) ' '
    simp only [hrest, List.append_assoc, List.cons_append, List.nil_append, List.length_append, List.length_cons,
      List.length_nil, Nat.zero_add] at h1 h2 h3 ih' ⊢
    rw [readInts, M.bind_ok h1, M.bind_ok h2, if_neg (by rcases hc with rfl | rfl <;> decide)]
    simp only [Nat.add_assoc] at h3 ih' ⊢
    rw [M.bind_ok h3, M.bind_ok ih', M.pure_run]
    congr 2
    omega

/-- C105: a list of integers is formatted as a text from which the list can be read again, wherever the text is; the reader
then stands behind it.  For every integer type, length and values, with `{}` and with the types `d`, `x`, `X`, `b`, `B`, `o` for
the elements; for sequences and for sets. -/
theorem C105_lists (ty : IntTy) (hty : ty.Std) (ns : List Int) (hn : ∀ n ∈ ns, ty.Holds n) (c : Option Char) (base : Nat)
    (hb : listBase c = some base) (set : Bool) :
    ∃ text, formatStr (fieldText (rangeSpec false (c.map fun x => [x]))) [(intList ty ns).farg (.range set (.core (.int ty)))] =
        .ok () text ∧
      ∀ (before after : Str) (steps : Nat), ns.length ≤ steps →
        readList ty base (if set then '{' else '[') (if set then '}' else ']') steps ⟨before ++ text ++ after, before.length⟩ =
          .ok ⟨before ++ text ++ after, before.length + text.length⟩ ns := by
  obtain ⟨_, _, _, _, _, hb1, hb2, _⟩ := list_type hb ty
  refine ⟨_, C53_range set false (.core (.int ty)) (c.map fun x => [x]) ?_ _ ?_ (ns.map (intNumeral (c == some 'X') base))
    (by simp) ?_, ?_⟩
  · exact (list_element hb ty hty 0 (by
      rcases hty with h | h | h | h <;> (simp only [IntTy.Holds, IntTy.min, IntTy.max]; cases ty.signed <;> simp [h]))).1
  · intro v hv
    obtain ⟨n, hm, rfl⟩ := List.mem_map.1 hv
    exact .core (a := .int ty n) ⟨hty, hn n hm⟩
  · intro i v text hv ht
    rw [List.getElem?_map] at hv ht
    obtain ⟨n, he, rfl⟩ := Option.map_eq_some_iff.1 hv
    rw [he] at ht
    obtain rfl := Option.some.inj ht
    exact (list_element hb ty hty n (hn n (List.mem_of_getElem? he))).2
  · intro before after steps hsteps
    generalize ho : (if set = true then '{' else '[') = o
    generalize hcl : (if set = true then '}' else ']') = close
    have ho' : (if set = true then "{".toList else "[".toList) = [o] := by rw [← ho]; cases set <;> rfl
    have hcl' : (if set = true then "}".toList else "]".toList) = [close] := by rw [← hcl]; cases set <;> rfl
    have hc : close = ']' ∨ close = '}' := by rw [← hcl]; cases set <;> simp
    simp only [bracketed, Bool.false_eq_true, if_false, ho', hcl']
    have h1 := fun t => matchChar_at before t o
    cases ns with
    | nil =>
      have h1 := matchChar_at before (close :: after) o
      have h2 := nextChar_at (before ++ [o]) after close
      have h3 : Reader.peek ⟨before ++ [o] ++ close :: after, (before ++ [o]).length⟩ =
          .ok ⟨before ++ [o] ++ close :: after, (before ++ [o]).length⟩ close := by
        unfold Reader.peek
        rw [if_pos (by simp)]
        simp only [char_at]
      simp [List.intercalate] at h1 h2 h3 ⊢
      rw [readList, M.bind_ok h1, M.bind_ok h3, if_pos rfl, M.bind_ok h2, M.pure_run]
    | cons n ns =>
      have h4 := readInts_reads ty hty base hb1 hb2 (c == some 'X') close hc n ns hn steps (by simpa using hsteps)
        (before ++ [o]) after
      generalize hrest : ", ".toList.intercalate ((n :: ns).map (intNumeral (c == some 'X') base)) = rest at *
      obtain ⟨d, tl, hd, hne⟩ : ∃ d tl, rest = d :: tl ∧ d ≠ close := by
        obtain ⟨d, tl, h1, h2⟩ := intNumeral_head (c == some 'X') hb1 hb2 n
        refine ⟨d, tl ++ (", ".toList.intercalate ((n :: ns).map (intNumeral (c == some 'X') base))).drop (tl.length + 1), ?_, ?_⟩
        · rw [hrest, ← hrest]
          cases ns with
          | nil => simp [List.intercalate, h1]
          | cons m ns => simp [List.intercalate, h1]
        · rintro rfl
          rcases h2 with h2 | h2
          · subst h2; rcases hc with hc | hc <;> exact absurd hc (by decide)
          · rcases hc with rfl | rfl <;> exact absurd h2 (by simp [symbolValue])
      have h1 := matchChar_at before (rest ++ close :: after) o
      have h3 : Reader.peek ⟨before ++ [o] ++ (rest ++ close :: after), (before ++ [o]).length⟩ =
          .ok ⟨before ++ [o] ++ (rest ++ close :: after), (before ++ [o]).length⟩ d := by
        unfold Reader.peek
        rw [if_pos (by simp)]
        simp only [hd, List.cons_append, char_at]
      simp only [List.append_assoc, List.cons_append, List.nil_append, List.length_append, List.length_cons,
        List.length_nil, Nat.zero_add] at h1 h3 h4 ⊢
      rw [readList, M.bind_ok h1, M.bind_ok h3, if_neg hne, h4]
      congr 1
      congr 1
      omega

theorem matchStr_at (before s after : Str) :
    Reader.readIfMatchStr s ⟨before ++ (s ++ after), before.length⟩ = .ok ⟨before ++ (s ++ after), before.length + s.length⟩ s := by
  unfold Reader.readIfMatchStr
  rw [if_neg (by simp), if_pos (by simp [Reader.rest])]

/-- The text of an entry. -/
def entryText (e : Int × Int) : Str := intNumeral false 10 e.1 ++ ": ".toList ++ intNumeral false 10 e.2

theorem readEntry_reads {kt vt : IntTy} (hkt : kt.Std) (hvt : vt.Std) (e : Int × Int) (h : kt.Holds e.1 ∧ vt.Holds e.2)
    (sep : Char) (hs : Separates sep) (before after : Str) {β : Type} (next : Int → Int → M Reader β) :
    (do let k ← Reader.parseInt kt 10
        let _ ← Reader.readIfMatchStr ": ".toList
        let v ← Reader.parseInt vt 10
        next k v : M Reader β) ⟨before ++ (entryText e ++ sep :: after), before.length⟩ =
      next e.1 e.2 ⟨before ++ (entryText e ++ sep :: after), before.length + (entryText e).length⟩ := by
  obtain ⟨k, v⟩ := e
  have hk : Item.Fits ':' (.number kt 10 false) (.number k) := ⟨hkt, h.1, by decide, by decide, by decide⟩
  obtain ⟨hv, hcol⟩ := separates_fits (sep := sep) hs (upper := false) hvt h.2 (base := 10) (by decide) (by decide)
  have h1 := parse_number ':' kt 10 false k hk (by simp) before (' ' :: (intNumeral false 10 v ++ sep :: after))
  have h2 := matchStr_at (before ++ intNumeral false 10 k) ": ".toList (intNumeral false 10 v ++ sep :: after)
  have h3 := parse_number sep vt 10 false v hv (by simp) (before ++ intNumeral false 10 k ++ ": ".toList) after
  simp only [entryText, Nat.cast_ofNat, List.append_assoc, String.reduceToList, List.cons_append, List.nil_append, List.length_append, List.length_cons,
    List.length_nil, Nat.zero_add] at h1 h2 h3 ⊢
  rw [M.bind_ok h1, M.bind_ok h2]
  simp only [Nat.add_assoc] at h3 ⊢
  rw [M.bind_ok h3]
  congr 2
  omega

theorem readEntries_reads {kt vt : IntTy} (hkt : kt.Std) (hvt : vt.Std) (e : Int × Int) (es : List (Int × Int))
    (hn : ∀ m ∈ e :: es, kt.Holds m.1 ∧ vt.Holds m.2) (steps : Nat) (hsteps : es.length < steps) (before after : Str) :
    readEntries kt vt steps ⟨before ++ (", ".toList.intercalate ((e :: es).map entryText) ++ '}' :: after), before.length⟩ =
      .ok ⟨before ++ (", ".toList.intercalate ((e :: es).map entryText) ++ '}' :: after),
        before.length + (", ".toList.intercalate ((e :: es).map entryText)).length + 1⟩ (e :: es) := by
  induction es generalizing e steps before with
  | nil =>
    obtain ⟨steps, rfl⟩ : ∃ k, steps = k + 1 := ⟨steps - 1, by simp at hsteps; omega⟩
    have he : ", ".toList.intercalate ([e].map entryText) = entryText e := by simp [List.intercalate]
    rw [he, readEntries, readEntry_reads hkt hvt e (hn e (by simp)) '}' (by simp [Separates]) before after]
    have hr := nextChar_at (before ++ entryText e) after '}'
    simp only [List.append_assoc, List.length_append] at hr
    rw [M.bind_ok hr, if_pos rfl]
    rfl
  | cons m es ih =>
    obtain ⟨steps, rfl⟩ : ∃ k, steps = k + 1 := ⟨steps - 1, by simp at hsteps; omega⟩
    have he : ", ".toList.intercalate ((e :: m :: es).map entryText) =
        entryText e ++ ',' :: ' ' :: ", ".toList.intercalate ((m :: es).map entryText) := by
      simp [List.intercalate]
    rw [he]
    generalize hrest : ", ".toList.intercalate ((m :: es).map entryText) = rest at *
    have ih' := ih m (fun x hx => hn x (List.mem_cons_of_mem _ hx)) steps (by simp at hsteps ⊢; omega)
      (before ++ entryText e ++ [',', ' '])
    have h1 := fun (β : Type) (next : Int → Int → M Reader β) =>
      readEntry_reads hkt hvt e (hn e (by simp)) ',' (by simp [Separates]) before (' ' :: (rest ++ '}' :: after)) next
    have h2 := nextChar_at (before ++ entryText e) (' ' :: (rest ++ '}' :: after)) ','
    have h3 := matchChar_at (before ++ entryText e ++ [',']) (rest ++ '}' :: after) ' '
    simp only [hrest, List.append_assoc, List.cons_append, List.nil_append, List.length_append, List.length_cons,
      List.length_nil, Nat.zero_add] at h1 h2 h3 ih' ⊢
    rw [readEntries, h1, M.bind_ok h2, if_neg (by decide)]
    simp only [Nat.add_assoc] at h3 ih' ⊢
    rw [M.bind_ok h3, M.bind_ok ih', M.pure_run]
    congr 2
    omega

/-- C105, maps: a map from integers to integers is formatted with `{}` as a text from which it can be read again. -/
theorem C105_maps (kt vt : IntTy) (hkt : kt.Std) (hvt : vt.Std) (entries : List (Int × Int))
    (hn : ∀ e ∈ entries, kt.Holds e.1 ∧ vt.Holds e.2) :
    ∃ text, formatStr "{:}".toList [(intMap kt vt entries).farg (.map (.core (.int kt)) (.core (.int vt)))] = .ok () text ∧
      ∀ (before after : Str) (steps : Nat), entries.length ≤ steps →
        readMap kt vt steps ⟨before ++ text ++ after, before.length⟩ =
          .ok ⟨before ++ text ++ after, before.length + text.length⟩ entries := by
  have hmap := C53_map false (.core (.int kt)) (.core (.int vt)) none ⟨takes_nil _, takes_nil _⟩
    (entries.map fun e => (.core (.int kt e.1), .core (.int vt e.2)))
    (by
      intro e he
      obtain ⟨x, hx, rfl⟩ := List.mem_map.1 he
      exact ⟨.core (a := .int kt x.1) ⟨hkt, (hn x hx).1⟩, .core (a := .int vt x.2) ⟨hvt, (hn x hx).2⟩⟩)
    (entries.map fun e => (intNumeral false 10 e.1, intNumeral false 10 e.2)) (by simp)
    (by
      intro i e text he ht
      rw [List.getElem?_map] at he ht
      obtain ⟨x, hx, rfl⟩ := Option.map_eq_some_iff.1 he
      rw [hx] at ht
      obtain rfl := Option.some.inj ht
      have hm := hn x (List.mem_of_getElem? hx)
      exact ⟨(list_element (c := none) rfl kt hkt x.1 hm.1).2, (list_element (c := none) rfl vt hvt x.2 hm.2).2⟩)
  simp only [List.map_map, Function.comp_def, Option.map_none] at hmap
  refine ⟨_, hmap, ?_⟩
  intro before after steps hsteps
  change readMap kt vt steps ⟨before ++ bracketed false ['{'] ['}'] (", ".toList.intercalate (entries.map entryText)) ++ after,
    before.length⟩ = .ok ⟨before ++ bracketed false ['{'] ['}'] (", ".toList.intercalate (entries.map entryText)) ++ after,
    before.length + (bracketed false ['{'] ['}'] (", ".toList.intercalate (entries.map entryText))).length⟩ entries
  simp only [bracketed, Bool.false_eq_true, if_false]
  cases entries with
  | nil =>
    have h1 := matchChar_at before ('}' :: after) '{'
    have h2 := nextChar_at (before ++ ['{']) after '}'
    have h3 : Reader.peek ⟨before ++ ['{'] ++ '}' :: after, (before ++ ['{']).length⟩ =
        .ok ⟨before ++ ['{'] ++ '}' :: after, (before ++ ['{']).length⟩ '}' := by
      unfold Reader.peek
      rw [if_pos (by simp)]
      simp only [char_at]
    simp [List.intercalate] at h1 h2 h3 ⊢
    rw [readMap, M.bind_ok h1, M.bind_ok h3, if_pos rfl, M.bind_ok h2, M.pure_run]
  | cons e es =>
    have h4 := readEntries_reads hkt hvt e es hn steps (by simpa using hsteps) (before ++ ['{']) after
    generalize hrest : ", ".toList.intercalate ((e :: es).map entryText) = rest at *
    obtain ⟨d, tl, hd, hne⟩ : ∃ d tl, rest = d :: tl ∧ d ≠ '}' := by
      obtain ⟨d, tl, h1, h2⟩ := intNumeral_head false (b := 10) (by decide) (by decide) e.1
      refine ⟨d, rest.drop 1, ?_, ?_⟩
      · rw [← hrest]
        cases es with
        | nil => simp [List.intercalate, entryText, h1]
        | cons m es => simp [List.intercalate, entryText, h1]
      · rintro rfl
        rcases h2 with h2 | h2
        · exact absurd h2 (by decide)
        · exact absurd h2 (by decide)
    have h1 := matchChar_at before (rest ++ '}' :: after) '{'
    have h3 : Reader.peek ⟨before ++ ['{'] ++ (rest ++ '}' :: after), (before ++ ['{']).length⟩ =
        .ok ⟨before ++ ['{'] ++ (rest ++ '}' :: after), (before ++ ['{']).length⟩ d := by
      unfold Reader.peek
      rw [if_pos (by simp)]
      simp only [hd, List.cons_append, char_at]
    simp only [List.append_assoc, List.cons_append, List.nil_append, List.length_append, List.length_cons,
      List.length_nil, Nat.zero_add] at h1 h3 h4 ⊢
    rw [readMap, M.bind_ok h1, M.bind_ok h3, if_neg hne, h4]
    have : before.length + 1 + rest.length + 1 = before.length + (rest.length + 1 + 1) := by omega
    rw [this]

/-- C105, the hypotheses are met: a map. -/
example : (∀ e ∈ [((1 : Int), (-20 : Int)), (255, 3)], u8.Holds e.1 ∧ i16.Holds e.2) ∧ u8.Std ∧ i16.Std ∧
    formatStr "{:}".toList [(intMap u8 i16 [(1, -20), (255, 3)]).farg (.map (.core (.int u8)) (.core (.int i16)))] =
      .ok () "{1: -20, 255: 3}".toList := by
  refine ⟨by decide, by decide, by decide, by decide +kernel⟩

/-- C105, the hypotheses are met: a list in base 16, and what is written. -/
example : (∀ n ∈ [255, 0, -16], i32.Holds n) ∧ i32.Std ∧ listBase (some 'X') = some 16 ∧
    formatStr "{::X}".toList [(intList i32 [255, 0, -16]).farg (.range false (.core (.int i32)))] =
      .ok () "[FF, 0, -10]".toList := by
  refine ⟨by decide, by decide, rfl, by decide +kernel⟩

end Emio
