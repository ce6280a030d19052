import Verif.Lemmas.ScanApi
import Verif.Props.Format
/-
Properties of scanning.
-/
namespace Emio
open Reader Spec

/-! ### C47 scanning what was formatted -/

/-- A field of a scan string without width as a field of a format string. -/
def Spec.ScanHole.toHole (h : ScanHole) : Hole := ⟨h.idx, h.spec.map fun sp => { alt := sp.alt, type := sp.type }⟩

/-- A scan string without widths as a format string. -/
def Spec.ScanTemplate.toTemplate (t : ScanTemplate) : Template := ⟨t.segs.map fun s => (s.1, ScanHole.toHole s.2), t.last⟩

theorem toHole_field {h : ScanHole} (hw : h.sp.width = []) : (ScanHole.toHole h).field = h.field := by
  obtain ⟨idx, spec⟩ := h
  cases spec with
  | none => rfl
  | some sp =>
    have : sp.width = [] := hw
    simp [ScanHole.toHole, Hole.field, ScanHole.field, SpecText.text, ScanSpec.text, this]

theorem toTemplate_format {t : ScanTemplate} (hw : ∀ s ∈ t.segs, s.2.sp.width = []) :
    (ScanTemplate.toTemplate t).format = t.format := by
  unfold ScanTemplate.toTemplate Template.format ScanTemplate.format
  simp only [List.map_map, FormatText.mk.injEq, and_true]
  refine List.map_congr_left fun s hs => ?_
  simp [toHole_field (hw s hs)]

/-- The text of a number as a field of this kind writes it. -/
def writtenNumber (sp : ScanSpec) (n : Int) : Number where
  sign := if n < 0 then .minus else .none
  mark := if sp.alt = true ∧ (sp.type = some 'x' ∨ sp.type = some 'b' ∨ (sp.type = some 'o' ∧ n ≠ 0)) then
    '0' :: (if sp.type = some 'o' then [] else sp.type.toList) else []
  base := typeBase sp.type
  digits := numeral false (typeBase sp.type) n.natAbs

theorem writtenNumber_value {sp : ScanSpec} (hal : ∀ c ∈ sp.type, c ∈ ['b', 'd', 'o', 'x']) (n : Int) :
    IsNumeral (writtenNumber sp n).base (writtenNumber sp n).digits ∧ (writtenNumber sp n).value = n := by
  have hb : 2 ≤ typeBase sp.type ∧ typeBase sp.type ≤ 36 := by
    cases ht : sp.type with
    | none => decide
    | some c =>
      have := hal c (by simp [ht])
      simp only [List.mem_cons, List.not_mem_nil, or_false] at this
      rcases this with rfl | rfl | rfl | rfl <;> decide
  obtain ⟨h1, h2⟩ := numeral_value false (typeBase sp.type) n.natAbs hb.1 hb.2
  refine ⟨h1, ?_⟩
  unfold Number.value writtenNumber
  simp only [h2]
  split
  · simp only [Sign.apply]; omega
  · simp only [Sign.apply]; omega

theorem writtenNumber_text {h : ScanHole} (hw : h.sp.width = []) (hal : ∀ c ∈ h.sp.type, c ∈ ['b', 'd', 'o', 'x']) (n : Int) :
    intText (ScanHole.toHole h).specs n = (writtenNumber h.sp n).text := by
  have hm : (ScanHole.toHole h).specs = ({ alt := h.sp.alt, type := h.sp.type } : SpecText).meaning := by
    obtain ⟨idx, spec⟩ := h
    cases spec <;> rfl
  rw [hm]
  generalize h.sp = sp at *
  obtain ⟨alt, width, type⟩ := sp
  simp only at hal hw
  subst hw
  have e : ∀ s : Specs, s.zeroFlag = false → s.width = 0 → ∀ a b, paddedNumber s a b = a ++ b := by
    intro s h1 h2 a b
    unfold paddedNumber
    rw [h1, if_neg (by simp), padded_withoutWidth _ _ _ h2]
  have hz : ({ alt := alt, type := type } : SpecText).meaning.zeroFlag = false := rfl
  have hw0 : ({ alt := alt, type := type } : SpecText).meaning.width = 0 := rfl
  unfold intText
  cases type with
  | none =>
    have ht : ({ alt := alt, type := none } : SpecText).meaning.type = noChar := rfl
    rw [ht, if_neg (by decide), e _ hz hw0]
    by_cases hn : n < 0 <;>
      simp [signOf, prefixOf, ht, writtenNumber, Number.text, Sign.text, baseOf, typeBase, noChar, SpecText.meaning, hn]
  | some c =>
    have hc := hal c (by simp)
    have ht : ({ alt := alt, type := some c } : SpecText).meaning.type = c := rfl
    have ha : ({ alt := alt, type := some c } : SpecText).meaning.alternateForm = alt := rfl
    have hs : ({ alt := alt, type := some c } : SpecText).meaning.sign = noChar := rfl
    simp only [List.mem_cons, List.not_mem_nil, or_false] at hc
    rw [ht, if_neg (by rintro rfl; revert hc; decide), e _ hz hw0]
    rcases hc with rfl | rfl | rfl | rfl <;> by_cases hn : n < 0 <;> cases alt <;> by_cases h0 : n = 0 <;>
      simp [signOf, prefixOf, ht, ha, hs, writtenNumber, Number.text, Sign.text, baseOf, typeBase, hn, h0, noChar] <;>
      omega

theorem numeral_head_ne (b : Nat) (hb : 2 ≤ b) (hb' : b ≤ 36) : ∀ n, n ≠ 0 → (numeral false b n).head? ≠ some '0' := by
  intro n
  induction n using Nat.strongRecOn with
  | ind n ih =>
    intro h0
    rcases Nat.lt_or_ge n b with h | h
    · rw [numeral_lt _ _ _ hb h]
      simp only [List.head?_cons, ne_eq, Option.some.injEq]
      intro he
      have h1 := symbolValue_symbol b hb' false n h
      have h2 := symbolValue_symbol b hb' false 0 (by omega)
      have h3 : symbol false 0 = '0' := rfl
      rw [he, ← h3, h2] at h1
      exact h0 (Option.some.inj h1).symm
    · rw [numeral_ge _ _ _ hb h]
      have hd : n / b ≠ 0 := by have := Nat.div_pos h (by omega); omega
      have hne := numeral_ne_nil false b (n / b) hb
      have := ih (n / b) (Nat.div_lt_self (by omega) (by omega)) hd
      cases hx : numeral false b (n / b) with
      | nil => exact absurd hx hne
      | cons c cs => rw [hx] at this; simpa using this

theorem digitLike_mono {b : Nat} (hb : b ≤ 16) {c : Char} (h : digitLike 16 c = false) : digitLike b c = false := by
  unfold digitLike at *
  simp only [Bool.or_eq_false_iff, Bool.and_eq_false_iff, decide_eq_false_iff_not] at *
  refine ⟨?_, ?_⟩
  · have h1 := h.1
    unfold symbolValue at *
    simp only at *
    generalize (if 48 ≤ c.toNat ∧ c.toNat ≤ 57 then some (c.toNat - 48)
      else if 97 ≤ c.toNat ∧ c.toNat ≤ 122 then some (c.toNat - 97 + 10)
      else if 65 ≤ c.toNat ∧ c.toNat ≤ 90 then some (c.toNat - 65 + 10)
      else none : Option Nat) = v at *
    cases v with
    | none => rfl
    | some v =>
      simp only [Option.filter_some] at *
      by_cases hv : v < 16
      · simp [hv] at h1
      · rw [if_neg (by simp; omega)]; rfl
  · rcases h.2 with h2 | h2
    · exact Or.inl h2
    · right; omega

theorem writtenNumber_readable {ty : IntTy} (hty : ty.Std) {n : Int} (hn : ty.Holds n) {sp : ScanSpec}
    (hal : ∀ c ∈ sp.type, c ∈ ['b', 'd', 'o', 'x']) (hw : sp.width = []) {lit rest : Str} {atEnd : Prop}
    (hz : n = 0 → sp.alt = true → sp.type ≠ some 'o' ∧ (sp.type = none → rest = []))
    (hr : ∀ c ∈ rest.head?, digitLike 16 c = false) :
    Readable (.int ty) sp (writtenNumber sp n).text (.int n) lit atEnd rest := by
  obtain ⟨h1, h2⟩ := writtenNumber_value hal n
  have hsz : sp.size = none := by simp [ScanSpec.size, hw]
  have hb : typeBase sp.type ≤ 16 := by
    cases ht : sp.type with
    | none => decide
    | some c =>
      have := hal c (by simp [ht])
      simp only [List.mem_cons, List.not_mem_nil, or_false] at this
      rcases this with rfl | rfl | rfl | rfl <;> decide
  refine ⟨writtenNumber sp n, rfl, by rw [h2], hty, ?_, h1, by simp [hsz], fun _ c hc => digitLike_mono hb (hr c hc),
    by rw [h2]; exact hn, ?_, ?_⟩
  · unfold ScanSpec.Base writtenNumber
    obtain ⟨alt, width, type⟩ := sp
    simp only at *
    cases type with
    | none => cases alt <;> simp [typeBase, marks]
    | some c =>
      have := hal c (by simp)
      simp only [List.mem_cons, List.not_mem_nil, or_false] at this
      rcases this with rfl | rfl | rfl | rfl <;> cases alt <;> by_cases h0 : n = 0 <;>
        simp_all [typeBase, marks]
  · by_cases hneg : n < 0
    · left
      cases hs : ty.signed with
      | true => rfl
      | false =>
        have := hn.1
        simp only [IntTy.min, hs] at this
        simp at this
        omega
    · right
      simp [writtenNumber, hneg]
  · intro ht ha hb10
    by_cases h0 : n = 0
    · right
      have := (hz h0 ha).2 ht
      subst h0
      refine ⟨by simp [writtenNumber, numeral], fun _ => this⟩
    · left
      simp only [writtenNumber, ht]
      exact numeral_head_ne 10 (by omega) (by omega) _ (by omega)

theorem scan_input_eq (t : ScanTemplate) (pieces : List Str) :
    t.input pieces = ((t.segs.zip pieces).flatMap fun s => s.1.1 ++ s.2) ++ t.last := by
  unfold ScanTemplate.input FormatText.output ScanTemplate.format
  simp only [List.zip_map_left, List.flatMap_map]
  rfl

/-- The piece, the variable and the value of each field. -/
def numberFields (ns : List Int) : Nat → List (Str × ScanHole) → List (Str × Nat × ScanVal)
  | _, [] => []
  | i, (_, h) :: segs =>
    ((writtenNumber h.sp (ns.getD (h.field.argument i) 0)).text, h.field.argument i,
      .int (ns.getD (h.field.argument i) 0)) :: numberFields ns (i + 1) segs

/-- `t` can be used to read numbers back: fields are separated by text that does not look like digits, and a zero is not
written by a field `{:#o}`, or by a field `{:#}` unless it is at the end. -/
structure ReadsBack (t : ScanTemplate) (ns : List Int) : Prop where
  separated : ∀ a s s' b, t.segs = a ++ s :: s' :: b → ∃ c ∈ s'.1.head?, digitLike 16 c = false
  ending : t.segs ≠ [] → ∀ c ∈ t.last.head?, digitLike 16 c = false
  zero : ∀ a s b, t.segs = a ++ s :: b → ns[s.2.field.argument a.length]? = some 0 → s.2.sp.alt = true →
    s.2.sp.type ≠ some 'o' ∧ (s.2.sp.type = none → b = [] ∧ t.last = [])

theorem written_numbers {tys : List IntTy} {ns : List Int} {t : ScanTemplate} (hl : tys.length = ns.length)
    (hty : ∀ x ∈ tys.zip ns, x.1.Std ∧ x.1.Holds x.2) (hback : ReadsBack t ns) (hw : ∀ s ∈ t.segs, s.2.sp.width = []) :
    ∀ (segs a : List (Str × ScanHole)), t.segs = a ++ segs → SegsOk (tys.map .int) a.length segs →
      Written (tys.map .int) t.last [] a.length segs
        (((segs.zip ((numberFields ns a.length segs).map (·.1))).flatMap fun s => s.1.1 ++ s.2) ++ t.last)
        (numberFields ns a.length segs) [] := by
  intro segs
  induction segs with
  | nil =>
    intro a _ _
    have h := Written.done (tys := tys.map .int) (last := t.last) (tail := []) a.length []
    simpa [numberFields] using h
  | cons s segs ih =>
    intro a hseg hok
    obtain ⟨lit, hole⟩ := s
    obtain ⟨⟨ty, hn, hal⟩, wf, fits, hok'⟩ := hok.cons
    have hih := ih (a ++ [(lit, hole)]) (by rw [hseg]; simp) (by simpa using hok')
    simp only [List.length_append, List.length_singleton] at hih
    rw [List.getElem?_map] at hn
    obtain ⟨ty', hty', rfl⟩ := Option.map_eq_some_iff.1 hn
    have hk := (List.getElem?_eq_some_iff.1 hty').1
    have hz : (tys.zip ns)[hole.field.argument a.length]? = some (ty', ns.getD (hole.field.argument a.length) 0) := by
      rw [List.getElem?_zip_eq_some]
      refine ⟨hty', ?_⟩
      rw [List.getD_eq_getElem?_getD, List.getElem?_eq_getElem (by omega)]
      rfl
    obtain ⟨hs1, hs2⟩ := hty _ (List.mem_of_getElem? hz)
    simp only [numberFields, List.map_cons, List.zip_cons_cons, List.flatMap_cons, List.append_assoc]
    refine Written.field (ty := .int ty') (by rw [List.getElem?_map, hty']; rfl) ?_ hih
    have hlt : (a.length + 1) = a.length + 1 := rfl
    refine writtenNumber_readable hs1 hs2 hal (hw (lit, hole) (by rw [hseg]; simp)) ?_ ?_
    · intro h0 ha
      have hsome : ns[hole.field.argument a.length]? = some 0 := by
        rw [List.getD_eq_getElem?_getD, List.getElem?_eq_getElem (by omega)] at h0
        rw [List.getElem?_eq_getElem (by omega)]
        simpa using h0
      obtain ⟨h1, h2⟩ := hback.zero a (lit, hole) segs hseg hsome ha
      refine ⟨h1, fun ht => ?_⟩
      obtain ⟨rfl, h3⟩ := h2 ht
      simp [h3]
    · cases segs with
      | nil =>
        simp only [List.zip_nil_left, List.flatMap_nil, List.nil_append]
        exact hback.ending (by rw [hseg]; simp)
      | cons s' segs =>
        obtain ⟨lit', hole'⟩ := s'
        obtain ⟨c, hc, hd⟩ := hback.separated a (lit, hole) (lit', hole') segs hseg
        simp only [numberFields, List.map_cons, List.zip_cons_cons, List.flatMap_cons, List.append_assoc]
        intro c' hc'
        cases lit' with
        | nil => simp at hc
        | cons d ds =>
          simp at hc hc'
          subst hc hc'
          exact hd

theorem store_get (target : List ScanVal) : ∀ (new : List (Nat × ScanVal)) (vars : List ScanVal),
    vars.length = target.length → (∀ x ∈ new, target[x.1]? = some x.2) → ∀ k : Nat,
    (store vars new)[k]? = vars[k]? ∨ (store vars new)[k]? = target[k]? := by
  intro new
  induction new with
  | nil => intro vars _ _ k; exact Or.inl rfl
  | cons x new ih =>
    intro vars hl h k
    have hx := h x (by simp)
    rcases ih (vars.set x.1 x.2) (by simpa using hl) (fun y hy => h y (by simp [hy])) k with h1 | h1
    · by_cases hk : x.1 = k
      · right
        have hlt := (List.getElem?_eq_some_iff.1 hx).1
        simp only [store, List.foldl_cons] at h1 ⊢
        rw [h1, ← hk, hx, List.getElem?_set_self (by omega)]
      · left
        simp only [store, List.foldl_cons] at h1 ⊢
        rw [h1, List.getElem?_set_ne hk]
    · exact Or.inr h1

theorem store_mem (target : List ScanVal) : ∀ (new : List (Nat × ScanVal)) (vars : List ScanVal),
    vars.length = target.length → (∀ x ∈ new, target[x.1]? = some x.2) → ∀ x ∈ new,
    (store vars new)[x.1]? = target[x.1]? := by
  intro new
  induction new with
  | nil => intro vars _ _ x hx; simp at hx
  | cons y new ih =>
    intro vars hl h x hx
    have hl' : (vars.set y.1 y.2).length = target.length := by simpa using hl
    have h' : ∀ z ∈ new, target[z.1]? = some z.2 := fun z hz => h z (by simp [hz])
    rcases List.mem_cons.1 hx with rfl | hx
    · rcases store_get target new (vars.set x.1 x.2) hl' h' x.1 with h1 | h1
      · simp only [store, List.foldl_cons] at h1 ⊢
        have hx := h x (by simp)
        have hlt := (List.getElem?_eq_some_iff.1 hx).1
        rw [h1, hx, List.getElem?_set_self (by omega)]
      · exact h1
    · exact ih (vars.set y.1 y.2) hl' h' x hx

theorem store_eq {target vars : List ScanVal} {new : List (Nat × ScanVal)} (hl : vars.length = target.length)
    (h : ∀ x ∈ new, target[x.1]? = some x.2) (hall : ∀ k < target.length, ∃ x ∈ new, x.1 = k) :
    store vars new = target := by
  have hlen : (store vars new).length = vars.length := by
    unfold store
    have : ∀ (new : List (Nat × ScanVal)) (vars : List ScanVal),
        (new.foldl (fun vs x => vs.set x.1 x.2) vars).length = vars.length := by
      intro new
      induction new with
      | nil => intro vars; rfl
      | cons y new ih => intro vars; simp [ih]
    exact this new vars
  refine List.ext_getElem? fun k => ?_
  by_cases hk : k < target.length
  · obtain ⟨x, hx, rfl⟩ := hall k hk
    exact store_mem target new vars hl h x hx
  · rw [List.getElem?_eq_none (by omega), List.getElem?_eq_none (by omega)]

theorem numberFields_args (ns : List Int) : ∀ (segs : List (Str × ScanHole)) (i : Nat),
    (numberFields ns i segs).map (·.2.1) = argsFrom i (segs.map (·.2.field)) := by
  intro segs
  induction segs with
  | nil => intro i; rfl
  | cons s segs ih => intro i; simp [numberFields, argsFrom, ih]

theorem numberFields_values (ns : List Int) : ∀ (segs : List (Str × ScanHole)) (i : Nat),
    ∀ x ∈ numberFields ns i segs, x.2.2 = .int (ns.getD x.2.1 0) := by
  intro segs
  induction segs with
  | nil => intro i x hx; simp [numberFields] at hx
  | cons s segs ih =>
    intro i x hx
    rcases List.mem_cons.1 hx with rfl | hx
    · rfl
    · exact ih _ x hx

theorem numberFields_length (ns : List Int) : ∀ (segs : List (Str × ScanHole)) (i : Nat),
    (numberFields ns i segs).length = segs.length := by
  intro segs
  induction segs with
  | nil => intro i; rfl
  | cons s segs ih => intro i; simp [numberFields, ih]

/-- The integers as arguments. -/
def intArgs (tys : List IntTy) (ns : List Int) : List CoreArg := (tys.zip ns).map fun x => .int x.1 x.2

theorem intArgs_get {tys : List IntTy} {ns : List Int} (hl : tys.length = ns.length) {k : Nat} (hk : k < ns.length) :
    ∃ ty, (tys.map ScanTy.int)[k]? = some (.int ty) ∧ (tys.zip ns)[k]? = some (ty, ns.getD k 0) ∧
      (intArgs tys ns)[k]? = some (.int ty (ns.getD k 0)) := by
  have hz : (tys.zip ns)[k]? = some (tys[k], ns.getD k 0) := by
    rw [List.getElem?_zip_eq_some]
    refine ⟨List.getElem?_eq_getElem (by omega), ?_⟩
    rw [List.getD_eq_getElem?_getD, List.getElem?_eq_getElem hk]
    rfl
  refine ⟨tys[k], ?_, hz, ?_⟩
  · rw [List.getElem?_map, List.getElem?_eq_getElem (by omega)]
    rfl
  · rw [intArgs, List.getElem?_map, hz]
    rfl

theorem numbers_texts {tys : List IntTy} {ns : List Int} (hl : tys.length = ns.length) :
    ∀ (segs : List (Str × ScanHole)) (i : Nat), SegsOk (tys.map .int) i segs → (∀ s ∈ segs, s.2.sp.width = []) →
    ∀ x ∈ ((argsFrom i (segs.map (·.2.field))).zip (segs.map fun s => (s.1, ScanHole.toHole s.2))).zip
      ((numberFields ns i segs).map (·.1)), ∃ a, (intArgs tys ns)[x.1.1]? = some a ∧ argText a x.1.2.2.specs = x.2 := by
  intro segs
  induction segs with
  | nil => intro i _ _ x hx; simp [argsFrom] at hx
  | cons s segs ih =>
    intro i hok hw x hx
    obtain ⟨lit, hole⟩ := s
    obtain ⟨⟨ty, hn, hal⟩, wf, fits, hok'⟩ := hok.cons
    simp only [List.map_cons, argsFrom, numberFields, List.zip_cons_cons, List.mem_cons] at hx
    rcases hx with rfl | hx
    · have hk : hole.field.argument i < ns.length := by
        have := (List.getElem?_eq_some_iff.1 hn).1
        simp at this
        omega
      obtain ⟨ty', h1, _, h3⟩ := intArgs_get hl hk
      rw [hn] at h1
      obtain rfl := Option.some.inj h1
      refine ⟨_, h3, ?_⟩
      simp only [argText]
      exact writtenNumber_text (hw (lit, hole) (by simp)) hal _
    · exact ih (i + 1) hok' (fun s hs => hw s (by simp [hs])) x hx

theorem toTemplate_suits {tys : List IntTy} {ns : List Int} (hl : tys.length = ns.length) {t : ScanTemplate}
    (hs : t.Suits (tys.map .int)) (hw : ∀ s ∈ t.segs, s.2.sp.width = []) :
    (ScanTemplate.toTemplate t).Suits (intArgs tys ns) := by
  have hf := toTemplate_format hw
  have hlen : (intArgs tys ns).length = tys.length := by simp [intArgs, hl]
  refine ⟨by have := hs.number; simp at this; omega, ?_, ?_, by rw [hf]; exact hs.mode, ?_, ?_⟩
  · intro s hs'
    simp only [ScanTemplate.toTemplate, List.mem_map] at hs'
    obtain ⟨s0, h0, rfl⟩ := hs'
    exact hs.digits s0 h0
  · intro s hs' sp hsp
    simp only [ScanTemplate.toTemplate, List.mem_map] at hs'
    obtain ⟨s0, h0, rfl⟩ := hs'
    simp only [ScanHole.toHole, Option.mem_def, Option.map_eq_some_iff] at hsp
    obtain ⟨sp0, h1, rfl⟩ := hsp
    have hsp0 : s0.2.sp = sp0 := by simp [ScanHole.sp, h1]
    have hg := (hs.grammar s0 h0).1
    rw [hsp0] at hg
    refine ⟨⟨by simp, by simp, by simp, by simp, by simp, by simp, ?_⟩, ?_⟩
    · intro c hc
      exact Or.inl (hg.type c hc)
    · exact ⟨by simp [SpecText.widthValue, numeralValue, denote], by simp [SpecText.precValue]⟩
  · intro k
    rw [hf, hlen]
    simpa using hs.arguments k
  · intro x hx
    rw [hf] at hx
    simp only [ScanTemplate.toTemplate] at hx
    rw [zip_map_snd] at hx
    obtain ⟨y, hy, rfl⟩ := List.mem_map.1 hx
    obtain ⟨ty, h1, h2⟩ := hs.allowed y hy
    have hk : y.1 < ns.length := by
      have := (List.getElem?_eq_some_iff.1 h1).1
      simp at this
      omega
    obtain ⟨ty', g1, _, g3⟩ := intArgs_get hl hk
    rw [h1] at g1
    obtain rfl := Option.some.inj g1
    refine ⟨_, g3, ?_⟩
    have e : (y.2.2.toHole.spec.getD {}) = ({ alt := y.2.2.sp.alt, type := y.2.2.sp.type } : SpecText) := by
      obtain ⟨i, lit, idx, spec⟩ := y
      cases spec <;> rfl
    simp only
    rw [e]
    refine ⟨⟨rfl, ?_⟩, Or.inr rfl⟩
    intro c hc
    have := h2 c hc
    simp only [List.mem_cons, List.not_mem_nil, or_false] at this
    rcases this with rfl | rfl | rfl | rfl <;> decide

/-- Integers are written by a format string with fields without width, and read back by the same string. -/
theorem C47_template_partial (t : ScanTemplate) (tys : List IntTy) (ns : List Int) (vars : List ScanVal)
    (hl : tys.length = ns.length) (hv : vars.length = ns.length) (hty : ∀ x ∈ tys.zip ns, x.1.Std ∧ x.1.Holds x.2)
    (hs : t.Suits (tys.map .int)) (hw : ∀ s ∈ t.segs, s.2.sp.width = []) (hback : ReadsBack t ns) :
    ∃ text, formatStr t.text (fargs (intArgs tys ns)) = .ok () text ∧
      scanStr text t.text (tys.map .int) vars = .ok (ns.map .int) () := by
  have hf := toTemplate_format hw
  have hok := suits_segsOk hs
  have htext : (ScanTemplate.toTemplate t).text = t.text := by unfold Template.text ScanTemplate.text; rw [hf]
  refine ⟨t.input ((numberFields ns 0 t.segs).map (·.1)), ?_, ?_⟩
  · have h := C24_output_partial (ScanTemplate.toTemplate t) (intArgs tys ns) ((numberFields ns 0 t.segs).map (·.1))
      (toTemplate_suits hl hs hw) ?_ ?_ ?_
    · rw [htext] at h
      rw [h]
      unfold Template.output ScanTemplate.input
      rw [hf]
    · intro a ha
      simp only [intArgs, List.mem_map] at ha
      obtain ⟨x, hx, rfl⟩ := ha
      exact hty x hx
    · refine ⟨by simp [numberFields_length, ScanTemplate.toTemplate], ?_⟩
      rw [hf, scan_args]
      exact numbers_texts hl t.segs 0 hok hw
    · intro x hx a ha
      rw [hf] at hx
      simp only [ScanTemplate.toTemplate] at hx
      rw [zip_map_snd] at hx
      obtain ⟨y, hy, rfl⟩ := List.mem_map.1 hx
      obtain ⟨ty, h1, h2⟩ := hs.allowed y hy
      have hk : y.1 < ns.length := by
        have := (List.getElem?_eq_some_iff.1 h1).1
        simp at this
        omega
      obtain ⟨ty', g1, _, g3⟩ := intArgs_get hl hk
      rw [h1] at g1
      obtain rfl := Option.some.inj g1
      simp only at ha
      rw [g3] at ha
      obtain rfl := Option.some.inj ha
      rintro (h | h | h)
      · have : y.2.2.toHole.specs.type = y.2.2.sp.type.getD noChar := by
          obtain ⟨i, lit, idx, spec⟩ := y
          cases spec <;> rfl
        have h3 := h.1
        simp only at h3
        rw [this] at h3
        cases ht : y.2.2.sp.type with
        | none => rw [ht] at h3; revert h3; decide
        | some c =>
          have hc := h2 c (by simp [ht])
          rw [ht] at h3
          simp only [Option.getD_some] at h3
          subst h3
          revert hc
          decide
      · exact h
      · exact h
  · have hwr := written_numbers hl hty hback hw t.segs [] rfl hok
    obtain ⟨used, h1, h2⟩ := scanSegs_fwd (tys.map .int) t.last stop_nil hwr
      ⟨ofStr (t.input ((numberFields ns 0 t.segs).map (·.1))), vars⟩ hok (by
        simp only [List.length_nil]
        rw [← scan_input_eq]
        exact at_ofStr _) (by simp; omega)
    unfold scanStr
    rw [scan_eq hs]
    simp only [List.length_nil, List.append_nil] at h1 h2
    rw [h2]
    simp only
    rw [if_pos]
    · congr 1
      refine store_eq (by simpa using hv) ?_ ?_
      · intro x hx
        obtain ⟨y, hy, rfl⟩ := List.mem_map.1 hx
        have hval := numberFields_values ns t.segs 0 y hy
        have hmem : y.2.1 ∈ t.format.arguments := by
          rw [scan_args, ← numberFields_args ns]
          exact List.mem_map.2 ⟨y, hy, rfl⟩
        have hk := (hs.arguments y.2.1).1 hmem
        simp only [List.length_map] at hk
        rw [List.getElem?_map, List.getElem?_eq_getElem (by omega), hval, List.getD_eq_getElem?_getD,
          List.getElem?_eq_getElem (by omega)]
        rfl
      · intro k hk
        simp only [List.length_map] at hk
        have := (hs.arguments k).2 (by simpa using by omega)
        rw [scan_args, ← numberFields_args ns] at this
        obtain ⟨y, hy, rfl⟩ := List.mem_map.1 this
        exact ⟨y.2, List.mem_map.2 ⟨y, hy, rfl⟩, rfl⟩
    · have : used.length = (t.input ((numberFields ns 0 t.segs).map (·.1))).length := by
        rw [← h1, scan_input_eq]
      simp [Reader.eof, adv, ofStr, this]

/-- For one field: every integer type, every type of presentation, with or without `#`. -/
def ScanReadsFormatted : Prop :=
  ∀ (ty : IntTy) (n : Int) (alt : Bool) (type : Option Char) (old : ScanVal), ty.Std → ty.Holds n →
    (∀ c ∈ type, c ∈ ['b', 'd', 'o', 'x']) →
    let str := "{:".toList ++ (if alt then ['#'] else []) ++ type.toList ++ "}".toList
    ∃ text, formatStr str [(CoreArg.int ty n).farg] = .ok () text ∧ scanStr text str [.int ty] [old] = .ok [.int n] ()

/-- It does not hold: the `0` written by `{:#o}` is taken for the mark of the base. -/
theorem C47_octal_zero_violated : ¬ ScanReadsFormatted := by
  intro h
  obtain ⟨text, h1, h2⟩ := h i32 0 true (some 'o') (.int 7) (by simp [IntTy.Std]) (by decide) (by simp)
  have e1 : formatStr "{:#o}".toList [(CoreArg.int i32 0).farg] = .ok () "0".toList := by decide +kernel
  have e2 : scanStr "0".toList "{:#o}".toList [.int i32] [.int 7] = .err [.int 7] .eof := by decide +kernel
  have e : "{:".toList ++ (if true = true then ['#'] else []) ++ (some 'o').toList ++ "}".toList = "{:#o}".toList := by
    decide
  rw [e] at h1 h2
  rw [e1] at h1
  obtain rfl := (ok_inj h1).2
  rw [e2] at h2
  cases h2

/-- Otherwise it holds. -/
theorem C47_round_trip_partial (ty : IntTy) (n : Int) (alt : Bool) (type : Option Char) (old : ScanVal) (hty : ty.Std)
    (hn : ty.Holds n) (ht : ∀ c ∈ type, c ∈ ['b', 'd', 'o', 'x']) (h0 : ¬ (alt = true ∧ type = some 'o' ∧ n = 0)) :
    let str := "{:".toList ++ (if alt then ['#'] else []) ++ type.toList ++ "}".toList
    ∃ text, formatStr str [(CoreArg.int ty n).farg] = .ok () text ∧
      scanStr text str [.int ty] [old] = .ok [.int n] () := by
  intro str
  have wf : (ScanSpec.mk alt [] type).WellFormed := by
    refine ⟨by simp, fun c hc => ?_⟩
    have := ht c hc
    simp only [List.mem_cons, List.not_mem_nil, or_false] at this
    rcases this with rfl | rfl | rfl | rfl <;> decide
  have hs : str = (oneField ⟨alt, [], type⟩ []).text := by
    rw [oneField_text]
    simp [str, ScanSpec.text, escBraces]
  rw [hs]
  refine C47_template_partial (oneField ⟨alt, [], type⟩ []) [ty] [n] [old] rfl rfl (by simpa using ⟨hty, hn⟩)
    (oneField_suits (.int ty) wf (by simp [ScanSpec.Fits, ScanSpec.size]) ht []) (by simp [oneField, ScanHole.sp]) ?_
  refine ⟨?_, by simp [oneField], ?_⟩
  · intro a s s' b h
    have := congrArg List.length h
    simp [oneField] at this
    omega
  · intro a s b h hz ha
    have hl := congrArg List.length h
    simp [oneField] at hl
    have ha0 : a = [] := List.eq_nil_of_length_eq_zero (by omega)
    have hb0 : b = [] := List.eq_nil_of_length_eq_zero (by omega)
    subst ha0 hb0
    simp only [oneField, List.nil_append, List.cons.injEq, and_true] at h
    subst h
    simp only [ScanHole.sp, Option.getD_some] at ha ⊢
    simp only [ScanHole.field, Field.argument, if_true, List.length_nil, List.getElem?_cons_zero, Option.some.injEq] at hz
    exact ⟨fun ho => h0 ⟨ha, ho, hz⟩, fun _ => ⟨trivial, rfl⟩⟩

example : formatStr "{:#x}".toList [(CoreArg.int i64 (-0x7fffffffffffffff - 1)).farg] =
      .ok () "-0x8000000000000000".toList ∧
    scanStr "-0x8000000000000000".toList "{:#x}".toList [.int i64] [.int 0] = .ok [.int (-0x7fffffffffffffff - 1)] () := by
  decide +kernel

/-- `"a={1:#x}, b={0}"` meets the conditions of the theorem for templates. -/
example : ReadsBack ⟨[("a=".toList, ⟨['1'], some { alt := true, type := 'x' }⟩), (", b=".toList, ⟨['0'], none⟩)], []⟩ [5, 0] ∧
    ScanTemplate.text ⟨[("a=".toList, ⟨['1'], some { alt := true, type := 'x' }⟩), (", b=".toList, ⟨['0'], none⟩)], []⟩ =
      "a={1:#x}, b={0}".toList ∧
    scanStr "a=0x0, b=5".toList "a={1:#x}, b={0}".toList [.int i32, .int u8] [.int 1, .int 1] = .ok [.int 5, .int 0] () := by
  refine ⟨⟨?_, by simp, ?_⟩, by decide +kernel, by decide +kernel⟩
  · intro a s s' b h
    cases a with
    | nil =>
      simp only [List.nil_append, List.cons.injEq] at h
      rw [← h.2.1]
      exact ⟨',', rfl, by decide⟩
    | cons x a =>
      have := congrArg List.length h
      simp at this
      omega
  · intro a s b h hz ha
    cases a with
    | nil =>
      simp only [List.nil_append, List.cons.injEq] at h
      rw [← h.1]
      simp [ScanHole.sp]
    | cons x a =>
      cases a with
      | nil =>
        simp only [List.cons_append, List.nil_append, List.cons.injEq] at h
        rw [← h.2.1] at ha
        simp [ScanHole.sp] at ha
      | cons y a =>
        have := congrArg List.length h
        simp at this

/-! ### C59 which scan strings are accepted -/

theorem scan_validation_total (str : Str) (tys : List ScanTy) (hn : tys.length ≤ 128) :
    ∃ b, validateStr str (tys.map ScanTy.farg) = .ok () b := by
  refine loop_total _ ?_ (by simpa using hn) (str.length + 1) ⟨Reader.ofStr str, none, 0⟩
    (Bitset.new 128) [] (Bitset.rep_new 128) rfl (Reader.at_ofStr _).1 ?_
  · intro a ha
    obtain ⟨ty, _, rfl⟩ := List.mem_map.1 ha
    exact (scan_tame ty).forward
  · rw [(Reader.at_ofStr str).2]
    simp

theorem scan_width_infix {t : ScanTemplate} {s : Str × ScanHole} (hs : s ∈ t.segs) :
    ∃ a b, t.text = a ++ s.2.sp.width ++ b := by
  obtain ⟨x, y, hxy⟩ := List.append_of_mem hs
  unfold ScanTemplate.text ScanTemplate.format FormatText.text
  rw [hxy]
  simp only [List.map_append, List.map_cons, List.flatMap_append, List.flatMap_cons]
  obtain ⟨lit, idx, spec⟩ := s
  cases spec with
  | none => exact ⟨_, [], by simp [ScanHole.sp]; rfl⟩
  | some sp =>
    refine ⟨(List.flatMap (fun s => escBraces s.1 ++ s.2.text) (List.map (fun s => (s.1, s.2.field)) x)) ++ escBraces lit ++
      '{' :: (idx ++ [':'] ++ (if sp.alt = true then ['#'] else [])), ?_, ?_⟩
    · exact sp.type.toList ++ ['}'] ++ List.flatMap (fun s => escBraces s.1 ++ s.2.text)
        (List.map (fun s => (s.1, s.2.field)) y) ++ escBraces t.last
    · simp [ScanHole.sp, Field.text, ScanHole.field, ScanSpec.text]

/-- The property: the accepted scan strings are the texts of templates that suit the variables. -/
def AcceptedAreScanTemplates : Prop :=
  ∀ (str : Str) (tys : List ScanTy), tys.length ≤ 128 →
    ((∃ t : ScanTemplate, str = t.text ∧ t.Suits tys) ↔ validateStr str (tys.map ScanTy.farg) = .ok () true)

/-- It does not hold: `{255}` is accepted without any variable. -/
theorem C59_accepted_violated : ¬ AcceptedAreScanTemplates := by
  intro h
  obtain ⟨t, ht, hs⟩ := (h "{255}".toList [] (by simp)).2 (by decide +kernel)
  cases hsg : t.segs with
  | nil =>
    have hl : escBraces t.last = "{255}".toList := by
      rw [ht]; simp [ScanTemplate.text, ScanTemplate.format, FormatText.text, hsg]
    cases hla : t.last with
    | nil => rw [hla] at hl; simp [escBraces] at hl
    | cons c l =>
      rw [hla, escBraces_cons] at hl
      split at hl
      · simp at hl
      · split at hl <;> simp_all
  | cons s ss =>
    have := (hs.arguments (Field.argument 0 s.2.field)).1 (by
      simp [FormatText.arguments, FormatText.fields, ScanTemplate.format, hsg])
    simp at this

/-- Exactly the texts of templates are accepted as scan strings whose widths pass and which, with what is left of the
widths, suit the variables, perhaps followed by ignored text that begins with a field for variable number 255, in which case
the numbering is explicit.  All others are refused with `invalid_format`, and neither the input nor a variable is touched. -/
theorem C59_accepted_strings (str : Str) (tys : List ScanTy) (hn : tys.length ≤ 128) :
    ((∃ (t : ScanTemplate) (tail : Str), str = t.text ++ tail ∧ t.NumbersPass ∧ t.reduced.Suits tys ∧
        (tail = [] ∨ Begins255 tail ∧ t.format.Explicit)) ↔ validateStr str (tys.map ScanTy.farg) = .ok () true) ∧
    ((¬ ∃ (t : ScanTemplate) (tail : Str), str = t.text ++ tail ∧ t.NumbersPass ∧ t.reduced.Suits tys ∧
        (tail = [] ∨ Begins255 tail ∧ t.format.Explicit)) → ∀ io, scanFrom str tys io = .err io .invalidFormat) := by
  have hiff : (∃ (t : ScanTemplate) (tail : Str), str = t.text ++ tail ∧ t.NumbersPass ∧ t.reduced.Suits tys ∧
        (tail = [] ∨ Begins255 tail ∧ t.format.Explicit)) ↔ validateStr str (tys.map ScanTy.farg) = .ok () true := by
    constructor
    · rintro ⟨t, tail, rfl, hp, hs, htail⟩
      exact wide_tail_validates (wide_iff.2 ⟨hp, hs⟩) htail
    · intro hv
      obtain ⟨t, tail, h1, h2, h3⟩ := scan_accepted hn hv
      exact ⟨t, tail, h1, (wide_iff.1 h3).1, (wide_iff.1 h3).2, h2⟩
  refine ⟨hiff, fun hno io => ?_⟩
  have hf : validateStr str (tys.map ScanTy.farg) = .ok () false := by
    obtain ⟨b, hb⟩ := scan_validation_total str tys hn
    cases b with
    | false => exact hb
    | true => exact absurd (hiff.2 hb) hno
  unfold scanFrom VStr.make
  rw [if_neg, hf]
  · rfl
  · rintro ⟨h1, h2⟩
    have : tys.map ScanTy.farg = [] := List.eq_nil_of_length_eq_zero h1
    rw [this, plain_validates str h2] at hf
    simp at hf

/-- "{:9999999999}" is accepted, as "{:1410065407}"; "{:4294967299}" and "{:2147483648}" are not. -/
example : (∃ (t : ScanTemplate) (tail : Str), "{:9999999999}".toList = t.text ++ tail ∧ t.NumbersPass ∧
      t.reduced.Suits [.string] ∧ (tail = [] ∨ Begins255 tail ∧ t.format.Explicit)) ∧
    validateStr "{:4294967299}".toList ([ScanTy.string].map ScanTy.farg) = .ok () false ∧
    validateStr "{:2147483648}".toList ([ScanTy.string].map ScanTy.farg) = .ok () false :=
  ⟨(C59_accepted_strings _ _ (by simp)).1.2 (by decide +kernel), by decide +kernel, by decide +kernel⟩

/-- Such strings without numbers of 2^32 or more. -/
theorem small_template {str : Str} {tys : List ScanTy} (hsm : SmallNumbers str) {t : ScanTemplate} {tail : Str}
    (h : str = t.text ++ tail) (hs : WideSuits t tys) : t.Suits tys := by
  have hfit : ∀ s ∈ t.segs, s.2.sp.Fits := by
    intro s hm w hw
    obtain ⟨a, b, hab⟩ := scan_width_infix hm
    have hlt := hsm a s.2.sp.width (b ++ tail) (by rw [h, hab]; simp) (hs.grammar s hm).1.width
    unfold ScanSpec.size at hw
    split at hw
    · simp at hw
    · rename_i hne
      simp only [Option.mem_def, Option.some.injEq] at hw
      obtain ⟨h1, h2⟩ := (hs.grammar s hm).2 hne
      have := (passes_iff hlt).1 h1
      rw [Nat.mod_eq_of_lt hlt] at h2
      omega
  refine ⟨hs.number, hs.digits, fun s hm => ⟨(hs.grammar s hm).1, hfit s hm⟩, hs.mode, hs.arguments, fun x hx => ?_⟩
  obtain ⟨ty, h1, h2⟩ := hs.allowed x hx
  exact ⟨ty, h1, (scan_allows_reduced ty (hfit x.2 (List.of_mem_zip hx).2)).1 h2⟩

/-- So without variable number 255 and numbers of 2^32 or more exactly the texts of templates that suit the variables are
accepted. -/
theorem C59_accepted_scan_strings_partial (str : Str) (tys : List ScanTy) (hn : tys.length ≤ 128)
    (h255 : ¬ Mentions255 str) (hsm : SmallNumbers str) :
    ((∃ t : ScanTemplate, str = t.text ∧ t.Suits tys) ↔ validateStr str (tys.map ScanTy.farg) = .ok () true) ∧
    ((¬ ∃ t : ScanTemplate, str = t.text ∧ t.Suits tys) → ∀ io, scanFrom str tys io = .err io .invalidFormat) := by
  have key : (∃ (t : ScanTemplate) (tail : Str), str = t.text ++ tail ∧ t.NumbersPass ∧ t.reduced.Suits tys ∧
      (tail = [] ∨ Begins255 tail ∧ t.format.Explicit)) ↔ ∃ t : ScanTemplate, str = t.text ∧ t.Suits tys := by
    constructor
    · rintro ⟨t, tail, h, hp, hs, rfl | ⟨htail, _⟩⟩
      · exact ⟨t, by simpa using h, small_template hsm h (wide_iff.2 ⟨hp, hs⟩)⟩
      · exact absurd (h ▸ mentions_of_begins htail) h255
    · rintro ⟨t, h, hs⟩
      obtain ⟨g1, g2⟩ := wide_iff.1 (suits_wide hs)
      exact ⟨t, [], by simpa using h, g1, g2, Or.inl rfl⟩
  rw [← key]
  exact C59_accepted_strings str tys hn

example : validateStr "{0}{255}{".toList ([ScanTy.int i32].map ScanTy.farg) = .ok () true ∧
    validateStr "{}{255}{".toList ([ScanTy.int i32].map ScanTy.farg) = .ok () false := by decide +kernel

theorem scanFrom_wide {str : Str} {tys : List ScanTy} (hn : tys.length ≤ 128) {io : ScanIO}
    (h : ∀ io', scanFrom str tys io ≠ .err io' .invalidFormat) :
    ∃ (t : ScanTemplate) (tail : Str), str = t.text ++ tail ∧ WideSuits t tys ∧
      (tail = [] ∨ Begins255 tail ∧ t.format.Explicit) := by
  by_contra hno
  refine h io ((C59_accepted_strings str tys hn).2 ?_ io)
  rintro ⟨t, tail, h1, h2, h3, h4⟩
  exact hno ⟨t, tail, h1, wide_iff.2 ⟨h2, h3⟩, h4⟩

/-- "{:8x} {}" for an integer and a string; "{:c}" is refused for an integer. -/
example : validateStr "{:8x} {}".toList ([ScanTy.int i32, .string].map ScanTy.farg) = .ok () true ∧
    scanFrom "{:c}".toList [.int i32] ⟨ofStr "a".toList, [.int 1]⟩ = .err ⟨ofStr "a".toList, [.int 1]⟩ .invalidFormat := by
  decide +kernel

/-! ### C48 what a successful scan has read -/

theorem scans_input {tys : List ScanTy} {last tail : Str} {i : Nat} {segs : List (Str × ScanHole)} {l : Str}
    {fields : List (Str × Nat × ScanVal)} {rest : Str} (h : Scans tys last tail i segs l fields rest) :
    l = ((segs.zip (fields.map (·.1))).flatMap fun s => s.1.1 ++ s.2) ++ last ++ rest := by
  induction h with
  | done i rest => simp
  | field _ _ _ _ _ ih => simp [ih]

/-- A successful `scan_from` has read the literal text and a piece for each field, no more and no less; each piece is
what its field accepts, and the variables have the values of the pieces.  The widths are taken as reduced, and text behind
a field for variable number 255 is ignored. -/
theorem C48_scan_from (str : Str) (tys : List ScanTy) (hn : tys.length ≤ 128) (io io' : ScanIO)
    (hpos : io.inp.pos ≤ io.inp.src.length) (h : scanFrom str tys io = .ok io' ()) :
    ∃ (t : ScanTemplate) (tail : Str) (fields : List (Str × Nat × ScanVal)) (rest : Str), str = t.text ++ tail ∧
      t.NumbersPass ∧ t.reduced.Suits tys ∧ (tail = [] ∨ Begins255 tail ∧ t.format.Explicit) ∧
      Scans tys t.last tail 0 t.reduced.segs io.inp.rest fields rest ∧
      io.inp.rest = t.reduced.input (fields.map (·.1)) ++ rest ∧
      io'.inp = { io.inp with pos := io.inp.pos + (t.reduced.input (fields.map (·.1))).length } ∧
      io'.vars = store io.vars (fields.map (·.2)) := by
  obtain ⟨t, tail, rfl, hs, htail⟩ := scanFrom_wide hn (io := io) (by rw [h]; simp)
  obtain ⟨g1, g2⟩ := wide_iff.1 hs
  rw [wide_eq_reduced hs htail] at h
  obtain ⟨used, fields, rest, h1, h2, h3, h4⟩ := scanSegs_inv tys t.reduced.last (stop_of_tail htail) t.reduced.segs 0 io io'
    io.inp.rest () (suits_segsOk g2) ⟨hpos, rfl⟩ h
  have hin := scans_input h2
  rw [← scan_input_eq] at hin
  have hu : used = t.reduced.input (fields.map (·.1)) := by
    have : used ++ rest = t.reduced.input (fields.map (·.1)) ++ rest := by rw [← h1, ← hin]
    exact List.append_cancel_right this
  exact ⟨t, tail, fields, rest, rfl, g1, g2, htail, h2, hin, by rw [h3, hu]; rfl, h4⟩

/-- A successful `scan` has read the whole input. -/
theorem C48_scan (input str : Str) (tys : List ScanTy) (hn : tys.length ≤ 128) (vars vars' : List ScanVal)
    (h : scanStr input str tys vars = .ok vars' ()) :
    ∃ (t : ScanTemplate) (tail : Str) (fields : List (Str × Nat × ScanVal)), str = t.text ++ tail ∧
      t.NumbersPass ∧ t.reduced.Suits tys ∧ (tail = [] ∨ Begins255 tail ∧ t.format.Explicit) ∧
      Scans tys t.last tail 0 t.reduced.segs input fields [] ∧ input = t.reduced.input (fields.map (·.1)) ∧
      vars' = store vars (fields.map (·.2)) := by
  unfold scanStr at h
  cases hf : scanFrom str tys ⟨ofStr input, vars⟩ with
  | bad b => rw [hf] at h; simp at h
  | err io e => rw [hf] at h; simp at h
  | ok io u =>
    rw [hf] at h
    simp only at h
    split at h
    swap
    · simp at h
    rename_i heof
    obtain ⟨t, tail, fields, rest, h1, hp, h2, ht, h3, h4, h5, h6⟩ := C48_scan_from str tys hn _ _ (by simp [ofStr]) hf
    have hr : (ofStr input).rest = input := (at_ofStr input).2
    simp only [hr] at h3 h4
    have hrest : rest = [] := by
      have hl := congrArg List.length h4
      rw [h5] at heof
      simp [Reader.eof, ofStr] at heof
      simp at hl
      exact List.eq_nil_of_length_eq_zero (by omega)
    subst hrest
    refine ⟨t, tail, fields, h1, hp, h2, ht, h3, by simpa using h4, ?_⟩
    rw [← h6]
    exact (ok_inj h).1.symm

/-- The property: a successful scan has read every field of the scan string. -/
def EveryFieldIsRead : Prop :=
  ∀ (input str : Str) (tys : List ScanTy) (vars vars' : List ScanVal), tys.length ≤ 128 →
    scanStr input str tys vars = .ok vars' () → ∃ (t : ScanTemplate) (fields : List (Str × Nat × ScanVal)),
      str = t.text ∧ t.Suits tys ∧ Scans tys t.last [] 0 t.segs input fields [] ∧ vars' = store vars (fields.map (·.2))

/-- It does not hold: whatever follows a field for variable number 255 is ignored. -/
theorem C48_every_field_violated : ¬ EveryFieldIsRead := by
  intro h
  obtain ⟨t, fields, h1, h2, h3, _⟩ := h [] "{255}!".toList [] [] [] (by simp) (by decide +kernel)
  have hsg : t.segs = [] := by
    cases hs : t.segs with
    | nil => rfl
    | cons s l =>
      have := (h2.arguments (s.2.field.argument 0)).1 (by rw [scan_args, hs]; simp [argsFrom])
      simp at this
  have ht : t.text = escBraces t.last := by
    obtain ⟨segs, last⟩ := t
    simp only at hsg
    subst hsg
    exact scanTemplate_text_nil last
  rw [ht] at h1
  cases hl : t.last with
  | nil => rw [hl] at h1; simp [escBraces] at h1
  | cons c l =>
    have := scans_input h3
    rw [hsg, hl] at this
    simp at this

/-- It holds without variable number 255 and numbers of 2^32 or more. -/
theorem C48_every_field_partial (input str : Str) (tys : List ScanTy) (hn : tys.length ≤ 128) (h255 : ¬ Mentions255 str)
    (hsm : SmallNumbers str) (vars vars' : List ScanVal) (h : scanStr input str tys vars = .ok vars' ()) :
    ∃ (t : ScanTemplate) (fields : List (Str × Nat × ScanVal)), str = t.text ∧ t.Suits tys ∧
      Scans tys t.last [] 0 t.segs input fields [] ∧ input = t.input (fields.map (·.1)) ∧
      vars' = store vars (fields.map (·.2)) := by
  unfold scanStr at h
  cases hf : scanFrom str tys ⟨ofStr input, vars⟩ with
  | bad b => rw [hf] at h; simp at h
  | err io e => rw [hf] at h; simp at h
  | ok io u =>
    rw [hf] at h
    simp only at h
    split at h
    swap
    · simp at h
    rename_i heof
    obtain ⟨t, tail, rfl, hw, htail⟩ := scanFrom_wide hn (io := ⟨ofStr input, vars⟩) (by rw [hf]; simp)
    have htn : tail = [] := htail.elim id fun ht => absurd (mentions_of_begins ht.1) h255
    subst htn
    have hs := small_template hsm rfl hw
    rw [List.append_nil] at hf ⊢
    rw [scan_eq hs] at hf
    obtain ⟨used, fields, rest, h1, h2, h3, h4⟩ := scanSegs_inv tys t.last stop_nil t.segs 0 _ io input ()
      (suits_segsOk hs) (at_ofStr input) hf
    have hin := scans_input h2
    rw [← scan_input_eq] at hin
    have hrest : rest = [] := by
      have hl := congrArg List.length h1
      rw [h3] at heof
      simp [Reader.eof, ofStr, adv] at heof
      simp at hl
      exact List.eq_nil_of_length_eq_zero (by omega)
    subst hrest
    refine ⟨t, fields, rfl, hs, h2, by simpa using hin, ?_⟩
    rw [← h4]
    exact (ok_inj h).1.symm

/-- "{0} {255}" reads a string that ends before the space, and ignores the rest. -/
example : scanStr "ab ".toList "{0} {255}".toList [.string] [.str []] = .ok [.str "ab".toList] () := by decide +kernel

/-- If `scan_from` succeeds and leaves a part of the input, `scan` reports an error. -/
theorem C48_leftover (input str : Str) (tys : List ScanTy) (vars : List ScanVal) (io : ScanIO)
    (h : scanFrom str tys ⟨ofStr input, vars⟩ = .ok io ()) (hr : io.inp.rest ≠ []) :
    ∃ vars', scanStr input str tys vars = .err vars' .invalidFormat := by
  unfold scanStr
  rw [h]
  simp only
  rw [if_neg]
  · exact ⟨_, rfl⟩
  · intro he
    apply hr
    have := io.inp.rest_length
    simp only [Reader.eof, beq_iff_eq] at he
    exact List.eq_nil_of_length_eq_zero (by omega)

/-- In the other direction: an input made of the literal text and texts that can be read back is read. -/
theorem C48_written_is_read (t : ScanTemplate) (tys : List ScanTy) (hs : t.Suits tys) (io : ScanIO)
    (hpos : io.inp.pos ≤ io.inp.src.length) (hv : tys.length ≤ io.vars.length)
    (fields : List (Str × Nat × ScanVal)) (rest : Str) (h : Written tys t.last [] 0 t.segs io.inp.rest fields rest) :
    ∃ used, io.inp.rest = used ++ rest ∧ scanFrom t.text tys io =
      .ok ⟨{ io.inp with pos := io.inp.pos + used.length }, store io.vars (fields.map (·.2))⟩ () := by
  obtain ⟨used, h1, h2⟩ := scanSegs_fwd tys t.last stop_nil h io (suits_segsOk hs) ⟨hpos, rfl⟩ hv
  exact ⟨used, h1, by rw [scan_eq hs, h2]; rfl⟩

/-- "x={:#4x};" reads "x=0x1f;" from "x=0x1f;rest". -/
example : scanFrom "x={:#4x};".toList [.int i32] ⟨ofStr "x=0x1f;rest".toList, [.int 0]⟩ =
    .ok ⟨⟨"x=0x1f;rest".toList, 7⟩, [.int 31]⟩ () ∧
    Written [.int i32] [';'] [] 0 [("x=".toList, ⟨[], some { alt := true, width := ['4'], type := 'x' }⟩)]
      ("x=".toList ++ ("0x1f".toList ++ ([';'] ++ "rest".toList))) [("0x1f".toList, 0, .int 31)] "rest".toList := by
  refine ⟨by decide +kernel, Written.field (ty := .int i32) rfl ?_ (Written.done 1 _)⟩
  exact ⟨⟨.none, "0x".toList, 16, "1f".toList⟩, rfl, by decide, by simp [IntTy.Std], by
    simp [ScanSpec.Base, ScanHole.sp, typeBase, marks], by
    refine ⟨by decide, by decide⟩, by decide, by simp [ScanHole.sp, ScanSpec.size], by decide, Or.inl rfl, by
    simp [ScanHole.sp]⟩

/-! ### C49 integer fields with a width -/

/-- What the property asks for: with width `w` exactly the first `w` characters are read, and all of them belong to the
number; otherwise the reader is where it was. -/
def WidthIsExact : Prop :=
  ∀ (ty : IntTy) (sp : ScanSpec) (w : Nat) (r : Reader) (old : ScanVal), ty.Std → sp.WellFormed → sp.Fits →
    ScanTy.Allows (.int ty) sp → sp.size = some w → r.pos ≤ r.src.length →
    match scanFrom ("{:".toList ++ sp.text ++ "}".toList) [.int ty] ⟨r, [old]⟩ with
    | .ok io _ => io.inp = { r with pos := r.pos + w } ∧ w ≤ r.rest.length ∧
        ∃ n : Number, r.rest.take w = n.text ∧ sp.Base n.base n.mark ∧ n.digits ≠ [] ∧
          ∀ c ∈ n.digits, digitLike n.base c = true
    | .err io _ => io.inp = r
    | .bad _ => False

/-- It does not hold: a number that does not fit into a narrow type is skipped. -/
theorem C49_narrow_violated : ¬ WidthIsExact := by
  intro h
  have := h u8 { width := ['3'] } 3 (ofStr "300".toList) (.int 7) (by simp [IntTy.Std]) ⟨by simp, by simp⟩
    (by simp [ScanSpec.Fits, ScanSpec.size]; decide) (by simp [ScanTy.Allows]) (by decide) (by decide)
  have e : scanFrom ("{:".toList ++ (ScanSpec.text { width := ['3'] }) ++ "}".toList) [.int u8]
      ⟨ofStr "300".toList, [.int 7]⟩ = .err ⟨⟨"300".toList, 3⟩, [.int 7]⟩ .outOfRange := by decide +kernel
  rw [e] at this
  revert this
  decide

/-- It holds but for errors `out_of_range` of types narrower than 32 bit, and undefined behaviour (see C58). -/
theorem C49_width_is_exact_partial (ty : IntTy) (sp : ScanSpec) (w : Nat) (r : Reader) (old : ScanVal)
    (wf : sp.WellFormed) (fits : sp.Fits) (hal : ScanTy.Allows (.int ty) sp) (hw : sp.size = some w)
    (hpos : r.pos ≤ r.src.length) :
    match scanFrom ("{:".toList ++ sp.text ++ "}".toList) [.int ty] ⟨r, [old]⟩ with
    | .ok io _ => io.inp = { r with pos := r.pos + w } ∧ w ≤ r.rest.length ∧
        ∃ n : Number, r.rest.take w = n.text ∧ sp.Base n.base n.mark ∧ n.digits ≠ [] ∧
          ∀ c ∈ n.digits, digitLike n.base c = true
    | .err io e => (e ≠ .outOfRange ∨ ty.upcast = ty) → io.inp = r
    | .bad _ => True := by
  rw [scan_single _ wf fits hal]
  cases hs : (ScanTy.int ty).scan sp.meaning (.ofStr []) ⟨r, old⟩ with
  | bad b => trivial
  | err sl e =>
    simp only
    intro he
    have := (readInteger_err (t := ty) hs).1 (by tauto)
    exact this
  | ok sl u =>
    simp only
    obtain ⟨piece, rest, v, h1, h2, h3, _⟩ := tyscan_inv (.int ty) wf fits hal (segs := []) (last := [])
      (st := ⟨r, old⟩) (l := r.rest) stop_nil (by simp) ⟨hpos, rfl⟩ (by simpa [scanTemplate_text_nil, escBraces] using hs)
    obtain ⟨n, x, g1, g2, g3, g4, g5, _⟩ := h2
    have hl := g5 w (by simp [hw])
    refine ⟨by rw [h3]; simp [adv, hl], by rw [h1]; simp [hl], n, ?_, g2, g3, g4⟩
    rw [h1, ← hl, ← g1]
    simp

/-- A number as wide as the field is read whatever follows it, even digits. -/
theorem C49_number_of_width (ty : IntTy) (hty : ty.Std) (sp : ScanSpec) (wf : sp.WellFormed) (fits : sp.Fits)
    (hal : ScanTy.Allows (.int ty) sp) (n : Number) (hw : sp.size = some n.text.length) (hb : sp.Base n.base n.mark)
    (hd : IsNumeral n.base n.digits) (hfit : ty.Holds n.value) (hs : ty.signed = true ∨ n.sign ≠ .minus)
    (h10 : sp.type = none → sp.alt = true → n.base = 10 → n.digits.head? ≠ some '0' ∨ n.digits = ['0'])
    (r : Reader) (old : ScanVal) (hpos : r.pos ≤ r.src.length) (tail : Str) (hr : r.rest = n.text ++ tail) :
    scanFrom ("{:".toList ++ sp.text ++ "}".toList) [.int ty] ⟨r, [old]⟩ =
      .ok ⟨{ r with pos := r.pos + n.text.length }, [.int n.value]⟩ () := by
  rw [scan_single _ wf fits hal]
  have := readInteger_fwd ty hty wf fits hal (st := ⟨r, old⟩) (n := n) (tail := tail) ⟨hpos, hr⟩
    (by simp [hw]) hb hd (by
      rw [hw]
      intro h1 h2 h3
      rcases h10 h1 h2 h3 with h | h
      · exact Or.inl h
      · exact Or.inr ⟨h, by simp⟩) (by simp [hw]) hfit hs
  simp only [ScanTy.scan]
  rw [this]
  rfl

/-- "{:3}" reads 123 of "12345". -/
example : scanFrom "{:3}".toList [.int u8] ⟨ofStr "12345".toList, [.int 0]⟩ = .ok ⟨⟨"12345".toList, 3⟩, [.int 123]⟩ () ∧
    (⟨.none, [], 10, "123".toList⟩ : Number).value = 123 := by decide +kernel

/-! ### C50 narrow integers -/

/-- A number in the input that a field can read: nothing that looks like a digit follows, or the width is given; with
`#` alone, `0` may only be followed by nothing (see C51). -/
structure NumberAhead (sp : ScanSpec) (n : Number) (tail : Str) : Prop where
  width : ∀ w ∈ sp.size, n.text.length = w
  base : sp.Base n.base n.mark
  digits : IsNumeral n.base n.digits
  ends : sp.size = none → ∀ c ∈ tail.head?, digitLike n.base c = false
  zero : sp.type = none → sp.alt = true → n.base = 10 →
    n.digits.head? ≠ some '0' ∨ (n.digits = ['0'] ∧ (sp.size = none → tail = []))

theorem NumberAhead.plain {sp : ScanSpec} {n : Number} {tail : Str} (h : NumberAhead sp n tail) :
    Plain10 sp n.base n.digits (if sp.size = none then tail else []) := by
  intro h1 h2 h3
  rcases h.zero h1 h2 h3 with g | ⟨g1, g2⟩
  · exact Or.inl g
  · refine Or.inr ⟨g1, ?_⟩
    split
    · rename_i hh; exact g2 hh
    · rfl

/-- The property. -/
def NarrowIsChecked : Prop :=
  ∀ (ty : IntTy) (sp : ScanSpec) (n : Number) (tail : Str) (r : Reader) (old : ScanVal), ty ∈ [i8, i16, u8, u16] →
    sp.WellFormed → sp.Fits → ScanTy.Allows (.int ty) sp → NumberAhead sp n tail → r.pos ≤ r.src.length →
    r.rest = n.text ++ tail → (ty.signed = true ∨ n.sign ≠ .minus) →
    (ty.Holds n.value → scanFrom ("{:".toList ++ sp.text ++ "}".toList) [.int ty] ⟨r, [old]⟩ =
      .ok ⟨{ r with pos := r.pos + n.text.length }, [.int n.value]⟩ ()) ∧
    (¬ ty.Holds n.value → ∃ r', scanFrom ("{:".toList ++ sp.text ++ "}".toList) [.int ty] ⟨r, [old]⟩ =
      .err ⟨r', [old]⟩ .outOfRange)

/-- It does not hold: a number beyond 32 bit makes the program overflow an `int`. -/
theorem C50_overflow_violated : ¬ NarrowIsChecked := by
  intro h
  have hp : NumberAhead {} ⟨.none, [], 10, "2147483648".toList⟩ [] :=
    ⟨by simp [ScanSpec.size], by simp [ScanSpec.Base, typeBase], ⟨by decide, by decide⟩, by simp, by simp⟩
  obtain ⟨r', h2⟩ := (h i8 {} ⟨.none, [], 10, "2147483648".toList⟩ [] (ofStr "2147483648".toList) (.int 7) (by simp)
    ⟨by simp, by simp⟩ (by simp [ScanSpec.Fits, ScanSpec.size]) (by simp [ScanTy.Allows]) hp (by decide) (by decide)
    (by decide)).2 (by decide +kernel)
  have e : scanFrom ("{:".toList ++ ScanSpec.text {} ++ "}".toList) [.int i8] ⟨ofStr "2147483648".toList, [.int 7]⟩ =
    .bad .ub := by decide +kernel
  rw [e] at h2
  cases h2

/-- It holds for unsigned types, and for signed types if the number fits into 32 bit. -/
theorem C50_narrow_is_checked_partial (ty : IntTy) (sp : ScanSpec) (n : Number) (tail : Str) (r : Reader) (old : ScanVal)
    (hty : ty ∈ [i8, i16, u8, u16]) (wf : sp.WellFormed) (fits : sp.Fits) (hal : ScanTy.Allows (.int ty) sp)
    (ha : NumberAhead sp n tail) (hpos : r.pos ≤ r.src.length) (hr : r.rest = n.text ++ tail)
    (h32 : ty.signed = true → i32.Holds n.value) :
    (ty.Holds n.value → (ty.signed = true ∨ n.sign ≠ .minus) →
      scanFrom ("{:".toList ++ sp.text ++ "}".toList) [.int ty] ⟨r, [old]⟩ =
        .ok ⟨{ r with pos := r.pos + n.text.length }, [.int n.value]⟩ ()) ∧
    (¬ ty.Holds n.value → ∃ r', scanFrom ("{:".toList ++ sp.text ++ "}".toList) [.int ty] ⟨r, [old]⟩ =
      .err ⟨r', [old]⟩ .outOfRange) := by
  rw [scan_single _ wf fits hal]
  simp only [ScanTy.scan]
  constructor
  · intro hfit hs
    have hstd : ty.Std := by
      simp only [List.mem_cons, List.not_mem_nil, or_false] at hty
      rcases hty with rfl | rfl | rfl | rfl <;> simp [IntTy.Std]
    rw [readInteger_fwd ty hstd wf fits hal (st := ⟨r, old⟩) (n := n) (tail := tail) ⟨hpos, hr⟩ ha.width ha.base ha.digits
      ha.plain ha.ends hfit hs]
    rfl
  · intro hfit
    obtain ⟨r', h⟩ := readInteger_big ty hty wf fits hal (st := ⟨r, old⟩) (n := n) (tail := tail) ⟨hpos, hr⟩ ha.width
      ha.base ha.digits ha.plain ha.ends hfit h32
    rw [h]
    exact ⟨r', rfl⟩

/-- Whatever the input is, only values of the type are stored. -/
theorem C50_stored_values_fit (ty : IntTy) (sp : ScanSpec) (wf : sp.WellFormed) (fits : sp.Fits)
    (hal : ScanTy.Allows (.int ty) sp) (r : Reader) (old : ScanVal) (hpos : r.pos ≤ r.src.length) (io : ScanIO)
    (h : scanFrom ("{:".toList ++ sp.text ++ "}".toList) [.int ty] ⟨r, [old]⟩ = .ok io ()) :
    ∃ v, io.vars = [.int v] ∧ ty.Holds v := by
  rw [scan_single _ wf fits hal] at h
  cases hs : (ScanTy.int ty).scan sp.meaning (.ofStr []) ⟨r, old⟩ with
  | bad b => rw [hs] at h; simp at h
  | err sl e => rw [hs] at h; simp at h
  | ok sl u =>
    rw [hs] at h
    simp only at h
    obtain ⟨piece, rest, v, h1, h2, h3, _⟩ := tyscan_inv (.int ty) wf fits hal (segs := []) (last := [])
      (st := ⟨r, old⟩) (l := r.rest) stop_nil (by simp) ⟨hpos, rfl⟩ (by simpa [scanTemplate_text_nil, escBraces] using hs)
    obtain ⟨n, x, _, _, _, _, _, _, g7, g8, _⟩ := h2
    refine ⟨x, ?_, g8⟩
    rw [← (ok_inj h).1, h3, g7]

example : scanFrom "{:}".toList [.int u8] ⟨ofStr "256".toList, [.int 7]⟩ = .err ⟨⟨"256".toList, 3⟩, [.int 7]⟩ .outOfRange ∧
    NumberAhead {} ⟨.none, [], 10, "256".toList⟩ [] :=
  ⟨by decide +kernel, by simp [ScanSpec.size], by simp [ScanSpec.Base, typeBase], ⟨by decide, by decide⟩, by simp, by simp⟩

/-! ### C51 detection of the base -/

/-- The property: `{:#}` reads a number of each base, written with the mark of the base. -/
def BaseIsDetected : Prop :=
  ∀ (ty : IntTy) (n : Number) (tail : Str) (r : Reader) (old : ScanVal), ty.Std → n.base ∈ [2, 8, 10, 16] →
    n.mark ∈ marks n.base → IsNumeral n.base n.digits → (n.base = 10 → n.digits.head? ≠ some '0' ∨ n.digits = ['0']) →
    ty.Holds n.value → (ty.signed = true ∨ n.sign ≠ .minus) → (∀ c ∈ tail.head?, digitLike n.base c = false) →
    r.pos ≤ r.src.length → r.rest = n.text ++ tail →
    scanFrom "{:#}".toList [.int ty] ⟨r, [old]⟩ = .ok ⟨{ r with pos := r.pos + n.text.length }, [.int n.value]⟩ ()

/-- It does not hold: a single `0` is not read if something follows it. -/
theorem C51_single_zero_violated : ¬ BaseIsDetected := by
  intro h
  have := h i32 ⟨.none, [], 10, ['0']⟩ [','] (ofStr "0,".toList) (.int 7) (by simp [IntTy.Std]) (by simp) (by simp [marks])
    ⟨by decide, by decide⟩ (by simp) (by decide) (by simp) (by decide) (by decide) (by decide)
  have e : scanFrom "{:#}".toList [.int i32] ⟨ofStr "0,".toList, [.int 7]⟩ = .err ⟨ofStr "0,".toList, [.int 7]⟩ .invalidData := by
    decide +kernel
  rw [e] at this
  cases this

/-- Otherwise it holds. -/
theorem C51_base_is_detected_partial (ty : IntTy) (n : Number) (tail : Str) (r : Reader) (old : ScanVal) (hty : ty.Std)
    (hb : n.base ∈ [2, 8, 10, 16]) (hm : n.mark ∈ marks n.base) (hd : IsNumeral n.base n.digits)
    (h10 : n.base = 10 → n.digits.head? ≠ some '0' ∨ n.digits = ['0']) (hfit : ty.Holds n.value)
    (hs : ty.signed = true ∨ n.sign ≠ .minus) (ht : ∀ c ∈ tail.head?, digitLike n.base c = false)
    (hpos : r.pos ≤ r.src.length) (hr : r.rest = n.text ++ tail)
    (h0 : n.base = 10 → n.digits = ['0'] → tail = []) :
    scanFrom "{:#}".toList [.int ty] ⟨r, [old]⟩ = .ok ⟨{ r with pos := r.pos + n.text.length }, [.int n.value]⟩ () := by
  have wf : (ScanSpec.mk true [] none).WellFormed := ⟨by simp, by simp⟩
  have fits : (ScanSpec.mk true [] none).Fits := by simp [ScanSpec.Fits, ScanSpec.size]
  have hal : ScanTy.Allows (.int ty) (ScanSpec.mk true [] none) := by simp [ScanTy.Allows]
  have e : "{:#}".toList = "{:".toList ++ (ScanSpec.mk true [] none).text ++ "}".toList := by decide
  have hsz : (ScanSpec.mk true [] none).size = none := rfl
  rw [e, scan_single _ wf fits hal]
  simp only [ScanTy.scan]
  rw [readInteger_fwd ty hty wf fits hal (st := ⟨r, old⟩) (n := n) (tail := tail) ⟨hpos, hr⟩ (by simp [hsz])
    (by simp only [ScanSpec.Base]; rw [if_pos ⟨trivial, trivial⟩]; exact ⟨hb, hm⟩) hd (by
      intro _ _ h3
      rw [hsz, if_pos rfl]
      rcases h10 h3 with h | h
      · exact Or.inl h
      · exact Or.inr ⟨h, h0 h3 h⟩) (fun _ => ht) hfit hs]
  rfl

example : scanFrom "{:#}".toList [.int i32] ⟨ofStr "-0b101;".toList, [.int 0]⟩ =
      .ok ⟨⟨"-0b101;".toList, 6⟩, [.int (-5)]⟩ () ∧
    scanFrom "{:#}".toList [.int i32] ⟨ofStr "017;".toList, [.int 0]⟩ = .ok ⟨⟨"017;".toList, 3⟩, [.int 15]⟩ () := by
  decide +kernel

/-! ### C52 string fields -/

/-- The property: a string field ends at the first occurrence of the literal text behind it. -/
def StringsEndAtText : Prop :=
  ∀ (piece lit rest : Str) (old : ScanVal), lit ≠ [] → EndsBefore piece lit →
    scanFrom ("{}".toList ++ escBraces lit) [.string] ⟨ofStr (piece ++ lit ++ rest), [old]⟩ =
      .ok ⟨⟨piece ++ lit ++ rest, (piece ++ lit).length⟩, [.str piece]⟩ ()

/-- It does not hold: braces that do not come first are forgotten, and the search for several characters that start with
a brace misses the first occurrence. -/
theorem C52_braces_violated : ¬ StringsEndAtText ∧
    scanStr "xab{".toList "{}ab{{".toList [.string] [.str []] = .err [.str "xab".toList] .eof ∧
    scanStr "{{x".toList "{}{{x".toList [.string] [.str []] = .err [.str []] .invalidData := by
  refine ⟨?_, by decide +kernel, by decide +kernel⟩
  intro h
  have := h "{".toList "{x".toList [] (.str []) (by decide) (by unfold EndsBefore; decide)
  have e : scanFrom ("{}".toList ++ escBraces "{x".toList) [.string] ⟨ofStr ("{".toList ++ "{x".toList ++ []), [.str []]⟩ =
      .err ⟨⟨"{{x".toList, 0⟩, [.str []]⟩ .invalidData := by decide +kernel
  rw [e] at this
  cases this

/-- `{}` followed by literal text. -/
theorem bareField_suits (ty : ScanTy) (hal : ScanTy.Allows ty {}) (last : Str) :
    (ScanTemplate.mk [([], ⟨[], none⟩)] last).Suits [ty] ∧
    (ScanTemplate.mk [([], ⟨[], none⟩)] last).text = "{}".toList ++ escBraces last := by
  refine ⟨⟨by simp, by simp, ?_, Or.inl ?_, ?_, ?_⟩, ?_⟩
  · simp only [List.mem_singleton]
    rintro s rfl
    exact ⟨⟨by simp [ScanHole.sp], by simp [ScanHole.sp]⟩, by simp [ScanHole.sp, ScanSpec.Fits, ScanSpec.size]⟩
  · intro f hf
    simp only [ScanTemplate.format, FormatText.fields, List.map_cons, List.map_nil, List.mem_singleton] at hf
    subst hf
    rfl
  · intro k
    rw [scan_args]
    simp [argsFrom, Field.argument, ScanHole.field]
  · intro x hx
    rw [scan_args] at hx
    simp [argsFrom, Field.argument, ScanHole.field] at hx
    subst hx
    exact ⟨ty, rfl, hal⟩
  · simp [ScanTemplate.text, ScanTemplate.format, FormatText.text, escBraces, Field.text, ScanHole.field]

/-- It holds for literal text without braces. -/
theorem C52_string_field_partial (piece lit rest : Str) (old : ScanVal) (hne : lit ≠ []) (hb : '{' ∉ lit ∧ '}' ∉ lit)
    (he : EndsBefore piece lit) :
    scanFrom ("{}".toList ++ escBraces lit) [.string] ⟨ofStr (piece ++ lit ++ rest), [old]⟩ =
      .ok ⟨⟨piece ++ lit ++ rest, (piece ++ lit).length⟩, [.str piece]⟩ () := by
  obtain ⟨hs, ht⟩ := bareField_suits .string (by simp [ScanTy.Allows]) lit
  have hw : Written [.string] lit [] 0 [([], ⟨[], none⟩)] ([] ++ (piece ++ (lit ++ rest))) [(piece, 0, .str piece)] rest := by
    refine Written.field (ty := .string) rfl ⟨rfl, by simp [ScanHole.sp, ScanSpec.size], fun _ => ?_⟩ (Written.done 1 rest)
    exact ⟨fun h => absurd h.2.1 hne, fun _ => ⟨hb.1, hb.2, he, by simp [hne]⟩⟩
  obtain ⟨used, h1, h2⟩ := C48_written_is_read ⟨[([], ⟨[], none⟩)], lit⟩ [.string] hs
    ⟨ofStr (piece ++ lit ++ rest), [old]⟩ (by simp [ofStr]) (by simp) _ rest (by
      simp only [(at_ofStr (piece ++ lit ++ rest)).2]
      simpa using hw)
  simp only [(at_ofStr (piece ++ lit ++ rest)).2] at h1
  have hu : used = piece ++ lit := (List.append_cancel_right h1).symm
  rw [← ht, h2, hu]
  simp [ofStr, store]

/-- It holds for a single brace. -/
theorem C52_single_brace (piece rest : Str) (c : Char) (hc : c = '{' ∨ c = '}') (old : ScanVal) (he : c ∉ piece) :
    scanFrom ("{}".toList ++ [c, c]) [.string] ⟨ofStr (piece ++ [c] ++ rest), [old]⟩ =
      .ok ⟨⟨piece ++ [c] ++ rest, piece.length + 1⟩, [.str piece]⟩ () := by
  have hesc : escBraces [c] = [c, c] := by rcases hc with rfl | rfl <;> rfl
  obtain ⟨hs, ht⟩ := bareField_suits .string (by simp [ScanTy.Allows]) [c]
  rw [hesc] at ht
  rw [← ht, scan_eq hs]
  simp only [scanSegs]
  have h1 : ScanIO.onInp (matchLit []) ⟨ofStr (piece ++ [c] ++ rest), [old]⟩ = .ok ⟨ofStr (piece ++ [c] ++ rest), [old]⟩ () := rfl
  rw [M.bind_ok h1]
  have harg : Field.argument 0 (ScanHole.field ⟨[], none⟩) = 0 := rfl
  have htx : ScanTemplate.text ⟨[], [c]⟩ = [c, c] := by rw [scanTemplate_text_nil, hesc]
  simp only [harg, htx, List.getElem?_cons_zero, List.append_nil]
  have hloop : ∀ (p : Str) (k : Nat), c ∉ p → complexLoop [c, c] (p ++ [c] ++ rest) [c, c] k 0 = .ok () (k + p.length) := by
    intro p
    induction p with
    | nil =>
      intro k _
      have hn : nextLiteral c [c] = some (some (c, [])) := by rcases hc with rfl | rfl <;> rfl
      simp only [List.nil_append, List.singleton_append, complexLoop, hn, if_true]
      cases rest <;> simp [complexLoop]
    | cons x p ih =>
      intro k hx
      simp only [List.mem_cons, not_or] at hx
      have hn : nextLiteral c [c] = some (some (c, [])) := by rcases hc with rfl | rfl <;> rfl
      simp only [List.cons_append, complexLoop, hn]
      rw [if_neg (Ne.symm hx.1), ih (k + 1) hx.2]
      simp; omega
  have hr : readString (ScanHole.sp ⟨[], none⟩).meaning (.ofStr [c, c]) (ofStr (piece ++ [c] ++ rest)) =
      .ok ((ofStr (piece ++ [c] ++ rest)).adv piece.length) piece := by
    have hwid : (ScanHole.sp ⟨[], none⟩).meaning.width = noWidth := rfl
    have h3 := ((readString_at (ScanHole.sp ⟨[], none⟩).meaning (at_ofStr [c, c]) (ofStr (piece ++ [c] ++ rest))).2 hwid).2.2
      [] c [c] rfl (by simp) (by simp) hc
    rw [h3]
    simp only
    rw [if_neg (by rintro ⟨h4, h5⟩; exact h5 h4)]
    unfold readStringComplex
    rw [(at_ofStr (piece ++ [c] ++ rest)).2, hloop piece 0 he]
    simp [Reader.pop, ofStr, adv]
  have h2 : ScanIO.onVar 0 (ScanTy.string.scan (ScanHole.sp ⟨[], none⟩).meaning (.ofStr [c, c]))
      ⟨ofStr (piece ++ [c] ++ rest), [old]⟩ = .ok ⟨(ofStr (piece ++ [c] ++ rest)).adv piece.length, [.str piece]⟩ () := by
    unfold ScanIO.onVar
    simp only [List.getElem?_cons_zero, ScanTy.scan, readStringArg, hr]
    rfl
  have htk : (ScanHole.sp ⟨[], none⟩).taken = (ScanHole.sp ⟨[], none⟩).meaning := rfl
  rw [htk, M.bind_ok h2]
  have hat : ((ofStr (piece ++ [c] ++ rest)).adv piece.length).At ([c] ++ rest) := by
    have : (ofStr (piece ++ [c] ++ rest)).At (piece ++ ([c] ++ rest)) := by
      rw [← List.append_assoc]; exact at_ofStr _
    exact this.adv
  unfold ScanIO.onInp
  simp only [matchLit_ok hat]
  simp [ofStr, adv, Nat.add_assoc]

/-- If nothing follows the field, it takes the rest of the input. -/
theorem C52_last_field (input : Str) (old : ScanVal) :
    scanFrom "{}".toList [.string] ⟨ofStr input, [old]⟩ = .ok ⟨⟨input, input.length⟩, [.str input]⟩ () := by
  obtain ⟨hs, ht⟩ := bareField_suits .string (by simp [ScanTy.Allows]) []
  have hw : Written [.string] [] [] 0 [([], ⟨[], none⟩)] ([] ++ (input ++ ([] ++ []))) [(input, 0, .str input)] [] := by
    refine Written.field (ty := .string) rfl ⟨rfl, by simp [ScanHole.sp, ScanSpec.size], fun _ => ?_⟩ (Written.done 1 [])
    exact ⟨fun _ => rfl, fun h => absurd ⟨rfl, rfl, rfl⟩ h⟩
  obtain ⟨used, h1, h2⟩ := C48_written_is_read ⟨[([], ⟨[], none⟩)], []⟩ [.string] hs
    ⟨ofStr input, [old]⟩ (by simp [ofStr]) (by simp) _ [] (by
      simp only [(at_ofStr input).2]
      simpa using hw)
  simp only [(at_ofStr input).2, List.append_nil] at h1
  have : "{}".toList = "{}".toList ++ escBraces [] := by decide
  rw [this, ← ht, h2, ← h1]
  simp [ofStr, store]

/-- Whatever a string field without width has read ends at the first occurrence of the literal text behind it (without
braces). -/
theorem C52_read_up_to_first_occurrence (input lit : Str) (old : ScanVal) (hne : lit ≠ []) (hb : '{' ∉ lit ∧ '}' ∉ lit)
    (io : ScanIO) (h : scanFrom ("{}".toList ++ escBraces lit) [.string] ⟨ofStr input, [old]⟩ = .ok io ()) :
    ∃ piece rest, input = piece ++ lit ++ rest ∧ EndsBefore piece lit ∧
      io = ⟨⟨input, (piece ++ lit).length⟩, [.str piece]⟩ := by
  obtain ⟨hs, ht⟩ := bareField_suits .string (by simp [ScanTy.Allows]) lit
  rw [← ht, scan_eq hs] at h
  obtain ⟨used, fields, rest, h1, h2, h3, h4⟩ := scanSegs_inv [.string] lit stop_nil _ 0 _ io input ()
    (suits_segsOk hs) (at_ofStr input) h
  cases h2 with
  | field type accepts all ends more =>
    rename_i ty piece v inp fields
    have hty : ty = .string := (Option.some.inj type).symm
    subst hty
    cases more
    obtain ⟨hv, _⟩ := accepts
    have hend := ends rfl rfl (Or.inr (Or.inl hne)) hb.1 hb.2
    simp only [following, List.nil_append] at hend h1 ⊢
    have hu : used = piece ++ lit := by
      rw [← List.append_assoc] at h1
      exact (List.append_cancel_right h1).symm
    refine ⟨piece, rest, by simp, hend, ?_⟩
    obtain ⟨inp, vars⟩ := io
    simp only at h3 h4
    rw [h3, h4, hu, hv]
    simp [ofStr, adv, store]
    rfl

example : scanFrom ("{}".toList ++ escBraces "aab".toList) [.string] ⟨ofStr ("xaa".toList ++ "aab".toList ++ "y".toList), [.str []]⟩ =
      .ok ⟨⟨"xaaaaby".toList, 6⟩, [.str "xaa".toList]⟩ () ∧
    (∀ j < "xaa".toList.length, ¬ "aab".toList <+: ("xaa".toList ++ "aab".toList).drop j) := by decide +kernel

/-! ### C58 undefined behaviour -/

/-- The property. -/
def ScanIsDefined : Prop :=
  ∀ (str : Str) (tys : List ScanTy) (io : ScanIO), tys.length ≤ 128 → io.inp.pos ≤ io.inp.src.length →
    tys.length = io.vars.length → ∀ b, scanFrom str tys io ≠ .bad b

/-- It does not hold: a number too big for a signed type. -/
theorem C58_signed_overflow_violated : ¬ ScanIsDefined := by
  intro h
  exact h "{}".toList [.int i32] ⟨ofStr "2147483648".toList, [.int 0]⟩ (by simp) (by decide) rfl .ub (by decide +kernel)

theorem segs_safely {tys : List ScanTy} {i : Nat} {segs : List (Str × ScanHole)} {s : Str} (hok : SegsOk tys i segs)
    (h : ∀ x ∈ segs, ∀ t, ScanTy.int t ∈ tys → (∀ c ∈ x.2.sp.type, c ∈ ['b', 'd', 'o', 'x']) → Safely t.upcast x.2.sp s) :
    ∀ x ∈ (segs.map (·.2.sp)).zip (argsFrom i (segs.map (·.2.field))), ∀ t, tys[x.2]? = some (.int t) →
      Safely t.upcast x.1 s := by
  induction segs generalizing i with
  | nil => simp
  | cons y segs ih =>
    obtain ⟨lit, hole⟩ := y
    obtain ⟨⟨ty, hn, hal⟩, wf, fits, hok'⟩ := hok.cons
    simp only [List.map_cons, argsFrom, List.zip_cons_cons, List.mem_cons, forall_eq_or_imp]
    refine ⟨fun t ht => ?_, ih hok' fun x hx => h x (by simp [hx])⟩
    rw [hn] at ht
    obtain rfl := Option.some.inj ht
    exact h (lit, hole) (by simp) t (List.mem_of_getElem? hn) hal

/-- A scan string that is not refused is safe if its fields are. -/
theorem wide_safe {str : Str} {tys : List ScanTy} {io : ScanIO} (hn : tys.length ≤ 128)
    (hpos : io.inp.pos ≤ io.inp.src.length) (hv : tys.length = io.vars.length)
    (h : ∀ sp : ScanSpec, ∀ t, ScanTy.int t ∈ tys → (∀ c ∈ sp.type, c ∈ ['b', 'd', 'o', 'x']) →
      Safely t.upcast sp io.inp.rest) : ∀ b, scanFrom str tys io ≠ .bad b := by
  by_cases hno : ∀ io', scanFrom str tys io ≠ .err io' .invalidFormat
  · obtain ⟨t, tail, rfl, hs, htail⟩ := scanFrom_wide hn hno
    obtain ⟨_, g2⟩ := wide_iff.1 hs
    rw [wide_eq_reduced hs htail]
    refine scanSegs_safe tys t.reduced.last (stop_of_tail htail) t.reduced.segs 0 io (suits_segsOk g2) hpos ?_ (by omega)
    exact segs_safely (suits_segsOk g2) fun x _ ty hm hal => h x.2.sp ty hm hal
  · push Not at hno
    obtain ⟨io', h⟩ := hno
    rw [h]
    simp

/-- It holds if there are no variables of signed types. -/
theorem C58_scan_is_defined_partial (str : Str) (tys : List ScanTy) (io : ScanIO) (hn : tys.length ≤ 128)
    (hpos : io.inp.pos ≤ io.inp.src.length) (hv : tys.length = io.vars.length)
    (hty : ∀ t, ScanTy.int t ∈ tys → t.signed = false) : ∀ b, scanFrom str tys io ≠ .bad b :=
  wide_safe hn hpos hv fun _ ty hm hal => safely_unsigned _ (by unfold IntTy.upcast; exact hty ty hm) hal _

/-- It holds for variables of all types if the input has no more than `k` digits in a row, where numbers of `k` digits
of the greatest base `B` a field of the scan string reads fit into the signed variables (at least 32 bit are computed
with): 9 digits if all fields are decimal, 7 if any base is read; 18 and 15 for 64 bit variables. -/
theorem C58_few_digits_partial (t : ScanTemplate) (tys : List ScanTy) (hs : t.Suits tys) (io : ScanIO) (B k : Nat)
    (hpos : io.inp.pos ≤ io.inp.src.length) (hv : tys.length = io.vars.length)
    (hB : ∀ s ∈ t.segs, ∀ b mark, s.2.sp.Base b mark → b ≤ B)
    (hk : ∀ ty, ScanTy.int ty ∈ tys → ty.signed = true → B ^ k ≤ 2 ^ (ty.upcast.bits - 1))
    (hr : ShortRuns B k io.inp.src) : ∀ b, scanFrom t.text tys io ≠ .bad b := by
  rw [scan_eq hs]
  refine scanSegs_safe tys t.last stop_nil t.segs 0 io (suits_segsOk hs) hpos ?_ (by omega)
  refine segs_safely (suits_segsOk hs) fun x hx ty hm hal => ?_
  by_cases hsg : ty.signed = false
  · exact safely_unsigned _ (by unfold IntTy.upcast; exact hsg) hal _
  · refine safely_few _ hal (hB x hx) (hk ty hm (by simpa using hsg)) ?_
    intro run hrun
    exact hr run (hrun.trans (List.drop_suffix _ _).isInfix)

/-- In particular, whatever the scan string is: numbers of up to 7 digits. -/
theorem C58_seven_digits_partial (str : Str) (tys : List ScanTy) (io : ScanIO) (hn : tys.length ≤ 128)
    (hpos : io.inp.pos ≤ io.inp.src.length) (hv : tys.length = io.vars.length) (hr : ShortRuns 16 7 io.inp.src) :
    ∀ b, scanFrom str tys io ≠ .bad b := by
  refine wide_safe hn hpos hv fun sp ty _ hal => ?_
  by_cases hsg : ty.signed = false
  · exact safely_unsigned _ (by unfold IntTy.upcast; exact hsg) hal _
  · refine safely_few (B := 16) (k := 7) _ hal ?_ ?_ ?_
    · intro b mark hb
      unfold ScanSpec.Base at hb
      split at hb
      · have := hb.1; simp at this; omega
      · rw [hb.1]; unfold typeBase; split <;> omega
    · have : 32 ≤ ty.upcast.bits := by
        unfold IntTy.upcast
        simp only
        split <;> omega
      calc 16 ^ 7 ≤ 2 ^ 31 := by norm_num
        _ ≤ 2 ^ (ty.upcast.bits - 1) := Nat.pow_le_pow_right (by norm_num) (by omega)
    · intro run hrun
      exact hr run (hrun.trans (List.drop_suffix _ _).isInfix)

theorem shortRuns_of_all {B k : Nat} {s : Str} (h : ∀ n, n ≤ s.length → ((s.drop n).takeWhile (digitLike B)).length ≤ k) :
    ShortRuns B k s := by
  rintro run ⟨pre, suf, rfl⟩ hrun
  have := h pre.length (by simp)
  rw [List.append_assoc, List.drop_left] at this
  have h2 : run <+: (run ++ suf).takeWhile (digitLike B) := by
    rw [List.takeWhile_append_of_pos hrun]
    exact List.prefix_append _ _
  exact le_trans h2.length_le this

example : ShortRuns 10 9 "12:30 = 999999999".toList ∧ ¬ ShortRuns 16 7 "12:30 = 999999999".toList :=
  ⟨shortRuns_of_all (by decide +kernel), fun h => absurd (h "999999999".toList ⟨"12:30 = ".toList, [], rfl⟩
    (by decide +kernel)) (by decide)⟩
example : (10 : Nat) ^ 9 ≤ 2 ^ (i8.upcast.bits - 1) ∧ ¬ (10 : Nat) ^ 10 ≤ 2 ^ (i8.upcast.bits - 1) := by decide +kernel
example : scanFrom "{}:{:#}".toList [.int i32, .int i8] ⟨ofStr "-3:0x7f".toList, [.int 0, .int 0]⟩ =
    .ok ⟨⟨"-3:0x7f".toList, 7⟩, [.int (-3), .int 127]⟩ () := by decide +kernel

example : scanFrom "{}".toList [.int u32] ⟨ofStr "2147483648".toList, [.int 0]⟩ =
      .ok ⟨⟨"2147483648".toList, 10⟩, [.int 2147483648]⟩ () ∧
    scanFrom "{}, {}".toList [.string, .int u8] ⟨ofStr "a, 300".toList, [.str [], .int 0]⟩ =
      .err ⟨⟨"a, 300".toList, 6⟩, [.str ['a'], .int 0]⟩ .outOfRange := by decide +kernel

/-! ### The simplification of the model -/

/-- The window of the model is the one `subreader` gives, provided that the input does not end at the end of the address
space. -/
theorem window_is_subreader (addr : Nat) (s : ScanSpecs) (r : Reader) (hpos : r.pos ≤ r.src.length)
    (haddr : addr + r.src.length < 2 ^ 64) (hw : s.width ≠ noWidth) (hc : ¬ r.cntRemaining < toSize s.width) :
    ∃ w, Reader.subreader addr 0 (toSize s.width) r = .ok r w ∧ scanWindow s r = .ok () w := by
  have h := C07_subreader_window_partial addr 0 (toSize s.width) r hpos (by omega)
  unfold SubreaderCorrect at h
  rw [if_pos (by omega)] at h
  refine ⟨_, h, ?_⟩
  unfold scanWindow
  rw [if_pos hw, if_neg hc]
  simp

end Emio
