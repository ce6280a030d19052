import Verif.Spec.Columns
import Verif.Props.RoundTrip
/-
Property C76, with widths: what is formatted into columns is scanned with the same string.
-/
namespace Emio
open Reader Spec BufferImpl

/-- The specification of a field of a scan string as one of a format string. -/
def Spec.ScanSpec.toSpec (sp : ScanSpec) : SpecText :=
  { alt := sp.alt, zero := sp.zeros, width := if sp.zeros then sp.width.tail else sp.width, type := sp.type }

def Spec.ScanHole.column (h : ScanHole) : Hole := ⟨h.idx, h.spec.map ScanSpec.toSpec⟩

/-- A scan string as a format string. -/
def Spec.ScanTemplate.columns (t : ScanTemplate) : Template := ⟨t.segs.map fun s => (s.1, ScanHole.column s.2), t.last⟩

theorem zeros_cons {sp : ScanSpec} (h : sp.zeros = true) : sp.width = '0' :: sp.width.tail := by
  unfold ScanSpec.zeros at h
  cases hw : sp.width with
  | nil => rw [hw] at h; simp at h
  | cons c w =>
    rw [hw] at h
    simp at h
    rw [h]
    rfl

theorem toSpec_text (sp : ScanSpec) : sp.toSpec.text = sp.text := by
  unfold SpecText.text ScanSpec.text ScanSpec.toSpec
  cases h : sp.zeros with
  | false => simp
  | true =>
    have := zeros_cons h
    generalize sp.width = w at *
    rw [this]
    simp

theorem column_field (h : ScanHole) : (ScanHole.column h).field = h.field := by
  obtain ⟨idx, spec⟩ := h
  cases spec with
  | none => rfl
  | some sp => simp [ScanHole.column, Hole.field, ScanHole.field, toSpec_text]

theorem columns_format (t : ScanTemplate) : (ScanTemplate.columns t).format = t.format := by
  unfold ScanTemplate.columns Template.format ScanTemplate.format
  simp only [List.map_map, FormatText.mk.injEq, and_true]
  refine List.map_congr_left fun s hs => ?_
  simp [column_field]

theorem column_spec (h : ScanHole) : (ScanHole.column h).spec.getD {} = h.sp.toSpec := by
  obtain ⟨idx, spec⟩ := h
  cases spec <;> rfl

theorem column_specs (h : ScanHole) : (ScanHole.column h).specs = h.sp.toSpec.meaning := by
  unfold Hole.specs
  rw [column_spec]

theorem value_zero_cons (b : Nat) (hb : 2 ≤ b) (ds : Str) : numeralValue b ('0' :: ds) = numeralValue b ds := by
  have h0 : symbolValue b '0' = some 0 := by
    unfold symbolValue
    simp
    omega
  unfold numeralValue
  rw [List.filterMap_cons, h0]
  simp [denote]

theorem value_zeros_append (b : Nat) (hb : 2 ≤ b) (k : Nat) (ds : Str) :
    numeralValue b (List.replicate k '0' ++ ds) = numeralValue b ds := by
  induction k with
  | zero => rfl
  | succ k ih => rw [List.replicate_succ, List.cons_append, value_zero_cons b hb, ih]

theorem toSpec_width (sp : ScanSpec) : sp.toSpec.widthValue = numeralValue 10 sp.width := by
  unfold SpecText.widthValue ScanSpec.toSpec
  cases h : sp.zeros with
  | false => simp
  | true =>
    have := zeros_cons h
    simp only [if_true]
    rw [this, value_zero_cons 10 (by decide)]
    rfl

/-- Sign, mark and digits of a number as they are written. -/
theorem written_parts {sp : ScanSpec} (hal : ∀ c ∈ sp.type, c ∈ ['b', 'd', 'o', 'x']) (n : Int) (s : Specs)
    (ha : s.alternateForm = sp.alt) (ht : s.type = sp.type.getD noChar) (hs : s.sign = noChar) :
    s.type ≠ 'c' ∧ signOf s (n < 0) = (writtenNumber sp n).sign.text ∧ prefixOf s n = (writtenNumber sp n).mark ∧
      numeral (s.type == 'X') (baseOf s.type) n.natAbs = (writtenNumber sp n).digits := by
  obtain ⟨alt, width, type⟩ := sp
  simp only at hal ha ht
  cases type with
  | none =>
    simp only [Option.getD_none] at ht
    refine ⟨by rw [ht]; decide, ?_, ?_, ?_⟩
    · by_cases hn : n < 0 <;> simp [signOf, writtenNumber, Sign.text, hn, hs, noChar]
    · simp [prefixOf, ht, writtenNumber, noChar]
    · simp [ht, writtenNumber, noChar, baseOf, typeBase]
  | some c =>
    have hc := hal c (by simp)
    simp only [Option.getD_some] at ht
    simp only [List.mem_cons, List.not_mem_nil, or_false] at hc
    refine ⟨by rw [ht]; rcases hc with rfl | rfl | rfl | rfl <;> decide, ?_, ?_, ?_⟩
    · by_cases hn : n < 0 <;> simp [signOf, writtenNumber, Sign.text, hn, hs, noChar]
    · rcases hc with rfl | rfl | rfl | rfl <;> by_cases h0 : n = 0 <;> cases alt <;> simp [prefixOf, ht, ha, writtenNumber, h0]
    · rcases hc with rfl | rfl | rfl | rfl <;> simp [ht, writtenNumber, baseOf, typeBase]

theorem bare_eq {sp : ScanSpec} (hal : ∀ c ∈ sp.type, c ∈ ['b', 'd', 'o', 'x']) (n : Int) :
    bareText sp n = (writtenNumber sp n).text := by
  obtain ⟨h1, h2, h3, h4⟩ := written_parts hal n { alternateForm := sp.alt, type := sp.type.getD noChar } rfl rfl rfl
  unfold bareText intText
  rw [if_neg h1, h2, h3, h4]
  unfold paddedNumber
  rw [if_neg (by simp), padded_withoutWidth _ _ _ rfl]
  rfl

/-- A number in a column. -/
theorem column_text {sp : ScanSpec} (hal : ∀ c ∈ sp.type, c ∈ ['b', 'd', 'o', 'x']) (n : Int) (w : Nat) (hw : w ∈ sp.size)
    (hz : sp.zeros = false → (bareText sp n).length = w) :
    intText sp.toSpec.meaning n = (writtenNumber sp n).sign.text ++ (writtenNumber sp n).mark ++
      (List.replicate (w - (bareText sp n).length) '0' ++ (writtenNumber sp n).digits) := by
  obtain ⟨h1, h2, h3, h4⟩ := written_parts hal n sp.toSpec.meaning rfl rfl rfl
  have hwv : sp.toSpec.meaning.width.toNat = w := by
    have : sp.toSpec.meaning.width = (sp.toSpec.widthValue : Int) := rfl
    rw [this, toSpec_width]
    unfold ScanSpec.size at hw
    split at hw
    · simp at hw
    · have := Option.some.inj hw
      omega
  have hlen : (bareText sp n).length = ((writtenNumber sp n).sign.text ++ (writtenNumber sp n).mark ++ (writtenNumber sp n).digits).length := by
    rw [bare_eq hal]
    rfl
  unfold intText
  rw [if_neg h1, h2, h3, h4]
  unfold paddedNumber
  have hzf : sp.toSpec.meaning.zeroFlag = sp.zeros := by simp [SpecText.meaning, ScanSpec.toSpec]
  rw [hzf]
  cases h : sp.zeros with
  | true => simp only [if_true, fillCount, hwv, hlen, List.append_assoc]
  | false =>
    have hk := hz h
    have hf : fillCount sp.toSpec.meaning ((writtenNumber sp n).sign.text ++ (writtenNumber sp n).mark ++
        (writtenNumber sp n).digits).length = 0 := by
      unfold fillCount
      rw [hwv, ← hlen]
      omega
    rw [if_neg (by decide), padded, hf, hk, Nat.sub_self]
    have : ∀ a f t, surround a f 0 t = t := by
      intro a f t
      cases a <;> simp [surround]
    rw [this]
    simp

theorem column_readable {ty : IntTy} (hty : ty.Std) {n : Int} (hn : ty.Holds n) {sp : ScanSpec}
    (hal : ∀ c ∈ sp.type, c ∈ ['b', 'd', 'o', 'x']) {lit rest : Str} {atEnd : Prop} (w : Nat) (hw : w ∈ sp.size)
    (hle : (bareText sp n).length ≤ w) (hz : sp.zeros = false → (bareText sp n).length = w)
    (ha : sp.alt = true → sp.type ≠ none ∧ (sp.type = some 'o' → n = 0 → 2 ≤ w)) :
    Readable (.int ty) sp (intText sp.toSpec.meaning n) (.int n) lit atEnd rest := by
  obtain ⟨h1, h2⟩ := writtenNumber_value hal n
  have hb : 2 ≤ typeBase sp.type ∧ typeBase sp.type ≤ 16 := by
    cases ht : sp.type with
    | none => decide
    | some c =>
      have := hal c (by simp [ht])
      simp only [List.mem_cons, List.not_mem_nil, or_false] at this
      rcases this with rfl | rfl | rfl | rfl <;> decide
  have htext := column_text hal n w hw hz
  have hbase : (writtenNumber sp n).base = typeBase sp.type := rfl
  have hlen : (bareText sp n).length = ((writtenNumber sp n).sign.text ++ (writtenNumber sp n).mark ++ (writtenNumber sp n).digits).length := by
    rw [bare_eq hal]
    rfl
  have hzero : symbolValue (typeBase sp.type) '0' = some 0 := by
    unfold symbolValue
    simp
    omega
  have hsz : ∀ w' ∈ sp.size, w' = w := by
    intro w' hw'
    rw [hw] at hw'
    exact (Option.some.inj hw').symm
  have hnone : sp.size ≠ none := by rw [hw]; simp
  have hsign : ty.signed = true ∨ (writtenNumber sp n).sign ≠ .minus := by
    by_cases hneg : n < 0
    · left
      cases hs : ty.signed with
      | true => rfl
      | false =>
        have := hn.1
        simp only [IntTy.min, hs] at this
        simp at this
        omega
    · right
      simp [writtenNumber, hneg]
  by_cases hoct : sp.alt = true ∧ sp.type = some 'o' ∧ n = 0
  · obtain ⟨g1, g2, g3⟩ := hoct
    have hw2 := (ha g1).2 g2 g3
    subst g3
    have hmark : (writtenNumber sp 0).mark = [] := by simp [writtenNumber, g1, g2]
    have hdig : (writtenNumber sp 0).digits = ['0'] := by simp [writtenNumber, numeral]
    have hsg : (writtenNumber sp 0).sign = .none := by simp [writtenNumber]
    have hl1 : (bareText sp 0).length = 1 := by rw [hlen, hmark, hdig, hsg]; rfl
    have htb : typeBase sp.type = 8 := by rw [g2]; rfl
    rw [hl1, hmark, hdig, hsg] at htext
    have hrep : List.replicate (w - 1) '0' = '0' :: List.replicate (w - 2) '0' := by
      rw [← List.replicate_succ]
      congr 1
      omega
    rw [hrep] at htext
    refine ⟨⟨.none, ['0'], 8, List.replicate (w - 2) '0' ++ ['0']⟩, ?_, ?_, hty, ?_, ?_, ?_, fun h => absurd h hnone, ?_, .inr (by simp),
      fun h => absurd h (ha g1).1⟩
    · rw [htext]
      simp [Number.text, Sign.text]
    · simp only [Number.value]
      rw [value_zeros_append 8 (by decide)]
      decide
    · unfold ScanSpec.Base
      rw [g1, htb, g2]
      simp [marks]
    · refine ⟨by simp, fun c hc => ?_⟩
      rcases List.mem_append.1 hc with hc | hc
      · rw [(List.mem_replicate.1 hc).2]; exact (by decide : (symbolValue 8 '0').isSome = true)
      · obtain rfl := List.mem_singleton.1 hc; exact (by decide : (symbolValue 8 '0').isSome = true)
    · intro w' hw'
      rw [hsz w' hw', htext]
      simp [Sign.text]
      omega
    · simp only [Number.value]
      rw [value_zeros_append 8 (by decide)]
      exact hn
  · refine ⟨⟨(writtenNumber sp n).sign, (writtenNumber sp n).mark, typeBase sp.type,
      List.replicate (w - (bareText sp n).length) '0' ++ (writtenNumber sp n).digits⟩, htext, ?_, hty, ?_, ?_, ?_,
      fun h => absurd h hnone, ?_, hsign, fun h1 h2 => absurd h1 (ha h2).1⟩
    · simp only [Number.value]
      rw [value_zeros_append _ hb.1]
      exact congrArg _ h2.symm
    · unfold ScanSpec.Base writtenNumber
      obtain ⟨alt, width, type⟩ := sp
      simp only at *
      cases type with
      | none => cases alt <;> simp_all [typeBase, marks]
      | some c =>
        have := hal c (by simp)
        simp only [List.mem_cons, List.not_mem_nil, or_false] at this
        rcases this with rfl | rfl | rfl | rfl <;> cases alt <;> by_cases h0 : n = 0 <;>
          simp_all [typeBase, marks]
    · refine ⟨by simp [h1.1], fun c hc => ?_⟩
      rcases List.mem_append.1 hc with hc | hc
      · rw [(List.mem_replicate.1 hc).2, hzero]; rfl
      · exact h1.2 c hc
    · intro w' hw'
      rw [hsz w' hw', htext]
      simp only [List.length_append, List.length_replicate] at hlen ⊢
      omega
    · simp only [Number.value]
      rw [value_zeros_append _ hb.1]
      have : (writtenNumber sp n).sign.apply (numeralValue (typeBase sp.type) (writtenNumber sp n).digits) = n := h2
      rw [this]
      exact hn

/-- The piece, the variable and the value of each field. -/
noncomputable def columnFields (vals : List Plain) : Nat → List (Str × ScanHole) → List (Str × Nat × ScanVal)
  | _, [] => []
  | i, (_, h) :: segs =>
    (argText (vals.getD (h.field.argument i) (.str [])).arg (ScanHole.column h).specs, h.field.argument i,
      (vals.getD (h.field.argument i) (.str [])).val) :: columnFields vals (i + 1) segs

theorem columnFields_args (vals : List Plain) : ∀ (segs : List (Str × ScanHole)) (i : Nat),
    (columnFields vals i segs).map (·.2.1) = argsFrom i (segs.map (·.2.field)) := by
  intro segs
  induction segs with
  | nil => intro i; rfl
  | cons s segs ih => intro i; simp [columnFields, argsFrom, ih]

theorem columnFields_values (vals : List Plain) : ∀ (segs : List (Str × ScanHole)) (i : Nat),
    ∀ x ∈ columnFields vals i segs, x.2.2 = (vals.getD x.2.1 (.str [])).val := by
  intro segs
  induction segs with
  | nil => intro i x hx; simp [columnFields] at hx
  | cons s segs ih =>
    intro i x hx
    rcases List.mem_cons.1 hx with rfl | hx
    · rfl
    · exact ih _ x hx

theorem columnFields_length (vals : List Plain) : ∀ (segs : List (Str × ScanHole)) (i : Nat),
    (columnFields vals i segs).length = segs.length := by
  intro segs
  induction segs with
  | nil => intro i; rfl
  | cons s segs ih => intro i; simp [columnFields, ih]

theorem toSpec_type {sp : ScanSpec} {x : Char} (h : ∀ c ∈ sp.type, c = x) :
    sp.toSpec.meaning.type = noChar ∨ sp.toSpec.meaning.type = x := by
  cases ht : sp.type with
  | none => exact Or.inl (by show sp.type.getD noChar = noChar; rw [ht]; rfl)
  | some c => exact Or.inr (by show sp.type.getD noChar = x; rw [ht]; exact h c (by simp [ht]))

theorem padded_exact (d : Align) (s : Specs) (text : Str) (h : s.width.toNat ≤ text.length) : padded d s text = text := by
  unfold padded fillCount
  rw [Nat.sub_eq_zero_of_le h, surround_zero]

theorem column_width (sp : ScanSpec) (k : Nat) (h : ∀ w ∈ sp.size, w ≤ k) : sp.toSpec.meaning.width.toNat ≤ k := by
  have h0 : sp.toSpec.meaning.width = (sp.toSpec.widthValue : Int) := rfl
  rw [h0, toSpec_width]
  unfold ScanSpec.size at h
  by_cases hw : sp.width = []
  · rw [hw]
    simp [numeralValue, denote]
  · rw [if_neg hw] at h
    have := h _ rfl
    omega

theorem column_char {sp : ScanSpec} (hal : ScanTy.Allows .char sp) (c : Char) : charText sp.toSpec.meaning c = [c] := by
  have ht := toSpec_type hal.2.2
  unfold charText
  rw [if_neg (by rcases ht with ht | ht <;> rw [ht] <;> decide), if_pos ht,
    padded_exact _ _ _ (column_width sp _ fun w hw => by rw [hal.2.1 w hw]; simp)]

theorem column_str {sp : ScanSpec} (hal : ScanTy.Allows .string sp) (x : Str) (hx : ∀ w ∈ sp.size, x.length = w) :
    strText sp.toSpec.meaning x = x := by
  have ht := toSpec_type hal.2
  have hp : ¬ 0 ≤ sp.toSpec.meaning.precision := by
    show ¬ (0 : Int) ≤ -1
    decide
  unfold strText
  rw [if_neg (by rcases ht with ht | ht <;> rw [ht] <;> decide), if_neg hp,
    padded_exact _ _ _ (column_width sp _ fun w hw => by rw [hx w hw])]

theorem column_bare {sp : ScanSpec} (hal : ∀ c ∈ sp.type, c ∈ ['b', 'd', 'o', 'x']) (n : Int) (hw : sp.width = []) :
    intText sp.toSpec.meaning n = (writtenNumber sp n).text := by
  rw [← bare_eq hal]
  unfold bareText
  congr 1
  unfold ScanSpec.toSpec ScanSpec.zeros
  rw [hw]
  rfl

theorem column_written {vals : List Plain} {t : ScanTemplate} (hv : ∀ v ∈ vals, ValidArg v.arg)
    (hback : CanBeReadInColumns t vals) :
    ∀ (segs a : List (Str × ScanHole)), t.segs = a ++ segs → SegsOk (vals.map Plain.ty) a.length segs →
      Written (vals.map Plain.ty) t.last [] a.length segs
        (((segs.zip ((columnFields vals a.length segs).map (·.1))).flatMap fun s => s.1.1 ++ s.2) ++ t.last)
        (columnFields vals a.length segs) [] := by
  intro segs
  induction segs with
  | nil =>
    intro a _ _
    have h := Written.done (tys := vals.map Plain.ty) (last := t.last) (tail := []) a.length []
    simpa [columnFields] using h
  | cons s segs ih =>
    intro a hseg hok
    obtain ⟨lit, hole⟩ := s
    obtain ⟨⟨ty, hn, hal⟩, wf, fits, hok'⟩ := hok.cons
    have hih := ih (a ++ [(lit, hole)]) (by rw [hseg]; simp) (by simpa using hok')
    simp only [List.length_append, List.length_singleton] at hih
    obtain ⟨v, h1, h2, rfl⟩ := plain_get hn
    simp only [columnFields, List.map_cons, List.zip_cons_cons, List.flatMap_cons, List.append_assoc, h2]
    refine Written.field (ty := v.ty) hn ?_ hih
    have hval := hv v (List.mem_of_getElem? h1)
    -- what follows begins with the literal text that follows
    have hrest : ∃ more, (((segs.zip ((columnFields vals (a.length + 1) segs).map (·.1))).flatMap fun s => s.1.1 ++ s.2) ++ t.last) =
        following t.last segs ++ more ∧ (segs = [] → more = []) := by
      cases segs with
      | nil => exact ⟨[], by simp [following], fun _ => rfl⟩
      | cons s' segs =>
        obtain ⟨lit', hole'⟩ := s'
        exact ⟨_, by
          simp only [columnFields, List.map_cons, List.zip_cons_cons, List.flatMap_cons, List.append_assoc, following]; rfl,
          by simp⟩
    obtain ⟨more, hmore, hmore0⟩ := hrest
    rw [hmore, column_specs]
    cases v with
    | int ty n =>
      show Readable (.int ty) hole.sp (intText hole.sp.toSpec.meaning n) (.int n) _ _ _
      cases hsz : hole.sp.size with
      | some w =>
        obtain ⟨g1, g2, g3⟩ := hback.integerColumn a (lit, hole) segs ty n hseg h1 w hsz
        exact column_readable hval.1 hval.2 hal w hsz g1 g2 g3
      | none =>
        have hw : hole.sp.width = [] := by
          unfold ScanSpec.size at hsz
          split at hsz
          · assumption
          · simp at hsz
        rw [column_bare hal n hw]
        obtain ⟨g1, g2, g3⟩ := hback.integer a (lit, hole) segs ty n hseg h1 hw
        refine writtenNumber_readable hval.1 hval.2 hal hw ?_ ?_
        · intro h0 ha
          obtain ⟨g4, g5⟩ := g3 h0 ha
          refine ⟨g4, fun ht => ?_⟩
          obtain ⟨rfl, g6⟩ := g5 ht
          rw [hmore0 rfl, following, g6]
          rfl
        · intro c hc
          by_cases hs : segs = []
          · rw [hmore0 hs, List.append_nil] at hc
            exact g2 c hc
          · have := g1 hs
            obtain ⟨d, ds, hd⟩ := List.exists_cons_of_ne_nil this
            rw [hd] at hc g2
            exact g2 c (by simpa using hc)
    | char c => exact ⟨c, column_char hal c, rfl⟩
    | str x =>
      have hx : ∀ w ∈ hole.sp.size, x.length = w := fun w hw => (hback.stringColumn a (lit, hole) segs x hseg h1 w hw).1
      show Readable .string hole.sp (strText hole.sp.toSpec.meaning x) (.str x) _ _ _
      rw [column_str hal x hx]
      refine ⟨rfl, hx, fun hsz => ⟨?_, ?_⟩⟩
      · rintro ⟨rfl, hl, _⟩
        rw [hmore0 rfl, following, hl]
        rfl
      · intro hne
        have hw : hole.sp.width = [] := by
          unfold ScanSpec.size at hsz
          split at hsz
          · assumption
          · simp at hsz
        have hne' : segs ≠ [] ∨ t.last ≠ [] := by
          by_contra h
          simp only [not_or, not_not] at h
          exact hne ⟨h.1, h.2, rfl⟩
        obtain ⟨g1, g2, g3, g4⟩ := hback.string a (lit, hole) segs x hseg h1 hw hne'
        exact ⟨g2, g3, g4, by simp [g1]⟩

theorem column_texts {vals : List Plain} :
    ∀ (segs : List (Str × ScanHole)) (i : Nat), SegsOk (vals.map Plain.ty) i segs →
    ∀ x ∈ ((argsFrom i (segs.map (·.2.field))).zip (segs.map fun s => (s.1, ScanHole.column s.2))).zip
      ((columnFields vals i segs).map (·.1)), ∃ a, (vals.map Plain.arg)[x.1.1]? = some a ∧ argText a x.1.2.2.specs = x.2 := by
  intro segs
  induction segs with
  | nil => intro i _ x hx; simp [argsFrom] at hx
  | cons s segs ih =>
    intro i hok x hx
    obtain ⟨lit, hole⟩ := s
    obtain ⟨⟨ty, hn, hal⟩, wf, fits, hok'⟩ := hok.cons
    simp only [List.map_cons, argsFrom, columnFields, List.zip_cons_cons, List.mem_cons] at hx
    rcases hx with rfl | hx
    · obtain ⟨v, h1, h2, rfl⟩ := plain_get hn
      exact ⟨v.arg, by simp [h1], by simp only [h2]⟩
    · exact ih (i + 1) hok' x hx

theorem column_allows {v : Plain} {h : ScanHole} (hal : ScanTy.Allows v.ty h.sp)
    (hz : (∀ ty n, v ≠ .int ty n) → h.sp.zeros = false) :
    CoreTy.Allows v.arg.ty ((ScanHole.column h).spec.getD {}) ∧ ¬ Deviates v.arg (ScanHole.column h).specs := by
  rw [column_spec, column_specs]
  cases v with
  | int ty n =>
    constructor
    · refine ⟨⟨rfl, ?_⟩, Or.inr rfl⟩
      intro c hc
      have := hal c hc
      simp only [List.mem_cons, List.not_mem_nil, or_false] at this
      rcases this with rfl | rfl | rfl | rfl <;> decide
    · rintro (h' | h' | h')
      · have h3 := h'.1
        have h3 : h.sp.type.getD noChar = 'O' := h3
        cases ht : h.sp.type with
        | none => rw [ht] at h3; revert h3; decide
        | some c =>
          have hc := hal c (by simp [ht])
          rw [ht] at h3
          simp only [Option.getD_some] at h3
          subst h3
          revert hc
          decide
      · exact h'
      · exact h'
  | char c =>
    have ht := toSpec_type (sp := h.sp) hal.2.2
    constructor
    · exact ⟨rfl, Or.inl ⟨⟨rfl, hal.1, Or.inl (hz (by simp))⟩, fun c hc => Or.inl (hal.2.2 c hc)⟩⟩
    · rintro (h' | h' | h')
      · rcases ht with ht | ht
        · have := h'.1; rw [ht] at this; revert this; decide
        · have := h'.1; rw [ht] at this; revert this; decide
      · rcases ht with ht | ht
        · have := h'.1; rw [ht] at this; revert this; decide
        · have := h'.1; rw [ht] at this; revert this; decide
      · exact h'
  | str s =>
    constructor
    · refine ⟨⟨rfl, hal.1, Or.inl (hz (by simp))⟩, fun c hc => Or.inl (hal.2 c hc), fun _ => rfl⟩
    · rintro (h' | h' | h')
      · exact h'.2
      · exact h'
      · exact h'

/-- The width of a character or string does not begin with a zero. -/
theorem columns_zeros {vals : List Plain} {t : ScanTemplate} (hback : CanBeReadInColumns t vals)
    {y : Nat × Str × ScanHole} (hy : y ∈ t.format.arguments.zip t.segs) {v : Plain} (hv : vals[y.1]? = some v) :
    (∀ ty n, v ≠ .int ty n) → y.2.2.sp.zeros = false := by
  rw [scan_args] at hy
  have key : ∀ (segs a : List (Str × ScanHole)), t.segs = a ++ segs →
      y ∈ (argsFrom a.length (segs.map (·.2.field))).zip segs →
      ∃ a' b', t.segs = a' ++ y.2 :: b' ∧ y.1 = y.2.2.field.argument a'.length := by
    intro segs
    induction segs with
    | nil => intro a _ h; simp [argsFrom] at h
    | cons s segs ih =>
      intro a hseg h
      simp only [List.map_cons, argsFrom, List.zip_cons_cons, List.mem_cons] at h
      rcases h with rfl | h
      · exact ⟨a, segs, hseg, rfl⟩
      · exact ih (a ++ [s]) (by rw [hseg]; simp) (by simpa using h)
  obtain ⟨a, b, h1, h2⟩ := key t.segs [] rfl hy
  rw [h2] at hv
  intro hni
  cases v with
  | int ty n => exact absurd rfl (hni ty n)
  | char c => exact hback.charColumn a y.2 b c h1 hv
  | str x =>
    cases hsz : y.2.2.sp.size with
    | some w => exact (hback.stringColumn a y.2 b x h1 hv w hsz).2
    | none =>
      unfold ScanSpec.size at hsz
      split at hsz
      · rename_i hw
        unfold ScanSpec.zeros
        rw [hw]
        rfl
      · simp at hsz

theorem column_suits {vals : List Plain} {t : ScanTemplate} (hs : t.Suits (vals.map Plain.ty))
    (hback : CanBeReadInColumns t vals) : (ScanTemplate.columns t).Suits (vals.map Plain.arg) := by
  have hf := columns_format t
  refine ⟨by have := hs.number; simpa using this, ?_, ?_, by rw [hf]; exact hs.mode, ?_, ?_⟩
  · intro s hs'
    simp only [ScanTemplate.columns, List.mem_map] at hs'
    obtain ⟨s0, h0, rfl⟩ := hs'
    exact hs.digits s0 h0
  · intro s hs' sp hsp
    simp only [ScanTemplate.columns, List.mem_map] at hs'
    obtain ⟨s0, h0, rfl⟩ := hs'
    simp only [ScanHole.column, Option.mem_def, Option.map_eq_some_iff] at hsp
    obtain ⟨sp0, h1, rfl⟩ := hsp
    have hsp0 : s0.2.sp = sp0 := by simp [ScanHole.sp, h1]
    have hg := hs.grammar s0 h0
    rw [hsp0] at hg
    refine ⟨⟨by simp [ScanSpec.toSpec], by simp [ScanSpec.toSpec], by simp [ScanSpec.toSpec], ?_, ?_,
      by simp [ScanSpec.toSpec], ?_⟩, ?_, by simp [ScanSpec.toSpec, SpecText.precValue]⟩
    · intro c hc
      refine hg.1.width c ?_
      simp only [ScanSpec.toSpec] at hc
      split at hc
      · exact List.mem_of_mem_tail hc
      · exact hc
    · intro hz
      have hz : sp0.zeros = false := hz
      simp only [ScanSpec.toSpec, hz]
      unfold ScanSpec.zeros at hz
      simpa using hz
    · intro c hc
      exact Or.inl (hg.1.type c hc)
    · rw [toSpec_width]
      have hfit := hg.2
      unfold ScanSpec.Fits ScanSpec.size at hfit
      by_cases hw : sp0.width = []
      · rw [hw]
        decide
      · rw [if_neg hw] at hfit
        exact (hfit _ rfl).2
  · intro k
    rw [hf]
    simpa using hs.arguments k
  · intro x hx
    rw [hf] at hx
    simp only [ScanTemplate.columns] at hx
    rw [zip_map_snd] at hx
    obtain ⟨y, hy, rfl⟩ := List.mem_map.1 hx
    obtain ⟨ty, h1, h2⟩ := hs.allowed y hy
    obtain ⟨v, g1, _, rfl⟩ := plain_get h1
    exact ⟨v.arg, by simp [g1], (column_allows h2 (columns_zeros hback hy g1)).1⟩

/-- Integers, characters and strings are written by a string and read back by the same string, in columns too. -/
theorem C76_columns (t : ScanTemplate) (vals : List Plain) (vars : List ScanVal) (hl : vars.length = vals.length)
    (hv : ∀ v ∈ vals, ValidArg v.arg) (hs : t.Suits (vals.map Plain.ty)) (hback : CanBeReadInColumns t vals) :
    ∃ text, formatStr t.text (fargs (vals.map Plain.arg)) = .ok () text ∧
      scanStr text t.text (vals.map Plain.ty) vars = .ok (vals.map Plain.val) () := by
  have hf := columns_format t
  have hok := suits_segsOk hs
  have htext : (ScanTemplate.columns t).text = t.text := by unfold Template.text ScanTemplate.text; rw [hf]
  refine ⟨t.input ((columnFields vals 0 t.segs).map (·.1)), ?_, ?_⟩
  · have h := C24_output_partial (ScanTemplate.columns t) (vals.map Plain.arg) ((columnFields vals 0 t.segs).map (·.1))
      (column_suits hs hback) ?_ ?_ ?_
    · rw [htext] at h
      rw [h]
      unfold Template.output ScanTemplate.input
      rw [hf]
    · intro a ha
      obtain ⟨v, hv', rfl⟩ := List.mem_map.1 ha
      exact hv v hv'
    · refine ⟨by simp [columnFields_length, ScanTemplate.columns], ?_⟩
      rw [hf, scan_args]
      exact column_texts t.segs 0 hok
    · intro x hx a ha
      rw [hf] at hx
      simp only [ScanTemplate.columns] at hx
      rw [zip_map_snd] at hx
      obtain ⟨y, hy, rfl⟩ := List.mem_map.1 hx
      obtain ⟨ty, h1, h2⟩ := hs.allowed y hy
      obtain ⟨v, g1, _, rfl⟩ := plain_get h1
      simp only [List.getElem?_map, g1, Option.map_some, Option.some.injEq] at ha
      subst ha
      exact (column_allows h2 (columns_zeros hback hy g1)).2
  · have hwr := column_written hv hback t.segs [] rfl hok
    obtain ⟨used, h1, h2⟩ := scanSegs_fwd (vals.map Plain.ty) t.last stop_nil hwr
      ⟨ofStr (t.input ((columnFields vals 0 t.segs).map (·.1))), vars⟩ hok (by
        simp only [List.length_nil]
        rw [← scan_input_eq]
        exact at_ofStr _) (by simp; omega)
    unfold scanStr
    rw [scan_eq hs]
    simp only [List.length_nil, List.append_nil] at h1 h2
    rw [h2]
    simp only
    rw [if_pos]
    · congr 1
      refine store_eq (by simpa using hl) ?_ ?_
      · intro x hx
        obtain ⟨y, hy, rfl⟩ := List.mem_map.1 hx
        have hval := columnFields_values vals t.segs 0 y hy
        have hmem : y.2.1 ∈ t.format.arguments := by
          rw [scan_args, ← columnFields_args vals]
          exact List.mem_map.2 ⟨y, hy, rfl⟩
        have hk := (hs.arguments y.2.1).1 hmem
        simp only [List.length_map] at hk
        rw [List.getElem?_map, List.getElem?_eq_getElem (by omega), hval, List.getD_eq_getElem?_getD,
          List.getElem?_eq_getElem (by omega)]
        rfl
      · intro k hk
        simp only [List.length_map] at hk
        have := (hs.arguments k).2 (by simpa using by omega)
        rw [scan_args, ← columnFields_args vals] at this
        obtain ⟨y, hy, rfl⟩ := List.mem_map.1 this
        exact ⟨y.2, List.mem_map.2 ⟨y, hy, rfl⟩, rfl⟩
    · have : used.length = (t.input ((columnFields vals 0 t.segs).map (·.1))).length := by
        rw [← h1, scan_input_eq]
      simp [Reader.eof, adv, ofStr, this]

/-- `{:04}{:#07x}{:3}{:1}{}`: no text between the columns. -/
def columnTemplate : ScanTemplate :=
  ⟨[([], ⟨[], some { width := "04".toList }⟩), ([], ⟨[], some { alt := true, width := "07".toList, type := 'x' }⟩),
    ([], ⟨[], some { width := ['3'] }⟩), ([], ⟨[], some { width := ['1'] }⟩), ([], ⟨[], none⟩)], []⟩

def columnVals : List Plain := [.int i32 (-12), .int i32 255, .str "key".toList, .char '{', .int i32 7]

/-- It meets the conditions. -/
example : columnTemplate.text = "{:04}{:#07x}{:3}{:1}{}".toList ∧ columnTemplate.Suits (columnVals.map Plain.ty) ∧
    (∀ v ∈ columnVals, ValidArg v.arg) ∧ CanBeReadInColumns columnTemplate columnVals ∧
    formatStr columnTemplate.text (fargs (columnVals.map Plain.arg)) = .ok () "-0120x000ffkey{7".toList ∧
    scanStr "-0120x000ffkey{7".toList columnTemplate.text (columnVals.map Plain.ty)
      [.int 0, .int 0, .str [], .char 'x', .int 0] = .ok (columnVals.map Plain.val) () := by
  have split : ∀ (a : List (Str × ScanHole)) s b, columnTemplate.segs = a ++ s :: b →
      (a.length = 0 ∧ s = ([], ⟨[], some { width := "04".toList }⟩)) ∨
      (a.length = 1 ∧ s = ([], ⟨[], some { alt := true, width := "07".toList, type := 'x' }⟩)) ∨
      (a.length = 2 ∧ s = ([], ⟨[], some { width := ['3'] }⟩)) ∨ (a.length = 3 ∧ s = ([], ⟨[], some { width := ['1'] }⟩)) ∨
      (a.length = 4 ∧ s = ([], ⟨[], none⟩) ∧ b = []) := by
    intro a s b h
    rcases a with _ | ⟨x0, _ | ⟨x1, _ | ⟨x2, _ | ⟨x3, _ | ⟨x4, a⟩⟩⟩⟩⟩
    all_goals simp only [columnTemplate, List.nil_append, List.cons_append, List.cons.injEq] at h
    · exact .inl ⟨rfl, h.1.symm⟩
    · exact .inr (.inl ⟨rfl, h.2.1.symm⟩)
    · exact .inr (.inr (.inl ⟨rfl, h.2.2.1.symm⟩))
    · exact .inr (.inr (.inr (.inl ⟨rfl, h.2.2.2.1.symm⟩)))
    · exact .inr (.inr (.inr (.inr ⟨rfl, h.2.2.2.2.1.symm, h.2.2.2.2.2.symm⟩)))
    · simp at h
  refine ⟨by decide +kernel, ⟨by decide, by decide, ?_, Or.inl (by unfold FormatText.Automatic; decide), ?_, ?_⟩, ?_,
    ⟨?_, ?_, ?_, ?_, ?_⟩, by decide +kernel, by decide +kernel⟩
  · intro s hs
    simp only [columnTemplate, List.mem_cons, List.not_mem_nil, or_false] at hs
    rcases hs with rfl | rfl | rfl | rfl | rfl <;> exact ⟨⟨by decide, by decide⟩, by unfold ScanSpec.Fits; decide⟩
  · intro k
    have : columnTemplate.format.arguments = [0, 1, 2, 3, 4] := by decide
    rw [this]
    simp [columnVals]
    omega
  · intro x hx
    have : columnTemplate.format.arguments.zip columnTemplate.segs = [(0, ([], ⟨[], some { width := "04".toList }⟩)),
      (1, ([], ⟨[], some { alt := true, width := "07".toList, type := 'x' }⟩)), (2, ([], ⟨[], some { width := ['3'] }⟩)),
      (3, ([], ⟨[], some { width := ['1'] }⟩)), (4, ([], ⟨[], none⟩))] := rfl
    rw [this] at hx
    simp only [List.mem_cons, List.not_mem_nil, or_false] at hx
    rcases hx with rfl | rfl | rfl | rfl | rfl
    · exact ⟨.int i32, rfl, by unfold ScanTy.Allows; decide⟩
    · exact ⟨.int i32, rfl, by unfold ScanTy.Allows; decide⟩
    · exact ⟨.string, rfl, by unfold ScanTy.Allows; decide⟩
    · exact ⟨.char, rfl, by unfold ScanTy.Allows; decide⟩
    · exact ⟨.int i32, rfl, by unfold ScanTy.Allows; decide⟩
  · intro v hv
    simp only [columnVals, List.mem_cons, List.not_mem_nil, or_false] at hv
    rcases hv with rfl | rfl | rfl | rfl | rfl
    · unfold ValidArg Plain.arg; exact ⟨by simp [IntTy.Std], by decide⟩
    · unfold ValidArg Plain.arg; exact ⟨by simp [IntTy.Std], by decide⟩
    · unfold ValidArg Plain.arg; decide
    · unfold ValidArg Plain.arg; decide
    · unfold ValidArg Plain.arg; exact ⟨by simp [IntTy.Std], by decide⟩
  · intro a s b ty n h hn hw
    rcases split a s b h with ⟨hl, rfl⟩ | ⟨hl, rfl⟩ | ⟨hl, rfl⟩ | ⟨hl, rfl⟩ | ⟨hl, rfl, rfl⟩
    · exact absurd hw (by decide)
    · exact absurd hw (by decide)
    · exact absurd hw (by decide)
    · exact absurd hw (by decide)
    · exact ⟨by decide, by decide, fun _ h => absurd h (by decide)⟩
  · intro a s b x h hn hw
    rcases split a s b h with ⟨hl, rfl⟩ | ⟨hl, rfl⟩ | ⟨hl, rfl⟩ | ⟨hl, rfl⟩ | ⟨hl, rfl, rfl⟩
    · exact absurd hw (by decide)
    · exact absurd hw (by decide)
    · exact absurd hw (by decide)
    · exact absurd hw (by decide)
    · simp [columnVals, ScanHole.field, Field.argument, hl] at hn
  · intro a s b ty n h hn w hw
    rcases split a s b h with ⟨hl, rfl⟩ | ⟨hl, rfl⟩ | ⟨hl, rfl⟩ | ⟨hl, rfl⟩ | ⟨hl, rfl, rfl⟩
    · simp [columnVals, ScanHole.field, Field.argument, hl] at hn
      obtain ⟨rfl, rfl⟩ := hn
      obtain rfl : 4 = w := Option.some.inj hw
      decide +kernel
    · simp [columnVals, ScanHole.field, Field.argument, hl] at hn
      obtain ⟨rfl, rfl⟩ := hn
      obtain rfl : 7 = w := Option.some.inj hw
      decide +kernel
    · simp [columnVals, ScanHole.field, Field.argument, hl] at hn
    · simp [columnVals, ScanHole.field, Field.argument, hl] at hn
    · exact absurd hw (by simp [ScanHole.sp, ScanSpec.size])
  · intro a s b x h hn w hw
    rcases split a s b h with ⟨hl, rfl⟩ | ⟨hl, rfl⟩ | ⟨hl, rfl⟩ | ⟨hl, rfl⟩ | ⟨hl, rfl, rfl⟩
    · simp [columnVals, ScanHole.field, Field.argument, hl] at hn
    · simp [columnVals, ScanHole.field, Field.argument, hl] at hn
    · simp [columnVals, ScanHole.field, Field.argument, hl] at hn
      subst hn
      obtain rfl : 3 = w := Option.some.inj hw
      decide
    · simp [columnVals, ScanHole.field, Field.argument, hl] at hn
    · simp [columnVals, ScanHole.field, Field.argument, hl] at hn
  · intro a s b x h hn
    rcases split a s b h with ⟨hl, rfl⟩ | ⟨hl, rfl⟩ | ⟨hl, rfl⟩ | ⟨hl, rfl⟩ | ⟨hl, rfl, rfl⟩
    · simp [columnVals, ScanHole.field, Field.argument, hl] at hn
    · simp [columnVals, ScanHole.field, Field.argument, hl] at hn
    · decide
    · decide
    · decide

/-- The conditions are needed: without the zero, blanks are written, which are not read. -/
example : formatStr "{:3}".toList (fargs [.int i32 7]) = .ok () "  7".toList ∧
    scanStr "  7".toList "{:3}".toList [.int i32] [.int 0] = .err [.int 0] .invalidData := by
  decide +kernel

end Emio
