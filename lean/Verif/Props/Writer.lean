import Verif.Props.Buffer
import Verif.Props.Reader
import Verif.Lemmas.Writer
import Verif.Spec.Writer
/-
Properties C08-C10 and C19-C21: the writer.

Every theorem starts from an arbitrary reachable buffer: a span buffer after any client history, a memory buffer with
any past (`MemReach`), an iterator buffer with any cache after any client history.
-/
namespace Emio
open BufferImpl Spec

/-! ## Common part -/

theorem callText_eq {op : WOp} (h : CallOk op) : op.text = callText op := by
  cases op with
  | strEscaped s => simp only [WOp.text, callText, quoted, escAll_eq s h]
  | charEscaped c =>
    have : escAll [c] = escape [c] := escAll_eq [c] (by intro d hd; simp at hd; subst hd; exact h)
    simp only [WOp.text, callText, quoted, this]
  | _ => rfl

theorem callOk_fine {op : WOp} (h : CallOk op) : op.Fine := by
  cases op <;> first | exact h | trivial

theorem callContiguous_eq (op : WOp) : op.need = callContiguous op := by cases op <;> rfl

theorem renderText_eq {ops : List WOp} (h : ∀ op ∈ ops, CallOk op) : render ops = ops.flatMap callText := by
  induction ops with
  | nil => rfl
  | cons op ops ih =>
    simp only [render_cons, List.flatMap_cons]
    rw [callText_eq (h op (by simp)), ih (fun o ho => h o (by simp [ho]))]

theorem span_reach {mem : Str} {ops : List ClientOp} {s : SpanBuf} {t : Str}
    (h : client spanReset ops (SpanBuf.new mem, []) = some (s, t)) : SpanBuf.Rep mem.length s t :=
  client_reach (SpanBuf.lawful mem.length) (fun _ _ h => h) spanReset (spanReset_rep mem.length) (SpanBuf.rep_new mem) h

theorem iter_reach {cache : Str} (hc : cache ≠ []) {ops : List ClientOp} {s : IterBuf} {t : Str}
    (h : client iterFlush ops (IterBuf.new cache, []) = some (s, t)) : IterBuf.Rep cache.length s t :=
  client_reach (IterBuf.lawful cache.length) (fun _ _ h => h) iterFlush (iterFlush_rep cache.length)
    (IterBuf.rep_new cache hc) h

/-! ## C19: every writer function appends its text, all of it or (failing) a proper prefix -/

/-- C19 on a memory buffer: any sequence of writer calls succeeds and appends exactly their texts. -/
theorem C19_memory_buffer_appends (n : Nat) (s : MemBuf) (t : Str) (h : MemReach n s t) (calls : List WOp)
    (hok : ∀ op ∈ calls, CallOk op) :
    ∃ s', execAll calls s = .ok s' () ∧ s'.view = t ++ calls.flatMap callText := by
  obtain ⟨s', h1, h2⟩ := execAll_accepts (MemBuf.accepts n) calls (fun op ho => callOk_fine (hok op ho))
    (fun _ _ => trivial) s t h.rep trivial
  exact ⟨s', h1, by rw [← renderText_eq hok]; exact h2.2.2.2.2.2.2.2⟩

example : ((MemBuf.new 4 0).state?.bind fun s =>
    (execAll [.str "n=".toList, .int i32 (-255) 16 true, .charN '.' 3, .strEscaped "a\n\"".toList] s).state?.map
      (·.view)) = some "n=-FF...\"a\\n\\\"\"".toList := by decide +kernel

/-- C19 on a span buffer: if the texts fit, all of them are appended; otherwise the error is end-of-file, and a prefix of
the texts has been appended. -/
theorem C19_span_buffer_appends (mem : Str) (ops : List ClientOp) (s : SpanBuf) (t : Str)
    (h : client spanReset ops (SpanBuf.new mem, []) = some (s, t)) (calls : List WOp) (hok : ∀ op ∈ calls, CallOk op) :
    if t.length + (calls.flatMap callText).length ≤ mem.length then
      ∃ s', execAll calls s = .ok s' () ∧ s'.view = t ++ calls.flatMap callText
    else ∃ s' p, execAll calls s = .err s' .eof ∧ p <+: calls.flatMap callText ∧ s'.view = t ++ p := by
  have hrep := span_reach h
  have hf : ∀ op ∈ calls, op.Fine := fun op ho => callOk_fine (hok op ho)
  rw [← renderText_eq hok]
  by_cases hfit : t.length + (render calls).length ≤ mem.length
  · rw [if_pos hfit]
    obtain ⟨s', h1, h2⟩ := execAll_accepts (SpanBuf.accepts mem.length) calls hf (fun _ _ => trivial) s t hrep hfit
    exact ⟨s', h1, h2.2.2.2.2.2⟩
  · rw [if_neg hfit]
    have := execAll_wrote (SpanBuf.lawful mem.length) calls hf s t hrep
    revert this
    cases hx : execAll calls s with
    | ok s' u =>
      intro h'
      have := SpanBuf.Rep.length h'
      have := h'.2.2.2.2.1
      simp only [List.length_append] at *
      omega
    | err s' e => rintro ⟨rfl, p, hp, hr⟩; exact ⟨s', p, rfl, hp, hr.2.2.2.2.2⟩
    | bad b => exact False.elim

/-- C19, `write_str` on a span buffer: exactly as much of the string as fits is written. -/
theorem C19_span_write_str (mem : Str) (ops : List ClientOp) (s : SpanBuf) (t : Str)
    (h : client spanReset ops (SpanBuf.new mem, []) = some (s, t)) (sv : Str) :
    if t.length + sv.length ≤ mem.length then ∃ s', writeStr sv s = .ok s' () ∧ s'.view = t ++ sv
    else ∃ s', writeStr sv s = .err s' .eof ∧ s'.view = t ++ sv.take (mem.length - t.length) ∧
      s'.view.length = mem.length := by
  have hrep := span_reach h
  by_cases hfit : t.length + sv.length ≤ mem.length
  · rw [if_pos hfit]
    obtain ⟨s', h1⟩ := writeStr_accepts (SpanBuf.accepts mem.length) hrep sv hfit
    have := writeStr_wrote (SpanBuf.lawful mem.length) sv hrep
    rw [h1] at this
    exact ⟨s', h1, this.2.2.2.2.2⟩
  · rw [if_neg hfit]
    have := writeStr_wrote' (SpanBuf.lawful mem.length) _ sv rfl s t hrep
    revert this
    cases hx : writeStr sv s with
    | ok s' u =>
      intro h'
      have := SpanBuf.Rep.length h'
      have := h'.2.2.2.2.1
      simp only [List.length_append] at *
      omega
    | err s' e =>
      rintro ⟨rfl, p, q, s1, hpq, hq, hr1, hreq, hr⟩
      have hfull : (t ++ p).length = mem.length := by
        by_contra hne
        have hl := SpanBuf.Rep.length hr1
        obtain ⟨k1, k2, k3, k4, k5, k6⟩ := hr1
        have hq' : 0 < q.length := List.length_pos_of_ne_nil hq
        by_cases hh : q.length ≤ s1.base.len - s1.base.used
        · rw [max_here (by exact hh)] at hreq; cases hreq
        · rw [max_fixed (by exact k1) hq' (show s1.base.len - s1.base.used < q.length by omega), if_neg (by
            show ¬ s1.base.len - s1.base.used = 0
            omega)] at hreq
          cases hreq
      have hp : sv.take (mem.length - t.length) = p := by
        rw [hpq, List.length_append] at *
        rw [show mem.length - t.length = p.length by omega]; simp
      rw [hp]
      have hv : s'.view = t ++ p := hr.2.2.2.2.2
      exact ⟨s', rfl, hv, by rw [hv, hfull]⟩
    | bad b => exact False.elim

/-- C19, `write_char_n` writes what `write_str` of the repeated character writes, on every reachable span buffer, memory
buffer and iterator buffer, with the same result. -/
theorem C19_write_char_n_is_write_str (c : Char) (k : Nat) :
    (∀ mem ops s t, client spanReset ops (SpanBuf.new mem, []) = some (s, t) →
      writeCharN c k s = writeStr (List.replicate k c) s) ∧
    (∀ n s t, MemReach n s t → writeCharN c k s = writeStr (List.replicate k c) s) ∧
    (∀ cache ops s t, cache ≠ [] → client iterFlush ops (IterBuf.new cache, []) = some (s, t) →
      writeCharN c k s = writeStr (List.replicate k c) s) :=
  ⟨fun _ _ s t h => writeCharN_eq (SpanBuf.lawful _) c k s t (span_reach h),
   fun n s t h => writeCharN_eq (MemBuf.lawful n) c k s t h.rep,
   fun _ _ s t hc h => writeCharN_eq (IterBuf.lawful _) c k s t (iter_reach hc h)⟩

/-- C19 on an iterator buffer: any sequence of calls, none of which asks for more contiguous characters than the cache
has, succeeds and appends exactly the texts. -/
theorem C19_iterator_buffer_appends (cache : Str) (hc : cache ≠ []) (ops : List ClientOp) (s : IterBuf) (t : Str)
    (h : client iterFlush ops (IterBuf.new cache, []) = some (s, t)) (calls : List WOp) (hok : ∀ op ∈ calls, CallOk op)
    (hcont : ∀ op ∈ calls, callContiguous op ≤ cache.length) :
    ∃ s', execAll calls s = .ok s' () ∧ s'.flush.out = t ++ calls.flatMap callText := by
  obtain ⟨s', h1, h2⟩ := execAll_accepts (IterBuf.accepts cache.length) calls (fun op ho => callOk_fine (hok op ho))
    (fun op ho => by rw [callContiguous_eq]; exact hcont op ho) s t (iter_reach hc h) trivial
  exact ⟨s', h1, by rw [← renderText_eq hok]; exact (IterBuf.rep_flush h2).2.2⟩

/-- C19 on an iterator buffer, any calls: a failure is end-of-file after a prefix, never anything undefined. -/
theorem C19_iterator_buffer_prefix (cache : Str) (hc : cache ≠ []) (ops : List ClientOp) (s : IterBuf) (t : Str)
    (h : client iterFlush ops (IterBuf.new cache, []) = some (s, t)) (calls : List WOp) (hok : ∀ op ∈ calls, CallOk op) :
    (∃ s', execAll calls s = .ok s' () ∧ s'.flush.out = t ++ calls.flatMap callText) ∨
    ∃ s' p, execAll calls s = .err s' .eof ∧ p <+: calls.flatMap callText ∧ s'.flush.out = t ++ p := by
  have := execAll_wrote (IterBuf.lawful cache.length) calls (fun op ho => callOk_fine (hok op ho)) s t (iter_reach hc h)
  rw [← renderText_eq hok]
  revert this
  cases hx : execAll calls s with
  | ok s' u => intro h'; exact .inl ⟨s', rfl, (IterBuf.rep_flush h').2.2⟩
  | err s' e => rintro ⟨rfl, p, hp, hr⟩; exact .inr ⟨s', p, rfl, hp, (IterBuf.rep_flush hr).2.2⟩
  | bad b => exact False.elim

/-- C19 on a file buffer whose stream accepts everything. -/
theorem C19_file_buffer_appends (cache : Str) (hc : cache ≠ []) (calls : List WOp) (hok : ∀ op ∈ calls, CallOk op)
    (hcont : ∀ op ∈ calls, callContiguous op ≤ cache.length) :
    ∃ s' s'', execAll calls (FileBuf.new cache []) = .ok s' () ∧ FileBuf.flush s' = .ok s'' () ∧
      s''.file = calls.flatMap callText := by
  obtain ⟨s', h1, h2⟩ := execAll_accepts (FileBuf.acceptsOk cache.length) calls (fun op ho => callOk_fine (hok op ho))
    (fun op ho => by rw [callContiguous_eq]; exact hcont op ho) (FileBuf.new cache []) []
    (FileBuf.rep_new cache [] true hc (fun _ => rfl)) trivial
  rcases FileBuf.rep_flush h2 with ⟨s'', hf, hrep, hfile, _⟩ | ⟨s'', hf, hp, hio⟩
  · exact ⟨s', s'', h1, hf, by rw [← renderText_eq hok]; simpa using hfile⟩
  · exact absurd (h2.2.2.2.2.2.2.1 rfl) hio

/-- C19 on a counting buffer. -/
theorem C19_counting_buffer_counts (cache : Str) (hc : cache ≠ []) (calls : List WOp) (hok : ∀ op ∈ calls, CallOk op)
    (hcont : ∀ op ∈ calls, callContiguous op ≤ cache.length) :
    ∃ s', execAll calls (CountBuf.new cache) = .ok s' () ∧ s'.count = (calls.flatMap callText).length := by
  obtain ⟨s', h1, h2⟩ := execAll_accepts (CountBuf.accepts cache.length) calls (fun op ho => callOk_fine (hok op ho))
    (fun op ho => by rw [callContiguous_eq]; exact hcont op ho) (CountBuf.new cache) [] (CountBuf.rep_new cache hc)
    trivial
  exact ⟨s', h1, by rw [← renderText_eq hok]; simpa using h2.2.2.2.2.2.2⟩

example : (∀ op ∈ [WOp.str "abcdef".toList, .int u8 200 2 false, .strEscaped "x\ty".toList], CallOk op) ∧
    ∀ op ∈ [WOp.str "abcdef".toList, .int u8 200 2 false, .strEscaped "x\ty".toList], callContiguous op ≤ 8 := by
  refine ⟨?_, by decide +kernel⟩
  intro op h
  simp only [List.mem_cons, List.not_mem_nil, or_false] at h
  rcases h with rfl | rfl | rfl
  · trivial
  · exact ⟨by simp [IntTy.Std, u8], by decide, by decide, by decide⟩
  · intro c hc
    have : ∀ c ∈ "x\ty".toList, c.toNat < 256 := by decide
    exact this c hc

/-! ## C08: write_int -/

/-- C08 on a memory buffer: for every integer of every standard type and every base, exactly the canonical numeral is
appended (`intNumeral`: a minus sign for negative numbers, then the digits without leading zeros). -/
theorem C08_write_int (n : Nat) (s : MemBuf) (t : Str) (h : MemReach n s t) (ty : IntTy) (hty : ty.Std) (v : Int)
    (hv : ty.Holds v) (base : Nat) (hb : 2 ≤ base) (hb' : base ≤ 36) (upper : Bool) :
    ∃ s', writeInt ty v base upper s = .ok s' () ∧ s'.view = t ++ intNumeral upper base v := by
  obtain ⟨s', h1, h2⟩ := C19_memory_buffer_appends n s t h [.int ty v base upper]
    (by intro op ho; simp at ho; subst ho; exact ⟨hty, hv, by omega, by omega⟩)
  refine ⟨s', ?_, by simpa [callText] using h2⟩
  rw [execAll] at h1
  cases hx : writeInt ty v base upper s with
  | ok s1 u => rw [M.bind_ok (show (WOp.int ty v base upper).exec s = _ from hx), execAll] at h1; cases u; exact h1
  | err s1 e => rw [M.bind_err (show (WOp.int ty v base upper).exec s = _ from hx)] at h1; cases h1
  | bad b => rw [M.bind_bad (show (WOp.int ty v base upper).exec s = _ from hx)] at h1; cases h1

/-- C08 on a span buffer: the whole numeral, or nothing at all and end-of-file. -/
theorem C08_write_int_span (mem : Str) (ops : List ClientOp) (s : SpanBuf) (t : Str)
    (h : client spanReset ops (SpanBuf.new mem, []) = some (s, t)) (ty : IntTy) (hty : ty.Std) (v : Int)
    (hv : ty.Holds v) (base : Nat) (hb : 2 ≤ base) (hb' : base ≤ 36) (upper : Bool) :
    if t.length + (intNumeral upper base v).length ≤ mem.length then
      ∃ s', writeInt ty v base upper s = .ok s' () ∧ s'.view = t ++ intNumeral upper base v
    else writeInt ty v base upper s = .err s .eof := by
  rw [writeInt_eq ty v base upper hty hv hb hb']
  have hreq := C11_span_exact_request mem ops s t h (intNumeral upper base v).length
  by_cases hfit : t.length + (intNumeral upper base v).length ≤ mem.length
  · rw [if_pos hfit]
    obtain ⟨s', h1⟩ := writeArea_accepts (SpanBuf.accepts mem.length) (span_reach h) (intNumeral upper base v) trivial hfit
    have := writeArea_wrote (SpanBuf.lawful mem.length) (span_reach h) _ (intNumeral upper base v) rfl
    rw [h1] at this
    exact ⟨s', h1, this.2.2.2.2.2⟩
  · rw [if_neg hfit] at hreq ⊢
    unfold writeArea
    rw [M.bind_err hreq]

/-- C08: an invalid base is invalid_argument, and nothing is written, whatever the buffer. -/
theorem C08_write_int_bad_base {σ : Type} [BufferImpl σ] (s : σ) (ty : IntTy) (v : Int) (base : Int)
    (hb : base < 2 ∨ 36 < base) (upper : Bool) : writeInt ty v base upper s = .err s .invalidArgument :=
  writeInt_invalid ty v base upper hb s

example : intNumeral true 16 (-255) = "-FF".toList ∧ intNumeral false 10 (-9223372036854775808) =
    "-9223372036854775808".toList ∧ i64.Holds (-9223372036854775808) ∧ intNumeral false 2 0 = "0".toList := by
  decide +kernel

/-! ## C10: the precomputed number of digits is exact -/

/-- C10: the number of digits computed beforehand is the number of digits of the canonical numeral, and digits written
from right to left are exactly these: the area is filled, no character is left over. -/
theorem C10_digit_count_exact (n b : Nat) (hb : 2 ≤ b) (hb' : b ≤ 36) (up : Bool) (right : Str) :
    getNumberOfDigits n b = (numeral up b n).length ∧
      writeNumber n b up right = numeral up b n ++ right ∧
      (writeNumber n b up right).length = getNumberOfDigits n b + right.length := by
  have h1 := getNumberOfDigits_eq n b up hb
  have h2 := writeNumber_eq n b up right hb hb'
  exact ⟨h1, h2, by rw [h2, h1, List.length_append]⟩

example : getNumberOfDigits 18446744073709551615 10 = 20 ∧ getNumberOfDigits 1000 10 = 4 ∧
    getNumberOfDigits 999 10 = 3 := by decide +kernel

/-! ## C09: write_int and parse_int are inverse -/

theorem symbolValue_symbol (b : Nat) (hb : b ≤ 36) (up : Bool) (d : Nat) (hd : d < b) :
    symbolValue b (symbol up d) = some d := by
  have key : ∀ d < 36, ∀ up : Bool, symbolValue 36 (symbol up d) = some d := by decide +kernel
  have h := key d (by omega) up
  unfold symbolValue at *
  simp only at *
  generalize (if 48 ≤ (symbol up d).toNat ∧ (symbol up d).toNat ≤ 57 then some ((symbol up d).toNat - 48)
    else if 97 ≤ (symbol up d).toNat ∧ (symbol up d).toNat ≤ 122 then some ((symbol up d).toNat - 97 + 10)
    else if 65 ≤ (symbol up d).toNat ∧ (symbol up d).toNat ≤ 90 then some ((symbol up d).toNat - 65 + 10)
    else none) = v? at *
  cases v? with
  | none => cases h
  | some v =>
    have := Option.eq_some_of_filter_eq_some h
    cases this
    simp [Option.filter, hd]

theorem denote_reverse (b : Nat) (l : List Nat) : denote b l.reverse = Nat.ofDigits b l := by
  unfold denote
  rw [List.foldl_reverse]
  induction l with
  | nil => simp
  | cons d l ih => simp only [List.foldr_cons, Nat.ofDigits_cons, ih]; rw [Nat.mul_comm, Nat.add_comm]

theorem numeral_value (up : Bool) (b n : Nat) (hb : 2 ≤ b) (hb' : b ≤ 36) :
    IsNumeral b (numeral up b n) ∧ numeralValue b (numeral up b n) = n := by
  by_cases h0 : n = 0
  · subst h0
    have e : numeral up b 0 = [symbol up 0] := by cases up <;> rfl
    have hs := symbolValue_symbol b hb' up 0 (by omega)
    rw [e]
    exact ⟨⟨by simp, by intro c hc; simp at hc; subst hc; rw [hs]; rfl⟩, by simp [numeralValue, hs, denote]⟩
  · have hsym : ∀ d ∈ (Nat.digits b n).reverse, symbolValue b (symbol up d) = some d := fun d hd =>
      symbolValue_symbol b hb' up d (Nat.digits_lt_base (by omega) (List.mem_reverse.1 hd))
    unfold numeral
    rw [if_neg h0]
    refine ⟨⟨?_, ?_⟩, ?_⟩
    · intro h
      rw [List.map_eq_nil_iff, List.reverse_eq_nil_iff, Nat.digits_eq_nil_iff_eq_zero] at h
      exact h0 h
    · intro c hc
      obtain ⟨d, hd, rfl⟩ := List.mem_map.1 hc
      rw [hsym d hd]; rfl
    · have : ∀ l : List Nat, (∀ d ∈ l, symbolValue b (symbol up d) = some d) →
          (l.map (symbol up)).filterMap (symbolValue b) = l := by
        intro l
        induction l with
        | nil => intro _; rfl
        | cons d l ih =>
          intro h
          simp only [List.map_cons, List.filterMap_cons, h d (by simp)]
          rw [ih (fun e he => h e (by simp [he]))]
      rw [numeralValue, this _ hsym, denote_reverse, Nat.ofDigits_digits]

theorem intNumeral_sign (up : Bool) (b : Nat) (v : Int) :
    ∃ sg : Sign, intNumeral up b v = sg.text ++ numeral up b v.natAbs ∧ sg.apply v.natAbs = v ∧
      (v < 0 ↔ sg = .minus) := by
  by_cases h : v < 0
  · exact ⟨.minus, by simp [intNumeral, h, Sign.text], by simp only [Sign.apply]; omega, by simp [h]⟩
  · exact ⟨.none, by simp [intNumeral, h, Sign.text], by simp only [Sign.apply]; omega, by simp [h]⟩

/-- C09: write an integer to a memory buffer, read the buffer with the same base: the same integer, and the whole text is
consumed.  For every integer type, value, base, case, and previous content of the buffer. -/
theorem C09_write_then_parse (n : Nat) (s : MemBuf) (t : Str) (h : MemReach n s t) (ty : IntTy) (hty : ty.Std) (v : Int)
    (hv : ty.Holds v) (base : Nat) (hb : 2 ≤ base) (hb' : base ≤ 36) (upper : Bool) :
    ∃ s', writeInt ty v base upper s = .ok s' () ∧
      Reader.parseInt ty base ⟨s'.view, t.length⟩ = .ok ⟨s'.view, s'.view.length⟩ v := by
  obtain ⟨s', h1, h2⟩ := C08_write_int n s t h ty hty v hv base hb hb' upper
  refine ⟨s', h1, ?_⟩
  obtain ⟨sg, hsg, hap, hneg⟩ := intNumeral_sign upper base v
  obtain ⟨hnum, hval⟩ := numeral_value upper base v.natAbs hb hb'
  have := C01_parse_int_exact_partial ty hty base ⟨s'.view, t.length⟩ sg (numeral upper base v.natAbs) [] hb hb'
    (by simp [h2]) (by simp [Reader.rest, h2, hsg]) hnum (by simp [NoDigitNext]) (by simp)
    (by rw [hval, hap]; exact hv)
    (by
      by_cases hs : ty.signed = true
      · exact .inl hs
      · right
        intro hm
        have := hneg.2 hm
        simp only [IntTy.Holds, IntTy.min] at hv
        simp [hs] at hv
        omega)
  rw [this, hval, hap]
  congr 2
  rw [h2, hsg]; simp; omega

example : ∃ s, MemReach 4 s "abc".toList := by
  obtain ⟨s0, a, h0, hr⟩ := MemBuf.rep_new 4 0
  obtain ⟨s, h, _⟩ := client_all (MemBuf.lawful 4) (MemBuf.accepts 4) true memReset (memReset_rep 4)
    [.exact "abc".toList] s0 [] hr
  refine ⟨s, .use (op := .exact "abc".toList) (.new h0) ?_⟩
  cases hst : ClientOp.step memReset (.exact "abc".toList) (s0, []) with
  | none => rw [client, hst] at h; cases h
  | some p => rw [client, hst] at h; exact h

/-! ## C20: escaped text does not depend on the write areas -/

/-- C20: the escaped string written to a memory buffer, to a span buffer with enough room, and - in pieces of any
size ≥ 1 - to an output iterator is always the same: quote, escaped text, quote. -/
theorem C20_escaped_string (sv : Str) (hsv : ∀ c ∈ sv, c.toNat < 256) :
    (∀ n s t, MemReach n s t → ∃ s', writeStrEscaped sv s = .ok s' () ∧ s'.view = t ++ quoted '"' sv) ∧
    (∀ mem ops s t, client spanReset ops (SpanBuf.new mem, []) = some (s, t) →
      t.length + (quoted '"' sv).length ≤ mem.length →
      ∃ s', writeStrEscaped sv s = .ok s' () ∧ s'.view = t ++ quoted '"' sv) ∧
    (∀ cache ops s t, cache ≠ [] → client iterFlush ops (IterBuf.new cache, []) = some (s, t) →
      ∃ s', writeStrEscaped sv s = .ok s' () ∧ s'.flush.out = t ++ quoted '"' sv) := by
  have he : quoted '"' sv = ['"'] ++ escAll sv ++ ['"'] := by rw [quoted, escAll_eq sv hsv]
  refine ⟨fun n s t h => ?_, fun mem ops s t h hl => ?_, fun cache ops s t hc h => ?_⟩
  · obtain ⟨s', h1⟩ := writeEscaped_accepts (MemBuf.accepts n) '"' sv h.rep trivial
    have := writeEscaped_wrote (MemBuf.lawful n) '"' sv h.rep
    rw [h1] at this
    exact ⟨s', h1, by rw [he]; exact this.2.2.2.2.2.2.2⟩
  · obtain ⟨s', h1⟩ := writeEscaped_accepts (SpanBuf.accepts mem.length) '"' sv (span_reach h)
      (by rw [he] at hl; simp at hl; simp only [leLimit]; omega)
    have := writeEscaped_wrote (SpanBuf.lawful mem.length) '"' sv (span_reach h)
    rw [h1] at this
    exact ⟨s', h1, by rw [he]; exact this.2.2.2.2.2⟩
  · obtain ⟨s', h1⟩ := writeEscaped_accepts (IterBuf.accepts cache.length) '"' sv (iter_reach hc h) trivial
    have := writeEscaped_wrote (IterBuf.lawful cache.length) '"' sv (iter_reach hc h)
    rw [h1] at this
    exact ⟨s', h1, by rw [he]; exact (IterBuf.rep_flush this).2.2⟩

/-- C20 for characters. -/
theorem C20_escaped_char (c : Char) (hcb : c.toNat < 256) :
    (∀ n s t, MemReach n s t → ∃ s', writeCharEscaped c s = .ok s' () ∧ s'.view = t ++ quoted '\'' [c]) ∧
    (∀ mem ops s t, client spanReset ops (SpanBuf.new mem, []) = some (s, t) →
      t.length + (quoted '\'' [c]).length ≤ mem.length →
      ∃ s', writeCharEscaped c s = .ok s' () ∧ s'.view = t ++ quoted '\'' [c]) ∧
    (∀ cache ops s t, cache ≠ [] → client iterFlush ops (IterBuf.new cache, []) = some (s, t) →
      ∃ s', writeCharEscaped c s = .ok s' () ∧ s'.flush.out = t ++ quoted '\'' [c]) := by
  have hsv : ∀ d ∈ [c], d.toNat < 256 := by intro d hd; simp at hd; subst hd; exact hcb
  have he : quoted '\'' [c] = ['\''] ++ escAll [c] ++ ['\''] := by rw [quoted, escAll_eq [c] hsv]
  refine ⟨fun n s t h => ?_, fun mem ops s t h hl => ?_, fun cache ops s t hc h => ?_⟩
  · obtain ⟨s', h1⟩ := writeEscaped_accepts (MemBuf.accepts n) '\'' [c] h.rep trivial
    have := writeEscaped_wrote (MemBuf.lawful n) '\'' [c] h.rep
    rw [h1] at this
    exact ⟨s', h1, by rw [he]; exact this.2.2.2.2.2.2.2⟩
  · obtain ⟨s', h1⟩ := writeEscaped_accepts (SpanBuf.accepts mem.length) '\'' [c] (span_reach h)
      (by rw [he] at hl; simp at hl; simp only [leLimit]; omega)
    have := writeEscaped_wrote (SpanBuf.lawful mem.length) '\'' [c] (span_reach h)
    rw [h1] at this
    exact ⟨s', h1, by rw [he]; exact this.2.2.2.2.2⟩
  · obtain ⟨s', h1⟩ := writeEscaped_accepts (IterBuf.accepts cache.length) '\'' [c] (iter_reach hc h) trivial
    have := writeEscaped_wrote (IterBuf.lawful cache.length) '\'' [c] (iter_reach hc h)
    rw [h1] at this
    exact ⟨s', h1, by rw [he]; exact (IterBuf.rep_flush this).2.2⟩

/-- Everywhere "Aé\n" (as bytes) becomes the same text, here in pieces of 3. -/
example : ((writeStrEscaped ['A', Char.ofNat 0xC3, Char.ofNat 0xA9, '\n'] (IterBuf.new "...".toList)).state?.map
    fun s => s.flush.out) = some "\"A\\xc3\\xa9\\n\"".toList := by decide +kernel

/-- C20: if a span buffer is too small, the error is end-of-file and what was written is a proper prefix. -/
theorem C20_escaped_string_span_too_small (sv : Str) (hsv : ∀ c ∈ sv, c.toNat < 256) (mem : Str) (ops : List ClientOp)
    (s : SpanBuf) (t : Str) (h : client spanReset ops (SpanBuf.new mem, []) = some (s, t))
    (hl : mem.length < t.length + (quoted '"' sv).length) :
    ∃ s' p, writeStrEscaped sv s = .err s' .eof ∧ p <+: quoted '"' sv ∧ s'.view = t ++ p := by
  have he : quoted '"' sv = ['"'] ++ escAll sv ++ ['"'] := by rw [quoted, escAll_eq sv hsv]
  have := writeEscaped_wrote (SpanBuf.lawful mem.length) '"' sv (span_reach h)
  rw [he] at hl ⊢
  unfold writeStrEscaped
  revert this
  cases hx : writeEscaped '"' sv (countSizeWhenEscaped sv) s with
  | ok s' u =>
    intro h'
    have := SpanBuf.Rep.length h'
    have := h'.2.2.2.2.1
    simp only [List.length_append] at *
    omega
  | err s' e => rintro ⟨rfl, p, hp, _, hr⟩; exact ⟨s', p, rfl, hp, hr.2.2.2.2.2⟩
  | bad b => exact False.elim

/-! ## C21: escaped text is unambiguous -/

theorem escapeChar_byte (P : List Char → Prop) [DecidablePred P] (key : ∀ n < 256, P (escapeChar (Char.ofNat n)))
    (c : Char) (hc : c.toNat < 256) : P (escapeChar c) := by
  have := key c.toNat hc
  simpa using this

/-- C21: escaped text is printable ASCII. -/
theorem C21_escaped_is_printable (sv : Str) (hsv : ∀ c ∈ sv, c.toNat < 256) :
    ∀ c ∈ escape sv, 0x20 ≤ c.toNat ∧ c.toNat < 0x7f := by
  intro c hc
  obtain ⟨d, hd, hcd⟩ := List.mem_flatMap.1 hc
  have key : ∀ n < 256, ∀ c ∈ escapeChar (Char.ofNat n), 0x20 ≤ c.toNat ∧ c.toNat < 0x7f := by decide +kernel
  exact escapeChar_byte (fun l => ∀ c ∈ l, 0x20 ≤ c.toNat ∧ c.toNat < 0x7f) key d (hsv d hd) c hcd

/-- How a reader of escaped text finds the end of the literal: it skips a backslash together with the character behind
it, and stops at the first bare quote. -/
def literalEnd (quote : Char) : Str → Option (Str × Str)
  | [] => none
  | '\\' :: d :: cs => (literalEnd quote cs).map fun p => ('\\' :: d :: p.1, p.2)
  | c :: cs => if c = quote then some ([], cs) else (literalEnd quote cs).map fun p => (c :: p.1, p.2)

theorem literalEnd_escapeChar (quote : Char) (hq : quote = '"' ∨ quote = '\'') (c : Char) (hc : c.toNat < 256)
    (tail : Str) : literalEnd quote (escapeChar c ++ tail) =
      (literalEnd quote tail).map fun p => (escapeChar c ++ p.1, p.2) := by
  have key : ∀ n < 256, (∃ d, escapeChar (Char.ofNat n) = ['\\', d]) ∨
      (∃ d, escapeChar (Char.ofNat n) = [d] ∧ d ≠ '\\' ∧ d ≠ '"' ∧ d ≠ '\'') ∨
      (∃ d e f, escapeChar (Char.ofNat n) = ['\\', d, e, f] ∧ e ≠ '\\' ∧ e ≠ '"' ∧ e ≠ '\'' ∧ f ≠ '\\' ∧
        f ≠ '"' ∧ f ≠ '\'') := by
    have k2 : ∀ n < 256, (match escapeChar (Char.ofNat n) with
      | [a, _] => decide (a = '\\')
      | [d] => decide (d ≠ '\\' ∧ d ≠ '"' ∧ d ≠ '\'')
      | [a, _, e, f] => decide (a = '\\' ∧ e ≠ '\\' ∧ e ≠ '"' ∧ e ≠ '\'' ∧ f ≠ '\\' ∧ f ≠ '"' ∧ f ≠ '\'')
      | _ => false) = true := by decide +kernel
    intro n hn
    have := k2 n hn
    revert this
    generalize escapeChar (Char.ofNat n) = l
    match l with
    | [] => exact fun h => by simp at h
    | [d] => exact fun h => .inr (.inl ⟨d, rfl, of_decide_eq_true h⟩)
    | [a, d] => exact fun h => .inl ⟨d, by rw [of_decide_eq_true h]⟩
    | [_, _, _] => exact fun h => by simp at h
    | [a, d, e, f] => intro h; obtain ⟨rfl, h'⟩ := of_decide_eq_true h; exact .inr (.inr ⟨d, e, f, rfl, h'⟩)
    | _ :: _ :: _ :: _ :: _ :: _ => exact fun h => by simp at h
  have := key c.toNat hc
  simp only [Char.ofNat_toNat] at this
  rcases this with ⟨d, h⟩ | ⟨d, h, h1, h2, h3⟩ | ⟨d, e, f, h, h1, h2, h3, h4, h5, h6⟩
  · rw [h]; simp [literalEnd]
  · rw [h]
    have hdq : d ≠ quote := by rcases hq with rfl | rfl <;> assumption
    simp only [List.cons_append, List.nil_append]
    rw [literalEnd]
    · rw [if_neg hdq]
    · rintro x y rfl; exact absurd rfl h1
  · rw [h]
    have heq : e ≠ quote := by rcases hq with rfl | rfl <;> assumption
    have hfq : f ≠ quote := by rcases hq with rfl | rfl <;> assumption
    simp only [List.cons_append, List.nil_append]
    rw [literalEnd, literalEnd, if_neg heq, literalEnd, if_neg hfq]
    · simp [Option.map_map, Function.comp_def]
    · rintro x y rfl; exact absurd rfl h4
    · rintro x y rfl; exact absurd rfl h1

/-- C21: inside escaped text no quote is bare: a reader that starts behind the opening quote finds the end exactly at
the closing quote, whatever follows. -/
theorem C21_escaped_literal_ends_at_quote (quote : Char) (hq : quote = '"' ∨ quote = '\'') (sv : Str)
    (hsv : ∀ c ∈ sv, c.toNat < 256) (tail : Str) :
    ∃ body, quoted quote sv ++ tail = quote :: body ∧ literalEnd quote body = some (escape sv, tail) := by
  refine ⟨escape sv ++ quote :: tail, by simp [quoted], ?_⟩
  induction sv with
  | nil =>
    simp only [escape, List.flatMap_nil, List.nil_append]
    rcases hq with rfl | rfl <;> simp [literalEnd]
  | cons c cs ih =>
    simp only [escape, List.flatMap_cons, List.append_assoc]
    rw [literalEnd_escapeChar quote hq c (hsv c (by simp))]
    have := ih (fun d hd => hsv d (by simp [hd]))
    simp only [escape] at this
    rw [this]; rfl

/-- Undo one escape: the inverse of `escapeChar` at the beginning of a text. -/
theorem escapeChar_inj (c d : Char) (hc : c.toNat < 256) (hd : d.toNat < 256) (x y : Str)
    (h : escapeChar c ++ x = escapeChar d ++ y) : c = d ∧ x = y := by
  have key : ∀ m < 256, ∀ n < 256, (escapeChar (Char.ofNat m)).isPrefixOf (escapeChar (Char.ofNat n)) = true →
      m = n := by decide +kernel
  have hp : escapeChar c <+: escapeChar d ∨ escapeChar d <+: escapeChar c := by
    have h1 : escapeChar c <+: escapeChar d ++ y := h ▸ List.prefix_append _ _
    exact List.prefix_or_prefix_of_prefix h1 (List.prefix_append _ _)
  have hcd : c = d := by
    have e1 : Char.ofNat c.toNat = c := by simp
    have e2 : Char.ofNat d.toNat = d := by simp
    rcases hp with hp | hp
    · have := key c.toNat hc d.toNat hd (by rw [e1, e2]; exact List.isPrefixOf_iff_prefix.2 hp)
      rw [← e1, this, e2]
    · have := key d.toNat hd c.toNat hc (by rw [e1, e2]; exact List.isPrefixOf_iff_prefix.2 hp)
      rw [← e1, ← this, e2]
  subst hcd
  exact ⟨rfl, List.append_cancel_left h⟩

/-- C21: different strings have different escaped texts. -/
theorem C21_escape_injective (a b : Str) (ha : ∀ c ∈ a, c.toNat < 256) (hb : ∀ c ∈ b, c.toNat < 256)
    (h : escape a = escape b) : a = b := by
  have hne : ∀ c : Char, escapeChar c ≠ [] := by
    intro c
    unfold escapeChar
    repeat' split
    all_goals simp
  induction a generalizing b with
  | nil =>
    cases b with
    | nil => rfl
    | cons d b =>
      simp only [escape, List.flatMap_nil, List.flatMap_cons] at h
      exact absurd (List.append_eq_nil_iff.1 h.symm).1 (hne d)
  | cons c a ih =>
    cases b with
    | nil =>
      simp only [escape, List.flatMap_nil, List.flatMap_cons] at h
      exact absurd (List.append_eq_nil_iff.1 h).1 (hne c)
    | cons d b =>
      simp only [escape, List.flatMap_cons] at h
      obtain ⟨rfl, h'⟩ := escapeChar_inj c d (ha c (by simp)) (hb d (by simp)) _ _ h
      rw [ih b (fun e he => ha e (by simp [he])) (fun e he => hb e (by simp [he])) h']

/-- C21: two written strings are equal only if the strings are: what `write_str_escaped` appends determines its
argument. -/
theorem C21_escaped_output_determines_string (n : Nat) (s : MemBuf) (t : Str) (h : MemReach n s t) (a b : Str)
    (ha : ∀ c ∈ a, c.toNat < 256) (hb : ∀ c ∈ b, c.toNat < 256)
    (hab : ((writeStrEscaped a s).state?.map (·.view)) = (writeStrEscaped b s).state?.map (·.view)) : a = b := by
  obtain ⟨s1, h1, e1⟩ := (C20_escaped_string a ha).1 n s t h
  obtain ⟨s2, h2, e2⟩ := (C20_escaped_string b hb).1 n s t h
  rw [h1, h2] at hab
  simp only [Run.state?, Option.map_some, Option.some.injEq, e1, e2, quoted] at hab
  exact C21_escape_injective a b ha hb (by simpa using hab)

example : escape "a\n\"b".toList = "a\\n\\\"b".toList := by decide +kernel

end Emio
