import Verif.Lemmas.Client
/-
Properties C11-C18: the buffers.

Each theorem speaks about *every* client history: any list of requests (for exactly or for at most n characters, each
area being filled with arbitrary characters) and resets / flushes, in any order.
-/
namespace Emio
open BufferImpl

/-! ## C11: span_buffer and static_buffer -/

/-- `reset()` of a span buffer: everything written is gone. -/
def spanReset : SpanBuf × Str → Option (SpanBuf × Str) := fun p => some (p.1.reset, [])

theorem spanReset_rep (cap : Nat) (s : SpanBuf) (t : Str) (h : (SpanBuf.lawful cap).Rep s t) :
    ∃ s' t', spanReset (s, t) = some (s', t') ∧ (SpanBuf.lawful cap).Rep s' t' := by
  obtain ⟨h1, h2, h3, h4, h5, h6⟩ := h
  exact ⟨_, _, rfl, h1, rfl, h4, h4, Nat.zero_le _, by simp [SpanBuf.reset, Base.setWriteArea]⟩

/-- C11: whatever a client does, it never writes outside the span, and the view is exactly what it has written since the
last reset. -/
theorem C11_span_view (mem : Str) (ops : List ClientOp) :
    ∃ s t, client spanReset ops (SpanBuf.new mem, []) = some (s, t) ∧ s.view = t ∧ s.capacity = mem.length ∧
      t.length ≤ mem.length := by
  obtain ⟨s, t, h1, h2⟩ := client_rep (SpanBuf.lawful mem.length) (fun _ _ h => h) spanReset
    (spanReset_rep mem.length) ops _ _ (SpanBuf.rep_new mem)
  obtain ⟨_, _, _, h4, h5, h6⟩ := h2
  exact ⟨s, t, h1, h6, h4, by rw [← h6]; simp; omega⟩

example : (client spanReset [.exact "ab".toList, .exact "cdef".toList, .upTo "wxyz".toList]
    (SpanBuf.new "-----".toList, [])).map (fun p => (p.1.view, p.2)) = some ("abwxy".toList, "abwxy".toList) := by
  decide +kernel

/-- C11: `get_write_area_of(n)` succeeds exactly if `n` more characters fit; the area is the next `n` characters.
A failing request is end-of-file and changes nothing at all. -/
theorem C11_span_exact_request (mem : Str) (ops : List ClientOp) (s : SpanBuf) (t : Str)
    (h : client spanReset ops (SpanBuf.new mem, []) = some (s, t)) (n : Nat) :
    if t.length + n ≤ mem.length then ∃ s', getWriteAreaOf n s = .ok s' ⟨t.length, n⟩
    else getWriteAreaOf n s = .err s .eof := by
  have hrep : SpanBuf.Rep mem.length s t := client_reach (SpanBuf.lawful mem.length) (fun _ _ h => h) spanReset
    (spanReset_rep mem.length) (SpanBuf.rep_new mem) h
  have hl := hrep.length
  obtain ⟨h1, h2, h3, h4, h5, h6⟩ := hrep
  have hb : BufferImpl.base s = s.base := rfl
  by_cases hfit : t.length + n ≤ mem.length
  · rw [if_pos hfit]
    have e : (⟨t.length, n⟩ : Area) = ⟨(BufferImpl.base s).off + (BufferImpl.base s).used, n⟩ := by
      rw [hb, h2, hl, Nat.zero_add]
    rw [e]
    unfold getWriteAreaOf
    rw [max_here (by rw [hb]; omega)]
    simp only
    rw [if_neg (Nat.lt_irrefl _)]
    exact ⟨_, rfl⟩
  · rw [if_neg hfit]
    unfold getWriteAreaOf
    rw [max_fixed (by rw [hb]; exact h1) (by omega) (by rw [hb]; omega), hb]
    by_cases h0 : s.base.len - s.base.used = 0
    · rw [if_pos h0]
    · rw [if_neg h0]
      simp only
      rw [if_pos (by omega)]
      simp only [giveBack, BufferImpl.setBase, BufferImpl.base, Nat.add_sub_cancel]

/-- C11: `get_write_area_of_max(n)` hands out as much as fits, end-of-file only if the span is full. -/
theorem C11_span_max_request (mem : Str) (ops : List ClientOp) (s : SpanBuf) (t : Str)
    (h : client spanReset ops (SpanBuf.new mem, []) = some (s, t)) (n : Nat) :
    if t.length = mem.length ∧ 0 < n then getWriteAreaOfMax n s = .err s .eof
    else ∃ s', getWriteAreaOfMax n s = .ok s' ⟨t.length, min n (mem.length - t.length)⟩ := by
  have hrep : SpanBuf.Rep mem.length s t := client_reach (SpanBuf.lawful mem.length) (fun _ _ h => h) spanReset
    (spanReset_rep mem.length) (SpanBuf.rep_new mem) h
  have hl := hrep.length
  obtain ⟨h1, h2, h3, h4, h5, h6⟩ := hrep
  have hb : BufferImpl.base s = s.base := rfl
  by_cases hfull : t.length = mem.length ∧ 0 < n
  · rw [if_pos hfull, max_fixed (by rw [hb]; exact h1) (by omega) (by rw [hb]; omega), hb,
      if_pos (by omega)]
  · rw [if_neg hfull]
    by_cases hfit : n ≤ s.base.len - s.base.used
    · have e : (⟨t.length, min n (mem.length - t.length)⟩ : Area) =
          ⟨(BufferImpl.base s).off + (BufferImpl.base s).used, n⟩ := by
        rw [hb, h2, hl, Nat.zero_add, show min n (mem.length - s.base.used) = n by omega]
      rw [e, max_here (by rw [hb]; omega)]
      exact ⟨_, rfl⟩
    · have e : (⟨t.length, min n (mem.length - t.length)⟩ : Area) =
          ⟨s.base.off + s.base.used, s.base.len - s.base.used⟩ := by
        rw [h2, hl, Nat.zero_add, show min n (mem.length - s.base.used) = s.base.len - s.base.used by omega]
      rw [e, max_fixed (by rw [hb]; exact h1) (by omega) (by rw [hb]; omega), hb, if_neg (by omega)]
      exact ⟨_, rfl⟩

/-- C11: copying a static buffer (constructor or assignment) gives a buffer with the same content. -/
theorem C11_static_copy (mem mem' : Str) (hm : mem'.length = mem.length) (ops : List ClientOp) (s : SpanBuf) (t : Str)
    (h : client spanReset ops (SpanBuf.new mem, []) = some (s, t)) :
    ∃ s', SpanBuf.staticCopy mem' s = .ok s' () ∧ s'.view = t ∧ s'.capacity = s.capacity ∧
      ∀ ops', ∃ s'' t'', client spanReset ops' (s', t) = some (s'', t'') ∧ s''.view = t'' := by
  have hrep : SpanBuf.Rep mem.length s t := client_reach (SpanBuf.lawful mem.length) (fun _ _ h => h) spanReset
    (spanReset_rep mem.length) (SpanBuf.rep_new mem) h
  have hl := hrep.length
  obtain ⟨h1, h2, h3, h4, h5, h6⟩ := hrep
  have hnew := SpanBuf.rep_new mem'
  obtain ⟨s1, a, hok⟩ := (SpanBuf.accepts mem'.length).of_ok (n := s.base.used) hnew trivial
    (by simp only [leLimit, List.length_nil]; omega)
  obtain ⟨hal, hst⟩ := (SpanBuf.lawful mem'.length).of_ok hnew hok
  obtain ⟨s2, hs2, hr2⟩ := hst (s.mem.take a.len) (by simp; omega)
  rw [hal, h6, List.nil_append] at hr2
  refine ⟨s2, ?_, hr2.2.2.2.2.2, ?_, ?_⟩
  · unfold SpanBuf.staticCopy; rw [hok]; simp only; rw [hs2]
  · show s2.mem.length = s.mem.length
    rw [hr2.2.2.2.1, h4, hm]
  · intro ops'
    obtain ⟨s3, t3, hc, hr3⟩ := client_rep (SpanBuf.lawful mem'.length) (fun _ _ h => h) spanReset
      (spanReset_rep mem'.length) ops' s2 t hr2
    exact ⟨s3, t3, hc, hr3.2.2.2.2.2⟩

/-- C11: copying a span buffer gives a buffer over the same span with the same content. -/
theorem C11_span_copy (mem : Str) (ops : List ClientOp) (s : SpanBuf) (t : Str)
    (h : client spanReset ops (SpanBuf.new mem, []) = some (s, t)) :
    SpanBuf.spanCopy s = .ok s () := by
  have hrep : SpanBuf.Rep mem.length s t := client_reach (SpanBuf.lawful mem.length) (fun _ _ h => h) spanReset
    (spanReset_rep mem.length) (SpanBuf.rep_new mem) h
  obtain ⟨h1, h2, h3, h4, h5, h6⟩ := hrep
  unfold SpanBuf.spanCopy getWriteAreaOf
  rw [max_here (by simp only [SpanBuf.new, BufferImpl.base]; omega)]
  simp only
  rw [if_neg (Nat.lt_irrefl _)]
  simp only [SpanBuf.new, BufferImpl.setBase, BufferImpl.base, Nat.zero_add]
  obtain ⟨⟨f, u, o, l⟩, m⟩ := s
  simp only at *
  subst h1 h2
  rw [h3, ← h4]

example : ∃ s, SpanBuf.staticCopy "....".toList ⟨⟨true, 2, 0, 4⟩, "abcd".toList⟩ = .ok s () ∧ s.view = "ab".toList := by
  exact ⟨_, by rw [show SpanBuf.staticCopy "....".toList ⟨⟨true, 2, 0, 4⟩, "abcd".toList⟩ =
    .ok ⟨⟨true, 2, 0, 4⟩, "ab..".toList⟩ () by decide +kernel], by decide +kernel⟩

/-! ## C12 and C13: memory_buffer -/

/-- `reset()` of a memory buffer. -/
def memReset : MemBuf × Str → Option (MemBuf × Str) := fun p => p.1.reset.state?.map (·, [])

theorem memReset_rep (n : Nat) (s : MemBuf) (t : Str) (h : (MemBuf.lawful n).Rep s t) :
    ∃ s', memReset (s, t) = some (s', if true then [] else t) ∧ (MemBuf.lawful n).Rep s' (if true then [] else t) := by
  obtain ⟨s', a, hr, hrep⟩ := MemBuf.rep_reset n s t h
  exact ⟨s', by simp [memReset, hr, Run.state?], hrep⟩

/-- Memory buffers with inline storage of `n` characters that a program can produce, with the text written to them since
the last reset: newly constructed, used by any client, copied, moved, moved from, or assigned.  (For assignments see
below.) -/
inductive MemReach (n : Nat) : MemBuf → Str → Prop
  | new {cap s a} : MemBuf.new n cap = .ok s a → MemReach n s []
  | use {s t op s' t'} : MemReach n s t → ClientOp.step memReset op (s, t) = some (s', t') → MemReach n s' t'
  | copy {s t s'} : MemReach n s t → s.copy = some s' → MemReach n s' t
  | moved {s t s' o} : MemReach n s t → s.move = some (s', o) → MemReach n s' t
  | movedFrom {s t s' o} : MemReach n s t → s.move = some (s', o) → MemReach n o []
  | assignCopy {s u other t s'} : MemReach n s u → MemReach n other t → s.capacity ≤ other.capacity →
      s.assignCopy other = some s' → MemReach n s' t
  | assignMove {s u other t s' o} : MemReach n s u → MemReach n other t →
      (other.vec.ext.isSome ∨ s.vec.ext = none) → s.assignMove other = some (s', o) → MemReach n s' t
  | assignMovedFrom {s u other t s' o} : MemReach n s u → MemReach n other t →
      (other.vec.ext.isSome ∨ s.vec.ext = none) → s.assignMove other = some (s', o) → MemReach n o []

theorem MemReach.rep {n : Nat} {s : MemBuf} {t : Str} (h : MemReach n s t) : MemBuf.Rep n s t := by
  induction h with
  | new h =>
    obtain ⟨s', a', h', hr⟩ := MemBuf.rep_new n ‹_›
    rw [h'] at h; cases h; exact hr
  | use _ hs ih =>
    obtain ⟨s2, t2, h2, hr2⟩ := client_step_rep (MemBuf.lawful n) (fun _ _ h => h) memReset
      (fun s t h => by obtain ⟨s', h1, h2⟩ := memReset_rep n s t h; exact ⟨s', _, h1, h2⟩) _ _ _ ih
    rw [h2] at hs; cases hs; exact hr2
  | copy _ hs ih =>
    obtain ⟨s2, h2, hr2⟩ := MemBuf.rep_copy n _ _ ih
    rw [h2] at hs; cases hs; exact hr2
  | moved _ hs ih =>
    obtain ⟨s2, o2, h2, hr2, _⟩ := MemBuf.rep_move n _ _ ih
    rw [h2] at hs; cases hs; exact hr2
  | movedFrom _ hs ih =>
    obtain ⟨s2, o2, h2, _, hr2⟩ := MemBuf.rep_move n _ _ ih
    rw [h2] at hs; cases hs; exact hr2
  | assignCopy _ _ hc hs ih1 ih2 =>
    obtain ⟨s2, h2, hr2⟩ := MemBuf.rep_assignCopy n _ _ _ _ ih1 ih2 hc
    rw [h2] at hs; cases hs; exact hr2
  | assignMove _ _ hc hs ih1 ih2 =>
    obtain ⟨s2, o2, h2, hr2, _⟩ := MemBuf.rep_assignMove n _ _ _ _ ih1 ih2 hc
    rw [h2] at hs; cases hs; exact hr2
  | assignMovedFrom _ _ hc hs ih1 ih2 =>
    obtain ⟨s2, o2, h2, _, hr2⟩ := MemBuf.rep_assignMove n _ _ _ _ ih1 ih2 hc
    rw [h2] at hs; cases hs; exact hr2

/-- C12: construction succeeds for every capacity, and every client history gets every character it asked for: all
requests succeed, all writes are in bounds, and the view is everything written since the last reset. -/
theorem C12_memory_buffer (n cap : Nat) : ∃ s0 a, MemBuf.new n cap = .ok s0 a ∧ ∀ ops : List ClientOp,
    ∃ s, client memReset ops (s0, []) = some (s, clientText true ops []) ∧ s.view = clientText true ops [] := by
  obtain ⟨s0, a, h0, hr0⟩ := MemBuf.rep_new n cap
  refine ⟨s0, a, h0, fun ops => ?_⟩
  obtain ⟨s, h1, h2⟩ := client_all (MemBuf.lawful n) (MemBuf.accepts n) true memReset (memReset_rep n) ops s0 [] hr0
  exact ⟨s, h1, h2.2.2.2.2.2.2.2⟩

example : ((MemBuf.new 4 0).state?.bind fun s =>
    (client memReset [.exact "abc".toList, .special, .exact "defgh".toList, .upTo "ijklmnop".toList] (s, [])).map
      fun p => (p.1.view, p.2)) = some ("defghijklmnop".toList, "defghijklmnop".toList) := by decide +kernel

/-- C12 for copied, moved and assigned buffers as well: a request always succeeds, and its area are the `k` characters
behind the text. -/
theorem C12_memory_buffer_request (n : Nat) (s : MemBuf) (t : Str) (h : MemReach n s t) (k : Nat) :
    s.view = t ∧ ∃ s', getWriteAreaOf k s = .ok s' ⟨t.length, k⟩ ∧ t.length + k ≤ s'.capacity := by
  have hrep := h.rep
  have htl : t.length = s.used + s.base.used := by
    rw [← hrep.2.2.2.2.2.2.2]
    have hcl : s.vec.data.length = s.vec.capacity := rfl
    have := hrep.2.2.1
    have := hrep.2.2.2.1
    simp; omega
  refine ⟨hrep.2.2.2.2.2.2.2, ?_⟩
  have hb : BufferImpl.base s = s.base := rfl
  unfold getWriteAreaOf
  by_cases hk : k ≤ (BufferImpl.base s).len - (BufferImpl.base s).used
  · refine ⟨_, by rw [max_here hk]; simp only; rw [if_neg (Nat.lt_irrefl _), hb, hrep.2.1, htl], ?_⟩
    have := hrep.2.2.1
    have := hrep.2.2.2.1
    rw [hb] at hk
    show t.length + k ≤ s.vec.capacity
    omega
  · obtain ⟨s', hr, hr', hu, hl, hus⟩ := MemBuf.request_rep n s t k hrep (by omega)
    have : request (BufferImpl.base s).used k s = MemBuf.requestArea s.base.used k s := rfl
    refine ⟨_, by rw [max_request hrep.1 (by omega), this, hr]; simp only; rw [if_neg (Nat.lt_irrefl _), htl], ?_⟩
    have := hr'.2.2.2.1
    show t.length + k ≤ s'.vec.capacity
    omega

/-- C13, copy construction: works for every buffer; the copy has the same content (and, being reachable, keeps C12). -/
theorem C13_copy_construct (n : Nat) (s : MemBuf) (t : Str) (h : MemReach n s t) :
    ∃ s', s.copy = some s' ∧ s'.view = t ∧ MemReach n s' t := by
  obtain ⟨s', hs', hr⟩ := MemBuf.rep_copy n s t h.rep
  exact ⟨s', hs', hr.2.2.2.2.2.2.2, .copy h hs'⟩

/-- C13, move construction: the content goes over, the moved-from buffer is empty and usable. -/
theorem C13_move_construct (n : Nat) (s : MemBuf) (t : Str) (h : MemReach n s t) :
    ∃ s' o, s.move = some (s', o) ∧ s'.view = t ∧ o.view = [] ∧ MemReach n s' t ∧ MemReach n o [] := by
  obtain ⟨s', o, hs', hr, hro⟩ := MemBuf.rep_move n s t h.rep
  exact ⟨s', o, hs', hr.2.2.2.2.2.2.2, hro.2.2.2.2.2.2.2, .moved h hs', .movedFrom h hs'⟩

/-- The full claim of C13 for copy assignment. -/
def CopyAssignCorrect : Prop :=
  ∀ (n : Nat) (s other : MemBuf) (u t : Str), MemReach n s u → MemReach n other t →
    ∃ s', s.assignCopy other = some s' ∧ ∀ ops : List ClientOp, ∃ s'',
      client memReset ops (s', t) = some (s'', clientText true ops t) ∧ s''.view = clientText true ops t

/-- C13, copy assignment, proved for targets that have not grown beyond the source.
Missing: larger targets, for which it is false (next theorem). -/
theorem C13_copy_assign_partial (n : Nat) (s other : MemBuf) (u t : Str) (hs : MemReach n s u)
    (ho : MemReach n other t) (hcap : s.capacity ≤ other.capacity) :
    ∃ s', s.assignCopy other = some s' ∧ ∀ ops : List ClientOp, ∃ s'',
      client memReset ops (s', t) = some (s'', clientText true ops t) ∧ s''.view = clientText true ops t := by
  obtain ⟨s', hs', hr⟩ := MemBuf.rep_assignCopy n s other u t hs.rep ho.rep hcap
  refine ⟨s', hs', fun ops => ?_⟩
  obtain ⟨s2, h1, h2⟩ := client_all (MemBuf.lawful n) (MemBuf.accepts n) true memReset (memReset_rep n) ops s' t hr
  exact ⟨s2, h1, h2.2.2.2.2.2.2.2⟩

/-- C13 is violated by copy assignment to a target that has grown: the write area reaches to the capacity of the target
while its vector has the size of the source; the next growth reallocates too little. -/
theorem C13_copy_assign_violated : ¬ CopyAssignCorrect := by
  intro h
  obtain ⟨s1, a1, h1, _⟩ := MemBuf.rep_new 4 10
  obtain ⟨s2, a2, h2, _⟩ := MemBuf.rep_new 4 0
  obtain ⟨s', hs', hops⟩ := h 4 s1 s2 [] [] (.new h1) (.new h2)
  obtain ⟨s'', hc, _⟩ := hops [.exact "0123456789".toList, .exact "abc".toList]
  have e1 : (MemBuf.new 4 10).state? = some s1 := by rw [h1]; rfl
  have e2 : (MemBuf.new 4 0).state? = some s2 := by rw [h2]; rfl
  have key : ((MemBuf.new 4 10).state?.bind fun a => (MemBuf.new 4 0).state?.bind fun b => (a.assignCopy b).map fun c =>
      client memReset [.exact "0123456789".toList, .exact "abc".toList] (c, [])) = some none := by decide +kernel
  rw [e1, e2] at key
  simp only [Option.bind_some, hs', Option.map_some, hc] at key
  cases key

/-- The full claim of C13 for move assignment. -/
def MoveAssignCorrect : Prop :=
  ∀ (n : Nat) (s other : MemBuf) (u t : Str), MemReach n s u → MemReach n other t →
    ∃ s' o, s.assignMove other = some (s', o) ∧ s'.view = t ∧ o.view = []

/-- C13, move assignment, proved if the source has outgrown its inline storage or the target has not: the content goes
over, both buffers stay usable.  Missing: the other case, where it is undefined behaviour (next theorem). -/
theorem C13_move_assign_partial (n : Nat) (s other : MemBuf) (u t : Str) (hs : MemReach n s u)
    (ho : MemReach n other t) (hext : other.vec.ext.isSome ∨ s.vec.ext = none) :
    ∃ s' o, s.assignMove other = some (s', o) ∧ s'.view = t ∧ o.view = [] ∧ MemReach n s' t ∧ MemReach n o [] := by
  obtain ⟨s', o, hs', hr, hro⟩ := MemBuf.rep_assignMove n s other u t hs.rep ho.rep hext
  exact ⟨s', o, hs', hr.2.2.2.2.2.2.2, hro.2.2.2.2.2.2.2, .assignMove hs ho hext hs', .assignMovedFrom hs ho hext hs'⟩

/-- C13 is violated by moving a small buffer into a grown one: the freed block is written. -/
theorem C13_move_assign_violated : ¬ MoveAssignCorrect := by
  intro h
  obtain ⟨s1, a1, h1, _⟩ := MemBuf.rep_new 4 10
  obtain ⟨s2, a2, h2, _⟩ := MemBuf.rep_new 4 0
  obtain ⟨s', o, hs', _⟩ := h 4 s1 s2 [] [] (.new h1) (.new h2)
  have e1 : (MemBuf.new 4 10).state? = some s1 := by rw [h1]; rfl
  have e2 : (MemBuf.new 4 0).state? = some s2 := by rw [h2]; rfl
  have key : ((MemBuf.new 4 10).state?.bind fun a => (MemBuf.new 4 0).state?.map fun b => a.assignMove b) =
      some none := by decide +kernel
  rw [e1, e2] at key
  simp only [Option.bind_some, Option.map_some, hs'] at key
  cases key

/-! ## C14: iterator_buffer -/

/-- `flush()` of an iterator buffer. -/
def iterFlush : IterBuf × Str → Option (IterBuf × Str) := fun p => some (p.1.flush, p.2)

theorem iterFlush_rep (c : Nat) (s : IterBuf) (t : Str) (h : (IterBuf.lawful c).Rep s t) :
    ∃ s' t', iterFlush (s, t) = some (s', t') ∧ (IterBuf.lawful c).Rep s' t' :=
  ⟨_, _, rfl, (IterBuf.rep_flush h).1⟩

/-- C14: for every cache of at least one character and every client history, after a flush the output iterator has
received exactly the characters written, in order. -/
theorem C14_iterator_buffer (cache : Str) (hc : cache ≠ []) (ops : List ClientOp) :
    ∃ s t, client iterFlush ops (IterBuf.new cache, []) = some (s, t) ∧ s.flush.out = t ∧ s.out <+: t := by
  obtain ⟨s, t, h1, h2⟩ := client_rep (IterBuf.lawful cache.length) (fun _ _ h => h) iterFlush
    (iterFlush_rep cache.length) ops _ _ (IterBuf.rep_new cache hc)
  refine ⟨s, t, h1, (IterBuf.rep_flush h2).2.2, ?_⟩
  rw [← h2.2.2.2.2.2.2]; exact List.prefix_append _ _

/-- C14: no request fails, except for more contiguous characters than the cache has; and a request for any number of
characters makes progress. -/
theorem C14_iterator_buffer_request (cache : Str) (hc : cache ≠ []) (ops : List ClientOp) (s : IterBuf) (t : Str)
    (h : client iterFlush ops (IterBuf.new cache, []) = some (s, t)) (n : Nat) :
    (∃ s' a, getWriteAreaOfMax n s = .ok s' a ∧ a.len ≤ n ∧ (0 < n → 0 < a.len)) ∧
    (n ≤ cache.length → ∃ s' a, getWriteAreaOf n s = .ok s' a ∧ a.len = n) := by
  have hrep := client_reach (IterBuf.lawful cache.length) (fun _ _ h => h) iterFlush
    (iterFlush_rep cache.length) (IterBuf.rep_new cache hc) h
  constructor
  · obtain ⟨s', a, hm, _⟩ := IterBuf.accepts cache.length s t n hrep trivial
    obtain ⟨h1, h2, _⟩ := (IterBuf.lawful cache.length).max_ok hrep hm
    exact ⟨s', a, hm, h1, h2⟩
  · intro hn
    obtain ⟨s', a, hm⟩ := (IterBuf.accepts cache.length).of_ok hrep hn trivial
    exact ⟨s', a, hm, ((IterBuf.lawful cache.length).of_ok hrep hm).1⟩

example : (client iterFlush [.upTo "abcdef".toList, .exact "gh".toList, .special, .upTo "ij".toList]
    (IterBuf.new "...".toList, [])).map (fun p => (p.1.flush.out, p.2)) = some ("abcghij".toList, "abcghij".toList) := by
  decide +kernel

/-- C14 for plain output pointers: everything is written behind the initial pointer, as long as the total is at most
2^64 - 1 characters. -/
theorem C14_output_pointer (mem : Nat → Char) (ops : List ClientOp) :
    ∃ s t, client (fun p => some p) ops (PtrBuf.new mem, []) = some (s, t) ∧ s.view = t ∧ s.out = t.length := by
  obtain ⟨s, t, h1, h2⟩ := client_rep PtrBuf.lawful (fun _ _ h => h) (fun p => some p)
    (fun s t h => ⟨s, t, rfl, h⟩) ops _ _ (PtrBuf.rep_new mem)
  exact ⟨s, t, h1, h2.2.2.2.2, (PtrBuf.rep_length h2).symm⟩

/-! ## C15: back_insert_iterator buffer -/

/-- `flush()`. -/
def backFlush : BackBuf × Str → Option (BackBuf × Str) := fun p => some (p.1.flush, p.2)

/-- The full property C15: for any container, after a flush its content is the previous content followed by everything
written, and no area reaches outside the container. -/
def BackInsertCorrect : Prop :=
  ∀ (capacity : Nat) (chars : Str) (cap : Nat), chars.length ≤ cap →
    ∃ s0 a, BackBuf.new capacity chars cap = .ok s0 a ∧ ∀ ops : List ClientOp, ClientOp.special ∉ ops →
      ∃ s t, client backFlush ops (s0, []) = some (s, t) ∧ s.flush.chars = chars ++ t

/-- C15 is violated: a write area reaches behind the end of the container (empty string with a capacity of 15). -/
theorem C15_back_insert_out_of_bounds_violated : ¬ BackInsertCorrect := by
  intro h
  obtain ⟨s0, a, h0, hops⟩ := h 128 [] 15 (by decide)
  obtain ⟨s, t, hc, _⟩ := hops
    [.exact (List.replicate 15 'a'), .exact (List.replicate 10 'b'), .exact (List.replicate 15 'c')] (by decide)
  have e0 : (BackBuf.new 128 [] 15).state? = some s0 := by rw [h0]; rfl
  have key : ((BackBuf.new 128 [] 15).state?.map fun b => client backFlush
      [.exact (List.replicate 15 'a'), .exact (List.replicate 10 'b'), .exact (List.replicate 15 'c')] (b, [])) =
      some none := by decide +kernel
  rw [e0] at key
  simp only [Option.map_some, hc] at key
  cases key

/-- C15 is violated a second way: the previous content of the container is overwritten. -/
theorem C15_back_insert_overwrites_violated :
    ∃ s0 a s, BackBuf.new 128 "abc".toList 15 = .ok s0 a ∧
      client backFlush [.exact "12".toList] (s0, []) = some (s, "12".toList) ∧ s.flush.chars = "12".toList := by
  have key : ((BackBuf.new 128 "abc".toList 15).state?.map fun b =>
      (client backFlush [.exact "12".toList] (b, [])).map fun p => (p.2, p.1.flush.chars)) =
      some (some ("12".toList, "12".toList)) := by decide +kernel
  cases h0 : BackBuf.new 128 "abc".toList 15 with
  | ok s0 a =>
    rw [h0] at key
    simp only [Run.state?, Option.map_some, Option.some.injEq] at key
    cases h1 : client backFlush [.exact "12".toList] (s0, []) with
    | none => rw [h1] at key; cases key
    | some p =>
      obtain ⟨s, t⟩ := p
      rw [h1] at key
      simp only [Option.map_some, Option.some.injEq, Prod.mk.injEq] at key
      exact ⟨s0, a, s, rfl, by rw [key.1] at h1; exact h1, key.2⟩
  | err s0 e => simp [BackBuf.new, BackBuf.requestArea] at h0
  | bad b => simp [BackBuf.new, BackBuf.requestArea] at h0

/-- Number of characters a client asks for. -/
def requested : List ClientOp → Nat
  | [] => 0
  | .exact d :: ops => d.length + requested ops
  | .upTo d :: ops => d.length + requested ops
  | .special :: ops => requested ops

/-- State of a back-insert buffer over an empty container that has grown to `k` characters and received `t`. -/
def BackBuf.Rep (k : Nat) (s : BackBuf) (t : Str) : Prop :=
  s.used = 0 ∧ s.base.off = 0 ∧ s.base.len = k ∧ s.chars.length = k ∧ s.base.used ≤ k ∧ s.chars.take s.base.used = t

theorem BackBuf.rep_max {k : Nat} {s : BackBuf} {t : Str} (h : BackBuf.Rep k s t) (d : Str)
    (hd : t.length + d.length ≤ k) :
    ∃ s' s'' a, getWriteAreaOfMax d.length s = .ok s' a ∧ a.len = d.length ∧ store s' a.off d = some s'' ∧
      BackBuf.Rep k s'' (t ++ d) := by
  obtain ⟨h1, h2, h3, h4, h5, h6⟩ := h
  have htl := length_of_take_eq h6 (by omega)
  obtain ⟨m, hm, hl, ht, _, _⟩ := overwrite_some (mem := s.chars) (i := s.base.used) (d := d) (by omega)
  have hb : BufferImpl.base s = s.base := rfl
  refine ⟨_, { s with base := { s.base with used := s.base.used + d.length }, chars := m }, _,
    max_here (by rw [hb]; omega), rfl, ?_, ?_⟩
  · simp only [BufferImpl.store, BufferImpl.setBase, BufferImpl.base, h2, Nat.zero_add, hm]
    rfl
  · exact ⟨h1, h2, h3, by simp only; omega, by simp only; omega, by simp only; rw [ht, h6]⟩

theorem BackBuf.rep_new (capacity cap : Nat) (s0 : BackBuf) (a : Area) (h : BackBuf.new capacity [] cap = .ok s0 a) :
    BackBuf.Rep (min cap capacity) s0 [] := by
  cases h
  exact ⟨rfl, rfl, by simp [Base.setWriteArea], by simp [BackBuf.resize, uninit],
    by simp [Base.setWriteArea], by simp [Base.setWriteArea]⟩

/-- C15, proved for what it can do: starting with an empty container, and for no more characters than the container
offered from the start (the smaller of its capacity and the template parameter), everything is appended.
Missing: containers with content and texts that make the container grow, where it is false (theorems above). -/
theorem C15_back_insert_partial (capacity cap : Nat) : ∃ s0 a, BackBuf.new capacity [] cap = .ok s0 a ∧
    ∀ ops : List ClientOp, ClientOp.special ∉ ops → requested ops ≤ min cap capacity →
      ∃ s, client backFlush ops (s0, []) = some (s, clientText false ops []) ∧
        s.flush.chars = clientText false ops [] := by
  refine ⟨_, _, rfl, fun ops hns hreq => ?_⟩
  have hgo : ∀ (ops : List ClientOp) (s : BackBuf) (t : Str), ClientOp.special ∉ ops →
      BackBuf.Rep (min cap capacity) s t → t.length + requested ops ≤ min cap capacity →
      ∃ s', client backFlush ops (s, t) = some (s', clientText false ops t) ∧
        BackBuf.Rep (min cap capacity) s' (clientText false ops t) := by
    intro ops
    induction ops with
    | nil => intro s t _ h _; exact ⟨s, rfl, h⟩
    | cons op ops ih =>
      intro s t hns h hle
      have hns' : ClientOp.special ∉ ops := fun h => hns (by simp [h])
      cases op with
      | exact d =>
        simp only [requested] at hle
        obtain ⟨s1, s2, a, hm, hl, hst, hr⟩ := BackBuf.rep_max h d (by omega)
        obtain ⟨s3, h3, hr3⟩ := ih s2 _ hns' hr (by simp; omega)
        refine ⟨s3, ?_, hr3⟩
        have hof : getWriteAreaOf d.length s = .ok s1 a := by
          unfold getWriteAreaOf; rw [hm]; simp only; rw [if_neg (by omega)]
        rw [client, ClientOp.step]
        simp only [hof, if_pos hl, hst, Option.map_some, Option.bind_some]
        exact h3
      | upTo d =>
        simp only [requested] at hle
        obtain ⟨s1, s2, a, hm, hl, hst, hr⟩ := BackBuf.rep_max h d (by omega)
        obtain ⟨s3, h3, hr3⟩ := ih s2 _ hns' hr (by simp; omega)
        refine ⟨s3, ?_, hr3⟩
        have htk : d.take a.len = d := List.take_of_length_le (by omega)
        rw [client, ClientOp.step]
        simp only [hm, htk, hst, Option.map_some, if_pos (show a.len ≤ d.length by omega), Option.bind_some]
        exact h3
      | special => exact absurd (by simp) hns
  obtain ⟨s, h1, h2⟩ := hgo ops _ [] hns (BackBuf.rep_new capacity cap _ _ rfl) (by simpa using hreq)
  refine ⟨s, h1, ?_⟩
  obtain ⟨k1, k2, k3, k4, k5, k6⟩ := h2
  simp only [BackBuf.flush, BackBuf.resize, k1, Nat.zero_add, k6]
  rw [show s.base.used - s.chars.length = 0 by omega]
  simp [uninit]

example : requested [.exact "abc".toList, .upTo "defg".toList] ≤ min 15 128 := by decide

/-! ## C16: file_buffer -/

/-- `flush()` of a file buffer; an error is noticed and the client goes on. -/
def fileFlush : FileBuf × Str → Option (FileBuf × Str) := fun p => (FileBuf.flush p.1).state?.map (·, p.2)

theorem fileFlush_rep (c : Nat) (s : FileBuf) (t : Str) (h : (FileBuf.lawfulOk c).Rep s t) :
    ∃ s' t', fileFlush (s, t) = some (s', t') ∧ (FileBuf.lawfulOk c).Rep s' t' := by
  rcases FileBuf.rep_flush h with ⟨s', hf, hrep, _⟩ | ⟨s', hf, hp, hio⟩
  · exact ⟨s', t, by simp [fileFlush, hf, Run.state?], hrep⟩
  · exact absurd (h.2.2.2.2.2.2.1 rfl) hio

/-- C16: if the stream accepts everything, then for every client history, after a flush the file has received exactly
the characters written, in order. -/
theorem C16_file_buffer (cache : Str) (hc : cache ≠ []) (ops : List ClientOp) :
    ∃ s t s', client fileFlush ops (FileBuf.new cache [], []) = some (s, t) ∧ FileBuf.flush s = .ok s' () ∧
      s'.file = t := by
  obtain ⟨s, t, h1, h2⟩ := client_rep (FileBuf.lawfulOk cache.length) (fun _ _ h => h) fileFlush
    (fileFlush_rep cache.length) ops _ _ (FileBuf.rep_new cache [] true hc (fun _ => rfl))
  rcases FileBuf.rep_flush h2 with ⟨s', hf, hrep, hfile, _⟩ | ⟨s', hf, hp, hio⟩
  · exact ⟨s, t, s', h1, hf, hfile⟩
  · exact absurd (h2.2.2.2.2.2.2.1 rfl) hio

example : ((client fileFlush [.upTo "abcdef".toList, .exact "gh".toList, .special, .upTo "ij".toList]
    (FileBuf.new "...".toList [], [])).bind fun p => (FileBuf.flush p.1).state?.map fun s => (s.file, p.2)) =
    some ("abcghij".toList, "abcghij".toList) := by decide +kernel

/-- A client that stops at the first error of any request or flush: `some (s, t, false)` after an error. -/
def fileClient : List ClientOp → FileBuf × Str → Option (FileBuf × Str × Bool)
  | [], (s, t) => some (s, t, true)
  | .exact d :: ops, (s, t) =>
    match getWriteAreaOf d.length s with
    | .ok s' a => if a.len = d.length then (store s' a.off d).bind fun s'' => fileClient ops (s'', t ++ d) else none
    | .err s' _ => some (s', t, false)
    | .bad _ => none
  | .upTo d :: ops, (s, t) =>
    match getWriteAreaOfMax d.length s with
    | .ok s' a => (store s' a.off (d.take a.len)).bind fun s'' => fileClient ops (s'', t ++ d.take a.len)
    | .err s' _ => some (s', t, false)
    | .bad _ => none
  | .special :: ops, (s, t) =>
    match FileBuf.flush s with
    | .ok s' _ => fileClient ops (s', t)
    | .err s' _ => some (s', t, false)
    | .bad _ => none

/-- C16 for any stream, i.e. with short writes at arbitrary places: until the first error is reported the file holds a
prefix of what was written, also at that moment.  Missing (and false, see below): flushing again after an error. -/
theorem C16_short_write_partial (cache : Str) (hc : cache ≠ []) (io : List Nat) (ops : List ClientOp) :
    ∃ s t good, fileClient ops (FileBuf.new cache io, []) = some (s, t, good) ∧ s.file <+: t := by
  have hgo : ∀ (ops : List ClientOp) (s : FileBuf) (t : Str), FileBuf.Rep cache.length false s t →
      ∃ s' t' good, fileClient ops (s, t) = some (s', t', good) ∧ s'.file <+: t' := by
    intro ops
    induction ops with
    | nil => intro s t h; exact ⟨s, t, true, rfl, (FileBuf.lawful cache.length false).rep_fail s t h⟩
    | cons op ops ih =>
      intro s t h
      let L := FileBuf.lawful cache.length false
      cases op with
      | exact d =>
        rw [fileClient]
        cases hm : getWriteAreaOf d.length s with
        | ok s' a =>
          obtain ⟨hl, hst⟩ := L.of_ok h hm
          obtain ⟨s2, h2, hr⟩ := hst d rfl
          simp only [if_pos hl, h2, Option.bind_some]
          exact ih s2 _ hr
        | err s' e => exact ⟨s', t, false, rfl, (L.of_err h hm).2⟩
        | bad b => exact (L.of_bad h hm).elim
      | upTo d =>
        rw [fileClient]
        cases hm : getWriteAreaOfMax d.length s with
        | ok s' a =>
          obtain ⟨hl, _, hst, _⟩ := L.max_ok h hm
          obtain ⟨s2, h2, hr⟩ := hst (d.take a.len) (by simp; omega)
          simp only [h2, Option.bind_some]
          exact ih s2 _ hr
        | err s' e => exact ⟨s', t, false, rfl, (L.max_err h hm).2⟩
        | bad b => exact (L.max_bad h hm).elim
      | special =>
        rw [fileClient]
        rcases FileBuf.rep_flush h with ⟨s', hf, hrep, _⟩ | ⟨s', hf, hp, _⟩
        · rw [hf]; exact ih s' t hrep
        · rw [hf]; exact ⟨s', t, false, rfl, hp⟩
  exact hgo ops _ _ (FileBuf.rep_new cache io false hc (fun h => by cases h))

example : (fileClient [.exact "ab".toList, .special] (FileBuf.new "...".toList [1], [])).map
    (fun p => (p.1.file, p.2)) = some ("a".toList, "ab".toList, false) := by decide +kernel

/-- C16: a short write is reported as end-of-file. -/
theorem C16_short_write_is_reported (s : FileBuf) (k : Nat) (rest : List Nat) (hio : s.io = k :: rest)
    (hk : k < s.base.used) : ∃ s', FileBuf.flush s = .err s' .eof := by
  unfold FileBuf.flush
  simp only [hio]
  rw [if_pos (by omega)]
  exact ⟨_, rfl⟩

/-- The claim that flushing again after a short write completes the output without repeating anything. -/
def RetryFlushCorrect : Prop :=
  ∀ (cache : Str) (d : Str) (k : Nat), d.length ≤ cache.length → k < d.length → ∀ s t,
    client fileFlush [.exact d, .special, .special] (FileBuf.new cache [k], []) = some (s, t) → s.file = t

/-- C16 is violated by flushing again: the characters of the short write are delivered twice. -/
theorem C16_retry_flush_violated : ¬ RetryFlushCorrect := by
  intro h
  have hsome : (client fileFlush [.exact "ab".toList, .special, .special] (FileBuf.new "...".toList [1], [])).map
      (fun p => (p.1.file, p.2)) = some ("aab".toList, "ab".toList) := by decide +kernel
  cases hc : client fileFlush [.exact "ab".toList, .special, .special] (FileBuf.new "...".toList [1], []) with
  | none => rw [hc] at hsome; cases hsome
  | some p =>
    obtain ⟨s, t⟩ := p
    have := h "...".toList "ab".toList 1 (by decide) (by decide) s t hc
    rw [hc] at hsome
    simp only [Option.map_some, Option.some.injEq, Prod.mk.injEq] at hsome
    rw [hsome.1, hsome.2] at this
    exact absurd this (by decide)

/-! ## C17: counting_buffer -/

/-- C17: the count is the exact number of characters written, after every client history. -/
theorem C17_counting_buffer (cache : Str) (hc : cache ≠ []) (ops : List ClientOp) :
    ∃ s t, client (fun p => some p) ops (CountBuf.new cache, []) = some (s, t) ∧ s.count = t.length := by
  obtain ⟨s, t, h1, h2⟩ := client_rep (CountBuf.lawful cache.length) (fun _ _ h => h) (fun p => some p)
    (fun s t h => ⟨s, t, rfl, h⟩) ops _ _ (CountBuf.rep_new cache hc)
  exact ⟨s, t, h1, h2.2.2.2.2.2.2⟩

example : (client (fun p => some p) [.upTo "abcdef".toList, .exact "gh".toList, .upTo "ij".toList]
    (CountBuf.new "...".toList, [])).map (fun p => (p.1.count, p.2)) = some (7, "abcghij".toList) := by
  decide +kernel

/-! ## C18: truncating_buffer -/

/-- `flush()` of a truncating buffer. -/
def truncFlush {π : Type} [BufferImpl π] : TruncBuf π × Str → Option (TruncBuf π × Str) :=
  fun p => (TruncBuf.flush p.1).state?.map (·, p.2)

/-- Common part of C18: over a primary buffer that takes the first `limit` characters. -/
theorem truncating_client {π : Type} [BufferImpl π] (L : Lawful π) (cache : Str) (hc : cache ≠ []) (prim : π) (p0 : Str)
    (hp : L.Rep prim p0) (limit : Nat) (hU : Unsplit L cache.length) (hT : Takes L limit p0) (ops : List ClientOp) :
    ∃ s t s', client truncFlush ops (TruncBuf.new cache prim limit, []) = some (s, t) ∧ s.count = t.length ∧
      TruncBuf.flush s = .ok s' () ∧ s'.count = t.length ∧ L.Rep s'.prim (p0 ++ t.take limit) := by
  obtain ⟨s, t, h1, h2⟩ := client_rep (TruncBuf.lawfulOk L cache.length limit p0 hU hT) (fun _ _ h => h) truncFlush
    (fun s t h => by
      obtain ⟨s', hf, hr, _⟩ := TruncBuf.flush_ok hU hT h
      exact ⟨s', t, by simp [truncFlush, hf, Run.state?], hr⟩) ops _ _ (TruncBuf.rep_new L cache prim limit p0 hc hp)
  obtain ⟨s', hf, hr, hpr, hcnt⟩ := TruncBuf.flush_ok hU hT h2
  exact ⟨s, t, s', h1, TruncBuf.rep_count h2, hf, hcnt, hpr⟩

/-- C18 over a memory buffer that already holds `p0`: after a flush it has received exactly the first `limit` characters
and the count is the number of all characters. -/
theorem C18_truncating_memory_buffer (cache : Str) (hc : cache ≠ []) (n : Nat) (prim : MemBuf) (p0 : Str)
    (hp : MemReach n prim p0) (limit : Nat) (ops : List ClientOp) :
    ∃ s t s', client truncFlush ops (TruncBuf.new cache prim limit, []) = some (s, t) ∧ s.count = t.length ∧
      TruncBuf.flush s = .ok s' () ∧ s'.count = t.length ∧ s'.prim.view = p0 ++ t.take limit := by
  obtain ⟨s, t, s', h1, h2, h3, h4, h5⟩ := truncating_client (MemBuf.lawful n) cache hc prim p0 hp.rep limit
    ((MemBuf.accepts n).unsplit trivial) ((MemBuf.accepts n).takes trivial) ops
  exact ⟨s, t, s', h1, h2, h3, h4, h5.2.2.2.2.2.2.2⟩

/-- C18 over an empty span buffer with room for `limit` characters. -/
theorem C18_truncating_span_buffer (cache : Str) (hc : cache ≠ []) (mem : Str) (limit : Nat)
    (hl : limit ≤ mem.length) (ops : List ClientOp) :
    ∃ s t s', client truncFlush ops (TruncBuf.new cache (SpanBuf.new mem) limit, []) = some (s, t) ∧
      s.count = t.length ∧ TruncBuf.flush s = .ok s' () ∧ s'.count = t.length ∧ s'.prim.view = t.take limit := by
  obtain ⟨s, t, s', h1, h2, h3, h4, h5⟩ := truncating_client (SpanBuf.lawful mem.length) cache hc (SpanBuf.new mem) []
    (SpanBuf.rep_new mem) limit (SpanBuf.unsplit _ _) ((SpanBuf.accepts _).takes (by simpa [leLimit] using hl)) ops
  exact ⟨s, t, s', h1, h2, h3, h4, by simpa [SpanBuf.view] using h5.2.2.2.2.2⟩

/-- C18 over an iterator buffer whose cache is at least as large as the one of the truncating buffer (the library uses
the same size for both): after flushing both, the iterator has received exactly the first `limit` characters. -/
theorem C18_truncating_iterator_buffer (cache cache' : Str) (hc : cache ≠ []) (hcc : cache.length ≤ cache'.length)
    (limit : Nat) (ops : List ClientOp) :
    ∃ s t s', client truncFlush ops (TruncBuf.new cache (IterBuf.new cache') limit, []) = some (s, t) ∧
      s.count = t.length ∧ TruncBuf.flush s = .ok s' () ∧ s'.count = t.length ∧ s'.prim.flush.out = t.take limit := by
  have hc' : cache' ≠ [] := by
    intro h; rw [h] at hcc; simp at hcc; exact hc hcc
  obtain ⟨s, t, s', h1, h2, h3, h4, h5⟩ := truncating_client (IterBuf.lawful cache'.length) cache hc
    (IterBuf.new cache') [] (IterBuf.rep_new cache' hc') limit ((IterBuf.accepts _).unsplit hcc)
    ((IterBuf.accepts _).takes trivial) ops
  exact ⟨s, t, s', h1, h2, h3, h4, by simpa using (IterBuf.rep_flush h5).2.2⟩

/-- C18 over an output pointer. -/
theorem C18_truncating_output_pointer (cache : Str) (hc : cache ≠ []) (mem : Nat → Char)
    (limit : Nat) (hl : limit ≤ 2 ^ 64 - 1) (ops : List ClientOp) :
    ∃ s t s', client truncFlush ops (TruncBuf.new cache (PtrBuf.new mem) limit, []) = some (s, t) ∧
      s.count = t.length ∧ TruncBuf.flush s = .ok s' () ∧ s'.count = t.length ∧ s'.prim.view = t.take limit := by
  obtain ⟨s, t, s', h1, h2, h3, h4, h5⟩ := truncating_client PtrBuf.lawful cache hc
    (PtrBuf.new mem) [] (PtrBuf.rep_new mem) limit (PtrBuf.unsplit _)
    (PtrBuf.accepts.takes (by simpa [leLimit] using hl)) ops
  exact ⟨s, t, s', h1, h2, h3, h4, by simpa using h5.2.2.2.2⟩

example : ((client truncFlush [.upTo "abcdef".toList, .exact "gh".toList, .special, .upTo "ij".toList]
    (TruncBuf.new "...".toList (SpanBuf.new "------".toList) 6, [])).bind fun p => (TruncBuf.flush p.1).state?.map
      fun s => (s.prim.view, s.count, p.2)) = some ("abcghi".toList, 7, "abcghij".toList) := by decide +kernel

/-- The full property C18 for any combination of caches. -/
def TruncatingCorrect : Prop :=
  ∀ (cache cache' : Str) (limit : Nat) (ops : List ClientOp) (s s' : TruncBuf IterBuf) (t : Str), cache ≠ [] →
    cache' ≠ [] → client truncFlush ops (TruncBuf.new cache (IterBuf.new cache') limit, []) = some (s, t) →
    TruncBuf.flush s = .ok s' () → s'.prim.flush.out = t.take limit

/-- C18 is violated if the primary buffer hands out smaller pieces than the cache: every piece is copied from the
beginning of the cache. -/
theorem C18_small_primary_cache_violated : ¬ TruncatingCorrect := by
  intro h
  have key : ((client truncFlush [.exact "abcd".toList] (TruncBuf.new "....".toList (IterBuf.new "--".toList) 4, [])).bind
      fun p => (TruncBuf.flush p.1).state?.map fun s => (s.prim.flush.out, p.2)) =
      some ("abab".toList, "abcd".toList) := by decide +kernel
  cases hc : client truncFlush [.exact "abcd".toList] (TruncBuf.new "....".toList (IterBuf.new "--".toList) 4, []) with
  | none => rw [hc] at key; cases key
  | some p =>
    obtain ⟨s, t⟩ := p
    rw [hc] at key
    simp only [Option.bind_some] at key
    cases hf : TruncBuf.flush s with
    | ok s' u =>
      have := h "....".toList "--".toList 4 _ s s' t (by decide) (by decide) hc hf
      rw [hf] at key
      simp only [Run.state?, Option.map_some, Option.some.injEq, Prod.mk.injEq] at key
      rw [key.1, key.2] at this
      exact absurd this (by decide)
    | err s' e =>
      have hne : ((client truncFlush [.exact "abcd".toList]
        (TruncBuf.new "....".toList (IterBuf.new "--".toList) 4, [])).map
          fun p => (TruncBuf.flush p.1).err?) = some none := by decide +kernel
      rw [hc] at hne
      simp only [Option.map_some, hf, Run.err?, Option.some.injEq] at hne
      cases hne
    | bad b => rw [hf] at key; cases key

end Emio
