import Verif.Spec.Stream
import Verif.Props.Buffer
/-
Property C16: exactly what a stream receives from a `file_buffer`, with short writes at arbitrary places and a client that
goes on after errors.
-/
namespace Emio
open Spec BufferImpl

/-- The buffer is what the specification says. -/
structure FileBuf.Shows (c : Nat) (s : FileBuf) (st : Stream) : Prop where
  fixed : s.base.fixed = false
  off : s.base.off = 0
  len : s.base.len = c
  size : s.cache.length = c
  used : s.base.used = st.pending.length
  room : st.pending.length ≤ c
  pending : s.cache.take s.base.used = st.pending
  file : s.file = st.received
  io : s.io = st.accepts

/-- How many characters of the cache will be accepted now. -/
def FileBuf.accepted (s : FileBuf) : Nat :=
  match s.io with
  | [] => s.base.used
  | k :: _ => min k s.base.used

theorem FileBuf.flush_eq (s : FileBuf) : FileBuf.flush s =
    if s.accepted ≠ s.base.used then .err { s with file := s.file ++ s.cache.take s.accepted, io := s.io.tail } .eof
    else .ok { s with file := s.file ++ s.cache.take s.accepted, io := s.io.tail, base := s.base.setWriteArea 0 s.cache.length } () :=
  rfl

theorem FileBuf.Shows.flush {c : Nat} {s : FileBuf} {st : Stream} (h : s.Shows c st) :
    ∃ s' : FileBuf, s'.Shows c st.flush.1 ∧ FileBuf.flush s = if st.flush.2 then .ok s' () else .err s' .eof := by
  obtain ⟨h1, h2, h3, h4, h5, h6, h7, h8, h9⟩ := h
  have hk : s.accepted = st.accepted := by
    unfold Stream.accepted FileBuf.accepted
    rw [h9]
    cases st.accepts with
    | nil => exact h5
    | cons k l => simp only [h5]
  have hle : st.accepted ≤ st.pending.length := by
    unfold Stream.accepted
    split <;> omega
  have htake : s.cache.take st.accepted = st.pending.take st.accepted := by
    rw [← h7, List.take_take, h5, Nat.min_eq_left hle]
  rw [FileBuf.flush_eq, hk, htake]
  unfold Stream.flush
  by_cases he : st.accepted = st.pending.length
  · rw [if_pos he, if_neg (by omega)]
    refine ⟨_, ?_, rfl⟩
    refine ⟨h1, rfl, by simp [Base.setWriteArea, h4], h4, by simp [Base.setWriteArea], by simp, by simp [Base.setWriteArea], ?_,
      by simp [h9]⟩
    simp only [he, List.take_length, h8]
  · rw [if_neg he, if_pos (by omega)]
    refine ⟨_, ?_, rfl⟩
    exact ⟨h1, h2, h3, h4, h5, h6, h7, by simp only [h8], by simp only [h9]⟩

/-- Characters put where there is room for them. -/
theorem FileBuf.Shows.put {c : Nat} {s : FileBuf} {st : Stream} (h : s.Shows c st) {d : Str}
    (hd : st.pending.length + d.length ≤ c) :
    ∃ s', store (setBase s { s.base with used := s.base.used + d.length }) s.base.used d = some s' ∧
      s'.Shows c { st with pending := st.pending ++ d } := by
  obtain ⟨h1, h2, h3, h4, h5, h6, h7, h8, h9⟩ := h
  have ho : s.base.used + d.length ≤ s.cache.length := by omega
  have hs : store (setBase s { s.base with used := s.base.used + d.length }) s.base.used d =
      (overwrite s.cache s.base.used d).map fun m =>
        { s with base := { s.base with used := s.base.used + d.length }, cache := m } := rfl
  rw [hs]
  unfold overwrite
  rw [if_pos ho]
  refine ⟨_, rfl, ⟨h1, h2, h3, ?_, ?_, ?_, ?_, h8, h9⟩⟩
  · simp
    omega
  · simp [h5]
  · simpa using hd
  · simp only
    rw [List.append_assoc, List.take_append, h7]
    rw [← h5, List.take_of_length_le (by omega)]
    simp

theorem file_request (u n : Nat) (s : FileBuf) : request u n s =
    match FileBuf.flush s with
    | .ok s' _ => Run.ok { s' with base := s'.base.setWriteArea 0 s.cache.length } (cacheArea s.cache.length n)
    | .err s' e => .err s' e
    | .bad b => .bad b := rfl

theorem file_max {c : Nat} {s : FileBuf} {st : Stream} (h : s.Shows c st) (n : Nat) :
    getWriteAreaOfMax n s = if st.pending.length + n ≤ c then
      .ok (setBase s { s.base with used := s.base.used + n }) ⟨s.base.used, n⟩
    else match FileBuf.flush s with
      | .ok s' _ => Run.ok (setBase s' { s'.base with used := min n c }) ⟨0, min n c⟩
      | .err s' e => .err s' e
      | .bad b => .bad b := by
  have hb : base s = s.base := rfl
  unfold getWriteAreaOfMax
  simp only [hb, h.fixed, h.len, h.used, h.off, Bool.false_eq_true, or_false]
  have := h.room
  by_cases hn : st.pending.length + n ≤ c
  · rw [if_pos hn, if_pos (by omega), if_neg (by omega), Nat.min_eq_right (by omega), Nat.zero_add]
  · rw [if_neg hn, if_neg (by omega)]
    rw [file_request]
    obtain ⟨s', hs', hf⟩ := h.flush
    rw [hf]
    cases hx : st.flush.2 with
    | false => rfl
    | true =>
      simp only [if_true]
      have hp : st.flush.1.pending = [] := by
        unfold Stream.flush at hx ⊢
        split at hx
        · rename_i he; rw [if_pos he]
        · cases hx
      have hz : s'.base.used = 0 := by rw [hs'.used, hp]; rfl
      have ha : cacheArea s.cache.length n = ⟨0, min n c⟩ := by
        unfold cacheArea
        rw [h.size]
        split
        · rw [Nat.min_eq_right (by omega)]
        · rw [Nat.min_eq_left (by omega)]
      rw [ha]
      have e1 : s'.base.off = 0 := hs'.off
      have e2 : s'.base.len = c := hs'.len
      have hbs : ∀ x : FileBuf, base x = x.base := fun _ => rfl
      simp only [hbs, Base.setWriteArea, h.size, Nat.zero_add]
      congr 1
      show ({ s' with base := _ } : FileBuf) = { s' with base := _ }
      congr 1
      obtain ⟨⟨f, u, o, l⟩, _, _, _⟩ := s'
      simp only at e1 e2
      subst e1 e2
      rfl

theorem flush_pending {st : Stream} (h : st.flush.2 = true) : st.flush.1.pending = [] := by
  unfold Stream.flush at h ⊢
  split at h
  · rename_i he; rw [if_pos he]
  · cases h

/-- One action. -/
theorem file_step {c : Nat} {s : FileBuf} {st : Stream} (h : s.Shows c st) (t : Str) (op : ClientOp) :
    ∃ s', op.step fileFlush (s, t) = some (s', t ++ (st.step c op).2) ∧ s'.Shows c (st.step c op).1 := by
  obtain ⟨sf, hsf, hf⟩ := h.flush
  have hput : ∀ d : Str, d.length ≤ c → st.flush.2 = true →
      ∃ s', store (setBase sf { sf.base with used := d.length }) 0 d = some s' ∧
        s'.Shows c { st.flush.1 with pending := d } := by
    intro d hd hx
    have hp := flush_pending hx
    obtain ⟨s', g1, g2⟩ := hsf.put (d := d) (by rw [hp]; simpa using hd)
    have hz : sf.base.used = 0 := by rw [hsf.used, hp]; rfl
    rw [hz, Nat.zero_add] at g1
    rw [hp, List.nil_append] at g2
    exact ⟨s', g1, g2⟩
  cases op with
  | special =>
    show ∃ s', fileFlush (s, t) = some (s', t ++ []) ∧ s'.Shows c st.flush.1
    unfold fileFlush
    simp only [hf]
    cases st.flush.2 <;> exact ⟨sf, by simp [Run.state?], hsf⟩
  | upTo d =>
    simp only [ClientOp.step, file_max h]
    by_cases hd : st.pending.length + d.length ≤ c
    · simp only [if_pos hd, Stream.step, Nat.le_refl, if_true, List.take_length]
      obtain ⟨s', g1, g2⟩ := h.put hd
      exact ⟨s', by rw [g1]; rfl, g2⟩
    · simp only [if_neg hd, Stream.step]
      rw [hf]
      cases hx : st.flush.2 with
      | false =>
        simp only [Bool.false_eq_true, if_false, List.append_nil]
        exact ⟨sf, rfl, hsf⟩
      | true =>
        simp only [if_true]
        have hm : d.take (min d.length c) = d.take c := by rw [List.take_eq_take_iff]; omega
        obtain ⟨s', g1, g2⟩ := hput (d.take c) (by simp; omega) hx
        have hl : (d.take c).length = min d.length c := by simp; omega
        rw [hl] at g1
        rw [if_pos (by omega), hm, g1]
        exact ⟨s', rfl, g2⟩
  | exact d =>
    simp only [ClientOp.step, getWriteAreaOf, file_max h]
    by_cases hd : st.pending.length + d.length ≤ c
    · simp only [if_pos hd, Stream.step, Nat.lt_irrefl, if_false, if_true]
      obtain ⟨s', g1, g2⟩ := h.put hd
      exact ⟨s', by rw [g1]; rfl, g2⟩
    · simp only [if_neg hd, Stream.step]
      rw [hf]
      cases hx : st.flush.2 with
      | false =>
        simp only [Bool.false_eq_true, if_false, false_and, List.append_nil]
        exact ⟨sf, rfl, hsf⟩
      | true =>
        simp only [if_true, true_and]
        by_cases hc : d.length ≤ c
        · rw [Nat.min_eq_left hc, if_neg (Nat.lt_irrefl _)]
          simp only [if_pos hc, if_true]
          obtain ⟨s', g1, g2⟩ := hput d hc hx
          rw [g1]
          exact ⟨s', rfl, g2⟩
        · rw [Nat.min_eq_right (by omega), if_pos (by omega)]
          simp only [if_neg hc, List.append_nil]
          refine ⟨_, rfl, ?_⟩
          have hp := flush_pending hx
          have hz : sf.base.used = 0 := by rw [hsf.used, hp]; rfl
          have hgb : giveBack c (setBase sf { sf.base with used := c }) = sf := by
            show ({ sf with base := { sf.base with used := c - c } } : FileBuf) = sf
            rw [Nat.sub_self, ← hz]
          rw [hgb]
          exact hsf

/-- C16, exactly, for every client history and every stream: the file and the pending characters are what the
specification says.  After a short write everything is still pending, so it will be given to the stream once more. -/
theorem C16_exactly (cache : Str) (io : List Nat) (ops : List ClientOp) :
    ∃ s t, client fileFlush ops (FileBuf.new cache io, []) = some (s, t) ∧
      Stream.run cache.length ops (⟨[], [], io⟩, []) = (⟨s.file, s.cache.take s.base.used, s.io⟩, t) := by
  have hgo : ∀ (ops : List ClientOp) (s : FileBuf) (st : Stream) (t : Str), s.Shows cache.length st →
      ∃ s' t', client fileFlush ops (s, t) = some (s', t') ∧
        Stream.run cache.length ops (st, t) = (⟨s'.file, s'.cache.take s'.base.used, s'.io⟩, t') := by
    intro ops
    induction ops with
    | nil =>
      intro s st t h
      refine ⟨s, t, rfl, ?_⟩
      rw [h.pending, h.file, h.io]
      rfl
    | cons op ops ih =>
      intro s st t h
      obtain ⟨s1, g1, g2⟩ := file_step h t op
      obtain ⟨s2, t2, g3, g4⟩ := ih s1 _ (t ++ (st.step cache.length op).2) g2
      exact ⟨s2, t2, by rw [client, g1]; exact g3, g4⟩
  exact hgo ops _ ⟨[], [], io⟩ [] ⟨rfl, rfl, rfl, rfl, rfl, Nat.zero_le _, by simp [FileBuf.new], rfl, rfl⟩

/-- Nothing pending is lost by the specification. -/
theorem stream_keeps (c : Nat) : ∀ (ops : List ClientOp) (st : Stream) (t : Str),
    (∃ x, x.Sublist st.received ∧ t = x ++ st.pending) →
    ∃ x, x.Sublist (Stream.run c ops (st, t)).1.received ∧
      (Stream.run c ops (st, t)).2 = x ++ (Stream.run c ops (st, t)).1.pending := by
  intro ops
  induction ops with
  | nil => intro st t h; exact h
  | cons op ops ih =>
    rintro st t ⟨x, h1, rfl⟩
    apply ih
    have hfl : ∃ y, y.Sublist st.flush.1.received ∧ x ++ st.pending = y ++ st.flush.1.pending := by
      unfold Stream.flush
      split
      · exact ⟨x ++ st.pending, h1.append (List.Sublist.refl _), by simp⟩
      · exact ⟨x, h1.trans (List.sublist_append_left _ _), rfl⟩
    have hput : ∀ d : Str, st.flush.2 = true → ∃ y, y.Sublist st.flush.1.received ∧ x ++ st.pending ++ d = y ++ d := by
      intro d hx
      obtain ⟨y, g1, g2⟩ := hfl
      rw [flush_pending hx, List.append_nil] at g2
      exact ⟨y, g1, by rw [g2]⟩
    cases op with
    | special => simpa [Stream.step] using hfl
    | upTo d =>
      simp only [Stream.step]
      split
      · exact ⟨x, h1, by simp⟩
      · split
        · rename_i hx
          exact hput _ hx
        · simpa using hfl
    | exact d =>
      simp only [Stream.step]
      split
      · exact ⟨x, h1, by simp⟩
      · split
        · rename_i hx
          exact hput _ hx.1
        · simpa using hfl

/-- C16: whatever the stream accepts and whatever the client does after errors, no character is lost or overtaken: what was
written is what the stream has received, leaving out repetitions, followed by what is pending.  In particular after a flush
that succeeds everything written is in the file, in order. -/
theorem C16_nothing_lost (cache : Str) (io : List Nat) (ops : List ClientOp) :
    ∃ s t, client fileFlush ops (FileBuf.new cache io, []) = some (s, t) ∧
      (∃ x, x.Sublist s.file ∧ t = x ++ s.cache.take s.base.used) ∧
      ∀ s', FileBuf.flush s = .ok s' () → t.Sublist s'.file := by
  obtain ⟨s, t, h1, h2⟩ := C16_exactly cache io ops
  obtain ⟨x, g1, g2⟩ := stream_keeps cache.length ops ⟨[], [], io⟩ [] ⟨[], List.Sublist.refl _, rfl⟩
  rw [h2] at g1 g2
  refine ⟨s, t, h1, ⟨x, g1, g2⟩, fun s' hf => ?_⟩
  simp only at g1 g2
  rw [FileBuf.flush_eq] at hf
  by_cases hn : s.accepted = s.base.used
  · rw [if_neg (by omega)] at hf
    cases hf
    rw [g2]
    simp only [hn]
    exact g1.append (List.Sublist.refl _)
  · rw [if_pos hn] at hf
    cases hf

/-- A short write of two of three characters, then a successful flush: `ab` is received twice, nothing is lost. -/
example : ((client fileFlush [.exact "abc".toList, .special, .exact "de".toList, .special]
    (FileBuf.new "...".toList [2], [])).map fun p => (p.1.file, p.2)) = some ("ababcde".toList, "abcde".toList) := by
  decide +kernel

end Emio
