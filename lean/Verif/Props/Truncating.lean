import Verif.Spec.Truncating
import Verif.Props.Buffer
/-
Property C18: exactly what an output iterator receives through a `truncating_buffer`, with caches of any sizes.
-/
namespace Emio
open Spec BufferImpl

/-- An iterator buffer with a cache of `m` characters, `level` of them used, that has been given `out`. -/
structure IterBuf.Shows (m : Nat) (s : IterBuf) (out : Str) (level : Nat) : Prop where
  fixed : s.base.fixed = false
  off : s.base.off = 0
  len : s.base.len = m
  size : s.cache.length = m
  used : s.base.used = level
  room : level ≤ m
  out : s.out ++ s.cache.take level = out

/-- The next piece. -/
theorem iter_piece {m : Nat} {s : IterBuf} {out : Str} {level : Nat} (h : s.Shows m out level) (d : Str) (hd : d ≠ [])
    (hm : 0 < m) :
    ∃ off s1, getWriteAreaOfMax d.length s = .ok s1 ⟨off, if level + d.length ≤ m then d.length else min m d.length⟩ ∧
      ∃ s2, store s1 off (d.take (if level + d.length ≤ m then d.length else min m d.length)) = some s2 ∧
        s2.Shows m (out ++ d.take (if level + d.length ≤ m then d.length else min m d.length))
          (if level + d.length ≤ m then level + d.length else min m d.length) := by
  obtain ⟨h1, h2, h3, h4, h5, h6, h7⟩ := h
  have hb : base s = s.base := rfl
  unfold getWriteAreaOfMax
  simp only [hb, h1, h2, h3, h5, Bool.false_eq_true, or_false]
  have hl : 0 < d.length := List.length_pos_iff.2 hd
  by_cases hn : level + d.length ≤ m
  · simp only [if_pos hn]
    rw [if_pos (by omega), if_neg (by omega), Nat.min_eq_right (by omega), Nat.zero_add]
    refine ⟨_, _, rfl, ?_⟩
    have hs : ∀ (b : Base) (x : Str), store (setBase s b) level x =
        (overwrite s.cache level x).map fun mm => ({ s with base := b, cache := mm } : IterBuf) := fun _ _ => rfl
    rw [hs]
    unfold overwrite
    rw [if_pos (by simp; omega)]
    refine ⟨_, rfl, ?_⟩
    have hle : level ≤ s.cache.length := by omega
    refine ⟨rfl, rfl, rfl, ?_, rfl, hn, ?_⟩
    · simp; omega
    · simp only [List.take_length]
      rw [List.append_assoc (s.cache.take level), List.take_append, List.take_of_length_le (by simp; omega), ← h7]
      simp
      rw [show level + d.length - min level s.cache.length = d.length by omega, List.take_left']
      rfl
  · simp only [if_neg hn]
    rw [if_neg (by omega)]
    have hr : request level d.length s =
        .ok { s.flush with base := s.flush.base.setWriteArea 0 s.cache.length } (cacheArea s.cache.length d.length) := rfl
    rw [hr]
    have ha : cacheArea s.cache.length d.length = ⟨0, min m d.length⟩ := by
      unfold cacheArea
      rw [h4]
      split
      · rw [Nat.min_eq_left (by omega)]
      · rw [Nat.min_eq_right (by omega)]
    rw [ha]
    refine ⟨_, _, rfl, ?_⟩
    have hs : ∀ (b : Base) (x : Str), store (setBase ({ s.flush with base := b } : IterBuf) { b with used := b.used + min m d.length }) 0 x =
        (overwrite s.cache 0 x).map fun mm =>
          (⟨{ b with used := b.used + min m d.length }, s.out ++ s.cache.take s.base.used, mm⟩ : IterBuf) := fun _ _ => rfl
    have hbb : ∀ b : Base, base ({ s.flush with base := b } : IterBuf) = b := fun _ => rfl
    simp only [hbb]
    rw [hs]
    unfold overwrite
    rw [if_pos (by simp; omega)]
    refine ⟨_, rfl, ?_⟩
    refine ⟨h1, rfl, h4, ?_, ?_, by omega, ?_⟩
    · simp; omega
    · simp [Base.setWriteArea]
    · simp only [List.take_zero, List.nil_append, h5]
      rw [h7, List.take_append, List.take_of_length_le (by simp)]
      simp

theorem pieces_eq {m n : Nat} (level : Nat) (hm : 0 < m) (hn : 0 < n) : pieces m level n =
    ((if level + n ≤ m then n else min m n) ::
      (pieces m (if level + n ≤ m then level + n else min m n) (n - if level + n ≤ m then n else min m n)).1,
     (pieces m (if level + n ≤ m then level + n else min m n) (n - if level + n ≤ m then n else min m n)).2) := by
  rw [pieces, if_neg (by omega)]
  by_cases h : level + n ≤ m
  · simp only [if_pos h]
    rw [Nat.sub_self, pieces, if_pos (Or.inl rfl)]
  · simp only [if_neg h]

/-- The loop of a flush. -/
theorem flushLoop_exactly {m : Nat} (hm : 0 < m) : ∀ (bytes : Nat) (s : TruncBuf IterBuf) (out : Str) (level : Nat),
    s.prim.Shows m out level → bytes ≤ s.cache.length →
    ∃ p, TruncBuf.flushLoop bytes s = .ok { s with prim := p, written := s.written + min bytes (s.limit - s.written) } () ∧
      p.Shows m (out ++ ((pieces m level (min bytes (s.limit - s.written))).1.map fun k => s.cache.take k).flatten)
        (pieces m level (min bytes (s.limit - s.written))).2 := by
  intro bytes
  induction bytes using Nat.strongRecOn with
  | _ bytes ih =>
    intro s out level h hb
    rw [TruncBuf.flushLoop]
    by_cases hc : s.written < s.limit ∧ bytes > 0
    · rw [if_pos hc]
      have hn : 0 < min bytes (s.limit - s.written) := by omega
      generalize hN : min bytes (s.limit - s.written) = n at *
      have hl : (s.cache.take n).length = n := by simp; omega
      obtain ⟨off, p1, g1, p2, g2, g3⟩ := iter_piece h (s.cache.take n) (by intro h0; rw [h0] at hl; simp at hl; omega) hm
      rw [hl] at g1 g2 g3
      rw [g1]
      have hk : 0 < (if level + n ≤ m then n else min m n) ∧ (if level + n ≤ m then n else min m n) ≤ n := by
        split <;> omega
      have htt : (s.cache.take n).take (if level + n ≤ m then n else min m n) =
          s.cache.take (if level + n ≤ m then n else min m n) := by
        rw [List.take_take, Nat.min_eq_left hk.2]
      rw [htt] at g2 g3
      rw [pieces_eq level hm hn]
      generalize (if level + n ≤ m then n else min m n) = k at *
      generalize (if level + n ≤ m then level + n else min m n) = level' at *
      simp only
      rw [if_neg (by omega), if_neg (by omega), g2]
      simp only
      obtain ⟨p, e1, e2⟩ := ih (bytes - k) (by omega)
        { s with prim := p2, written := s.written + k } _ level' g3 (by simp only; omega)
      have hrest : min (bytes - k) (s.limit - (s.written + k)) = n - k := by omega
      simp only [hrest] at e1 e2
      refine ⟨p, ?_, ?_⟩
      · rw [e1]
        congr 2
        omega
      · simpa using e2
    · rw [if_neg hc]
      have h0 : min bytes (s.limit - s.written) = 0 := by omega
      rw [h0, pieces, if_pos (Or.inl rfl)]
      exact ⟨s.prim, rfl, by simpa using h⟩

/-- The buffer is what the specification says. -/
structure TruncBuf.Shows (c m limit : Nat) (s : TruncBuf IterBuf) (st : Truncating) : Prop where
  fixed : s.base.fixed = false
  off : s.base.off = 0
  len : s.base.len = c
  size : s.cache.length = c
  used : s.base.used = st.pending.length
  room : st.pending.length ≤ c
  pending : s.cache.take s.base.used = st.pending
  limit : s.limit = limit
  handed : s.written = st.handed
  total : s.used = st.total
  prim : s.prim.Shows m st.out st.level

theorem TruncBuf.Shows.flush {c m limit : Nat} {s : TruncBuf IterBuf} {st : Truncating} (hm : 0 < m) (h : s.Shows c m limit st) :
    ∃ s' : TruncBuf IterBuf, TruncBuf.flush s = .ok s' () ∧ s'.Shows c m limit (st.flush m limit) := by
  obtain ⟨h1, h2, h3, h4, h5, h6, h7, h8, h9, h10, h11⟩ := h
  obtain ⟨p, g1, g2⟩ := flushLoop_exactly hm s.base.used { s with used := s.used + s.base.used } st.out st.level h11
    (by simp only; omega)
  unfold TruncBuf.flush
  rw [g1]
  refine ⟨_, rfl, h1, rfl, h4, h4, rfl, by simp [Truncating.flush], by simp [Base.setWriteArea, Truncating.flush], h8, ?_, ?_, ?_⟩
  · simp only [Truncating.flush, h9, h5, h8]
  · simp only [Truncating.flush, h10, h5]
  · simp only [h5, h8, h9] at g2
    unfold Truncating.flush
    simp only
    have hle : ∀ k ∈ (pieces m st.level (min st.pending.length (limit - st.handed))).1, k ≤ st.pending.length := by
      have : ∀ n level, ∀ k ∈ (pieces m level n).1, k ≤ n := by
        intro n
        induction n using Nat.strongRecOn with
        | _ n ih =>
          intro level k hk
          by_cases hn : n = 0
          · rw [pieces, if_pos (Or.inl hn)] at hk; simp at hk
          · rw [pieces_eq level hm (by omega)] at hk
            have hsz : 0 < (if level + n ≤ m then n else min m n) ∧ (if level + n ≤ m then n else min m n) ≤ n := by
              split <;> omega
            generalize (if level + n ≤ m then n else min m n) = j at *
            simp only [List.mem_cons] at hk
            rcases hk with rfl | hk
            · exact hsz.2
            · have := ih _ (by omega) _ k hk
              omega
      intro k hk
      have := this _ _ k hk
      omega
    have hmap : (pieces m st.level (min st.pending.length (limit - st.handed))).1.map (fun k => s.cache.take k) =
        (pieces m st.level (min st.pending.length (limit - st.handed))).1.map (fun k => st.pending.take k) := by
      refine List.map_congr_left ?_
      intro k hk
      rw [← h7, List.take_take, h5, Nat.min_eq_left (hle k hk)]
    rw [← hmap]
    exact g2

/-- Characters put where there is room for them. -/
theorem TruncBuf.Shows.put {c m limit : Nat} {s : TruncBuf IterBuf} {st : Truncating} (h : s.Shows c m limit st) {d : Str}
    (hd : st.pending.length + d.length ≤ c) :
    ∃ s', store (setBase s { s.base with used := s.base.used + d.length }) s.base.used d = some s' ∧
      s'.Shows c m limit { st with pending := st.pending ++ d } := by
  obtain ⟨h1, h2, h3, h4, h5, h6, h7, h8, h9, h10, h11⟩ := h
  have ho : s.base.used + d.length ≤ s.cache.length := by omega
  have hs : store (setBase s { s.base with used := s.base.used + d.length }) s.base.used d =
      (overwrite s.cache s.base.used d).map fun mm =>
        { s with base := { s.base with used := s.base.used + d.length }, cache := mm } := rfl
  rw [hs]
  unfold overwrite
  rw [if_pos ho]
  refine ⟨_, rfl, ⟨h1, h2, h3, ?_, ?_, ?_, ?_, h8, h9, h10, h11⟩⟩
  · simp
    omega
  · simp [h5]
  · simpa using hd
  · simp only
    rw [List.append_assoc, List.take_append, h7]
    rw [← h5, List.take_of_length_le (by omega)]
    simp

theorem trunc_max {c m limit : Nat} {s : TruncBuf IterBuf} {st : Truncating} (hm : 0 < m) (h : s.Shows c m limit st) (n : Nat) :
    getWriteAreaOfMax n s = if st.pending.length + n ≤ c then
      .ok (setBase s { s.base with used := s.base.used + n }) ⟨s.base.used, n⟩
    else match TruncBuf.flush s with
      | .ok s' _ => Run.ok (setBase s' { s'.base with used := min n c }) ⟨0, min n c⟩
      | .err s' e => .err s' e
      | .bad b => .bad b := by
  have hb : base s = s.base := rfl
  unfold getWriteAreaOfMax
  simp only [hb, h.fixed, h.len, h.used, h.off, Bool.false_eq_true, or_false]
  have := h.room
  by_cases hn : st.pending.length + n ≤ c
  · rw [if_pos hn, if_pos (by omega), if_neg (by omega), Nat.min_eq_right (by omega), Nat.zero_add]
  · rw [if_neg hn, if_neg (by omega)]
    obtain ⟨s', hf, hs'⟩ := h.flush hm
    have hr : request st.pending.length n s =
        Run.ok { s' with base := s'.base.setWriteArea 0 s'.cache.length } (cacheArea s'.cache.length n) := by
      simp only [BufferImpl.request, hf]
    rw [hr, hf]
    simp only
    have hz : s'.base.used = 0 := by rw [hs'.used]; rfl
    have ha : cacheArea s'.cache.length n = ⟨0, min n c⟩ := by
      unfold cacheArea
      rw [hs'.size]
      split
      · rw [Nat.min_eq_right (by omega)]
      · rw [Nat.min_eq_left (by omega)]
    rw [ha]
    have e1 : s'.base.off = 0 := hs'.off
    have e2 : s'.base.len = c := hs'.len
    have hbs : ∀ x : TruncBuf IterBuf, base x = x.base := fun _ => rfl
    simp only [hbs, Base.setWriteArea, hs'.size, Nat.zero_add]
    congr 1
    show ({ s' with base := _ } : TruncBuf IterBuf) = { s' with base := _ }
    congr 1
    obtain ⟨⟨f, u, o, l⟩, _, _, _, _, _⟩ := s'
    simp only at e1 e2
    subst e1 e2
    rfl

/-- One action. -/
theorem trunc_step {c m limit : Nat} {s : TruncBuf IterBuf} {st : Truncating} (hm : 0 < m) (h : s.Shows c m limit st) (t : Str)
    (op : ClientOp) :
    ∃ s', op.step truncFlush (s, t) = some (s', t ++ (st.step c m limit op).2) ∧ s'.Shows c m limit (st.step c m limit op).1 := by
  obtain ⟨sf, hf, hsf⟩ := h.flush hm
  have hz : sf.base.used = 0 := by rw [hsf.used]; rfl
  have hput : ∀ d : Str, d.length ≤ c →
      ∃ s', store (setBase sf { sf.base with used := d.length }) 0 d = some s' ∧
        s'.Shows c m limit { st.flush m limit with pending := d } := by
    intro d hd
    obtain ⟨s', g1, g2⟩ := hsf.put (d := d) (by simpa [Truncating.flush] using hd)
    rw [hz, Nat.zero_add] at g1
    exact ⟨s', g1, by simpa [Truncating.flush] using g2⟩
  cases op with
  | special =>
    show ∃ s', truncFlush (s, t) = some (s', t ++ []) ∧ s'.Shows c m limit (st.flush m limit)
    unfold truncFlush
    simp only [hf]
    exact ⟨sf, by simp [Run.state?], hsf⟩
  | upTo d =>
    simp only [ClientOp.step, trunc_max hm h]
    by_cases hd : st.pending.length + d.length ≤ c
    · simp only [if_pos hd, Truncating.step, Nat.le_refl, if_true, List.take_length]
      obtain ⟨s', g1, g2⟩ := h.put hd
      exact ⟨s', by rw [g1]; rfl, g2⟩
    · simp only [if_neg hd, Truncating.step]
      rw [hf]
      simp only
      have hm : d.take (min d.length c) = d.take c := by rw [List.take_eq_take_iff]; omega
      obtain ⟨s', g1, g2⟩ := hput (d.take c) (by simp; omega)
      have hl : (d.take c).length = min d.length c := by simp; omega
      rw [hl] at g1
      rw [if_pos (by omega), hm, g1]
      exact ⟨s', rfl, g2⟩
  | exact d =>
    simp only [ClientOp.step, getWriteAreaOf, trunc_max hm h]
    by_cases hd : st.pending.length + d.length ≤ c
    · simp only [if_pos hd, Truncating.step, Nat.lt_irrefl, if_false, if_true]
      obtain ⟨s', g1, g2⟩ := h.put hd
      exact ⟨s', by rw [g1]; rfl, g2⟩
    · simp only [if_neg hd, Truncating.step]
      rw [hf]
      simp only
      by_cases hc : d.length ≤ c
      · rw [Nat.min_eq_left hc, if_neg (Nat.lt_irrefl _)]
        simp only [if_pos hc, if_true]
        obtain ⟨s', g1, g2⟩ := hput d hc
        rw [g1]
        exact ⟨s', rfl, g2⟩
      · rw [Nat.min_eq_right (by omega), if_pos (by omega)]
        simp only [if_neg hc, List.append_nil]
        refine ⟨_, rfl, ?_⟩
        have hgb : giveBack c (setBase sf { sf.base with used := c }) = sf := by
          show ({ sf with base := { sf.base with used := c - c } } : TruncBuf IterBuf) = sf
          rw [Nat.sub_self, ← hz]
        rw [hgb]
        exact hsf

/-- C18, exactly, for caches of any sizes and every client history: what the iterator has received after flushing both
buffers, and the count, are what the specification says. -/
theorem C18_exactly (cache cache' : Str) (hc' : cache' ≠ []) (limit : Nat) (ops : List ClientOp) :
    ∃ s t s', client truncFlush ops (TruncBuf.new cache (IterBuf.new cache') limit, []) = some (s, t) ∧
      TruncBuf.flush s = .ok s' () ∧
      ∃ st, Truncating.run cache.length cache'.length limit ops (⟨[], 0, 0, [], 0⟩, []) = (st, t) ∧
        s.count = st.total + st.pending.length ∧ s'.prim.flush.out = (st.flush cache'.length limit).out ∧
        s'.count = (st.flush cache'.length limit).total := by
  have hm : 0 < cache'.length := List.length_pos_iff.2 hc'
  have hgo : ∀ (ops : List ClientOp) (s : TruncBuf IterBuf) (st : Truncating) (t : Str),
      s.Shows cache.length cache'.length limit st →
      ∃ s' t' st', client truncFlush ops (s, t) = some (s', t') ∧
        Truncating.run cache.length cache'.length limit ops (st, t) = (st', t') ∧ s'.Shows cache.length cache'.length limit st' := by
    intro ops
    induction ops with
    | nil => exact fun s st t h => ⟨s, t, st, rfl, rfl, h⟩
    | cons op ops ih =>
      intro s st t h
      obtain ⟨s1, g1, g2⟩ := trunc_step hm h t op
      obtain ⟨s2, t2, st2, g3, g4, g5⟩ := ih s1 _ (t ++ (st.step cache.length cache'.length limit op).2) g2
      exact ⟨s2, t2, st2, by rw [client, g1]; exact g3, g4, g5⟩
  obtain ⟨s, t, st, h1, h2, h3⟩ := hgo ops (TruncBuf.new cache (IterBuf.new cache') limit) ⟨[], 0, 0, [], 0⟩ []
    ⟨rfl, rfl, rfl, rfl, rfl, Nat.zero_le _, rfl, rfl, rfl, rfl, ⟨rfl, rfl, rfl, rfl, rfl, Nat.zero_le _, rfl⟩⟩
  obtain ⟨s', g1, g2⟩ := h3.flush hm
  refine ⟨s, t, s', h1, g1, st, h2, ?_, ?_, ?_⟩
  · rw [TruncBuf.count, h3.total, h3.used]
  · rw [← g2.prim.out]
    show s'.prim.out ++ s'.prim.cache.take s'.prim.base.used = _
    rw [g2.prim.used]
  · rw [TruncBuf.count, g2.total, g2.used]
    rfl

/-- Five characters in pieces of two, each from the beginning: `ababa`. -/
example : ((Truncating.mk [] 0 0 "abcde".toList 0).flush 2 9).out = "ababa".toList := by
  simp [Truncating.flush, pieces]

end Emio
