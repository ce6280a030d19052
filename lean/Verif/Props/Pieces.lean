import Verif.Spec.Pieces
import Verif.Props.Buffer
/- C11, C14, C16, C17, C18: clients that ask for pieces of limited size get every piece in full, so that the text at the
end is fixed by the actions alone. -/
namespace Emio
open BufferImpl

/-- Common part: a client whose pieces are granted in full. -/
theorem client_pieces {σ : Type} [BufferImpl σ] (L : Lawful σ) {chunk room : Option Nat} (hA : Accepts L chunk room)
    (special : σ × Str → Option (σ × Str))
    (hS : ∀ s t, L.Rep s t → ∃ s', special (s, t) = some (s', t) ∧ L.Rep s' t) :
    ∀ (ops : List ClientOp) (s : σ) (t : Str), L.Rep s t → (∀ op ∈ ops, leLimit op.text.length chunk) →
      leLimit (t.length + (allText ops).length) room →
      ∃ s', client special ops (s, t) = some (s', t ++ allText ops) ∧ L.Rep s' (t ++ allText ops) := by
  intro ops
  induction ops with
  | nil => intro s t h _ _; exact ⟨s, by simp [client, allText], by simpa [allText] using h⟩
  | cons op ops ih =>
    intro s t h hp hr
    have hall : allText (op :: ops) = op.text ++ allText ops := rfl
    have hp1 := hp op (by simp)
    have hp2 : ∀ op ∈ ops, leLimit op.text.length chunk := fun o ho => hp o (by simp [ho])
    rw [hall] at hr ⊢
    have hr1 : leLimit (t.length + op.text.length) room := by
      refine leLimit_mono ?_ hr
      simp only [List.length_append]; omega
    have hr2 : leLimit ((t ++ op.text).length + (allText ops).length) room := by
      refine leLimit_mono ?_ hr
      simp only [List.length_append]; omega
    rw [← List.append_assoc]
    cases op with
    | exact d =>
      simp only [ClientOp.text] at hp1 hr1 hr2 ⊢
      obtain ⟨s1, a, hm⟩ := hA.of_ok h hp1 hr1
      obtain ⟨hl, hst⟩ := L.of_ok h hm
      obtain ⟨s2, h2, hrep⟩ := hst d rfl
      obtain ⟨s3, h3, hr3⟩ := ih s2 _ hrep hp2 hr2
      refine ⟨s3, ?_, hr3⟩
      rw [client, ClientOp.step]
      simp only [hm, if_pos hl, h2, Option.map_some, Option.bind_some]
      exact h3
    | upTo d =>
      simp only [ClientOp.text] at hp1 hr1 hr2 ⊢
      obtain ⟨s1, a, hm, hl⟩ := hA s t d.length h hr1
      have hl := hl hp1
      obtain ⟨_, _, hst, _⟩ := L.max_ok h hm
      obtain ⟨s2, h2, hrep⟩ := hst d hl.symm
      obtain ⟨s3, h3, hr3⟩ := ih s2 _ hrep hp2 hr2
      refine ⟨s3, ?_, hr3⟩
      have htk : d.take a.len = d := List.take_of_length_le (by omega)
      rw [client, ClientOp.step]
      simp only [hm, htk, h2, Option.map_some, if_pos (show a.len ≤ d.length by omega), Option.bind_some]
      exact h3
    | special =>
      simp only [ClientOp.text, List.append_nil] at hr2 ⊢
      obtain ⟨s1, h1, hrep1⟩ := hS s t h
      obtain ⟨s3, h3, hr3⟩ := ih s1 _ hrep1 hp2 hr2
      refine ⟨s3, ?_, hr3⟩
      rw [client, ClientOp.step, h1, Option.bind_some]
      exact h3

/-- C11: a client of a span buffer whose texts fit in total gets every request granted in full, and the view is the
concatenation of its texts. -/
theorem C11_all_written (mem : Str) (ops : List ClientOp) (hr : (allText ops).length ≤ mem.length) :
    ∃ s, client (fun p => some p) ops (SpanBuf.new mem, []) = some (s, allText ops) ∧ s.view = allText ops := by
  obtain ⟨s, h1, h2⟩ := client_pieces (SpanBuf.lawful mem.length) (SpanBuf.accepts _) (fun p => some p)
    (fun s t h => ⟨s, rfl, h⟩) ops _ [] (SpanBuf.rep_new mem) (fun _ _ => trivial) (by simpa [leLimit] using hr)
  exact ⟨s, h1, by simpa [SpanBuf.view] using h2.2.2.2.2.2⟩

example : (client (fun p => some p) [.upTo "ab".toList, .exact "cd".toList] (SpanBuf.new "------".toList, [])).map
    (fun p => (p.1.view, p.2)) = some ("abcd".toList, "abcd".toList) := by decide +kernel

/-- C14: a client whose requests are not larger than the cache gets each of them in full, and after a flush the output
iterator has received the concatenation of its texts. -/
theorem C14_all_written (cache : Str) (hc : cache ≠ []) (ops : List ClientOp) (hp : PiecesUpTo cache.length ops) :
    ∃ s, client iterFlush ops (IterBuf.new cache, []) = some (s, allText ops) ∧ s.flush.out = allText ops := by
  obtain ⟨s, h1, h2⟩ := client_pieces (IterBuf.lawful cache.length) (IterBuf.accepts _) iterFlush
    (fun s t h => ⟨_, rfl, (IterBuf.rep_flush h).1⟩) ops _ [] (IterBuf.rep_new cache hc) hp trivial
  exact ⟨s, h1, (IterBuf.rep_flush h2).2.2⟩

/-- C14: the same with an output pointer, for all requests, as long as there are at most `2^64 - 1` characters. -/
theorem C14_all_written_pointer (mem : Nat → Char) (ops : List ClientOp) (hr : (allText ops).length ≤ 2 ^ 64 - 1) :
    ∃ s, client (fun p => some p) ops (PtrBuf.new mem, []) = some (s, allText ops) ∧ s.view = allText ops := by
  obtain ⟨s, h1, h2⟩ := client_pieces PtrBuf.lawful PtrBuf.accepts (fun p => some p)
    (fun s t h => ⟨s, rfl, h⟩) ops _ [] (PtrBuf.rep_new mem) (fun _ _ => trivial) (by simpa [leLimit] using hr)
  exact ⟨s, h1, by simpa using h2.2.2.2.2⟩

/-- C16: with a stream that accepts everything, a client whose requests are not larger than the cache gets each of them
in full, and after a flush the file has received the concatenation of its texts. -/
theorem C16_all_written (cache : Str) (hc : cache ≠ []) (ops : List ClientOp) (hp : PiecesUpTo cache.length ops) :
    ∃ s s', client fileFlush ops (FileBuf.new cache [], []) = some (s, allText ops) ∧ FileBuf.flush s = .ok s' () ∧
      s'.file = allText ops := by
  obtain ⟨s, h1, h2⟩ := client_pieces (FileBuf.lawfulOk cache.length) (FileBuf.acceptsOk _) fileFlush
    (fun s t h => by
      rcases FileBuf.rep_flush h with ⟨s', hf, hrep, _⟩ | ⟨s', hf, hp, hio⟩
      · exact ⟨s', by simp [fileFlush, hf, Run.state?], hrep⟩
      · exact absurd (h.2.2.2.2.2.2.1 rfl) hio) ops _ [] (FileBuf.rep_new cache [] true hc (fun _ => rfl)) hp trivial
  rcases FileBuf.rep_flush h2 with ⟨s', hf, hrep, hfile, _⟩ | ⟨s', hf, hp, hio⟩
  · exact ⟨s, s', h1, hf, hfile⟩
  · exact absurd (h2.2.2.2.2.2.2.1 rfl) hio

/-- C17: a client whose requests are not larger than the cache gets each of them in full, and the count is the number of
all characters of its texts. -/
theorem C17_all_counted (cache : Str) (hc : cache ≠ []) (ops : List ClientOp) (hp : PiecesUpTo cache.length ops) :
    ∃ s, client (fun p => some p) ops (CountBuf.new cache, []) = some (s, allText ops) ∧
      s.count = (allText ops).length := by
  obtain ⟨s, h1, h2⟩ := client_pieces (CountBuf.lawful cache.length) (CountBuf.accepts _) (fun p => some p)
    (fun s t h => ⟨s, rfl, h⟩) ops _ [] (CountBuf.rep_new cache hc) hp trivial
  exact ⟨s, h1, h2.2.2.2.2.2.2⟩

/-- Common part of C18. -/
theorem truncating_pieces {π : Type} [BufferImpl π] (L : Lawful π) (cache : Str) (hc : cache ≠ []) (prim : π) (p0 : Str)
    (hp : L.Rep prim p0) (limit : Nat) (hU : Unsplit L cache.length) (hT : Takes L limit p0) (ops : List ClientOp)
    (hpc : PiecesUpTo cache.length ops) :
    ∃ s s', client truncFlush ops (TruncBuf.new cache prim limit, []) = some (s, allText ops) ∧
      TruncBuf.flush s = .ok s' () ∧ s'.count = (allText ops).length ∧
      L.Rep s'.prim (p0 ++ (allText ops).take limit) := by
  obtain ⟨s, h1, h2⟩ := client_pieces (TruncBuf.lawfulOk L cache.length limit p0 hU hT)
    (TruncBuf.accepts L _ limit p0 hU hT) truncFlush
    (fun s t h => by
      obtain ⟨s', hf, hr, _⟩ := TruncBuf.flush_ok hU hT h
      exact ⟨s', by simp [truncFlush, hf, Run.state?], hr⟩) ops _ [] (TruncBuf.rep_new L cache prim limit p0 hc hp)
    hpc trivial
  obtain ⟨s', hf, hr, hpr, hcnt⟩ := TruncBuf.flush_ok hU hT h2
  exact ⟨s, s', h1, hf, hcnt, hpr⟩

/-- C18 over a memory buffer that already holds `p0`: a client whose requests are not larger than the cache gets each of
them in full; after a flush the memory buffer holds `p0` and the first `limit` characters of its texts, and the count is
the number of all their characters. -/
theorem C18_all_written (cache : Str) (hc : cache ≠ []) (n : Nat) (prim : MemBuf) (p0 : Str) (hp : MemReach n prim p0)
    (limit : Nat) (ops : List ClientOp) (hpc : PiecesUpTo cache.length ops) :
    ∃ s s', client truncFlush ops (TruncBuf.new cache prim limit, []) = some (s, allText ops) ∧
      TruncBuf.flush s = .ok s' () ∧ s'.count = (allText ops).length ∧
      s'.prim.view = p0 ++ (allText ops).take limit := by
  obtain ⟨s, s', h1, h2, h3, h4⟩ := truncating_pieces (MemBuf.lawful n) cache hc prim p0 hp.rep limit
    ((MemBuf.accepts n).unsplit trivial) ((MemBuf.accepts n).takes trivial) ops hpc
  exact ⟨s, s', h1, h2, h3, h4.2.2.2.2.2.2.2⟩

/-- C18 over a span buffer with room for `limit` characters. -/
theorem C18_all_written_span (cache : Str) (hc : cache ≠ []) (mem : Str) (limit : Nat) (hl : limit ≤ mem.length)
    (ops : List ClientOp) (hpc : PiecesUpTo cache.length ops) :
    ∃ s s', client truncFlush ops (TruncBuf.new cache (SpanBuf.new mem) limit, []) = some (s, allText ops) ∧
      TruncBuf.flush s = .ok s' () ∧ s'.count = (allText ops).length ∧ s'.prim.view = (allText ops).take limit := by
  obtain ⟨s, s', h1, h2, h3, h4⟩ := truncating_pieces (SpanBuf.lawful mem.length) cache hc (SpanBuf.new mem) []
    (SpanBuf.rep_new mem) limit (SpanBuf.unsplit _ _) ((SpanBuf.accepts _).takes (by simpa [leLimit] using hl)) ops hpc
  exact ⟨s, s', h1, h2, h3, by simpa [SpanBuf.view] using h4.2.2.2.2.2⟩

/-- C18 over an iterator buffer with a cache at least as large. -/
theorem C18_all_written_iterator (cache cache' : Str) (hc : cache ≠ []) (hcc : cache.length ≤ cache'.length)
    (limit : Nat) (ops : List ClientOp) (hpc : PiecesUpTo cache.length ops) :
    ∃ s s', client truncFlush ops (TruncBuf.new cache (IterBuf.new cache') limit, []) = some (s, allText ops) ∧
      TruncBuf.flush s = .ok s' () ∧ s'.count = (allText ops).length ∧
      s'.prim.flush.out = (allText ops).take limit := by
  have hc' : cache' ≠ [] := by
    intro h; rw [h] at hcc; simp at hcc; exact hc hcc
  obtain ⟨s, s', h1, h2, h3, h4⟩ := truncating_pieces (IterBuf.lawful cache'.length) cache hc (IterBuf.new cache') []
    (IterBuf.rep_new cache' hc') limit ((IterBuf.accepts _).unsplit hcc) ((IterBuf.accepts _).takes trivial) ops hpc
  exact ⟨s, s', h1, h2, h3, by simpa using (IterBuf.rep_flush h4).2.2⟩

/-- Actions that meet the hypotheses for a cache of three characters, with more text than the cache holds. -/
example : PiecesUpTo "...".toList.length [.upTo "abc".toList, .exact "de".toList, .special, .upTo "fgh".toList] ∧
    allText [.upTo "abc".toList, .exact "de".toList, .special, .upTo "fgh".toList] = "abcdefgh".toList := by
  refine ⟨?_, rfl⟩
  unfold PiecesUpTo
  decide

end Emio
