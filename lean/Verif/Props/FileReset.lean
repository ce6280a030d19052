import Mathlib.Data.List.Forall2
import Verif.Model.FileReset
import Verif.Spec.Sessions
import Verif.Props.Buffer
/-
Property C100: what `reset()` of a file buffer does to the file.
-/
namespace Emio
open Spec

/-- One session: the client's actions, `flush()` if the session flushes, and `reset()`.  Also gives the text written. -/
def DiskFile.session (seekable : Bool) (e : Session) (d : DiskFile) : Option (DiskFile × Str) :=
  (client fileFlush e.ops (d.buf, [])).bind fun (buf, text) =>
    if e.flushes then
      match FileBuf.flush buf with
      | .ok buf' _ => some (DiskFile.reset seekable { d with buf := buf' }, text)
      | _ => none
    else some (DiskFile.reset seekable { d with buf := buf }, text)

/-- Several sessions. -/
def DiskFile.sessions (seekable : Bool) : List Session → DiskFile → Option (DiskFile × List (Session × Str))
  | [], d => some (d, [])
  | e :: es, d => (d.session seekable e).bind fun (d', text) =>
      (DiskFile.sessions seekable es d').map fun (d'', l) => (d'', (e, text) :: l)

/-- A session writes some text, and a beginning of it is given to the file. -/
theorem session_leaves (seekable : Bool) (e : Session) (c : Nat) (d : DiskFile) (h : FileBuf.Rep c true d.buf []) :
    ∃ b text kept, d.session seekable e = some (DiskFile.reset seekable { d with buf := b }, text) ∧ Leaves c (e, text) kept ∧
      b.file = kept ∧ FileBuf.Rep c true (DiskFile.reset seekable { d with buf := b }).buf [] := by
  obtain ⟨buf, text, h1, h2⟩ := client_rep (FileBuf.lawfulOk c) (fun _ _ h => h) fileFlush (fileFlush_rep c) e.ops _ _ h
  have hrep : ∀ b : FileBuf, FileBuf.Rep c true b text → FileBuf.Rep c true (DiskFile.reset seekable { d with buf := b }).buf [] := by
    rintro b ⟨g1, g2, g3, g4, g5, g6, g7, g8⟩
    cases seekable <;> exact ⟨g1, rfl, g4, g4, g5, Nat.zero_le _, g7, by simp [DiskFile.reset, Base.setWriteArea]⟩
  unfold DiskFile.session
  rw [h1]
  simp only [Option.bind_some]
  cases hfl : e.flushes with
  | true =>
    rcases FileBuf.rep_flush h2 with ⟨s', hf, hr, hfile, _⟩ | ⟨s', hf, hp, hio⟩
    · refine ⟨s', text, text, ?_, ⟨List.prefix_rfl, by simp, fun _ => rfl⟩, hfile, hrep s' hr⟩
      simp only [if_true, hf]
    · exact absurd (h2.2.2.2.2.2.2.1 rfl) hio
  | false =>
    refine ⟨buf, text, buf.file, by simp, ⟨?_, ?_, fun h => ?_⟩, rfl, hrep buf h2⟩
    · exact ⟨_, h2.2.2.2.2.2.2.2⟩
    · obtain ⟨g1, g2, g3, g4, g5, g6, g7, g8⟩ := h2
      show text.length ≤ _
      rw [← g8]
      simp
      omega
    · rw [hfl] at h
      cases h

/-- C100: for every number of sessions, each of them ended by `reset()`: each session overwrites the file from its
beginning, and leaves what is behind the end of its own text.  A session that flushes leaves all it has written; of one
that does not at most as much as the cache can hold is missing at its end, and never shows up later.  If the stream has no
position, the texts follow each other instead. -/
theorem C100_sessions (seekable : Bool) (cache : Str) (hc : cache ≠ []) (old : Str) (es : List Session) :
    ∃ d texts kept, DiskFile.sessions seekable es (DiskFile.new cache old) = some (d, texts) ∧ texts.map Prod.fst = es ∧
      List.Forall₂ (Leaves cache.length) texts kept ∧
      d.contents = if seekable then kept.foldl writtenOver old else writtenOver old kept.flatten := by
  have hgo : ∀ (es : List Session) (d : DiskFile), FileBuf.Rep cache.length true d.buf [] → d.buf.file = [] →
      (seekable = true → d.sent = []) →
      ∃ d' texts kept, DiskFile.sessions seekable es d = some (d', texts) ∧ texts.map Prod.fst = es ∧
      List.Forall₂ (Leaves cache.length) texts kept ∧
      d'.contents = if seekable then kept.foldl writtenOver d.start else writtenOver d.start (d.sent ++ kept.flatten) := by
    intro es
    induction es with
    | nil =>
      intro d h hf hs
      refine ⟨d, [], [], rfl, rfl, .nil, ?_⟩
      cases seekable with
      | true => simp [DiskFile.contents, hf, hs rfl]
      | false => simp [DiskFile.contents, hf, writtenOver]
    | cons e es ih =>
      intro d h hf hs
      obtain ⟨b, text, k, h1, h2, h3, h4⟩ := session_leaves seekable e _ d h
      obtain ⟨d', texts, kept, g1, g2, g3, g4⟩ := ih _ h4 (by cases seekable <;> rfl) (by rintro rfl; rfl)
      refine ⟨d', (e, text) :: texts, k :: kept, ?_, by simp [g2], .cons h2 g3, ?_⟩
      · rw [DiskFile.sessions, h1]
        simp only [Option.bind_some, g1, Option.map_some]
      · rw [g4]
        cases seekable with
        | true => simp [DiskFile.reset, DiskFile.contents, hs rfl, h3, writtenOver]
        | false => simp [DiskFile.reset, h3]
  obtain ⟨d, texts, kept, h1, h2, h3, h4⟩ := hgo es (DiskFile.new cache old) (FileBuf.rep_new cache [] true hc (fun _ => rfl)) rfl
    (fun _ => rfl)
  refine ⟨d, texts, kept, h1, h2, h3, ?_⟩
  simpa [DiskFile.new] using h4

/-- C100: flushing, `reset()` and writing a text that is as long as the former one or longer replaces it. -/
theorem C100_replaced (cache : Str) (hc : cache ≠ []) (old : Str) (a b : List ClientOp) :
    ∃ d ta tb, DiskFile.sessions true [⟨a, true⟩, ⟨b, true⟩] (DiskFile.new cache old) = some (d, [(⟨a, true⟩, ta), (⟨b, true⟩, tb)]) ∧
      (old.length ≤ tb.length → ta.length ≤ tb.length → d.contents = tb) ∧
      (∀ i c, i < tb.length → d.contents[i]? = some c → tb[i]? = some c) := by
  obtain ⟨d, texts, kept, h1, h2, h3, h4⟩ := C100_sessions true cache hc old [⟨a, true⟩, ⟨b, true⟩]
  cases h3 with
  | nil => simp at h2
  | @cons x ka texts1 kept1 l1 h3 =>
    cases h3 with
    | nil => simp at h2
    | @cons y kb texts2 kept2 l2 h3 =>
      cases h3 with
      | cons _ _ => simp at h2
      | nil =>
        obtain ⟨xe, ta⟩ := x
        obtain ⟨ye, tb⟩ := y
        simp only [List.map_cons, List.map_nil, List.cons.injEq, and_true] at h2
        obtain ⟨rfl, rfl⟩ := h2
        have e1 := l1.flushed rfl
        have e2 := l2.flushed rfl
        simp only at e1 e2
        subst e1 e2
        refine ⟨d, ka, kb, h1, fun g1 g2 => ?_, fun i c hi hg => ?_⟩
        · rw [h4]
          simp only [if_true, List.foldl_cons, List.foldl_nil, writtenOver]
          rw [List.drop_eq_nil_of_le, List.append_nil]
          simp
          omega
        · rw [h4] at hg
          simp only [if_true, List.foldl_cons, List.foldl_nil, writtenOver] at hg
          rwa [List.getElem?_append_left hi] at hg

/-- The test of the library: unflushed characters are dropped (test_buffer.cpp:781-818). -/
example : (DiskFile.sessions true [⟨[.exact "xxxx".toList], false⟩, ⟨[.exact "yyyy".toList], false⟩, ⟨[.exact "zzzz".toList], true⟩]
    (DiskFile.new (List.replicate 8 '.') [])).map (fun x => x.1.contents) = some "zzzz".toList := by decide +kernel

/-- A cache of three characters: the first session gives three characters to the file before it is reset. -/
example : (DiskFile.sessions true [⟨[.upTo "abc".toList, .upTo "de".toList], false⟩, ⟨[.exact "z".toList], true⟩]
    (DiskFile.new "...".toList "12345".toList)).map (fun x => x.1.contents) = some "zbc45".toList := by decide +kernel

/-- A stream without a position. -/
example : (DiskFile.sessions false [⟨[.exact "ab".toList], true⟩, ⟨[.exact "z".toList], true⟩]
    (DiskFile.new "...".toList [])).map (fun x => x.1.contents) = some "abz".toList := by decide +kernel

end Emio
