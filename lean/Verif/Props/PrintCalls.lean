import Verif.Lemmas.PrintCalls
import Verif.Props.AllArguments
/-
C101: what threads print at the same time is not mixed up, as long as it fits into the cache of the library.

A call of `fwrite` locks the stream, so the calls of several threads happen one after the other, in any order that keeps
the order of each thread; the stream gets the characters of the calls in that order.
-/
namespace Emio
open Spec BufferImpl

theorem settled_of_format {str : Str} {args : List Passed} (hargs : ∀ a ∈ args, a.Proper) {text : Str}
    (hf : formatStr str (args.map Passed.farg) = .ok () text) : Settled str (args.map Passed.farg) text none := by
  rcases settles str args hargs with hb | ⟨text', fail, hs⟩
  · obtain ⟨b, hb⟩ := hb
    rw [hb.format] at hf
    cases hf
  · have := hs.format
    rw [hf] at this
    cases fail with
    | some e => cases this
    | none => cases this; exact hs

/-- C101: a text that fits into the cache is handed to the stream in one call (in none if it is empty). -/
theorem C101_one_call (cache : Str) (hc : cache ≠ []) (p : Printing) (hargs : ∀ a ∈ p.args, a.Proper) (text : Str)
    (hf : formatStr p.str (p.args.map Passed.farg) = .ok () text) (hl : (p.line text).length ≤ cache.length) :
    printCalls cache p.newline p.str (p.args.map Passed.farg) =
      .ok (if p.line text = [] then [] else [p.line text]) () := by
  have hs := settled_of_format hargs hf
  obtain ⟨calls, hp⟩ := hs.calls_short cache p.newline (by
    simp only [Printing.line, List.length_append] at hl; omega) hc
  obtain ⟨h1, h2⟩ := hs.calls cache hc p.newline calls hp
  have h3 : calls.flatten = p.line text := h1
  rw [hp, ← h3, ← h2.one (by rw [h3]; exact hl)]

/-- C101: any text is handed over in order and in as few pieces as the cache allows: no two neighbouring pieces would have
fitted into it together. -/
theorem C101_pieces (cache : Str) (hc : cache ≠ []) (p : Printing) (hargs : ∀ a ∈ p.args, a.Proper) (text : Str)
    (hf : formatStr p.str (p.args.map Passed.farg) = .ok () text) (calls : List Str)
    (hp : printCalls cache p.newline p.str (p.args.map Passed.farg) = .ok calls ()) :
    calls.flatten = p.line text ∧ Pieces cache.length calls ∧
      calls.length / 2 * (cache.length + 1) ≤ (p.line text).length := by
  obtain ⟨h1, h2⟩ := (settled_of_format hargs hf).calls cache hc p.newline calls hp
  have h3 : calls.flatten = p.line text := h1
  exact ⟨h3, h2, by rw [← h3]; exact h2.few⟩

/-- C101: if formatting into memory of at most the size of the cache fails, other than for want of room, then so does
printing, and nothing is handed to the stream. -/
theorem C101_failed (cache : Str) (hc : cache ≠ []) (p : Printing) (hargs : ∀ a ∈ p.args, a.Proper) (mem : Str)
    (hm : mem.length ≤ cache.length) (s : SpanBuf) (e : Err) (he : e ≠ .eof)
    (hf : formatTo p.str (p.args.map Passed.farg) (SpanBuf.new mem) = .err s e) :
    printCalls cache p.newline p.str (p.args.map Passed.farg) = .err [] e := by
  rcases settles p.str p.args hargs with hb | ⟨text, fail, hs⟩
  · obtain ⟨b, hb⟩ := hb
    rw [hb.buffer] at hf
    cases hf
  · have h1 := hs.delivers.span mem [] (SpanBuf.new mem) [] rfl
    split at h1
    · rename_i hle
      obtain ⟨s', _, h2⟩ := h1
      rw [hf] at h2
      cases fail with
      | none => cases h2
      | some e' =>
        cases h2
        exact hs.calls_failed cache p.newline (by simp at hle; omega) hc
    · obtain ⟨s', q, h2, _⟩ := h1
      rw [hf] at h2
      cases h2
      exact absurd rfl he

/-- A successful call of `print` or `println`: what it was to print, and the calls of `fwrite` it made. -/
structure Printed where
  what : Printing
  line : Str
  calls : List Str

/-- `line` is what formatting gives, with the new line of `println`; printing made these calls and succeeded. -/
structure Printed.Made (cache : Str) (p : Printed) : Prop where
  proper : ∀ a ∈ p.what.args, a.Proper
  line : ∃ text, formatStr p.what.str (p.what.args.map Passed.farg) = .ok () text ∧ p.line = p.what.line text
  calls : printCalls cache p.what.newline p.what.str (p.what.args.map Passed.farg) = .ok p.calls ()

/-- Whatever the threads print and however their calls follow each other, the stream gets the whole texts in an order
that keeps the order of each thread. -/
def NeverMixed (cache : Str) : Prop :=
  ∀ threads : List (List Printed), (∀ t ∈ threads, ∀ p ∈ t, p.Made cache) →
    ∀ order : List Str, Interleaving (threads.map fun t => t.flatMap Printed.calls) order →
      ∃ whole : List Str, Interleaving (threads.map fun t => t.map Printed.line) whole ∧ order.flatten = whole.flatten

/-- Steps that do nothing can be made at any time. -/
theorem interleaving_padded : ∀ {threads full : List (List Str)} {order : List Str}, Interleaving threads order →
    full.map (fun t => t.filter (· ≠ [])) = threads →
    ∃ whole, Interleaving full whole ∧ whole.filter (· ≠ []) = order := by
  intro threads full
  generalize hn : (full.map List.length).sum = n
  induction n using Nat.strongRecOn generalizing threads full with
  | _ n ih =>
    intro order h e
    by_cases hd : ∃ (i : Nat) (rest : List Str), full[i]? = some ([] :: rest)
    · obtain ⟨i, rest, hi⟩ := hd
      have hlt := (List.getElem?_eq_some_iff.1 hi)
      obtain ⟨hi1, hi2⟩ := hlt
      have hm : (full.set i rest).map (fun t => t.filter (· ≠ [])) = threads := by
        rw [← e, List.map_set]
        apply List.ext_getElem? 
        intro j
        by_cases hj : j = i
        · subst hj
          simp [hi2, hi1]
        · rw [List.getElem?_set_ne (Ne.symm hj)]
      obtain ⟨whole, w1, w2⟩ := ih ((full.set i rest).map List.length).sum (by
        rw [← hn]
        have e1 := List.set_eq_take_append_cons_drop (l := full) (i := i) (a := rest)
        rw [if_pos hi1] at e1
        rw [e1]
        have e2 : full = full.take i ++ ([] :: rest) :: full.drop (i + 1) := by
          conv_lhs => rw [← List.take_append_drop i full]
          rw [List.drop_eq_getElem_cons hi1, hi2]
        conv_rhs => rw [e2]
        simp) rfl h hm
      exact ⟨[] :: whole, .step _ i [] rest _ hi w1, by simpa using w2⟩
    · cases h with
      | done _ hall =>
        refine ⟨[], .done _ fun t ht => ?_, rfl⟩
        have := hall (t.filter (· ≠ [])) (by rw [← e]; exact List.mem_map_of_mem ht)
        cases t with
        | nil => rfl
        | cons x t =>
          obtain ⟨i, hi⟩ := List.mem_iff_getElem?.1 ht
          by_cases hx : x = []
          · subst hx; exact absurd ⟨i, t, hi⟩ hd
          · simp [hx] at this
      | step _ i x rest order' hx hm =>
        subst e
        rw [List.getElem?_map] at hx
        cases hf : full[i]? with
        | none => rw [hf] at hx; cases hx
        | some t =>
          rw [hf] at hx
          simp only [Option.map_some, Option.some.injEq] at hx
          cases t with
          | nil => simp at hx
          | cons y t =>
            have hy : y ≠ [] := fun hy => hd ⟨i, t, by rw [hf, hy]⟩
            simp only [List.filter_cons, hy, ne_eq, not_false_eq_true, decide_true, if_true, List.cons.injEq] at hx
            obtain ⟨rfl, hx⟩ := hx
            obtain ⟨hi1, hi2⟩ := (List.getElem?_eq_some_iff.1 hf)
            obtain ⟨whole, w1, w2⟩ := ih ((full.set i t).map List.length).sum (by
              rw [← hn]
              have e1 := List.set_eq_take_append_cons_drop (l := full) (i := i) (a := t)
              rw [if_pos hi1] at e1
              rw [e1]
              have e2 : full = full.take i ++ (y :: t) :: full.drop (i + 1) := by
                conv_lhs => rw [← List.take_append_drop i full]
                rw [List.drop_eq_getElem_cons hi1, hi2]
              conv_rhs => rw [e2]
              simp) rfl hm (by
                rw [List.map_set, ← hx])
            exact ⟨y :: whole, .step _ i y t _ hf w1, by rw [List.filter_cons, if_pos (by simpa using hy), w2]⟩

/-- C101: threads printing texts that fit into the cache never mix them up. -/
theorem C101_never_mixed_partial (cache : Str) (hc : cache ≠ []) (threads : List (List Printed))
    (made : ∀ t ∈ threads, ∀ p ∈ t, p.Made cache) (short : ∀ t ∈ threads, ∀ p ∈ t, p.line.length ≤ cache.length)
    (order : List Str) (h : Interleaving (threads.map fun t => t.flatMap Printed.calls) order) :
    ∃ whole : List Str, Interleaving (threads.map fun t => t.map Printed.line) whole ∧
      order = whole.filter (· ≠ []) ∧ order.flatten = whole.flatten := by
  have e : (threads.map fun t => t.map Printed.line).map (fun t => t.filter (· ≠ [])) =
      threads.map fun t => t.flatMap Printed.calls := by
    rw [List.map_map]
    refine List.map_congr_left fun t ht => ?_
    have h1 : ∀ p ∈ t, p.calls = if p.line = [] then [] else [p.line] := by
      intro p hp
      have hm := made t ht p hp
      obtain ⟨text, hf, hl⟩ := hm.line
      have h2 := C101_one_call cache hc p.what hm.proper text hf (by rw [← hl]; exact short t ht p hp)
      rw [hm.calls, ← hl] at h2
      simp only [Run.ok.injEq, and_true] at h2
      exact h2
    clear made short ht h
    induction t with
    | nil => rfl
    | cons p t ih =>
      have h2 := ih fun p hp => h1 p (List.mem_cons_of_mem _ hp)
      simp only [Function.comp] at h2 ⊢
      rw [List.flatMap_cons, ← h2, h1 p (by simp)]
      by_cases hp : p.line = [] <;> simp [hp]
  obtain ⟨whole, w1, w2⟩ := interleaving_padded h e
  refine ⟨whole, w1, w2.symm, ?_⟩
  rw [← w2]
  clear w1 w2
  induction whole with
  | nil => rfl
  | cons x l ih => by_cases hx : x = [] <;> simp [hx, ← ih]

/-- The orders of two steps. -/
theorem interleaving_two {x y : Str} {whole : List Str} (h : Interleaving [[x], [y]] whole) :
    whole = [x, y] ∨ whole = [y, x] := by
  have last : ∀ {z : Str} {w : List Str} {l : List (List Str)}, Interleaving l w → (l = [[], [z]] ∨ l = [[z], []]) →
      w = [z] := by
    intro z w l h hl
    have none : ∀ {w : List Str}, Interleaving [([] : List Str), []] w → w = [] := by
      intro w h
      cases h with
      | done => rfl
      | step _ i x rest order hx _ =>
        match i with
        | 0 => simp at hx
        | 1 => simp at hx
        | i + 2 => simp at hx
    cases h with
    | done _ ha =>
      rcases hl with rfl | rfl
      · exact absurd (ha [z] (by simp)) (by simp)
      · exact absurd (ha [z] (by simp)) (by simp)
    | step _ i x rest order hx hm =>
      rcases hl with rfl | rfl
      · match i with
        | 0 => simp at hx
        | 1 =>
          simp at hx
          obtain ⟨rfl, rfl⟩ := hx
          rw [none hm]
        | i + 2 => simp at hx
      · match i with
        | 0 =>
          simp at hx
          obtain ⟨rfl, rfl⟩ := hx
          rw [none hm]
        | 1 => simp at hx
        | i + 2 => simp at hx
  cases h with
  | done _ ha => exact absurd (ha [x] (by simp)) (by simp)
  | step _ i z rest order hx hm =>
    match i with
    | 0 =>
      simp at hx
      obtain ⟨rfl, rfl⟩ := hx
      left
      rw [last hm (Or.inl rfl)]
    | 1 =>
      simp at hx
      obtain ⟨rfl, rfl⟩ := hx
      right
      rw [last hm (Or.inr rfl)]
    | i + 2 => simp at hx

/-- Steps of one thread, then of the other. -/
theorem interleaving_one : ∀ (a : List Str), Interleaving [a, []] a
  | [] => .done _ (by simp)
  | x :: a => .step _ 0 x a a rfl (interleaving_one a)

/-- C101: a text longer than the cache can always be torn apart: another thread that prints one character in between. -/
theorem C101_torn_apart (cache : Str) (hc : cache ≠ []) (p q : Printed) (hp : p.Made cache) (hq : q.Made cache)
    (hl : cache.length < p.line.length) (x : Char) (hx : q.line = [x]) (hn : x ∉ p.line) :
    ∃ order, Interleaving [p.calls, q.calls] order ∧ order.flatten ≠ p.line ++ q.line ∧
      order.flatten ≠ q.line ++ p.line := by
  obtain ⟨text, hf, hline⟩ := hp.line
  obtain ⟨h1, h2, _⟩ := C101_pieces cache hc p.what hp.proper text hf p.calls hp.calls
  rw [← hline] at h1
  obtain ⟨a, b, r, hab⟩ := h2.more (by rw [h1]; exact hl)
  have ha := (h2.sized a (by simp [hab])).1
  have hb := (h2.sized b (by simp [hab])).1
  have hqc : q.calls = [[x]] := by
    obtain ⟨text', hf', hline'⟩ := hq.line
    have := C101_one_call cache hc q.what hq.proper text' hf' (by
      rw [← hline', hx]; exact List.length_pos_iff.2 hc)
    rw [hq.calls, ← hline', hx] at this
    simpa using this
  have hl' : p.line = a ++ (b ++ r.flatten) := by rw [← h1, hab]; simp
  refine ⟨a :: [x] :: b :: r, ?_, ?_, ?_⟩
  · rw [hab, hqc]
    exact .step _ 0 a (b :: r) _ rfl (.step _ 1 [x] [] _ rfl (interleaving_one _))
  · rw [hx, hl']
    cases b with
    | nil => exact absurd rfl hb
    | cons y b =>
      intro e
      simp only [List.flatten_cons, List.append_assoc, List.cons_append, List.nil_append,
        List.append_cancel_left_eq, List.cons.injEq] at e
      apply hn
      rw [hl', e.1]
      simp
  · rw [hx, hl']
    cases a with
    | nil => exact absurd rfl ha
    | cons y a =>
      intro e
      simp only [List.flatten_cons, List.cons_append, List.nil_append, List.cons.injEq] at e
      apply hn
      rw [hl', e.1]
      simp

theorem made_plain (cache str : Str) (hc : cache ≠ []) (h : checkIfPlainString str = true) :
    ∃ calls, Printed.Made cache ⟨⟨false, str, []⟩, str, calls⟩ := by
  obtain ⟨calls, hp⟩ := calls_plain h cache hc
  exact ⟨calls, by simp, ⟨str, (settled_plain h).format, by simp [Printing.line]⟩, hp⟩

/-- C101 does not hold for texts of any length, whatever the size of the cache. -/
theorem C101_never_mixed_violated (cache : Str) (hc : cache ≠ []) : ¬ NeverMixed cache := by
  intro h
  obtain ⟨c1, h1⟩ := made_plain cache (List.replicate (cache.length + 1) 'a') hc ((plain_iff _).2 (by
    constructor <;> intro hm <;> exact absurd (List.eq_of_mem_replicate hm) (by decide)))
  obtain ⟨c2, h2⟩ := made_plain cache ['b'] hc (by decide)
  obtain ⟨order, ho, ne1, ne2⟩ := C101_torn_apart cache hc _ _ h1 h2 (by simp) 'b' rfl (by
    intro hm; exact absurd (List.eq_of_mem_replicate hm) (by decide))
  obtain ⟨whole, hw, e⟩ := h [[_], [_]] (by
    intro t ht p hp
    simp only [List.mem_cons, List.not_mem_nil, or_false] at ht
    rcases ht with rfl | rfl
    · simp only [List.mem_singleton] at hp
      subst hp
      exact h1
    · simp only [List.mem_singleton] at hp
      subst hp
      exact h2) order (by simpa using ho)
  rcases interleaving_two (by simpa using hw) with rfl | rfl
  · exact ne1 (by rw [e]; simp)
  · exact ne2 (by rw [e]; simp)

/-- C101, the hypotheses are met: one thread prints two lines, the other one a number and a string. -/
def someThreads : List (List Printed) :=
  [[⟨⟨true, "ab".toList, []⟩, "ab\n".toList, ["ab\n".toList]⟩, ⟨⟨true, [], []⟩, ['\n'], [['\n']]⟩],
   [⟨⟨false, "{}".toList, [.builtin (.value .int (.int 42))]⟩, "42".toList, ["42".toList]⟩, ⟨⟨false, [], []⟩, [], []⟩]]

example : (∀ t ∈ someThreads, ∀ p ∈ t, p.Made (List.replicate 8 ' ')) ∧
    (∀ t ∈ someThreads, ∀ p ∈ t, p.line.length ≤ (List.replicate 8 ' ').length) := by
  refine ⟨?_, by simp [someThreads]⟩
  intro t ht p hp
  simp only [someThreads, List.mem_cons, List.not_mem_nil, or_false] at ht
  rcases ht with rfl | rfl <;> simp only [List.mem_cons, List.not_mem_nil, or_false] at hp <;> rcases hp with rfl | rfl
  · exact ⟨by simp, ⟨"ab".toList, by decide +kernel, by decide⟩, by decide +kernel⟩
  · exact ⟨by simp, ⟨[], by decide +kernel, by decide⟩, by decide +kernel⟩
  · exact ⟨by simp [Passed.Proper], ⟨"42".toList, by decide +kernel, by decide⟩, by decide +kernel⟩
  · exact ⟨by simp, ⟨[], by decide +kernel, by decide⟩, by decide +kernel⟩

/-- C101: a text of eleven characters is handed over in two calls. -/
example : printCalls (List.replicate 8 ' ') false "hello world".toList [] = .ok ["hello wo".toList, "rld".toList] () := by
  decide +kernel

/-- C101: `print("ab{:O}", 8)` hands over nothing. -/
example : let arg : Passed := .builtin (.value .int (.int 8))
    arg.Proper ∧ (match formatTo "ab{:O}".toList [arg.farg] (SpanBuf.new (List.replicate 8 ' ')) with
      | .err _ e => some e
      | _ => none) = some .invalidFormat ∧
    printCalls (List.replicate 8 ' ') false "ab{:O}".toList [arg.farg] = .err [] .invalidFormat :=
  ⟨by simp [Passed.Proper], by decide +kernel, by decide +kernel⟩

end Emio
