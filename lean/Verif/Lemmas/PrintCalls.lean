import Verif.Model.PrintCalls
import Verif.Lemmas.Settled
import Verif.Spec.Interleaving
/-
The calls of `fwrite` made while printing.
-/
namespace Emio
open BufferImpl Spec

theorem Spec.Pieces.nil (c : Nat) : Pieces c [] := ⟨by simp, by simp⟩

theorem Spec.Pieces.snoc {c : Nat} {calls : List Str} {x : Str} (h : Pieces c calls) (hx : x ≠ []) (hl : x.length ≤ c)
    (hg : ∀ y, calls.getLast? = some y → c < y.length + x.length) : Pieces c (calls ++ [x]) := by
  refine ⟨fun y hy => ?_, fun l a b r e => ?_⟩
  · rcases List.mem_append.1 hy with hy | hy
    · exact h.sized y hy
    · simp only [List.mem_singleton] at hy
      subst hy; exact ⟨hx, hl⟩
  · rcases List.eq_nil_or_concat r with rfl | ⟨r', z, rfl⟩
    · have e' : calls ++ [x] = (l ++ [a]) ++ [b] := by simpa using e
      obtain ⟨e1, e2⟩ := List.append_inj' e' rfl
      simp only [List.cons.injEq, and_true] at e2
      subst e2
      exact hg a (by rw [e1]; simp)
    · have e' : calls ++ [x] = (l ++ a :: b :: r') ++ [z] := by simpa using e
      obtain ⟨e1, _⟩ := List.append_inj' e' rfl
      exact h.needed l a b r' e1

/-- State of a buffer that has received `t`. -/
def CallBuf.Base (c : Nat) (s : CallBuf) (t : Str) : Prop :=
  s.base.fixed = false ∧ s.base.off = 0 ∧ s.base.len = c ∧ s.cache.length = c ∧ 0 < c ∧ s.base.used ≤ c ∧
    s.calls.flatten ++ s.cache.take s.base.used = t ∧ Pieces c s.calls

/-- The characters in the cache would not have fitted behind those of the last call. -/
def CallBuf.Rep (c : Nat) (s : CallBuf) (t : Str) : Prop :=
  CallBuf.Base c s t ∧ ∀ y, s.calls.getLast? = some y → c < y.length + s.base.used

theorem CallBuf.base_flush {c : Nat} {s : CallBuf} {t : Str} (h : CallBuf.Rep c s t) :
    CallBuf.Base c s.flush t ∧ s.flush.base.used = 0 ∧ s.flush.calls.flatten = t ∧
      ∀ n, n ≤ c → c - s.base.used < n → ∀ y, s.flush.calls.getLast? = some y → c < y.length + n := by
  obtain ⟨⟨h1, h2, h3, h4, h5, h6, h7, h8⟩, h9⟩ := h
  have hlen : (s.cache.take s.base.used).length = s.base.used := by simp; omega
  have hp : Pieces c s.flush.calls ∧ s.flush.calls.flatten = t ∧
      ∀ n, n ≤ c → c - s.base.used < n → ∀ y, s.flush.calls.getLast? = some y → c < y.length + n := by
    simp only [CallBuf.flush]
    by_cases h0 : s.base.used = 0
    · rw [if_pos h0]
      refine ⟨h8, by simpa [h0] using h7, fun n hn hc => ?_⟩
      omega
    · rw [if_neg h0]
      refine ⟨h8.snoc (fun e => by rw [e] at hlen; exact h0 hlen.symm) (by omega) (by rw [hlen]; exact h9), ?_, ?_⟩
      · simpa using h7
      · intro n hn hc y hy
        simp only [List.getLast?_append, List.getLast?_singleton, Option.some_or, Option.some.injEq] at hy
        subst hy
        omega
  refine ⟨⟨h1, rfl, h4, h4, h5, Nat.zero_le _, ?_, hp.1⟩, rfl, hp.2.1, hp.2.2⟩
  simp only [CallBuf.flush, Base.setWriteArea, List.take_zero, List.append_nil]
  exact hp.2.1

theorem CallBuf.last_le {c : Nat} {s : CallBuf} {t : Str} (h : CallBuf.Base c s t) {y : Str}
    (hy : s.calls.getLast? = some y) : y ≠ [] ∧ y.length ≤ c :=
  h.2.2.2.2.2.2.2.sized y (List.mem_of_getLast? hy)

theorem CallBuf.base_fill {c : Nat} {s : CallBuf} {t : Str} (h : CallBuf.Base c s t) (k : Nat)
    (hk : s.base.used + k ≤ c) (d : Str) (hd : d.length = k) :
    ∃ s'', store (setBase s { BufferImpl.base s with used := (BufferImpl.base s).used + k }) s.base.used d = some s'' ∧
      CallBuf.Base c s'' (t ++ d) ∧ s''.calls = s.calls ∧ s''.base.used = s.base.used + k := by
  obtain ⟨h1, h2, h3, h4, h5, h6, h7, h8⟩ := h
  obtain ⟨m, hm, hl, ht, _, _⟩ := overwrite_some (mem := s.cache) (i := s.base.used) (d := d) (by omega)
  refine ⟨⟨{ s.base with used := s.base.used + k }, s.calls, m⟩, ?_,
    ⟨h1, h2, h3, by simp only; omega, h5, hk, ?_, h8⟩, rfl, rfl⟩
  · simp only [BufferImpl.store, BufferImpl.setBase, BufferImpl.base, hm]
    rfl
  · simp only; rw [← hd, ht, ← h7, List.append_assoc]

def CallBuf.lawful (c : Nat) : Lawful CallBuf where
  Rep := CallBuf.Rep c
  Back := CallBuf.Base c
  Fail := CallBuf.Base c
  rep_fail _ _ h := h.1
  back_fail _ _ h := h
  max s t n h := by
    have hb : (BufferImpl.base s) = s.base := rfl
    obtain ⟨hB, hlast⟩ := h
    have hc := hB.2.2.2.2.1
    by_cases hn : n ≤ (BufferImpl.base s).len - (BufferImpl.base s).used
    · rw [max_here hn]
      have hoff : (BufferImpl.base s).off + (BufferImpl.base s).used = s.base.used := by rw [hb, hB.2.1]; omega
      rw [hoff]
      have h3 := hB.2.2.1
      have h6 := hB.2.2.2.2.2.1
      refine ⟨Nat.le_refl _, fun h => h, fun d hd => ?_, fun h => absurd h (Nat.lt_irrefl _)⟩
      obtain ⟨s'', e1, e2, e3, e4⟩ := CallBuf.base_fill hB n (by rw [hb] at hn; omega) d hd
      refine ⟨s'', e1, e2, fun y hy => ?_⟩
      rw [e3] at hy
      have := hlast y hy
      omega
    · rw [max_request hB.1 (by omega)]
      have h4 := hB.2.2.2.1
      have h3 := hB.2.2.1
      obtain ⟨f1, f2, f3, f4⟩ := CallBuf.base_flush ⟨hB, hlast⟩
      have hr : request (BufferImpl.base s).used n s = .ok s.flush (cacheArea c n) := by
        simp only [BufferImpl.request, h4]
        congr 1
        simp [CallBuf.flush, Base.setWriteArea, h4]
      rw [hr]
      simp only
      obtain ⟨hl, ho⟩ := cacheArea_len c n
      refine ⟨by omega, by omega, fun d hd => ?_, fun _ => ?_⟩
      · obtain ⟨s'', e1, e2, e3, e4⟩ := CallBuf.base_fill f1 (cacheArea c n).len (by omega) d hd
        rw [f2] at e1
        refine ⟨s'', by rw [ho]; exact e1, e2, fun y hy => ?_⟩
        rw [e3] at hy
        rw [e4, f2]
        rw [hb] at hn
        by_cases hnc : n ≤ c
        · have := f4 n hnc (by omega) y hy
          omega
        · have := (CallBuf.last_le f1 hy).1
          have := List.length_pos_iff.2 this
          omega
      · simp only [giveBack, BufferImpl.setBase, BufferImpl.base, Nat.add_sub_cancel]
        exact f1

theorem CallBuf.accepts (c : Nat) : Accepts (CallBuf.lawful c) (some c) none := by
  intro s t n h _
  obtain ⟨hB, _⟩ := h
  by_cases hn : n ≤ (BufferImpl.base s).len - (BufferImpl.base s).used
  · exact ⟨_, _, max_here hn, fun _ => rfl⟩
  · have h4 := hB.2.2.2.1
    refine ⟨_, _, by rw [max_request hB.1 (by omega)]; simp only [BufferImpl.request]; rfl, fun hl => ?_⟩
    simp only [leLimit] at hl
    have := (cacheArea_len s.cache.length n).1
    omega

theorem CallBuf.rep_new (cache : Str) (h : cache ≠ []) : CallBuf.Rep cache.length (CallBuf.new cache) [] :=
  ⟨⟨rfl, rfl, rfl, rfl, List.length_pos_iff.2 h, Nat.zero_le _, rfl, Pieces.nil _⟩, by simp [CallBuf.new]⟩

theorem WOp.need_le (op : WOp) (h : op.Fine) : op.need ≤ op.text.length := by
  cases op <;> simp_all [WOp.need, WOp.text, WOp.Fine]

theorem settled_plain {str : Str} (h : checkIfPlainString str = true) : Settled str [] str none := by
  refine ⟨[.str str], by simp [WOp.text], by simp [WOp.Fine], fun s => ?_⟩
  unfold formatTo VStr.make
  rw [if_pos ⟨rfl, h⟩]
  show writeStr str s = M.bind (M.bind _ _) _ s
  unfold M.bind
  simp only [WOp.exec, pure, M.pure, execAll, stop]
  generalize writeStr str s = x
  cases x <;> rfl

theorem calls_plain {str : Str} (h : checkIfPlainString str = true) (cache : Str) (hc : cache ≠ []) :
    ∃ calls, printCalls cache false str [] = .ok calls () := by
  obtain ⟨s', h4, _⟩ := execAll_accepts (CallBuf.accepts cache.length) [.str str] (by simp [WOp.Fine])
    (by simp [WOp.need, leLimit]) _ _ (CallBuf.rep_new cache hc) trivial
  have h6 : formatTo str [] (CallBuf.new cache) = .ok s' () := by
    unfold formatTo VStr.make
    rw [if_pos ⟨rfl, h⟩]
    simp only [execAll, WOp.exec] at h4
    have : (do writeStr str; pure () : M CallBuf Unit) (CallBuf.new cache) = writeStr str (CallBuf.new cache) := by
      show M.bind _ _ _ = _
      unfold M.bind
      cases writeStr str (CallBuf.new cache) <;> rfl
    rw [this] at h4
    exact h4
  unfold printCalls
  rw [M.bind_ok h6]
  exact ⟨_, rfl⟩

/-- What printing does, if it comes to an end. -/
theorem Settled.calls {str : Str} {args : List FArg} {text : Str} (h : Settled str args text none) (cache : Str)
    (hc : cache ≠ []) (newline : Bool) (calls : List Str) (hp : printCalls cache newline str args = .ok calls ()) :
    calls.flatten = text ++ (if newline then ['\n'] else []) ∧ Pieces cache.length calls := by
  unfold printCalls at hp
  rcases h.wrote (CallBuf.lawful cache.length) (CallBuf.rep_new cache hc) with ⟨s', h1, _, h2⟩ | ⟨s', e, h1, h2, _⟩ |
    ⟨s', p, h1, _, _⟩
  · rw [M.bind_ok h1] at hp
    cases newline with
    | false =>
      simp only [Bool.false_eq_true, if_false, M.pure_run, Run.ok.injEq, and_true] at hp ⊢
      obtain ⟨f1, _, f3, _⟩ := CallBuf.base_flush h2
      rw [← hp]
      exact ⟨by simpa using f3, f1.2.2.2.2.2.2.2⟩
    | true =>
      simp only [if_true] at hp ⊢
      have hw := writeArea_wrote (CallBuf.lawful cache.length) h2 1 ['\n'] rfl
      cases hx : writeArea 1 ['\n'] s' with
      | ok s2 u =>
        rw [hx] at hw hp
        simp only [Run.ok.injEq, and_true] at hp
        obtain ⟨f1, _, f3, _⟩ := CallBuf.base_flush hw
        rw [← hp]
        exact ⟨by simpa using f3, f1.2.2.2.2.2.2.2⟩
      | err s2 e => rw [hx] at hp; cases hp
      | bad b => rw [hx] at hp; cases hp
  · cases h2
  · rw [M.bind_err h1] at hp; cases hp

/-- A text that fits into the cache is always printed. -/
theorem Settled.calls_short {str : Str} {args : List FArg} {text : Str} (h : Settled str args text none) (cache : Str)
    (newline : Bool) (hl : text.length ≤ cache.length) (hc : cache ≠ []) :
    ∃ calls, printCalls cache newline str args = .ok calls () := by
  obtain ⟨ops, rfl, h2, h3⟩ := h
  obtain ⟨s', h4, h5⟩ := execAll_accepts (CallBuf.accepts cache.length) ops h2 (fun op ho => by
    refine Nat.le_trans (op.need_le (h2 op ho)) (Nat.le_trans ?_ hl)
    obtain ⟨l, r, rfl⟩ := List.append_of_mem ho
    simp only [render_append, render_cons, List.length_append]
    omega) _ _ (CallBuf.rep_new cache hc) trivial
  have h6 : formatTo str args (CallBuf.new cache) = .ok s' () := by rw [h3, M.bind_ok h4]; rfl
  unfold printCalls
  rw [M.bind_ok h6]
  cases newline with
  | false => exact ⟨_, rfl⟩
  | true =>
    obtain ⟨s2, h7, _⟩ := execAll_accepts (CallBuf.accepts cache.length) [.char '\n'] (by simp [WOp.Fine])
      (fun op ho => by
        simp only [List.mem_singleton] at ho
        subst ho
        exact List.length_pos_iff.2 hc) _ _ h5 trivial
    have h8 : writeArea 1 ['\n'] s' = .ok s2 () := by
      simp only [execAll, WOp.exec] at h7
      have : (do writeChar '\n'; pure () : M CallBuf Unit) s' = writeChar '\n' s' := by
        show M.bind _ _ s' = _
        unfold M.bind
        cases writeChar '\n' s' <;> rfl
      rw [this] at h7
      exact h7
    simp only [if_true, h8]
    exact ⟨_, rfl⟩

/-- Of a text that fits into the cache nothing is printed if there is an error behind it. -/
theorem Settled.calls_failed {str : Str} {args : List FArg} {text : Str} {e : Err} (h : Settled str args text (some e))
    (cache : Str) (newline : Bool) (hl : text.length ≤ cache.length) (hc : cache ≠ []) :
    printCalls cache newline str args = .err [] e := by
  obtain ⟨ops, rfl, h2, h3⟩ := h
  obtain ⟨s', h4, h5⟩ := execAll_accepts (CallBuf.accepts cache.length) ops h2 (fun op ho => by
    refine Nat.le_trans (op.need_le (h2 op ho)) (Nat.le_trans ?_ hl)
    obtain ⟨l, r, rfl⟩ := List.append_of_mem ho
    simp only [render_append, render_cons, List.length_append]
    omega) _ _ (CallBuf.rep_new cache hc) trivial
  have h6 : formatTo str args (CallBuf.new cache) = .err s' e := by rw [h3, M.bind_ok h4]; rfl
  unfold printCalls
  rw [M.bind_err h6]
  obtain ⟨⟨_, _, _, h7, _, h8, h9, _⟩, h10⟩ := h5
  have : s'.calls = [] := by
    rcases List.eq_nil_or_concat s'.calls with h | ⟨l, y, h⟩
    · exact h
    · have h11 := h10 y (by rw [h]; simp)
      have h12 := congrArg List.length h9
      rw [h] at h12
      simp at h12
      omega
  simp only [this]

/-- Pieces of a text that fits into one. -/
theorem Spec.Pieces.one {c : Nat} {calls : List Str} (h : Pieces c calls) (hl : calls.flatten.length ≤ c) :
    calls = if calls.flatten = [] then [] else [calls.flatten] := by
  match calls, h, hl with
  | [], _, _ => rfl
  | [a], h, _ =>
    have := (h.sized a (by simp)).1
    simp [this]
  | a :: b :: r, h, hl =>
    have := h.needed [] a b r rfl
    simp at hl
    omega

/-- There are not many pieces. -/
theorem Spec.Pieces.few {c : Nat} : ∀ {calls : List Str}, Pieces c calls →
    calls.length / 2 * (c + 1) ≤ calls.flatten.length
  | [], _ => by simp
  | [_], _ => by simp
  | a :: b :: r, h => by
    have h1 := h.needed [] a b r rfl
    have h2 : Pieces c r := ⟨fun x hx => h.sized x (by simp [hx]), fun l a' b' r' e => h.needed (a :: b :: l) a' b' r' (by simp [e])⟩
    have h3 := Spec.Pieces.few h2
    have h4 : (a :: b :: r).length / 2 = r.length / 2 + 1 := by simp only [List.length_cons]; omega
    rw [h4, Nat.add_mul]
    simp only [List.flatten_cons, List.length_append]
    omega

/-- A text that does not fit is cut. -/
theorem Spec.Pieces.more {c : Nat} {calls : List Str} (h : Pieces c calls) (hl : c < calls.flatten.length) :
    ∃ a b r, calls = a :: b :: r := by
  match calls, h, hl with
  | [], _, hl => simp at hl
  | [a], h, hl =>
    have := (h.sized a (by simp)).2
    simp at hl
    omega
  | a :: b :: r, _, _ => exact ⟨a, b, r, rfl⟩

end Emio
