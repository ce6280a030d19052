import Verif.Spec.FixedSize
import Verif.Props.Writer
/- C19 and C20: exactly what a sequence of writer calls leaves in a span buffer that is too small. -/
namespace Emio
open BufferImpl Spec

section
variable {σ : Type} [BufferImpl σ]

/-- The state in which the failing request was made. -/
def Stopped (L : Lawful σ) (t text : Str) (s' : σ) (e : Err) : Prop :=
  ∃ p q s1 n, text = p ++ q ∧ q ≠ [] ∧ L.Rep s1 (t ++ p) ∧ 0 < n ∧ getWriteAreaOfMax n s1 = .err s' e

theorem escapeRounds_stopped (L : Lawful σ) (quote : Char) : ∀ (n : Nat) (pre : Str) (size : Nat) (src rem : Str)
    (area : Area) (s : σ) (t : Str), size + pre.length = n → size = (rem ++ escAll src).length →
    pre.length ≤ area.len → 0 < area.len → area.len ≤ pre.length + size + 1 → AreaOk L t s area →
    ∀ s' e, escapeRounds quote pre size src rem area s = .err s' e →
      Stopped L t (pre ++ (rem ++ escAll src) ++ [quote]) s' e := by
  intro n
  induction n using Nat.strongRecOn with
  | ind n ih =>
    intro pre size src rem area s t hn hsize hpre hpos hmax harea s' e
    obtain ⟨h1, h2⟩ := escapeHelper_spec src rem (area.len - pre.length)
    rw [escapeRounds]
    generalize hr : escapeHelper src rem (area.len - pre.length) = r at h1 h2
    obtain ⟨out, src', rem'⟩ := r
    simp only at h1 h2
    rw [← hsize] at h2
    have hlen : out.length ≤ size := by omega
    simp only [if_neg (show ¬ out.length > size by omega)]
    have hrest : out.length + (rem' ++ escAll src').length = size := by
      have := congrArg List.length h1
      simp only [List.length_append] at this hsize ⊢
      omega
    by_cases hdone : size - out.length = 0
    · have hnil : rem' ++ escAll src' = [] := by
        apply List.length_eq_zero_iff.1; omega
      have hout : out = rem ++ escAll src := by
        rw [List.append_assoc, hnil, List.append_nil] at h1; exact h1
      simp only [if_pos hdone]
      by_cases hfull : area.len - pre.length - out.length = 0
      · simp only [if_pos hfull]
        obtain ⟨s2, hs2, hrep⟩ := putArea_ok harea (d := pre ++ out) (by simp; omega)
        rw [hs2]
        simp only
        cases hm : getWriteAreaOfMax 1 s2 with
        | ok s3 a =>
          obtain ⟨h1', h2', h3', _⟩ := L.max_ok hrep hm
          have h2' := h2' (by omega)
          simp only [if_neg (show ¬ a.len = 0 by omega)]
          obtain ⟨s4, hs4, _⟩ := putArea_ok (a := a) h3' (d := [quote]) (by simp; omega)
          rw [hs4]; intro h; cases h
        | err s3 e' =>
          intro h; cases h
          exact ⟨pre ++ out, [quote], s2, 1, by rw [← hout], by simp, hrep, by omega, hm⟩
        | bad b => exact (L.max_bad hrep hm).elim
      · simp only [if_neg hfull]
        obtain ⟨s2, hs2, hrep⟩ := putArea_ok harea (d := pre ++ out ++ [quote]) (by simp; omega)
        rw [hs2]; intro h; cases h
    · simp only [if_neg hdone]
      simp only [if_neg (show ¬ (out.length = 0 ∧ pre.length = 0) by omega)]
      obtain ⟨s2, hs2, hrep⟩ := putArea_ok harea (d := pre ++ out) (by simp; omega)
      rw [hs2]
      simp only
      have hwhole : pre ++ (rem ++ escAll src) ++ [quote] = (pre ++ out) ++ ([] ++ (rem' ++ escAll src') ++ [quote]) := by
        rw [← h1]; simp
      cases hm : getWriteAreaOfMax (size - out.length + 1) s2 with
      | ok s3 a =>
        obtain ⟨h1', h2', h3', _⟩ := L.max_ok hrep hm
        have h2' := h2' (by omega)
        intro h
        obtain ⟨p, q, s4, k, hpq, hq, hrep4, hk, hx⟩ := ih (size - out.length + 0) (by omega) [] (size - out.length)
          src' rem' a s3 _ rfl (by omega) (by simp) h2' (by simp; omega) h3' s' e h
        refine ⟨pre ++ out ++ p, q, s4, k, ?_, hq, ?_, hk, hx⟩
        · rw [hwhole, hpq, List.append_assoc (pre ++ out) p q]
        · rw [← List.append_assoc]; exact hrep4
      | err s3 e' =>
        intro h; cases h
        exact ⟨pre ++ out, [] ++ (rem' ++ escAll src') ++ [quote], s2, _, hwhole, by simp, hrep, by omega, hm⟩
      | bad b => exact (L.max_bad hrep hm).elim

theorem writeEscaped_stopped (L : Lawful σ) (quote : Char) (sv : Str) {s : σ} {t : Str} (h : L.Rep s t) (s' : σ) (e : Err)
    (hx : writeEscaped quote sv (countSizeWhenEscaped sv) s = .err s' e) :
    Stopped L t ([quote] ++ escAll sv ++ [quote]) s' e := by
  unfold writeEscaped at hx
  cases hm : getWriteAreaOfMax (countSizeWhenEscaped sv + 2) s with
  | ok s2 a =>
    obtain ⟨h1, h2, h3, _⟩ := L.max_ok h hm
    have h2 := h2 (by omega)
    rw [hm] at hx
    simp only [if_neg (show ¬ a.len = 0 by omega)] at hx
    have := escapeRounds_stopped L quote _ [quote] (countSizeWhenEscaped sv) sv [] a s2 t rfl
      (by simp [countSize_eq]) (by simp; omega) h2 (by simp; omega) h3 s' e hx
    simpa using this
  | err s2 e' =>
    rw [hm] at hx; cases hx
    exact ⟨[], _, s, _, rfl, by simp, by simpa using h, by omega, hm⟩
  | bad b => exact (L.max_bad h hm).elim

theorem writeStr_stopped (L : Lawful σ) (sv : Str) {s : σ} {t : Str} (h : L.Rep s t) (s' : σ) (e : Err)
    (hx : writeStr sv s = .err s' e) : Stopped L t sv s' e := by
  have := writeStr_wrote' L _ sv rfl s t h
  rw [hx] at this
  obtain ⟨rfl, p, q, s1, hpq, hq, hr1, hreq, hr⟩ := this
  exact ⟨p, q, s1, _, hpq, hq, hr1, List.length_pos_of_ne_nil hq, hreq⟩

end

/-- A span buffer refuses a request only if it is full. -/
theorem span_stopped {cap : Nat} {t text : Str} {s' : SpanBuf} {e : Err}
    (h : Stopped (SpanBuf.lawful cap) t text s' e) :
    e = .eof ∧ SpanBuf.Rep cap s' (t ++ text.take (cap - t.length)) := by
  obtain ⟨p, q, s1, n, hpq, hq, hr1, hn, hreq⟩ := h
  have hr1 : SpanBuf.Rep cap s1 (t ++ p) := hr1
  have hl := SpanBuf.Rep.length hr1
  have hfull : (t ++ p).length = cap ∧ .err s1 .eof = (.err s' e : Run SpanBuf Area) := by
    obtain ⟨k1, k2, k3, k4, k5, k6⟩ := hr1
    by_cases hh : n ≤ s1.base.len - s1.base.used
    · rw [max_here (by exact hh)] at hreq; cases hreq
    · rw [max_fixed (by exact k1) hn (show s1.base.len - s1.base.used < n by omega)] at hreq
      by_cases h0 : s1.base.len - s1.base.used = 0
      · rw [if_pos (by exact h0)] at hreq
        exact ⟨by omega, hreq⟩
      · rw [if_neg (by exact h0)] at hreq; cases hreq
  obtain ⟨hfull, heq⟩ := hfull
  cases heq
  refine ⟨rfl, ?_⟩
  have hp : text.take (cap - t.length) = p := by
    rw [List.length_append] at hfull
    rw [hpq, show cap - t.length = p.length by omega]; simp
  rw [hp]; exact hr1

/-- One call. -/
theorem span_call {cap : Nat} {s : SpanBuf} {t : Str} (h : SpanBuf.Rep cap s t) (op : WOp) (hfine : op.Fine) :
    if t.length + op.text.length ≤ cap then ∃ s', op.exec s = .ok s' () ∧ SpanBuf.Rep cap s' (t ++ op.text)
    else ∃ s', op.exec s = .err s' .eof ∧
      SpanBuf.Rep cap s' (t ++ if fillsUp op then op.text.take (cap - t.length) else []) := by
  by_cases hfit : t.length + op.text.length ≤ cap
  · rw [if_pos hfit]
    obtain ⟨s', hs'⟩ := WOp.exec_accepts (SpanBuf.accepts cap) op hfine h trivial hfit
    have := WOp.exec_wrote (SpanBuf.lawful cap) op hfine h
    rw [hs'] at this
    exact ⟨s', hs', this⟩
  · rw [if_neg hfit]
    have hw := WOp.exec_wrote (SpanBuf.lawful cap) op hfine h
    cases hx : op.exec s with
    | ok s' u =>
      rw [hx] at hw
      have hw : SpanBuf.Rep cap s' (t ++ op.text) := hw
      have h1 := SpanBuf.Rep.length hw
      have h2 := hw.2.2.2.2.1
      rw [List.length_append] at h1
      omega
    | bad b => rw [hx] at hw; exact hw.elim
    | err s' e =>
      by_cases hf : fillsUp op = true
      · have hst : Stopped (SpanBuf.lawful cap) t op.text s' e := by
          cases op with
          | str sv => exact writeStr_stopped _ sv h s' e hx
          | charN c n =>
            have hx : writeCharN c n s = .err s' e := hx
            rw [writeCharN_eq (SpanBuf.lawful cap) c n s t h] at hx
            exact writeStr_stopped _ _ h s' e hx
          | strEscaped sv => exact writeEscaped_stopped _ '"' sv h s' e hx
          | charEscaped c => exact writeEscaped_stopped _ '\'' [c] h s' e hx
          | char c => cases hf
          | area n text => cases hf
          | int ty n base up => cases hf
        obtain ⟨rfl, hr⟩ := span_stopped hst
        exact ⟨s', rfl, by rw [if_pos hf]; exact hr⟩
      · rw [if_neg hf]
        have harea : ∃ n text, text.length = n ∧ writeArea n text s = .err s' e := by
          cases op with
          | char c => exact ⟨1, [c], rfl, hx⟩
          | area n text => exact ⟨n, text, hfine, hx⟩
          | int ty n base up =>
            obtain ⟨h1, h2, h3, h4⟩ := hfine
            obtain ⟨b, rfl⟩ := Int.eq_ofNat_of_zero_le (show 0 ≤ base by omega)
            have hx : writeInt ty n b up s = .err s' e := hx
            rw [writeInt_eq ty n b up h1 h2 (by omega) (by omega)] at hx
            exact ⟨_, _, rfl, hx⟩
          | str sv => exact absurd rfl hf
          | charN c n => exact absurd rfl hf
          | strEscaped sv => exact absurd rfl hf
          | charEscaped c => exact absurd rfl hf
        obtain ⟨n, text, hn, ha⟩ := harea
        unfold writeArea at ha
        cases hm : getWriteAreaOf n s with
        | ok s2 a =>
          rw [M.bind_ok hm, if_pos hn] at ha
          obtain ⟨hl, hst⟩ := (SpanBuf.lawful cap).of_ok h hm
          obtain ⟨s3, h3, _⟩ := putArea_ok (L := SpanBuf.lawful cap) (a := a) (fun d hd => hst d (by omega))
            (d := text) (by omega)
          rw [h3] at ha; cases ha
        | err s2 e2 =>
          rw [M.bind_err hm] at ha
          cases ha
          obtain ⟨rfl, hr⟩ := (SpanBuf.lawful cap).of_err h hm
          exact ⟨_, rfl, by rw [List.append_nil]; exact hr⟩
        | bad b => exact ((SpanBuf.lawful cap).of_bad h hm).elim

/-- What calls leave, in terms of the texts of the model. -/
def cutCalls (room : Nat) : List WOp → Str × Bool
  | [] => ([], true)
  | op :: ops =>
    if op.text.length ≤ room then
      (op.text ++ (cutCalls (room - op.text.length) ops).1, (cutCalls (room - op.text.length) ops).2)
    else (if fillsUp op then op.text.take room else [], false)

theorem cutCalls_eq : ∀ (calls : List WOp) (room : Nat), (∀ op ∈ calls, CallOk op) →
    cutCalls room calls = fixedCalls room calls := by
  intro calls
  induction calls with
  | nil => intros; rfl
  | cons op calls ih =>
    intro room hok
    rw [cutCalls, fixedCalls, callText_eq (hok op (by simp)), ih _ (fun o ho => hok o (by simp [ho]))]

theorem span_calls {cap : Nat} : ∀ (calls : List WOp), (∀ op ∈ calls, op.Fine) → ∀ (s : SpanBuf) (t : Str),
    SpanBuf.Rep cap s t → ∃ s',
    execAll calls s = (if (cutCalls (cap - t.length) calls).2 then .ok s' () else .err s' .eof) ∧
    SpanBuf.Rep cap s' (t ++ (cutCalls (cap - t.length) calls).1) := by
  intro calls
  induction calls with
  | nil => intro _ s t h; exact ⟨s, rfl, by simpa [cutCalls] using h⟩
  | cons op calls ih =>
    intro hok s t h
    have hl := SpanBuf.Rep.length h
    have hcap := h.2.2.2.2.1
    have hc := span_call h op (hok op (by simp))
    rw [execAll, cutCalls]
    by_cases hfit : t.length + op.text.length ≤ cap
    · rw [if_pos hfit] at hc
      obtain ⟨s1, hs1, hr1⟩ := hc
      rw [if_pos (by omega), M.bind_ok hs1]
      obtain ⟨s2, hs2, hr2⟩ := ih (fun o ho => hok o (by simp [ho])) s1 _ hr1
      rw [List.length_append, ← Nat.sub_sub] at hs2 hr2
      exact ⟨s2, hs2, by rw [← List.append_assoc]; exact hr2⟩
    · rw [if_neg hfit] at hc
      obtain ⟨s1, hs1, hr1⟩ := hc
      rw [if_neg (by omega), M.bind_err hs1]
      exact ⟨s1, rfl, hr1⟩

/-- C19 and C20 on a span buffer with any past, in full: the calls stop at the first one whose text does not fit, with
end-of-file; this one has then filled the buffer, if it is a string, repeated characters or escaped text, and has written
nothing, if it is a character, a number or an area. -/
theorem C19_span_buffer_exactly (mem : Str) (ops : List ClientOp) (s : SpanBuf) (t : Str)
    (h : client spanReset ops (SpanBuf.new mem, []) = some (s, t)) (calls : List WOp) (hok : ∀ op ∈ calls, CallOk op) :
    ∃ s', execAll calls s = (if (fixedCalls (mem.length - t.length) calls).2 then .ok s' () else .err s' .eof) ∧
      s'.view = t ++ (fixedCalls (mem.length - t.length) calls).1 := by
  obtain ⟨s', h1, h2⟩ := span_calls calls (fun op ho => callOk_fine (hok op ho)) s t (span_reach h)
  rw [cutCalls_eq calls _ hok] at h1 h2
  exact ⟨s', h1, h2.2.2.2.2.2⟩

/-- An escaped string behind a number, in six characters: the number fits, the string is cut. -/
example : ∃ s', execAll [.int i32 (-42) 10 false, .strEscaped "a\n".toList] (SpanBuf.new "------".toList) =
      .err s' .eof ∧ s'.view = "-42\"a\\".toList := by
  obtain ⟨s', h1, h2⟩ := C19_span_buffer_exactly "------".toList [] _ [] rfl
    [.int i32 (-42) 10 false, .strEscaped "a\n".toList] (by
      intro op ho
      simp only [List.mem_cons, List.not_mem_nil, or_false] at ho
      rcases ho with rfl | rfl
      · exact ⟨by simp [IntTy.Std, i32], by decide, by decide, by decide⟩
      · show ∀ c ∈ "a\n".toList, c.toNat < 256
        decide)
  exact ⟨s', h1, h2⟩

end Emio
