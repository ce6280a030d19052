import Verif.Lemmas.FormatApi
import Verif.Spec.Outcome
/-
Formatting that may fail: the functions of the formatting API for any format string.
-/
namespace Emio
open Reader Spec BufferImpl

/-- Success or failure. -/
def stop {σ : Type} : Option Err → M σ Unit
  | none => pure ()
  | some e => M.throw e

/-- On every buffer formatting writes `text` and comes to an end there: with success, or with the error `fail`. -/
def Settled (str : Str) (args : List FArg) (text : Str) (fail : Option Err) : Prop :=
  ∃ ops, render ops = text ∧ (∀ op ∈ ops, op.Fine) ∧
    ∀ {σ : Type} [BufferImpl σ] (s : σ), formatTo str args s =
      (do execAll ops; stop fail : M σ Unit) s

theorem settled_of_accepted {str : Str} {args : List FArg} {k : Nat} {E : Prop} (hs : ∀ a ∈ args, a.Sound str k E)
    (ht : ∀ a ∈ args, a.Tame) (hv : validateStr str args = .ok () true) : ∃ text fail, Settled str args text fail ∧ (fail = none ∨ fail = some .invalidFormat) := by
  obtain ⟨ops, h1, h2⟩ := formatTo_sound hs ht hv
  rcases h2 with h2 | ⟨_, e, he, h2⟩
  · refine ⟨_, none, ⟨ops, rfl, fun op ho => (h1 op ho).1, fun s => ?_⟩, Or.inl rfl⟩
    rw [h2]
    show _ = M.bind _ _ s
    unfold M.bind
    generalize execAll ops s = x
    cases x <;> rfl
  · subst he
    exact ⟨_, some .invalidFormat, ⟨ops, rfl, fun op ho => (h1 op ho).1, fun s => h2 s⟩, Or.inr rfl⟩

theorem settled_of_refused {str : Str} {args : List FArg} (hv : validateStr str args = .ok () false)
    (hp : ¬ (args.length = 0 ∧ checkIfPlainString str = true)) : Settled str args [] (some .invalidFormat) := by
  refine ⟨[], rfl, by simp, fun s => ?_⟩
  unfold formatTo VStr.make
  rw [if_neg hp, hv]
  rfl

section
variable {str : Str} {args : List FArg} {text : Str} {fail : Option Err}

/-- On any buffer. -/
theorem Settled.wrote (h : Settled str args text fail) {σ : Type} [BufferImpl σ] (L : Lawful σ) {s : σ} {t : Str}
    (hr : L.Rep s t) :
    (∃ s', formatTo str args s = .ok s' () ∧ fail = none ∧ L.Rep s' (t ++ text)) ∨
    (∃ s' e, formatTo str args s = .err s' e ∧ fail = some e ∧ L.Rep s' (t ++ text)) ∨
    (∃ s' p, formatTo str args s = .err s' .eof ∧ p <+: text ∧ L.Fail s' (t ++ p)) := by
  obtain ⟨ops, rfl, h2, h3⟩ := h
  have hw := execAll_wrote L ops h2 s t hr
  rw [h3]
  cases hx : execAll ops s with
  | ok s' u =>
    rw [hx] at hw
    rw [M.bind_ok hx]
    cases fail with
    | none => exact Or.inl ⟨s', rfl, rfl, hw⟩
    | some e => exact Or.inr (Or.inl ⟨s', e, rfl, rfl, hw⟩)
  | err s' e =>
    rw [hx] at hw
    obtain ⟨rfl, p, hp, hf⟩ := hw
    rw [M.bind_err hx]
    exact Or.inr (Or.inr ⟨s', p, rfl, hp, hf⟩)
  | bad b => rw [hx] at hw; exact hw.elim

/-- On a buffer that takes everything. -/
theorem Settled.accepted (h : Settled str args text fail) {σ : Type} [BufferImpl σ] {L : Lawful σ} {room : Option Nat}
    (hA : Accepts L none room) {s : σ} {t : Str} (hr : L.Rep s t) (hroom : leLimit (t.length + text.length) room) :
    ∃ s', L.Rep s' (t ++ text) ∧ formatTo str args s = ended fail s' () := by
  obtain ⟨ops, rfl, h2, h3⟩ := h
  obtain ⟨s', h4, h5⟩ := execAll_accepts hA ops h2 (fun _ _ => trivial) s t hr hroom
  refine ⟨s', h5, ?_⟩
  rw [h3, M.bind_ok h4]
  cases fail <;> rfl

theorem Settled.format (h : Settled str args text fail) :
    formatStr str args = ended fail () text := by
  obtain ⟨s0, a, h0, hr⟩ := MemBuf.rep_new defaultCacheSize 0
  obtain ⟨s', h2, h1⟩ := h.accepted (MemBuf.accepts _) hr trivial
  unfold formatStr
  rw [h0]
  simp only
  rw [h1]
  have : s'.view = [] ++ text := h2.2.2.2.2.2.2.2
  cases fail <;> simp [this, ended]

theorem Settled.size (h : Settled str args text fail) (cache : Str) (hc : cache ≠ []) :
    (formattedSize cache str args = ended fail () text.length) ∨
    formattedSize cache str args = .err () .eof := by
  unfold formattedSize
  rcases h.wrote (CountBuf.lawful cache.length) (CountBuf.rep_new cache hc) with ⟨s', h1, hf, h2⟩ | ⟨s', e, h1, hf, h2⟩ |
    ⟨s', p, h1, _⟩
  · left
    rw [h1, hf]
    have : s'.count = ([] ++ text).length := h2.2.2.2.2.2.2
    simp [this, ended]
  · left; rw [h1, hf]; rfl
  · right; rw [h1]

theorem Settled.iter (h : Settled str args text fail) (cache : Str) (hc : cache ≠ []) :
    Ends text fail (formatToIter cache str args) := by
  unfold formatToIter
  rcases h.wrote (IterBuf.lawful cache.length) (IterBuf.rep_new cache hc) with ⟨s', h1, hf, h2⟩ | ⟨s', e, h1, hf, h2⟩ |
    ⟨s', p, h1, hp, h2⟩
  · rw [h1]
    simp only
    rw [(IterBuf.rep_flush h2).2.2]
    simpa using Ends.done hf
  · rw [h1]
    have h3 : s'.out ++ s'.cache.take s'.base.used = [] ++ text := h2.2.2.2.2.2.2
    exact .refused hf ⟨_, by simpa using h3⟩
  · rw [h1]
    have h3 : s'.out ++ s'.cache.take s'.base.used = [] ++ p := h2.2.2.2.2.2.2
    exact .cut (List.IsPrefix.trans ⟨_, h3⟩ (by simpa using hp))

theorem Settled.toN (h : Settled str args text fail) {π : Type} [BufferImpl π] (L : Lawful π) (cache : Str)
    (hc : cache ≠ []) (prim : π) (p0 : Str) (hp : L.Rep prim p0) (limit : Nat) (hU : Unsplit L cache.length) :
    (∃ prim', formatToN cache limit str args prim = .ok prim' text.length ∧ fail = none ∧
      L.Rep prim' (p0 ++ text.take limit)) ∨
    (∃ prim' e q, formatToN cache limit str args prim = .err prim' e ∧ (e = .eof ∨ fail = some e) ∧
      q <+: text.take limit ∧ L.Fail prim' (p0 ++ q)) := by
  unfold formatToN
  rcases h.wrote (TruncBuf.lawful L cache.length limit p0 hU) (TruncBuf.rep_new L cache prim limit p0 hc hp) with
    ⟨s', h1, hf, h2⟩ | ⟨s', e, h1, hf, h2⟩ | ⟨s', p, h1, hp, q, h2, h3⟩
  · rw [h1]
    simp only
    rcases TruncBuf.rep_flush hU h2 with ⟨s2, h3, h4, h5, h6, h7, _⟩ | ⟨s2, h3, ⟨q, h4, h5⟩, _⟩
    · left
      rw [h3]
      refine ⟨s2.prim, ?_, hf, by simpa using h6⟩
      simp [TruncBuf.count, h5, h7]
    · right
      rw [h3]
      exact ⟨s2.prim, .eof, q, rfl, Or.inl rfl, by simpa using h4, h5⟩
  · right
    rw [h1]
    obtain ⟨q, h3, h4⟩ := (TruncBuf.lawful L cache.length limit p0 hU).rep_fail _ _ h2
    exact ⟨s'.prim, _, q, rfl, Or.inr hf, by simpa using h3, h4⟩
  · right
    rw [h1]
    refine ⟨s'.prim, .eof, q, rfl, Or.inl rfl, h2.trans ?_, h3⟩
    rw [List.nil_append]
    exact hp.take limit

theorem Settled.toNIter (h : Settled str args text fail) (cache : Str) (hc : cache ≠ []) (n : Int) :
    (∃ it, formatToNIter cache n str args = .ok () it ∧ fail = none ∧ it.out = text.take n.toNat ∧
      it.count = text.length) ∨
    formatToNIter cache n str args = .err () .eof ∨ ∃ e, fail = some e ∧ formatToNIter cache n str args = .err () e := by
  unfold formatToNIter
  rcases h.wrote (IterBuf.lawful cache.length) (IterBuf.rep_new cache hc) with ⟨s', h1, hf, h2⟩ | ⟨s', e, h1, hf, h2⟩ |
    ⟨s', p, h1, hp, h2⟩
  · left
    rw [h1]
    simp only
    rw [(IterBuf.rep_flush h2).2.2, TruncIt.copy_eq]
    exact ⟨_, rfl, hf, by simp [TruncIt.new], by simp [TruncIt.new]⟩
  · rw [h1]; exact Or.inr (Or.inr ⟨e, hf, rfl⟩)
  · rw [h1]; exact Or.inr (Or.inl rfl)

theorem Settled.toNPtr (h : Settled str args text fail) (cache : Str) (hc : cache ≠ []) (n : Int) (mem : Str)
    (hm : min n.toNat text.length ≤ mem.length) :
    (∃ it, formatToNPtr cache mem n str args = .ok () it ∧ fail = none ∧ it.count = text.length ∧
      it.pos = min n.toNat text.length ∧ it.mem = text.take n.toNat ++ mem.drop (min n.toNat text.length)) ∨
    formatToNPtr cache mem n str args = .err () .eof ∨
      ∃ e, fail = some e ∧ formatToNPtr cache mem n str args = .err () e := by
  unfold formatToNPtr
  rcases h.wrote (IterBuf.lawful cache.length) (IterBuf.rep_new cache hc) with ⟨s', h1, hf, h2⟩ | ⟨s', e, h1, hf, h2⟩ |
    ⟨s', p, h1, hp, h2⟩
  · left
    rw [h1]
    simp only
    rw [(IterBuf.rep_flush h2).2.2]
    obtain ⟨it, g1, g2, g3, g4⟩ := TruncPtr.copy_eq text (TruncPtr.new mem n) (by simp [TruncPtr.new])
      (by simpa [TruncPtr.new] using hm)
    simp only [List.nil_append]
    rw [g1]
    exact ⟨it, rfl, hf, by simpa [TruncPtr.new] using g2, by simpa [TruncPtr.new] using g3,
      by simpa [TruncPtr.new] using g4⟩
  · rw [h1]; exact Or.inr (Or.inr ⟨e, hf, rfl⟩)
  · rw [h1]; exact Or.inr (Or.inl rfl)

theorem Settled.print (h : Settled str args text fail) (cache : Str) (hc : cache ≠ []) (io : List Nat) :
    Ends text fail (vprint cache (some io) str args) := by
  unfold vprint
  simp only
  rcases h.wrote (FileBuf.lawful cache.length false) (FileBuf.rep_new cache io false hc (fun h => by cases h)) with
    ⟨s', h1, hf, h2⟩ | ⟨s', e, h1, hf, h2⟩ | ⟨s', p, h1, hp, h2⟩
  · rw [h1]
    simp only
    rcases FileBuf.rep_flush h2 with ⟨s2, h3, _, h4, _⟩ | ⟨s2, h3, h4, _⟩
    · rw [h3]
      simp only [h4, List.nil_append]
      exact .done hf
    · rw [h3]
      exact .cut (by simpa using h4)
  · rw [h1]
    exact .refused hf ((FileBuf.lawful cache.length false).rep_fail _ _ h2)
  · rw [h1]
    exact .cut (List.IsPrefix.trans (show s'.file <+: p from h2) hp)

theorem Settled.println (h : Settled str args text fail) (cache : Str) (hc : cache ≠ []) (io : List Nat) :
    Ends (text ++ ['\n']) fail (vprintln cache (some io) str args) := by
  unfold vprintln
  simp only
  have hpre : text <+: text ++ ['\n'] := List.prefix_append _ _
  rcases h.wrote (FileBuf.lawful cache.length false) (FileBuf.rep_new cache io false hc (fun h => by cases h)) with
    ⟨s', h1, hf, h2⟩ | ⟨s', e, h1, hf, h2⟩ | ⟨s', p, h1, hp, h2⟩
  · rw [M.bind_ok h1]
    have hw := writeArea_wrote (FileBuf.lawful cache.length false) h2 1 ['\n'] rfl
    cases hx : writeArea 1 ['\n'] s' with
    | ok s3 u =>
      rw [hx] at hw
      rw [M.bind_ok hx]
      rcases FileBuf.rep_flush hw with ⟨s2, h3, _, h4, _⟩ | ⟨s2, h3, h4, _⟩
      · rw [h3]
        simp only [h4, List.nil_append]
        exact .done hf
      · rw [h3]
        exact .cut (by simpa using h4)
    | err s3 e =>
      rw [hx] at hw
      obtain ⟨rfl, p, hp, _, hw⟩ := hw
      rw [M.bind_err hx]
      refine .cut (List.IsPrefix.trans hw ?_)
      simpa using hp
    | bad b => rw [hx] at hw; exact hw.elim
  · rw [M.bind_err h1]
    refine .refused hf (List.IsPrefix.trans ?_ hpre)
    exact (FileBuf.lawful cache.length false).rep_fail _ _ h2
  · rw [M.bind_err h1]
    exact .cut (List.IsPrefix.trans (show s'.file <+: p from h2) (hp.trans hpre))

theorem Settled.ptr (h : Settled str args text fail) (mem : Nat → Char) (hl : text.length ≤ 2 ^ 64 - 1) (p : PtrBuf) :
    ∃ s', s'.view = text ∧ formatToPtr mem str args p = ended fail s' text.length := by
  obtain ⟨s', h2, h1⟩ := h.accepted PtrBuf.accepts (PtrBuf.rep_new mem) (by simpa [leLimit] using hl)
  refine ⟨s', by simpa using h2.2.2.2.2, ?_⟩
  unfold formatToPtr
  rw [h1]
  have := PtrBuf.rep_length h2
  have he : s'.out = s'.base.used := rfl
  cases fail
  · simp only [ended]
    rw [he, ← this]
    simp
  · rfl

end
end Emio
