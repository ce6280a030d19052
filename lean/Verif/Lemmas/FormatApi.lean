import Verif.Lemmas.Format
import Verif.Props.Writer
/-
The functions of the formatting API, given what formatting does on buffers.
-/
namespace Emio
open Reader Spec BufferImpl

theorem Formats.mono {str : Str} {args : List FArg} {text : Str} {k k' : Nat} (h : Formats str args text k) (hk : k ≤ k') :
    Formats str args text k' := by
  obtain ⟨ops, h1, h2, h3⟩ := h
  exact ⟨ops, h1, fun op ho => ⟨(h2 op ho).1, Nat.le_trans (h2 op ho).2 hk⟩, h3⟩

/-- On a buffer that takes the text. -/
theorem Formats.accepted {str : Str} {args : List FArg} {text : Str} {k : Nat} (h : Formats str args text k)
    {σ : Type} [BufferImpl σ] {L : Lawful σ} {chunk room : Option Nat} (hA : Accepts L chunk room) (hk : leLimit k chunk)
    {s : σ} {t : Str} (hr : L.Rep s t) (hroom : leLimit (t.length + text.length) room) :
    ∃ s', formatTo str args s = .ok s' () ∧ L.Rep s' (t ++ text) := by
  obtain ⟨ops, rfl, h2, h3⟩ := h
  rw [h3]
  exact execAll_accepts hA ops (fun op ho => (h2 op ho).1) (fun op ho => leLimit_mono (h2 op ho).2 hk) s t hr hroom

/-- On any buffer. -/
theorem Formats.wrote {str : Str} {args : List FArg} {text : Str} {k : Nat} (h : Formats str args text k)
    {σ : Type} [BufferImpl σ] (L : Lawful σ) {s : σ} {t : Str} (hr : L.Rep s t) :
    match formatTo str args s with
    | .ok s' _ => L.Rep s' (t ++ text)
    | .err s' e => e = .eof ∧ ∃ p, p <+: text ∧ L.Fail s' (t ++ p)
    | .bad _ => False := by
  obtain ⟨ops, rfl, h2, h3⟩ := h
  rw [h3]
  exact execAll_wrote L ops (fun op ho => (h2 op ho).1) s t hr

theorem Formats.str {str : Str} {args : List FArg} {text : Str} {k : Nat} (h : Formats str args text k) :
    formatStr str args = .ok () text := by
  obtain ⟨s0, a, h0, hr⟩ := MemBuf.rep_new defaultCacheSize 0
  obtain ⟨s', h1, h2⟩ := h.accepted (MemBuf.accepts _) trivial hr trivial
  unfold formatStr
  rw [h0]
  simp only
  rw [h1]
  have : s'.view = [] ++ text := h2.2.2.2.2.2.2.2
  simp [this]

theorem Formats.size {str : Str} {args : List FArg} {text : Str} {k : Nat} (h : Formats str args text k) (cache : Str)
    (hc : cache ≠ []) (hk : k ≤ cache.length) : formattedSize cache str args = .ok () text.length := by
  obtain ⟨s', h1, h2⟩ := h.accepted (CountBuf.accepts cache.length) hk (CountBuf.rep_new cache hc) trivial
  unfold formattedSize
  rw [h1]
  have : s'.count = ([] ++ text).length := h2.2.2.2.2.2.2
  simp [this]

theorem Formats.iter {str : Str} {args : List FArg} {text : Str} {k : Nat} (h : Formats str args text k) (cache : Str)
    (hc : cache ≠ []) (hk : k ≤ cache.length) : formatToIter cache str args = .ok text () := by
  obtain ⟨s', h1, h2⟩ := h.accepted (IterBuf.accepts cache.length) hk (IterBuf.rep_new cache hc) trivial
  unfold formatToIter
  rw [h1]
  simp only
  rw [(IterBuf.rep_flush h2).2.2]
  simp

theorem Formats.ptr {str : Str} {args : List FArg} {text : Str} {k : Nat} (h : Formats str args text k)
    (mem : Nat → Char) (hl : text.length ≤ 2 ^ 64 - 1) (p : PtrBuf) :
    ∃ s', formatToPtr mem str args p = .ok s' text.length ∧ s'.view = text := by
  obtain ⟨s', h1, h2⟩ := h.accepted PtrBuf.accepts trivial (PtrBuf.rep_new mem) (by simpa [leLimit] using hl)
  refine ⟨s', ?_, by simpa using h2.2.2.2.2⟩
  unfold formatToPtr
  rw [h1]
  have := PtrBuf.rep_length h2
  simp only
  have he : s'.out = s'.base.used := rfl
  rw [he, ← this]
  simp

theorem Formats.toN {str : Str} {args : List FArg} {text : Str} {k : Nat} (h : Formats str args text k)
    {π : Type} [BufferImpl π] (L : Lawful π) (cache : Str) (hc : cache ≠ []) (hk : k ≤ cache.length) (prim : π) (p0 : Str)
    (hp : L.Rep prim p0) (limit : Nat) (hU : Unsplit L cache.length) (hT : Takes L limit p0) :
    ∃ prim', formatToN cache limit str args prim = .ok prim' text.length ∧ L.Rep prim' (p0 ++ text.take limit) := by
  obtain ⟨s', h1, h2⟩ := h.accepted (TruncBuf.accepts L cache.length limit p0 hU hT) hk
    (TruncBuf.rep_new L cache prim limit p0 hc hp) trivial
  obtain ⟨s2, hf, hr, hpr, hcnt⟩ := TruncBuf.flush_ok hU hT h2
  refine ⟨s2.prim, ?_, by simpa using hpr⟩
  unfold formatToN
  rw [h1]
  simp only
  rw [hf]
  simp only
  rw [hcnt]
  simp

/-- The primary buffer has to take no more than the first characters of the text. -/
theorem Formats.toNRoom {str : Str} {args : List FArg} {text : Str} {k : Nat} (h : Formats str args text k)
    {π : Type} [BufferImpl π] (L : Lawful π) (cache : Str) (hc : cache ≠ []) (hk : k ≤ cache.length) (prim : π) (p0 : Str)
    (hp : L.Rep prim p0) (limit : Nat) (hU : Unsplit L cache.length) (hT : Takes L (min limit text.length) p0) :
    ∃ prim', formatToN cache limit str args prim = .ok prim' text.length ∧ L.Rep prim' (p0 ++ text.take limit) := by
  obtain ⟨s', h1, h2⟩ := h.accepted (TruncBuf.acceptsRoom L cache.length limit text.length p0 hU hT) hk
    (TruncBuf.rep_new L cache prim limit p0 hc hp) (by simp [leLimit])
  rw [List.nil_append] at h2
  have h2 : TruncBuf.Rep L cache.length limit p0 s' text := h2
  rcases TruncBuf.rep_flush hU h2 with ⟨s2, hf, hrep, hu, hpr, hul, hcl⟩ | ⟨s2, hf, hp, p, q, m, p', g1, g2, g3⟩
  · refine ⟨s2.prim, ?_, hpr⟩
    unfold formatToN
    rw [h1]
    simp only
    rw [hf]
    simp [TruncBuf.count, hu, hul]
  · exact absurd g3 (hT p q m p' g1 g2)

/-- Whatever the primary buffer takes: the first characters of the text and its size, or end-of-file and a beginning of
them. -/
theorem Formats.toNWrote {str : Str} {args : List FArg} {text : Str} {k : Nat} (h : Formats str args text k)
    {π : Type} [BufferImpl π] (L : Lawful π) (cache : Str) (hc : cache ≠ []) (prim : π) (p0 : Str)
    (hp : L.Rep prim p0) (limit : Nat) (hU : Unsplit L cache.length) :
    (∃ prim', formatToN cache limit str args prim = .ok prim' text.length ∧ L.Rep prim' (p0 ++ text.take limit)) ∨
    ∃ prim' q, formatToN cache limit str args prim = .err prim' .eof ∧ q <+: text.take limit ∧ L.Fail prim' (p0 ++ q) := by
  have hw := h.wrote (TruncBuf.lawful L cache.length limit p0 hU) (TruncBuf.rep_new L cache prim limit p0 hc hp)
  unfold formatToN
  cases hx : formatTo str args (TruncBuf.new cache prim limit) with
  | ok s' u =>
    rw [hx] at hw
    have h2 : TruncBuf.Rep L cache.length limit p0 s' text := by rw [← List.nil_append text]; exact hw
    simp only
    rcases TruncBuf.rep_flush hU h2 with ⟨s2, hf, hrep, hu, hpr, hul, hcl⟩ | ⟨s2, hf, ⟨q, hq, hfl⟩, _⟩
    · left
      rw [hf]
      exact ⟨s2.prim, by simp [TruncBuf.count, hu, hul], hpr⟩
    · right
      rw [hf]
      exact ⟨s2.prim, q, rfl, hq, hfl⟩
  | err s' e =>
    rw [hx] at hw
    obtain ⟨rfl, p, hpt, q, hq, hfl⟩ := hw
    right
    refine ⟨s'.prim, q, rfl, hq.trans ?_, hfl⟩
    rw [List.nil_append]
    obtain ⟨r, rfl⟩ := hpt
    rw [List.take_append]
    exact List.prefix_append _ _
  | bad b => rw [hx] at hw; exact hw.elim

/-! ### Truncating iterators -/

theorem TruncIt.copy_eq (t : Str) : ∀ (it : TruncIt), it.copy t =
    { it with out := it.out ++ t.take (it.limit - it.count).toNat, count := it.count + t.length } := by
  induction t with
  | nil => intro it; simp [TruncIt.copy]
  | cons c t ih =>
    intro it
    have : it.copy (c :: t) = (it.put c).copy t := rfl
    rw [this, ih]
    unfold TruncIt.put
    simp only [TruncIt.mk.injEq, List.length_cons, true_and]
    constructor
    · split
      · rename_i hlt
        have e : (it.limit - (it.count : Int)).toNat = (it.limit - ((it.count + 1 : Nat) : Int)).toNat + 1 := by omega
        rw [e, List.take_succ_cons]
        simp
      · rename_i hge
        have e : (it.limit - (it.count : Int)).toNat = 0 := by omega
        have e' : (it.limit - ((it.count + 1 : Nat) : Int)).toNat = 0 := by omega
        rw [e, e']
        simp
    · omega

theorem TruncPtr.copy_eq (t : Str) : ∀ (it : TruncPtr), it.pos ≤ it.mem.length →
    min (it.limit - it.count).toNat t.length ≤ it.mem.length - it.pos →
    ∃ it', it.copy t = some it' ∧ it'.count = it.count + t.length ∧
      it'.pos = it.pos + min (it.limit - it.count).toNat t.length ∧
      it'.mem = it.mem.take it.pos ++ t.take (it.limit - it.count).toNat ++
        it.mem.drop (it.pos + min (it.limit - it.count).toNat t.length) := by
  induction t with
  | nil =>
    intro it _ _
    exact ⟨it, rfl, by simp, by simp, by simp⟩
  | cons c t ih =>
    intro it hpos hroom
    simp only [List.length_cons] at hroom
    unfold TruncPtr.copy TruncPtr.assign
    by_cases hlt : (it.count : Int) < it.limit
    · have e : (it.limit - (it.count : Int)).toNat = (it.limit - ((it.count + 1 : Nat) : Int)).toNat + 1 := by omega
      have hp : it.pos < it.mem.length := by omega
      rw [if_pos hlt, if_pos hp]
      simp only [Option.bind_some]
      unfold TruncPtr.next
      simp only [if_pos hlt]
      obtain ⟨it', h1, h2, h3, h4⟩ := ih ⟨it.mem.set it.pos c, it.pos + 1, it.limit, it.count + 1, it.blackHole⟩
        (by simp; omega) (by simp; omega)
      refine ⟨it', h1, by rw [h2, List.length_cons]; simp; omega, ?_, ?_⟩
      · rw [h3, List.length_cons]
        simp only
        omega
      · rw [h4]
        simp only
        rw [e, List.take_succ_cons, List.length_cons]
        generalize (it.limit - ((it.count + 1 : Nat) : Int)).toNat = n at *
        have e2 : it.pos + min (n + 1) (t.length + 1) = it.pos + 1 + min n t.length := by omega
        rw [e2]
        have e3 : (it.mem.set it.pos c).take (it.pos + 1) = it.mem.take it.pos ++ [c] := by
          rw [List.set_eq_take_append_cons_drop, if_pos hp, List.take_append]
          have : (it.mem.take it.pos).length = it.pos := by simp; omega
          rw [this, List.take_of_length_le (by omega)]
          simp
        rw [e3, List.drop_set_of_lt (by omega)]
        simp
    · have e : (it.limit - (it.count : Int)).toNat = 0 := by omega
      have e' : (it.limit - ((it.count + 1 : Nat) : Int)).toNat = 0 := by omega
      rw [if_neg hlt]
      simp only [Option.bind_some]
      unfold TruncPtr.next
      simp only [if_neg hlt]
      obtain ⟨it', h1, h2, h3, h4⟩ := ih ⟨it.mem, it.pos, it.limit, it.count + 1, c⟩ hpos (by rw [e']; simp)
      refine ⟨it', h1, by rw [h2, List.length_cons]; simp; omega, ?_, ?_⟩
      · rw [h3]; simp only; rw [e, e']; simp
      · rw [h4]; simp only; rw [e, e']; simp

theorem Formats.toNIter {str : Str} {args : List FArg} {text : Str} {k : Nat} (h : Formats str args text k) (cache : Str)
    (hc : cache ≠ []) (hk : k ≤ cache.length) (n : Int) :
    ∃ it, formatToNIter cache n str args = .ok () it ∧ it.out = text.take n.toNat ∧ it.count = text.length := by
  obtain ⟨s', h1, h2⟩ := h.accepted (IterBuf.accepts cache.length) hk (IterBuf.rep_new cache hc) trivial
  unfold formatToNIter
  rw [h1]
  simp only
  rw [(IterBuf.rep_flush h2).2.2, TruncIt.copy_eq]
  exact ⟨_, rfl, by simp [TruncIt.new], by simp [TruncIt.new]⟩

theorem Formats.toNPtr {str : Str} {args : List FArg} {text : Str} {k : Nat} (h : Formats str args text k) (cache : Str)
    (hc : cache ≠ []) (hk : k ≤ cache.length) (n : Int) (mem : Str) (hm : min n.toNat text.length ≤ mem.length) :
    ∃ it, formatToNPtr cache mem n str args = .ok () it ∧ it.count = text.length ∧ it.pos = min n.toNat text.length ∧
      it.mem = text.take n.toNat ++ mem.drop (min n.toNat text.length) := by
  obtain ⟨s', h1, h2⟩ := h.accepted (IterBuf.accepts cache.length) hk (IterBuf.rep_new cache hc) trivial
  unfold formatToNPtr
  rw [h1]
  simp only
  rw [(IterBuf.rep_flush h2).2.2]
  obtain ⟨it, g1, g2, g3, g4⟩ := TruncPtr.copy_eq text (TruncPtr.new mem n) (by simp [TruncPtr.new])
    (by simpa [TruncPtr.new] using hm)
  simp only [List.nil_append]
  rw [g1]
  exact ⟨it, rfl, by simpa [TruncPtr.new] using g2, by simpa [TruncPtr.new] using g3, by simpa [TruncPtr.new] using g4⟩

/-! ### Files -/

theorem Formats.print {str : Str} {args : List FArg} {text : Str} {k : Nat} (h : Formats str args text k) (cache : Str)
    (hc : cache ≠ []) (hk : k ≤ cache.length) : vprint cache (some []) str args = .ok text () := by
  obtain ⟨s', h1, h2⟩ := h.accepted (FileBuf.acceptsOk cache.length) hk (FileBuf.rep_new cache [] true hc (fun _ => rfl))
    trivial
  unfold vprint
  simp only
  rw [h1]
  simp only
  rcases FileBuf.rep_flush h2 with ⟨s2, hf, hrep, hfile, _⟩ | ⟨s2, hf, hp, hio⟩
  · rw [hf]
    simp [hfile]
  · exact absurd (h2.2.2.2.2.2.2.1 rfl) hio

theorem Formats.println {str : Str} {args : List FArg} {text : Str} {k : Nat} (h : Formats str args text k) (cache : Str)
    (hc : cache ≠ []) (hk : k ≤ cache.length) : vprintln cache (some []) str args = .ok (text ++ ['\n']) () := by
  obtain ⟨s', h1, h2⟩ := h.accepted (FileBuf.acceptsOk cache.length) hk (FileBuf.rep_new cache [] true hc (fun _ => rfl))
    trivial
  unfold vprintln
  simp only
  rw [M.bind_ok h1]
  have hcl : 1 ≤ cache.length := List.length_pos_iff.2 hc
  obtain ⟨s3, hw⟩ := writeArea_accepts (FileBuf.acceptsOk cache.length) h2 ['\n'] hcl trivial
  have hr3 := writeArea_wrote (FileBuf.lawfulOk cache.length) h2 1 ['\n'] rfl
  have hw : writeArea 1 ['\n'] s' = .ok s3 () := hw
  rw [hw] at hr3
  have hr3 : FileBuf.Rep cache.length true s3 ([] ++ text ++ ['\n']) := hr3
  rw [M.bind_ok hw]
  rcases FileBuf.rep_flush hr3 with ⟨s4, hf, hrep, hfile, _⟩ | ⟨s4, hf, hp, hio⟩
  · rw [hf]
    simp [hfile]
  · exact absurd (hr3.2.2.2.2.2.2.1 rfl) hio

end Emio
