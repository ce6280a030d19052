import Verif.Model.Buffer
/-
Helper lemmas about buffers: a common contract (`Lawful`) and its proof for every buffer of the library.
-/
namespace Emio
open BufferImpl

/-! ### Memory blocks -/

theorem overwrite_some {mem : Str} {i : Nat} {d : Str} (h : i + d.length ≤ mem.length) :
    ∃ m, overwrite mem i d = some m ∧ m.length = mem.length ∧ m.take (i + d.length) = mem.take i ++ d ∧
      m.take i = mem.take i ∧ m.drop (i + d.length) = mem.drop (i + d.length) := by
  refine ⟨_, by rw [overwrite, if_pos h], ?_, ?_, ?_, ?_⟩
  · simp; omega
  · rw [List.take_append_of_le_length (by simp; omega)]
    rw [List.take_of_length_le (by simp; omega)]
  · rw [List.append_assoc, List.take_append_of_le_length (by simp; omega), List.take_take, Nat.min_self]
  · have hl : (mem.take i ++ d).length = i + d.length := by simp; omega
    rw [← hl, List.drop_left]

theorem length_of_take_eq {mem t : Str} {n : Nat} (h : mem.take n = t) (hn : n ≤ mem.length) : t.length = n := by
  rw [← h]; simp; omega

/-! ### The contract of a buffer -/

section
variable {σ : Type} [BufferImpl σ]

theorem max_here {s : σ} {n : Nat} (h : n ≤ (BufferImpl.base s).len - (BufferImpl.base s).used) :
    getWriteAreaOfMax n s =
      .ok (setBase s { BufferImpl.base s with used := (BufferImpl.base s).used + n }) ⟨(BufferImpl.base s).off + (BufferImpl.base s).used, n⟩ := by
  unfold getWriteAreaOfMax
  simp only
  rw [if_pos (Or.inl h), if_neg (by omega)]
  rw [show min ((BufferImpl.base s).len - (BufferImpl.base s).used) n = n by omega]

theorem max_fixed {s : σ} {n : Nat} (hf : (BufferImpl.base s).fixed = true) (hn : 0 < n)
    (h : (BufferImpl.base s).len - (BufferImpl.base s).used < n) :
    getWriteAreaOfMax n s =
      if (BufferImpl.base s).len - (BufferImpl.base s).used = 0 then .err s .eof
      else .ok (setBase s { BufferImpl.base s with used := (BufferImpl.base s).used + ((BufferImpl.base s).len - (BufferImpl.base s).used) })
        ⟨(BufferImpl.base s).off + (BufferImpl.base s).used, (BufferImpl.base s).len - (BufferImpl.base s).used⟩ := by
  unfold getWriteAreaOfMax
  simp only
  rw [if_pos (Or.inr hf)]
  by_cases h0 : (BufferImpl.base s).len - (BufferImpl.base s).used = 0
  · rw [if_pos ⟨h0, by omega⟩, if_pos h0]
  · rw [if_neg (by simp [h0]), if_neg h0]
    rw [show min ((BufferImpl.base s).len - (BufferImpl.base s).used) n = (BufferImpl.base s).len - (BufferImpl.base s).used by omega]

theorem max_request {s : σ} {n : Nat} (hf : (BufferImpl.base s).fixed = false) (h : (BufferImpl.base s).len - (BufferImpl.base s).used < n) :
    getWriteAreaOfMax n s = match request (BufferImpl.base s).used n s with
      | .ok s' area => .ok (setBase s' { BufferImpl.base s' with used := (BufferImpl.base s').used + area.len }) area
      | .err s' e => .err s' e
      | .bad b => .bad b := by
  unfold getWriteAreaOfMax
  simp only
  rw [if_neg (by rw [hf]; simp; omega)]
  cases request (BufferImpl.base s).used n s <;> rfl

end

/-- The contract every buffer keeps: `Rep s t` - the buffer in state `s` has received the text `t`; `Fail s t` - the
buffer has received `t` and then reported an error. -/
structure Lawful (σ : Type) [BufferImpl σ] where
  Rep : σ → Str → Prop
  Fail : σ → Str → Prop
  rep_fail : ∀ s t, Rep s t → Fail s t
  /-- After an area was too small and has been given back. -/
  Back : σ → Str → Prop := Rep
  back_fail : ∀ s t, Back s t → Fail s t := by exact fun _ _ h => h
  max : ∀ s t n, Rep s t → match getWriteAreaOfMax n s with
    | .ok s' a => a.len ≤ n ∧ (0 < n → 0 < a.len) ∧
        (∀ d : Str, d.length = a.len → ∃ s'', store s' a.off d = some s'' ∧ Rep s'' (t ++ d)) ∧
        (a.len < n → Back (giveBack a.len s') t)
    | .err s' e => e = .eof ∧ Fail s' t
    | .bad _ => False

/-- `n` is at most the limit, if there is one. -/
def leLimit (n : Nat) : Option Nat → Prop
  | none => True
  | some c => n ≤ c

theorem leLimit_mono {a b : Nat} (h : a ≤ b) : ∀ {c : Option Nat}, leLimit b c → leLimit a c
  | none, _ => trivial
  | some _, hc => Nat.le_trans h hc

/-- The buffer takes texts of total length up to `room`, handing out areas of the requested size up to size `chunk`. -/
def Accepts {σ : Type} [BufferImpl σ] (L : Lawful σ) (chunk room : Option Nat) : Prop :=
  ∀ s t n, L.Rep s t → leLimit (t.length + n) room →
    ∃ s' a, getWriteAreaOfMax n s = .ok s' a ∧ (leLimit n chunk → a.len = n)

section
variable {σ : Type} [BufferImpl σ]

theorem Lawful.max_ok (L : Lawful σ) {s s' : σ} {t : Str} {n : Nat} {a : Area} (h : L.Rep s t)
    (hm : getWriteAreaOfMax n s = .ok s' a) : a.len ≤ n ∧ (0 < n → 0 < a.len) ∧
        (∀ d : Str, d.length = a.len → ∃ s'', store s' a.off d = some s'' ∧ L.Rep s'' (t ++ d)) ∧
        (a.len < n → L.Back (giveBack a.len s') t) := by
  have := L.max s t n h; rw [hm] at this; exact this

theorem Lawful.max_err (L : Lawful σ) {s s' : σ} {t : Str} {n : Nat} {e : Err} (h : L.Rep s t)
    (hm : getWriteAreaOfMax n s = .err s' e) : e = .eof ∧ L.Fail s' t := by
  have := L.max s t n h; rw [hm] at this; exact this

theorem Lawful.max_bad (L : Lawful σ) {s : σ} {t : Str} {n : Nat} {b : Bad} (h : L.Rep s t)
    (hm : getWriteAreaOfMax n s = .bad b) : False := by
  have := L.max s t n h; rw [hm] at this; exact this

/-- `get_write_area_of` under the contract. -/
theorem Lawful.of_spec (L : Lawful σ) (s : σ) (t : Str) (n : Nat) (h : L.Rep s t) :
    match getWriteAreaOf n s with
    | .ok s' a => a.len = n ∧ ∀ d : Str, d.length = n → ∃ s'', store s' a.off d = some s'' ∧ L.Rep s'' (t ++ d)
    | .err s' e => e = .eof ∧ L.Fail s' t
    | .bad _ => False := by
  unfold getWriteAreaOf
  cases hm : getWriteAreaOfMax n s with
  | ok s' a =>
    obtain ⟨h1, h2, h3, h4⟩ := L.max_ok h hm
    simp only
    by_cases hlt : a.len < n
    · rw [if_pos hlt]
      exact ⟨rfl, L.back_fail _ _ (h4 hlt)⟩
    · rw [if_neg hlt]
      have : a.len = n := by omega
      exact ⟨this, fun d hd => h3 d (by omega)⟩
  | err s' e => exact L.max_err h hm
  | bad b => exact (L.max_bad h hm).elim

theorem Lawful.of_ok (L : Lawful σ) {s s' : σ} {t : Str} {n : Nat} {a : Area} (h : L.Rep s t)
    (hm : getWriteAreaOf n s = .ok s' a) : a.len = n ∧
        ∀ d : Str, d.length = n → ∃ s'', store s' a.off d = some s'' ∧ L.Rep s'' (t ++ d) := by
  have := L.of_spec s t n h; rw [hm] at this; exact this

theorem Lawful.of_err (L : Lawful σ) {s s' : σ} {t : Str} {n : Nat} {e : Err} (h : L.Rep s t)
    (hm : getWriteAreaOf n s = .err s' e) : e = .eof ∧ L.Fail s' t := by
  have := L.of_spec s t n h; rw [hm] at this; exact this

theorem Lawful.of_bad (L : Lawful σ) {s : σ} {t : Str} {n : Nat} {b : Bad} (h : L.Rep s t)
    (hm : getWriteAreaOf n s = .bad b) : False := by
  have := L.of_spec s t n h; rw [hm] at this; exact this

/-- An accepting buffer gives out areas of the requested size. -/
theorem Accepts.of_ok {L : Lawful σ} {chunk room : Option Nat} (hA : Accepts L chunk room) {s : σ} {t : Str} {n : Nat}
    (h : L.Rep s t) (hc : leLimit n chunk) (hr : leLimit (t.length + n) room) :
    ∃ s' a, getWriteAreaOf n s = .ok s' a := by
  obtain ⟨s', a, hm, hl⟩ := hA s t n h hr
  refine ⟨s', a, ?_⟩
  unfold getWriteAreaOf
  rw [hm]
  simp only
  rw [if_neg (by have := hl hc; omega)]

end

/-! ### span_buffer and static_buffer -/

/-- State of a span buffer over `cap` characters that has received `t`. -/
def SpanBuf.Rep (cap : Nat) (s : SpanBuf) (t : Str) : Prop :=
  s.base.fixed = true ∧ s.base.off = 0 ∧ s.base.len = cap ∧ s.mem.length = cap ∧ s.base.used ≤ cap ∧
    s.mem.take s.base.used = t

theorem SpanBuf.Rep.length {cap : Nat} {s : SpanBuf} {t : Str} (h : SpanBuf.Rep cap s t) : t.length = s.base.used := by
  obtain ⟨_, _, _, h4, h5, h6⟩ := h
  exact length_of_take_eq h6 (by omega)

theorem SpanBuf.rep_fill {cap : Nat} {s : SpanBuf} {t : Str} (h : SpanBuf.Rep cap s t) (k : Nat)
    (hk : s.base.used + k ≤ cap) (d : Str) (hd : d.length = k) :
    ∃ s'', store (setBase s { BufferImpl.base s with used := (BufferImpl.base s).used + k }) ((BufferImpl.base s).off + (BufferImpl.base s).used) d = some s'' ∧
      SpanBuf.Rep cap s'' (t ++ d) := by
  obtain ⟨h1, h2, h3, h4, h5, h6⟩ := h
  obtain ⟨m, hm, hl, ht, _, _⟩ := overwrite_some (mem := s.mem) (i := s.base.used) (d := d) (by omega)
  refine ⟨⟨{ s.base with used := s.base.used + k }, m⟩, ?_, h1, h2, h3, by simp only; omega, by simp only; omega, ?_⟩
  · simp only [BufferImpl.store, BufferImpl.setBase, BufferImpl.base, h2, Nat.zero_add, hm]
    rfl
  · simp only; rw [← hd, ht, h6]

def SpanBuf.lawful (cap : Nat) : Lawful SpanBuf where
  Rep := SpanBuf.Rep cap
  Fail := SpanBuf.Rep cap
  rep_fail _ _ h := h
  max s t n h := by
    have hb : (BufferImpl.base s) = s.base := rfl
    by_cases hn : n ≤ (BufferImpl.base s).len - (BufferImpl.base s).used
    · rw [max_here hn]
      have hfill := SpanBuf.rep_fill h n (by obtain ⟨_, _, h3, _, h5, _⟩ := h; rw [hb] at hn; omega)
      exact ⟨Nat.le_refl _, fun h => h, hfill, fun h => absurd h (Nat.lt_irrefl _)⟩
    · have hf : (BufferImpl.base s).fixed = true := h.1
      rw [max_fixed hf (by omega) (by omega)]
      by_cases h0 : (BufferImpl.base s).len - (BufferImpl.base s).used = 0
      · rw [if_pos h0]; exact ⟨rfl, h⟩
      · rw [if_neg h0]
        have hfill := SpanBuf.rep_fill h ((BufferImpl.base s).len - (BufferImpl.base s).used)
          (by obtain ⟨_, _, h3, _, h5, _⟩ := h; rw [hb]; omega)
        refine ⟨by simp only; omega, fun _ => by simp only; omega, hfill, fun _ => ?_⟩
        obtain ⟨h1, h2, h3, h4, h5, h6⟩ := h
        refine ⟨h1, h2, h3, h4, ?_, ?_⟩
        · simp only [giveBack, BufferImpl.setBase, BufferImpl.base]; omega
        · simp only [giveBack, BufferImpl.setBase, BufferImpl.base]
          rw [Nat.add_sub_cancel]; exact h6

theorem SpanBuf.accepts (cap : Nat) : Accepts (SpanBuf.lawful cap) none (some cap) := by
  intro s t n h hr
  have hl := SpanBuf.Rep.length h
  have hb : (BufferImpl.base s) = s.base := rfl
  have h3 := h.2.2.1
  simp only [leLimit] at hr
  exact ⟨_, _, max_here (by rw [hb]; omega), fun _ => rfl⟩

theorem SpanBuf.rep_new (mem : Str) : SpanBuf.Rep mem.length (SpanBuf.new mem) [] :=
  ⟨rfl, rfl, rfl, rfl, Nat.zero_le _, by simp [SpanBuf.new]⟩

/-! ### memory_buffer -/

theorem CtVec.data_setData (v : CtVec) (d : Str) : (v.setData d).data = d := by
  unfold setData data
  cases h : v.ext <;> simp

theorem CtVec.storage_setData (v : CtVec) (d : Str) (h : d.length = v.data.length) :
    (v.setData d).storage.length = v.storage.length := by
  unfold setData
  cases he : v.ext with
  | none => simp only; rw [h]; simp [data, he]
  | some e => rfl

theorem CtVec.size_setData (v : CtVec) (d : Str) : (v.setData d).size = v.size := by
  unfold setData
  cases h : v.ext <;> simp

/-- State of a memory buffer with inline storage of `n` characters that has received `t`. -/
def MemBuf.Rep (n : Nat) (s : MemBuf) (t : Str) : Prop :=
  s.base.fixed = false ∧ s.base.off = s.used ∧ s.base.used ≤ s.base.len ∧ s.used + s.base.len ≤ s.vec.capacity ∧
    s.vec.size = s.vec.capacity ∧ s.vec.storage.length = n ∧ n ≤ s.vec.capacity ∧
    s.vec.data.take (s.used + s.base.used) = t

theorem CtVec.reserve_grow (v : CtVec) (k : Nat) (hs : v.size = v.capacity) (hst : v.storage.length ≤ v.capacity)
    (hk : v.capacity < k) :
    ∃ v', v.reserve k = some v' ∧ v'.size = k ∧ v'.capacity = k ∧ v'.storage = v.storage ∧
      v'.data.take v.capacity = v.data := by
  unfold reserve
  rw [if_neg (by rintro ⟨h, _⟩; omega), if_pos hk, if_pos (by omega)]
  have h1 : v.data.length = v.capacity := rfl
  refine ⟨_, rfl, rfl, ?_, rfl, ?_⟩
  · simp only [capacity, data, Option.getD_some, List.length_append, List.length_take, uninit, List.length_replicate]
    simp only [capacity, data] at *
    omega
  · simp only [data, Option.getD_some]
    have h2 : List.take v.size v.data = v.data := List.take_of_length_le (by omega)
    have h3 : v.ext.getD v.storage = v.data := rfl
    rw [h3, h2, List.take_append_of_le_length (by omega), List.take_of_length_le (by omega)]

theorem MemBuf.request_rep (n : Nat) (s : MemBuf) (t : Str) (size : Nat) (h : MemBuf.Rep n s t) (hs : 0 < size) :
    ∃ s', MemBuf.requestArea s.base.used size s = .ok s' ⟨s.used + s.base.used, size⟩ ∧ MemBuf.Rep n s' t ∧
      s'.base.used = 0 ∧ s'.base.len = size ∧ s'.used = s.used + s.base.used := by
  obtain ⟨h1, h2, h3, h4, h5, h6, h7, h8⟩ := h
  obtain ⟨v', hv, hsz, hcap, hst, hdat⟩ := s.vec.reserve_grow (s.vec.size + size) h5 (by omega) (by omega)
  refine ⟨_, by rw [requestArea, hv], ?_, rfl, rfl, rfl⟩
  refine ⟨h1, rfl, by simp [Base.setWriteArea], ?_, ?_, ?_, ?_, ?_⟩
  · simp only [Base.setWriteArea]; omega
  · simp only; omega
  · simp only; rw [hst]; exact h6
  · simp only; omega
  · simp only [Base.setWriteArea, Nat.add_zero]
    rw [← h8, ← hdat, List.take_take]
    congr 1; omega

theorem MemBuf.rep_fill {n : Nat} {s : MemBuf} {t : Str} (h : MemBuf.Rep n s t) (k : Nat)
    (hk : s.base.used + k ≤ s.base.len) (d : Str) (hd : d.length = k) :
    ∃ s'', store (setBase s { BufferImpl.base s with used := (BufferImpl.base s).used + k }) (s.used + s.base.used) d = some s'' ∧
      MemBuf.Rep n s'' (t ++ d) := by
  obtain ⟨h1, h2, h3, h4, h5, h6, h7, h8⟩ := h
  have hcl : s.vec.data.length = s.vec.capacity := rfl
  obtain ⟨m, hm, hl, ht, _, _⟩ := overwrite_some (mem := s.vec.data) (i := s.used + s.base.used) (d := d) (by omega)
  refine ⟨⟨{ s.base with used := s.base.used + k }, s.used, s.vec.setData m⟩, ?_, h1, h2, hk, ?_, ?_, ?_, ?_, ?_⟩
  · simp only [BufferImpl.store, BufferImpl.setBase, BufferImpl.base, hm]
    rfl
  · simp only [CtVec.capacity, CtVec.data_setData] at *; omega
  · simp only [CtVec.capacity, CtVec.data_setData, CtVec.size_setData] at *; omega
  · simp only; rw [CtVec.storage_setData _ _ hl]; exact h6
  · simp only [CtVec.capacity, CtVec.data_setData] at *; omega
  · simp only [CtVec.data_setData]
    rw [← hd, ← Nat.add_assoc, ht, h8]

def MemBuf.lawful (n : Nat) : Lawful MemBuf where
  Rep := MemBuf.Rep n
  Fail := MemBuf.Rep n
  rep_fail _ _ h := h
  max s t k h := by
    have hb : (BufferImpl.base s) = s.base := rfl
    by_cases hk : k ≤ (BufferImpl.base s).len - (BufferImpl.base s).used
    · rw [max_here hk]
      have hoff : (BufferImpl.base s).off + (BufferImpl.base s).used = s.used + s.base.used := by rw [hb, h.2.1]
      rw [hoff]
      have h3 := h.2.2.1
      exact ⟨Nat.le_refl _, fun h => h, MemBuf.rep_fill h k (by rw [hb] at hk; omega),
        fun h => absurd h (Nat.lt_irrefl _)⟩
    · rw [max_request h.1 (by omega)]
      obtain ⟨s', hr, hrep, hu, hl, hus⟩ := MemBuf.request_rep n s t k h (by omega)
      have : request (BufferImpl.base s).used k s = MemBuf.requestArea s.base.used k s := rfl
      rw [this, hr]
      simp only
      have hfill := MemBuf.rep_fill hrep k (by omega)
      have hbs : BufferImpl.base s' = s'.base := rfl
      have he : s.used + s.base.used = s'.used + s'.base.used := by omega
      refine ⟨Nat.le_refl _, fun h => h, ?_, fun h => absurd h (Nat.lt_irrefl _)⟩
      rw [he]; exact hfill

theorem MemBuf.accepts (n : Nat) : Accepts (MemBuf.lawful n) none none := by
  intro s t k h _
  by_cases hk : k ≤ (BufferImpl.base s).len - (BufferImpl.base s).used
  · exact ⟨_, _, max_here hk, fun _ => rfl⟩
  · obtain ⟨s', hr, hrep, hu, hl, hus⟩ := MemBuf.request_rep n s t k h (by omega)
    have : request (BufferImpl.base s).used k s = MemBuf.requestArea s.base.used k s := rfl
    exact ⟨_, ⟨s.used + s.base.used, k⟩, by rw [max_request h.1 (by omega), this, hr], fun _ => rfl⟩

theorem CtVec.capacity_new (n : Nat) : (CtVec.new n).capacity = n := by
  simp [CtVec.new, CtVec.capacity, CtVec.data, uninit]

theorem MemBuf.rep_new (n cap : Nat) : ∃ s a, MemBuf.new n cap = .ok s a ∧ MemBuf.Rep n s [] := by
  unfold MemBuf.new MemBuf.requestArea
  have hn : (CtVec.new n).storage.length = n := by simp [CtVec.new, uninit]
  have hc := CtVec.capacity_new n
  simp only [MemBuf.blank]
  have h0 : (CtVec.new n).size = 0 := rfl
  rw [h0, Nat.zero_add]
  by_cases hlt : n < max n cap
  · have hres : (CtVec.new n).reserve (max n cap) =
        some { CtVec.new n with ext := some ((CtVec.new n).data.take 0 ++ uninit (max n cap - 0)), size := max n cap } := by
      unfold CtVec.reserve
      rw [if_neg (by rw [hn]; omega), if_pos (by rw [hc]; exact hlt), if_pos (by rw [h0]; omega)]
      rw [h0]
    rw [hres]
    refine ⟨_, _, rfl, rfl, rfl, by simp [Base.setWriteArea], ?_, ?_, ?_, ?_, ?_⟩
    · simp [Base.setWriteArea, CtVec.capacity, CtVec.data, uninit]
    · simp [CtVec.capacity, CtVec.data, uninit]
    · simp [CtVec.new, uninit]
    · simp [CtVec.capacity, CtVec.data, uninit]; omega
    · simp [Base.setWriteArea]
  · have he : max n cap = n := by omega
    rw [he]
    have hres : (CtVec.new n).reserve n = some { CtVec.new n with size := n } := by
      unfold CtVec.reserve
      rw [if_neg (by rw [hn]; omega), if_neg (by rw [hc]; omega)]
    rw [hres]
    refine ⟨_, _, rfl, rfl, rfl, by simp [Base.setWriteArea], ?_, ?_, ?_, ?_, ?_⟩
    · simp [Base.setWriteArea, CtVec.capacity, CtVec.data, uninit, CtVec.new]
    · simp [CtVec.capacity, CtVec.data, uninit, CtVec.new]
    · simp [CtVec.new, uninit]
    · simp [CtVec.capacity, CtVec.data, uninit, CtVec.new]
    · simp [Base.setWriteArea]

/-- Clearing and requesting the whole capacity. -/
theorem MemBuf.reset_core (n : Nat) (b : Base) (v : CtVec) (hb : b.fixed = false) (hst : v.storage.length = n)
    (hcap : n ≤ v.capacity) :
    ∃ s a, MemBuf.requestArea 0 v.clear.capacity ⟨b, 0, v.clear⟩ = .ok s a ∧ MemBuf.Rep n s [] := by
  unfold MemBuf.requestArea
  have hcc : v.clear.capacity = v.capacity := rfl
  have hcs : v.clear.size = 0 := rfl
  simp only
  rw [hcs, Nat.zero_add, hcc]
  have hres : v.clear.reserve v.capacity = some { v with size := v.capacity } := by
    unfold CtVec.reserve
    have : ¬ (v.capacity < v.clear.storage.length ∧ v.clear.ext = none) := by
      rintro ⟨h, _⟩
      have : v.clear.storage.length = n := hst
      omega
    rw [if_neg this, if_neg (by rw [hcc]; omega)]
    rfl
  rw [hres]
  refine ⟨_, _, rfl, hb, rfl, by simp [Base.setWriteArea], ?_, ?_, hst, ?_, ?_⟩
  · simp [Base.setWriteArea, CtVec.capacity, CtVec.data]
  · simp [CtVec.capacity, CtVec.data]
  · simpa [CtVec.capacity, CtVec.data] using hcap
  · simp [Base.setWriteArea]

theorem MemBuf.rep_reset (n : Nat) (s : MemBuf) (t : Str) (h : MemBuf.Rep n s t) :
    ∃ s' a, s.reset = .ok s' a ∧ MemBuf.Rep n s' [] := by
  obtain ⟨h1, h2, h3, h4, h5, h6, h7, h8⟩ := h
  exact MemBuf.reset_core n s.base s.vec h1 h6 h7

/-- A buffer built around a full vector. -/
theorem MemBuf.rep_around (n : Nat) (b : Base) (used : Nat) (v : CtVec) (t : Str) (hb : b.fixed = false)
    (hu : used ≤ v.capacity) (hs : v.size = v.capacity) (hst : v.storage.length = n) (hn : n ≤ v.capacity)
    (ht : v.data.take used = t) : MemBuf.Rep n (MemBuf.around b used v) t := by
  refine ⟨hb, rfl, by simp [MemBuf.around, Base.setWriteArea], ?_, hs, hst, hn, ?_⟩
  · simp [MemBuf.around, Base.setWriteArea]; omega
  · simpa [MemBuf.around, Base.setWriteArea] using ht

theorem CtVec.copyFrom_full (v other : CtVec) (hv : v.capacity = other.capacity) (ho : other.size = other.capacity) :
    ∃ v', v.copyFrom other = some v' ∧ v'.data = other.data ∧ v'.size = v.size ∧
      v'.storage.length = v.storage.length := by
  unfold copyFrom
  have hol : other.data.length = other.capacity := rfl
  have hvl : v.data.length = v.capacity := rfl
  rw [if_pos (by omega)]
  have htk : other.data.take other.size = other.data := List.take_of_length_le (by omega)
  rw [htk]
  have hov : overwrite v.data 0 other.data = some other.data := by
    unfold overwrite
    rw [if_pos (by omega)]
    simp only [List.take_zero, List.nil_append, Nat.zero_add]
    rw [List.drop_eq_nil_of_le (by omega)]; simp
  rw [hov]
  exact ⟨_, rfl, CtVec.data_setData _ _, CtVec.size_setData _ _, CtVec.storage_setData _ _ (by omega)⟩

theorem CtVec.capacity_eq {v w : CtVec} (h : v.data = w.data) : v.capacity = w.capacity := by
  simp [CtVec.capacity, h]

theorem CtVec.reserve_exact (v : CtVec) (k : Nat) (hs : v.size ≤ v.capacity) (hst : v.storage.length ≤ k)
    (hk : v.capacity ≤ k) :
    ∃ v', v.reserve k = some v' ∧ v'.size = k ∧ v'.capacity = k ∧ v'.storage = v.storage := by
  unfold reserve
  rw [if_neg (by rintro ⟨h, _⟩; omega)]
  by_cases hlt : v.capacity < k
  · rw [if_pos hlt, if_pos hs]
    refine ⟨_, rfl, rfl, ?_, rfl⟩
    have h1 : v.data.length = v.capacity := rfl
    simp only [capacity, data, Option.getD_some, List.length_append, List.length_take, uninit, List.length_replicate]
    simp only [capacity, data] at *
    omega
  · rw [if_neg hlt]
    refine ⟨_, rfl, rfl, ?_, rfl⟩
    simp only [capacity, data] at *
    omega

theorem MemBuf.rep_copy (n : Nat) (s : MemBuf) (t : Str) (h : MemBuf.Rep n s t) :
    ∃ s', s.copy = some s' ∧ MemBuf.Rep n s' t := by
  obtain ⟨h1, h2, h3, h4, h5, h6, h7, h8⟩ := h
  have hn : (CtVec.new n).storage.length = n := by simp [CtVec.new, uninit]
  obtain ⟨v, hv, hvs, hvc, hvst⟩ := CtVec.reserve_exact (CtVec.new s.vec.storage.length) s.vec.size
    (by simp [CtVec.new]) (by rw [h6, hn]; omega) (by rw [h6, CtVec.capacity_new]; omega)
  obtain ⟨w, hw, hwd, hws, hwst⟩ := CtVec.copyFrom_full v s.vec (by omega) h5
  refine ⟨MemBuf.around ⟨false, 0, 0, 0⟩ s.position w, ?_, ?_⟩
  · unfold MemBuf.copy CtVec.copy
    rw [hv, Option.bind_some, hw]; rfl
  · have hc := CtVec.capacity_eq hwd
    apply MemBuf.rep_around n _ _ _ _ rfl
    · unfold MemBuf.position; omega
    · omega
    · rw [hwst, hvst, h6]; exact hn
    · omega
    · rw [hwd]; exact h8

theorem MemBuf.rep_assignCopy (n : Nat) (s other : MemBuf) (u t : Str) (hs : MemBuf.Rep n s u)
    (h : MemBuf.Rep n other t) (hcap : s.capacity ≤ other.capacity) :
    ∃ s', s.assignCopy other = some s' ∧ MemBuf.Rep n s' t := by
  obtain ⟨h1, h2, h3, h4, h5, h6, h7, h8⟩ := h
  obtain ⟨k1, k2, k3, k4, k5, k6, k7, k8⟩ := hs
  have hcap' : s.vec.capacity ≤ other.vec.capacity := hcap
  obtain ⟨v, hv, hvs, hvc, hvst⟩ := CtVec.reserve_exact s.vec other.vec.size
    (by omega) (by omega) (by omega)
  obtain ⟨w, hw, hwd, hws, hwst⟩ := CtVec.copyFrom_full v other.vec (by omega) h5
  refine ⟨MemBuf.around s.base other.position w, ?_, ?_⟩
  · unfold MemBuf.assignCopy CtVec.assignCopy
    rw [hv, Option.bind_some, hw]; rfl
  · have hc := CtVec.capacity_eq hwd
    apply MemBuf.rep_around n _ _ _ _ k1
    · unfold MemBuf.position; omega
    · omega
    · rw [hwst, hvst]; exact k6
    · omega
    · rw [hwd]; exact h8

theorem MemBuf.rep_resetMoved (n : Nat) (s : MemBuf) (t : Str) (h : MemBuf.Rep n s t) :
    ∃ s', s.resetMoved = some s' ∧ MemBuf.Rep n s' [] := by
  obtain ⟨h1, h2, h3, h4, h5, h6, h7, h8⟩ := h
  obtain ⟨s', a, hr, hrep⟩ := MemBuf.reset_core n s.base s.vec.movedFrom h1 h6
    (by simp [CtVec.movedFrom, CtVec.capacity, CtVec.data, h6])
  refine ⟨s', ?_, hrep⟩
  unfold MemBuf.resetMoved MemBuf.reset
  simp only
  rw [hr]; rfl

theorem MemBuf.rep_move (n : Nat) (s : MemBuf) (t : Str) (h : MemBuf.Rep n s t) :
    ∃ s' o, s.move = some (s', o) ∧ MemBuf.Rep n s' t ∧ MemBuf.Rep n o [] := by
  obtain ⟨o, ho, hro⟩ := MemBuf.rep_resetMoved n s t h
  obtain ⟨h1, h2, h3, h4, h5, h6, h7, h8⟩ := h
  have hn : (CtVec.new n).storage.length = n := by simp [CtVec.new, uninit]
  suffices hv : ∃ v, s.vec.move = some v ∧ v.data = s.vec.data ∧ v.size = s.vec.size ∧ v.storage.length = n by
    obtain ⟨v, hv, hvd, hvs, hvst⟩ := hv
    refine ⟨MemBuf.around ⟨false, 0, 0, 0⟩ s.position v, o, ?_, ?_, hro⟩
    · unfold MemBuf.move; rw [hv, Option.bind_some, ho]; rfl
    · have hc := CtVec.capacity_eq hvd
      apply MemBuf.rep_around n _ _ _ _ rfl
      · unfold MemBuf.position; omega
      · omega
      · exact hvst
      · omega
      · rw [hvd]; exact h8
  unfold CtVec.move
  cases he : s.vec.ext with
  | some d =>
    refine ⟨_, rfl, ?_, rfl, ?_⟩
    · simp [CtVec.data, he]
    · simp [uninit, h6]
  | none =>
    have hcn : s.vec.capacity = n := by simp only [CtVec.capacity, CtVec.data, he, Option.getD_none, h6]
    obtain ⟨w, hw, hwd, hws, hwst⟩ := CtVec.copyFrom_full (CtVec.new s.vec.storage.length) s.vec
      (by rw [CtVec.capacity_new, hcn, h6]) h5
    simp only [hw, Option.map_some]
    refine ⟨_, rfl, ?_, rfl, ?_⟩
    · rw [← hwd]; rfl
    · simp only; rw [hwst, h6, hn]

theorem MemBuf.rep_assignMove (n : Nat) (s other : MemBuf) (u t : Str) (hs : MemBuf.Rep n s u)
    (h : MemBuf.Rep n other t) (hext : other.vec.ext.isSome ∨ s.vec.ext = none) :
    ∃ s' o, s.assignMove other = some (s', o) ∧ MemBuf.Rep n s' t ∧ MemBuf.Rep n o [] := by
  obtain ⟨o, ho, hro⟩ := MemBuf.rep_resetMoved n other t h
  obtain ⟨h1, h2, h3, h4, h5, h6, h7, h8⟩ := h
  obtain ⟨k1, k2, k3, k4, k5, k6, k7, k8⟩ := hs
  suffices hv : ∃ v, s.vec.assignMove other.vec = some v ∧ v.data = other.vec.data ∧ v.size = other.vec.size ∧
      v.storage.length = n by
    obtain ⟨v, hv, hvd, hvs, hvst⟩ := hv
    refine ⟨MemBuf.around s.base other.position v, o, ?_, ?_, hro⟩
    · unfold MemBuf.assignMove; rw [hv, Option.bind_some, ho]; rfl
    · have hc := CtVec.capacity_eq hvd
      apply MemBuf.rep_around n _ _ _ _ k1
      · unfold MemBuf.position; omega
      · omega
      · exact hvst
      · omega
      · rw [hvd]; exact h8
  unfold CtVec.assignMove
  cases he : other.vec.ext with
  | some d =>
    refine ⟨_, rfl, ?_, rfl, k6⟩
    simp [CtVec.data, he]
  | none =>
    have hse : s.vec.ext = none := by
      rcases hext with hx | hx
      · rw [he] at hx; simp at hx
      · exact hx
    have hcn : other.vec.capacity = n := by simp only [CtVec.capacity, CtVec.data, he, Option.getD_none, h6]
    have hcs : s.vec.capacity = n := by simp only [CtVec.capacity, CtVec.data, hse, Option.getD_none, k6]
    obtain ⟨w, hw, hwd, hws, hwst⟩ := CtVec.copyFrom_full s.vec other.vec (by omega) h5
    simp only [hse, Option.isSome_none, Bool.false_eq_true, if_false, hw, Option.map_some]
    refine ⟨_, rfl, ?_, rfl, ?_⟩
    · rw [← hwd]; rfl
    · simp only; rw [hwst]; exact k6

/-! ### iterator_buffer -/

/-- State of an iterator buffer that has received `t`. -/
def IterBuf.Rep (c : Nat) (s : IterBuf) (t : Str) : Prop :=
  s.base.fixed = false ∧ s.base.off = 0 ∧ s.base.len = c ∧ s.cache.length = c ∧ 0 < c ∧ s.base.used ≤ c ∧
    s.out ++ s.cache.take s.base.used = t

theorem cacheArea_len (c n : Nat) : (cacheArea c n).len = min c n ∧ (cacheArea c n).off = 0 := by
  unfold cacheArea; split <;> simp <;> omega

theorem IterBuf.rep_fill {c : Nat} {s : IterBuf} {t : Str} (h : IterBuf.Rep c s t) (k : Nat)
    (hk : s.base.used + k ≤ c) (d : Str) (hd : d.length = k) :
    ∃ s'', store (setBase s { BufferImpl.base s with used := (BufferImpl.base s).used + k }) s.base.used d = some s'' ∧
      IterBuf.Rep c s'' (t ++ d) := by
  obtain ⟨h1, h2, h3, h4, h5, h6, h7⟩ := h
  obtain ⟨m, hm, hl, ht, _, _⟩ := overwrite_some (mem := s.cache) (i := s.base.used) (d := d) (by omega)
  refine ⟨⟨{ s.base with used := s.base.used + k }, s.out, m⟩, ?_, h1, h2, h3, by simp only; omega, h5, hk, ?_⟩
  · simp only [BufferImpl.store, BufferImpl.setBase, BufferImpl.base, hm]
    rfl
  · simp only; rw [← hd, ht, ← h7, List.append_assoc]

theorem IterBuf.rep_flush {c : Nat} {s : IterBuf} {t : Str} (h : IterBuf.Rep c s t) :
    IterBuf.Rep c s.flush t ∧ s.flush.base.used = 0 ∧ s.flush.out = t := by
  obtain ⟨h1, h2, h3, h4, h5, h6, h7⟩ := h
  refine ⟨⟨h1, rfl, h4, h4, h5, Nat.zero_le _, ?_⟩, rfl, h7⟩
  simp [IterBuf.flush, Base.setWriteArea, h7]

theorem IterBuf.request_eq {c : Nat} {s : IterBuf} {t : Str} (h : IterBuf.Rep c s t) (u n : Nat) :
    ∃ s', request u n s = .ok s' (cacheArea c n) ∧ IterBuf.Rep c s' t ∧ s'.base.used = 0 := by
  obtain ⟨h1, h2, h3, h4, h5, h6, h7⟩ := h
  refine ⟨{ s.flush with base := s.flush.base.setWriteArea 0 s.cache.length }, by rw [← h4]; rfl,
    ⟨h1, rfl, h4, h4, h5, Nat.zero_le _, ?_⟩, rfl⟩
  simp [IterBuf.flush, Base.setWriteArea, h7]

def IterBuf.lawful (c : Nat) : Lawful IterBuf where
  Rep := IterBuf.Rep c
  Fail := IterBuf.Rep c
  rep_fail _ _ h := h
  max s t n h := by
    have hb : (BufferImpl.base s) = s.base := rfl
    have hc := h.2.2.2.2.1
    by_cases hn : n ≤ (BufferImpl.base s).len - (BufferImpl.base s).used
    · rw [max_here hn]
      have hoff : (BufferImpl.base s).off + (BufferImpl.base s).used = s.base.used := by rw [hb, h.2.1]; omega
      rw [hoff]
      have h3 := h.2.2.1
      have h6 := h.2.2.2.2.2.1
      exact ⟨Nat.le_refl _, fun h => h, IterBuf.rep_fill h n (by rw [hb] at hn; omega),
        fun h => absurd h (Nat.lt_irrefl _)⟩
    · rw [max_request h.1 (by omega)]
      obtain ⟨s', hr, hrep, hu⟩ := IterBuf.request_eq h (BufferImpl.base s).used n
      rw [hr]
      simp only
      obtain ⟨hl, ho⟩ := cacheArea_len c n
      have hfill := IterBuf.rep_fill hrep (cacheArea c n).len (by omega)
      refine ⟨by omega, by omega, ?_, fun _ => ?_⟩
      · rw [hu] at hfill; rw [ho]; exact hfill
      · have hbs : BufferImpl.base s' = s'.base := rfl
        simp only [giveBack, BufferImpl.setBase, BufferImpl.base, Nat.add_sub_cancel]
        exact hrep

theorem IterBuf.accepts (c : Nat) : Accepts (IterBuf.lawful c) (some c) none := by
  intro s t n h _
  by_cases hn : n ≤ (BufferImpl.base s).len - (BufferImpl.base s).used
  · exact ⟨_, _, max_here hn, fun _ => rfl⟩
  · obtain ⟨s', hr, hrep, hu⟩ := IterBuf.request_eq h (BufferImpl.base s).used n
    refine ⟨_, _, by rw [max_request h.1 (by omega), hr], fun hl => ?_⟩
    simp only [leLimit] at hl
    have := (cacheArea_len c n).1
    omega

theorem IterBuf.rep_new (cache : Str) (h : cache ≠ []) : IterBuf.Rep cache.length (IterBuf.new cache) [] :=
  ⟨rfl, rfl, rfl, rfl, List.length_pos_iff.2 h, Nat.zero_le _, by simp [IterBuf.new]⟩

/-! ### output pointers -/

/-- State of a pointer buffer that has received `t`. -/
def PtrBuf.Rep (s : PtrBuf) (t : Str) : Prop :=
  s.base.fixed = false ∧ s.base.off = 0 ∧ s.base.len = 2 ^ 64 - 1 ∧ s.base.used ≤ s.base.len ∧ s.view = t

theorem PtrBuf.rep_length {s : PtrBuf} {t : Str} (h : PtrBuf.Rep s t) : t.length = s.base.used := by
  rw [← h.2.2.2.2]; simp [PtrBuf.view]

theorem PtrBuf.rep_fill {s : PtrBuf} {t : Str} (h : PtrBuf.Rep s t) (k : Nat)
    (hk : s.base.used + k ≤ s.base.len) (d : Str) (hd : d.length = k) :
    ∃ s'', store (setBase s { BufferImpl.base s with used := (BufferImpl.base s).used + k }) s.base.used d = some s'' ∧
      PtrBuf.Rep s'' (t ++ d) := by
  obtain ⟨h1, h2, h3, h4, h5⟩ := h
  refine ⟨_, rfl, h1, h2, h3, hk, ?_⟩
  subst h5
  unfold PtrBuf.view
  simp only [BufferImpl.setBase, BufferImpl.base]
  rw [List.range_add, List.map_append]
  congr 1
  · apply List.map_congr_left
    intro i hi
    rw [List.mem_range] at hi
    rw [if_neg (by omega)]
  · apply List.ext_getElem
    · simp [hd]
    · intro i hi1 hi2
      simp at hi1
      simp [List.getElem?_eq_getElem hi2]

def PtrBuf.lawful : Lawful PtrBuf where
  Rep := PtrBuf.Rep
  Fail := PtrBuf.Rep
  rep_fail _ _ h := h
  max s t n h := by
    have hb : (BufferImpl.base s) = s.base := rfl
    by_cases hn : n ≤ (BufferImpl.base s).len - (BufferImpl.base s).used
    · rw [max_here hn]
      have hoff : (BufferImpl.base s).off + (BufferImpl.base s).used = s.base.used := by rw [hb, h.2.1]; omega
      rw [hoff]
      have h4 := h.2.2.2.1
      exact ⟨Nat.le_refl _, fun h => h, PtrBuf.rep_fill h n (by rw [hb] at hn; omega),
        fun h => absurd h (Nat.lt_irrefl _)⟩
    · rw [max_request h.1 (by omega)]
      exact ⟨rfl, h⟩

theorem PtrBuf.accepts : Accepts PtrBuf.lawful none (some (2 ^ 64 - 1)) := by
  intro s t n h hr
  have hl := PtrBuf.rep_length h
  have hb : (BufferImpl.base s) = s.base := rfl
  have h3 := h.2.2.1
  simp only [leLimit] at hr
  exact ⟨_, _, max_here (by rw [hb]; omega), fun _ => rfl⟩

theorem PtrBuf.rep_new (mem : Nat → Char) : PtrBuf.Rep (PtrBuf.new mem) [] :=
  ⟨rfl, rfl, rfl, Nat.zero_le _, rfl⟩

/-! ### counting_buffer -/

/-- State of a counting buffer that has received `t`. -/
def CountBuf.Rep (c : Nat) (s : CountBuf) (t : Str) : Prop :=
  s.base.fixed = false ∧ s.base.off = 0 ∧ s.base.used ≤ s.base.len ∧ s.base.len ≤ c ∧ s.cache.length = c ∧ 0 < c ∧
    s.count = t.length

theorem CountBuf.rep_fill {c : Nat} {s : CountBuf} {t : Str} (h : CountBuf.Rep c s t) (k : Nat)
    (hk : s.base.used + k ≤ s.base.len) (d : Str) (hd : d.length = k) :
    ∃ s'', store (setBase s { BufferImpl.base s with used := (BufferImpl.base s).used + k }) s.base.used d = some s'' ∧
      CountBuf.Rep c s'' (t ++ d) := by
  obtain ⟨h1, h2, h3, h4, h5, h6, h7⟩ := h
  obtain ⟨m, hm, hl, ht, _, _⟩ := overwrite_some (mem := s.cache) (i := s.base.used) (d := d) (by omega)
  refine ⟨⟨{ s.base with used := s.base.used + k }, s.used, m⟩, ?_, h1, h2, hk, h4, by simp only; omega, h6, ?_⟩
  · simp only [BufferImpl.store, BufferImpl.setBase, BufferImpl.base, hm]
    rfl
  · simp only [CountBuf.count] at *; simp; omega

theorem CountBuf.request_eq {c : Nat} {s : CountBuf} {t : Str} (h : CountBuf.Rep c s t) (n : Nat) :
    ∃ s', request (BufferImpl.base s).used n s = .ok s' (cacheArea c n) ∧ CountBuf.Rep c s' t ∧ s'.base.used = 0 ∧
      s'.base.len = c := by
  obtain ⟨h1, h2, h3, h4, h5, h6, h7⟩ := h
  refine ⟨{ s with used := s.used + s.base.used, base := s.base.setWriteArea 0 s.cache.length }, by rw [← h5]; rfl,
    ⟨h1, rfl, Nat.zero_le _, ?_, h5, h6, ?_⟩, rfl, h5⟩
  · simp [Base.setWriteArea]; omega
  · simp [CountBuf.count, Base.setWriteArea, BufferImpl.base] at *; omega

def CountBuf.lawful (c : Nat) : Lawful CountBuf where
  Rep := CountBuf.Rep c
  Fail := CountBuf.Rep c
  rep_fail _ _ h := h
  max s t n h := by
    have hb : (BufferImpl.base s) = s.base := rfl
    have hc := h.2.2.2.2.2.1
    by_cases hn : n ≤ (BufferImpl.base s).len - (BufferImpl.base s).used
    · rw [max_here hn]
      have hoff : (BufferImpl.base s).off + (BufferImpl.base s).used = s.base.used := by rw [hb, h.2.1]; omega
      rw [hoff]
      have h3 := h.2.2.1
      exact ⟨Nat.le_refl _, fun h => h, CountBuf.rep_fill h n (by rw [hb] at hn; omega),
        fun h => absurd h (Nat.lt_irrefl _)⟩
    · rw [max_request h.1 (by omega)]
      obtain ⟨s', hr, hrep, hu, hl'⟩ := CountBuf.request_eq h n
      rw [hr]
      simp only
      obtain ⟨hl, ho⟩ := cacheArea_len c n
      have hfill := CountBuf.rep_fill hrep (cacheArea c n).len (by omega)
      refine ⟨by omega, by omega, ?_, fun _ => ?_⟩
      · rw [hu] at hfill; rw [ho]; exact hfill
      · simp only [giveBack, BufferImpl.setBase, BufferImpl.base, Nat.add_sub_cancel]
        exact hrep

theorem CountBuf.accepts (c : Nat) : Accepts (CountBuf.lawful c) (some c) none := by
  intro s t n h _
  by_cases hn : n ≤ (BufferImpl.base s).len - (BufferImpl.base s).used
  · exact ⟨_, _, max_here hn, fun _ => rfl⟩
  · obtain ⟨s', hr, hrep, hu⟩ := CountBuf.request_eq h n
    refine ⟨_, _, by rw [max_request h.1 (by omega), hr], fun hl => ?_⟩
    simp only [leLimit] at hl
    have := (cacheArea_len c n).1
    omega

theorem CountBuf.rep_new (cache : Str) (h : cache ≠ []) : CountBuf.Rep cache.length (CountBuf.new cache) [] :=
  ⟨rfl, rfl, Nat.le_refl _, Nat.zero_le _, rfl, List.length_pos_iff.2 h, rfl⟩

/-! ### file_buffer -/

/-- State of a file buffer that has received `t`; `ok` tells whether the stream is known to accept everything. -/
def FileBuf.Rep (c : Nat) (ok : Bool) (s : FileBuf) (t : Str) : Prop :=
  s.base.fixed = false ∧ s.base.off = 0 ∧ s.base.len = c ∧ s.cache.length = c ∧ 0 < c ∧ s.base.used ≤ c ∧
    (ok = true → s.io = []) ∧ s.file ++ s.cache.take s.base.used = t

theorem FileBuf.rep_fill {c : Nat} {ok : Bool} {s : FileBuf} {t : Str} (h : FileBuf.Rep c ok s t) (k : Nat)
    (hk : s.base.used + k ≤ c) (d : Str) (hd : d.length = k) :
    ∃ s'', store (setBase s { BufferImpl.base s with used := (BufferImpl.base s).used + k }) s.base.used d = some s'' ∧
      FileBuf.Rep c ok s'' (t ++ d) := by
  obtain ⟨h1, h2, h3, h4, h5, h6, h7, h8⟩ := h
  obtain ⟨m, hm, hl, ht, _, _⟩ := overwrite_some (mem := s.cache) (i := s.base.used) (d := d) (by omega)
  refine ⟨⟨{ s.base with used := s.base.used + k }, s.file, m, s.io⟩, ?_, h1, h2, h3, by simp only; omega, h5, hk, h7, ?_⟩
  · simp only [BufferImpl.store, BufferImpl.setBase, BufferImpl.base, hm]
    rfl
  · simp only; rw [← hd, ht, ← h8, List.append_assoc]

/-- Number of characters the next `fwrite` manages to write. -/
def FileBuf.nextWrite (s : FileBuf) : Nat :=
  match s.io with
  | [] => s.base.used
  | k :: _ => min k s.base.used

theorem FileBuf.rep_flush {c : Nat} {ok : Bool} {s : FileBuf} {t : Str} (h : FileBuf.Rep c ok s t) :
    (∃ s', FileBuf.flush s = .ok s' () ∧ FileBuf.Rep c ok s' t ∧ s'.file = t ∧ s'.base.used = 0 ∧
      s'.base.fixed = false ∧ s'.cache.length = c) ∨
    (∃ s', FileBuf.flush s = .err s' .eof ∧ s'.file <+: t ∧ s.io ≠ []) := by
  obtain ⟨h1, h2, h3, h4, h5, h6, h7, h8⟩ := h
  have hf : FileBuf.flush s =
      if s.nextWrite ≠ s.base.used then
        .err { s with file := s.file ++ s.cache.take s.nextWrite, io := s.io.tail } .eof
      else .ok { s with file := s.file ++ s.cache.take s.nextWrite, io := s.io.tail,
                        base := s.base.setWriteArea 0 s.cache.length } () := by
    unfold FileBuf.flush FileBuf.nextWrite
    cases s.io <;> rfl
  rw [hf]
  have hle : s.nextWrite ≤ s.base.used := by
    unfold FileBuf.nextWrite; split <;> omega
  by_cases hn : s.nextWrite ≠ s.base.used
  · right
    rw [if_pos hn]
    refine ⟨_, rfl, ?_, ?_⟩
    · rw [← h8]
      simp only
      refine (List.prefix_append_right_inj _).2 ?_
      exact (List.take_prefix_take_left hle)
    · intro h0; apply hn; unfold FileBuf.nextWrite; rw [h0]
  · left
    rw [if_neg hn]
    have hn : s.nextWrite = s.base.used := by simpa using hn
    refine ⟨_, rfl, ⟨h1, rfl, h4, h4, h5, Nat.zero_le _, ?_, ?_⟩, ?_, rfl, h1, h4⟩
    · intro hok; simp [h7 hok]
    · simp [Base.setWriteArea, hn, h8]
    · simp only; rw [hn]; exact h8

theorem FileBuf.request_eq {c : Nat} {ok : Bool} {s : FileBuf} {t : Str} (h : FileBuf.Rep c ok s t) (u n : Nat) :
    (∃ s', request u n s = .ok s' (cacheArea c n) ∧ FileBuf.Rep c ok s' t ∧ s'.base.used = 0) ∨
    (∃ s', request u n s = .err s' .eof ∧ s'.file <+: t ∧ s.io ≠ []) := by
  have hc := h.2.2.2.1
  rcases FileBuf.rep_flush h with ⟨s', hf, hrep, hfile, hu, hfx, hcl⟩ | ⟨s', hf, hp, hio⟩
  · left
    refine ⟨{ s' with base := s'.base.setWriteArea 0 s.cache.length }, ?_, ?_, rfl⟩
    · simp only [BufferImpl.request, hf, hc]
    · obtain ⟨h1, h2, h3, h4, h5, h6, h7, h8⟩ := hrep
      exact ⟨h1, rfl, hc, h4, h5, Nat.zero_le _, h7, by simpa [Base.setWriteArea, hu] using h8⟩
  · right
    exact ⟨s', by simp only [BufferImpl.request, hf], hp, hio⟩

def FileBuf.lawful (c : Nat) (ok : Bool) : Lawful FileBuf where
  Rep := FileBuf.Rep c ok
  Fail s t := s.file <+: t
  rep_fail s t h := by rw [← h.2.2.2.2.2.2.2]; exact List.prefix_append _ _
  back_fail s t h := by rw [← h.2.2.2.2.2.2.2]; exact List.prefix_append _ _
  max s t n h := by
    have hb : (BufferImpl.base s) = s.base := rfl
    have hc := h.2.2.2.2.1
    by_cases hn : n ≤ (BufferImpl.base s).len - (BufferImpl.base s).used
    · rw [max_here hn]
      have hoff : (BufferImpl.base s).off + (BufferImpl.base s).used = s.base.used := by rw [hb, h.2.1]; omega
      rw [hoff]
      have h3 := h.2.2.1
      have h6 := h.2.2.2.2.2.1
      exact ⟨Nat.le_refl _, fun h => h, FileBuf.rep_fill h n (by rw [hb] at hn; omega),
        fun h => absurd h (Nat.lt_irrefl _)⟩
    · rw [max_request h.1 (by omega)]
      rcases FileBuf.request_eq h (BufferImpl.base s).used n with ⟨s', hr, hrep, hu⟩ | ⟨s', hr, hp, _⟩
      · rw [hr]
        simp only
        obtain ⟨hl, ho⟩ := cacheArea_len c n
        have hfill := FileBuf.rep_fill hrep (cacheArea c n).len (by omega)
        refine ⟨by omega, by omega, ?_, fun _ => ?_⟩
        · rw [hu] at hfill; rw [ho]; exact hfill
        · simp only [giveBack, BufferImpl.setBase, BufferImpl.base, Nat.add_sub_cancel]
          exact hrep
      · rw [hr]; exact ⟨rfl, hp⟩

/-- A file buffer whose stream accepts everything never fails. -/
def FileBuf.lawfulOk (c : Nat) : Lawful FileBuf where
  Rep := FileBuf.Rep c true
  Fail := FileBuf.Rep c true
  rep_fail s t h := h
  max s t n h := by
    have := (FileBuf.lawful c true).max s t n h
    cases hm : getWriteAreaOfMax n s with
    | ok s' a => rw [hm] at this; exact this
    | bad b => rw [hm] at this; exact this
    | err s' e =>
      exfalso
      by_cases hn : n ≤ (BufferImpl.base s).len - (BufferImpl.base s).used
      · rw [max_here hn] at hm; cases hm
      · rw [max_request h.1 (by omega)] at hm
        rcases FileBuf.request_eq h (BufferImpl.base s).used n with ⟨s', hr, hrep, hu⟩ | ⟨s', hr, hp, hio⟩
        · rw [hr] at hm; cases hm
        · exact absurd (h.2.2.2.2.2.2.1 rfl) hio

theorem FileBuf.acceptsOk (c : Nat) : Accepts (FileBuf.lawfulOk c) (some c) none := by
  intro s t n h _
  by_cases hn : n ≤ (BufferImpl.base s).len - (BufferImpl.base s).used
  · exact ⟨_, _, max_here hn, fun _ => rfl⟩
  · rcases FileBuf.request_eq h (BufferImpl.base s).used n with ⟨s', hr, hrep, hu⟩ | ⟨s', hr, hp, hio⟩
    · refine ⟨_, _, by rw [max_request h.1 (by omega), hr], fun hl => ?_⟩
      simp only [leLimit] at hl
      have := (cacheArea_len c n).1
      omega
    · exact absurd (h.2.2.2.2.2.2.1 rfl) hio

theorem FileBuf.accepts (c : Nat) : Accepts (FileBuf.lawful c true) (some c) none := by
  intro s t n h _
  by_cases hn : n ≤ (BufferImpl.base s).len - (BufferImpl.base s).used
  · exact ⟨_, _, max_here hn, fun _ => rfl⟩
  · rcases FileBuf.request_eq h (BufferImpl.base s).used n with ⟨s', hr, hrep, hu⟩ | ⟨s', hr, hp, hio⟩
    · refine ⟨_, _, by rw [max_request h.1 (by omega), hr], fun hl => ?_⟩
      simp only [leLimit] at hl
      have := (cacheArea_len c n).1
      omega
    · exact absurd (h.2.2.2.2.2.2.1 rfl) hio

theorem FileBuf.rep_new (cache : Str) (io : List Nat) (ok : Bool) (h : cache ≠ []) (hio : ok = true → io = []) :
    FileBuf.Rep cache.length ok (FileBuf.new cache io) [] :=
  ⟨rfl, rfl, rfl, rfl, List.length_pos_iff.2 h, Nat.zero_le _, hio, by simp [FileBuf.new]⟩

/-! ### truncating_buffer -/

/-- The primary buffer never splits requests of up to `c` characters, except when it is full. -/
def Unsplit {π : Type} [BufferImpl π] (L : Lawful π) (c : Nat) : Prop :=
  ∀ s t n s' a, L.Rep s t → 0 < n → n ≤ c → getWriteAreaOfMax n s = .ok s' a →
    a.len = n ∨ ∀ (d : Str) (s'' : π), d.length = a.len → store s' a.off d = some s'' →
      ∀ m, 0 < m → ∃ s3, getWriteAreaOfMax m s'' = .err s3 .eof ∧ L.Fail s3 (t ++ d)

theorem Accepts.unsplit {π : Type} [BufferImpl π] {L : Lawful π} {c : Nat} {chunk : Option Nat}
    (h : Accepts L chunk none) (hc : leLimit c chunk) : Unsplit L c := by
  intro s t n s' a hrep _ hn hm
  obtain ⟨s2, a2, hm2, hl⟩ := h s t n hrep trivial
  rw [hm] at hm2
  cases hm2
  exact Or.inl (hl (leLimit_mono hn hc))

theorem SpanBuf.unsplit (cap c : Nat) : Unsplit (SpanBuf.lawful cap) c := by
  intro s t n s' a hrep hn _ hm
  have hb : (BufferImpl.base s) = s.base := rfl
  by_cases hle : n ≤ (BufferImpl.base s).len - (BufferImpl.base s).used
  · left; rw [max_here hle] at hm; cases hm; rfl
  · right
    have hf : (BufferImpl.base s).fixed = true := hrep.1
    rw [max_fixed hf hn (by omega)] at hm
    by_cases h0 : (BufferImpl.base s).len - (BufferImpl.base s).used = 0
    · rw [if_pos h0] at hm; cases hm
    · rw [if_neg h0] at hm
      cases hm
      intro d s'' hd hst m hm
      simp only at hd hst
      obtain ⟨s2, hs2, hrep2⟩ := SpanBuf.rep_fill hrep ((BufferImpl.base s).len - (BufferImpl.base s).used)
        (by obtain ⟨_, _, h3, _, h5, _⟩ := hrep; rw [hb]; omega) d hd
      rw [hst] at hs2
      cases hs2
      have hl := SpanBuf.Rep.length hrep2
      have hl1 := SpanBuf.Rep.length hrep
      have hb2 : (BufferImpl.base s'') = s''.base := rfl
      have hlen : s''.base.len = cap := hrep2.2.2.1
      have hlen1 : s.base.len = cap := hrep.2.2.1
      have hul := hrep.2.2.2.2.1
      simp only [List.length_append] at hl
      refine ⟨s'', ?_, hrep2⟩
      rw [max_fixed (by exact hrep2.1) hm (by rw [hb2]; rw [hb] at hd; omega), if_pos (by rw [hb2]; rw [hb] at hd; omega)]

/-- State of a truncating buffer that has received `t`, over a primary buffer that held `p0` before. -/
def TruncBuf.Rep {π : Type} [BufferImpl π] (L : Lawful π) (c limit : Nat) (p0 : Str) (s : TruncBuf π) (t : Str) : Prop :=
  s.base.fixed = false ∧ s.base.off = 0 ∧ s.base.len = c ∧ s.cache.length = c ∧ 0 < c ∧ s.base.used ≤ c ∧
    s.limit = limit ∧
    ∃ fl, t = fl ++ s.cache.take s.base.used ∧ s.used = fl.length ∧ s.written = min limit fl.length ∧
      L.Rep s.prim (p0 ++ fl.take limit)

/-- State after an error of the primary buffer. -/
def TruncBuf.Fail {π : Type} [BufferImpl π] (L : Lawful π) (limit : Nat) (p0 : Str) (s : TruncBuf π) (t : Str) : Prop :=
  ∃ q, q <+: t.take limit ∧ L.Fail s.prim (p0 ++ q)

section
variable {π : Type} [BufferImpl π]

theorem TruncBuf.rep_fill {L : Lawful π} {c limit : Nat} {p0 : Str} {s : TruncBuf π} {t : Str}
    (h : TruncBuf.Rep L c limit p0 s t) (k : Nat) (hk : s.base.used + k ≤ c) (d : Str) (hd : d.length = k) :
    ∃ s'', store (setBase s { BufferImpl.base s with used := (BufferImpl.base s).used + k }) s.base.used d = some s'' ∧
      TruncBuf.Rep L c limit p0 s'' (t ++ d) := by
  obtain ⟨h1, h2, h3, h4, h5, h6, h7, fl, h8, h9, h10, h11⟩ := h
  obtain ⟨m, hm, hl, ht, _, _⟩ := overwrite_some (mem := s.cache) (i := s.base.used) (d := d) (by omega)
  refine ⟨{ s with base := { s.base with used := s.base.used + k }, cache := m }, ?_, h1, h2, h3, by simp only; omega,
    h5, hk, h7, fl, ?_, h9, h10, h11⟩
  · simp only [BufferImpl.store, BufferImpl.setBase, BufferImpl.base, hm]
    rfl
  · simp only; rw [← hd, ht, h8, List.append_assoc]

theorem TruncBuf.flushLoop_done (s : TruncBuf π) (bytes : Nat) (h : ¬ (s.written < s.limit ∧ bytes > 0)) :
    TruncBuf.flushLoop bytes s = .ok s () := by
  rw [TruncBuf.flushLoop]
  simp only [if_neg h]

theorem TruncBuf.flushLoop_go (s : TruncBuf π) (bytes : Nat) (h : s.written < s.limit ∧ bytes > 0) :
    TruncBuf.flushLoop bytes s =
      match getWriteAreaOfMax (min bytes (s.limit - s.written)) s.prim with
      | .ok p a =>
        if a.len = 0 then .bad .diverge
        else if a.len > min bytes (s.limit - s.written) then .bad .ub
        else
          match BufferImpl.store p a.off (s.cache.take a.len) with
          | none => .bad .ub
          | some p' => TruncBuf.flushLoop (bytes - a.len) { s with prim := p', written := s.written + a.len }
      | .err p e => .err { s with prim := p } e
      | .bad b => .bad b := by
  rw [TruncBuf.flushLoop]
  simp only [if_pos h]
  cases getWriteAreaOfMax (min bytes (s.limit - s.written)) s.prim <;> rfl

theorem take_append_min {fl ca : Str} {limit : Nat} (h : fl.length < limit) :
    (fl ++ ca).take limit = fl.take limit ++ ca.take (limit - fl.length) := by
  rw [List.take_append]

theorem TruncBuf.rep_flush {L : Lawful π} {c limit : Nat} {p0 : Str} (hU : Unsplit L c) {s : TruncBuf π} {t : Str}
    (h : TruncBuf.Rep L c limit p0 s t) :
    (∃ s', TruncBuf.flush s = .ok s' () ∧ TruncBuf.Rep L c limit p0 s' t ∧ s'.base.used = 0 ∧
      L.Rep s'.prim (p0 ++ t.take limit) ∧ s'.used = t.length ∧ s'.cache.length = c) ∨
    (∃ s', TruncBuf.flush s = .err s' .eof ∧ TruncBuf.Fail L limit p0 s' t ∧
      ∃ p q m p', L.Rep p (p0 ++ q) ∧ q.length + m ≤ min limit t.length ∧ getWriteAreaOfMax m p = .err p' .eof) := by
  obtain ⟨h1, h2, h3, h4, h5, h6, h7, fl, h8, h9, h10, h11⟩ := h
  have hcl : (s.cache.take s.base.used).length = s.base.used := by simp; omega
  -- the state after a flush that delivered everything
  have hfin : ∀ p' : π, ∀ w, L.Rep p' (p0 ++ t.take limit) → w = min limit t.length →
      TruncBuf.Rep L c limit p0
        { s with base := s.base.setWriteArea 0 s.cache.length, prim := p', written := w, used := t.length } t := by
    intro p' w hp hw
    exact ⟨h1, rfl, h4, h4, h5, Nat.zero_le _, h7, t, by simp [Base.setWriteArea], rfl, hw, hp⟩
  have htl : t.length = s.used + s.base.used := by rw [h8, List.length_append, hcl, h9]
  unfold TruncBuf.flush
  by_cases hgo : s.written < s.limit ∧ s.base.used > 0
  · have hflt : fl.length < limit := by omega
    have hn : 0 < min s.base.used (s.limit - s.written) := by omega
    rw [TruncBuf.flushLoop_go _ _ (by exact hgo)]
    simp only
    have hw : s.limit - s.written = limit - fl.length := by omega
    have hflt' : fl.take limit = fl := List.take_of_length_le (by omega)
    have htake : t.take limit = fl ++ (s.cache.take s.base.used).take (limit - fl.length) := by
      rw [h8, take_append_min hflt, hflt']
    cases hm : getWriteAreaOfMax (min s.base.used (s.limit - s.written)) s.prim with
    | bad b => exact (L.max_bad h11 hm).elim
    | err p e =>
      right
      obtain ⟨he, hfail⟩ := L.max_err h11 hm
      subst he
      refine ⟨_, rfl, ⟨fl, ?_, ?_⟩, _, _, _, _, h11, ?_, hm⟩
      · rw [htake]; exact List.prefix_append _ _
      · rw [hflt'] at hfail; exact hfail
      · rw [hflt']; omega
    | ok p a =>
      obtain ⟨ha1, ha2, ha3, _⟩ := L.max_ok h11 hm
      have ha2 := ha2 hn
      simp only
      rw [if_neg (by omega), if_neg (by omega)]
      obtain ⟨p', hst, hrep⟩ := ha3 (s.cache.take a.len) (by simp; omega)
      rw [hst]
      simp only
      rw [hflt', List.append_assoc] at hrep
      rcases hU _ _ _ _ _ h11 hn (by omega) hm with hall | hsplit
      · -- everything in one piece
        left
        rw [TruncBuf.flushLoop_done _ _ (by simp only; omega)]
        have heq : fl ++ s.cache.take a.len = t.take limit := by
          rw [htake, List.take_take, hall, hw]
          congr 2; omega
        rw [heq] at hrep
        have := hfin p' (s.written + a.len) hrep (by omega)
        rw [htl] at this
        exact ⟨_, rfl, this, rfl, hrep, htl.symm, h4⟩
      · by_cases hmore : s.written + a.len < s.limit ∧ s.base.used - a.len > 0
        · -- the primary buffer is full
          right
          obtain ⟨s3, hm3, hf3⟩ := hsplit _ _ (by simp; omega) hst
            (min (s.base.used - a.len) (s.limit - (s.written + a.len))) (by omega)
          rw [TruncBuf.flushLoop_go _ _ (by exact hmore)]
          simp only
          rw [hm3]
          refine ⟨_, rfl, ⟨fl ++ s.cache.take a.len, ?_, ?_⟩, _, _, _, _, hrep, ?_, hm3⟩
          · rw [htake, List.take_take]
            refine (List.prefix_append_right_inj _).2 ?_
            exact List.take_prefix_take_left (by omega)
          · rw [hflt', List.append_assoc] at hf3; exact hf3
          · simp only [List.length_append, List.length_take]; omega
        · left
          rw [TruncBuf.flushLoop_done _ _ (by exact hmore)]
          have heq : fl ++ s.cache.take a.len = t.take limit := by
            rw [htake, List.take_take]
            congr 2; omega
          rw [heq] at hrep
          have := hfin p' (s.written + a.len) hrep (by omega)
          rw [htl] at this
          exact ⟨_, rfl, this, rfl, hrep, htl.symm, h4⟩
  · left
    rw [TruncBuf.flushLoop_done _ _ (by exact hgo)]
    have heq : fl.take limit = t.take limit := by
      rw [h8, List.take_append]
      by_cases hz : s.base.used = 0
      · simp [hz]
      · have : limit - fl.length = 0 := by omega
        simp [this]
    rw [heq] at h11
    have := hfin s.prim s.written h11 (by omega)
    rw [htl] at this
    exact ⟨_, rfl, this, rfl, h11, htl.symm, h4⟩

theorem TruncBuf.request_eq {L : Lawful π} {c limit : Nat} {p0 : Str} (hU : Unsplit L c) {s : TruncBuf π} {t : Str}
    (h : TruncBuf.Rep L c limit p0 s t) (u n : Nat) :
    (∃ s', request u n s = .ok s' (cacheArea c n) ∧ TruncBuf.Rep L c limit p0 s' t ∧ s'.base.used = 0) ∨
    (∃ s', request u n s = .err s' .eof ∧ TruncBuf.Fail L limit p0 s' t ∧
      ∃ p q m p', L.Rep p (p0 ++ q) ∧ q.length + m ≤ min limit t.length ∧ getWriteAreaOfMax m p = .err p' .eof) := by
  rcases TruncBuf.rep_flush hU h with ⟨s', hf, hrep, hu, _, _, hcl⟩ | ⟨s', hf, hp⟩
  · left
    refine ⟨{ s' with base := s'.base.setWriteArea 0 s'.cache.length }, ?_, ?_, rfl⟩
    · simp only [BufferImpl.request, hf, hcl]
    · obtain ⟨h1, h2, h3, h4, h5, h6, h7, fl, h8, h9⟩ := hrep
      exact ⟨h1, rfl, hcl, h4, h5, Nat.zero_le _, h7, fl, by simpa [Base.setWriteArea, hu] using h8, h9⟩
  · right
    exact ⟨s', by simp only [BufferImpl.request, hf], hp⟩

def TruncBuf.lawful (L : Lawful π) (c limit : Nat) (p0 : Str) (hU : Unsplit L c) : Lawful (TruncBuf π) where
  Rep := TruncBuf.Rep L c limit p0
  Fail := TruncBuf.Fail L limit p0
  rep_fail s t h := by
    obtain ⟨_, _, _, _, _, _, _, fl, h8, _, _, h11⟩ := h
    refine ⟨fl.take limit, ?_, L.rep_fail _ _ h11⟩
    rw [h8, List.take_append]
    exact List.prefix_append _ _
  back_fail s t h := by
    obtain ⟨_, _, _, _, _, _, _, fl, h8, _, _, h11⟩ := h
    refine ⟨fl.take limit, ?_, L.rep_fail _ _ h11⟩
    rw [h8, List.take_append]
    exact List.prefix_append _ _
  max s t n h := by
    have hb : (BufferImpl.base s) = s.base := rfl
    have hc := h.2.2.2.2.1
    by_cases hn : n ≤ (BufferImpl.base s).len - (BufferImpl.base s).used
    · rw [max_here hn]
      have hoff : (BufferImpl.base s).off + (BufferImpl.base s).used = s.base.used := by rw [hb, h.2.1]; omega
      rw [hoff]
      have h3 := h.2.2.1
      have h6 := h.2.2.2.2.2.1
      exact ⟨Nat.le_refl _, fun h => h, TruncBuf.rep_fill h n (by rw [hb] at hn; omega),
        fun h => absurd h (Nat.lt_irrefl _)⟩
    · rw [max_request h.1 (by omega)]
      rcases TruncBuf.request_eq hU h (BufferImpl.base s).used n with ⟨s', hr, hrep, hu⟩ | ⟨s', hr, hp, _⟩
      · rw [hr]
        simp only
        obtain ⟨hl, ho⟩ := cacheArea_len c n
        have hfill := TruncBuf.rep_fill hrep (cacheArea c n).len (by omega)
        refine ⟨by omega, by omega, ?_, fun _ => ?_⟩
        · rw [hu] at hfill; rw [ho]; exact hfill
        · simp only [giveBack, BufferImpl.setBase, BufferImpl.base, Nat.add_sub_cancel]
          exact hrep
      · rw [hr]; exact ⟨rfl, hp⟩

/-- The primary buffer takes everything the truncating buffer passes on. -/
def Takes (L : Lawful π) (limit : Nat) (p0 : Str) : Prop :=
  ∀ p q m p', L.Rep p (p0 ++ q) → q.length + m ≤ limit → getWriteAreaOfMax m p ≠ .err p' .eof

theorem Accepts.takes {L : Lawful π} {limit : Nat} {p0 : Str} {chunk room : Option Nat} (hA : Accepts L chunk room)
    (hr : leLimit (p0.length + limit) room) : Takes L limit p0 := by
  intro p q m p' hrep hle hm
  obtain ⟨s', a, hok, _⟩ := hA p _ m hrep (leLimit_mono (by simp; omega) hr)
  rw [hok] at hm; cases hm

/-- A truncating buffer whose primary buffer takes everything never fails. -/
def TruncBuf.lawfulOk (L : Lawful π) (c limit : Nat) (p0 : Str) (hU : Unsplit L c) (hT : Takes L limit p0) :
    Lawful (TruncBuf π) where
  Rep := TruncBuf.Rep L c limit p0
  Fail := TruncBuf.Rep L c limit p0
  rep_fail s t h := h
  max s t n h := by
    have := (TruncBuf.lawful L c limit p0 hU).max s t n h
    cases hm : getWriteAreaOfMax n s with
    | ok s' a => rw [hm] at this; exact this
    | bad b => rw [hm] at this; exact this
    | err s' e =>
      exfalso
      by_cases hn : n ≤ (BufferImpl.base s).len - (BufferImpl.base s).used
      · rw [max_here hn] at hm; cases hm
      · rw [max_request h.1 (by omega)] at hm
        rcases TruncBuf.request_eq hU h (BufferImpl.base s).used n with ⟨s', hr, hrep, hu⟩ |
          ⟨s', hr, hp, p, q, m, p', h1, h2, h3⟩
        · rw [hr] at hm; cases hm
        · exact hT p q m p' h1 (Nat.le_trans h2 (Nat.min_le_left _ _)) h3

theorem TruncBuf.accepts (L : Lawful π) (c limit : Nat) (p0 : Str) (hU : Unsplit L c) (hT : Takes L limit p0) :
    Accepts (TruncBuf.lawfulOk L c limit p0 hU hT) (some c) none := by
  intro s t n h _
  by_cases hn : n ≤ (BufferImpl.base s).len - (BufferImpl.base s).used
  · exact ⟨_, _, max_here hn, fun _ => rfl⟩
  · rcases TruncBuf.request_eq hU h (BufferImpl.base s).used n with ⟨s', hr, hrep, hu⟩ |
          ⟨s', hr, hp, p, q, m, p', h1, h2, h3⟩
    · refine ⟨_, _, by rw [max_request h.1 (by omega), hr], fun hl => ?_⟩
      simp only [leLimit] at hl
      have := (cacheArea_len c n).1
      omega
    · exact absurd h3 (hT p q m p' h1 (Nat.le_trans h2 (Nat.min_le_left _ _)))

/-- As long as no more than `room` characters come, nothing fails if the primary buffer takes the first ones of them. -/
theorem TruncBuf.acceptsRoom (L : Lawful π) (c limit room : Nat) (p0 : Str) (hU : Unsplit L c)
    (hT : Takes L (min limit room) p0) : Accepts (TruncBuf.lawful L c limit p0 hU) (some c) (some room) := by
  intro s t n h hle
  by_cases hn : n ≤ (BufferImpl.base s).len - (BufferImpl.base s).used
  · exact ⟨_, _, max_here hn, fun _ => rfl⟩
  · rcases TruncBuf.request_eq hU h (BufferImpl.base s).used n with ⟨s', hr, hrep, hu⟩ |
          ⟨s', hr, hp, p, q, m, p', h1, h2, h3⟩
    · refine ⟨_, _, by rw [max_request h.1 (by omega), hr], fun hl => ?_⟩
      simp only [leLimit] at hl
      have := (cacheArea_len c n).1
      omega
    · have hle : t.length + n ≤ room := hle
      exact absurd h3 (hT p q m p' h1 (by omega))

theorem TruncBuf.flush_ok {L : Lawful π} {c limit : Nat} {p0 : Str} (hU : Unsplit L c) (hT : Takes L limit p0)
    {s : TruncBuf π} {t : Str} (h : TruncBuf.Rep L c limit p0 s t) :
    ∃ s', TruncBuf.flush s = .ok s' () ∧ TruncBuf.Rep L c limit p0 s' t ∧
      L.Rep s'.prim (p0 ++ t.take limit) ∧ s'.count = t.length := by
  rcases TruncBuf.rep_flush hU h with ⟨s', hf, hrep, hu, hp, hul, hcl⟩ | ⟨s', hf, hp, p, q, m, p', h1, h2, h3⟩
  · exact ⟨s', hf, hrep, hp, by simp [TruncBuf.count, hu, hul]⟩
  · exact absurd h3 (hT p q m p' h1 (Nat.le_trans h2 (Nat.min_le_left _ _)))

theorem TruncBuf.rep_count {L : Lawful π} {c limit : Nat} {p0 : Str} {s : TruncBuf π} {t : Str}
    (h : TruncBuf.Rep L c limit p0 s t) : s.count = t.length := by
  obtain ⟨h1, h2, h3, h4, h5, h6, h7, fl, h8, h9, h10, h11⟩ := h
  rw [h8]; simp [TruncBuf.count, h9]; omega

theorem PtrBuf.unsplit (c : Nat) : Unsplit PtrBuf.lawful c := by
  intro s t n s' a hrep hn _ hm
  left
  by_cases hle : n ≤ (BufferImpl.base s).len - (BufferImpl.base s).used
  · rw [max_here hle] at hm; cases hm; rfl
  · rw [max_request hrep.1 (by omega)] at hm; cases hm

theorem TruncBuf.rep_new (L : Lawful π) (cache : Str) (prim : π) (limit : Nat) (p0 : Str) (hc : cache ≠ [])
    (hp : L.Rep prim p0) : TruncBuf.Rep L cache.length limit p0 (TruncBuf.new cache prim limit) [] :=
  ⟨rfl, rfl, rfl, rfl, List.length_pos_iff.2 hc, Nat.zero_le _, rfl, [], by simp [TruncBuf.new], rfl,
    by simp [TruncBuf.new], by simpa [TruncBuf.new] using hp⟩

end
end Emio
