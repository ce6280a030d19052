import Verif.Spec.Assign
import Verif.Lemmas.BackInsert
import Verif.Props.Buffer
/-
C13: assignments of memory buffers, exactly.
-/
namespace Emio
open Spec BufferImpl

/-- A memory buffer that holds the text `t`, whose vector has the given size and capacity; the write area ends at `reach`. -/
structure MemBuf.Good (sz cap reach : Nat) (s : MemBuf) (t : Str) : Prop where
  fixed : s.base.fixed = false
  off : s.base.off = s.used
  pos : s.used + s.base.used = t.length
  len : s.base.used ≤ s.base.len
  ends : s.used + s.base.len = reach
  inside : reach ≤ cap
  size : s.vec.size = sz
  capacity : s.vec.capacity = cap
  small : sz ≤ cap
  storage : s.vec.storage.length ≤ cap
  text : s.vec.data.take t.length = t

theorem MemBuf.Good.view {sz cap reach : Nat} {s : MemBuf} {t : Str} (h : MemBuf.Good sz cap reach s t) : s.view = t := by
  unfold MemBuf.view
  rw [h.pos, h.text]

/-- Writing into an area. -/
theorem MemBuf.Good.fill {sz cap reach : Nat} {s : MemBuf} {t : Str} (h : MemBuf.Good sz cap reach s t) (d : Str)
    (hd : t.length + d.length ≤ reach) :
    ∃ s'', store (setBase s { BufferImpl.base s with used := (BufferImpl.base s).used + d.length }) t.length d = some s'' ∧
      MemBuf.Good sz cap reach s'' (t ++ d) := by
  obtain ⟨h1, h2, h3, h4, h5, h6, h7, h8, h9, h10, h11⟩ := h
  have hcl : s.vec.data.length = s.vec.capacity := rfl
  obtain ⟨m, hm, hl, ht, _, _⟩ := overwrite_some (mem := s.vec.data) (i := t.length) (d := d) (by omega)
  refine ⟨⟨{ s.base with used := s.base.used + d.length }, s.used, s.vec.setData m⟩, ?_, h1, h2, ?_, ?_, h5, h6, ?_, ?_, h9, ?_, ?_⟩
  · simp only [BufferImpl.store, BufferImpl.setBase, BufferImpl.base, hm]
    rfl
  · simp only [List.length_append]; omega
  · simp only; omega
  · simp only [CtVec.size_setData]; omega
  · simp only [CtVec.capacity, CtVec.data_setData] at *; omega
  · simp only; rw [CtVec.storage_setData _ _ hl]; exact h10
  · simp only [CtVec.data_setData, List.length_append]
    rw [ht, h11]

/-- The next piece. -/
theorem MemBuf.Good.step {sz cap reach : Nat} {s : MemBuf} {t : Str} (h : MemBuf.Good sz cap reach s t) (d : Str) :
    ∃ s', getWriteAreaOfMax d.length s = .ok s' ⟨t.length, d.length⟩ ∧
      if t.length + d.length ≤ reach then ∃ s'', store s' t.length d = some s'' ∧ MemBuf.Good sz cap reach s'' (t ++ d)
      else if cap < sz + d.length then
        if t.length ≤ sz then ∃ s'', store s' t.length d = some s'' ∧
          MemBuf.Good (sz + d.length) (sz + d.length) (t.length + d.length) s'' (t ++ d)
        else store s' t.length d = none
      else if t.length + d.length ≤ cap then ∃ s'', store s' t.length d = some s'' ∧
          MemBuf.Good (sz + d.length) cap (t.length + d.length) s'' (t ++ d)
        else store s' t.length d = none := by
  have hb : BufferImpl.base s = s.base := rfl
  by_cases hr : t.length + d.length ≤ reach
  · refine ⟨_, by rw [max_here (by rw [hb]; have := h.ends; have := h.pos; omega)]; rw [hb, h.off, h.pos], ?_⟩
    rw [if_pos hr]
    exact h.fill d hr
  · obtain ⟨h1, h2, h3, h4, h5, h6, h7, h8, h9, h10, h11⟩ := h
    have hcl : s.vec.data.length = s.vec.capacity := rfl
    suffices hv : ∃ v, s.vec.reserve (sz + d.length) = some v ∧ v.size = sz + d.length ∧ v.storage = s.vec.storage ∧
        v.capacity = (if cap < sz + d.length then sz + d.length else cap) ∧
        ((cap < sz + d.length → t.length ≤ sz) → v.data.take t.length = t) by
      obtain ⟨v, hv, hvs, hvst, hvc, hvt⟩ := hv
      let s₁ : MemBuf := ⟨s.base.setWriteArea t.length d.length, t.length, v⟩
      have hvl : v.data.length = v.capacity := rfl
      refine ⟨setBase s₁ { BufferImpl.base s₁ with used := (BufferImpl.base s₁).used + d.length }, ?_, ?_⟩
      · rw [max_request (by rw [hb]; exact h1) (by rw [hb]; omega)]
        simp only [BufferImpl.request, MemBuf.requestArea, hb, h3, h7, hv]
        rfl
      · rw [if_neg hr]
        have hno : ¬ t.length + d.length ≤ v.capacity →
            store (setBase s₁ { BufferImpl.base s₁ with used := (BufferImpl.base s₁).used + d.length }) t.length d = none := by
          intro hn
          simp only [BufferImpl.store, BufferImpl.setBase, overwrite, s₁]
          rw [if_neg (by omega)]
          rfl
        have hyes : (cap < sz + d.length → t.length ≤ sz) → t.length + d.length ≤ v.capacity →
            ∃ s'', store (setBase s₁ { BufferImpl.base s₁ with used := (BufferImpl.base s₁).used + d.length }) t.length d = some s'' ∧
              MemBuf.Good (sz + d.length) v.capacity (t.length + d.length) s'' (t ++ d) := by
          intro hc hle
          have hg : MemBuf.Good (sz + d.length) v.capacity (t.length + d.length) s₁ t :=
            ⟨h1, rfl, by simp [s₁, Base.setWriteArea], by simp [s₁, Base.setWriteArea], by simp [s₁, Base.setWriteArea],
              hle, hvs, rfl, by rw [hvc]; split <;> omega, by simp only [s₁]; rw [hvst, hvc]; split <;> omega, hvt hc⟩
          exact hg.fill d (Nat.le_refl _)
        by_cases hc : cap < sz + d.length
        · rw [if_pos hc] at hvc ⊢
          split
          · rename_i hle
            have := hyes (fun _ => hle) (by omega)
            rwa [hvc] at this
          · exact hno (by omega)
        · rw [if_neg hc] at hvc ⊢
          split
          · have := hyes (fun h => absurd h hc) (by omega)
            rwa [hvc] at this
          · exact hno (by omega)
    unfold CtVec.reserve
    by_cases hi : sz + d.length < s.vec.storage.length ∧ s.vec.ext = none
    · rw [if_pos hi]
      refine ⟨_, rfl, rfl, rfl, ?_, ?_⟩
      · rw [if_neg (by omega)]; exact h8
      · intro _; exact h11
    · rw [if_neg hi, h8]
      by_cases hc : cap < sz + d.length
      · rw [if_pos hc, if_pos (by omega)]
        refine ⟨_, rfl, rfl, rfl, ?_, ?_⟩
        · rw [if_pos hc]
          simp only [CtVec.capacity, CtVec.data, Option.getD_some, List.length_append, List.length_take, uninit,
            List.length_replicate]
          simp only [CtVec.capacity, CtVec.data] at *
          omega
        · intro hle
          have hle := hle hc
          simp only [CtVec.data, Option.getD_some]
          have h12 : s.vec.ext.getD s.vec.storage = s.vec.data := rfl
          rw [h12, List.take_append_of_le_length (by simp; omega), List.take_take, Nat.min_eq_left (by omega), h11]
      · rw [if_neg hc]
        refine ⟨_, rfl, rfl, rfl, ?_, ?_⟩
        · rw [if_neg hc]; exact h8
        · intro _; exact h11

/-- A reset. -/
theorem MemBuf.Good.reset {sz cap reach : Nat} {s : MemBuf} {t : Str} (h : MemBuf.Good sz cap reach s t) :
    ∃ s', memReset (s, t) = some (s', []) ∧ MemBuf.Good cap cap cap s' [] := by
  obtain ⟨h1, h2, h3, h4, h5, h6, h7, h8, h9, h10, h11⟩ := h
  have hcc : s.vec.clear.capacity = s.vec.capacity := rfl
  have hv : s.vec.clear.reserve (s.vec.clear.size + s.vec.clear.capacity) = some { s.vec with size := cap } := by
    unfold CtVec.reserve
    have hs : s.vec.clear.size = 0 := rfl
    have hst : s.vec.clear.storage = s.vec.storage := rfl
    rw [hs, Nat.zero_add, hcc, h8, hst, if_neg (by omega), if_neg (by omega)]
    rfl
  refine ⟨⟨s.base.setWriteArea 0 cap, 0, { s.vec with size := cap }⟩, ?_, ?_⟩
  · unfold memReset MemBuf.reset MemBuf.requestArea
    rw [hcc, h8] at hv
    simp only [hcc, h8, hv]
    rfl
  · exact ⟨h1, rfl, rfl, by simp [Base.setWriteArea], by simp [Base.setWriteArea], Nat.le_refl _, rfl, h8, Nat.le_refl _,
      h10, by simp⟩

/-- What a client can do with a buffer. -/
theorem MemBuf.Good.client : ∀ (ops : List ClientOp) (sz cap reach : Nat) (s : MemBuf) (t : Str),
    MemBuf.Good sz cap reach s t →
    if memFits sz cap reach t.length (ops.map piece) then
      ∃ s', client memReset ops (s, t) = some (s', clientText true ops t) ∧ s'.view = clientText true ops t
    else client memReset ops (s, t) = none := by
  intro ops
  induction ops with
  | nil =>
    intro sz cap reach s t h
    rw [if_pos (by rfl)]
    exact ⟨s, rfl, h.view⟩
  | cons op ops ih =>
    intro sz cap reach s t h
    have write : ∀ d : Str, piece op = some d.length → clientText true (op :: ops) t = clientText true ops (t ++ d) →
        (∀ s', getWriteAreaOfMax d.length s = .ok s' ⟨t.length, d.length⟩ →
          op.step memReset (s, t) = (store s' t.length d).map (·, t ++ d)) →
        if memFits sz cap reach t.length ((op :: ops).map piece) then
          ∃ s', Emio.client memReset (op :: ops) (s, t) = some (s', clientText true (op :: ops) t) ∧
            s'.view = clientText true (op :: ops) t
        else Emio.client memReset (op :: ops) (s, t) = none := by
      intro d hp ht hstep
      obtain ⟨s', hm, hs⟩ := h.step d
      simp only [List.map_cons, hp, memFits, Emio.client, hstep s' hm, ht]
      by_cases hr : t.length + d.length ≤ reach
      · rw [if_pos hr] at hs ⊢
        obtain ⟨s'', g1, g2⟩ := hs
        have := ih _ _ _ _ _ g2
        rw [List.length_append] at this
        simpa only [g1, Option.map_some, Option.bind_some] using this
      · rw [if_neg hr] at hs ⊢
        by_cases hc : cap < sz + d.length
        · rw [if_pos hc] at hs ⊢
          by_cases hw : t.length ≤ sz
          · rw [if_pos hw] at hs
            obtain ⟨s'', g1, g2⟩ := hs
            have := ih _ _ _ _ _ g2
            rw [List.length_append] at this
            simpa only [g1, Option.map_some, Option.bind_some, hw, decide_true, Bool.true_and] using this
          · rw [if_neg hw] at hs
            simp [hw, hs]
        · rw [if_neg hc] at hs ⊢
          by_cases hw : t.length + d.length ≤ cap
          · rw [if_pos hw] at hs
            obtain ⟨s'', g1, g2⟩ := hs
            have := ih _ _ _ _ _ g2
            rw [List.length_append] at this
            simpa only [g1, Option.map_some, Option.bind_some, hw, decide_true, Bool.true_and] using this
          · rw [if_neg hw] at hs
            simp [hw, hs]
    cases op with
    | exact d =>
      refine write d rfl rfl fun s' hm => ?_
      simp only [ClientOp.step, getWriteAreaOf, hm]
      simp
    | upTo d =>
      refine write d rfl rfl fun s' hm => ?_
      simp only [ClientOp.step, hm]
      simp
    | special =>
      obtain ⟨s', hs', hg⟩ := h.reset
      have := ih _ _ _ _ _ hg
      simpa only [List.map_cons, piece, memFits, Emio.client, ClientOp.step, hs', Option.bind_some, clientText, if_true,
        List.length_nil] using this

/-- Assignment from a buffer that is as it should be. -/
theorem MemBuf.good_assign (n : Nat) (s other : MemBuf) (u t : Str) (hs : MemBuf.Rep n s u) (h : MemBuf.Rep n other t) :
    ∃ s', s.assignCopy other = some s' ∧
      MemBuf.Good other.capacity (max s.capacity other.capacity) (max s.capacity other.capacity) s' t := by
  obtain ⟨h1, h2, h3, h4, h5, h6, h7, h8⟩ := h
  obtain ⟨k1, k2, k3, k4, k5, k6, k7, k8⟩ := hs
  have hcl : other.vec.data.length = other.vec.capacity := rfl
  have htl : t.length = other.used + other.base.used := by rw [← h8]; simp; omega
  have hv : ∃ v, s.vec.reserve other.vec.size = some v ∧ v.size = other.capacity ∧
      v.capacity = max s.capacity other.capacity ∧ v.storage.length = n := by
    unfold CtVec.reserve MemBuf.capacity
    rw [if_neg (by omega)]
    by_cases hc : s.vec.capacity < other.vec.size
    · rw [if_pos hc, if_pos (by omega)]
      refine ⟨_, rfl, h5, ?_, k6⟩
      simp only [CtVec.capacity, CtVec.data, Option.getD_some, List.length_append, List.length_take, uninit,
        List.length_replicate]
      simp only [CtVec.capacity, CtVec.data] at *
      omega
    · rw [if_neg hc]
      refine ⟨_, rfl, h5, ?_, k6⟩
      show s.vec.capacity = _
      omega
  obtain ⟨v, hv, hvs, hvc, hvst⟩ := hv
  have hvl : v.data.length = v.capacity := rfl
  have hoc : other.capacity = other.vec.capacity := rfl
  obtain ⟨m, hm, hl, ht, _, _⟩ := overwrite_some (mem := v.data) (i := 0) (d := other.vec.data.take other.vec.size)
    (by simp; omega)
  have hmc : (v.setData m).capacity = max s.capacity other.capacity := by
    simp only [CtVec.capacity, CtVec.data_setData]; omega
  refine ⟨MemBuf.around s.base other.position (v.setData m), ?_, ?_⟩
  · unfold MemBuf.assignCopy CtVec.assignCopy CtVec.copyFrom
    rw [hv, Option.bind_some, if_pos (by omega), hm]; rfl
  · have hp : other.position = t.length := by unfold MemBuf.position; omega
    refine ⟨k1, rfl, ?_, Nat.zero_le _, ?_, Nat.le_refl _, ?_, hmc, by omega, ?_, ?_⟩
    · simp only [MemBuf.around, Base.setWriteArea]; omega
    · simp only [MemBuf.around, Base.setWriteArea, hmc]; omega
    · simp only [MemBuf.around, CtVec.size_setData]; exact hvs
    · simp only [MemBuf.around]; rw [CtVec.storage_setData _ _ hl, hvst]; omega
    · simp only [MemBuf.around, CtVec.data_setData]
      simp only [Nat.zero_add, List.take_zero, List.nil_append, List.length_take] at ht
      have : m.take t.length = (m.take (min other.vec.size other.vec.data.length)).take t.length := by
        rw [List.take_take, Nat.min_eq_left (by omega)]
      rw [this, ht, List.take_take, Nat.min_eq_left (by omega), htl, h8]

/-- C13, copy assignment, exactly, for any two buffers: it always succeeds and the content is right.  Afterwards the buffer
works as it should as long as `memFits` with the capacities of the source and of the larger of the two; and where that says
no, the client runs into undefined behaviour. -/
theorem C13_copy_assign_exact (n : Nat) (s other : MemBuf) (u t : Str) (hs : MemReach n s u) (ho : MemReach n other t) :
    ∃ s', s.assignCopy other = some s' ∧ s'.view = t ∧ s'.capacity = max s.capacity other.capacity ∧
      ∀ ops : List ClientOp,
        if memFits other.capacity (max s.capacity other.capacity) (max s.capacity other.capacity) t.length (ops.map piece) then
          ∃ s'', client memReset ops (s', t) = some (s'', clientText true ops t) ∧ s''.view = clientText true ops t
        else client memReset ops (s', t) = none := by
  obtain ⟨s', hs', hg⟩ := MemBuf.good_assign n s other u t hs.rep ho.rep
  exact ⟨s', hs', hg.view, hg.capacity, fun ops => MemBuf.Good.client ops _ _ _ s' t hg⟩

/-- As long as the target has room for everything that is written, nothing goes wrong. -/
theorem memFits_room : ∀ (sizes : List Nat) (size cap reach written : Nat), written + sizes.sum ≤ reach →
    memFits size cap reach written (sizes.map some) = true := by
  intro sizes
  induction sizes with
  | nil => intros; rfl
  | cons n sizes ih =>
    intro size cap reach written h
    simp only [List.sum_cons] at h
    simp only [List.map_cons, memFits]
    rw [if_pos (by omega)]
    exact ih _ _ _ _ (by omega)

/-- If the source is at least as large, nothing goes wrong. -/
theorem memFits_same : ∀ (pieces : List (Option Nat)) (cap reach written : Nat), written ≤ reach → reach ≤ cap →
    memFits cap cap reach written pieces = true := by
  intro pieces
  induction pieces with
  | nil => intros; rfl
  | cons p pieces ih =>
    intro cap reach written h1 h2
    cases p with
    | none => exact ih _ _ _ (Nat.zero_le _) (Nat.le_refl _)
    | some n =>
      simp only [memFits]
      split
      · exact ih _ _ _ (by omega) h2
      · rw [if_pos (by omega)]
        simp only [Bool.and_eq_true, decide_eq_true_eq]
        exact ⟨by omega, ih _ _ _ (Nat.le_refl _) (by omega)⟩

/-- Blocks of its own are larger than the inline storage. -/
def CtVec.Bigger (v : CtVec) : Prop := ∀ d, v.ext = some d → v.storage.length < d.length

theorem CtVec.Bigger.storage_le {v : CtVec} (h : v.Bigger) : v.storage.length ≤ v.capacity := by
  unfold CtVec.capacity CtVec.data
  cases he : v.ext with
  | none => simp
  | some d => have := h d he; simp; omega

theorem CtVec.Bigger.reserve {v v' : CtVec} (h : v.Bigger) (k : Nat) (hr : v.reserve k = some v') : v'.Bigger := by
  have hle := h.storage_le
  unfold CtVec.reserve at hr
  split at hr
  · cases hr; exact h
  · split at hr
    · split at hr
      · cases hr
        rename_i _ h1 h2
        intro d hd
        cases hd
        have hcl : v.data.length = v.capacity := rfl
        simp [uninit]
        omega
      · cases hr
    · cases hr; exact h

theorem CtVec.Bigger.setData {v : CtVec} (h : v.Bigger) (m : Str) (hm : m.length = v.data.length) : (v.setData m).Bigger := by
  intro d hd
  rw [CtVec.storage_setData _ _ hm]
  unfold CtVec.setData at hd
  cases he : v.ext with
  | none => rw [he] at hd; simp [he] at hd
  | some e =>
    rw [he] at hd
    cases hd
    have := h e he
    simp only [CtVec.data, he, Option.getD_some] at hm
    omega

theorem overwrite_length {mem d m : Str} {i : Nat} (h : overwrite mem i d = some m) : m.length = mem.length := by
  unfold overwrite at h
  split at h
  · cases h; simp; omega
  · cases h

theorem CtVec.Bigger.copyFrom {v w other : CtVec} (h : v.Bigger) (hc : v.copyFrom other = some w) : w.Bigger := by
  unfold CtVec.copyFrom at hc
  split at hc
  · rw [Option.map_eq_some_iff] at hc
    obtain ⟨m, hm, rfl⟩ := hc
    exact h.setData m (overwrite_length hm)
  · cases hc

theorem CtVec.bigger_none {v : CtVec} (h : v.ext = none) : v.Bigger := by
  intro d hd; rw [h] at hd; cases hd

theorem CtVec.Bigger.size {v : CtVec} (h : v.Bigger) (k : Nat) : ({ v with size := k } : CtVec).Bigger := h

theorem MemBuf.bigger_request {s : MemBuf} (h : s.vec.Bigger) (used size : Nat) {s' : MemBuf} {a : Area}
    (hr : MemBuf.requestArea used size s = .ok s' a) : s'.vec.Bigger := by
  unfold MemBuf.requestArea at hr
  split at hr
  · cases hr
  · rename_i v hv
    cases hr
    exact h.reserve _ hv

theorem MemBuf.bigger_max {s : MemBuf} (h : s.vec.Bigger) (k : Nat) {s' : MemBuf} :
    (∀ a, getWriteAreaOfMax k s = .ok s' a → s'.vec.Bigger) ∧ (∀ e, getWriteAreaOfMax k s = .err s' e → s'.vec.Bigger) := by
  unfold getWriteAreaOfMax
  simp only
  split
  · split
    · exact ⟨(fun a ha => by cases ha), (fun e he => by cases he; exact h)⟩
    · exact ⟨fun a ha => by cases ha; exact h, fun e he => by cases he⟩
  · split
    · rename_i s₁ a₁ hr
      have := MemBuf.bigger_request h _ _ hr
      exact ⟨fun a ha => by cases ha; exact this, fun e he => by cases he⟩
    · rename_i s₁ e₁ hr
      exfalso
      have hr : MemBuf.requestArea _ _ s = _ := hr
      unfold MemBuf.requestArea at hr
      split at hr <;> cases hr
    · exact ⟨(fun a ha => by cases ha), (fun e he => by cases he)⟩

theorem MemBuf.bigger_store {s s' : MemBuf} (h : s.vec.Bigger) {i : Nat} {d : Str} (hs : store s i d = some s') :
    s'.vec.Bigger := by
  simp only [BufferImpl.store, Option.map_eq_some_iff] at hs
  obtain ⟨m, hm, rfl⟩ := hs
  exact h.setData m (overwrite_length hm)

theorem MemBuf.bigger_reset {s s' : MemBuf} (h : s.vec.Bigger) (hr : s.reset.state? = some s') : s'.vec.Bigger := by
  unfold MemBuf.reset at hr
  cases hq : MemBuf.requestArea 0 s.vec.clear.capacity { s with used := 0, vec := s.vec.clear } with
  | ok s₁ a =>
    rw [hq] at hr; cases hr
    exact MemBuf.bigger_request (s := { s with used := 0, vec := s.vec.clear }) (h.size 0) _ _ hq
  | err s₁ e =>
    exfalso
    unfold MemBuf.requestArea at hq
    split at hq <;> cases hq
  | bad b => rw [hq] at hr; cases hr

theorem MemBuf.bigger_step {s s' : MemBuf} {t t' : Str} (h : s.vec.Bigger) (op : ClientOp)
    (hs : op.step memReset (s, t) = some (s', t')) : s'.vec.Bigger := by
  cases op with
  | exact d =>
    simp only [ClientOp.step, getWriteAreaOf] at hs
    cases hq : getWriteAreaOfMax d.length s with
    | ok s₁ a =>
      have hb := (MemBuf.bigger_max h d.length).1 a hq
      rw [hq] at hs
      simp only at hs
      by_cases hl : a.len < d.length
      · rw [if_pos hl] at hs; cases hs; exact hb
      · rw [if_neg hl] at hs
        simp only at hs
        split at hs
        · rw [Option.map_eq_some_iff] at hs
          obtain ⟨s₂, hst, heq⟩ := hs
          cases heq
          exact MemBuf.bigger_store hb hst
        · cases hs
    | err s₁ e =>
      have hb := (MemBuf.bigger_max h d.length).2 e hq
      rw [hq] at hs; cases hs; exact hb
    | bad b => rw [hq] at hs; cases hs
  | upTo d =>
    simp only [ClientOp.step] at hs
    cases hq : getWriteAreaOfMax d.length s with
    | ok s₁ a =>
      have hb := (MemBuf.bigger_max h d.length).1 a hq
      rw [hq] at hs
      simp only at hs
      split at hs
      · rw [Option.map_eq_some_iff] at hs
        obtain ⟨s₂, hst, heq⟩ := hs
        cases heq
        exact MemBuf.bigger_store hb hst
      · cases hs
    | err s₁ e =>
      have hb := (MemBuf.bigger_max h d.length).2 e hq
      rw [hq] at hs; cases hs; exact hb
    | bad b => rw [hq] at hs; cases hs
  | special =>
    simp only [ClientOp.step, memReset, Option.map_eq_some_iff] at hs
    obtain ⟨s₂, hst, heq⟩ := hs
    cases heq
    exact MemBuf.bigger_reset h hst

theorem MemBuf.bigger_resetMoved {s s' : MemBuf} (hr : s.resetMoved = some s') : s'.vec.Bigger := by
  unfold MemBuf.resetMoved at hr
  exact MemBuf.bigger_reset (s := { s with vec := s.vec.movedFrom }) (CtVec.bigger_none rfl) hr

theorem MemBuf.bigger_move {s s' o : MemBuf} (h : s.vec.Bigger)
    (hm : s.move = some (s', o)) : s'.vec.Bigger ∧ o.vec.Bigger := by
  unfold MemBuf.move at hm
  rw [Option.bind_eq_some_iff] at hm
  obtain ⟨v, hv, hm⟩ := hm
  rw [Option.map_eq_some_iff] at hm
  obtain ⟨o', ho, heq⟩ := hm
  cases heq
  refine ⟨?_, MemBuf.bigger_resetMoved ho⟩
  show v.Bigger
  unfold CtVec.move at hv
  split at hv
  · rename_i d hd
    cases hv
    intro e he
    cases he
    simpa [uninit] using h d hd
  · rw [Option.map_eq_some_iff] at hv
    obtain ⟨w, hw, rfl⟩ := hv
    exact (CtVec.Bigger.copyFrom (CtVec.bigger_none rfl) hw).size _

theorem MemBuf.bigger_assignMove {n : Nat} {s other s' o : MemBuf} {u t : Str} (hs : MemBuf.Rep n s u)
    (ho : MemBuf.Rep n other t) (h : s.vec.Bigger) (h' : other.vec.Bigger)
    (hm : s.assignMove other = some (s', o)) : s'.vec.Bigger ∧ o.vec.Bigger := by
  unfold MemBuf.assignMove at hm
  rw [Option.bind_eq_some_iff] at hm
  obtain ⟨v, hv, hm⟩ := hm
  rw [Option.map_eq_some_iff] at hm
  obtain ⟨o', ho', heq⟩ := hm
  cases heq
  refine ⟨?_, MemBuf.bigger_resetMoved ho'⟩
  show v.Bigger
  have e1 := hs.2.2.2.2.2.1
  have e2 := ho.2.2.2.2.2.1
  unfold CtVec.assignMove at hv
  split at hv
  · rename_i d hd
    cases hv
    intro e he
    cases he
    have := h' d hd
    simp only
    omega
  · split at hv
    · cases hv
    · rw [Option.map_eq_some_iff] at hv
      obtain ⟨w, hw, rfl⟩ := hv
      exact (h.copyFrom hw).size _

theorem MemReach.bigger {n : Nat} {s : MemBuf} {t : Str} (h : MemReach n s t) : s.vec.Bigger := by
  induction h with
  | new h => exact MemBuf.bigger_request (s := MemBuf.blank n) (CtVec.bigger_none rfl) _ _ h
  | use _ hs ih => exact MemBuf.bigger_step ih _ hs
  | copy _ hs ih =>
    unfold MemBuf.copy CtVec.copy at hs
    rw [Option.map_eq_some_iff] at hs
    obtain ⟨v, hv, rfl⟩ := hs
    rw [Option.bind_eq_some_iff] at hv
    obtain ⟨w, hw, hv⟩ := hv
    exact ((CtVec.bigger_none rfl).reserve _ hw).copyFrom hv
  | moved _ hs ih => exact (MemBuf.bigger_move ih hs).1
  | movedFrom _ hs ih => exact (MemBuf.bigger_move ih hs).2
  | assignCopy _ _ _ hs ih1 ih2 =>
    unfold MemBuf.assignCopy CtVec.assignCopy at hs
    rw [Option.map_eq_some_iff] at hs
    obtain ⟨v, hv, rfl⟩ := hs
    rw [Option.bind_eq_some_iff] at hv
    obtain ⟨w, hw, hv⟩ := hv
    exact (ih1.reserve _ hw).copyFrom hv
  | assignMove h h' _ hs ih1 ih2 => exact (MemBuf.bigger_assignMove h.rep h'.rep ih1 ih2 hs).1
  | assignMovedFrom h h' _ hs ih1 ih2 => exact (MemBuf.bigger_assignMove h.rep h'.rep ih1 ih2 hs).2

/-- A buffer has outgrown its inline storage exactly if its capacity says so. -/
theorem MemReach.outgrown {n : Nat} {s : MemBuf} {t : Str} (h : MemReach n s t) : s.vec.ext.isSome ↔ n < s.capacity := by
  have h6 := h.rep.2.2.2.2.2.1
  unfold MemBuf.capacity CtVec.capacity CtVec.data
  cases he : s.vec.ext with
  | some d => have := h.bigger d he; simp; omega
  | none => simp; omega

/-- C13, move assignment, exactly, for any two buffers with inline storage of `n` characters: it is undefined behaviour exactly
if the target has more capacity than that and the source has not; otherwise the content goes over, the source is empty, and
both can be used like any other buffer. -/
theorem C13_move_assign_exact (n : Nat) (s other : MemBuf) (u t : Str) (hs : MemReach n s u) (ho : MemReach n other t) :
    if other.capacity = n ∧ n < s.capacity then s.assignMove other = none
    else ∃ s' o, s.assignMove other = some (s', o) ∧ s'.view = t ∧ o.view = [] ∧ MemReach n s' t ∧ MemReach n o [] := by
  have h1 := hs.outgrown
  have h2 := ho.outgrown
  have h3 : n ≤ other.capacity := ho.rep.2.2.2.2.2.2.1
  split
  · rename_i h
    unfold MemBuf.assignMove CtVec.assignMove
    have he : other.vec.ext = none := by
      cases he : other.vec.ext with
      | none => rfl
      | some d => rw [he] at h2; simp at h2; omega
    rw [he]
    simp [h1.2 h.2]
  · rename_i h
    refine C13_move_assign_partial n s other u t hs ho ?_
    by_cases hc : n < other.capacity
    · exact Or.inl (h2.2 hc)
    · right
      cases hx : s.vec.ext with
      | none => rfl
      | some d => rw [hx] at h1; simp at h1; omega

/-- Seven characters fit into a target of ten characters that a buffer of four was assigned to, and so do three more, but then
not even one. -/
example : memFits 4 10 10 0 [some 7, some 3] = true ∧ memFits 4 10 10 0 [some 7, some 3, some 1] = false ∧
    memFits 4 10 10 0 [some 7, none, some 12] = true ∧ memFits 4 10 10 2 [some 1, some 9] = true := by decide

example : ∃ s other, MemReach 4 s [] ∧ MemReach 4 other [] ∧ s.capacity = 10 ∧ other.capacity = 4 := by
  obtain ⟨s1, a1, h1, _⟩ := MemBuf.rep_new 4 10
  obtain ⟨s2, a2, h2, _⟩ := MemBuf.rep_new 4 0
  refine ⟨s1, s2, .new h1, .new h2, ?_⟩
  cases h1
  cases h2
  decide +kernel

end Emio
