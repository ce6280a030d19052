import Verif.Props.Buffer
import Verif.Model.Writer
import Mathlib.Tactic.Linarith
import Verif.Spec.Capacity
/-
Property C98: the capacity of a memory_buffer.
-/
namespace Emio
open Spec BufferImpl

/-- A buffer with this room. -/
def HasRoom (s : MemBuf) (r : Room) : Prop := s.capacity = r.capacity ∧ s.base.len - s.base.used = r.left

theorem store_room {s s' : MemBuf} {i : Nat} {d : Str} {r : Room} (h : store s i d = some s') (hr : HasRoom s r) :
    HasRoom s' r := by
  change (overwrite s.vec.data i d).map (fun m => { s with vec := s.vec.setData m }) = some s' at h
  obtain ⟨m, hm, rfl⟩ := Option.map_eq_some_iff.1 h
  refine ⟨?_, hr.2⟩
  rw [← hr.1]
  unfold overwrite at hm
  split at hm
  · rename_i hle
    injection hm with hm
    show (s.vec.setData m).data.length = s.vec.data.length
    rw [CtVec.data_setData, ← hm]
    simp
    omega
  · cases hm

theorem reserve_capacity {v v' : CtVec} {k : Nat} (hs : v.size = v.capacity) (hst : v.storage.length ≤ v.capacity)
    (hk : v.capacity < k) (h : v.reserve k = some v') : v'.capacity = k := by
  obtain ⟨w, hw, _, hc, _⟩ := v.reserve_grow k hs hst hk
  rw [h] at hw
  injection hw with hw
  rw [hw]; exact hc

/-- A request of `k` characters. -/
theorem max_room {n : Nat} {s : MemBuf} {t : Str} {r : Room} (hrep : MemBuf.Rep n s t) (hr : HasRoom s r) (k : Nat) :
    ∃ s' a, getWriteAreaOfMax k s = .ok s' a ∧ a.len = k ∧ HasRoom s' (r.take k) := by
  have hb : BufferImpl.base s = s.base := rfl
  by_cases hk : k ≤ (BufferImpl.base s).len - (BufferImpl.base s).used
  · refine ⟨_, _, max_here hk, rfl, ?_⟩
    rw [hb, hr.2] at hk
    unfold Room.take
    rw [if_pos hk]
    refine ⟨hr.1, ?_⟩
    show s.base.len - (s.base.used + k) = r.left - k
    have := hr.2
    omega
  · rw [max_request hrep.1 (by omega)]
    obtain ⟨s', hq, hrep', hu, hl, hus⟩ := MemBuf.request_rep n s t k hrep (by omega)
    have hreq : request (BufferImpl.base s).used k s = MemBuf.requestArea s.base.used k s := rfl
    rw [hreq, hq]
    refine ⟨_, _, rfl, rfl, ?_⟩
    rw [hb, hr.2] at hk
    unfold Room.take
    rw [if_neg hk]
    constructor
    · show s'.vec.capacity = r.capacity + k
      unfold MemBuf.requestArea at hq
      cases hv : s.vec.reserve (s.vec.size + k) with
      | none => rw [hv] at hq; cases hq
      | some v =>
        rw [hv] at hq
        simp only [Run.ok.injEq] at hq
        obtain ⟨_, _, _, _, h5, h6, h7, _⟩ := hrep
        have := reserve_capacity h5 (by omega) (by omega) hv
        rw [← hq.1]
        show v.capacity = r.capacity + k
        have hc : s.vec.capacity = r.capacity := hr.1
        omega
    · show s'.base.len - (s'.base.used + k) = 0
      omega

theorem exact_room {n : Nat} {s : MemBuf} {t : Str} {r : Room} (hrep : MemBuf.Rep n s t) (hr : HasRoom s r) (k : Nat) :
    ∃ s' a, getWriteAreaOf k s = .ok s' a ∧ a.len = k ∧ HasRoom s' (r.take k) := by
  obtain ⟨s', a, h1, h2, h3⟩ := max_room hrep hr k
  refine ⟨s', a, ?_, h2, h3⟩
  unfold getWriteAreaOf
  rw [h1]
  simp only
  rw [if_neg (by omega)]

theorem reset_room {n : Nat} {s : MemBuf} {t : Str} {r : Room} (hrep : MemBuf.Rep n s t) (hr : HasRoom s r) {s' : MemBuf}
    {t' : Str} (h : memReset (s, t) = some (s', t')) : HasRoom s' ⟨r.capacity, r.capacity⟩ := by
  obtain ⟨_, _, _, _, h5, h6, h7, _⟩ := hrep
  have hc : s.vec.capacity = r.capacity := hr.1
  have hcl : s.vec.clear.capacity = s.vec.capacity := rfl
  have hv : s.vec.clear.reserve (s.vec.clear.size + s.vec.clear.capacity) = some { s.vec.clear with size := s.vec.capacity } := by
    unfold CtVec.reserve
    rw [show s.vec.clear.size = 0 from rfl, Nat.zero_add, hcl]
    have hst : s.vec.clear.storage.length = n := h6
    rw [if_neg (by omega), if_neg (by omega)]
  unfold memReset MemBuf.reset MemBuf.requestArea at h
  simp only [hv, Run.state?, Option.map_some, Option.some.injEq, Prod.mk.injEq] at h
  obtain ⟨rfl, _⟩ := h
  exact ⟨hc, by show s.vec.clear.capacity - 0 = r.capacity; omega⟩

/-- One action. -/
theorem step_room {n : Nat} {s s' : MemBuf} {t t' : Str} {r : Room} (hrep : MemBuf.Rep n s t) (hr : HasRoom s r)
    (op : ClientOp) (h : op.step memReset (s, t) = some (s', t')) : HasRoom s' (Room.after [op] r) := by
  cases op with
  | exact d =>
    obtain ⟨s1, a, h1, h2, h3⟩ := exact_room hrep hr d.length
    simp only [ClientOp.step, h1, h2, if_true, Option.map_eq_some_iff, Prod.mk.injEq] at h
    obtain ⟨s2, h4, rfl, _⟩ := h
    exact store_room h4 h3
  | upTo d =>
    obtain ⟨s1, a, h1, h2, h3⟩ := max_room hrep hr d.length
    simp only [ClientOp.step, h1, h2, Nat.le_refl, if_true, Option.map_eq_some_iff, Prod.mk.injEq] at h
    obtain ⟨s2, h4, rfl, _⟩ := h
    exact store_room h4 h3
  | special => exact reset_room hrep hr h

theorem Room.after_cons (op : ClientOp) (ops : List ClientOp) (r : Room) :
    Room.after (op :: ops) r = Room.after ops (Room.after [op] r) := by
  cases op <;> rfl

theorem client_room {n : Nat} (ops : List ClientOp) : ∀ {s s' : MemBuf} {t t' : Str} {r : Room}, MemBuf.Rep n s t →
    HasRoom s r → client memReset ops (s, t) = some (s', t') → HasRoom s' (Room.after ops r) := by
  induction ops with
  | nil =>
    intro s s' t t' r _ hr h
    simp only [client, Option.some.injEq, Prod.mk.injEq] at h
    rw [← h.1]; exact hr
  | cons op ops ih =>
    intro s s' t t' r hrep hr h
    obtain ⟨s1, t1, h1, hrep1⟩ := client_step_rep (MemBuf.lawful n) (fun _ _ h => h) memReset
      (fun s t h => by obtain ⟨s', h1, h2⟩ := memReset_rep n s t h; exact ⟨s', _, h1, h2⟩) op s t hrep
    rw [client, h1] at h
    rw [Room.after_cons]
    exact ih hrep1 (step_room hrep hr op h1) h

theorem new_room (n cap : Nat) : ∃ s0 a, MemBuf.new n cap = .ok s0 a ∧ MemBuf.Rep n s0 [] ∧
    HasRoom s0 ⟨max n cap, max n cap⟩ := by
  obtain ⟨s0, a, h0, hr⟩ := MemBuf.rep_new n cap
  refine ⟨s0, a, h0, hr, ?_⟩
  obtain ⟨_, _, _, _, h5, _⟩ := hr
  unfold MemBuf.new MemBuf.requestArea at h0
  cases hv : (MemBuf.blank n).vec.reserve ((MemBuf.blank n).vec.size + max n cap) with
  | none => rw [hv] at h0; cases h0
  | some v =>
    rw [hv] at h0
    simp only [Run.ok.injEq] at h0
    have hsz : v.size = max n cap := by
      unfold CtVec.reserve at hv
      have hz : (MemBuf.blank n).vec.size = 0 := rfl
      rw [hz, Nat.zero_add] at hv
      split at hv
      · injection hv with hv; rw [← hv]
      · split at hv
        · split at hv
          · injection hv with hv; rw [← hv]
          · cases hv
        · injection hv with hv; rw [← hv]
    rw [← h0.1] at h5 ⊢
    have h6 : v.size = v.capacity := h5
    exact ⟨by show v.capacity = _; rw [← h6, hsz], by show max n cap - 0 = max n cap; omega⟩

/-! ### C98 the capacity -/

/-- C98: the capacity of a memory_buffer is as `Room` says: it only grows when a request does not fit, by what is
requested. -/
theorem C98_capacity (n cap : Nat) : ∃ s0 a, MemBuf.new n cap = .ok s0 a ∧ s0.capacity = max n cap ∧
    ∀ ops : List ClientOp, ∃ s, client memReset ops (s0, []) = some (s, clientText true ops []) ∧
      s.capacity = (Room.after ops ⟨max n cap, max n cap⟩).capacity := by
  obtain ⟨s0, a, h0, hrep, hr⟩ := new_room n cap
  refine ⟨s0, a, h0, hr.1, fun ops => ?_⟩
  obtain ⟨s, h1, h2⟩ := client_all (MemBuf.lawful n) (MemBuf.accepts n) true memReset (memReset_rep n) ops s0 [] hrep
  exact ⟨s, h1, (client_room ops hrep hr h1).1⟩

theorem Room.after_le (ops : List ClientOp) : ∀ r : Room, r.capacity ≤ (Room.after ops r).capacity ∧
    (Room.after ops r).capacity ≤ r.capacity + requested ops := by
  have key : ∀ (r : Room) (k : Nat), r.capacity ≤ (r.take k).capacity ∧ (r.take k).capacity ≤ r.capacity + k := by
    intro r k
    unfold Room.take
    split <;> simp
  induction ops with
  | nil => intro r; simp [Room.after, requested]
  | cons op ops ih =>
    intro r
    cases op with
    | exact d =>
      have h1 := ih (r.take d.length)
      have h2 := key r d.length
      simp only [Room.after, requested]
      omega
    | upTo d =>
      have h1 := ih (r.take d.length)
      have h2 := key r d.length
      simp only [Room.after, requested]
      omega
    | special =>
      have h1 := ih ⟨r.capacity, r.capacity⟩
      simp only [Room.after, requested]
      exact h1

/-- C98: it is never more than what the buffer began with and what was requested, never gets less, and the text always
fits. -/
theorem C98_no_waste (n cap : Nat) (s0 : MemBuf) (a : Area) (new : MemBuf.new n cap = .ok s0 a) (ops more : List ClientOp)
    (s s' : MemBuf) (t t' : Str) (run : client memReset ops (s0, []) = some (s, t))
    (on : client memReset more (s, t) = some (s', t')) :
    t.length ≤ s.capacity ∧ s.capacity ≤ max n cap + requested ops ∧ s.capacity ≤ s'.capacity ∧
      s'.capacity ≤ s.capacity + requested more := by
  obtain ⟨s1, a1, h0, hrep, hr⟩ := new_room n cap
  rw [new] at h0
  simp only [Run.ok.injEq] at h0
  obtain ⟨rfl, rfl⟩ := h0
  obtain ⟨s2, h1, h2⟩ := client_all (MemBuf.lawful n) (MemBuf.accepts n) true memReset (memReset_rep n) ops s0 [] hrep
  rw [run] at h1
  simp only [Option.some.injEq, Prod.mk.injEq] at h1
  obtain ⟨rfl, rfl⟩ := h1
  have hroom := client_room ops hrep hr run
  have hroom' := client_room more h2 hroom on
  have b1 := Room.after_le ops ⟨max n cap, max n cap⟩
  have b2 := Room.after_le more (Room.after ops ⟨max n cap, max n cap⟩)
  refine ⟨?_, by rw [hroom.1]; exact b1.2, by rw [hroom.1, hroom'.1]; exact b2.1, by rw [hroom.1, hroom'.1]; exact b2.2⟩
  rw [← h2.2.2.2.2.2.2.2]
  have : s.capacity = s.vec.data.length := rfl
  rw [this, List.length_take]
  exact Nat.min_le_right _ _

/-- The capacities a memory_buffer has while characters are written one after the other (`write_char`). -/
def capacities : Str → MemBuf → List Nat
  | [], s => [s.capacity]
  | c :: cs, s => s.capacity :: match writeChar c s with
    | .ok s' _ => capacities cs s'
    | _ => []

/-- How often the capacity changes, which is how often new memory is allocated and the whole text copied. -/
def changes : List Nat → Nat
  | a :: b :: l => (if a = b then 0 else 1) + changes (b :: l)
  | _ => 0

theorem writeChar_room {n : Nat} {s : MemBuf} {t : Str} {r : Room} (hrep : MemBuf.Rep n s t) (hr : HasRoom s r) (c : Char) :
    ∃ s', writeChar c s = .ok s' () ∧ MemBuf.Rep n s' (t ++ [c]) ∧ HasRoom s' (r.take 1) := by
  obtain ⟨s1, t1, h1, hrep1⟩ := client_step_rep (MemBuf.lawful n) (fun _ _ h => h) memReset
    (fun s t h => by obtain ⟨s', h1, h2⟩ := memReset_rep n s t h; exact ⟨s', _, h1, h2⟩) (.exact [c]) s t hrep
  have hroom := step_room hrep hr (.exact [c]) h1
  obtain ⟨s2, a, h2, h3, _⟩ := exact_room hrep hr 1
  simp only [ClientOp.step, List.length_cons, List.length_nil, Nat.zero_add, h2, h3, if_true, Option.map_eq_some_iff,
    Prod.mk.injEq] at h1
  obtain ⟨s3, h4, rfl, rfl⟩ := h1
  refine ⟨s3, ?_, hrep1, hroom⟩
  show (getWriteAreaOf 1 >>= fun a => putArea a [c]) s = _
  rw [M.bind_ok h2]
  unfold putArea
  rw [h4]

theorem capacities_room {n : Nat} (cs : Str) : ∀ {s : MemBuf} {t : Str} {r : Room}, MemBuf.Rep n s t → HasRoom s r →
    changes (capacities cs s) = cs.length - r.left ∧ ∃ l, capacities cs s = r.capacity :: l := by
  induction cs with
  | nil => intro s t r _ hr; exact ⟨by simp [capacities, changes], [], by simp [capacities, hr.1]⟩
  | cons c cs ih =>
    intro s t r hrep hr
    obtain ⟨s', h1, h2, h3⟩ := writeChar_room hrep hr c
    obtain ⟨h4, l, h5⟩ := ih h2 h3
    unfold capacities
    rw [h1]
    simp only
    refine ⟨?_, _, by rw [hr.1]⟩
    rw [h5] at h4 ⊢
    unfold changes
    rw [h4, hr.1]
    unfold Room.take
    simp only [List.length_cons]
    split
    · simp only [if_true]; omega
    · rw [if_neg (by simp)]
      simp only
      omega

/-- C98: characters written one after the other: as soon as the first capacity is used up, each of them makes the buffer
allocate new memory and copy the text. -/
theorem C98_every_character_reallocates (n cap : Nat) (s0 : MemBuf) (a : Area) (new : MemBuf.new n cap = .ok s0 a)
    (text : Str) : changes (capacities text s0) = text.length - max n cap := by
  obtain ⟨s1, a1, h0, hrep, hr⟩ := new_room n cap
  rw [new] at h0
  simp only [Run.ok.injEq] at h0
  obtain ⟨rfl, rfl⟩ := h0
  exact (capacities_room text hrep hr).1

/-- The property: memory is allocated a number of times that is at most logarithmic in the length of the text, so that
writing a text takes time linear in its length. -/
def FewAllocations : Prop := ∃ k : Nat, ∀ (s0 : MemBuf) (a : Area) (text : Str), MemBuf.new 128 0 = .ok s0 a →
  changes (capacities text s0) ≤ k * (Nat.log2 text.length + 1)

/-- It does not hold. -/
theorem C98_few_allocations_violated : ¬ FewAllocations := by
  rintro ⟨k, h⟩
  obtain ⟨s0, a, h0, _⟩ := new_room 128 0
  have h1 := h s0 a (List.replicate (2 ^ (k + 12)) 'x') h0
  rw [C98_every_character_reallocates 128 0 s0 a h0, List.length_replicate, Nat.log2_two_pow] at h1
  have h2 : ∀ k : Nat, k * (k + 13) + 128 < 2 ^ (k + 12) := by
    intro k
    induction k with
    | zero => norm_num
    | succ k ih =>
      have h3 : 2 ^ (k + 1 + 12) = 2 * 2 ^ (k + 12) := by rw [← pow_succ']
      have h4 : k * 2 + 14 < 2 ^ (k + 12) := by
        have : k < 2 ^ k := Nat.lt_two_pow_self
        rw [pow_add]; omega
      rw [h3]
      nlinarith
  have := h2 k
  simp only [Nat.max_eq_left (show 0 ≤ 128 by norm_num)] at h1
  rw [show k + 12 + 1 = k + 13 from rfl] at h1
  omega

example : ((MemBuf.new 4 0).state?.map fun s => capacities "abcdefg".toList s) = some [4, 4, 4, 4, 4, 5, 6, 7] := by
  decide +kernel

example : ((MemBuf.new 4 0).state?.bind fun s =>
    (client memReset [.exact "abc".toList, .upTo "defgh".toList, .special, .exact "ij".toList] (s, [])).map
      fun p => (p.1.capacity, p.2)) = some (9, "ij".toList) ∧
    Room.after [.exact "abc".toList, .upTo "defgh".toList, .special, .exact "ij".toList] ⟨4, 4⟩ = ⟨9, 7⟩ := by decide +kernel

end Emio
