import Verif.Lemmas.HeapVec
/-
C103: the memory of memory buffers is freed exactly once and never used afterwards.
-/
namespace Emio
open Spec

/-- One operation of a program does not spoil the ownership and does what it does on values. -/
theorem Inv.step {n : Nat} {s : VecState} (hs : Inv n s) (op : VecOp)
    (hc : ∀ i j v other, op = .assignMove i j → s.vars i = some v → s.vars j = some other →
      i = j ∨ v.capacity ≤ n ∨ n < other.capacity) :
    (s.step n op = .ill ∧ valStep n (values s) op = .ill) ∨
      ∃ s', s.step n op = .ok s' ∧ Inv n s' ∧ valStep n (values s) op = .ok (values s') := by
  have newHeld : ∀ i, s.vars i = none → ∀ b, (HVec.new n).ptr = .block b ↔ ∃ w, s.vars i = some w ∧ w.ptr = .block b := by
    intro i hi b
    rw [hi]
    constructor
    · intro h; cases h
    · rintro ⟨_, h, _⟩; cases h
  have selfHeld : ∀ i v, s.vars i = some v → ∀ b, v.ptr = .block b ↔ ∃ w, s.vars i = some w ∧ w.ptr = .block b := by
    intro i v hi b
    rw [hi]
    constructor
    · intro h; exact ⟨v, rfl, h⟩
    · rintro ⟨w, h, h'⟩; cases h; exact h'
  cases op with
  | make i =>
    simp only [VecState.step, valStep]
    cases hi : s.vars i with
    | none =>
      rw [values_none hi]
      have h1 := hs.change (v' := HVec.new n) (newHeld i hi) (Change.same fun _ => Iff.rfl) (HVec.ok_new n _)
      exact .inr ⟨_, rfl, h1.1, by rw [h1.2]; rfl⟩
    | some v =>
      obtain ⟨a, h1, _⟩ := hs.value hi
      rw [h1]
      exact .inl ⟨rfl, rfl⟩
  | copy i j =>
    simp only [VecState.step, valStep]
    cases hi : s.vars i with
    | some v =>
      obtain ⟨a, h1, _⟩ := hs.value hi
      rw [h1]
      exact .inl ⟨rfl, rfl⟩
    | none =>
      rw [values_none hi]
      cases hj : s.vars j with
      | none => rw [values_none hj]; exact .inl ⟨rfl, rfl⟩
      | some other =>
        obtain ⟨b, h1, h2, h3, _⟩ := hs.value hj
        rw [h1]
        obtain ⟨s', k1, k2, c, k3, k4⟩ := hs.copyInto (i := i) (j := j) (by rintro rfl; rw [hi] at hj; cases hj)
          (HVec.ok_new n s.heap) (newHeld i hi) hj (HVec.value_new n _) h2
        refine .inr ⟨s', k1, k2, ?_⟩
        have e : b.copy = some c := by
          rw [← k3]
          unfold CtVec.copy CtVec.assignCopy
          rw [h3, (hs.ok j other hj).storage]
        simp only [e, Option.map_some, ValRun.of, k4]
  | move i j =>
    simp only [VecState.step, valStep]
    cases hi : s.vars i with
    | some v =>
      obtain ⟨a, h1, _⟩ := hs.value hi
      rw [h1]
      exact .inl ⟨rfl, rfl⟩
    | none =>
      rw [values_none hi]
      cases hj : s.vars j with
      | none => rw [values_none hj]; exact .inl ⟨rfl, rfl⟩
      | some other =>
        obtain ⟨b, h1, h2, h3, _⟩ := hs.value hj
        rw [h1]
        obtain ⟨s', k1, k2, c, k3, k4⟩ := hs.transfer (i := i) (j := j) (v := HVec.new n)
          (by rintro rfl; rw [hi] at hj; cases hj) hi (HVec.ok_new n s.heap).storage hj (fun _ => ⟨rfl, rfl⟩) s.vars
          (fun _ _ => rfl) h2 (CtVec.new n) rfl (fun _ => rfl)
        refine .inr ⟨s', k1, k2, ?_⟩
        have e : b.move = some c := by
          rw [← k3]
          have hn : b.storage.length = n := by rw [h3, (hs.ok j other hj).storage]
          unfold CtVec.move CtVec.assignMove
          rw [hn]
          cases b.ext <;> rfl
        simp only [e, Option.map_some, ValRun.of, k4]
  | assignCopy i j =>
    simp only [VecState.step, valStep]
    cases hi : s.vars i with
    | none => rw [values_none hi]; exact .inl ⟨rfl, rfl⟩
    | some v =>
      obtain ⟨a, g1, g2, _⟩ := hs.value hi
      rw [g1]
      cases hj : s.vars j with
      | none => rw [values_none hj]; exact .inl ⟨rfl, rfl⟩
      | some other =>
        obtain ⟨b, h1, h2, h3, _⟩ := hs.value hj
        rw [h1]
        simp only
        split_ifs with e
        · exact .inr ⟨s, rfl, hs, rfl⟩
        · obtain ⟨s', k1, k2, c, k3, k4⟩ := hs.copyInto (i := i) (j := j) e (hs.ok i v hi) (selfHeld i v hi) hj g2 h2
          exact .inr ⟨s', k1, k2, by simp only [k3, Option.map_some, ValRun.of, k4]⟩
  | assignMove i j =>
    simp only [VecState.step, valStep]
    cases hi : s.vars i with
    | none => rw [values_none hi]; exact .inl ⟨rfl, rfl⟩
    | some v =>
      obtain ⟨a, g1, g2, g3, g4, g5, g6⟩ := hs.value hi
      rw [g1]
      cases hj : s.vars j with
      | none => rw [values_none hj]; exact .inl ⟨rfl, rfl⟩
      | some other =>
        obtain ⟨b, h1, h2, h3, _⟩ := hs.value hj
        rw [h1]
        simp only
        split_ifs with e
        · exact .inr ⟨s, rfl, hs, rfl⟩
        · have hv := hs.ok i v hi
          have ho := hs.ok j other hj
          have hp : other.ptr = .inline → v.ptr = .inline := by
            intro hop
            have h4 := ho.inl hop
            cases hvp : v.ptr with
            | inline => rfl
            | block x =>
              have h5 := (hv.ext x hvp).1
              rcases hc i j v other rfl hi hj with h6 | h6 | h6
              · exact absurd h6 e
              · omega
              · omega
          obtain ⟨h', r1, r2, r3⟩ := hs.release hi
          have hj' : (VecState.put ⟨h', s.vars⟩ i none).vars j = some other := by
            simp [VecState.put, Ne.symm e, hj]
          have hb' : Spec.value h' other = some b := by
            have h7 := congrFun r3 j
            simp only [Spec.values, hj', Option.bind_some, Spec.Values.put, if_neg (Ne.symm e), hj] at h7
            have h8 : (VecState.put ⟨h', s.vars⟩ i none).heap = h' := rfl
            rw [h8] at h7
            rw [h7]; exact h2
          obtain ⟨s', k1, k2, c, k3, k4⟩ := r2.transfer (i := i) (j := j) (v := v) e (by simp [VecState.put]) hv.storage hj'
            (fun hop => ⟨hp hop, hv.inl (hp hop)⟩) s.vars (fun k hk => by simp [VecState.put, hk]) hb' a g3
            (fun hop => g6.2 (hp hop))
          refine .inr ⟨s', ?_, k2, ?_⟩
          · rw [r1]; exact k1
          · simp only [k3, Option.map_some, ValRun.of, k4, r3]
            congr 1
            funext k
            simp only [Spec.Values.put]
            split_ifs <;> rfl
  | reserve i k =>
    simp only [VecState.step, valStep]
    cases hi : s.vars i with
    | none => rw [values_none hi]; exact .inl ⟨rfl, rfl⟩
    | some v =>
      obtain ⟨a, g1, g2, _⟩ := hs.value hi
      rw [g1]
      obtain ⟨h', v', r1, r2, r3, _, _, a0, a1, r6, r7, r8⟩ := (hs.ok i v hi).reserve k
      rw [g2] at r6; cases r6
      have h1 := hs.change (selfHeld i v hi) r3 r2
      refine .inr ⟨VecState.put ⟨h', s.vars⟩ i (some v'), by simp only [r1], h1.1, ?_⟩
      simp only [r8, Option.map_some, ValRun.of, h1.2, r7]
  | store i p c =>
    simp only [VecState.step, valStep]
    cases hi : s.vars i with
    | none => rw [values_none hi]; exact .inl ⟨rfl, rfl⟩
    | some v =>
      obtain ⟨a, g1, g2, g3, g4, g5, g6⟩ := hs.value hi
      rw [g1]
      simp only [g4]
      split_ifs with hpv
      · have hsz := (hs.ok i v hi).size
        obtain ⟨h', v', r1, r2, r3, _, _, _, a0, a1, r6, r7, r8⟩ := (hs.ok i v hi).write p [c]
          (by simp only [List.length_singleton]; omega) (by intro h; cases h)
        rw [g2] at r6; cases r6
        have h1 := hs.change (selfHeld i v hi) r3 r2
        refine .inr ⟨VecState.put ⟨h', s.vars⟩ i (some v'), by simp only [r1], h1.1, ?_⟩
        rw [h1.2, r7]
        cases hov : overwrite a.data p [c] with
        | none => rw [hov] at r8; cases r8
        | some m =>
          rw [hov] at r8
          simp only [Option.map_some, Option.some.injEq] at r8
          simp only [Option.map_some, ValRun.of, r8]
      · exact .inl ⟨rfl, rfl⟩
  | look i =>
    simp only [VecState.step, valStep]
    cases hi : s.vars i with
    | none => rw [values_none hi]; exact .inl ⟨rfl, rfl⟩
    | some v =>
      obtain ⟨a, g1, g2, _⟩ := hs.value hi
      rw [g1]
      obtain ⟨a', _, r⟩ := (hs.ok i v hi).read v.size (hs.ok i v hi).size
      exact .inr ⟨s, by simp only [r], hs, rfl⟩
  | clear i =>
    simp only [VecState.step, valStep]
    cases hi : s.vars i with
    | none => rw [values_none hi]; exact .inl ⟨rfl, rfl⟩
    | some v =>
      obtain ⟨a, g1, g2, g3, g4, g5, g6⟩ := hs.value hi
      rw [g1]
      have hv := hs.ok i v hi
      have h1 := hs.change (v' := { v with size := 0 }) (selfHeld i v hi) (Change.same fun _ => Iff.rfl)
        ⟨hv.storage, Nat.zero_le _, hv.inl, hv.ext⟩
      refine .inr ⟨_, rfl, h1.1, ?_⟩
      have h2 := h1.2
      rw [show (s.put i (some { v with size := 0 })) = VecState.put ⟨s.heap, s.vars⟩ i (some { v with size := 0 }) from rfl,
        h2]
      have h3 : Spec.value s.heap { v with size := 0 } = some a.clear := by
        revert g2
        unfold Spec.value CtVec.clear
        cases v.ptr with
        | inline => simp only [Option.some.injEq]; rintro rfl; rfl
        | block b =>
          simp only
          cases (s.heap[b]?).join with
          | none => simp
          | some d => simp only [Option.map_some, Option.some.injEq]; rintro rfl; rfl
      rw [h3]
  | destroy i =>
    simp only [VecState.step, valStep]
    cases hi : s.vars i with
    | none => rw [values_none hi]; exact .inl ⟨rfl, rfl⟩
    | some v =>
      obtain ⟨a, g1, g2, _⟩ := hs.value hi
      rw [g1]
      obtain ⟨h', r1, r2, r3⟩ := hs.release hi
      exact .inr ⟨VecState.put ⟨h', s.vars⟩ i none, by simp only [r1], r2, by rw [r3]; rfl⟩

theorem inv_empty (n : Nat) : Inv n .empty :=
  ⟨(by intro i v h; cases h), (by intro i j v w b h; cases h), (by intro b d h; cases h)⟩

theorem VecState.exec_append (n : Nat) : ∀ (s : VecState) (before after : List VecOp), s.exec n (before ++ after) =
    match s.exec n before with
    | .ok s => s.exec n after
    | r => r
  | s, [], after => rfl
  | s, op :: before, after => by
    rw [List.cons_append, VecState.exec, VecState.exec]
    cases s.step n op with
    | ok s' => exact VecState.exec_append n s' before after
    | ub => rfl
    | ill => rfl

/-- Programs that are careful, from a state with tidy memory on. -/
theorem Inv.exec {n : Nat} : ∀ (ops : List VecOp) {s : VecState}, Inv n s →
    (∀ before i j after, ops = before ++ .assignMove i j :: after → ∀ s' v other, s.exec n before = .ok s' →
      s'.vars i = some v → s'.vars j = some other → i = j ∨ v.capacity ≤ n ∨ n < other.capacity) →
    (s.exec n ops = .ill ∧ valExec n (values s) ops = .ill) ∨
      ∃ s', s.exec n ops = .ok s' ∧ Inv n s' ∧ valExec n (values s) ops = .ok (values s')
  | [], s, hs, _ => .inr ⟨s, rfl, hs, rfl⟩
  | op :: ops, s, hs, hc => by
    rcases hs.step op (fun i j v other e h1 h2 => hc [] i j ops (by rw [e]; rfl) s v other rfl h1 h2) with
      ⟨h1, h2⟩ | ⟨s', h1, h2, h3⟩
    · exact .inl ⟨by rw [VecState.exec, h1], by rw [valExec, h2]⟩
    · rw [VecState.exec, valExec, h1, h3]
      refine Inv.exec ops h2 fun before i j after e s'' v other h4 => hc (op :: before) i j after (by rw [e]; rfl) s'' v other ?_
      rw [VecState.exec, h1]; exact h4

theorem Inv.tidy {n : Nat} {s : VecState} (hs : Inv n s) : Tidy s := by
  refine ⟨fun b => ⟨?_, ?_⟩, ?_⟩
  · rintro ⟨d, hd⟩
    obtain ⟨i, v, h1, h2⟩ := hs.all b d hd
    exact ⟨i, v, h1, h2⟩
  · rintro ⟨i, v, h1, h2⟩
    obtain ⟨_, d, h3, _⟩ := (hs.ok i v h1).ext b h2
    exact ⟨d, h3⟩
  · rintro b i j ⟨v, h1, h2⟩ ⟨w, h3, h4⟩
    exact hs.only i j v w b h1 h3 h2 h4

/-- Every program leaves the memory tidy and has no undefined behaviour. -/
def AlwaysTidy (n : Nat) : Prop :=
  ∀ ops : List VecOp, match VecState.empty.exec n ops with
    | .ok s => Tidy s
    | .ub => False
    | .ill => True

/-- C103: a program without the one kind of assignment never frees a block twice and never uses a freed one, and at any time
each block that is not freed belongs to exactly one vector.  Missing: that kind of assignment, for which it is false
(`C103_tidy_violated`). -/
theorem C103_tidy_partial (n : Nat) (ops : List VecOp) (careful : Careful n ops) :
    match VecState.empty.exec n ops with
    | .ok s => Tidy s
    | .ub => False
    | .ill => True := by
  rcases Inv.exec ops (inv_empty n) careful with ⟨h, _⟩ | ⟨s, h, h1, _⟩
  · rw [h]; trivial
  · rw [h]; exact h1.tidy

/-- C103: when all vectors are gone, all memory is freed. -/
theorem C103_all_freed_partial (n : Nat) (ops : List VecOp) (careful : Careful n ops) (s : VecState)
    (h : VecState.empty.exec n ops = .ok s) (gone : ∀ i, s.vars i = none) : ∀ b ∈ s.heap, b = none := by
  have h1 := C103_tidy_partial n ops careful
  rw [h] at h1
  intro b hb
  cases b with
  | none => rfl
  | some d =>
    obtain ⟨k, hk⟩ := List.mem_iff_getElem?.1 hb
    obtain ⟨i, v, h2, _⟩ := (h1.1 k).1 ⟨d, hk⟩
    rw [gone i] at h2
    cases h2

/-- C103: the vectors of such a program are independent values: what happens to one does not change another, and each is what
the value model says, which the proofs about `memory_buffer` use. -/
theorem C103_as_values_partial (n : Nat) (ops : List VecOp) (careful : Careful n ops) :
    runValues (VecState.empty.exec n ops) = valExec n (fun _ => none) ops := by
  have e : (fun _ => none : Values) = values .empty := rfl
  rw [e]
  rcases Inv.exec ops (inv_empty n) careful with ⟨h, h1⟩ | ⟨s, h, _, h1⟩
  · rw [h, h1]; rfl
  · rw [h, h1]; rfl

/-- C103: what the other kind of assignment does: it writes to a freed block, or the block is freed again at the end of the
vector. -/
theorem C103_dangling (n : Nat) (ops : List VecOp) (careful : Careful n ops) (s : VecState)
    (h : VecState.empty.exec n ops = .ok s) (i j : Nat) (v other : HVec) (hi : s.vars i = some v)
    (hj : s.vars j = some other) (grown : n < v.capacity) (small : other.capacity ≤ n) (hij : i ≠ j) :
    VecState.empty.exec n (ops ++ [.assignMove i j, .destroy i]) = .ub := by
  rcases Inv.exec ops (inv_empty n) careful with ⟨h1, _⟩ | ⟨s', h1, hs, _⟩
  · rw [h] at h1; cases h1
  rw [h] at h1; cases h1
  have hv := hs.ok i v hi
  have ho := hs.ok j other hj
  rw [VecState.exec_append, h]
  simp only
  cases hvp : v.ptr with
  | inline => have := hv.inl hvp; omega
  | block b =>
    obtain ⟨_, d, hd, _⟩ := hv.ext b hvp
    have hb := (List.getElem?_eq_some_iff.1 hd).1
    cases hop : other.ptr with
    | block c => have := (ho.ext c hop).1; omega
    | inline =>
      obtain ⟨a, _, hr⟩ := HVec.Ok.read (h := s.heap.set b none) (v := other) (n := n)
        ⟨ho.storage, ho.size, ho.inl, by intro x hx; rw [hop] at hx; cases hx⟩ other.size ho.size
      have hs1 : s.step n (.assignMove i j) = VecState.transfer n ⟨s.heap.set b none, s.vars⟩ i v j other := by
        unfold VecState.step
        simp only [hi, hj, if_neg hij, hvp, Heap.release, hd]
      rw [VecState.exec, hs1]
      unfold VecState.transfer
      simp only [hop, hr]
      unfold HVec.write
      split_ifs with e
      · simp only
        rw [VecState.exec]
        have : (((VecState.put ⟨s.heap.set b none, s.vars⟩ i (some { v with size := other.size })).put j
          (some (other.movedFrom n))).vars i) = some { v with size := other.size } := by simp [VecState.put, hij]
        simp only [VecState.step]
        rw [this]
        simp only [hvp, Heap.release, VecState.put, List.getElem?_set_self hb]
      · simp only [hvp, List.getElem?_set_self hb]

/-- C103: ... and so is every other use of the characters before that: reading and writing them. -/
theorem C103_dangling_use (n : Nat) (ops : List VecOp) (careful : Careful n ops) (s : VecState)
    (h : VecState.empty.exec n ops = .ok s) (i j : Nat) (v other : HVec) (hi : s.vars i = some v)
    (hj : s.vars j = some other) (grown : n < v.capacity) (small : other.capacity ≤ n) (hij : i ≠ j) (k : Nat) (hk : 0 < k) :
    VecState.empty.exec n (ops ++ [.assignMove i j, .reserve i k, .look i]) = .ub ∧
    ∀ p c, p < k → VecState.empty.exec n (ops ++ [.assignMove i j, .reserve i k, .store i p c]) = .ub := by
  rcases Inv.exec ops (inv_empty n) careful with ⟨h1, _⟩ | ⟨s', h1, hs, _⟩
  · rw [h] at h1; cases h1
  rw [h] at h1; cases h1
  have hv := hs.ok i v hi
  have ho := hs.ok j other hj
  cases hvp : v.ptr with
  | inline => have := hv.inl hvp; omega
  | block b =>
    obtain ⟨_, d, hd, _⟩ := hv.ext b hvp
    have hb := (List.getElem?_eq_some_iff.1 hd).1
    cases hop : other.ptr with
    | block c => have := (ho.ext c hop).1; omega
    | inline =>
      obtain ⟨a, ha, hr⟩ := HVec.Ok.read (h := s.heap.set b none) (v := other) (n := n)
        ⟨ho.storage, ho.size, ho.inl, by intro x hx; rw [hop] at hx; cases hx⟩ other.size ho.size
      have hs1 : s.step n (.assignMove i j) = VecState.transfer n ⟨s.heap.set b none, s.vars⟩ i v j other := by
        unfold VecState.step
        simp only [hi, hj, if_neg hij, hvp, Heap.release, hd]
      have key : ∀ op : VecOp, (∀ t : VecState, ∀ w : HVec, t.vars i = some w → w.ptr = .block b → t.heap[b]? = some none →
          w.size = k → t.step n op = .ub) → s.exec n [.assignMove i j, .reserve i k, op] = .ub := by
        intro op hop'
        rw [VecState.exec, hs1]
        unfold VecState.transfer
        simp only [hop, hr]
        unfold HVec.write
        split_ifs with e
        · simp only
          rw [VecState.exec]
          have hvars : (((VecState.put ⟨s.heap.set b none, s.vars⟩ i (some { v with size := other.size })).put j
            (some (other.movedFrom n))).vars i) = some { v with size := other.size } := by simp [VecState.put, hij]
          simp only [VecState.step]
          rw [hvars]
          simp only [VecState.put]
          by_cases hc : v.capacity < k
          · have : HVec.reserve (s.heap.set b none) { v with size := other.size } k = none := by
              simp only [HVec.reserve, hvp, reduceCtorEq, and_false, if_false, hc, if_true]
              split
              · rfl
              · simp only [Heap.release]
                rw [List.getElem?_append_left (by simpa using hb), List.getElem?_set_self hb]
            rw [this]
          · have : HVec.reserve (s.heap.set b none) { v with size := other.size } k =
                some (s.heap.set b none, { v with size := k }) := by
              simp only [HVec.reserve, hvp, reduceCtorEq, and_false, if_false, hc]
            rw [this]
            simp only
            rw [VecState.exec, hop' _ { v with size := k } (by simp) hvp (by simp [List.getElem?_set_self hb]) rfl]
        · simp only [hvp, List.getElem?_set_self hb]
      refine ⟨?_, fun p c hp => ?_⟩
      · rw [VecState.exec_append, h]
        refine key _ fun t w h1 h2 h3 h4 => ?_
        simp only [VecState.step, h1, HVec.read, h4, HVec.target, h2, h3]
        rw [if_neg (by omega)]
        rfl
      · rw [VecState.exec_append, h]
        refine key _ fun t w h1 h2 h3 h4 => ?_
        simp only [VecState.step, h1, h4, if_pos hp, HVec.write, h2, h3]
        simp

/-- The hypotheses are met: the first vector has outgrown its storage, the second has not. -/
example : ∃ s v other, VecState.empty.exec 2 [.make 0, .reserve 0 3, .make 1] = .ok s ∧ s.vars 0 = some v ∧
    s.vars 1 = some other ∧ 2 < v.capacity ∧ other.capacity ≤ 2 ∧
    VecState.empty.exec 2 [.make 0, .reserve 0 3, .make 1, .assignMove 0 1, .reserve 0 1, .look 0] = .ub :=
  ⟨_, _, _, rfl, rfl, rfl, by decide, by decide, rfl⟩

/-- A program that assigns an empty vector to one that has outgrown its storage. -/
def dangling : List VecOp := [.make 0, .reserve 0 3, .make 1, .assignMove 0 1, .destroy 1, .destroy 0]

/-- C103: not every program leaves the memory tidy. -/
theorem C103_tidy_violated : ¬ AlwaysTidy 2 := by
  intro h
  have h1 := h dangling
  have h2 : VecState.empty.exec 2 dangling = .ub := rfl
  rw [h2] at h1
  exact h1

/-- A careful program: it grows vectors, copies, moves and assigns them. -/
def tidyProgram : List VecOp := [.make 0, .reserve 0 3, .store 0 0 'a', .copy 1 0, .make 2, .assignMove 2 1, .reserve 2 9,
  .assignCopy 0 2, .move 3 2, .look 3, .destroy 2, .destroy 1, .destroy 0, .destroy 3]

/-- The hypotheses are met. -/
example : Careful 2 tidyProgram := by
  intro before i j after e s v other h hi hj
  have : before = tidyProgram.take 5 ∧ i = 2 ∧ j = 1 := by
    rcases before with _ | ⟨o1, _ | ⟨o2, _ | ⟨o3, _ | ⟨o4, _ | ⟨o5, _ | ⟨o6, before⟩⟩⟩⟩⟩⟩ <;> 
      simp [tidyProgram] at e ⊢
    · obtain ⟨rfl, rfl, rfl, rfl, rfl, ⟨rfl, rfl⟩, _⟩ := e
      simp
    · exfalso
      have := congrArg (List.filter fun o => match o with | .assignMove _ _ => true | _ => false) e.2.2.2.2.2.2
      simp at this
  obtain ⟨rfl, rfl, rfl⟩ := this
  cases h
  cases hj
  exact .inr (.inr (by decide))

/-- It ends with all memory freed; four blocks were needed. -/
example : (match VecState.empty.exec 2 tidyProgram with
    | .ok s => s.heap
    | _ => []) = [none, none, none, none] := by decide

end Emio
