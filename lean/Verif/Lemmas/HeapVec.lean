import Verif.Spec.Vectors
import Mathlib.Tactic.SplitIfs
import Mathlib.Tactic.Set
/-
Who owns the blocks of the heap: lemmas for C103.
-/
namespace Emio

/-- A vector that may be used. -/
structure HVec.Ok (n : Nat) (h : Heap) (v : HVec) : Prop where
  storage : v.storage.length = n
  size : v.size ≤ v.capacity
  inl : v.ptr = .inline → v.capacity = n
  ext : ∀ b, v.ptr = .block b → n < v.capacity ∧ ∃ d, h[b]? = some (some d) ∧ d.length = v.capacity

/-- A step from `h` to `h'` that may only touch what is held and what `v` holds in the end. -/
structure Change (h h' : Heap) (held : Nat → Prop) (v : HVec) : Prop where
  keep : ∀ b d, h[b]? = some (some d) → ¬ held b → h'[b]? = some (some d)
  live : ∀ b d, h'[b]? = some (some d) → v.ptr = .block b ∨ (¬ held b ∧ h[b]? = some (some d))
  fresh : ∀ b, v.ptr = .block b → held b ∨ h[b]? = none
  grow : h.length ≤ h'.length

theorem Change.trans {h h1 h2 : Heap} {held : Nat → Prop} {v1 v2 : HVec} (c1 : Change h h1 held v1)
    (c2 : Change h1 h2 (fun b => v1.ptr = .block b) v2) : Change h h2 held v2 := by
  constructor
  · intro b d hb hn
    refine c2.keep b d (c1.keep b d hb hn) fun hv => ?_
    rcases c1.fresh b hv with h3 | h3
    · exact hn h3
    · rw [h3] at hb; cases hb
  · intro b d hb
    rcases c2.live b d hb with h3 | ⟨h3, h4⟩
    · exact .inl h3
    · rcases c1.live b d h4 with h5 | h5
      · exact absurd h5 h3
      · exact .inr h5
  · intro b hb
    rcases c2.fresh b hb with h3 | h3
    · exact c1.fresh b h3
    · right
      rw [List.getElem?_eq_none_iff] at h3 ⊢
      have := c1.grow
      omega
  · exact Nat.le_trans c1.grow c2.grow

/-- Nothing happens to the heap. -/
theorem Change.same {h : Heap} {held : Nat → Prop} {v : HVec} (hv : ∀ b, held b ↔ v.ptr = .block b) :
    Change h h held v :=
  ⟨fun _ _ hb _ => hb, fun b d hb => by
      by_cases hh : held b
      · exact .inl ((hv b).1 hh)
      · exact .inr ⟨hh, hb⟩,
    fun b hb => .inl ((hv b).2 hb), Nat.le_refl _⟩

theorem HVec.ok_new (n : Nat) (h : Heap) : (HVec.new n).Ok n h :=
  ⟨by simp [HVec.new, uninit], Nat.zero_le _, fun _ => rfl, by intro b hb; cases hb⟩

theorem HVec.value_new (n : Nat) (h : Heap) : Spec.value h (HVec.new n) = some (CtVec.new n) := rfl

/-- What the value of a usable vector is. -/
theorem HVec.Ok.value {n : Nat} {h : Heap} {v : HVec} (hv : v.Ok n h) :
    ∃ a, Spec.value h v = some a ∧ a.storage = v.storage ∧ a.size = v.size ∧ a.capacity = v.capacity ∧
      (a.ext = none ↔ v.ptr = .inline) ∧ v.target h = some a.data := by
  obtain ⟨st, ptr, sz, cap⟩ := v
  cases ptr with
  | inline =>
    refine ⟨⟨st, none, sz⟩, rfl, rfl, rfl, ?_, by simp, rfl⟩
    have h1 := hv.storage
    have h2 := hv.inl rfl
    simp only at h1 h2
    simp [CtVec.capacity, CtVec.data, h1, h2]
  | block b =>
    obtain ⟨_, d, hd, hl⟩ := hv.ext b rfl
    refine ⟨⟨st, some d, sz⟩, by simp [Spec.value, hd], rfl, rfl, ?_, by simp, by simp [HVec.target, hd, CtVec.data]⟩
    simpa [CtVec.capacity, CtVec.data] using hl

theorem HVec.Ok.read {n : Nat} {h : Heap} {v : HVec} (hv : v.Ok n h) (k : Nat) (hk : k ≤ v.capacity) :
    ∃ a, Spec.value h v = some a ∧ v.read h k = some (a.data.take k) := by
  obtain ⟨a, h1, h2, h3, h4, h5, h6⟩ := hv.value
  refine ⟨a, h1, ?_⟩
  unfold HVec.read
  split_ifs with h0
  · subst h0; simp
  · rw [h6]
    have : k ≤ a.data.length := by
      have : a.data.length = a.capacity := rfl
      omega
    simp [this]

/-- What others hold is not touched. -/
theorem HVec.Ok.keep {n : Nat} {h h' : Heap} {held : Nat → Prop} {v w : HVec} (hw : w.Ok n h) (c : Change h h' held v)
    (hn : ∀ b, w.ptr = .block b → ¬ held b) : w.Ok n h' ∧ Spec.value h' w = Spec.value h w := by
  refine ⟨⟨hw.storage, hw.size, hw.inl, fun b hb => ?_⟩, ?_⟩
  · obtain ⟨h1, d, h2, h3⟩ := hw.ext b hb
    exact ⟨h1, d, c.keep b d h2 (hn b hb), h3⟩
  · unfold Spec.value
    cases hp : w.ptr with
    | inline => rfl
    | block b =>
      obtain ⟨h1, d, h2, h3⟩ := hw.ext b hp
      simp [h2, c.keep b d h2 (hn b hp)]

theorem HVec.Ok.reserve {n : Nat} {h : Heap} {v : HVec} (hv : v.Ok n h) (k : Nat) :
    ∃ h' v', v.reserve h k = some (h', v') ∧ v'.Ok n h' ∧ Change h h' (fun b => v.ptr = .block b) v' ∧ v'.size = k ∧
      k ≤ v'.capacity ∧ ∃ a a', Spec.value h v = some a ∧ Spec.value h' v' = some a' ∧ a.reserve k = some a' := by
  obtain ⟨a, h1, h2, h3, h4, h5, h6⟩ := hv.value
  unfold HVec.reserve
  split_ifs with c1 c2
  · obtain ⟨c1, c1'⟩ := c1
    have hc := hv.inl c1'
    have hs := hv.storage
    have ea : a = ⟨v.storage, none, v.size⟩ := by
      rw [Spec.value, c1'] at h1
      exact (Option.some.inj h1).symm
    refine ⟨h, _, rfl, ⟨hs, by simp only; omega, fun _ => hc, ?_⟩, Change.same fun _ => Iff.rfl, rfl, by simp only; omega, a,
      ⟨v.storage, none, k⟩, h1, ?_, ?_⟩
    · intro b hb; rw [c1'] at hb; cases hb
    · unfold Spec.value; simp only [c1']
    · subst ea; unfold CtVec.reserve; rw [if_pos ⟨c1, rfl⟩]
  · obtain ⟨a', ha', hr⟩ := hv.read v.size hv.size
    rw [h1] at ha'; cases ha'
    rw [hr]
    have hsz := hv.size
    have hdl : (a.data.take v.size).length = v.size := by
      rw [List.length_take]
      have : a.data.length = a.capacity := rfl
      omega
    have hcap : n ≤ v.capacity := by
      cases hp : v.ptr with
      | inline => exact Nat.le_of_eq (hv.inl hp).symm
      | block b => exact Nat.le_of_lt (hv.ext b hp).1
    set nd := a.data.take v.size ++ uninit (k - v.size) with hnd
    have hndl : nd.length = k := by rw [hnd, List.length_append, hdl]; simp [uninit]; omega
    have har : a.reserve k = some ⟨v.storage, some nd, k⟩ := by
      unfold CtVec.reserve
      have e1 : ¬ (k < a.storage.length ∧ a.ext = none) := by rw [h2, h5]; exact c1
      rw [if_neg e1, h4, if_pos c2, h3, if_pos hsz, ← h2]
    have key : ∃ h', Heap.release (h ++ [some nd]) v.ptr = some h' ∧ h'[h.length]? = some (some nd) ∧
        Change h h' (fun b => v.ptr = .block b) { v with ptr := .block h.length, size := k, capacity := k } := by
      cases hp : v.ptr with
      | inline =>
        refine ⟨_, rfl, by simp, ?_, ?_, ?_, by simp⟩
        · intro b d hb _
          rw [List.getElem?_append_left ((List.getElem?_eq_some_iff.1 hb).1)]; exact hb
        · intro b d hb
          rcases Nat.lt_trichotomy b h.length with hl | hl | hl
          · rw [List.getElem?_append_left hl] at hb
            exact .inr ⟨(by simp), hb⟩
          · exact .inl (by rw [hl])
          · rw [List.getElem?_eq_none (by simp; omega)] at hb; cases hb
        · intro b hb
          cases hb
          exact .inr (by simp)
      | block o =>
        obtain ⟨_, d, hd, hl⟩ := hv.ext o hp
        have ho : o < h.length := (List.getElem?_eq_some_iff.1 hd).1
        refine ⟨(h ++ [some nd]).set o none, ?_, ?_, ?_, ?_, ?_, by simp⟩
        · simp only [Heap.release, List.getElem?_append_left ho, hd]
        · rw [List.getElem?_set_ne (by omega)]; simp
        · intro b d' hb hn
          have : o ≠ b := fun e => hn (by rw [e])
          rw [List.getElem?_set_ne this, List.getElem?_append_left ((List.getElem?_eq_some_iff.1 hb).1)]; exact hb
        · intro b d' hb
          by_cases e : o = b
          · subst e
            rw [List.getElem?_set_self (by simp; omega)] at hb
            cases hb
          rw [List.getElem?_set_ne e] at hb
          rcases Nat.lt_trichotomy b h.length with hl | hl | hl
          · rw [List.getElem?_append_left hl] at hb
            exact .inr ⟨by simpa using e, hb⟩
          · exact .inl (by rw [hl])
          · rw [List.getElem?_eq_none (by simp; omega)] at hb; cases hb
        · intro b hb
          cases hb
          exact .inr (by simp)
    obtain ⟨h', k1, k2, k3⟩ := key
    dsimp only
    rw [k1]
    refine ⟨h', _, rfl, ⟨hv.storage, Nat.le_refl _, ?_, ?_⟩, k3, rfl, Nat.le_refl _, a, _, h1, ?_, har⟩
    · intro hb; cases hb
    · intro b hb; cases hb; exact ⟨by simp only; omega, nd, k2, hndl⟩
    · unfold Spec.value; simp [k2]
  · refine ⟨h, _, rfl, ⟨hv.storage, by simp only; omega, hv.inl, hv.ext⟩, Change.same fun _ => Iff.rfl, rfl, by simp only; omega,
      a, { a with size := k }, h1, ?_, ?_⟩
    · revert h1
      unfold Spec.value
      cases v.ptr with
      | inline => simp only [Option.some.injEq]; rintro rfl; rfl
      | block b => 
        simp only
        cases (h[b]?).join with
        | none => simp
        | some d => simp only [Option.map_some, Option.some.injEq]; rintro rfl; rfl
    · unfold CtVec.reserve
      have e1 : ¬ (k < a.storage.length ∧ a.ext = none) := by rw [h2, h5]; exact c1
      rw [if_neg e1, h4, if_neg c2]

theorem overwrite_nil (m : Str) : overwrite m 0 [] = some m := by simp [overwrite]

theorem HVec.Ok.write {n : Nat} {h : Heap} {v : HVec} (hv : v.Ok n h) (i : Nat) (d : Str) (hi : i + d.length ≤ v.capacity)
    (h0 : d = [] → i = 0) :
    ∃ h' v', v.write h i d = some (h', v') ∧ v'.Ok n h' ∧ Change h h' (fun b => v.ptr = .block b) v' ∧ v'.size = v.size ∧
      v'.ptr = v.ptr ∧ v'.capacity = v.capacity ∧
      ∃ a a', Spec.value h v = some a ∧ Spec.value h' v' = some a' ∧ (overwrite a.data i d).map a.setData = some a' := by
  obtain ⟨a, h1, h2, h3, h4, h5, h6⟩ := hv.value
  unfold HVec.write
  split_ifs with e
  · refine ⟨h, v, rfl, hv, Change.same fun _ => Iff.rfl, rfl, rfl, rfl, a, a, h1, h1, ?_⟩
    rw [e, h0 e, overwrite_nil]
    obtain ⟨st, ex, sz⟩ := a
    cases ex <;> rfl
  · have hal : a.data.length = v.capacity := h4
    obtain ⟨m, hm⟩ : ∃ m, overwrite a.data i d = some m := by
      unfold overwrite; rw [if_pos (by omega)]; exact ⟨_, rfl⟩
    have hml : m.length = v.capacity := by
      unfold overwrite at hm
      rw [if_pos (by omega)] at hm
      cases hm
      simp; omega
    cases hp : v.ptr with
    | inline =>
      have ea : a = ⟨v.storage, none, v.size⟩ := by
        rw [Spec.value, hp] at h1
        exact (Option.some.inj h1).symm
      have hm' : overwrite v.storage i d = some m := by rw [ea] at hm; exact hm
      simp only [hm', Option.map_some]
      refine ⟨h, _, rfl, ⟨by rw [hml]; exact hv.inl hp, hv.size, fun _ => hv.inl hp, by intro b hb; cases hb⟩, Change.same ?_, rfl, rfl, rfl, a,
        ⟨m, none, v.size⟩, h1, ?_, ?_⟩
      · intro b; exact Iff.rfl
      · rfl
      · rw [hm]; subst ea; rfl
    | block b =>
      obtain ⟨hn, x, hx, hxl⟩ := hv.ext b hp
      have hb : b < h.length := (List.getElem?_eq_some_iff.1 hx).1
      have ea : a = ⟨v.storage, some x, v.size⟩ := by
        rw [Spec.value, hp] at h1
        simp only [hx, Option.join_some, Option.map_some, Option.some.injEq] at h1
        exact h1.symm
      have hm' : overwrite x i d = some m := by rw [ea] at hm; exact hm
      simp only [hx, hm', Option.map_some]
      refine ⟨h.set b (some m), v, rfl, ⟨hv.storage, hv.size, hv.inl, ?_⟩, ⟨?_, ?_, ?_, by simp⟩, rfl, hp, rfl, a,
        ⟨v.storage, some m, v.size⟩, h1, ?_, ?_⟩
      · intro b' hb'
        rw [hp] at hb'
        cases hb'
        exact ⟨hn, m, by rw [List.getElem?_set_self hb], hml⟩
      · intro b' d' hd' hne
        have : b ≠ b' := fun e => hne (by rw [e])
        rw [List.getElem?_set_ne this]; exact hd'
      · intro b' d' hd'
        by_cases e : b = b'
        · exact .inl (by rw [hp, e])
        · rw [List.getElem?_set_ne e] at hd'
          exact .inr ⟨by simpa using e, hd'⟩
      · intro b' hb'
        rw [hp] at hb'
        exact .inl hb'
      · unfold Spec.value; simp only [hp, List.getElem?_set_self hb, Option.join_some, Option.map_some]
      · rw [hm]; subst ea; rfl


/-- Each usable vector has its blocks for itself, and there are no others. -/
structure Inv (n : Nat) (s : VecState) : Prop where
  ok : ∀ i v, s.vars i = some v → v.Ok n s.heap
  only : ∀ i j v w b, s.vars i = some v → s.vars j = some w → v.ptr = .block b → w.ptr = .block b → i = j
  all : ∀ b d, s.heap[b]? = some (some d) → ∃ i v, s.vars i = some v ∧ v.ptr = .block b

theorem Inv.value {n : Nat} {s : VecState} (hs : Inv n s) {i : Nat} {v : HVec} (hi : s.vars i = some v) :
    ∃ a, Spec.values s i = some a ∧ Spec.value s.heap v = some a ∧ a.storage = v.storage ∧ a.size = v.size ∧
      a.capacity = v.capacity ∧ (a.ext = none ↔ v.ptr = .inline) := by
  obtain ⟨a, h1, h2, h3, h4, h5, _⟩ := (hs.ok i v hi).value
  exact ⟨a, by simp [Spec.values, hi, h1], h1, h2, h3, h4, h5⟩

theorem values_none {s : VecState} {i : Nat} (hi : s.vars i = none) : Spec.values s i = none := by
  simp [Spec.values, hi]

theorem Inv.change {n : Nat} {s : VecState} (hs : Inv n s) {i : Nat} {h' : Heap} {held : Nat → Prop} {v' : HVec}
    (hh : ∀ b, held b ↔ ∃ w, s.vars i = some w ∧ w.ptr = .block b) (c : Change s.heap h' held v') (hv : v'.Ok n h') :
    Inv n (VecState.put ⟨h', s.vars⟩ i (some v')) ∧
      Spec.values (VecState.put ⟨h', s.vars⟩ i (some v')) = (Spec.values s).put i (Spec.value h' v') := by
  have other : ∀ j w, j ≠ i → s.vars j = some w → ∀ b, w.ptr = .block b → ¬ held b := by
    intro j w hj hw b hb hb'
    obtain ⟨w', h1, h2⟩ := (hh b).1 hb'
    exact hj (hs.only j i w w' b hw h1 hb h2)
  have fresh : ∀ j w b, j ≠ i → s.vars j = some w → w.ptr = .block b → v'.ptr ≠ .block b := by
    intro j w b hj hw hb hb'
    rcases c.fresh b hb' with h1 | h1
    · exact other j w hj hw b hb h1
    · obtain ⟨_, d, h2, _⟩ := (hs.ok j w hw).ext b hb
      rw [h1] at h2; cases h2
  refine ⟨⟨?_, ?_, ?_⟩, ?_⟩
  · intro j w hw
    simp only [VecState.put] at hw
    split_ifs at hw with e
    · cases hw; exact hv
    · exact ((hs.ok j w hw).keep c (other j w e hw)).1
  · intro j k w x b hw hx hb hb'
    simp only [VecState.put] at hw hx
    split_ifs at hw hx with e1 e2 e2
    · rw [e1, e2]
    · cases hw
      exact absurd hb (fresh k x b e2 hx hb')
    · cases hx
      exact absurd hb' (fresh j w b e1 hw hb)
    · exact hs.only j k w x b hw hx hb hb'
  · intro b d hb
    rcases c.live b d hb with h1 | ⟨h1, h2⟩
    · exact ⟨i, v', by simp [VecState.put], h1⟩
    · obtain ⟨j, w, hj, hw⟩ := hs.all b d h2
      refine ⟨j, w, ?_, hw⟩
      have : j ≠ i := by
        rintro rfl
        exact h1 ((hh b).2 ⟨w, hj, hw⟩)
      simp [VecState.put, this, hj]
  · funext j
    simp only [Spec.values, VecState.put, Spec.Values.put]
    split_ifs with e
    · rfl
    · cases hw : s.vars j with
      | none => rfl
      | some w => exact ((hs.ok j w hw).keep c (other j w e hw)).2

/-- The end of a vector. -/
theorem Inv.release {n : Nat} {s : VecState} (hs : Inv n s) {i : Nat} {v : HVec} (hi : s.vars i = some v) :
    ∃ h', s.heap.release v.ptr = some h' ∧ Inv n (VecState.put ⟨h', s.vars⟩ i none) ∧
      Spec.values (VecState.put ⟨h', s.vars⟩ i none) = (Spec.values s).put i none := by
  have key : ∃ h', s.heap.release v.ptr = some h' ∧ (∀ b d, s.heap[b]? = some (some d) → v.ptr ≠ .block b →
      h'[b]? = some (some d)) ∧ (∀ b d, h'[b]? = some (some d) → v.ptr ≠ .block b ∧ s.heap[b]? = some (some d)) := by
    cases hp : v.ptr with
    | inline => exact ⟨s.heap, rfl, fun _ _ h _ => h, fun _ _ h => ⟨by simp, h⟩⟩
    | block o =>
      obtain ⟨_, d, hd, _⟩ := (hs.ok i v hi).ext o hp
      have ho := (List.getElem?_eq_some_iff.1 hd).1
      refine ⟨s.heap.set o none, by simp only [Heap.release, hd], ?_, ?_⟩
      · intro b d' hb hne
        rw [List.getElem?_set_ne (fun e => hne (by rw [e]))]; exact hb
      · intro b d' hb
        by_cases e : o = b
        · subst e
          rw [List.getElem?_set_self ho] at hb; cases hb
        · rw [List.getElem?_set_ne e] at hb
          exact ⟨by simpa using e, hb⟩
  obtain ⟨h', k1, k2, k3⟩ := key
  have keep : ∀ j w, j ≠ i → s.vars j = some w → w.Ok n h' ∧ Spec.value h' w = Spec.value s.heap w := by
    intro j w hj hw
    have hn : ∀ b, w.ptr = .block b → v.ptr ≠ .block b := fun b hb hb' => hj (hs.only j i w v b hw hi hb hb')
    have ho := hs.ok j w hw
    refine ⟨⟨ho.storage, ho.size, ho.inl, fun b hb => ?_⟩, ?_⟩
    · obtain ⟨h1, d, h2, h3⟩ := ho.ext b hb
      exact ⟨h1, d, k2 b d h2 (hn b hb), h3⟩
    · unfold Spec.value
      cases hp : w.ptr with
      | inline => rfl
      | block b =>
        obtain ⟨h1, d, h2, h3⟩ := ho.ext b hp
        simp [h2, k2 b d h2 (hn b hp)]
  refine ⟨h', k1, ⟨?_, ?_, ?_⟩, ?_⟩
  · intro j w hw
    simp only [VecState.put] at hw
    split_ifs at hw with e
    exact (keep j w e hw).1
  · intro j k w x b hw hx hb hb'
    simp only [VecState.put] at hw hx
    split_ifs at hw hx
    exact hs.only j k w x b hw hx hb hb'
  · intro b d hb
    obtain ⟨h1, h2⟩ := k3 b d hb
    obtain ⟨j, w, hj, hw⟩ := hs.all b d h2
    refine ⟨j, w, ?_, hw⟩
    have : j ≠ i := by
      rintro rfl
      rw [hi] at hj; cases hj
      exact h1 hw
    simp [VecState.put, this, hj]
  · funext j
    simp only [Spec.values, VecState.put, Spec.Values.put]
    split_ifs with e
    · rfl
    · cases hw : s.vars j with
      | none => rfl
      | some w => exact (keep j w e hw).2

/-- The copy constructor and copy assignment. -/
theorem Inv.copyInto {n : Nat} {s : VecState} (hs : Inv n s) {i j : Nat} {v other : HVec} (hij : i ≠ j)
    (hv : v.Ok n s.heap) (hh : ∀ b, v.ptr = .block b ↔ ∃ w, s.vars i = some w ∧ w.ptr = .block b)
    (hj : s.vars j = some other) {a b : CtVec} (ha : Spec.value s.heap v = some a)
    (hb : Spec.value s.heap other = some b) :
    ∃ s', s.copyInto i v other = .ok s' ∧ Inv n s' ∧ ∃ c, a.assignCopy b = some c ∧
      Spec.values s' = (Spec.values s).put i (some c) := by
  obtain ⟨h1, v1, r1, r2, r3, r4, r5, a0, a1, r6, r7, r8⟩ := hv.reserve other.size
  rw [ha] at r6; cases r6
  have ho := hs.ok j other hj
  have hko := ho.keep r3 (by
    intro x hx hx'
    obtain ⟨w, w1, w2⟩ := (hh x).1 hx'
    exact hij (hs.only i j w other x w1 hj w2 hx))
  obtain ⟨b', e1, e2⟩ := hko.1.read other.size ho.size
  rw [hko.2, hb] at e1; cases e1
  obtain ⟨b', f1, f2, f3, f4, f5, f6⟩ := ho.value
  rw [hb] at f1; cases f1
  have hlen : (b.data.take other.size).length = other.size := by
    rw [List.length_take]
    have : b.data.length = b.capacity := rfl
    have := ho.size
    omega
  obtain ⟨h2, v2, w1, w2, w3, w4, w5, w6, a1', a2, w7, w8, w9⟩ := r2.write 0 (b.data.take other.size)
    (by rw [hlen, Nat.zero_add]; exact r5) (fun _ => rfl)
  rw [r7] at w7; cases w7
  have hc := hs.change hh (r3.trans w3) w2
  refine ⟨_, ?_, hc.1, a2, ?_, ?_⟩
  · unfold VecState.copyInto; rw [r1]; simp only; rw [e2]; simp only; rw [w1]
  · unfold CtVec.assignCopy
    rw [f3, r8, Option.bind_some]
    unfold CtVec.copyFrom
    have := ho.size
    rw [if_pos (by omega), f3]
    exact w9
  · rw [hc.2, w8]

/-- The move constructor, and move assignment after the old block is freed. -/
theorem Inv.transfer {n : Nat} {s : VecState} (hs : Inv n s) {i j : Nat} {v other : HVec} (hij : i ≠ j)
    (hi : s.vars i = none) (hv : v.storage.length = n) (hj : s.vars j = some other)
    (hp : other.ptr = .inline → v.ptr = .inline ∧ v.capacity = n) (vars : Nat → Option HVec)
    (hvars : ∀ k, k ≠ i → vars k = s.vars k) {b : CtVec} (hb : Spec.value s.heap other = some b) (a : CtVec)
    (ha : a.storage = v.storage) (hae : other.ptr = .inline → a.ext = none) :
    ∃ s', VecState.transfer n ⟨s.heap, vars⟩ i v j other = .ok s' ∧ Inv n s' ∧ ∃ c, a.assignMove b = some c ∧
      Spec.values s' = ((Spec.values s).put i (some c)).put j (some b.movedFrom) := by
  have ho := hs.ok j other hj
  obtain ⟨b', f1, f2, f3, f4, f5, f6⟩ := ho.value
  rw [hb] at f1; cases f1
  have main : ∀ v' : HVec, v'.Ok n s.heap → v'.ptr = other.ptr → ∀ c, Spec.value s.heap v' = some c →
      Inv n ((VecState.put ⟨s.heap, vars⟩ i (some v')).put j (some (other.movedFrom n))) ∧
      Spec.values ((VecState.put ⟨s.heap, vars⟩ i (some v')).put j (some (other.movedFrom n))) =
        ((Spec.values s).put i (some c)).put j (some b.movedFrom) := by
    intro v' hv' hpv c hc
    have hm : ∀ k w x, (if k = j then some (other.movedFrom n) else if k = i then some v' else vars k) = some w →
        w.ptr = .block x → k ≠ j ∧ ((k = i ∧ w = v') ∨ (k ≠ i ∧ s.vars k = some w)) := by
      intro k w x hw hx
      split_ifs at hw with e1 e2
      · cases hw; cases hx
      · cases hw; exact ⟨e1, .inl ⟨e2, rfl⟩⟩
      · rw [hvars k e2] at hw; exact ⟨e1, .inr ⟨e2, hw⟩⟩
    refine ⟨⟨?_, ?_, ?_⟩, ?_⟩
    · intro k w hw
      simp only [VecState.put] at hw
      split_ifs at hw with e1 e2
      · cases hw
        exact ⟨ho.storage, Nat.zero_le _, fun _ => rfl, by intro x hx; cases hx⟩
      · cases hw; exact hv'
      · rw [hvars k e2] at hw; exact hs.ok k w hw
    · intro k l w y x hw hy hx hx'
      simp only [VecState.put] at hw hy
      obtain ⟨k1, k2⟩ := hm k w x hw hx
      obtain ⟨l1, l2⟩ := hm l y x hy hx'
      rcases k2 with ⟨k2, rfl⟩ | ⟨k2, k3⟩ <;> rcases l2 with ⟨l2, rfl⟩ | ⟨l2, l3⟩
      · rw [k2, l2]
      · exact absurd (hs.only l j y other x l3 hj hx' (by rw [← hpv]; exact hx)) l1
      · exact absurd (hs.only k j w other x k3 hj hx (by rw [← hpv]; exact hx')) k1
      · exact hs.only k l w y x k3 l3 hx hx'
    · intro x d hx
      obtain ⟨k, w, hk, hw⟩ := hs.all x d hx
      by_cases e : k = j
      · subst e
        rw [hj] at hk; cases hk
        exact ⟨i, v', by simp [VecState.put, hij], by rw [hpv]; exact hw⟩
      · have e' : k ≠ i := by rintro rfl; rw [hi] at hk; cases hk
        exact ⟨k, w, by simp [VecState.put, e, e', hvars k e', hk], hw⟩
    · funext k
      simp only [Spec.values, VecState.put, Spec.Values.put]
      split_ifs with e1 e2
      · simp only [Option.bind_some, Spec.value, HVec.movedFrom, CtVec.movedFrom, f2]
      · exact hc
      · rw [hvars k e2]
  unfold VecState.transfer
  cases ho' : other.ptr with
  | block x =>
    obtain ⟨hn, d, hd, hdl⟩ := ho.ext x ho'
    have eb : b = ⟨other.storage, some d, other.size⟩ := by
      rw [Spec.value, ho'] at hb
      simp only [hd, Option.join_some, Option.map_some, Option.some.injEq] at hb
      exact hb.symm
    obtain ⟨m1, m2⟩ := main { v with ptr := .block x, capacity := other.capacity, size := other.size }
      ⟨hv, ho.size, (by intro h; cases h), (by intro y hy; cases hy; exact ⟨hn, d, hd, hdl⟩)⟩ ho'.symm
      ⟨v.storage, some d, other.size⟩ (by simp [Spec.value, hd])
    refine ⟨_, rfl, m1, _, ?_, m2⟩
    subst eb
    simp only [CtVec.assignMove, ha]
  | inline =>
    obtain ⟨p1, p2⟩ := hp ho'
    have eb : b = ⟨other.storage, none, other.size⟩ := by
      rw [Spec.value, ho'] at hb
      exact (Option.some.inj hb).symm
    obtain ⟨b', e1, e2⟩ := ho.read other.size ho.size
    rw [hb] at e1; cases e1
    have hos := ho.size
    have hoc := ho.inl ho'
    have hlen : (b.data.take other.size).length = other.size := by
      rw [List.length_take]
      have : b.data.length = b.capacity := rfl
      omega
    have hv0 : HVec.Ok n s.heap { v with size := other.size } :=
      ⟨hv, by simp only; omega, fun _ => p2, by intro x hx; rw [show _ = v.ptr from rfl, p1] at hx; cases hx⟩
    obtain ⟨h2, v2, w1, w2, w3, w4, w5, w6, a1', a2, w7, w8, w9⟩ := hv0.write 0 (b.data.take other.size)
      (by rw [hlen, Nat.zero_add]; simp only; omega) (fun _ => rfl)
    have hw : ∃ m, v.write s.heap 0 (b.data.take other.size) = some (s.heap, { v with storage := m }) ∧ h2 = s.heap ∧
        v2 = { v with storage := m, size := other.size } := by
      unfold HVec.write at w1 ⊢
      simp only [p1] at w1 ⊢
      split_ifs at w1 ⊢ with e
      · cases w1
        exact ⟨v.storage, by rw [← p1], rfl, by rw [← p1]⟩
      · cases ho : overwrite v.storage 0 (b.data.take other.size) with
        | none => rw [ho] at w1; cases w1
        | some m =>
          rw [ho] at w1
          simp only [Option.map_some, Option.some.injEq, Prod.mk.injEq] at w1
          exact ⟨m, by simp, w1.1.symm, w1.2.symm⟩
    obtain ⟨m, m1, rfl, rfl⟩ := hw
    simp only [e2, m1]
    obtain ⟨n1, n2⟩ := main _ w2 (by rw [ho']; exact p1) a2 w8
    refine ⟨_, rfl, n1, a2, ?_, n2⟩
    have ev : a1' = ⟨v.storage, none, other.size⟩ := by
      unfold Spec.value at w7
      simp only [p1] at w7
      exact (Option.some.inj w7).symm
    have eb2 : a2 = ⟨m, none, other.size⟩ := by
      unfold Spec.value at w8
      simp only [p1] at w8
      exact (Option.some.inj w8).symm
    have hae' := hae ho'
    unfold CtVec.assignMove
    have hbe : b.ext = none := by rw [eb]
    rw [hbe]
    simp only [hae', Option.isSome_none, Bool.false_eq_true, if_false]
    unfold CtVec.copyFrom
    rw [if_pos (by rw [f3, f4]; exact hos), f3]
    have hd : a.data = v.storage := by unfold CtVec.data; rw [hae', ha]; rfl
    rw [hd]
    rw [ev] at w9
    have hd' : CtVec.data ⟨v.storage, none, other.size⟩ = v.storage := rfl
    rw [hd'] at w9
    cases hov : overwrite v.storage 0 (b.data.take other.size) with
    | none => rw [hov] at w9; cases w9
    | some m' =>
      rw [hov] at w9
      simp only [Option.map_some, Option.some.injEq] at w9 ⊢
      rw [← w9]
      unfold CtVec.setData
      rw [hae']

end Emio
