import Verif.Spec.BackInsert
import Verif.Lemmas.Settled
/-
Back-insert buffers.
-/
namespace Emio
open Spec BufferImpl

/-- A container of `size` characters that begins with the text `t`; the write area ends at `reach`. -/
structure BackBuf.Good (size reach : Nat) (s : BackBuf) (t : Str) : Prop where
  fixed : s.base.fixed = false
  off : s.base.off = s.used
  used : s.used + s.base.used = t.length
  len : s.base.used ≤ s.base.len
  ends : s.used + s.base.len = reach
  length : s.chars.length = size
  inside : t.length ≤ size
  text : s.chars.take t.length = t

theorem BackBuf.Good.flush {size reach : Nat} {s : BackBuf} {t : Str} (h : BackBuf.Good size reach s t) :
    s.flush.chars = t ∧ BackBuf.Good t.length reach s.flush t := by
  obtain ⟨h1, h2, h3, h4, h5, h6, h7, h8⟩ := h
  have hc : s.flush.chars = t := by
    simp only [BackBuf.flush, BackBuf.resize, h3, h8]
    rw [show t.length - s.chars.length = 0 by omega]
    simp [uninit]
  exact ⟨hc, h1, h2, h3, h4, h5, by rw [hc], Nat.le_refl _, by rw [hc]; simp⟩

theorem BackBuf.good_new (capacity : Nat) (chars : Str) (cap : Nat) : ∃ s a, BackBuf.new capacity chars cap = .ok s a ∧
    BackBuf.Good (chars.length + min cap capacity) (chars.length + min cap capacity) s [] := by
  refine ⟨_, _, rfl, rfl, rfl, rfl, by simp [Base.setWriteArea], by simp [Base.setWriteArea], ?_, by simp, by simp⟩
  simp [BackBuf.resize, uninit]

/-- The next piece. -/
theorem BackBuf.Good.step {size reach : Nat} {s : BackBuf} {t : Str} (h : BackBuf.Good size reach s t) (d : Str) :
    ∃ s', getWriteAreaOfMax d.length s = .ok s' ⟨t.length, d.length⟩ ∧
      if t.length + d.length ≤ reach then
        if t.length + d.length ≤ size then ∃ s'', store s' t.length d = some s'' ∧ BackBuf.Good size reach s'' (t ++ d)
        else store s' t.length d = none
      else ∃ s'', store s' t.length d = some s'' ∧
        BackBuf.Good (size + d.length) (t.length + size + d.length) s'' (t ++ d) := by
  obtain ⟨h1, h2, h3, h4, h5, h6, h7, h8⟩ := h
  have hb : BufferImpl.base s = s.base := rfl
  by_cases hr : t.length + d.length ≤ reach
  · refine ⟨_, by rw [max_here (by rw [hb]; omega)]; rw [hb, h2, h3], ?_⟩
    rw [if_pos hr]
    split
    · rename_i hs
      obtain ⟨m, hm, hl, ht, _, _⟩ := overwrite_some (mem := s.chars) (i := t.length) (d := d) (by omega)
      refine ⟨_, by simp only [BufferImpl.store, BufferImpl.setBase, hm, Option.map_some]; rfl, ?_⟩
      exact ⟨h1, h2, by simp; omega, by simp only; omega, h5, by simp only; omega, by simp; omega,
        by simp only [List.length_append]; rw [ht, h8]⟩
    · rename_i hs
      simp only [BufferImpl.store, BufferImpl.setBase, overwrite]
      rw [if_neg (by omega)]
      rfl
  · refine ⟨{ base := { s.base.setWriteArea t.length (s.chars.length + d.length) with used := 0 + d.length },
              used := t.length, chars := BackBuf.resize s.chars (s.chars.length + d.length),
              cap := max s.cap (s.chars.length + d.length) }, ?_, ?_⟩
    · rw [max_request (by rw [hb]; exact h1) (by rw [hb]; omega)]
      simp only [BufferImpl.request, BackBuf.requestArea, hb, h3]
      rfl
    · rw [if_neg hr]
      have hlen : (BackBuf.resize s.chars (s.chars.length + d.length)).length = s.chars.length + d.length := by
        simp [BackBuf.resize, uninit]
      obtain ⟨m, hm, hl, ht, _, _⟩ := overwrite_some (mem := BackBuf.resize s.chars (s.chars.length + d.length))
        (i := t.length) (d := d) (by omega)
      refine ⟨_, by simp only [BufferImpl.store, BufferImpl.setBase, hm, Option.map_some]; rfl, ?_⟩
      refine ⟨h1, rfl, by simp [BufferImpl.base, Base.setWriteArea], by simp [BufferImpl.base, Base.setWriteArea],
        by simp [BufferImpl.base, Base.setWriteArea]; omega, by simp only; omega, by simp; omega, ?_⟩
      simp only [List.length_append]
      rw [ht]
      congr 1
      unfold BackBuf.resize
      rw [List.take_append_of_le_length (by simp; omega), List.take_take, Nat.min_eq_left (by omega), h8]

section
variable {σ : Type} [BufferImpl σ]

/-- A call that gets the whole area it asks for. -/
theorem WOp.exec_full (op : WOp) (hop : op.Fine) {s s' : σ} {off : Nat}
    (h : getWriteAreaOfMax op.text.length s = .ok s' ⟨off, op.text.length⟩) :
    (op.text = [] ∧ op.exec s = .ok s ()) ∨
    op.exec s = match store s' off op.text with
      | some s'' => .ok s'' ()
      | none => .bad .ub := by
  have harea : ∀ d : Str, getWriteAreaOfMax d.length s = .ok s' ⟨off, d.length⟩ →
      writeArea d.length d s = match store s' off d with
        | some s'' => .ok s'' ()
        | none => .bad .ub := by
    intro d hd
    have hg : getWriteAreaOf d.length s = .ok s' ⟨off, d.length⟩ := by
      unfold getWriteAreaOf
      rw [hd]
      simp
    unfold writeArea
    rw [M.bind_ok hg, if_pos rfl]
    rfl
  have hesc : ∀ (q : Char) (sv : Str), getWriteAreaOfMax ([q] ++ escAll sv ++ [q]).length s =
        .ok s' ⟨off, ([q] ++ escAll sv ++ [q]).length⟩ →
      writeEscaped q sv (countSizeWhenEscaped sv) s = match store s' off ([q] ++ escAll sv ++ [q]) with
        | some s'' => .ok s'' ()
        | none => .bad .ub := by
    intro q sv hq
    have hl : ([q] ++ escAll sv ++ [q]).length = countSizeWhenEscaped sv + 2 := by
      rw [countSize_eq]; simp
    rw [hl] at hq
    unfold writeEscaped
    rw [hq]
    simp only [Nat.add_eq_zero_iff, OfNat.ofNat_ne_zero, and_false, if_false]
    have hs := escapeHelper_spec sv [] (countSizeWhenEscaped sv + 1)
    simp only [List.nil_append] at hs
    obtain ⟨h1, h2⟩ := hs
    rw [← countSize_eq, Nat.min_eq_right (by omega)] at h2
    have h3 : (escapeHelper sv [] (countSizeWhenEscaped sv + 1)).1 = escAll sv := by
      have hle := congrArg List.length h1
      simp only [List.length_append, h2] at hle
      have hc := countSize_eq sv
      have e1 : (escapeHelper sv [] (countSizeWhenEscaped sv + 1)).2.2 = [] := List.eq_nil_of_length_eq_zero (by omega)
      have e2 : escAll (escapeHelper sv [] (countSizeWhenEscaped sv + 1)).2.1 = [] := List.eq_nil_of_length_eq_zero (by omega)
      rw [e1, e2] at h1
      simpa using h1
    unfold escapeRounds
    simp only [List.length_singleton, show countSizeWhenEscaped sv + 2 - 1 = countSizeWhenEscaped sv + 1 by omega, h2,
      Nat.lt_irrefl, gt_iff_lt, if_false, Nat.sub_self, if_true,
      show countSizeWhenEscaped sv + 1 - countSizeWhenEscaped sv = 1 by omega, Nat.one_ne_zero]
    rw [h3]
    rfl
  cases op with
  | char c => exact Or.inr (harea [c] h)
  | charN c n =>
    by_cases hn : n = 0
    · subst hn
      refine Or.inl ⟨rfl, ?_⟩
      show writeCharN c 0 s = _
      unfold writeCharN
      rfl
    · right
      show writeCharN c n s = _
      simp only [WOp.text, List.length_replicate] at h ⊢
      unfold writeCharN
      rw [if_neg hn, h]
      simp only [if_neg hn, gt_iff_lt, Nat.lt_irrefl, if_false]
      cases store s' off (List.replicate n c) with
      | none => rfl
      | some s'' =>
        simp only [Nat.sub_self]
        unfold writeCharN
        rfl
  | str sv =>
    by_cases hn : sv.length = 0
    · refine Or.inl ⟨List.eq_nil_of_length_eq_zero hn, ?_⟩
      show writeStr sv s = _
      unfold writeStr
      rw [if_pos hn]
    · right
      show writeStr sv s = _
      simp only [WOp.text] at h ⊢
      unfold writeStr
      rw [if_neg hn, h]
      simp only [if_neg hn, gt_iff_lt, Nat.lt_irrefl, if_false, List.take_length]
      cases store s' off sv with
      | none => rfl
      | some s'' =>
        simp only [List.drop_length]
        unfold writeStr
        rfl
  | area n text =>
    right
    have hn : text.length = n := hop
    subst hn
    exact harea text h
  | int ty n base up =>
    right
    obtain ⟨h1, h2, h3, h4⟩ := hop
    obtain ⟨b, rfl⟩ := Int.eq_ofNat_of_zero_le (show 0 ≤ base by omega)
    show writeInt ty n b up s = _
    rw [writeInt_eq ty n b up h1 h2 (by omega) (by omega)]
    exact harea _ h
  | strEscaped sv => exact Or.inr (hesc '"' sv h)
  | charEscaped c => exact Or.inr (hesc '\'' [c] h)

end

/-- Calls one after the other. -/
theorem BackBuf.execAll_exact : ∀ (ops : List WOp), (∀ op ∈ ops, op.Fine) → ∀ (size reach : Nat) (s : BackBuf) (t : Str),
    BackBuf.Good size reach s t →
    if backFits size reach t.length (ops.map fun op => some op.text.length) then
      ∃ s' size' reach', execAll ops s = .ok s' () ∧ BackBuf.Good size' reach' s' (t ++ render ops) ∧ size ≤ size'
    else execAll ops s = .bad .ub := by
  intro ops
  induction ops with
  | nil =>
    intro _ size reach s t h
    rw [if_pos (by rfl)]
    exact ⟨s, size, reach, rfl, by simpa using h, Nat.le_refl _⟩
  | cons op ops ih =>
    intro hf size reach s t h
    obtain ⟨s', hm, hstep⟩ := h.step op.text
    have hex := WOp.exec_full op (hf op (by simp)) hm
    have hfs : ∀ o ∈ ops, o.Fine := fun o ho => hf o (by simp [ho])
    simp only [List.map_cons, backFits]
    have cont : ∀ (size₁ reach₁ : Nat) (s₁ : BackBuf), size ≤ size₁ → op.exec s = .ok s₁ () →
        BackBuf.Good size₁ reach₁ s₁ (t ++ op.text) →
        if backFits size₁ reach₁ (t.length + op.text.length) (ops.map fun op => some op.text.length) then
          ∃ s' size' reach', execAll (op :: ops) s = .ok s' () ∧ BackBuf.Good size' reach' s' (t ++ render (op :: ops)) ∧
            size ≤ size'
        else execAll (op :: ops) s = .bad .ub := by
      intro size₁ reach₁ s₁ hle h₁ hg
      have := ih hfs size₁ reach₁ s₁ _ hg
      rw [List.length_append] at this
      have hex : execAll (op :: ops) s = execAll ops s₁ := by
        show M.bind _ _ s = _
        unfold M.bind
        rw [h₁]
      split at this
      · rename_i hb
        rw [if_pos hb]
        obtain ⟨s2, sz, rc, g1, g2, g3⟩ := this
        exact ⟨s2, sz, rc, by rw [hex, g1], by rw [render_cons, ← List.append_assoc]; exact g2, by omega⟩
      · rename_i hb
        rw [if_neg hb, hex, this]
    by_cases hr : t.length + op.text.length ≤ reach
    · rw [if_pos hr] at hstep ⊢
      by_cases hs : t.length + op.text.length ≤ size
      · rw [if_pos hs] at hstep
        obtain ⟨s'', g1, g2⟩ := hstep
        simp only [hs, decide_true, Bool.true_and]
        rcases hex with ⟨h0, he⟩ | he
        · refine cont size reach s (Nat.le_refl _) he ?_
          rw [h0]
          simpa using h
        · rw [g1] at he
          exact cont size reach s'' (Nat.le_refl _) he g2
      · rw [if_neg hs] at hstep
        simp only [hs, decide_false, Bool.false_and, Bool.false_eq_true, if_false]
        rcases hex with ⟨h0, he⟩ | he
        · have := h.inside
          rw [h0] at hs
          simp at hs
          omega
        · rw [hstep] at he
          show M.bind _ _ s = _
          unfold M.bind
          rw [he]
    · rw [if_neg hr] at hstep ⊢
      obtain ⟨s'', g1, g2⟩ := hstep
      rcases hex with ⟨h0, he⟩ | he
      · have h4 := h.len
        have h3 := h.used
        have h5 := h.ends
        rw [h0] at hr
        simp at hr
        omega
      · rw [g1] at he
        exact cont _ _ s'' (by omega) he g2

end Emio
