import Verif.Spec.UserBuffer
import Verif.Lemmas.Buffer
/-
Helper lemmas: a buffer of a user that keeps its contract is a buffer like those of the library.
-/
namespace Emio
open BufferImpl

section
variable {S : Type} {f : Override S} {earlier : Str → S → Str} {fx : Bool} {Good : Area → Str → S → Prop}

/-- The buffer is in order and has received `t`. -/
def UserBuf.Rep (fx : Bool) (earlier : Str → S → Str) (Good : Area → Str → S → Prop) (s : UserBuf f) (t : Str) : Prop :=
  s.base.fixed = fx ∧ s.InOrder Good ∧ s.received earlier = t

theorem UserBuf.rep_fill (K : KeepsContract f earlier Good) {s : UserBuf f} {t : Str} (h : UserBuf.Rep fx earlier Good s t) (n : Nat)
    (hn : n ≤ s.base.len - s.base.used) (d : Str) (hd : d.length = n) :
    ∃ s'', store ({ s with base := { s.base with used := s.base.used + n } } : UserBuf f) (s.base.off + s.base.used) d =
      some s'' ∧ UserBuf.Rep fx earlier Good s'' (t ++ d) := by
  obtain ⟨hx, ⟨hu, hg⟩, ht⟩ := h
  have hin := K.inside _ _ _ hg
  simp only at hin
  obtain ⟨m, hm, hl, h1, h2, h3⟩ := overwrite_some (mem := s.mem) (i := s.base.off + s.base.used) (d := d) (by omega)
  refine ⟨{ base := { s.base with used := s.base.used + n }, mem := m, own := s.own }, ?_, ?_⟩
  · show (overwrite s.mem _ d).map _ = _
    rw [hm]; rfl
  · have hw := K.writable _ _ _ hg m hl
      (by
        have := congrArg (List.take s.base.off) h2
        simpa [List.take_take, show min s.base.off (s.base.off + s.base.used) = s.base.off by omega] using this)
      (by
        have := congrArg (List.drop (s.base.len - s.base.used - n)) h3
        simp only [List.drop_drop] at this
        rw [show s.base.off + s.base.used + d.length + (s.base.len - s.base.used - n) = s.base.off + s.base.len by omega]
          at this
        exact this)
    refine ⟨hx, ⟨by show s.base.used + n ≤ s.base.len; omega, hw.1⟩, ?_⟩
    show earlier m s.own ++ (m.drop s.base.off).take (s.base.used + n) = t ++ d
    rw [hw.2, ← ht]
    show _ = earlier s.mem s.own ++ (s.mem.drop s.base.off).take s.base.used ++ d
    rw [List.append_assoc]
    congr 1
    have e : (m.drop s.base.off).take (s.base.used + n) = (m.take (s.base.off + s.base.used + d.length)).drop s.base.off := by
      rw [List.drop_take]
      congr 1
      omega
    rw [e, h1, List.drop_append_of_le_length (by simp; omega), List.drop_take]
    congr 2
    omega

/-- A buffer of a user that keeps its contract. -/
def UserBuf.lawful (K : KeepsContract f earlier Good) (fx : Bool) : Lawful (UserBuf f) where
  Rep := UserBuf.Rep fx earlier Good
  Fail := UserBuf.Rep fx earlier Good
  rep_fail _ _ h := h
  max s t n h := by
    have hb : BufferImpl.base s = s.base := rfl
    by_cases hn : n ≤ (BufferImpl.base s).len - (BufferImpl.base s).used
    · rw [max_here hn]
      exact ⟨Nat.le_refl _, fun h => h, fun d hd => UserBuf.rep_fill K h n hn d hd, fun h => absurd h (Nat.lt_irrefl _)⟩
    · cases hf : (BufferImpl.base s).fixed with
      | true =>
        rw [max_fixed hf (by omega) (by omega)]
        by_cases h0 : (BufferImpl.base s).len - (BufferImpl.base s).used = 0
        · rw [if_pos h0]; exact ⟨rfl, h⟩
        · rw [if_neg h0]
          refine ⟨by simp only; omega, fun _ => by simp only; omega,
            fun d hd => UserBuf.rep_fill K h _ (Nat.le_refl _) d hd, fun _ => ?_⟩
          have hu := h.2.1.1
          show UserBuf.Rep fx earlier Good (f := f)
            ⟨{ s.base with used := s.base.used + (s.base.len - s.base.used) - (s.base.len - s.base.used) }, s.mem, s.own⟩ t
          rw [Nat.add_sub_cancel]
          exact h
      | false =>
        rw [max_request hf (by omega)]
        obtain ⟨hx, ⟨hu, hg⟩, ht⟩ := h
        have hreq : request (BufferImpl.base s).used n s =
            (match (s.ask s.base.used n).result with
              | .ok a => .ok (s.after (s.ask s.base.used n)) a
              | .error e => .err (s.after (s.ask s.base.used n)) e) := rfl
        rw [hreq]
        have hlt : (⟨s.base.off, s.base.len⟩ : Area).len - s.base.used < n := by
          show s.base.len - s.base.used < n
          rw [hb] at hn; omega
        have G := K.grants _ _ _ s.base.used n hg hu hlt
        have E := K.not_empty _ _ _ s.base.used n hg hu hlt
        have R := K.refuses _ _ _ s.base.used n hg hu hlt
        revert G E R
        show (∀ x, (s.ask s.base.used n).result = _ → _) → (∀ x, (s.ask s.base.used n).result = _ → _) → (∀ x, (s.ask s.base.used n).result = _ → _) → _
        unfold UserBuf.ask
        generalize f ⟨s.base.off, s.base.len⟩ s.base.used n s.mem s.own = r
        intro G E R
        cases hr : r.result with
        | ok x =>
          obtain ⟨w, h1, h2, h3, h4, h5, h6⟩ := G x hr
          have h7 := E x hr
          have hafter : s.after r = { base := s.base.setWriteArea w.off w.len, mem := r.mem, own := r.own } := by
            unfold UserBuf.after
            rw [h1]
          simp only [hafter]
          have hrep : UserBuf.Rep fx earlier Good (f := f)
              { base := s.base.setWriteArea w.off w.len, mem := r.mem, own := r.own } t := by
            refine ⟨hx, ⟨Nat.zero_le _, h2⟩, ?_⟩
            show earlier r.mem r.own ++ List.take 0 _ = t
            rw [h3, ← ht]
            simp [UserBuf.received]
          refine ⟨h6, fun _ => h7, fun d hd => ?_, fun _ => ?_⟩
          · have := UserBuf.rep_fill K hrep x.len (by show x.len ≤ w.len - 0; omega) d hd
            rw [h4]
            exact this
          · show UserBuf.Rep fx earlier Good (f := f)
              ⟨{ s.base.setWriteArea w.off w.len with used := 0 + x.len - x.len }, r.mem, r.own⟩ t
            rw [Nat.add_sub_cancel]
            exact hrep
        | error e =>
          obtain ⟨h1, h2, h3⟩ := R e hr
          simp only
          refine ⟨h1, ?_⟩
          cases hs : r.setArea with
          | none =>
            have hafter : s.after r = { base := s.base, mem := r.mem, own := r.own } := by
              unfold UserBuf.after
              rw [hs]
            rw [hs] at h2 h3
            rw [hafter]
            refine ⟨hx, ⟨hu, h2⟩, ?_⟩
            show earlier r.mem r.own ++ (r.mem.drop s.base.off).take s.base.used = t
            rw [← ht]
            simpa [UserBuf.received] using h3
          | some w =>
            have hafter : s.after r = { base := s.base.setWriteArea w.off w.len, mem := r.mem, own := r.own } := by
              unfold UserBuf.after
              rw [hs]
            rw [hs] at h2 h3
            rw [hafter]
            refine ⟨hx, ⟨Nat.zero_le _, h2⟩, ?_⟩
            show earlier r.mem r.own ++ List.take 0 _ = t
            rw [← ht]
            simpa [UserBuf.received] using h3

/-- If all requests are granted, at least up to some size. -/
theorem UserBuf.accepts (K : KeepsContract f earlier Good) {c : Nat} (hG : GrantsUpTo f c Good) :
    Accepts (UserBuf.lawful K false) (some c) none := by
  intro s t n h _
  obtain ⟨hf, ⟨hu, hg⟩, ht⟩ := h
  by_cases hn : n ≤ (BufferImpl.base s).len - (BufferImpl.base s).used
  · exact ⟨_, _, max_here hn, fun _ => rfl⟩
  · have hlt : (⟨s.base.off, s.base.len⟩ : Area).len - s.base.used < n := by
      show s.base.len - s.base.used < n
      have hb : BufferImpl.base s = s.base := rfl
      rw [hb] at hn; omega
    obtain ⟨x, hx, hm⟩ := hG _ _ _ s.base.used n hg hu hlt
    obtain ⟨w, _, _, _, _, _, h6⟩ := K.grants _ _ _ s.base.used n hg hu hlt x hx
    rw [max_request hf hlt]
    have hx : (s.ask s.base.used n).result = .ok x := hx
    have hreq : request (BufferImpl.base s).used n s = .ok (s.after (s.ask s.base.used n)) x := by
      show (match (s.ask s.base.used n).result with
              | .ok a => (Run.ok (s.after (s.ask s.base.used n)) a : Run (UserBuf f) Area)
              | .error e => .err (s.after (s.ask s.base.used n)) e) = _
      rw [hx]
    rw [hreq]
    exact ⟨_, x, rfl, fun hc => by simp only [leLimit] at hc; omega⟩
end

end Emio
